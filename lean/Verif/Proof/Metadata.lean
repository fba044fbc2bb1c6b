import Verif.Proof.Streaminfo
import Verif.Proof.Utf8

/-! Reading metadata blocks from a byte string. -/

namespace Claxon

open Spec ReadBytes

/-! ### Strings -/

theorem breads_string {bytes : List U8} (h : Utf8 bytes) : BReads (stringFromUtf8 bytes) [] bytes := by
  unfold stringFromUtf8
  rw [if_pos ((utf8Valid_iff _).2 h)]
  exact .pure _

theorem btriple_string {lim : Limit} (bytes : List U8) :
    BTriple lim (stringFromUtf8 bytes) (fun u s => u = [] ∧ s = bytes ∧ Utf8 bytes) := by
  unfold stringFromUtf8
  exact .ite (fun h => .pure ⟨rfl, rfl, (utf8Valid_iff _).1 h⟩) fun _ => .err _

theorem Tag.Legal.ascii {t : Tag} (h : t.Legal) : ∀ b ∈ t.name, b.toNat < 0x80 := fun b hb => by
  have := h.name b hb
  omega

theorem Tag.Legal.utf8 {t : Tag} (h : t.Legal) : Utf8 t.comment := by
  unfold Tag.comment
  rw [utf8_ascii (Tag.Legal.ascii h), ← List.singleton_append, utf8_ascii (by simp)]
  exact h.value

theorem findIdx_comment {t : Tag} (h : ∀ b ∈ t.name, b ≠ 0x3d#8) :
    t.comment.findIdx? (fun x => x == 0x3d#8) = some t.name.length := by
  rw [List.findIdx?_eq_some_iff_getElem]
  refine ⟨by simp [Tag.comment], by simp [Tag.comment], ?_⟩
  intro j hj
  have e : t.comment[j]'(by simp [Tag.comment]; omega) = t.name[j] := by
    simp only [Tag.comment]
    rw [List.getElem_append_left hj]
  rw [e]
  simpa using h _ (List.getElem_mem hj)

theorem any_name {bytes : List U8} : (bytes.any fun x => x < 0x20#8 || x > 0x7d#8) = false ↔
    ∀ b ∈ bytes, 0x20 ≤ b.toNat ∧ b.toNat ≤ 0x7d := by
  rw [List.any_eq_false]
  refine forall_congr' fun b => forall_congr' fun _ => ?_
  simp [BitVec.lt_def]

theorem breads_comment {t : Tag} (h : t.Legal) :
    BReads (checkComment t.comment) [] (t.comment, t.name.length) := by
  unfold checkComment
  rw [findIdx_comment fun b hb => (h.name b hb).2.2]
  simp only
  rw [if_neg]
  · exact (breads_string (Tag.Legal.utf8 h)).bind (.pure _)
  · rw [Bool.not_eq_true]
    unfold Tag.comment
    rw [List.take_left, any_name]
    intro b hb
    have := h.name b hb
    omega

theorem btriple_comment {lim : Limit} (bytes : List U8) :
    BTriple lim (checkComment bytes) (fun u c => u = [] ∧ ∃ t : Tag, t.Legal ∧ bytes = t.comment ∧
      c = (t.comment, t.name.length)) := by
  unfold checkComment
  split
  · next i hi =>
    refine .ite (fun _ => .err _) fun hn => ?_
    rw [Bool.not_eq_true, any_name] at hn
    refine (btriple_string _).bind ?_
    rintro _ c ⟨rfl, rfl, hu⟩
    rw [List.findIdx?_eq_some_iff_getElem] at hi
    obtain ⟨h1, h2, h3⟩ := hi
    have e : c = c.take i ++ 0x3d#8 :: c.drop (i + 1) := by
      have h2' : c[i] = 0x3d#8 := by simpa using h2
      conv_lhs => rw [← List.take_append_drop i c]
      rw [← h2', List.drop_eq_getElem_cons h1]
    have hname : ∀ b ∈ c.take i, 0x20 ≤ b.toNat ∧ b.toNat ≤ 0x7d ∧ b ≠ 0x3d#8 := by
      intro b hb
      refine ⟨(hn b hb).1, (hn b hb).2, ?_⟩
      obtain ⟨j, hj, rfl⟩ := List.mem_iff_getElem.1 hb
      rw [List.length_take] at hj
      rw [List.getElem_take]
      simpa using h3 j (by omega)
    have hl : (c.take i).length = i := by rw [List.length_take]; omega
    refine .pure ⟨rfl, ⟨c.take i, c.drop (i + 1)⟩, ⟨hname, ?_⟩, e, ?_⟩
    · rw [e, utf8_ascii (fun b hb => by have := hn b hb; omega), ← List.singleton_append,
        utf8_ascii (by simp)] at hu
      exact hu
    · simp only [Tag.comment]
      rw [← e, hl]
  · exact .err _

/-! ### Comments -/

theorem tagsOf_some (t : Tag) (es : List (Option Tag)) : tagsOf (some t :: es) = t :: tagsOf es := rfl

theorem tagsOf_none (es : List (Option Tag)) : tagsOf (none :: es) = tagsOf es := rfl

theorem length_entry_some (t : Tag) : (entryBytes (some t)).length = 4 + t.comment.length := by
  simp [entryBytes, lengthPrefixed]

theorem length_entry_none : (entryBytes none).length = 4 := by simp [entryBytes, lengthPrefixed]

theorem length_comment_pos (t : Tag) : 0 < t.comment.length := by simp [Tag.comment]

theorem length_entries (es : List (Option Tag)) : 4 * es.length ≤ (es.flatMap entryBytes).length := by
  induction es with
  | nil => simp
  | cons e es ih =>
    rw [List.flatMap_cons, List.length_append, List.length_cons]
    have : 4 ≤ (entryBytes e).length := by
      cases e
      · rw [length_entry_none]
      · rw [length_entry_some]; omega
    omega

theorem breads_comments (es : List (Option Tag)) : ∀ (cs : List (Str × Nat)),
    (∀ t ∈ tagsOf es, t.Legal) → (es.flatMap entryBytes).length < 2 ^ 32 →
    BReads (commentsLoop (es.flatMap entryBytes).length (cs.length + es.length) cs)
      (es.flatMap entryBytes)
      (0, cs.length + (tagsOf es).length, cs ++ storedTags (tagsOf es)) := by
  induction es with
  | nil =>
    intro cs _ _
    rw [commentsLoop_eq, dif_neg (by simp)]
    exact (BReads.pure _).congr rfl (by simp [tagsOf, storedTags])
  | cons e es ih =>
    intro cs ht hl
    rw [List.flatMap_cons, List.length_append] at hl ⊢
    rw [commentsLoop_eq]
    cases e with
    | none =>
      rw [length_entry_none] at hl ⊢
      rw [dif_pos ⟨by omega, by simp⟩]
      refine BReads.bind (bs := entryBytes none) ?_ (a := 0#32) ?_
      · exact (breads_leU32 (v := 0) (by omega)).congr (by simp [entryBytes, lengthPrefixed]) rfl
      · rw [if_neg (by simp), if_pos (by simp)]
        have := ih cs (fun t h => ht t (by simpa [tagsOf] using h)) (by omega)
        have e1 : 4 + (es.flatMap entryBytes).length - 4 = (es.flatMap entryBytes).length := by omega
        have e2 : cs.length + (none :: es).length - 1 = cs.length + es.length := by simp
        rw [e1, e2]
        exact this.congr rfl (by simp [tagsOf])
    | some t =>
      rw [length_entry_some] at hl ⊢
      have hpos := length_comment_pos t
      have hle : t.Legal := ht t (by simp [tagsOf])
      have hlen : (BitVec.ofNat 32 t.comment.length).toNat = t.comment.length := by simp; omega
      rw [dif_pos ⟨by omega, by simp⟩]
      rw [show entryBytes (some t) = leBytes 4 t.comment.length ++ t.comment from rfl, List.append_assoc]
      refine BReads.bind (breads_leU32 (by omega)) ?_
      rw [hlen, if_neg (by omega), if_neg (by omega)]
      refine BReads.bind (bs := []) (breads_onAlloc _ _) ?_
      refine (breads_readInto _).bind ?_
      refine BReads.bind (bs := []) (breads_comment hle) ?_
      have := ih (cs ++ [(t.comment, t.name.length)]) (fun t' h => ht t' (by
        simp [tagsOf] at h ⊢; exact Or.inr h)) (by omega)
      have e1 : 4 + t.comment.length + (es.flatMap entryBytes).length - 4 - t.comment.length =
        (es.flatMap entryBytes).length := by omega
      have e2 : (cs ++ [(t.comment, t.name.length)]).length + es.length = cs.length +
        (some t :: es).length := by simp; omega
      rw [e1, ← e2]
      refine this.congr rfl ?_
      simp [tagsOf, storedTags, Nat.add_assoc, Nat.add_comm 1]

theorem btriple_comments {lim : Limit} (n : Nat) : ∀ (bl cl : Nat) (cs : List (Str × Nat)),
    bl ≤ n → cs.length ≤ cl →
    BTriple lim (commentsLoop bl cl cs) (fun u r => ∃ es : List (Option Tag),
      u = es.flatMap entryBytes ∧ u.length + r.1 = bl ∧ r.2.1 + es.length = cl + (tagsOf es).length ∧
      r.2.2 = cs ++ storedTags (tagsOf es) ∧ ∀ t ∈ tagsOf es, t.Legal) := by
  induction n with
  | zero =>
    intro bl cl cs hbl hcs
    rw [commentsLoop_eq, dif_neg (by omega)]
    exact .pure ⟨[], rfl, by simp, by simp [tagsOf], by simp [tagsOf, storedTags], by simp [tagsOf]⟩
  | succ n ih =>
    intro bl cl cs hbl hcs
    rw [commentsLoop_eq]
    by_cases hc : bl ≥ 4 ∧ cs.length < cl
    · rw [dif_pos hc]
      refine btriple_leU32.bind ?_
      rintro _ v rfl
      refine .ite (fun _ => .err _) fun hv => .ite (fun h0 => ?_) fun h0 => ?_
      · refine (ih (bl - 4) (cl - 1) cs (by omega) (by omega)).mono ?_
        rintro _ r ⟨es, rfl, h1, h2, h3, h4⟩
        refine ⟨none :: es, ?_, ?_, ?_, ?_, ?_⟩
        · rw [h0]; rfl
        · rw [List.length_append, length_leBytes]; omega
        · rw [tagsOf_none, List.length_cons]; omega
        · simpa [tagsOf] using h3
        · simpa [tagsOf] using h4
      · refine (btriple_onAlloc _ _).bind ?_
        rintro _ _ rfl
        refine (btriple_readInto _).bind ?_
        rintro _ bytes ⟨rfl, hlen⟩
        refine (btriple_comment _).bind ?_
        rintro _ _ ⟨rfl, t, ht, rfl, rfl⟩
        refine (ih (bl - 4 - v.toNat) cl (cs ++ [(t.comment, t.name.length)]) (by omega)
          (by simp; omega)).mono ?_
        rintro _ r ⟨es, rfl, h1, h2, h3, h4⟩
        refine ⟨some t :: es, ?_, ?_, ?_, ?_, ?_⟩
        · rw [← hlen]
          simp [entryBytes, lengthPrefixed]
        · simp only [List.length_append, length_leBytes, List.nil_append, hlen]; omega
        · rw [tagsOf_some, List.length_cons, List.length_cons]; omega
        · rw [h3]; simp [tagsOf, storedTags]
        · intro t' ht'
          rw [tagsOf_some, List.mem_cons] at ht'
          rcases ht' with rfl | ht'
          · exact ht
          · exact h4 t' ht'
    · rw [dif_neg hc]
      exact .pure ⟨[], rfl, by simp, by simp [tagsOf], by simp [tagsOf, storedTags], by simp [tagsOf]⟩

theorem length_tagsOf_le (es : List (Option Tag)) : (tagsOf es).length ≤ es.length :=
  List.length_filterMap_le _ _

theorem length_vorbisCommentBytes (vendor : Str) (es : List (Option Tag)) :
    (vorbisCommentBytes vendor es).length = 8 + vendor.length + (es.flatMap entryBytes).length := by
  simp [vorbisCommentBytes, lengthPrefixed]; omega

theorem breads_vorbisComment {vendor : Str} {es : List (Option Tag)} (hv : Utf8 vendor)
    (ht : ∀ t ∈ tagsOf es, t.Legal) (hl : (vorbisCommentBytes vendor es).length ≤ maxBlockLength) :
    BReads (readVorbisCommentBlock (vorbisCommentBytes vendor es).length)
      (vorbisCommentBytes vendor es)
      { vendor := vendor, comments := storedTags (tagsOf es) } := by
  have hlen := length_vorbisCommentBytes vendor es
  have hes := length_entries es
  unfold maxBlockLength at hl
  unfold readVorbisCommentBlock
  generalize hL : (vorbisCommentBytes vendor es).length = L at *
  unfold vorbisCommentBytes lengthPrefixed
  rw [if_neg (by omega), if_neg (by omega), List.append_assoc, List.append_assoc]
  refine (breads_leU32 (by omega)).bind ?_
  have e1 : (BitVec.ofNat 32 vendor.length).toNat = vendor.length := by
    rw [BitVec.toNat_ofNat]; omega
  refine BReads.bind_lift (subU_ok (by omega)) ?_
  rw [e1, if_neg (by omega)]
  refine BReads.bind (bs := []) (breads_onAlloc _ _) ?_
  refine (breads_readInto _).bind ?_
  refine BReads.bind (bs := []) (breads_string hv) ?_
  refine (breads_leU32 (by omega)).bind ?_
  have e2 : (BitVec.ofNat 32 es.length).toNat = es.length := by
    rw [BitVec.toNat_ofNat]; omega
  rw [e2, if_neg (by omega)]
  refine BReads.bind (bs := []) (breads_onAlloc _ _) ?_
  refine BReads.bind_lift (subU_ok (by omega)) ?_
  refine BReads.bind_lift (subU_ok (by omega)) ?_
  have := breads_comments es [] ht (by omega)
  rw [List.length_nil, Nat.zero_add] at this
  have e3 : L - 8 - vendor.length = (es.flatMap entryBytes).length := by omega
  rw [e3]
  refine this.bind_nil ?_
  simp only
  rw [if_neg (by simp), if_neg (by simp [storedTags])]
  exact (BReads.pure _).congr rfl (by simp)

theorem btriple_vorbisComment {lim : Limit} (length : Nat) :
    BTriple lim (readVorbisCommentBlock length) (fun u vc => u.length = length ∧
      length ≤ maxBlockLength ∧ ∃ vendor es, Utf8 vendor ∧ (∀ t ∈ tagsOf es, t.Legal) ∧
      u = vorbisCommentBytes vendor es ∧
      vc = { vendor := vendor, comments := storedTags (tagsOf es) }) := by
  unfold readVorbisCommentBlock
  refine .ite (fun _ => .err _) fun hl1 => .ite (fun _ => .err _) fun hl2 => ?_
  refine btriple_leU32.bind ?_
  rintro _ vl rfl
  refine BTriple.bind_lift (subU_ok (by omega)) ?_
  refine .ite (fun _ => .err _) fun hvl => ?_
  refine (btriple_onAlloc _ _).bind ?_
  rintro _ _ rfl
  refine (btriple_readInto _).bind ?_
  rintro _ vendor ⟨rfl, hvendor⟩
  refine (btriple_string _).bind ?_
  rintro _ _ ⟨rfl, rfl, hu⟩
  refine btriple_leU32.bind ?_
  rintro _ cl rfl
  refine .ite (fun _ => .err _) fun hcl => ?_
  refine (btriple_onAlloc _ _).bind ?_
  rintro _ _ rfl
  refine BTriple.bind_lift (subU_ok (by omega)) ?_
  refine BTriple.bind_lift (subU_ok (by omega)) ?_
  refine (btriple_comments (length - 8 - vl.toNat) _ _ [] (Nat.le_refl _) (by simp)).bind ?_
  rintro _ ⟨bl', cl', cs'⟩ ⟨es, rfl, h1, h2, h3, h4⟩
  simp only at h1 h2 h3 ⊢
  refine .ite (fun _ => .err _) fun hz => .ite (fun _ => .err _) fun hn => .pure ?_
  have hn' : cs'.length = (tagsOf es).length := by rw [h3]; simp [storedTags]
  have hcl' : cl.toNat = es.length := by omega
  refine ⟨?_, by unfold maxBlockLength; omega, _, es, hu, h4, ?_, ?_⟩
  · simp only [List.length_append, length_leBytes, List.length_nil]
    omega
  · simp only [vorbisCommentBytes, lengthPrefixed, hvendor, hcl', List.append_assoc, List.nil_append,
      List.append_nil]
  · rw [h3]; simp

/-! ### Bodies -/

theorem breads_body {ty : U8} {body : List U8} {block : MetadataBlock} (h : BodyEncodes ty body block) :
    BReads (readMetadataBlock ty body.length) body block := by
  unfold readMetadataBlock
  cases h with
  | streamInfo info h =>
    rw [if_pos rfl, if_pos (length_streaminfoBytes h)]
    exact (breads_streaminfo h).bind_nil (.pure _)
  | padding ty h =>
    simp only [List.mem_cons, List.not_mem_nil, or_false] at h
    rcases h with rfl | rfl | rfl | rfl <;> exact (breads_skip _).bind_nil (.pure _)
  | application id data h =>
    unfold maxBlockLength at h
    rw [if_neg (by decide), if_neg (by decide), if_pos rfl]
    refine BReads.bind_nil (a := (id, data)) ?_ (.pure _)
    unfold readApplicationBlock
    rw [List.length_append, length_beBytes, if_neg (by omega), if_neg (by omega)]
    have := breads_beU32 (v := id.toNat) id.isLt
    rw [BitVec.ofNat_toNat, BitVec.setWidth_eq] at this
    refine this.bind ?_
    refine BReads.bind_lift (subU_ok (by omega)) ?_
    refine BReads.bind (bs := []) (breads_onAlloc _ _) ?_
    rw [Nat.add_sub_cancel_left]
    exact (breads_readInto _).bind_nil (.pure _)
  | vorbisComment vendor es hv ht hl =>
    exact (breads_vorbisComment hv ht hl).bind_nil (.pure _)
  | reserved ty h =>
    have hne : ∀ n : Nat, n < 7 ∨ n = 127 → ty ≠ BitVec.ofNat 8 n := by
      rintro n hn rfl
      rw [BitVec.toNat_ofNat] at h
      omega
    rw [if_neg (hne 0 (by omega)), if_neg (hne 1 (by omega)), if_neg (hne 2 (by omega)),
      if_neg (hne 3 (by omega)), if_neg (hne 4 (by omega)), if_neg (hne 5 (by omega)),
      if_neg (hne 6 (by omega)), if_neg (hne 127 (by omega))]
    exact (breads_skip _).bind_nil (.pure _)

theorem btriple_body {lim : Limit} (ty : U8) (length : Nat) :
    BTriple lim (readMetadataBlock ty length) (fun u b => u.length = length ∧ BodyEncodes ty u b) := by
  have hskip : ∀ ty : U8, ty ∈ [1#8, 3#8, 5#8, 6#8] → BTriple lim (do skip length; pure (.padding length))
      (fun u b => u.length = length ∧ BodyEncodes ty u b) := by
    intro ty hty
    refine (btriple_skip length).bind ?_
    rintro u _ rfl
    refine .pure ?_
    rw [List.append_nil]
    exact ⟨rfl, .padding ty hty u⟩
  unfold readMetadataBlock
  refine .ite (fun h => ?_) fun h0 => .ite (fun h => ?_) fun h1 => .ite (fun h => ?_) fun h2 =>
    .ite (fun h => ?_) fun h3 => .ite (fun h => ?_) fun h4 => .ite (fun h => ?_) fun h5 =>
    .ite (fun h => ?_) fun h6 => .ite (fun h => ?_) fun h127 => ?_
  · subst h
    refine .ite (fun hl => ?_) fun _ => .err _
    refine btriple_streaminfo.bind ?_
    rintro _ i ⟨hi, rfl⟩
    refine .pure ?_
    rw [List.append_nil]
    exact ⟨by rw [length_streaminfoBytes hi, hl], .streamInfo i hi⟩
  · subst h; exact hskip _ (by decide)
  · subst h
    unfold readApplicationBlock
    refine BTriple.bind (P := fun u p => u.length = length ∧ length ≤ maxBlockLength ∧
      u = beBytes 4 p.1.toNat ++ p.2) ?_ ?_
    · refine .ite (fun _ => .err _) fun hl1 => .ite (fun _ => .err _) fun hl2 => ?_
      refine btriple_beU32.bind ?_
      rintro _ id rfl
      refine BTriple.bind_lift (subU_ok (by omega)) ?_
      refine (btriple_onAlloc _ _).bind ?_
      rintro _ _ rfl
      refine (btriple_readInto _).bind ?_
      rintro _ data ⟨rfl, hd⟩
      refine .pure ⟨?_, by unfold maxBlockLength; omega, by simp⟩
      simp only [List.length_append, length_beBytes, List.length_nil]; omega
    · rintro u ⟨id, data⟩ ⟨rfl, h2, rfl⟩
      refine .pure ?_
      rw [List.append_nil]
      refine ⟨rfl, .application id data ?_⟩
      simp only [List.length_append, length_beBytes] at h2
      omega
  · subst h; exact hskip _ (by decide)
  · subst h
    refine (btriple_vorbisComment length).bind ?_
    rintro _ _ ⟨rfl, hl, vendor, es, hv, ht, rfl, rfl⟩
    refine .pure ?_
    rw [List.append_nil]
    exact ⟨rfl, .vorbisComment vendor es hv ht hl⟩
  · subst h; exact hskip _ (by decide)
  · subst h; exact hskip _ (by decide)
  · exact .err _
  · refine (btriple_skip length).bind ?_
    rintro u _ rfl
    refine .pure ?_
    rw [List.append_nil]
    refine ⟨rfl, .reserved ty ?_ u⟩
    have hne : ∀ n < 256, ty ≠ BitVec.ofNat 8 n → ty.toNat ≠ n := by
      rintro n hn h rfl
      exact h (by simp)
    have := hne 0 (by omega) h0
    have := hne 1 (by omega) h1
    have := hne 2 (by omega) h2
    have := hne 3 (by omega) h3
    have := hne 4 (by omega) h4
    have := hne 5 (by omega) h5
    have := hne 6 (by omega) h6
    have := hne 127 (by omega) h127
    omega

/-! ### Blocks with headers -/

theorem typeByte_fields (isLast : Bool) (ty : U8) (h : ty.toNat < 128) :
    ((BitVec.ofNat 8 ((if isLast then 128 else 0) + ty.toNat) >>> 7 == 1#8) = isLast) ∧
      BitVec.ofNat 8 ((if isLast then 128 else 0) + ty.toNat) &&& 0b0111_1111#8 = ty := by
  revert ty
  cases isLast <;> decide +kernel

theorem typeByte_eq (b : U8) : BitVec.ofNat 8 ((if b >>> 7 == 1#8 then 128 else 0) +
    (b &&& 0b0111_1111#8).toNat) = b ∧ (b &&& 0b0111_1111#8).toNat < 128 := by
  revert b
  decide +kernel

theorem breads_blockHeader {isLast : Bool} {ty : U8} {length : Nat} (ht : ty.toNat < 128)
    (hl : length < 2 ^ 24) : BReads readMetadataBlockHeader (headerBytes isLast ty length)
      { isLast := isLast, blockType := ty, length := length } := by
  unfold readMetadataBlockHeader headerBytes
  rw [← List.singleton_append]
  refine (breads_readU8 _).bind ((breads_beU24 hl).bind_nil ?_)
  obtain ⟨h1, h2⟩ := typeByte_fields isLast ty ht
  refine (BReads.pure _).congr rfl ?_
  rw [h1, h2]
  congr 1
  rw [BitVec.toNat_ofNat]; omega

theorem btriple_blockHeader {lim : Limit} : BTriple lim readMetadataBlockHeader
    (fun u h => u = headerBytes h.isLast h.blockType h.length ∧ h.blockType.toNat < 128 ∧
      h.length < 2 ^ 24) := by
  unfold readMetadataBlockHeader
  refine btriple_readU8.bind ?_
  rintro _ b rfl
  refine btriple_beU24.bind ?_
  rintro _ v ⟨rfl, hv⟩
  obtain ⟨h1, h2⟩ := typeByte_eq b
  refine .pure ⟨?_, h2, hv⟩
  simp only [headerBytes]
  rw [h1]
  simp

theorem EncodedBlock.bytes_eq (b : EncodedBlock) :
    b.bytes = headerBytes b.isLast b.blockType b.body.length ++ b.body := rfl

/-- Reading one block and its header, as `read_next` does. -/
def readBlock {σ : Type} [ReadBytes σ] : Dec σ (Bool × MetadataBlock) := do
  let header ← readMetadataBlockHeader
  let block ← readMetadataBlock header.blockType header.length
  pure (header.isLast, block)

theorem breads_block (b : EncodedBlock) : BReads readBlock b.bytes (b.isLast, b.block) := by
  rw [EncodedBlock.bytes_eq]
  exact (breads_blockHeader b.typeLt b.lengthLt).bind ((breads_body b.encodes).bind_nil (.pure _))

theorem btriple_block {lim : Limit} : BTriple lim readBlock
    (fun u r => ∃ b : EncodedBlock, u = b.bytes ∧ r = (b.isLast, b.block)) := by
  unfold readBlock
  refine btriple_blockHeader.bind ?_
  rintro _ ⟨isLast, ty, length⟩ ⟨rfl, h1, h2⟩
  refine (btriple_body _ _).bind ?_
  rintro body block ⟨rfl, he⟩
  simp only at he h1 h2
  refine .pure ⟨⟨isLast, ty, body, block, he, h1, h2⟩, ?_, rfl⟩
  rw [EncodedBlock.bytes_eq, List.append_nil]

theorem readMetadataBlockWithHeader_eq {σ : Type} [ReadBytes σ] :
    (readMetadataBlockWithHeader : Dec σ _) = (do let r ← readBlock; pure r.2) := by
  unfold readMetadataBlockWithHeader readBlock
  simp only [bind_assoc, pure_bind, bind_pure]

end Claxon
