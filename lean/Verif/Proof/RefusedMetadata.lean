import Verif.Proof.RefusedStreaminfo

/-! Errors of reading a metadata block, and their reasons. -/

namespace Claxon

open Spec ReadBytes

/-! ### Strings and comments -/

theorem string_not {bytes : List U8} (h : ¬ Utf8 bytes) : (stringFromUtf8 bytes : Dec Flat _) =
    fmtErr "Vorbis comment or vendor string is not valid UTF-8" := by
  unfold stringFromUtf8
  rw [if_neg (fun hv => h ((utf8Valid_iff _).1 hv))]

theorem brefuses_string (bytes : List U8) : BRefuses (stringFromUtf8 bytes) (fun u e => u = [] ∧ ¬ Utf8 bytes ∧
    e = .formatError "Vorbis comment or vendor string is not valid UTF-8") := by
  unfold stringFromUtf8
  exact .ite (fun _ => .pure _) fun h => .fail ⟨rfl, fun hv => h ((utf8Valid_iff _).2 hv), rfl⟩

theorem any_name_true {bytes : List U8} : (bytes.any fun x => x < 0x20#8 || x > 0x7d#8) = true ↔
    ∃ b ∈ bytes, b.toNat < 0x20 ∨ 0x7d < b.toNat := by
  rw [List.any_eq_true]
  refine exists_congr fun b => and_congr_right fun _ => ?_
  simp [BitVec.lt_def]

theorem bfails_comment {bytes : List U8} {msg : String} (h : RefusedComment bytes msg) :
    BFails (checkComment bytes) [] (.err (.formatError msg)) := by
  unfold checkComment
  cases h with
  | separator _ h =>
    rw [List.findIdx?_eq_none_iff.2 (by intro x hx; simp only [beq_eq_false_iff_ne]; rintro rfl; exact h hx)]
    exact .fail _
  | name t h1 h =>
    rw [findIdx_comment fun b hb he => h1 (he ▸ hb)]
    simp only
    rw [if_pos]
    · exact .fail _
    · unfold Tag.comment
      rw [List.take_left]
      exact any_name_true.2 h
  | value t h1 h =>
    rw [findIdx_comment fun b hb => (h1 b hb).2.2]
    simp only
    rw [if_neg, string_not]
    · exact .bind_left _ (.fail _)
    · unfold Tag.comment
      rw [utf8_ascii (fun b hb => by have := h1 b hb; omega), ← List.singleton_append, utf8_ascii (by simp)]
      exact h
    · rw [Bool.not_eq_true]
      unfold Tag.comment
      rw [List.take_left, any_name]
      intro b hb
      have := h1 b hb
      omega

theorem brefuses_comment (bytes : List U8) : BRefuses (checkComment bytes) (fun u e => u = [] ∧ ∃ msg,
    RefusedComment bytes msg ∧ e = .formatError msg) := by
  unfold checkComment
  split
  · next i hi =>
    rw [List.findIdx?_eq_some_iff_getElem] at hi
    obtain ⟨h1, h2, h3⟩ := hi
    have e : bytes = Tag.comment ⟨bytes.take i, bytes.drop (i + 1)⟩ := by
      have h2' : bytes[i] = 0x3d#8 := by simpa using h2
      unfold Tag.comment
      conv_lhs => rw [← List.take_append_drop i bytes]
      rw [← h2', List.drop_eq_getElem_cons h1]
    have hsep : ∀ b ∈ bytes.take i, b ≠ 0x3d#8 := by
      intro b hb
      obtain ⟨j, hj, rfl⟩ := List.mem_iff_getElem.1 hb
      rw [List.length_take] at hj
      rw [List.getElem_take]
      simpa using h3 j (by omega)
    refine .ite (fun hn => .fail ⟨rfl, _, ?_, rfl⟩) fun hn => ?_
    · have := RefusedComment.name ⟨bytes.take i, bytes.drop (i + 1)⟩ (fun h => hsep _ h rfl) (any_name_true.1 hn)
      rwa [← e] at this
    · rw [Bool.not_eq_true, any_name] at hn
      refine .bind (lim := .never) ((brefuses_string _).mono ?_) (btriple_string _) fun _ _ _ => .pure _
      rintro _ _ ⟨rfl, hu, rfl⟩
      refine ⟨rfl, _, ?_, rfl⟩
      have := RefusedComment.value ⟨bytes.take i, bytes.drop (i + 1)⟩
        (fun b hb => ⟨(hn b hb).1, (hn b hb).2, hsep b hb⟩) (fun hv => hu (by
          rw [e]
          unfold Tag.comment
          rw [utf8_ascii (fun b hb => by have := hn b hb; omega), ← List.singleton_append, utf8_ascii (by simp)]
          exact hv))
      rwa [← e] at this
  · next hi =>
    refine .fail ⟨rfl, _, .separator _ ?_, rfl⟩
    intro h
    have := List.findIdx?_eq_none_iff.1 hi _ h
    simp at this

/-! ### The loop over the entries -/

/-- The reasons why the loop fails. -/
inductive RefusedLoop (length count : Nat) : List U8 → String → Prop where
  | tooLong (good : List (Option Tag)) (hg : ∀ t ∈ tagsOf good, t.Legal) (hn : good.length < count)
      (hl : (good.flatMap entryBytes).length + 4 ≤ length) (v : Nat) (hv : v < 2 ^ 32)
      (h : length < (good.flatMap entryBytes).length + 4 + v) :
      RefusedLoop length count (good.flatMap entryBytes ++ leBytes 4 v)
        "Vorbis comment too long for Vorbis comment block"
  | entry (good : List (Option Tag)) (hg : ∀ t ∈ tagsOf good, t.Legal) (hn : good.length < count)
      (comment : List U8) (hne : comment ≠ [])
      (hl : (good.flatMap entryBytes ++ lengthPrefixed comment).length ≤ length) (msg : String)
      (h : RefusedComment comment msg) :
      RefusedLoop length count (good.flatMap entryBytes ++ lengthPrefixed comment) msg

theorem RefusedLoop.cons {length count : Nat} {bytes : List U8} {msg : String} {e : Option Tag}
    (he : ∀ t ∈ tagsOf [e], t.Legal) (h : RefusedLoop length count bytes msg) :
    RefusedLoop (length + (entryBytes e).length) (count + 1) (entryBytes e ++ bytes) msg := by
  have hleg : ∀ good : List (Option Tag), (∀ t ∈ tagsOf good, t.Legal) → ∀ t ∈ tagsOf (e :: good), t.Legal := by
    intro good hg t ht
    cases e with
    | none => exact hg t ht
    | some t' =>
      rw [tagsOf_some, List.mem_cons] at ht
      rcases ht with rfl | ht
      · exact he t (by simp [tagsOf])
      · exact hg t ht
  cases h with
  | tooLong good hg hn hl v hv h =>
    rw [← List.append_assoc, ← List.flatMap_cons]
    refine .tooLong (e :: good) (hleg good hg) (by simpa using hn) ?_ v hv ?_
    · rw [List.flatMap_cons, List.length_append]; omega
    · rw [List.flatMap_cons, List.length_append]; omega
  | entry good hg hn comment hne hl msg h =>
    rw [← List.append_assoc, ← List.flatMap_cons]
    refine .entry (e :: good) (hleg good hg) (by simpa using hn) comment hne ?_ msg h
    rw [List.flatMap_cons]
    simp only [List.length_append] at hl ⊢
    omega

theorem brefuses_comments (n : Nat) : ∀ (bl cl : Nat) (cs : List (Str × Nat)), bl ≤ n → cs.length ≤ cl →
    BRefuses (commentsLoop bl cl cs) (fun u e => ∃ msg, RefusedLoop bl (cl - cs.length) u msg ∧
      e = .formatError msg) := by
  induction n with
  | zero =>
    intro bl cl cs hbl hcs
    rw [commentsLoop_eq, dif_neg (by omega)]
    exact .pure _
  | succ n ih =>
    intro bl cl cs hbl hcs
    rw [commentsLoop_eq]
    by_cases hc : bl ≥ 4 ∧ cs.length < cl
    · rw [dif_pos hc]
      refine .bind (lim := .never) brefuses_readLeU32 btriple_leU32 ?_
      rintro _ v rfl
      refine .ite (fun hv => .fail ⟨_, ?_, rfl⟩) fun hv => .ite (fun h0 => ?_) fun h0 => ?_
      · have := RefusedLoop.tooLong (length := bl) (count := cl - cs.length) [] (by simp [tagsOf])
          (by simp; omega) (by simp; omega) v.toNat v.isLt (by simp; omega)
        simpa using this
      · refine (ih (bl - 4) (cl - 1) cs (by omega) (by omega)).mono ?_
        rintro u _ ⟨msg, h, rfl⟩
        refine ⟨msg, ?_, rfl⟩
        have := h.cons (e := none) (by simp [tagsOf])
        rw [length_entry_none, show bl - 4 + 4 = bl by omega,
          show cl - 1 - cs.length + 1 = cl - cs.length by omega] at this
        rw [h0]
        simpa [entryBytes, lengthPrefixed] using this
      · refine .bind (lim := .never) (brefuses_onAlloc _ _) (btriple_onAlloc _ _) ?_
        rintro _ _ rfl
        refine .bind (lim := .never) (brefuses_readInto _) (btriple_readInto _) ?_
        rintro bytes _ ⟨rfl, hlen⟩
        refine .bind (lim := .never) ((brefuses_comment bytes).mono ?_) (btriple_comment bytes) ?_
        · rintro _ _ ⟨rfl, msg, hm, rfl⟩
          refine ⟨msg, ?_, rfl⟩
          have := RefusedLoop.entry (length := bl) (count := cl - cs.length) [] (by simp [tagsOf])
            (by simp; omega) bytes (by rintro rfl; simp at hlen; omega)
            (by simp [lengthPrefixed]; omega) msg hm
          simpa [lengthPrefixed, hlen] using this
        · rintro _ _ ⟨rfl, t, ht, rfl, rfl⟩
          refine (ih (bl - 4 - v.toNat) cl (cs ++ [(t.comment, t.name.length)]) (by omega)
            (by simp; omega)).mono ?_
          rintro u _ ⟨msg, h, rfl⟩
          refine ⟨msg, ?_, rfl⟩
          have := h.cons (e := some t) (by simp [tagsOf]; exact ht)
          rw [length_entry_some, hlen, show bl - 4 - v.toNat + (4 + v.toNat) = bl by omega,
            List.length_append, List.length_singleton,
            show cl - (cs.length + 1) + 1 = cl - cs.length by omega] at this
          simpa [entryBytes, lengthPrefixed, hlen] using this
    · rw [dif_neg hc]
      exact .pure _

theorem bfails_comments (good : List (Option Tag)) : ∀ (bl cl : Nat) (cs : List (Str × Nat)) (bytes : List U8)
    (e : Fail), (∀ t ∈ tagsOf good, t.Legal) → (good.flatMap entryBytes).length + 4 ≤ bl → bl < 2 ^ 32 →
    cs.length + good.length < cl →
    (∀ cs' : List (Str × Nat), cs'.length = cs.length + (tagsOf good).length →
      BFails (commentsLoop (bl - (good.flatMap entryBytes).length) (cl + (tagsOf good).length - good.length) cs') bytes e) →
    BFails (commentsLoop bl cl cs) (good.flatMap entryBytes ++ bytes) e := by
  induction good with
  | nil =>
    intro bl cl cs bytes e _ _ _ _ h
    exact h cs (by simp [tagsOf])
  | cons g good ih =>
    intro bl cl cs bytes e hg hl hbl hn h
    rw [List.flatMap_cons, List.length_append] at hl
    rw [List.length_cons] at hn
    rw [commentsLoop_eq, List.flatMap_cons, List.append_assoc]
    cases g with
    | none =>
      rw [length_entry_none] at hl
      rw [dif_pos ⟨by omega, by omega⟩]
      refine BFails.bind (bs := entryBytes none) (a := 0#32) ?_ ?_
      · exact (breads_leU32 (v := 0) (by omega)).congr (by simp [entryBytes, lengthPrefixed]) rfl
      · rw [if_neg (by simp), if_pos (by simp)]
        refine ih (bl - 4) (cl - 1) cs bytes e hg (by omega) (by omega) (by omega) fun cs' hcs' => ?_
        have := h cs' hcs'
        rwa [List.flatMap_cons, List.length_append, length_entry_none, tagsOf_none, List.length_cons,
          show bl - (4 + (good.flatMap entryBytes).length) = bl - 4 - (good.flatMap entryBytes).length by omega,
          show cl + (tagsOf good).length - (good.length + 1) = cl - 1 + (tagsOf good).length - good.length by omega]
          at this
    | some t =>
      rw [length_entry_some] at hl
      have hpos := length_comment_pos t
      have hle : t.Legal := hg t (by simp [tagsOf])
      have hlen : (BitVec.ofNat 32 t.comment.length).toNat = t.comment.length := by simp; omega
      rw [dif_pos ⟨by omega, by omega⟩]
      rw [show entryBytes (some t) = leBytes 4 t.comment.length ++ t.comment from rfl, List.append_assoc]
      refine BFails.bind (breads_leU32 (by omega)) ?_
      rw [hlen, if_neg (by omega), if_neg (by omega)]
      refine BFails.bind (bs := []) (breads_onAlloc _ _) ?_
      refine BFails.bind (breads_readInto _) ?_
      refine BFails.bind (bs := []) (breads_comment hle) ?_
      refine ih (bl - 4 - t.comment.length) cl (cs ++ [(t.comment, t.name.length)]) bytes e (fun t' h => hg t' (by
        rw [tagsOf_some]; exact List.mem_cons_of_mem _ h)) (by omega) (by omega) (by simp; omega) fun cs' hcs' => ?_
      have := h cs' (by rw [hcs', tagsOf_some, List.length_cons, List.length_append]; simp; omega)
      rwa [List.flatMap_cons, List.length_append, length_entry_some, tagsOf_some, List.length_cons, List.length_cons,
        show bl - (4 + t.comment.length + (good.flatMap entryBytes).length) =
          bl - 4 - t.comment.length - (good.flatMap entryBytes).length by omega,
        show cl + ((tagsOf good).length + 1) - (good.length + 1) = cl + (tagsOf good).length - good.length by omega]
        at this

/-- The loop stops in front of the end of the block, or of the last entry. -/
theorem breads_comments_stop (good : List (Option Tag)) : ∀ (bl cl : Nat) (cs : List (Str × Nat)),
    (∀ t ∈ tagsOf good, t.Legal) → (good.flatMap entryBytes).length ≤ bl → bl < 2 ^ 32 →
    cs.length + good.length ≤ cl →
    (cs.length + good.length = cl ∨ bl < (good.flatMap entryBytes).length + 4) →
    BReads (commentsLoop bl cl cs) (good.flatMap entryBytes) (bl - (good.flatMap entryBytes).length,
      cl + (tagsOf good).length - good.length, cs ++ storedTags (tagsOf good)) := by
  induction good with
  | nil =>
    intro bl cl cs _ hl hbl hn hs
    rw [List.flatMap_nil, List.length_nil] at hs
    rw [List.length_nil] at hs
    rw [commentsLoop_eq, dif_neg (by omega)]
    exact (BReads.pure _).congr rfl (by simp [tagsOf, storedTags])
  | cons g good ih =>
    intro bl cl cs hg hl hbl hn hs
    rw [List.flatMap_cons, List.length_append] at hl hs ⊢
    rw [List.length_cons] at hn hs ⊢
    rw [commentsLoop_eq]
    cases g with
    | none =>
      rw [length_entry_none] at hl hs ⊢
      rw [dif_pos ⟨by omega, by omega⟩]
      refine BReads.bind (bs := entryBytes none) (a := 0#32) ?_ ?_
      · exact (breads_leU32 (v := 0) (by omega)).congr (by simp [entryBytes, lengthPrefixed]) rfl
      · rw [if_neg (by simp), if_pos (by simp)]
        refine (ih (bl - 4) (cl - 1) cs hg (by omega) (by omega) (by omega) (by omega)).congr rfl ?_
        rw [tagsOf_none]
        refine Prod.ext ?_ (Prod.ext ?_ rfl)
        · show _ - _ = _ - _
          omega
        · show _ - _ = _ - _
          omega
    | some t =>
      rw [length_entry_some] at hl hs ⊢
      have hpos := length_comment_pos t
      have hle : t.Legal := hg t (by simp [tagsOf])
      have hlen : (BitVec.ofNat 32 t.comment.length).toNat = t.comment.length := by simp; omega
      rw [dif_pos ⟨by omega, by omega⟩]
      rw [show entryBytes (some t) = leBytes 4 t.comment.length ++ t.comment from rfl, List.append_assoc]
      refine BReads.bind (breads_leU32 (by omega)) ?_
      rw [hlen, if_neg (by omega), if_neg (by omega)]
      refine BReads.bind (bs := []) (breads_onAlloc _ _) ?_
      refine BReads.bind (breads_readInto _) ?_
      refine BReads.bind (bs := []) (breads_comment hle) ?_
      refine (ih (bl - 4 - t.comment.length) cl (cs ++ [(t.comment, t.name.length)]) (fun t' h => hg t' (by
        rw [tagsOf_some]; exact List.mem_cons_of_mem _ h)) (by omega) (by omega) (by simp; omega)
        (by rw [List.length_append, List.length_singleton]; omega)).congr rfl ?_
      rw [tagsOf_some]
      refine Prod.ext ?_ (Prod.ext ?_ ?_)
      · show _ - _ = _ - _
        omega
      · show _ - _ = _ - _
        rw [List.length_cons]
        omega
      · simp [storedTags]

/-- The loop and what follows it. -/
def commentsEnd (vendor : Str) (r : Nat × Nat × List (Str × Nat)) : Dec Flat VorbisComment :=
  if r.1 ≠ 0 then fmtErr "Vorbis comment block has excess data"
  else if r.2.2.length ≠ r.2.1 then fmtErr "Vorbis comment block contains wrong number of entries"
  else pure { vendor := vendor, comments := r.2.2 }

theorem bfails_entries {vendor : Str} {bl cl : Nat} {bytes : List U8} {msg : String} (hbl : bl < 2 ^ 32)
    (h : RefusedEntries bl cl bytes msg) :
    BFails (commentsLoop bl cl [] >>= commentsEnd vendor) bytes (.err (.formatError msg)) := by
  cases h with
  | tooLong good hg hn hl v hv h =>
    refine .bind_left _ (bfails_comments good bl cl [] (leBytes 4 v) _ hg hl hbl (by simpa using hn) fun cs' hcs' => ?_)
    have := length_tagsOf_le good
    rw [List.length_nil] at hcs'
    rw [commentsLoop_eq, dif_pos ⟨by omega, by omega⟩, ← List.append_nil (leBytes 4 v)]
    refine .bind (breads_leU32 hv) ?_
    rw [if_pos (by rw [BitVec.toNat_ofNat]; omega)]
    exact .fail _
  | entry good hg hn comment hne hl msg h =>
    rw [List.length_append, lengthPrefixed, List.length_append, length_leBytes] at hl
    refine .bind_left _ (bfails_comments good bl cl [] (lengthPrefixed comment) _ hg (by omega) hbl (by simpa using hn)
      fun cs' hcs' => ?_)
    have := length_tagsOf_le good
    have hpos := List.length_pos_iff.2 hne
    have hlen : (BitVec.ofNat 32 comment.length).toNat = comment.length := by simp; omega
    rw [List.length_nil] at hcs'
    rw [commentsLoop_eq, dif_pos ⟨by omega, by omega⟩, lengthPrefixed]
    refine .bind (breads_leU32 (by omega)) ?_
    rw [hlen, if_neg (by omega), if_neg (by omega)]
    refine .bind (bs := []) (breads_onAlloc _ _) ?_
    have hc := breads_readInto comment
    generalize comment.length = len at hc ⊢
    rw [← List.append_nil comment]
    refine .bind hc ?_
    exact .bind_left _ (bfails_comment h)
  | excess good hg hn hl h =>
    rw [← List.append_nil (good.flatMap entryBytes)]
    refine .bind (breads_comments_stop good bl cl [] hg (by omega) hbl (by simpa using hn)
      (by rw [List.length_nil]; omega)) ?_
    unfold commentsEnd
    rw [if_pos (by show bl - _ ≠ 0; omega)]
    exact .fail _
  | count good hg hn hl =>
    rw [← List.append_nil (good.flatMap entryBytes)]
    refine .bind (breads_comments_stop good bl cl [] hg (by omega) hbl (by simp; omega) (by omega)) ?_
    have := length_tagsOf_le good
    unfold commentsEnd
    rw [if_neg (by show ¬ bl - _ ≠ 0; omega), if_pos (by simp [storedTags]; omega)]
    exact .fail _

/-- The loop stops when all entries have been read, or none fits into the rest of the block. -/
theorem btriple_comments_stop {lim : Limit} (n : Nat) : ∀ (bl cl : Nat) (cs : List (Str × Nat)),
    bl ≤ n → cs.length ≤ cl →
    BTriple lim (commentsLoop bl cl cs) (fun _ r => (r.1 < 4 ∨ r.2.2.length = r.2.1) ∧ r.2.2.length ≤ r.2.1) := by
  induction n with
  | zero =>
    intro bl cl cs hbl hcs
    rw [commentsLoop_eq, dif_neg (by omega)]
    exact .pure ⟨.inl (by simp; omega), hcs⟩
  | succ n ih =>
    intro bl cl cs hbl hcs
    rw [commentsLoop_eq]
    by_cases hc : bl ≥ 4 ∧ cs.length < cl
    · rw [dif_pos hc]
      refine btriple_leU32.bind fun _ v _ => ?_
      refine .ite (fun _ => .err _) fun hv => .ite (fun h0 => ?_) fun h0 => ?_
      · exact ih (bl - 4) (cl - 1) cs (by omega) (by omega)
      · refine (btriple_onAlloc _ _).bind fun _ _ _ => ?_
        refine (btriple_readInto _).bind fun _ _ _ => ?_
        refine (btriple_comment _).bind fun _ _ _ => ?_
        exact ih (bl - 4 - v.toNat) cl _ (by omega) (by simp; omega)
    · rw [dif_neg hc]
      refine .pure ?_
      show (bl < 4 ∨ cs.length = cl) ∧ cs.length ≤ cl
      omega

theorem BTriple.and {α : Type} {lim : Limit} {m : Dec Flat α} {P Q : List U8 → α → Prop} (h1 : BTriple lim m P)
    (h2 : BTriple lim m Q) : BTriple lim m (fun u a => P u a ∧ Q u a) := by
  intro s
  have h1 := h1 s
  have h2 := h2 s
  generalize m s = x at h1 h2
  rcases x with ⟨r, s'⟩
  cases r with
  | error e => cases e <;> exact h1
  | ok a =>
    obtain ⟨g1, u, g2, g3⟩ := h1
    obtain ⟨_, v, k2, k3⟩ := h2
    refine ⟨g1, u, g2, g3, ?_⟩
    rw [g2] at k2
    exact List.append_cancel_right k2 ▸ k3

theorem brefuses_entries (vendor : Str) (bl cl : Nat) :
    BRefuses (commentsLoop bl cl [] >>= commentsEnd vendor) (fun u e => ∃ msg, RefusedEntries bl cl u msg ∧
      e = .formatError msg) := by
  refine .bind (lim := .never) ((brefuses_comments bl bl cl [] (Nat.le_refl _) (by simp)).mono ?_)
    ((btriple_comments bl bl cl [] (Nat.le_refl _) (by simp)).and
      (btriple_comments_stop bl bl cl [] (Nat.le_refl _) (by simp))) ?_
  · rintro _ _ ⟨msg, h, rfl⟩
    refine ⟨msg, ?_, rfl⟩
    cases h with
    | tooLong good hg hn hl v hv h => exact .tooLong good hg hn hl v hv h
    | entry good hg hn comment hne hl msg h => exact .entry good hg hn comment hne hl msg h
  · rintro _ ⟨bl', cl', cs'⟩ ⟨⟨es, rfl, h1, h2, h3, h4⟩, h5⟩
    simp only at h1 h2 h3 h5
    have hlen : cs'.length = (tagsOf es).length := by rw [h3]; simp [storedTags]
    unfold commentsEnd
    simp only
    refine .ite (fun h => .fail ⟨_, ?_, rfl⟩) fun h => .ite (fun h => .fail ⟨_, ?_, rfl⟩) fun _ => .pure _
    · rw [List.append_nil]
      exact .excess es h4 (by omega) (by omega) (by omega)
    · rw [List.append_nil]
      exact .count es h4 (by omega) (by omega)

/-! ### Vorbis comment blocks -/

theorem readVorbisCommentBlock_eq (length : Nat) : (readVorbisCommentBlock length : Dec Flat _) =
    (if length < 8 then fmtErr "Vorbis comment block is too short"
    else if length > 10 * 1024 * 1024 then
      unsupportedErr "Vorbis comment blocks larger than 10 MiB are not supported"
    else do
      let vendorLen ← readLeU32
      if vendorLen.toNat > length - 8 then fmtErr "vendor string too long"
      else do
        let vendorBytes ← readInto vendorLen.toNat
        let vendor ← stringFromUtf8 vendorBytes
        let commentsLen ← readLeU32
        if commentsLen.toNat ≥ length / 4 then fmtErr "too many entries for Vorbis comment block"
        else (commentsLoop (length - 8 - vendorLen.toNat) commentsLen.toNat [] >>= commentsEnd vendor)) := by
  unfold readVorbisCommentBlock
  split
  · rfl
  split
  · rfl
  congr 1
  funext vl
  rw [subU_ok (by omega)]
  show (if vl.toNat > length - 8 then _ else _) = _
  split
  · rfl
  refine Eq.trans (b := readInto vl.toNat >>= _) rfl ?_
  congr 1; funext vb
  congr 1; funext vendor
  congr 1; funext cl
  split
  · rfl
  show (liftM (subU 32 (length - 8) vl.toNat) >>= fun left : Nat => (_ : Dec Flat VorbisComment)) = _
  rw [subU_ok (by omega)]
  rfl

theorem bfails_vorbisComment {length : Nat} {bytes : List U8} {e : Error} (h : RefusedMetadata 4#8 length bytes e) :
    BFails (readVorbisCommentBlock length) bytes (.err e) := by
  rw [readVorbisCommentBlock_eq]
  have hmax : maxBlockLength = 10 * 1024 * 1024 := rfl
  cases h with
  | shortComments _ h =>
    rw [if_pos h]
    exact .fail _
  | largeComments _ h =>
    rw [if_neg (by omega), if_pos (by omega)]
    exact .fail _
  | vendorLength _ h8 hl v hv h =>
    rw [if_neg (by omega), if_neg (by omega), ← List.append_nil (leBytes 4 v)]
    refine .bind (breads_leU32 hv) ?_
    rw [if_pos (by rw [BitVec.toNat_ofNat]; omega)]
    exact .fail _
  | vendor _ h8 hl vendor hv h =>
    have hlen : (BitVec.ofNat 32 vendor.length).toNat = vendor.length := by rw [BitVec.toNat_ofNat]; omega
    rw [if_neg (by omega), if_neg (by omega), lengthPrefixed]
    refine .bind (breads_leU32 (v := vendor.length) (by omega)) ?_
    rw [hlen, if_neg (by omega)]
    have hc := breads_readInto vendor
    generalize vendor.length = len at hc ⊢
    rw [← List.append_nil vendor]
    refine .bind hc ?_
    rw [string_not h]
    exact .bind_left _ (.fail _)
  | count _ h8 hl vendor hv hu n hn h =>
    have hlen : (BitVec.ofNat 32 vendor.length).toNat = vendor.length := by rw [BitVec.toNat_ofNat]; omega
    rw [if_neg (by omega), if_neg (by omega), lengthPrefixed, List.append_assoc]
    refine .bind (breads_leU32 (v := vendor.length) (by omega)) ?_
    rw [hlen, if_neg (by omega)]
    refine .bind (breads_readInto vendor) ?_
    refine .bind (bs := []) (cs := leBytes 4 n) (breads_string hu) ?_
    rw [← List.append_nil (leBytes 4 n)]
    refine .bind (breads_leU32 hn) ?_
    rw [if_pos (by rw [BitVec.toNat_ofNat]; omega)]
    exact .fail _
  | entries _ h8 hl vendor hv hu n hn bytes msg h =>
    have hlen : (BitVec.ofNat 32 vendor.length).toNat = vendor.length := by rw [BitVec.toNat_ofNat]; omega
    have hcl : (BitVec.ofNat 32 n).toNat = n := by rw [BitVec.toNat_ofNat]; omega
    rw [if_neg (by omega), if_neg (by omega), lengthPrefixed, List.append_assoc, List.append_assoc]
    refine .bind (breads_leU32 (v := vendor.length) (by omega)) ?_
    rw [hlen, if_neg (by omega)]
    refine .bind (breads_readInto vendor) ?_
    refine .bind (bs := []) (breads_string hu) ?_
    refine .bind (breads_leU32 (v := n) (by omega)) ?_
    rw [hcl, if_neg (by omega)]
    exact bfails_entries (by omega) h

theorem brefuses_vorbisComment (length : Nat) :
    BRefuses (readVorbisCommentBlock length) (fun u e => RefusedMetadata 4#8 length u e) := by
  rw [readVorbisCommentBlock_eq]
  have hmax : maxBlockLength = 10 * 1024 * 1024 := rfl
  refine .ite (fun h => .fail (.shortComments _ h)) fun h8 => .ite (fun h => .fail (.largeComments _ h)) fun hl => ?_
  refine .bind (lim := .never) brefuses_readLeU32 btriple_leU32 ?_
  rintro _ vl rfl
  refine .ite (fun h => .fail ?_) fun hv => ?_
  · rw [List.append_nil]
    exact .vendorLength _ (by omega) (by omega) _ vl.isLt h
  refine .bind (lim := .never) (brefuses_readInto _) (btriple_readInto _) ?_
  rintro vendor _ ⟨rfl, hlen⟩
  have hp : leBytes 4 vl.toNat ++ vendor = lengthPrefixed vendor := by rw [lengthPrefixed, hlen]
  refine .bind (lim := .never) ((brefuses_string _).mono ?_) (btriple_string _) ?_
  · rintro _ _ ⟨rfl, hu, rfl⟩
    rw [List.append_nil, hp]
    exact .vendor _ (by omega) (by omega) _ (by omega) hu
  rintro _ _ ⟨rfl, rfl, hu⟩
  refine .bind (lim := .never) brefuses_readLeU32 btriple_leU32 ?_
  rintro _ cl rfl
  refine .ite (fun h => .fail ?_) fun hcl => ?_
  · rw [List.append_nil, List.nil_append, ← List.append_assoc, hp]
    exact .count _ (by omega) (by omega) _ (by omega) hu _ cl.isLt h
  refine (brefuses_entries _ _ _).mono ?_
  rintro u _ ⟨msg, h, rfl⟩
  rw [List.nil_append, ← List.append_assoc, hp, ← List.append_assoc]
  exact .entries _ (by omega) (by omega) _ (by omega) hu _ (by omega) u msg (hlen ▸ h)

/-! ### Blocks -/

theorem bfails_body {ty : U8} {length : Nat} {bytes : List U8} {e : Error} (h : RefusedMetadata ty length bytes e) :
    BFails (readMetadataBlock ty length) bytes (.err e) := by
  have hmax : maxBlockLength = 10 * 1024 * 1024 := rfl
  unfold readMetadataBlock
  by_cases h4 : ty = 4#8
  · subst h4
    exact .bind_left _ (bfails_vorbisComment h)
  cases h with
  | streaminfoLength _ h =>
    rw [if_pos rfl, if_neg h]
    exact .fail _
  | streaminfo i hi msg h =>
    rw [if_pos rfl, if_pos rfl]
    exact .bind_left _ (bfails_streaminfo hi h)
  | shortApplication _ h =>
    rw [if_neg (by decide), if_neg (by decide), if_pos rfl]
    unfold readApplicationBlock
    rw [if_pos h]
    exact .bind_left _ (.fail _)
  | largeApplication _ h =>
    rw [if_neg (by decide), if_neg (by decide), if_pos rfl]
    unfold readApplicationBlock
    rw [if_neg (by omega), if_pos (by omega)]
    exact .bind_left _ (.fail _)
  | type => exact .fail _
  | _ => exact absurd rfl h4

theorem brefuses_body (ty : U8) (length : Nat) :
    BRefuses (readMetadataBlock ty length) (fun u e => RefusedMetadata ty length u e) := by
  have hmax : maxBlockLength = 10 * 1024 * 1024 := rfl
  unfold readMetadataBlock
  have hskip : ∀ (b : MetadataBlock) (Q : List U8 → Error → Prop), BRefuses (do skip length; pure b) Q := fun b Q =>
    .bind (lim := .never) (brefuses_skip _) (btriple_skip _) fun _ _ _ => .pure _
  refine .ite (fun h => ?_) fun h0 => .ite (fun h => ?_) fun h1 => .ite (fun h => ?_) fun h2 =>
    .ite (fun h => ?_) fun h3 => .ite (fun h => ?_) fun h4 => .ite (fun h => ?_) fun h5 =>
    .ite (fun h => ?_) fun h6 => .ite (fun h => ?_) fun h127 => ?_
  · subst h
    refine .ite (fun hl => ?_) fun h => .fail (.streaminfoLength _ h)
    subst hl
    refine .bind (lim := .never) (brefuses_streaminfo.mono ?_) btriple_streaminfo fun _ _ _ => .pure _
    rintro _ _ ⟨i, msg, hi, h, rfl, rfl⟩
    exact .streaminfo i hi msg h
  · exact hskip _ _
  · subst h
    unfold readApplicationBlock
    refine .bind (lim := .never) (P := fun _ _ => True) ?_ ?_ fun _ _ _ => .pure _
    · refine .ite (fun h => .fail (.shortApplication _ h)) fun h4 => .ite (fun h => .fail (.largeApplication _ h))
        fun hl => ?_
      refine .bind (lim := .never) brefuses_readBeU32 btriple_beU32 fun _ _ _ => ?_
      refine .bind_lift (subU_ok (by omega)) ?_
      refine .bind (lim := .never) (brefuses_onAlloc _ _) (btriple_onAlloc _ _) fun _ _ _ => ?_
      exact .bind (lim := .never) (brefuses_readInto _) (btriple_readInto _) fun _ _ _ => .pure _
    · refine .ite (fun _ => .err _) fun h4 => .ite (fun _ => .err _) fun hl => ?_
      refine btriple_beU32.bind fun _ _ _ => ?_
      refine BTriple.bind_lift (subU_ok (by omega)) ?_
      refine (btriple_onAlloc _ _).bind fun _ _ _ => ?_
      exact (btriple_readInto _).bind fun _ _ _ => .pure trivial
  · exact hskip _ _
  · subst h
    exact .bind (lim := .never) (brefuses_vorbisComment _) (btriple_vorbisComment _) fun _ _ _ => .pure _
  · exact hskip _ _
  · exact hskip _ _
  · subst h
    exact .fail (.type _)
  · exact hskip _ _

theorem bfails_block {bytes : List U8} {e : Error} (h : RefusedBlock bytes e) : BFails readBlock bytes (.err e) := by
  cases h with
  | mk isLast ty length ht hl body e h =>
    exact .bind (breads_blockHeader (isLast := isLast) ht hl) (.bind_left _ (bfails_body h))

theorem brefuses_blockHeader {Q : List U8 → Error → Prop} : BRefuses readMetadataBlockHeader Q :=
  .bind (lim := .never) brefuses_readU8 btriple_readU8 fun _ _ _ =>
    .bind (lim := .never) brefuses_readBeU24 btriple_beU24 fun _ _ _ => .pure _

theorem brefuses_block : BRefuses readBlock (fun u e => RefusedBlock u e) := by
  unfold readBlock
  refine .bind (lim := .never) brefuses_blockHeader btriple_blockHeader ?_
  rintro _ ⟨isLast, ty, length⟩ ⟨rfl, h1, h2⟩
  refine .bind (lim := .never) ((brefuses_body _ _).mono ?_) (btriple_body _ _) fun _ _ _ => .pure _
  intro u e h
  exact .mk isLast ty length h1 h2 u e h

end Claxon
