import Verif.Proof.Metadata
import Verif.Proof.Client

/-! Opening a stream, on a byte string. -/

namespace Claxon

open Spec ReadBytes

variable {α β : Type}

theorem BTriple.bind_more {m : Dec Flat α} {f : α → Dec Flat β} {n k : Nat}
    {P : List U8 → α → Prop} {Q : List U8 → β → Prop} (hm : BTriple .never m P)
    (hk : ∀ u a, P u a → k ≤ u.length)
    (hf : ∀ u a, P u a → BTriple (.bytes n) (f a) (fun v c => Q (u ++ v) c)) :
    BTriple (.bytes (n + k)) (m >>= f) Q := by
  intro b
  have h1 := hm b
  rw [Dec.bind_def]
  generalize m b = x at h1
  rcases x with ⟨r, b1⟩
  cases r with
  | error e =>
    cases e with
    | err e => trivial
    | _ => exact absurd h1 id
  | ok a =>
    obtain ⟨hf1, u, hu, hP⟩ := h1
    have h2 := hf u a hP b1
    have hku := hk u a hP
    simp only
    generalize f a b1 = y at h2
    rcases y with ⟨r, b2⟩
    have hle : b1.bytes.length + u.length = b.bytes.length := by rw [hu, List.length_append]; omega
    cases r with
    | error e =>
      cases e with
      | err e => trivial
      | _ =>
        have h2 : _ ∧ n ≤ b1.bytes.length := h2
        refine ⟨h2.1, ?_⟩
        omega
    | ok c =>
      obtain ⟨hf2, v, hv, hQ⟩ := h2
      exact ⟨hf2.trans hf1, u ++ v, by rw [hu, hv, List.append_assoc], hQ⟩

/-! ### The stream marker -/

/-- The text of the error when the stream marker is wrong. -/
def markerError (bytes : List U8) : String :=
  if bytes.take 3 = [0x49#8, 0x44#8, 0x33#8] then "stream starts with ID3 header rather than FLAC header"
  else "invalid stream header"

theorem id3_iff (a b c d : U8) :
    (a.setWidth 32 <<< 24 ||| b.setWidth 32 <<< 16 ||| c.setWidth 32 <<< 8 ||| d.setWidth 32 : U32) &&&
      0xffffff00#32 = 0x49443300#32 ↔ a = 0x49#8 ∧ b = 0x44#8 ∧ c = 0x33#8 := by
  have ha := a.isLt
  have hb := b.isLt
  have hc := c.isLt
  have hd := d.isLt
  have e : ∀ x : U32, x &&& 0xffffff00#32 = (x >>> 8) <<< 8 := by
    intro x
    apply BitVec.eq_of_getLsbD_eq
    intro i hi
    simp only [BitVec.getLsbD_and, BitVec.getLsbD_shiftLeft, BitVec.getLsbD_ushiftRight]
    by_cases h8 : i < 8
    · have : (0xffffff00#32).getLsbD i = false := by
        revert i; decide
      simp [this, h8]
    · have : (0xffffff00#32).getLsbD i = true := by
        have : ∀ i, 8 ≤ i → i < 32 → (0xffffff00#32).getLsbD i = true := by
          intro i h1 h2
          interval_cases i <;> decide
        exact this i (by omega) hi
      simp [this, h8, hi, show 8 + (i - 8) = i by omega]
  rw [e, ← BitVec.toNat_inj, ← BitVec.toNat_inj, ← BitVec.toNat_inj, ← BitVec.toNat_inj,
    BitVec.toNat_shiftLeft, BitVec.toNat_ushiftRight, beU32_toNat, Nat.shiftLeft_eq,
    Nat.shiftRight_eq_div_pow]
  simp only [BitVec.toNat_ofNat, Nat.reducePow, Nat.reduceMod]
  omega

theorem marker_iff (a b c d : U8) :
    (a.setWidth 32 <<< 24 ||| b.setWidth 32 <<< 16 ||| c.setWidth 32 <<< 8 ||| d.setWidth 32 : U32) =
      0x664c6143#32 ↔ [a, b, c, d] = streamMarker := by
  have ha := a.isLt
  have hb := b.isLt
  have hc := c.isLt
  have hd := d.isLt
  unfold streamMarker
  simp only [List.cons.injEq, and_true]
  rw [← BitVec.toNat_inj, ← BitVec.toNat_inj, ← BitVec.toNat_inj, ← BitVec.toNat_inj,
    ← BitVec.toNat_inj, beU32_toNat]
  simp only [BitVec.toNat_ofNat, Nat.reducePow, Nat.reduceMod]
  omega

theorem breads_marker : BReads readStreamHeader streamMarker () := fun _ _ => rfl

theorem btriple_marker {lim : Limit} :
    BTriple lim readStreamHeader (fun u _ => u = streamMarker) := by
  unfold readStreamHeader
  refine btriple_readBeU32.bind ?_
  rintro _ _ ⟨a, b, c, d, rfl, rfl⟩
  refine .ite (fun _ => .ite (fun _ => .err _) fun _ => .err _) fun h => .pure ?_
  rw [ne_eq, Decidable.not_not, marker_iff] at h
  rw [h]; rfl

theorem bfails_marker {a b c d : U8} (h : [a, b, c, d] ≠ streamMarker) :
    BFails readStreamHeader [a, b, c, d] (.err (.formatError (markerError [a, b, c, d]))) := by
  unfold readStreamHeader
  refine BFails.bind (cs := []) (breads_readBeU32 a b c d) ?_
  rw [if_pos (by rw [ne_eq, marker_iff]; exact h)]
  unfold markerError
  have hid : [a, b, c, d].take 3 = [0x49#8, 0x44#8, 0x33#8] ↔ a = 0x49#8 ∧ b = 0x44#8 ∧ c = 0x33#8 := by
    simp
  by_cases h3 : a = 0x49#8 ∧ b = 0x44#8 ∧ c = 0x33#8
  · rw [if_pos ((id3_iff a b c d).2 h3), if_pos (hid.2 h3)]
    exact BFails.fail _
  · rw [if_neg (fun h => h3 ((id3_iff a b c d).1 h)), if_neg (fun h => h3 (hid.1 h))]
    exact BFails.fail _

/-! ### The metadata blocks -/

theorem commentsIn_append (as bs : List EncodedBlock) :
    commentsIn (as ++ bs) = commentsIn as ++ commentsIn bs := by simp [commentsIn]

theorem commentsIn_comment {b : EncodedBlock} {c : VorbisComment} (h : b.block = .vorbisComment c) :
    commentsIn [b] = [c] := by simp [commentsIn, h]

theorem commentsIn_other {b : EncodedBlock} (h : ∀ c, b.block ≠ .vorbisComment c) :
    commentsIn [b] = [] := by
  unfold commentsIn
  rcases hb : b.block with i | n | ⟨id, data⟩ | sp | c | _ | _ | _ <;> simp [hb]
  exact h c hb

theorem metadataBytes_cons (b : EncodedBlock) (bs : List EncodedBlock) :
    metadataBytes (b :: bs) = b.bytes ++ metadataBytes bs := rfl

theorem length_bytes_ge (b : EncodedBlock) : 4 ≤ b.bytes.length := by
  rw [EncodedBlock.bytes_eq, List.length_append]
  simp [headerBytes]

theorem enough_append {o : FlacReaderOptions} {first : EncodedBlock} {pre : List EncodedBlock}
    {b : EncodedBlock} : Enough o first (pre ++ [b]) ↔ b.isLast = true ∨
      (o.metadataOnly = true ∧ (o.readVorbisComment = true → commentsIn (pre ++ [b]) ≠ [])) := by
  unfold Enough
  have : (first :: (pre ++ [b])).getLast (by simp) = b := by
    rw [List.getLast_cons (by simp), List.getLast_append_singleton]
  rw [this]
  simp

/-- The blocks that have been read before a pass through the loop. -/
structure Before (o : FlacReaderOptions) (first : EncodedBlock) (pre : List EncodedBlock)
    (opts : FlacReaderOptions) (vc : Option VorbisComment) (done : Bool) : Prop where
  other : ∀ b ∈ pre, ¬ IsStreaminfo b
  comments : (commentsIn pre).length ≤ 1
  vc : vc = (commentsIn pre).head?
  opts : opts = { o with readVorbisComment := o.readVorbisComment && (commentsIn pre).isEmpty }
  done : done = ((first :: pre).getLast (by simp)).isLast
  early : ¬ (o.metadataOnly = true ∧ pre ≠ [] ∧ (o.readVorbisComment = true → commentsIn pre ≠ []))
  necessary : ∀ fewer, fewer <+: pre → fewer ≠ pre → ¬ Enough o first fewer

/-- The blocks that have been read at the end. -/
structure AtEnd (o : FlacReaderOptions) (first : EncodedBlock) (more : List EncodedBlock) : Prop where
  other : ∀ b ∈ more, ¬ IsStreaminfo b
  comments : (commentsIn more).length ≤ 1
  enough : Enough o first more
  necessary : ∀ fewer, fewer <+: more → fewer ≠ more → ¬ Enough o first fewer

theorem prefix_snoc {pre fewer : List EncodedBlock} {b : EncodedBlock} (h : fewer <+: pre ++ [b])
    (hne : fewer ≠ pre ++ [b]) : fewer <+: pre := by
  rcases List.prefix_concat_iff.1 h with h | h
  · exact absurd h hne
  · exact h

theorem Before.not_enough {o : FlacReaderOptions} {first : EncodedBlock} {pre : List EncodedBlock}
    {opts : FlacReaderOptions} {vc : Option VorbisComment} (h : Before o first pre opts vc false) :
    ¬ Enough o first pre := by
  rintro (h1 | h1)
  · have := h.done
    rw [h1] at this
    cases this
  · exact h.early h1

theorem Before.necessary_snoc {o : FlacReaderOptions} {first : EncodedBlock} {pre : List EncodedBlock}
    {opts : FlacReaderOptions} {vc : Option VorbisComment} (h : Before o first pre opts vc false)
    (b : EncodedBlock) : ∀ fewer, fewer <+: pre ++ [b] → fewer ≠ pre ++ [b] → ¬ Enough o first fewer := by
  intro fewer h1 h2
  by_cases h3 : fewer = pre
  · subst h3; exact h.not_enough
  · exact h.necessary fewer (prefix_snoc h1 h2) h3

theorem other_snoc {pre : List EncodedBlock} {b : EncodedBlock} (h : ∀ b ∈ pre, ¬ IsStreaminfo b)
    (hb : ¬ IsStreaminfo b) : ∀ c ∈ pre ++ [b], ¬ IsStreaminfo c := by
  intro c hc
  rw [List.mem_append, List.mem_singleton] at hc
  rcases hc with hc | rfl
  · exact h c hc
  · exact hb

section

variable {o : FlacReaderOptions} {first : EncodedBlock} {pre : List EncodedBlock}
  {opts : FlacReaderOptions} {vc : Option VorbisComment} (h : Before o first pre opts vc false)

include h

/-- After a Vorbis comment block. -/
theorem Before.comment_next {b : EncodedBlock} {c : VorbisComment} (hb : b.block = .vorbisComment c)
    (hvc : vc.isSome = false) :
    (commentsIn (pre ++ [b])) = [c] ∧
    ((!{ opts with readVorbisComment := false }.hasDesiredBlocks) = true →
      AtEnd o first (pre ++ [b])) ∧
    ((!{ opts with readVorbisComment := false }.hasDesiredBlocks) = false →
      Before o first (pre ++ [b]) { opts with readVorbisComment := false } (some c) b.isLast) := by
  have hnil : commentsIn pre = [] := by
    have := h.vc
    subst this
    simpa using hvc
  have hc : commentsIn (pre ++ [b]) = [c] := by
    rw [commentsIn_append, hnil, commentsIn_comment hb]; rfl
  have hns : ¬ IsStreaminfo b := by rintro ⟨i, hi⟩; rw [hb] at hi; cases hi
  have hopts := h.opts
  refine ⟨hc, ?_, ?_⟩
  · intro hd
    refine ⟨other_snoc h.other hns, by rw [hc]; simp, enough_append.2 (.inr ⟨?_, ?_⟩),
      h.necessary_snoc b⟩
    · subst hopts
      cases hm : o.metadataOnly
      · simp [FlacReaderOptions.hasDesiredBlocks, hm] at hd
      · rfl
    · rw [hc]; simp
  · intro hd
    refine ⟨other_snoc h.other hns, by rw [hc]; simp, by rw [hc]; rfl, ?_, ?_, ?_, h.necessary_snoc b⟩
    · subst hopts
      rw [hc]
      simp
    · rw [List.getLast_cons (by simp), List.getLast_append_singleton]
    · rintro ⟨h1, _, _⟩
      subst hopts
      simp [FlacReaderOptions.hasDesiredBlocks, h1] at hd

/-- After another block. -/
theorem Before.other_next {b : EncodedBlock} (hns : ¬ IsStreaminfo b)
    (hnc : ∀ c, b.block ≠ .vorbisComment c) :
    (commentsIn (pre ++ [b])) = commentsIn pre ∧
    ((!opts.hasDesiredBlocks) = true → AtEnd o first (pre ++ [b])) ∧
    ((!opts.hasDesiredBlocks) = false → Before o first (pre ++ [b]) opts vc b.isLast) := by
  have hc : commentsIn (pre ++ [b]) = commentsIn pre := by
    rw [commentsIn_append, commentsIn_other hnc, List.append_nil]
  have hopts := h.opts
  refine ⟨hc, ?_, ?_⟩
  · intro hd
    have hd' : o.metadataOnly = true ∧ (o.readVorbisComment = true → commentsIn pre ≠ []) := by
      subst hopts
      cases hm : o.metadataOnly
      · simp [FlacReaderOptions.hasDesiredBlocks, hm] at hd
      · simp [FlacReaderOptions.hasDesiredBlocks, hm] at hd
        refine ⟨rfl, fun hr hn => ?_⟩
        rcases hd with hd | hd
        · rw [hr] at hd; cases hd
        · exact hd hn
    exact ⟨other_snoc h.other hns, by rw [hc]; exact h.comments,
      enough_append.2 (.inr ⟨hd'.1, by rw [hc]; exact hd'.2⟩), h.necessary_snoc b⟩
  · intro hd
    refine ⟨other_snoc h.other hns, by rw [hc]; exact h.comments, by rw [hc]; exact h.vc,
      by rw [hc]; exact hopts, ?_, ?_, h.necessary_snoc b⟩
    · rw [List.getLast_cons (by simp), List.getLast_append_singleton]
    · rintro ⟨h1, _, h2⟩
      rw [hc] at h2
      subst hopts
      simp [FlacReaderOptions.hasDesiredBlocks, h1] at hd
      exact h2 hd.1 hd.2

end

/-- What the loop does with one block. -/
def afterBlockRead {σ : Type} [ReadBytes σ] (fuel : Nat) (opts : FlacReaderOptions)
    (vc : Option VorbisComment) (isLast : Bool) (block : MetadataBlock) : Dec σ (Option VorbisComment) :=
  match block with
  | .vorbisComment c =>
    if vc.isSome then fmtErr "encountered second Vorbis comment block"
    else
      let opts := { opts with readVorbisComment := false }
      if !opts.hasDesiredBlocks then pure (some c)
      else openLoop fuel opts (some c) isLast
  | .streamInfo _ => fmtErr "encountered second streaminfo block"
  | _ =>
    if !opts.hasDesiredBlocks then pure vc
    else openLoop fuel opts vc isLast

theorem openLoop_succ {σ : Type} [ReadBytes σ] (fuel : Nat) (opts : FlacReaderOptions)
    (vc : Option VorbisComment) (done : Bool) :
    (openLoop (fuel + 1) opts vc done : Dec σ _) =
      if done then pure vc else readBlock >>= fun r => afterBlockRead fuel opts vc r.1 r.2 := by
  unfold openLoop readBlock
  simp only [bind_assoc, pure_bind]
  rfl

theorem btriple_openLoop (o : FlacReaderOptions) (first : EncodedBlock) (fuel : Nat) :
    ∀ (pre : List EncodedBlock) (opts : FlacReaderOptions) (vc : Option VorbisComment) (done : Bool),
    Before o first pre opts vc done →
    BTriple (.bytes (4 * fuel)) (openLoop fuel opts vc done) (fun u r => ∃ bs, u = metadataBytes bs ∧
      AtEnd o first (pre ++ bs) ∧ r = (commentsIn (pre ++ bs)).head?) := by
  induction fuel with
  | zero => intro pre opts vc done _ s; exact ⟨rfl, Nat.zero_le _⟩
  | succ fuel ih =>
    intro pre opts vc done h
    rw [openLoop_succ]
    cases done with
    | true =>
      rw [if_pos rfl]
      refine .pure ⟨[], rfl, ?_, ?_⟩
      · rw [List.append_nil]
        exact ⟨h.other, h.comments, .inl h.done.symm, h.necessary⟩
      · rw [List.append_nil]; exact h.vc
    | false =>
      rw [if_neg (by simp)]
      refine btriple_block.bind_more (k := 4) (n := 4 * fuel) ?_ ?_
      · rintro u a ⟨b, rfl, _⟩
        exact length_bytes_ge b
      · rintro _ _ ⟨b, rfl, rfl⟩
        have hstep : ∀ (r : Option VorbisComment), AtEnd o first (pre ++ [b]) →
            r = (commentsIn (pre ++ [b])).head? → BTriple (.bytes (4 * fuel)) (pure r)
              (fun v c => ∃ bs, b.bytes ++ v = metadataBytes bs ∧ AtEnd o first (pre ++ bs) ∧
                c = (commentsIn (pre ++ bs)).head?) := fun r h1 h2 =>
          .pure ⟨[b], by simp [metadataBytes], h1, h2⟩
        have hrec : ∀ (opts : FlacReaderOptions) (vc : Option VorbisComment),
            Before o first (pre ++ [b]) opts vc b.isLast →
            BTriple (.bytes (4 * fuel)) (openLoop fuel opts vc b.isLast)
              (fun v c => ∃ bs, b.bytes ++ v = metadataBytes bs ∧ AtEnd o first (pre ++ bs) ∧
                c = (commentsIn (pre ++ bs)).head?) := by
          intro opts vc hb
          refine (ih _ _ _ _ hb).mono ?_
          rintro _ r ⟨bs, rfl, h1, h2⟩
          rw [List.append_assoc, List.singleton_append] at h1 h2
          exact ⟨b :: bs, rfl, h1, h2⟩
        have hother : ¬ IsStreaminfo b → (∀ c, b.block ≠ .vorbisComment c) →
            BTriple (.bytes (4 * fuel)) (if !opts.hasDesiredBlocks then pure vc
              else openLoop fuel opts vc b.isLast)
              (fun v c => ∃ bs, b.bytes ++ v = metadataBytes bs ∧ AtEnd o first (pre ++ bs) ∧
                c = (commentsIn (pre ++ bs)).head?) := by
          intro hns hnc
          obtain ⟨h1, h2, h3⟩ := h.other_next hns hnc
          refine .ite (fun hd => hstep _ (h2 hd) ?_) fun hd => hrec _ _ (h3 (by simpa using hd))
          rw [h1]; exact h.vc
        simp only
        rcases hblock : b.block with i | n | ⟨id, data⟩ | sp | c | _ | _ | _
        · exact .err _
        · exact hother (by rintro ⟨i, hi⟩; rw [hblock] at hi; cases hi)
            (by intro c hc; rw [hblock] at hc; cases hc)
        · exact hother (by rintro ⟨i, hi⟩; rw [hblock] at hi; cases hi)
            (by intro c hc; rw [hblock] at hc; cases hc)
        · exact hother (by rintro ⟨i, hi⟩; rw [hblock] at hi; cases hi)
            (by intro c hc; rw [hblock] at hc; cases hc)
        · refine .ite (fun _ => .err _) fun hvc => ?_
          obtain ⟨h1, h2, h3⟩ := h.comment_next hblock (by simpa using hvc)
          refine .ite (fun hd => hstep _ (h2 hd) ?_) fun hd => hrec _ _ (h3 (by simpa using hd))
          rw [h1]; rfl
        all_goals
          exact hother (by rintro ⟨i, hi⟩; rw [hblock] at hi; cases hi)
            (by intro c hc; rw [hblock] at hc; cases hc)

theorem AtEnd.not_before {o : FlacReaderOptions} {first : EncodedBlock} {pre bs : List EncodedBlock}
    (h : AtEnd o first (pre ++ bs)) (hbs : bs ≠ []) : ¬ Enough o first pre :=
  h.necessary pre (List.prefix_append _ _) (by simpa using hbs)

theorem breads_openLoop (o : FlacReaderOptions) (first : EncodedBlock) (fuel : Nat) :
    ∀ (pre bs : List EncodedBlock) (opts : FlacReaderOptions) (vc : Option VorbisComment) (done : Bool),
    Before o first pre opts vc done → AtEnd o first (pre ++ bs) → bs.length < fuel →
    BReads (openLoop fuel opts vc done) (metadataBytes bs) (commentsIn (pre ++ bs)).head? := by
  induction fuel with
  | zero => intro _ _ _ _ _ _ _ h; omega
  | succ fuel ih =>
    intro pre bs opts vc done h hend hl
    rw [openLoop_succ]
    rcases bs with _ | ⟨b, bs⟩
    · rw [List.append_nil] at hend ⊢
      have hd : done = true := by
        rcases hend.enough with h1 | h1
        · rw [h.done, h1]
        · exact absurd h1 h.early
      rw [hd, if_pos rfl]
      exact (BReads.pure _).congr rfl h.vc
    · have hne := hend.not_before (by simp)
      have hd : done = false := by
        cases hdone : done
        · rfl
        · exact absurd (.inl (by rw [← h.done, hdone])) hne
      subst hd
      rw [if_neg (by simp), metadataBytes_cons]
      refine (breads_block b).bind ?_
      have hns : ¬ IsStreaminfo b := hend.other b (by simp)
      have happ : pre ++ b :: bs = (pre ++ [b]) ++ bs := by simp
      rw [happ] at hend ⊢
      have hrec : ∀ (opts : FlacReaderOptions) (vc : Option VorbisComment),
          Before o first (pre ++ [b]) opts vc b.isLast →
          BReads (openLoop fuel opts vc b.isLast) (metadataBytes bs)
            (commentsIn (pre ++ [b] ++ bs)).head? := fun opts vc hb =>
        ih _ _ _ _ _ hb hend (by rw [List.length_cons] at hl; omega)
      have hstop : ∀ (r : Option VorbisComment), AtEnd o first (pre ++ [b]) →
          r = (commentsIn (pre ++ [b])).head? → BReads (pure r) (metadataBytes bs)
            (commentsIn (pre ++ [b] ++ bs)).head? := by
        intro r h1 h2
        have : bs = [] := by
          by_contra hbs
          exact hend.not_before hbs h1.enough
        subst this
        rw [List.append_nil, h2]
        exact .pure _
      have hother : (∀ c, b.block ≠ .vorbisComment c) →
          BReads (if !opts.hasDesiredBlocks then pure vc else openLoop fuel opts vc b.isLast)
            (metadataBytes bs) (commentsIn (pre ++ [b] ++ bs)).head? := by
        intro hnc
        obtain ⟨h1, h2, h3⟩ := h.other_next hns hnc
        by_cases hd : (!opts.hasDesiredBlocks) = true
        · rw [if_pos hd]
          exact hstop _ (h2 hd) (by rw [h1]; exact h.vc)
        · rw [if_neg hd]
          exact hrec _ _ (h3 (by simpa using hd))
      simp only
      rcases hblock : b.block with i | n | ⟨id, data⟩ | sp | c | _ | _ | _
      · exact absurd ⟨i, hblock⟩ hns
      · exact hother (by intro c hc; rw [hblock] at hc; cases hc)
      · exact hother (by intro c hc; rw [hblock] at hc; cases hc)
      · exact hother (by intro c hc; rw [hblock] at hc; cases hc)
      · have hvc : vc.isSome = false := by
          have hcm := hend.comments
          rw [commentsIn_append, commentsIn_append, commentsIn_comment hblock] at hcm
          simp at hcm
          have : commentsIn pre = [] := List.length_eq_zero_iff.1 (by omega)
          rw [h.vc, this]; rfl
        obtain ⟨h1, h2, h3⟩ := h.comment_next hblock hvc
        unfold afterBlockRead
        simp only [hvc]
        rw [if_neg (by simp)]
        by_cases hd : (!{ opts with readVorbisComment := false }.hasDesiredBlocks) = true
        · rw [if_pos hd]
          exact hstop _ (h2 hd) (by rw [h1]; rfl)
        · rw [if_neg hd]
          exact hrec _ _ (h3 (by simpa using hd))
      all_goals exact hother (by intro c hc; rw [hblock] at hc; cases hc)

/-! ### Opening -/

theorem before_nil (o : FlacReaderOptions) (first : EncodedBlock) :
    Before o first [] o none first.isLast :=
  ⟨by simp, by simp [commentsIn], by simp [commentsIn], by simp [commentsIn], by simp, by simp, by simp⟩

theorem openFlat_eq {σ : Type} [ReadBytes σ] (fuel : Nat) (o : FlacReaderOptions) :
    (openFlat fuel o : Dec σ _) = readStreamHeader >>= fun _ => readBlock >>= fun r =>
      match r.2 with
      | .streamInfo info => openLoop fuel o none r.1 >>= fun vc =>
        pure (info, if !o.readVorbisComment then none else vc)
      | _ => fmtErr "streaminfo block missing" := by
  unfold openFlat readBlock
  simp only [bind_assoc, pure_bind]
  rfl

theorem btriple_open (fuel : Nat) (o : FlacReaderOptions) :
    BTriple (.bytes (4 * fuel)) (openStream fuel o) (fun u r => ∃ first more,
      u = streamMarker ++ metadataBytes (first :: more) ∧ Metadata o first more r.1 r.2) := by
  rw [openStream_eq, openFlat_eq]
  refine btriple_marker.bind ?_
  rintro _ _ rfl
  refine btriple_block.bind ?_
  rintro _ _ ⟨b, rfl, rfl⟩
  simp only
  rcases hblock : b.block with i | _ | _ | _ | _ <;> try exact .err _
  refine (btriple_openLoop o b fuel [] o none b.isLast (before_nil o b)).bind ?_
  rintro _ vc ⟨more, rfl, hend, hvc⟩
  rw [List.nil_append] at hend hvc
  refine .pure ⟨b, more, by rw [List.append_nil, metadataBytes_cons], hblock, hend.other, hend.comments,
    ?_, hend.enough, hend.necessary⟩
  rw [hvc]
  cases o.readVorbisComment <;> rfl

theorem breads_open {fuel : Nat} {o : FlacReaderOptions} {first : EncodedBlock}
    {more : List EncodedBlock} {info : StreamInfo} {vc : Option VorbisComment}
    (h : Metadata o first more info vc) (hf : more.length < fuel) :
    BReads (openStream fuel o) (streamMarker ++ metadataBytes (first :: more)) (info, vc) := by
  rw [openStream_eq, openFlat_eq]
  refine breads_marker.bind ?_
  rw [metadataBytes_cons]
  refine (breads_block first).bind ?_
  simp only
  rw [h.streaminfo]
  simp only
  refine (breads_openLoop o first fuel [] more o none first.isLast (before_nil o first)
    ⟨h.onlyOne, h.comments, h.enough, h.necessary⟩ hf).bind_nil ?_
  refine (BReads.pure _).congr rfl ?_
  rw [h.comment, List.nil_append]
  cases o.readVorbisComment <;> rfl

theorem length_metadataBytes (bs : List EncodedBlock) : 4 * bs.length ≤ (metadataBytes bs).length := by
  induction bs with
  | nil => simp
  | cons b bs ih =>
    have := length_bytes_ge b
    rw [metadataBytes_cons, List.length_append, List.length_cons]
    omega

end Claxon
