import Verif.Proof.Trace
import Verif.Proof.Samples
import Verif.Proof.Block

/-! Operations that do not panic, with an arbitrary reader. -/

namespace Claxon

open Spec ReadBytes

variable {σ α β : Type}

/-- The result is a value, an error, or that the model has run out of fuel. -/
def Calm (x : Except Fail α) : Prop := Returns x ∨ x = .error .diverged

/-- From states with `P`, `m` gives a result with `R`, and a state with `P`. -/
def Safe (P : σ → Prop) (R : ∀ {α : Type}, Except Fail α → Prop) (m : Dec σ α) : Prop :=
  ∀ s, P s → R (m s).1 ∧ P (m s).2

/-- `Returns` and `Calm`. -/
structure Mild (R : ∀ {α : Type}, Except Fail α → Prop) : Prop where
  ok : ∀ {α : Type} (a : α), R (.ok a : Except Fail α)
  err : ∀ {α : Type} (e : Error), R (.error (.err e) : Except Fail α)
  cast : ∀ {α β : Type} (f : Fail), R (.error f : Except Fail α) → R (.error f : Except Fail β)

theorem mild_returns : Mild (fun {_} x => Returns x) where
  ok a := .inl ⟨a, rfl⟩
  err e := .inr ⟨e, rfl⟩
  cast f h := by
    rcases h with ⟨a, h⟩ | ⟨e, h⟩
    · cases h
    · cases h; exact .inr ⟨e, rfl⟩

theorem mild_calm : Mild (fun {_} x => Calm x) where
  ok a := .inl (.inl ⟨a, rfl⟩)
  err e := .inl (.inr ⟨e, rfl⟩)
  cast f h := by
    rcases h with (⟨a, h⟩ | ⟨e, h⟩) | h
    · cases h
    · cases h; exact .inl (.inr ⟨e, rfl⟩)
    · cases h; exact .inr rfl

namespace Safe

variable {P : σ → Prop} {R : ∀ {α : Type}, Except Fail α → Prop}

theorem pure (hR : Mild R) (a : α) : Safe P R (Pure.pure a : Dec σ α) := fun _ h => ⟨hR.ok a, h⟩

theorem err (hR : Mild R) (e : Error) : Safe P R (Dec.fail (.err e) : Dec σ α) := fun _ h => ⟨hR.err e, h⟩

theorem bind (hR : Mild R) {m : Dec σ α} {f : α → Dec σ β} (hm : Safe P R m) (hf : ∀ a, Safe P R (f a)) :
    Safe P R (m >>= f) := by
  intro s h
  have := hm s h
  rw [Dec.bind_def]
  rcases hx : m s with ⟨e | a, s'⟩
  · rw [hx] at this
    exact ⟨hR.cast e this.1, this.2⟩
  · rw [hx] at this
    exact hf a s' this.2

theorem bind_of (hR : Mild R) {m : Dec σ α} {f : α → Dec σ β} (Q : α → Prop) (hm : Safe P R m)
    (hq : ∀ s a s', P s → m s = (.ok a, s') → Q a) (hf : ∀ a, Q a → Safe P R (f a)) :
    Safe P R (m >>= f) := by
  intro s h
  have := hm s h
  rw [Dec.bind_def]
  rcases hx : m s with ⟨e | a, s'⟩
  · rw [hx] at this
    exact ⟨hR.cast e this.1, this.2⟩
  · rw [hx] at this
    exact hf a (hq s a s' h hx) s' this.2

theorem lift_bind {x : Res α} {a : α} {f : α → Dec σ β} (hx : x = .ok a) (hf : Safe P R (f a)) :
    Safe P R (liftM x >>= f) := by
  intro s h
  rw [Dec.bind_liftM_of hx]
  exact hf s h

theorem ite {c : Prop} [Decidable c] {m m' : Dec σ α} (h : c → Safe P R m) (h' : ¬ c → Safe P R m') :
    Safe P R (if c then m else m') := by
  by_cases hc : c
  · rw [if_pos hc]; exact h hc
  · rw [if_neg hc]; exact h' hc

end Safe

/-- Used below: an operation of the reader, for `R`. -/
theorem Safe.of_returns {P : σ → Prop} {R : ∀ {α : Type}, Except Fail α → Prop} (hR : Mild R) {m : Dec σ α}
    (h : ∀ s, P s → Returns (m s).1 ∧ P (m s).2) : Safe P R m := by
  intro s hs
  obtain ⟨h1, h2⟩ := h s hs
  refine ⟨?_, h2⟩
  rcases h1 with ⟨a, h1⟩ | ⟨e, h1⟩
  · rw [h1]; exact hR.ok a
  · rw [h1]; exact hR.err e

section

variable [ReadBytes σ] {P : σ → Prop} {R : ∀ {α : Type}, Except Fail α → Prop} (hR : Mild R)
  (hP : NeverPanicsAll P)

include hR hP

theorem safe_readU8 : Safe P R (readU8 : Dec σ U8) := .of_returns hR hP.readU8

theorem safe_readU8OrEof : Safe P R (readU8OrEof : Dec σ (Option U8)) := .of_returns hR hP.readU8OrEof

theorem safe_readInto {n : Nat} (hn : n < 2 ^ 63) : Safe P R (readInto n : Dec σ (List U8)) :=
  .of_returns hR (hP.readInto n hn)

theorem safe_skip {n : Nat} (hn : n < 2 ^ 32) : Safe P R (skip n : Dec σ Unit) :=
  .of_returns hR (hP.skip n hn)

theorem safe_onAlloc (n m : Nat) : Safe P R (onAlloc n m : Dec σ Unit) :=
  .of_returns hR (hP.onAlloc n m)

theorem safe_readBeU16 : Safe P R (readBeU16 : Dec σ U16) :=
  (safe_readU8 hR hP).bind hR fun _ => (safe_readU8 hR hP).bind hR fun _ => .pure hR _

theorem safe_readBeU16OrEof : Safe P R (readBeU16OrEof : Dec σ (Option U16)) := by
  refine (safe_readU8OrEof hR hP).bind hR fun b => ?_
  cases b with
  | none => exact .pure hR _
  | some b =>
    refine (safe_readU8OrEof hR hP).bind hR fun b => ?_
    cases b with
    | none => exact .pure hR _
    | some b => exact .pure hR _

theorem safe_readBeU24 : Safe P R (readBeU24 : Dec σ U32) :=
  (safe_readU8 hR hP).bind hR fun _ => (safe_readU8 hR hP).bind hR fun _ =>
    (safe_readU8 hR hP).bind hR fun _ => .pure hR _

theorem safe_readBeU32 : Safe P R (readBeU32 : Dec σ U32) :=
  (safe_readU8 hR hP).bind hR fun _ => (safe_readU8 hR hP).bind hR fun _ =>
    (safe_readU8 hR hP).bind hR fun _ => (safe_readU8 hR hP).bind hR fun _ => .pure hR _

theorem safe_readLeU32 : Safe P R (readLeU32 : Dec σ U32) :=
  (safe_readU8 hR hP).bind hR fun _ => (safe_readU8 hR hP).bind hR fun _ =>
    (safe_readU8 hR hP).bind hR fun _ => (safe_readU8 hR hP).bind hR fun _ => .pure hR _

theorem safe_header : Safe P R (readMetadataBlockHeader : Dec σ MetadataBlockHeader) :=
  (safe_readU8 hR hP).bind hR fun _ => (safe_readBeU24 hR hP).bind hR fun _ => .pure hR _

omit hP in
omit [ReadBytes σ] in
theorem safe_checkStreaminfo (a b : U16) (c d e : U32) (f g : Nat) (h : U64) (i : List U8) :
    Safe P R (checkStreaminfo a b c d e f g h i : Dec σ StreamInfo) := by
  unfold checkStreaminfo
  exact .ite (fun _ => .err hR _) fun _ => .ite (fun _ => .err hR _) fun _ =>
    .ite (fun _ => .err hR _) fun _ => .ite (fun _ => .err hR _) fun _ => .pure hR _

theorem safe_streaminfo : Safe P R (readStreaminfoBlock : Dec σ StreamInfo) := by
  unfold readStreaminfoBlock
  refine (safe_readBeU16 hR hP).bind hR fun _ => (safe_readBeU16 hR hP).bind hR fun _ =>
    (safe_readBeU24 hR hP).bind hR fun _ => (safe_readBeU24 hR hP).bind hR fun _ =>
    (safe_readBeU16 hR hP).bind hR fun _ => (safe_readU8 hR hP).bind hR fun x => ?_
  have h1 : ((x >>> 1) &&& 0b0000_0111#8).toNat + 1 < 2 ^ 8 := by
    revert x; decide +kernel
  refine .lift_bind (addU_ok h1) ?_
  refine (safe_readU8 hR hP).bind hR fun y => ?_
  have h2 : ((x &&& 1#8) <<< 4 ||| (y >>> 4)).toNat + 1 < 2 ^ 8 := by
    have h3 : ((x &&& 1#8) <<< 4).toNat < 2 ^ 5 := by revert x; decide +kernel
    have h4 : (y >>> 4).toNat < 2 ^ 5 := by revert y; decide +kernel
    rw [BitVec.toNat_or]
    have := Nat.or_lt_two_pow h3 h4
    omega
  refine .lift_bind (addU_ok h2) ?_
  exact (safe_readBeU32 hR hP).bind hR fun _ => (safe_readInto hR hP (by decide)).bind hR fun _ =>
    safe_checkStreaminfo hR _ _ _ _ _ _ _ _ _

omit hP in
omit [ReadBytes σ] in
theorem safe_stringFromUtf8 (bytes : List U8) : Safe P R (stringFromUtf8 bytes : Dec σ Str) := by
  unfold stringFromUtf8
  exact .ite (fun _ => .pure hR _) fun _ => .err hR _

omit hP in
omit [ReadBytes σ] in
theorem safe_checkComment (bytes : List U8) : Safe P R (checkComment bytes : Dec σ (Str × Nat)) := by
  unfold checkComment
  cases bytes.findIdx? (fun x => x == 0x3d#8) with
  | none => exact .err hR _
  | some i => exact .ite (fun _ => .err hR _) fun _ => (safe_stringFromUtf8 hR _).bind hR fun _ => .pure hR _

theorem safe_commentsLoop (bytesLeft : Nat) : ∀ (n : Nat) (comments : List (Str × Nat)), bytesLeft < 2 ^ 32 →
    Safe P R (commentsLoop bytesLeft n comments : Dec σ _) := by
  induction bytesLeft using Nat.strongRecOn with
  | ind bytesLeft ih =>
    intro n comments hlt
    rw [commentsLoop_eq]
    by_cases hc : bytesLeft ≥ 4 ∧ comments.length < n
    · rw [dif_pos hc]
      refine (safe_readLeU32 hR hP).bind hR fun len => .ite (fun _ => .err hR _) fun h1 =>
        .ite (fun _ => ih _ (by omega) _ _ (by omega)) fun h2 => ?_
      refine (safe_onAlloc hR hP _ _).bind hR fun _ => (safe_readInto hR hP ?_).bind hR fun bytes => ?_
      · have := len.isLt; omega
      refine (safe_checkComment hR bytes).bind hR fun c => ih _ (by omega) _ _ (by omega)
    · rw [dif_neg hc]
      exact .pure hR _

theorem safe_vorbisComment {length : Nat} (hl : length < 2 ^ 32) :
    Safe P R (readVorbisCommentBlock length : Dec σ VorbisComment) := by
  unfold readVorbisCommentBlock
  refine .ite (fun _ => .err hR _) fun h1 => .ite (fun _ => .err hR _) fun h2 => ?_
  refine (safe_readLeU32 hR hP).bind hR fun v => .lift_bind (subU_ok (by omega)) ?_
  refine .ite (fun _ => .err hR _) fun h3 => (safe_onAlloc hR hP _ _).bind hR fun _ =>
    (safe_readInto hR hP (by have := v.isLt; omega)).bind hR fun bytes =>
    (safe_stringFromUtf8 hR _).bind hR fun vendor => (safe_readLeU32 hR hP).bind hR fun n =>
    .ite (fun _ => .err hR _) fun h4 => (safe_onAlloc hR hP _ _).bind hR fun _ =>
    .lift_bind (subU_ok (by omega)) (.lift_bind (subU_ok (by omega)) ?_)
  refine (safe_commentsLoop hR hP _ _ _ (by omega)).bind hR fun r => ?_
  exact .ite (fun _ => .err hR _) fun _ => .ite (fun _ => .err hR _) fun _ => .pure hR _

theorem safe_application {length : Nat} (hl : length < 2 ^ 32) :
    Safe P R (readApplicationBlock length : Dec σ (U32 × List U8)) := by
  unfold readApplicationBlock
  refine .ite (fun _ => .err hR _) fun h1 => .ite (fun _ => .err hR _) fun h2 => ?_
  refine (safe_readBeU32 hR hP).bind hR fun v => .lift_bind (subU_ok (by omega)) ?_
  exact (safe_onAlloc hR hP _ _).bind hR fun _ => (safe_readInto hR hP (by omega)).bind hR fun _ => .pure hR _

theorem safe_metadataBlock (blockType : U8) {length : Nat} (hl : length < 2 ^ 32) :
    Safe P R (readMetadataBlock blockType length : Dec σ MetadataBlock) := by
  unfold readMetadataBlock
  have hskip : ∀ b : MetadataBlock, Safe P R (do ReadBytes.skip length; Pure.pure b : Dec σ MetadataBlock) :=
    fun b => (safe_skip hR hP hl).bind hR fun _ => .pure hR _
  refine .ite (fun _ => .ite (fun _ => (safe_streaminfo hR hP).bind hR fun _ => .pure hR _)
    fun _ => .err hR _) fun _ => ?_
  refine .ite (fun _ => hskip _) fun _ => ?_
  refine .ite (fun _ => (safe_application hR hP hl).bind hR fun _ => .pure hR _) fun _ => ?_
  refine .ite (fun _ => hskip _) fun _ => ?_
  refine .ite (fun _ => (safe_vorbisComment hR hP hl).bind hR fun _ => .pure hR _) fun _ => ?_
  refine .ite (fun _ => hskip _) fun _ => .ite (fun _ => hskip _) fun _ => ?_
  exact .ite (fun _ => .err hR _) fun _ => hskip _

omit hR hP in
theorem header_length {s s' : σ} {h : MetadataBlockHeader} (hm : readMetadataBlockHeader s = (.ok h, s')) :
    h.length < 2 ^ 32 := by
  unfold readMetadataBlockHeader at hm
  rw [Dec.bind_def] at hm
  split at hm
  · rw [Dec.bind_def] at hm
    split at hm
    · simp only [Dec.pure_run, Prod.mk.injEq, Except.ok.injEq] at hm
      rw [← hm.1]
      exact BitVec.isLt _
    · simp at hm
  · simp at hm

theorem safe_withHeader : Safe P R (readMetadataBlockWithHeader : Dec σ MetadataBlock) :=
  (safe_header hR hP).bind_of hR (fun h => h.length < 2 ^ 32) (fun _ _ _ _ hm => header_length hm)
    fun _ hl => safe_metadataBlock hR hP _ hl

omit hR hP in
omit [ReadBytes σ] in
/-- An operation on the input of the metadata iterator. -/
theorem safe_onInput {m : Dec σ α} (h : Safe P R m) :
    Safe (fun r : MetadataBlockReader σ => P r.input) R (MetadataBlockReader.onInput m) := by
  intro r hr
  have := h r.input hr
  unfold MetadataBlockReader.onInput
  rw [Dec.zoom_run]
  exact this

omit [ReadBytes σ] hP in
theorem safe_setDone (done : Bool) :
    Safe (fun r : MetadataBlockReader σ => P r.input) R (MetadataBlockReader.setDone done) :=
  fun _ h => ⟨hR.ok _, h⟩

theorem safe_readNext : Safe (fun r : MetadataBlockReader σ => P r.input) R MetadataBlockReader.readNext := by
  unfold MetadataBlockReader.readNext
  refine (safe_onInput (safe_header hR hP)).bind_of hR (fun h => h.length < 2 ^ 32) ?_ fun h hl => ?_
  · intro r h r' _ hm
    unfold MetadataBlockReader.onInput at hm
    rw [Dec.zoom_run] at hm
    rcases hx : (readMetadataBlockHeader r.input : Except Fail MetadataBlockHeader × σ) with ⟨v, s'⟩
    rw [hx] at hm
    simp only [Prod.mk.injEq] at hm
    rw [hm.1] at hx
    exact header_length hx
  · exact (safe_onInput (safe_metadataBlock hR hP _ hl)).bind hR fun b =>
      (safe_setDone hR _).bind hR fun _ => .pure hR _

theorem safe_next : Safe (fun r : MetadataBlockReader σ => P r.input) R MetadataBlockReader.next := by
  unfold MetadataBlockReader.next
  intro r hr
  rw [Dec.bind_get_run]
  revert r
  show ∀ r : MetadataBlockReader σ, P r.input → _
  intro r hr
  by_cases hd : r.done = true
  · rw [if_pos hd]
    exact ⟨hR.ok _, hr⟩
  · rw [if_neg hd]
    have h1 : Safe (fun r : MetadataBlockReader σ => P r.input) R (Dec.catchErr MetadataBlockReader.readNext) := by
      intro r hr
      have h2 := safe_readNext hR hP r hr
      unfold Dec.catchErr
      rcases hx : MetadataBlockReader.readNext r with ⟨(e | _ | _ | _) | a, r'⟩
      all_goals rw [hx] at h2
      · exact ⟨hR.ok _, h2.2⟩
      · exact ⟨hR.cast _ h2.1, h2.2⟩
      · exact ⟨hR.cast _ h2.1, h2.2⟩
      · exact ⟨hR.cast _ h2.1, h2.2⟩
      · exact ⟨hR.ok _, h2.2⟩
    refine h1.bind hR (fun x => ?_) r hr
    cases x with
    | ok b => exact .pure hR _
    | error e => exact (safe_setDone hR _).bind hR fun _ => .pure hR _

theorem safe_streamHeader : Safe P R (readStreamHeader : Dec σ Unit) :=
  (safe_readBeU32 hR hP).bind hR fun _ =>
    .ite (fun _ => .ite (fun _ => .err hR _) fun _ => .err hR _) fun _ => .pure hR _

end

section

variable [ReadBytes σ] {P : σ → Prop} (hP : NeverPanicsAll P)

include hP

theorem safe_metadataLoop (fuel : Nat) : ∀ (o : FlacReaderOptions) (vc : Option VorbisComment),
    Safe (fun r : MetadataBlockReader σ => P r.input) (fun {_} x => Calm x) (metadataLoop fuel o vc) := by
  induction fuel with
  | zero => exact fun _ _ _ h => ⟨.inr rfl, h⟩
  | succ fuel ih =>
    intro o vc
    rw [metadataLoop]
    refine (safe_next mild_calm hP).bind mild_calm fun x => ?_
    rcases x with _ | e | b
    · exact .pure mild_calm _
    · exact .err mild_calm _
    · cases b with
      | vorbisComment c =>
        exact .ite (fun _ => .err mild_calm _) fun _ => .ite (fun _ => .pure mild_calm _) fun _ => ih _ _
      | streamInfo _ => exact .err mild_calm _
      | padding _ => exact .ite (fun _ => .pure mild_calm _) fun _ => ih _ _
      | application _ _ => exact .ite (fun _ => .pure mild_calm _) fun _ => ih _ _
      | seekTable _ => exact .ite (fun _ => .pure mild_calm _) fun _ => ih _ _
      | cueSheet => exact .ite (fun _ => .pure mild_calm _) fun _ => ih _ _
      | picture => exact .ite (fun _ => .pure mild_calm _) fun _ => ih _ _
      | reserved => exact .ite (fun _ => .pure mild_calm _) fun _ => ih _ _

theorem safe_openStream (fuel : Nat) (o : FlacReaderOptions) :
    Safe P (fun {_} x => Calm x) (openStream fuel o : Dec σ _) := by
  unfold openStream
  refine (safe_streamHeader mild_calm hP).bind mild_calm fun _ => ?_
  intro s hs
  suffices h : Calm (readMetadata fuel o (MetadataBlockReader.new s)).1 ∧
      P (readMetadata fuel o (MetadataBlockReader.new s)).2.input from h
  unfold readMetadata
  have hnext := safe_next mild_calm hP (MetadataBlockReader.new s) hs
  rw [Dec.bind_def]
  rcases hx : MetadataBlockReader.next (MetadataBlockReader.new s) with ⟨f | _ | x, r⟩
  · rw [hx] at hnext
    exact ⟨mild_calm.cast _ hnext.1, hnext.2⟩
  · exfalso
    unfold MetadataBlockReader.next at hx
    rw [Dec.bind_get_run, if_neg (by simp [MetadataBlockReader.new]), Dec.bind_def] at hx
    split at hx
    · split at hx
      · simp at hx
      · rw [Dec.bind_def] at hx
        simp [MetadataBlockReader.setDone] at hx
    · simp at hx
  · rw [hx] at hnext
    dsimp only
    rcases x with e | b
    · exact ⟨mild_calm.err e, hnext.2⟩
    · cases b with
      | streamInfo i =>
        exact (safe_metadataLoop hP fuel o none).bind mild_calm (fun _ => .pure mild_calm _) r hnext.2
      | padding _ => exact ⟨mild_calm.err _, hnext.2⟩
      | application _ _ => exact ⟨mild_calm.err _, hnext.2⟩
      | seekTable _ => exact ⟨mild_calm.err _, hnext.2⟩
      | cueSheet => exact ⟨mild_calm.err _, hnext.2⟩
      | picture => exact ⟨mild_calm.err _, hnext.2⟩
      | vorbisComment _ => exact ⟨mild_calm.err _, hnext.2⟩
      | reserved => exact ⟨mild_calm.err _, hnext.2⟩

end

end Claxon
