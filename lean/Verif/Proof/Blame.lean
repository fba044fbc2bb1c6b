import Verif.Proof.Capacity
import Verif.Proof.Trace
import Verif.Proof.MetadataIter
import Verif.Proof.SamplesApi
import Verif.Spec.Blame

/-! Where errors come from. -/

namespace Claxon

open Spec ReadBytes

variable {σ α β : Type}

theorem Steps.trans [ReadBytes σ] {s s' s'' : σ} (h : Steps s s') (h' : Steps s' s'') : Steps s s'' := by
  induction h with
  | nil => exact h'
  | readU8 h _ ih => exact .readU8 h (ih h')
  | readU8OrEof h _ ih => exact .readU8OrEof h (ih h')
  | readInto h _ ih => exact .readInto h (ih h')
  | skip h _ ih => exact .skip h (ih h')
  | onAlloc h _ ih => exact .onAlloc h (ih h')

theorem steps_of_yields [ReadBytes σ] {s s' : σ} {bytes : List U8} (h : Yields s bytes s') : Steps s s' := by
  induction h with
  | nil => exact .nil _
  | byte h _ ih => exact .readU8 h ih
  | byteOrEof h _ ih => exact .readU8OrEof h ih

/-- All calls succeed, and the result is not an I/O error; or the last call fails with the result. -/
def TracedAt [ReadBytes σ] (s : σ) (x : Except Fail α × σ) : Prop :=
  (Steps s x.2 ∧ NoIo x.1) ∨ ∃ f, ReaderFails s f x.2 ∧ x.1 = .error f

def Traced [ReadBytes σ] (m : Dec σ α) : Prop := ∀ s, TracedAt s (m s)

namespace Traced

variable [ReadBytes σ]

theorem pure (a : α) : Traced (Pure.pure a : Dec σ α) := fun s => .inl ⟨.nil s, .ok a⟩

theorem lift (r : Res α) [hr : NoIo r] : Traced (liftM r : Dec σ α) := fun s => .inl ⟨.nil s, hr⟩

theorem fail (f : Fail) [hf : NoIo (.error f : Except Fail α)] : Traced (Dec.fail f : Dec σ α) :=
  fun s => .inl ⟨.nil s, hf⟩

theorem fmtErr (msg : String) : Traced (Claxon.fmtErr msg : Dec σ α) := fail _

theorem unsupportedErr (msg : String) : Traced (Claxon.unsupportedErr msg : Dec σ α) := fail _

theorem bind {m : Dec σ α} {f : α → Dec σ β} (hm : Traced m) (hf : ∀ a, Traced (f a)) : Traced (m >>= f) := by
  intro s
  have := hm s
  rw [Dec.bind_def]
  rcases hx : m s with ⟨e | a, s'⟩
  · rw [hx] at this
    rcases this with ⟨h1, h2⟩ | ⟨f, h1, h2⟩
    · exact .inl ⟨h1, h2.cast⟩
    · cases h2; exact .inr ⟨e, h1, rfl⟩
  · rw [hx] at this
    rcases this with ⟨h1, -⟩ | ⟨f, h1, h2⟩
    · rcases hf a s' with ⟨h3, h4⟩ | ⟨f, ⟨s₁, h3, h4⟩, h5⟩
      · exact .inl ⟨Steps.trans h1 h3, h4⟩
      · exact .inr ⟨f, ⟨s₁, Steps.trans h1 h3, h4⟩, h5⟩
    · cases h2

theorem ite {c : Prop} [Decidable c] {m m' : Dec σ α} (h : c → Traced m) (h' : ¬ c → Traced m') :
    Traced (if c then m else m') := by
  by_cases hc : c
  · rw [if_pos hc]; exact h hc
  · rw [if_neg hc]; exact h' hc

theorem dite {c : Prop} [Decidable c] {m : c → Dec σ α} {m' : ¬ c → Dec σ α} (h : ∀ hc, Traced (m hc))
    (h' : ∀ hc, Traced (m' hc)) : Traced (if hc : c then m hc else m' hc) := by
  by_cases hc : c
  · rw [dif_pos hc]; exact h hc
  · rw [dif_neg hc]; exact h' hc

end Traced

/-- Calls. -/
syntax "tr_leaf" : tactic
macro_rules | `(tactic| tr_leaf) => `(tactic| exact Traced.pure _)
macro_rules | `(tactic| tr_leaf) => `(tactic| exact Traced.lift _)
macro_rules | `(tactic| tr_leaf) => `(tactic| exact Traced.fail _)
macro_rules | `(tactic| tr_leaf) => `(tactic| exact Traced.fmtErr _)
macro_rules | `(tactic| tr_leaf) => `(tactic| exact Traced.unsupportedErr _)

macro "tr" : tactic => `(tactic| repeat' (with_reducible first
  | tr_leaf | refine Traced.bind ?_ ?_ | refine Traced.ite ?_ ?_ | refine Traced.dite ?_ ?_ | intro _))

section

variable [ReadBytes σ]

theorem tr_readU8 : Traced (readU8 : Dec σ U8) := by
  intro s
  rcases h : (readU8 s : Except Fail U8 × σ) with ⟨f | b, s'⟩
  · exact .inr ⟨f, ⟨s, .nil s, .readU8 h⟩, rfl⟩
  · exact .inl ⟨.readU8 h (.nil _), .ok _⟩
macro_rules | `(tactic| tr_leaf) => `(tactic| exact tr_readU8)

theorem tr_readU8OrEof : Traced (readU8OrEof : Dec σ (Option U8)) := by
  intro s
  rcases h : (readU8OrEof s : Except Fail (Option U8) × σ) with ⟨f | b, s'⟩
  · exact .inr ⟨f, ⟨s, .nil s, .readU8OrEof h⟩, rfl⟩
  · exact .inl ⟨.readU8OrEof h (.nil _), .ok _⟩
macro_rules | `(tactic| tr_leaf) => `(tactic| exact tr_readU8OrEof)

theorem tr_readInto (n : Nat) : Traced (readInto n : Dec σ (List U8)) := by
  intro s
  rcases h : (readInto n s : Except Fail (List U8) × σ) with ⟨f | b, s'⟩
  · exact .inr ⟨f, ⟨s, .nil s, .readInto n h⟩, rfl⟩
  · exact .inl ⟨.readInto h (.nil _), .ok _⟩
macro_rules | `(tactic| tr_leaf) => `(tactic| exact tr_readInto _)

theorem tr_skip (n : Nat) : Traced (skip n : Dec σ Unit) := by
  intro s
  rcases h : (skip n s : Except Fail Unit × σ) with ⟨f | b, s'⟩
  · exact .inr ⟨f, ⟨s, .nil s, .skip n h⟩, rfl⟩
  · exact .inl ⟨.skip h (.nil _), .ok _⟩
macro_rules | `(tactic| tr_leaf) => `(tactic| exact tr_skip _)

theorem tr_onAlloc (n m : Nat) : Traced (onAlloc n m : Dec σ Unit) := by
  intro s
  rcases h : (onAlloc n m s : Except Fail Unit × σ) with ⟨f | b, s'⟩
  · exact .inr ⟨f, ⟨s, .nil s, .onAlloc n m h⟩, rfl⟩
  · exact .inl ⟨.onAlloc h (.nil _), .ok _⟩
macro_rules | `(tactic| tr_leaf) => `(tactic| exact tr_onAlloc _ _)

theorem tr_frame (buffer : VecI32) : Traced (readNextOrEof buffer : Dec σ (Option Block)) := by
  intro s
  obtain ⟨bytes, s₁, hy, ⟨-, s₂, h1, h2⟩ | ⟨f, s₂, h1, h2⟩ | ⟨r, hr, h1, -⟩⟩ := frame_trace_clean buffer s
  · rw [h2]
    exact .inl ⟨Steps.trans (steps_of_yields hy) (.readU8OrEof h1 (.nil _)), .ok _⟩
  · rw [h2]
    exact .inr ⟨f, ⟨s₁, steps_of_yields hy, h1.elim .readU8 .readU8OrEof⟩, rfl⟩
  · rw [h1]
    exact .inl ⟨steps_of_yields hy, hr⟩
macro_rules | `(tactic| tr_leaf) => `(tactic| exact tr_frame _)

theorem tr_readBeU16 : Traced (readBeU16 : Dec σ U16) := by unfold readBeU16; tr
macro_rules | `(tactic| tr_leaf) => `(tactic| exact tr_readBeU16)

theorem tr_readBeU16OrEof : Traced (readBeU16OrEof : Dec σ (Option U16)) := by
  unfold readBeU16OrEof
  refine Traced.bind (by tr) fun b => ?_
  cases b with
  | none => tr
  | some b =>
    refine Traced.bind (by tr) fun b => ?_
    cases b <;> tr
macro_rules | `(tactic| tr_leaf) => `(tactic| exact tr_readBeU16OrEof)

theorem tr_readBeU24 : Traced (readBeU24 : Dec σ U32) := by unfold readBeU24; tr
macro_rules | `(tactic| tr_leaf) => `(tactic| exact tr_readBeU24)

theorem tr_readBeU32 : Traced (readBeU32 : Dec σ U32) := by unfold readBeU32; tr
macro_rules | `(tactic| tr_leaf) => `(tactic| exact tr_readBeU32)

theorem tr_readLeU32 : Traced (readLeU32 : Dec σ U32) := by unfold readLeU32; tr
macro_rules | `(tactic| tr_leaf) => `(tactic| exact tr_readLeU32)

theorem tr_header : Traced (readMetadataBlockHeader : Dec σ MetadataBlockHeader) := by
  unfold readMetadataBlockHeader; tr
macro_rules | `(tactic| tr_leaf) => `(tactic| exact tr_header)

theorem tr_checkStreaminfo (a b : U16) (c d e : U32) (f g : Nat) (h : U64) (i : List U8) :
    Traced (checkStreaminfo a b c d e f g h i : Dec σ StreamInfo) := by
  unfold checkStreaminfo; tr
macro_rules | `(tactic| tr_leaf) => `(tactic| exact tr_checkStreaminfo _ _ _ _ _ _ _ _ _)

theorem tr_streaminfo : Traced (readStreaminfoBlock : Dec σ StreamInfo) := by
  unfold readStreaminfoBlock; tr
macro_rules | `(tactic| tr_leaf) => `(tactic| exact tr_streaminfo)

theorem tr_stringFromUtf8 (bytes : List U8) : Traced (stringFromUtf8 bytes : Dec σ Str) := by
  unfold stringFromUtf8; tr
macro_rules | `(tactic| tr_leaf) => `(tactic| exact tr_stringFromUtf8 _)

theorem tr_checkComment (bytes : List U8) : Traced (checkComment bytes : Dec σ (Str × Nat)) := by
  unfold checkComment
  cases bytes.findIdx? (fun x => x == 0x3d#8) <;> dsimp only <;> tr
macro_rules | `(tactic| tr_leaf) => `(tactic| exact tr_checkComment _)

theorem tr_commentsLoop (bytesLeft : Nat) : ∀ (n : Nat) (comments : List (Str × Nat)),
    Traced (commentsLoop bytesLeft n comments : Dec σ _) := by
  induction bytesLeft using Nat.strongRecOn with
  | ind bytesLeft ih =>
    intro n comments
    rw [commentsLoop_eq]
    refine Traced.dite (fun h => ?_) (fun _ => .pure _)
    refine Traced.bind (by tr) fun len => Traced.ite (fun _ => by tr) fun _ =>
      Traced.ite (fun _ => ih _ (by omega) _ _) fun _ => ?_
    tr
    exact ih _ (by omega) _ _
macro_rules | `(tactic| tr_leaf) => `(tactic| exact tr_commentsLoop _ _ _)

theorem tr_vorbisComment (length : Nat) : Traced (readVorbisCommentBlock length : Dec σ VorbisComment) := by
  unfold readVorbisCommentBlock; tr
macro_rules | `(tactic| tr_leaf) => `(tactic| exact tr_vorbisComment _)

theorem tr_application (length : Nat) : Traced (readApplicationBlock length : Dec σ (U32 × List U8)) := by
  unfold readApplicationBlock; tr
macro_rules | `(tactic| tr_leaf) => `(tactic| exact tr_application _)

theorem tr_padding (length : Nat) : Traced (readPaddingBlock length : Dec σ Unit) := tr_skip _
macro_rules | `(tactic| tr_leaf) => `(tactic| exact tr_padding _)

theorem tr_metadataBlock (blockType : U8) (length : Nat) :
    Traced (readMetadataBlock blockType length : Dec σ MetadataBlock) := by
  unfold readMetadataBlock; tr
macro_rules | `(tactic| tr_leaf) => `(tactic| exact tr_metadataBlock _ _)

theorem tr_withHeader : Traced (readMetadataBlockWithHeader : Dec σ MetadataBlock) := by
  unfold readMetadataBlockWithHeader; tr
macro_rules | `(tactic| tr_leaf) => `(tactic| exact tr_withHeader)

theorem tr_streamHeader : Traced (readStreamHeader : Dec σ Unit) := by
  unfold readStreamHeader; tr
macro_rules | `(tactic| tr_leaf) => `(tactic| exact tr_streamHeader)

theorem tr_op (op : Op) : Traced (op.run : Dec σ Out) := by
  cases op <;> unfold Op.run <;> tr

/-- The same for the metadata iterator. -/
def TracedM (m : Dec (MetadataBlockReader σ) α) : Prop := ∀ r, TracedAt r.input ((m r).1, (m r).2.input)

theorem TracedM.pure (a : α) : TracedM (Pure.pure a : Dec (MetadataBlockReader σ) α) :=
  fun _ => .inl ⟨.nil _, .ok a⟩

theorem TracedM.fail (f : Fail) [hf : NoIo (.error f : Except Fail α)] :
    TracedM (Dec.fail f : Dec (MetadataBlockReader σ) α) := fun _ => .inl ⟨.nil _, hf⟩

theorem TracedM.setDone (d : Bool) : TracedM (MetadataBlockReader.setDone d : Dec (MetadataBlockReader σ) Unit) :=
  fun _ => .inl ⟨.nil _, .ok _⟩

theorem TracedM.onInput {m : Dec σ α} (h : Traced m) : TracedM (MetadataBlockReader.onInput m) := by
  intro r
  unfold MetadataBlockReader.onInput
  rw [Dec.zoom_run]
  exact h r.input

theorem TracedM.bind {m : Dec (MetadataBlockReader σ) α} {f : α → Dec (MetadataBlockReader σ) β} (hm : TracedM m)
    (hf : ∀ a, TracedM (f a)) : TracedM (m >>= f) := by
  intro r
  have := hm r
  rw [Dec.bind_def]
  rcases hx : m r with ⟨e | a, s'⟩
  · rw [hx] at this
    rcases this with ⟨h1, h2⟩ | ⟨f, h1, h2⟩
    · exact .inl ⟨h1, h2.cast⟩
    · cases h2; exact .inr ⟨e, h1, rfl⟩
  · rw [hx] at this
    rcases this with ⟨h1, -⟩ | ⟨f, h1, h2⟩
    · rcases hf a s' with ⟨h3, h4⟩ | ⟨f, ⟨s₁, h3, h4⟩, h5⟩
      · exact .inl ⟨Steps.trans h1 h3, h4⟩
      · exact .inr ⟨f, ⟨s₁, Steps.trans h1 h3, h4⟩, h5⟩
    · cases h2

theorem TracedM.ite {c : Prop} [Decidable c] {m m' : Dec (MetadataBlockReader σ) α} (h : TracedM m)
    (h' : TracedM m') : TracedM (if c then m else m') := by
  by_cases hc : c
  · rw [if_pos hc]; exact h
  · rw [if_neg hc]; exact h'

/-- An item that is an error, as an error. -/
def flatItem : Except Fail (Option (Except Error α)) → Except Fail (Option α)
  | .ok (some (.error e)) => .error (.err e)
  | .ok (some (.ok a)) => .ok (some a)
  | .ok none => .ok none
  | .error f => .error f

/-- `next`, with errors as errors. -/
def nextFlat : Dec (MetadataBlockReader σ) (Option MetadataBlock) := fun r =>
  (flatItem (MetadataBlockReader.next r).1, (MetadataBlockReader.next r).2)

theorem tr_nextFlat : TracedM (nextFlat : Dec (MetadataBlockReader σ) _) := by
  intro r
  unfold nextFlat MetadataBlockReader.next
  rw [Dec.bind_get_run]
  by_cases hd : r.done = true
  · rw [if_pos hd]
    exact .inl ⟨.nil _, .ok _⟩
  · rw [if_neg hd]
    have h : TracedM (MetadataBlockReader.readNext : Dec (MetadataBlockReader σ) MetadataBlock) :=
      .bind (.onInput tr_header) fun _ => .bind (.onInput (tr_metadataBlock _ _)) fun _ =>
        .bind (.setDone _) fun _ => .pure _
    have := h r
    rw [Dec.bind_def]
    unfold Dec.catchErr
    rcases hx : MetadataBlockReader.readNext r with ⟨(e | _ | _ | _) | a, r'⟩
    all_goals rw [hx] at this
    · rcases this with ⟨h1, h2⟩ | ⟨f, h1, h2⟩
      · exact .inl ⟨h1, h2.cast⟩
      · cases h2; exact .inr ⟨_, h1, rfl⟩
    · rcases this with ⟨h1, h2⟩ | ⟨f, h1, h2⟩
      · exact .inl ⟨h1, h2.cast⟩
      · cases h2; exact .inr ⟨_, h1, rfl⟩
    · rcases this with ⟨h1, h2⟩ | ⟨f, h1, h2⟩
      · exact .inl ⟨h1, h2.cast⟩
      · cases h2; exact .inr ⟨_, h1, rfl⟩
    · rcases this with ⟨h1, h2⟩ | ⟨f, h1, h2⟩
      · exact .inl ⟨h1, h2.cast⟩
      · cases h2; exact .inr ⟨_, h1, rfl⟩
    · rcases this with ⟨h1, h2⟩ | ⟨f, h1, h2⟩
      · exact .inl ⟨h1, .ok _⟩
      · cases h2

/-- To fail with an error that `next` returns. -/
theorem tr_next_bind {k : Option (Except Error MetadataBlock) → Dec (MetadataBlockReader σ) α}
    (he : ∀ e, k (some (.error e)) = Dec.fail (.err e)) (hk : ∀ b : Option MetadataBlock, TracedM (k (b.map .ok))) :
    TracedM (MetadataBlockReader.next >>= k) := by
  have e : (MetadataBlockReader.next >>= k) =
      nextFlat >>= fun b : Option MetadataBlock => k (b.map .ok) := by
    funext r
    rw [Dec.bind_def, Dec.bind_def]
    unfold nextFlat
    rcases MetadataBlockReader.next r with ⟨f | _ | e | b, r'⟩
    · rfl
    · rfl
    · dsimp only; rw [he]; rfl
    · rfl
  rw [e]
  exact tr_nextFlat.bind hk

theorem tr_metadataLoop (fuel : Nat) : ∀ (o : FlacReaderOptions) (vc : Option VorbisComment),
    TracedM (metadataLoop fuel o vc : Dec (MetadataBlockReader σ) _) := by
  induction fuel with
  | zero => exact fun _ _ => .fail _
  | succ fuel ih =>
    intro o vc
    rw [metadataLoop]
    refine tr_next_bind (fun _ => rfl) fun b => ?_
    rcases b with _ | b
    · exact .pure _
    · cases b with
      | vorbisComment c => exact .ite (.fail _) (.ite (.pure _) (ih _ _))
      | streamInfo _ => exact .fail _
      | padding _ => exact .ite (.pure _) (ih _ _)
      | application _ _ => exact .ite (.pure _) (ih _ _)
      | seekTable _ => exact .ite (.pure _) (ih _ _)
      | cueSheet => exact .ite (.pure _) (ih _ _)
      | picture => exact .ite (.pure _) (ih _ _)
      | reserved => exact .ite (.pure _) (ih _ _)

theorem tr_readMetadata (fuel : Nat) (o : FlacReaderOptions) :
    TracedM (readMetadata fuel o : Dec (MetadataBlockReader σ) _) := by
  unfold readMetadata
  refine tr_next_bind (fun _ => rfl) fun b => ?_
  rcases b with _ | b
  · exact fun _ => .inl ⟨.nil _, .panicRes _⟩
  · cases b with
    | streamInfo i => exact (tr_metadataLoop _ _ _).bind fun _ => .pure _
    | vorbisComment c => exact .fail _
    | padding _ => exact .fail _
    | application _ _ => exact .fail _
    | seekTable _ => exact .fail _
    | cueSheet => exact .fail _
    | picture => exact .fail _
    | reserved => exact .fail _

theorem tr_openStream (fuel : Nat) (o : FlacReaderOptions) : Traced (openStream fuel o : Dec σ _) := by
  unfold openStream
  exact tr_streamHeader.bind fun _ s => tr_readMetadata fuel o (MetadataBlockReader.new s)

/-- The sample iterator. -/
theorem tr_samples (it : FlacSamples σ) :
    TracedAt it.frameReader (flatItem (FlacSamples.next it).1, (FlacSamples.next it).2.frameReader) := by
  have hcur : ∀ it : FlacSamples σ,
      TracedAt it.frameReader (flatItem (FlacSamples.current it).1, (FlacSamples.current it).2.frameReader) := by
    intro it
    unfold FlacSamples.current
    rw [Dec.bind_get_run]
    cases h : it.block.sample it.channel it.sample with
    | error f =>
      have hn : NoIo (it.block.sample it.channel it.sample) := by unfold Block.sample; infer_instance
      rw [h] at hn
      exact .inl ⟨.nil _, hn.cast⟩
    | ok v => exact .inl ⟨.nil _, .ok _⟩
  have hblock : ∀ it : FlacSamples σ,
      TracedAt it.frameReader (flatItem (FlacSamples.nextBlock it).1, (FlacSamples.nextBlock it).2.frameReader) := by
    intro it
    unfold FlacSamples.nextBlock
    rw [Dec.bind_get_run, Dec.bind_set_run]
    simp only [Dec.bind_def, Dec.catchErr, FlacSamples.onReader, Dec.zoom]
    have h := tr_frame it.block.intoBuffer it.frameReader
    rcases hx : readNextOrEof it.block.intoBuffer it.frameReader with ⟨f | _ | b, s1⟩
    · rw [hx] at h
      rcases h with ⟨h1, h2⟩ | ⟨f', h1, h2⟩
      · cases f <;> exact .inl ⟨h1, h2.cast⟩
      · cases h2
        cases f <;> exact .inr ⟨_, h1, rfl⟩
    · rw [hx] at h
      rcases h with ⟨h1, h2⟩ | ⟨f', h1, h2⟩
      · exact .inl ⟨h1, .ok _⟩
      · cases h2
    · rw [hx] at h
      rcases h with ⟨h1, h2⟩ | ⟨f', h1, h2⟩
      · simp only [Dec.bind_get_run, Dec.bind_set_run]
        rcases hcur { it with frameReader := s1, sample := 0, block := b } with ⟨h3, h4⟩ | ⟨f, ⟨s₁, h3, h4⟩, h5⟩
        · exact .inl ⟨Steps.trans h1 h3, h4⟩
        · exact .inr ⟨f, ⟨s₁, Steps.trans h1 h3, h4⟩, h5⟩
      · cases h2
  unfold FlacSamples.next
  rw [Dec.bind_get_run, Dec.ite_run]
  split
  · exact .inl ⟨.nil _, .ok _⟩
  cases h : addU 32 it.channel 1 with
  | error f =>
    have hn := NoIo.addU 32 it.channel 1
    rw [h] at hn
    exact .inl ⟨.nil _, hn.cast⟩
  | ok c =>
    rw [Dec.bind_liftM_of rfl, Dec.ite_run]
    split
    · cases h : addU 32 it.sample 1 with
      | error f =>
        have hn := NoIo.addU 32 it.sample 1
        rw [h] at hn
        exact .inl ⟨.nil _, hn.cast⟩
      | ok c =>
        rw [Dec.bind_liftM_of rfl, Dec.bind_set_run, Dec.ite_run]
        split
        · exact hblock { it with channel := 0, sample := c }
        · exact hcur { it with channel := 0, sample := c }
    · rw [Dec.bind_set_run]
      exact hcur { it with channel := c }

end

/-! ### The buffered reader -/

namespace BufferedReader

/-- The source stays the same; if there is an I/O error, it is the last call's. -/
def ReasonAt (r : BufferedReader) (x : Except Fail α × BufferedReader) : Prop :=
  x.2.inner.outcome = r.inner.outcome ∧ r.inner.calls ≤ x.2.inner.calls ∧
    ∀ e, x.1 = .error (.err (.ioError e)) → SourceReason r.inner.calls e x.2.inner

def HasReason (m : Dec BufferedReader α) : Prop := ∀ r, r.inner.Contract → ReasonAt r (m r)

theorem ReasonAt.of_noIo {x : Except Fail α × BufferedReader} {r : BufferedReader} (h : x.2.inner = r.inner)
    (hn : NoIo x.1) : ReasonAt r x := ⟨by rw [h], by rw [h], fun e he => (hn.out e he).elim⟩

theorem HasReason.bind {m : Dec BufferedReader α} {f : α → Dec BufferedReader β} (hm : HasReason m)
    (hf : ∀ a, HasReason (f a)) : HasReason (m >>= f) := by
  intro r hc
  have := hm r hc
  rw [Dec.bind_def]
  rcases hx : m r with ⟨e | a, r'⟩
  · rw [hx] at this
    exact ⟨this.1, this.2.1, fun e he => this.2.2 e (by cases he; rfl)⟩
  · rw [hx] at this
    obtain ⟨h1, h2, -⟩ := this
    obtain ⟨h3, h4, h5⟩ := hf a r' (by unfold Src.Contract; rw [h1]; exact hc)
    refine ⟨h3.trans h1, Nat.le_trans h2 h4, fun e he => ?_⟩
    obtain ⟨h6, h7⟩ := h5 e he
    exact ⟨Nat.lt_of_le_of_lt h2 h6, h7⟩

theorem HasReason.get {f : BufferedReader → Dec BufferedReader β} (hf : ∀ r, HasReason (f r)) :
    HasReason (Dec.get >>= f) := fun r hc => by
  rw [Dec.bind_get_run]; exact hf r r hc

theorem HasReason.ite {c : Prop} [Decidable c] {m m' : Dec BufferedReader α} (h : HasReason m) (h' : HasReason m') :
    HasReason (if c then m else m') := by
  by_cases hc : c
  · rw [if_pos hc]; exact h
  · rw [if_neg hc]; exact h'

theorem HasReason.pure (a : α) : HasReason (Pure.pure a : Dec BufferedReader α) :=
  fun _ _ => .of_noIo rfl (.ok a)

theorem HasReason.lift (x : Res α) [h : NoIo x] : HasReason (liftM x : Dec BufferedReader α) :=
  fun _ _ => .of_noIo rfl h

theorem HasReason.fail (f : Fail) [h : NoIo (.error f : Except Fail α)] :
    HasReason (Dec.fail f : Dec BufferedReader α) := fun _ _ => .of_noIo rfl h

/-- To refill the buffer, and fail at the end of the file. -/
theorem HasReason.refill {k : Dec BufferedReader α} {m : Dec BufferedReader α}
    (hm : m = ioErr .unexpectedEof ∨ HasReason m) (hk : HasReason k) :
    HasReason (do BufferedReader.refill; let r ← Dec.get; if r.numValid = 0 then m else k) := by
  intro r hc
  rw [Dec.bind_def]
  unfold BufferedReader.refill
  cases ho : r.inner.outcome r.inner.calls with
  | err code written =>
    refine ⟨rfl, Nat.le_succ _, fun e he => ⟨Nat.lt_succ_self _, .inl ⟨code, written, ho, ?_⟩⟩⟩
    cases he; rfl
  | ok n written =>
    dsimp only
    rw [Dec.bind_get_run]
    have hz := hc _ _ _ ho
    have go : ∀ {m : Dec BufferedReader α}, HasReason m → ∀ r' : BufferedReader,
        r'.inner = ⟨r.inner.outcome, r.inner.calls + 1⟩ → ReasonAt r (m r') := by
      intro m hm r' hr'
      obtain ⟨h3, h4, h5⟩ := hm r' (by unfold Src.Contract; rw [hr']; exact hc)
      rw [hr'] at h3 h4 h5
      simp only at h3 h4 h5
      refine ⟨h3, by omega, fun e he => ?_⟩
      obtain ⟨h6, h7⟩ := h5 e he
      exact ⟨by omega, h7⟩
    by_cases h0 : n % 2 ^ 32 = 0
    · rw [if_pos h0]
      rcases hm with rfl | hm
      · refine ⟨rfl, Nat.le_succ _, fun e he => ⟨Nat.lt_succ_self _, .inr ⟨written, ?_, ?_⟩⟩⟩
        · have : n = 0 := by simp only [capacity_eq] at hz; omega
          rw [this] at ho
          exact ho
        · cases he; rfl
      · exact go hm _ rfl
    · rw [if_neg h0]
      exact go hk _ rfl

theorem reason_takeByte : HasReason takeByte := by
  intro r hc
  unfold takeByte
  rw [Dec.bind_get_run]
  cases hx : r.buf[r.pos]? with
  | none => exact .of_noIo rfl .ub
  | some c =>
    dsimp only
    cases h : addU 32 r.pos 1 with
    | error f =>
      have hn := NoIo.addU 32 r.pos 1
      rw [h] at hn
      exact .of_noIo rfl hn.cast
    | ok p => exact .of_noIo rfl (.ok _)

theorem reason_readU8 : HasReason readU8 :=
  .get fun _ => .ite (.refill (.inl rfl) reason_takeByte) reason_takeByte

theorem reason_readU8OrEof : HasReason readU8OrEof :=
  .get fun _ => .ite (.refill (.inr (.pure _)) (reason_readU8.bind fun _ => .pure _))
    (reason_readU8.bind fun _ => .pure _)

/-- To move the position. -/
theorem reason_set {m : Dec BufferedReader α} (hm : HasReason m) {r r' : BufferedReader} (h : r'.inner = r.inner)
    (hc : r.inner.Contract) : ReasonAt r ((Dec.set r' >>= fun _ => m) r) := by
  rw [Dec.bind_set_run]
  obtain ⟨h1, h2, h3⟩ := hm r' (by rw [h]; exact hc)
  rw [h] at h1 h2 h3
  exact ⟨h1, h2, h3⟩

theorem reason_lift {x : Res α} [hn : NoIo x] {f : α → Dec BufferedReader β} {r : BufferedReader}
    (hf : ∀ a, ReasonAt r (f a r)) : ReasonAt r ((liftM x >>= f) r) := by
  rcases x with e | a
  · exact .of_noIo rfl hn.cast
  · rw [Dec.bind_liftM_of rfl]
    exact hf a

theorem reason_readIntoStep (n : Nat) : HasReason (readIntoStep n) := by
  intro r hc
  unfold readIntoStep
  rw [Dec.bind_get_run]
  refine reason_lift fun avail => reason_lift fun copied => reason_lift fun pos => ?_
  exact reason_set (.ite (.refill (.inl rfl) (.pure _)) (.pure _)) rfl hc

theorem reason_readIntoLoop (fuel : Nat) : ∀ n, HasReason (readIntoLoop fuel n) := by
  induction fuel with
  | zero => exact fun _ => .fail _
  | succ fuel ih =>
    intro n
    rw [readIntoLoop]
    exact .ite ((reason_readIntoStep n).bind fun _ => (ih _).bind fun _ => .pure _) (.pure _)

theorem reason_skipStep (n : Nat) : HasReason (skipStep n) := by
  intro r hc
  unfold skipStep
  rw [Dec.bind_get_run]
  refine reason_lift fun avail => reason_lift fun pos => ?_
  exact reason_set (.ite (.refill (.inl rfl) (.pure _)) (.pure _)) rfl hc

theorem reason_skipLoop (fuel : Nat) : ∀ n, HasReason (skipLoop fuel n) := by
  induction fuel with
  | zero => exact fun _ => .fail _
  | succ fuel ih =>
    intro n
    rw [skipLoop]
    exact .ite ((reason_skipStep n).bind fun _ => ih _) (.pure _)

theorem reason_steps {r r' : BufferedReader} (h : Steps r r') (hc : r.inner.Contract) :
    r'.inner.outcome = r.inner.outcome ∧ r.inner.calls ≤ r'.inner.calls := by
  have go : ∀ {α : Type} {m : Dec BufferedReader α} {a : α} {s s₁ s' : BufferedReader}, HasReason m →
      m s = (.ok a, s₁) → s.inner.Contract → (s₁.inner.Contract → s'.inner.outcome = s₁.inner.outcome ∧
        s₁.inner.calls ≤ s'.inner.calls) →
      s'.inner.outcome = s.inner.outcome ∧ s.inner.calls ≤ s'.inner.calls := by
    intro α m a s s₁ s' hm h hc ih
    obtain ⟨h1, h2, -⟩ := hm s hc
    rw [h] at h1 h2
    obtain ⟨h3, h4⟩ := ih (by unfold Src.Contract; rw [h1]; exact hc)
    exact ⟨h3.trans h1, Nat.le_trans h2 h4⟩
  induction h with
  | nil => exact ⟨rfl, Nat.le_refl _⟩
  | readU8 h _ ih => exact go reason_readU8 h hc ih
  | readU8OrEof h _ ih => exact go reason_readU8OrEof h hc ih
  | readInto h _ ih => exact go (reason_readIntoLoop _ _) h hc ih
  | skip h _ ih => exact go (reason_skipLoop _ _) h hc ih
  | onAlloc h _ ih => exact go (.pure _) h hc ih

/-- The reason for an I/O error. -/
theorem reason_fails {r r' : BufferedReader} {e : IoError} (h : ReaderFails r (.err (.ioError e)) r')
    (hc : r.inner.Contract) : r'.inner.outcome = r.inner.outcome ∧ SourceReason r.inner.calls e r'.inner := by
  obtain ⟨r₁, h1, h2⟩ := h
  obtain ⟨h3, h4⟩ := reason_steps h1 hc
  have hc' : r₁.inner.Contract := by unfold Src.Contract; rw [h3]; exact hc
  have go : ∀ {α : Type} {m : Dec BufferedReader α}, HasReason m → m r₁ = (.error (.err (.ioError e)), r') →
      r'.inner.outcome = r.inner.outcome ∧ SourceReason r.inner.calls e r'.inner := by
    intro α m hm h
    obtain ⟨h5, -, h6⟩ := hm r₁ hc'
    rw [h] at h5 h6
    obtain ⟨h7, h8⟩ := h6 e rfl
    exact ⟨h5.trans h3, Nat.lt_of_le_of_lt h4 h7, h8⟩
  cases h2 with
  | readU8 h => exact go reason_readU8 h
  | readU8OrEof h => exact go reason_readU8OrEof h
  | readInto n h => exact go (reason_readIntoLoop _ _) h
  | skip n h => exact go (reason_skipLoop _ _) h
  | onAlloc n m h => cases h

end BufferedReader

end Claxon
