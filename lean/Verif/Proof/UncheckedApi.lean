import Verif.Proof.UncheckedFrame
import Verif.Proof.ReleaseDec
import Verif.Props.Trace
import Verif.Props.Release
import Verif.Props.Input

/-! Readers, operations and the sample iterator in builds without overflow checks. -/

namespace Claxon

open ReadBytes Spec Claxon.Props

variable {σ α : Type}

/-- A value or an error, or the model gives up. -/
def Quiet (x : Except Fail α) : Prop := Returns x ∨ x = .error .diverged

/-! ### Any reader -/

section

variable [ReadBytes σ] {P : σ → Prop}

/-- How a frame can fail. -/
def Kept (P : σ → Prop) (f : Fail) (s : σ) : Prop := P s ∧ ((∃ e, f = .err e) ∨ f = .diverged)

omit [ReadBytes σ] in
theorem wp_of_returns {m : Dec σ α} (h : ∀ s, P s → Returns (m s).1 ∧ P (m s).2) :
    Wp P (Kept P) m (fun _ => True) := by
  intro s hs
  have := h s hs
  rcases hx : m s with ⟨e | a, s'⟩ <;> rw [hx] at this
  · refine ⟨this.2, .inl ?_⟩
    rcases this.1 with ⟨a, h⟩ | ⟨e, h⟩ <;> cases h
    exact ⟨_, rfl⟩
  · exact ⟨trivial, this.2⟩

theorem NeverPanics.steady (hP : NeverPanics P) : Steady P (Kept P) where
  readU8 := wp_of_returns hP.readU8
  readU8OrEof := wp_of_returns hP.readU8OrEof
  err e s hs := ⟨hs, .inl ⟨e, rfl⟩⟩
  ends n _ s hs := by
    clear * - hP hs
    induction n generalizing s with
    | zero => exact ⟨hs, .inr rfl⟩
    | succ n ih =>
      intro b s' h
      have := (hP.readU8 s hs).2
      rw [h] at this
      exact ih s' this

omit [ReadBytes σ] in
theorem Wp.quiet {m : Dec σ α} {Q : α → Prop} (h : Wp P (Kept P) m Q) {s : σ} (hs : P s) :
    Quiet (m s).1 ∧ P (m s).2 := by
  have := h s hs
  rcases hx : m s with ⟨e | a, s'⟩ <;> rw [hx] at this
  · refine ⟨?_, this.1⟩
    rcases this.2 with ⟨e, rfl⟩ | rfl
    · exact .inl (.inr ⟨e, rfl⟩)
    · exact .inr rfl
  · exact ⟨.inl (.inl ⟨a, rfl⟩), this.2⟩

omit [ReadBytes σ] in
theorem RefRd.refl (I : ReadBytes σ) : RefRd I I where
  readU8 := Ref.refl _
  readU8OrEof := Ref.refl _
  readInto _ := Ref.refl _
  skip _ := Ref.refl _
  onAlloc _ _ := Ref.refl _

end

/-! ### A buffered reader with finitely many bytes to come -/

section

/-- Fewer than `2 ^ 64` bytes are to come. -/
def Finite (fault : Option Nat) (r : BufferedReader) : Prop :=
  ∃ bytes, r.Remaining bytes fault ∧ bytes.length < 2 ^ 64

/-- An error; if it is not an I/O error, one can carry on. -/
def Harmless (fault : Option Nat) (f : Fail) (r : BufferedReader) : Prop :=
  ∃ e, f = .err e ∧ (IsIoError (.error f : Except Fail Unit) = false → Finite fault r)

variable {fault : Option Nat} {r : BufferedReader} {bytes : List U8}

theorem checked_readU8 (hr : r.Remaining bytes fault) :
    (∃ e, (ReadBytes.readU8 r : Except Fail U8 × _).1 = .error (.err (.ioError e))) ∨
      ∃ b rest r', bytes = b :: rest ∧ (ReadBytes.readU8 r : Except Fail U8 × _) = (.ok b, r') ∧
        r'.Remaining rest fault := by
  cases bytes with
  | nil =>
    left
    cases fault with
    | none => exact ⟨_, C03_readU8.2.1 r [] (by decide) hr⟩
    | some code => exact ⟨_, C03_readU8.2.2.1 r [] code (by decide) hr⟩
  | cons b rest =>
    right
    obtain ⟨a, r', h1, h2, h3⟩ := C03_readU8.1 r [b] rest fault rfl hr
    cases h2
    exact ⟨b, rest, r', rfl, h1, h3⟩

theorem unchecked_readU8 (hr : r.Remaining bytes fault) :
    @ReadBytes.readU8 _ (@BufferedReader.instReadBytesOfBuild uncheckedBuild) r =
      (ReadBytes.readU8 r : Except Fail U8 × _) := by
  refine ((BufferedReader.refRd uncheckedBuild).readU8).eq_of fun p => ?_
  rcases checked_readU8 hr with ⟨e, h⟩ | ⟨b, rest, r', -, h, -⟩ <;> rw [h] <;> simp

theorem checked_readU8OrEof (hr : r.Remaining bytes fault) :
    (∃ e, (ReadBytes.readU8OrEof r : Except Fail (Option U8) × _).1 = .error (.err (.ioError e))) ∨
      ∃ b rest r', rest.length ≤ bytes.length ∧
        (ReadBytes.readU8OrEof r : Except Fail (Option U8) × _) = (.ok b, r') ∧ r'.Remaining rest fault := by
  have hsim := (simBufferedRd fault).readU8OrEof
  cases bytes with
  | nil =>
    cases fault with
    | none =>
      right
      obtain ⟨r', h1, h2⟩ := Sim.ok hsim hr (show _ = ((.ok none : Except Fail (Option U8)), (⟨[], none⟩ : Flat)) from rfl)
      exact ⟨none, [], r', Nat.le_refl _, h1, h2⟩
    | some code =>
      left
      exact ⟨_, Sim.result hsim hr⟩
  | cons b rest =>
    right
    obtain ⟨r', h1, h2⟩ := Sim.ok hsim hr (show _ = ((.ok (some b) : Except Fail (Option U8)), (⟨rest, fault⟩ : Flat)) from rfl)
    exact ⟨some b, rest, r', by simp, h1, h2⟩

theorem unchecked_readU8OrEof (hr : r.Remaining bytes fault) :
    @ReadBytes.readU8OrEof _ (@BufferedReader.instReadBytesOfBuild uncheckedBuild) r =
      (ReadBytes.readU8OrEof r : Except Fail (Option U8) × _) := by
  refine ((BufferedReader.refRd uncheckedBuild).readU8OrEof).eq_of fun p => ?_
  rcases checked_readU8OrEof hr with ⟨e, h⟩ | ⟨b, rest, r', -, h, -⟩ <;> rw [h] <;> simp

theorem finite_ends {n : Nat} : ∀ {r : BufferedReader} {bytes : List U8}, r.Remaining bytes fault → bytes.length < n →
    @Ends _ (@BufferedReader.instReadBytesOfBuild uncheckedBuild) (Harmless fault) n r := by
  induction n with
  | zero => exact fun _ h => absurd h (by omega)
  | succ n ih =>
    intro r bytes hr hn b r' h
    rw [unchecked_readU8 hr] at h
    rcases checked_readU8 hr with ⟨e, h'⟩ | ⟨b, rest, r', hbs, h', hr'⟩
    · rw [h] at h'; cases h'
    · rw [h] at h'
      cases h'
      subst hbs
      exact ih hr' (by simpa using hn)

theorem steady_finite (fault : Option Nat) :
    @Steady _ (@BufferedReader.instReadBytesOfBuild uncheckedBuild) (Finite fault) (Harmless fault) :=
  @Steady.mk _ (@BufferedReader.instReadBytesOfBuild uncheckedBuild) _ _
    (by
      rintro r ⟨bytes, hr, hlt⟩
      rw [unchecked_readU8 hr]
      rcases checked_readU8 hr with ⟨e, h⟩ | ⟨b, rest, r', hbs, h, hr'⟩
      · generalize ReadBytes.readU8 r = x at h
        rcases x with ⟨x, r'⟩
        cases h
        exact ⟨_, rfl, fun h => by cases h⟩
      · rw [h]
        subst hbs
        exact ⟨trivial, rest, hr', Nat.lt_trans (by simp) hlt⟩)
    (by
      rintro r ⟨bytes, hr, hlt⟩
      rw [unchecked_readU8OrEof hr]
      rcases checked_readU8OrEof hr with ⟨e, h⟩ | ⟨b, rest, r', hle, h, hr'⟩
      · generalize ReadBytes.readU8OrEof r = x at h
        rcases x with ⟨x, r'⟩
        cases h
        exact ⟨_, rfl, fun h => by cases h⟩
      · rw [h]
        exact ⟨trivial, rest, hr', by omega⟩)
    (fun e r hr => ⟨e, rfl, fun _ => hr⟩)
    (by
      rintro n hn r ⟨bytes, hr, hlt⟩
      exact finite_ends hr (by omega))

end

/-! ### The sample iterator -/

section

variable [t : Target] (hw : 32 ≤ t.usizeBits) [bd : Build] (hb : bd.checked = false) [ReadBytes σ]
  {P : σ → Prop} {E : Fail → σ → Prop} (hP : Steady P E)

/-- The states of the iterator: it has failed, or it is in a block or outside of all blocks. -/
def Going (P : σ → Prop) (it : FlacSamples σ) : Prop :=
  it.hasFailed = true ∨ P it.frameReader ∧
    ((it.block.channels = 0 ∧ it.block.blockSize = 0) ∨ ∃ buffer, it.block.Shape buffer ∧
      it.channel < it.block.channels ∧ it.sample < it.block.blockSize)

/-- How the iterator can fail: not with an error. -/
def Stuck (E : Fail → σ → Prop) (f : Fail) (it : FlacSamples σ) : Prop :=
  E f it.frameReader ∧ (∀ e, f ≠ .err e) ∧ it.block.channels = 0 ∧ it.block.blockSize = 0

include hw in
omit bd [ReadBytes σ] in
theorem total_sample [Build] {b : Block} {buffer : VecI32} (h : b.Shape buffer) {c i : Nat} (hc : c < b.channels)
    (hi : i < b.blockSize) : Total (b.sample c i) := by
  rw [h.sample_eq hw hc hi]
  refine ⟨_, index_ok (i := c * b.blockSize + i) ?_⟩
  rw [h.length]
  have : (c + 1) * b.blockSize ≤ b.channels * b.blockSize := Nat.mul_le_mul_right _ hc
  rw [Nat.add_mul, Nat.one_mul] at this
  omega

include hw in
omit [ReadBytes σ] in
theorem wp_current {it : FlacSamples σ} (hr : P it.frameReader) {buffer : VecI32} (h : it.block.Shape buffer)
    (hc : it.channel < it.block.channels) (hi : it.sample < it.block.blockSize) :
    Wpr (Going P) (Stuck E) (fun _ => True) (FlacSamples.current it) := by
  obtain ⟨v, hv⟩ := total_sample (t := t) hw h hc hi
  unfold FlacSamples.current
  rw [Dec.bind_get_run, Dec.bind_liftM_of hv]
  exact ⟨trivial, .inr ⟨hr, .inr ⟨buffer, h, hc, hi⟩⟩⟩

include hw hb hP in
theorem wp_nextBlock {it : FlacSamples σ} (hr : P it.frameReader) (hc : it.channel = 0) :
    Wpr (Going P) (Stuck E) (fun _ => True) (FlacSamples.nextBlock it) := by
  have hf := wp_frame hb hP it.block.intoBuffer it.frameReader hr
  unfold FlacSamples.nextBlock
  rw [Dec.bind_get_run, Dec.bind_set_run, Dec.bind_def]
  unfold Dec.catchErr FlacSamples.onReader
  rw [Dec.zoom_run]
  simp only
  rcases hx : readNextOrEof it.block.intoBuffer it.frameReader with ⟨(e | p | _ | _) | _ | b, s'⟩ <;>
    rw [hx] at hf
  · exact ⟨trivial, .inl rfl⟩
  · exact ⟨hf, by simp, rfl, rfl⟩
  · exact ⟨hf, by simp, rfl, rfl⟩
  · exact ⟨hf, by simp, rfl, rfl⟩
  · exact ⟨trivial, .inr ⟨hf.2, .inl ⟨rfl, rfl⟩⟩⟩
  · have hs := hf.1 b rfl
    refine wp_current hw hf.2 hs ?_ ?_
    · show it.channel < _
      rw [hc]
      exact hs.channels.1
    · exact hs.blockSize.1

include hw hb hP in
theorem wp_next : Wp (Going P) (Stuck E) (FlacSamples.next : Dec (FlacSamples σ) _) (fun _ => True) := by
  intro it hit
  unfold FlacSamples.next
  rw [Dec.bind_get_run]
  by_cases hf : it.hasFailed = true
  · rw [if_pos hf]
    exact ⟨trivial, .inl hf⟩
  rw [if_neg hf]
  obtain ⟨hr, hit⟩ := hit.resolve_left hf
  rcases hit with ⟨h1, h2⟩ | ⟨buffer, hs, hc, hi⟩
  · obtain ⟨c, hc⟩ := total_addU hb 32 it.channel 1
    obtain ⟨i, hi⟩ := total_addU hb 32 it.sample 1
    rw [Dec.bind_liftM_of hc, if_pos (by omega), Dec.bind_liftM_of hi, Dec.bind_set_run,
      if_pos (by rw [Block.duration, h2]; omega)]
    exact wp_nextBlock hw hb hP hr rfl
  · have hb8 := hs.channels
    have hb16 := hs.blockSize
    have h1 : addU 32 it.channel 1 = .ok (it.channel + 1) := if_pos (by omega)
    have h2 : addU 32 it.sample 1 = .ok (it.sample + 1) := if_pos (by omega)
    rw [Dec.bind_liftM_of h1]
    by_cases hge : it.channel + 1 ≥ it.block.channels
    · rw [if_pos hge, Dec.bind_liftM_of h2, Dec.bind_set_run]
      by_cases hd : it.sample + 1 ≥ it.block.duration
      · rw [if_pos hd]
        exact wp_nextBlock hw hb hP hr rfl
      · rw [if_neg hd]
        exact wp_current hw hr hs hb8.1 (Nat.lt_of_not_le hd)
    · rw [if_neg hge, Dec.bind_set_run]
      exact wp_current hw hr hs (Nat.lt_of_not_le hge) hi

end

end Claxon
