import Verif.Props.Session

/-! # C94: when there is nothing to read

The documentation of `FrameReader::new` says that the reader will yield at least one element. -/

namespace Claxon.Props

open Claxon Spec ReadBytes

variable {r : BufferedReader} {bytes : List U8} {fault : Option Nat}

/-- **C94, as documented, is false:** at the end of the input, a frame reader yields nothing. -/
theorem C94_false : ¬ ∀ (bytes : List U8) (r : BufferedReader) (buffer : VecI32), r.Remaining bytes none →
    (readNextOrEof buffer r).1 ≠ .ok none := by
  intro h
  exact h [] _ .empty (bytewise_remaining []) (by decide +kernel)

/-- **C94, what holds:** a frame reader yields nothing exactly if its input ends before the second byte. -/
theorem C94_frames_partial (hr : r.Remaining bytes fault) (buffer : VecI32) :
    (readNextOrEof buffer r).1 = .ok none ↔ bytes.length < 2 ∧ fault = none := by
  constructor
  · intro h
    have := C81_outcome buffer hr
    rw [h] at this
    exact this
  · rintro ⟨h1, rfl⟩
    exact short_none buffer hr h1

/-- The first call of the iterator. -/
theorem next_new_none {σ : Type} [ReadBytes σ] (s : σ) :
    (FlacSamples.next (FlacSamples.new s)).1 = .ok none ↔ (readNextOrEof .empty s).1 = .ok none := by
  have h1 : FlacSamples.next (FlacSamples.new s) =
      FlacSamples.nextBlock { FlacSamples.new s with channel := 0, sample := 1 } := rfl
  have h2 : ∀ x s', readNextOrEof .empty s = (x, s') →
      FlacSamples.onReader (readNextOrEof .empty) (FlacSamples.new s) =
        (x, { FlacSamples.new s with frameReader := s' }) := by
    intro x s' h
    show ((readNextOrEof .empty s).1, _) = _
    rw [h]
    show (x, { FlacSamples.new s with frameReader := (readNextOrEof .empty s).2 }) = _
    rw [h]
  rw [h1]
  unfold FlacSamples.nextBlock
  rw [Dec.bind_get_run, Dec.bind_set_run]
  show ((Dec.catchErr (FlacSamples.onReader (readNextOrEof .empty)) >>= _) (FlacSamples.new s)).1 = _ ↔ _
  have h3 : ∀ {m : Dec (FlacSamples σ) (Option Block)} {st x st'}, m st = (x, st') →
      Dec.catchErr m st = match x with
        | .ok a => (.ok (.ok a), st')
        | .error (.err e) => (.ok (.error e), st')
        | .error f => (.error f, st') := by
    intro m st x st' h
    unfold Dec.catchErr
    rw [h]
    rcases x with f | a
    · cases f <;> rfl
    · rfl
  rcases hx : readNextOrEof .empty s with ⟨(f | _ | b), s'⟩
  · have h4 := h3 (h2 _ _ hx)
    cases f with
    | err e =>
      rw [Dec.bind_ok _ h4]
      exact ⟨fun h => (by cases h), fun h => (by cases h)⟩
    | _ =>
      rw [Dec.bind_error _ h4]
      exact ⟨fun h => (by cases h), fun h => (by cases h)⟩
  · rw [Dec.bind_ok _ (h3 (h2 _ _ hx))]
    exact ⟨fun _ => rfl, fun _ => rfl⟩
  · rw [Dec.bind_ok _ (h3 (h2 _ _ hx))]
    simp only [Dec.bind_get_run, Dec.bind_set_run]
    unfold FlacSamples.current
    rw [Dec.bind_get_run]
    simp only
    rcases b.sample _ _ with f | x
    · exact ⟨fun h => (by cases h), fun h => (by cases h)⟩
    · exact ⟨fun h => (by cases h), fun h => (by cases h)⟩

/-- **C94.** So does the sample iterator: there is a sample or an error if there are at least two bytes, or an error of
the source, where the frames should be. -/
theorem C94_samples_partial (hr : r.Remaining bytes fault) :
    (FlacSamples.next (FlacSamples.new r)).1 = .ok none ↔ bytes.length < 2 ∧ fault = none := by
  rw [next_new_none, C94_frames_partial hr]

/-- Inputs of no byte and of one byte, and one of two bytes. -/
example : (FlacSamples.next (FlacSamples.new (BufferedReader.new (bytewise [])))).1 = .ok none ∧
    (FlacSamples.next (FlacSamples.new (BufferedReader.new (bytewise [0xff])))).1 = .ok none ∧
    (FlacSamples.next (FlacSamples.new (BufferedReader.new (bytewise [0xff, 0xf8])))).1 =
      .ok (some (.error (.ioError .unexpectedEof))) := by
  decide +kernel

end Claxon.Props
