import Verif.Proof.Memory
import Verif.Props.Input
import Verif.Props.Trace

/-! # C67: what `read_into` does to the buffer, and uninitialised memory -/

namespace Claxon.Props

open Claxon Spec ReadBytes

/-- **C67.** If `read_into` of the buffered reader succeeds, it has overwritten the whole buffer, whatever was
in it, with the bytes that were read. This holds for every state of the reader, every source (also one that
violates its contract), and however the code is compiled. -/
theorem C67_filled [Build] {r r' : BufferedReader} {buffer buffer' : List Cell}
    (h : BufferedReader.fill (r, buffer) = (.ok (), (r', buffer'))) :
    ∃ bytes : List U8, bytes.length = buffer.length ∧ buffer' = bytes.map some ∧
      BufferedReader.readInto buffer.length r = (.ok bytes, r') := by
  rcases BufferedReader.fill_eq r buffer with ⟨bytes, r2, hl, h1, h2⟩ | ⟨f, front, r2, _, h1, h2⟩
  · rw [h2] at h
    simp only [Prod.mk.injEq, true_and] at h
    obtain ⟨rfl, rfl⟩ := h
    exact ⟨bytes, hl, rfl, h1⟩
  · rw [h2] at h; simp at h

/-- **C67.** If it fails, the front of the buffer has been overwritten, and the rest is as it was. -/
theorem C67_failed [Build] {r r' : BufferedReader} {buffer buffer' : List Cell} {f : Fail}
    (h : BufferedReader.fill (r, buffer) = (.error f, (r', buffer'))) :
    BufferedReader.readInto buffer.length r = (.error f, r') ∧
    ∃ front : List U8, front.length ≤ buffer.length ∧
      buffer' = front.map some ++ buffer.drop front.length := by
  rcases BufferedReader.fill_eq r buffer with ⟨bytes, r2, hl, h1, h2⟩ | ⟨f, front, r2, hl, h1, h2⟩
  · rw [h2] at h; simp at h
  · rw [h2] at h
    simp only [Prod.mk.injEq, Except.error.injEq] at h
    obtain ⟨rfl, rfl, rfl⟩ := h
    exact ⟨h1, front, hl, rfl⟩

/-- **C67.** What the buffer contains afterwards: the bytes that come next if there are enough of them.
Otherwise `read_into` fails with the error of the source or for the end of the file, and all bytes that were
left are in the front of the buffer. -/
theorem C67_contents {r : BufferedReader} {bytes : List U8} {fault : Option Nat}
    (hr : r.Remaining bytes fault) (buffer : List Cell) :
    (buffer.length ≤ bytes.length →
      ∃ r', BufferedReader.fill (r, buffer) = (.ok (), (r', (bytes.take buffer.length).map some)) ∧
        r'.Remaining (bytes.drop buffer.length) fault) ∧
    (bytes.length < buffer.length →
      ∃ r', BufferedReader.fill (r, buffer) =
        (.error (.err (.ioError (fault.elim .unexpectedEof .inner))),
          (r', bytes.map some ++ buffer.drop bytes.length))) := by
  have hrel := hr.rel
  have hs := BufferedReader.readIntoLoop_spec (buffer.length + 2) buffer.length r ⟨bytes, fault⟩ hrel
    (.inl (Nat.le_refl _))
  constructor
  · intro hle
    rw [Flat.readInto, if_pos hle] at hs
    rcases hs with ⟨h1, h2⟩ | ⟨f, _, _, h3⟩
    · rcases BufferedReader.fill_eq r buffer with ⟨bs, r2, hl, h4, h5⟩ | ⟨f, front, r2, hl, h4, h5⟩
      · rw [BufferedReader.readInto] at h4
        rw [h4] at h1 h2
        simp only [Except.ok.injEq] at h1
        exact ⟨r2, by rw [h5, h1], ⟨h2.cap, h2.pos, h2.valid, h2.rest⟩⟩
      · rw [BufferedReader.readInto] at h4
        rw [h4] at h1; simp at h1
    · exact absurd (h3 trivial) (by simp)
  · intro hlt
    rw [Flat.readInto, if_neg (by simp only; omega)] at hs
    have key : ∀ e r2, BufferedReader.readIntoLoop (buffer.length + 2) buffer.length r =
        (.error (.err e), r2) →
        BufferedReader.fill (r, buffer) = (.error (.err e), (r2, bytes.map some ++ buffer.drop bytes.length)) := by
      intro e r2 he
      rcases BufferedReader.fill_eq r buffer with ⟨bs, r3, hl, h4, h5⟩ | ⟨f, front, r3, hl, h4, h5⟩
      · rw [BufferedReader.readInto, he] at h4; simp at h4
      · rw [BufferedReader.readInto, he] at h4
        simp only [Prod.mk.injEq, Except.error.injEq] at h4
        obtain ⟨rfl, rfl⟩ := h4
        have h6 := (BufferedReader.fillLoop_short _ _ _ _ _ _ _ _ hrel (Nat.le_refl _) h5).2
        rw [h5, h6, BufferedReader.put]
        simp
    rcases hx : BufferedReader.readIntoLoop (buffer.length + 2) buffer.length r with ⟨v, r2⟩
    rw [hx] at hs
    cases fault with
    | none =>
      rcases hs with ⟨h1, h2⟩ | ⟨f, _, ⟨code, h2, _⟩, _⟩
      · simp only at h1
        subst h1
        exact ⟨r2, key _ _ hx⟩
      · cases h2
    | some c =>
      rcases hs with ⟨h1, h2⟩ | ⟨f, h1, ⟨code, h2, h4⟩, _⟩
      · simp only at h1
        subst h1
        exact ⟨r2, key _ _ hx⟩
      · simp only [Option.some.injEq] at h2
        subst h2 h4
        simp only at h1
        subst h1
        exact ⟨r2, key _ _ hx⟩

/-- **C67.** A cursor fills the whole buffer, or fails without touching it; its position is then unchanged
too. -/
theorem C67_cursor [Build] {c : Cursor} {buffer : List Cell} (hc : c.pos < 2 ^ 64)
    (hb : buffer.length < 2 ^ 64) :
    (∃ bytes c', bytes.length = buffer.length ∧ Cursor.readInto buffer.length c = (.ok bytes, c') ∧
      Cursor.fill (c, buffer) = (.ok (), (c', bytes.map some))) ∨
    ∃ f, Cursor.readInto buffer.length c = (.error f, c) ∧ Cursor.fill (c, buffer) = (.error f, (c, buffer)) :=
  Cursor.fill_eq hc hb

/-- **C67.** Hence the reader that fills vectors of uninitialised memory is the one of the rest of the model;
all properties hold for it too. -/
theorem C67_same [Build] : BufferedReader.onMemory = (inferInstance : ReadBytes BufferedReader) := by
  unfold BufferedReader.onMemory
  have : readVec BufferedReader.fill = BufferedReader.readInto := funext BufferedReader.readVec_eq
  rw [this]
  rfl

/-- **C67.** And the same of a cursor, whose position and lengths are of 64 bits. -/
theorem C67_sameCursor [Build] {c : Cursor} {len : Nat} (hc : c.pos < 2 ^ 64) (hl : len < 2 ^ 64) :
    Cursor.onMemory.readInto len c = (inferInstance : ReadBytes Cursor).readInto len c := by
  show readVec Cursor.fill len c = Cursor.readInto len c
  have h := Cursor.fill_eq (buffer := List.replicate len none) hc (by rwa [List.length_replicate])
  rw [List.length_replicate] at h
  unfold readVec
  rcases h with ⟨bytes, c', -, h1, h2⟩ | ⟨f, h1, h2⟩
  · rw [h1, h2]
    simp only [initialised_some]
  · rw [h1, h2]

/-- The application block of a stream in memory, from the middle of the data. -/
example : (⟨[1, 2, 3, 4, 5], 1⟩ : Cursor).pos < 2 ^ 64 ∧
    (Cursor.onMemory.readInto 3 (⟨[1, 2, 3, 4, 5], 1⟩ : Cursor)).1 = .ok [2, 3, 4] := by
  decide +kernel

/-- **C67.** In particular, opening a stream and reading its metadata never looks at uninitialised memory, for
no source that honours its contract, also not after failures of the source. -/
theorem C67_metadata {src : Src} (hc : src.Contract) :
    (∀ fuel o,
      Returns (@FlacReader.newExtGen _ _ BufferedReader.onMemory fuel (BufferedReader.new src) o) ∨
      @FlacReader.newExtGen _ _ BufferedReader.onMemory fuel (BufferedReader.new src) o = .error .diverged) ∧
    ∀ n, ∀ x ∈ calls (@MetadataBlockReader.next _ BufferedReader.onMemory _) n
      (MetadataBlockReader.new (BufferedReader.new src)), ∃ y, x = .ok y := by
  have h := @C67_same checkedBuild
  rw [h]
  exact ⟨fun fuel o => C58_open (buffered_neverPanics src.outcome) fuel o _ (buffered_new hc),
    fun n => C58_metadata (buffered_neverPanics src.outcome) n _ (buffered_new hc)⟩

/-- **C67.** What the code relies on: the implementation of `read_into` fills the buffer. With one that does
not, which can be written without `unsafe`, the application block contains uninitialised memory. -/
theorem C67_contract_needed :
    ∃ fill : Dec (List U8 × List Cell) Unit, ∀ n s, readVec fill (n + 1) s = (.error .ub, s) :=
  ⟨fun s => (.ok (), s), fun _ _ => rfl⟩

/-- Three bytes of a buffer of four can be read; the last cell remains uninitialised, and the call fails. -/
example : (BufferedReader.fill (BufferedReader.new exampleSource, [none, none, some 1, none])).1 =
      .error (.err (.ioError .unexpectedEof)) ∧
    (BufferedReader.fill (BufferedReader.new exampleSource, [none, none, some 1, none])).2.2 =
      [some 0x12, some 0x34, some 0x56, none] := by
  decide +kernel

/-- A buffer of three is filled, from two chunks. -/
example : (BufferedReader.fill (BufferedReader.new exampleSource, [none, some 7, none])).1 = .ok () ∧
    (BufferedReader.fill (BufferedReader.new exampleSource, [none, some 7, none])).2.2 =
      [some 0x12, some 0x34, some 0x56] := by
  decide +kernel

/-- The hypotheses of `C67_contents`. -/
example : (BufferedReader.new exampleSource).Remaining [0x12, 0x34, 0x56] none :=
  BufferedReader.Remaining.new exampleSource_delivers

end Claxon.Props
