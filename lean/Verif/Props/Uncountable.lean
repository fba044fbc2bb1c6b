import Verif.Props.Session

/-! # C85: exactly when reading a frame panics -/

namespace Claxon.Props

open Claxon Spec ReadBytes

variable {r : BufferedReader} {bytes : List U8} {fault : Option Nat}

/-- **C85.** Reading a frame panics with an arithmetic overflow exactly if the input begins with a frame in which there
are more zeros in a row than can be counted. -/
theorem C85_overflow (buffer : VecI32) (hr : r.Remaining bytes fault) :
    (readNextOrEof buffer r).1 = .error (.panic .overflow) ↔ Uncountable bytes :=
  uncountable_result buffer hr

/-- **C85.** In all other cases it returns. -/
theorem C85_returns (buffer : VecI32) (hr : r.Remaining bytes fault) :
    Returns (readNextOrEof buffer r).1 ↔ ¬ Uncountable bytes := by
  constructor
  · intro h hu
    rw [(C85_overflow buffer hr).2 hu] at h
    rcases h with ⟨a, h⟩ | ⟨e, h⟩ <;> cases h
  · intro h
    rcases C27_partial buffer hr with h1 | ⟨h1, -⟩
    · exact h1
    · exact absurd ((C85_overflow buffer hr).1 h1) h

/-- **C85.** What cannot be counted is neither a frame, nor is there any other reason to refuse it. -/
theorem C85_exclusive (h : Uncountable bytes) : ¬ BeginsWithFrame bytes ∧ ∀ e, ¬ Refused bytes e :=
  ⟨fun hf => not_uncountable_of_frame hf h, fun e he => (C81_unique (e' := e) he).2.2 h⟩

/-- **C85.** It takes `2 ^ 32 - 1` zero bits in a row, and so half a gigabyte. -/
theorem C85_size (h : Uncountable bytes) : LongZeros (bytesToBits bytes) ∧ 2 ^ 29 ≤ bytes.length :=
  ⟨uncountable_longZeros h, longZeros_length (uncountable_longZeros h)⟩

/-- **C85.** It depends only on the bytes up to the last of the zeros that are counted: whatever comes after them, and
however the source ends, it panics. -/
theorem C85_prefix (h : Uncountable bytes) (more : List U8) : Uncountable (bytes ++ more) := by
  obtain ⟨used, rest, rfl, h⟩ := h
  exact ⟨used, rest ++ more, by simp, h⟩

/-! ## Examples -/

/-- The frame of `C27_false`: the header of a constant subframe that announces wasted bits, zeros, and a one. -/
theorem uncountable_huge {n : Nat} (hn : 2 ^ 29 ≤ n) : Uncountable (hugeFrame n) := by
  have hr := bytewise_remaining (hugeFrame n)
  rw [← C85_overflow .empty hr, Sim.result ((simBufferedRd none).readNextOrEof .empty) hr]
  exact hugeFrame_panics hn _ _

/-- The input of C27 that begins with an uncountable frame, and the input of C24 that does not. -/
example : (readNextOrEof .empty (BufferedReader.new (bytewise (hugeFrame (2 ^ 29))))).1 = .error (.panic .overflow) ∧
    Returns (readNextOrEof .empty (BufferedReader.new (bytewise (exampleFrame.bytes 16)))).1 :=
  ⟨(C85_overflow _ (bytewise_remaining _)).2 (uncountable_huge (Nat.le_refl _)),
    (C85_returns _ (bytewise_remaining _)).2 fun h =>
      absurd (C85_size h).2 (Nat.not_le.2 (Nat.lt_of_le_of_lt (show _ ≤ 100 by decide +kernel) (by decide)))⟩

/-- A subframe with a fixed predictor of order 1: the value 3, a residual with the parameter 2 and the values 1 and -5,
and then zeros. -/
theorem uncountable_quotient : UncountableSubframe 16 4 (subframeHeaderBits 9 0 ++ intToBits 16 3 ++
    (natToBits 2 0 ++ natToBits 4 0 ++ (natToBits 4 2 ++ riceBits 2 1 ++ riceBits 2 (-5)) ++
      List.replicate (2 ^ 32) false)) := by
  have h := UncountableResidual.quotient (blockSize := 4) (order := 1) .rice 0 (by decide) (by decide) (by decide) []
    (by simp) (by simp) 3 rfl ⟨2, [1, -5]⟩ (by decide) (by decide) (by decide)
  have := UncountableSubframe.fixedResidual (bps := 16) (blockSize := 4) [3] 0 (by decide) (by decide) (by decide)
    (by decide) _ h
  simp only [List.flatMap_nil, List.append_nil, Partition.bits, List.flatMap_cons, List.append_assoc] at this ⊢
  exact this

end Claxon.Props
