import Verif.Proof.Frame
import Verif.Proof.Client

/-! # Sources and frames for the examples -/

namespace Claxon.Props

open Claxon Spec

/-- A source that delivers the given bytes one by one. -/
def bytewise (bytes : List U8) : Src where
  outcome := fun k =>
    match bytes[k]? with
    | some b => .ok 1 [b]
    | none => .ok 0 []
  calls := 0

theorem bytewise_delivers (bytes : List U8) : (bytewise bytes).Delivers bytes none := by
  have gen : ∀ (tail : List U8) (k : Nat), bytes.drop k = tail →
      Delivers (bytewise bytes).outcome k tail none := by
    intro tail
    induction tail with
    | nil =>
      intro k hk
      refine .eof fun j hj => ⟨[], ?_⟩
      have : bytes.length ≤ k := List.drop_eq_nil_iff.1 hk
      simp only [bytewise]
      rw [List.getElem?_eq_none (by omega)]
    | cons b tail ih =>
      intro k hk
      have hb : bytes[k]? = some b := by
        rw [← List.head?_drop, hk]; rfl
      refine .chunk (k := k) (n := 1) (written := [b]) (rest := tail) ?_ (by omega) (by decide)
        (by simp) (ih (k + 1) ?_)
      · simp only [bytewise]
        rw [hb]
      · rw [← List.drop_drop, hk]; rfl
  exact gen bytes 0 rfl

/-- Every byte string can be to come. -/
theorem bytewise_remaining (bytes : List U8) :
    (BufferedReader.new (bytewise bytes)).Remaining bytes none :=
  BufferedReader.Remaining.new (bytewise_delivers bytes)

/-- A frame with the channels 5, 7, 6, 6 and 3, 4, 8, 2, coded as mid (a fixed predictor of order 1) and
side (a linear predictor of order 1), with 16 bits per sample. -/
def exampleFrame : Frame where
  header :=
    { variableBlockSize := false, blockSize := .bits8 3, sampleRate := .table 8, channels := .midSide
      sampleSize := .bits16, number := 300, numberLength := 1 }
  subframes :=
    [⟨.fixed [4] ⟨.rice, 0, [⟨1, [1, 2, -3]⟩]⟩, 0⟩,
      ⟨.lpc [2] 3 0 [1] ⟨.rice, 0, [⟨2, [1, -5, 6]⟩]⟩, 0⟩]
  padding := List.replicate 6 false

/-- The channels of the example. -/
def exampleChannels : List (List Int) := [[5, 7, 6, 6], [3, 4, 8, 2]]

theorem exampleFrame_encodes : exampleFrame.Encodes 16 exampleChannels where
  legal :=
    { header := ⟨by decide, by decide, by decide⟩
      sampleSize := rfl
      count := rfl
      subframes := by
        intro p hp
        have : p = (16, ⟨.fixed [4] ⟨.rice, 0, [⟨1, [1, 2, -3]⟩]⟩, 0⟩) ∨
            p = (17, ⟨.lpc [2] 3 0 [1] ⟨.rice, 0, [⟨2, [1, -5, 6]⟩]⟩, 0⟩) := by
          simpa [exampleFrame, ChannelField.depths] using hp
        rcases this with rfl | rfl
        · exact ⟨⟨by decide, by decide, by decide,
            ⟨by decide, by decide, by decide, by decide, by decide, by decide⟩⟩,
            by unfold Coding.ResidualInRange Residual.InRange; decide, by decide⟩
        · exact ⟨⟨by decide, by decide, by decide, by decide, by decide, by decide, by decide, by decide,
            by decide,
            ⟨by decide, by decide, by decide, by decide, by decide, by decide⟩⟩,
            by unfold Coding.ResidualInRange Residual.InRange; decide, by decide⟩
      padding := by decide
      aligned := by decide +kernel }
  count := rfl
  size := by decide
  range := by decide
  signals := by decide

end Claxon.Props
