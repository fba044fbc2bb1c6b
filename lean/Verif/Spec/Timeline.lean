import Verif.Spec.Frame
import Verif.Model.Block

/-! # Where blocks are in a stream

How the format numbers the frames of a stream, and what the user is told about the position of blocks. -/

namespace Spec

open Claxon

/-- The headers of a stream with a variable block size: every header has the number of samples (per channel) that come
before its block. -/
def NumberedBySample : (start : Nat) → List FrameHeader → Prop
  | _, [] => True
  | start, h :: hs =>
    h.variableBlockSize = true ∧ h.number = start ∧ NumberedBySample (start + h.blockSize.size) hs

/-- The headers of a stream with a fixed block size: every header has the number of frames that come before it, and all
blocks have the same size, but for the last one, which may be shorter. -/
def NumberedByFrame (size : Nat) : (index : Nat) → List FrameHeader → Prop
  | _, [] => True
  | index, h :: hs =>
    h.variableBlockSize = false ∧ h.number = index ∧
      (h.blockSize.size = size ∨ hs = [] ∧ h.blockSize.size ≤ size) ∧ NumberedByFrame size (index + 1) hs

/-- The time of every block is the number of samples (per channel) of all blocks before it, and of `start` more. -/
def Consecutive : (start : Nat) → List Block → Prop
  | _, [] => True
  | start, b :: blocks => b.time = start ∧ Consecutive (start + b.duration) blocks

end Spec
