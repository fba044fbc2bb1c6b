import Verif.Spec.Checked
import Verif.Model.Block

/-! # The parts of a block, where no operation overflows -/

namespace Claxon

variable [Build] [Target]

theorem Block.channel_of {b : Block} {ch : Nat} (h1 : (ch + 1) * b.blockSize < 2 ^ Target.usizeBits)
    (h2 : ch + 1 < 2 ^ Target.usizeBits) :
    b.channel ch = slice b.buffer.data (ch * b.blockSize) ((ch + 1) * b.blockSize) := by
  have h3 : ch * b.blockSize < 2 ^ Target.usizeBits :=
    Nat.lt_of_le_of_lt (Nat.mul_le_mul_right _ (Nat.le_succ _)) h1
  have e1 : mulU Target.usizeBits ch b.blockSize = .ok (ch * b.blockSize) := if_pos h3
  have e2 : addU Target.usizeBits ch 1 = .ok (ch + 1) := if_pos h2
  have e3 : mulU Target.usizeBits (ch + 1) b.blockSize = .ok ((ch + 1) * b.blockSize) := if_pos h1
  rw [Block.channel, e1]
  show (addU Target.usizeBits ch 1 >>= _) = _
  rw [e2]
  show (mulU Target.usizeBits (ch + 1) b.blockSize >>= _) = _
  rw [e3]
  rfl

theorem Block.sample_of {b : Block} {ch i : Nat} (h : ch * b.blockSize + i < 2 ^ Target.usizeBits) :
    b.sample ch i = index b.buffer.data (ch * b.blockSize + i) := by
  have e1 : mulU Target.usizeBits ch b.blockSize = .ok (ch * b.blockSize) := if_pos (by omega)
  have e2 : addU Target.usizeBits (ch * b.blockSize) i = .ok (ch * b.blockSize + i) := if_pos h
  rw [Block.sample, e1]
  show (addU Target.usizeBits (ch * b.blockSize) i >>= _) = _
  rw [e2]
  rfl

theorem Block.stereoSamples_of {b : Block} (h : b.blockSize * 2 < 2 ^ Target.usizeBits) :
    b.stereoSamples = if b.channels ≠ 2 then panicRes .explicit
      else if b.buffer.len ≥ b.blockSize * 2 then
        .ok { buffer := b.buffer.data, blockDuration := b.blockSize, currentSample := 0 }
      else panicRes .explicit := by
  have e : mulU Target.usizeBits b.blockSize 2 = .ok (b.blockSize * 2) := if_pos h
  rw [Block.stereoSamples, e]
  rfl

end Claxon
