import Verif.Spec.Checked
import Verif.Model.Block

/-! # What a block holds, in terms of its accessors -/

namespace Spec

open Claxon

/-- The block starts at the given time and has the given channels: `time()`, `channels()`, `duration()`,
`len()`, and `channel(c)` for all channels. -/
structure _root_.Claxon.Block.Holds (b : Block) (time : Nat) (channels : List (List Int)) : Prop where
  time : b.time = time
  count : b.channels = channels.length
  duration : ∀ c ∈ channels, c.length = b.duration
  len : b.len = .ok (b.duration * channels.length)
  channel : ∀ c (h : c < channels.length), ∃ xs, b.channel c = .ok xs ∧ xs.map BitVec.toInt = channels[c]

/-- All that can be observed of a block, except for the capacity of its buffer: the time, the duration, the
number of channels, and the buffer with the samples. -/
def _root_.Claxon.Block.contents (b : Block) : Nat × Nat × Nat × List I32 :=
  (b.time, b.duration, b.channels, b.intoBuffer.data)

end Spec
