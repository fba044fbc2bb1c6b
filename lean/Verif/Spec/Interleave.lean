import Verif.Spec.Checked
import Verif.Model.Block
import Verif.Model.Frame

/-! # The order of the samples -/

namespace Spec

open Claxon

/-- The samples of `n` samples long channels: for every index, one of every channel. -/
def interleave {α : Type} (n : Nat) (channels : List (List α)) : List α :=
  (List.range n).flatMap fun i => channels.filterMap fun c => c[i]?

/-- The samples of a block, as its accessors give them, for every index, one of every channel. -/
def blockSamples (b : Block) : List (Res I32) :=
  (List.range b.duration).flatMap fun i => (List.range b.channels).map fun c => b.sample c i

/-- Reading blocks one after the other, each into the buffer of the one before, gives `blocks`, and leaves
the reader `s'` and the buffer `buffer'`. -/
inductive ReadsBlocks [FuzzCfg] {σ : Type} [ReadBytes σ] : σ → VecI32 → List Block → σ → VecI32 → Prop where
  | nil {s : σ} {buffer : VecI32} : ReadsBlocks s buffer [] s buffer
  | cons {s s₁ s' : σ} {buffer buffer' : VecI32} {b : Block} {blocks : List Block}
      (h : readNextOrEof buffer s = (.ok (some b), s₁))
      (next : ReadsBlocks s₁ b.intoBuffer blocks s' buffer') :
      ReadsBlocks s buffer (b :: blocks) s' buffer'

end Spec
