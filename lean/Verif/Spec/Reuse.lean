import Verif.Spec.Checked
import Verif.Spec.Client

/-! # Using one reader several times -/

namespace Spec

open Claxon

/-- What one can do with a reader that has been opened, again and again. -/
inductive Use where
  /-- call `samples()`, ask the iterator for `n` samples, and drop it -/
  | samples (n : Nat)
  /-- call `blocks()`, read a block into each of the buffers, and drop the frame reader -/
  | blocks (buffers : List VecI32)

/-- What one gets. -/
inductive Got where
  | samples (xs : List (Except Fail (Option (Except Error I32))))
  | blocks (xs : List (Except Fail (Option Block)))

/-- The results of reading a block into each of the buffers, and the state afterwards. -/
def readInto {σ : Type} [ReadBytes σ] : List VecI32 → σ → List (Except Fail (Option Block)) × σ
  | [], s => ([], s)
  | buffer :: buffers, s =>
    ((readNextOrEof buffer s).1 :: (readInto buffers (readNextOrEof buffer s).2).1,
      (readInto buffers (readNextOrEof buffer s).2).2)

/-- Use a reader once. -/
def Use.run {σ : Type} [ReadBytes σ] (reader : FlacReader σ) : Use → Res (Got × FlacReader σ)
  | .samples n => do
    let it ← reader.samples
    pure (.samples (calls FlacSamples.next n it),
      reader.afterBorrow (after FlacSamples.next n it).frameReader)
  | .blocks buffers => do
    let frames ← reader.blocks
    pure (.blocks (readInto buffers frames).1, reader.afterBorrow (readInto buffers frames).2)

/-- Use a reader several times. -/
def runUses {σ : Type} [ReadBytes σ] (reader : FlacReader σ) : List Use → Res (List Got × FlacReader σ)
  | [] => pure ([], reader)
  | use :: uses => do
    let (got, reader) ← use.run reader
    let (gots, reader) ← runUses reader uses
    pure (got :: gots, reader)

end Spec
