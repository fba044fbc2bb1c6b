import Verif.Spec.Checked
import Verif.Model.Metadata
import Verif.Spec.Metadata

/-! # Memory requests

A reader that behaves like another one, and writes down every request for memory made with a size
taken from the input. -/

namespace Spec

open Claxon

/-- A request for room for `count` elements of `size` bytes. -/
structure Request where
  count : Nat
  size : Nat
  deriving DecidableEq, Repr

/-- A reader with a log of the requests. -/
structure Logged (σ : Type) where
  inner : σ
  log : List Request

/-- An operation of the inner reader. -/
def Logged.lift {σ α : Type} (m : Dec σ α) : Dec (Logged σ) α :=
  Dec.zoom Logged.inner (fun i s => { s with inner := i }) m

instance {σ : Type} [ReadBytes σ] : ReadBytes (Logged σ) where
  readU8 := Logged.lift ReadBytes.readU8
  readU8OrEof := Logged.lift ReadBytes.readU8OrEof
  readInto n := Logged.lift (ReadBytes.readInto n)
  skip n := Logged.lift (ReadBytes.skip n)
  onAlloc n k := fun s => (.ok (), { s with log := s.log ++ [⟨n, k⟩] })

/-- The number of bytes requested for strings and payload. -/
def requestedBytes (log : List Request) : Nat :=
  (log.map fun r => if r.size = 1 then r.count else 0).sum

end Spec
