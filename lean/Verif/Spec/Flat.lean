import Verif.Spec.Checked
import Verif.Model.Input

/-! # The flat reader

The specification of what it means to read from a byte string: bytes are taken from the front of a
list. When the list is exhausted, reading fails: with end-of-file, or, if `fault = some e`, with the
I/O error `e`. -/

namespace Spec

open Claxon

/-- A byte string that ends in end-of-file or in an I/O error. -/
structure Flat where
  bytes : List U8
  fault : Option Nat
  deriving DecidableEq, Repr

namespace Flat

/-- The failure of a read past the end. -/
def endFail (fault : Option Nat) : Fail :=
  match fault with
  | none => .err (.ioError .unexpectedEof)
  | some code => .err (.ioError (.inner code))

/-- Take one byte. -/
def readU8 : Dec Flat U8 := fun s =>
  match s.bytes with
  | b :: rest => (.ok b, { s with bytes := rest })
  | [] => (.error (endFail s.fault), s)

/-- Take one byte; end-of-file is reported as `none`. -/
def readU8OrEof : Dec Flat (Option U8) := fun s =>
  match s.bytes with
  | b :: rest => (.ok (some b), { s with bytes := rest })
  | [] =>
    match s.fault with
    | none => (.ok none, s)
    | some code => (.error (.err (.ioError (.inner code))), s)

/-- Take `n` bytes. -/
def readInto (n : Nat) : Dec Flat (List U8) := fun s =>
  if n ≤ s.bytes.length then (.ok (s.bytes.take n), { s with bytes := s.bytes.drop n })
  else (.error (endFail s.fault), { s with bytes := [] })

/-- Drop `n` bytes. -/
def skip (n : Nat) : Dec Flat Unit := fun s =>
  if n ≤ s.bytes.length then (.ok (), { s with bytes := s.bytes.drop n })
  else (.error (endFail s.fault), { s with bytes := [] })

instance : ReadBytes Flat where
  readU8 := readU8
  readU8OrEof := readU8OrEof
  readInto := readInto
  skip := skip

/-- The byte string `bytes`, ending in end-of-file. -/
def ofBytes (bytes : List U8) : Flat := { bytes := bytes, fault := none }

end Flat

end Spec
