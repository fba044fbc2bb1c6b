import Verif.Spec.Checked
import Verif.Model.Bitstream
import Verif.Spec.Bits

/-! # Reading from a bit string -/

namespace Spec

open Claxon

/-- The operations of the bit-level reader. -/
inductive BitOp where
  | bit
  | unary
  | leqU8 (k : Nat)
  | gtU8LeqU16 (k : Nat)
  | leqU16 (k : Nat)
  | leqU32 (k : Nat)
  deriving DecidableEq, Repr

/-- The widths for which the operations may be called. -/
def BitOp.Legal : BitOp → Prop
  | .bit => True
  | .unary => True
  | .leqU8 k => k ≤ 8
  | .gtU8LeqU16 k => 8 < k ∧ k ≤ 16
  | .leqU16 k => k ≤ 16
  | .leqU32 k => k ≤ 32

/-- Perform an operation of the program; the result as a number. -/
def BitOp.run {σ : Type} [Build] [ReadBytes σ] : BitOp → Dec (Bitstream σ) Nat
  | .bit => do
    let b ← Bitstream.readBit
    pure b.toNat
  | .unary => Bitstream.readUnary
  | .leqU8 k => do
    let v ← Bitstream.readLeqU8 k
    pure v.toNat
  | .gtU8LeqU16 k => do
    let v ← Bitstream.readGtU8LeqU16 k
    pure v.toNat
  | .leqU16 k => do
    let v ← Bitstream.readLeqU16 k
    pure v.toNat
  | .leqU32 k => do
    let v ← Bitstream.readLeqU32 k
    pure v.toNat

/-- Remove `k` bits from the front, and return the number they denote. -/
def takeBits (k : Nat) (bits : List Bool) : Option (Nat × List Bool) :=
  if k ≤ bits.length then some (bitsToNat (bits.take k), bits.drop k) else none

/-- Remove the zeros at the front and the one behind them, and return the number of zeros. -/
def takeUnary : List Bool → Option (Nat × List Bool)
  | [] => none
  | true :: rest => some (0, rest)
  | false :: rest => (takeUnary rest).map fun (n, rest) => (n + 1, rest)

/-- What an operation should do to the bit string. -/
def BitOp.spec : BitOp → List Bool → Option (Nat × List Bool)
  | .bit => takeBits 1
  | .unary => takeUnary
  | .leqU8 k => takeBits k
  | .gtU8LeqU16 k => takeBits k
  | .leqU16 k => takeBits k
  | .leqU32 k => takeBits k

/-- The results of a sequence of operations of the program, up to the first failure. -/
def runBitOps {σ : Type} [Build] [ReadBytes σ] : List BitOp → Bitstream σ → List (Except Fail Nat)
  | [], _ => []
  | op :: ops, b =>
    match op.run b with
    | (.ok v, b') => .ok v :: runBitOps ops b'
    | (.error f, _) => [.error f]

/-- The number of zeros at the front. -/
def zerosAtFront (bits : List Bool) : Nat := (bits.takeWhile (fun b => !b)).length

/-- The zeros to be counted do not fit in 32 bits. -/
def BitOp.tooMany : BitOp → List Bool → Bool
  | .unary, bits => decide (2 ^ 32 ≤ zerosAtFront bits)
  | _, _ => false

/-- What they should be, if reading past the end of the bit string fails with `f`. In a build with overflow checks,
counting `2 ^ 32` zeros panics. -/
def specBitOps (f : Fail) : List BitOp → List Bool → List (Except Fail Nat)
  | [], _ => []
  | op :: ops, bits =>
    if op.tooMany bits then [.error (.panic .overflow)]
    else
      match op.spec bits with
      | some (v, rest) => .ok v :: specBitOps f ops rest
      | none => [.error f]

/-- What they should be in a build without overflow checks: all numbers have 32 bits, so that zeros are counted modulo
`2 ^ 32`. -/
def specBitOpsWrapped (f : Fail) : List BitOp → List Bool → List (Except Fail Nat)
  | [], _ => []
  | op :: ops, bits =>
    match op.spec bits with
    | some (v, rest) => .ok (v % 2 ^ 32) :: specBitOpsWrapped f ops rest
    | none => [.error f]

end Spec
