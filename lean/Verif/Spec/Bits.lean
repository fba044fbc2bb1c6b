import Verif.Spec.Checked
import Verif.Model.Base

/-! # Bit strings

The bits of a number or of a byte string, most significant bit first. -/

namespace Spec

open Claxon

/-- The `k` lowest bits of `v`, most significant first. -/
def natToBits : (k : Nat) → (v : Nat) → List Bool
  | 0, _ => []
  | k + 1, v => v.testBit k :: natToBits k v

/-- The number denoted by a bit string, most significant bit first. -/
def bitsToNat (bits : List Bool) : Nat := bits.foldl (fun v b => 2 * v + b.toNat) 0

/-- The eight bits of a byte. -/
def byteBits (b : U8) : List Bool := natToBits 8 b.toNat

/-- The bits of a byte string. -/
def bytesToBits (bytes : List U8) : List Bool := bytes.flatMap byteBits

/-- `n` zeros and a one. -/
def unaryBits (n : Nat) : List Bool := List.replicate n false ++ [true]

/-- At least `2 ^ 32 - 1` zeros in a row: half a gigabyte. -/
def LongZeros (bits : List Bool) : Prop :=
  ∃ (pre : List Bool) (n : Nat) (post : List Bool), 2 ^ 32 - 1 ≤ n ∧
    bits = pre ++ (List.replicate n false ++ post)

/-- `k`-bit two's complement. -/
def intToBits (k : Nat) (v : Int) : List Bool := natToBits k (v % (2 ^ k : Int)).toNat

/-- The number denoted by a byte string, most significant byte first. -/
def beNat (bytes : List U8) : Nat := bytes.foldl (fun v b => 256 * v + b.toNat) 0

/-- The number denoted by a byte string, least significant byte first. -/
def leNat (bytes : List U8) : Nat := beNat bytes.reverse

end Spec
