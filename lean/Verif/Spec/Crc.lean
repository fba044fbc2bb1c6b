import Verif.Spec.Bits

/-! # Cyclic redundancy checks

The textbook shift register: `reg` holds the coefficients of the remainder so far, most significant
first. A message bit comes in at the top; the register is shifted left, and if the coefficient shifted
out and the message bit differ, the generator polynomial is subtracted. (`C07_*` in `Props` relates this
to division of polynomials over the field of two elements.) -/

namespace Spec

open Claxon

/-- One message bit. `poly` is the generator polynomial without its leading coefficient. -/
def crcStep {n : Nat} (poly reg : BitVec n) (b : Bool) : BitVec n :=
  (reg <<< 1) ^^^ (if reg.msb != b then poly else 0#n)

/-- The CRC of a bit string, with initial value 0. -/
def crcBits {n : Nat} (poly : BitVec n) (bits : List Bool) : BitVec n :=
  bits.foldl (crcStep poly) 0#n

/-- CRC-8 with polynomial x^8 + x^2 + x + 1. -/
def crc8 (bytes : List U8) : U8 := crcBits 0b00000111#8 (bytesToBits bytes)

/-- CRC-16 with polynomial x^16 + x^15 + x^2 + 1. -/
def crc16 (bytes : List U8) : U16 := crcBits 0b1000000000000101#16 (bytesToBits bytes)

end Spec
