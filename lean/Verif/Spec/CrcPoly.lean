import Mathlib.Algebra.Polynomial.Div
import Mathlib.Data.ZMod.Defs

/-! # Bit strings as polynomials over the field of two elements -/

namespace Spec

open Polynomial

/-- The polynomial whose coefficients are the given bits, the leading one first. -/
noncomputable def bitsPoly (bits : List Bool) : (ZMod 2)[X] :=
  bits.foldl (fun p b => p * X + (if b then 1 else 0)) 0

/-- x^8 + x^2 + x + 1. -/
noncomputable def crc8Generator : (ZMod 2)[X] := X ^ 8 + X ^ 2 + X + 1

/-- x^16 + x^15 + x^2 + 1. -/
noncomputable def crc16Generator : (ZMod 2)[X] := X ^ 16 + X ^ 15 + X ^ 2 + 1

end Spec
