import Verif.Spec.Frame

/-! # Reserved values in frames -/

namespace Spec

open Claxon

/-- The codes in the first four bytes of a frame header. -/
structure HeaderCodes where
  /-- a reserved bit after the sync code -/
  reserved1 : Bool
  variableBlockSize : Bool
  blockSize : Fin 16
  sampleRate : Fin 16
  channels : Fin 16
  sampleSize : Fin 8
  /-- a reserved bit at the end -/
  reserved2 : Bool
  deriving DecidableEq, Repr

/-- The first four bytes of a frame header. -/
def HeaderCodes.bytes (c : HeaderCodes) : List U8 :=
  [0xff#8, BitVec.ofNat 8 (0xf8 + 2 * c.reserved1.toNat + c.variableBlockSize.toNat),
    BitVec.ofNat 8 (16 * c.blockSize.val + c.sampleRate.val),
    BitVec.ofNat 8 (16 * c.channels.val + 2 * c.sampleSize.val + c.reserved2.toNat)]

/-- One of the codes is reserved. -/
def HeaderCodes.Reserved (c : HeaderCodes) : Prop :=
  c.reserved1 = true ∨ c.blockSize.val = 0b0000 ∨ c.sampleRate.val = 0b1111 ∨ 0b1011 ≤ c.channels.val ∨
    c.sampleSize.val = 0b011 ∨ c.sampleSize.val = 0b111 ∨ c.reserved2 = true

/-- The beginning of a subframe, up to a reserved value. The block has `blockSize` samples, and the subframe
has `bps` bits per sample. -/
inductive ReservedSubframe (bps blockSize : Nat) : List Bool → Prop where
  /-- the first bit has to be zero -/
  | padding : ReservedSubframe bps blockSize [true]
  /-- the types 2 to 7, 13 to 15 and 16 to 31 are reserved -/
  | type (code : Nat) (h : 2 ≤ code ∧ code ≤ 7 ∨ 13 ≤ code ∧ code ≤ 31) :
      ReservedSubframe bps blockSize (false :: natToBits 6 code)
  /-- the precision of the coefficients of a linear predictor, if it is all ones -/
  | precision (warmUp : List Int) (wasted : Nat) (h1 : 1 ≤ warmUp.length) (h32 : warmUp.length ≤ 32)
      (hl : warmUp.length ≤ blockSize) (hw : wasted < bps) (hv : ∀ v ∈ warmUp, FitsIn (bps - wasted) v) :
      ReservedSubframe bps blockSize (false :: natToBits 6 (32 + (warmUp.length - 1)) ++ wastedBits wasted ++
        warmUp.flatMap (intToBits (bps - wasted)) ++ natToBits 4 0b1111)
  /-- the residual coding methods 2 and 3, after a fixed predictor -/
  | methodFixed (warmUp : List Int) (wasted method : Nat) (h4 : warmUp.length ≤ 4)
      (hl : warmUp.length ≤ blockSize) (hw : wasted < bps) (hv : ∀ v ∈ warmUp, FitsIn (bps - wasted) v)
      (hm : method = 2 ∨ method = 3) :
      ReservedSubframe bps blockSize (false :: natToBits 6 (8 + warmUp.length) ++ wastedBits wasted ++
        warmUp.flatMap (intToBits (bps - wasted)) ++ natToBits 2 method)
  /-- the residual coding methods 2 and 3, after a linear predictor -/
  | methodLpc (warmUp : List Int) (wasted precision shift : Nat) (coefs : List Int) (method : Nat)
      (h1 : 1 ≤ warmUp.length) (h32 : warmUp.length ≤ 32) (hl : warmUp.length ≤ blockSize) (hw : wasted < bps)
      (hv : ∀ v ∈ warmUp, FitsIn (bps - wasted) v) (hp1 : 1 ≤ precision) (hp15 : precision ≤ 15)
      (hs : shift ≤ 15) (hlen : coefs.length = warmUp.length) (hc : ∀ c ∈ coefs, FitsIn precision c)
      (hm : method = 2 ∨ method = 3) :
      ReservedSubframe bps blockSize (false :: natToBits 6 (32 + (warmUp.length - 1)) ++ wastedBits wasted ++
        warmUp.flatMap (intToBits (bps - wasted)) ++ natToBits 4 (precision - 1) ++ intToBits 5 shift ++
          coefs.flatMap (intToBits precision) ++ natToBits 2 method)

end Spec
