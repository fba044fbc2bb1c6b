import Verif.Spec.Frame

/-! # Frames without a limit on the number of zeros

The frames of the format, without the requirement that the rows of zeros in the codes of the residual are shorter than
`2 ^ 32`, and with any number of wasted bits, of which a decoder takes the remainder modulo `2 ^ 32`. -/

namespace Spec

open Claxon (U8)

/-- The structural requirements on a residual, except for the limit on the number of zeros. -/
structure Residual.Loose (r : Residual) (blockSize order : Nat) : Prop where
  partitionOrder : r.partitionOrder ≤ 15
  divides : blockSize % 2 ^ r.partitionOrder = 0
  first : order ≤ blockSize / 2 ^ r.partitionOrder
  params : ∀ p ∈ r.partitions, p.param ≤ r.method.maxParam
  sizes : r.partitions.map (fun p => p.values.length) = partitionSizes blockSize order r.partitionOrder

/-- The structural requirements on a body with samples of `bps` bits, with a loose residual. -/
def Coding.Loose (bps blockSize : Nat) : Coding → Prop
  | .constant v => FitsIn bps v
  | .verbatim vs => vs.length = blockSize ∧ ∀ v ∈ vs, FitsIn bps v
  | .fixed warmUp residual =>
    warmUp.length ≤ 4 ∧ (∀ v ∈ warmUp, FitsIn bps v) ∧
      residual.Loose blockSize warmUp.length
  | .lpc warmUp precision shift coefs residual =>
    1 ≤ warmUp.length ∧ warmUp.length ≤ 32 ∧ (∀ v ∈ warmUp, FitsIn bps v) ∧
      1 ≤ precision ∧ precision ≤ 15 ∧ shift ≤ 15 ∧ coefs.length = warmUp.length ∧
      (∀ c ∈ coefs, FitsIn precision c) ∧ residual.Loose blockSize warmUp.length

/-- The subframe with as many wasted bits as a decoder that counts modulo `2 ^ 32` sees. -/
def Subframe.reduced (s : Subframe) : Subframe := { s with wasted := s.wasted % 2 ^ 32 }

/-- The bits of a subframe in a frame of `bps` bits per sample: the number of wasted bits is written as it is, and its
remainder modulo `2 ^ 32` is missing from the samples. -/
def Subframe.looseBits (bps : Nat) (s : Subframe) : List Bool :=
  false :: natToBits 6 s.coding.typeCode ++ wastedBits s.wasted ++ s.coding.bits (bps - s.reduced.wasted)

/-- The requirements on a loose subframe. -/
structure Subframe.Loose (bps blockSize : Nat) (s : Subframe) : Prop where
  wasted : s.reduced.wasted < bps
  coding : s.coding.Loose (bps - s.reduced.wasted) blockSize

namespace Frame

/-- The frame as a decoder that counts modulo `2 ^ 32` sees it. -/
def reduced (f : Frame) : Frame := { f with subframes := f.subframes.map Subframe.reduced }

/-- The bits between the header and the checksum of a loose frame. -/
def looseBodyBits (bps : Nat) (f : Frame) : List Bool :=
  (List.zipWith Subframe.looseBits (f.header.channels.depths bps) f.subframes).flatten ++ f.padding

/-- The bytes of a loose frame before the checksum. -/
def looseContentBytes (bps : Nat) (f : Frame) : List U8 :=
  f.header.bytes ++ bitsToBytes (f.looseBodyBits bps)

/-- The bytes of a loose frame. -/
def looseBytes (bps : Nat) (f : Frame) : List U8 :=
  f.looseContentBytes bps ++ beBytes 2 (crc16 (f.looseContentBytes bps)).toNat

/-- A well-formed frame, except for the limit on the number of zeros. -/
structure Loose (bps : Nat) (f : Frame) : Prop where
  header : f.header.WellFormed
  sampleSize : f.header.sampleSize.bits = some bps
  count : f.subframes.length = f.header.channels.count
  subframes : ∀ p ∈ List.zip (f.header.channels.depths bps) f.subframes,
    p.2.Loose p.1 f.header.blockSize.size
  padding : f.padding.length < 8
  aligned : (f.looseBodyBits bps).length % 8 = 0

end Frame

end Spec
