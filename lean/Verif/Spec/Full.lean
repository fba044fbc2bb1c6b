import Verif.Spec.Frame

/-! # Frames of the FLAC format, with the features that claxon does not implement

Spec/Subframe.lean and Spec/Frame.lean describe the frames that claxon decodes. The format has three more
features: partitions of the residual that are not Rice coded, linear predictors with a negative shift, and
frame headers that leave the number of bits per sample to the streaminfo block. Here are the frames with
these features. -/

namespace Spec

/-- The features of the format that claxon does not implement. -/
inductive Feature where
  /-- the header of the frame leaves the number of bits per sample to the streaminfo block -/
  | depthInStreaminfo
  /-- a linear predictor whose sum is multiplied, and not divided, by a power of two -/
  | negativeShift
  /-- a partition of the residual with numbers in two's complement in place of Rice codes -/
  | unencodedPartition
  deriving DecidableEq, Repr

/-- The message of the error that tells of the feature. -/
def Feature.message : Feature → String
  | depthInStreaminfo => "header without bits per sample info"
  | negativeShift =>
    "a negative quantized linear predictor coefficient shift is not supported, please file a bug."
  | unencodedPartition => "unencoded binary is not yet implemented"

namespace Full

open Claxon

/-- A partition of the residual: Rice codes, or numbers of `width` bits. -/
inductive Partition where
  | rice (p : Spec.Partition)
  | unencoded (width : Nat) (values : List Int)
  deriving DecidableEq, Repr

/-- The residuals of a partition. -/
def Partition.values : Partition → List Int
  | rice p => p.values
  | unencoded _ values => values

/-- The bits of a partition. All ones in place of the Rice parameter is the escape code for numbers in two's
complement; their width follows, in five bits. -/
def Partition.bits (m : RiceMethod) : Partition → List Bool
  | rice p => p.bits m
  | unencoded width values =>
    natToBits m.paramBits (2 ^ m.paramBits - 1) ++ natToBits 5 width ++ values.flatMap (intToBits width)

/-- The structural requirements on a partition. Numbers of zero bits are zero. -/
def Partition.WellFormed (m : RiceMethod) : Partition → Prop
  | rice p => p.param ≤ m.maxParam ∧ ∀ v ∈ p.values, fold v / 2 ^ p.param < 2 ^ 32
  | unencoded width values =>
    width < 2 ^ 5 ∧ ∀ v ∈ values, FitsIn width v ∨ (width = 0 ∧ v = 0)

/-- The features that a partition needs. -/
def Partition.features : Partition → List Feature
  | rice _ => []
  | unencoded _ _ => [.unencodedPartition]

/-- A coded residual. -/
structure Residual where
  method : RiceMethod
  partitionOrder : Nat
  partitions : List Partition
  deriving DecidableEq, Repr

namespace Residual

/-- The residuals of all partitions. -/
def values (r : Residual) : List Int := r.partitions.flatMap Partition.values

/-- The bits of a residual. -/
def bits (r : Residual) : List Bool :=
  natToBits 2 r.method.code ++ natToBits 4 r.partitionOrder ++
    r.partitions.flatMap (Partition.bits r.method)

/-- The structural requirements on a residual. -/
structure WellFormed (r : Residual) (blockSize order : Nat) : Prop where
  partitionOrder : r.partitionOrder ≤ 15
  divides : blockSize % 2 ^ r.partitionOrder = 0
  first : order ≤ blockSize / 2 ^ r.partitionOrder
  partitions : ∀ p ∈ r.partitions, p.WellFormed r.method
  sizes : r.partitions.map (fun p => p.values.length) = partitionSizes blockSize order r.partitionOrder

/-- The features that a residual needs, in the order in which they occur. -/
def features (r : Residual) : List Feature := r.partitions.flatMap Partition.features

end Residual

/-- The four ways to code a subframe. -/
inductive Coding where
  | constant (v : Int)
  | verbatim (vs : List Int)
  | fixed (warmUp : List Int) (residual : Residual)
  | lpc (warmUp : List Int) (precision : Nat) (shift : Int) (coefs : List Int) (residual : Residual)
  deriving DecidableEq, Repr

namespace Coding

/-- The six-bit type code. The order of the predictor is the number of warm-up samples. -/
def typeCode : Coding → Nat
  | constant _ => 0
  | verbatim _ => 1
  | fixed warmUp _ => 8 + warmUp.length
  | lpc warmUp _ _ _ _ => 32 + (warmUp.length - 1)

/-- The bits of the body, with samples of `bps` bits. -/
def bits (bps : Nat) : Coding → List Bool
  | constant v => intToBits bps v
  | verbatim vs => vs.flatMap (intToBits bps)
  | fixed warmUp residual => warmUp.flatMap (intToBits bps) ++ residual.bits
  | lpc warmUp precision shift coefs residual =>
    warmUp.flatMap (intToBits bps) ++ natToBits 4 (precision - 1) ++ intToBits 5 shift ++
      coefs.flatMap (intToBits precision) ++ residual.bits

/-- The structural requirements on a body with samples of `bps` bits. -/
def WellFormed (bps blockSize : Nat) : Coding → Prop
  | constant v => FitsIn bps v
  | verbatim vs => vs.length = blockSize ∧ ∀ v ∈ vs, FitsIn bps v
  | fixed warmUp residual =>
    warmUp.length ≤ 4 ∧ (∀ v ∈ warmUp, FitsIn bps v) ∧
      residual.WellFormed blockSize warmUp.length
  | lpc warmUp precision shift coefs residual =>
    1 ≤ warmUp.length ∧ warmUp.length ≤ 32 ∧ (∀ v ∈ warmUp, FitsIn bps v) ∧
      1 ≤ precision ∧ precision ≤ 15 ∧ FitsIn 5 shift ∧ coefs.length = warmUp.length ∧
      (∀ c ∈ coefs, FitsIn precision c) ∧ residual.WellFormed blockSize warmUp.length

/-- The features that a body needs, in the order in which they occur. -/
def features : Coding → List Feature
  | constant _ => []
  | verbatim _ => []
  | fixed _ residual => residual.features
  | lpc _ _ shift _ residual => (if shift < 0 then [.negativeShift] else []) ++ residual.features

end Coding

/-- A subframe: the coding, and the number of wasted bits per sample. -/
structure Subframe where
  coding : Coding
  wasted : Nat
  deriving DecidableEq, Repr

/-- The bits of a subframe in a frame of `bps` bits per sample. -/
def Subframe.bits (bps : Nat) (s : Subframe) : List Bool :=
  false :: natToBits 6 s.coding.typeCode ++ wastedBits s.wasted ++ s.coding.bits (bps - s.wasted)

/-- The structural requirements on a subframe. -/
structure Subframe.WellFormed (bps blockSize : Nat) (s : Subframe) : Prop where
  wasted : s.wasted < bps
  coding : s.coding.WellFormed (bps - s.wasted) blockSize

/-- A frame: the header, one subframe per channel, and the bits that fill up the last byte. -/
structure Frame where
  header : FrameHeader
  subframes : List Subframe
  padding : List Bool
  deriving DecidableEq, Repr

namespace Frame

/-- The bits between the header and the checksum, with `bps` bits per sample. -/
def bodyBits (bps : Nat) (f : Frame) : List Bool :=
  (List.zipWith Subframe.bits (f.header.channels.depths bps) f.subframes).flatten ++ f.padding

/-- The bytes of a frame before the checksum. -/
def contentBytes (bps : Nat) (f : Frame) : List U8 :=
  f.header.bytes ++ bitsToBytes (f.bodyBits bps)

/-- The bytes of a frame with `bps` bits per sample. -/
def bytes (bps : Nat) (f : Frame) : List U8 :=
  f.contentBytes bps ++ beBytes 2 (crc16 (f.contentBytes bps)).toNat

/-- The structural requirements on a frame of a stream with `bps` bits per sample: this number is in the
header, or left to the streaminfo block. -/
structure WellFormed (bps : Nat) (f : Frame) : Prop where
  header : f.header.WellFormed
  sampleSize : f.header.sampleSize.bits = some bps ∨ f.header.sampleSize = .streaminfo
  count : f.subframes.length = f.header.channels.count
  subframes : ∀ p ∈ List.zip (f.header.channels.depths bps) f.subframes,
    p.2.WellFormed p.1 f.header.blockSize.size
  padding : f.padding.length < 8
  aligned : (f.bodyBits bps).length % 8 = 0

/-- The features that a frame needs, in the order in which they occur. -/
def features (f : Frame) : List Feature :=
  (if f.header.sampleSize = .streaminfo then [.depthInStreaminfo] else []) ++
    f.subframes.flatMap fun s => s.coding.features

end Frame

end Full

/-! ### The frames that need none of these features -/

/-- A residual, as one of the full format. -/
def Residual.full (r : Residual) : Full.Residual :=
  { method := r.method, partitionOrder := r.partitionOrder, partitions := r.partitions.map .rice }

/-- A coding, as one of the full format. -/
def Coding.full : Coding → Full.Coding
  | .constant v => .constant v
  | .verbatim vs => .verbatim vs
  | .fixed warmUp residual => .fixed warmUp residual.full
  | .lpc warmUp precision shift coefs residual => .lpc warmUp precision shift coefs residual.full

/-- A subframe, as one of the full format. -/
def Subframe.full (s : Subframe) : Full.Subframe := { coding := s.coding.full, wasted := s.wasted }

/-- A frame, as one of the full format. -/
def Frame.full (f : Frame) : Full.Frame :=
  { header := f.header, subframes := f.subframes.map Subframe.full, padding := f.padding }

end Spec
