import Verif.Spec.Refused

/-! # What the decoder cannot count

The beginnings of frames that have more zeros in a row than the decoder can count. Like the reasons to refuse a frame,
these are the bits up to the point where it happens, and everything before is as the format prescribes. There are two
numbers that are coded with a row of zeros: the number of wasted bits per sample, and the quotients of a Rice code. They
are counted in 32 bits. Either way it takes half a gigabyte. -/

namespace Spec

open Claxon

/-- After some partitions, and some values of the next partition, `2 ^ 32` zeros. -/
inductive UncountableResidual (blockSize order : Nat) : List Bool → Prop where
  | quotient (m : RiceMethod) (k : Nat) (hk : k ≤ 15) (hd : blockSize % 2 ^ k = 0) (ho : order ≤ blockSize / 2 ^ k)
      (good : List Partition)
      (hg : ∀ p ∈ good, p.param ≤ m.maxParam ∧ ∀ v ∈ p.values, fold v / 2 ^ p.param < 2 ^ 32)
      (hs : good.map (fun p => p.values.length) <+: partitionSizes blockSize order k)
      (size : Nat) (hz : (partitionSizes blockSize order k)[good.length]? = some size)
      (last : Partition) (hp : last.param ≤ m.maxParam) (hv : ∀ v ∈ last.values, fold v / 2 ^ last.param < 2 ^ 32)
      (hl : last.values.length < size) :
      UncountableResidual blockSize order
        (natToBits 2 m.code ++ natToBits 4 k ++ good.flatMap (Partition.bits m) ++ last.bits m ++
          List.replicate (2 ^ 32) false)

/-- A subframe of `bps` bits per sample. -/
inductive UncountableSubframe (bps blockSize : Nat) : List Bool → Prop where
  /-- the number of wasted bits, which is one more than the number of zeros: it is enough to count `2 ^ 32 - 1` zeros,
  whichever bit follows -/
  | wasted (code : Nat) (h6 : code < 2 ^ 6) (ht : ¬ ReservedType code) (next : Bool) :
      UncountableSubframe bps blockSize
        (false :: natToBits 6 code ++ true :: List.replicate (2 ^ 32 - 1) false ++ [next])
  /-- in the residual, after a fixed predictor -/
  | fixedResidual (warmUp : List Int) (wasted : Nat) (hw : wasted < bps) (h4 : warmUp.length ≤ 4)
      (hl : warmUp.length ≤ blockSize) (hv : ∀ v ∈ warmUp, FitsIn (bps - wasted) v) (bits : List Bool)
      (h : UncountableResidual blockSize warmUp.length bits) :
      UncountableSubframe bps blockSize
        (subframeHeaderBits (8 + warmUp.length) wasted ++ warmUp.flatMap (intToBits (bps - wasted)) ++ bits)
  /-- in the residual, after a linear predictor -/
  | lpcResidual (warmUp : List Int) (wasted precision shift : Nat) (coefs : List Int) (hw : wasted < bps)
      (h1 : 1 ≤ warmUp.length) (h32 : warmUp.length ≤ 32) (hl : warmUp.length ≤ blockSize)
      (hv : ∀ v ∈ warmUp, FitsIn (bps - wasted) v) (hp1 : 1 ≤ precision) (hp15 : precision ≤ 15) (hs : shift ≤ 15)
      (hlen : coefs.length = warmUp.length) (hc : ∀ c ∈ coefs, FitsIn precision c) (bits : List Bool)
      (h : UncountableResidual blockSize warmUp.length bits) :
      UncountableSubframe bps blockSize
        (subframeHeaderBits (32 + (warmUp.length - 1)) wasted ++ warmUp.flatMap (intToBits (bps - wasted)) ++
          natToBits 4 (precision - 1) ++ intToBits 5 shift ++ coefs.flatMap (intToBits precision) ++ bits)

/-- A frame: after the header and some subframes, one with too many zeros. -/
inductive UncountableFrame : List U8 → Prop where
  | subframe (h : FrameHeader) (bps : Nat) (hw : h.WellFormed) (hs : h.sampleSize.bits = some bps)
      (good : List Subframe)
      (hg : ∀ p ∈ List.zip (h.channels.depths bps) good, p.2.WellFormed p.1 h.blockSize.size)
      (depth : Nat) (hd : (h.channels.depths bps)[good.length]? = some depth)
      (bad : List Bool) (hb : UncountableSubframe depth h.blockSize.size bad) (more : List Bool)
      (hm : more.length < 8) (body : List U8)
      (hbody : bytesToBits body =
        (List.zipWith Subframe.bits (h.channels.depths bps) good).flatten ++ bad ++ more) :
      UncountableFrame (h.bytes ++ body)

/-- The bytes begin with a frame that has more zeros in a row than the decoder can count. -/
def Uncountable (bytes : List U8) : Prop := ∃ used rest, bytes = used ++ rest ∧ UncountableFrame used

end Spec
