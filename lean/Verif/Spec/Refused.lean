import Verif.Spec.Full
import Verif.Spec.Reserved

/-! # Why a frame is refused

The beginnings of frames that a decoder must not go on with: what is wrong, the bits or bytes up to that point, and
the error that tells of it. Everything before that point is as the format prescribes, which is why at most one
reason applies. -/

namespace Spec

open Claxon

/-- The reasons to refuse a residual, in a block of `blockSize` samples of which `order` are warm-up samples. -/
inductive RefusedResidual (blockSize order : Nat) : List Bool → Error → Prop where
  /-- the methods 2 and 3 are reserved -/
  | method (method : Nat) (h : method = 2 ∨ method = 3) :
      RefusedResidual blockSize order (natToBits 2 method)
        (.formatError "invalid residual, encountered reserved value")
  /-- the partitions are not of equal size -/
  | partitionOrder (m : RiceMethod) (k : Nat) (hk : k ≤ 15) (h : blockSize % 2 ^ k ≠ 0) :
      RefusedResidual blockSize order (natToBits 2 m.code ++ natToBits 4 k)
        (.formatError "invalid partition order")
  /-- the warm-up samples do not fit into the first partition -/
  | warmUp (m : RiceMethod) (k : Nat) (hk : k ≤ 15) (hd : blockSize % 2 ^ k = 0) (h : blockSize / 2 ^ k < order) :
      RefusedResidual blockSize order (natToBits 2 m.code ++ natToBits 4 k) (.formatError "invalid residual")
  /-- after some partitions, one that is not Rice coded -/
  | escape (m : RiceMethod) (k : Nat) (hk : k ≤ 15) (hd : blockSize % 2 ^ k = 0) (ho : order ≤ blockSize / 2 ^ k)
      (good : List Partition)
      (hg : ∀ p ∈ good, p.param ≤ m.maxParam ∧ ∀ v ∈ p.values, fold v / 2 ^ p.param < 2 ^ 32)
      (hs : good.map (fun p => p.values.length) <+: partitionSizes blockSize order k) (hl : good.length < 2 ^ k) :
      RefusedResidual blockSize order
        (natToBits 2 m.code ++ natToBits 4 k ++ good.flatMap (Partition.bits m) ++
          natToBits m.paramBits (2 ^ m.paramBits - 1))
        (.unsupported Feature.unencodedPartition.message)

/-- The six-bit codes of the subframe types that are reserved. -/
def ReservedType (code : Nat) : Prop := 2 ≤ code ∧ code ≤ 7 ∨ 13 ≤ code ∧ code ≤ 31

/-- The header of a subframe: a zero, the type, and the number of wasted bits per sample. -/
def subframeHeaderBits (code wasted : Nat) : List Bool := false :: natToBits 6 code ++ wastedBits wasted

/-- The reasons to refuse a subframe of `bps` bits per sample. -/
inductive RefusedSubframe (bps blockSize : Nat) : List Bool → Error → Prop where
  /-- the first bit is not zero -/
  | padding : RefusedSubframe bps blockSize [true] (.formatError "invalid subframe header")
  /-- the type is reserved -/
  | type (code : Nat) (h : ReservedType code) :
      RefusedSubframe bps blockSize (false :: natToBits 6 code)
        (.formatError "invalid subframe header, encountered reserved value")
  /-- there are too many wasted bits for any sample -/
  | wasted (code wasted : Nat) (h6 : code < 2 ^ 6) (ht : ¬ ReservedType code) (h : 31 < wasted) (h32 : wasted < 2 ^ 32) :
      RefusedSubframe bps blockSize (subframeHeaderBits code wasted)
        (.formatError "wasted bits per sample must not exceed 31")
  /-- all bits of the samples are wasted -/
  | allWasted (code wasted : Nat) (h6 : code < 2 ^ 6) (ht : ¬ ReservedType code) (h : wasted ≤ 31) (hb : bps ≤ wasted) :
      RefusedSubframe bps blockSize (subframeHeaderBits code wasted)
        (.formatError "subframe has no non-wasted bits")
  /-- more warm-up samples than samples, for a fixed predictor -/
  | fixedOrder (order wasted : Nat) (hw : wasted < bps) (h4 : order ≤ 4) (h : blockSize < order) :
      RefusedSubframe bps blockSize (subframeHeaderBits (8 + order) wasted)
        (.formatError "invalid fixed subframe, order is larger than block size")
  /-- the residual is refused, after a fixed predictor -/
  | fixedResidual (warmUp : List Int) (wasted : Nat) (hw : wasted < bps) (h4 : warmUp.length ≤ 4)
      (hl : warmUp.length ≤ blockSize) (hv : ∀ v ∈ warmUp, FitsIn (bps - wasted) v) (bits : List Bool) (e : Error)
      (h : RefusedResidual blockSize warmUp.length bits e) :
      RefusedSubframe bps blockSize
        (subframeHeaderBits (8 + warmUp.length) wasted ++ warmUp.flatMap (intToBits (bps - wasted)) ++ bits) e
  /-- more warm-up samples than samples, for a linear predictor -/
  | lpcOrder (order wasted : Nat) (hw : wasted < bps) (h1 : 1 ≤ order) (h32 : order ≤ 32) (h : blockSize < order) :
      RefusedSubframe bps blockSize (subframeHeaderBits (32 + (order - 1)) wasted)
        (.formatError "invalid LPC subframe, lpc order is larger than block size")
  /-- the precision is reserved -/
  | precision (warmUp : List Int) (wasted : Nat) (hw : wasted < bps) (h1 : 1 ≤ warmUp.length)
      (h32 : warmUp.length ≤ 32) (hl : warmUp.length ≤ blockSize) (hv : ∀ v ∈ warmUp, FitsIn (bps - wasted) v) :
      RefusedSubframe bps blockSize
        (subframeHeaderBits (32 + (warmUp.length - 1)) wasted ++ warmUp.flatMap (intToBits (bps - wasted)) ++
          natToBits 4 0b1111)
        (.formatError "invalid subframe, qlp precision value invalid")
  /-- the shift is negative -/
  | shift (warmUp : List Int) (wasted precision : Nat) (shift : Int) (hw : wasted < bps) (h1 : 1 ≤ warmUp.length)
      (h32 : warmUp.length ≤ 32) (hl : warmUp.length ≤ blockSize) (hv : ∀ v ∈ warmUp, FitsIn (bps - wasted) v)
      (hp1 : 1 ≤ precision) (hp15 : precision ≤ 15) (hs : FitsIn 5 shift) (hneg : shift < 0) :
      RefusedSubframe bps blockSize
        (subframeHeaderBits (32 + (warmUp.length - 1)) wasted ++ warmUp.flatMap (intToBits (bps - wasted)) ++
          natToBits 4 (precision - 1) ++ intToBits 5 shift)
        (.unsupported Feature.negativeShift.message)
  /-- the residual is refused, after a linear predictor -/
  | lpcResidual (warmUp : List Int) (wasted precision shift : Nat) (coefs : List Int) (hw : wasted < bps)
      (h1 : 1 ≤ warmUp.length) (h32 : warmUp.length ≤ 32) (hl : warmUp.length ≤ blockSize)
      (hv : ∀ v ∈ warmUp, FitsIn (bps - wasted) v) (hp1 : 1 ≤ precision) (hp15 : precision ≤ 15) (hs : shift ≤ 15)
      (hlen : coefs.length = warmUp.length) (hc : ∀ c ∈ coefs, FitsIn precision c) (bits : List Bool) (e : Error)
      (h : RefusedResidual blockSize warmUp.length bits e) :
      RefusedSubframe bps blockSize
        (subframeHeaderBits (32 + (warmUp.length - 1)) wasted ++ warmUp.flatMap (intToBits (bps - wasted)) ++
          natToBits 4 (precision - 1) ++ intToBits 5 shift ++ coefs.flatMap (intToBits precision) ++ bits) e

/-- Bytes that are not the beginning of a coded number. -/
inductive BadNumber : List U8 → Prop where
  /-- the first byte is a continuation byte -/
  | first (b : U8) (h : b.toNat / 64 = 0b10) : BadNumber [b]
  /-- one of the bytes after the first one is not a continuation byte -/
  | continuation (n v k : Nat) (hv : CodedNumberAccepted n v) (hk : k < n) (b : U8) (h : b.toNat / 64 ≠ 0b10) :
      BadNumber ((codedNumber n v).take (k + 1) ++ [b])

/-- The reasons to refuse a frame header. -/
inductive RefusedHeader : List U8 → Error → Prop where
  /-- the first 14 bits are not `11111111111110` -/
  | sync (a b : U8) (h : ¬ (a = 0xff#8 ∧ b.toNat / 4 = 0b111110)) :
      RefusedHeader [a, b] (.formatError "frame sync code missing")
  /-- the first reserved bit -/
  | reserved1 (c : HeaderCodes) (h : c.reserved1 = true) :
      RefusedHeader (c.bytes.take 2) (.formatError "invalid frame header, encountered reserved value")
  /-- the block size is reserved -/
  | blockSize (c : HeaderCodes) (h1 : c.reserved1 = false) (h : c.blockSize.val = 0b0000) :
      RefusedHeader (c.bytes.take 3) (.formatError "invalid frame header, encountered reserved value")
  /-- the sample rate is invalid -/
  | sampleRate (c : HeaderCodes) (h1 : c.reserved1 = false) (h2 : c.blockSize.val ≠ 0b0000)
      (h : c.sampleRate.val = 0b1111) :
      RefusedHeader (c.bytes.take 3) (.formatError "invalid frame header")
  /-- the channels or the sample size are reserved, or the second reserved bit is set -/
  | reserved2 (c : HeaderCodes) (h1 : c.reserved1 = false) (h2 : c.blockSize.val ≠ 0b0000)
      (h3 : c.sampleRate.val ≠ 0b1111) (h : c.Reserved) :
      RefusedHeader c.bytes (.formatError "invalid frame header, encountered reserved value")
  /-- the frame or sample number is not one -/
  | number (c : HeaderCodes) (hc : ¬ c.Reserved) (bytes : List U8) (h : BadNumber bytes) :
      RefusedHeader (c.bytes ++ bytes) (.formatError "invalid variable-length integer")
  /-- the frame number does not fit in 31 bits -/
  | frameNumber (c : HeaderCodes) (hc : ¬ c.Reserved) (n v : Nat) (hn : CodedNumberAccepted n v)
      (hv : c.variableBlockSize = false) (h : 2 ^ 31 ≤ v) :
      RefusedHeader (c.bytes ++ codedNumber n v)
        (.formatError "invalid frame header, frame number too large")
  /-- a block size of 65536 -/
  | blockSize16 (c : HeaderCodes) (hc : ¬ c.Reserved) (n v : Nat) (hn : CodedNumberAccepted n v)
      (hv : c.variableBlockSize = false → v < 2 ^ 31) (h : c.blockSize.val = 0b0111) :
      RefusedHeader (c.bytes ++ codedNumber n v ++ [0xff#8, 0xff#8])
        (.formatError "invalid block size, exceeds 65535")
  /-- the checksum of the header is wrong -/
  | checksum (h : FrameHeader) (hw : h.WellFormed) (c : U8) (hc : c ≠ crc8 h.fieldBytes) :
      RefusedHeader (h.fieldBytes ++ [c]) (.formatError "frame header CRC mismatch")

/-- The reasons to refuse a frame. -/
inductive RefusedFrame : List U8 → Error → Prop where
  /-- the header is refused -/
  | header (bytes : List U8) (e : Error) (h : RefusedHeader bytes e) : RefusedFrame bytes e
  /-- the number of bits per sample is not in the header -/
  | sampleSize (h : FrameHeader) (hw : h.WellFormed) (hs : h.sampleSize.bits = none) :
      RefusedFrame h.bytes (.unsupported Feature.depthInStreaminfo.message)
  /-- after some subframes, one that is refused; it may end within the last byte -/
  | subframe (h : FrameHeader) (bps : Nat) (hw : h.WellFormed) (hs : h.sampleSize.bits = some bps)
      (good : List Subframe)
      (hg : ∀ p ∈ List.zip (h.channels.depths bps) good, p.2.WellFormed p.1 h.blockSize.size)
      (depth : Nat) (hd : (h.channels.depths bps)[good.length]? = some depth)
      (bad : List Bool) (e : Error) (hb : RefusedSubframe depth h.blockSize.size bad e) (more : List Bool)
      (hm : more.length < 8) (body : List U8)
      (hbody : bytesToBits body =
        (List.zipWith Subframe.bits (h.channels.depths bps) good).flatten ++ bad ++ more) :
      RefusedFrame (h.bytes ++ body) e
  /-- the checksum of the frame is wrong -/
  | checksum (f : Frame) (bps : Nat) (hw : f.WellFormed bps) (a b : U8)
      (hc : a.toNat * 256 + b.toNat ≠ (crc16 (f.contentBytes bps)).toNat) :
      RefusedFrame (f.contentBytes bps ++ [a, b]) (.formatError "frame CRC mismatch")

end Spec
