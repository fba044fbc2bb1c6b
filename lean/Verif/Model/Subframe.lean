import Verif.Model.Bitstream

/-! Models `/repo/src/subframe.rs`. -/

namespace Claxon

open Bitstream

/-- subframe.rs:16-21. -/
inductive SubframeType where
  | constant
  | verbatim
  | fixed (order : Nat)
  | lpc (order : Nat)
  deriving DecidableEq, Repr

/-- subframe.rs:24-27. -/
structure SubframeHeader where
  sfType : SubframeType
  wastedBitsPerSample : Nat
  deriving DecidableEq, Repr

/-- subframe.rs:96-101. -/
def extendSignU16 [Build] (val : U16) (bits : Nat) : Res I16 := do
  let s ← subU 32 16 bits
  let up ← shl val s
  sar up s

/-- subframe.rs:117-122. -/
def extendSignU32 [Build] (val : U32) (bits : Nat) : Res I32 := do
  let s ← subU 32 32 bits
  let up ← shl val s
  sar up s

/-- subframe.rs:157-170. -/
def riceToSigned (val : U32) : I32 :=
  let half : I32 := val >>> 1
  let extendedBit0 : I32 := (val <<< 31).sshiftRight 31
  half ^^^ extendedBit0

section

variable {σ : Type} [ReadBytes σ]

/-- subframe.rs:36-67: the six-bit subframe type `n`. -/
def subframeTypeOf (n : U8) : Dec (Bitstream σ) SubframeType :=
  if n = 0#8 then pure .constant
  else if n = 1#8 then pure .verbatim
  else if n &&& 0b111_110#8 = 0b000_010#8 ∨ n &&& 0b111_100#8 = 0b000_100#8 ∨
      n &&& 0b110_000#8 = 0b010_000#8 then
    fmtErr "invalid subframe header, encountered reserved value"
  else if n &&& 0b111_000#8 = 0b001_000#8 then
    let order := (n &&& 0b000_111#8).toNat
    if order > 4 then fmtErr "invalid subframe header, encountered reserved value"
    else pure (.fixed order)
  else
    let orderMo := (n &&& 0b011_111#8).toNat
    pure (.lpc (orderMo + 1))

/-- subframe.rs:29-91. -/
def readSubframeHeader [Build] : Dec (Bitstream σ) SubframeHeader := do
  let pad ← readBit
  if pad then fmtErr "invalid subframe header"
  else do
    let n ← readLeqU8 6
    let sfType ← subframeTypeOf n
    let wastesBits ← readBit
    let wastedBits ←
      (if !wastesBits then pure 0
       else do
        let k ← readUnary
        let k1 ← addU 32 1 k
        pure k1 : Dec (Bitstream σ) Nat)
    if wastedBits > 31 then fmtErr "wasted bits per sample must not exceed 31"
    else pure { sfType := sfType, wastedBitsPerSample := wastedBits }

/-- subframe.rs:231-234. -/
inductive RicePartitionType where
  | rice
  | rice2
  deriving DecidableEq, Repr

/-- subframe.rs:337-341: the loop for a Rice parameter of at most 8, over the slots of the buffer. -/
def ricePartitionSmall [Build] (riceParam : Nat) : List I32 → Dec (Bitstream σ) (List I32)
  | [] => pure []
  | _ :: rest => do
    let q ← readUnary
    let r ← readLeqU8 riceParam
    let hi ← shl (BitVec.ofNat 32 q) riceParam
    let sample := riceToSigned (hi ||| r.setWidth 32)
    let rest' ← ricePartitionSmall riceParam rest
    pure (sample :: rest')

/-- subframe.rs:343-347: the loop for a Rice parameter greater than 8. -/
def ricePartitionLarge [Build] (riceParam : Nat) : List I32 → Dec (Bitstream σ) (List I32)
  | [] => pure []
  | _ :: rest => do
    let q ← readUnary
    let r ← readGtU8LeqU16 riceParam
    let hi ← shl (BitVec.ofNat 32 q) riceParam
    let sample := riceToSigned (hi ||| r)
    let rest' ← ricePartitionLarge riceParam rest
    pure (sample :: rest')

/-- subframe.rs:310-351. -/
def decodeRicePartition [Build] (buffer : List I32) : Dec (Bitstream σ) (List I32) := do
  let p ← readLeqU8 4
  let riceParam := p.toNat
  if riceParam = 0b1111 then unsupportedErr "unencoded binary is not yet implemented"
  else if riceParam ≤ 8 then ricePartitionSmall riceParam buffer
  else ricePartitionLarge riceParam buffer

/-- subframe.rs:369-377: the loop of a Rice2 partition. -/
def rice2PartitionLoop [Build] (riceParam : Nat) : List I32 → Dec (Bitstream σ) (List I32)
  | [] => pure []
  | _ :: rest => do
    let q ← readUnary
    let r ← readLeqU32 riceParam
    let hi ← shl (BitVec.ofNat 32 q) riceParam
    let sample := riceToSigned (hi ||| r)
    let rest' ← rice2PartitionLoop riceParam rest
    pure (sample :: rest')

/-- subframe.rs:358-380. -/
def decodeRice2Partition [Build] (buffer : List I32) : Dec (Bitstream σ) (List I32) := do
  let p ← readLeqU8 5
  let riceParam := p.toNat
  if riceParam = 0b11111 then unsupportedErr "unencoded binary is not yet implemented"
  else rice2PartitionLoop riceParam buffer

/-- `f(&mut buffer[a..b])`: run `f` on a sub-slice and write the result back in place.
(subframe.rs:504, 511, 667, 708) -/
def withSlice {τ : Type} (buffer : List I32) (a b : Nat) (f : List I32 → Dec τ (List I32)) :
    Dec τ (List I32) := do
  let s ← slice buffer a b
  let s' ← f s
  pure (buffer.take a ++ s' ++ buffer.drop b)

/-- subframe.rs:279-300: the loop over `n` remaining partitions; the current one is
`buffer[start..start + len]`. -/
def partitionLoop [Build] (ptype : RicePartitionType) (nSamplesPerPartition : Nat) :
    (n start len : Nat) → List I32 → Dec (Bitstream σ) (List I32)
  | 0, _, _, buffer => pure buffer
  | n + 1, start, len, buffer => do
    let buffer' ← withSlice buffer start (start + len)
      (match ptype with
       | .rice => decodeRicePartition
       | .rice2 => decodeRice2Partition)
    partitionLoop ptype nSamplesPerPartition n (start + len) nSamplesPerPartition buffer'

/-- subframe.rs:236-304. `block_size: u16` and the other `u16` quantities are `Nat`s; `as u16` is
`% 2 ^ 16`. -/
def decodeResidual [Build] (blockSize : Nat) (buffer : List I32) : Dec (Bitstream σ) (List I32) := do
  let code ← readLeqU8 2
  let ptype ←
    (if code = 0b00#8 then pure .rice
     else if code = 0b01#8 then pure .rice2
     else fmtErr "invalid residual, encountered reserved value" : Dec (Bitstream σ) RicePartitionType)
  let orderByte ← readLeqU8 4
  let order := orderByte.toNat
  let nPartitions ← (if order < 32 then pure (2 ^ order) else orPanic .shift (2 ^ (order % 32)) : Res Nat)
  let nSamplesPerPartition ← (if order < 16 then pure (blockSize >>> order)
    else orPanic .shift (blockSize >>> (order % 16)) : Res Nat)
  if blockSize &&& ((nPartitions - 1) % 2 ^ 16) ≠ 0 then fmtErr "invalid partition order"
  else do
    let prod ← mulU 32 nPartitions nSamplesPerPartition
    debugAssert (decide (prod = blockSize))
    let nWarmUp ← subU 16 blockSize (buffer.length % 2 ^ 16)
    if nWarmUp > nSamplesPerPartition then fmtErr "invalid residual"
    else do
      let len ← subU 16 nSamplesPerPartition nWarmUp
      partitionLoop ptype nSamplesPerPartition nPartitions 0 len buffer

/-- subframe.rs:382-394. -/
def decodeConstant [Build] (bps : Nat) (buffer : List I32) : Dec (Bitstream σ) (List I32) := do
  let sampleU32 ← readLeqU32 bps
  let sample ← extendSignU32 sampleU32 bps
  pure (buffer.map fun _ => sample)

/-- subframe.rs:410-412: the loop of `decode_verbatim`. -/
def verbatimLoop [Build] (bps : Nat) : List I32 → Dec (Bitstream σ) (List I32)
  | [] => pure []
  | _ :: rest => do
    let u ← readLeqU32 bps
    let s ← extendSignU32 u bps
    let rest' ← verbatimLoop bps rest
    pure (s :: rest')

/-- subframe.rs:397-415. -/
def decodeVerbatim [Build] (bps : Nat) (buffer : List I32) : Dec (Bitstream σ) (List I32) := do
  debugAssert (decide (bps ≤ 32))
  verbatimLoop bps buffer

end

/-! ### Fixed prediction -/

/-- subframe.rs:427-445. -/
def fixedCoefficients (order : Nat) : Res (List I32) :=
  match order with
  | 0 => .ok []
  | 1 => .ok [1]
  | 2 => .ok [-1, 2]
  | 3 => .ok [1, -3, 3]
  | 4 => .ok [-1, 4, -6, 4]
  | _ => panicRes .unreachable

/-- subframe.rs:450-471: the loop, with `n` iterations left, at index `i`. -/
def predictFixedLoop (coefficients : List I32) (windowSize : Nat) :
    (n i : Nat) → List I32 → Res (List I32)
  | 0, _, buffer => .ok buffer
  | n + 1, i, buffer => do
    let window ← slice buffer i (i + windowSize)
    let prediction : I32 :=
      ((coefficients.zip window).map fun cs => cs.1 * cs.2).foldl (fun a x => a + x) 0
    let delta ← index window coefficients.length
    let buffer' ← setIndex buffer (i + coefficients.length) (prediction + delta)
    predictFixedLoop coefficients windowSize n (i + 1) buffer'

/-- subframe.rs:417-474. -/
def predictFixed [Build] (order : Nat) (buffer : List I32) : Res (List I32) := do
  debugAssert (decide (order ≤ 4))
  let coefficients ← fixedCoefficients order
  let windowSize := order + 1
  let n ← subU 64 buffer.length order
  predictFixedLoop coefficients windowSize n 0 buffer

/-- subframe.rs:492-516. -/
def decodeFixed [Build] {σ : Type} [ReadBytes σ] (bps order : Nat) (buffer : List I32) :
    Dec (Bitstream σ) (List I32) := do
  if buffer.length < order then fmtErr "invalid fixed subframe, order is larger than block size"
  else do
    let buffer ← withSlice buffer 0 order (decodeVerbatim bps)
    let buffer ← withSlice buffer order buffer.length (decodeResidual (buffer.length % 2 ^ 16))
    let buffer ← predictFixed order buffer
    pure buffer

/-! ### Linear prediction -/

/-- subframe.rs:560-563 (and 576-579, 607-610): the sum of products of coefficients and samples, in
`i64` with overflow checks. -/
def innerProduct [Build] : List (I64 × I64) → (acc : I64) → Res I64
  | [], acc => .ok acc
  | (c, s) :: rest, acc => do
    let p ← mulI64 c s
    let acc' ← addI64 acc p
    innerProduct rest acc'

/-- `x >> qlp_shift` for `x: i64`, `qlp_shift: i16`: the check fails on negative or too large shifts.
(subframe.rs:563, 579, 610) -/
def sarI16 [Build] (x : I64) (s : I16) : Res I64 :=
  if 0 ≤ s.toInt ∧ s.toInt < 64 then .ok (x.sshiftRight s.toInt.toNat)
  else orPanic .shift (x.sshiftRight (s.toNat % 64))

/-- subframe.rs:560-565 (576-581, 607-612): predict from `coefs` and the equally long `window` of
preceding samples, and add the residual `delta`; the result is truncated to `i32`. -/
def lpcSample [Build] (coefs : List I64) (window : List I32) (qlpShift : I16) (delta : I32) : Res I32 := do
  let sum ← innerProduct (coefs.zip (window.map fun s => s.signExtend 64)) 0
  let prediction ← sarI16 sum qlpShift
  let s ← addI64 prediction (delta.signExtend 64)
  pure (s.setWidth 32)

/-- subframe.rs:559-566 (575-582, 606-613): the prediction loop with `n` iterations left; the next
predicted sample is `buffer[i]`, predicted from `buffer[i - k..i]` with `k` coefficients. -/
def lpcLoop [Build] (coefs : List I64) (qlpShift : I16) (k : Nat) :
    (n i : Nat) → List I32 → Res (List I32)
  | 0, _, buffer => .ok buffer
  | n + 1, i, buffer => do
    let from_ ← subU 64 i k
    let window ← slice buffer from_ i
    let delta ← index buffer i
    let s ← lpcSample coefs window qlpShift delta
    let buffer' ← setIndex buffer i s
    lpcLoop coefs qlpShift k n (i + 1) buffer'

/-- subframe.rs:544-550: copy the coefficients to the end of the twelve element array. -/
def padCoefficients : (raw : List I16) → (i : Nat) → List I64 → Res (List I64)
  | [], _, buf => .ok buf
  | c :: cs, i, buf => do
    let buf' ← setIndex buf i (c.signExtend 64)
    padCoefficients cs (i + 1) buf'

/-- subframe.rs:524-583. -/
def predictLpcLowOrder [Build] (raw : List I16) (qlpShift : I16) (buffer : List I32) : Res (List I32) := do
  debugAssert (decide (0 ≤ qlpShift.toInt))
  debugAssert (decide (qlpShift.toInt < 64))
  let order := raw.length
  let start ← subU 64 12 order
  let coefficients ← padCoefficients raw start (List.replicate 12 0#64)
  let left ← subU 64 (min 12 buffer.length) order
  let buffer ← lpcLoop (raw.map fun c => c.signExtend 64) qlpShift order left order buffer
  if buffer.length ≤ 12 then pure buffer
  else lpcLoop coefficients qlpShift 12 (buffer.length - 12) 12 buffer

/-- subframe.rs:586-614. -/
def predictLpcHighOrder [Build] (coefs : List I16) (qlpShift : I16) (buffer : List I32) : Res (List I32) := do
  let order := coefs.length
  debugAssert (decide (0 ≤ qlpShift.toInt))
  debugAssert (decide (qlpShift.toInt < 64))
  debugAssert (decide (order > 12))
  debugAssert (decide (buffer.length ≥ order))
  lpcLoop (coefs.map fun c => c.signExtend 64) qlpShift order (buffer.length - order) order buffer

section

variable {σ : Type} [ReadBytes σ]

/-- subframe.rs:697-701: read the coefficients into `coefficients[..idx]`, last one first. -/
def readCoefficients [Build] (qlpPrecision : Nat) : (idx : Nat) → List I16 → Dec (Bitstream σ) (List I16)
  | 0, arr => pure arr
  | idx + 1, arr => do
    let u ← readLeqU16 qlpPrecision
    let c ← extendSignU16 u qlpPrecision
    let arr' ← setIndex arr idx c
    readCoefficients qlpPrecision idx arr'

/-- subframe.rs:651-721. -/
def decodeLpc [Build] (bps order : Nat) (buffer : List I32) : Dec (Bitstream σ) (List I32) := do
  debugAssert (decide (order ≤ 32))
  if buffer.length < order then
    fmtErr "invalid LPC subframe, lpc order is larger than block size"
  else do
    let buffer ← withSlice buffer 0 order (decodeVerbatim bps)
    let precMo ← readLeqU8 4
    let qlpPrecision := precMo.toNat + 1
    if qlpPrecision - 1 = 0b1111 then fmtErr "invalid subframe, qlp precision value invalid"
    else do
      let qlpShiftUnsig ← readLeqU16 5
      let qlpShift ← extendSignU16 qlpShiftUnsig 5
      if qlpShift.toInt < 0 then
        unsupportedErr "a negative quantized linear predictor coefficient shift is not supported, please file a bug."
      else do
        let arr ← readCoefficients qlpPrecision order (List.replicate 32 0#16)
        let buffer ← withSlice buffer order buffer.length (decodeResidual (buffer.length % 2 ^ 16))
        let coefs ← slice arr 0 order
        if order ≤ 12 then do
          let buffer ← predictLpcLowOrder coefs qlpShift buffer
          pure buffer
        else do
          let buffer ← predictLpcHighOrder coefs qlpShift buffer
          pure buffer

/-- subframe.rs:184-228. The contents of the buffer after an `Err` are not modelled. -/
def decodeSubframe [Build] (bps : Nat) (buffer : List I32) : Dec (Bitstream σ) (List I32) := do
  debugAssert (decide (32 ≥ bps))
  let header ← readSubframeHeader
  if header.wastedBitsPerSample ≥ bps then fmtErr "subframe has no non-wasted bits"
  else do
    let sfBps := bps - header.wastedBitsPerSample
    let buffer ←
      (match header.sfType with
       | .constant => decodeConstant sfBps buffer
       | .verbatim => decodeVerbatim sfBps buffer
       | .fixed ord => decodeFixed sfBps ord buffer
       | .lpc ord => decodeLpc sfBps ord buffer)
    if header.wastedBitsPerSample > 0 then do
      debugAssert (decide (header.wastedBitsPerSample ≤ 31))
      pure (buffer.map fun (s : I32) => (s <<< (header.wastedBitsPerSample % 32) : I32))
    else pure buffer

end

end Claxon
