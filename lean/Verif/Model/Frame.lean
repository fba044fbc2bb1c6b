import Verif.Model.Crc
import Verif.Model.Subframe
import Verif.Model.Block

/-! Models `/repo/src/frame.rs:17-316` (frame headers) and `599-785` (frames). -/

namespace Claxon

open ReadBytes

/-- frame.rs:24-27. -/
inductive BlockTime where
  | frameNumber (n : Nat)
  | sampleNumber (n : Nat)
  deriving DecidableEq, Repr

/-- frame.rs:30-39. -/
inductive ChannelAssignment where
  | independent (n : Nat)
  | leftSideStereo
  | rightSideStereo
  | midSideStereo
  deriving DecidableEq, Repr

/-- frame.rs:42-48. -/
structure FrameHeader where
  blockTime : BlockTime
  blockSize : Nat
  sampleRate : Option Nat
  channelAssignment : ChannelAssignment
  bitsPerSample : Option Nat
  deriving DecidableEq, Repr

/-- frame.rs:51-58. -/
def FrameHeader.channels (h : FrameHeader) : Nat :=
  match h.channelAssignment with
  | .independent n => n
  | .leftSideStereo => 2
  | .rightSideStereo => 2
  | .midSideStereo => 2

/-- frame.rs:73-77: count the leading ones of `first`. The loop ends at the latest when all eight bits
of `mask_mark` have been shifted out, which bounds the recursion by `n = 8`. Returns
`read_additional` and `mask_data`. -/
def leadingOnesLoop (first : U8) : (n : Nat) → (readAdditional : Nat) → (maskData maskMark : U8) → Nat × U8
  | 0, readAdditional, maskData, _ => (readAdditional, maskData)
  | n + 1, readAdditional, maskData, maskMark =>
    if first &&& maskMark ≠ 0#8 then
      leadingOnesLoop first n (readAdditional + 1) (maskData >>> 1) (maskMark >>> 1)
    else (readAdditional, maskData)

/-- frame.rs:93-102: the loop over the `i` remaining continuation bytes. -/
def varLengthLoop [Build] {σ : Type} [ReadBytes σ] : (i : Nat) → (result : U64) → Dec σ U64
  | 0, result => pure result
  | i + 1, result => do
    let byte ← readU8
    if byte &&& 0b1100_0000#8 ≠ 0b1000_0000#8 then fmtErr "invalid variable-length integer"
    else do
      let bits ← shl ((byte &&& 0b0011_1111#8).setWidth 64 : U64) (6 * i)
      varLengthLoop i (result ||| bits)

/-- frame.rs:64-105. -/
def readVarLengthInt [Build] {σ : Type} [ReadBytes σ] : Dec σ U64 := do
  let first ← readU8
  let (ones, maskData) := leadingOnesLoop first 8 0 0b0111_1111#8 0b1000_0000#8
  if ones = 1 then fmtErr "invalid variable-length integer"
  else do
    -- `read_additional - 1` for `read_additional > 1`, and 0 for 0.
    let readAdditional := ones - 1
    let result ← shl ((first &&& maskData).setWidth 64 : U64) (6 * readAdditional)
    varLengthLoop readAdditional result

/-- Run `m` on the reader wrapped in `Crc8Reader::new(input)`, and keep the inner reader. (frame.rs:135) -/
def withCrc8 {σ α : Type} (m : Dec (Crc8Reader σ) α) : Dec σ α := fun s =>
  let r := m (Crc8Reader.new s)
  (r.1, r.2.inner)

/-- Run `m` on the reader wrapped in `Crc16Reader::new(&mut self.input)`. (frame.rs:673) -/
def withCrc16 {σ α : Type} (m : Dec (Crc16Reader σ) α) : Dec σ α := fun s =>
  let r := m (Crc16Reader.new s)
  (r.1, r.2.inner)

/-- Run `m` on the reader wrapped in `Bitstream::new(&mut crc_input)`. What is left of the last byte
is dropped with the bitstream. (frame.rs:702) -/
def withBitstream {σ α : Type} (m : Dec (Bitstream σ) α) : Dec σ α := fun s =>
  let r := m (Bitstream.new s)
  (r.1, r.2.reader)

/-- The variables `block_size`, `read_8bit_bs` and `read_16bit_bs` of frame.rs:169-171 after the match
of lines 175-183 (at most one of the flags is set). -/
inductive BlockSizeCode where
  | known (bs : Nat)
  | read8
  | read16
  deriving DecidableEq, Repr

/-- The variables `sample_rate`, `read_8bit_sr`, `read_16bit_sr` and `read_16bit_sr_ten` of
frame.rs:187-190 after the match of lines 192-211 (at most one of the flags is set). -/
inductive SampleRateCode where
  | known (sr : Option Nat)
  | read8
  | read16
  | read16Ten
  deriving DecidableEq, Repr

section

variable {σ : Type} [ReadBytes σ]

/-- frame.rs:175-183, with `n = bs_sr >> 4`. -/
def blockSizeCode [Build] (n : Nat) : Dec σ BlockSizeCode :=
  if n = 0b0000 then fmtErr "invalid frame header, encountered reserved value"
  else if n = 0b0001 then pure (.known 192)
  else if 0b0010 ≤ n ∧ n ≤ 0b0101 then do
    let bs ← mulU 16 576 (1 <<< (n - 2))
    pure (.known bs)
  else if n = 0b0110 then pure .read8
  else if n = 0b0111 then pure .read16
  else do
    let bs ← mulU 16 256 (1 <<< (n - 8))
    pure (.known bs)

/-- frame.rs:192-211, with `n = bs_sr & 0b1111`. -/
def sampleRateCode (n : Nat) : Dec σ SampleRateCode :=
  match n with
  | 0b0000 => pure (.known none)
  | 0b0001 => pure (.known (some 88200))
  | 0b0010 => pure (.known (some 176400))
  | 0b0011 => pure (.known (some 192000))
  | 0b0100 => pure (.known (some 8000))
  | 0b0101 => pure (.known (some 16000))
  | 0b0110 => pure (.known (some 22050))
  | 0b0111 => pure (.known (some 24000))
  | 0b1000 => pure (.known (some 32000))
  | 0b1001 => pure (.known (some 44100))
  | 0b1010 => pure (.known (some 48000))
  | 0b1011 => pure (.known (some 96000))
  | 0b1100 => pure .read8
  | 0b1101 => pure .read16
  | 0b1110 => pure .read16Ten
  | _ => fmtErr "invalid frame header"

/-- frame.rs:217-225, with `n = chan_bps_res >> 4`. -/
def channelAssignmentCode [Build] (n : Nat) : Dec σ ChannelAssignment :=
  if n < 8 then do
    let ch ← addU 8 n 1
    pure (.independent ch)
  else if n = 0b1000 then pure .leftSideStereo
  else if n = 0b1001 then pure .rightSideStereo
  else if n = 0b1010 then pure .midSideStereo
  else fmtErr "invalid frame header, encountered reserved value"

/-- frame.rs:228-237, with `n = (chan_bps_res & 0b1110) >> 1`. -/
def bitsPerSampleCode (n : Nat) : Dec σ (Option Nat) :=
  match n with
  | 0b000 => pure none
  | 0b001 => pure (some 8)
  | 0b010 => pure (some 12)
  | 0b100 => pure (some 16)
  | 0b101 => pure (some 20)
  | 0b110 => pure (some 24)
  | _ => fmtErr "invalid frame header, encountered reserved value"

/-- frame.rs:244-259. -/
def readBlockTime [Build] (variable_ : Bool) : Dec σ BlockTime := do
  if variable_ then do
    let sample ← readVarLengthInt
    pure (.sampleNumber sample.toNat)
  else do
    let frame ← readVarLengthInt
    if frame.toNat > 0x7fffffff then fmtErr "invalid frame header, frame number too large"
    else pure (.frameNumber (frame.toNat % 2 ^ 32))

/-- frame.rs:261-276. -/
def readBlockSize [Build] : BlockSizeCode → Dec σ Nat
  | .known bs => pure bs
  | .read8 => do
    let bs ← readU8
    let r ← addU 16 bs.toNat 1
    pure r
  | .read16 => do
    let bs ← readBeU16
    if bs = 0xffff#16 then fmtErr "invalid block size, exceeds 65535"
    else do
      let r ← addU 16 bs.toNat 1
      pure r

/-- frame.rs:278-289. -/
def readSampleRate [Build] : SampleRateCode → Dec σ (Option Nat)
  | .known sr => pure sr
  | .read8 => do
    let sr ← readU8
    pure (some sr.toNat)
  | .read16 => do
    let sr ← readBeU16
    pure (some sr.toNat)
  | .read16Ten => do
    let sr ← readBeU16
    let r ← mulU 32 sr.toNat 10
    pure (some r)

/-- frame.rs:137-316: the header, read from the CRC-8 reader. -/
def readFrameHeaderBody [FuzzCfg] [Build] : Dec (Crc8Reader σ) (Option FrameHeader) := do
  match ← readBeU16OrEof with
  | none => pure none
  | some syncResBlock =>
    if syncResBlock &&& 0b1111_1111_1111_1100#16 ≠ 0b1111_1111_1111_1000#16 then
      fmtErr "frame sync code missing"
    else if syncResBlock &&& 0b0000_0000_0000_0010#16 ≠ 0#16 then
      fmtErr "invalid frame header, encountered reserved value"
    else do
      let variable_ := !(syncResBlock &&& 0b0000_0000_0000_0001#16 == 0#16)
      let bsSr ← readU8
      let bsCode ← blockSizeCode (bsSr >>> 4).toNat
      let srCode ← sampleRateCode (bsSr &&& 0b0000_1111#8).toNat
      let chanBpsRes ← readU8
      let channelAssignment ← channelAssignmentCode (chanBpsRes >>> 4).toNat
      let bitsPerSample ← bitsPerSampleCode ((chanBpsRes &&& 0b0000_1110#8) >>> 1).toNat
      if chanBpsRes &&& 0b0000_0001#8 ≠ 0#8 then
        fmtErr "invalid frame header, encountered reserved value"
      else do
        let blockTime ← readBlockTime variable_
        let blockSize ← readBlockSize bsCode
        let sampleRate ← readSampleRate srCode
        let crcInput ← Dec.get
        let computedCrc := crcInput.crc
        let presumedCrc ← readU8
        if FuzzCfg.fuzzing = false ∧ computedCrc ≠ presumedCrc then fmtErr "frame header CRC mismatch"
        else pure (some
          { blockTime := blockTime
            blockSize := blockSize
            sampleRate := sampleRate
            channelAssignment := channelAssignment
            bitsPerSample := bitsPerSample })

/-- frame.rs:131-316. -/
def readFrameHeaderOrEof [FuzzCfg] [Build] : Dec σ (Option FrameHeader) := withCrc8 readFrameHeaderBody

/-- frame.rs:707-711: the loop over `n` remaining channels, the next one is `ch`. -/
def decodeIndependent [Build] (bps bs : Nat) : (n ch : Nat) → List I32 → Dec (Bitstream σ) (List I32)
  | 0, _, buffer => pure buffer
  | n + 1, ch, buffer => do
    let buffer ← withSlice buffer (ch * bs) ((ch + 1) * bs) (decodeSubframe bps)
    decodeIndependent bps bs n (ch + 1) buffer

/-- frame.rs:705-742. -/
def decodeChannels [Build] (ca : ChannelAssignment) (bps bs : Nat) (buffer : List I32) :
    Dec (Bitstream σ) (List I32) :=
  match ca with
  | .independent nCh => decodeIndependent bps bs nCh 0 buffer
  | .leftSideStereo => do
    let buffer ← withSlice buffer 0 bs (decodeSubframe bps)
    let buffer ← withSlice buffer bs (bs * 2) (decodeSubframe (bps + 1))
    withSlice buffer 0 (bs * 2) fun b => pure (decodeLeftSide b)
  | .rightSideStereo => do
    let buffer ← withSlice buffer 0 bs (decodeSubframe (bps + 1))
    let buffer ← withSlice buffer bs (bs * 2) (decodeSubframe bps)
    withSlice buffer 0 (bs * 2) fun b => pure (decodeRightSide b)
  | .midSideStereo => do
    let buffer ← withSlice buffer 0 bs (decodeSubframe bps)
    let buffer ← withSlice buffer bs (bs * 2) (decodeSubframe (bps + 1))
    withSlice buffer 0 (bs * 2) fun b => pure (decodeMidSide b)

/-- frame.rs:771-774. -/
def frameTime [Build] (h : FrameHeader) : Res Nat :=
  match h.blockTime with
  | .frameNumber fnr => mulU 64 h.blockSize fnr
  | .sampleNumber snr => .ok snr

/-- frame.rs:679-778: the rest of a frame after its header. -/
def readFrameBody [FuzzCfg] [Build] (h : FrameHeader) (buffer : VecI32) : Dec (Crc16Reader σ) (Option Block) := do
  let buffer := ensureBufferLen buffer (h.channels * h.blockSize)
  match h.bitsPerSample with
  | none => unsupportedErr "header without bits per sample info"
  | some bps => do
    debugAssert (decide (bps ≤ 32))
    let data ← withBitstream (decodeChannels h.channelAssignment bps h.blockSize buffer.data)
    let crcInput ← Dec.get
    let computedCrc := crcInput.crc
    let presumedCrc ← readBeU16
    if FuzzCfg.fuzzing = false ∧ computedCrc ≠ presumedCrc then fmtErr "frame CRC mismatch"
    else do
      let time ← frameTime h
      let block ← Block.new time h.blockSize { data := data, cap := buffer.cap }
      pure (some block)

/-- frame.rs:667-779 `FrameReader::read_next_or_eof`. A `FrameReader` has
the single field `input` and is identified with it, so that `FrameReader::new` (652-656) and
`into_inner` (782-784) are the identity. -/
def readNextOrEof [FuzzCfg] [Build] (buffer : VecI32) : Dec σ (Option Block) :=
  withCrc16 (do
    match ← readFrameHeaderOrEof with
    | none => pure none
    | some h => readFrameBody h buffer)

end

end Claxon
