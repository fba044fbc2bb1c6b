import Verif.Spec.Subframe
import Verif.Spec.Crc

/-! # Frames of the FLAC format

A description of a frame, the bytes that the format prescribes for it, and the samples that it denotes,
all independent of the decoder. -/

namespace Spec

open Claxon

/-- The `n` lowest bytes of `v`, most significant byte first. -/
def beBytes : (n : Nat) → (v : Nat) → List U8
  | 0, _ => []
  | n + 1, v => BitVec.ofNat 8 (v / 256 ^ n) :: beBytes n v

/-- The bytes of a bit string (incomplete bytes at the end are dropped). -/
def bitsToBytes : List Bool → List U8
  | b7 :: b6 :: b5 :: b4 :: b3 :: b2 :: b1 :: b0 :: rest =>
    BitVec.ofNat 8 (bitsToNat [b7, b6, b5, b4, b3, b2, b1, b0]) :: bitsToBytes rest
  | _ => []

/-! ### Coded numbers

The frame or sample number in a frame header is coded as in UTF-8, extended to 36 bits. -/

/-- The `n` continuation bytes `10xxxxxx` with the `6 * n` lowest bits of `v`. -/
def continuationBytes : (n : Nat) → (v : Nat) → List U8
  | 0, _ => []
  | n + 1, v => BitVec.ofNat 8 (0b10000000 + v / 64 ^ n % 64) :: continuationBytes n v

/-- `v` coded with `n` continuation bytes. The first byte is `0xxxxxxx` for `n = 0`. For `n > 0` it
consists of `n + 1` ones, a zero, and the other bits of `v`. -/
def codedNumber (n v : Nat) : List U8 :=
  BitVec.ofNat 8 ((if n = 0 then 0 else 256 - 2 ^ (7 - n)) + v / 64 ^ n) :: continuationBytes n v

/-- The number of bits that can be coded with `n` continuation bytes, `n ≤ 6`. -/
def codedNumberBits (n : Nat) : Nat := if n = 0 then 7 else 5 * n + 6

/-- The coded numbers that a decoder has to expect: up to six continuation bytes. -/
def CodedNumberOk (n v : Nat) : Prop := n ≤ 6 ∧ v < 2 ^ codedNumberBits n

/-- The coded numbers that claxon accepts: also seven continuation bytes, after a first byte `0xff`. -/
def CodedNumberAccepted (n v : Nat) : Prop := CodedNumberOk n v ∨ (n = 7 ∧ v < 2 ^ 42)

/-- The number of continuation bytes an encoder uses: as few as possible. -/
def shortestLength (v : Nat) : Nat :=
  if v < 2 ^ 7 then 0 else if v < 2 ^ 11 then 1 else if v < 2 ^ 16 then 2 else if v < 2 ^ 21 then 3
  else if v < 2 ^ 26 then 4 else if v < 2 ^ 31 then 5 else 6

/-! ### Header fields -/

/-- How the block size is coded. -/
inductive BlockSizeField where
  | size192
  /-- 576, 1152, 2304, 4608 -/
  | times576 (k : Fin 4)
  /-- 256, 512, …, 32768 -/
  | times256 (k : Fin 8)
  /-- size - 1 in 8 bits at the end of the header -/
  | bits8 (n : Fin 256)
  /-- size - 1 in 16 bits at the end of the header; 65536 is not allowed -/
  | bits16 (n : Fin 65535)
  deriving DecidableEq, Repr

namespace BlockSizeField

/-- The block size, the number of samples per channel. -/
def size : BlockSizeField → Nat
  | size192 => 192
  | times576 k => 576 * 2 ^ k.val
  | times256 k => 256 * 2 ^ k.val
  | bits8 n => n.val + 1
  | bits16 n => n.val + 1

/-- The four-bit code. -/
def code : BlockSizeField → Nat
  | size192 => 0b0001
  | times576 k => 0b0010 + k.val
  | bits8 _ => 0b0110
  | bits16 _ => 0b0111
  | times256 k => 0b1000 + k.val

/-- The bytes at the end of the header. -/
def extra : BlockSizeField → List U8
  | bits8 n => beBytes 1 n.val
  | bits16 n => beBytes 2 n.val
  | _ => []

end BlockSizeField

/-- How the sample rate is coded. -/
inductive SampleRateField where
  /-- to be looked up in the streaminfo block -/
  | streaminfo
  /-- one of eleven common rates -/
  | table (k : Fin 11)
  /-- in kHz, in 8 bits at the end of the header -/
  | kiloHertz (n : Fin 256)
  /-- in Hz, in 16 bits at the end of the header -/
  | hertz (n : Fin 65536)
  /-- in tens of Hz, in 16 bits at the end of the header -/
  | tensOfHertz (n : Fin 65536)
  deriving DecidableEq, Repr

namespace SampleRateField

/-- The common sample rates, in Hz. -/
def commonRates : List Nat :=
  [88200, 176400, 192000, 8000, 16000, 22050, 24000, 32000, 44100, 48000, 96000]

/-- The sample rate in Hz. -/
def rate : SampleRateField → Option Nat
  | streaminfo => none
  | table k => commonRates[k.val]?
  | kiloHertz n => some (1000 * n.val)
  | hertz n => some n.val
  | tensOfHertz n => some (10 * n.val)

/-- The four-bit code. -/
def code : SampleRateField → Nat
  | streaminfo => 0b0000
  | table k => 0b0001 + k.val
  | kiloHertz _ => 0b1100
  | hertz _ => 0b1101
  | tensOfHertz _ => 0b1110

/-- The bytes at the end of the header. -/
def extra : SampleRateField → List U8
  | kiloHertz n => beBytes 1 n.val
  | hertz n => beBytes 2 n.val
  | tensOfHertz n => beBytes 2 n.val
  | _ => []

end SampleRateField

/-- The channels: up to eight independent ones, or one of the three ways to code two of them. -/
inductive ChannelField where
  /-- `n + 1` channels -/
  | independent (n : Fin 8)
  | leftSide
  | rightSide
  | midSide
  deriving DecidableEq, Repr

namespace ChannelField

/-- The number of channels. -/
def count : ChannelField → Nat
  | independent n => n.val + 1
  | _ => 2

/-- The four-bit code. -/
def code : ChannelField → Nat
  | independent n => n.val
  | leftSide => 0b1000
  | rightSide => 0b1001
  | midSide => 0b1010

/-- The number of bits per sample of the subframes: a side signal needs one bit more. -/
def depths (bps : Nat) : ChannelField → List Nat
  | independent n => List.replicate (n.val + 1) bps
  | leftSide => [bps, bps + 1]
  | rightSide => [bps + 1, bps]
  | midSide => [bps, bps + 1]

/-- What an encoder puts into the subframes for the given channels. -/
def correlate (f : ChannelField) (channels : List (List Int)) : List (List Int) :=
  match f, channels with
  | leftSide, [left, right] => [left, List.zipWith (fun l r => l - r) left right]
  | rightSide, [left, right] => [List.zipWith (fun l r => l - r) left right, right]
  | midSide, [left, right] =>
    [List.zipWith (fun l r => (l + r) / 2) left right, List.zipWith (fun l r => l - r) left right]
  | _, channels => channels

/-- The channels, from what is in the subframes. `wrap` is applied to the results of additions and
subtractions. -/
def decorrelate (wrap : Int → Int) (f : ChannelField) (signals : List (List Int)) : List (List Int) :=
  match f, signals with
  | leftSide, [left, side] => [left, List.zipWith (fun l s => wrap (l - s)) left side]
  | rightSide, [side, right] => [List.zipWith (fun s r => wrap (s + r)) side right, right]
  | midSide, [mid, side] =>
    [List.zipWith (fun m s => wrap (2 * m + s % 2 + s) / 2) mid side,
      List.zipWith (fun m s => wrap (2 * m + s % 2 - s) / 2) mid side]
  | _, signals => signals

end ChannelField

/-- How the number of bits per sample is coded. -/
inductive SampleSizeField where
  /-- to be looked up in the streaminfo block -/
  | streaminfo
  | bits8
  | bits12
  | bits16
  | bits20
  | bits24
  deriving DecidableEq, Repr

namespace SampleSizeField

/-- The number of bits per sample. -/
def bits : SampleSizeField → Option Nat
  | streaminfo => none
  | bits8 => some 8
  | bits12 => some 12
  | bits16 => some 16
  | bits20 => some 20
  | bits24 => some 24

/-- The three-bit code. -/
def code : SampleSizeField → Nat
  | streaminfo => 0b000
  | bits8 => 0b001
  | bits12 => 0b010
  | bits16 => 0b100
  | bits20 => 0b101
  | bits24 => 0b110

end SampleSizeField

/-! ### Headers -/

/-- A frame header. -/
structure FrameHeader where
  /-- whether the number is that of the first sample, or that of the frame -/
  variableBlockSize : Bool
  blockSize : BlockSizeField
  sampleRate : SampleRateField
  channels : ChannelField
  sampleSize : SampleSizeField
  /-- the frame or sample number -/
  number : Nat
  /-- the number of continuation bytes used for it -/
  numberLength : Nat
  deriving DecidableEq, Repr

namespace FrameHeader

/-- The bytes of a header before its checksum: 14 bits `11111111111110`, a reserved bit `0`, the blocking
strategy, the block size and sample rate codes, the channel and sample size codes, a reserved bit `0`, the
coded number, and what the block size and sample rate codes ask for. -/
def fieldBytes (h : FrameHeader) : List U8 :=
  [0xff#8, BitVec.ofNat 8 (0xf8 + h.variableBlockSize.toNat),
    BitVec.ofNat 8 (16 * h.blockSize.code + h.sampleRate.code),
    BitVec.ofNat 8 (16 * h.channels.code + 2 * h.sampleSize.code)] ++
  codedNumber h.numberLength h.number ++ h.blockSize.extra ++ h.sampleRate.extra

/-- The bytes of a header. -/
def bytes (h : FrameHeader) : List U8 := h.fieldBytes ++ [crc8 h.fieldBytes]

/-- The position of the block in the stream, in samples, if the block has the size of the blocks before it, or the header
has a sample number. (For other blocks, see Spec/Timeline.lean.) -/
def time (h : FrameHeader) : Nat :=
  if h.variableBlockSize then h.number else h.number * h.blockSize.size

/-- The headers that claxon accepts. -/
structure WellFormed (h : FrameHeader) : Prop where
  number : CodedNumberAccepted h.numberLength h.number
  frameNumber : h.variableBlockSize = false → h.number < 2 ^ 31

/-- The headers that an encoder may write. -/
structure Legal (h : FrameHeader) : Prop where
  number : h.number < 2 ^ 36
  numberLength : h.numberLength = shortestLength h.number
  frameNumber : h.variableBlockSize = false → h.number < 2 ^ 31

end FrameHeader

/-! ### Frames -/

/-- A frame: the header, one subframe per channel, and the bits that fill up the last byte. -/
structure Frame where
  header : FrameHeader
  subframes : List Subframe
  padding : List Bool
  deriving DecidableEq, Repr

namespace Frame

/-- The bits between the header and the checksum, with `bps` bits per sample. -/
def bodyBits (bps : Nat) (f : Frame) : List Bool :=
  (List.zipWith Subframe.bits (f.header.channels.depths bps) f.subframes).flatten ++ f.padding

/-- The bytes of a frame before the checksum. -/
def contentBytes (bps : Nat) (f : Frame) : List U8 :=
  f.header.bytes ++ bitsToBytes (f.bodyBits bps)

/-- The bytes of a frame with `bps` bits per sample. -/
def bytes (bps : Nat) (f : Frame) : List U8 :=
  f.contentBytes bps ++ beBytes 2 (crc16 (f.contentBytes bps)).toNat

/-- What is required of the frames that claxon accepts. The padding may be anything. -/
structure WellFormed (bps : Nat) (f : Frame) : Prop where
  header : f.header.WellFormed
  sampleSize : f.header.sampleSize.bits = some bps
  count : f.subframes.length = f.header.channels.count
  subframes : ∀ p ∈ List.zip (f.header.channels.depths bps) f.subframes,
    p.2.WellFormed p.1 f.header.blockSize.size
  padding : f.padding.length < 8
  aligned : (f.bodyBits bps).length % 8 = 0

/-- What is required of the frames that an encoder writes. -/
structure Legal (bps : Nat) (f : Frame) : Prop where
  header : f.header.Legal
  sampleSize : f.header.sampleSize.bits = some bps
  count : f.subframes.length = f.header.channels.count
  subframes : ∀ p ∈ List.zip (f.header.channels.depths bps) f.subframes,
    p.2.Legal p.1 f.header.blockSize.size
  padding : f.padding.length < 8 ∧ ∀ b ∈ f.padding, b = false
  aligned : (f.bodyBits bps).length % 8 = 0

/-- The samples of the channels of a frame, as claxon computes them: in two's complement with 32 bits. -/
def wrappedChannels (f : Frame) : List (List Int) :=
  f.header.channels.decorrelate Arith.wrap32.wrap
    (f.subframes.map (Subframe.samplesWith .wrap32 f.header.blockSize.size))

/-- `f` is an encoding of the given channels with `bps` bits per sample: it is legal, and its subframes
denote what an encoder puts there. -/
structure Encodes (bps : Nat) (f : Frame) (channels : List (List Int)) : Prop where
  legal : f.Legal bps
  count : channels.length = f.header.channels.count
  size : ∀ c ∈ channels, c.length = f.header.blockSize.size
  range : ∀ c ∈ channels, ∀ v ∈ c, FitsIn bps v
  signals : f.subframes.map (Subframe.samples f.header.blockSize.size) =
    f.header.channels.correlate channels

end Frame

end Spec
