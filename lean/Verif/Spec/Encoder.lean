import Verif.Spec.Metadata

/-! # A simple encoder

It stores the samples as they are. Everything that can be decoded has other encodings too, and better ones, but
every recording has this one. -/

namespace Spec

open Claxon

/-- The code for the number of bits per sample. -/
def sampleSizeField (bps : Nat) : SampleSizeField :=
  if bps = 8 then .bits8 else if bps = 12 then .bits12 else if bps = 16 then .bits16
  else if bps = 20 then .bits20 else .bits24

/-- The frame with the given number, of the given channels with samples of `bps` bits each. -/
def encodeFrame (bps : Nat) (mode : ChannelField) (number : Nat) (channels : List (List Int)) : Frame :=
  let header : FrameHeader :=
    { variableBlockSize := false
      blockSize := .bits16 (Fin.ofNat 65535 ((channels.headD []).length - 1))
      sampleRate := .streaminfo
      channels := mode
      sampleSize := sampleSizeField bps
      number := number
      numberLength := shortestLength number }
  let subframes := (mode.correlate channels).map fun signal => ⟨.verbatim signal, 0⟩
  let used := (Frame.bodyBits bps ⟨header, subframes, []⟩).length
  { header := header, subframes := subframes, padding := List.replicate ((8 - used % 8) % 8) false }

/-- The frames for the given blocks, numbered from `number`. -/
def encodeFrames (bps : Nat) (mode : ChannelField) : (number : Nat) → List (List (List Int)) → List U8
  | _, [] => []
  | number, block :: blocks =>
    (encodeFrame bps mode number block).bytes bps ++ encodeFrames bps mode (number + 1) blocks

/-- A stream with a streaminfo block and the given blocks. -/
def encodeStream (info : StreamInfo) (bps : Nat) (mode : ChannelField) (blocks : List (List (List Int))) :
    List U8 :=
  streamMarker ++ (0x80#8 :: beBytes 3 34 ++ streaminfoBytes info) ++ encodeFrames bps mode 0 blocks

/-- A block that can be encoded: as many channels as the mode has, all of the same length, and samples of
`bps` bits. -/
structure Encodable (bps : Nat) (mode : ChannelField) (block : List (List Int)) : Prop where
  depth : bps ∈ [8, 12, 16, 20, 24]
  count : block.length = mode.count
  size : ∃ n, 1 ≤ n ∧ n ≤ 65535 ∧ ∀ c ∈ block, c.length = n
  range : ∀ c ∈ block, ∀ v ∈ c, FitsIn bps v

end Spec
