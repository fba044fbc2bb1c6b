import Verif.Model.Lib

/-! Models `/repo/examples/decode_simple.rs`, `decode.rs`, `decode_ogg.rs` and `decode_mp4.rs`, without their
`main` functions (see `Programs.lean`), `tags.rs`, and the size that `bench_decode.rs` computes.

Simplifications: the crates `hound`, `ogg` and `mp4parse`, which are not part of the repository, are represented by
what the examples use them for, see `Wav`, `Packet` and `Track`. That creating or writing the file can fail is not
modelled. `expect` and `unwrap` on an error, and `panic!`, are `panic .explicit`. -/

namespace Claxon

namespace Examples

/-- `hound::WavWriter`: the format it was created with, and the samples written so far.
(e.g. decode_simple.rs:21-30) -/
structure Wav (α : Type) where
  channels : Nat
  sampleRate : Nat
  bitsPerSample : Nat
  samples : List α
  deriving DecidableEq, Repr

/-- decode_simple.rs:21-30: a new file with the format of the stream. The same in decode.rs:27-35, decode_ogg.rs:46-55
and decode_mp4.rs:46-55. Casting the `u32`s to `u16` is the identity, because they are at most 8 and 32. -/
def Wav.create {α : Type} (info : StreamInfo) : Wav α :=
  { channels := info.channels % 2 ^ 16
    sampleRate := info.sampleRate
    bitsPerSample := info.bitsPerSample % 2 ^ 16
    samples := [] }

/-- `write_sample`, if the file exists. (e.g. decode_simple.rs:34) -/
def writeSample {α : Type} (v : α) : Dec (Option (Wav α)) Unit := fun w =>
  (.ok (), w.map fun w => { w with samples := w.samples ++ [v] })

/-- A `for` loop over an iterator, with at most `fuel` items: on an endless stream it need not end.
(e.g. decode_simple.rs:32-35) -/
def forLoop {τ ω α : Type} (next : Dec τ (Option α)) (body : α → Dec ω Unit) : (fuel : Nat) → τ → Dec ω Unit
  | 0, _ => Dec.fail .diverged
  | fuel + 1, it =>
    match next it with
    | (.ok none, _) => pure ()
    | (.ok (some a), it') => do
      body a
      forLoop next body fuel it'
    | (.error f, _) => Dec.fail f

/-- `expect` and `unwrap`: a returned error becomes a panic. (e.g. decode.rs:21) -/
def expect {α : Type} : Res α → Res α
  | .error (.err _) => panicRes .explicit
  | x => x

/-! ### decode_simple.rs -/

/-- decode_simple.rs:33-34, the body of the loop. -/
def simpleBody : Except Error I32 → Dec (Option (Wav I32)) Unit
  | .ok sample => writeSample sample
  | .error e => Dec.fail (.err e)

/-- decode_simple.rs:18-38 `decode_file`. The state is the WAV file, if it has been created. -/
def decodeSimple [FuzzCfg] [Build] [Target] (fuel : Nat) (files : FlacReader.Files) (fname : String) :
    Dec (Option (Wav I32)) Unit := do
  let reader ← FlacReader.open' fuel files fname
  Dec.set (some (Wav.create reader.streaminfo))
  let samples ← reader.samples
  forLoop FlacSamples.next simpleBody fuel samples

/-! ### decode.rs -/

/-- `hound::SampleWriter16`: the number of samples there is room for, and those written. (decode.rs:48-62) -/
structure SampleWriter where
  capacity : Nat
  written : List (BitVec 16)
  deriving DecidableEq, Repr

/-- `SampleWriter16::write_sample_unchecked`: the sample is truncated; writing more samples than there is room for is
undefined behaviour. (decode.rs:57-58) -/
def writeSampleUnchecked (v : I32) : Dec SampleWriter Unit := fun w =>
  if w.written.length < w.capacity then (.ok (), { w with written := w.written ++ [v.setWidth 16] })
  else (.error .ub, w)

/-- decode.rs:52-59, the body of the inner loop. -/
def decodeBody (p : I32 × I32) : Dec SampleWriter Unit := do
  writeSampleUnchecked p.1
  writeSampleUnchecked p.2

/-- decode.rs:48-62: the samples of a block are written. `flush` panics if not exactly as many samples were written as
there is room for. -/
def decodeBlock [Build] [Target] (b : Block) : Res (List (BitVec 16)) := do
  let capacity ← mulU 32 b.duration 2
  let it ← b.stereoSamples
  match forLoop StereoSamples.next decodeBody (b.duration + 1) it ⟨capacity, []⟩ with
  | (.ok (), w) => if w.written.length = w.capacity then .ok w.written else panicRes .explicit
  | (.error f, _) => .error f

/-- decode.rs:39-63: the loop. The state is the WAV file. -/
def decodeLoop [FuzzCfg] [Build] [Target] {σ : Type} [ReadBytes σ] : (fuel : Nat) → (buffer : VecI32) → σ →
    Dec (Option (Wav (BitVec 16))) Unit
  | 0, _, _ => Dec.fail .diverged
  | fuel + 1, buffer, s =>
    match readNextOrEof buffer s with
    | (.ok (some block), s') => do
      let written ← decodeBlock block
      fun w => (.ok (), w.map fun w => { w with samples := w.samples ++ written })
      decodeLoop fuel block.intoBuffer s'
    | (.ok none, _) => pure ()
    | (.error (.err _), _) => Dec.lift (panicRes .explicit)
    | (.error f, _) => Dec.fail f

/-- decode.rs:20-66 `decode_file`. -/
def decode [FuzzCfg] [Build] [Target] (fuel : Nat) (files : FlacReader.Files) (fname : String) :
    Dec (Option (Wav (BitVec 16))) Unit := do
  let reader ← expect (FlacReader.open' fuel files fname)
  if reader.streaminfo.bitsPerSample ≠ 16 then Dec.lift (panicRes .explicit)
  else if reader.streaminfo.channels ≠ 2 then Dec.lift (panicRes .explicit)
  else do
    Dec.set (some (Wav.create reader.streaminfo))
    let frames ← reader.blocks
    decodeLoop fuel Block.empty.intoBuffer frames

/-! ### decode_ogg.rs -/

/-- decode_ogg.rs:118-121 and decode_mp4.rs:156-159: the stereo samples of a block are written. -/
def writeStereo [Build] [Target] (b : Block) : Dec (Option (Wav I32)) Unit := do
  let it ← b.stereoSamples
  forLoop StereoSamples.next (fun p => do writeSample p.1; writeSample p.2) (b.duration + 1) it

/-- A vector with room for the samples of a block. decode_ogg.rs:59-60 and decode_mp4.rs:144-145. Simplification: the
product is not bounded by the range of `usize`; it is less than `2 ^ 16 * 8`. -/
def blockBuffer (info : StreamInfo) : VecI32 :=
  { data := [], cap := info.maxBlockSize * info.channels }

/-- The contents of an `ogg::Packet`. The packets of a file, as `ogg::PacketReader` returns them, are a list of
packets. (decode_ogg.rs:61, 70) -/
abbrev Packet := List U8

/-- `io::Cursor::new(&packet.data)`. (decode_ogg.rs:41, 73, 107, decode_mp4.rs:120) -/
def cursorOf (packet : List U8) : Cursor := { data := packet, pos := 0 }

/-- decode_ogg.rs:70-94 `read_first_packet`. -/
def readFirstPacket [Build] (packet : Packet) : Res (StreamInfo × Nat) := do
  let m : Dec Cursor (StreamInfo × Nat) := do
    ReadBytes.skip 7
    let headerPacketsLeft ← readBeU16
    ReadBytes.skip 4
    match ← readMetadataBlockWithHeader with
    | .streamInfo si => pure (si, headerPacketsLeft.toNat)
    | _ => Dec.lift (panicRes .explicit)
  expect (m (cursorOf packet)).1

/-- decode_ogg.rs:39-43: the metadata packets are decoded and thrown away. What is left of the file. -/
def skipHeaders [Build] : Nat → List Packet → Res (List Packet)
  | 0, packets => .ok packets
  | _ + 1, [] => panicRes .explicit
  | n + 1, packet :: packets => do
    let _ ← expect ((readMetadataBlockWithHeader : Dec Cursor _) (cursorOf packet)).1
    skipHeaders n packets

/-- decode_mp4.rs:151 and decode_ogg.rs:113: `result.expect(..).expect(..)`: the end of the file is a panic, too. -/
def expectBlock : Res (Option Block) → Res Block
  | .ok (some b) => .ok b
  | .ok none => panicRes .explicit
  | .error (.err _) => panicRes .explicit
  | .error f => .error f

/-- decode_ogg.rs:99-125 `decode_frame`. -/
def decodeFrame [FuzzCfg] [Build] [Target] (packet : Packet) (buffer : VecI32) : Dec (Option (Wav I32)) VecI32 := do
  let block ← expectBlock ((readNextOrEof buffer : Dec Cursor _) (cursorOf packet)).1
  writeStereo block
  pure block.intoBuffer

/-- decode_ogg.rs:61-66: the loop over the packets with frames. -/
def framePackets [FuzzCfg] [Build] [Target] : List Packet → VecI32 → Dec (Option (Wav I32)) Unit
  | [], _ => pure ()
  | packet :: packets, buffer =>
    if packet.length = 0 then framePackets packets buffer
    else do
      let buffer ← decodeFrame packet buffer
      framePackets packets buffer

/-- decode_ogg.rs:26-67 `decode_file`. -/
def decodeOgg [FuzzCfg] [Build] [Target] (packets : List Packet) : Dec (Option (Wav I32)) Unit :=
  match packets with
  | [] => Dec.lift (panicRes .explicit)
  | first :: packets => do
    let (streaminfo, left) ← readFirstPacket first
    let packets ← skipHeaders left packets
    Dec.set (some (Wav.create streaminfo))
    framePackets packets (blockBuffer streaminfo)

/-! ### decode_mp4.rs -/

/-- What decode_mp4.rs uses of an `mp4parse::Track` with the codec FLAC: the metadata blocks with their types, the
offsets of the chunks, and the sample-to-chunk table with its `first_chunk` and `samples_per_chunk`. -/
structure Track where
  blocks : List (U8 × List U8)
  chunkOffsets : List Nat
  chunkSamples : List (Nat × Nat)

/-- decode_mp4.rs:118-128, the loop of `get_streaminfo`. -/
def getStreaminfo [Build] : List (U8 × List U8) → Res (Option StreamInfo)
  | [] => .ok none
  | (blockType, data) :: blocks => do
    match ← expect ((readMetadataBlock blockType (data.length % 2 ^ 32) : Dec Cursor _) (cursorOf data)).1 with
    | .streamInfo si => .ok (some si)
    | _ => getStreaminfo blocks

/-- decode_mp4.rs:147-162, the loop of `decode_frames`. -/
def decodeFrames [FuzzCfg] [Build] [Target] {σ : Type} [ReadBytes σ] : (numFrames : Nat) → (buffer : VecI32) → σ →
    Dec (Option (Wav I32)) Unit
  | 0, _, _ => pure ()
  | n + 1, buffer, s => do
    let r := readNextOrEof buffer s
    let block ← expectBlock r.1
    writeStereo block
    decodeFrames n block.intoBuffer r.2

/-- decode_mp4.rs:82-90: the entry that comes next in the table, and the number of frames per chunk, are updated for
chunk number `i`, counted from 0. `table` is the entry `next_samples`, if there is one, and the entries after it. -/
def nextChunk [Build] (i : Nat) (table : List (Nat × Nat)) (samplesPerChunk : Nat) : Res (List (Nat × Nat) × Nat) :=
  match table with
  | [] => .ok ([], samplesPerChunk)
  | ns :: rest => do
    let chunk ← addU 32 1 (i % 2 ^ 32)
    if ns.1 = chunk then .ok (rest, ns.2) else .ok (ns :: rest, samplesPerChunk)

/-- decode_mp4.rs:75-93: the loop over the chunks. `seek k offset` is the reader after it has been positioned at
`offset`, for chunk number `k`: seeking forgets where the reader was. -/
def chunkLoop [FuzzCfg] [Build] [Target] (seek : Nat → Nat → Src) (info : StreamInfo) : (offsets : List Nat) → (i : Nat) →
    (table : List (Nat × Nat)) → (samplesPerChunk : Nat) → Dec (Option (Wav I32)) Unit
  | [], _, _, _ => pure ()
  | offset :: offsets, i, table, samplesPerChunk => do
    let next ← nextChunk i table samplesPerChunk
    decodeFrames next.2 (blockBuffer info) (BufferedReader.new (seek i offset))
    chunkLoop seek info offsets (i + 1) next.1 next.2

/-- decode_mp4.rs:43-99, for the first FLAC track. -/
def decodeMp4 [FuzzCfg] [Build] [Target] (seek : Nat → Nat → Src) (track : Track) : Dec (Option (Wav I32)) Unit := do
  match ← expect (getStreaminfo track.blocks) with
  | none => Dec.lift (panicRes .explicit)
  | some info => do
    Dec.set (some (Wav.create info))
    chunkLoop seek info track.chunkOffsets 0 track.chunkSamples 0

/-! ### tags.rs -/

/-- The bytes of a text. (for tags.rs:25) -/
def utf8 (s : String) : Str := s.toUTF8.data.toList.map UInt8.toBitVec

/-- tags.rs:25: a line of output, without its end. -/
def tagLine (fname : String) (p : Str × Str) : Str :=
  utf8 fname ++ [0x3a#8, 0x20#8] ++ p.1 ++ [0x3d#8] ++ p.2

/-- tags.rs:18-26, the body of the loop in `main`. The state is what has been printed, as a list of lines. -/
def printTags [FuzzCfg] [Build] (fuel : Nat) (files : FlacReader.Files) (fname : String) : Dec (List Str) Unit := do
  let reader ← expect (FlacReader.open' fuel files fname)
  forLoop tagsNext (fun p lines => (.ok (), lines ++ [tagLine fname p])) (reader.tags.length + 1) reader.tags

/-- tags.rs:16-28 `main`. -/
def printAllTags [FuzzCfg] [Build] (fuel : Nat) (files : FlacReader.Files) : List String → Dec (List Str) Unit
  | [] => pure ()
  | fname :: fnames => do
    printTags fuel files fname
    printAllTags fuel files fnames

/-! ### bench_decode.rs -/

/-- `io::Cursor::new(data)`, as the `io::Read` that a buffered reader reads from: every call fills the buffer of
`CAPACITY` bytes, as far as there is data. (bench_decode.rs:42, 47) -/
def memory [FuzzCfg] (data : List U8) : Src where
  outcome k :=
    let chunk := (data.drop (k * CAPACITY)).take CAPACITY
    .ok chunk.length chunk
  calls := 0

/-- The position of the cursor `src`, which was `memory data` at the beginning. (bench_decode.rs:45) -/
def memoryPosition [FuzzCfg] (data : List U8) (src : Src) : Nat := min (src.calls * CAPACITY) data.length

/-- bench_decode.rs:42-45: `data_bytes`. -/
def dataBytes [FuzzCfg] [Build] [Target] (fuel : Nat) (data : List U8) : Res Nat := do
  let reader ← expect (FlacReader.new fuel (memory data))
  subU Target.usizeBits data.length (memoryPosition data reader.intoInner)

end Examples

end Claxon
