import Verif.Model.Metadata
import Verif.Model.Frame

/-! Models `/repo/src/lib.rs`. The file system, which `FlacReader::open` and `open_ext` (455-470) use, is not modelled:
what there is to read under which path is a parameter. -/

namespace Claxon

open ReadBytes

/-- lib.rs:123-142. -/
structure FlacReaderOptions where
  metadataOnly : Bool
  readVorbisComment : Bool
  deriving DecidableEq, Repr

namespace FlacReaderOptions

/-- lib.rs:144-151. -/
def default : FlacReaderOptions := { readVorbisComment := true, metadataOnly := false }

/-- lib.rs:155-165. -/
def hasDesiredBlocks (o : FlacReaderOptions) : Bool :=
  if !o.metadataOnly then true else o.readVorbisComment

end FlacReaderOptions

section

variable {σ : Type} [ReadBytes σ]

/-- lib.rs:186-205. -/
def readStreamHeader : Dec σ Unit := do
  let header ← readBeU32
  if header ≠ 0x664c6143#32 then
    if header &&& 0xffffff00#32 = 0x49443300#32 then
      fmtErr "stream starts with ID3 header rather than FLAC header"
    else fmtErr "invalid stream header"
  else pure ()

/-- lib.rs:252-279: the loop over the metadata blocks after the streaminfo block. On an endless input
it need not end, so the number of iterations is bounded by `fuel`. -/
def metadataLoop [Build] : (fuel : Nat) → (opts : FlacReaderOptions) → (vc : Option VorbisComment) →
    Dec (MetadataBlockReader σ) (Option VorbisComment)
  | 0, _, _ => Dec.fail .diverged
  | fuel + 1, opts, vc => do
    match ← MetadataBlockReader.next with
    | none => pure vc
    | some (.error e) => Dec.fail (.err e)
    | some (.ok (.vorbisComment c)) =>
      if vc.isSome then fmtErr "encountered second Vorbis comment block"
      else
        let opts := { opts with readVorbisComment := false }
        if !opts.hasDesiredBlocks then pure (some c)
        else metadataLoop fuel opts (some c)
    | some (.ok (.streamInfo _)) => fmtErr "encountered second streaminfo block"
    | some (.ok _) =>
      if !opts.hasDesiredBlocks then pure vc
      else metadataLoop fuel opts vc

/-- lib.rs:244-287, on the metadata block reader. -/
def readMetadata [Build] (fuel : Nat) (options : FlacReaderOptions) :
    Dec (MetadataBlockReader σ) (StreamInfo × Option VorbisComment) := do
  match ← MetadataBlockReader.next with
  | none => Dec.lift (panicRes .unwrapNone)
  | some (.error e) => Dec.fail (.err e)
  | some (.ok (.streamInfo info)) => do
    let vc ← metadataLoop fuel options none
    pure (info, if !options.readVorbisComment then none else vc)
  | some (.ok _) => fmtErr "streaminfo block missing"

/-- lib.rs:231-288: everything `new_ext` reads from the buffered reader. Generic in the reader, although
the code only uses it with `BufferedReader`. -/
def openStream [Build] (fuel : Nat) (options : FlacReaderOptions) :
    Dec σ (StreamInfo × Option VorbisComment) := do
  readStreamHeader
  fun s =>
    let r := readMetadata fuel options (MetadataBlockReader.new s)
    (r.1, r.2.input)

end

/-- lib.rs:99-104. -/
inductive FlacReaderState (τ : Type) where
  | full (t : τ)
  | metadataOnly (t : τ)

/-- lib.rs:93-97. Generic in the buffered reader, see `openStream`. -/
structure FlacReader (σ : Type) where
  streaminfo : StreamInfo
  vorbisComment : Option VorbisComment
  input : FlacReaderState σ

/-- lib.rs:169-178. -/
structure FlacSamples (σ : Type) where
  frameReader : σ
  block : Block
  sample : Nat
  channel : Nat
  hasFailed : Bool

namespace FlacSamples

/-- lib.rs:399-405 (and 421-427). -/
def new {σ : Type} (inp : σ) : FlacSamples σ :=
  { frameReader := inp, block := Block.empty, sample := 0, channel := 0, hasFailed := false }

variable {σ : Type} [ReadBytes σ]

/-- `self.frame_reader` as a sub-state. (lib.rs:499) -/
def onReader {α : Type} (m : Dec σ α) : Dec (FlacSamples σ) α :=
  Dec.zoom FlacSamples.frameReader (fun r it => { it with frameReader := r }) m

/-- lib.rs:518: the current sample. -/
def current [Build] [Target] : Dec (FlacSamples σ) (Option (Except Error I32)) := do
  let it ← Dec.get
  let s ← it.block.sample it.channel it.sample
  pure (some (.ok s))

/-- lib.rs:493-514: decode the next block, reusing the buffer of the current one. -/
def nextBlock [FuzzCfg] [Build] [Target] : Dec (FlacSamples σ) (Option (Except Error I32)) := do
  let it ← Dec.get
  Dec.set { it with sample := 0, block := Block.empty }
  match ← Dec.catchErr (onReader (readNextOrEof it.block.intoBuffer)) with
  | .ok (some b) => do
    let it ← Dec.get
    Dec.set { it with block := b }
    current
  | .ok none => pure none
  | .error e => do
    let it ← Dec.get
    Dec.set { it with hasFailed := true }
    pure (some (.error e))

/-- lib.rs:476-519. Also models `FlacIntoSamples::next` (525-527), which calls this. -/
def next [FuzzCfg] [Build] [Target] : Dec (FlacSamples σ) (Option (Except Error I32)) := do
  let it ← Dec.get
  if it.hasFailed then pure none
  else do
    let channel ← addU 32 it.channel 1
    if channel ≥ it.block.channels then do
      let sample ← addU 32 it.sample 1
      Dec.set { it with channel := 0, sample := sample }
      if sample ≥ it.block.duration then nextBlock
      else current
    else do
      Dec.set { it with channel := channel }
      current

end FlacSamples

namespace FlacReader

/-- lib.rs:290-306. -/
def make {σ : Type} (options : FlacReaderOptions) (info : StreamInfo) (vc : Option VorbisComment)
    (r : σ) : FlacReader σ :=
  { streaminfo := info
    vorbisComment := vc
    input := if options.metadataOnly then .metadataOnly r else .full r }

/-- lib.rs:230-307, generic in the reader: `new_ext` with the buffered reader already constructed. -/
def newExtGen [Build] {σ : Type} [ReadBytes σ] (fuel : Nat) (r : σ) (options : FlacReaderOptions) :
    Res (FlacReader σ) :=
  match openStream fuel options r with
  | (.ok (info, vc), r') => .ok (make options info vc r')
  | (.error f, _) => .error f

/-- lib.rs:230-307. -/
def newExt [FuzzCfg] [Build] (fuel : Nat) (reader : Src) (options : FlacReaderOptions) :
    Res (FlacReader BufferedReader) :=
  newExtGen fuel (BufferedReader.new reader) options

/-- lib.rs:217-219. -/
def new [FuzzCfg] [Build] (fuel : Nat) (reader : Src) : Res (FlacReader BufferedReader) :=
  newExt fuel reader FlacReaderOptions.default

/-- What `std::fs::File::open` returns for the file names: an error of the operating system, or an open file.
(lib.rs:456, 468) -/
abbrev Files := String → Except IoError Src

/-- lib.rs:464-469 `open_ext`. -/
def openExt [FuzzCfg] [Build] (fuel : Nat) (files : Files) (filename : String) (options : FlacReaderOptions) :
    Res (FlacReader BufferedReader) := do
  let file ← match files filename with
    | .ok file => pure file
    | .error e => .error (.err (.ioError e))
  newExt fuel file options

/-- lib.rs:454-457 `open`. -/
def open' [FuzzCfg] [Build] (fuel : Nat) (files : Files) (filename : String) : Res (FlacReader BufferedReader) := do
  let file ← match files filename with
    | .ok file => pure file
    | .error e => .error (.err (.ioError e))
  new fuel file

variable {σ : Type}

/-- lib.rs:321-323. -/
def vendor (r : FlacReader σ) : Option Str := r.vorbisComment.map fun vc => vc.vendor

/-- lib.rs:335-340. -/
def tags (r : FlacReader σ) : List (Str × Nat) :=
  match r.vorbisComment with
  | some vc => vc.comments
  | none => []

/-- lib.rs:354-359. -/
def getTag (r : FlacReader σ) (tagName : Str) : GetTag :=
  match r.vorbisComment with
  | some vc => GetTag.new vc.comments tagName
  | none => GetTag.new [] tagName

/-- lib.rs:367-374. The frame reader is identified with its input, see `readNextOrEof`. -/
def blocks (r : FlacReader σ) : Res σ :=
  match r.input with
  | .full inp => .ok inp
  | .metadataOnly _ => panicRes .explicit

/-- lib.rs:396-412. -/
def samples (r : FlacReader σ) : Res (FlacSamples σ) :=
  match r.input with
  | .full inp => .ok (FlacSamples.new inp)
  | .metadataOnly _ => panicRes .explicit

/-- lib.rs:367-374 and 396-412. `blocks()` and `samples()` borrow the input mutably (input.rs:214-247), so that when
what they returned is dropped, the input is in the state `inp` in which they left it. A block that was held by the
sample iterator is dropped with it. -/
def afterBorrow (r : FlacReader σ) (inp : σ) : FlacReader σ := { r with input := .full inp }

/-- lib.rs:417-435. -/
def intoSamples (r : FlacReader σ) : Res (FlacSamples σ) :=
  match r.input with
  | .full inp => .ok (FlacSamples.new inp)
  | .metadataOnly _ => panicRes .explicit

/-- lib.rs:441-446. -/
def intoInner (r : FlacReader BufferedReader) : Src :=
  match r.input with
  | .full inp => inp.intoInner
  | .metadataOnly inp => inp.intoInner

end FlacReader

end Claxon
