import Verif.Model.Input

/-! Models `/repo/src/metadata.rs`. A Rust `String` or `&str` is the list of its bytes. -/

namespace Claxon

open ReadBytes

/-- The bytes of a Rust `str`. (metadata.rs:82, 100) -/
abbrev Str := List U8

/-! ### The parts of `std::str` that are used -/

/-- A UTF-8 continuation byte. (for metadata.rs:439, 492) -/
def isCont (b : U8) : Bool := 0x80#8 ≤ b && b ≤ 0xbf#8

/-- Whether `String::from_utf8` accepts the bytes: `core::str::from_utf8`, i.e. `run_utf8_validation`
of the Rust standard library. (metadata.rs:439, 492) -/
def utf8Valid : List U8 → Bool
  | [] => true
  | b0 :: rest =>
    if b0 < 0x80#8 then utf8Valid rest
    else if 0xc2#8 ≤ b0 && b0 ≤ 0xdf#8 then
      match rest with
      | b1 :: rest => isCont b1 && utf8Valid rest
      | [] => false
    else if 0xe0#8 ≤ b0 && b0 ≤ 0xef#8 then
      match rest with
      | b1 :: b2 :: rest =>
        ((b0 == 0xe0#8 && (0xa0#8 ≤ b1 && b1 ≤ 0xbf#8)) ||
         (0xe1#8 ≤ b0 && b0 ≤ 0xec#8 && (0x80#8 ≤ b1 && b1 ≤ 0xbf#8)) ||
         (b0 == 0xed#8 && (0x80#8 ≤ b1 && b1 ≤ 0x9f#8)) ||
         (0xee#8 ≤ b0 && b0 ≤ 0xef#8 && (0x80#8 ≤ b1 && b1 ≤ 0xbf#8))) &&
        isCont b2 && utf8Valid rest
      | _ => false
    else if 0xf0#8 ≤ b0 && b0 ≤ 0xf4#8 then
      match rest with
      | b1 :: b2 :: b3 :: rest =>
        ((b0 == 0xf0#8 && (0x90#8 ≤ b1 && b1 ≤ 0xbf#8)) ||
         (0xf1#8 ≤ b0 && b0 ≤ 0xf3#8 && (0x80#8 ≤ b1 && b1 ≤ 0xbf#8)) ||
         (b0 == 0xf4#8 && (0x80#8 ≤ b1 && b1 ≤ 0x8f#8))) &&
        isCont b2 && isCont b3 && utf8Valid rest
      | _ => false
    else false

/-- `str::is_char_boundary`. (for metadata.rs:155, 204-205) -/
def isCharBoundary (s : Str) (i : Nat) : Bool :=
  if i = 0 then true
  else match s[i]? with
    | none => i == s.length
    | some b => !isCont b

/-- `&s[..i]`. (metadata.rs:155, 204) -/
def strTo (s : Str) (i : Nat) : Res Str :=
  if isCharBoundary s i then .ok (s.take i) else panicRes .charBoundary

/-- `&s[i..]`. (metadata.rs:155, 205) -/
def strFrom (s : Str) (i : Nat) : Res Str :=
  if isCharBoundary s i then .ok (s.drop i) else panicRes .charBoundary

/-- `u8::to_ascii_lowercase`. (for metadata.rs:204) -/
def asciiLower (b : U8) : U8 := if 0x41#8 ≤ b ∧ b ≤ 0x5a#8 then b + 0x20#8 else b

/-- `str::eq_ignore_ascii_case`. (metadata.rs:204) -/
def eqIgnoreAsciiCase (s t : Str) : Bool :=
  s.length == t.length && (List.zip s t).all fun p => asciiLower p.1 == asciiLower p.2

/-! ### Data types -/

/-- metadata.rs:16-20. -/
structure MetadataBlockHeader where
  isLast : Bool
  blockType : U8
  length : Nat
  deriving DecidableEq, Repr

/-- metadata.rs:24-54. -/
structure StreamInfo where
  minBlockSize : Nat
  maxBlockSize : Nat
  minFrameSize : Option Nat
  maxFrameSize : Option Nat
  sampleRate : Nat
  channels : Nat
  bitsPerSample : Nat
  samples : Option Nat
  md5sum : List U8
  deriving DecidableEq, Repr

/-- metadata.rs:76-101. -/
structure VorbisComment where
  vendor : Str
  comments : List (Str × Nat)
  deriving DecidableEq, Repr

/-- metadata.rs:56-66. -/
structure SeekPoint where
  sample : U64
  offset : U64
  samples : U16
  deriving DecidableEq, Repr

/-- metadata.rs:104-129. The struct `SeekTable` (metadata.rs:69-73) is its only field, the list of seek points. -/
inductive MetadataBlock where
  | streamInfo (info : StreamInfo)
  | padding (length : Nat)
  | application (id : U32) (data : List U8)
  | seekTable (seekpoints : List SeekPoint)
  | vorbisComment (vc : VorbisComment)
  | cueSheet
  | picture
  | reserved
  deriving DecidableEq, Repr

/-! ### Tag iterators -/

/-- metadata.rs:153-157: `Tags::next`. A `Tags` iterator is the list of the remaining comments. -/
def tagsNext : Dec (List (Str × Nat)) (Option (Str × Str)) := do
  match ← Dec.get with
  | [] => pure none
  | (comment, sepIdx) :: rest => do
    Dec.set rest
    let name ← strTo comment sepIdx
    let value ← strFrom comment (sepIdx + 1)
    pure (some (name, value))

/-- metadata.rs:160-162: `Tags::size_hint`, the number of remaining comments. -/
def tagsSizeHint (it : List (Str × Nat)) : Nat × Option Nat := (it.length, some it.length)

/-- metadata.rs:170-177. -/
structure GetTag where
  vorbisComments : List (Str × Nat)
  needle : Str
  index : Nat

/-- metadata.rs:182-188. -/
def GetTag.new (vorbisComments : List (Str × Nat)) (needle : Str) : GetTag :=
  { vorbisComments := vorbisComments, needle := needle, index := 0 }

/-- metadata.rs:200-209: the loop of `GetTag::next`, bounded by the number `n` of comments at and
after the current index. -/
def getTagLoop : (n : Nat) → Dec GetTag (Option Str)
  | 0 => pure none
  | n + 1 => do
    let it ← Dec.get
    if it.index < it.vorbisComments.length then do
      let (comment, sepIdx) ← index it.vorbisComments it.index
      Dec.set { it with index := it.index + 1 }
      let name ← strTo comment sepIdx
      if eqIgnoreAsciiCase name it.needle then do
        let value ← strFrom comment (sepIdx + 1)
        pure (some value)
      else getTagLoop n
    else pure none

/-- metadata.rs:195-210. -/
def getTagNext : Dec GetTag (Option Str) := do
  let it ← Dec.get
  getTagLoop (it.vorbisComments.length - it.index)

/-! ### Reading metadata blocks -/

section

variable {σ : Type} [ReadBytes σ]

/-- metadata.rs:214-231. -/
def readMetadataBlockHeader : Dec σ MetadataBlockHeader := do
  let byte ← readU8
  let isLast := (byte >>> 7) == 1#8
  let blockType := byte &&& 0b0111_1111#8
  let length ← readBeU24
  pure { isLast := isLast, blockType := blockType, length := length.toNat }

/-- metadata.rs:358-399: the validity checks, and the result. -/
def checkStreaminfo (minBlockSize maxBlockSize : U16) (minFrameSize maxFrameSize sampleRate : U32)
    (nChannels bitsPerSample : Nat) (nSamples : U64) (md5sum : List U8) : Dec σ StreamInfo :=
  if minBlockSize > maxBlockSize then
    fmtErr "inconsistent bounds, min block size > max block size"
  else if minBlockSize < 16#16 then fmtErr "invalid block size, must be at least 16"
  else if minFrameSize > maxFrameSize ∧ maxFrameSize ≠ 0#32 then
    fmtErr "inconsistent bounds, min frame size > max frame size"
  else if sampleRate = 0#32 ∨ sampleRate > 655350#32 then fmtErr "invalid sample rate"
  else pure
    { minBlockSize := minBlockSize.toNat
      maxBlockSize := maxBlockSize.toNat
      minFrameSize := if minFrameSize = 0#32 then none else some minFrameSize.toNat
      maxFrameSize := if maxFrameSize = 0#32 then none else some maxFrameSize.toNat
      sampleRate := sampleRate.toNat
      channels := nChannels
      bitsPerSample := bitsPerSample
      samples := if nSamples = 0#64 then none else some nSamples.toNat
      md5sum := md5sum }

/-- metadata.rs:321-400. -/
def readStreaminfoBlock [Build] : Dec σ StreamInfo := do
  let minBlockSize ← readBeU16
  let maxBlockSize ← readBeU16
  let minFrameSize ← readBeU24
  let maxFrameSize ← readBeU24
  let sampleRateMsb ← readBeU16
  let sampleRateLsb ← readU8
  let sampleRate : U32 := sampleRateMsb.setWidth 32 <<< 4 ||| sampleRateLsb.setWidth 32 >>> 4
  let nChannels ← addU 8 ((sampleRateLsb >>> 1) &&& 0b0000_0111#8).toNat 1
  let bpsMsb := sampleRateLsb &&& 1#8
  let bpsLsbNSamples ← readU8
  let bitsPerSample ← addU 8 (bpsMsb <<< 4 ||| (bpsLsbNSamples >>> 4)).toNat 1
  let nSamplesMsb := bpsLsbNSamples &&& 0b0000_1111#8
  let nSamplesLsb ← readBeU32
  let nSamples : U64 := nSamplesMsb.setWidth 64 <<< 32 ||| nSamplesLsb.setWidth 64
  let md5sum ← readInto 16
  checkStreaminfo minBlockSize maxBlockSize minFrameSize maxFrameSize sampleRate nChannels
    bitsPerSample nSamples md5sum

/-- `String::from_utf8`, with its error converted as in error.rs:88-94. -/
def stringFromUtf8 (bytes : List U8) : Dec σ Str :=
  if utf8Valid bytes then pure bytes
  else fmtErr "Vorbis comment or vendor string is not valid UTF-8"

/-- metadata.rs:479-496: check one comment. -/
def checkComment (commentBytes : List U8) : Dec σ (Str × Nat) :=
  match commentBytes.findIdx? (fun x => x == 0x3d#8) with
  | some sepIndex =>
    if (commentBytes.take sepIndex).any (fun x => x < 0x20#8 || x > 0x7d#8) then
      fmtErr "Vorbis comment field name contains invalid byte"
    else do
      let comment ← stringFromUtf8 commentBytes
      pure (comment, sepIndex)
  | none => fmtErr "Vorbis comment does not contain '='"

/-- metadata.rs:455-497: the loop over the comments. Returns the final `bytes_left`, `comments_len` and `comments`. -/
def commentsLoop [Build] (bytesLeft commentsLen : Nat) (comments : List (Str × Nat)) :
    Dec σ (Nat × Nat × List (Str × Nat)) :=
  if _h : bytesLeft ≥ 4 ∧ comments.length < commentsLen then do
    let commentLen ← readLeU32
    match _h4 : subU 32 bytesLeft 4 with
    | .error e => liftM (.error e : Res _)
    | .ok left =>
      if commentLen.toNat > left then fmtErr "Vorbis comment too long for Vorbis comment block"
      else if commentLen.toNat = 0 then do
        let commentsLen ← subU 32 commentsLen 1
        commentsLoop left commentsLen comments
      else do
        onAlloc commentLen.toNat 1
        let commentBytes ← readInto commentLen.toNat
        match _h5 : subU 32 left commentLen.toNat with
        | .error e => liftM (.error e : Res _)
        | .ok left' => do
          let comment ← checkComment commentBytes
          commentsLoop left' commentsLen (comments ++ [comment])
  else pure (bytesLeft, commentsLen, comments)
termination_by bytesLeft
decreasing_by
  · rw [subU, if_pos _h.1] at _h4
    have := Except.ok.inj _h4
    omega
  · rw [subU, if_pos _h.1] at _h4
    have := Except.ok.inj _h4
    rw [subU, if_pos (by omega)] at _h5
    have := Except.ok.inj _h5
    omega

/-- metadata.rs:402-513. An entry of `comments` (a `String` and a `usize`) takes 32 bytes on a 64-bit
platform. -/
def readVorbisCommentBlock [Build] (length : Nat) : Dec σ VorbisComment := do
  if length < 8 then fmtErr "Vorbis comment block is too short"
  else if length > 10 * 1024 * 1024 then
    unsupportedErr "Vorbis comment blocks larger than 10 MiB are not supported"
  else do
    let vendorLen ← readLeU32
    let maxVendorLen ← subU 32 length 8
    if vendorLen.toNat > maxVendorLen then fmtErr "vendor string too long"
    else do
      onAlloc vendorLen.toNat 1
      let vendorBytes ← readInto vendorLen.toNat
      let vendor ← stringFromUtf8 vendorBytes
      let commentsLen ← readLeU32
      if commentsLen.toNat ≥ length / 4 then fmtErr "too many entries for Vorbis comment block"
      else do
        onAlloc commentsLen.toNat 32
        let rest ← subU 32 length 8
        let bytesLeft ← subU 32 rest vendorLen.toNat
        let (bytesLeft, commentsLen, comments) ← commentsLoop bytesLeft commentsLen.toNat []
        if bytesLeft ≠ 0 then fmtErr "Vorbis comment block has excess data"
        else if comments.length ≠ commentsLen then
          fmtErr "Vorbis comment block contains wrong number of entries"
        else pure { vendor := vendor, comments := comments }

/-- metadata.rs:515-522. -/
def readPaddingBlock (length : Nat) : Dec σ Unit := skip length

/-- metadata.rs:524-549. -/
def readApplicationBlock [Build] (length : Nat) : Dec σ (U32 × List U8) := do
  if length < 4 then fmtErr "application block length must be at least 4 bytes"
  else if length > 10 * 1024 * 1024 then
    unsupportedErr "application blocks larger than 10 MiB are not supported"
  else do
    let id ← readBeU32
    let n ← subU 32 length 4
    onAlloc n 1
    let data ← readInto n
    pure (id, data)

/-- metadata.rs:261-319. -/
def readMetadataBlock [Build] (blockType : U8) (length : Nat) : Dec σ MetadataBlock := do
  if blockType = 0#8 then
    if length = 34 then do
      let info ← readStreaminfoBlock
      pure (.streamInfo info)
    else fmtErr "invalid streaminfo metadata block length"
  else if blockType = 1#8 then do
    readPaddingBlock length
    pure (.padding length)
  else if blockType = 2#8 then do
    let (id, data) ← readApplicationBlock length
    pure (.application id data)
  else if blockType = 3#8 then do
    skip length
    pure (.padding length)
  else if blockType = 4#8 then do
    let vc ← readVorbisCommentBlock length
    pure (.vorbisComment vc)
  else if blockType = 5#8 then do
    skip length
    pure (.padding length)
  else if blockType = 6#8 then do
    skip length
    pure (.padding length)
  else if blockType = 127#8 then fmtErr "invalid metadata block type"
  else do
    skip length
    pure .reserved

/-- metadata.rs:244-248. -/
def readMetadataBlockWithHeader [Build] : Dec σ MetadataBlock := do
  let header ← readMetadataBlockHeader
  readMetadataBlock header.blockType header.length

end

/-- metadata.rs:557-560. -/
structure MetadataBlockReader (σ : Type) where
  input : σ
  done : Bool

namespace MetadataBlockReader

/-- metadata.rs:567-572. -/
def new {σ : Type} (input : σ) : MetadataBlockReader σ := { input := input, done := false }

variable {σ : Type} [ReadBytes σ]

/-- `&mut self.input`. (metadata.rs:576-577) -/
def onInput {α : Type} (m : Dec σ α) : Dec (MetadataBlockReader σ) α :=
  Dec.zoom MetadataBlockReader.input (fun i r => { r with input := i }) m

/-- `self.done = done`. (metadata.rs:578, 596) -/
def setDone (done : Bool) : Dec (MetadataBlockReader σ) Unit := fun r =>
  (.ok (), { r with done := done })

/-- metadata.rs:575-580. -/
def readNext [Build] : Dec (MetadataBlockReader σ) MetadataBlock := do
  let header ← onInput readMetadataBlockHeader
  let block ← onInput (readMetadataBlock header.blockType header.length)
  setDone header.isLast
  pure block

/-- metadata.rs:587-601. -/
def next [Build] : Dec (MetadataBlockReader σ) (Option (Except Error MetadataBlock)) := do
  let r ← Dec.get
  if r.done then pure none
  else do
    match ← Dec.catchErr readNext with
    | .ok block => pure (some (.ok block))
    | .error e => do
      setDone true
      pure (some (.error e))

/-- metadata.rs:604-608. -/
def sizeHint (r : MetadataBlockReader σ) : Nat × Option Nat :=
  if r.done then (0, some 0) else (1, none)

end MetadataBlockReader

end Claxon
