import Verif.Spec.Metadata

/-! # Why a stream cannot be opened

The beginnings of streams that a decoder must not go on with: what is wrong, the bytes up to that point, and the
error that tells of it. Everything before that point is as the format prescribes, which is why at most one reason
applies. -/

namespace Spec

open Claxon

/-- Values that can be written in a streaminfo block, whether they make sense or not. -/
structure _root_.Claxon.StreamInfo.Fits (i : StreamInfo) : Prop where
  minBlockSize : i.minBlockSize < 2 ^ 16
  maxBlockSize : i.maxBlockSize < 2 ^ 16
  minFrameSize : ∀ n ∈ i.minFrameSize, 1 ≤ n ∧ n < 2 ^ 24
  maxFrameSize : ∀ n ∈ i.maxFrameSize, 1 ≤ n ∧ n < 2 ^ 24
  sampleRate : i.sampleRate < 2 ^ 20
  channels : 1 ≤ i.channels ∧ i.channels ≤ 8
  bitsPerSample : 1 ≤ i.bitsPerSample ∧ i.bitsPerSample ≤ 32
  samples : ∀ n ∈ i.samples, 1 ≤ n ∧ n < 2 ^ 36
  md5sum : i.md5sum.length = 16

/-- The reasons to refuse a streaminfo block. -/
inductive RefusedInfo (i : StreamInfo) : String → Prop where
  | blockSizes (h : i.maxBlockSize < i.minBlockSize) :
      RefusedInfo i "inconsistent bounds, min block size > max block size"
  | smallBlocks (h1 : i.minBlockSize ≤ i.maxBlockSize) (h : i.minBlockSize < 16) :
      RefusedInfo i "invalid block size, must be at least 16"
  | frameSizes (h1 : i.minBlockSize ≤ i.maxBlockSize) (h2 : 16 ≤ i.minBlockSize) (m n : Nat)
      (hm : i.minFrameSize = some m) (hn : i.maxFrameSize = some n) (h : n < m) :
      RefusedInfo i "inconsistent bounds, min frame size > max frame size"
  | sampleRate (h1 : i.minBlockSize ≤ i.maxBlockSize) (h2 : 16 ≤ i.minBlockSize)
      (h3 : ∀ m ∈ i.minFrameSize, ∀ n ∈ i.maxFrameSize, m ≤ n) (h : i.sampleRate = 0 ∨ 655350 < i.sampleRate) :
      RefusedInfo i "invalid sample rate"

/-- The reasons to refuse a comment. -/
inductive RefusedComment : List U8 → String → Prop where
  | separator (comment : List U8) (h : 0x3d#8 ∉ comment) :
      RefusedComment comment "Vorbis comment does not contain '='"
  | name (t : Tag) (h1 : 0x3d#8 ∉ t.name) (h : ∃ b ∈ t.name, b.toNat < 0x20 ∨ 0x7d < b.toNat) :
      RefusedComment t.comment "Vorbis comment field name contains invalid byte"
  | value (t : Tag) (h1 : ∀ b ∈ t.name, 0x20 ≤ b.toNat ∧ b.toNat ≤ 0x7d ∧ b ≠ 0x3d#8) (h : ¬ Utf8 t.value) :
      RefusedComment t.comment "Vorbis comment or vendor string is not valid UTF-8"

/-- The reasons to refuse the entries of a Vorbis comment block, if `length` bytes are left in the block for them and
there should be `count`. Some legal entries come first. -/
inductive RefusedEntries (length count : Nat) : List U8 → String → Prop where
  /-- the next one is longer than the block -/
  | tooLong (good : List (Option Tag)) (hg : ∀ t ∈ tagsOf good, t.Legal) (hn : good.length < count)
      (hl : (good.flatMap entryBytes).length + 4 ≤ length) (v : Nat) (hv : v < 2 ^ 32)
      (h : length < (good.flatMap entryBytes).length + 4 + v) :
      RefusedEntries length count (good.flatMap entryBytes ++ leBytes 4 v)
        "Vorbis comment too long for Vorbis comment block"
  /-- the next one is refused -/
  | entry (good : List (Option Tag)) (hg : ∀ t ∈ tagsOf good, t.Legal) (hn : good.length < count)
      (comment : List U8) (hne : comment ≠ [])
      (hl : (good.flatMap entryBytes ++ lengthPrefixed comment).length ≤ length) (msg : String)
      (h : RefusedComment comment msg) :
      RefusedEntries length count (good.flatMap entryBytes ++ lengthPrefixed comment) msg
  /-- there are bytes after the last one, or too few bytes for the length of the next one -/
  | excess (good : List (Option Tag)) (hg : ∀ t ∈ tagsOf good, t.Legal) (hn : good.length ≤ count)
      (hl : (good.flatMap entryBytes).length < length)
      (h : good.length = count ∨ length < (good.flatMap entryBytes).length + 4) :
      RefusedEntries length count (good.flatMap entryBytes) "Vorbis comment block has excess data"
  /-- the block is at its end -/
  | count (good : List (Option Tag)) (hg : ∀ t ∈ tagsOf good, t.Legal) (hn : good.length < count)
      (hl : (good.flatMap entryBytes).length = length) :
      RefusedEntries length count (good.flatMap entryBytes)
        "Vorbis comment block contains wrong number of entries"

/-- The reasons to refuse a metadata block of the given type and length. -/
inductive RefusedMetadata : (blockType : U8) → (length : Nat) → List U8 → Error → Prop where
  | streaminfoLength (length : Nat) (h : length ≠ 34) :
      RefusedMetadata 0#8 length [] (.formatError "invalid streaminfo metadata block length")
  | streaminfo (i : StreamInfo) (hi : i.Fits) (msg : String) (h : RefusedInfo i msg) :
      RefusedMetadata 0#8 34 (streaminfoBytes i) (.formatError msg)
  | shortApplication (length : Nat) (h : length < 4) :
      RefusedMetadata 2#8 length [] (.formatError "application block length must be at least 4 bytes")
  | largeApplication (length : Nat) (h : maxBlockLength < length) :
      RefusedMetadata 2#8 length [] (.unsupported "application blocks larger than 10 MiB are not supported")
  | shortComments (length : Nat) (h : length < 8) :
      RefusedMetadata 4#8 length [] (.formatError "Vorbis comment block is too short")
  | largeComments (length : Nat) (h : maxBlockLength < length) :
      RefusedMetadata 4#8 length [] (.unsupported "Vorbis comment blocks larger than 10 MiB are not supported")
  /-- the vendor string is longer than the block -/
  | vendorLength (length : Nat) (h8 : 8 ≤ length) (hl : length ≤ maxBlockLength) (v : Nat) (hv : v < 2 ^ 32)
      (h : length - 8 < v) :
      RefusedMetadata 4#8 length (leBytes 4 v) (.formatError "vendor string too long")
  | vendor (length : Nat) (h8 : 8 ≤ length) (hl : length ≤ maxBlockLength) (vendor : List U8)
      (hv : vendor.length ≤ length - 8) (h : ¬ Utf8 vendor) :
      RefusedMetadata 4#8 length (lengthPrefixed vendor)
        (.formatError "Vorbis comment or vendor string is not valid UTF-8")
  /-- more entries than fit into the block -/
  | count (length : Nat) (h8 : 8 ≤ length) (hl : length ≤ maxBlockLength) (vendor : List U8)
      (hv : vendor.length ≤ length - 8) (hu : Utf8 vendor) (n : Nat) (hn : n < 2 ^ 32) (h : length / 4 ≤ n) :
      RefusedMetadata 4#8 length (lengthPrefixed vendor ++ leBytes 4 n)
        (.formatError "too many entries for Vorbis comment block")
  | entries (length : Nat) (h8 : 8 ≤ length) (hl : length ≤ maxBlockLength) (vendor : List U8)
      (hv : vendor.length ≤ length - 8) (hu : Utf8 vendor) (n : Nat) (hn : n < length / 4) (bytes : List U8)
      (msg : String) (h : RefusedEntries (length - 8 - vendor.length) n bytes msg) :
      RefusedMetadata 4#8 length (lengthPrefixed vendor ++ leBytes 4 n ++ bytes) (.formatError msg)
  | type (length : Nat) : RefusedMetadata 127#8 length [] (.formatError "invalid metadata block type")

/-- The reasons to refuse a metadata block with its header: a flag and seven bits for the type, and three bytes for
the length. -/
inductive RefusedBlock : List U8 → Error → Prop where
  | mk (isLast : Bool) (blockType : U8) (length : Nat) (ht : blockType.toNat < 128) (hl : length < 2 ^ 24)
      (body : List U8) (e : Error) (h : RefusedMetadata blockType length body e) :
      RefusedBlock (BitVec.ofNat 8 ((if isLast then 128 else 0) + blockType.toNat) :: beBytes 3 length ++ body) e

/-- After the streaminfo block `first` and the blocks `more`, another block is read. -/
structure Continues (o : FlacReaderOptions) (first : EncodedBlock) (more : List EncodedBlock) : Prop where
  streaminfo : IsStreaminfo first
  onlyOne : ∀ b ∈ more, ¬ IsStreaminfo b
  comments : (commentsIn more).length ≤ 1
  necessary : ∀ fewer, fewer <+: more → ¬ Enough o first fewer

/-- The reasons to refuse a stream, when it is opened with the options `o`. -/
inductive RefusedStream (o : FlacReaderOptions) : List U8 → Error → Prop where
  /-- the stream begins with an ID3 tag -/
  | id3 (d : U8) :
      RefusedStream o [0x49#8, 0x44#8, 0x33#8, d]
        (.formatError "stream starts with ID3 header rather than FLAC header")
  /-- the stream begins with something else than `fLaC` -/
  | marker (marker : List U8) (h4 : marker.length = 4) (h : marker ≠ streamMarker)
      (h3 : marker.take 3 ≠ [0x49#8, 0x44#8, 0x33#8]) :
      RefusedStream o marker (.formatError "invalid stream header")
  /-- the first block is refused -/
  | first (bytes : List U8) (e : Error) (h : RefusedBlock bytes e) : RefusedStream o (streamMarker ++ bytes) e
  /-- the first block is not a streaminfo block -/
  | missing (b : EncodedBlock) (h : ¬ IsStreaminfo b) :
      RefusedStream o (streamMarker ++ b.bytes) (.formatError "streaminfo block missing")
  /-- a block after the first is refused -/
  | block (first : EncodedBlock) (more : List EncodedBlock) (h : Continues o first more) (bytes : List U8)
      (e : Error) (hb : RefusedBlock bytes e) :
      RefusedStream o (streamMarker ++ metadataBytes (first :: more) ++ bytes) e
  /-- a second streaminfo block -/
  | streaminfo (first : EncodedBlock) (more : List EncodedBlock) (h : Continues o first more) (b : EncodedBlock)
      (hb : IsStreaminfo b) :
      RefusedStream o (streamMarker ++ metadataBytes (first :: more) ++ b.bytes)
        (.formatError "encountered second streaminfo block")
  /-- a second Vorbis comment block -/
  | comment (first : EncodedBlock) (more : List EncodedBlock) (h : Continues o first more) (b : EncodedBlock)
      (vc : VorbisComment) (hb : b.block = .vorbisComment vc) (h1 : commentsIn more ≠ []) :
      RefusedStream o (streamMarker ++ metadataBytes (first :: more) ++ b.bytes)
        (.formatError "encountered second Vorbis comment block")

end Spec
