import Verif.Spec.Checked
import Verif.Spec.Frame
import Verif.Model.Lib

/-! # Metadata of a FLAC stream

The bytes that the format prescribes for metadata blocks, and what they mean, independent of the
decoder. -/

namespace Spec

open Claxon

/-- The `n` lowest bytes of `v`, least significant byte first. -/
def leBytes (n v : Nat) : List U8 := (beBytes n v).reverse

/-! ### Text -/

/-- The UTF-8 encoding of a character. -/
def charBytes (c : Char) : List U8 := (String.utf8EncodeChar c).map UInt8.toBitVec

/-- The UTF-8 encoding of a text. -/
def textBytes (text : List Char) : List U8 := text.flatMap charBytes

/-- The byte string is the UTF-8 encoding of a text. -/
def Utf8 (bytes : List U8) : Prop := ∃ text, bytes = textBytes text

/-! ### Streaminfo -/

/-- The values that a streaminfo block can have. `none` stands for "unknown". -/
structure _root_.Claxon.StreamInfo.Legal (i : StreamInfo) : Prop where
  minBlockSize : 16 ≤ i.minBlockSize
  blockSizes : i.minBlockSize ≤ i.maxBlockSize
  maxBlockSize : i.maxBlockSize < 2 ^ 16
  minFrameSize : ∀ n ∈ i.minFrameSize, 1 ≤ n ∧ n < 2 ^ 24
  maxFrameSize : ∀ n ∈ i.maxFrameSize, 1 ≤ n ∧ n < 2 ^ 24
  frameSizes : ∀ m ∈ i.minFrameSize, ∀ n ∈ i.maxFrameSize, m ≤ n
  sampleRate : 1 ≤ i.sampleRate ∧ i.sampleRate ≤ 655350
  channels : 1 ≤ i.channels ∧ i.channels ≤ 8
  bitsPerSample : 1 ≤ i.bitsPerSample ∧ i.bitsPerSample ≤ 32
  samples : ∀ n ∈ i.samples, 1 ≤ n ∧ n < 2 ^ 36
  md5sum : i.md5sum.length = 16

/-- The bits of a streaminfo block, field by field. Unknown values are coded as zero. -/
def streaminfoBits (i : StreamInfo) : List Bool :=
  natToBits 16 i.minBlockSize ++ natToBits 16 i.maxBlockSize ++
  natToBits 24 (i.minFrameSize.getD 0) ++ natToBits 24 (i.maxFrameSize.getD 0) ++
  natToBits 20 i.sampleRate ++ natToBits 3 (i.channels - 1) ++ natToBits 5 (i.bitsPerSample - 1) ++
  natToBits 36 (i.samples.getD 0) ++ bytesToBits i.md5sum

/-- The bytes of a streaminfo block. -/
def streaminfoBytes (i : StreamInfo) : List U8 := bitsToBytes (streaminfoBits i)

/-! ### Vorbis comments -/

/-- A tag. -/
structure Tag where
  name : Str
  value : Str
  deriving DecidableEq, Repr

/-- The text `NAME=value`. -/
def Tag.comment (t : Tag) : List U8 := t.name ++ 0x3d#8 :: t.value

/-- The name consists of ASCII characters from `0x20` (space) to `0x7d`, without `=`; the value is any
text. -/
structure Tag.Legal (t : Tag) : Prop where
  name : ∀ b ∈ t.name, 0x20 ≤ b.toNat ∧ b.toNat ≤ 0x7d ∧ b ≠ 0x3d#8
  value : Utf8 t.value

/-- A byte string after its length. -/
def lengthPrefixed (bytes : List U8) : List U8 := leBytes 4 bytes.length ++ bytes

/-- An entry of a Vorbis comment block: a tag, or an empty comment, as written by some old encoders. -/
def entryBytes : Option Tag → List U8
  | some t => lengthPrefixed t.comment
  | none => lengthPrefixed []

/-- A Vorbis comment block: the vendor string, the number of entries, and the entries. -/
def vorbisCommentBytes (vendor : Str) (entries : List (Option Tag)) : List U8 :=
  lengthPrefixed vendor ++ leBytes 4 entries.length ++ entries.flatMap entryBytes

/-- The tags among the entries. -/
def tagsOf (entries : List (Option Tag)) : List Tag := entries.filterMap id

/-- How claxon represents tags: the comment, and the position of the separator. -/
def storedTags (tags : List Tag) : List (Str × Nat) := tags.map fun t => (t.comment, t.name.length)

/-- The bytes are equal, or they are the same ASCII letter in upper and lower case. -/
def sameLetter (a b : U8) : Bool :=
  a == b || (0x41 ≤ a.toNat && a.toNat ≤ 0x5a && b.toNat == a.toNat + 0x20) ||
    (0x41 ≤ b.toNat && b.toNat ≤ 0x5a && a.toNat == b.toNat + 0x20)

/-- The strings are equal up to the case of ASCII letters. -/
def sameName : Str → Str → Bool
  | [], [] => true
  | a :: s, b :: t => sameLetter a b && sameName s t
  | _, _ => false

/-! ### Metadata blocks -/

/-- 10 MiB, the size up to which claxon supports application and Vorbis comment blocks. -/
def maxBlockLength : Nat := 10 * 1024 * 1024

/-- `BodyEncodes type body block`: `body` (without the four bytes of the block header) is the body of a
metadata block of the given type that stands for `block`. Seek tables, cue sheets and pictures are
treated as padding. -/
inductive BodyEncodes : (blockType : U8) → (body : List U8) → (block : MetadataBlock) → Prop where
  | streamInfo (info : StreamInfo) (h : info.Legal) :
      BodyEncodes 0#8 (streaminfoBytes info) (.streamInfo info)
  | padding (blockType : U8) (h : blockType ∈ [1#8, 3#8, 5#8, 6#8]) (body : List U8) :
      BodyEncodes blockType body (.padding body.length)
  | application (id : U32) (data : List U8) (h : data.length + 4 ≤ maxBlockLength) :
      BodyEncodes 2#8 (beBytes 4 id.toNat ++ data) (.application id data)
  | vorbisComment (vendor : Str) (entries : List (Option Tag)) (hv : Utf8 vendor)
      (ht : ∀ t ∈ tagsOf entries, t.Legal)
      (hl : (vorbisCommentBytes vendor entries).length ≤ maxBlockLength) :
      BodyEncodes 4#8 (vorbisCommentBytes vendor entries)
        (.vorbisComment { vendor := vendor, comments := storedTags (tagsOf entries) })
  | reserved (blockType : U8) (h : 7 ≤ blockType.toNat ∧ blockType.toNat ≠ 127) (body : List U8) :
      BodyEncodes blockType body .reserved

/-- A metadata block in a stream: whether it is flagged as the last one, its type, its body, and what
it stands for. -/
structure EncodedBlock where
  isLast : Bool
  blockType : U8
  body : List U8
  block : MetadataBlock
  encodes : BodyEncodes blockType body block
  typeLt : blockType.toNat < 128
  lengthLt : body.length < 2 ^ 24

/-- The four bytes in front of a block that is announced to have the given type and length: a flag and seven
bits for the type, and three bytes for the length. -/
def headerBytes (isLast : Bool) (ty : U8) (length : Nat) : List U8 :=
  BitVec.ofNat 8 ((if isLast then 128 else 0) + ty.toNat) :: beBytes 3 length

/-- The bytes of a metadata block: a flag and seven bits for the type, three bytes for the length, and
the body. -/
def EncodedBlock.bytes (b : EncodedBlock) : List U8 :=
  BitVec.ofNat 8 ((if b.isLast then 128 else 0) + b.blockType.toNat) :: beBytes 3 b.body.length ++ b.body

/-- The bytes of several metadata blocks. -/
def metadataBytes (blocks : List EncodedBlock) : List U8 := blocks.flatMap EncodedBlock.bytes

/-- The stream marker `fLaC`. -/
def streamMarker : List U8 := [0x66#8, 0x4c#8, 0x61#8, 0x43#8]

/-! ### Opening a stream -/

/-- The Vorbis comments among the blocks. -/
def commentsIn (blocks : List EncodedBlock) : List VorbisComment :=
  blocks.filterMap fun b =>
    match b.block with
    | .vorbisComment vc => some vc
    | _ => none

/-- Whether a block is a streaminfo block. -/
def IsStreaminfo (b : EncodedBlock) : Prop := ∃ info, b.block = .streamInfo info

/-- The last of the blocks, and no other, is flagged as the last one. -/
def Complete (blocks : List EncodedBlock) : Prop :=
  ∃ init b, blocks = init ++ [b] ∧ b.isLast = true ∧ ∀ c ∈ init, c.isLast = false

/-- After the streaminfo block `first` and the blocks `more` nothing else needs to be read: the last
block read is flagged as the last one; or only metadata is wanted, and it has been found. (Even if no
Vorbis comment is wanted, one more block is read.) -/
def Enough (o : FlacReaderOptions) (first : EncodedBlock) (more : List EncodedBlock) : Prop :=
  ((first :: more).getLast (by simp)).isLast = true ∨
    (o.metadataOnly = true ∧ more ≠ [] ∧ (o.readVorbisComment = true → commentsIn more ≠ []))

/-- The metadata of a stream: the blocks that are read, when opening it with the options `o`, and what
is found in them. -/
structure Metadata (o : FlacReaderOptions) (first : EncodedBlock) (more : List EncodedBlock)
    (info : StreamInfo) (vc : Option VorbisComment) : Prop where
  /-- The first block is a streaminfo block, and no other block is. -/
  streaminfo : first.block = .streamInfo info
  onlyOne : ∀ b ∈ more, ¬ IsStreaminfo b
  /-- There is at most one Vorbis comment block. -/
  comments : (commentsIn more).length ≤ 1
  comment : vc = if o.readVorbisComment then (commentsIn more).head? else none
  /-- Just as many blocks as necessary are read. -/
  enough : Enough o first more
  necessary : ∀ fewer, fewer <+: more → fewer ≠ more → ¬ Enough o first fewer

end Spec
