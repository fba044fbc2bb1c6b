import Verif.Props.Frame
import Verif.Spec.Metadata

/-! # FLAC in Ogg and MP4 files

What the packets of an Ogg file, and the chunks of an MP4 file contain, see
<https://xiph.org/flac/ogg_mapping.html>, and ISO/IEC 14496-12, 8.7.4. -/

namespace Spec

open Claxon Claxon.Props

/-- The first packet of a FLAC stream in an Ogg file: `magic` are seven bytes, `signature` four. -/
def oggFirst (magic : List U8) (headers : Nat) (signature : List U8) (streaminfo : EncodedBlock) : List U8 :=
  magic ++ beBytes 2 headers ++ signature ++ streaminfo.bytes

/-- The packets that contain frames, one each. Some may be empty. -/
inductive OggFrames : List (List U8) → List Encoded → Prop where
  | nil : OggFrames [] []
  | empty {packets : List (List U8)} {es : List Encoded} (h : OggFrames packets es) : OggFrames ([] :: packets) es
  | frame {packets : List (List U8)} {es : List Encoded} (e : Encoded) (h : OggFrames packets es) :
      OggFrames (e.frame.bytes e.bps :: packets) (e :: es)

/-- How many frames chunk number `k` contains, counted from 1, according to a sample-to-chunk table, whose entries are
the number of the first chunk they are for, and the number of frames per chunk: the entry that counts is the last
one for this chunk or an earlier one. -/
def framesInChunk (table : List (Nat × Nat)) (k : Nat) : Nat :=
  ((table.filter fun entry => entry.1 ≤ k).getLast?.map Prod.snd).getD 0

/-- The size of the metadata, rounded up to a multiple of the size of the buffer. -/
def roundUp (n : Nat) : Nat := (n + 2047) / 2048 * 2048

end Spec
