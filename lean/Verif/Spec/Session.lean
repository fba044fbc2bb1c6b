import Verif.Spec.Uncountable
import Verif.Spec.RefusedMetadata
import Verif.Spec.Interleave

/-! # Everything that is decoded from an input

What a decoder makes of an arbitrary byte string, from its beginning to its end. Nothing here refers to the functions
of the model: the frames and metadata blocks are those of the format, and so are the reasons to stop. -/

namespace Spec

open Claxon

/-- What comes after the last block. -/
inductive SessionEnd where
  /-- the end of the stream -/
  | finished
  /-- an error -/
  | failed (e : Error)
  /-- the overflow of a counter of zeros, which panics -/
  | overflowed

/-- A byte string, after which the source fails with `fault` or is at its end, is decoded to these blocks (for each, the
time and the channels), and then comes
the given ending. -/
inductive Decodes (fault : Option Nat) :
    (bytes : List U8) → (blocks : List (Nat × List (List Int))) → (last : SessionEnd) → Prop where
  /-- A frame, and what follows. -/
  | frame (bps : Nat) (f : Frame) (hw : f.WellFormed bps) (rest : List U8) (blocks : List (Nat × List (List Int)))
      (last : SessionEnd) (next : Decodes fault rest blocks last) :
      Decodes fault (f.bytes bps ++ rest) ((f.header.time, f.wrappedChannels) :: blocks) last
  /-- Something that is to be refused. -/
  | refused (used rest : List U8) (e : Error) (h : RefusedFrame used e) : Decodes fault (used ++ rest) [] (.failed e)
  /-- More zeros than can be counted. -/
  | uncountable (used rest : List U8) (h : UncountableFrame used) : Decodes fault (used ++ rest) [] .overflowed
  /-- The end; there may be a single byte that does not belong to anything. -/
  | finish (bytes : List U8) (h2 : bytes.length < 2) (hf : fault = none) : Decodes fault bytes [] .finished
  /-- The input ends, or the source fails, in the midst of something that might be a frame. -/
  | cut (bytes : List U8) (hf : ∀ bps f, Frame.WellFormed bps f → ¬ f.bytes bps <+: bytes)
      (he : ∀ used e, RefusedFrame used e → ¬ used <+: bytes)
      (hz : ∀ used, UncountableFrame used → ¬ used <+: bytes) (h2 : 2 ≤ bytes.length ∨ fault ≠ none) :
      Decodes fault bytes [] (.failed (.ioError (fault.elim .unexpectedEof .inner)))

/-- The samples of some blocks, first by index and then by channel. -/
def samplesOf (blocks : List (Nat × List (List Int))) : List Int :=
  blocks.flatMap fun b => interleave (b.2.headD []).length b.2

/-- What comes of an input. -/
inductive SessionResult where
  /-- It cannot be opened. -/
  | failed (e : Error)
  /-- There are a streaminfo block, possibly a Vorbis comment, and blocks of audio. -/
  | opened (info : StreamInfo) (comment : Option VorbisComment) (blocks : List (Nat × List (List Int)))
      (last : SessionEnd)

/-- What comes of an input that is opened with the options `o` and then read to its end. -/
inductive Session (o : FlacReaderOptions) (fault : Option Nat) : (bytes : List U8) → SessionResult → Prop where
  | opened (first : EncodedBlock) (more : List EncodedBlock) (info : StreamInfo) (vc : Option VorbisComment)
      (hm : Metadata o first more info vc) (rest : List U8) (blocks : List (Nat × List (List Int)))
      (last : SessionEnd) (h : Decodes fault rest blocks last) :
      Session o fault (streamMarker ++ metadataBytes (first :: more) ++ rest) (.opened info vc blocks last)
  | refused (used rest : List U8) (e : Error) (h : RefusedStream o used e) : Session o fault (used ++ rest) (.failed e)
  | cut (bytes : List U8)
      (hm : ∀ first more info vc, Metadata o first more info vc →
        ¬ streamMarker ++ metadataBytes (first :: more) <+: bytes)
      (he : ∀ used e, RefusedStream o used e → ¬ used <+: bytes) :
      Session o fault bytes (.failed (.ioError (fault.elim .unexpectedEof .inner)))

end Spec
