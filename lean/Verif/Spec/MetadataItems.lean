import Verif.Spec.Checked
import Verif.Spec.RefusedMetadata
import Verif.Spec.Flat
import Verif.Spec.Client

/-! # The items of the metadata block iterator -/

namespace Spec

open Claxon

/-- The items that iterating over the metadata blocks of a byte string yields: the blocks up to and
including the one that is flagged as the last, or up to a place where there is no legal block, and then
the error that tells of what is wrong there. -/
inductive MetadataItems (fault : Option Nat) :
    (bytes : List U8) → (items : List (Except Error MetadataBlock)) → Prop where
  | last (b : EncodedBlock) (rest : List U8) (h : b.isLast = true) :
      MetadataItems fault (b.bytes ++ rest) [.ok b.block]
  | more (b : EncodedBlock) (rest : List U8) (items : List (Except Error MetadataBlock))
      (h : b.isLast = false) (next : MetadataItems fault rest items) :
      MetadataItems fault (b.bytes ++ rest) (.ok b.block :: items)
  | refused (used rest : List U8) (e : Error) (h : RefusedBlock used e) :
      MetadataItems fault (used ++ rest) [.error e]
  /-- The input ends before the end of the block: the error is the one of the source, or `UnexpectedEof`. -/
  | cut (bytes : List U8) (h : ∀ b : EncodedBlock, ¬ b.bytes <+: bytes)
      (h' : ∀ used e, RefusedBlock used e → ¬ used <+: bytes) :
      MetadataItems fault bytes [.error (.ioError (fault.elim .unexpectedEof .inner))]

end Spec
