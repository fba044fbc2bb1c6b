import Verif.Spec.Metadata

/-! # The types of metadata blocks -/

namespace Spec

open Claxon

/-- The kind of block that belongs to a block type. -/
def HasType (blockType : U8) : MetadataBlock → Prop
  | .streamInfo _ => blockType = 0#8
  | .padding _ => blockType = 1#8
  | .application _ _ => blockType = 2#8
  | .seekTable _ => blockType = 3#8
  | .vorbisComment _ => blockType = 4#8
  | .cueSheet => blockType = 5#8
  | .picture => blockType = 6#8
  | .reserved => 7 ≤ blockType.toNat ∧ blockType.toNat ≠ 127

/-- The types of seek tables, cue sheets and pictures. -/
def unreadTypes : List U8 := [3#8, 5#8, 6#8]

end Spec
