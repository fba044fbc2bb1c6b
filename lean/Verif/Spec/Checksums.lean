import Verif.Spec.Frame

/-! # Frames with any checksums -/

namespace Spec

open Claxon

/-- The bytes of a frame, but for the two checksums, which are `c8` and `c16`. -/
def Frame.bytesWith (bps : Nat) (f : Frame) (c8 : U8) (c16 : U16) : List U8 :=
  f.header.fieldBytes ++ [c8] ++ bitsToBytes (f.bodyBits bps) ++ beBytes 2 c16.toNat

end Spec
