import Verif.Spec.Checked
import Verif.Spec.Source
import Verif.Spec.Bits
import Verif.Model.Bitstream

/-! # What is still to come from a bit-level reader -/

namespace Spec

open Claxon

/-- `bits`, and then `fault`, are still to come from the bit-level reader `b`: fewer than eight bits of
the byte that was read last (followed by zeros), and the bits of the bytes that are still to come. -/
structure _root_.Claxon.Bitstream.Unread (b : Bitstream BufferedReader) (bits : List Bool)
    (fault : Option Nat) : Prop where
  bitsLeft : b.bitsLeft ≤ 7
  data : ∀ j, j < 8 - b.bitsLeft → b.data.getLsbD j = false
  rest : ∃ bytes, b.reader.Remaining bytes fault ∧
    bits = (byteBits b.data).take b.bitsLeft ++ bytesToBits bytes

end Spec
