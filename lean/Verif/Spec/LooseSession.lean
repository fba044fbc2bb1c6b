import Verif.Spec.Loose
import Verif.Spec.Session

/-! # Everything that is decoded from an input without overflow checks -/

namespace Spec

open Claxon

/-- Without overflow checks, a byte string, after which the source fails with `fault` or is at its end, is decoded to these
blocks (for each, the time and the channels), and then comes the end of the stream (`true`) or an error (`false`). -/
inductive DecodesLoosely (fault : Option Nat) :
    (bytes : List U8) → (blocks : List (Nat × List (List Int))) → (finished : Bool) → Prop where
  /-- A loose frame, and what follows. -/
  | frame (bps : Nat) (f : Frame) (hw : f.Loose bps) (rest : List U8) (blocks : List (Nat × List (List Int)))
      (finished : Bool) (next : DecodesLoosely fault rest blocks finished) :
      DecodesLoosely fault (f.looseBytes bps ++ rest) ((f.header.time, f.reduced.wrappedChannels) :: blocks) finished
  /-- The end; there may be a single byte that does not belong to anything. -/
  | finish (bytes : List U8) (h2 : bytes.length < 2) (hf : fault = none) : DecodesLoosely fault bytes [] true
  /-- Anything else. -/
  | failed (bytes : List U8) (hf : ∀ bps f, Frame.Loose bps f → ¬ f.looseBytes bps <+: bytes)
      (h2 : 2 ≤ bytes.length ∨ fault ≠ none) : DecodesLoosely fault bytes [] false

end Spec
