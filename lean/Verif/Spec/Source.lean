import Verif.Spec.Checked
import Verif.Model.Input

/-! # What a reader delivers

An `io::Read` is asked again and again for at most 2048 bytes (31 under fuzzing). How it cuts its bytes into chunks is up
to it; `Delivers` says which bytes it delivers, whatever the chunks are, and how it ends. -/

namespace Spec

open Claxon

/-- From call number `k` on, the reader delivers `bytes` in non-empty chunks of any size, and then
either reports the end of the file forever (`fault = none`), or fails with the error `code`
(`fault = some code`). In each call it may scribble over the rest of the buffer, after the `n` bytes
it reports. -/
inductive Delivers [FuzzCfg] (outcome : Nat → ReadOutcome) : Nat → List U8 → Option Nat → Prop where
  | chunk {k n : Nat} {written rest : List U8} {fault : Option Nat}
      (h : outcome k = .ok n written) (hpos : 0 < n) (hcap : n ≤ CAPACITY)
      (hlen : n ≤ written.length) (next : Delivers outcome (k + 1) rest fault) :
      Delivers outcome k (written.take n ++ rest) fault
  | eof {k : Nat} (h : ∀ j, k ≤ j → ∃ written, outcome j = .ok 0 written) :
      Delivers outcome k [] none
  | fault {k code : Nat} {written : List U8} (h : outcome k = .err code written) : Delivers outcome k [] (some code)

/-- The source `src` delivers `bytes`, and then `fault`. -/
def _root_.Claxon.Src.Delivers [FuzzCfg] (src : Src) (bytes : List U8) (fault : Option Nat) : Prop :=
  Spec.Delivers src.outcome src.calls bytes fault

/-- `bytes`, and then `fault`, are still to come from the buffered reader `r`: the unread part of its
buffer, followed by what the source delivers. -/
structure _root_.Claxon.BufferedReader.Remaining [FuzzCfg] (r : BufferedReader) (bytes : List U8)
    (fault : Option Nat) : Prop where
  capacity : r.buf.length = CAPACITY
  pos : r.pos ≤ r.numValid
  numValid : r.numValid ≤ CAPACITY
  rest : ∃ rest, r.inner.Delivers rest fault ∧
    bytes = (r.buf.take r.numValid).drop r.pos ++ rest

end Spec
