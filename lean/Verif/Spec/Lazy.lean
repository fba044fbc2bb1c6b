import Verif.Spec.Raw
import Verif.Spec.Client

/-! # When the wrapped reader is asked for more -/

namespace Spec

open Claxon

/-- The bytes that have been delivered by the source, but not been read yet. -/
def _root_.Claxon.BufferedReader.unread (r : BufferedReader) : List U8 := (r.buf.take r.numValid).drop r.pos

/-- The bytes delivered in `n` calls, beginning with call number `first`. -/
def between (outcome : Nat → ReadOutcome) (first : Nat) : (n : Nat) → List U8
  | 0 => []
  | n + 1 => between outcome first n ++
    match outcome (first + n) with
    | .ok n written => written.take n
    | .err _ _ => []

/-- Some call that was made between `r` and `r'` failed. -/
def SourceFails (r r' : BufferedReader) : Prop :=
  ∃ n < r'.inner.calls - r.inner.calls, ∃ code written, r.inner.outcome (r.inner.calls + n) = .err code written

/-- Between `r` and `r'` some bytes were used, and no call was made in vain: what had been delivered before the
call was not enough for what was used up to now (unless the call reported the end of the file). -/
structure Lazy (r r' : BufferedReader) : Prop where
  source : r'.inner.outcome = r.inner.outcome
  calls : r.inner.calls ≤ r'.inner.calls
  used : ∃ used, r.unread ++ between r.inner.outcome r.inner.calls (r'.inner.calls - r.inner.calls) =
      used ++ r'.unread ∧
    ∀ n < r'.inner.calls - r.inner.calls, (∀ written, r.inner.outcome (r.inner.calls + n) ≠ .ok 0 written) →
      (r.unread ++ between r.inner.outcome r.inner.calls n).length < used.length

/-- The state after some operations, whatever they returned. -/
def afterOps [Build] {σ : Type} [ReadBytes σ] : List Op → σ → σ
  | [], s => s
  | op :: ops, s => afterOps ops (op.run s).2

end Spec
