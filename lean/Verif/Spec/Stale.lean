import Verif.Spec.Lazy

/-! # What the buffer of a buffered reader holds -/

namespace Spec

open Claxon

/-- The bytes of the last call of the source that did not fail, out of `n` calls that begin with call number `first`;
with the bytes that the calls that failed after it wrote to the buffer in place of its first ones. -/
def lastChunk (outcome : Nat → ReadOutcome) (first : Nat) : (n : Nat) → List U8
  | 0 => []
  | n + 1 =>
    match outcome (first + n) with
    | .ok count written => written.take count
    | .err _ written =>
      written.take (lastChunk outcome first n).length ++ (lastChunk outcome first n).drop written.length

end Spec
