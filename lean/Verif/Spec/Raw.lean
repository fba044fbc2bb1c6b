import Verif.Spec.Checked
import Verif.Model.Input

/-! # Byte-level operations on a reader, also after failures -/

namespace Spec

open Claxon

/-- The byte-level operations. -/
inductive RawOp where
  | readU8
  | readU8OrEof
  | readInto (n : Nat)
  | skip (n : Nat)
  deriving DecidableEq, Repr

/-- Perform an operation. The result is the bytes handed to the caller. -/
def RawOp.run {σ : Type} [ReadBytes σ] : RawOp → Dec σ (List U8)
  | .readU8 => do
    let b ← ReadBytes.readU8
    pure [b]
  | .readU8OrEof => do
    let b ← ReadBytes.readU8OrEof
    pure b.toList
  | .readInto n => ReadBytes.readInto n
  | .skip n => do
    ReadBytes.skip n
    pure []

/-- The results of a sequence of operations, and the state after it. Failures do not stop it. -/
def runRaw {σ : Type} [ReadBytes σ] : List RawOp → σ → List (Except Fail (List U8)) × σ
  | [], s => ([], s)
  | op :: ops, s => ((op.run s).1 :: (runRaw ops (op.run s).2).1, (runRaw ops (op.run s).2).2)

/-- All bytes handed to the caller. -/
def handed (results : List (Except Fail (List U8))) : List U8 :=
  results.flatMap fun
    | .ok bytes => bytes
    | .error _ => []

/-- All bytes delivered in the first `calls` calls of the wrapped reader. -/
def delivered (outcome : Nat → ReadOutcome) : (calls : Nat) → List U8
  | 0 => []
  | calls + 1 => delivered outcome calls ++
    match outcome calls with
    | .ok n written => written.take n
    | .err _ _ => []

/-- The wrapped reader honours the contract of `io::Read`: it has written the `n` bytes it claims to
have read, and no more than fit. -/
def _root_.Claxon.Src.Contract [FuzzCfg] (src : Src) : Prop :=
  ∀ k n written, src.outcome k = .ok n written → n ≤ written.length ∧ n ≤ CAPACITY

/-- Whether a call failed with an error of the wrapped reader. -/
def IsInnerError {α : Type} : Except Fail α → Bool
  | .error (.err (.ioError (.inner _))) => true
  | _ => false

end Spec
