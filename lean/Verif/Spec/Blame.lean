import Verif.Spec.Raw
import Verif.Spec.Client

/-! # Where errors come from -/

namespace Spec

open Claxon

variable {σ : Type} [ReadBytes σ]

/-- From the state `s`, some calls of the methods of the reader, all of which succeed, lead to the state `s'`. -/
inductive Steps : (s s' : σ) → Prop where
  | nil (s : σ) : Steps s s
  | readU8 {s s₁ s' : σ} {b : U8} (h : ReadBytes.readU8 s = (.ok b, s₁)) (rest : Steps s₁ s') : Steps s s'
  | readU8OrEof {s s₁ s' : σ} {b : Option U8} (h : ReadBytes.readU8OrEof s = (.ok b, s₁)) (rest : Steps s₁ s') :
      Steps s s'
  | readInto {s s₁ s' : σ} {n : Nat} {bs : List U8} (h : ReadBytes.readInto n s = (.ok bs, s₁))
      (rest : Steps s₁ s') : Steps s s'
  | skip {s s₁ s' : σ} {n : Nat} (h : ReadBytes.skip n s = (.ok (), s₁)) (rest : Steps s₁ s') : Steps s s'
  /-- Not a method: the model announces the memory that is requested. -/
  | onAlloc {s s₁ s' : σ} {n m : Nat} (h : ReadBytes.onAlloc n m s = (.ok (), s₁)) (rest : Steps s₁ s') : Steps s s'

/-- In the state `s`, some method of the reader fails with `f`, and leaves the reader in the state `s'`. -/
inductive CallFails (s : σ) (f : Fail) (s' : σ) : Prop where
  | readU8 (h : ReadBytes.readU8 s = (.error f, s'))
  | readU8OrEof (h : ReadBytes.readU8OrEof s = (.error f, s'))
  | readInto (n : Nat) (h : ReadBytes.readInto n s = (.error f, s'))
  | skip (n : Nat) (h : ReadBytes.skip n s = (.error f, s'))
  | onAlloc (n m : Nat) (h : ReadBytes.onAlloc n m s = (.error f, s'))

/-- The reader was used, all calls succeeded up to the last one, and that failed with `f`. -/
def ReaderFails (s : σ) (f : Fail) (s' : σ) : Prop := ∃ s₁, Steps s s₁ ∧ CallFails s₁ f s'

/-- The last call of the source was made after call number `calls`, and is the reason for the I/O error `e`: it failed
with it, or it reported the end of the file. -/
structure SourceReason (calls : Nat) (e : IoError) (src : Src) : Prop where
  called : calls < src.calls
  reason : (∃ code written, src.outcome (src.calls - 1) = .err code written ∧ e = .inner code) ∨
    ∃ written, src.outcome (src.calls - 1) = .ok 0 written ∧ e = .unexpectedEof

end Spec
