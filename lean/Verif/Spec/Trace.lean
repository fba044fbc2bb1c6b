import Verif.Spec.Checked
import Verif.Spec.Raw
import Verif.Spec.Client

/-! # Arbitrary readers

What can be said about a reader, when nothing is known about how it is implemented: which bytes it
delivers, from a state, if one reads byte by byte. -/

namespace Spec

open Claxon

/-- In the state `s`, `bytes` can be read byte by byte, with `read_u8` or `read_u8_or_eof`; the reader is in
the state `s'` then. -/
inductive Yields {σ : Type} [ReadBytes σ] : (s : σ) → (bytes : List U8) → (s' : σ) → Prop where
  | nil (s : σ) : Yields s [] s
  | byte {s s₁ s' : σ} {b : U8} {bytes : List U8} (h : ReadBytes.readU8 s = (.ok b, s₁))
      (rest : Yields s₁ bytes s') : Yields s (b :: bytes) s'
  | byteOrEof {s s₁ s' : σ} {b : U8} {bytes : List U8} (h : ReadBytes.readU8OrEof s = (.ok (some b), s₁))
      (rest : Yields s₁ bytes s') : Yields s (b :: bytes) s'

/-- The results of reading frames again and again, each with its own buffer. Errors do not stop it: the next
frame is read wherever the last one left the reader. -/
def readFrames [Build] {σ : Type} [ReadBytes σ] : List VecI32 → σ → List (Except Fail (Option Block))
  | [], _ => []
  | buffer :: buffers, s =>
    (readNextOrEof buffer s).1 :: readFrames buffers (readNextOrEof buffer s).2

/-- As long as `P` holds, reading a byte returns a byte, the end of the file or an error (it does not panic, for
example), and `P` still holds. -/
structure NeverPanics {σ : Type} [ReadBytes σ] (P : σ → Prop) : Prop where
  readU8 : ∀ s, P s → Returns (ReadBytes.readU8 s : Except Fail U8 × σ).1 ∧
    P (ReadBytes.readU8 s : Except Fail U8 × σ).2
  readU8OrEof : ∀ s, P s → Returns (ReadBytes.readU8OrEof s : Except Fail (Option U8) × σ).1 ∧
    P (ReadBytes.readU8OrEof s : Except Fail (Option U8) × σ).2

/-- The same for all operations of a reader, with arguments in the range that they have in Rust: the length of a
slice for `read_into`, a `u32` for `skip`. -/
structure NeverPanicsAll {σ : Type} [ReadBytes σ] (P : σ → Prop) : Prop extends NeverPanics P where
  readInto : ∀ n < 2 ^ 63, ∀ s, P s → Returns (ReadBytes.readInto n s : Except Fail (List U8) × σ).1 ∧
    P (ReadBytes.readInto n s : Except Fail (List U8) × σ).2
  skip : ∀ n < 2 ^ 32, ∀ s, P s → Returns (ReadBytes.skip n s : Except Fail Unit × σ).1 ∧
    P (ReadBytes.skip n s : Except Fail Unit × σ).2
  /-- Not an operation: the model announces the memory that is requested. -/
  onAlloc : ∀ n m s, P s → Returns (ReadBytes.onAlloc n m s : Except Fail Unit × σ).1 ∧
    P (ReadBytes.onAlloc n m s : Except Fail Unit × σ).2

/-- The results of any operations, one after the other. Errors do not stop it. -/
def runAll [Build] {σ : Type} [ReadBytes σ] : List Op → σ → List (Except Fail Out)
  | [], _ => []
  | op :: ops, s => (op.run s).1 :: runAll ops (op.run s).2

/-- In what the wrapped reader delivers, leaving out failed calls, there are never `limit` zero bytes in a
row. -/
def ZerosBelow (outcome : Nat → ReadOutcome) (limit : Nat) : Prop :=
  ∀ calls pre n post, delivered outcome calls = pre ++ (List.replicate n 0#8 ++ post) → n < limit

end Spec
