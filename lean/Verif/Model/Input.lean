import Verif.Model.Base

/-! Models `/repo/src/input.rs:15-278`: the `ReadBytes` trait, `BufferedReader` and `Cursor`. -/

namespace Claxon

/-- input.rs:71-84 `trait ReadBytes`, the required methods. `readInto n` models
`read_into(&mut buffer)` for a buffer of length `n`; it returns the new contents of the buffer, which
on `Ok` has been overwritten entirely.

`onAlloc n size` is ghost instrumentation: the model calls it where the Rust code calls
`Vec::with_capacity(n)`, with `n` taken from the input, for elements of `size` bytes. Real readers
ignore it. -/
class ReadBytes (σ : Type) where
  readU8 : Dec σ U8
  readU8OrEof : Dec σ (Option U8)
  readInto : Nat → Dec σ (List U8)
  skip : Nat → Dec σ Unit
  onAlloc : Nat → Nat → Dec σ Unit := fun _ _ => Pure.pure ()

open ReadBytes

section Derived

variable {σ : Type} [ReadBytes σ]

/-- input.rs:87-91. -/
def readBeU16 : Dec σ U16 := do
  let b0 ← readU8
  let b1 ← readU8
  pure (b0.setWidth 16 <<< 8 ||| b1.setWidth 16)

/-- input.rs:94-101. -/
def readBeU16OrEof : Dec σ (Option U16) := do
  match ← readU8OrEof with
  | some b0 =>
    match ← readU8OrEof with
    | some b1 => pure (some (b0.setWidth 16 <<< 8 ||| b1.setWidth 16))
    | none => pure none
  | none => pure none

/-- input.rs:104-109. -/
def readBeU24 : Dec σ U32 := do
  let b0 ← readU8
  let b1 ← readU8
  let b2 ← readU8
  pure (b0.setWidth 32 <<< 16 ||| b1.setWidth 32 <<< 8 ||| b2.setWidth 32)

/-- input.rs:112-118. -/
def readBeU32 : Dec σ U32 := do
  let b0 ← readU8
  let b1 ← readU8
  let b2 ← readU8
  let b3 ← readU8
  pure (b0.setWidth 32 <<< 24 ||| b1.setWidth 32 <<< 16 ||| b2.setWidth 32 <<< 8 ||| b3.setWidth 32)

/-- input.rs:121-127. -/
def readLeU32 : Dec σ U32 := do
  let b0 ← readU8
  let b1 ← readU8
  let b2 ← readU8
  let b3 ← readU8
  pure (b3.setWidth 32 <<< 24 ||| b2.setWidth 32 <<< 16 ||| b1.setWidth 32 <<< 8 ||| b0.setWidth 32)

end Derived

/-! ### The wrapped `io::Read` -/

/-- What one call `inner.read(&mut buf)` does: `ok n written` overwrites the front of the buffer with
`written` (as far as it fits) and returns `Ok(n)`; a contract-abiding reader has
`n ≤ written.length ≤ buf.len()`. `err code written` returns an error; the buffer may have been written to
before. (input.rs:137, 157, 181, 202) -/
inductive ReadOutcome where
  | ok (n : Nat) (written : List U8)
  | err (code : Nat) (written : List U8)
  deriving DecidableEq, Repr

/-- An arbitrary `io::Read`: the outcome of every call, and the number of calls made so far.
Simplification: the reader does not look at the buffer it is given. In one run every call is made once, with one buffer,
so that theorems about all sources and one run cover readers that do look at it. (input.rs:137, 157, 181, 202) -/
structure Src where
  outcome : Nat → ReadOutcome
  calls : Nat

/-- input.rs:46-50. -/
def CAPACITY [FuzzCfg] : Nat := if FuzzCfg.fuzzing then 31 else 2048

/-- input.rs:24-36. -/
structure BufferedReader where
  inner : Src
  buf : List U8
  pos : Nat
  numValid : Nat

namespace BufferedReader

/-- input.rs:41-59. -/
def new [FuzzCfg] (inner : Src) : BufferedReader :=
  { inner := inner, buf := List.replicate CAPACITY 0#8, pos := 0, numValid := 0 }

/-- input.rs:64-66. -/
def intoInner (r : BufferedReader) : Src := r.inner

/-- input.rs:136-137 (and 156-157, 180-181, 201-202):
`self.pos = 0; self.num_valid = try!(self.inner.read(&mut self.buf)) as u32;`
Note that on an error `pos` has been reset but `num_valid` keeps its old value. -/
def refill : Dec BufferedReader Unit := fun r =>
  let inner' : Src := { r.inner with calls := r.inner.calls + 1 }
  match r.inner.outcome r.inner.calls with
  | .ok n written =>
    (.ok (), { inner := inner'
               buf := written.take r.buf.length ++ r.buf.drop written.length
               pos := 0
               numValid := n % 2 ^ 32 })
  | .err code written =>
    (.error (.err (.ioError (.inner code))),
      { r with inner := inner'
               buf := written.take r.buf.length ++ r.buf.drop written.length
               pos := 0 })

/-- input.rs:148-150: the unchecked access, undefined behaviour when out of bounds. -/
def takeByte [Build] : Dec BufferedReader U8 := do
  let r ← Dec.get
  match r.buf[r.pos]? with
  | some byte => do
    let pos' ← addU 32 r.pos 1
    Dec.set { r with pos := pos' }
    pure byte
  | none => Dec.fail .ub

/-- input.rs:133-151. -/
def readU8 [Build] : Dec BufferedReader U8 := do
  let r ← Dec.get
  if r.pos = r.numValid then do
    refill
    let r ← Dec.get
    if r.numValid = 0 then ioErr .unexpectedEof else takeByte
  else takeByte

/-- input.rs:153-165. -/
def readU8OrEof [Build] : Dec BufferedReader (Option U8) := do
  let r ← Dec.get
  if r.pos = r.numValid then do
    refill
    let r ← Dec.get
    if r.numValid = 0 then pure none
    else do
      let b ← readU8
      pure (some b)
  else do
    let b ← readU8
    pure (some b)

/-- input.rs:170-187, one pass of the loop of `read_into`: `bytesLeft` bytes remain to be read.
Returns the bytes copied and the new number of bytes left, having refilled the buffer if it is not
zero. -/
def readIntoStep [Build] (bytesLeft : Nat) : Dec BufferedReader (List U8 × Nat) := do
  let r ← Dec.get
  let avail ← subU 32 r.numValid r.pos
  let count := min bytesLeft avail
  let copied ← slice r.buf r.pos (r.pos + count)
  let pos' ← addU 32 r.pos count
  Dec.set { r with pos := pos' }
  if bytesLeft - count > 0 then do
    refill
    let r ← Dec.get
    if r.numValid = 0 then ioErr .unexpectedEof
    else pure (copied, bytesLeft - count)
  else pure (copied, 0)

/-- input.rs:170-187, the loop. Every pass after the first finds a non-empty buffer and so makes
progress; hence at most `bytesLeft + 1` passes are made, which bounds the recursion. -/
def readIntoLoop [Build] : (fuel : Nat) → (bytesLeft : Nat) → Dec BufferedReader (List U8)
  | 0, _ => Dec.fail .diverged
  | fuel + 1, bytesLeft =>
    if bytesLeft > 0 then do
      let (copied, left) ← readIntoStep bytesLeft
      let rest ← readIntoLoop fuel left
      pure (copied ++ rest)
    else pure []

/-- input.rs:167-190. -/
def readInto [Build] (len : Nat) : Dec BufferedReader (List U8) := readIntoLoop (len + 2) len

/-- input.rs:193-209, one pass of the loop of `skip`. -/
def skipStep [Build] (amount : Nat) : Dec BufferedReader Nat := do
  let r ← Dec.get
  let numLeft ← subU 32 r.numValid r.pos
  let readNow := min amount numLeft
  let pos' ← addU 32 r.pos readNow
  Dec.set { r with pos := pos' }
  if amount - readNow > 0 then do
    refill
    let r ← Dec.get
    if r.numValid = 0 then ioErr .unexpectedEof
    else pure (amount - readNow)
  else pure 0

/-- input.rs:193-209, the loop, see `readIntoLoop` for the bound. -/
def skipLoop [Build] : (fuel : Nat) → (amount : Nat) → Dec BufferedReader Unit
  | 0, _ => Dec.fail .diverged
  | fuel + 1, amount =>
    if amount > 0 then do
      let left ← skipStep amount
      skipLoop fuel left
    else pure ()

/-- input.rs:192-211. -/
def skip [Build] (amount : Nat) : Dec BufferedReader Unit := skipLoop (amount + 2) amount

/-- input.rs:130-212. -/
instance [Build] : ReadBytes BufferedReader where
  readU8 := readU8
  readU8OrEof := readU8OrEof
  readInto := readInto
  skip := skip

end BufferedReader

/-! ### `io::Cursor` -/

/-- `std::io::Cursor<T: AsRef<[u8]>>`: the bytes and the position. (input.rs:234-278) -/
structure Cursor where
  data : List U8
  pos : Nat

namespace Cursor

/-- input.rs:236-244. -/
def readU8 : Dec Cursor U8 := do
  let c ← Dec.get
  if c.pos < c.data.length then do
    Dec.set { c with pos := c.pos + 1 }
    let b ← index c.data c.pos
    pure b
  else ioErr .unexpectedEof

/-- input.rs:246-254. -/
def readU8OrEof : Dec Cursor (Option U8) := do
  let c ← Dec.get
  if c.pos < c.data.length then do
    Dec.set { c with pos := c.pos + 1 }
    let b ← index c.data c.pos
    pure (some b)
  else pure none

/-- input.rs:256-267. The `u64` addition `pos + buffer.len()` is checked for overflow. -/
def readInto [Build] (len : Nat) : Dec Cursor (List U8) := do
  let c ← Dec.get
  let end_ ← addU 64 c.pos len
  if end_ ≤ c.data.length then do
    let bytes ← slice c.data c.pos end_
    Dec.set { c with pos := end_ }
    pure bytes
  else ioErr .unexpectedEof

/-- input.rs:269-277. -/
def skip [Build] (amount : Nat) : Dec Cursor Unit := do
  let c ← Dec.get
  let end_ ← addU 64 c.pos amount
  if end_ ≤ c.data.length then Dec.set { c with pos := end_ }
  else ioErr .unexpectedEof

/-- input.rs:234-278. -/
instance [Build] : ReadBytes Cursor where
  readU8 := readU8
  readU8OrEof := readU8OrEof
  readInto := readInto
  skip := skip

end Cursor

end Claxon
