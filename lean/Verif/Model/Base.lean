/-!
# Base of the model: integers, errors, panics and the decoder monad

Models `/repo/src/error.rs` (the error type) and fixes the conventions used by all other model
files (see `DESIGN.md`, section 1).
-/

namespace Claxon

/-- Rust `u8`. (e.g. input.rs:419) -/
abbrev U8 := BitVec 8
/-- Rust `u16`. (e.g. crc.rs:72) -/
abbrev U16 := BitVec 16
/-- Rust `u32`. (e.g. subframe.rs:157) -/
abbrev U32 := BitVec 32
/-- Rust `u64`. (e.g. frame.rs:404) -/
abbrev U64 := BitVec 64
/-- Rust `i16` (two's complement; `as` casts from `u16` are the identity). (subframe.rs:525-526, 587-588) -/
abbrev I16 := BitVec 16
/-- Rust `i32` (two's complement; `as` casts from `u32` are the identity). (e.g. the samples, frame.rs:410) -/
abbrev I32 := BitVec 32
/-- Rust `i64` (two's complement). (subframe.rs:536-564, 578-580, 609-611) -/
abbrev I64 := BitVec 64

/-- `std::io::Error`: either the `UnexpectedEof` error claxon itself constructs
(input.rs:140-141, 183-184, 205-206, 242, 265, 275), or an error returned by the wrapped
`io::Read`, identified by a number. -/
inductive IoError where
  | unexpectedEof
  | inner (code : Nat)
  deriving DecidableEq, Repr

/-- error.rs:18-32 `enum Error`. -/
inductive Error where
  | ioError (e : IoError)
  | formatError (reason : String)
  | unsupported (feature : String)
  deriving DecidableEq, Repr

/-- The reasons for which the Rust code can panic (some of them only if it is compiled with overflow checks
and debug assertions). (e.g. frame.rs:518, input.rs:397, crc.rs:139) -/
inductive Panic where
  /-- arithmetic overflow or underflow in `+`, `-`, `*` -/
  | overflow
  /-- shift amount not smaller than the integer width -/
  | shift
  /-- index or slice range out of bounds -/
  | index
  /-- division by zero -/
  | divZero
  /-- failed `debug_assert!` -/
  | debugAssert
  /-- `unreachable!()` -/
  | unreachable
  /-- `Option::unwrap` on `None` -/
  | unwrapNone
  /-- `str` slicing not at a character boundary -/
  | charBoundary
  /-- explicit `panic!(..)` or `assert!(..)` -/
  | explicit
  deriving DecidableEq, Repr

/-- The ways in which a call may fail to return `Ok`. `diverged` is not an outcome of the program: it
is what loops whose length is only bounded by the (possibly infinite) input return in the model when
the given number of iterations has been used up. (`err` is the `Err` of error.rs:97) -/
inductive Fail where
  | err (e : Error)
  | panic (p : Panic)
  | ub
  | diverged
  deriving DecidableEq, Repr

deriving instance DecidableEq for Except

/-- Result of a pure Rust function that may return `Err` or panic. (error.rs:97 `type Result`) -/
abbrev Res (α : Type) := Except Fail α

/-- A Rust function that mutates a state of type `σ` (`&mut self`, `&mut R`). The state is
returned on failure too: mutations made before an early return persist. (e.g. input.rs:71-84) -/
def Dec (σ α : Type) : Type := σ → Except Fail α × σ

namespace Dec

variable {σ α β : Type}

/-- `Ok(a)`, e.g. input.rs:150. -/
@[inline] def pure (a : α) : Dec σ α := fun s => (.ok a, s)

/-- One statement after the other, with `try!` where the first can fail, e.g. input.rs:88-90. -/
@[inline] def bind (m : Dec σ α) (f : α → Dec σ β) : Dec σ β := fun s =>
  match m s with
  | (.ok a, s') => f a s'
  | (.error e, s') => (.error e, s')

/-- Notation for sequences of statements, e.g. input.rs:88-90. -/
instance : Monad (Dec σ) where
  pure := Dec.pure
  bind := Dec.bind

/-- Fail with `f`, leaving the state as it is. (e.g. error.rs:100-102, crc.rs:139) -/
@[inline] def fail (f : Fail) : Dec σ α := fun s => (.error f, s)

/-- Lift a pure computation. (e.g. input.rs:489, where the shift is checked) -/
@[inline] def lift (r : Res α) : Dec σ α := fun s => (r, s)

/-- Notation for `Dec.lift`; no counterpart in the code, e.g. for input.rs:489. -/
instance : MonadLift (Except Fail) (Dec σ) where
  monadLift := Dec.lift

/-- Read the state. (e.g. input.rs:148) -/
@[inline] def get : Dec σ σ := fun s => (.ok s, s)

/-- Replace the state. (e.g. input.rs:149) -/
@[inline] def set (s : σ) : Dec σ Unit := fun _ => (.ok (), s)

/-- Run a computation on a component of the state (a `&mut self.field` re-borrow).
(e.g. lib.rs:499, metadata.rs:576) -/
@[inline] def zoom {τ : Type} (getter : σ → τ) (setter : τ → σ → σ) (m : Dec τ α) : Dec σ α :=
  fun s => let r := m (getter s); (r.1, setter r.2 s)

/-- Observe a returned `Err` as a value (a Rust `match` on a `Result`); panics propagate.
(lib.rs:499-513, metadata.rs:591-599, decode_simple.rs:43-54) -/
@[inline] def catchErr (m : Dec σ α) : Dec σ (Except Error α) := fun s =>
  match m s with
  | (.ok a, s') => (.ok (.ok a), s')
  | (.error (.err e), s') => (.ok (.error e), s')
  | (.error f, s') => (.error f, s')

end Dec

/-- error.rs:100-102 `fmt_err`. -/
def fmtErr {σ α : Type} (reason : String) : Dec σ α := Dec.fail (.err (.formatError reason))

/-- `Err(Error::Unsupported(feature))`. (frame.rs:691, metadata.rs:424, 534, subframe.rs:318, 366, 690) -/
def unsupportedErr {σ α : Type} (feature : String) : Dec σ α :=
  Dec.fail (.err (.unsupported feature))

/-- `Err(io::Error)` converted by `From<io::Error>` (error.rs:82-86). -/
def ioErr {σ α : Type} (e : IoError) : Dec σ α := Dec.fail (.err (.ioError e))

/-! ### Arithmetic

Counters (`u8`, `u16`, `u32`) are `Nat`s; the operations below panic where Rust's overflow
checks do, in a build with overflow checks and debug assertions. In a build without them they wrap
around, and the amount of a shift is reduced modulo the width. Where the arguments of a public function
determine the operands of an operation on `usize`, its width is that of the target. Other sums and products in
`usize` are unbounded: they are indices in a buffer or the end of a part of it, and the model panics if they
are larger than its length, so that the difference can only matter where the model panics. -/

/-- How the code is compiled: with (`checked = true`) or without overflow checks and debug assertions.
(all arithmetic, and assertions such as input.rs:397) -/
class Build where
  checked : Bool

/-- The platform: the number of bits of a `usize`. (e.g. frame.rs:480, 681) -/
class Target where
  usizeBits : Nat

/-- Whether the code is compiled with `cfg(fuzzing)`, as by `cargo fuzz`.
(input.rs:46-50, frame.rs:297-306, 758-767) -/
class FuzzCfg where
  fuzzing : Bool

/-- Panic with reason `p`. (e.g. crc.rs:139, frame.rs:518) -/
def panicRes {α : Type} (p : Panic) : Res α := .error (.panic p)

/-- What happens when a check fails: a checked build panics with reason `p`, an unchecked one goes on
with `v`. (e.g. input.rs:500) -/
def orPanic [Build] {α : Type} (p : Panic) (v : α) : Res α := if Build.checked then panicRes p else .ok v

/-- `a + b` in an unsigned type of `w` bits. (e.g. input.rs:500) -/
def addU [Build] (w a b : Nat) : Res Nat :=
  if a + b < 2 ^ w then .ok (a + b) else orPanic .overflow ((a + b) % 2 ^ w)

/-- `a - b` in an unsigned type of `w` bits. (e.g. input.rs:463) -/
def subU [Build] (w a b : Nat) : Res Nat :=
  if b ≤ a then .ok (a - b) else orPanic .overflow ((a + (2 ^ w - b % 2 ^ w)) % 2 ^ w)

/-- `a * b` in an unsigned type of `w` bits. (e.g. frame.rs:681) -/
def mulU [Build] (w a b : Nat) : Res Nat :=
  if a * b < 2 ^ w then .ok (a * b) else orPanic .overflow (a * b % 2 ^ w)

/-- `x << s`; the check is that the shift amount is smaller than the width. (e.g. input.rs:489) -/
def shl [Build] {w : Nat} (x : BitVec w) (s : Nat) : Res (BitVec w) :=
  if s < w then .ok (x <<< s) else orPanic .shift (x <<< (s % w))

/-- `x >> s` on an unsigned type. (e.g. input.rs:532) -/
def shr [Build] {w : Nat} (x : BitVec w) (s : Nat) : Res (BitVec w) :=
  if s < w then .ok (x >>> s) else orPanic .shift (x >>> (s % w))

/-- `x >> s` on a signed type (arithmetic shift). (e.g. subframe.rs:100, 121) -/
def sar [Build] {w : Nat} (x : BitVec w) (s : Nat) : Res (BitVec w) :=
  if s < w then .ok (x.sshiftRight s) else orPanic .shift (x.sshiftRight (s % w))

/-- `a + b` in `i64`, with overflow check. (subframe.rs:563, 579, 610) -/
def addI64 [Build] (a b : I64) : Res I64 :=
  if -2 ^ 63 ≤ a.toInt + b.toInt ∧ a.toInt + b.toInt < 2 ^ 63 then .ok (a + b)
  else orPanic .overflow (a + b)

/-- `a * b` in `i64`, with overflow check. (subframe.rs:562, 578, 609) -/
def mulI64 [Build] (a b : I64) : Res I64 :=
  if -2 ^ 63 ≤ a.toInt * b.toInt ∧ a.toInt * b.toInt < 2 ^ 63 then .ok (a * b)
  else orPanic .overflow (a * b)

/-- `debug_assert!(c)`. (input.rs:397, 407, 437, 518, 550-553, 563, 608, 628, subframe.rs:194, 217, 269, 407,
421, 529-530, 598-601, 657, frame.rs:697) -/
def debugAssert [Build] (c : Bool) : Res Unit := if c then .ok () else orPanic .debugAssert ()

/-- `xs[i]` (read). (e.g. subframe.rs:564) -/
def index {α : Type} (xs : List α) (i : Nat) : Res α :=
  match xs[i]? with
  | some x => .ok x
  | none => panicRes .index

/-- `xs[i] = v` (write). (e.g. subframe.rs:547) -/
def setIndex {α : Type} (xs : List α) (i : Nat) (v : α) : Res (List α) :=
  if i < xs.length then .ok (xs.set i v) else panicRes .index

/-- `&xs[a..b]`; panics unless `a <= b <= xs.len()`. (e.g. frame.rs:715, subframe.rs:697) -/
def slice {α : Type} (xs : List α) (a b : Nat) : Res (List α) :=
  if a ≤ b ∧ b ≤ xs.length then .ok ((xs.take b).drop a) else panicRes .index

end Claxon
