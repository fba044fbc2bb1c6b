import Verif.Model.Input

/-! Models `/repo/src/input.rs:394-643`: the bit-level reader `Bitstream`. -/

namespace Claxon

/-- input.rs:396-402. -/
def shiftLeft [Build] (x : U8) (shift : Nat) : Res U8 := do
  debugAssert (decide (shift ≤ 8))
  let y ← shl (x.setWidth 32) shift
  pure (y.setWidth 8)

/-- input.rs:406-412. -/
def shiftRight [Build] (x : U8) (shift : Nat) : Res U8 := do
  debugAssert (decide (shift ≤ 8))
  let y ← shr (x.setWidth 32) shift
  pure (y.setWidth 8)

/-- Rust `u8::leading_zeros`: the number of zero bits in front of the most significant one bit (8 if
there is none). (input.rs:478, 499) -/
def leadingZeros (x : U8) : Nat := ((List.range 8).takeWhile (fun i => !x.getMsbD i)).length

/-- input.rs:415-422. -/
structure Bitstream (σ : Type) where
  reader : σ
  data : U8
  bitsLeft : Nat

namespace Bitstream

/-- input.rs:426-432. -/
def new {σ : Type} (reader : σ) : Bitstream σ := { reader := reader, data := 0#8, bitsLeft := 0 }

variable {σ : Type} [ReadBytes σ]

/-- `self.reader.read_u8()`. (e.g. input.rs:498) -/
def readByte : Dec (Bitstream σ) U8 :=
  Dec.zoom Bitstream.reader (fun r b => { b with reader := r }) ReadBytes.readU8

/-- input.rs:436-440. -/
def maskU8 [Build] (bits : Nat) : Res U8 := do
  debugAssert (decide (bits ≤ 8))
  let s ← subU 32 8 bits
  shiftLeft 0xff#8 s

/-- Assignment to `self.data` and `self.bits_left`. (e.g. input.rs:462-463) -/
def update (data : U8) (bitsLeft : Nat) : Dec (Bitstream σ) Unit := fun b =>
  (.ok (), { b with data := data, bitsLeft := bitsLeft })

/-- input.rs:447-468. -/
def readBit [Build] : Dec (Bitstream σ) Bool := do
  let b ← Dec.get
  if b.bitsLeft = 0 then do
    let fresh ← readByte
    update (fresh <<< 1) 7
    pure ((fresh &&& 0b1000_0000#8) != 0#8)
  else do
    let bit := b.data &&& 0b1000_0000#8
    let left ← subU 32 b.bitsLeft 1
    update (b.data <<< 1) left
    pure (bit != 0#8)

/-- input.rs:501-506: the one has been found, after the zeros in front of it in the last byte. -/
def unaryEnd [Build] (fresh : U8) (n : Nat) : Dec (Bitstream σ) Nat := do
  let left ← subU 32 8 (leadingZeros fresh + 1)
  let data ← shiftLeft fresh (leadingZeros fresh + 1)
  update data left
  pure n

/-- input.rs:497-507, the loop of `read_unary` after the counter has wrapped around, in an unchecked build. On an
endless input it need not end; the number of iterations is bounded by `fuel`. -/
def readUnaryWrapped [Build] : (fuel n : Nat) → Dec (Bitstream σ) Nat
  | 0, _ => Dec.fail .diverged
  | fuel + 1, n => do
    let fresh ← readByte
    if leadingZeros fresh < 8 then unaryEnd fresh ((n + leadingZeros fresh) % 2 ^ 32)
    else readUnaryWrapped fuel ((n + leadingZeros fresh) % 2 ^ 32)

/-- input.rs:497-507, the loop of `read_unary`. In a checked build it ends, at the latest, with the overflow of the
`u32` counter `n`. In an unchecked build the counter wraps around and the loop goes on, see `readUnaryWrapped`; no
input has `2 ^ 64` bytes. -/
def readUnaryLoop [Build] (n : Nat) : Dec (Bitstream σ) Nat := do
  let fresh ← readByte
  if _h : n + leadingZeros fresh < 2 ^ 32 then
    if _hz : leadingZeros fresh < 8 then unaryEnd fresh (n + leadingZeros fresh)
    else readUnaryLoop (n + leadingZeros fresh)
  else if Build.checked then Dec.lift (panicRes .overflow)
  else if leadingZeros fresh < 8 then unaryEnd fresh ((n + leadingZeros fresh) % 2 ^ 32)
  else readUnaryWrapped (2 ^ 64) ((n + leadingZeros fresh) % 2 ^ 32)
termination_by 2 ^ 32 - n
decreasing_by omega

/-- input.rs:475-511. -/
def readUnary [Build] : Dec (Bitstream σ) Nat := do
  let b ← Dec.get
  let n := leadingZeros b.data
  if n < b.bitsLeft then do
    let data ← shl b.data (n + 1)
    let left ← subU 32 b.bitsLeft (n + 1)
    update data left
    pure n
  else readUnaryLoop b.bitsLeft

/-- input.rs:549-557: the final assertions and shift of `read_leq_u8`. -/
def readLeqU8Finish [Build] (bits : Nat) (result : U8) : Dec (Bitstream σ) U8 := do
  let b ← Dec.get
  debugAssert (decide (b.bitsLeft < 8))
  let m ← maskU8 b.bitsLeft
  debugAssert (b.data &&& ~~~m == 0#8)
  let s ← subU 32 8 bits
  shiftRight result s

/-- input.rs:515-558. -/
def readLeqU8 [Build] (bits : Nat) : Dec (Bitstream σ) U8 := do
  debugAssert (decide (bits ≤ 8))
  let b ← Dec.get
  if b.bitsLeft < bits then do
    let msb := b.data
    let fresh ← readByte
    let need ← subU 32 bits b.bitsLeft
    let m ← maskU8 need
    let lsb ← shr (fresh &&& m) b.bitsLeft
    let data ← shiftLeft fresh need
    let left ← subU 32 8 need
    update data left
    readLeqU8Finish bits (msb ||| lsb)
  else do
    let m ← maskU8 bits
    let result := b.data &&& m
    let data ← shl b.data bits
    let left ← subU 32 b.bitsLeft bits
    update data left
    readLeqU8Finish bits result

/-- input.rs:562-602. -/
def readGtU8LeqU16 [Build] (bits : Nat) : Dec (Bitstream σ) U32 := do
  debugAssert (decide (8 < bits ∧ bits ≤ 16))
  let b ← Dec.get
  let bitsToRead ← subU 32 bits b.bitsLeft
  let maskMsb ← shl 0xffffffff#32 bitsToRead
  let sh ← subU 32 bits 8
  let shifted ← shl (b.data.setWidth 32) sh
  let msb := shifted &&& maskMsb
  let freshByte ← readByte
  let fresh : U32 := freshByte.setWidth 32
  let lsb ← (if bitsToRead ≥ 8 then shl fresh (bitsToRead - 8) else shr fresh (8 - bitsToRead) : Res U32)
  let combined := msb ||| lsb
  if bitsToRead ≤ 8 then do
    let left := 8 - bitsToRead
    update ((fresh <<< ((8 - left) % 32)).setWidth 8) left
    pure combined
  else do
    let fresherByte ← readByte
    let fresher : U32 := fresherByte.setWidth 32
    let left ← subU 32 16 bitsToRead
    let lsb ← shr fresher left
    let s ← subU 32 8 left
    update ((fresher <<< (s % 32)).setWidth 8) left
    pure (combined ||| lsb)

/-- input.rs:606-622. -/
def readLeqU16 [Build] (bits : Nat) : Dec (Bitstream σ) U16 := do
  debugAssert (decide (bits ≤ 16))
  if bits ≤ 8 then do
    let result ← readLeqU8 bits
    pure (result.setWidth 16)
  else do
    let msb ← readLeqU8 8
    let lsb ← readLeqU8 (bits - 8)
    let hi ← shl (msb.setWidth 16) (bits - 8)
    pure (hi ||| lsb.setWidth 16)

/-- input.rs:626-642. -/
def readLeqU32 [Build] (bits : Nat) : Dec (Bitstream σ) U32 := do
  debugAssert (decide (bits ≤ 32))
  if bits ≤ 16 then do
    let result ← readLeqU16 bits
    pure (result.setWidth 32)
  else do
    let msb ← readLeqU16 16
    let lsb ← readLeqU16 (bits - 16)
    let hi ← shl (msb.setWidth 32) (bits - 16)
    pure (hi ||| lsb.setWidth 32)

end Bitstream

end Claxon
