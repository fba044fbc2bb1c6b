import Verif.Model.Input

/-!
# The buffer that `read_into` fills

`ReadBytes::read_into` writes to a buffer that the caller provides. In the rest of the model it returns
the bytes that the buffer holds afterwards. Here the buffer itself is modelled, with cells that may be
uninitialised: `metadata.rs` lets `read_into` fill vectors whose length has been set with `set_len`.
-/

namespace Claxon

/-- A byte of memory, `none` if it has not been initialised. (metadata.rs:432-437, 473-474, 544-545) -/
abbrev Cell := Option U8

/-- `buffer[a..b].copy_from_slice(src)`; panics unless `a <= b <= buffer.len()` and the lengths agree.
(input.rs:173, 261) -/
def copyFromSlice (buffer : List Cell) (a b : Nat) (src : List U8) : Res (List Cell) :=
  if a ≤ b ∧ b ≤ buffer.length then
    if src.length = b - a then .ok (buffer.take a ++ src.map some ++ buffer.drop b)
    else panicRes .explicit
  else panicRes .index

namespace BufferedReader

/-- input.rs:170-187, the loop of `read_into`; the state is `self` and `buffer`, and `bytesLeft` is the
local variable. See `readIntoLoop` for the bound. -/
def fillLoop [Build] : (fuel : Nat) → (bytesLeft : Nat) → Dec (BufferedReader × List Cell) Unit
  | 0, _ => Dec.fail .diverged
  | fuel + 1, bytesLeft =>
    if bytesLeft > 0 then do
      let (r, buffer) ← Dec.get
      let start ← subU 64 buffer.length bytesLeft
      let avail ← subU 32 r.numValid r.pos
      let count := min bytesLeft avail
      let copied ← slice r.buf r.pos (r.pos + count)
      let buffer' ← copyFromSlice buffer start (start + count) copied
      Dec.set (r, buffer')
      let pos' ← addU 32 r.pos count
      Dec.set ({ r with pos := pos' }, buffer')
      let bytesLeft := bytesLeft - count
      if bytesLeft > 0 then do
        Dec.zoom Prod.fst (fun r s => (r, s.2)) refill
        let (r, _) ← Dec.get
        if r.numValid = 0 then ioErr .unexpectedEof
        else fillLoop fuel bytesLeft
      else fillLoop fuel bytesLeft
    else pure ()

/-- input.rs:167-190. -/
def fill [Build] : Dec (BufferedReader × List Cell) Unit := do
  let (_, buffer) ← Dec.get
  fillLoop (buffer.length + 2) buffer.length

end BufferedReader

namespace Cursor

/-- input.rs:256-267. -/
def fill [Build] : Dec (Cursor × List Cell) Unit := do
  let (c, buffer) ← Dec.get
  let end_ ← addU 64 c.pos buffer.length
  if end_ ≤ c.data.length then do
    let bytes ← slice c.data c.pos end_
    let buffer' ← copyFromSlice buffer 0 buffer.length bytes
    Dec.set (c, buffer')
    Dec.set ({ c with pos := end_ }, buffer')
  else ioErr .unexpectedEof

end Cursor

/-- The bytes of a buffer, if all of it is initialised. (metadata.rs:437-439, 474-492, 545-548) -/
def initialised (buffer : List Cell) : Option (List U8) := buffer.mapM id

/-- metadata.rs:432-438, 473-475, 544-546: `Vec::with_capacity(len)`, `set_len(len)`, and
`try!(input.read_into(&mut vec))`, for an arbitrary implementation `fill` of `read_into`. The code goes on
with the contents of the vector, which is undefined behaviour if a cell is still uninitialised; on an error
the vector is dropped. -/
def readVec {σ : Type} (fill : Dec (σ × List Cell) Unit) (len : Nat) : Dec σ (List U8) := fun s =>
  match fill (s, List.replicate len none) with
  | (.ok (), (s', vec)) =>
    match initialised vec with
    | some bytes => (.ok bytes, s')
    | none => (.error .ub, s')
  | (.error f, (s', _)) => (.error f, s')

/-- input.rs:130-212, where `read_into` fills a vector of uninitialised memory. -/
@[instance_reducible] def BufferedReader.onMemory [Build] : ReadBytes BufferedReader where
  readU8 := BufferedReader.readU8
  readU8OrEof := BufferedReader.readU8OrEof
  readInto := readVec BufferedReader.fill
  skip := BufferedReader.skip

/-- input.rs:234-278, where `read_into` fills a vector of uninitialised memory. -/
@[instance_reducible] def Cursor.onMemory [Build] : ReadBytes Cursor where
  readU8 := Cursor.readU8
  readU8OrEof := Cursor.readU8OrEof
  readInto := readVec Cursor.fill
  skip := Cursor.skip

end Claxon
