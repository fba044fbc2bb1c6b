import Verif.Model.Base

/-! Models `/repo/src/frame.rs:318-637`: stereo decorrelation, `Block` and `StereoSamples`. -/

namespace Claxon

/-- `Vec<i32>`: the elements, and the capacity as reported by `capacity()`. (frame.rs:410) -/
structure VecI32 where
  data : List I32
  cap : Nat
  deriving DecidableEq, Repr

namespace VecI32

/-- `Vec::new()`, `Vec::with_capacity(0)`. (frame.rs:429) -/
def empty : VecI32 := { data := [], cap := 0 }

/-- `len()`. (frame.rs:617) -/
def len (v : VecI32) : Nat := v.data.length

end VecI32

/-! ### Stereo decorrelation -/

/-- frame.rs:319-334. -/
def decodeLeftSide (buffer : List I32) : List I32 :=
  let bs := buffer.length / 2
  let mids := buffer.take bs
  let sides := buffer.drop bs
  mids ++ List.zipWith (fun left side => left - side) mids sides ++ sides.drop mids.length

/-- frame.rs:345-360. -/
def decodeRightSide (buffer : List I32) : List I32 :=
  let bs := buffer.length / 2
  let mids := buffer.take bs
  let sides := buffer.drop bs
  List.zipWith (fun side right => side + right) mids sides ++ sides

/-- frame.rs:375-384: one pair of mid and side samples. `/` on `i32` truncates towards zero. -/
def decodeMidSideSample (mid side : I32) : I32 × I32 :=
  let mid := mid * 2 ||| (side &&& 1)
  ((mid + side).sdiv 2, (mid - side).sdiv 2)

/-- frame.rs:371-389. -/
def decodeMidSide (buffer : List I32) : List I32 :=
  let bs := buffer.length / 2
  let mids := buffer.take bs
  let sides := buffer.drop bs
  List.zipWith (fun m s => (decodeMidSideSample m s).1) mids sides ++
    List.zipWith (fun m s => (decodeMidSideSample m s).2) mids sides ++ sides.drop mids.length

/-! ### Blocks -/

/-- frame.rs:402-411. -/
structure Block where
  firstSampleNumber : Nat
  blockSize : Nat
  channels : Nat
  buffer : VecI32
  deriving DecidableEq, Repr

namespace Block

/-- frame.rs:414-421. -/
def new (time bs : Nat) (buffer : VecI32) : Res Block :=
  if bs = 0 then panicRes .divZero
  else .ok { firstSampleNumber := time
             blockSize := bs
             channels := (buffer.len % 2 ^ 32) / bs
             buffer := buffer }

/-- frame.rs:424-431. -/
def empty : Block :=
  { firstSampleNumber := 0, blockSize := 0, channels := 0, buffer := VecI32.empty }

/-- frame.rs:438-440. -/
def time (b : Block) : Nat := b.firstSampleNumber

/-- frame.rs:446-450. -/
def len [Build] (b : Block) : Res Nat := mulU 32 b.blockSize b.channels

/-- frame.rs:459-461. -/
def duration (b : Block) : Nat := b.blockSize

/-- frame.rs:477-481. -/
def channel [Build] [Target] (b : Block) (ch : Nat) : Res (List I32) := do
  let start ← mulU Target.usizeBits ch b.blockSize
  let next ← addU Target.usizeBits ch 1
  let end_ ← mulU Target.usizeBits next b.blockSize
  slice b.buffer.data start end_

/-- frame.rs:494-497. -/
def sample [Build] [Target] (b : Block) (ch sample : Nat) : Res I32 := do
  let start ← mulU Target.usizeBits ch b.blockSize
  let i ← addU Target.usizeBits start sample
  index b.buffer.data i

/-- frame.rs:503-505. -/
def intoBuffer (b : Block) : VecI32 := b.buffer

end Block

/-- frame.rs:548-552. -/
structure StereoSamples where
  buffer : List I32
  blockDuration : Nat
  currentSample : Nat
  deriving DecidableEq, Repr

/-- frame.rs:516-528. -/
def Block.stereoSamples [Build] [Target] (b : Block) : Res StereoSamples :=
  if b.channels ≠ 2 then panicRes .explicit
  else do
    let needed ← mulU Target.usizeBits b.blockSize 2
    if b.buffer.len ≥ needed then
      .ok { buffer := b.buffer.data, blockDuration := b.blockSize, currentSample := 0 }
    else panicRes .explicit

namespace StereoSamples

/-- `*self.buffer.get_unchecked(i)`: undefined behaviour when out of bounds. (frame.rs:570-571) -/
def getUnchecked (xs : List I32) (i : Nat) : Res I32 :=
  match xs[i]? with
  | some x => .ok x
  | none => .error .ub

/-- frame.rs:558-579. -/
def next [Build] [Target] : Dec StereoSamples (Option (I32 × I32)) := do
  let it ← Dec.get
  if it.currentSample = it.blockDuration then pure none
  else do
    let left ← getUnchecked it.buffer it.currentSample
    let rightIdx ← addU Target.usizeBits it.currentSample it.blockDuration
    let right ← getUnchecked it.buffer rightIdx
    let cur ← addU 32 it.currentSample 1
    Dec.set { it with currentSample := cur }
    pure (some (left, right))

end StereoSamples

/-- frame.rs:616-637. -/
def ensureBufferLen (buffer : VecI32) (newLen : Nat) : VecI32 :=
  if buffer.len < newLen then
    if buffer.cap < newLen then
      -- `vec![0; new_len]`
      { data := List.replicate newLen 0#32, cap := newLen }
    else
      -- `buffer.resize(new_len, 0)`
      { data := buffer.data ++ List.replicate (newLen - buffer.len) 0#32, cap := buffer.cap }
  else
    -- `buffer.truncate(new_len)`
    { data := buffer.data.take newLen, cap := buffer.cap }

end Claxon
