import Verif.Model.Examples

/-! Models the fuzz targets in `/repo/fuzz/fuzzers`: `decode_full.rs`, `decode_header.rs`, `decode_single_block.rs` and
`diff.rs`. The library is compiled with `cfg(fuzzing)` for them, see `FuzzCfg`: checksums are not compared
(frame.rs:295-306 and 756-767), and the buffer has 31 bytes (input.rs:46-50). -/

namespace Claxon

namespace Fuzzing

open Examples

/-- `match … { Ok(a) => …, Err(..) => … }`: the value, or that there was an error. Panics are not caught.
(e.g. decode_full.rs:18-21) -/
def caught {α : Type} : Res α → Res (Option α)
  | .ok a => .ok (some a)
  | .error (.err _) => .ok none
  | .error f => .error f

/-- decode_header.rs:17-23 `go`. -/
def decodeHeader [FuzzCfg] [Build] (fuel : Nat) (data : List U8) : Res Unit := do
  match ← caught (FlacReader.new fuel (memory data)) with
  | some _ => pure ()
  | none => pure ()

/-- decode_full.rs:24-29, with at most `fuel` items. -/
def fullLoop [FuzzCfg] [Build] [Target] {σ : Type} [ReadBytes σ] : (fuel : Nat) → FlacSamples σ → Res Unit
  | 0, _ => .error .diverged
  | fuel + 1, it =>
    match FlacSamples.next it with
    | (.ok none, _) => .ok ()
    | (.ok (some (.ok _)), it') => fullLoop fuel it'
    | (.ok (some (.error _)), _) => .ok ()
    | (.error f, _) => .error f

/-- decode_full.rs:17-30 `go`. -/
def decodeFull [FuzzCfg] [Build] [Target] (fuel : Nat) (data : List U8) : Res Unit := do
  match ← caught (FlacReader.new fuel (memory data)) with
  | none => pure ()
  | some reader =>
    let samples ← reader.samples
    fullLoop fuel samples

/-- diff.rs:43-53 and 66-76: open the stream and read the first block. `none` if it cannot be opened, otherwise the
buffer of the block, if there is one. The same with an empty buffer in decode_single_block.rs:18-25. -/
def firstBlock [FuzzCfg] [Build] (fuel : Nat) (data : List U8) (buffer : VecI32) : Res (Option (Option VecI32)) := do
  match ← caught (FlacReader.new fuel (memory data)) with
  | none => pure none
  | some reader =>
    let input ← reader.blocks
    match ← caught (readNextOrEof buffer input).1 with
    | some (some block) => pure (some (some block.intoBuffer))
    | _ => pure (some none)

/-- decode_single_block.rs:17-27 `go`. -/
def decodeSingleBlock [FuzzCfg] [Build] (fuel : Nat) (data : List U8) : Res Unit := do
  let _ ← firstBlock fuel data VecI32.empty
  pure ()

/-- diff.rs:33-34: a buffer filled with a marker. -/
def markedBuffer (marker : U8) : VecI32 :=
  { data := List.replicate (1024 * 8) (marker.setWidth 32), cap := 1024 * 8 }

/-- diff.rs:64-78, the second half: after seeking to the start, the cursor is as at the beginning. Vectors are compared
by their elements. -/
def diffAgain [FuzzCfg] [Build] (fuel : Nat) (marker : U8) (data : List U8) (result0 : Option VecI32) : Res Unit := do
  match ← firstBlock fuel data (markedBuffer marker) with
  | none => panicRes .explicit
  | some result1 =>
    if result0.map VecI32.data = result1.map VecI32.data then pure () else panicRes .explicit

/-- diff.rs:19-79 `go`. -/
def diff [FuzzCfg] [Build] (fuel : Nat) : (data : List U8) → Res Unit
  | marker0 :: marker1 :: data =>
    if marker0 = marker1 then pure ()
    else do
      match ← firstBlock fuel data (markedBuffer marker0) with
      | none => pure ()
      | some (some res) => if res.cap ≠ 1024 * 8 then pure () else diffAgain fuel marker1 data (some res)
      | some none => diffAgain fuel marker1 data none
  | _ => pure ()

end Fuzzing

end Claxon
