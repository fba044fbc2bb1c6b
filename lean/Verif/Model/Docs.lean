import Verif.Model.Examples

/-! Models the three examples in the documentation of the crate, `/repo/src/lib.rs:15-64`; the first one is in
`/repo/readme.md:19-29`, too.

Simplifications: the names of the files are parameters, and `f64` is any type with the operations that are used, see
`Floats`. What is printed is the result. As in `Examples.lean`, `expect` and `unwrap` on an error are
`panic .explicit`, and the file written with `hound` is a `Wav`. -/

namespace Claxon

namespace Docs

open Examples

/-- What the first example uses of `f64`. `ofInt` is the cast of an `i32`. Nothing is assumed about these operations.
(lib.rs:18-25) -/
structure Floats (F : Type) where
  zero : F
  ofInt : Int → F
  add : F → F → F
  mul : F → F → F
  div : F → F → F
  sqrt : F → F

/-- `a + b` in `i32`, with overflow check. (lib.rs:23) -/
def addI32 [Build] (a b : I32) : Res I32 :=
  if -2 ^ 31 ≤ a.toInt + b.toInt ∧ a.toInt + b.toInt < 2 ^ 31 then .ok (a + b)
  else orPanic .overflow (a + b)

/-- lib.rs:21-23, the body of the loop. The state is `(sqr_sum, count)`. There is nothing that determines the type of
`count`, so it is an `i32`. -/
def rmsBody [Build] {F : Type} (fl : Floats F) : Except Error I32 → Dec (F × I32) Unit
  | .ok sample => do
    let s := fl.ofInt sample.toInt
    let st ← Dec.get
    Dec.set (fl.add st.1 (fl.mul s s), st.2)
    let count ← addI32 st.2 1#32
    Dec.set (fl.add st.1 (fl.mul s s), count)
  | .error _ => Dec.lift (panicRes .explicit)

/-- lib.rs:17-25: the root mean square of a file. -/
def rms [FuzzCfg] [Build] [Target] {F : Type} (fl : Floats F) (fuel : Nat) (files : FlacReader.Files) (fname : String) :
    Res F := do
  let reader ← expect (FlacReader.open' fuel files fname)
  let samples ← reader.samples
  match forLoop FlacSamples.next (rmsBody fl) fuel samples (fl.zero, 0#32) with
  | (.ok (), st) => .ok (fl.sqrt (fl.div st.1 (fl.ofInt st.2.toInt)))
  | (.error f, _) => .error f

/-- lib.rs:50-51, the body of the loop. -/
def decodeFileBody : Except Error I32 → Dec (Option (Wav I32)) Unit
  | .ok sample => writeSample sample
  | .error _ => Dec.lift (panicRes .explicit)

/-- lib.rs:35-53 `decode_file`. The state is the WAV file, if it has been created. -/
def decodeFile [FuzzCfg] [Build] [Target] (fuel : Nat) (files : FlacReader.Files) (fname : String) :
    Dec (Option (Wav I32)) Unit := do
  let reader ← expect (FlacReader.open' fuel files fname)
  Dec.set (some (Wav.create reader.streaminfo))
  let samples ← reader.samples
  forLoop FlacSamples.next decodeFileBody fuel samples

/-- lib.rs:62, the body of the loop. The state is what has been printed. -/
def printLine (artist : Str) : Dec (List Str) Unit := fun lines => (.ok (), lines ++ [artist])

/-- lib.rs:60-63: the artists. The state is what has been printed, as a list of lines. -/
def artists [FuzzCfg] [Build] (fuel : Nat) (files : FlacReader.Files) (fname : String) : Dec (List Str) Unit := do
  let reader ← expect (FlacReader.open' fuel files fname)
  forLoop getTagNext printLine (reader.tags.length + 1) (reader.getTag (utf8 "ARTIST"))

end Docs

end Claxon
