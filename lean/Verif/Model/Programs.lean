import Verif.Model.Examples

/-! Models the `main` functions of `/repo/examples/decode_simple.rs`, `decode.rs`, `decode_ogg.rs` and `decode_mp4.rs`.

Simplifications: the name of the WAV file that belongs to a file, `fname.with_extension("wav")`, is given by a function
`wavName`. The contents of the files that are read do not change while the program runs: no WAV file has the name of
one of them. That printing can fail is not modelled. -/

namespace Claxon
namespace Examples

/-- What a program has done: the text that it has printed, and the WAV files, by name.
(e.g. decode_simple.rs:29, 42-52) -/
structure World (α : Type) where
  printed : String
  wavs : String → Option (Wav α)

/-- `print!` and, with a line break at the end, `println!`. (decode.rs:74, 76, 80, decode_simple.rs:42-52) -/
def print {α : Type} (text : String) : Dec (World α) Unit := fun w => (.ok (), { w with printed := w.printed ++ text })

/-- `decode_file` is called for a file to which the WAV file called `name` belongs.
(decode.rs:75, decode_simple.rs:43, decode_ogg.rs:129, decode_mp4.rs:171) -/
def onWav {α : Type} (name : String) (m : Dec (Option (Wav α)) Unit) : Dec (World α) Unit :=
  Dec.zoom (fun w => w.wavs name) (fun f w => { w with wavs := fun n => if n = name then f else w.wavs n }) m

/-- decode_simple.rs:44-53, what is printed after the name of the file. The text of an I/O error is a parameter, as in
`Error.display`. -/
def simpleReport (ioText : IoError → String) : Except Error Unit → String
  | .ok () => ": done\n"
  | .error (.unsupported msg) => ": error, unsupported: " ++ msg ++ "\n"
  | .error (.formatError msg) => ": error, invalid input: " ++ msg ++ "\n"
  | .error (.ioError e) => ": IO error: " ++ ioText e ++ "\n"

/-- decode_simple.rs:40-56 `main`, for the given arguments. -/
def simpleMain [FuzzCfg] [Build] [Target] (fuel : Nat) (files : FlacReader.Files) (wavName : String → String)
    (ioText : IoError → String) : (args : List String) → Dec (World I32) Unit
  | [] => pure ()
  | fname :: args => do
    print fname
    let r ← Dec.catchErr (onWav (wavName fname) (decodeSimple fuel files fname))
    print (simpleReport ioText r)
    simpleMain fuel files wavName ioText args

/-- decode.rs:71-77, the loop of `main`. -/
def decodeArgs [FuzzCfg] [Build] [Target] (fuel : Nat) (files : FlacReader.Files) (wavName : String → String) :
    (args : List String) → Dec (World (BitVec 16)) Unit
  | [] => pure ()
  | fname :: args => do
    print fname
    onWav (wavName fname) (decode fuel files fname)
    print ": done\n"
    decodeArgs fuel files wavName args

/-- decode.rs:68-82 `main`, for the given arguments. -/
def decodeMain [FuzzCfg] [Build] [Target] (fuel : Nat) (files : FlacReader.Files) (wavName : String → String)
    (args : List String) : Dec (World (BitVec 16)) Unit := do
  decodeArgs fuel files wavName args
  if args = [] then print "no files to decode\n" else pure ()

/-- decode_ogg.rs:127-131 and decode_mp4.rs:169-173 `main`, for the given arguments and the `decode_file` of the
program: `decodeOgg` or `decodeMp4` for the packets or the track of the file. -/
def containerMain (decodeFile : String → Dec (Option (Wav I32)) Unit) (wavName : String → String) :
    (args : List String) → Dec (World I32) Unit
  | [] => pure ()
  | fname :: args => do
    onWav (wavName fname) (decodeFile fname)
    containerMain decodeFile wavName args

end Examples
end Claxon
