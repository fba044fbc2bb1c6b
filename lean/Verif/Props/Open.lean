import Verif.Props.Input
import Verif.Props.Lib

/-! # C65: opening a file by its name -/

namespace Claxon.Props

open Claxon Spec

variable {files : FlacReader.Files} {name : String} {fuel : Nat}

/-- **C65.** If the operating system cannot open the file, its error is returned, as an I/O error. -/
theorem C65_missing {e : IoError} (h : files name = .error e) (o : FlacReaderOptions) :
    FlacReader.openExt fuel files name o = .error (.err (.ioError e)) ∧
      FlacReader.open' fuel files name = .error (.err (.ioError e)) := by
  unfold FlacReader.openExt FlacReader.open'
  rw [h]
  exact ⟨rfl, rfl⟩

/-- **C65.** Otherwise the result is that of reading the bytes of the file from memory: the error, the metadata, the
samples, and the blocks. -/
theorem C65_contents {file : Src} {bytes : List U8} (h : files name = .ok file) (hd : file.Delivers bytes none)
    (hlen : bytes.length < 2 ^ 63) (o : FlacReaderOptions) :
    (do let reader ← FlacReader.openExt fuel files name o
        pure (reader.streaminfo, reader.vorbisComment)) = openSession fuel o (Cursor.mk bytes 0) ∧
    (∀ n, (do let reader ← FlacReader.openExt fuel files name o
              let samples ← reader.samples
              pure (calls FlacSamples.next n samples)) = sampleSession fuel o n (Cursor.mk bytes 0)) ∧
    ∀ ops : List Op, (∀ op ∈ ops, op.WellTyped) →
      (do let reader ← FlacReader.openExt fuel files name o
          let frames ← reader.blocks
          pure (runOps ops frames)) = blockSession fuel o ops (Cursor.mk bytes 0) := by
  obtain ⟨-, h1, h2, h3, -⟩ := C52_cursor hlen hd
  have e : FlacReader.openExt fuel files name o = FlacReader.newExtGen fuel (BufferedReader.new file) o := by
    unfold FlacReader.openExt
    rw [h]
    rfl
  rw [e]
  exact ⟨(h1 fuel o).symm, fun n => (h2 fuel o n).symm, fun ops hops => (h3 fuel o ops hops).symm⟩

/-- **C65.** `open` is `open_ext` with the default options. -/
theorem C65_default : FlacReader.open' fuel files name = FlacReader.openExt fuel files name .default := rfl

/-- A file system with one file, which holds the marker. -/
example : ∃ (files : FlacReader.Files) (file : Src), files "a.flac" = .ok file ∧
    file.Delivers streamMarker none ∧ files "b.flac" = .error (.inner 2) :=
  ⟨fun name => if name = "a.flac" then .ok (bytewise streamMarker) else .error (.inner 2), _, rfl,
    bytewise_delivers _, rfl⟩

end Claxon.Props
