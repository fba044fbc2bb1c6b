import Verif.Model.Examples

/-! Models `/repo/examples/bench_decode.rs` and `bench_metadata.rs`.

Simplifications: time is not modelled, and neither are the numbers that are computed from it. What is kept of a run is
what they are divided by, and where the programs panic. Reading the file into memory (bench_decode.rs:18-24), and
finding the files in a directory (bench_metadata.rs:24-33) are not modelled: the bytes, or the names of the files, are
given. -/

namespace Claxon
namespace Examples

/-- `unwrap` on an `Option`. (bench_decode.rs:52) -/
def unwrapSome {α : Type} : Option α → Res α
  | some a => .ok a
  | none => panicRes .explicit

/-- `assert!(c)`. (bench_decode.rs:53) -/
def assert (c : Bool) : Res Unit := if c then .ok () else panicRes .explicit

/-! ### bench_decode.rs -/

/-- What a run of `decode_file` yields: the two numbers by which, and the number of bytes that, it divides. `lens` are
the numbers of samples of the blocks: the length of `sample_times_ns`, and what its elements were divided by.
(bench_decode.rs:85-88) -/
structure BenchRun where
  numSamples : I64
  dataBytes : Nat
  lens : List Nat
  deriving DecidableEq, Repr

/-- bench_decode.rs:64-83: the loop. -/
def benchLoop [FuzzCfg] [Build] {σ : Type} [ReadBytes σ] : (fuel : Nat) → (buffer : VecI32) → σ → Res (List Nat)
  | 0, _, _ => .error .diverged
  | fuel + 1, buffer, s =>
    match readNextOrEof buffer s with
    | (.ok (some block), s') => do
      let len ← block.len
      let lens ← benchLoop fuel block.intoBuffer s'
      pure (len :: lens)
    | (.ok none, _) => pure []
    | (.error (.err _), _) => panicRes .explicit
    | (.error f, _) => .error f

/-- bench_decode.rs:36-89 `decode_file`. -/
def benchFile [FuzzCfg] [Build] [Target] (fuel : Nat) (data : List U8) : Res BenchRun := do
  let bytes ← dataBytes fuel data
  let reader ← expect (FlacReader.new fuel (memory data))
  let info := reader.streaminfo
  let samples ← unwrapSome info.samples
  let numSamples ← mulI64 (BitVec.ofNat 64 samples) (BitVec.ofNat 64 info.channels)
  assert (info.bitsPerSample < 8 * 16)
  let maxBlockLen ← mulU Target.usizeBits info.maxBlockSize info.channels
  let frames ← reader.blocks
  let lens ← benchLoop fuel { data := [], cap := maxBlockLen } frames
  pure { numSamples, dataBytes := bytes, lens }

/-- bench_decode.rs:91-101 `print_stats`: where it can panic. A quotient is not a number, and cannot be compared, if
the divisor and the time are zero. Simplification: the time may always be zero. -/
def printStats [Build] [Target] (lens : List Nat) : Res Unit := do
  assert (0 ∉ lens)
  let _ ← index lens ((← mulU Target.usizeBits 10 lens.length) / 100)
  let _ ← index lens ((← mulU Target.usizeBits 50 lens.length) / 100)
  let _ ← index lens ((← mulU Target.usizeBits 90 lens.length) / 100)

/-- bench_decode.rs:110-114, the loop of `main`: the given number of runs. -/
def benchRuns [FuzzCfg] [Build] [Target] (fuel : Nat) (data : List U8) : (runs : Nat) → Res (List BenchRun)
  | 0 => pure []
  | runs + 1 => do
    let run ← benchFile fuel data
    printStats run.lens
    let more ← benchRuns fuel data runs
    pure (run :: more)

/-- bench_decode.rs:103-115 `main`, for a file with the given bytes. -/
def benchMain [FuzzCfg] [Build] [Target] (fuel : Nat) (data : List U8) : Res (List BenchRun) := benchRuns fuel data 5

/-! ### bench_metadata.rs -/

/-- bench_metadata.rs:43-60: the names of the tags that must be there. -/
def benchTags : List String :=
  ["date", "originaldate", "tracknumber", "tracktotal", "discnumber", "disctotal", "title", "album", "artist",
    "albumartist", "artistsort", "albumartistsort", "musicbrainz_trackid", "musicbrainz_albumid",
    "musicbrainz_artistid", "musicbrainz_albumartistid"]

/-- `reader.get_tag(name).next().expect(name)`, for each of the names. (bench_metadata.rs:43-60) -/
def expectTags {σ : Type} (reader : FlacReader σ) : List String → Res Unit
  | [] => pure ()
  | name :: names =>
    match (getTagNext (reader.getTag (utf8 name))).1 with
    | .ok (some _) => expectTags reader names
    | .ok none => panicRes .explicit
    | .error f => .error f

/-- bench_metadata.rs:38-63: a file is read several times. Simplification: the position of the file is not modelled
here (see `memoryPosition`). -/
def benchOpen [FuzzCfg] [Build] (fuel : Nat) (files : FlacReader.Files) (fname : String) : (runs : Nat) → Res Unit
  | 0 => pure ()
  | runs + 1 => do
    let reader ← expect (FlacReader.open' fuel files fname)
    expectTags reader benchTags
    benchOpen fuel files fname runs

/-- bench_metadata.rs:31-69: the loop over the files. -/
def benchFiles [FuzzCfg] [Build] (fuel : Nat) (files : FlacReader.Files) : List String → Res Unit
  | [] => pure ()
  | fname :: names => do
    benchOpen fuel files fname 10
    benchFiles fuel files names

/-- bench_metadata.rs:19-82 `main`, for the files with the given names. Simplification: the times, which are sorted
and then indexed, are represented by the names. -/
def benchMetadata [FuzzCfg] [Build] [Target] (fuel : Nat) (files : FlacReader.Files) (names : List String) :
    Res Unit := do
  benchFiles fuel files names
  let _ ← index names ((← mulU Target.usizeBits 10 names.length) / 100)
  let _ ← index names ((← mulU Target.usizeBits 50 names.length) / 100)
  let _ ← index names ((← mulU Target.usizeBits 90 names.length) / 100)

end Examples
end Claxon
