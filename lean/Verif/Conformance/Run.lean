import Verif.Conformance.Units

/-! Run the model on files, including those that are too large for the kernel:

    lake env lean --run Verif/Conformance/Run.lean /repo/testsamples/*.flac | python3 ../tools/check_md5.py

prints one JSON object per file: the streaminfo, the tags, the decoded blocks, and how decoding ended. The blocks are
decoded twice, into buffers with different contents, as in tests/testsamples.rs `regression_test_fuzz_samples`. -/

namespace Claxon

namespace Conformance

def showFail : Fail → String
  | .err (.ioError .unexpectedEof) => "unexpected end of file"
  | .err (.ioError (.inner code)) => s!"io error {code}"
  | .err (.formatError reason) => s!"format error: {reason}"
  | .err (.unsupported feature) => s!"unsupported: {feature}"
  | .panic _ => "PANIC"
  | .ub => "UNDEFINED BEHAVIOUR"
  | .diverged => "ENDLESS LOOP"

/-- A file in memory, in chunks of the size of the buffer. -/
def fileSource (data : Array U8) : Src where
  outcome k :=
    let chunk := (data.extract (k * 2048) ((k + 1) * 2048)).toList
    .ok chunk.length chunk
  calls := 0

/-- Decode all blocks into buffers of 16384 times `fill`. -/
def decodeFile (fill : I32) : (fuel : Nat) → BufferedReader → List Block × String
  | 0, _ => ([], "ENDLESS LOOP")
  | fuel + 1, r =>
    match readNextOrEof ⟨List.replicate 16384 fill, 16384⟩ r with
    | (.ok (some b), r') =>
      let (bs, e) := decodeFile fill fuel r'
      (b :: bs, e)
    | (.ok none, _) => ([], "end")
    | (.error f, _) => ([], showFail f)

def showFile (name : String) (data : Array U8) : String :=
  match FlacReader.new (data.size + 1) (fileSource data) with
  | .error f => s!"\{\"file\": \"{name}\", \"open\": \"{showFail f}\"}"
  | .ok r =>
    match r.blocks with
    | .error _ => "PANIC"
    | .ok br =>
      let (bs, e) := decodeFile 13 (data.size + 1) br
      let same := decide (decodeFile 17 (data.size + 1) br = (bs, e))
      let info := r.streaminfo
      let blocks := bs.map fun b => s!"[{b.channels}, {b.duration}, {b.buffer.data.map BitVec.toInt}]"
      s!"\{\"file\": \"{name}\", \"open\": \"ok\", \"bits\": {info.bitsPerSample}, \"channels\": {info.channels}, " ++
      s!"\"samples\": {info.samples.getD 0}, \"rate\": {info.sampleRate}, " ++
      s!"\"md5\": {info.md5sum.map BitVec.toNat}, \"tags\": {r.tags.length}, " ++
      s!"\"same\": {same}, \"end\": \"{e}\", \"blocks\": {blocks}}"

end Conformance

end Claxon

def main (args : List String) : IO Unit := do
  for name in args do
    let file ← IO.FS.readBinFile name
    IO.println (Claxon.Conformance.showFile name (file.data.map fun b => BitVec.ofNat 8 b.toNat))
