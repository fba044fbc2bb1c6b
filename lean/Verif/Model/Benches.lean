import Verif.Model.Bench

/-! Models `/repo/benches/testsamples.rs`.

Simplifications: reading the file (38-40) is not modelled, its bytes are given. How often the `Bencher` calls the closure
is a parameter. -/

namespace Claxon
namespace Examples

/-- testsamples.rs:27-29 `Cursor::new(cursor.into_inner())`, for a cursor that was `memory data`: the same bytes from
the beginning. -/
def rewound (src : Src) : Src := { src with calls := 0 }

/-- testsamples.rs:19-33 `refresh_reader`. If the `unwrap` panicked, the uninitialised reader would be dropped, which is
undefined behaviour. Simplification: that it is also undefined behaviour to have such a value at all, and to move it,
is not modelled. -/
def refreshReader [FuzzCfg] [Build] (fuel : Nat) (reader : FlacReader BufferedReader) :
    Res (FlacReader BufferedReader) :=
  match FlacReader.new fuel (rewound reader.intoInner) with
  | .ok reader' => .ok reader'
  | .error .diverged => .error .diverged
  | .error _ => .error .ub

/-- testsamples.rs:43-50: the variables of `bench_decode` that the closure changes. -/
structure BenchState where
  reader : FlacReader BufferedReader
  bytes : Nat
  buffer : VecI32
  iterations : Nat

/-- testsamples.rs:56-61: a block was decoded, and the reader is now at `inp`. -/
def countBlock [Build] (bps : Nat) (st : BenchState) (b : Block) (inp : BufferedReader) : Res BenchState := do
  let len ← b.len
  let size ← mulU 32 len (bps / 8)
  let bytes ← addU 32 st.bytes size
  let iterations ← addU 64 st.iterations 1
  pure { reader := { st.reader with input := .full inp }, bytes, buffer := b.intoBuffer, iterations }

/-- testsamples.rs:51-69: one call of the closure. -/
def benchStep [FuzzCfg] [Build] (fuel bps : Nat) (st : BenchState) : Res BenchState := do
  let inp ← st.reader.blocks
  match readNextOrEof st.buffer inp with
  | (.ok (some b), inp') => countBlock bps st b inp'
  | (.ok none, inp') => do
    let reader ← refreshReader fuel { st.reader with input := .full inp' }
    pure { st with reader, buffer := .empty }
  | (.error (.err _), _) => panicRes .explicit
  | (.error f, _) => .error f

/-- testsamples.rs:51 `bencher.iter`: `n` calls. -/
def benchSteps [FuzzCfg] [Build] (fuel bps : Nat) : (n : Nat) → BenchState → Res BenchState
  | 0, st => .ok st
  | n + 1, st => do
    let st' ← benchStep fuel bps st
    benchSteps fuel bps n st'

/-- testsamples.rs:73, a division of `u64`. -/
def bytesPerIteration (st : BenchState) : Res Nat :=
  if st.iterations = 0 then panicRes .divZero else .ok (st.bytes / st.iterations)

/-- testsamples.rs:35-74 `bench_decode`, for a file with the given bytes, with `n` calls of the closure. The result is
`bencher.bytes`. -/
def benchTestsample [FuzzCfg] [Build] (fuel n : Nat) (data : List U8) : Res Nat := do
  let reader ← expect (FlacReader.new fuel (memory data))
  let bps := reader.streaminfo.bitsPerSample
  assert (bps < 8 * 16)
  let st ← benchSteps fuel bps n { reader, bytes := 0, buffer := .empty, iterations := 0 }
  bytesPerIteration st

end Examples
end Claxon
