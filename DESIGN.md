# Formal model of ruuda/claxon in Lean 4

## 1. What is modelled

Source: `/repo/src/*.rs` (claxon 0.4.3). Every definition in `lean/Verif/Model/` cites the file and
lines it models.

| Rust | Lean model |
|---|---|
| `error.rs` | `Model/Base.lean` (errors, panics, result monad), `Model/Error.lean` (`PartialEq`, `Display`) |
| `input.rs` | `Model/Input.lean` (`ReadBytes`, `BufferedReader`, `Cursor`), `Model/Memory.lean` (`read_into` with its buffer), `Model/Bitstream.lean` |
| `crc.rs` | `Model/Crc.lean` |
| `frame.rs` | `Model/Frame.lean`, `Model/Block.lean` |
| `subframe.rs` | `Model/Subframe.lean` |
| `metadata.rs` | `Model/Metadata.lean` |
| `lib.rs` | `Model/Lib.lean` |
| `examples/*.rs` | `Model/Examples.lean` (the functions that decode, `tags`), `Model/Programs.lean` (`main`), `Model/Bench.lean` (the benchmarks) |
| `benches/testsamples.rs` | `Model/Benches.lean` |
| the examples in the documentation (`lib.rs:15-64`, `readme.md:19-29`) | `Model/Docs.lean` |

### Conventions

* A Rust function taking `&mut self`/`&mut R` becomes a state-passing function
  `Dec σ α := σ → Except Fail α × σ`. The state is returned on failure as well, because in Rust the
  mutations made before an early `return Err` persist.
* `Fail` is `err e` (a Rust `Err`), `panic p` (a Rust panic) or `ub` (undefined behaviour:
  `get_unchecked` out of bounds, or looking at uninitialised memory).
* The model is parametrised by the kind of build (`class Build`). In a build with overflow checks and debug
  assertions (`checkedBuild`), arithmetic overflow, too large shifts and failing `debug_assert!`s are
  explicit `panic` values. In a build without (`uncheckedBuild`) sums, differences and products wrap around
  at the width of their type, the amount of a shift is masked, and debug assertions are skipped.
  Out-of-bounds indexing and division by zero panic in both. Theorems that do not mention a build are about
  the checked one; C57 relates the two.
* Fixed-width integers are `BitVec n` (`u8 = BitVec 8`, `i32 = BitVec 32`, casts between signed and
  unsigned of equal width are the identity, as in Rust; widening is `setWidth` or `signExtend`).
  `u32` values that are only used as counters (bit counts, positions) are `Nat` with explicit
  overflow checks where the Rust code could overflow. `usize` is `Nat`.
  The accessors of `Block` and the iterators, where a user's arguments are multiplied, are parametrised by the
  width of `usize` (`class Target`); theorems that do not mention it are about 64 bits, and C68 relates it to
  other widths of at least 32 bits. All other `usize` sums are unbounded: they are positions in, or ends of,
  slices and buffers, and the model panics when one is beyond the length of the buffer, which is less than
  `2 ^ 31` on a 32-bit platform, so the difference could only be seen where the model panics.
* Rust generics over `R: ReadBytes` become functions generic over `[ReadBytes σ]`. The wrapped
  `io::Read` is a function from the call number to the outcome of that `read` call: bytes written,
  the number reported, or an error.
* `Vec<i32>`/slices are lists (with a capacity for the recycled decode buffer). Sub-slices passed as
  `&mut buffer[a..b]` are cut out, transformed, and pasted back, with bounds checked.
* Termination: all loops are total functions. `read_unary` terminates in the model because the
  checked `u32` counter overflows (panics) after 2^32 zeros. In an unchecked build the counter
  wraps around and the loop goes on, with a fuel of 2^64 bytes.

* `cfg(fuzzing)` (31 instead of 2048 bytes in the buffer, checksums not compared) is a parameter, too, the class `FuzzCfg`.
  Unless a theorem mentions it, it is about builds without. C02, C26, C28, C59 and C73 are about builds with and without.

### Not modelled

the file system (a parameter of `open`/`open_ext`), performance, drop order,
allocation failure, `io::Read` implementations that inspect the buffer they are given (as each call is made once in a run, theorems about
all sources and one run cover them), 16-bit
`usize`, `size_hint` default methods, `f64` arithmetic (any, in C93), the tests and tools. All examples and benches are modelled; the times measured by
`bench_decode` and `bench_metadata`, the search for files in `bench_metadata`, and the crates they use for WAV, Ogg and MP4
files are not: a WAV file is the parameters and the list of
samples given to `hound`, an Ogg file a list of packets, an MP4 file a table of chunks. The Rust compiler, the
standard library and the hardware are trusted to implement the semantics described above.

### How the model was compared with the code

By reading, function by function, several times; and by running it. `Verif/Conformance/Units.lean` contains all 33 unit
tests of `/repo/src`, and `Verif/Conformance/Samples.lean` the integration tests of `/repo/tests/testsamples.rs` on the
files in `/repo/testsamples` of at most 400 bytes, translated literally and evaluated by Lean's kernel. Larger files were
decoded with Lean's interpreter (`Verif/Conformance/Run.lean`): for every file the model decodes completely, the MD5 sum of
the decoded samples is the one in the file (`non_subset.flac` has none; its checksums are right), and on the files that once
made the decoder crash it returns errors. These are tests of the definitions, not proofs; no theorem depends on them.

## 2. Specification

`lean/Verif/Spec/` contains specifications that do not mention the model: bit strings, a plain byte
reader, CRC as polynomial remainder, the FLAC format as an *encoder* (description of a frame over
unbounded integers ↦ bits) together with the samples the description denotes, metadata encoders, and
the interleaving of blocks. `lean/Verif/Props/` contains the property theorems, one group per claim;
`lean/Verif/Proof/` the lemmas.

## 3. Plan per property

| id | how |
|---|---|
| C01 | simulation between `BufferedReader` over any schedule and a flat byte list; every generic decoder function preserves simulations |
| C02 | invariant `pos ≤ num_valid ≤ capacity` over all operations; negative witness for contract-violating readers |
| C03 | equational theorems on flat reader, transferred by C01/C52 |
| C04 | false of the code: witness; partial: holds as long as no I/O error occurs (from C01) |
| C05,C06 | refinement of `Bitstream` to a list of bits, lifted to operation sequences |
| C07 | table lemma checked entry by entry (`decide +kernel` over the finite table), induction on the message |
| C08 | linearity of the CRC + invertibility of the shift step; for errors of up to three bits the parity of the CRC and the period of its generator |
| C09 | simulation of the CRC reader with the flat reader recording the consumed bytes |
| C10–C14 | header model vs. encoder; case analysis |
| C15–C21 | integer specifications, `BitVec.toInt` arithmetic, induction on signals |
| C22–C24, C54 | compositional "reads this bit string, returns this value" lemmas |
| C25 | converse direction by inversion |
| C26, C27, C35, C50 | Hoare-style safety triples; C27 is false (proof by induction over a run of 2^29 zero bytes) |
| C28 | equality of the decoder on any two buffers |
| C29, C30 | block invariant; for the bounds on buffers also an invariant of the iterator |
| C31, C32 | simulation with an escape on end-of-file; C31's one-byte case is false of the code |
| C33, C34 | induction on the sequence of `next()` calls |
| C36–C50 | metadata encoders, inversion, simulation with an allocation-logging reader for C42 |
| C47 | false of the code: witness; partial for the case where tags are wanted |
| C51 | case analysis; two texts that begin with different prefixes differ in their first letter |
| C52 | simulation between `Cursor` and the flat reader |
| C53, C55 | false of the code: witnesses; partial theorems |
| C57 | simulation of the unchecked build by the checked one, with an escape if the checked one panics |
| C58 | the frame decoder after its first two bytes is the interpretation of a well-founded tree of reads (`Prog`), the same for every reader; induction on the tree; for `BufferedReader` the exact relation between the bytes handed out and the bytes delivered; for metadata an invariant of the reader |
| C59 | lower bound on the length of the encoding of a frame, with C25 (what is decoded is an encoding); induction on the blocks |
| C60 | simulation between a reader of the part and a reader of the whole stream, with an escape at the cut |
| C61 | the encoder of `Spec/Encoder.lean` produces well-formed frames; C24 |
| C62 | an invariant of `BufferedReader` with the bytes still needed by the operation in progress; kept by every operation, so by everything built on them (C58); for frames with the trace of bytes read |
| C63 | the stored tags under `next`; the state of the metadata block reader |
| C64 | induction over the uses; the state of the sample iterator after any number of calls; C23, C33 |
| C65 | C52, with the file system as a function from names to sources |
| C66 | the trees of C58 with the invariant that no leaf is an I/O error (Proof/NoIo.lean); a logic of traces of calls for the metadata code (Proof/Blame.lean); induction over the loops of the buffered reader |
| C67 | `read_into` on a buffer of cells that may be uninitialised, equal to the function of the model that returns the bytes; induction over the loop |
| C68 | the positions in a decoded block are below `2 ^ 32` (block invariant); an invariant of the iterators; C57 for unchecked builds |
| C69 | the loops of the example programs over the iterators of C33 and C29 and over `ReadsBlocks`; C24, C59 |
| C70 | weakest preconditions for builds without checks: all arithmetic is total there, and the lengths and indices that panics depend on are bounded without it |
| C71 | cursors over packets simulate flat readers (as for C03), so that the byte-wise reads of C24 and C39 apply; induction over packets and chunks, with the table split at the current chunk |
| C72 | counting the calls of a source that fills the buffer, with C62 (no call in vain) and C48 (position); induction on the tags and on the files |
| C73 | from C26, C28, C59 and the totality of opening (C35), all of them for builds with and without `cfg(fuzzing)`: the two runs of `diff` differ in the buffer only. Frames with any checksums are decoded under fuzzing like those with the right ones |
| C74 | C23 for sequences of frames; induction over frames numbered as the format says |
| C75 | the relation between the bytes and the meaning of blocks of C38; induction over the blocks for the iterator of C43 |
| C76 | induction over the frames with C23 and C30 |
| C77 | from C24, counting the interleaved samples; counterexamples written by the encoder of C61 |
| C78 | `Spec/Full.lean` describes the frames of the whole format, with the features that claxon lacks, and `Spec/Reserved.lean` the reserved values; the program logics have a notion of bits, or bytes, that a reader fails on. Induction over partitions, subframes and metadata blocks |
| C79 | after opening, both readers have the same bytes before them (C48); they simulate the same flat reader |
| C80 | C32 and induction over the blocks |
| C81 | a program logic for errors (`Refuses`, `BRefuses`: if a reader fails, the bits or bytes that it has read are refused by Spec/Refused.lean) through all functions of frame.rs and subframe.rs, and `FailsOn`/`BFails` for the converse |
| C82 | the same program logic through all functions of metadata.rs that read blocks, and through the loop of `new_ext`, with the reasons of Spec/RefusedMetadata.lean, and `BFails` for the converse |
| C83 | the safety triples of C26, which allow one kind of failure (`panic overflow`, after a long run of zeros) and no other; for any reader by the traces of C58; the stereo iterator from C29 and C68 |
| C84 | a relation between byte strings and outcomes (Spec/Session.lean) that mentions no function of the model; total by cases and induction over the length, functional by running the decoder (C25, C81, C82), and observed by induction over the blocks |
| C85 | a description of the inputs (Spec/Uncountable.lean), a program logic for the overflow (`Overflows`, like `Refuses` of C81) through all functions of subframe.rs and frame.rs, and `FailsOn` for the converse |
| C86 | the simulation of the flat reader by the buffered one in every build; the loop that counts modulo 2^32 by induction over the bytes (Proof/Wrapped.lean); C57 and C85 for `C86_same`; for `C86_loose` and `C86_frame` the unchecked decoder is followed function by function, in both directions, with a specification of frames without the limit on zeros (Spec/Loose.lean, Proof/Loose.lean). For complete inputs (Spec/LooseSession.lean), induction over the blocks with the iterator's lemmas for the unchecked build (Proof/LooseSamples.lean). Which error is returned is prescribed only for inputs on which no counter overflows (`C86_same` with C81); elsewhere it is proved that there is an error. `C86_more` decodes a frame with 2^32 wasted bits per sample |
| C87 | the lemmas that refused parts make the reader fail (Proof/RefusedConverse.lean, behind C81) also tell what has been read; with C32's independence from what follows (Proof/Trace.lean) and C81 the position after any error (Proof/Recovery.lean). Streams of parts by induction over the parts, the end by induction over the calls. |
| C88 | `main` in Model/Programs.lean: the state is the printed text and the WAV files by name. Induction over the arguments; for one file C69 and C71. That the result for a file does not depend on the WAV file that was there before is read off the model. |
| C89 | Model/Bench.lean, without times; the outcome as a function of the specification in C84, by induction over the blocks. The tags with C41. |
| C90 | Model/Benches.lean: the state is what the closure captures, the number of calls a parameter. Reading keeps the source (the invariant behind C58), so opening it again gives the reader there was at first; one cycle by induction over the blocks, then strong induction over the number of calls. |
| C91 | Spec/Stale.lean says from the results of the calls of the source alone what the buffer holds (`lastChunk`). Invariant of all reader methods: the valid part of the buffer is that, and the position is 0 after every I/O error; carried to all operations by C66 (an I/O error is that of the last call) and C62. |
| C92 | from the classification of all refusals in C82, and the allocation-logging reader of C42; counterexample: a picture of 10 MiB and one byte, opened by C82 |
| C93 | false of the first example: its loop counts samples in an `i32`, so a stream of 2^31 samples is a witness (for any meaning of the operations on `f64`, which are a parameter); partial: shorter streams, from C24. The second example by comparison with `decode_simple` (C69), the third from C41 |
| C94 | false of the code: witness (the empty input); partial: exactly when nothing is yielded, from the classification of all outcomes in C81 |
| C95 | Spec/AnyTags.lean says in terms of UTF-8 texts what each comment gives; character boundaries of a text are where it can be cut into two texts, by induction on its characters; then induction on the list of comments |

## 4. Trusted base

* Lean 4.33.0's kernel. No axioms of our own, no `sorry`/`admit`, no `native_decide`, no `bv_decide`, no
  `implemented_by`, no `unsafe`.
* Axioms (from `#print axioms` on every theorem named in `MANIFEST.json`): each depends on a subset of
  `propext`, `Classical.choice`, `Quot.sound`. Only `propext`: `C02_contract_needed`,
  `C37_spelled`, `C51_cause`, `C51_description`, `C51_io`, `C51_symm`, `C51_text`, `C72_skip_false`, `C82_unsupported`, `C95_tags_unique`. Only `propext` and `Quot.sound`: `C57_operation`,
  `C57_operations`, `C57_cursor`, `C58_metadata`, `C58_open`, `C34_error`, `C42_transparent`, `C42_other`,
  `C42_unsupported`, `C43_error`, `C43_none`, `C43_nonempty`, `C46_ok`, `C46_panic`, `C51_message`, `C63_metadata`, `C65_default`,
  `C65_missing`, `C66_metadata`, `C66_open`, `C66_openSource`, `C72_noTags`, `C72_skip_partial`, `C75_never`, `C85_prefix`,
  `C88_alone`, `C88_containers`, `C88_containersOthers`, `C88_containersStop`, `C88_decodeOthers`, `C88_simpleOthers`,
  `C93_decode`, `C93_noArtists`, `C94_false`.
  None: `C29_notStereo`, `C67_contract_needed`. All others: all three.
* That the model is what the code does: by reading. Each definition of `Model/` cites the lines it models.
  The functions are small and follow the Rust control flow statement by statement, so that the two can be
  compared side by side.
* Fidelity check (a test, not part of the proof): the model was evaluated on the files in
  `/repo/testsamples`. The MD5 of the decoded samples equals the one in the streaminfo for `pop.flac`,
  `short.flac`, `wasted_bits.flac`, `empty_vorbis_comment.flac` and `repeated_vorbis_comment.flac`;
  `non_subset.flac` is decoded with matching checksums; the files from fuzzing give errors, and neither a
  panic nor `ub` nor `diverged`.

### Meaning of some model values

* `Fail.panic _`: the thread panics.
* `Fail.ub`: undefined behaviour (an out-of-bounds `get_unchecked`, or a use of uninitialised memory). The five
  `unsafe` blocks of the code are covered: input.rs:148 by C02, metadata.rs:437, 474 and 545 by C67,
  frame.rs:569 (the iterator over stereo samples) by C29; and the one in examples/decode.rs by C69.
* `Fail.diverged`: a loop that is bounded by *fuel* in the model has used it up. `new_ext` has a fuel
  parameter, the number of metadata blocks it may look at. `C50_fuel` shows that more fuel never changes a
  result, and `C50_newExt` that `bytes / 4 + 1` is always enough. The loops of `BufferedReader` have
  internal fuel; that it never runs out for a reader that honours the contract is part of `C02_in_bounds`.
* `Remaining r bytes fault`: `r` is a buffered reader in any reachable state, and what is still to come is
  `bytes` and then the end of the file, or an I/O error. The wrapped reader may cut the bytes in chunks of
  any size. It is a statement about the future, so it also describes a reader after an I/O error.
* An endless source has no finite list of bytes, so that the theorems with `Remaining` do not apply to it.
  `C58_any_reader`, `C58_source` and `C58_session` do.

## 5. Where the code does not have the property

C01 to C55 were written down after reading the code and its documentation, and before the model and the
proofs. Later changes to `properties.jsonl`: C56 was added, and the sample rate moved there from C13, when the
proof of C13 failed because of rates in kHz (so C13 is narrower than it was at first); C26 and C35 were
extended from streams below 512 MiB to all streams without a long run of zeros. Some statements (the limits
in C06, C26 and C35) were chosen knowing the code. C57 was added when the model was extended to unchecked
builds, C58 to cover endless sources and the time after an I/O error, C59 to C95 and the bounds on buffers in C30 for
questions that were still open; C08 was extended from single bits and bursts to errors of up to three bits; the last sentence of C45 when a wrong
program (L12 in the log) showed that nothing was said about the default options, and the last sentence of C30 because of L14. Where the code disagrees with a property, the negation is proved with a concrete witness (`..._false`), and what does hold is proved as `..._partial`.

| id | what goes wrong | theorem |
|---|---|---|
| C04 | After an I/O error `BufferedReader` has `pos = 0` but keeps the old `num_valid`, so bytes that have been delivered are delivered again if the user goes on reading. C91 says which. | `C04_false` |
| C06, C27 | The `u32` counter of `read_unary` overflows after 2^32 zeros; a frame of 512 MiB makes a checked build panic. Unchecked builds do not panic (C70). | `C06_limit`, `C27_false` |
| C86 | Without overflow checks, the counter of `read_unary` and the sum in `read_subframe_header` wrap around: a frame with 2^32 wasted bits per sample (512 MiB) is decoded as one with none. | `C86_more` |
| C11 | A first byte 0xff is taken for a 7-byte continuation, so that sample numbers can have 42 bits. | `C11_false` |
| C29 | `Block::empty().channel(c)` does not panic, contrary to the documentation of `channel`. | `C29_empty` |
| C31 | A stream that ends after one byte of a frame is taken for a clean end. | `C31_false` |
| C47 | With `metadata_only` and without `read_vorbis_comment` one more block than necessary is read. | `C47_false` |
| C53 | Neither the channel count nor the block size of the frames is compared to the streaminfo. | `C53_false`, `C53_size_false` |
| C55 | A sample that is predicted, or a difference channel, need not fit in the bit depth. | `C55_false` |
| C56 | The sample rate in kHz is not multiplied by 1000 (not observable through the API). | `C56_false` |
| C68 | On a 32-bit platform without overflow checks `channel(c)` with a too large `c` can return another channel instead of panicking. | `C68_false` |
| C72 | Comments in two examples say that skipping with a cursor cannot fail, and that the position of a cursor after opening is the size of the metadata. It fails on short packets, and the position is up to 2047 bytes further. | `C72_skip_false`, `C72_position_false` |
| C74 | `Block::time()` of the last block of a stream with a fixed block size, if it is shorter than the others, is not its position: the frame number is multiplied by the size of that block. | `C74_false` |
| C75 | Seek tables, cue sheets and pictures are reported as padding. | `C75_false` |
| C76 | A buffer of `max_block_size` times the number of channels need not be large enough. | `C76_false` |
| C77 | The number of samples, and of bits per sample, need not be what the streaminfo block says: no error is reported. | `C77_count_false`, `C77_bits_false` |
| C92 | Metadata blocks of more than 10 MiB are rejected only if they are application or Vorbis comment blocks. Larger pictures, for example, are skipped (and no memory is requested for them). | `C92_false` |
| C93 | The first example in the documentation counts samples in an `i32` (nothing says which type is meant), so for files with 2^31 samples or more it panics, or, without overflow checks, divides by a wrong number, which may be negative. | `C93_rms_false`, `C93_rms_overflow`, `C93_rms_wraps` |
| C94 | A frame reader need not yield an element: at the end of the input, or one byte before, it does not. | `C94_false` |

Other observations made on the way:

* C02 needs the contract of `io::Read`: an implementation in safe Rust that returns more than the length of
  the buffer leads to undefined behaviour (`C02_contract_needed`). The standard library documentation says
  that callers must not rely on this for memory safety.
* C67 needs an implementation of `ReadBytes` whose `read_into` fills the buffer when it returns `Ok`. A user can
  implement the trait without `unsafe` in another way, and then sees uninitialised memory
  (`C67_contract_needed`).
* C42: the list of comments may request room for `length / 4` entries of 32 bytes, eight times the length of
  the block.
* The documentation of `Error::Unsupported` says that reserved values cause a `FormatError`. Reserved metadata block
  types do not: they are skipped, as the format asks for (C75).
* C51: an I/O error is not equal to itself, so `==` on errors is not reflexive.
* Rice-coded residuals of 2^32 and more are truncated (specified as `Arith.wrap32`); escape-coded partitions
  and negative LPC shifts are `Unsupported`.
* `Block::sample(ch, i)` with `i ≥ duration()` reads the next channel unless `ch` is the last (`C29_nextChannel`); the
  documentation says `len()` instead of `duration()`.
* `Cursor::read_into` and `skip` panic in a checked build if the position is close to `u64::MAX`.
* `ErrorKind::Interrupted` is not retried, unlike in the standard library: it becomes an I/O error, and then C04
  applies.
* Overlong variable-length integers are accepted.
* The benchmarks in `/repo/benches` count the decoded bytes in a `u32` (C90): after more than 4 GiB, what they report is wrong.
* At a clean end of the stream the sample iterator asks the source again in every call.

## 6. Mutation testing

Procedure: in a copy of the project, edit the model; rebuild; replace the proof of each declaration that fails
by `sorry`; repeat until it builds; then list the property theorems whose proof depends on `sorry`. A theorem
whose claim is broken by the edit and which is not in the list is too weak and has to be tightened. A theorem
in the list need not be false of the edited program: its proof may only be brittle.

`seeded/LOG.jsonl` has one line per wrong program that has been tried: the definition that was edited, the
edit, the claim that becomes false, the property theorems that were no longer proved, and the theorems that
were tightened. Theorem names are those at the time of the attempt. Apart from the theorems named there, two wrong programs showed that a claim
was missing (L12, L14).

## 7. Claims that the theorems do not cover

Apart from the cases in section 5, where the code does not have the property, none that we know of. What is not
modelled at all is listed in section 1.
