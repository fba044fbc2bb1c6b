import Verif.Conformance.Units

/-! The tests in `/repo/tests/testsamples.rs` that use files which are in `/repo/testsamples`, run on the model and
evaluated by Lean's kernel, for files of at most 400 bytes. Those that compare with the programs `flac` and `metaflac`
compare with literals here; the MD5 sums of the decoded samples have been checked against the sums in the files. -/

namespace Claxon

namespace Conformance

/-- Decode all blocks that follow, each into a buffer of 128 times `fill`, as channels and samples; `Ok(None)` or the
error at the end. -/
def decodeAll (fill : I32) : (fuel : Nat) → BufferedReader → List (Nat × List I32) × Option Error
  | 0, _ => ([], none)
  | fuel + 1, r =>
    match readNextOrEof ⟨List.replicate 128 fill, 128⟩ r with
    | (.ok (some b), r') =>
      let (bs, e) := decodeAll fill fuel r'
      ((b.channels, b.intoBuffer.data) :: bs, e)
    | (.error (.err e), _) => ([], some e)
    | _ => ([], none)

/-- Open the stream and decode all blocks. -/
def decodeBytes (fill : I32) (data : List Nat) : Option (List (Nat × List I32) × Option Error) :=
  (okRes (FlacReader.new 10 (Examples.memory (bytes data)))).bind fun r => (okRes r.blocks).map (decodeAll fill 10)

/-- The error of `FlacReader::new`. -/
def openError (data : List Nat) : Option Error :=
  match FlacReader.new 10 (Examples.memory (bytes data)) with
  | .error (.err e) => some e
  | _ => none

/-- `FlacReader::new_ext`. -/
def openExt (options : FlacReaderOptions) (data : List Nat) : Option (FlacReader BufferedReader) :=
  okRes (FlacReader.newExt 10 (Examples.memory (bytes data)) options)

/-- The bytes of an ASCII string. -/
def ascii (s : String) : Str := s.toList.map fun c => BitVec.ofNat 8 c.toNat

/-- Whether a call panics. -/
def panics {α : Type} : Res α → Bool
  | .error (.panic _) => true
  | _ => false

/-- /repo/testsamples/short.flac. -/
def short : List Nat := [
  102, 76, 97, 67, 0, 0, 0, 34, 16, 0, 16, 0, 0, 0, 18, 0, 0, 18, 10, 196, 64, 240, 0, 0, 0, 4, 146, 117, 152, 184,
  156, 137, 193, 18, 154, 21, 46, 236, 252, 20, 7, 94, 3, 0, 0, 18, 0, 0, 0, 0, 0, 0, 0, 0, 0, 0, 0, 0, 0, 0, 0, 0,
  0, 4, 132, 0, 0, 40, 32, 0, 0, 0, 114, 101, 102, 101, 114, 101, 110, 99, 101, 32, 108, 105, 98, 70, 76, 65, 67,
  32, 49, 46, 51, 46, 50, 32, 50, 48, 49, 55, 48, 49, 48, 49, 0, 0, 0, 0, 255, 248, 105, 8, 0, 3, 20, 64, 0, 2,
  182, 79, 64, 2, 194, 12, 75, 157]

/-- /repo/testsamples/pop.flac. -/
def pop : List Nat := [
  102, 76, 97, 67, 128, 0, 0, 34, 16, 0, 16, 0, 0, 0, 63, 0, 0, 63, 10, 196, 64, 240, 0, 0, 0, 100, 104, 70, 66,
  136, 250, 94, 25, 131, 85, 22, 151, 45, 207, 71, 34, 60, 255, 248, 105, 8, 0, 99, 51, 24, 0, 0, 8, 4, 16, 1, 23,
  238, 0, 163, 46, 78, 138, 101, 218, 106, 149, 46, 98, 137, 233, 47, 50, 164, 215, 39, 73, 204, 86, 222, 55, 237,
  102, 115, 20, 142, 203, 174, 242, 89, 20, 135, 49, 83, 163, 178, 205, 228, 138, 71, 219, 205, 96, 181, 117]

/-- /repo/testsamples/repeated_vorbis_comment.flac. -/
def repeatedVorbisComment : List Nat := [
  102, 76, 97, 67, 0, 0, 0, 34, 16, 0, 16, 0, 0, 0, 63, 0, 0, 63, 10, 196, 64, 240, 0, 0, 0, 100, 104, 70, 66, 136,
  250, 94, 25, 131, 85, 22, 151, 45, 207, 71, 34, 60, 132, 0, 0, 62, 32, 0, 0, 0, 114, 101, 102, 101, 114, 101,
  110, 99, 101, 32, 108, 105, 98, 70, 76, 65, 67, 32, 49, 46, 51, 46, 50, 32, 50, 48, 49, 55, 48, 49, 48, 49, 2, 0,
  0, 0, 7, 0, 0, 0, 70, 79, 79, 61, 98, 97, 114, 7, 0, 0, 0, 70, 79, 79, 61, 98, 97, 122, 255, 248, 105, 8, 0, 99,
  51, 24, 0, 0, 8, 4, 16, 1, 23, 238, 0, 163, 46, 78, 138, 101, 218, 106, 149, 46, 98, 137, 233, 47, 50, 164, 215,
  39, 73, 204, 86, 222, 55, 237, 102, 115, 20, 142, 203, 174, 242, 89, 20, 135, 49, 83, 163, 178, 205, 228, 138,
  71, 219, 205, 96, 181, 117]

/-- /repo/testsamples/empty_vorbis_comment.flac. -/
def emptyVorbisComment : List Nat := [
  102, 76, 97, 67, 0, 0, 0, 34, 16, 0, 16, 0, 0, 0, 63, 0, 0, 63, 10, 196, 64, 240, 0, 0, 0, 100, 104, 70, 66, 136,
  250, 94, 25, 131, 85, 22, 151, 45, 207, 71, 34, 60, 132, 0, 0, 62, 32, 0, 0, 0, 114, 101, 102, 101, 114, 101,
  110, 99, 101, 32, 108, 105, 98, 70, 76, 65, 67, 32, 49, 46, 51, 46, 50, 32, 50, 48, 49, 55, 48, 49, 48, 49, 3, 0,
  0, 0, 7, 0, 0, 0, 70, 79, 79, 61, 98, 97, 114, 0, 0, 0, 0, 3, 0, 0, 0, 88, 61, 89, 255, 248, 105, 8, 0, 99, 51,
  24, 0, 0, 8, 4, 16, 1, 23, 238, 0, 163, 46, 78, 138, 101, 218, 106, 149, 46, 98, 137, 233, 47, 50, 164, 215, 39,
  73, 204, 86, 222, 55, 237, 102, 115, 20, 142, 203, 174, 242, 89, 20, 135, 49, 83, 163, 178, 205, 228, 138, 71,
  219, 205, 96, 181, 117]

/-- /repo/testsamples/large_vendor_string.flac. -/
def largeVendorString : List Nat := [
  102, 76, 97, 67, 4, 0, 0, 102, 34, 18, 0, 249, 76]

/-- /repo/testsamples/large_vorbis_comment_block.flac. -/
def largeVorbisCommentBlock : List Nat := [
  102, 76, 97, 67, 4, 247, 0, 8, 0, 0, 0, 0, 0, 0, 40, 0, 0, 0, 0, 0, 0, 4, 0, 18, 255, 255, 255, 255, 255, 255,
  255, 255, 58, 255, 255, 76]

/-- tests/testsamples.rs `verify_streaminfo_short`. -/
example : (openExt FlacReaderOptions.default short).map FlacReader.streaminfo = some
      { minBlockSize := 4096, maxBlockSize := 4096, minFrameSize := some 18,
        maxFrameSize := some 18, sampleRate := 44100, channels := 1, bitsPerSample := 16,
        samples := some 4,
        md5sum := bytes [146, 117, 152, 184, 156, 137, 193, 18, 154, 21, 46, 236, 252, 20, 7, 94] } := by
  decide +kernel

/-- tests/testsamples.rs `verify_streaminfo_pop`. -/
example : (openExt FlacReaderOptions.default pop).map FlacReader.streaminfo = some
      { minBlockSize := 4096, maxBlockSize := 4096, minFrameSize := some 63,
        maxFrameSize := some 63, sampleRate := 44100, channels := 1, bitsPerSample := 16,
        samples := some 100,
        md5sum := bytes [104, 70, 66, 136, 250, 94, 25, 131, 85, 22, 151, 45, 207, 71, 34, 60] } := by
  decide +kernel

/-- tests/testsamples.rs `verify_decoded_stream_short`. -/
example : decodeBytes 13#32 short = some ([(1, ints [
  2, -3, 5, -7])], none) := by
  decide +kernel

/-- tests/testsamples.rs `verify_decoded_stream_pop`. -/
example : decodeBytes 13#32 pop = some ([(1, ints [
  0, 2052, 4097, 6126, 8130, 10103, 12036, 13921, 15752, 17521, 19222, 20846, 22389, 23844, 25205, 26467, 27625,
  28675, 29612, 30433, 31134, 31713, 32167, 32494, 32695, 32766, 32709, 32524, 32210, 31770, 31206, 30518, 29711,
  28787, 27750, 26604, 25354, 24004, 22559, 21026, 19410, 17718, 15957, 14132, 12253, 10325, 8356, 6355, 4329,
  2285, 233, -1819, -3865, -5896, -7904, -9881, -11818, -13710, -15547, -17324, -19032, -20666, -22218, -23683,
  -25055, -26329, -27499, -28561, -29511, -30345, -31060, -31653, -32121, -32464, -32678, -32765, -32722, -32551,
  -32252, -31827, -31276, -30603, -29809, -28898, -27874, -26740, -25501, -24162, -22728, -21204, -19598, -17914,
  -16160, -14343, -12469, -10546, -8582, -6584, -4560, -2518])], none) := by
  decide +kernel

/-- tests/testsamples.rs `test_flac_reader_get_tag_returns_all_matches`. -/
example : ((openExt FlacReaderOptions.default repeatedVorbisComment).bind fun r =>
      okOf ((List.replicate 3 ()).mapM fun _ => getTagNext) (r.getTag (ascii "FOO"))) =
    some [some (ascii "bar"), some (ascii "baz"), none] := by decide +kernel

/-- tests/testsamples.rs `test_flac_reader_tags_skips_empty_vorbis_comments`. -/
example : ((openExt FlacReaderOptions.default emptyVorbisComment).bind fun r =>
      okOf ((List.replicate 3 ()).mapM fun _ => tagsNext) r.tags) =
    some [some (ascii "FOO", ascii "bar"), some (ascii "X", ascii "Y"), none] := by decide +kernel

/-- tests/testsamples.rs `verify_limits_on_vendor_string`. -/
example : openError largeVendorString = some (.formatError "vendor string too long") := by decide +kernel

/-- tests/testsamples.rs `verify_limits_on_vorbis_comment_block`. -/
example : openError largeVorbisCommentBlock =
    some (.unsupported "Vorbis comment blocks larger than 10 MiB are not supported") := by decide +kernel

/-- tests/testsamples.rs `metadata_only_still_reads_vorbis_comment_block`. -/
example : (openExt { metadataOnly := true, readVorbisComment := true } short).map FlacReader.vendor =
    some (some (ascii "reference libFLAC 1.3.2 20170101")) := by decide +kernel

/-- tests/testsamples.rs `no_read_vorbis_comment_block_does_not_contain_vendor_string`. -/
example : (openExt { metadataOnly := true, readVorbisComment := false } short).map FlacReader.vendor = some none := by
  decide +kernel

/-- tests/testsamples.rs `samples_panics_when_metadata_only_is_set`. -/
example : (openExt { metadataOnly := true, readVorbisComment := true } short).map (fun r => panics r.samples) =
    some true := by decide +kernel

/-- tests/testsamples.rs `blocks_panics_when_metadata_only_is_set`. -/
example : (openExt { metadataOnly := true, readVorbisComment := true } short).map (fun r => panics r.blocks) =
    some true := by decide +kernel

/-! tests/testsamples.rs `regression_test_fuzz_samples`: no panic, and the same blocks whatever the buffer contained. -/

/-- /repo/testsamples/fuzz/07d990b7992590022e2721bfaa83e4bd3b905443.flac. -/
def fuzz_07d990b7 : List Nat := [
  26, 48, 102, 76, 97, 67, 128, 0, 0, 34, 4, 60, 56, 41, 52, 52, 52, 52, 52, 52, 52, 56, 52, 52, 52, 203, 196, 52,
  52, 52, 221, 192, 52, 52, 52, 52, 1, 0, 0, 19, 52, 52, 52, 63, 255, 248, 97, 26, 1, 1, 52, 16, 72, 27, 97, 0, 0,
  0, 0, 0, 0, 32, 0, 0]

example : openError fuzz_07d990b7 = some (.formatError "invalid stream header") := by decide +kernel

/-- /repo/testsamples/fuzz/0fd738fd5832a540bef0743db62f68c0c642e095.flac. -/
def fuzz_0fd738fd : List Nat := [
  102, 76, 97, 67, 128, 0, 0, 34, 16, 0, 16, 64, 0, 0, 63, 0, 0, 63, 18, 196, 64, 240, 0, 0, 0, 0, 87, 70, 66, 136,
  250, 94, 25, 131, 85, 22, 151, 45, 207, 71, 34, 60, 255, 248, 102, 152, 76, 97, 225, 67, 0, 128, 0, 0, 49, 49,
  49, 49, 49, 49, 49, 49, 49, 49, 49, 49, 49, 49, 49, 49, 49, 49, 49, 49, 49, 49, 49, 49, 49, 49, 49, 49, 49, 49,
  49, 49, 49, 49, 49, 49, 49, 49, 49, 49, 49, 49, 49, 49, 49, 49, 49, 49, 49, 49, 49, 49, 49, 49, 49, 49, 49, 49,
  49, 49, 49, 49, 49, 49, 49, 49, 49, 49, 49, 49, 49, 49, 49, 49, 49, 49, 49, 49, 49, 49, 49, 49, 49, 49, 49, 49,
  49, 49, 49, 49, 49, 49, 49, 49, 49, 49, 49, 49, 49, 49, 49, 49, 49, 49, 49, 49, 49, 49, 49, 49, 49, 49, 49, 49,
  49, 49, 49, 49, 49, 49, 49, 49, 49, 49, 49, 49, 49, 49, 49, 49, 49, 49, 49, 49, 49, 49, 49, 49, 49, 49, 49, 49,
  49, 49, 49, 49, 49, 49, 49, 49, 49, 49, 49, 49, 49, 49, 49, 49, 49, 49, 49, 49, 49, 49, 49, 49, 49, 49, 49, 49,
  49, 49, 49, 49, 49, 49, 49, 49, 49, 49, 49, 49, 49, 49, 49, 49, 49, 49, 49, 49, 49, 49, 49, 49, 49, 49, 49, 49,
  49, 49, 49, 49, 49, 49, 49, 49, 49, 49, 49, 49, 232, 3, 49, 49, 0, 58, 104, 151]

example : decodeBytes 13#32 fuzz_0fd738fd = some ([], some (.formatError "invalid partition order")) ∧
    decodeBytes 17#32 fuzz_0fd738fd = some ([], some (.formatError "invalid partition order")) := by
  decide +kernel

/-- /repo/testsamples/fuzz/1cc7059cbdac01b75e91eef8e826895cdfbaccca.flac. -/
def fuzz_1cc7059c : List Nat := [
  102, 76, 97, 67, 128, 0, 0, 34, 16, 0, 16, 0, 0, 0, 63, 0, 0, 63, 10, 196, 64, 240, 0, 0, 0, 58, 104, 0, 0, 0, 0,
  0, 0, 0, 0, 22, 151, 45, 207, 71, 34, 60, 255, 248, 102, 136, 76, 97, 67, 0, 18, 0, 1, 0, 0, 0, 22, 151, 194,
  194, 194, 194, 194, 194, 194, 194, 194, 194, 194, 194, 194, 194, 194, 194, 194, 194, 194, 194, 194, 194, 194,
  194, 194, 194, 194, 194, 194, 194, 194, 194, 194, 194, 194, 194, 194, 194, 194, 194, 194, 194, 194, 194, 194,
  194, 194, 194, 194, 194, 194, 194, 194, 194, 194, 194, 194, 194, 194, 194, 194, 194, 194, 194, 194, 194, 45, 207,
  0, 0, 0, 71, 1, 0, 0, 0, 22, 151, 45, 207, 0, 0, 0, 71]

example : decodeBytes 13#32 fuzz_1cc7059c = some ([], some (.formatError "subframe has no non-wasted bits")) ∧
    decodeBytes 17#32 fuzz_1cc7059c = some ([], some (.formatError "subframe has no non-wasted bits")) := by
  decide +kernel

/-- /repo/testsamples/fuzz/23d1288573bb3485769da0a969bf5a5c20bd54f2.flac. -/
def fuzz_23d12885 : List Nat := [
  102, 76, 97, 67, 130, 0, 0, 0, 0, 0, 16, 63, 0, 16, 34, 0, 0, 63, 10, 41, 64, 240, 0, 0, 0, 100, 104, 70, 66,
  136, 250, 94, 25, 131, 85, 22, 151, 45, 207, 71, 34, 60, 255, 248, 105, 8, 0, 99, 51, 24, 242, 89, 20, 135, 49,
  83, 163, 178, 205, 228, 138, 71, 219, 255, 255, 255, 255, 255, 255, 255, 255, 205, 96, 181, 117]

example : openError fuzz_23d12885 = some (.formatError "application block length must be at least 4 bytes") := by decide +kernel

/-- /repo/testsamples/fuzz/5a35e45b6b1c30fc71443b21e8bf0d1740f27361.flac. -/
def fuzz_5a35e45b : List Nat := [
  26, 48, 102, 76, 97, 67, 128, 0, 0, 34, 4, 188, 56, 41, 52, 52, 52, 52, 52, 52, 52, 56, 52, 52, 52, 203, 196, 52,
  52, 52, 221, 192, 52, 52, 52, 52, 227, 0, 8, 5, 52, 52, 52, 63, 255, 248, 97, 20, 18, 48, 52, 0, 26, 52, 102, 76,
  97, 67, 128, 0, 0, 34, 4, 59, 52, 52, 41, 52, 52, 48, 4, 52, 52, 52, 52, 53, 52, 52, 35, 255, 48, 52, 0, 19, 0,
  1, 52, 221, 0, 9, 0, 63, 1, 0, 0, 19, 255, 248, 18, 50, 199, 177, 91, 0, 0, 96, 0, 0, 0, 67, 0, 4, 1, 9, 52, 52,
  56, 34, 52, 56, 56, 45, 56, 249, 52, 52, 248, 250]

example : openError fuzz_5a35e45b = some (.formatError "invalid stream header") := by decide +kernel

/-- /repo/testsamples/fuzz/5b004788ba05db06d0f6cc8a7a43e334c9d31c44.flac. -/
def fuzz_5b004788 : List Nat := [
  102, 76, 97, 67, 128, 0, 0, 34, 16, 0, 16, 0, 0, 0, 63, 0, 0, 63, 10, 196, 64, 240, 0, 0, 0, 58, 104, 0, 0, 0, 0,
  0, 0, 0, 0, 22, 151, 45, 207, 71, 34, 60, 255, 248, 105, 8, 0, 18, 99, 102, 76, 97, 67, 128, 0, 0, 34, 16, 0, 16,
  0, 0, 0, 63, 0, 0, 63, 10, 196, 64, 240, 0, 0, 0, 58, 104, 0, 0, 0, 0, 0, 0, 0, 0, 22, 151, 45, 207, 71, 34, 60,
  255, 248, 105, 8, 0, 99, 51, 67, 8, 0, 0, 34, 18, 0, 0, 116, 0, 0, 9, 18, 53, 193, 106, 10, 196, 66, 240, 0, 1,
  50, 51, 34, 0, 0, 0, 0, 116, 0, 0, 9, 18, 53, 193, 106, 10, 196, 66, 240, 0, 188, 97, 48, 203, 208, 20, 39, 0, 6,
  0, 0, 0, 0, 0, 188, 97, 48, 203, 208, 20, 39, 0, 6, 0, 0, 0, 0, 0, 0, 0, 0, 255, 255, 115, 0, 0, 0]

example : decodeBytes 13#32 fuzz_5b004788 = some ([], some (.formatError "invalid LPC subframe, lpc order is larger than block size")) ∧
    decodeBytes 17#32 fuzz_5b004788 = some ([], some (.formatError "invalid LPC subframe, lpc order is larger than block size")) := by
  decide +kernel

/-- /repo/testsamples/fuzz/5ef80ac28c9554fc3bdfa0096dac28f35c79c652.flac. -/
def fuzz_5ef80ac2 : List Nat := [
  102, 76, 97, 67, 132, 1, 0, 0, 0, 0, 0, 0, 0, 0, 0, 0, 1, 0, 0, 0, 61, 1, 0, 0, 0, 61, 0, 0, 0, 0]

example : openError fuzz_5ef80ac2 = some (.formatError "Vorbis comment block has excess data") := by decide +kernel

/-- /repo/testsamples/fuzz/6eccabf2c81748533cb0c4c8fce2c8426559d4ae.flac. -/
def fuzz_6eccabf2 : List Nat := [
  102, 76, 97, 67, 128, 0, 0, 34, 16, 0, 16, 102, 76, 97, 255, 181, 63, 0, 0, 63, 10, 227, 42, 64, 240, 233, 178,
  0, 0, 255, 0, 0, 0, 0, 0, 249, 255, 80, 255, 255, 255, 255, 255, 248, 100, 76, 0, 0, 206, 0, 0, 0, 0, 0, 0, 0, 0,
  0, 0, 0, 0, 0, 0, 0, 22, 22, 22, 22, 22, 22, 22, 22, 22, 22, 22, 22, 22, 22, 22, 22, 22, 22, 22, 22, 22, 22, 22,
  22, 22, 22, 22, 22, 22, 22, 22, 22, 22, 22, 22, 22, 22, 22, 22, 22, 22, 22, 22, 22, 22, 22, 22, 22, 22, 22, 22,
  22, 22, 22, 22, 22, 22, 22, 22, 22, 22, 22, 22, 22, 22, 22, 22, 22, 22, 22, 22, 22, 22, 22, 22, 22, 22, 22, 22,
  22, 22, 22, 22, 22, 22, 22, 22, 22, 22, 22, 22, 22, 22, 22, 22, 22, 22, 22, 22, 22, 22, 22, 22, 22, 22, 22, 22,
  22, 22, 22, 22, 22, 22, 22, 22, 22, 0, 2, 0, 0, 0, 0, 0, 0, 0, 0, 0, 0, 0, 0, 0, 0, 0, 0, 0, 0, 0, 0, 0, 0, 0, 0,
  0, 0, 0, 0, 67, 0, 0, 0, 0, 0, 1, 58, 58, 58, 240, 8, 0, 29, 29, 61, 29, 40, 29, 29, 29, 29, 29, 29, 29, 93, 29,
  29, 70, 29, 29, 29, 29, 29, 29, 29, 29, 29, 29, 29, 29, 29, 29, 29, 29, 29, 29, 29, 205, 21]

example : decodeBytes 13#32 fuzz_6eccabf2 = some ([], some (.formatError "invalid fixed subframe, order is larger than block size")) ∧
    decodeBytes 17#32 fuzz_6eccabf2 = some ([], some (.formatError "invalid fixed subframe, order is larger than block size")) := by
  decide +kernel

/-- /repo/testsamples/fuzz/74b23b5fb31a61f62c78659a76109f448d0f4763.flac. -/
def fuzz_74b23b5f : List Nat := [
  102, 76, 97, 67, 128, 0, 0, 34, 16, 0, 16, 0, 0, 0, 63, 0, 0, 63, 10, 196, 64, 240, 0, 0, 0, 58, 104, 0, 0, 0, 0,
  0, 0, 0, 0, 22, 151, 45, 207, 71, 34, 60, 255, 248, 105, 8, 0, 99, 51, 67, 0, 0, 0, 34, 18, 0, 0, 116, 0, 0, 9,
  18, 53, 193, 10, 196, 66, 240, 0, 188, 97, 48, 203, 208, 20, 76, 0, 6, 0, 0, 0, 0, 0, 0, 0, 255, 255, 255, 255,
  255, 255, 255, 255, 0, 0, 0, 0, 0, 0, 0, 0, 0, 0, 0, 0, 0, 0, 0, 0, 0, 0, 0, 0, 102, 76, 97, 67, 0, 0, 0, 0, 0,
  0, 0, 0, 0, 0, 0, 0, 0, 0, 0, 0, 0, 0, 0, 0, 0, 0, 0, 0, 0, 0, 0, 0, 0, 0, 0, 0, 0, 0, 0, 235, 62, 115, 0, 0, 0,
  34, 18, 0, 0, 0, 0, 0, 0, 186, 12, 0, 0, 0, 0, 0, 0, 239, 212, 242, 246, 255, 255, 255, 255, 255, 255, 66, 18,
  90, 0, 0, 0, 0, 0, 0, 244, 81, 245, 18, 0, 0, 0, 0, 0, 0, 0, 128, 0, 0, 34, 16, 0, 16, 0, 0, 0, 63, 0, 0, 63, 10,
  196, 64, 240, 0, 0, 0, 58, 104, 0, 0, 0, 0, 0, 0, 0, 0, 22, 151, 45, 207, 71, 34, 60, 255, 248, 105, 8, 0, 99,
  51, 67, 0, 0, 0, 34, 18, 0, 0, 116, 0, 0, 9, 18, 53, 193, 10, 196, 66, 240, 0, 188, 97, 48, 203, 208, 20, 76, 0,
  6, 0, 0, 0, 0, 0, 0, 0, 255, 255, 255, 255, 255, 255, 255, 255, 0, 0, 0, 0, 0, 0, 0, 0, 0, 0, 0, 0, 0, 0, 0, 0,
  0, 0, 0, 0, 102, 76, 97, 67, 0, 0, 0, 0, 0, 0, 0, 0, 0, 0, 0, 0, 0, 0, 0, 0, 0, 0, 0, 0, 0, 0, 0, 0, 0, 0, 0, 0,
  0, 0, 0, 0, 0, 0, 0, 235, 192, 168, 0, 0, 0, 0, 4, 0, 248, 233, 42, 18]

example : decodeBytes 13#32 fuzz_74b23b5f = some ([], some (.formatError "subframe has no non-wasted bits")) ∧
    decodeBytes 17#32 fuzz_74b23b5f = some ([], some (.formatError "subframe has no non-wasted bits")) := by
  decide +kernel

/-- /repo/testsamples/fuzz/848d2895bf8191ff6a94ccacb4e7fb696c62fa05.flac. -/
def fuzz_848d2895 : List Nat := [
  102, 76, 97, 67, 128, 0, 0, 34, 16, 0, 16, 0, 0, 0, 63, 0, 0, 63, 10, 196, 64, 240, 0, 0, 0, 58, 104, 255, 255,
  255, 255, 255, 255, 255, 255, 22, 151, 45, 207, 71, 34, 60, 255, 248, 102, 152, 76, 97, 225, 67, 64, 18, 0, 1,
  204, 0, 255, 255, 0, 0, 22, 151, 194, 194, 192, 194, 194, 194, 194, 194, 194, 194, 194, 194, 194, 194, 194, 194,
  194, 194, 194, 194, 194, 194, 194, 194, 194, 45, 207, 0, 0, 0, 71, 1, 0, 0, 0, 22, 151, 45, 207, 0, 255, 255,
  255, 255, 255, 255, 255, 255, 255, 255, 255, 255, 0, 0, 71]

example : decodeBytes 13#32 fuzz_848d2895 = some ([], some (.unsupported "a negative quantized linear predictor coefficient shift is not supported, please file a bug.")) ∧
    decodeBytes 17#32 fuzz_848d2895 = some ([], some (.unsupported "a negative quantized linear predictor coefficient shift is not supported, please file a bug.")) := by
  decide +kernel

/-- /repo/testsamples/fuzz/920866496c64684f55cdeeb4f464406702fc072a.flac. -/
def fuzz_92086649 : List Nat := [
  102, 76, 97, 67, 128, 0, 0, 34, 16, 0, 16, 0, 0, 0, 63, 0, 0, 63, 10, 196, 64, 240, 0, 0, 0, 100, 104, 0, 0, 0,
  0, 0, 0, 0, 0, 22, 151, 45, 207, 71, 34, 60, 255, 248, 105, 8, 0, 99, 51, 1, 0, 0, 0, 0, 0, 0, 0, 216, 205, 91,
  40, 216, 182, 51, 169, 222, 55, 237, 102, 115, 20, 142, 203, 174, 14, 166, 235, 119, 49, 83, 163, 178, 205, 228,
  138, 71, 219, 205, 96, 181, 227]

example : decodeBytes 13#32 fuzz_92086649 = some ([], some (.formatError "wasted bits per sample must not exceed 31")) ∧
    decodeBytes 17#32 fuzz_92086649 = some ([], some (.formatError "wasted bits per sample must not exceed 31")) := by
  decide +kernel

/-- /repo/testsamples/fuzz/b6d30db8ca1f537835a149e40677e5e58766260b.flac. -/
def fuzz_b6d30db8 : List Nat := [
  102, 76, 97, 67, 128, 0, 0, 34, 16, 0, 16, 0, 0, 0, 63, 0, 0, 63, 10, 196, 64, 240, 0, 0, 0, 58, 104, 0, 0, 0, 0,
  0, 0, 0, 0, 22, 151, 45, 207, 71, 34, 60, 255, 248, 105, 8, 0, 99, 51, 67, 0, 0, 0, 0, 0, 0, 0, 0, 0, 0, 0, 34,
  18, 0, 0, 116, 0, 0, 9, 18, 53, 193, 10, 196, 66, 240, 0, 188, 97, 48, 203, 208, 20, 76, 0, 6, 0, 0, 0, 0, 0, 0,
  0, 255, 255, 255, 255, 255, 255, 255, 255, 0, 0, 0, 0, 0, 0, 0, 0, 0, 0, 0, 0, 0, 0, 0, 0, 0, 0, 0, 0, 102, 76,
  97, 67, 0, 0, 0, 0, 0, 0, 0, 0, 0, 0, 0, 0, 0, 0, 0, 0, 0, 0, 0, 0, 0, 0, 0, 0, 0, 0, 0, 0, 0, 0, 0, 0, 0, 0, 0,
  235, 62, 115, 0, 0, 0, 34, 18, 0, 0, 0, 0, 0, 0, 186, 12, 0, 0, 0, 0, 0, 0, 239, 212, 242, 18, 0, 0, 0, 0, 0, 0,
  189, 18, 90, 0, 0, 0, 0, 0, 0, 244, 81, 245, 18, 0, 0, 0, 0, 0, 0, 0, 128, 0, 0, 34, 16, 0, 16, 0, 0, 0, 63, 0,
  0, 63, 10, 196, 64, 240, 0, 0, 0, 58, 104, 0, 0, 0, 0, 0, 0, 0, 0, 22, 151, 45, 207, 71, 34, 60, 255, 248, 105,
  8, 0, 99, 51, 67, 0, 0, 0, 34, 18, 0, 0, 116, 0, 0, 9, 18, 53, 193, 10, 196, 66, 240, 0, 188, 97, 48, 203, 208,
  20, 76, 0, 6, 0, 0, 0, 0, 0, 0, 0, 255, 255, 255, 255, 255, 255, 255, 255, 0, 0, 0, 0, 0, 0, 0, 0, 0, 0, 0, 0, 0,
  0, 0, 0, 0, 0, 0, 0, 102, 76, 97, 67, 0, 0, 0, 0, 0, 0, 0, 0, 0, 0, 0, 0, 0, 0, 0, 0, 0, 0, 0, 0, 0, 0, 0, 0, 0,
  0, 0, 0, 0, 0, 0, 0, 0, 0, 0, 235, 192, 168, 0, 0, 0, 0, 4, 0, 248, 233, 42, 18]

example : decodeBytes 13#32 fuzz_b6d30db8 = some ([], some (.formatError "wasted bits per sample must not exceed 31")) ∧
    decodeBytes 17#32 fuzz_b6d30db8 = some ([], some (.formatError "wasted bits per sample must not exceed 31")) := by
  decide +kernel

/-- /repo/testsamples/fuzz/bb2b1d355f0ecf965baa3c1e2bb34142e62f6e9c.flac. -/
def fuzz_bb2b1d35 : List Nat := [
  26, 48, 102, 76, 97, 67, 128, 0, 0, 34, 4, 56, 56, 41, 52, 52, 52, 52, 52, 52, 52, 56, 52, 52, 52, 203, 196, 52,
  52, 52, 221, 192, 52, 52, 52, 52, 227, 0, 0, 5, 52, 52, 52, 63, 255, 248, 97, 26, 63, 0, 0, 0, 64, 27, 97, 26,
  44, 26, 48, 102, 76, 97, 67, 0]

example : openError fuzz_bb2b1d35 = some (.formatError "invalid stream header") := by decide +kernel

/-- /repo/testsamples/fuzz/c377cba674ebd98def206ba4e22f826da2c646d3.flac. -/
def fuzz_c377cba6 : List Nat := [
  26, 48, 102, 76, 97, 67, 0, 0, 0, 34, 4, 50, 50, 50, 50, 50, 50, 50, 50, 50, 50, 50, 50, 50, 50, 50, 50, 50, 50,
  34, 122, 52, 52, 52, 52, 52, 52, 52, 51, 58, 53, 48, 53, 53, 163, 0, 0, 4, 0, 9, 0, 63, 255, 248, 253, 2, 0, 0,
  221, 248, 0, 101, 64, 0, 99, 104, 0]

example : openError fuzz_c377cba6 = some (.formatError "invalid stream header") := by decide +kernel

/-- /repo/testsamples/fuzz/c6c1d767d72b388aad8a020f661c90a2684a9470.flac. -/
def fuzz_c6c1d767 : List Nat := [
  26, 48, 102, 76, 97, 67, 128, 0, 0, 34, 4, 60, 56, 41, 52, 52, 52, 52, 52, 52, 52, 56, 52, 52, 52, 203, 196, 52,
  52, 52, 221, 192, 52, 52, 52, 52, 1, 0, 0, 19, 52, 52, 52, 63, 255, 248, 97, 26, 18, 48, 52, 16, 72, 97, 67, 128,
  0, 0, 34, 4, 60, 56, 41, 52, 52, 52, 52, 52, 52, 52, 56, 52, 52, 52, 203, 196, 52, 52, 52, 221, 192, 52, 52, 52,
  52, 1, 0, 0, 19, 52, 52, 52, 63, 255, 248, 27, 97, 0, 0, 0, 0, 0, 0, 32, 0, 0]

example : openError fuzz_c6c1d767 = some (.formatError "invalid stream header") := by decide +kernel

/-- /repo/testsamples/fuzz/ca1081b95516599c96ace7425fa0a75752cbdc33.flac. -/
def fuzz_ca1081b9 : List Nat := [
  102, 76, 97, 67, 128, 0, 0, 34, 16, 0, 16, 0, 0, 0, 63, 0, 0, 63, 10, 196, 64, 240, 0, 0, 0, 100, 104, 70, 66,
  136, 250, 94, 25, 131, 85, 22, 151, 45, 207, 71, 34, 60, 255, 248, 24, 0, 102, 76, 97, 67, 128, 0, 0, 34, 102, 4,
  8, 105, 166, 0, 99, 0, 8, 50, 83, 116, 53]

example : decodeBytes 13#32 fuzz_ca1081b9 = some ([], some (.unsupported "header without bits per sample info")) ∧
    decodeBytes 17#32 fuzz_ca1081b9 = some ([], some (.unsupported "header without bits per sample info")) := by
  decide +kernel

/-- /repo/testsamples/fuzz/d44b4144fc29194848ba4d973a3caca51164578b.flac. -/
def fuzz_d44b4144 : List Nat := [
  26, 48, 102, 76, 97, 67, 0, 0, 0, 34, 4, 50, 50, 50, 50, 50, 50, 50, 50, 50, 50, 50, 50, 50, 50, 50, 50, 50, 50,
  34, 122, 52, 52, 52, 52, 52, 52, 52, 51, 58, 53, 48, 53, 53, 163, 0, 0, 4, 0, 9, 0, 63, 255, 248, 253, 2, 0, 0,
  221, 248, 0, 101, 64, 0]

example : openError fuzz_d44b4144 = some (.formatError "invalid stream header") := by decide +kernel

/-- /repo/testsamples/fuzz/da0edb2728a503e7a5cb6d87a39b07f9396a57c3.flac. -/
def fuzz_da0edb27 : List Nat := [
  102, 76, 97, 67, 130, 255, 0, 34, 182, 16, 0, 16, 0, 0, 0, 63, 0, 0, 63, 10, 59, 196, 64, 240, 0, 0, 0, 100, 104,
  70, 66, 136, 250, 94, 25, 85, 131, 22, 151, 45, 207, 71, 34, 60, 255, 248, 105, 8, 0, 99, 54, 24, 171, 171, 171,
  171, 171, 102, 76, 97, 67, 219, 34, 16]

example : openError fuzz_da0edb27 = some (.unsupported "application blocks larger than 10 MiB are not supported") := by decide +kernel

end Conformance

end Claxon
