import Verif.Model.Lib
import Verif.Model.Examples
import Verif.Spec.Checked

/-! The unit tests in `/repo/src`, run on the model. Each `example` below is one `#[test]` function, translated literally,
and evaluated by Lean's kernel. They do not prove properties of the decoder: they show that the definitions in
`Verif/Model` compute what the code computes where its authors recorded that. -/

namespace Claxon

namespace Conformance

/-- `result.ok()` of a run from the state `s`. -/
def okOf {σ α : Type} (m : Dec σ α) (s : σ) : Option α :=
  match (m s).1 with
  | .ok a => some a
  | .error _ => none

/-- `result.is_err()`, after which the test goes on. -/
def isErr {σ α : Type} (m : Dec σ α) : Dec σ Bool := do
  match ← Dec.catchErr m with
  | .ok _ => pure false
  | .error _ => pure true

/-- `result.err()`, after which the test goes on. -/
def errOf {σ α : Type} (m : Dec σ α) : Dec σ (Option Error) := do
  match ← Dec.catchErr m with
  | .ok _ => pure none
  | .error e => pure (some e)

/-- `Result::ok` of a function that does not read. -/
def okRes {α : Type} : Res α → Option α
  | .ok a => some a
  | .error _ => none

/-- A `Vec<u8>` literal. -/
def bytes (l : List Nat) : List U8 := l.map (BitVec.ofNat 8)

/-- A `Vec<i32>` literal. -/
def ints (l : List Int) : List I32 := l.map (BitVec.ofInt 32)

/-- A `[i16]` literal. -/
def shorts (l : List Int) : List I16 := l.map (BitVec.ofInt 16)

/-- `BufferedReader::new(io::Cursor::new(vec![...]))`. -/
def buffered (l : List Nat) : BufferedReader := BufferedReader.new (Examples.memory (bytes l))

/-- `io::Cursor::new(vec![...])`. -/
def cursor (l : List Nat) : Cursor := { data := bytes l, pos := 0 }

/-- `Bitstream::new(BufferedReader::new(io::Cursor::new(vec![...])))`. -/
def bits (l : List Nat) : Bitstream BufferedReader := Bitstream.new (buffered l)

open ReadBytes

/-! ### input.rs -/

section Input

variable {σ : Type} [ReadBytes σ]

def readIntoTest : Dec σ (List U8 × List U8 × Bool) := do
  let buf1 ← readInto 3
  let buf2 ← readInto 5
  let e ← isErr (readInto 2)
  pure (buf1, buf2, e)

/-- input.rs:281-291 `verify_read_into_buffered_reader`. -/
example : okOf readIntoTest (buffered [2, 3, 5, 7, 11, 13, 17, 19, 23]) =
    some (bytes [2, 3, 5], bytes [7, 11, 13, 17, 19], true) := by decide +kernel

/-- input.rs:294-304 `verify_read_into_cursor`. -/
example : okOf readIntoTest (cursor [2, 3, 5, 7, 11, 13, 17, 19, 23]) =
    some (bytes [2, 3, 5], bytes [7, 11, 13, 17, 19], true) := by decide +kernel

def readU8Test : Dec σ (List U8 × Option U8 × Option U8 × Bool) := do
  let a ← readU8
  let b ← readU8
  let c ← readU8
  let d ← readU8
  let e ← readU8OrEof
  let f ← readU8OrEof
  let g ← isErr readU8
  pure ([a, b, c, d], e, f, g)

/-- input.rs:307-316 `verify_read_u8_buffered_reader`. -/
example : okOf readU8Test (buffered [0, 2, 129, 89, 122]) =
    some (bytes [0, 2, 129, 89], some 122#8, none, true) := by decide +kernel

/-- input.rs:319-328 `verify_read_u8_cursor`. -/
example : okOf readU8Test (cursor [0, 2, 129, 89, 122]) =
    some (bytes [0, 2, 129, 89], some 122#8, none, true) := by decide +kernel

def twiceTest {α : Type} (m : Dec σ α) : Dec σ (α × α × Bool) := do
  let a ← m
  let b ← m
  let c ← isErr m
  pure (a, b, c)

/-- input.rs:331-336 `verify_read_be_u16_buffered_reader`. -/
example : okOf (twiceTest readBeU16) (buffered [0, 2, 129, 89, 122]) = some (2#16, 33113#16, true) := by
  decide +kernel

/-- input.rs:339-344 `verify_read_be_u16_cursor`. -/
example : okOf (twiceTest readBeU16) (cursor [0, 2, 129, 89, 122]) = some (2#16, 33113#16, true) := by
  decide +kernel

/-- input.rs:347-352 `verify_read_be_u24_buffered_reader`. -/
example : okOf (twiceTest readBeU24) (buffered [0, 0, 2, 0x8f, 0xff, 0xf3, 122]) =
    some (2#32, 9_437_171#32, true) := by decide +kernel

/-- input.rs:355-360 `verify_read_be_u24_cursor`. -/
example : okOf (twiceTest readBeU24) (cursor [0, 0, 2, 0x8f, 0xff, 0xf3, 122]) =
    some (2#32, 9_437_171#32, true) := by decide +kernel

/-- input.rs:363-368 `verify_read_be_u32_buffered_reader`. -/
example : okOf (twiceTest readBeU32) (buffered [0, 0, 0, 2, 0x80, 0x01, 0xff, 0xe9, 0]) =
    some (2#32, 2_147_614_697#32, true) := by decide +kernel

/-- input.rs:371-376 `verify_read_be_u32_cursor`. -/
example : okOf (twiceTest readBeU32) (cursor [0, 0, 0, 2, 0x80, 0x01, 0xff, 0xe9, 0]) =
    some (2#32, 2_147_614_697#32, true) := by decide +kernel

/-- input.rs:379-384 `verify_read_le_u32_buffered_reader`. -/
example : okOf (twiceTest readLeU32) (buffered [2, 0, 0, 0, 0xe9, 0xff, 0x01, 0x80, 0]) =
    some (2#32, 2_147_614_697#32, true) := by decide +kernel

/-- input.rs:387-392 `verify_read_le_u32_cursor`. -/
example : okOf (twiceTest readLeU32) (cursor [2, 0, 0, 0, 0xe9, 0xff, 0x01, 0x80, 0]) =
    some (2#32, 2_147_614_697#32, true) := by decide +kernel

end Input

/-! ### input.rs, `Bitstream` -/

section Bits

open Bitstream

/-- Read numbers of `n` bits for the `n` in the list, with the function `f`. -/
def reads {α : Type} (f : Nat → Dec (Bitstream BufferedReader) α) (l : List Nat) :
    Dec (Bitstream BufferedReader) (List α) := l.mapM f

/-- `n` times `read_bit()`. -/
def bitsTest (n : Nat) : Dec (Bitstream BufferedReader) (List Bool) := (List.replicate n ()).mapM fun _ => readBit

/-- input.rs:646-669 `verify_read_bit`. -/
example : okOf (do
    let a ← bitsTest 3
    let b ← readLeqU8 1
    let c ← bitsTest 4
    let d ← bitsTest 3
    let e ← readLeqU8 2
    let f ← bitsTest 3
    let g ← isErr readBit
    pure ([a, c, d, f], b, e, g)) (bits [0b1010_0100, 0b1110_0001]) =
    some ([[true, false, true], [false, true, false, false], [true, true, true], [false, false, true]], 0#8, 0#8,
      true) := by decide +kernel

/-- input.rs:672-692 `verify_read_unary`. -/
example : okOf (do
    let a ← (List.replicate 6 ()).mapM fun _ => readUnary
    let b ← readLeqU8 3
    let c ← isErr readBit
    pure (a, b, c)) (bits [0b1010_0100, 0b1000_0000, 0b0010_0000, 0b0000_0000, 0b0000_1010]) =
    some ([0, 1, 2, 2, 9, 17], 0b010#8, true) := by decide +kernel

/-- input.rs:695-724 `verify_read_leq_u8`. -/
example : okOf (reads readLeqU8 [0, 1, 1, 2, 2, 3, 3, 4, 5, 6, 7, 8, 6, 8, 4, 1, 1, 2])
    (bits [0b1010_0101, 0b1110_0001, 0b1101_0010, 0b0101_0101, 0b0111_0011, 0b0011_1111, 0b1010_1010, 0b0000_1100]) =
    some (bytes [0, 1, 0, 0b10, 0b01, 0b011, 0b110, 0b0001, 0b11010, 0b010010, 0b1010101, 0b11001100, 0b111111,
      0b10101010, 0b0000, 1, 1, 0b00]) := by decide +kernel

/-- input.rs:727-737 `verify_read_gt_u8_get_u16`. -/
example : okOf (do
    let a ← readGtU8LeqU16 10
    let b ← readGtU8LeqU16 10
    let c ← readLeqU8 3
    let d ← readGtU8LeqU16 10
    let e ← readLeqU8 7
    let f ← isErr (readGtU8LeqU16 10)
    pure (a, b, c, d, e, f)) (bits [0b1010_0101, 0b1110_0001, 0b1101_0010, 0b0101_0101, 0b1111_0000]) =
    some (0b1010_0101_11#32, 0b10_0001_1101#32, 0b001#8, 0b0_0101_0101_1#32, 0b111_0000#8, true) := by decide +kernel

/-- input.rs:740-748 `verify_read_leq_u16`. -/
example : okOf (reads readLeqU16 [0, 1, 13, 9]) (bits [0b1010_0101, 0b1110_0001, 0b1101_0010, 0b0101_0101]) =
    some [0#16, 1#16, 0b010_0101_1110_00#16, 0b01_1101_001#16] := by decide +kernel

/-- input.rs:751-758 `verify_read_leq_u32`. -/
example : okOf (reads readLeqU32 [1, 17, 14]) (bits [0b1010_0101, 0b1110_0001, 0b1101_0010, 0b0101_0101]) =
    some [1#32, 0b010_0101_1110_0001_11#32, 0b01_0010_0101_0101#32] := by decide +kernel

/-- input.rs:761-777 `verify_read_mixed`. -/
example : okOf (do
    let a ← readLeqU8 6
    let b ← readLeqU8 1
    let c ← reads readLeqU32 [17, 17, 17, 17, 17, 17, 17]
    pure (a, b, c)) (bits [0x03, 0xc7, 0xbf, 0xe5, 0x9b, 0x74, 0x1e, 0x3a, 0xdd, 0x7d, 0xc5, 0x5e, 0xf6, 0xbf, 0x78,
      0x1b, 0xbd]) =
    some (0#8, 1#8, [-14401, -13514, -12168, -10517, -9131, -8489, -8698].map fun (x : Int) =>
      (1#32 <<< 16) ||| (BitVec.ofInt 16 x).setWidth 32) := by decide +kernel

end Bits

/-! ### crc.rs -/

/-- crc.rs:177-185 `verify_crc8`: the checksum after reading all bytes. -/
def crc8Test (l : List Nat) : Option U8 :=
  match (l.mapM fun _ => readU8OrEof) (Crc8Reader.new (buffered l)) with
  | (.ok _, r) => some r.crc
  | _ => none

/-- crc.rs:187-195 `verify_crc16`. -/
def crc16Test (l : List Nat) : Option U16 :=
  match (l.mapM fun _ => readU8OrEof) (Crc16Reader.new (buffered l)) with
  | (.ok _, r) => some r.crc
  | _ => none

/-- crc.rs:198-202 `verify_crc8_test_vectors`. -/
example : crc8Test [0x1f] = some 0x5d#8 ∧ crc8Test [0x04, 0x01] = some 0x53#8 ∧
    crc8Test [0x61, 0x62, 0x63] = some 0x5f#8 := by decide +kernel

/-- crc.rs:205-209 `verify_crc16_test_vectors`. -/
example : crc16Test [0x1f] = some 0x8041#16 ∧ crc16Test [0x04, 0x01] = some 0x1806#16 ∧
    crc16Test [0x61, 0x62, 0x63] = some 0xcadb#16 := by decide +kernel

/-! ### frame.rs -/

/-- frame.rs:108-131 `verify_read_var_length_int`. -/
example : okOf (do
    let a ← (List.replicate 4 ()).mapM fun _ => readVarLengthInt
    let b ← errOf readVarLengthInt
    let c ← errOf readVarLengthInt
    pure (a, b, c))
    (buffered [0x24, 0xc2, 0xa2, 0xe2, 0x82, 0xac, 0xf0, 0x90, 0x8d, 0x88, 0xc2, 0x00, 0x80]) =
    some ([0x24#64, 0xa2#64, 0x20ac#64, 0x010348#64], some (.formatError "invalid variable-length integer"),
      some (.formatError "invalid variable-length integer")) := by decide +kernel

/-- frame.rs:337-342 `verify_decode_left_side`. -/
example : decodeLeftSide (ints [2, 5, 83, 113, 127, -63, -45, -15, 7, 38, 142, 238, 0, -152, -52, -18]) =
    ints [2, 5, 83, 113, 127, -63, -45, -15, -5, -33, -59, -125, 127, 89, 7, 3] := by decide +kernel

/-- frame.rs:363-368 `verify_decode_right_side`. -/
example : decodeRightSide (ints [7, 38, 142, 238, 0, -152, -52, -18, -5, -33, -59, -125, 127, 89, 7, 3]) =
    ints [2, 5, 83, 113, 127, -63, -45, -15, -5, -33, -59, -125, 127, 89, 7, 3] := by decide +kernel

/-- frame.rs:392-399 `verify_decode_mid_side`. -/
example : decodeMidSide (ints [-2, -14, 12, -6, 127, 13, -19, -6, 7, 38, 142, 238, 0, -152, -52, -18]) =
    ints [2, 5, 83, 113, 127, -63, -45, -15, -5, -33, -59, -125, 127, 89, 7, 3] := by decide +kernel

/-- A block with the fields given in the tests. -/
def block (blockSize channels : Nat) (l : List Int) : Block :=
  { firstSampleNumber := 0, blockSize := blockSize, channels := channels, buffer := ⟨ints l, l.length⟩ }

/-- frame.rs:532-543 `verify_block_sample`. -/
example :
    let b := block 5 3 [2, 3, 5, 7, 11, 13, 17, 19, 23, 29, 31, 37, 41, 43, 47]
    okRes (b.sample 0 2) = some 5#32 ∧ okRes (b.sample 1 3) = some 23#32 ∧ okRes (b.sample 2 4) = some 47#32 := by
  decide +kernel

/-- frame.rs:583-597 `verify_block_stereo_samples_iterator`. -/
example : ((okRes (block 3 2 [2, 3, 5, 7, 11, 13, 17, 19, 23, 29, 31, 37, 41, 43, 47]).stereoSamples).bind fun it =>
    okOf ((List.replicate 4 ()).mapM fun _ => StereoSamples.next) it) =
    some [some (2#32, 7#32), some (3#32, 11#32), some (5#32, 13#32), none] := by decide +kernel

/-- frame.rs:640-648 `ensure_buffer_len_returns_buffer_with_new_len`. -/
example : ∀ capacity < 10, ∀ newLen < 10, (ensureBufferLen ⟨[], capacity⟩ newLen).len = newLen := by decide +kernel

/-! ### subframe.rs -/

/-- subframe.rs:104-112 `verify_extend_sign_u16`. -/
example : okRes (extendSignU16 5#16 4) = some 5#16 ∧ okRes (extendSignU16 0x3ffe#16 15) = some 0x3ffe#16 ∧
    okRes (extendSignU16 (16 - 5) 4) = some (-5) ∧ okRes (extendSignU16 (512 - 3) 9) = some (-3) ∧
    okRes (extendSignU16 0xffff#16 16) = some (-1) ∧ okRes (extendSignU16 0xfffe#16 16) = some (-2) ∧
    okRes (extendSignU16 0x7fff#16 15) = some (-1) := by decide +kernel

/-- subframe.rs:125-140 `verify_extend_sign_u32`. -/
example : okRes (extendSignU32 5#32 4) = some 5#32 ∧ okRes (extendSignU32 0x3ffffffe#32 31) = some 0x3ffffffe#32 ∧
    okRes (extendSignU32 (16 - 5) 4) = some (-5) ∧ okRes (extendSignU32 (512 - 3) 9) = some (-3) ∧
    okRes (extendSignU32 0xfffe#32 16) = some (-2) ∧ okRes (extendSignU32 0xffffffff#32 32) = some (-1) ∧
    okRes (extendSignU32 0xfffffffe#32 32) = some (-2) ∧ okRes (extendSignU32 0x7fffffff#32 31) = some (-1) ∧
    okRes (extendSignU32 124680#32 17) = some (-6392) ∧ okRes (extendSignU32 124467#32 17) = some (-6605) ∧
    okRes (extendSignU32 124222#32 17) = some (-6850) ∧ okRes (extendSignU32 124011#32 17) = some (-7061) := by
  decide +kernel

/-- subframe.rs:173-179 `verify_rice_to_signed`. -/
example : riceToSigned 0#32 = 0 ∧ riceToSigned 1#32 = -1 ∧ riceToSigned 2#32 = 1 ∧ riceToSigned 3#32 = -2 ∧
    riceToSigned 4#32 = 2 := by decide +kernel

/-- subframe.rs:477-490 `verify_predict_fixed`. -/
example : okRes (predictFixed 3 (ints [-729, -722, -667, -19, -16, 17, -23, -7, 16, -16, -5, 3, -8, -13, -15, -1])) =
      some (ints [-729, -722, -667, -583, -486, -359, -225, -91, 59, 209, 354, 497, 630, 740, 812, 845]) ∧
    okRes (predictFixed 2 (ints [21877, 27482, -6513])) = some (ints [21877, 27482, 26574]) := by decide +kernel

/-- subframe.rs:617-649 `verify_predict_lpc`. -/
example :
    okRes (predictLpcLowOrder (shorts [-75, 166, 121, -269, -75, -399, 1042]) 9
      (ints [-796, -547, -285, -32, 199, 443, 670, -2, -23, 14, 6, 3, -4, 12, -2, 10])) =
      some (ints [-796, -547, -285, -32, 199, 443, 670, 875, 1046, 1208, 1343, 1454, 1541, 1616, 1663, 1701]) ∧
    okRes (predictLpcLowOrder (shorts [119, -255, 555, -836, 879, -1199, 1757]) 10
      (ints [-21363, -21951, -22649, -24364, -27297, -26870, -30017, 3157])) =
      some (ints [-21363, -21951, -22649, -24364, -27297, -26870, -30017, -29718]) ∧
    okRes (predictLpcHighOrder (shorts [709, -2589, 4600, -4612, 1350, 4220, -9743, 12671, -12129, 8586, -3775, -645,
        3904, -5543, 4373, 182, -6873, 13265, -15417, 11550]) 12
      (ints [213238, 210830, 234493, 209515, 235139, 201836, 208151, 186277, 157720, 148176, 115037, 104836, 60794,
        54523, 412, 17943, -6025, -3713, 8373, 11764, 30094])) =
      some (ints [213238, 210830, 234493, 209515, 235139, 201836, 208151, 186277, 157720, 148176, 115037, 104836, 60794,
        54523, 412, 17943, -6025, -3713, 8373, 11764, 33931]) := by decide +kernel

end Conformance

end Claxon
