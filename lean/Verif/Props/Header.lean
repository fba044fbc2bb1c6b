import Verif.Proof.FrameApi
import Verif.Props.Example

/-! # C10, C11, C12, C13, C14, C56: frame headers -/

namespace Claxon.Props

open Claxon Spec ReadBytes

/-! ## C10 -/

/-- **C10.** Every value of at most 36 bits in its shortest coding is decoded to that value, and exactly
its coding is consumed. -/
theorem C10_roundtrip {v : Nat} (hv : v < 2 ^ 36) {r : BufferedReader} {rest : List U8}
    {fault : Option Nat} (hr : r.Remaining (codedNumber (shortestLength v) v ++ rest) fault) :
    ∃ a r', readVarLengthInt r = (.ok a, r') ∧ a.toNat = v ∧ r'.Remaining rest fault := by
  obtain ⟨r', h1, h2⟩ := Sim.ok (simBufferedRd fault).toSimU8.readVarLengthInt hr
    (breads_readVarLengthInt (.inl (codedNumberOk_shortest hv)) rest fault)
  refine ⟨_, r', h1, ?_, h2⟩
  rw [BitVec.toNat_ofNat]
  exact Nat.mod_eq_of_lt (by omega)

/-- A continuation byte, `10xxxxxx`. -/
def IsContinuation (b : U8) : Prop := 0b10000000 ≤ b.toNat ∧ b.toNat < 0b11000000

/-- **C10.** A continuation byte in front is a format error. -/
theorem C10_stray {b : U8} (hb : IsContinuation b) {r : BufferedReader} {rest : List U8}
    {fault : Option Nat} (hr : r.Remaining (b :: rest) fault) :
    (readVarLengthInt r).1 = .error (.err (.formatError "invalid variable-length integer")) := by
  rw [Sim.result (simBufferedRd fault).toSimU8.readVarLengthInt hr]
  unfold readVarLengthInt
  rw [Dec.bind_ok _ (flat_readU8 b rest fault)]
  have hspec := leadingOnes_spec b
  generalize leadingOnesLoop b 8 0 127#8 128#8 = p at hspec ⊢
  rcases p with ⟨ones, mask⟩
  simp only at hspec ⊢
  obtain ⟨h1, h2⟩ := hb
  rw [if_pos]
  · rfl
  · rcases hspec with ⟨_, h, _⟩ | ⟨h, _⟩ | ⟨ha, hb, h, h'⟩
    · omega
    · exact h
    · interval_cases ones <;> omega

theorem varLengthLoop_bad : ∀ (i : Nat), i ≤ 7 → ∀ (result : U64) (good : List U8) (bad : U8)
    (rest : List U8) (fault : Option Nat), good.length < i → (∀ b ∈ good, IsContinuation b) →
    ¬ IsContinuation bad →
    (varLengthLoop i result (⟨good ++ bad :: rest, fault⟩ : Flat)).1 =
      .error (.err (.formatError "invalid variable-length integer"))
  | 0, _, _, _, _, _, _, h, _, _ => by omega
  | i + 1, hi, result, good, bad, rest, fault, h, hgood, hbad => by
    have key : ∀ b : U8, (b &&& 0b1100_0000#8 ≠ 0b1000_0000#8) ↔ ¬ IsContinuation b := by
      unfold IsContinuation; decide +kernel
    unfold varLengthLoop
    cases good with
    | nil =>
      rw [List.nil_append, Dec.bind_ok _ (flat_readU8 bad rest fault), if_pos ((key _).2 hbad)]
      rfl
    | cons g good =>
      rw [List.cons_append, Dec.bind_ok _ (flat_readU8 g (good ++ bad :: rest) fault),
        if_neg (not_not.2 (by have := hgood g (by simp); by_contra hc; exact (key _).1 hc this)),
        Dec.bind_liftM_of (shl_ok (by omega))]
      exact varLengthLoop_bad i (by omega) _ good bad rest fault (by simpa using h)
        (fun b hb => hgood b (by simp [hb])) hbad

/-- **C10.** The first byte `first` starts with `n + 1` ones, so `n` continuation bytes should follow.
If there are fewer and then another byte, that is a format error. -/
theorem C10_bad_continuation {n : Nat} (h1 : 1 ≤ n) (hn : n ≤ 6) {first bad : U8} {good rest : List U8}
    (hf : 256 - 2 ^ (7 - n) ≤ first.toNat) (hf' : first.toNat < 256 - 2 ^ (6 - n))
    (hl : good.length < n) (hgood : ∀ b ∈ good, IsContinuation b) (hbad : ¬ IsContinuation bad)
    {r : BufferedReader} {fault : Option Nat}
    (hr : r.Remaining (first :: (good ++ bad :: rest)) fault) :
    (readVarLengthInt r).1 = .error (.err (.formatError "invalid variable-length integer")) := by
  rw [Sim.result (simBufferedRd fault).toSimU8.readVarLengthInt hr]
  unfold readVarLengthInt
  rw [Dec.bind_ok _ (flat_readU8 first _ fault)]
  have hspec := leadingOnes_spec first
  generalize leadingOnesLoop first 8 0 127#8 128#8 = p at hspec ⊢
  rcases p with ⟨ones, mask⟩
  simp only at hspec ⊢
  have hones : ones = n + 1 := by
    generalize first.toNat = x at hspec hf hf'
    generalize (first &&& mask).toNat = m at hspec
    rcases hspec with ⟨_, h, _⟩ | ⟨_, h, h'⟩ | ⟨ha, hb, h, h'⟩
    · interval_cases n <;> omega
    · interval_cases n <;> omega
    · interval_cases ones <;> interval_cases n <;> omega
  subst hones
  rw [if_neg (by omega), Dec.bind_liftM_of (shl_ok (by omega))]
  exact varLengthLoop_bad n (by omega) _ good bad rest fault hl hgood hbad

/-- **C10.** Whatever is decoded was a coding of the result with up to seven continuation bytes. -/
theorem C10_only {r r' : BufferedReader} {bytes : List U8} {fault : Option Nat} {a : U64}
    (hr : r.Remaining bytes fault) (h : readVarLengthInt r = (.ok a, r')) :
    ∃ n rest, n ≤ 7 ∧ bytes = codedNumber n a.toNat ++ rest ∧ r'.Remaining rest fault := by
  obtain ⟨rest, h1, h2⟩ := Sim.of_ok (simBufferedRd fault).toSimU8.readVarLengthInt hr h
  have h3 := btriple_readVarLengthInt ⟨bytes, fault⟩
  rw [h1] at h3
  obtain ⟨-, used, hu, n, hn, rfl⟩ := h3
  exact ⟨n, rest, (codedNumber_top hn).1, hu, h2⟩

example : codedNumber (shortestLength 0x12345) 0x12345 = [0xf0, 0x92, 0x8d, 0x85] ∧
    (BufferedReader.new (bytewise [0xf0, 0x92, 0x8d, 0x85])).Remaining
      (codedNumber (shortestLength 0x12345) 0x12345 ++ []) none :=
  ⟨by decide +kernel, by
    have : codedNumber (shortestLength 0x12345) 0x12345 ++ [] = [0xf0, 0x92, 0x8d, 0x85] := by
      decide +kernel
    rw [this]; exact bytewise_remaining _⟩

example : IsContinuation 0x85#8 ∧ ¬ IsContinuation 0xc5#8 ∧ 256 - 2 ^ (7 - 3) ≤ (0xf0#8 : U8).toNat ∧
    (0xf0#8 : U8).toNat < 256 - 2 ^ (6 - 3) := by
  unfold IsContinuation; decide

/-! ## C11 -/

/-- A frame in the variable-blocksize strategy whose sample number is coded with seven continuation
bytes, after a first byte 0xff. -/
def longFrame : Frame where
  header :=
    { variableBlockSize := true, blockSize := .bits8 0, sampleRate := .streaminfo
      channels := .independent 0, sampleSize := .bits8, number := 2 ^ 42 - 1, numberLength := 7 }
  subframes := [⟨.constant 5, 0⟩]
  padding := []

theorem longFrame_wellFormed : longFrame.WellFormed 8 where
  header := ⟨.inr (by decide), by decide⟩
  sampleSize := rfl
  count := rfl
  subframes := by
    intro p hp
    have : p = (8, ⟨.constant 5, 0⟩) := by simpa [longFrame, ChannelField.depths] using hp
    subst this
    exact ⟨by decide, by unfold Coding.WellFormed; decide⟩
  padding := by decide
  aligned := by decide +kernel

/-- **C11** is false: there is a stream with a frame in the variable-blocksize strategy that is accepted,
and its block is reported to be at position 2^42 - 1. -/
theorem C11_false : ¬ ∀ (r r' : BufferedReader) (bytes : List U8) (fault : Option Nat) (buffer : VecI32)
    (b : Block), r.Remaining bytes fault → bytes[1]? = some 0xf9#8 →
    readNextOrEof buffer r = (.ok (some b), r') → b.time < 2 ^ 36 := by
  intro h
  have hr : (BufferedReader.new (bytewise (longFrame.bytes 8))).Remaining (longFrame.bytes 8 ++ []) none := by
    rw [List.append_nil]; exact bytewise_remaining _
  obtain ⟨r', h1, -⟩ := buffered_frame longFrame_wellFormed .empty hr
  have := h _ _ _ _ _ _ hr (by decide +kernel) h1
  exact absurd this (by decide +kernel)

theorem fieldBytes_one (h : Spec.FrameHeader) (rest : List U8) :
    (h.fieldBytes ++ rest)[1]? = some (BitVec.ofNat 8 (0xf8 + h.variableBlockSize.toNat)) := rfl

theorem fieldBytes_four (h : Spec.FrameHeader) (rest : List U8) :
    (h.fieldBytes ++ rest)[4]? = some (BitVec.ofNat 8
      ((if h.numberLength = 0 then 0 else 256 - 2 ^ (7 - h.numberLength)) +
        h.number / 64 ^ h.numberLength)) := rfl

theorem time_variable {h : Spec.FrameHeader} (hv : BitVec.ofNat 8 (0xf8 + h.variableBlockSize.toNat) = 0xf9#8) :
    h.variableBlockSize = true ∧ h.time = h.number := by
  rcases hb : h.variableBlockSize with _ | _
  · rw [hb] at hv; exact absurd hv (by decide)
  · simp [FrameHeader.time, hb]

/-- **C11**, as far as it holds: the position is a 36-bit number unless the coded number, the fifth byte of
the frame, begins with 0xff (which the format does not allow), and then it is a 42-bit number. -/
theorem C11_partial {r r' : BufferedReader} {bytes : List U8} {fault : Option Nat} {buffer : VecI32}
    {b : Block} (hr : r.Remaining bytes fault) (hv : bytes[1]? = some 0xf9#8)
    (h : readNextOrEof buffer r = (.ok (some b), r')) :
    b.time < 2 ^ 42 ∧ (bytes[4]? ≠ some 0xff#8 → b.time < 2 ^ 36) := by
  obtain ⟨bps, f, rest, hw, hb, -, rfl⟩ := of_buffered_frame hr h
  have hb' : bytes = f.header.fieldBytes ++ ([crc8 f.header.fieldBytes] ++ bitsToBytes (f.bodyBits bps) ++
      beBytes 2 (crc16 (f.contentBytes bps)).toNat ++ rest) := by
    rw [hb]; simp [Frame.bytes, Frame.contentBytes, FrameHeader.bytes]
  rw [hb', fieldBytes_one] at hv
  obtain ⟨-, ht⟩ := time_variable (Option.some.inj hv)
  have hn := hw.header.number
  show f.header.time < _ ∧ (_ → f.header.time < _)
  rw [ht, hb', fieldBytes_four]
  refine ⟨codedNumber_lt hn, fun h4 => ?_⟩
  rcases hn with ⟨hn, hlt⟩ | ⟨hn, hlt⟩
  · refine Nat.lt_of_lt_of_le hlt (Nat.pow_le_pow_right (by omega) ?_)
    unfold codedNumberBits; split <;> omega
  · exfalso
    apply h4
    rw [hn, Nat.div_eq_of_lt (by omega)]
    rfl

/-- The first frame of a stream in the variable-blocksize strategy. -/
def variableFrame : Frame :=
  { longFrame with header := { longFrame.header with number := 0x12345, numberLength := 3 } }

theorem variableFrame_wellFormed : variableFrame.WellFormed 8 where
  header := ⟨.inl ⟨by decide, by decide⟩, by decide⟩
  sampleSize := rfl
  count := rfl
  subframes := longFrame_wellFormed.subframes
  padding := by decide
  aligned := by decide +kernel

example : ∃ r' b, readNextOrEof .empty (BufferedReader.new (bytewise (variableFrame.bytes 8))) =
    (.ok (some b), r') ∧ (variableFrame.bytes 8)[1]? = some 0xf9#8 ∧
      (variableFrame.bytes 8)[4]? ≠ some 0xff#8 := by
  obtain ⟨r', h1, -⟩ := buffered_frame (rest := []) (fault := none)
    (r := BufferedReader.new (bytewise (variableFrame.bytes 8))) variableFrame_wellFormed .empty
    (by rw [List.append_nil]; exact bytewise_remaining _)
  exact ⟨r', _, h1, by decide +kernel, by decide +kernel⟩

/-! ## C12 -/

/-- **C12.** If a frame is accepted, then its block has 1 to 65535 samples in each of 1 to 8 channels, it
has 8, 12, 16, 20 or 24 bits per sample, and its first four bytes contain no reserved bit pattern. -/
theorem C12_legal {r r' : BufferedReader} {bytes : List U8} {fault : Option Nat} {buffer : VecI32}
    {b : Block} (hr : r.Remaining bytes fault) (h : readNextOrEof buffer r = (.ok (some b), r')) :
    (1 ≤ b.duration ∧ b.duration ≤ 65535) ∧ (1 ≤ b.channels ∧ b.channels ≤ 8) ∧
    ∃ b0 b1 b2 b3 : U8, ∃ tail, bytes = b0 :: b1 :: b2 :: b3 :: tail ∧
      -- sync code, reserved bit, blocking strategy
      b0 = 0xff#8 ∧ (b1 = 0xf8#8 ∨ b1 = 0xf9#8) ∧
      -- block size and sample rate codes
      b2.toNat / 16 ≠ 0b0000 ∧ b2.toNat % 16 ≠ 0b1111 ∧
      -- channel assignment
      b3.toNat / 16 ≤ 0b1010 ∧
      -- sample size: 8, 12, 16, 20 or 24 bits
      b3.toNat / 2 % 8 ∈ [0b001, 0b010, 0b100, 0b101, 0b110] ∧
      -- reserved bit
      b3.toNat % 2 = 0 := by
  obtain ⟨bps, f, rest, hw, hb, -, rfl⟩ := of_buffered_frame hr h
  refine ⟨size_bounds _, count_bounds _, _, _, _, _, _, hb, rfl, ?_, ?_, ?_, ?_, ?_, ?_⟩
  · cases f.header.variableBlockSize <;> decide
  all_goals
    have c1 := code_lt1 f.header.blockSize
    have c2 := code_lt2 f.header.sampleRate
    have c3 := code_lt3 f.header.channels
    have c4 := code_lt4 f.header.sampleSize
    rw [BitVec.toNat_ofNat, Nat.mod_eq_of_lt (b := 2 ^ 8) (by omega)]
  · have : 0 < f.header.blockSize.code := by
      cases f.header.blockSize <;> simp [BlockSizeField.code]
    omega
  · omega
  · omega
  · rw [show (16 * f.header.channels.code + 2 * f.header.sampleSize.code) / 2 % 8 =
      f.header.sampleSize.code by omega]
    have := hw.sampleSize
    cases hs : f.header.sampleSize <;> rw [hs] at this <;> first | decide | simp [SampleSizeField.bits] at this
  · omega

/-- **C12.** A header that defers the bit depth to the streaminfo block yields `Unsupported`. -/
theorem C12_deferred {r : BufferedReader} {fault : Option Nat} {hd : Spec.FrameHeader}
    (hw : hd.WellFormed) (hs : hd.sampleSize = .streaminfo) {rest : List U8}
    (hr : r.Remaining (hd.bytes ++ rest) fault) (buffer : VecI32) :
    (readNextOrEof buffer r).1 =
      .error (.err (.unsupported "header without bits per sample info")) := by
  rw [Sim.result ((simBufferedRd fault).readNextOrEof buffer) hr, readNextOrEof_flat]
  have hh := reads_header hd hw rest fault
  rw [readFrameHeaderOrEof_flat] at hh
  rw [Dec.bind_ok _ hh]
  simp only [flatBody]
  rw [show (headerOf hd).bitsPerSample = none by show hd.sampleSize.bits = none; rw [hs]; rfl]
  rfl

/-- A header that defers the bit depth to the streaminfo block. -/
def deferringHeader : Spec.FrameHeader := { exampleFrame.header with sampleSize := .streaminfo }

example : deferringHeader.WellFormed ∧ deferringHeader.sampleSize = .streaminfo ∧
    (BufferedReader.new (bytewise (deferringHeader.bytes ++ [1, 2, 3]))).Remaining
      (deferringHeader.bytes ++ [1, 2, 3]) none :=
  ⟨⟨exampleFrame_encodes.legal.wellFormed.header.number,
    exampleFrame_encodes.legal.wellFormed.header.frameNumber⟩, rfl, bytewise_remaining _⟩

/-! ## C13 and C56 -/

/-- The channel assignment. -/
def ChannelsAgree : ChannelField → ChannelAssignment → Prop
  | .independent n, .independent k => k = n.val + 1
  | .leftSide, .leftSideStereo => True
  | .rightSide, .rightSideStereo => True
  | .midSide, .midSideStereo => True
  | _, _ => False

/-- **C13.** Every legal header is accepted, decoded to its values, and exactly it is consumed. -/
theorem C13_understood {hd : Spec.FrameHeader} (hl : hd.Legal) {r : BufferedReader} {rest : List U8}
    {fault : Option Nat} (hr : r.Remaining (hd.bytes ++ rest) fault) :
    ∃ x r', readFrameHeaderOrEof r = (.ok (some x), r') ∧ r'.Remaining rest fault ∧
      x.blockTime = (if hd.variableBlockSize then .sampleNumber hd.number else .frameNumber hd.number) ∧
      x.blockSize = hd.blockSize.size ∧
      ChannelsAgree hd.channels x.channelAssignment ∧
      x.channels = hd.channels.count ∧
      x.bitsPerSample = hd.sampleSize.bits := by
  obtain ⟨r', h1, h2⟩ := Sim.ok (simBufferedRd fault).readFrameHeaderOrEof hr
    (reads_header hd hl.wellFormed rest fault)
  refine ⟨_, r', h1, h2, rfl, rfl, ?_, channels_headerOf hd, rfl⟩
  show ChannelsAgree hd.channels (caOf hd.channels)
  cases hd.channels <;> simp [ChannelsAgree, caOf]

/-- The header of the example frame, of four samples in two channels of 16 bits. -/
example : ∃ x r', readFrameHeaderOrEof (BufferedReader.new (bytewise exampleFrame.header.bytes)) = (.ok (some x), r') ∧
    x.blockSize = 4 ∧ x.channels = 2 ∧ x.bitsPerSample = some 16 := by
  obtain ⟨x, r', h, -, -, h1, -, h2, h3⟩ := C13_understood exampleFrame_encodes.legal.header (rest := [])
    (by rw [List.append_nil]; exact bytewise_remaining exampleFrame.header.bytes)
  exact ⟨x, r', h, h1, h2, h3⟩

/-- **C56** is false: a sample rate coded in kHz is not multiplied by 1000. -/
theorem C56_false : ¬ ∀ (hd : Spec.FrameHeader), hd.Legal → ∀ (r : BufferedReader) (rest : List U8)
    (fault : Option Nat), r.Remaining (hd.bytes ++ rest) fault →
    ∃ x r', readFrameHeaderOrEof r = (.ok (some x), r') ∧ x.sampleRate = hd.sampleRate.rate := by
  intro h
  let hd : Spec.FrameHeader := { exampleFrame.header with sampleRate := .kiloHertz 48 }
  have hl : hd.Legal := ⟨by decide, by decide, by decide⟩
  have hr := bytewise_remaining (hd.bytes ++ [])
  obtain ⟨x, r', h1, h2⟩ := h hd hl _ _ _ hr
  obtain ⟨r'', h3, -⟩ := Sim.ok (simBufferedRd none).readFrameHeaderOrEof hr
    (reads_header hd hl.wellFormed [] none)
  rw [h1] at h3
  cases h3
  revert h2
  decide

/-- **C56**, as far as it holds: all other codings of the sample rate are decoded as the format says. -/
theorem C56_partial {hd : Spec.FrameHeader} (hl : hd.Legal) (hk : ∀ n, hd.sampleRate ≠ .kiloHertz n)
    {r : BufferedReader} {rest : List U8} {fault : Option Nat}
    (hr : r.Remaining (hd.bytes ++ rest) fault) :
    ∃ x r', readFrameHeaderOrEof r = (.ok (some x), r') ∧ x.sampleRate = hd.sampleRate.rate := by
  obtain ⟨r', h1, h2⟩ := Sim.ok (simBufferedRd fault).readFrameHeaderOrEof hr
    (reads_header hd hl.wellFormed rest fault)
  refine ⟨_, r', h1, ?_⟩
  show rateOf hd.sampleRate = _
  cases hs : hd.sampleRate <;> simp [rateOf]
  exact absurd hs (hk _)

example : exampleFrame.header.Legal ∧ (∀ n, exampleFrame.header.sampleRate ≠ .kiloHertz n) ∧
    exampleFrame.header.sampleRate.rate = some 44100 ∧
    exampleFrame.header.bytes = [0xff, 0xf8, 0x69, 0xa8, 0xc4, 0xac, 0x03, 0x67] :=
  ⟨exampleFrame_encodes.legal.header, fun n h => (by cases h), rfl, by decide +kernel⟩

/-! ## C14 -/

/-- **C14.** The time of a block is the sample number in its header, or the frame number times the block
size (as natural numbers, without overflow). -/
theorem C14_time {r r' : BufferedReader} {bytes : List U8} {fault : Option Nat} {buffer : VecI32}
    {b : Block} (hr : r.Remaining bytes fault) (h : readNextOrEof buffer r = (.ok (some b), r')) :
    ∃ (hd : Spec.FrameHeader) (tail : List U8), hd.WellFormed ∧ bytes = hd.bytes ++ tail ∧
      b.duration = hd.blockSize.size ∧
      b.time = (if hd.variableBlockSize then hd.number else hd.number * b.duration) ∧
      b.time < 2 ^ 64 := by
  obtain ⟨bps, f, rest, hw, hb, -, rfl⟩ := of_buffered_frame hr h
  refine ⟨f.header, bitsToBytes (f.bodyBits bps) ++ (beBytes 2 (crc16 (f.contentBytes bps)).toNat ++ rest),
    hw.header, ?_, rfl, rfl, ?_⟩
  · rw [hb]; simp [Frame.bytes, Frame.contentBytes]
  · show f.header.time < _
    have h1 := codedNumber_lt hw.header.number
    have h2 := size_bounds f.header.blockSize
    unfold FrameHeader.time
    split
    · omega
    · rename_i hv
      have h3 := hw.header.frameNumber (by simpa using hv)
      calc _ ≤ 2 ^ 31 * 65535 := Nat.mul_le_mul (by omega) h2.2
        _ < 2 ^ 64 := by norm_num

/-- **C14.** A frame number of more than 31 bits is rejected. -/
theorem C14_rejected {hd : Spec.FrameHeader} (hn : CodedNumberAccepted hd.numberLength hd.number)
    (hv : hd.variableBlockSize = false) (h31 : 2 ^ 31 ≤ hd.number) {r : BufferedReader}
    {rest : List U8} {fault : Option Nat} (hr : r.Remaining (hd.fieldBytes ++ rest) fault)
    (buffer : VecI32) :
    (readNextOrEof buffer r).1 =
      .error (.err (.formatError "invalid frame header, frame number too large")) := by
  rw [Sim.result ((simBufferedRd fault).readNextOrEof buffer) hr, readNextOrEof_flat]
  have e : hd.fieldBytes ++ rest = 0xff#8 :: BitVec.ofNat 8 (0xf8 + hd.variableBlockSize.toNat) ::
      (restBytes hd ++ rest) := by
    rw [fieldBytes_eq hd]; simp
  simp only
  rw [e]
  have h1 := bfails_headerFields hd hn hv h31 rest fault
  have h2 : (flatHeader (0xff#8 :: BitVec.ofNat 8 (0xf8 + hd.variableBlockSize.toNat) ::
      (restBytes hd ++ rest)) ⟨0xff#8 :: BitVec.ofNat 8 (0xf8 + hd.variableBlockSize.toNat) ::
      (restBytes hd ++ rest), fault⟩).1 =
      .error (.err (.formatError "invalid frame header, frame number too large")) := by
    unfold flatHeader
    show ((flatHeaderRest _ (syncOf hd.variableBlockSize) >>= _) _).1 = _
    unfold flatHeaderRest
    simp only [Dec.bind_def]
    generalize headerFields (syncOf hd.variableBlockSize) (⟨restBytes hd ++ rest, fault⟩ : Flat) = x
      at h1 ⊢
    rcases x with ⟨_, s⟩
    obtain ⟨rfl, -⟩ := h1
    rfl
  rw [Dec.bind_def]
  generalize flatHeader _ _ = x at h2 ⊢
  rcases x with ⟨_, s⟩
  obtain rfl := h2
  rfl

example : CodedNumberAccepted 6 (2 ^ 35) ∧
    (BufferedReader.new (bytewise
      (Spec.FrameHeader.fieldBytes { exampleFrame.header with number := 2 ^ 35, numberLength := 6 } ++
        [7]))).Remaining
      (Spec.FrameHeader.fieldBytes { exampleFrame.header with number := 2 ^ 35, numberLength := 6 } ++ [7])
      none := ⟨.inl ⟨by decide, by decide⟩, bytewise_remaining _⟩

end Claxon.Props
