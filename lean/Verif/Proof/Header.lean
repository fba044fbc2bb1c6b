import Verif.Proof.Varint
import Verif.Proof.Readers

/-! Frame headers. -/

namespace Claxon

open Spec ReadBytes

/-! ### What the decoder makes of the fields -/

/-- The channel assignment. -/
def caOf : ChannelField → ChannelAssignment
  | .independent n => .independent (n.val + 1)
  | .leftSide => .leftSideStereo
  | .rightSide => .rightSideStereo
  | .midSide => .midSideStereo

/-- The sample rate; in contrast to the format, a rate coded in kHz is not multiplied by 1000. -/
def rateOf : SampleRateField → Option Nat
  | .kiloHertz n => some n.val
  | f => f.rate

/-- The header. -/
def headerOf (h : Spec.FrameHeader) : Claxon.FrameHeader where
  blockTime := if h.variableBlockSize then .sampleNumber h.number else .frameNumber h.number
  blockSize := h.blockSize.size
  sampleRate := rateOf h.sampleRate
  channelAssignment := caOf h.channels
  bitsPerSample := h.sampleSize.bits

/-- The code of a block size. -/
def bsCodeOf : BlockSizeField → BlockSizeCode
  | .bits8 _ => .read8
  | .bits16 _ => .read16
  | f => .known f.size

/-- The code of a sample rate. -/
def srCodeOf : SampleRateField → SampleRateCode
  | .kiloHertz _ => .read8
  | .hertz _ => .read16
  | .tensOfHertz _ => .read16Ten
  | f => .known f.rate

/-! ### Fields -/

theorem beBytes_two (a b : U8) : beBytes 2 (a.toNat * 256 + b.toNat) = [a, b] := by
  have ha := a.isLt
  have hb := b.isLt
  simp only [beBytes, List.cons.injEq, and_true]
  constructor <;> apply BitVec.eq_of_toNat_eq <;> simp <;> omega

theorem breads_beU16 {v : Nat} (h : v < 2 ^ 16) : BReads readBeU16 (beBytes 2 v) (BitVec.ofNat 16 v) := by
  refine (breads_readBeU16 (BitVec.ofNat 8 (v / 256)) (BitVec.ofNat 8 v)).congr ?_ ?_
  · simp [beBytes]
  · apply BitVec.eq_of_toNat_eq
    rw [beU16_toNat]
    simp
    omega

theorem btriple_beU16 {lim : Limit} : BTriple lim (readBeU16 : Dec Flat U16)
    (fun u v => u = beBytes 2 v.toNat) := by
  refine btriple_readBeU16.mono ?_
  rintro _ v ⟨a, b, rfl, rfl⟩
  rw [beU16_toNat, beBytes_two]

theorem beBytes_one (b : U8) : beBytes 1 b.toNat = [b] := by simp [beBytes]

theorem blockSizeCode_code (f : BlockSizeField) :
    (blockSizeCode f.code : Dec Flat _) = pure (bsCodeOf f) := by
  cases f with
  | size192 => rfl
  | times576 k => revert k; intro k; match k with | 0 => rfl | 1 => rfl | 2 => rfl | 3 => rfl
  | times256 k =>
    match k with
    | 0 => rfl | 1 => rfl | 2 => rfl | 3 => rfl | 4 => rfl | 5 => rfl | 6 => rfl | 7 => rfl
  | bits8 n => rfl
  | bits16 n => rfl

theorem breads_blockSize (f : BlockSizeField) :
    BReads (readBlockSize (bsCodeOf f)) f.extra f.size := by
  cases f with
  | bits8 n =>
    have hn := n.isLt
    have e : (BitVec.ofNat 8 n.val).toNat = n.val := by simp
    show BReads _ [BitVec.ofNat 8 (n.val / 256 ^ 0)] _
    rw [show n.val / 256 ^ 0 = n.val by simp]
    refine (breads_readU8 _).bind_nil ?_
    rw [e]
    exact .lift (addU_ok (by omega))
  | bits16 n =>
    have hn := n.isLt
    have e : (BitVec.ofNat 16 n.val).toNat = n.val := by simp; omega
    show BReads (readBlockSize .read16) (beBytes 2 n.val) _
    refine (breads_beU16 (by omega)).bind_nil ?_
    rw [if_neg]
    · rw [e]; exact .lift (addU_ok (by omega))
    · intro h
      have := congrArg BitVec.toNat h
      rw [e] at this
      simp at this
      omega
  | _ => exact .pure _

theorem btriple_blockSizeCode {n : Nat} (hn : n < 16) :
    BTriple .never (blockSizeCode n) (fun u c => u = [] ∧
      BTriple .never (readBlockSize c) (fun v size => ∃ f : BlockSizeField,
        f.code = n ∧ f.extra = v ∧ f.size = size)) := by
  have known : ∀ f : BlockSizeField, f.code = n → f.extra = [] → bsCodeOf f = .known f.size →
      BTriple .never (blockSizeCode n) (fun u c => u = [] ∧
      BTriple .never (readBlockSize c) (fun v size => ∃ f : BlockSizeField,
        f.code = n ∧ f.extra = v ∧ f.size = size)) := by
    intro f h1 h2 h3
    rw [← h1, blockSizeCode_code, h3]
    exact .pure ⟨rfl, .pure ⟨f, rfl, h2, rfl⟩⟩
  have cases16 : n = 0 ∨ n = 1 ∨ (∃ k : Fin 4, n = 2 + k.val) ∨ n = 6 ∨ n = 7 ∨
      ∃ k : Fin 8, n = 8 + k.val := by
    by_cases h1 : n < 2
    · omega
    by_cases h2 : n < 6
    · exact .inr (.inr (.inl ⟨⟨n - 2, by omega⟩, by simp; omega⟩))
    by_cases h3 : n < 8
    · omega
    · exact .inr (.inr (.inr (.inr (.inr ⟨⟨n - 8, by omega⟩, by simp; omega⟩))))
  rcases cases16 with rfl | rfl | ⟨k, rfl⟩ | rfl | rfl | ⟨k, rfl⟩
  · exact .err _
  · exact known .size192 rfl rfl rfl
  · exact known (.times576 k) rfl rfl rfl
  · refine .pure ⟨rfl, ?_⟩
    refine btriple_readU8.bind ?_
    rintro _ b rfl
    have hb := b.isLt
    refine .lift (addU_ok (by omega)) ⟨.bits8 ⟨b.toNat, hb⟩, rfl, ?_, rfl⟩
    exact beBytes_one b
  · refine .pure ⟨rfl, ?_⟩
    refine btriple_beU16.bind ?_
    rintro _ b rfl
    have hb := b.isLt
    refine .ite (fun _ => .err _) (fun h => ?_)
    have hne : b.toNat ≠ 65535 := fun h' => h (BitVec.eq_of_toNat_eq h')
    refine .lift (addU_ok (by omega)) ⟨.bits16 ⟨b.toNat, by omega⟩, rfl, ?_, rfl⟩
    simp [BlockSizeField.extra]
  · exact known (.times256 k) rfl rfl rfl

theorem sampleRateCode_code (f : SampleRateField) :
    (sampleRateCode f.code : Dec Flat _) = pure (srCodeOf f) := by
  cases f with
  | table k =>
    match k with
    | 0 => rfl | 1 => rfl | 2 => rfl | 3 => rfl | 4 => rfl | 5 => rfl | 6 => rfl | 7 => rfl
    | 8 => rfl | 9 => rfl | 10 => rfl
  | _ => rfl

theorem breads_sampleRate (f : SampleRateField) :
    BReads (readSampleRate (srCodeOf f)) f.extra (rateOf f) := by
  cases f with
  | kiloHertz n =>
    have e : (BitVec.ofNat 8 n.val).toNat = n.val := by simp
    show BReads _ [BitVec.ofNat 8 (n.val / 256 ^ 0)] _
    rw [show n.val / 256 ^ 0 = n.val by simp]
    refine (breads_readU8 _).bind_nil ?_
    rw [e]
    exact .pure _
  | hertz n =>
    have hn := n.isLt
    have e : (BitVec.ofNat 16 n.val).toNat = n.val := by simp
    show BReads (readSampleRate .read16) (beBytes 2 n.val) _
    refine (breads_beU16 (by omega)).bind_nil ?_
    rw [e]; exact .pure _
  | tensOfHertz n =>
    have hn := n.isLt
    have e : (BitVec.ofNat 16 n.val).toNat = n.val := by simp
    show BReads (readSampleRate .read16Ten) (beBytes 2 n.val) (some (10 * n.val))
    refine (breads_beU16 (by omega)).bind_nil ?_
    rw [e]
    refine .bind_lift (mulU_ok (by omega)) ?_
    rw [Nat.mul_comm]
    exact .pure _
  | _ => exact .pure _

theorem btriple_sampleRateCode {n : Nat} (hn : n < 16) :
    BTriple .never (sampleRateCode n) (fun u c => u = [] ∧
      BTriple .never (readSampleRate c) (fun v rate => ∃ f : SampleRateField,
        f.code = n ∧ f.extra = v ∧ rateOf f = rate)) := by
  have known : ∀ f : SampleRateField, f.code = n → f.extra = [] → srCodeOf f = .known f.rate →
      rateOf f = f.rate → BTriple .never (sampleRateCode n) (fun u c => u = [] ∧
      BTriple .never (readSampleRate c) (fun v rate => ∃ f : SampleRateField,
        f.code = n ∧ f.extra = v ∧ rateOf f = rate)) := by
    intro f h1 h2 h3 h4
    rw [← h1, sampleRateCode_code, h3]
    exact .pure ⟨rfl, .pure ⟨f, rfl, h2, h4⟩⟩
  have cases16 : n = 0 ∨ (∃ k : Fin 11, n = 1 + k.val) ∨ n = 12 ∨ n = 13 ∨ n = 14 ∨ n = 15 := by
    by_cases h1 : n < 1
    · omega
    by_cases h2 : n < 12
    · exact .inr (.inl ⟨⟨n - 1, by omega⟩, by simp; omega⟩)
    · omega
  rcases cases16 with rfl | ⟨k, rfl⟩ | rfl | rfl | rfl | rfl
  · exact known .streaminfo rfl rfl rfl rfl
  · exact known (.table k) rfl rfl rfl rfl
  · refine .pure ⟨rfl, ?_⟩
    refine btriple_readU8.bind ?_
    rintro _ b rfl
    refine .pure ⟨.kiloHertz ⟨b.toNat, b.isLt⟩, rfl, ?_, rfl⟩
    exact beBytes_one b
  · refine .pure ⟨rfl, ?_⟩
    refine btriple_beU16.bind ?_
    rintro _ b rfl
    refine .pure ⟨.hertz ⟨b.toNat, b.isLt⟩, rfl, ?_, rfl⟩
    simp [SampleRateField.extra]
  · refine .pure ⟨rfl, ?_⟩
    refine btriple_beU16.bind ?_
    rintro _ b rfl
    have hb := b.isLt
    refine .bind_lift (mulU_ok (by omega)) (.pure ⟨.tensOfHertz ⟨b.toNat, b.isLt⟩, rfl, ?_, ?_⟩)
    · simp [SampleRateField.extra]
    · simp [rateOf, SampleRateField.rate, Nat.mul_comm]
  · exact .err _

theorem channelAssignmentCode_code (f : ChannelField) :
    (channelAssignmentCode f.code : Dec Flat _) = pure (caOf f) := by
  cases f with
  | independent k =>
    match k with
    | 0 => rfl | 1 => rfl | 2 => rfl | 3 => rfl | 4 => rfl | 5 => rfl | 6 => rfl | 7 => rfl
  | _ => rfl

theorem btriple_channelAssignmentCode {n : Nat} (hn : n < 16) :
    BTriple .never (channelAssignmentCode n) (fun u c => u = [] ∧
      ∃ f : ChannelField, f.code = n ∧ caOf f = c) := by
  have known : ∀ f : ChannelField, f.code = n → BTriple .never (channelAssignmentCode n)
      (fun u c => u = [] ∧ ∃ f : ChannelField, f.code = n ∧ caOf f = c) := by
    intro f h1
    rw [← h1, channelAssignmentCode_code]
    exact .pure ⟨rfl, f, rfl, rfl⟩
  rcases Nat.lt_or_ge n 8 with h | h
  · exact known (.independent ⟨n, h⟩) rfl
  rcases Nat.lt_or_ge n 11 with h' | h'
  · obtain rfl | rfl | rfl : n = 8 ∨ n = 9 ∨ n = 10 := by omega
    · exact known .leftSide rfl
    · exact known .rightSide rfl
    · exact known .midSide rfl
  · unfold channelAssignmentCode
    rw [if_neg (by omega), if_neg (by omega), if_neg (by omega), if_neg (by omega)]
    exact .err _

theorem bitsPerSampleCode_code (f : SampleSizeField) :
    (bitsPerSampleCode f.code : Dec Flat _) = pure f.bits := by
  cases f <;> rfl

theorem btriple_bitsPerSampleCode {n : Nat} (hn : n < 8) :
    BTriple .never (bitsPerSampleCode n) (fun u c => u = [] ∧
      ∃ f : SampleSizeField, f.code = n ∧ f.bits = c) := by
  have known : ∀ f : SampleSizeField, f.code = n → BTriple .never (bitsPerSampleCode n)
      (fun u c => u = [] ∧ ∃ f : SampleSizeField, f.code = n ∧ f.bits = c) := by
    intro f h1
    rw [← h1, bitsPerSampleCode_code]
    exact .pure ⟨rfl, f, rfl, rfl⟩
  match n, hn, known with
  | 0, _, known => exact known .streaminfo rfl
  | 1, _, known => exact known .bits8 rfl
  | 2, _, known => exact known .bits12 rfl
  | 3, _, _ => exact .err _
  | 4, _, known => exact known .bits16 rfl
  | 5, _, known => exact known .bits20 rfl
  | 6, _, known => exact known .bits24 rfl
  | 7, _, _ => exact .err _

theorem breads_blockTime {v : Bool} {n x : Nat} (h : CodedNumberAccepted n x)
    (h31 : v = false → x < 2 ^ 31) :
    BReads (readBlockTime v) (codedNumber n x)
      (if v then .sampleNumber x else .frameNumber x) := by
  have e : (BitVec.ofNat 64 x).toNat = x := by
    have := codedNumber_lt h
    rw [BitVec.toNat_ofNat, Nat.mod_eq_of_lt (by omega)]
  cases v with
  | true =>
    refine (breads_readVarLengthInt h).bind_nil ?_
    rw [e]; exact .pure _
  | false =>
    have := h31 rfl
    refine (breads_readVarLengthInt h).bind_nil ?_
    rw [e, if_neg (by omega), Nat.mod_eq_of_lt (by omega)]
    exact .pure _

theorem btriple_blockTime (v : Bool) : BTriple .never (readBlockTime v) (fun u t => ∃ n x,
    CodedNumberAccepted n x ∧ (v = false → x < 2 ^ 31) ∧ u = codedNumber n x ∧
      t = if v then .sampleNumber x else .frameNumber x) := by
  cases v with
  | true =>
    refine btriple_readVarLengthInt.bind ?_
    rintro _ a ⟨n, h1, rfl⟩
    exact .pure ⟨n, _, h1, by simp, by simp, by simp⟩
  | false =>
    refine btriple_readVarLengthInt.bind ?_
    rintro _ a ⟨n, h1, rfl⟩
    refine .ite (fun _ => .err _) (fun h => ?_)
    rw [Nat.mod_eq_of_lt (by omega)]
    exact .pure ⟨n, _, h1, fun _ => by omega, by simp, by simp⟩

/-! ### The header -/

/-- The two bytes of block size, sample rate, channels and sample size. -/
theorem split_byte (b : U8) : (b >>> 4).toNat = b.toNat / 16 ∧ (b &&& 0b0000_1111#8).toNat = b.toNat % 16 ∧
    ((b &&& 0b0000_1110#8) >>> 1).toNat = b.toNat / 2 % 8 ∧
    (b &&& 0b0000_0001#8 ≠ 0#8 ↔ b.toNat % 2 = 1) := by
  revert b
  decide +kernel

theorem beU16_eq_append (a b : U8) : (a.setWidth 16 <<< 8 ||| b.setWidth 16 : U16) = a ++ b := by
  apply BitVec.eq_of_toNat_eq
  rw [beU16_toNat, BitVec.toNat_append, Nat.shiftLeft_eq, Nat.mul_comm,
    ← Nat.two_pow_add_eq_or_of_lt b.isLt]

theorem append_eq {a b c d : U8} : a ++ b = c ++ d ↔ a = c ∧ b = d := by
  constructor
  · intro h
    have := congrArg BitVec.toNat h
    rw [← beU16_eq_append, ← beU16_eq_append, beU16_toNat, beU16_toNat] at this
    have := b.isLt
    have := d.isLt
    exact ⟨BitVec.eq_of_toNat_eq (by omega), BitVec.eq_of_toNat_eq (by omega)⟩
  · rintro ⟨rfl, rfl⟩; rfl

theorem sync_low (b : U8) : (b &&& 0xfc#8 = 0xf8#8 ∧ b &&& 2#8 = 0#8) ↔
    b = BitVec.ofNat 8 (0xf8 + (!(b &&& 1#8 == 0#8)).toNat) := by
  revert b
  decide +kernel

theorem sync_ok (a b : U8) :
    ((a.setWidth 16 <<< 8 ||| b.setWidth 16 : U16) &&& 0b1111_1111_1111_1100#16 =
        0b1111_1111_1111_1000#16 ∧
      (a.setWidth 16 <<< 8 ||| b.setWidth 16 : U16) &&& 0b0000_0000_0000_0010#16 = 0#16) ↔
    a = 0xff#8 ∧ b = BitVec.ofNat 8
      (0xf8 + (!((a.setWidth 16 <<< 8 ||| b.setWidth 16 : U16) &&& 1#16 == 0#16)).toNat) := by
  have e1 : (65532#16 : U16) = 0xff#8 ++ 0xfc#8 := rfl
  have e2 : (65528#16 : U16) = 0xff#8 ++ 0xf8#8 := rfl
  have e3 : (2#16 : U16) = 0#8 ++ 2#8 := rfl
  have e4 : (1#16 : U16) = 0#8 ++ 1#8 := rfl
  have e5 : (0#16 : U16) = 0#8 ++ 0#8 := rfl
  have e6 : ((a ++ b) &&& (0#8 ++ 1#8) == 0#8 ++ 0#8) = (b &&& 1#8 == 0#8) := by
    rw [BitVec.and_append, Bool.eq_iff_iff, beq_iff_eq, beq_iff_eq, append_eq]
    simp
  have e7 : a &&& 0xff#8 = a := by simpa using BitVec.and_allOnes (x := a)
  rw [beU16_eq_append, e1, e2, e3, e4, e5, e6, BitVec.and_append, BitVec.and_append, append_eq,
    append_eq, e7, ← sync_low b]
  simp
  tauto

theorem sync_variable (v : Bool) :
    (!(((0xff#8 : U8).setWidth 16 <<< 8 ||| (BitVec.ofNat 8 (0xf8 + v.toNat)).setWidth 16 : U16) &&& 1#16
      == 0#16)) = v := by
  cases v <;> rfl

/-- The first two bytes as a number. -/
def syncOf (v : Bool) : U16 :=
  (0xff#8 : U8).setWidth 16 <<< 8 ||| (BitVec.ofNat 8 (0xf8 + v.toNat)).setWidth 16

/-- The bytes of the fields after the first two. -/
def restBytes (h : Spec.FrameHeader) : List U8 :=
  [BitVec.ofNat 8 (16 * h.blockSize.code + h.sampleRate.code),
    BitVec.ofNat 8 (16 * h.channels.code + 2 * h.sampleSize.code)] ++
  codedNumber h.numberLength h.number ++ h.blockSize.extra ++ h.sampleRate.extra

theorem fieldBytes_eq (h : Spec.FrameHeader) : h.fieldBytes =
    [0xff#8, BitVec.ofNat 8 (0xf8 + h.variableBlockSize.toNat)] ++ restBytes h := by
  simp [FrameHeader.fieldBytes, restBytes]

theorem code_lt1 (f : BlockSizeField) : f.code < 16 := by
  cases f <;> simp only [BlockSizeField.code] <;> omega
theorem code_lt2 (f : SampleRateField) : f.code < 15 := by
  cases f <;> simp only [SampleRateField.code] <;> omega
theorem code_lt3 (f : ChannelField) : f.code < 11 := by
  cases f <;> simp only [ChannelField.code] <;> omega
theorem code_lt4 (f : SampleSizeField) : f.code < 7 := by
  cases f <;> simp only [SampleSizeField.code] <;> omega

theorem breads_headerFields (h : Spec.FrameHeader) (hw : h.WellFormed) :
    BReads (headerFields (syncOf h.variableBlockSize)) (restBytes h) (headerOf h) := by
  have c1 := code_lt1 h.blockSize
  have c2 := code_lt2 h.sampleRate
  have c3 := code_lt3 h.channels
  have c4 := code_lt4 h.sampleSize
  obtain ⟨s1, s2⟩ := (sync_ok 0xff#8 (BitVec.ofNat 8 (0xf8 + h.variableBlockSize.toNat))).2
    ⟨rfl, by rw [sync_variable]⟩
  change syncOf h.variableBlockSize &&& _ = _ at s1
  change syncOf h.variableBlockSize &&& _ = _ at s2
  unfold headerFields
  rw [if_neg (not_not.2 s1), if_neg (not_not.2 s2)]
  have n1 : (BitVec.ofNat 8 (16 * h.blockSize.code + h.sampleRate.code)).toNat =
      16 * h.blockSize.code + h.sampleRate.code := by
    rw [BitVec.toNat_ofNat, Nat.mod_eq_of_lt (by omega)]
  have n2 : (BitVec.ofNat 8 (16 * h.channels.code + 2 * h.sampleSize.code)).toNat =
      16 * h.channels.code + 2 * h.sampleSize.code := by
    rw [BitVec.toNat_ofNat, Nat.mod_eq_of_lt (by omega)]
  obtain ⟨p1, p2, _, _⟩ := split_byte (BitVec.ofNat 8 (16 * h.blockSize.code + h.sampleRate.code))
  obtain ⟨q1, _, q3, q4⟩ := split_byte (BitVec.ofNat 8 (16 * h.channels.code + 2 * h.sampleSize.code))
  have r1 : (16 * h.blockSize.code + h.sampleRate.code) / 16 = h.blockSize.code := by omega
  have r2 : (16 * h.blockSize.code + h.sampleRate.code) % 16 = h.sampleRate.code := by omega
  have r3 : (16 * h.channels.code + 2 * h.sampleSize.code) / 16 = h.channels.code := by omega
  have r4 : (16 * h.channels.code + 2 * h.sampleSize.code) / 2 % 8 = h.sampleSize.code := by omega
  unfold restBytes
  simp only [List.cons_append, List.nil_append, List.append_assoc]
  refine (breads_readU8 _).bind
    (cs := BitVec.ofNat 8 (16 * h.channels.code + 2 * h.sampleSize.code) :: _) ?_
  rw [p1, p2, n1, r1, r2, blockSizeCode_code, sampleRateCode_code]
  refine (breads_readU8 _).bind (cs := codedNumber h.numberLength h.number ++ _) ?_
  rw [q1, q3, n2, r3, r4, channelAssignmentCode_code, bitsPerSampleCode_code, pure_bind, pure_bind,
    if_neg (by rw [q4, n2]; omega)]
  show BReads (readBlockTime (!(syncOf h.variableBlockSize &&& 1#16 == 0#16)) >>= _) _ _
  rw [show (!(syncOf h.variableBlockSize &&& 1#16 == 0#16)) = h.variableBlockSize from sync_variable _]
  refine (breads_blockTime hw.number hw.frameNumber).bind ?_
  refine (breads_blockSize h.blockSize).bind ?_
  refine (breads_sampleRate h.sampleRate).bind_nil ?_
  exact .pure _

theorem bfails_headerFields (h : Spec.FrameHeader)
    (hn : CodedNumberAccepted h.numberLength h.number) (hv : h.variableBlockSize = false)
    (h31 : 2 ^ 31 ≤ h.number) :
    BFails (headerFields (syncOf h.variableBlockSize)) (restBytes h)
      (.err (.formatError "invalid frame header, frame number too large")) := by
  have c1 := code_lt1 h.blockSize
  have c2 := code_lt2 h.sampleRate
  have c3 := code_lt3 h.channels
  have c4 := code_lt4 h.sampleSize
  obtain ⟨s1, s2⟩ := (sync_ok 0xff#8 (BitVec.ofNat 8 (0xf8 + h.variableBlockSize.toNat))).2
    ⟨rfl, by rw [sync_variable]⟩
  change syncOf h.variableBlockSize &&& _ = _ at s1
  change syncOf h.variableBlockSize &&& _ = _ at s2
  unfold headerFields
  rw [if_neg (not_not.2 s1), if_neg (not_not.2 s2)]
  have n1 : (BitVec.ofNat 8 (16 * h.blockSize.code + h.sampleRate.code)).toNat =
      16 * h.blockSize.code + h.sampleRate.code := by
    rw [BitVec.toNat_ofNat, Nat.mod_eq_of_lt (by omega)]
  have n2 : (BitVec.ofNat 8 (16 * h.channels.code + 2 * h.sampleSize.code)).toNat =
      16 * h.channels.code + 2 * h.sampleSize.code := by
    rw [BitVec.toNat_ofNat, Nat.mod_eq_of_lt (by omega)]
  obtain ⟨p1, p2, _, _⟩ := split_byte (BitVec.ofNat 8 (16 * h.blockSize.code + h.sampleRate.code))
  obtain ⟨q1, _, q3, q4⟩ := split_byte (BitVec.ofNat 8 (16 * h.channels.code + 2 * h.sampleSize.code))
  have r1 : (16 * h.blockSize.code + h.sampleRate.code) / 16 = h.blockSize.code := by omega
  have r2 : (16 * h.blockSize.code + h.sampleRate.code) % 16 = h.sampleRate.code := by omega
  have r3 : (16 * h.channels.code + 2 * h.sampleSize.code) / 16 = h.channels.code := by omega
  have r4 : (16 * h.channels.code + 2 * h.sampleSize.code) / 2 % 8 = h.sampleSize.code := by omega
  unfold restBytes
  simp only [List.cons_append, List.nil_append, List.append_assoc]
  refine BFails.bind (breads_readU8 _)
    (cs := BitVec.ofNat 8 (16 * h.channels.code + 2 * h.sampleSize.code) :: _) ?_
  rw [p1, p2, n1, r1, r2, blockSizeCode_code, sampleRateCode_code]
  refine BFails.bind (breads_readU8 _) (cs := codedNumber h.numberLength h.number ++ _) ?_
  rw [q1, q3, n2, r3, r4, channelAssignmentCode_code, bitsPerSampleCode_code, pure_bind, pure_bind,
    if_neg (by rw [q4, n2]; omega)]
  show BFails (readBlockTime (!(syncOf h.variableBlockSize &&& 1#16 == 0#16)) >>= _) _ _
  rw [show (!(syncOf h.variableBlockSize &&& 1#16 == 0#16)) = h.variableBlockSize from sync_variable _]
  rw [hv]
  refine BFails.bind_left _ (bs := codedNumber h.numberLength h.number ++
    (h.blockSize.extra ++ h.sampleRate.extra)) ?_
  refine BFails.bind (breads_readVarLengthInt hn) ?_
  have := codedNumber_lt hn
  rw [BitVec.toNat_ofNat, Nat.mod_eq_of_lt (by omega), if_pos (by omega)]
  exact fun _ _ => ⟨rfl, by simp⟩

theorem btriple_headerFields (a b : U8) :
    BTriple .never (headerFields (a.setWidth 16 <<< 8 ||| b.setWidth 16)) (fun u hd =>
      ∃ h : Spec.FrameHeader, h.WellFormed ∧ h.fieldBytes = [a, b] ++ u ∧ headerOf h = hd) := by
  unfold headerFields
  refine .ite (fun _ => .err _) (fun s1 => .ite (fun _ => .err _) (fun s2 => ?_))
  obtain ⟨rfl, hb⟩ := (sync_ok a b).1 ⟨not_not.1 s1, not_not.1 s2⟩
  generalize (!(((0xff#8 : U8).setWidth 16 <<< 8 ||| b.setWidth 16 : U16) &&& 1#16 == 0#16)) = vb
    at hb ⊢
  refine btriple_readU8.bind ?_
  rintro _ x rfl
  obtain ⟨p1, p2, _, _⟩ := split_byte x
  have hx := x.isLt
  rw [p1, p2]
  refine (btriple_blockSizeCode (by omega)).bind ?_
  rintro _ bsc ⟨rfl, hbs⟩
  refine (btriple_sampleRateCode (by omega)).bind ?_
  rintro _ src ⟨rfl, hsr⟩
  refine btriple_readU8.bind ?_
  rintro _ y rfl
  obtain ⟨q1, _, q3, q4⟩ := split_byte y
  have hy := y.isLt
  rw [q1, q3]
  refine (btriple_channelAssignmentCode (by omega)).bind ?_
  rintro _ ca ⟨rfl, fca, hca, rfl⟩
  refine (btriple_bitsPerSampleCode (by omega)).bind ?_
  rintro _ bps ⟨rfl, fbps, hbps, rfl⟩
  refine .ite (fun _ => .err _) (fun hres => ?_)
  refine (btriple_blockTime vb).bind ?_
  rintro _ t ⟨n, num, hn, h31, rfl, rfl⟩
  refine hbs.bind ?_
  rintro _ size ⟨fbs, hfbs, rfl, rfl⟩
  refine hsr.bind ?_
  rintro _ rate ⟨fsr, hfsr, rfl, rfl⟩
  refine .pure ⟨⟨vb, fbs, fsr, fca, fbps, num, n⟩, ⟨hn, h31⟩, ?_, rfl⟩
  have e1 : BitVec.ofNat 8 (16 * fbs.code + fsr.code) = x := by
    rw [hfbs, hfsr, Nat.div_add_mod]; simp
  have e2 : BitVec.ofNat 8 (16 * fca.code + 2 * fbps.code) = y := by
    rw [hca, hbps]
    have : y.toNat % 2 ≠ 1 := fun h => hres (q4.2 h)
    rw [show 16 * (y.toNat / 16) + 2 * (y.toNat / 2 % 8) = y.toNat by omega]
    simp
  simp only [FrameHeader.fieldBytes, e1, e2, ← hb]
  simp

/-- A legal header is well-formed. -/
theorem _root_.Spec.FrameHeader.Legal.wellFormed {h : Spec.FrameHeader} (hl : h.Legal) : h.WellFormed where
  number := by rw [hl.numberLength]; exact .inl (codedNumberOk_shortest hl.number)
  frameNumber := hl.frameNumber

theorem consumed_append {used rest : List U8} {f : Option Nat} :
    consumed (used ++ rest) ⟨rest, f⟩ = used := by
  simp [consumed]

/-- The header reader on a well-formed header, followed by the checksum `c`. -/
theorem header_any [FuzzCfg] (h : Spec.FrameHeader) (hw : h.WellFormed) (c : U8) (rest : List U8)
    (f : Option Nat) :
    readFrameHeaderOrEof ⟨h.fieldBytes ++ [c] ++ rest, f⟩ =
      (if FuzzCfg.fuzzing = false ∧ crc8 h.fieldBytes ≠ c then
        .error (.err (.formatError "frame header CRC mismatch"))
        else .ok (some (headerOf h)), (⟨rest, f⟩ : Flat)) := by
  rw [readFrameHeaderOrEof_flat]
  have e : h.fieldBytes ++ [c] ++ rest = 0xff#8 ::
      BitVec.ofNat 8 (0xf8 + h.variableBlockSize.toNat) ::
        (restBytes h ++ c :: rest) := by
    rw [fieldBytes_eq h]; simp
  unfold flatHeader
  rw [e]
  have h1 := (breads_headerFields h hw) (c :: rest) f
  show (flatHeaderRest _ (syncOf h.variableBlockSize) >>= _) _ = _
  rw [Dec.bind_def]
  unfold flatHeaderRest
  rw [Dec.bind_ok _ h1]
  simp only [Dec.bind_get_run]
  rw [Dec.bind_ok _ (show (readU8 : Dec Flat U8) ⟨c :: rest, f⟩ =
    (.ok c, ⟨rest, f⟩) from rfl)]
  have e3 : consumed (0xff#8 :: BitVec.ofNat 8 (0xf8 + h.variableBlockSize.toNat) ::
        (restBytes h ++ c :: rest)) ⟨c :: rest, f⟩ = h.fieldBytes := by
    have := consumed_append (used := h.fieldBytes) (rest := c :: rest) (f := f)
    rw [← e, List.append_assoc]
    exact this
  rw [e3]
  by_cases hc : FuzzCfg.fuzzing = false ∧ crc8 h.fieldBytes ≠ c
  · rw [if_pos hc, if_pos hc]
    rfl
  · rw [if_neg hc, if_neg hc]
    rfl

/-- The same, if checksums are compared. -/
theorem header_crc (h : Spec.FrameHeader) (hw : h.WellFormed) (c : U8) (rest : List U8)
    (f : Option Nat) :
    readFrameHeaderOrEof ⟨h.fieldBytes ++ [c] ++ rest, f⟩ =
      (if crc8 h.fieldBytes = c then .ok (some (headerOf h))
        else .error (.err (.formatError "frame header CRC mismatch")), (⟨rest, f⟩ : Flat)) := by
  rw [header_any h hw]
  by_cases hc : crc8 h.fieldBytes = c
  · rw [if_neg (fun h => h.2 hc), if_pos hc]
  · rw [if_pos ⟨rfl, hc⟩, if_neg hc]

/-- The header reader reads well-formed headers. -/
theorem reads_header (h : Spec.FrameHeader) (hw : h.WellFormed) (rest : List U8) (f : Option Nat) :
    readFrameHeaderOrEof ⟨h.bytes ++ rest, f⟩ = (.ok (some (headerOf h)), (⟨rest, f⟩ : Flat)) := by
  unfold FrameHeader.bytes
  rw [header_crc h hw, if_pos rfl]

/-- A header that has been read was well-formed. -/
theorem header_reads_any [FuzzCfg] (s : Flat) :
    match readFrameHeaderOrEof s with
    | (.ok none, _) => s.bytes.length < 2 ∧ s.fault = none
    | (.ok (some hd), s') => s'.fault = s.fault ∧ ∃ (h : Spec.FrameHeader) (c : U8), h.WellFormed ∧
        headerOf h = hd ∧ s.bytes = h.fieldBytes ++ [c] ++ s'.bytes ∧ (FuzzCfg.fuzzing = false → crc8 h.fieldBytes = c)
    | (.error (.err _), _) => True
    | (.error _, _) => False := by
  rw [readFrameHeaderOrEof_flat]
  rcases s with ⟨bytes, f⟩
  unfold flatHeader
  match bytes with
  | [] => cases f <;> simp [Dec.bind_def, readBeU16OrEof, ReadBytes.readU8OrEof, Flat.readU8OrEof]
  | [a] => cases f <;> simp [Dec.bind_def, readBeU16OrEof, ReadBytes.readU8OrEof, Flat.readU8OrEof]
  | a :: b :: bs =>
    have h1 := btriple_headerFields a b ⟨bs, f⟩
    rw [Dec.bind_ok _ (show readBeU16OrEof (⟨a :: b :: bs, f⟩ : Flat) =
      (.ok (some (a.setWidth 16 <<< 8 ||| b.setWidth 16)), ⟨bs, f⟩) from rfl)]
    simp only
    rw [Dec.bind_def]
    unfold flatHeaderRest
    rw [Dec.bind_def (headerFields _)]
    generalize headerFields (a.setWidth 16 <<< 8 ||| b.setWidth 16) (⟨bs, f⟩ : Flat) = x at h1 ⊢
    rcases x with ⟨e | hd, s1⟩
    · cases e <;> simp_all [Limit.Allows]
    · obtain ⟨hf, u, hu, h, hw, hb, hh⟩ := h1
      rcases s1 with ⟨bs1, f1⟩
      simp only at hf hu
      subst hf hu
      simp only [Dec.bind_get_run]
      cases bs1 with
      | nil => cases f1 <;> simp [Dec.bind_def, ReadBytes.readU8, Flat.readU8, Flat.endFail]
      | cons c rest =>
        have e3 : consumed (a :: b :: (u ++ c :: rest)) ⟨c :: rest, f1⟩ = h.fieldBytes := by
          rw [hb]
          have := consumed_append (used := [a, b] ++ u) (rest := c :: rest) (f := f1)
          simpa using this
        rw [Dec.bind_ok _ (show (readU8 : Dec Flat U8) ⟨c :: rest, f1⟩ = (.ok c, ⟨rest, f1⟩) from rfl),
          e3]
        by_cases hc : FuzzCfg.fuzzing = false ∧ crc8 h.fieldBytes ≠ c
        · rw [if_pos hc]
          trivial
        · rw [if_neg hc]
          refine ⟨rfl, h, c, hw, hh, ?_, fun hz => not_not.1 fun h => hc ⟨hz, h⟩⟩
          rw [hb]
          simp

/-- The same, if checksums are compared. -/
theorem header_reads (s : Flat) :
    match readFrameHeaderOrEof s with
    | (.ok none, _) => s.bytes.length < 2 ∧ s.fault = none
    | (.ok (some hd), s') => s'.fault = s.fault ∧ ∃ h : Spec.FrameHeader, h.WellFormed ∧
        headerOf h = hd ∧ s.bytes = h.bytes ++ s'.bytes
    | (.error (.err _), _) => True
    | (.error _, _) => False := by
  have h := header_reads_any s
  generalize readFrameHeaderOrEof s = x at h ⊢
  rcases x with ⟨e | _ | hd, s'⟩
  · cases e <;> exact h
  · exact h
  · obtain ⟨h1, h, c, h2, h3, h4, h5⟩ := h
    exact ⟨h1, h, h2, h3, by rw [h4, FrameHeader.bytes, h5 rfl]⟩

end Claxon
