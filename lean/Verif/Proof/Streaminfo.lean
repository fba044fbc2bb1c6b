import Verif.Proof.Comments
import Verif.Spec.Metadata
import Verif.Proof.Header
import Verif.Proof.FrameApi

/-! Reading multi-byte numbers and streaminfo blocks. -/

namespace Claxon

open Spec ReadBytes

/-! ### Numbers -/

theorem beBytes_three (a b c : U8) :
    beBytes 3 ((a.toNat * 256 + b.toNat) * 256 + c.toNat) = [a, b, c] := by
  have ha := a.isLt
  have hb := b.isLt
  have hc := c.isLt
  simp only [beBytes, List.cons.injEq, and_true]
  refine ⟨?_, ?_, ?_⟩ <;> apply BitVec.eq_of_toNat_eq <;> simp <;> omega

theorem beBytes_four (a b c d : U8) :
    beBytes 4 (((a.toNat * 256 + b.toNat) * 256 + c.toNat) * 256 + d.toNat) = [a, b, c, d] := by
  have ha := a.isLt
  have hb := b.isLt
  have hc := c.isLt
  have hd := d.isLt
  simp only [beBytes, List.cons.injEq, and_true]
  refine ⟨?_, ?_, ?_, ?_⟩ <;> apply BitVec.eq_of_toNat_eq <;> simp <;> omega

@[simp] theorem length_beBytes (n v : Nat) : (beBytes n v).length = n := by
  induction n with
  | zero => rfl
  | succ n ih => simp [beBytes, ih]

@[simp] theorem length_leBytes (n v : Nat) : (leBytes n v).length = n := by simp [leBytes]

theorem beBytes_mod (n m v : Nat) (h : n ≤ m) : beBytes n (v % 256 ^ m) = beBytes n v := by
  induction n with
  | zero => rfl
  | succ n ih =>
    simp only [beBytes]
    rw [ih (by omega)]
    congr 1
    apply BitVec.eq_of_toNat_eq
    simp only [BitVec.toNat_ofNat]
    obtain ⟨k, rfl⟩ := Nat.exists_eq_add_of_le h
    rw [show (256 : Nat) ^ (n + 1 + k) = 256 ^ n * 256 ^ (1 + k) by rw [← Nat.pow_add]; congr 1; omega,
      Nat.mod_mul_right_div_self,
      show (256 : Nat) ^ (1 + k) = 2 ^ 8 * 256 ^ k by rw [Nat.pow_add]; norm_num,
      Nat.mod_mul_right_mod]

theorem bytesToBits_beBytes (n v : Nat) : bytesToBits (beBytes n v) = natToBits (8 * n) v := by
  induction n with
  | zero => rfl
  | succ n ih =>
    rw [beBytes, bytesToBits_cons, ih, show 8 * (n + 1) = 8 + 8 * n by omega, natToBits_add, byteBits]
    congr 1
    rw [BitVec.toNat_ofNat, show (256 : Nat) ^ n = 2 ^ (8 * n) by rw [Nat.pow_mul]]
    apply natToBits_congr
    intro i hi
    rw [Nat.testBit_mod_two_pow]
    simp [hi]

theorem breads_beU24 {v : Nat} (h : v < 2 ^ 24) :
    BReads readBeU24 (beBytes 3 v) (BitVec.ofNat 32 v) := by
  refine (breads_readBeU24 (BitVec.ofNat 8 (v / 65536)) (BitVec.ofNat 8 (v / 256))
    (BitVec.ofNat 8 v)).congr ?_ ?_
  · simp [beBytes]
  · apply BitVec.eq_of_toNat_eq
    rw [beU24_toNat]
    simp
    omega

theorem btriple_beU24 {lim : Limit} : BTriple lim (readBeU24 : Dec Flat U32)
    (fun u v => u = beBytes 3 v.toNat ∧ v.toNat < 2 ^ 24) := by
  refine btriple_readBeU24.mono ?_
  rintro _ v ⟨a, b, c, rfl, rfl⟩
  have ha := a.isLt
  have hb := b.isLt
  have hc := c.isLt
  rw [beU24_toNat, beBytes_three]
  exact ⟨rfl, by omega⟩

theorem breads_beU32 {v : Nat} (h : v < 2 ^ 32) :
    BReads readBeU32 (beBytes 4 v) (BitVec.ofNat 32 v) := by
  refine (breads_readBeU32 (BitVec.ofNat 8 (v / 16777216)) (BitVec.ofNat 8 (v / 65536))
    (BitVec.ofNat 8 (v / 256)) (BitVec.ofNat 8 v)).congr ?_ ?_
  · simp [beBytes]
  · apply BitVec.eq_of_toNat_eq
    rw [beU32_toNat]
    simp
    omega

theorem btriple_beU32 {lim : Limit} : BTriple lim (readBeU32 : Dec Flat U32)
    (fun u v => u = beBytes 4 v.toNat) := by
  refine btriple_readBeU32.mono ?_
  rintro _ v ⟨a, b, c, d, rfl, rfl⟩
  rw [beU32_toNat, beBytes_four]

theorem breads_leU32 {v : Nat} (h : v < 2 ^ 32) :
    BReads readLeU32 (leBytes 4 v) (BitVec.ofNat 32 v) := by
  refine (breads_readLeU32 (BitVec.ofNat 8 v) (BitVec.ofNat 8 (v / 256))
    (BitVec.ofNat 8 (v / 65536)) (BitVec.ofNat 8 (v / 16777216))).congr ?_ ?_
  · simp [leBytes, beBytes]
  · apply BitVec.eq_of_toNat_eq
    rw [beU32_toNat]
    simp
    omega

theorem btriple_leU32 {lim : Limit} : BTriple lim (readLeU32 : Dec Flat U32)
    (fun u v => u = leBytes 4 v.toNat) := by
  refine btriple_readLeU32.mono ?_
  rintro _ v ⟨a, b, c, d, rfl, rfl⟩
  rw [beU32_toNat, leBytes, beBytes_four]
  rfl

/-! ### Streaminfo -/

/-- The 64 bits of the sample rate, channels, bits per sample, and number of samples. -/
def packedFields (i : StreamInfo) : Nat :=
  ((i.sampleRate * 8 + (i.channels - 1)) * 32 + (i.bitsPerSample - 1)) * 2 ^ 36 + i.samples.getD 0

theorem streaminfoBytes_eq {i : StreamInfo} (h : i.Legal) : streaminfoBytes i =
    beBytes 2 i.minBlockSize ++ (beBytes 2 i.maxBlockSize ++ (beBytes 3 (i.minFrameSize.getD 0) ++
    (beBytes 3 (i.maxFrameSize.getD 0) ++ (beBytes 8 (packedFields i) ++ i.md5sum)))) := by
  unfold streaminfoBytes
  have hs : i.samples.getD 0 < 2 ^ 36 := by
    rcases e : i.samples with _ | n
    · simp
    · exact (h.samples n e).2
  have hc := h.channels
  have hb := h.bitsPerSample
  have e : streaminfoBits i = bytesToBits (beBytes 2 i.minBlockSize ++ (beBytes 2 i.maxBlockSize ++
      (beBytes 3 (i.minFrameSize.getD 0) ++ (beBytes 3 (i.maxFrameSize.getD 0) ++
      (beBytes 8 (packedFields i) ++ i.md5sum))))) := by
    simp only [bytesToBits_append, bytesToBits_beBytes, streaminfoBits, packedFields, Nat.reduceMul]
    rw [show (64 : Nat) = 20 + 3 + 5 + 36 from rfl, Bitstream.natToBits_join _ 36 _ _ hs,
      show (32 : Nat) = 2 ^ 5 from rfl, Bitstream.natToBits_join _ 5 _ _ (by omega),
      show (8 : Nat) = 2 ^ 3 from rfl, Bitstream.natToBits_join _ 3 _ _ (by omega)]
    simp only [List.append_assoc]
  rw [e, bitsToBytes_bytesToBits]

@[simp] theorem length_streaminfoBytes {i : StreamInfo} (h : i.Legal) :
    (streaminfoBytes i).length = 34 := by
  rw [streaminfoBytes_eq h]
  simp [h.md5sum]

theorem beBytes_eight (msb b1 b2 lsb : Nat) (h1 : b1 < 256) (h2 : b2 < 256) (hl : lsb < 2 ^ 32) :
    beBytes 8 (((msb * 256 + b1) * 256 + b2) * 2 ^ 32 + lsb) =
      beBytes 2 msb ++ (BitVec.ofNat 8 b1 :: BitVec.ofNat 8 b2 :: beBytes 4 lsb) := by
  have f : ∀ x y : Nat, x % 256 = y % 256 → BitVec.ofNat 8 x = BitVec.ofNat 8 y := by
    intro x y h
    apply BitVec.eq_of_toNat_eq
    simpa using h
  simp only [beBytes, List.cons_append, List.nil_append, List.cons.injEq, and_true]
  refine ⟨?_, ?_, ?_, ?_, ?_, ?_, ?_, ?_⟩ <;> apply f <;> norm_num <;> omega

section fields

variable (msb : U16) (b1 b2 : U8) (lsb : U32)

theorem field_sampleRate :
    (msb.setWidth 32 <<< 4 ||| b1.setWidth 32 >>> 4 : U32).toNat = msb.toNat * 16 + b1.toNat / 16 := by
  have := msb.isLt
  have := b1.isLt
  have e : (b1.setWidth 32 >>> 4 : U32).toNat = b1.toNat / 16 := by
    rw [BitVec.toNat_ushiftRight, Nat.shiftRight_eq_div_pow, BitVec.toNat_setWidth]
    omega
  rw [Bitstream.shl_or_toNat _ _ 4, e, BitVec.toNat_setWidth]
  · omega
  · rw [BitVec.toNat_setWidth]; omega
  · rw [e]; omega

theorem field_channels : ((b1 >>> 1) &&& 0b0000_0111#8).toNat = b1.toNat / 2 % 8 := by
  revert b1; decide +kernel

theorem field_bps :
    ((b1 &&& 1#8) <<< 4 ||| (b2 >>> 4)).toNat = b1.toNat % 2 * 16 + b2.toNat / 16 := by
  have := b2.isLt
  have e1 : (b1 &&& 1#8).toNat = b1.toNat % 2 := by revert b1; decide +kernel
  have e2 : (b2 >>> 4).toNat = b2.toNat / 16 := by
    rw [BitVec.toNat_ushiftRight, Nat.shiftRight_eq_div_pow]
  rw [Bitstream.shl_or_toNat _ _ 4 (by rw [e1]; omega) (by rw [e2]; omega), e1, e2]
  norm_num

theorem field_samples :
    ((b2 &&& 0b0000_1111#8).setWidth 64 <<< 32 ||| lsb.setWidth 64 : U64).toNat =
      b2.toNat % 16 * 2 ^ 32 + lsb.toNat := by
  have := lsb.isLt
  have e1 : (b2 &&& 0b0000_1111#8).toNat = b2.toNat % 16 := by revert b2; decide +kernel
  rw [Bitstream.shl_or_toNat _ _ 32, BitVec.toNat_setWidth, BitVec.toNat_setWidth, e1]
  · omega
  · rw [BitVec.toNat_setWidth, e1]; omega
  · rw [BitVec.toNat_setWidth]; omega

end fields

theorem bind_addU8 {α : Type} {a : Nat} (h : a + 1 < 256) (f : Nat → Dec Flat α) :
    (liftM (addU 8 a 1) >>= f : Dec Flat α) = f (a + 1) := by
  rw [addU_ok (by omega)]; rfl

/-- The streaminfo that the fields stand for. -/
def infoOf (minBs maxBs minFs maxFs rate ch bps n : Nat) (md5 : List U8) : StreamInfo :=
  { minBlockSize := minBs
    maxBlockSize := maxBs
    minFrameSize := if minFs = 0 then none else some minFs
    maxFrameSize := if maxFs = 0 then none else some maxFs
    sampleRate := rate
    channels := ch
    bitsPerSample := bps
    samples := if n = 0 then none else some n
    md5sum := md5 }

theorem ite_zero_eq {w : Nat} (x : BitVec w) :
    (if x = 0#w then none else some x.toNat) = if x.toNat = 0 then none else some x.toNat := by
  have : x = 0#w ↔ x.toNat = 0 := by rw [← BitVec.toNat_inj]; simp
  simp only [this]

/-- The checks of `checkStreaminfo`. -/
def InfoOk (minBs maxBs minFs maxFs rate : Nat) : Prop :=
  minBs ≤ maxBs ∧ 16 ≤ minBs ∧ (minFs ≤ maxFs ∨ maxFs = 0) ∧ 1 ≤ rate ∧ rate ≤ 655350

theorem checkStreaminfo_ok {minBs maxBs : U16} {minFs maxFs rate : U32} {ch bps : Nat} {n : U64}
    {md5 : List U8} (h : InfoOk minBs.toNat maxBs.toNat minFs.toNat maxFs.toNat rate.toNat) :
    (checkStreaminfo minBs maxBs minFs maxFs rate ch bps n md5 : Dec Flat _) =
      pure (infoOf minBs.toNat maxBs.toNat minFs.toNat maxFs.toNat rate.toNat ch bps n.toNat md5) := by
  obtain ⟨h1, h2, h3, h4, h5⟩ := h
  unfold checkStreaminfo
  rw [if_neg, if_neg, if_neg, if_neg]
  · simp only [ite_zero_eq]; rfl
  · rintro (h | h)
    · subst h; simp at h4
    · rw [gt_iff_lt, BitVec.lt_def] at h; simp at h; omega
  · rintro ⟨h, h'⟩
    rw [gt_iff_lt, BitVec.lt_def] at h
    rw [Ne, ← BitVec.toNat_inj] at h'
    simp at h'
    omega
  · intro h; rw [BitVec.lt_def] at h; simp at h; omega
  · intro h; rw [gt_iff_lt, BitVec.lt_def] at h; omega

theorem checkStreaminfo_triple {lim : Limit} (minBs maxBs : U16) (minFs maxFs rate : U32)
    (ch bps : Nat) (n : U64) (md5 : List U8) :
    BTriple lim (checkStreaminfo minBs maxBs minFs maxFs rate ch bps n md5)
      (fun u i => u = [] ∧ InfoOk minBs.toNat maxBs.toNat minFs.toNat maxFs.toNat rate.toNat ∧
        i = infoOf minBs.toNat maxBs.toNat minFs.toNat maxFs.toNat rate.toNat ch bps n.toNat md5) := by
  by_cases hok : InfoOk minBs.toNat maxBs.toNat minFs.toNat maxFs.toNat rate.toNat
  · rw [checkStreaminfo_ok hok]
    exact .pure ⟨rfl, hok, rfl⟩
  · unfold checkStreaminfo
    refine .ite (fun _ => .err _) fun h1 => .ite (fun _ => .err _) fun h2 =>
      .ite (fun _ => .err _) fun h3 => .ite (fun _ => .err _) fun h4 => absurd ?_ hok
    rw [gt_iff_lt, BitVec.lt_def] at h1
    rw [BitVec.lt_def] at h2
    rw [gt_iff_lt, BitVec.lt_def, Ne, ← BitVec.toNat_inj] at h3
    rw [gt_iff_lt, BitVec.lt_def, ← BitVec.toNat_inj] at h4
    simp at h2 h3 h4
    refine ⟨by omega, by omega, ?_, by omega, by omega⟩
    by_cases h : maxFs.toNat = 0
    · exact .inr h
    · left
      by_contra hc
      exact h (by have := h3 (by omega); rw [this])

theorem breads_streaminfo {i : StreamInfo} (h : i.Legal) :
    BReads readStreaminfoBlock (streaminfoBytes i) i := by
  have hs : i.samples.getD 0 < 2 ^ 36 := by
    rcases e : i.samples with _ | n
    · simp
    · exact (h.samples n e).2
  have hmin : i.minFrameSize.getD 0 < 2 ^ 24 := by
    rcases e : i.minFrameSize with _ | n
    · simp
    · exact (h.minFrameSize n e).2
  have hmax : i.maxFrameSize.getD 0 < 2 ^ 24 := by
    rcases e : i.maxFrameSize with _ | n
    · simp
    · exact (h.maxFrameSize n e).2
  have hc := h.channels
  have hb := h.bitsPerSample
  have hr := h.sampleRate
  have hbs := h.blockSizes
  have hbm := h.maxBlockSize
  have hmb := h.minBlockSize
  rw [streaminfoBytes_eq h]
  have hp : packedFields i = (((i.sampleRate / 16) * 256 +
      (i.sampleRate % 16 * 16 + (i.channels - 1) * 2 + (i.bitsPerSample - 1) / 16)) * 256 +
      ((i.bitsPerSample - 1) % 16 * 16 + i.samples.getD 0 / 2 ^ 32)) * 2 ^ 32 +
      i.samples.getD 0 % 2 ^ 32 := by
    unfold packedFields
    omega
  rw [hp, beBytes_eight _ _ _ _ (by omega) (by omega) (by omega)]
  unfold readStreaminfoBlock
  refine (breads_beU16 (by omega)).bind ?_
  refine (breads_beU16 (by omega)).bind ?_
  refine (breads_beU24 hmin).bind ?_
  refine (breads_beU24 hmax).bind ?_
  rw [List.append_assoc]
  refine (breads_beU16 (by omega)).bind ?_
  refine (breads_readU8 (BitVec.ofNat 8 _)).bind ?_
  rw [field_channels, bind_addU8 (by simp; omega)]
  refine (breads_readU8 (BitVec.ofNat 8 _)).bind ?_
  rw [field_bps, bind_addU8 (by simp; omega)]
  refine (breads_beU32 (by omega)).bind ?_
  refine (BReads.bind_nil (bs := i.md5sum) (a := i.md5sum) ?_ ?_)
  · rw [← h.md5sum]
    exact breads_readInto _
  have e1 : (BitVec.ofNat 16 i.minBlockSize).toNat = i.minBlockSize := by simp; omega
  have e2 : (BitVec.ofNat 16 i.maxBlockSize).toNat = i.maxBlockSize := by simp; omega
  have e3 : (BitVec.ofNat 32 (i.minFrameSize.getD 0)).toNat = i.minFrameSize.getD 0 := by
    rw [BitVec.toNat_ofNat]; omega
  have e4 : (BitVec.ofNat 32 (i.maxFrameSize.getD 0)).toNat = i.maxFrameSize.getD 0 := by
    rw [BitVec.toNat_ofNat]; omega
  rw [checkStreaminfo_ok, field_sampleRate, field_samples, e1, e2, e3, e4]
  · refine (BReads.pure _).congr rfl ?_
    unfold infoOf
    simp only [BitVec.toNat_ofNat]
    have f1 : (if i.minFrameSize.getD 0 = 0 then none else some (i.minFrameSize.getD 0)) =
        i.minFrameSize := by
      rcases e : i.minFrameSize with _ | n
      · rfl
      · have := (h.minFrameSize n e).1
        simp; omega
    have f2 : (if i.maxFrameSize.getD 0 = 0 then none else some (i.maxFrameSize.getD 0)) =
        i.maxFrameSize := by
      rcases e : i.maxFrameSize with _ | n
      · rfl
      · have := (h.maxFrameSize n e).1
        simp; omega
    have f3 : (if i.samples.getD 0 = 0 then none else some (i.samples.getD 0)) = i.samples := by
      rcases e : i.samples with _ | n
      · rfl
      · have := (h.samples n e).1
        simp; omega
    have g : ((i.bitsPerSample - 1) % 16 * 16 + i.samples.getD 0 / 2 ^ 32) % 2 ^ 8 % 16 * 2 ^ 32 +
        i.samples.getD 0 % 2 ^ 32 % 2 ^ 32 = i.samples.getD 0 := by omega
    have g1 : i.sampleRate / 16 % 2 ^ 16 * 16 + (i.sampleRate % 16 * 16 + (i.channels - 1) * 2 +
        (i.bitsPerSample - 1) / 16) % 2 ^ 8 / 16 = i.sampleRate := by omega
    have g2 : (i.sampleRate % 16 * 16 + (i.channels - 1) * 2 +
        (i.bitsPerSample - 1) / 16) % 2 ^ 8 / 2 % 8 + 1 = i.channels := by omega
    have g3 : (i.sampleRate % 16 * 16 + (i.channels - 1) * 2 +
        (i.bitsPerSample - 1) / 16) % 2 ^ 8 % 2 * 16 + ((i.bitsPerSample - 1) % 16 * 16 +
        i.samples.getD 0 / 2 ^ 32) % 2 ^ 8 / 16 + 1 = i.bitsPerSample := by omega
    rw [g, g1, g2, g3, f1, f2, f3]
  · rw [field_sampleRate, e1, e2, e3, e4]
    refine ⟨hbs, hmb, ?_, ?_⟩
    · rcases e : i.maxFrameSize with _ | n
      · simp
      · rcases e' : i.minFrameSize with _ | m
        · simp
        · exact .inl (h.frameSizes m e' n e)
    · simp only [BitVec.toNat_ofNat]
      omega

theorem btriple_streaminfo {lim : Limit} : BTriple lim readStreaminfoBlock
    (fun u i => i.Legal ∧ u = streaminfoBytes i) := by
  unfold readStreaminfoBlock
  refine btriple_beU16.bind fun _ minBs h1 => ?_
  refine btriple_beU16.bind fun _ maxBs h2 => ?_
  refine btriple_beU24.bind fun _ minFs h3 => ?_
  refine btriple_beU24.bind fun _ maxFs h4 => ?_
  refine btriple_beU16.bind fun _ msb h5 => ?_
  refine btriple_readU8.bind fun _ b1 h6 => ?_
  rw [field_channels, bind_addU8 (by omega)]
  refine btriple_readU8.bind fun _ b2 h7 => ?_
  have := b1.isLt
  have := b2.isLt
  rw [field_bps, bind_addU8 (by omega)]
  refine btriple_beU32.bind fun _ lsb h8 => ?_
  refine (btriple_readInto 16).bind fun u9 md5 h9 => ?_
  refine BTriple.mono (checkStreaminfo_triple _ _ _ _ _ _ _ _ _) ?_
  rintro _ i ⟨rfl, hok, rfl⟩
  obtain ⟨h3, h3'⟩ := h3
  obtain ⟨h4, h4'⟩ := h4
  obtain ⟨h9, h9'⟩ := h9
  subst h1 h2 h3 h4 h5 h6 h7 h8
  obtain rfl : md5 = u9 := h9.symm
  rw [field_sampleRate, field_samples] at *
  obtain ⟨o1, o2, o3, o4, o5⟩ := hok
  have := minBs.isLt
  have := maxBs.isLt
  have := lsb.isLt
  have := msb.isLt
  have hl : (infoOf minBs.toNat maxBs.toNat minFs.toNat maxFs.toNat (msb.toNat * 16 + b1.toNat / 16)
      (b1.toNat / 2 % 8 + 1) (b1.toNat % 2 * 16 + b2.toNat / 16 + 1)
      (b2.toNat % 16 * 2 ^ 32 + lsb.toNat) md5).Legal := by
    constructor <;> simp only [infoOf]
    · exact o2
    · exact o1
    · omega
    · intro n hn
      split at hn <;> cases hn
      omega
    · intro n hn
      split at hn <;> cases hn
      omega
    · intro m hm n hn
      split at hm <;> cases hm
      split at hn <;> cases hn
      omega
    · exact ⟨o4, o5⟩
    · omega
    · omega
    · intro n hn
      split at hn <;> cases hn
      omega
    · exact h9'
  refine ⟨hl, ?_⟩
  rw [streaminfoBytes_eq hl]
  have hg : ∀ n : Nat, (if n = 0 then none else some n).getD 0 = n := by
    intro n
    split
    · simp [*]
    · rfl
  have hp : packedFields (infoOf minBs.toNat maxBs.toNat minFs.toNat maxFs.toNat
      (msb.toNat * 16 + b1.toNat / 16) (b1.toNat / 2 % 8 + 1) (b1.toNat % 2 * 16 + b2.toNat / 16 + 1)
      (b2.toNat % 16 * 2 ^ 32 + lsb.toNat) md5) =
      ((msb.toNat * 256 + b1.toNat) * 256 + b2.toNat) * 2 ^ 32 + lsb.toNat := by
    unfold packedFields infoOf
    simp only [hg]
    omega
  rw [hp, beBytes_eight _ _ _ _ (by omega) (by omega) (by omega)]
  simp only [infoOf, hg, BitVec.ofNat_toNat, BitVec.setWidth_eq, List.append_assoc, List.cons_append,
    List.nil_append, List.append_nil]

end Claxon
