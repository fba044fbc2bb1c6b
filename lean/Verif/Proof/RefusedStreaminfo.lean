import Verif.Spec.RefusedMetadata
import Verif.Proof.Metadata
import Verif.Proof.RefusedHeader

/-! Errors of reading a streaminfo block, and their reasons. -/

namespace Claxon

open Spec ReadBytes

section
variable {Q : List U8 → Error → Prop}

theorem brefuses_readBeU24 : BRefuses (readBeU24 : Dec Flat U32) Q :=
  .bind (lim := .never) brefuses_readU8 btriple_readU8 fun _ _ _ =>
    .bind (lim := .never) brefuses_readU8 btriple_readU8 fun _ _ _ =>
    .bind (lim := .never) brefuses_readU8 btriple_readU8 fun _ _ _ => .pure _

theorem brefuses_readBeU32 : BRefuses (readBeU32 : Dec Flat U32) Q :=
  .bind (lim := .never) brefuses_readU8 btriple_readU8 fun _ _ _ =>
    .bind (lim := .never) brefuses_readU8 btriple_readU8 fun _ _ _ =>
    .bind (lim := .never) brefuses_readU8 btriple_readU8 fun _ _ _ =>
    .bind (lim := .never) brefuses_readU8 btriple_readU8 fun _ _ _ => .pure _

theorem brefuses_readLeU32 : BRefuses (readLeU32 : Dec Flat U32) Q :=
  .bind (lim := .never) brefuses_readU8 btriple_readU8 fun _ _ _ =>
    .bind (lim := .never) brefuses_readU8 btriple_readU8 fun _ _ _ =>
    .bind (lim := .never) brefuses_readU8 btriple_readU8 fun _ _ _ =>
    .bind (lim := .never) brefuses_readU8 btriple_readU8 fun _ _ _ => .pure _

theorem brefuses_onAlloc (n m : Nat) : BRefuses (onAlloc n m : Dec Flat Unit) Q := by
  intro s e s' h
  cases h

theorem brefuses_readInto (n : Nat) : BRefuses (readInto n : Dec Flat _) Q := by
  rintro ⟨bs, f⟩ e s' h
  left
  simp only [ReadBytes.readInto, Flat.readInto] at h
  split at h
  · cases h
  · cases f <;> cases h <;> rfl

theorem brefuses_skip (n : Nat) : BRefuses (skip n : Dec Flat _) Q := by
  rintro ⟨bs, f⟩ e s' h
  left
  simp only [ReadBytes.skip, Flat.skip] at h
  split at h
  · cases h
  · cases f <;> cases h <;> rfl

end

theorem _root_.Claxon.StreamInfo.Legal.fits {i : StreamInfo} (h : i.Legal) : i.Fits :=
  ⟨by have := h.blockSizes; have := h.maxBlockSize; omega, h.maxBlockSize, h.minFrameSize, h.maxFrameSize,
    by have := h.sampleRate; omega, h.channels, h.bitsPerSample, h.samples, h.md5sum⟩

theorem streaminfoBytes_fits {i : StreamInfo} (h : i.Fits) : streaminfoBytes i =
    beBytes 2 i.minBlockSize ++ (beBytes 2 i.maxBlockSize ++ (beBytes 3 (i.minFrameSize.getD 0) ++
    (beBytes 3 (i.maxFrameSize.getD 0) ++ (beBytes 8 (packedFields i) ++ i.md5sum)))) := by
  unfold streaminfoBytes
  have hs : i.samples.getD 0 < 2 ^ 36 := by
    rcases e : i.samples with _ | n
    · simp
    · exact (h.samples n e).2
  have hc := h.channels
  have hb := h.bitsPerSample
  have e : streaminfoBits i = bytesToBits (beBytes 2 i.minBlockSize ++ (beBytes 2 i.maxBlockSize ++
      (beBytes 3 (i.minFrameSize.getD 0) ++ (beBytes 3 (i.maxFrameSize.getD 0) ++
      (beBytes 8 (packedFields i) ++ i.md5sum))))) := by
    simp only [bytesToBits_append, bytesToBits_beBytes, streaminfoBits, packedFields, Nat.reduceMul]
    rw [show (64 : Nat) = 20 + 3 + 5 + 36 from rfl, Bitstream.natToBits_join _ 36 _ _ hs,
      show (32 : Nat) = 2 ^ 5 from rfl, Bitstream.natToBits_join _ 5 _ _ (by omega),
      show (8 : Nat) = 2 ^ 3 from rfl, Bitstream.natToBits_join _ 3 _ _ (by omega)]
    simp only [List.append_assoc]
  rw [e, bitsToBytes_bytesToBits]

/-! ### The checks -/

theorem checkStreaminfo_refused {i : StreamInfo} {msg : String} (hi : i.Fits) (h : RefusedInfo i msg)
    {minBs maxBs : U16} {minFs maxFs rate : U32} {ch bps : Nat} {n : U64} {md5 : List U8}
    (h1 : minBs.toNat = i.minBlockSize) (h2 : maxBs.toNat = i.maxBlockSize)
    (h3 : minFs.toNat = i.minFrameSize.getD 0) (h4 : maxFs.toNat = i.maxFrameSize.getD 0)
    (h5 : rate.toNat = i.sampleRate) :
    (checkStreaminfo minBs maxBs minFs maxFs rate ch bps n md5 : Dec Flat _) = fmtErr msg := by
  unfold checkStreaminfo
  cases h with
  | blockSizes h => rw [if_pos (by rw [gt_iff_lt, BitVec.lt_def]; omega)]
  | smallBlocks g1 h =>
    rw [if_neg (by rw [gt_iff_lt, BitVec.lt_def]; omega), if_pos (by rw [BitVec.lt_def]; simp; omega)]
  | frameSizes g1 g2 m n hm hn h =>
    rw [if_neg (by rw [gt_iff_lt, BitVec.lt_def]; omega), if_neg (by rw [BitVec.lt_def]; simp; omega), if_pos]
    rw [hm] at h3
    rw [hn] at h4
    have := (hi.maxFrameSize n hn).1
    simp only [Option.getD_some] at h3 h4
    refine ⟨by rw [gt_iff_lt, BitVec.lt_def]; omega, ?_⟩
    rw [Ne, ← BitVec.toNat_inj]
    simp; omega
  | sampleRate g1 g2 g3 h =>
    rw [if_neg (by rw [gt_iff_lt, BitVec.lt_def]; omega), if_neg (by rw [BitVec.lt_def]; simp; omega), if_neg,
      if_pos]
    · rw [← BitVec.toNat_inj, gt_iff_lt, BitVec.lt_def]; simp; omega
    · rintro ⟨h, h'⟩
      rw [gt_iff_lt, BitVec.lt_def] at h
      rw [Ne, ← BitVec.toNat_inj] at h'
      simp only [BitVec.toNat_ofNat, Nat.zero_mod] at h'
      rcases e : i.maxFrameSize with _ | b
      · rw [e] at h4; exact h' h4
      rcases e' : i.minFrameSize with _ | a
      · rw [e'] at h3; simp only [Option.getD_none] at h3; omega
      rw [e] at h4
      rw [e'] at h3
      have := g3 a e' b e
      simp only [Option.getD_some] at h3 h4
      omega

theorem brefuses_checkStreaminfo (minBs maxBs : U16) (minFs maxFs rate : U32) (ch bps : Nat) (n : U64)
    (md5 : List U8) :
    BRefuses (checkStreaminfo minBs maxBs minFs maxFs rate ch bps n md5 : Dec Flat _) (fun u e => u = [] ∧ ∃ msg,
      e = .formatError msg ∧ RefusedInfo
        (infoOf minBs.toNat maxBs.toNat minFs.toNat maxFs.toNat rate.toNat ch bps n.toNat md5) msg) := by
  unfold checkStreaminfo
  refine .ite (fun h => .fail ⟨rfl, _, rfl, .blockSizes ?_⟩) fun h1 => .ite (fun h => .fail ⟨rfl, _, rfl,
    .smallBlocks ?_ ?_⟩) fun h2 => .ite (fun h => .fail ⟨rfl, _, rfl, .frameSizes ?_ ?_ minFs.toNat maxFs.toNat ?_ ?_ ?_⟩)
    fun h3 => .ite (fun h => .fail ⟨rfl, _, rfl, .sampleRate ?_ ?_ ?_ ?_⟩) fun h4 => .pure _
  all_goals
    try rw [gt_iff_lt, BitVec.lt_def] at h1
    try rw [BitVec.lt_def] at h2
    try simp at h2
    try simp only [infoOf]
  · rw [gt_iff_lt, BitVec.lt_def] at h; exact h
  · omega
  · rw [BitVec.lt_def] at h; simpa using h
  · omega
  · omega
  · rw [gt_iff_lt, BitVec.lt_def] at h
    rw [if_neg (by omega)]
  · rw [gt_iff_lt, BitVec.lt_def, Ne, ← BitVec.toNat_inj] at h
    rw [if_neg (by simpa using h.2)]
  · exact h.1
  · omega
  · omega
  · intro a ha b hb
    split at ha <;> cases ha
    split at hb <;> cases hb
    rw [gt_iff_lt, BitVec.lt_def, Ne, ← BitVec.toNat_inj] at h3
    simp at h3
    by_contra hc
    have := h3 (by omega)
    rename_i hz
    exact hz (by rw [this])
  · rw [← BitVec.toNat_inj, gt_iff_lt, BitVec.lt_def] at h
    simpa using h

/-! ### The block -/

theorem bfails_streaminfo {i : StreamInfo} (h : i.Fits) {msg : String} (hr : RefusedInfo i msg) :
    BFails readStreaminfoBlock (streaminfoBytes i) (.err (.formatError msg)) := by
  have hs : i.samples.getD 0 < 2 ^ 36 := by
    rcases e : i.samples with _ | n
    · simp
    · exact (h.samples n e).2
  have hmin : i.minFrameSize.getD 0 < 2 ^ 24 := by
    rcases e : i.minFrameSize with _ | n
    · simp
    · exact (h.minFrameSize n e).2
  have hmax : i.maxFrameSize.getD 0 < 2 ^ 24 := by
    rcases e : i.maxFrameSize with _ | n
    · simp
    · exact (h.maxFrameSize n e).2
  have hc := h.channels
  have hb := h.bitsPerSample
  have hsr := h.sampleRate
  have hbm := h.maxBlockSize
  have hmb := h.minBlockSize
  rw [streaminfoBytes_fits h]
  have hp : packedFields i = (((i.sampleRate / 16) * 256 +
      (i.sampleRate % 16 * 16 + (i.channels - 1) * 2 + (i.bitsPerSample - 1) / 16)) * 256 +
      ((i.bitsPerSample - 1) % 16 * 16 + i.samples.getD 0 / 2 ^ 32)) * 2 ^ 32 +
      i.samples.getD 0 % 2 ^ 32 := by
    unfold packedFields
    omega
  rw [hp, beBytes_eight _ _ _ _ (by omega) (by omega) (by omega)]
  unfold readStreaminfoBlock
  refine .bind (breads_beU16 (by omega)) ?_
  refine .bind (breads_beU16 (by omega)) ?_
  refine .bind (breads_beU24 hmin) ?_
  refine .bind (breads_beU24 hmax) ?_
  rw [List.append_assoc]
  refine .bind (breads_beU16 (by omega)) ?_
  rw [List.cons_append, List.cons_append, ← List.singleton_append, ← List.singleton_append (l := _ ++ _)]
  refine .bind (breads_readU8 _) ?_
  rw [field_channels, bind_addU8 (by simp; omega)]
  refine .bind (breads_readU8 _) ?_
  rw [field_bps, bind_addU8 (by simp; omega)]
  refine .bind (breads_beU32 (by omega)) ?_
  rw [← List.append_nil i.md5sum]
  refine .bind (a := i.md5sum) ?_ ?_
  · rw [← h.md5sum]
    exact breads_readInto _
  rw [checkStreaminfo_refused h hr]
  · exact .fail _
  · simp; omega
  · simp; omega
  · rw [BitVec.toNat_ofNat]; omega
  · rw [BitVec.toNat_ofNat]; omega
  · rw [field_sampleRate]
    simp only [BitVec.toNat_ofNat]
    omega

theorem brefuses_streaminfo : BRefuses readStreaminfoBlock (fun u e => ∃ i msg, i.Fits ∧ RefusedInfo i msg ∧
    u = streaminfoBytes i ∧ e = .formatError msg) := by
  unfold readStreaminfoBlock
  refine .bind (lim := .never) brefuses_readBeU16 btriple_beU16 fun _ minBs h1 => ?_
  refine .bind (lim := .never) brefuses_readBeU16 btriple_beU16 fun _ maxBs h2 => ?_
  refine .bind (lim := .never) brefuses_readBeU24 btriple_beU24 fun _ minFs h3 => ?_
  refine .bind (lim := .never) brefuses_readBeU24 btriple_beU24 fun _ maxFs h4 => ?_
  refine .bind (lim := .never) brefuses_readBeU16 btriple_beU16 fun _ msb h5 => ?_
  refine .bind (lim := .never) brefuses_readU8 btriple_readU8 fun _ b1 h6 => ?_
  rw [field_channels, bind_addU8 (by omega)]
  refine .bind (lim := .never) brefuses_readU8 btriple_readU8 fun _ b2 h7 => ?_
  have := b1.isLt
  have := b2.isLt
  rw [field_bps, bind_addU8 (by omega)]
  refine .bind (lim := .never) brefuses_readBeU32 btriple_beU32 fun _ lsb h8 => ?_
  refine .bind (lim := .never) (brefuses_readInto 16) (btriple_readInto 16) fun u9 md5 h9 => ?_
  refine BRefuses.mono (brefuses_checkStreaminfo _ _ _ _ _ _ _ _ _) ?_
  rintro _ _ ⟨rfl, msg, rfl, hr⟩
  obtain ⟨h3, h3'⟩ := h3
  obtain ⟨h4, h4'⟩ := h4
  obtain ⟨h9, h9'⟩ := h9
  subst h1 h2 h3 h4 h5 h6 h7 h8
  obtain rfl : md5 = u9 := h9.symm
  rw [field_sampleRate, field_samples] at hr
  have := minBs.isLt
  have := maxBs.isLt
  have := lsb.isLt
  have := msb.isLt
  have hl : (infoOf minBs.toNat maxBs.toNat minFs.toNat maxFs.toNat (msb.toNat * 16 + b1.toNat / 16)
      (b1.toNat / 2 % 8 + 1) (b1.toNat % 2 * 16 + b2.toNat / 16 + 1)
      (b2.toNat % 16 * 2 ^ 32 + lsb.toNat) md5).Fits := by
    constructor <;> simp only [infoOf]
    · omega
    · omega
    · intro n hn
      split at hn <;> cases hn
      omega
    · intro n hn
      split at hn <;> cases hn
      omega
    · omega
    · omega
    · omega
    · intro n hn
      split at hn <;> cases hn
      omega
    · exact h9'
  refine ⟨_, msg, hl, hr, ?_, rfl⟩
  rw [streaminfoBytes_fits hl]
  have hg : ∀ n : Nat, (if n = 0 then none else some n).getD 0 = n := by
    intro n
    split
    · simp [*]
    · rfl
  have hp : packedFields (infoOf minBs.toNat maxBs.toNat minFs.toNat maxFs.toNat
      (msb.toNat * 16 + b1.toNat / 16) (b1.toNat / 2 % 8 + 1) (b1.toNat % 2 * 16 + b2.toNat / 16 + 1)
      (b2.toNat % 16 * 2 ^ 32 + lsb.toNat) md5) =
      ((msb.toNat * 256 + b1.toNat) * 256 + b2.toNat) * 2 ^ 32 + lsb.toNat := by
    unfold packedFields infoOf
    simp only [hg]
    omega
  rw [hp, beBytes_eight _ _ _ _ (by omega) (by omega) (by omega)]
  simp only [infoOf, hg, BitVec.ofNat_toNat, BitVec.setWidth_eq, List.append_assoc, List.cons_append,
    List.nil_append, List.append_nil]

end Claxon
