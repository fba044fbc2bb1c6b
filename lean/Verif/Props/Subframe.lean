import Verif.Proof.BitstreamApi
import Verif.Proof.Block
import Verif.Props.Example
import Verif.Props.Signal

/-! # C19, C20, C21, C22, C25: residuals and subframes

The bit-level reader is in an arbitrary state, at an arbitrary bit position (`Unread`). -/

namespace Claxon.Props

open Claxon Spec

variable {b b' : Bitstream BufferedReader} {fault : Option Nat}

/-- A bit-level reader over a reader that delivers the given bytes one by one. -/
theorem bytewise_unread (bytes : List U8) :
    (Bitstream.new (BufferedReader.new (bytewise bytes))).Unread (bytesToBits bytes) none :=
  .new (bytewise_remaining bytes)

/-! ## C19 -/

theorem fits_reconstruct (predict : List Int → Int) (rs past : List Int) :
    ∀ v ∈ reconstruct Arith.wrapOnly predict past rs, FitsIn 32 v := by
  induction rs generalizing past with
  | nil => intro v hv; simp [reconstruct] at hv
  | cons r rs ih =>
    intro v hv
    rw [reconstruct] at hv
    rcases List.mem_cons.1 hv with rfl | hv
    · exact fits_bmod (by omega) _
    · exact ih _ v hv

/-- **C19.** A subframe that stores the given coefficients, shift, warm-up samples and residuals is decoded to
samples that satisfy the equation of the linear predictor, in 32-bit arithmetic. -/
theorem C19_subframe {bps : Nat} (hbps : bps ≤ 32) {warmUp : List Int} {precision shift : Nat}
    {coefs : List Int} {residual : Residual} (buffer : List I32) (hbs : buffer.length ≤ 65535)
    (hs : (Coding.lpc warmUp precision shift coefs residual).WellFormed bps buffer.length)
    (hr : residual.InRange) {rest : List Bool}
    (hb : b.Unread (Subframe.bits bps ⟨.lpc warmUp precision shift coefs residual, 0⟩ ++ rest) fault) :
    ∃ out b', decodeSubframe bps buffer b = (.ok out, b') ∧ b'.Unread rest fault ∧
      LpcOf coefs shift (i32s (warmUp ++ residual.values)) out := by
  have hpos : 0 < bps := by
    obtain ⟨h1, -, hv, -⟩ := hs
    obtain ⟨v, hm⟩ := List.exists_mem_of_length_pos (l := warmUp) (by omega)
    exact (hv v hm).2.2
  obtain ⟨b', h1, h2⟩ := (reads_subframe hbps ⟨.lpc warmUp precision shift coefs residual, 0⟩ buffer (by omega)
    ⟨hpos, hs⟩).buffered ((simBufferedRd fault).toSimU8.decodeSubframe _ _) hb
  refine ⟨_, b', h1, h2, ?_⟩
  rw [Subframe.samplesWith]
  simp only
  rw [wrap_samples hbps hs]
  obtain ⟨hl1, -, hv, -, -, -, hcl, -, hres⟩ := hs
  have hwarm : (i32s (warmUp ++ residual.values)).take coefs.length = i32s warmUp := by
    unfold i32s
    rw [List.map_append, List.take_left' (by simp [hcl])]
  have hrest : (i32s (warmUp ++ residual.values)).drop coefs.length = i32s residual.values := by
    unfold i32s
    rw [List.map_append, List.drop_left' (by simp [hcl])]
  have hto : ∀ vs : List Int, (∀ v ∈ vs, FitsIn 32 v) → (i32s vs).map BitVec.toInt = vs := by
    intro vs h
    exact map_ofInt_toInt (Nat.le_refl 32) h
  have key := lpcOf (coefs := coefs) (shift := shift) (buffer := i32s (warmUp ++ residual.values))
    (tail := i32s (reconstruct Arith.wrap32 (linearPrediction coefs shift) warmUp.reverse residual.values))
    (by simp [i32s, hcl]) (by
      rw [hwarm, hrest, hto _ (fun v hm => FitsIn.mono (hv v hm) hbps), hto _ hr, reconstruct_wrap32]
      have hid : residual.values.map Arith.wrap32.residual = residual.values := by
        conv_rhs => rw [← List.map_id residual.values]
        exact List.map_congr_left fun v hm => residual_wrap32 (hr v hm)
      rw [hid]
      exact hto _ (fits_reconstruct _ _ _))
  rw [hwarm] at key
  simpa only [Coding.samplesWith, i32s, List.map_append] using key

/-- A subframe of order 2, whose coefficients differ, and the padding after it. -/
def lpcExample : Coding := .lpc [2, 3] 4 1 [3, -1] ⟨.rice, 0, [⟨2, [1, -5, 6]⟩]⟩

example : lpcExample.WellFormed 16 5 ∧ lpcExample.ResidualInRange ∧
    (Bitstream.new (BufferedReader.new (bytewise (bitsToBytes
      (Subframe.bits 16 ⟨lpcExample, 0⟩ ++ List.replicate 7 false))))).Unread
      (Subframe.bits 16 ⟨lpcExample, 0⟩ ++ List.replicate 7 false) none := by
  refine ⟨⟨by decide, by decide, by decide, by decide, by decide, by decide, by decide, by decide,
      ⟨by decide, by decide, by decide, by decide, by decide, by decide⟩⟩,
    by unfold lpcExample Coding.ResidualInRange Residual.InRange; decide, ?_⟩
  have hb := bytewise_unread (bitsToBytes (Subframe.bits 16 ⟨lpcExample, 0⟩ ++ List.replicate 7 false))
  rwa [bytesToBits_bitsToBytes 11 _ (by decide)] at hb

/-! ## C20 -/

/-- **C20.** Whenever a residual of a block of `blockSize` samples with `order` warm-up samples is decoded,
the result is the concatenation of 2^k partitions, of which the first has `blockSize / 2^k - order` samples and
the others `blockSize / 2^k`; together they exactly fill the block after the warm-up samples. Each partition
has been decoded from its own bits, which follow one another. -/
theorem C20_partitions {blockSize order : Nat} (hbs : blockSize < 2 ^ 16) (ho : order ≤ blockSize)
    (buffer : List I32) (hlen : buffer.length = blockSize - order) {bits : List Bool}
    (hb : b.Unread bits fault) {out : List I32} (h : decodeResidual blockSize buffer b = (.ok out, b')) :
    ∃ (method : RiceMethod) (k : Nat) (partitions : List Partition) (rest : List Bool),
      k ≤ 15 ∧ partitions.length = 2 ^ k ∧ blockSize = 2 ^ k * (blockSize / 2 ^ k) ∧
      (∃ first others, partitions = first :: others ∧
        first.values.length + order = blockSize / 2 ^ k ∧
        ∀ p ∈ others, p.values.length = blockSize / 2 ^ k) ∧
      out.length = blockSize - order ∧
      out = (partitions.map fun p => p.values.map fun v =>
        BitVec.ofInt 32 (unfold (fold v % 2 ^ 32))).flatten ∧
      bits = natToBits 2 method.code ++ natToBits 4 k ++
        (partitions.map fun p => natToBits method.paramBits p.param ++
          (p.values.map (riceBits p.param)).flatten).flatten ++ rest ∧
      b'.Unread rest fault := by
  obtain ⟨used, rest, h1, ⟨r, hw, hu, hout⟩, h3⟩ :=
    (triple_residual hbs ho buffer hlen).buffered ((simBufferedRd fault).toSimU8.decodeResidual _ _) hb h
  have hL := Claxon.Residual.WellFormed.length hw
  obtain ⟨hpo, hdiv, hfirst, hparams, hsizes, hquot⟩ := hw
  refine ⟨r.method, r.partitionOrder, r.partitions, rest, hpo, ?_, ?_, ?_, ?_, ?_, ?_, h3⟩
  · have := congrArg List.length hsizes
    simp only [List.length_map, partitionSizes, List.length_cons, List.length_replicate] at this
    have : 0 < 2 ^ r.partitionOrder := Nat.two_pow_pos _
    omega
  · have := Nat.div_add_mod blockSize (2 ^ r.partitionOrder)
    omega
  · rcases hps : r.partitions with _ | ⟨first, others⟩
    · rw [hps] at hsizes
      cases hsizes
    · rw [hps, partitionSizes, List.map_cons, List.cons.injEq] at hsizes
      refine ⟨first, others, rfl, by omega, ?_⟩
      intro p hp
      have : p.values.length ∈ others.map fun p => p.values.length := List.mem_map.2 ⟨p, hp, rfl⟩
      rw [hsizes.2] at this
      exact (List.mem_replicate.1 this).2
  · rw [hout, List.length_map, hL]
  · rw [hout, Residual.values, List.flatMap_def, List.map_flatten, List.map_map]
    rfl
  · rw [h1, hu, Residual.bits]
    simp only [List.flatMap_def]
    rfl

/-- **C20.** A partition order that does not divide the block size is a format error. -/
theorem C20_notDividing {blockSize k : Nat} (hk : k ≤ 15) (hdiv : ¬ 2 ^ k ∣ blockSize) (method : RiceMethod)
    (buffer : List I32) {rest : List Bool}
    (hb : b.Unread (natToBits 2 method.code ++ natToBits 4 k ++ rest) fault) :
    ∃ b', decodeResidual blockSize buffer b =
      (.error (.err (.formatError "invalid partition order")), b') := by
  refine FailsOn.buffered (x := false) ((simBufferedRd fault).toSimU8.decodeResidual _ _) ?_ hb
  refine FailsOn.bind (reads_readLeqU8 (k := 2) (by omega) (show method.code < 2 ^ 2 by
    cases method <;> decide)) ?_
  simp only
  rw [code_ofNat method, pure_bind, ← List.append_nil (natToBits 4 k)]
  refine FailsOn.bind (reads_readLeqU8 (k := 4) (by omega) (show k < 2 ^ 4 by omega)) ?_
  simp only [toNat_ofNat8 (show k < 256 by omega)]
  refine FailsOn.bind_lift (if_pos (by omega)) ?_
  refine FailsOn.bind_lift (if_pos (by omega)) ?_
  rw [and_mask _ _ hk, if_pos (fun h => hdiv (Nat.dvd_of_mod_eq_zero h))]
  exact FailsOn.fail _

/-- **C20.** So is one for which the first partition would have a negative size. -/
theorem C20_negative {blockSize order k : Nat} (hbs : blockSize < 2 ^ 16) (ho : order ≤ blockSize)
    (hk : k ≤ 15) (hfirst : blockSize / 2 ^ k < order) (method : RiceMethod)
    (buffer : List I32) (hlen : buffer.length = blockSize - order) {rest : List Bool}
    (hb : b.Unread (natToBits 2 method.code ++ natToBits 4 k ++ rest) fault) :
    ∃ msg b', decodeResidual blockSize buffer b = (.error (.err (.formatError msg)), b') := by
  by_cases hdiv : 2 ^ k ∣ blockSize
  · obtain ⟨b', h⟩ : ∃ b', decodeResidual blockSize buffer b =
        (.error (.err (.formatError "invalid residual")), b') := by
      refine FailsOn.buffered (x := false) ((simBufferedRd fault).toSimU8.decodeResidual _ _) ?_ hb
      refine FailsOn.bind (reads_readLeqU8 (k := 2) (by omega) (show method.code < 2 ^ 2 by
        cases method <;> decide)) ?_
      simp only
      rw [code_ofNat method, pure_bind, ← List.append_nil (natToBits 4 k)]
      refine FailsOn.bind (reads_readLeqU8 (k := 4) (by omega) (show k < 2 ^ 4 by omega)) ?_
      simp only [toNat_ofNat8 (show k < 256 by omega)]
      refine FailsOn.bind_lift (if_pos (by omega)) ?_
      refine FailsOn.bind_lift (if_pos (by omega)) ?_
      have hprod : 2 ^ k * (blockSize / 2 ^ k) = blockSize := Nat.mul_div_cancel' hdiv
      rw [and_mask _ _ hk, if_neg (fun h => h (Nat.mod_eq_zero_of_dvd hdiv)), Nat.shiftRight_eq_div_pow]
      refine FailsOn.bind_lift (mulU_ok (by rw [hprod]; omega)) ?_
      refine FailsOn.bind_lift (debugAssert_ok (by rw [hprod]; simp)) ?_
      rw [Nat.mod_eq_of_lt (show buffer.length < 2 ^ 16 by omega)]
      refine FailsOn.bind_lift (subU_ok (by omega)) ?_
      rw [show blockSize - buffer.length = order by omega, if_pos hfirst]
      exact FailsOn.fail _
    exact ⟨_, b', h⟩
  · obtain ⟨b', h⟩ := C20_notDividing hk hdiv method buffer hb
    exact ⟨_, b', h⟩

/-- A block of 4 samples, one of which is a warm-up sample, with two partitions (Rice parameters 0 and 1)
of 1 and 2 samples, from the bytes 04 22 b0. -/
example : ∃ b', decodeResidual 4 [0, 0, 0]
    (Bitstream.new (BufferedReader.new (bytewise [0b00_0001_00#8, 0b00_1_0001_0#8, 0b10_11_0000#8]))) =
      (.ok [0, 1, -1], b') := by
  obtain ⟨b', h1, -⟩ := (reads_residual ⟨.rice, 1, [⟨0, [0]⟩, ⟨1, [1, -1]⟩]⟩ (bs := 4) (order := 1)
    (by omega) (by omega) (by constructor <;> decide) [0, 0, 0] rfl).buffered
    ((simBufferedRd none).toSimU8.decodeResidual _ _) (rest := [false, false, false, false])
    (bytewise_unread [0b00_0001_00#8, 0b00_1_0001_0#8, 0b10_11_0000#8])
  exact ⟨b', h1⟩

/-! ## C21 -/

/-- **C21.** A subframe of `bps` bits with `k` wasted bits decodes to the samples of the subframe with the
same body, `bps - k` bits and no wasted bits, multiplied by 2^k. -/
theorem C21_wasted {bps k : Nat} (hbps : bps ≤ 32) (hk : k < bps) (coding : Coding) (buffer : List I32)
    (hbs : buffer.length < 2 ^ 16) (hw : coding.WellFormed (bps - k) buffer.length)
    {rest rest₀ : List Bool} {b b₀ : Bitstream BufferedReader} {fault fault₀ : Option Nat}
    (hb : b.Unread (Subframe.bits bps ⟨coding, k⟩ ++ rest) fault)
    (hb₀ : b₀.Unread (Subframe.bits (bps - k) ⟨coding, 0⟩ ++ rest₀) fault₀) :
    ∃ out b' b₀', decodeSubframe (bps - k) buffer b₀ = (.ok out, b₀') ∧
      decodeSubframe bps buffer b = (.ok (out.map fun s => s * BitVec.ofNat 32 (2 ^ k)), b') ∧
      b'.Unread rest fault := by
  obtain ⟨b', h1, h2⟩ := (reads_subframe hbps ⟨coding, k⟩ buffer hbs ⟨hk, hw⟩).buffered
    ((simBufferedRd fault).toSimU8.decodeSubframe _ _) hb
  obtain ⟨b₀', h3, h4⟩ := (reads_subframe (show bps - k ≤ 32 by omega) ⟨coding, 0⟩ buffer hbs
    ⟨by simp only; omega, hw⟩).buffered
    ((simBufferedRd fault₀).toSimU8.decodeSubframe _ _) hb₀
  refine ⟨_, b', b₀', h3, ?_, h2⟩
  rw [h1]
  congr 2
  simp only [Subframe.samplesWith, List.map_map]
  apply List.map_congr_left
  intro v _
  apply BitVec.eq_of_toInt_eq
  have e : (BitVec.ofNat 32 (2 ^ k)).toInt = Int.bmod ((2 ^ k : Nat) : Int) (2 ^ 32) :=
    BitVec.toInt_ofNat' ..
  simp only [Function.comp, Arith.wrap32, BitVec.toInt_mul, BitVec.toInt_ofInt, e,
    Int.bmod_bmod, Int.mul_bmod_bmod, Int.bmod_mul_bmod, Int.pow_zero, Int.mul_one]
  push_cast
  rfl

/-- **C21.** If there are at least as many wasted bits as bits, that is a format error. -/
theorem C21_tooMany {bps k : Nat} (hbps : bps ≤ 32) (hk : bps ≤ k) (h0 : 0 < k) (hk32 : k < 2 ^ 32)
    {typeCode : Nat} (ht : typeCode < 2 ^ 6) (buffer : List I32) {rest : List Bool}
    (hb : b.Unread (false :: natToBits 6 typeCode ++ (true :: unaryBits (k - 1)) ++ rest) fault) :
    ∃ msg b', decodeSubframe bps buffer b = (.error (.err (.formatError msg)), b') := by
  have hwasted : Reads wastedDec (true :: unaryBits (k - 1)) k := by
    apply Reads.congr ((reads_readBit true).bind (c := k) (cs := unaryBits (k - 1)) _) rfl rfl
    apply (reads_readUnary (by omega)).bind_nil
    exact (Reads.lift (addU_ok (show 1 + (k - 1) < 2 ^ 32 by omega))).congr rfl (by omega)
  have htype : (∃ msg, (subframeTypeOf (BitVec.ofNat 8 typeCode) : Dec (Bitstream Flat) SubframeType) =
      fmtErr msg) ∨ ∃ t, (subframeTypeOf (BitVec.ofNat 8 typeCode) : Dec (Bitstream Flat) SubframeType) =
      pure t := by
    unfold subframeTypeOf
    split
    · exact .inr ⟨_, rfl⟩
    split
    · exact .inr ⟨_, rfl⟩
    split
    · exact .inl ⟨_, rfl⟩
    split
    · simp only
      split
      · exact .inl ⟨_, rfl⟩
      · exact .inr ⟨_, rfl⟩
    · exact .inr ⟨_, rfl⟩
  have hflat : ∃ msg, FailsOn (decodeSubframe bps buffer)
      (false :: natToBits 6 typeCode ++ (true :: unaryBits (k - 1))) (.err (.formatError msg)) := by
    rcases htype with ⟨msg, ht'⟩ | ⟨t, ht'⟩
    · refine ⟨msg, ?_⟩
      refine FailsOn.bind_lift (debugAssert_ok (decide_eq_true hbps)) (FailsOn.bind_left _ ?_)
      rw [readSubframeHeader_eq]
      show FailsOn _ ([false] ++ natToBits 6 typeCode ++ (true :: unaryBits (k - 1))) _
      rw [List.append_assoc]
      refine FailsOn.bind (reads_readBit false) ?_
      simp only [Bool.false_eq_true, if_false]
      refine FailsOn.bind (reads_readLeqU8 (k := 6) (by omega) ht) ?_
      rw [ht']
      exact FailsOn.bind_left _ (.of fun b _ _ _ => ⟨b, rfl⟩)
    · by_cases h31 : k > 31
      · refine ⟨"wasted bits per sample must not exceed 31", ?_⟩
        refine FailsOn.bind_lift (debugAssert_ok (decide_eq_true hbps)) (FailsOn.bind_left _ ?_)
        rw [readSubframeHeader_eq]
        show FailsOn _ ([false] ++ natToBits 6 typeCode ++ (true :: unaryBits (k - 1))) _
        rw [List.append_assoc]
        refine FailsOn.bind (reads_readBit false) ?_
        simp only [Bool.false_eq_true, if_false]
        refine FailsOn.bind (reads_readLeqU8 (k := 6) (by omega) ht) ?_
        rw [ht', pure_bind, ← List.append_nil (true :: unaryBits (k - 1))]
        refine FailsOn.bind hwasted ?_
        rw [if_pos h31]
        exact FailsOn.fail _
      · refine ⟨"subframe has no non-wasted bits", ?_⟩
        refine FailsOn.bind_lift (debugAssert_ok (decide_eq_true hbps)) ?_
        have hhead : Reads readSubframeHeader
            (false :: natToBits 6 typeCode ++ (true :: unaryBits (k - 1))) ⟨t, k⟩ := by
          rw [readSubframeHeader_eq]
          show Reads _ ([false] ++ natToBits 6 typeCode ++ (true :: unaryBits (k - 1))) _
          rw [List.append_assoc]
          apply (reads_readBit false).bind
          simp only [Bool.false_eq_true, if_false]
          apply (reads_readLeqU8 (k := 6) (by omega) ht).bind
          rw [ht', pure_bind]
          apply hwasted.bind_nil
          rw [if_neg h31]
          exact Reads.pure _
        rw [← List.append_nil (false :: natToBits 6 typeCode ++ (true :: unaryBits (k - 1)))]
        refine FailsOn.bind hhead ?_
        rw [if_pos (by simpa using hk)]
        exact FailsOn.fail _
  obtain ⟨msg, hf⟩ := hflat
  obtain ⟨b', h⟩ := hf.buffered ((simBufferedRd fault).toSimU8.decodeSubframe _ _) hb
  exact ⟨msg, b', h⟩

/-- A constant subframe of 8 bits with 3 wasted bits, value -16 * 2^3. -/
example : (Coding.constant (-16)).WellFormed (8 - 3) 100 ∧
    (Bitstream.new (BufferedReader.new (bytewise [0b0_000000_1#8, 0b001_10000#8]))).Unread
      (Subframe.bits 8 ⟨.constant (-16), 3⟩ ++ []) none ∧
    Subframe.samples 3 ⟨.constant (-16), 3⟩ = [-128, -128, -128] :=
  ⟨by unfold Coding.WellFormed; decide, bytewise_unread [0b0_000000_1#8, 0b001_10000#8], by decide⟩

/-! ## C22 -/

/-- **C22.** Every legal subframe, of up to 32 bits per sample and up to 65535 samples, decodes to exactly its
samples, from exactly its bits: whatever follows them is still unread. -/
theorem C22_subframe {bps : Nat} (hbps : bps ≤ 32) (s : Subframe) (buffer : List I32)
    (hbs : buffer.length ≤ 65535) (hs : s.Legal bps buffer.length) {rest : List Bool}
    (hb : b.Unread (s.bits bps ++ rest) fault) :
    ∃ out b', decodeSubframe bps buffer b = (.ok out, b') ∧ b'.Unread rest fault ∧
      out.map BitVec.toInt = s.samples buffer.length := by
  obtain ⟨b', h1, h2⟩ := (reads_subframe hbps s buffer (by omega) hs.wellFormed).buffered
    ((simBufferedRd fault).toSimU8.decodeSubframe _ _) hb
  refine ⟨_, b', h1, h2, ?_⟩
  rw [Claxon.Subframe.Legal.wrap32_eq hs, List.map_map]
  conv_rhs => rw [← List.map_id (s.samples buffer.length)]
  apply List.map_congr_left
  intro v hv
  exact toInt_ofInt_fits (hs.samples v hv)

/-- A legal subframe with a linear predictor and wasted bits, which starts in the middle of a byte. -/
example : ∃ (s : Subframe) (b : Bitstream BufferedReader) (rest : List Bool), s.Legal 17 4 ∧
    s.samples 4 = [4, 6, -4, 8] ∧ b.bitsLeft = 5 ∧ b.Unread (s.bits 17 ++ rest) none := by
  refine ⟨⟨.lpc [2] 3 0 [1] ⟨.rice, 0, [⟨2, [1, -5, 6]⟩]⟩, 1⟩, ?_⟩
  have hb := bytewise_unread (bitsToBytes ([true, false, true] ++
    Subframe.bits 17 ⟨.lpc [2] 3 0 [1] ⟨.rice, 0, [⟨2, [1, -5, 6]⟩]⟩, 1⟩))
  rw [bytesToBits_bitsToBytes 8 _ (by decide)] at hb
  obtain ⟨b', h1, h2⟩ := (reads_readLeqU8 (k := 3) (v := 5) (by omega) (by omega)).buffered
    ((simBufferedRd none).toSimU8.readLeqU8 _) hb
  refine ⟨b', [], ⟨⟨by decide, ?_⟩, ?_, by decide⟩, by decide, ?_,
    by rw [List.append_nil]; exact h2⟩
  · exact ⟨by decide, by decide, by decide, by decide, by decide, by decide, by decide, by decide,
      ⟨by decide, by decide, by decide, by decide, by decide, by decide⟩⟩
  · unfold Coding.ResidualInRange Residual.InRange; decide
  · obtain ⟨hle, -, bytes, -, hbits⟩ := h2
    have := congrArg List.length hbits
    rw [List.length_append, List.length_take, length_bytesToBits,
      show (byteBits b'.data).length = 8 by simp [byteBits], Nat.min_eq_left (by omega),
      show (Subframe.bits 17 ⟨.lpc [2] 3 0 [1] ⟨.rice, 0, [⟨2, [1, -5, 6]⟩]⟩, 1⟩).length = 61 by decide] at this
    omega

/-! ## C25 -/

/-- **C25.** Whatever bits are decoded as a subframe, they are the encoding of some well-formed subframe, and
the samples are the ones it denotes, modulo 2^32. -/
theorem C25_subframe {bps : Nat} (hbps : bps ≤ 32) (buffer : List I32) (hbs : buffer.length ≤ 65535)
    {bits : List Bool} (hb : b.Unread bits fault) {out : List I32}
    (h : decodeSubframe bps buffer b = (.ok out, b')) :
    ∃ (s : Subframe) (rest : List Bool), s.WellFormed bps buffer.length ∧
      bits = s.bits bps ++ rest ∧ b'.Unread rest fault ∧
      out.map BitVec.toInt = s.samplesWith .wrap32 buffer.length := by
  obtain ⟨used, rest, h1, ⟨s, hw, hu, hout⟩, h3⟩ :=
    (triple_subframe hbps buffer (by omega)).buffered
      ((simBufferedRd fault).toSimU8.decodeSubframe _ _) hb h
  refine ⟨s, rest, hw, by rw [h1, hu], h3, ?_⟩
  rw [hout, List.map_map]
  conv_rhs => rw [← List.map_id (s.samplesWith .wrap32 buffer.length)]
  apply List.map_congr_left
  intro v hv
  exact toInt_ofInt_fits (fits_samplesWith v hv)

/-- **C25.** Whatever bytes are decoded as a frame, they are the encoding of some well-formed frame, and the
block holds the channels that it denotes, modulo 2^32. -/
theorem C25_frame {r r' : BufferedReader} {bytes : List U8} (hr : r.Remaining bytes fault)
    (buffer : VecI32) {block : Block} (h : readNextOrEof buffer r = (.ok (some block), r')) :
    ∃ (bps : Nat) (f : Frame) (rest : List U8), f.WellFormed bps ∧ bytes = f.bytes bps ++ rest ∧
      r'.Remaining rest fault ∧ block.Holds f.header.time f.wrappedChannels := by
  obtain ⟨bps, f, rest, hw, h1, h2, rfl⟩ := of_buffered_frame hr h
  exact ⟨bps, f, rest, hw, h1, h2, blockOf_holds hw buffer⟩

example : ∃ block r', readNextOrEof VecI32.empty
    (BufferedReader.new (bytewise (exampleFrame.bytes 16))) = (.ok (some block), r') := by
  obtain ⟨r', h, -⟩ := buffered_frame exampleFrame_encodes.legal.wellFormed VecI32.empty (rest := [])
    (r := BufferedReader.new (bytewise (exampleFrame.bytes 16)))
    (by rw [List.append_nil]; exact bytewise_remaining _)
  exact ⟨_, r', h⟩

end Claxon.Props
