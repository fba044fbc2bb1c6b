import Verif.Proof.RefusedHeader

/-! What is refused makes the frame reader fail. -/

namespace Claxon

open Spec ReadBytes Bitstream

variable {x : Bool}

/-! ### Residuals -/

theorem failsOn_escape (m : RiceMethod) (buf : List I32) :
    FailsOn (partitionDec m buf) (natToBits m.paramBits (2 ^ m.paramBits - 1))
      (.err (.unsupported Feature.unencodedPartition.message)) x := by
  rw [← List.append_nil (natToBits _ _)]
  cases m with
  | rice =>
    refine FailsOn.bind (reads_readLeqU8 (k := 4) (by omega) (show 15 < 2 ^ 4 by omega)) ?_
    exact FailsOn.fail _
  | rice2 =>
    refine FailsOn.bind (reads_readLeqU8 (k := 5) (by omega) (show 31 < 2 ^ 5 by omega)) ?_
    exact FailsOn.fail _

theorem failsOn_escapeLoop (m : RiceMethod) (nspp : Nat) (good : List Partition) :
    ∀ (n start len : Nat) (buffer : List I32),
    (∀ p ∈ good, p.param ≤ m.maxParam ∧ ∀ v ∈ p.values, fold v / 2 ^ p.param < 2 ^ 32) →
    good.map (fun p => p.values.length) <+: sizesFrom nspp n len → good.length < n →
    buffer.length = start + (sizesFrom nspp n len).sum →
    FailsOn (partitionLoop (ptypeOf m) nspp n start len buffer)
      (good.flatMap (Partition.bits m) ++ natToBits m.paramBits (2 ^ m.paramBits - 1))
      (.err (.unsupported Feature.unencodedPartition.message)) x := by
  induction good with
  | nil =>
    intro n start len buffer _ _ hn hlen
    obtain ⟨n, rfl⟩ : ∃ k, n = k + 1 := ⟨n - 1, by simp at hn; omega⟩
    simp only [sizesFrom, List.sum_cons] at hlen
    rw [partitionLoop_succ]
    exact FailsOn.bind_left _ (FailsOn.withSlice (by omega) (by omega) (failsOn_escape m _))
  | cons p good ih =>
    intro n start len buffer hg hs hn hlen
    obtain ⟨n, rfl⟩ : ∃ k, n = k + 1 := ⟨n - 1, by simp at hn; omega⟩
    simp only [sizesFrom, List.sum_cons] at hlen
    rw [List.map_cons, sizesFrom, List.cons_prefix_cons] at hs
    obtain ⟨h1, h2⟩ := hg p (by simp)
    have hslice : Reads (withSlice buffer start (start + len) (partitionDec m)) (p.bits m)
        (buffer.take start ++ p.values.map resI32 ++ buffer.drop (start + len)) := by
      apply Reads.withSlice (by omega) (by omega)
      apply reads_partition m p h1 h2
      rw [List.length_drop, List.length_take]
      omega
    rw [partitionLoop_succ, List.flatMap_cons, List.append_assoc]
    refine FailsOn.bind hslice (ih n (start + len) nspp _ (fun q hq => hg q (by simp [hq])) hs.2
      (by simpa using hn) ?_)
    simp only [List.length_append, List.length_take, List.length_map, List.length_drop]
    omega

theorem failsOn_refusedResidual {bs order : Nat} (hbs : bs < 2 ^ 16) (ho : order ≤ bs) (buffer : List I32)
    (hlen : buffer.length = bs - order) {bits : List Bool} {e : Error} (h : RefusedResidual bs order bits e) :
    FailsOn (decodeResidual bs buffer) bits (.err e) x := by
  cases h with
  | method method h => exact failsOn_method h buffer
  | partitionOrder m k hk h =>
    unfold decodeResidual
    refine FailsOn.bind (reads_readLeqU8 (k := 2) (by omega) (show m.code < 2 ^ 2 by cases m <;> decide)) ?_
    simp only
    rw [code_ofNat m, pure_bind, ← List.append_nil (natToBits 4 k)]
    refine FailsOn.bind (reads_readLeqU8 (k := 4) (by omega) (show k < 2 ^ 4 by omega)) ?_
    have hpow : 2 ^ k ≤ 2 ^ 15 := Nat.pow_le_pow_right (by omega) hk
    simp only [toNat_ofNat8 (show k < 256 by omega)]
    refine FailsOn.bind_lift (if_pos (by omega)) ?_
    refine FailsOn.bind_lift (if_pos (by omega)) ?_
    rw [and_mask _ _ hk, if_pos (by simpa using h)]
    exact FailsOn.fail _
  | warmUp m k hk hdiv h =>
    unfold decodeResidual
    refine FailsOn.bind (reads_readLeqU8 (k := 2) (by omega) (show m.code < 2 ^ 2 by cases m <;> decide)) ?_
    simp only
    rw [code_ofNat m, pure_bind, ← List.append_nil (natToBits 4 k)]
    refine FailsOn.bind (reads_readLeqU8 (k := 4) (by omega) (show k < 2 ^ 4 by omega)) ?_
    have hpow : 2 ^ k ≤ 2 ^ 15 := Nat.pow_le_pow_right (by omega) hk
    simp only [toNat_ofNat8 (show k < 256 by omega)]
    refine FailsOn.bind_lift (if_pos (by omega)) ?_
    refine FailsOn.bind_lift (if_pos (by omega)) ?_
    rw [and_mask _ _ hk, if_neg (by simpa using hdiv), Nat.shiftRight_eq_div_pow]
    have hprod : 2 ^ k * (bs / 2 ^ k) = bs := by
      have := Nat.div_add_mod bs (2 ^ k); omega
    refine FailsOn.bind_lift (mulU_ok (by rw [hprod]; omega)) ?_
    refine FailsOn.bind_lift (debugAssert_ok (by rw [hprod]; simp)) ?_
    rw [Nat.mod_eq_of_lt (show buffer.length < 2 ^ 16 by omega)]
    refine FailsOn.bind_lift (subU_ok (by omega)) ?_
    rw [show bs - buffer.length = order by omega, if_pos (by omega)]
    exact FailsOn.fail _
  | escape m k hk hdiv hfirst good hg hs hl =>
    unfold decodeResidual
    rw [List.append_assoc, List.append_assoc]
    refine FailsOn.bind (reads_readLeqU8 (k := 2) (by omega) (show m.code < 2 ^ 2 by cases m <;> decide)) ?_
    simp only
    rw [code_ofNat m, pure_bind]
    refine FailsOn.bind (reads_readLeqU8 (k := 4) (by omega) (show k < 2 ^ 4 by omega)) ?_
    have hpow : 2 ^ k ≤ 2 ^ 15 := Nat.pow_le_pow_right (by omega) hk
    simp only [toNat_ofNat8 (show k < 256 by omega)]
    refine FailsOn.bind_lift (if_pos (by omega)) ?_
    refine FailsOn.bind_lift (if_pos (by omega)) ?_
    rw [and_mask _ _ hk, if_neg (by simpa using hdiv), Nat.shiftRight_eq_div_pow]
    have hprod : 2 ^ k * (bs / 2 ^ k) = bs := by
      have := Nat.div_add_mod bs (2 ^ k); omega
    refine FailsOn.bind_lift (mulU_ok (by rw [hprod]; omega)) ?_
    refine FailsOn.bind_lift (debugAssert_ok (by rw [hprod]; simp)) ?_
    rw [Nat.mod_eq_of_lt (show buffer.length < 2 ^ 16 by omega)]
    refine FailsOn.bind_lift (subU_ok (by omega)) ?_
    rw [show bs - buffer.length = order by omega, if_neg (by omega)]
    refine FailsOn.bind_lift (subU_ok hfirst) ?_
    refine failsOn_escapeLoop m _ good _ 0 _ buffer hg ?_ hl ?_
    · rw [← partitionSizes_eq]; exact hs
    · rw [← partitionSizes_eq, partitionSizes_sum hdiv hfirst, hlen]; omega

/-! ### Subframes -/

theorem reads_wastedAny {k : Nat} (hk : k < 2 ^ 32) : Reads wastedDec (wastedBits k) k := by
  unfold wastedBits
  split
  · rename_i h; subst h
    exact (reads_readBit false).bind_nil (Reads.pure _)
  · rename_i h
    apply Reads.congr ((reads_readBit true).bind (c := k) (cs := unaryBits (k - 1)) _) rfl rfl
    apply (reads_readUnary (by omega)).bind_nil
    exact (Reads.lift (addU_ok (show 1 + (k - 1) < 2 ^ 32 by omega))).congr rfl (by omega)

theorem type_of_code {code : Nat} (h6 : code < 2 ^ 6) (hr : ¬ ReservedType code) :
    (subframeTypeOf (BitVec.ofNat 8 code) : Dec (Bitstream Flat) SubframeType) = pure (typeAt code) := by
  rcases subframeType_cases h6 with ⟨h, _⟩ | ⟨_, _, _, h⟩
  · exact absurd h hr
  · exact h

theorem typeAt_fixed {order : Nat} (h : order ≤ 4) : typeAt (8 + order) = .fixed order := by
  interval_cases order <;> rfl

theorem typeAt_lpc {order : Nat} (h1 : 1 ≤ order) (h : order ≤ 32) : typeAt (32 + (order - 1)) = .lpc order := by
  interval_cases order <;> rfl

theorem bad_fixed {bps bs order wasted : Nat} (h32 : bps ≤ 32) (hw : wasted < bps) (h4 : order ≤ 4)
    {bits : List Bool} {e : Fail}
    (h : ∀ buffer : List I32, buffer.length = bs → FailsOn (decodeFixed (bps - wasted) order buffer) bits e x) :
    BadSubframe bps bs (subframeHeaderBits (8 + order) wasted ++ bits) e x := by
  refine bad_body h32 (show 8 + order < 2 ^ 6 by omega) (type_of_code (by omega) ?_) hw ?_
  · unfold ReservedType; omega
  · rw [typeAt_fixed h4]; exact h

theorem bad_lpc {bps bs order wasted : Nat} (h32 : bps ≤ 32) (hw : wasted < bps) (h1 : 1 ≤ order) (ho : order ≤ 32)
    {bits : List Bool} {e : Fail}
    (h : ∀ buffer : List I32, buffer.length = bs → FailsOn (decodeLpc (bps - wasted) order buffer) bits e x) :
    BadSubframe bps bs (subframeHeaderBits (32 + (order - 1)) wasted ++ bits) e x := by
  refine bad_body h32 (show 32 + (order - 1) < 2 ^ 6 by omega) (type_of_code (by omega) ?_) hw ?_
  · unfold ReservedType; omega
  · rw [typeAt_lpc h1 ho]; exact h

theorem bad_of_refused {bps bs : Nat} (h32 : bps ≤ 32) (hbs : bs < 2 ^ 16) {bits : List Bool} {e : Error}
    (h : RefusedSubframe bps bs bits e) : BadSubframe bps bs bits (.err e) x := by
  cases h with
  | padding =>
    intro buffer _
    unfold decodeSubframe
    refine FailsOn.bind_lift (debugAssert_ok (decide_eq_true h32)) (FailsOn.bind_left _ ?_)
    rw [readSubframeHeader_eq, ← List.append_nil [true]]
    exact FailsOn.bind (reads_readBit true) (FailsOn.fail _)
  | type code hcode =>
    intro buffer _
    have h6 : code < 2 ^ 6 := by unfold ReservedType at hcode; omega
    unfold decodeSubframe
    refine FailsOn.bind_lift (debugAssert_ok (decide_eq_true h32)) (FailsOn.bind_left _ ?_)
    rw [readSubframeHeader_eq]
    show FailsOn _ ([false] ++ natToBits 6 code) _ x
    refine FailsOn.bind (reads_readBit false) ?_
    simp only [Bool.false_eq_true, if_false]
    rw [← List.append_nil (natToBits 6 code)]
    refine FailsOn.bind (reads_readLeqU8 (k := 6) (by omega) h6) (FailsOn.bind_left _ ?_)
    rcases subframeType_cases h6 with ⟨_, h⟩ | ⟨h, _⟩
    · rw [h]; exact FailsOn.fail _
    · exact absurd hcode h
  | wasted code wasted h6 ht h31 hlt =>
    intro buffer _
    unfold decodeSubframe
    refine FailsOn.bind_lift (debugAssert_ok (decide_eq_true h32)) (FailsOn.bind_left _ ?_)
    rw [readSubframeHeader_eq]
    show FailsOn _ ([false] ++ natToBits 6 code ++ wastedBits wasted) _ x
    rw [List.append_assoc]
    refine FailsOn.bind (reads_readBit false) ?_
    simp only [Bool.false_eq_true, if_false]
    refine FailsOn.bind (reads_readLeqU8 (k := 6) (by omega) h6) ?_
    rw [type_of_code h6 ht, pure_bind, ← List.append_nil (wastedBits wasted)]
    refine FailsOn.bind (reads_wastedAny hlt) ?_
    rw [if_pos h31]
    exact FailsOn.fail _
  | allWasted code wasted h6 ht h31 hb =>
    intro buffer _
    unfold decodeSubframe
    refine FailsOn.bind_lift (debugAssert_ok (decide_eq_true h32)) ?_
    rw [← List.append_nil (subframeHeaderBits _ _)]
    refine FailsOn.bind (reads_subframeHeader h6 (type_of_code h6 ht) h31) ?_
    simp only
    rw [if_pos hb]
    exact FailsOn.fail _
  | fixedOrder order wasted hw h4 h =>
    rw [← List.append_nil (subframeHeaderBits _ _)]
    refine bad_fixed h32 hw h4 fun buffer hb => ?_
    unfold decodeFixed
    rw [if_pos (by omega)]
    exact FailsOn.fail _
  | fixedResidual warmUp wasted hw h4 hl hv bits e h =>
    rw [List.append_assoc]
    refine bad_fixed h32 hw h4 fun buffer hb => ?_
    unfold decodeFixed
    rw [if_neg (by omega)]
    refine FailsOn.bind (Reads.withSlice (Nat.zero_le _) (by omega)
      (reads_verbatim (by omega) (by omega) warmUp hv _ (slice_head (by omega)))) ?_
    simp only [List.take_zero, List.nil_append]
    have hlen : (warmUp.map (BitVec.ofInt 32) ++ buffer.drop warmUp.length).length = buffer.length := by
      simp; omega
    rw [hlen, hb, Nat.mod_eq_of_lt hbs]
    exact FailsOn.bind_left _ (FailsOn.withSlice hl (by omega)
      (failsOn_refusedResidual hbs hl _ (by simp; omega) h))
  | lpcOrder order wasted hw h1 ho h =>
    rw [← List.append_nil (subframeHeaderBits _ _)]
    refine bad_lpc h32 hw h1 ho fun buffer hb => ?_
    unfold decodeLpc
    refine FailsOn.bind_lift (debugAssert_ok (decide_eq_true ho)) ?_
    rw [if_pos (by omega)]
    exact FailsOn.fail _
  | precision warmUp wasted hw h1 ho hl hv =>
    rw [List.append_assoc]
    refine bad_lpc h32 hw h1 ho fun buffer hb => ?_
    unfold decodeLpc
    refine FailsOn.bind_lift (debugAssert_ok (decide_eq_true ho)) ?_
    rw [if_neg (by omega)]
    refine FailsOn.bind (Reads.withSlice (Nat.zero_le _) (by omega)
      (reads_verbatim (by omega) (by omega) warmUp hv _ (slice_head (by omega)))) ?_
    rw [← List.append_nil (natToBits 4 0b1111)]
    refine FailsOn.bind (reads_readLeqU8 (k := 4) (by omega) (show 15 < 2 ^ 4 by omega)) ?_
    exact FailsOn.fail _
  | shift warmUp wasted precision shift hw h1 ho hl hv hp1 hp15 hs hneg =>
    simp only [List.append_assoc]
    refine bad_lpc h32 hw h1 ho fun buffer hb => ?_
    unfold decodeLpc
    refine FailsOn.bind_lift (debugAssert_ok (decide_eq_true ho)) ?_
    rw [if_neg (by omega)]
    refine FailsOn.bind (Reads.withSlice (Nat.zero_le _) (by omega)
      (reads_verbatim (by omega) (by omega) warmUp hv _ (slice_head (by omega)))) ?_
    refine FailsOn.bind (reads_readLeqU8 (k := 4) (by omega) (show precision - 1 < 2 ^ 4 by omega)) ?_
    simp only [toNat_ofNat8 (show precision - 1 < 256 by omega)]
    rw [if_neg (by omega), ← List.append_nil (intToBits 5 shift)]
    refine FailsOn.bind (reads_readLeqU16 (by omega) (emod_toNat_lt shift 5)) ?_
    refine FailsOn.bind_lift (shift5_int hs).1 ?_
    rw [(shift5_int hs).2, if_pos hneg]
    exact FailsOn.fail _
  | lpcResidual warmUp wasted precision shift coefs hw h1 ho hl hv hp1 hp15 hs hlen hc bits e h =>
    simp only [List.append_assoc]
    refine bad_lpc h32 hw h1 ho fun buffer hb => ?_
    unfold decodeLpc
    refine FailsOn.bind_lift (debugAssert_ok (decide_eq_true ho)) ?_
    rw [if_neg (by omega)]
    refine FailsOn.bind (Reads.withSlice (Nat.zero_le _) (by omega)
      (reads_verbatim (by omega) (by omega) warmUp hv _ (slice_head (by omega)))) ?_
    simp only [List.take_zero, List.nil_append]
    have hlen' : (warmUp.map (BitVec.ofInt 32) ++ buffer.drop warmUp.length).length = buffer.length := by
      simp; omega
    rw [hlen', hb, Nat.mod_eq_of_lt hbs]
    refine FailsOn.bind (reads_readLeqU8 (k := 4) (by omega) (show precision - 1 < 2 ^ 4 by omega)) ?_
    simp only [toNat_ofNat8 (show precision - 1 < 256 by omega)]
    rw [if_neg (by omega)]
    refine FailsOn.bind (reads_readLeqU16 (by omega) (emod_toNat_lt shift 5)) ?_
    refine FailsOn.bind_lift (shift5 hs).1 ?_
    rw [(shift5 hs).2, if_neg (by omega), show precision - 1 + 1 = precision by omega, ← hlen]
    refine FailsOn.bind (reads_readCoefficients (by omega) (by omega) coefs (List.replicate 32 0#16) hc
      (by simp; omega)) ?_
    rw [hlen]
    exact FailsOn.bind_left _ (FailsOn.withSlice hl (by omega)
      (failsOn_refusedResidual hbs hl _ (by simp; omega) h))

/-! ### Coded numbers -/

theorem bfails_varLengthLoop (v : Nat) : ∀ (i : Nat), i ≤ 7 → ∀ (r : U64) (w k : Nat) (b : U8),
    r.toNat = w * 64 ^ i → w * 64 ^ i + v % 64 ^ i < 2 ^ 64 → k < i → b.toNat / 64 ≠ 0b10 →
    BFails (varLengthLoop i r) ((continuationBytes i v).take k ++ [b])
      (.err (.formatError "invalid variable-length integer")) x := by
  intro i
  induction i with
  | zero => intro _ r w k b _ _ hk; omega
  | succ i ih =>
    intro hi r w k b hr hlt hk hb
    cases k with
    | zero =>
      simp only [varLengthLoop, List.take_zero]
      refine BFails.bind (breads_readU8 b) (bs := [b]) (cs := []) ?_
      rw [if_pos ((not_continuation b).2 hb)]
      exact BFails.fail _
    | succ k =>
      have hbyte : (BitVec.ofNat 8 (128 + v / 64 ^ i % 64)).toNat = 128 + v / 64 ^ i % 64 := by
        rw [BitVec.toNat_ofNat, Nat.mod_eq_of_lt (by omega)]
      obtain ⟨hc1, hc2⟩ := continuation_byte (BitVec.ofNat 8 (128 + v / 64 ^ i % 64))
      simp only [varLengthLoop, continuationBytes]
      rw [List.take_succ_cons, List.cons_append]
      refine BFails.bind (breads_readU8 _) (cs := (continuationBytes i v).take k ++ [b]) ?_
      rw [if_neg (by rw [not_not]; exact hc1.2 (by rw [hc2, hbyte]; omega))]
      refine BFails.bind_lift (shl_ok (by omega)) ?_
      have hstep := varint_step (by omega : i ≤ 6) hr (d := v / 64 ^ i % 64) (by omega)
        (x := BitVec.ofNat 8 (128 + v / 64 ^ i % 64) &&& 63#8) (by rw [hc2, hbyte]; omega)
      have hval : w * 64 ^ (i + 1) + v % 64 ^ (i + 1) =
          (w * 64 + v / 64 ^ i % 64) * 64 ^ i + v % 64 ^ i := by
        rw [Nat.pow_succ, Nat.mod_mul]
        ring
      rw [hval] at hlt
      exact ih (by omega) _ _ k b hstep hlt (by omega) hb

theorem bfails_readVarLengthInt {bytes : List U8} (h : BadNumber bytes) :
    BFails (readVarLengthInt : Dec Flat U64) bytes (.err (.formatError "invalid variable-length integer")) x := by
  cases h with
  | first b h =>
    unfold readVarLengthInt
    refine BFails.bind (breads_readU8 b) (bs := [b]) (cs := []) ?_
    have hspec := leadingOnes_spec b
    generalize leadingOnesLoop b 8 0 127#8 128#8 = p at hspec ⊢
    rcases p with ⟨ones, mask⟩
    simp only at hspec ⊢
    have h1 : ones = 1 := by
      rcases hspec with ⟨_, h2, _⟩ | ⟨h1, _⟩ | ⟨h1, h2, h3, h4⟩
      · omega
      · exact h1
      · exfalso
        generalize (b &&& mask).toNat = m at h3 h4
        interval_cases ones <;> norm_num at h3 h4 <;> omega
    rw [if_pos h1]
    exact BFails.fail _
  | continuation n v k h hk b hbad =>
    have hb := firstByte h
    obtain ⟨hn, ht⟩ := codedNumber_top h
    have hv := codedNumber_lt h
    unfold readVarLengthInt codedNumber
    rw [List.take_succ_cons, List.cons_append]
    refine BFails.bind (breads_readU8 _) (cs := (continuationBytes n v).take k ++ [b]) ?_
    have hspec := leadingOnes_spec
      (BitVec.ofNat 8 ((if n = 0 then 0 else 256 - 2 ^ (7 - n)) + v / 64 ^ n))
    generalize BitVec.ofNat 8 ((if n = 0 then 0 else 256 - 2 ^ (7 - n)) + v / 64 ^ n) = b at hb hspec ⊢
    generalize leadingOnesLoop b 8 0 127#8 128#8 = p at hspec ⊢
    rcases p with ⟨ones, mask⟩
    simp only at hspec ⊢
    have key : ones ≠ 1 ∧ ones - 1 = n ∧ (b &&& mask).toNat = v / 64 ^ n := by
      generalize v / 64 ^ n = t at ht hb ⊢
      rcases hspec with ⟨h1, h2, h3⟩ | ⟨h1, h2, h3⟩ | ⟨h1, h2, h3, h4⟩
      · rw [h3, hb]
        interval_cases n <;> norm_num at ht hb ⊢ <;> omega
      · interval_cases n <;> norm_num at ht hb ⊢ <;> omega
      · generalize (b &&& mask).toNat = m at h3 h4 ⊢
        rw [hb] at h3
        interval_cases n <;> interval_cases ones <;> norm_num at ht h3 h4 ⊢ <;> omega
    obtain ⟨k1, k2, k3⟩ := key
    rw [if_neg k1, k2]
    refine BFails.bind_lift (shl_ok (by omega)) ?_
    have hr : ((b &&& mask).setWidth 64 <<< (6 * n) : U64).toNat = v / 64 ^ n * 64 ^ n := by
      rw [BitVec.toNat_shiftLeft, BitVec.toNat_setWidth, k3, Nat.shiftLeft_eq, ← pow64,
        Nat.mod_eq_of_lt (a := v / 64 ^ n)]
      · apply Nat.mod_eq_of_lt
        have := Nat.div_mul_le_self v (64 ^ n)
        omega
      · have := Nat.div_le_self v (64 ^ n); omega
    have hdm : v / 64 ^ n * 64 ^ n + v % 64 ^ n = v := by
      rw [Nat.mul_comm]; exact Nat.div_add_mod _ _
    exact bfails_varLengthLoop v n hn _ _ k _ hr (by rw [hdm]; omega) hk hbad

/-! ### Frame headers -/

/-- The bytes of the codes. -/
def codeByte1 (c : HeaderCodes) : U8 := BitVec.ofNat 8 (0xf8 + 2 * c.reserved1.toNat + c.variableBlockSize.toNat)
def codeByte2 (c : HeaderCodes) : U8 := BitVec.ofNat 8 (16 * c.blockSize.val + c.sampleRate.val)
def codeByte3 (c : HeaderCodes) : U8 :=
  BitVec.ofNat 8 (16 * c.channels.val + 2 * c.sampleSize.val + c.reserved2.toNat)

theorem codeByte1_eq (c : HeaderCodes) : (codeByte1 c).toNat / 4 = 0b111110 ∧
    ((codeByte1 c).toNat / 2 % 2 == 1) = c.reserved1 ∧ ((codeByte1 c).toNat % 2 == 1) = c.variableBlockSize := by
  have h : ∀ r1 v : Bool, (BitVec.ofNat 8 (0xf8 + 2 * r1.toNat + v.toNat)).toNat / 4 = 0b111110 ∧
      ((BitVec.ofNat 8 (0xf8 + 2 * r1.toNat + v.toNat)).toNat / 2 % 2 == 1) = r1 ∧
      ((BitVec.ofNat 8 (0xf8 + 2 * r1.toNat + v.toNat)).toNat % 2 == 1) = v := by decide
  exact h _ _

theorem codeByte2_eq (c : HeaderCodes) : (codeByte2 c).toNat / 16 = c.blockSize.val ∧
    (codeByte2 c).toNat % 16 = c.sampleRate.val := by
  have h1 := c.blockSize.isLt
  have h2 := c.sampleRate.isLt
  unfold codeByte2
  rw [BitVec.toNat_ofNat]
  omega

theorem codeByte3_eq (c : HeaderCodes) : (codeByte3 c).toNat / 16 = c.channels.val ∧
    (codeByte3 c).toNat / 2 % 8 = c.sampleSize.val ∧ ((codeByte3 c).toNat % 2 = 1 ↔ c.reserved2 = true) := by
  have h1 := c.channels.isLt
  have h2 := c.sampleSize.isLt
  unfold codeByte3
  rw [BitVec.toNat_ofNat]
  cases c.reserved2 <;> simp <;> omega

/-- The first two bytes. -/
def codeSync (c : HeaderCodes) : U16 := (0xff#8 : U8).setWidth 16 <<< 8 ||| (codeByte1 c).setWidth 16

theorem codeSync_ok (c : HeaderCodes) : codeSync c &&& 0b1111_1111_1111_1100#16 = 0b1111_1111_1111_1000#16 :=
  sync_first.2 ⟨rfl, (codeByte1_eq c).1⟩

theorem codeSync_reserved (c : HeaderCodes) :
    (codeSync c &&& 0b0000_0000_0000_0010#16 ≠ 0#16) ↔ c.reserved1 = true := by
  rw [codeSync, sync_reserved, (codeByte1_eq c).2.1]

theorem bfails_reserved1 {c : HeaderCodes} (h : c.reserved1 = true) :
    BFails (headerFields (codeSync c)) [] (.err (.formatError "invalid frame header, encountered reserved value")) x := by
  unfold headerFields
  rw [if_neg (not_not.2 (codeSync_ok c)), if_pos ((codeSync_reserved c).2 h)]
  exact BFails.fail _

theorem bfails_blockSize {c : HeaderCodes} (h1 : c.reserved1 = false) (h : c.blockSize.val = 0b0000) :
    BFails (headerFields (codeSync c)) [codeByte2 c]
      (.err (.formatError "invalid frame header, encountered reserved value")) x := by
  unfold headerFields
  rw [if_neg (not_not.2 (codeSync_ok c)), if_neg (by rw [codeSync_reserved, h1]; simp)]
  refine BFails.bind (breads_readU8 _) (bs := [codeByte2 c]) (cs := []) ?_
  obtain ⟨p1, _, _, _⟩ := split_byte (codeByte2 c)
  rw [p1, (codeByte2_eq c).1, h]
  exact BFails.bind_left _ (BFails.fail _)

theorem bfails_sampleRate {c : HeaderCodes} (h1 : c.reserved1 = false) (h2 : c.blockSize.val ≠ 0b0000)
    (h : c.sampleRate.val = 0b1111) :
    BFails (headerFields (codeSync c)) [codeByte2 c] (.err (.formatError "invalid frame header")) x := by
  unfold headerFields
  rw [if_neg (not_not.2 (codeSync_ok c)), if_neg (by rw [codeSync_reserved, h1]; simp)]
  refine BFails.bind (breads_readU8 _) (bs := [codeByte2 c]) (cs := []) ?_
  obtain ⟨p1, p2, _, _⟩ := split_byte (codeByte2 c)
  rw [p1, p2, (codeByte2_eq c).1, (codeByte2_eq c).2, h]
  rcases blockSizeCode_exact c.blockSize.isLt with ⟨h', _⟩ | ⟨_, bsc, he, _⟩
  · exact absurd h' h2
  rw [he, pure_bind]
  exact BFails.bind_left _ (BFails.fail _)

theorem bfails_reserved2 {c : HeaderCodes} (h1 : c.reserved1 = false) (h2 : c.blockSize.val ≠ 0b0000)
    (h3 : c.sampleRate.val ≠ 0b1111) (h : c.Reserved) :
    BFails (headerFields (codeSync c)) [codeByte2 c, codeByte3 c]
      (.err (.formatError "invalid frame header, encountered reserved value")) x := by
  unfold headerFields
  rw [if_neg (not_not.2 (codeSync_ok c)), if_neg (by rw [codeSync_reserved, h1]; simp)]
  refine BFails.bind (breads_readU8 _) (bs := [codeByte2 c]) (cs := [codeByte3 c]) ?_
  obtain ⟨p1, p2, _, _⟩ := split_byte (codeByte2 c)
  obtain ⟨q1, _, q3, q4⟩ := split_byte (codeByte3 c)
  rw [p1, p2, (codeByte2_eq c).1, (codeByte2_eq c).2]
  rcases blockSizeCode_exact c.blockSize.isLt with ⟨h', _⟩ | ⟨_, bsc, he, _⟩
  · exact absurd h' h2
  rw [he, pure_bind]
  rcases sampleRateCode_exact c.sampleRate.isLt with ⟨h', _⟩ | ⟨_, src, he, _⟩
  · exact absurd h' h3
  rw [he, pure_bind]
  refine BFails.bind (breads_readU8 _) (bs := [codeByte3 c]) (cs := []) ?_
  rw [q1, q3, (codeByte3_eq c).1, (codeByte3_eq c).2.1]
  rcases channelAssignmentCode_exact c.channels.isLt with ⟨_, he⟩ | ⟨h4, _, _, he⟩
  · rw [he]; exact BFails.bind_left _ (BFails.fail _)
  rw [he, pure_bind]
  rcases bitsPerSampleCode_exact c.sampleSize.isLt with ⟨_, he⟩ | ⟨h5, h6, _, _, he⟩
  · rw [he]; exact BFails.bind_left _ (BFails.fail _)
  rw [he, pure_bind, if_pos]
  · exact BFails.fail _
  · rw [q4, (codeByte3_eq c).2.2]
    rcases h with h | h | h | h | h | h | h
    · rw [h1] at h; cases h
    · exact absurd h h2
    · exact absurd h h3
    · omega
    · exact absurd h h5
    · exact absurd h h6
    · exact h

/-- After the codes, the number and the block size are read. -/
theorem bfails_afterCodes {c : HeaderCodes} (h : ¬ c.Reserved) {bytes : List U8} {e : Fail}
    (hk : ∀ {β : Type} (bsc : BlockSizeCode) (k : BlockTime → Nat → Dec Flat β),
      (blockSizeCode c.blockSize.val : Dec Flat _) = pure bsc →
      BFails (readBlockTime c.variableBlockSize >>= fun t => readBlockSize bsc >>= k t) bytes e x) :
    BFails (headerFields (codeSync c)) (codeByte2 c :: codeByte3 c :: bytes) e x := by
  unfold HeaderCodes.Reserved at h
  simp only [not_or] at h
  obtain ⟨h1, h2, h3, h4, h5, h6, h7⟩ := h
  unfold headerFields
  rw [if_neg (not_not.2 (codeSync_ok c)), if_neg (by rw [codeSync_reserved]; exact h1)]
  refine BFails.bind (breads_readU8 _) (cs := codeByte3 c :: bytes) ?_
  obtain ⟨p1, p2, _, _⟩ := split_byte (codeByte2 c)
  obtain ⟨q1, _, q3, q4⟩ := split_byte (codeByte3 c)
  rw [p1, p2, (codeByte2_eq c).1, (codeByte2_eq c).2]
  rcases blockSizeCode_exact c.blockSize.isLt with ⟨h', _⟩ | ⟨_, bsc, hbsc, _⟩
  · exact absurd h' h2
  rw [hbsc, pure_bind]
  rcases sampleRateCode_exact c.sampleRate.isLt with ⟨h', _⟩ | ⟨_, src, he, _⟩
  · exact absurd h' h3
  rw [he, pure_bind]
  refine BFails.bind (breads_readU8 _) (cs := bytes) ?_
  rw [q1, q3, (codeByte3_eq c).1, (codeByte3_eq c).2.1]
  rcases channelAssignmentCode_exact c.channels.isLt with ⟨h', _⟩ | ⟨_, _, _, he⟩
  · exact absurd h' h4
  rw [he, pure_bind]
  rcases bitsPerSampleCode_exact c.sampleSize.isLt with ⟨h', _⟩ | ⟨_, _, _, _, he⟩
  · rcases h' with h' | h'
    · exact absurd h' h5
    · exact absurd h' h6
  rw [he, pure_bind, if_neg (by rw [q4, (codeByte3_eq c).2.2]; exact h7)]
  rw [codeSync, sync_blocking, (codeByte1_eq c).2.2]
  exact hk bsc _ hbsc

theorem depths_le {bps : Nat} {f : ChannelField} {d : Nat} (h : d ∈ f.depths bps) : d ≤ bps + 1 := by
  cases f with
  | independent n =>
    simp only [ChannelField.depths] at h
    have := List.eq_of_mem_replicate h
    omega
  | leftSide => simp [ChannelField.depths] at h; omega
  | rightSide => simp [ChannelField.depths] at h; omega
  | midSide => simp [ChannelField.depths] at h; omega

/-- A failure while the fields are read is one of the frame reader. -/
theorem frame_bfails {a b : U8} {bytes : List U8} {e : Fail}
    (h : BFails (headerFields (a.setWidth 16 <<< 8 ||| b.setWidth 16)) bytes e true) (buffer : VecI32) (rest : List U8)
    (fault : Option Nat) :
    readNextOrEof buffer (⟨a :: b :: bytes ++ rest, fault⟩ : Flat) = (.error e, ⟨rest, fault⟩) := by
  obtain ⟨h1, h2⟩ := h rest fault
  rw [readNextOrEof_flat]
  have hy : headerFields (a.setWidth 16 <<< 8 ||| b.setWidth 16) (⟨bytes ++ rest, fault⟩ : Flat) =
      (.error e, ⟨rest, fault⟩) := Prod.ext h1 (h2 rfl)
  have hh : flatHeader (a :: b :: bytes ++ rest) ⟨a :: b :: bytes ++ rest, fault⟩ = (.error e, ⟨rest, fault⟩) := by
    unfold flatHeader
    rw [Dec.bind_ok _ (show readBeU16OrEof (⟨a :: b :: bytes ++ rest, fault⟩ : Flat) =
      (.ok (some (a.setWidth 16 <<< 8 ||| b.setWidth 16)), ⟨bytes ++ rest, fault⟩) from rfl)]
    simp only
    unfold flatHeaderRest
    rw [Dec.bind_error _ (Dec.bind_error _ hy)]
  rw [Dec.bind_error _ hh]

theorem header_refused {used : List U8} {e : Error} (h : RefusedHeader used e) (buffer : VecI32) (rest : List U8)
    (fault : Option Nat) :
    readNextOrEof buffer (⟨used ++ rest, fault⟩ : Flat) = (.error (.err e), ⟨rest, fault⟩) := by
  cases h with
  | sync a b h =>
    refine frame_bfails (bytes := []) ?_ buffer rest fault
    unfold headerFields
    rw [if_pos fun h' => h (sync_first.1 h')]
    exact BFails.fail _
  | reserved1 c h => exact frame_bfails (bytes := []) (bfails_reserved1 h) buffer rest fault
  | blockSize c h1 h => exact frame_bfails (bfails_blockSize h1 h) buffer rest fault
  | sampleRate c h1 h2 h => exact frame_bfails (bfails_sampleRate h1 h2 h) buffer rest fault
  | reserved2 c h1 h2 h3 h => exact frame_bfails (bfails_reserved2 h1 h2 h3 h) buffer rest fault
  | number c hc bytes h =>
    refine frame_bfails (a := 0xff#8) (b := codeByte1 c) (bfails_afterCodes hc (bytes := bytes) ?_) buffer rest fault
    intro β bsc k _
    refine BFails.bind_left _ ?_
    cases c.variableBlockSize <;> exact BFails.bind_left _ (bfails_readVarLengthInt h)
  | frameNumber c hc n v hn hv h =>
    refine frame_bfails (a := 0xff#8) (b := codeByte1 c) (bfails_afterCodes hc (bytes := codedNumber n v) ?_)
      buffer rest fault
    intro β bsc k _
    refine BFails.bind_left _ ?_
    rw [hv, ← List.append_nil (codedNumber n v)]
    refine BFails.bind (breads_readVarLengthInt hn) ?_
    have := codedNumber_lt hn
    rw [BitVec.toNat_ofNat, Nat.mod_eq_of_lt (by omega), if_pos (by omega)]
    exact BFails.fail _
  | blockSize16 c hc n v hn hv h =>
    have := frame_bfails (a := 0xff#8) (b := codeByte1 c)
      (bfails_afterCodes hc (bytes := codedNumber n v ++ [0xff#8, 0xff#8])
        (e := .err (.formatError "invalid block size, exceeds 65535")) ?_) buffer rest fault
    · rw [List.append_assoc c.bytes]; exact this
    intro β bsc k hbsc
    refine BFails.bind (breads_blockTime hn hv) (BFails.bind_left _ ?_)
    rw [h] at hbsc
    have hb : bsc = .read16 := by
      have := congrArg (fun m : Dec Flat BlockSizeCode => (m ⟨[], none⟩).1) hbsc
      injection this with this
      exact this.symm
    subst hb
    exact BFails.bind (breads_readBeU16 0xff#8 0xff#8) (cs := []) (BFails.fail _)
  | checksum h hw c hc =>
    rw [frame_bad_header hw (Ne.symm hc)]

/-- If less than a byte is left of the bits before a byte boundary, the reader is there. -/
theorem Bitstream.reader_bytes {b : Bitstream Flat} (hb : b.Inv) {more : List Bool} (hm : more.length < 8)
    {rest : List U8} (h : b.bits = more ++ bytesToBits rest) : b.reader.bytes = rest := by
  have hl := hb.le
  have h1 := congrArg List.length h
  simp only [Bitstream.bits, List.length_append, List.length_take, length_byteBits, length_bytesToBits] at h1
  exact bytesToBits_inj (List.append_inj' h (by rw [length_bytesToBits, length_bytesToBits]; omega)).2

/-- What is refused makes the frame reader fail, right behind it. -/
theorem frame_refused_run {used : List U8} {e : Error} (h : RefusedFrame used e) (buffer : VecI32) (rest : List U8)
    (fault : Option Nat) :
    readNextOrEof buffer (⟨used ++ rest, fault⟩ : Flat) = (.error (.err e), ⟨rest, fault⟩) := by
  cases h with
  | header bytes e h => exact header_refused h buffer rest fault
  | sampleSize h hw hs =>
    rw [readNextOrEof_flat]
    have hh := reads_header h hw rest fault
    rw [readFrameHeaderOrEof_flat] at hh
    rw [Dec.bind_ok _ hh]
    simp only [flatBody]
    rw [show (headerOf h).bitsPerSample = none from hs]
    rfl
  | subframe h bps hw hs good hg depth hd bad e hb more hm body hbody =>
    have h1 := size_bounds h.blockSize
    have h32 : depth ≤ 32 := by
      have := bits_bounds hs
      have := depths_le (List.mem_of_getElem? hd)
      omega
    rw [List.append_assoc]
    obtain ⟨b, h2, h3⟩ := badFrame_run hw hs hg hd (bad_of_refused (x := true) h32 (by omega) hb)
      (more := more ++ bytesToBits rest) (body := body ++ rest)
      (by rw [bytesToBits_append, hbody]; simp only [List.append_assoc]) buffer fault
    obtain ⟨h4, h5, h6⟩ := h3 rfl
    have h7 := Bitstream.reader_bytes h4 hm h5
    rw [h2]
    generalize b.reader = t at h6 h7
    rcases t with ⟨tb, tf⟩
    simp only at h6 h7
    rw [h6, h7]
  | checksum f bps hw a b hc =>
    have h := frame_crc hw (a.setWidth 16 <<< 8 ||| b.setWidth 16) buffer rest fault
    rw [beU16_toNat, beBytes_two, if_neg] at h
    · exact h
    · intro h'
      apply hc
      rw [h', beU16_toNat]

theorem frame_refused {used : List U8} {e : Error} (h : RefusedFrame used e) (buffer : VecI32) (rest : List U8)
    (fault : Option Nat) : (readNextOrEof buffer (⟨used ++ rest, fault⟩ : Flat)).1 = .error (.err e) := by
  rw [frame_refused_run h]

end Claxon
