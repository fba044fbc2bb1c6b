import Verif.Proof.Residual
import Verif.Proof.Predict

/-! Subframes: the decoder reads what the specification writes, and nothing else. -/

namespace Claxon

open Spec Bitstream

/-! ### Samples -/

theorem FitsIn.mono {j k : Nat} {v : Int} (h : FitsIn j v) (hjk : j ≤ k) : FitsIn k v := by
  obtain ⟨h1, h2, h3⟩ := h
  have hp : (2 : Int) ^ (j - 1) ≤ 2 ^ (k - 1) := by
    exact_mod_cast Nat.pow_le_pow_right (by omega) (by omega : j - 1 ≤ k - 1)
  exact ⟨by omega, by omega, by omega⟩

theorem toInt_ofInt_fits {w : Nat} {v : Int} (h : FitsIn w v) : (BitVec.ofInt w v).toInt = v := by
  rw [BitVec.toInt_ofInt, bmod_of_fits h]

/-- The reader of one sample. -/
def sampleStep (bps : Nat) : Dec (Bitstream Flat) I32 := do
  let u ← readLeqU32 bps
  extendSignU32 u bps

theorem reads_sampleStep {bps : Nat} (h0 : 0 < bps) (h32 : bps ≤ 32) {v : Int} (hv : FitsIn bps v) :
    Reads (sampleStep bps) (intToBits bps v) (BitVec.ofInt 32 v) := by
  apply (reads_readLeqU32 h32 (emod_toNat_lt v bps)).bind_nil
  apply Reads.lift
  rw [extendSignU32_ok h0 h32, signExt_field h0 h32 hv]

theorem triple_sampleStep {bps : Nat} (h0 : 0 < bps) (h32 : bps ≤ 32) :
    Triple (sampleStep bps)
      (fun u a => ∃ v, FitsIn bps v ∧ u = intToBits bps v ∧ a = BitVec.ofInt 32 v) := by
  apply (triple_readLeqU32 h32).bind
  rintro u a ⟨hu, ha⟩
  apply Triple.lift (extendSignU32_ok h0 h32)
  have := intToBits_signExt a h0 h32 ha
  exact ⟨_, this.2, by rw [hu, List.append_nil]; exact this.1, by rw [BitVec.ofInt_toInt]⟩

theorem decodeConstant_eq (bps : Nat) (buffer : List I32) :
    (decodeConstant bps buffer : Dec (Bitstream Flat) _) =
      (sampleStep bps >>= fun s => pure (buffer.map fun _ => s)) := by
  simp only [decodeConstant, sampleStep, bind_assoc]

theorem verbatimLoop_eq (bps : Nat) (buffer : List I32) :
    (verbatimLoop bps buffer : Dec (Bitstream Flat) _) = loopN (sampleStep bps) buffer := by
  induction buffer with
  | nil => rfl
  | cons x buffer ih => simp only [verbatimLoop, loopN, sampleStep, ih, bind_assoc]

theorem reads_verbatim {bps : Nat} (h0 : 0 < bps) (h32 : bps ≤ 32) (vs : List Int)
    (hv : ∀ v ∈ vs, FitsIn bps v) (buffer : List I32) (hlen : buffer.length = vs.length) :
    Reads (decodeVerbatim bps buffer) (vs.flatMap (intToBits bps)) (vs.map (BitVec.ofInt 32)) := by
  apply Reads.bind_lift (debugAssert_ok (decide_eq_true h32))
  rw [verbatimLoop_eq]
  exact Reads.loopN vs (fun v hm => reads_sampleStep h0 h32 (hv v hm)) buffer hlen

theorem triple_verbatim {bps : Nat} (h0 : 0 < bps) (h32 : bps ≤ 32) (buffer : List I32) :
    Triple (decodeVerbatim bps buffer) (fun u out => ∃ vs : List Int, vs.length = buffer.length ∧
      (∀ v ∈ vs, FitsIn bps v) ∧ u = vs.flatMap (intToBits bps) ∧
      out = vs.map (BitVec.ofInt 32)) := by
  apply Triple.bind_lift (debugAssert_ok (decide_eq_true h32))
  rw [verbatimLoop_eq]
  exact Triple.loopN (triple_sampleStep h0 h32) buffer

theorem replicate_eq_map {α : Type} (buffer : List α) (s : I32) :
    (buffer.map fun _ => s) = List.replicate buffer.length s := by
  induction buffer with
  | nil => rfl
  | cons x buffer ih => rw [List.map_cons, ih, List.length_cons, List.replicate_succ]

/-! ### Prediction -/

theorem map_toInt_inj {xs : List I32} {ys : List Int} (h : xs.map BitVec.toInt = ys) :
    xs = ys.map (BitVec.ofInt 32) := by
  subst h
  rw [List.map_map]
  conv_lhs => rw [← List.map_id xs]
  apply List.map_congr_left
  intro x _
  simp

theorem map_ofInt_toInt {bps : Nat} (h32 : bps ≤ 32) {vs : List Int} (hv : ∀ v ∈ vs, FitsIn bps v) :
    (vs.map (BitVec.ofInt 32)).map BitVec.toInt = vs := by
  rw [List.map_map]
  conv_rhs => rw [← List.map_id vs]
  apply List.map_congr_left
  intro v hm
  exact toInt_ofInt_fits (FitsIn.mono (hv v hm) h32)

theorem map_resI32_toInt (vs : List Int) :
    (vs.map resI32).map BitVec.toInt = vs.map Arith.wrap32.residual := by
  rw [List.map_map]
  apply List.map_congr_left
  intro v _
  exact toInt_ofInt_fits (unfold_fits _)

theorem predicted {bps : Nat} (h32 : bps ≤ 32) {warm vals : List Int} {predict : List Int → Int}
    {tail : List I32} (hv : ∀ v ∈ warm, FitsIn bps v)
    (h : tail.map BitVec.toInt = reconstruct Arith.wrapOnly predict
      ((warm.map (BitVec.ofInt 32)).map BitVec.toInt).reverse ((vals.map resI32).map BitVec.toInt)) :
    warm.map (BitVec.ofInt 32) ++ tail =
      (warm ++ reconstruct Arith.wrap32 predict warm.reverse vals).map (BitVec.ofInt 32) := by
  rw [map_ofInt_toInt h32 hv, map_resI32_toInt, ← reconstruct_wrap32] at h
  rw [List.map_append, map_toInt_inj h]

theorem Residual.WellFormed.order_le {r : Residual} {bs order : Nat} (h : r.WellFormed bs order) :
    order ≤ bs := Nat.le_trans h.first (Nat.div_le_self _ _)

theorem Residual.WellFormed.length {r : Residual} {bs order : Nat} (h : r.WellFormed bs order) :
    r.values.length = bs - order := by
  have := congrArg List.sum h.sizes
  rw [partitionSizes_sum h.divides h.first] at this
  rw [← this, Residual.values, List.length_flatMap]

/-- Warm-up samples and residual: the common part of the predicted subframes. -/
theorem slice_head {buffer : List I32} {order : Nat} (ho : order ≤ buffer.length) :
    ((buffer.take order).drop 0).length = order := by simp; omega

theorem reads_fixed {bps : Nat} (h0 : 0 < bps) (h32 : bps ≤ 32) (warm : List Int) (r : Residual)
    (buffer : List I32) (hbs : buffer.length < 2 ^ 16)
    (hw : (Coding.fixed warm r).WellFormed bps buffer.length) :
    Reads (decodeFixed bps warm.length buffer) ((Coding.fixed warm r).bits bps)
      (((Coding.fixed warm r).samplesWith .wrap32 buffer.length).map (BitVec.ofInt 32)) := by
  obtain ⟨h4, hv, hres⟩ := hw
  have ho := Residual.WellFormed.order_le hres
  unfold decodeFixed
  rw [if_neg (by omega)]
  apply Reads.bind (Reads.withSlice (Nat.zero_le _) ho
    (reads_verbatim h0 h32 warm hv _ (slice_head ho)))
  simp only [List.take_zero, List.nil_append]
  have hlen : (warm.map (BitVec.ofInt 32) ++ buffer.drop warm.length).length = buffer.length := by
    simp; omega
  rw [hlen, Nat.mod_eq_of_lt hbs]
  apply Reads.bind_nil (Reads.withSlice ho (by omega)
    (reads_residual r hbs ho hres _ (by simp; omega)))
  rw [List.take_left' (by simp), List.drop_of_length_le (by omega), List.append_nil]
  obtain ⟨tail, h1, h2⟩ := predictFixed_spec warm.length h4 (warm.map (BitVec.ofInt 32))
    (r.values.map resI32) (by simp)
  exact (Reads.lift h1).congr rfl (predicted h32 hv h2)

theorem triple_fixed {bps : Nat} (h0 : 0 < bps) (h32 : bps ≤ 32) {order : Nat} (h4 : order ≤ 4)
    (buffer : List I32) (hbs : buffer.length < 2 ^ 16) :
    Triple (decodeFixed bps order buffer) (fun u out => ∃ warm r, warm.length = order ∧
      (Coding.fixed warm r).WellFormed bps buffer.length ∧
      u = (Coding.fixed warm r).bits bps ∧
      out = ((Coding.fixed warm r).samplesWith .wrap32 buffer.length).map (BitVec.ofInt 32)) := by
  unfold decodeFixed
  split
  · exact Triple.err _
  rename_i ho
  have ho : order ≤ buffer.length := by omega
  apply Triple.bind (Triple.withSlice (Nat.zero_le _) ho (triple_verbatim h0 h32 _)
    (Q := fun u out => ∃ warm : List Int, warm.length = order ∧ (∀ v ∈ warm, FitsIn bps v) ∧
      u = warm.flatMap (intToBits bps) ∧
      out = warm.map (BitVec.ofInt 32) ++ buffer.drop order) (by
    rintro u out ⟨vs, h1, h2, h3, h4⟩
    exact ⟨vs, by rw [h1, slice_head ho], h2, h3, by simp [h4]⟩))
  rintro u1 b1 ⟨warm, hwlen, hv, hu1, rfl⟩
  have hlen : (warm.map (BitVec.ofInt 32) ++ buffer.drop order).length = buffer.length := by
    simp; omega
  rw [hlen, Nat.mod_eq_of_lt hbs]
  apply Triple.bind (Triple.withSlice ho (by omega) (triple_residual hbs ho _ (by simp; omega))
    (Q := fun u out => ∃ r : Residual, r.WellFormed buffer.length order ∧ u = r.bits ∧
      out = warm.map (BitVec.ofInt 32) ++ r.values.map resI32) (by
    rintro u out ⟨r, h1, h2, h3⟩
    refine ⟨r, h1, h2, ?_⟩
    rw [h3, List.take_left' (by simp [hwlen]), List.drop_of_length_le (by omega), List.append_nil]))
  rintro u2 b2 ⟨r, hres, hu2, rfl⟩
  obtain ⟨tail, h1, h2⟩ := predictFixed_spec order h4 (warm.map (BitVec.ofInt 32))
    (r.values.map resI32) (by simp [hwlen])
  apply Triple.lift h1
  refine ⟨warm, r, hwlen, ⟨by omega, hv, by rw [hwlen]; exact hres⟩, ?_, ?_⟩
  · rw [hu1, hu2, List.append_nil]; rfl
  · simp only [Coding.samplesWith, hwlen]
    exact predicted h32 hv h2

/-! ### Linear prediction -/

theorem drop_set_self {α : Type} {xs : List α} {n : Nat} {x : α} (h : n < xs.length) :
    (xs.set n x).drop n = x :: xs.drop (n + 1) := by
  rw [List.drop_set, if_neg (by omega), List.drop_eq_getElem_cons h, Nat.sub_self]
  rfl

theorem reads_readCoefficients {prec : Nat} (h0 : 0 < prec) (h16 : prec ≤ 16) (coefs : List Int) :
    ∀ (arr : List I16), (∀ c ∈ coefs, FitsIn prec c) → coefs.length ≤ arr.length →
    Reads (readCoefficients prec coefs.length arr) (coefs.flatMap (intToBits prec))
      ((coefs.map (BitVec.ofInt 16)).reverse ++ arr.drop coefs.length) := by
  induction coefs with
  | nil => intro arr _ _; exact Reads.pure _
  | cons c cs ih =>
    intro arr hc hlen
    rw [List.length_cons] at hlen
    rw [List.flatMap_cons]
    apply (reads_readLeqU16 h16 (emod_toNat_lt c prec)).bind
    apply Reads.bind_lift (extendSignU16_ok h0 h16)
    rw [signExt_field h0 h16 (hc c (by simp))]
    apply Reads.bind_lift (setIndex_ok (by omega))
    refine (ih _ (fun d hd => hc d (by simp [hd])) (by simp; omega)).congr rfl ?_
    rw [List.map_cons, List.reverse_cons, List.append_assoc, List.length_cons]
    congr 1
    rw [drop_set_self (by omega)]; rfl

theorem triple_readCoefficients {prec : Nat} (h0 : 0 < prec) (h16 : prec ≤ 16) (n : Nat) :
    ∀ (arr : List I16), n ≤ arr.length →
    Triple (readCoefficients prec n arr) (fun u out => ∃ coefs : List Int, coefs.length = n ∧
      (∀ c ∈ coefs, FitsIn prec c) ∧ u = coefs.flatMap (intToBits prec) ∧
      out = (coefs.map (BitVec.ofInt 16)).reverse ++ arr.drop n) := by
  induction n with
  | zero => intro arr _; exact Triple.pure ⟨[], rfl, by simp, rfl, rfl⟩
  | succ n ih =>
    intro arr hlen
    apply (triple_readLeqU16 h16).bind
    rintro u a ⟨hu, ha⟩
    apply Triple.bind_lift (extendSignU16_ok h0 h16)
    have := intToBits_signExt a h0 h16 ha
    apply Triple.bind_lift (setIndex_ok (by omega))
    apply (ih _ (by simp; omega)).mono
    rintro u' out ⟨cs, h1, h2, h3, h4⟩
    refine ⟨((a <<< (16 - prec)).sshiftRight (16 - prec)).toInt :: cs, by simp [h1], ?_, ?_, ?_⟩
    · intro c hc
      rcases List.mem_cons.1 hc with rfl | hc
      · exact this.2
      · exact h2 c hc
    · rw [List.flatMap_cons, hu, this.1, h3]
    · rw [h4, drop_set_self (by omega), List.map_cons, List.reverse_cons, List.append_assoc,
        BitVec.ofInt_toInt]
      rfl

theorem shift5 {shift : Nat} (hs : shift ≤ 15) :
    extendSignU16 (BitVec.ofNat 16 ((shift : Int) % (2 ^ 5 : Int)).toNat) 5 =
      .ok (BitVec.ofInt 16 shift) ∧ (BitVec.ofInt 16 (shift : Int)).toInt = shift := by
  constructor
  · rw [extendSignU16_ok (by omega) (by omega), signExt_field (by omega) (by omega)]
    exact ⟨by omega, by omega, by omega⟩
  · apply toInt_ofInt_fits
    exact ⟨by omega, by omega, by omega⟩

/-- The coefficients that were read, as integers in the order of the specification. -/
theorem coefs_toInt {prec : Nat} (h16 : prec ≤ 16) {coefs : List Int}
    (hc : ∀ c ∈ coefs, FitsIn prec c) :
    (((coefs.map (BitVec.ofInt 16)).reverse).map BitVec.toInt).reverse = coefs := by
  rw [← List.map_reverse, List.reverse_reverse, List.map_map]
  conv_rhs => rw [← List.map_id coefs]
  apply List.map_congr_left
  intro c hm
  exact toInt_ofInt_fits (FitsIn.mono (hc c hm) h16)

/-- The prediction of the LPC decoder after everything was read. -/
theorem predictLpc_spec {bps prec : Nat} (h32 : bps ≤ 32) (h16 : prec ≤ 16) {warm : List Int}
    {shift : Nat} {coefs vals : List Int} (hv : ∀ v ∈ warm, FitsIn bps v)
    (hc : ∀ c ∈ coefs, FitsIn prec c) (hlen : coefs.length = warm.length) (hw32 : warm.length ≤ 32)
    (hs : shift ≤ 15) :
    ∃ r : Res (List I32), r = .ok ((warm ++ reconstruct Arith.wrap32 (linearPrediction coefs shift)
        warm.reverse vals).map (BitVec.ofInt 32)) ∧
      ((if warm.length ≤ 12 then do
          let buffer ← predictLpcLowOrder (coefs.map (BitVec.ofInt 16)).reverse
            (BitVec.ofInt 16 (shift : Int)) (warm.map (BitVec.ofInt 32) ++ vals.map resI32)
          pure buffer
        else do
          let buffer ← predictLpcHighOrder (coefs.map (BitVec.ofInt 16)).reverse
            (BitVec.ofInt 16 (shift : Int)) (warm.map (BitVec.ofInt 32) ++ vals.map resI32)
          pure buffer : Dec (Bitstream Flat) (List I32)) = liftM r) := by
  refine ⟨_, rfl, ?_⟩
  split
  · obtain ⟨tail, h1, h2⟩ := predictLpcLowOrder_spec (coefs.map (BitVec.ofInt 16)).reverse
      (by simp; omega) shift _ (shift5 hs).2 (by omega) (warm.map (BitVec.ofInt 32))
      (vals.map resI32) (by simp; omega)
    rw [coefs_toInt h16 hc] at h2
    rw [h1, predicted h32 hv h2]
  · obtain ⟨tail, h1, h2⟩ := predictLpcHighOrder_spec (coefs.map (BitVec.ofInt 16)).reverse
      (by simp; omega) (by simp; omega) shift _ (shift5 hs).2 (by omega)
      (warm.map (BitVec.ofInt 32)) (vals.map resI32) (by simp; omega)
    rw [coefs_toInt h16 hc] at h2
    rw [h1, predicted h32 hv h2]

theorem reads_lpc {bps : Nat} (h0 : 0 < bps) (h32 : bps ≤ 32) (warm : List Int) (prec shift : Nat)
    (coefs : List Int) (r : Residual) (buffer : List I32) (hbs : buffer.length < 2 ^ 16)
    (hw : (Coding.lpc warm prec shift coefs r).WellFormed bps buffer.length) :
    Reads (decodeLpc bps warm.length buffer) ((Coding.lpc warm prec shift coefs r).bits bps)
      (((Coding.lpc warm prec shift coefs r).samplesWith .wrap32 buffer.length).map
        (BitVec.ofInt 32)) := by
  obtain ⟨h1, hw32, hv, hp1, hp15, hs15, hclen, hc, hres⟩ := hw
  have ho := Residual.WellFormed.order_le hres
  unfold decodeLpc
  apply Reads.bind_lift (debugAssert_ok (decide_eq_true hw32))
  rw [if_neg (by omega), Coding.bits]
  simp only [List.append_assoc]
  apply Reads.bind (Reads.withSlice (Nat.zero_le _) ho
    (reads_verbatim h0 h32 warm hv _ (slice_head ho)))
  simp only [List.take_zero, List.nil_append]
  have hlen : (warm.map (BitVec.ofInt 32) ++ buffer.drop warm.length).length = buffer.length := by
    simp; omega
  rw [hlen, Nat.mod_eq_of_lt hbs]
  apply (reads_readLeqU8 (k := 4) (by omega) (show prec - 1 < 2 ^ 4 by omega)).bind
  simp only [toNat_ofNat8 (show prec - 1 < 256 by omega)]
  rw [if_neg (by omega)]
  apply (reads_readLeqU16 (by omega) (emod_toNat_lt shift 5)).bind
  apply Reads.bind_lift (shift5 hs15).1
  rw [(shift5 hs15).2, if_neg (by omega), show prec - 1 + 1 = prec by omega, ← hclen]
  apply (reads_readCoefficients (by omega) (by omega) coefs (List.replicate 32 0#16) hc
    (by simp; omega)).bind
  rw [hclen]
  apply Reads.bind_nil (Reads.withSlice ho (by omega)
    (reads_residual r hbs ho hres _ (by simp; omega)))
  rw [List.take_left' (by simp), List.drop_of_length_le (Nat.le_of_eq hlen), List.append_nil]
  apply Reads.bind_lift (slice_ok ⟨Nat.zero_le _, by simp; omega⟩)
  rw [List.drop_zero, List.take_left' (by simp; omega)]
  obtain ⟨res, h1, h2⟩ := predictLpc_spec h32 (by omega) hv hc hclen hw32 hs15 (vals := r.values)
  rw [h2, h1]
  exact Reads.lift rfl

theorem triple_lpc {bps : Nat} (h0 : 0 < bps) (h32 : bps ≤ 32) {order : Nat} (ho1 : 1 ≤ order)
    (ho32 : order ≤ 32) (buffer : List I32) (hbs : buffer.length < 2 ^ 16) :
    Triple (decodeLpc bps order buffer) (fun u out => ∃ warm prec shift coefs r,
      warm.length = order ∧
      (Coding.lpc warm prec shift coefs r).WellFormed bps buffer.length ∧
      u = (Coding.lpc warm prec shift coefs r).bits bps ∧
      out = ((Coding.lpc warm prec shift coefs r).samplesWith .wrap32 buffer.length).map
        (BitVec.ofInt 32)) := by
  unfold decodeLpc
  apply Triple.bind_lift (debugAssert_ok (decide_eq_true ho32))
  split
  · exact Triple.err _
  rename_i ho
  have ho : order ≤ buffer.length := by omega
  apply Triple.bind (Triple.withSlice (Nat.zero_le _) ho (triple_verbatim h0 h32 _)
    (Q := fun u out => ∃ warm : List Int, warm.length = order ∧ (∀ v ∈ warm, FitsIn bps v) ∧
      u = warm.flatMap (intToBits bps) ∧
      out = warm.map (BitVec.ofInt 32) ++ buffer.drop order) (by
    rintro u out ⟨vs, h1, h2, h3, h4⟩
    exact ⟨vs, by rw [h1, slice_head ho], h2, h3, by simp [h4]⟩))
  rintro u1 b1 ⟨warm, hwlen, hv, hu1, rfl⟩
  have hlen : (warm.map (BitVec.ofInt 32) ++ buffer.drop order).length = buffer.length := by
    simp; omega
  rw [hlen, Nat.mod_eq_of_lt hbs]
  apply (triple_readLeqU8 (k := 4) (by omega)).bind
  rintro u2 precMo ⟨hu2, hprec⟩
  simp only [Nat.add_sub_cancel]
  split
  · exact Triple.err _
  rename_i hne
  apply (triple_readLeqU16 (k := 5) (by omega)).bind
  rintro u3 su ⟨hu3, hsu⟩
  apply Triple.bind_lift (extendSignU16_ok (by omega) (by omega))
  have hsx := intToBits_signExt su (k := 5) (by omega) (by omega) hsu
  generalize hshift : (su <<< (16 - 5)).sshiftRight (16 - 5) = sh at hsx ⊢
  split
  · exact Triple.err _
  rename_i hneg
  obtain ⟨shift, hshN⟩ : ∃ n : Nat, sh.toInt = n := ⟨sh.toInt.toNat, by omega⟩
  have hs15 : shift ≤ 15 := by
    have := hsx.2.2.1
    rw [hshN] at this
    norm_num at this
    omega
  have hsh : sh = BitVec.ofInt 16 (shift : Int) := by rw [← hshN, BitVec.ofInt_toInt]
  apply (triple_readCoefficients (by omega) (by omega) order (List.replicate 32 0#16)
    (by simp; omega)).bind
  rintro u4 arr ⟨coefs, hclen, hc, hu4, rfl⟩
  apply Triple.bind (Triple.withSlice ho (by omega) (triple_residual hbs ho _ (by simp; omega))
    (Q := fun u out => ∃ r : Residual, r.WellFormed buffer.length order ∧ u = r.bits ∧
      out = warm.map (BitVec.ofInt 32) ++ r.values.map resI32) (by
    rintro u out ⟨r, h1, h2, h3⟩
    refine ⟨r, h1, h2, ?_⟩
    rw [h3, List.take_left' (by simp [hwlen]), List.drop_of_length_le (by omega), List.append_nil]))
  rintro u5 b2 ⟨r, hres, hu5, rfl⟩
  apply Triple.bind_lift (slice_ok ⟨Nat.zero_le _, by simp; omega⟩)
  rw [List.drop_zero, List.take_left' (by simp; omega)]
  obtain ⟨res, h1, h2⟩ := predictLpc_spec (prec := precMo.toNat + 1) h32 (by omega) hv hc
    (by omega) (by omega) hs15 (vals := r.values)
  rw [hsh, ← hwlen, h2, h1]
  apply Triple.lift rfl
  refine ⟨warm, precMo.toNat + 1, shift, coefs, r, rfl, ⟨by omega, by omega, hv, by omega, by omega,
    hs15, by omega, hc, by rw [hwlen]; exact hres⟩, ?_, rfl⟩
  simp only [Coding.bits]
  rw [hu1, hu2, hu3, hu4, hu5, hsx.1, hshN]
  simp

/-! ### The subframe -/

/-- The model's type of a coding. -/
def typeOf : Coding → SubframeType
  | .constant _ => .constant
  | .verbatim _ => .verbatim
  | .fixed warm _ => .fixed warm.length
  | .lpc warm _ _ _ _ => .lpc warm.length

/-- The orders that a subframe type can have. -/
def TypeOk : SubframeType → Prop
  | .fixed n => n ≤ 4
  | .lpc n => 1 ≤ n ∧ n ≤ 32
  | _ => True

theorem reads_typeCode (c : Coding) {bps bs : Nat} (hw : c.WellFormed bps bs) :
    c.typeCode < 2 ^ 6 ∧
    (subframeTypeOf (BitVec.ofNat 8 c.typeCode) : Dec (Bitstream Flat) SubframeType) =
      pure (typeOf c) := by
  cases c with
  | constant v => exact ⟨by simp [Coding.typeCode], rfl⟩
  | verbatim vs => exact ⟨by simp [Coding.typeCode], rfl⟩
  | fixed warm r =>
    have h4 := hw.1
    simp only [Coding.typeCode, typeOf]
    generalize warm.length = n at h4
    refine ⟨by omega, ?_⟩
    have : n = 0 ∨ n = 1 ∨ n = 2 ∨ n = 3 ∨ n = 4 := by omega
    rcases this with rfl | rfl | rfl | rfl | rfl <;> rfl
  | lpc warm p s cs r =>
    have h1 := hw.1
    have h2 := hw.2.1
    simp only [Coding.typeCode, typeOf]
    generalize warm.length = n at h1 h2
    refine ⟨by omega, ?_⟩
    obtain ⟨m, rfl⟩ : ∃ m, n = m + 1 := ⟨n - 1, by omega⟩
    rw [Nat.add_sub_cancel]
    have hm : m < 32 := by omega
    have key : ∀ m : Fin 32, ¬ (BitVec.ofNat 8 (32 + m.val) = 0#8) ∧
      ¬ (BitVec.ofNat 8 (32 + m.val) = 1#8) ∧
      ¬ (BitVec.ofNat 8 (32 + m.val) &&& 0b111_110#8 = 0b000_010#8 ∨
        BitVec.ofNat 8 (32 + m.val) &&& 0b111_100#8 = 0b000_100#8 ∨
        BitVec.ofNat 8 (32 + m.val) &&& 0b110_000#8 = 0b010_000#8) ∧
      ¬ (BitVec.ofNat 8 (32 + m.val) &&& 0b111_000#8 = 0b001_000#8) ∧
      (BitVec.ofNat 8 (32 + m.val) &&& 0b011_111#8).toNat = m.val := by decide +kernel
    obtain ⟨k1, k2, k3, k4, k5⟩ := key ⟨m, hm⟩
    simp only at k1 k2 k3 k4 k5
    rw [subframeTypeOf, if_neg k1, if_neg k2, if_neg k3, if_neg k4]
    simp only [k5]

/-- What the decoder does for a subframe type. -/
def decodeBody (t : SubframeType) (bps : Nat) (buffer : List I32) : Dec (Bitstream Flat) (List I32) :=
  match t with
  | .constant => decodeConstant bps buffer
  | .verbatim => decodeVerbatim bps buffer
  | .fixed ord => decodeFixed bps ord buffer
  | .lpc ord => decodeLpc bps ord buffer

theorem reads_body (c : Coding) {bps : Nat} (h0 : 0 < bps) (h32 : bps ≤ 32) (buffer : List I32)
    (hbs : buffer.length < 2 ^ 16) (hw : c.WellFormed bps buffer.length) :
    Reads (decodeBody (typeOf c) bps buffer) (c.bits bps)
      ((c.samplesWith .wrap32 buffer.length).map (BitVec.ofInt 32)) := by
  cases c with
  | constant v =>
    simp only [typeOf, decodeBody, decodeConstant_eq, Coding.samplesWith, List.map_replicate]
    apply (reads_sampleStep h0 h32 hw).bind_nil
    rw [replicate_eq_map]
    exact Reads.pure _
  | verbatim vs => exact reads_verbatim h0 h32 vs hw.2 buffer hw.1.symm
  | fixed warm r => exact reads_fixed h0 h32 warm r buffer hbs hw
  | lpc warm p s cs r => exact reads_lpc h0 h32 warm p s cs r buffer hbs hw

theorem triple_body (t : SubframeType) {bps : Nat} (h0 : 0 < bps) (h32 : bps ≤ 32) (buffer : List I32)
    (hbs : buffer.length < 2 ^ 16)
    (ht : TypeOk t) :
    Triple (decodeBody t bps buffer) (fun u out => ∃ c : Coding, typeOf c = t ∧
      c.WellFormed bps buffer.length ∧ u = c.bits bps ∧
      out = (c.samplesWith .wrap32 buffer.length).map (BitVec.ofInt 32)) := by
  cases t with
  | constant =>
    simp only [decodeBody, decodeConstant_eq]
    apply (triple_sampleStep h0 h32).bind
    rintro u a ⟨v, hv, hu, ha⟩
    apply Triple.pure
    exact ⟨.constant v, rfl, hv, by rw [hu, List.append_nil]; rfl, by
      rw [replicate_eq_map, ha]; simp [Coding.samplesWith]⟩
  | verbatim =>
    apply (triple_verbatim h0 h32 buffer).mono
    rintro u out ⟨vs, h1, h2, h3, h4⟩
    exact ⟨.verbatim vs, rfl, ⟨h1, h2⟩, h3, h4⟩
  | fixed n =>
    apply (triple_fixed h0 h32 ht buffer hbs).mono
    rintro u out ⟨warm, r, rfl, h2, h3, h4⟩
    exact ⟨.fixed warm r, rfl, h2, h3, h4⟩
  | lpc n =>
    apply (triple_lpc h0 h32 ht.1 ht.2 buffer hbs).mono
    rintro u out ⟨warm, p, s, cs, r, rfl, h2, h3, h4⟩
    exact ⟨.lpc warm p s cs r, rfl, h2, h3, h4⟩

theorem triple_typeCode (n : U8) (hn : n.toNat < 2 ^ 6) :
    Triple (subframeTypeOf n : Dec (Bitstream Flat) SubframeType) (fun u t => u = [] ∧
      (∀ c : Coding, typeOf c = t → c.typeCode = n.toNat) ∧
      TypeOk t) := by
  unfold subframeTypeOf
  split
  · rename_i h; subst h
    apply Triple.pure
    refine ⟨rfl, ?_, trivial⟩
    intro c hc
    cases c <;> first | rfl | cases hc
  split
  · rename_i h; subst h
    apply Triple.pure
    refine ⟨rfl, ?_, trivial⟩
    intro c hc
    cases c <;> first | rfl | cases hc
  split
  · exact Triple.err _
  rename_i h0 h1 hres
  split
  · rename_i hfix
    simp only
    split
    · exact Triple.err _
    rename_i hord
    apply Triple.pure
    refine ⟨rfl, ?_, by simp only [TypeOk]; omega⟩
    intro c hc
    have key : ∀ n : U8, n.toNat < 2 ^ 6 → n &&& 0b111_000#8 = 0b001_000#8 →
      8 + (n &&& 0b000_111#8).toNat = n.toNat := by decide +kernel
    cases c <;> first | cases hc | skip
    rename_i warm r
    simp only [typeOf, SubframeType.fixed.injEq] at hc
    simp only [Coding.typeCode]
    rw [hc, key n hn hfix]
  · rename_i hfix
    apply Triple.pure
    have key : ∀ n : U8, n.toNat < 2 ^ 6 → ¬ n = 0#8 → ¬ n = 1#8 →
      ¬ (n &&& 0b111_110#8 = 0b000_010#8 ∨ n &&& 0b111_100#8 = 0b000_100#8 ∨
        n &&& 0b110_000#8 = 0b010_000#8) → ¬ n &&& 0b111_000#8 = 0b001_000#8 →
      32 + (n &&& 0b011_111#8).toNat = n.toNat := by decide +kernel
    have hk := key n hn h0 h1 hres hfix
    refine ⟨rfl, ?_, by omega, by omega⟩
    intro c hc
    cases c <;> first | cases hc | skip
    rename_i warm p s cs r
    simp only [typeOf, SubframeType.lpc.injEq] at hc
    simp only [Coding.typeCode]
    omega

/-- The reader of the wasted bits count. -/
def wastedDec : Dec (Bitstream Flat) Nat := do
  let wastesBits ← readBit
  (if !wastesBits then pure 0
    else do
      let k ← readUnary
      let k1 ← addU 32 1 k
      pure k1 : Dec (Bitstream Flat) Nat)

theorem readSubframeHeader_eq :
    (readSubframeHeader : Dec (Bitstream Flat) SubframeHeader) = (do
      let pad ← readBit
      if pad then fmtErr "invalid subframe header"
      else do
        let n ← readLeqU8 6
        let sfType ← subframeTypeOf n
        let wastedBits ← wastedDec
        if wastedBits > 31 then fmtErr "wasted bits per sample must not exceed 31"
        else pure { sfType := sfType, wastedBitsPerSample := wastedBits }) := by
  simp only [readSubframeHeader, wastedDec, bind_assoc]

theorem reads_wasted {k : Nat} (hk : k ≤ 31) : Reads wastedDec (wastedBits k) k := by
  unfold wastedBits
  split
  · rename_i h; subst h
    exact (reads_readBit false).bind_nil (Reads.pure _)
  · rename_i h
    apply Reads.congr ((reads_readBit true).bind (c := k) (cs := unaryBits (k - 1)) _) rfl rfl
    apply (reads_readUnary (by omega)).bind_nil
    exact (Reads.lift (addU_ok (show 1 + (k - 1) < 2 ^ 32 by omega))).congr rfl (by omega)

theorem triple_wasted : Triple wastedDec (fun u k => u = wastedBits k) := by
  apply triple_readBit.bind
  rintro u a rfl
  cases a with
  | false => exact Triple.pure rfl
  | true =>
    rw [if_neg (by decide)]
    intro b hb
    have h := triple_readUnary b hb
    rw [Dec.bind_def]
    rcases hr : readUnary b with ⟨r, b1⟩
    rw [hr] at h
    cases r with
    | error e => cases e <;> trivial
    | ok k =>
      obtain ⟨h1, h2, u, h3, h4, h5⟩ := h
      simp only
      rcases Nat.lt_or_ge (1 + k) (2 ^ 32) with hlt | hge
      · rw [Dec.liftM_of (addU_ok hlt)]
        refine ⟨h1, h2, u, h3, ?_⟩
        rw [h4, wastedBits, if_neg (by omega), Nat.add_sub_cancel_left]
        rfl
      · have : addU 32 1 k = panicRes .overflow := if_neg (by omega)
        rw [this]
        refine ⟨rfl, ?_⟩
        rw [h3, h4]
        exact longZeros_unary (by omega) _

theorem map_shl {xs : List Int} {k : Nat} :
    (xs.map (BitVec.ofInt 32)).map (fun (s : I32) => (s <<< k : I32)) =
      (xs.map fun v => Arith.wrap32.wrap (v * 2 ^ k)).map (BitVec.ofInt 32) := by
  rw [List.map_map, List.map_map]
  apply List.map_congr_left
  intro v _
  apply BitVec.eq_of_toInt_eq
  show (BitVec.ofInt 32 v <<< k).toInt = (BitVec.ofInt 32 ((v * 2 ^ k).bmod (2 ^ 32))).toInt
  rw [BitVec.toInt_ofInt, Int.bmod_bmod, BitVec.toInt_shiftLeft, Nat.shiftLeft_eq]
  have : ((BitVec.ofInt 32 v).toNat : Int) = v % 2 ^ 32 := by
    rw [BitVec.toNat_ofInt]; exact toNat_emod v 32
  push_cast
  rw [this, Int.bmod_def, Int.bmod_def]
  have e : v % 2 ^ 32 * 2 ^ k % ((2 ^ 32 : Nat) : Int) = v * 2 ^ k % ((2 ^ 32 : Nat) : Int) := by
    push_cast
    rw [Int.mul_emod, Int.emod_emod_of_dvd _ (dvd_refl _), ← Int.mul_emod]
  change (if v % 2 ^ 32 * 2 ^ k % ((2 ^ 32 : Nat) : Int) < _ then v % 2 ^ 32 * 2 ^ k % ((2 ^ 32 : Nat) : Int)
    else v % 2 ^ 32 * 2 ^ k % ((2 ^ 32 : Nat) : Int) - _) = _
  rw [e]
  rfl

theorem wrap_samples {bs bps : Nat} {c : Coding} (h32 : bps ≤ 32) (hw : c.WellFormed bps bs) :
    ((c.samplesWith .wrap32 bs).map fun v => Arith.wrap32.wrap (v * 2 ^ 0)) =
      c.samplesWith .wrap32 bs := by
  have key : ∀ v ∈ c.samplesWith .wrap32 bs, FitsIn 32 v := by
    have hrec : ∀ (p : List Int → Int) (rs past : List Int),
        ∀ v ∈ reconstruct Arith.wrap32 p past rs, FitsIn 32 v := by
      intro p rs
      induction rs with
      | nil => intro past v hv; simp [reconstruct] at hv
      | cons r rs ih =>
        intro past v hv
        rw [reconstruct] at hv
        rcases List.mem_cons.1 hv with rfl | hv
        · exact fits_bmod (by omega) _
        · exact ih _ v hv
    cases c with
    | constant v =>
      intro w hm
      rw [Coding.samplesWith, List.mem_replicate] at hm
      rw [hm.2]; exact FitsIn.mono hw h32
    | verbatim vs => intro w hm; exact FitsIn.mono (hw.2 w hm) h32
    | fixed warm r =>
      intro w hm
      rcases List.mem_append.1 hm with hm | hm
      · exact FitsIn.mono (hw.2.1 w hm) h32
      · exact hrec _ _ _ w hm
    | lpc warm p s cs r =>
      intro w hm
      rcases List.mem_append.1 hm with hm | hm
      · exact FitsIn.mono (hw.2.2.1 w hm) h32
      · exact hrec _ _ _ w hm
  conv_rhs => rw [← List.map_id (c.samplesWith .wrap32 bs)]
  apply List.map_congr_left
  intro v hv
  rw [Int.pow_zero, Int.mul_one]
  exact bmod_of_fits (key v hv)

theorem reads_subframe {bps : Nat} (h32 : bps ≤ 32) (s : Subframe) (buffer : List I32)
    (hbs : buffer.length < 2 ^ 16) (hw : s.WellFormed bps buffer.length) :
    Reads (decodeSubframe bps buffer) (s.bits bps)
      ((s.samplesWith .wrap32 buffer.length).map (BitVec.ofInt 32)) := by
  obtain ⟨hwaste, hcod⟩ := hw
  apply Reads.bind_lift (debugAssert_ok (decide_eq_true h32))
  have hhead : Reads readSubframeHeader
      (false :: natToBits 6 s.coding.typeCode ++ wastedBits s.wasted)
      ⟨typeOf s.coding, s.wasted⟩ := by
    rw [readSubframeHeader_eq]
    show Reads _ ([false] ++ natToBits 6 s.coding.typeCode ++ wastedBits s.wasted) _
    rw [List.append_assoc]
    apply (reads_readBit false).bind
    simp only [Bool.false_eq_true, if_false]
    obtain ⟨h6, htype⟩ := reads_typeCode s.coding hcod
    apply (reads_readLeqU8 (k := 6) (by omega) h6).bind
    rw [htype, pure_bind]
    apply (reads_wasted (show s.wasted ≤ 31 by omega)).bind_nil
    rw [if_neg (by omega)]
    exact Reads.pure _
  apply hhead.bind
  simp only
  rw [if_neg (by omega)]
  have hbody := reads_body s.coding (show 0 < bps - s.wasted by omega) (by omega) buffer hbs hcod
  apply hbody.bind_nil
  split
  · apply Reads.bind_lift (debugAssert_ok (decide_eq_true (by omega)))
    rw [Nat.mod_eq_of_lt (by omega), map_shl]
    exact Reads.pure _
  · have : s.wasted = 0 := by omega
    refine (Reads.pure _).congr rfl ?_
    rw [Subframe.samplesWith, this, wrap_samples (bps := bps - s.wasted) (by omega) hcod]

theorem triple_subframe {bps : Nat} (h32 : bps ≤ 32) (buffer : List I32)
    (hbs : buffer.length < 2 ^ 16) :
    Triple (decodeSubframe bps buffer) (fun u out => ∃ s : Subframe,
      s.WellFormed bps buffer.length ∧ u = s.bits bps ∧
      out = (s.samplesWith .wrap32 buffer.length).map (BitVec.ofInt 32)) := by
  apply Triple.bind_lift (debugAssert_ok (decide_eq_true h32))
  have hhead : Triple readSubframeHeader (fun u h => h.wastedBitsPerSample ≤ 31 ∧
      (∀ c : Coding, typeOf c = h.sfType →
        u = false :: natToBits 6 c.typeCode ++ wastedBits h.wastedBitsPerSample) ∧
      TypeOk h.sfType) := by
    rw [readSubframeHeader_eq]
    apply triple_readBit.bind
    rintro u1 pad rfl
    cases pad with
    | true => exact Triple.err _
    | false =>
      simp only [Bool.false_eq_true, if_false]
      apply (triple_readLeqU8 (k := 6) (by omega)).bind
      rintro u2 n ⟨hu2, hn⟩
      apply (triple_typeCode n hn).bind
      rintro u3 t ⟨rfl, ht, htt⟩
      apply triple_wasted.bind
      rintro u4 k rfl
      split
      · exact Triple.err _
      · apply Triple.pure
        refine ⟨by simp only; omega, ?_, htt⟩
        intro c hc
        rw [ht c hc, hu2]
        simp
  apply hhead.bind
  rintro u1 h ⟨h31, hu1, ht⟩
  split
  · exact Triple.err _
  rename_i hlt
  have hbody := triple_body h.sfType (show 0 < bps - h.wastedBitsPerSample by omega) (by omega)
    buffer hbs ht
  apply hbody.bind
  rintro u2 out ⟨c, hc, hcw, hu2, rfl⟩
  have hbits : u1 ++ u2 = Subframe.bits bps ⟨c, h.wastedBitsPerSample⟩ := by
    rw [hu1 c hc, hu2]; rfl
  split
  · apply Triple.bind_lift (debugAssert_ok (decide_eq_true h31))
    apply Triple.pure
    refine ⟨⟨c, h.wastedBitsPerSample⟩, ⟨by simp only; omega, hcw⟩, ?_, ?_⟩
    · rw [List.append_nil, hbits]
    · rw [Nat.mod_eq_of_lt (by omega), map_shl]; rfl
  · have h0 : h.wastedBitsPerSample = 0 := by omega
    apply Triple.pure
    refine ⟨⟨c, h.wastedBitsPerSample⟩, ⟨by simp only; omega, hcw⟩, ?_, ?_⟩
    · rw [List.append_nil, hbits]
    · rw [Subframe.samplesWith]
      simp only [h0]
      rw [wrap_samples (bps := bps - h.wastedBitsPerSample) (by omega) hcw]

/-! ### Exact samples -/

theorem samples_exact_of_fits (A : Arith) {c : Coding} {bs : Nat} (v : Int)
    (hv : v ∈ c.samplesWith A bs) (k : Nat) :
    A.wrap (v * 2 ^ k) ∈ Subframe.samplesWith A bs ⟨c, k⟩ :=
  List.mem_map.2 ⟨v, hv, rfl⟩

theorem fits_of_mul {v : Int} {k : Nat} (h : FitsIn 32 (v * 2 ^ k)) : FitsIn 32 v := by
  obtain ⟨h1, h2, _⟩ := h
  have hp : (1 : Int) ≤ 2 ^ k := by
    have := Nat.two_pow_pos k
    exact_mod_cast this
  refine ⟨?_, ?_, by omega⟩
  · by_contra hlt
    have : v * 2 ^ k ≤ v * 1 := mul_le_mul_of_nonpos_left hp (by norm_num at hlt ⊢; omega)
    omega
  · by_contra hlt
    have : v * 1 ≤ v * 2 ^ k := mul_le_mul_of_nonneg_left hp (by norm_num at hlt ⊢; omega)
    omega

/-- For a legal subframe, wrapping arithmetic computes the exact samples. -/
theorem Subframe.Legal.wrap32_eq {bps bs : Nat} {s : Subframe} (h : s.Legal bps bs) :
    s.samplesWith .wrap32 bs = s.samples bs := by
  obtain ⟨hw, hr, hs⟩ := h
  have hfit : ∀ v ∈ s.coding.samplesWith .exact bs, FitsIn 32 v := fun v hv =>
    fits_of_mul (k := s.wasted) (hs _ (List.mem_map.2 ⟨v, hv, rfl⟩))
  have hcod : s.coding.samplesWith .wrap32 bs = s.coding.samplesWith .exact bs := by
    rcases s with ⟨c, k⟩
    cases c with
    | constant v => rfl
    | verbatim vs => rfl
    | fixed warm r =>
      simp only [Coding.samplesWith] at hfit ⊢
      rw [reconstruct_exact _ _ _ hr (fun v hv => hfit v (List.mem_append.2 (Or.inr hv)))]
    | lpc warm p sh cs r =>
      simp only [Coding.samplesWith] at hfit ⊢
      rw [reconstruct_exact _ _ _ hr (fun v hv => hfit v (List.mem_append.2 (Or.inr hv)))]
  rw [Subframe.samples, Subframe.samplesWith, Subframe.samplesWith, hcod]
  apply List.map_congr_left
  intro v hv
  exact bmod_of_fits (hs _ (List.mem_map.2 ⟨v, hv, rfl⟩))

end Claxon
