import Verif.Proof.Logic
import Verif.Proof.Arith

/-! Residuals: the partitions and their Rice codes. -/

namespace Claxon

open Spec Bitstream

/-- Run `step` for every slot of the buffer. -/
def loopN {σ : Type} (step : Dec σ I32) : List I32 → Dec σ (List I32)
  | [] => pure []
  | _ :: rest => do
    let s ← step
    let rest' ← loopN step rest
    pure (s :: rest')

theorem Reads.loopN {step : Dec (Bitstream Flat) I32} {enc : Int → List Bool} {f : Int → I32}
    (vs : List Int) (h : ∀ v ∈ vs, Reads step (enc v) (f v)) (buf : List I32)
    (hlen : buf.length = vs.length) :
    Reads (loopN step buf) (vs.flatMap enc) (vs.map f) := by
  induction vs generalizing buf with
  | nil =>
    have : buf = [] := List.eq_nil_of_length_eq_zero hlen
    subst this
    exact Reads.pure _
  | cons v vs ih =>
    cases buf with
    | nil => simp at hlen
    | cons x buf =>
      exact (h v (by simp)).bind
        ((ih (fun w hw => h w (by simp [hw])) buf (by simpa using hlen)).bind_nil (Reads.pure _))

theorem Triple.loopN {step : Dec (Bitstream Flat) I32} {enc : Int → List Bool} {f : Int → I32}
    {R : Int → Prop} (h : Triple step (fun u a => ∃ v, R v ∧ u = enc v ∧ a = f v))
    (buf : List I32) :
    Triple (loopN step buf) (fun u out => ∃ vs : List Int, vs.length = buf.length ∧
      (∀ v ∈ vs, R v) ∧ u = vs.flatMap enc ∧ out = vs.map f) := by
  induction buf with
  | nil => exact Triple.pure ⟨[], rfl, by simp, rfl, rfl⟩
  | cons x buf ih =>
    apply h.bind
    rintro u a ⟨v, hR, hu, ha⟩
    apply ih.bind
    rintro u' out ⟨vs, hlen, hRs, hu', hout⟩
    apply Triple.pure
    refine ⟨v :: vs, by simp [hlen], ?_, ?_, ?_⟩
    · intro w hw
      rcases List.mem_cons.1 hw with rfl | hw
      · exact hR
      · exact hRs w hw
    · simp [hu, hu']
    · simp [ha, hout]

/-- One Rice code, with the remainder read by `rd`. -/
def riceStep {w : Nat} (k : Nat) (rd : Dec (Bitstream Flat) (BitVec w)) : Dec (Bitstream Flat) I32 := do
  let q ← readUnary
  let r ← rd
  let hi ← shl (BitVec.ofNat 32 q) k
  pure (riceToSigned (hi ||| r.setWidth 32))

theorem small_eq (k : Nat) (buf : List I32) :
    (ricePartitionSmall k buf : Dec (Bitstream Flat) _) = loopN (riceStep k (readLeqU8 k)) buf := by
  induction buf with
  | nil => rfl
  | cons x buf ih => simp only [ricePartitionSmall, loopN, riceStep, ih, bind_assoc, pure_bind]

theorem large_eq (k : Nat) (buf : List I32) :
    (ricePartitionLarge k buf : Dec (Bitstream Flat) _) = loopN (riceStep k (readGtU8LeqU16 k)) buf := by
  induction buf with
  | nil => rfl
  | cons x buf ih =>
    simp only [ricePartitionLarge, loopN, riceStep, ih, bind_assoc, pure_bind, BitVec.setWidth_eq]

theorem rice2_eq (k : Nat) (buf : List I32) :
    (rice2PartitionLoop k buf : Dec (Bitstream Flat) _) = loopN (riceStep k (readLeqU32 k)) buf := by
  induction buf with
  | nil => rfl
  | cons x buf ih =>
    simp only [rice2PartitionLoop, loopN, riceStep, ih, bind_assoc, pure_bind, BitVec.setWidth_eq]

/-- The residual that the decoder computes for the coded residual `r`. -/
def resI32 (r : Int) : I32 := BitVec.ofInt 32 (Arith.wrap32.residual r)

theorem rice_value {w k q r : Nat} (hk : k < 32) (hr : r < 2 ^ k) (hw : k ≤ w) :
    riceToSigned (BitVec.ofNat 32 q <<< k ||| (BitVec.ofNat w r).setWidth 32) =
      resI32 (unfold (q * 2 ^ k + r)) := by
  have e : (BitVec.ofNat w r).setWidth 32 = BitVec.ofNat 32 r := by
    apply BitVec.eq_of_toNat_eq
    rw [BitVec.toNat_setWidth, BitVec.toNat_ofNat, BitVec.toNat_ofNat,
      Nat.mod_eq_of_lt (a := r) (Nat.lt_of_lt_of_le hr (Nat.pow_le_pow_right (by omega) hw))]
  rw [e, shl_or_ofNat hk hr, riceToSigned_eq]
  show _ = BitVec.ofInt 32 (unfold (fold _ % 2 ^ 32))
  rw [fold_unfold]

theorem reads_riceStep {w k : Nat} {rd : Dec (Bitstream Flat) (BitVec w)} (hk : k < 32) (hw : k ≤ w)
    (hrd : ∀ v, v < 2 ^ k → Reads rd (natToBits k v) (BitVec.ofNat w v)) (r : Int)
    (hq : fold r / 2 ^ k < 2 ^ 32) : Reads (riceStep k rd) (riceBits k r) (resI32 r) := by
  have hm : fold r % 2 ^ k < 2 ^ k := Nat.mod_lt _ (Nat.two_pow_pos _)
  apply (reads_readUnary hq).bind
  apply (hrd _ hm).bind_nil
  apply Reads.bind_lift (shl_ok hk)
  rw [rice_value hk hm hw, Nat.div_add_mod', unfold_fold]
  exact Reads.pure _

theorem triple_riceStep {w k : Nat} {rd : Dec (Bitstream Flat) (BitVec w)} (hk : k < 32) (hw : k ≤ w)
    (hrd : Triple rd (fun u a => u = natToBits k a.toNat ∧ a.toNat < 2 ^ k)) :
    Triple (riceStep k rd) (fun u a => ∃ r, fold r / 2 ^ k < 2 ^ 32 ∧ u = riceBits k r ∧ a = resI32 r) := by
  apply triple_readUnary.bind
  rintro u q ⟨hu, hq⟩
  apply hrd.bind
  rintro u' a ⟨hu', ha⟩
  apply Triple.bind_lift (shl_ok hk)
  apply Triple.pure
  refine ⟨unfold (q * 2 ^ k + a.toNat), ?_, ?_, ?_⟩
  · rw [fold_unfold, Nat.mul_comm, Nat.mul_add_div (Nat.two_pow_pos _), Nat.div_eq_of_lt ha,
      Nat.add_zero]
    exact hq
  · rw [riceBits, fold_unfold, hu, hu', List.append_nil, Nat.mul_comm,
      Nat.mul_add_div (Nat.two_pow_pos _), Nat.div_eq_of_lt ha, Nat.mul_add_mod,
      Nat.mod_eq_of_lt ha, Nat.add_zero]
  · rw [← rice_value hk ha hw]
    simp

/-- The partition decoder of a method. -/
def partitionDec (m : RiceMethod) (buf : List I32) : Dec (Bitstream Flat) (List I32) :=
  match m with
  | .rice => decodeRicePartition buf
  | .rice2 => decodeRice2Partition buf

theorem toNat_ofNat8 {v : Nat} (h : v < 256) : (BitVec.ofNat 8 v).toNat = v := by
  rw [BitVec.toNat_ofNat]; exact Nat.mod_eq_of_lt h

theorem reads_partition (m : RiceMethod) (p : Partition) (hp : p.param ≤ m.maxParam)
    (hv : ∀ v ∈ p.values, fold v / 2 ^ p.param < 2 ^ 32) (buf : List I32) (hlen : buf.length = p.values.length) :
    Reads (partitionDec m buf) (p.bits m) (p.values.map resI32) := by
  cases m with
  | rice =>
    simp only [RiceMethod.maxParam] at hp
    apply (reads_readLeqU8 (k := 4) (by omega) (show p.param < 2 ^ 4 by omega)).bind
    simp only [toNat_ofNat8 (show p.param < 256 by omega)]
    rw [if_neg (by omega)]
    split
    · rw [small_eq]
      exact Reads.loopN _ (fun v hmem => reads_riceStep (by omega) (by omega)
        (fun _ h => reads_readLeqU8 (by omega) h) v (hv v hmem)) _ hlen
    · rw [large_eq]
      exact Reads.loopN _ (fun v hmem => reads_riceStep (by omega) (by omega)
        (fun _ h => reads_readGtU8LeqU16 (by omega) (by omega) h) v (hv v hmem)) _ hlen
  | rice2 =>
    simp only [RiceMethod.maxParam] at hp
    apply (reads_readLeqU8 (k := 5) (by omega) (show p.param < 2 ^ 5 by omega)).bind
    simp only [toNat_ofNat8 (show p.param < 256 by omega)]
    rw [if_neg (by omega), rice2_eq]
    exact Reads.loopN _ (fun v hmem => reads_riceStep (by omega) (by omega)
        (fun _ h => reads_readLeqU32 (by omega) h) v (hv v hmem)) _ hlen

theorem triple_partition (m : RiceMethod) (buf : List I32) :
    Triple (partitionDec m buf) (fun u out => ∃ p : Partition, p.param ≤ m.maxParam ∧
      (∀ v ∈ p.values, fold v / 2 ^ p.param < 2 ^ 32) ∧ p.values.length = buf.length ∧ u = p.bits m ∧ out = p.values.map resI32) := by
  have conv : ∀ (k : Nat) (u u' : List Bool) (out : List I32), u = natToBits m.paramBits k →
      k ≤ m.maxParam →
      (∃ vs : List Int, vs.length = buf.length ∧ (∀ v ∈ vs, fold v / 2 ^ k < 2 ^ 32) ∧
        u' = vs.flatMap (riceBits k) ∧
        out = vs.map resI32) →
      ∃ p : Partition, p.param ≤ m.maxParam ∧ (∀ v ∈ p.values, fold v / 2 ^ p.param < 2 ^ 32) ∧
        p.values.length = buf.length ∧ u ++ u' = p.bits m ∧ out = p.values.map resI32 := by
    rintro k u u' out hu hk ⟨vs, h1, hq, h2, h3⟩
    exact ⟨⟨k, vs⟩, hk, hq, h1, by rw [Partition.bits, hu, h2], h3⟩
  cases m with
  | rice =>
    apply (triple_readLeqU8 (k := 4) (by omega)).bind
    rintro u a ⟨hu, ha⟩
    simp only
    by_cases h15 : a.toNat = 0b1111
    · rw [if_pos h15]; exact Triple.err _
    · rw [if_neg h15]
      split
      · rw [small_eq]
        exact (Triple.loopN (triple_riceStep (by omega) (by omega)
          (triple_readLeqU8 (by omega))) buf).mono
          fun u' out h => conv a.toNat u u' out hu (by show _ ≤ 14; omega) h
      · rw [large_eq]
        exact (Triple.loopN (triple_riceStep (by omega) (by omega)
          (triple_readGtU8LeqU16 (by omega) (by omega))) buf).mono
          fun u' out h => conv a.toNat u u' out hu (by show _ ≤ 14; omega) h
  | rice2 =>
    apply (triple_readLeqU8 (k := 5) (by omega)).bind
    rintro u a ⟨hu, ha⟩
    simp only
    by_cases h15 : a.toNat = 0b11111
    · rw [if_pos h15]; exact Triple.err _
    · rw [if_neg h15, rice2_eq]
      exact (Triple.loopN (triple_riceStep (by omega) (by omega)
          (triple_readLeqU32 (by omega))) buf).mono
          fun u' out h => conv a.toNat u u' out hu (by show _ ≤ 30; omega) h

/-! ### Slices -/

theorem Reads.withSlice {buffer : List I32} {a b : Nat} {f : List I32 → Dec (Bitstream Flat) (List I32)}
    {bits : List Bool} {out : List I32} (hab : a ≤ b) (hb : b ≤ buffer.length)
    (h : Reads (f ((buffer.take b).drop a)) bits out) :
    Reads (withSlice buffer a b f) bits (buffer.take a ++ out ++ buffer.drop b) := by
  apply Reads.bind_lift (slice_ok ⟨hab, hb⟩)
  exact h.bind_nil (Reads.pure _)

theorem Triple.withSlice {buffer : List I32} {a b : Nat}
    {f : List I32 → Dec (Bitstream Flat) (List I32)} {P Q : List Bool → List I32 → Prop}
    (hab : a ≤ b) (hb : b ≤ buffer.length) (h : Triple (f ((buffer.take b).drop a)) P)
    (hQ : ∀ u out, P u out → Q u (buffer.take a ++ out ++ buffer.drop b)) :
    Triple (withSlice buffer a b f) Q := by
  apply Triple.bind_lift (slice_ok ⟨hab, hb⟩)
  apply h.bind
  intro u out hP
  apply Triple.pure
  rw [List.append_nil]
  exact hQ u out hP

/-! ### The partitions -/

/-- The model's partition type of a method. -/
def ptypeOf : RiceMethod → RicePartitionType
  | .rice => .rice
  | .rice2 => .rice2

theorem partitionLoop_succ (m : RiceMethod) (nspp n start len : Nat) (buffer : List I32) :
    (partitionLoop (ptypeOf m) nspp (n + 1) start len buffer : Dec (Bitstream Flat) _) =
      (withSlice buffer start (start + len) (partitionDec m) >>= fun buffer' =>
        partitionLoop (ptypeOf m) nspp n (start + len) nspp buffer') := by
  cases m <;> rfl

/-- The sizes of `n` remaining partitions. -/
def sizesFrom (nspp : Nat) : (n len : Nat) → List Nat
  | 0, _ => []
  | n + 1, len => len :: sizesFrom nspp n nspp

theorem sizesFrom_replicate (nspp n : Nat) : sizesFrom nspp n nspp = List.replicate n nspp := by
  induction n with
  | zero => rfl
  | succ n ih => rw [sizesFrom, ih, List.replicate_succ]

theorem reads_partitionLoop (m : RiceMethod) (nspp : Nat) (ps : List Partition) :
    ∀ (start len : Nat) (buffer : List I32),
    ps.map (fun p => p.values.length) = sizesFrom nspp ps.length len →
    (∀ p ∈ ps, p.param ≤ m.maxParam ∧ ∀ v ∈ p.values, fold v / 2 ^ p.param < 2 ^ 32) →
    buffer.length = start + (ps.map fun p => p.values.length).sum →
    Reads (partitionLoop (ptypeOf m) nspp ps.length start len buffer)
      (ps.flatMap (Partition.bits m))
      (buffer.take start ++ (ps.flatMap Partition.values).map resI32) := by
  induction ps with
  | nil =>
    intro start len buffer _ _ hlen
    have : buffer.take start = buffer := List.take_of_length_le (by simp at hlen; omega)
    simp only [List.flatMap_nil, List.map_nil, List.append_nil, this]
    exact Reads.pure _
  | cons p ps ih =>
    intro start len buffer hs hp hlen
    simp only [List.length_cons, List.map_cons, sizesFrom, List.cons.injEq] at hs
    simp only [List.map_cons, List.sum_cons] at hlen
    rw [List.length_cons, partitionLoop_succ, List.flatMap_cons]
    have h1 := hp p (by simp)
    have hslice : Reads (withSlice buffer start (start + len) (partitionDec m)) (p.bits m)
        (buffer.take start ++ p.values.map resI32 ++ buffer.drop (start + len)) := by
      apply Reads.withSlice (by omega) (by omega)
      apply reads_partition m p h1.1 h1.2
      rw [List.length_drop, List.length_take]
      omega
    apply hslice.bind
    have hl : (buffer.take start ++ p.values.map resI32 ++ buffer.drop (start + len)).length =
        start + len + (ps.map fun p => p.values.length).sum := by
      simp only [List.length_append, List.length_take, List.length_map, List.length_drop]
      omega
    have := ih (start + len) nspp _ hs.2 (fun q hq => hp q (by simp [hq])) hl
    refine this.congr rfl ?_
    have htake : (buffer.take start ++ p.values.map resI32 ++ buffer.drop (start + len)).take (start + len) =
        buffer.take start ++ p.values.map resI32 := by
      apply List.take_left'
      simp only [List.length_append, List.length_take, List.length_map]
      omega
    rw [htake, List.flatMap_cons, List.map_append, List.append_assoc]

theorem triple_partitionLoop (m : RiceMethod) (nspp n : Nat) :
    ∀ (start len : Nat) (buffer : List I32),
    buffer.length = start + (sizesFrom nspp n len).sum →
    Triple (partitionLoop (ptypeOf m) nspp n start len buffer)
      (fun u out => ∃ ps : List Partition, ps.length = n ∧
        ps.map (fun p => p.values.length) = sizesFrom nspp n len ∧
        (∀ p ∈ ps, p.param ≤ m.maxParam ∧ ∀ v ∈ p.values, fold v / 2 ^ p.param < 2 ^ 32) ∧
        u = ps.flatMap (Partition.bits m) ∧
        out = buffer.take start ++ (ps.flatMap Partition.values).map resI32) := by
  induction n with
  | zero =>
    intro start len buffer hlen
    have : buffer.take start = buffer := List.take_of_length_le (by simp [sizesFrom] at hlen; omega)
    apply Triple.pure
    exact ⟨[], rfl, rfl, by simp, rfl, by simp [this]⟩
  | succ n ih =>
    intro start len buffer hlen
    simp only [sizesFrom, List.sum_cons] at hlen
    rw [partitionLoop_succ]
    have hslice : Triple (withSlice buffer start (start + len) (partitionDec m))
        (fun u out => ∃ p : Partition, (p.param ≤ m.maxParam ∧
          ∀ v ∈ p.values, fold v / 2 ^ p.param < 2 ^ 32) ∧ p.values.length = len ∧
          u = p.bits m ∧
          out = buffer.take start ++ p.values.map resI32 ++ buffer.drop (start + len)) := by
      apply Triple.withSlice (by omega) (by omega) (triple_partition m _)
      rintro u out ⟨p, h1, hq, h2, h3, h4⟩
      refine ⟨p, ⟨h1, hq⟩, ?_, h3, by rw [h4]⟩
      rw [h2, List.length_drop, List.length_take]
      omega
    apply hslice.bind
    rintro u buffer' ⟨p, h1, h2, h3, h4⟩
    have hl : buffer'.length = start + len + (sizesFrom nspp n nspp).sum := by
      rw [h4]
      simp only [List.length_append, List.length_take, List.length_map, List.length_drop]
      omega
    apply (ih (start + len) nspp buffer' hl).mono
    rintro u' out ⟨ps, g1, g2, g3, g4, g5⟩
    have htake : buffer'.take (start + len) = buffer.take start ++ p.values.map resI32 := by
      rw [h4]
      apply List.take_left'
      simp only [List.length_append, List.length_take, List.length_map]
      omega
    refine ⟨p :: ps, by simp [g1], by simp [g2, h2, sizesFrom], ?_, ?_, ?_⟩
    · intro q hq
      rcases List.mem_cons.1 hq with rfl | hq
      · exact h1
      · exact g3 q hq
    · rw [h3, g4, List.flatMap_cons]
    · rw [g5, htake, List.flatMap_cons, List.map_append, List.append_assoc]

/-! ### The residual -/

theorem and_mask (bs po : Nat) (hpo : po ≤ 15) :
    bs &&& ((2 ^ po - 1) % 2 ^ 16) = bs % 2 ^ po := by
  have h1 : 2 ^ po ≤ 2 ^ 15 := Nat.pow_le_pow_right (by omega) hpo
  rw [Nat.mod_eq_of_lt (by omega), Nat.and_two_pow_sub_one_eq_mod]

theorem partitionSizes_eq (bs order po : Nat) :
    partitionSizes bs order po = sizesFrom (bs / 2 ^ po) (2 ^ po) (bs / 2 ^ po - order) := by
  have : 0 < 2 ^ po := Nat.two_pow_pos _
  rw [partitionSizes]
  conv_rhs => rw [show 2 ^ po = (2 ^ po - 1) + 1 by omega]
  rw [sizesFrom, show 2 ^ po - 1 + 1 = 2 ^ po by omega, sizesFrom_replicate]

theorem partitionSizes_sum {bs order po : Nat} (hd : bs % 2 ^ po = 0) (ho : order ≤ bs / 2 ^ po) :
    (partitionSizes bs order po).sum = bs - order := by
  have hpos : 0 < 2 ^ po := Nat.two_pow_pos _
  rw [partitionSizes, List.sum_cons, List.sum_replicate_nat]
  have h1 : 2 ^ po * (bs / 2 ^ po) = bs := by
    have := Nat.div_add_mod bs (2 ^ po); omega
  have h2 : (2 ^ po - 1) * (bs / 2 ^ po) + bs / 2 ^ po = bs := by
    rw [Nat.sub_mul, Nat.one_mul, h1]
    have : bs / 2 ^ po ≤ bs := Nat.div_le_self _ _
    omega
  omega

theorem code_ofNat (m : RiceMethod) :
    (if BitVec.ofNat 8 m.code = 0b00#8 then pure .rice
     else if BitVec.ofNat 8 m.code = 0b01#8 then pure .rice2
     else fmtErr "invalid residual, encountered reserved value" : Dec (Bitstream Flat) RicePartitionType) =
    pure (ptypeOf m) := by
  cases m <;> rfl

theorem reads_residual (r : Residual) {bs order : Nat} (hbs : bs < 2 ^ 16) (ho : order ≤ bs)
    (hw : r.WellFormed bs order) (buffer : List I32)
    (hlen : buffer.length = bs - order) :
    Reads (decodeResidual bs buffer) r.bits (r.values.map resI32) := by
  obtain ⟨hpo, hdiv, hfirst, hparams, hsizes, hquot⟩ := hw
  have hnp : r.partitions.length = 2 ^ r.partitionOrder := by
    have := congrArg List.length hsizes
    simp [partitionSizes] at this
    have : 0 < 2 ^ r.partitionOrder := Nat.two_pow_pos _
    omega
  have hpow : 2 ^ r.partitionOrder ≤ 2 ^ 15 := Nat.pow_le_pow_right (by omega) hpo
  rw [Residual.bits, List.append_assoc]
  apply (reads_readLeqU8 (k := 2) (by omega) (show r.method.code < 2 ^ 2 by
    cases r.method <;> decide)).bind
  simp only
  rw [code_ofNat r.method, pure_bind]
  apply (reads_readLeqU8 (k := 4) (by omega) (show r.partitionOrder < 2 ^ 4 by omega)).bind
  simp only [toNat_ofNat8 (show r.partitionOrder < 256 by omega)]
  apply Reads.bind_lift (if_pos (by omega))
  apply Reads.bind_lift (if_pos (by omega))
  rw [and_mask _ _ hpo, if_neg (by simpa using hdiv), Nat.shiftRight_eq_div_pow]
  have hprod : 2 ^ r.partitionOrder * (bs / 2 ^ r.partitionOrder) = bs := by
    have := Nat.div_add_mod bs (2 ^ r.partitionOrder); omega
  apply Reads.bind_lift (mulU_ok (by rw [hprod]; omega))
  apply Reads.bind_lift (debugAssert_ok (by rw [hprod]; simp))
  rw [Nat.mod_eq_of_lt (show buffer.length < 2 ^ 16 by omega)]
  apply Reads.bind_lift (subU_ok (by omega))
  rw [show bs - buffer.length = order by omega, if_neg (by omega)]
  apply Reads.bind_lift (subU_ok hfirst)
  have := reads_partitionLoop r.method (bs / 2 ^ r.partitionOrder) r.partitions 0
    (bs / 2 ^ r.partitionOrder - order) buffer
    (by rw [hsizes, partitionSizes_eq, hnp])
    (fun p hp => ⟨hparams p hp, hquot p hp⟩)
    (by rw [hsizes, partitionSizes_sum hdiv hfirst, hlen]; omega)
  rw [hnp] at this
  simpa [Residual.values] using this

theorem triple_residual {bs order : Nat} (hbs : bs < 2 ^ 16) (ho : order ≤ bs) (buffer : List I32)
    (hlen : buffer.length = bs - order) :
    Triple (decodeResidual bs buffer) (fun u out => ∃ r : Residual, r.WellFormed bs order ∧
      u = r.bits ∧ out = r.values.map resI32) := by
  apply (triple_readLeqU8 (k := 2) (by omega)).bind
  rintro u1 code ⟨hu1, hcode⟩
  have hptype : Triple (if code = 0b00#8 then pure .rice
     else if code = 0b01#8 then pure .rice2
     else fmtErr "invalid residual, encountered reserved value" : Dec (Bitstream Flat) RicePartitionType)
     (fun u p => u = [] ∧ ∃ m : RiceMethod, code.toNat = m.code ∧ p = ptypeOf m) := by
    split
    · rename_i h; subst h; exact Triple.pure ⟨rfl, .rice, rfl, rfl⟩
    · split
      · rename_i h; subst h; exact Triple.pure ⟨rfl, .rice2, rfl, rfl⟩
      · exact Triple.err _
  apply hptype.bind
  rintro u2 p ⟨rfl, m, hm, rfl⟩
  apply (triple_readLeqU8 (k := 4) (by omega)).bind
  rintro u3 ob ⟨hu3, hob⟩
  have hpo : ob.toNat ≤ 15 := by omega
  have hpow : 2 ^ ob.toNat ≤ 2 ^ 15 := Nat.pow_le_pow_right (by omega) hpo
  simp only
  apply Triple.bind_lift (if_pos (by omega))
  apply Triple.bind_lift (if_pos (by omega))
  rw [and_mask _ _ hpo, Nat.shiftRight_eq_div_pow]
  split
  · exact Triple.err _
  · rename_i hdiv
    have hdiv : bs % 2 ^ ob.toNat = 0 := by simpa using hdiv
    have hprod : 2 ^ ob.toNat * (bs / 2 ^ ob.toNat) = bs := by
      have := Nat.div_add_mod bs (2 ^ ob.toNat); omega
    apply Triple.bind_lift (mulU_ok (by rw [hprod]; omega))
    apply Triple.bind_lift (debugAssert_ok (by rw [hprod]; simp))
    rw [Nat.mod_eq_of_lt (show buffer.length < 2 ^ 16 by omega)]
    apply Triple.bind_lift (subU_ok (by omega))
    rw [show bs - buffer.length = order by omega]
    split
    · exact Triple.err _
    · rename_i hfirst
      have hfirst : order ≤ bs / 2 ^ ob.toNat := by omega
      apply Triple.bind_lift (subU_ok hfirst)
      apply (triple_partitionLoop m _ _ _ _ buffer (by
        rw [← partitionSizes_eq, partitionSizes_sum hdiv hfirst, hlen]; omega)).mono
      rintro u4 out ⟨ps, h1, h2, h3, h4, h5⟩
      refine ⟨⟨m, ob.toNat, ps⟩, ⟨hpo, hdiv, hfirst, fun p hp => (h3 p hp).1,
        by rw [h2, partitionSizes_eq], fun p hp => (h3 p hp).2⟩, ?_, ?_⟩
      · simp only [Residual.bits]
        rw [hu1, hu3, h4, hm]
        simp
      · rw [h5]
        simp [Residual.values]

end Claxon
