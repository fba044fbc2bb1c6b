import Verif.Proof.Reserved
import Verif.Spec.Refused

/-! Errors and their reasons: the decoder fails with an error, other than one of the source, only if the bits that it
has read are refused by the specification, with that error. -/

namespace Claxon

open Spec Bitstream

variable {α β : Type}

/-- The error is the one in which the source ends. -/
def FromSource (fault : Option Nat) (e : Error) : Prop := e = .ioError (fault.elim .unexpectedEof .inner)

/-- If `m` fails with an error, it is one of the source, or the unread bits begin with bits that are refused. -/
def Refuses (m : Dec (Bitstream Flat) α) (Q : List Bool → Error → Prop) : Prop :=
  ∀ b : Bitstream Flat, b.Inv → ∀ e b', m b = (.error (.err e), b') →
    FromSource b.reader.fault e ∨ ∃ used rest, b.bits = used ++ rest ∧ Q used e

theorem endFail_fromSource {fault : Option Nat} {e : Error} (h : Flat.endFail fault = .err e) :
    FromSource fault e := by
  cases fault with
  | none => cases h; rfl
  | some c => cases h; rfl

namespace Refuses

variable {Q : List Bool → Error → Prop}

theorem pure (a : α) : Refuses (Pure.pure a) Q := by
  intro b _ e b' h
  cases h

theorem fail {e : Error} (h : Q [] e) : Refuses (Dec.fail (.err e) : Dec (Bitstream Flat) α) Q := by
  intro b _ e' b' he
  cases he
  exact .inr ⟨[], b.bits, rfl, h⟩

theorem lift {r : Res α} {a : α} (h : r = .ok a) : Refuses (liftM r) Q := by
  subst h; exact pure a

theorem bind {m : Dec (Bitstream Flat) α} {f : α → Dec (Bitstream Flat) β} {P : List Bool → α → Prop}
    (hm : Refuses m Q) (ht : Triple m P) (hf : ∀ u a, P u a → Refuses (f a) (fun v e => Q (u ++ v) e)) :
    Refuses (m >>= f) Q := by
  intro b hb e b' h
  have h1 := ht b hb
  have h2 := hm b hb
  rw [Dec.bind_def] at h
  generalize m b = x at h h1 h2
  rcases x with ⟨r, b1⟩
  cases r with
  | error e1 =>
    simp only [Prod.mk.injEq, Except.error.injEq] at h
    obtain ⟨rfl, rfl⟩ := h
    exact h2 e b1 rfl
  | ok a =>
    obtain ⟨hb1, hf1, u, hu, hP⟩ := h1
    rcases hf u a hP b1 hb1 e b' h with h3 | ⟨v, rest, hv, hQ⟩
    · exact .inl (hf1 ▸ h3)
    · exact .inr ⟨u ++ v, rest, by rw [hu, hv, List.append_assoc], hQ⟩

theorem bind_lift {r : Res α} {f : α → Dec (Bitstream Flat) β} {a : α} (h : r = .ok a) (hf : Refuses (f a) Q) :
    Refuses (liftM r >>= f) Q := by
  subst h; exact hf

/-- The second part does not fail. -/
theorem bind_pure {m : Dec (Bitstream Flat) α} {f : α → β} (hm : Refuses m Q) :
    Refuses (m >>= fun a => Pure.pure (f a)) Q := by
  intro b hb e b' h
  have h2 := hm b hb
  rw [Dec.bind_def] at h
  generalize m b = x at h h2
  rcases x with ⟨r, b1⟩
  cases r with
  | error e1 =>
    simp only [Prod.mk.injEq, Except.error.injEq] at h
    obtain ⟨rfl, rfl⟩ := h
    exact h2 e b1 rfl
  | ok a => cases h

theorem mono {m : Dec (Bitstream Flat) α} {Q' : List Bool → Error → Prop} (hm : Refuses m Q)
    (h : ∀ u e, Q u e → Q' u e) : Refuses m Q' := by
  intro b hb e b' he
  rcases hm b hb e b' he with h1 | ⟨u, rest, h1, h2⟩
  · exact .inl h1
  · exact .inr ⟨u, rest, h1, h u e h2⟩

theorem withSlice {buffer : List I32} {a b : Nat} {f : List I32 → Dec (Bitstream Flat) (List I32)}
    (hab : a ≤ b) (hb : b ≤ buffer.length) (h : Refuses (f ((buffer.take b).drop a)) Q) :
    Refuses (withSlice buffer a b f) Q :=
  bind_lift (slice_ok ⟨hab, hb⟩) (bind_pure h)

theorem loopN {step : Dec (Bitstream Flat) I32} {P : List Bool → I32 → Prop} (ht : Triple step P)
    (h : ∀ Q, Refuses step Q) (buf : List I32) : Refuses (loopN step buf) Q := by
  induction buf generalizing Q with
  | nil => exact pure _
  | cons x buf ih => exact bind (h _) ht fun _ _ _ => bind_pure ih

end Refuses

/-! ### The primitives fail only with errors of the source -/

section

variable {Q : List Bool → Error → Prop}

theorem refuses_of_ok {w : Nat} {m : Dec (Bitstream Flat) (BitVec w)} {k : Nat}
    (hm : ∀ b : Bitstream Flat, b.Inv → k ≤ b.bits.length →
      ∃ a b', m b = (.ok a, b') ∧ Inv b' ∧ b'.reader.fault = b.reader.fault ∧
      a.toNat < 2 ^ k ∧ b.bits = natToBits k a.toNat ++ b'.bits)
    (he : ∀ b : Bitstream Flat, b.Inv → b.bits.length < k →
      ∃ b', m b = (.error (Flat.endFail b.reader.fault), b')) :
    Refuses m Q := by
  intro b hb e b' h
  rcases Nat.lt_or_ge b.bits.length k with hlt | hge
  · obtain ⟨b1, h1⟩ := he b hb hlt
    rw [h1] at h
    simp only [Prod.mk.injEq, Except.error.injEq] at h
    exact .inl (endFail_fromSource h.1)
  · obtain ⟨a, b1, h1, _⟩ := hm b hb hge
    rw [h1] at h
    cases h

theorem refuses_readLeqU8 {k : Nat} (hk : k ≤ 8) : Refuses (readLeqU8 k) Q :=
  refuses_of_ok (fun _ hb => readLeqU8_ok hb hk) (fun _ hb => readLeqU8_eof hb hk)

theorem refuses_readGtU8LeqU16 {k : Nat} (hk8 : 8 < k) (hk : k ≤ 16) : Refuses (readGtU8LeqU16 k) Q :=
  refuses_of_ok (fun _ hb => readGtU8LeqU16_ok hb hk8 hk) (fun _ hb => readGtU8LeqU16_eof hb hk8 hk)

theorem refuses_readLeqU16 {k : Nat} (hk : k ≤ 16) : Refuses (readLeqU16 k) Q :=
  refuses_of_ok (fun _ hb => readLeqU16_ok hb hk) (fun _ hb => readLeqU16_eof hb hk)

theorem refuses_readLeqU32 {k : Nat} (hk : k ≤ 32) : Refuses (readLeqU32 k) Q :=
  refuses_of_ok (fun _ hb => readLeqU32_ok hb hk) (fun _ hb => readLeqU32_eof hb hk)

theorem refuses_readBit : Refuses readBit Q := by
  intro b hb e b' h
  rcases Nat.lt_or_ge b.bits.length 1 with hlt | hge
  · obtain ⟨b1, h1⟩ := readBit_eof hb hlt
    rw [h1] at h
    simp only [Prod.mk.injEq, Except.error.injEq] at h
    exact .inl (endFail_fromSource h.1)
  · obtain ⟨a, b1, h1, _⟩ := readBit_ok hb hge
    rw [h1] at h
    cases h

theorem refuses_readUnary : Refuses readUnary Q := by
  intro b hb e b' h
  rcases unary_or_zeros b.bits with ⟨n, rest, hz⟩ | hz
  · rcases Nat.lt_or_ge n (2 ^ 32) with hlt | hge
    · obtain ⟨b1, h1, _⟩ := (readUnary_unary hb hz).1 hlt
      rw [h1] at h
      cases h
    · obtain ⟨b1, h1⟩ := (readUnary_unary hb hz).2 hge
      rw [h1] at h
      cases h
  · rcases Nat.lt_or_ge b.bits.length (2 ^ 32) with hlt | hge
    · obtain ⟨b1, h1⟩ := (readUnary_zeros hb hz).1 hlt
      rw [h1] at h
      simp only [Prod.mk.injEq, Except.error.injEq] at h
      exact .inl (endFail_fromSource h.1)
    · obtain ⟨b1, h1⟩ := (readUnary_zeros hb hz).2 hge
      rw [h1] at h
      cases h

theorem refuses_riceStep {w k : Nat} {rd : Dec (Bitstream Flat) (BitVec w)} (hk : k < 32)
    {P : List Bool → BitVec w → Prop} (ht : Triple rd P) (hrd : ∀ Q, Refuses rd Q) : Refuses (riceStep k rd) Q := by
  refine .bind refuses_readUnary triple_readUnary fun _ _ _ => ?_
  refine .bind (hrd _) ht fun _ _ _ => ?_
  exact .bind_lift (shl_ok hk) (.pure _)

end

/-! ### Residuals -/

theorem refuses_partition (m : RiceMethod) (buf : List I32) :
    Refuses (partitionDec m buf) (fun u e => u = natToBits m.paramBits (2 ^ m.paramBits - 1) ∧
      e = .unsupported Feature.unencodedPartition.message) := by
  cases m with
  | rice =>
    refine .bind (refuses_readLeqU8 (k := 4) (by omega)) (triple_readLeqU8 (k := 4) (by omega)) ?_
    rintro u a ⟨rfl, ha⟩
    simp only
    by_cases h15 : a.toNat = 0b1111
    · rw [if_pos h15]
      exact .fail ⟨by rw [h15]; rfl, rfl⟩
    · rw [if_neg h15]
      split
      · rw [small_eq]
        exact .loopN (triple_riceStep (by omega) (by omega) (triple_readLeqU8 (by omega)))
          (fun _ => refuses_riceStep (by omega) (triple_readLeqU8 (by omega)) fun _ => refuses_readLeqU8 (by omega)) _
      · rw [large_eq]
        exact .loopN (triple_riceStep (by omega) (by omega) (triple_readGtU8LeqU16 (by omega) (by omega)))
          (fun _ => refuses_riceStep (by omega) (triple_readGtU8LeqU16 (by omega) (by omega))
            fun _ => refuses_readGtU8LeqU16 (by omega) (by omega)) _
  | rice2 =>
    refine .bind (refuses_readLeqU8 (k := 5) (by omega)) (triple_readLeqU8 (k := 5) (by omega)) ?_
    rintro u a ⟨rfl, ha⟩
    simp only
    by_cases h15 : a.toNat = 0b11111
    · rw [if_pos h15]
      exact .fail ⟨by rw [h15]; rfl, rfl⟩
    · rw [if_neg h15, rice2_eq]
      exact .loopN (triple_riceStep (by omega) (by omega) (triple_readLeqU32 (by omega)))
        (fun _ => refuses_riceStep (by omega) (triple_readLeqU32 (by omega)) fun _ => refuses_readLeqU32 (by omega)) _

theorem refuses_partitionLoop (m : RiceMethod) (nspp n : Nat) :
    ∀ (start len : Nat) (buffer : List I32),
    buffer.length = start + (sizesFrom nspp n len).sum →
    Refuses (partitionLoop (ptypeOf m) nspp n start len buffer)
      (fun u e => ∃ good : List Partition,
        (∀ p ∈ good, p.param ≤ m.maxParam ∧ ∀ v ∈ p.values, fold v / 2 ^ p.param < 2 ^ 32) ∧
        good.map (fun p => p.values.length) <+: sizesFrom nspp n len ∧ good.length < n ∧
        u = good.flatMap (Partition.bits m) ++ natToBits m.paramBits (2 ^ m.paramBits - 1) ∧
        e = .unsupported Feature.unencodedPartition.message) := by
  induction n with
  | zero => intro start len buffer _; exact .pure _
  | succ n ih =>
    intro start len buffer hlen
    simp only [sizesFrom, List.sum_cons] at hlen
    rw [partitionLoop_succ]
    have hslice : Triple (withSlice buffer start (start + len) (partitionDec m))
        (fun u out => ∃ p : Partition, (p.param ≤ m.maxParam ∧
          ∀ v ∈ p.values, fold v / 2 ^ p.param < 2 ^ 32) ∧ p.values.length = len ∧
          u = p.bits m ∧
          out = buffer.take start ++ p.values.map resI32 ++ buffer.drop (start + len)) := by
      apply Triple.withSlice (by omega) (by omega) (triple_partition m _)
      rintro u out ⟨p, h1, hq, h2, h3, h4⟩
      refine ⟨p, ⟨h1, hq⟩, ?_, h3, by rw [h4]⟩
      rw [h2, List.length_drop, List.length_take]
      omega
    refine .bind (.withSlice (by omega) (by omega) ((refuses_partition m _).mono ?_)) hslice ?_
    · rintro u e ⟨rfl, rfl⟩
      exact ⟨[], by simp, by simp, by simp, by simp, rfl⟩
    rintro u buffer' ⟨p, h1, h2, h3, h4⟩
    have hl : buffer'.length = start + len + (sizesFrom nspp n nspp).sum := by
      rw [h4]
      simp only [List.length_append, List.length_take, List.length_map, List.length_drop]
      omega
    refine (ih (start + len) nspp buffer' hl).mono ?_
    rintro u' e ⟨good, g1, g2, g3, rfl, rfl⟩
    refine ⟨p :: good, ?_, ?_, by simp; omega, by rw [h3]; simp, rfl⟩
    · intro q hq
      rcases List.mem_cons.1 hq with rfl | hq
      · exact h1
      · exact g1 q hq
    · rw [List.map_cons, sizesFrom, h2]
      exact List.cons_prefix_cons.2 ⟨rfl, g2⟩

theorem refuses_residual {bs order : Nat} (hbs : bs < 2 ^ 16) (ho : order ≤ bs) (buffer : List I32)
    (hlen : buffer.length = bs - order) :
    Refuses (decodeResidual bs buffer) (RefusedResidual bs order) := by
  refine .bind (refuses_readLeqU8 (k := 2) (by omega)) (triple_readLeqU8 (k := 2) (by omega)) ?_
  rintro u1 code ⟨rfl, hcode⟩
  have hptype : Triple (if code = 0b00#8 then pure .rice
     else if code = 0b01#8 then pure .rice2
     else fmtErr "invalid residual, encountered reserved value" : Dec (Bitstream Flat) RicePartitionType)
     (fun u p => u = [] ∧ ∃ m : RiceMethod, code.toNat = m.code ∧ p = ptypeOf m) := by
    split
    · rename_i h; subst h; exact Triple.pure ⟨rfl, .rice, rfl, rfl⟩
    · split
      · rename_i h; subst h; exact Triple.pure ⟨rfl, .rice2, rfl, rfl⟩
      · exact Triple.err _
  refine .bind ?_ hptype ?_
  · split
    · exact .pure _
    · rename_i h0
      split
      · exact .pure _
      · rename_i h1
        refine .fail ?_
        rw [List.append_nil]
        have n0 : code.toNat ≠ 0 := fun h => h0 (BitVec.eq_of_toNat_eq h)
        have n1 : code.toNat ≠ 1 := fun h => h1 (BitVec.eq_of_toNat_eq h)
        exact .method _ (by omega)
  rintro u2 p ⟨rfl, m, hm, rfl⟩
  refine .bind (refuses_readLeqU8 (k := 4) (by omega)) (triple_readLeqU8 (k := 4) (by omega)) ?_
  rintro u3 ob ⟨rfl, hob⟩
  have hpo : ob.toNat ≤ 15 := by omega
  have hpow : 2 ^ ob.toNat ≤ 2 ^ 15 := Nat.pow_le_pow_right (by omega) hpo
  simp only
  refine .bind_lift (if_pos (by omega)) ?_
  refine .bind_lift (if_pos (by omega)) ?_
  rw [and_mask _ _ hpo, Nat.shiftRight_eq_div_pow, hm]
  split
  · rename_i hdiv
    refine .fail ?_
    rw [List.append_nil, List.nil_append]
    exact .partitionOrder m _ hpo hdiv
  · rename_i hdiv
    have hdiv : bs % 2 ^ ob.toNat = 0 := by simpa using hdiv
    have hprod : 2 ^ ob.toNat * (bs / 2 ^ ob.toNat) = bs := by
      have := Nat.div_add_mod bs (2 ^ ob.toNat); omega
    refine .bind_lift (mulU_ok (by rw [hprod]; omega)) ?_
    refine .bind_lift (debugAssert_ok (by rw [hprod]; simp)) ?_
    rw [Nat.mod_eq_of_lt (show buffer.length < 2 ^ 16 by omega)]
    refine .bind_lift (subU_ok (by omega)) ?_
    rw [show bs - buffer.length = order by omega]
    split
    · rename_i hfirst
      refine .fail ?_
      rw [List.append_nil, List.nil_append]
      exact .warmUp m _ hpo hdiv hfirst
    · rename_i hfirst
      have hfirst : order ≤ bs / 2 ^ ob.toNat := by omega
      refine .bind_lift (subU_ok hfirst) ?_
      refine (refuses_partitionLoop m _ _ _ _ buffer (by
        rw [← partitionSizes_eq, partitionSizes_sum hdiv hfirst, hlen]; omega)).mono ?_
      rintro u4 e ⟨good, h1, h2, h3, rfl, rfl⟩
      rw [← partitionSizes_eq] at h2
      have := RefusedResidual.escape (blockSize := bs) (order := order) m ob.toNat hpo hdiv hfirst good h1 h2 h3
      simpa [List.append_assoc] using this

/-! ### Subframes -/

section

variable {Q : List Bool → Error → Prop}

theorem refuses_sampleStep {bps : Nat} (h0 : 0 < bps) (h32 : bps ≤ 32) : Refuses (sampleStep bps) Q := by
  refine .bind (refuses_readLeqU32 h32) (triple_readLeqU32 h32) fun _ _ _ => ?_
  exact .lift (extendSignU32_ok h0 h32)

theorem refuses_verbatim {bps : Nat} (h0 : 0 < bps) (h32 : bps ≤ 32) (buffer : List I32) :
    Refuses (decodeVerbatim bps buffer) Q := by
  unfold decodeVerbatim
  refine .bind_lift (debugAssert_ok (decide_eq_true h32)) ?_
  rw [verbatimLoop_eq]
  exact .loopN (triple_sampleStep h0 h32) (fun _ => refuses_sampleStep h0 h32) _

theorem refuses_readCoefficients {prec : Nat} (h0 : 0 < prec) (h16 : prec ≤ 16) (n : Nat) :
    ∀ (arr : List I16), n ≤ arr.length → ∀ Q, Refuses (readCoefficients prec n arr) Q := by
  induction n with
  | zero => intro arr _ _; exact .pure _
  | succ n ih =>
    intro arr hlen Q
    refine .bind (refuses_readLeqU16 h16) (triple_readLeqU16 h16) fun _ _ _ => ?_
    refine .bind_lift (extendSignU16_ok h0 h16) ?_
    refine .bind_lift (setIndex_ok (by omega)) ?_
    exact ih _ (by simp; omega) _

end

/-- The reasons to refuse the body of a subframe with a fixed predictor. -/
inductive RefusedFixed (bps blockSize order : Nat) : List Bool → Error → Prop where
  | order (h : blockSize < order) :
      RefusedFixed bps blockSize order [] (.formatError "invalid fixed subframe, order is larger than block size")
  | residual (warmUp : List Int) (hw : warmUp.length = order) (hl : order ≤ blockSize)
      (hv : ∀ v ∈ warmUp, FitsIn bps v) (bits : List Bool) (e : Error) (h : RefusedResidual blockSize order bits e) :
      RefusedFixed bps blockSize order (warmUp.flatMap (intToBits bps) ++ bits) e

theorem refuses_fixed {bps : Nat} (h0 : 0 < bps) (h32 : bps ≤ 32) {order : Nat} (h4 : order ≤ 4)
    (buffer : List I32) (hbs : buffer.length < 2 ^ 16) :
    Refuses (decodeFixed bps order buffer) (RefusedFixed bps buffer.length order) := by
  unfold decodeFixed
  split
  · rename_i ho
    exact .fail (.order ho)
  rename_i ho
  have ho : order ≤ buffer.length := by omega
  refine .bind (.withSlice (Nat.zero_le _) ho (refuses_verbatim h0 h32 _))
    (Triple.withSlice (Nat.zero_le _) ho (triple_verbatim h0 h32 _)
    (Q := fun u out => ∃ warm : List Int, warm.length = order ∧ (∀ v ∈ warm, FitsIn bps v) ∧
      u = warm.flatMap (intToBits bps) ∧
      out = warm.map (BitVec.ofInt 32) ++ buffer.drop order) (by
    rintro u out ⟨vs, h1, h2, h3, h4⟩
    exact ⟨vs, by rw [h1, slice_head ho], h2, h3, by simp [h4]⟩)) ?_
  rintro u1 b1 ⟨warm, hwlen, hv, rfl, rfl⟩
  have hlen : (warm.map (BitVec.ofInt 32) ++ buffer.drop order).length = buffer.length := by
    simp; omega
  rw [hlen, Nat.mod_eq_of_lt hbs]
  refine .bind (.withSlice ho (by omega) ((refuses_residual hbs ho _ (by simp; omega)).mono ?_))
    (Triple.withSlice ho (by omega) (triple_residual hbs ho _ (by simp; omega))
    (Q := fun u out => ∃ r : Residual, r.WellFormed buffer.length order ∧ u = r.bits ∧
      out = warm.map (BitVec.ofInt 32) ++ r.values.map resI32) (by
    rintro u out ⟨r, h1, h2, h3⟩
    refine ⟨r, h1, h2, ?_⟩
    rw [h3, List.take_left' (by simp [hwlen]), List.drop_of_length_le (by omega), List.append_nil])) ?_
  · exact fun u e h => .residual warm hwlen ho hv u e h
  rintro u2 b2 ⟨r, hres, hu2, rfl⟩
  obtain ⟨tail, h1, h2⟩ := predictFixed_spec order h4 (warm.map (BitVec.ofInt 32))
    (r.values.map resI32) (by simp [hwlen])
  exact .lift h1

/-- The reasons to refuse the body of a subframe with a linear predictor. -/
inductive RefusedLpc (bps blockSize order : Nat) : List Bool → Error → Prop where
  | order (h : blockSize < order) :
      RefusedLpc bps blockSize order [] (.formatError "invalid LPC subframe, lpc order is larger than block size")
  | precision (warmUp : List Int) (hw : warmUp.length = order) (hl : order ≤ blockSize)
      (hv : ∀ v ∈ warmUp, FitsIn bps v) :
      RefusedLpc bps blockSize order (warmUp.flatMap (intToBits bps) ++ natToBits 4 0b1111)
        (.formatError "invalid subframe, qlp precision value invalid")
  | shift (warmUp : List Int) (precision : Nat) (shift : Int) (hw : warmUp.length = order) (hl : order ≤ blockSize)
      (hv : ∀ v ∈ warmUp, FitsIn bps v) (hp1 : 1 ≤ precision) (hp15 : precision ≤ 15) (hs : FitsIn 5 shift)
      (hneg : shift < 0) :
      RefusedLpc bps blockSize order (warmUp.flatMap (intToBits bps) ++ natToBits 4 (precision - 1) ++
        intToBits 5 shift) (.unsupported Feature.negativeShift.message)
  | residual (warmUp : List Int) (precision shift : Nat) (coefs : List Int) (hw : warmUp.length = order)
      (hl : order ≤ blockSize)
      (hv : ∀ v ∈ warmUp, FitsIn bps v) (hp1 : 1 ≤ precision) (hp15 : precision ≤ 15) (hs : shift ≤ 15)
      (hlen : coefs.length = order) (hc : ∀ c ∈ coefs, FitsIn precision c) (bits : List Bool) (e : Error)
      (h : RefusedResidual blockSize order bits e) :
      RefusedLpc bps blockSize order (warmUp.flatMap (intToBits bps) ++ natToBits 4 (precision - 1) ++
        intToBits 5 shift ++ coefs.flatMap (intToBits precision) ++ bits) e

theorem refuses_lpc {bps : Nat} (h0 : 0 < bps) (h32 : bps ≤ 32) {order : Nat} (ho1 : 1 ≤ order)
    (ho32 : order ≤ 32) (buffer : List I32) (hbs : buffer.length < 2 ^ 16) :
    Refuses (decodeLpc bps order buffer) (RefusedLpc bps buffer.length order) := by
  unfold decodeLpc
  refine .bind_lift (debugAssert_ok (decide_eq_true ho32)) ?_
  split
  · rename_i ho
    exact .fail (.order ho)
  rename_i ho
  have ho : order ≤ buffer.length := by omega
  refine .bind (.withSlice (Nat.zero_le _) ho (refuses_verbatim h0 h32 _))
    (Triple.withSlice (Nat.zero_le _) ho (triple_verbatim h0 h32 _)
    (Q := fun u out => ∃ warm : List Int, warm.length = order ∧ (∀ v ∈ warm, FitsIn bps v) ∧
      u = warm.flatMap (intToBits bps) ∧
      out = warm.map (BitVec.ofInt 32) ++ buffer.drop order) (by
    rintro u out ⟨vs, h1, h2, h3, h4⟩
    exact ⟨vs, by rw [h1, slice_head ho], h2, h3, by simp [h4]⟩)) ?_
  rintro u1 b1 ⟨warm, hwlen, hv, rfl, rfl⟩
  have hlen : (warm.map (BitVec.ofInt 32) ++ buffer.drop order).length = buffer.length := by
    simp; omega
  rw [hlen, Nat.mod_eq_of_lt hbs]
  refine .bind (refuses_readLeqU8 (k := 4) (by omega)) (triple_readLeqU8 (k := 4) (by omega)) ?_
  rintro u2 precMo ⟨rfl, hprec⟩
  simp only [Nat.add_sub_cancel]
  split
  · rename_i h15
    refine .fail ?_
    rw [List.append_nil, h15]
    exact .precision warm hwlen ho hv
  rename_i hne
  refine .bind (refuses_readLeqU16 (k := 5) (by omega)) (triple_readLeqU16 (k := 5) (by omega)) ?_
  rintro u3 su ⟨rfl, hsu⟩
  refine .bind_lift (extendSignU16_ok (by omega) (by omega)) ?_
  have hsx := intToBits_signExt su (k := 5) (by omega) (by omega) hsu
  generalize hshift : (su <<< (16 - 5)).sshiftRight (16 - 5) = sh at hsx ⊢
  rw [hsx.1]
  split
  · rename_i hneg
    refine .fail ?_
    rw [List.append_nil, ← List.append_assoc]
    exact .shift warm (precMo.toNat + 1) sh.toInt hwlen ho hv (by omega) (by omega) hsx.2 hneg
  rename_i hneg
  obtain ⟨shift, hshN⟩ : ∃ n : Nat, sh.toInt = n := ⟨sh.toInt.toNat, by omega⟩
  have hs15 : shift ≤ 15 := by
    have := hsx.2.2.1
    rw [hshN] at this
    norm_num at this
    omega
  have hsh : sh = BitVec.ofInt 16 (shift : Int) := by rw [← hshN, BitVec.ofInt_toInt]
  refine .bind (refuses_readCoefficients (by omega) (by omega) order (List.replicate 32 0#16) (by simp; omega) _)
    (triple_readCoefficients (by omega) (by omega) order (List.replicate 32 0#16) (by simp; omega)) ?_
  rintro u4 arr ⟨coefs, hclen, hc, rfl, rfl⟩
  refine .bind (.withSlice ho (by omega) ((refuses_residual hbs ho _ (by simp; omega)).mono ?_))
    (Triple.withSlice ho (by omega) (triple_residual hbs ho _ (by simp; omega))
    (Q := fun u out => ∃ r : Residual, r.WellFormed buffer.length order ∧ u = r.bits ∧
      out = warm.map (BitVec.ofInt 32) ++ r.values.map resI32) (by
    rintro u out ⟨r, h1, h2, h3⟩
    refine ⟨r, h1, h2, ?_⟩
    rw [h3, List.take_left' (by simp [hwlen]), List.drop_of_length_le (by omega), List.append_nil])) ?_
  · intro u e h
    rw [hshN]
    have := RefusedLpc.residual (bps := bps) warm (precMo.toNat + 1) shift coefs hwlen ho hv (by omega) (by omega) hs15
      hclen hc u e h
    simpa [List.append_assoc] using this
  rintro u5 b2 ⟨r, hres, hu5, rfl⟩
  refine .bind_lift (slice_ok ⟨Nat.zero_le _, by simp; omega⟩) ?_
  rw [List.drop_zero, List.take_left' (by simp; omega)]
  obtain ⟨res, h1, h2⟩ := predictLpc_spec (prec := precMo.toNat + 1) h32 (by omega) hv hc
    (by omega) (by omega) hs15 (vals := r.values)
  rw [hsh, ← hwlen, h2, h1]
  exact .lift rfl

/-- The reasons to refuse the body of a subframe. -/
def RefusedBody (bps blockSize : Nat) : SubframeType → List Bool → Error → Prop
  | .constant => fun _ _ => False
  | .verbatim => fun _ _ => False
  | .fixed order => RefusedFixed bps blockSize order
  | .lpc order => RefusedLpc bps blockSize order

theorem refuses_body (t : SubframeType) {bps : Nat} (h0 : 0 < bps) (h32 : bps ≤ 32) (buffer : List I32)
    (hbs : buffer.length < 2 ^ 16) (ht : TypeOk t) :
    Refuses (decodeBody t bps buffer) (RefusedBody bps buffer.length t) := by
  cases t with
  | constant =>
    simp only [decodeBody, decodeConstant_eq]
    exact .bind_pure (refuses_sampleStep h0 h32)
  | verbatim => exact refuses_verbatim h0 h32 buffer
  | fixed n => exact refuses_fixed h0 h32 ht buffer hbs
  | lpc n => exact refuses_lpc h0 h32 ht.1 ht.2 buffer hbs

/-- The type with the given code. -/
def codeOf : SubframeType → Nat
  | .constant => 0
  | .verbatim => 1
  | .fixed order => 8 + order
  | .lpc order => 32 + (order - 1)

/-- The type with a code. -/
def typeAt (code : Nat) : SubframeType :=
  if code = 0 then .constant else if code = 1 then .verbatim else if code ≤ 12 then .fixed (code - 8)
  else .lpc (code - 31)

theorem subframeType_cases {code : Nat} (hc : code < 2 ^ 6) :
    (ReservedType code ∧ (subframeTypeOf (BitVec.ofNat 8 code) : Dec (Bitstream Flat) SubframeType) =
      fmtErr "invalid subframe header, encountered reserved value") ∨
    (¬ ReservedType code ∧ TypeOk (typeAt code) ∧ codeOf (typeAt code) = code ∧
      (subframeTypeOf (BitVec.ofNat 8 code) : Dec (Bitstream Flat) SubframeType) = pure (typeAt code)) := by
  unfold ReservedType
  interval_cases code <;> first
    | exact .inl ⟨by omega, rfl⟩
    | exact .inr ⟨by omega, by simp [TypeOk, typeAt], rfl, rfl⟩

theorem refuses_wasted {Q : List Bool → Error → Prop} : Refuses wastedDec Q := by
  refine .bind refuses_readBit triple_readBit ?_
  rintro u a rfl
  cases a with
  | false => exact .pure _
  | true =>
    rw [if_neg (by decide)]
    intro b hb e b' h
    have h1 := refuses_readUnary (Q := fun v e => Q ([true] ++ v) e) b hb
    rw [Dec.bind_def] at h
    generalize readUnary b = x at h h1
    rcases x with ⟨r, b1⟩
    cases r with
    | error e1 =>
      simp only [Prod.mk.injEq, Except.error.injEq] at h
      obtain ⟨rfl, rfl⟩ := h
      exact h1 e b1 rfl
    | ok k =>
      simp only at h
      rcases Nat.lt_or_ge (1 + k) (2 ^ 32) with hlt | hge
      · rw [Dec.liftM_of (addU_ok hlt)] at h
        cases h
      · have : addU 32 1 k = panicRes .overflow := by
          unfold addU
          rw [if_neg (by omega)]
          rfl
        rw [this] at h
        cases h

theorem triple_wasted_lt : Triple wastedDec (fun u k => u = wastedBits k ∧ k < 2 ^ 32) := by
  apply triple_readBit.bind
  rintro u a rfl
  cases a with
  | false => exact Triple.pure ⟨rfl, by norm_num⟩
  | true =>
    rw [if_neg (by decide)]
    intro b hb
    have h := triple_readUnary b hb
    rw [Dec.bind_def]
    rcases hr : readUnary b with ⟨r, b1⟩
    rw [hr] at h
    cases r with
    | error e => cases e <;> trivial
    | ok k =>
      obtain ⟨h1, h2, u, h3, h4, h5⟩ := h
      simp only
      rcases Nat.lt_or_ge (1 + k) (2 ^ 32) with hlt | hge
      · rw [Dec.liftM_of (addU_ok hlt)]
        refine ⟨h1, h2, u, h3, ?_, hlt⟩
        rw [wastedBits, if_neg (by omega), h4, show 1 + k - 1 = k by omega]
        rfl
      · have : addU 32 1 k = panicRes .overflow := by
          unfold addU
          rw [if_neg (by omega)]
          rfl
        rw [this]
        refine ⟨rfl, ?_⟩
        rw [h3, h4]
        exact longZeros_unary (by omega) _

theorem refused_of_body {bps bs wasted : Nat} {t : SubframeType} (ht : TypeOk t) (hw : wasted < bps)
    {bits : List Bool} {e : Error} (h : RefusedBody (bps - wasted) bs t bits e) :
    RefusedSubframe bps bs (subframeHeaderBits (codeOf t) wasted ++ bits) e := by
  cases t with
  | constant => exact absurd h id
  | verbatim => exact absurd h id
  | fixed order =>
    cases h with
    | order h => rw [List.append_nil]; exact .fixedOrder order wasted hw ht h
    | residual warm h1 h2 h3 bits e h4 =>
      subst h1
      rw [← List.append_assoc]
      exact .fixedResidual warm wasted hw ht h2 h3 bits e h4
  | lpc order =>
    cases h with
    | order h => rw [List.append_nil]; exact .lpcOrder order wasted hw ht.1 ht.2 h
    | precision warm h1 h2 h3 =>
      subst h1
      rw [← List.append_assoc]
      exact .precision warm wasted hw ht.1 ht.2 h2 h3
    | shift warm p s h1 h2 h3 h4 h5 h6 h7 =>
      subst h1
      simp only [← List.append_assoc]
      exact .shift warm wasted p s hw ht.1 ht.2 h2 h3 h4 h5 h6 h7
    | residual warm p s cs h1 h2 h3 h4 h5 h6 h7 h8 bits e h9 =>
      subst h1
      simp only [← List.append_assoc]
      exact .lpcResidual warm wasted p s cs hw ht.1 ht.2 h2 h3 h4 h5 h6 h7 h8 bits e h9

theorem refuses_subframe {bps : Nat} (h32 : bps ≤ 32) (buffer : List I32) (hbs : buffer.length < 2 ^ 16) :
    Refuses (decodeSubframe bps buffer) (RefusedSubframe bps buffer.length) := by
  refine .bind_lift (debugAssert_ok (decide_eq_true h32)) ?_
  have hhead : Triple readSubframeHeader (fun u h => h.wastedBitsPerSample ≤ 31 ∧ TypeOk h.sfType ∧
      ∃ code, code < 2 ^ 6 ∧ ¬ ReservedType code ∧ codeOf h.sfType = code ∧
        u = subframeHeaderBits code h.wastedBitsPerSample) := by
    rw [readSubframeHeader_eq]
    apply triple_readBit.bind
    rintro u1 pad rfl
    cases pad with
    | true => exact Triple.err _
    | false =>
      simp only [Bool.false_eq_true, if_false]
      apply (triple_readLeqU8 (k := 6) (by omega)).bind
      rintro u2 n ⟨rfl, hn⟩
      rcases subframeType_cases hn with ⟨_, h⟩ | ⟨hr, h1, h2, h⟩
      · rw [BitVec.ofNat_toNat, BitVec.setWidth_eq] at h
        rw [h]
        exact Triple.bind (P := fun _ _ => False) (Triple.err _) (fun _ _ h => absurd h id)
      · rw [BitVec.ofNat_toNat, BitVec.setWidth_eq] at h
        rw [h, pure_bind]
        apply triple_wasted.bind
        rintro u4 k rfl
        split
        · exact Triple.err _
        · apply Triple.pure
          exact ⟨by simp only; omega, h1, n.toNat, hn, hr, h2, by simp [subframeHeaderBits]⟩
  refine .bind ?_ hhead ?_
  · rw [readSubframeHeader_eq]
    refine .bind refuses_readBit triple_readBit ?_
    rintro u1 pad rfl
    cases pad with
    | true => exact .fail .padding
    | false =>
      simp only [Bool.false_eq_true, if_false]
      refine .bind (refuses_readLeqU8 (k := 6) (by omega)) (triple_readLeqU8 (k := 6) (by omega)) ?_
      rintro u2 n ⟨rfl, hn⟩
      rcases subframeType_cases hn with ⟨hr, h⟩ | ⟨hr, h1, h2, h⟩
      · rw [BitVec.ofNat_toNat, BitVec.setWidth_eq] at h
        rw [h]
        refine .bind (P := fun _ _ => False) (.fail ?_) (Triple.err _) (fun _ _ h => absurd h id)
        rw [List.append_nil]
        exact .type _ hr
      · rw [BitVec.ofNat_toNat, BitVec.setWidth_eq] at h
        rw [h, pure_bind]
        refine .bind refuses_wasted triple_wasted_lt ?_
        rintro u4 k ⟨rfl, hk⟩
        split
        · rename_i h31
          refine .fail ?_
          rw [List.append_nil]
          exact .wasted n.toNat k hn hr h31 hk
        · exact .pure _
  rintro u1 h ⟨h31, ht, code, h6, hr, hcode, rfl⟩
  split
  · rename_i hge
    refine .fail ?_
    rw [List.append_nil]
    exact .allWasted code _ h6 hr h31 hge
  rename_i hlt
  refine .bind ((refuses_body h.sfType (show 0 < bps - h.wastedBitsPerSample by omega) (by omega) buffer hbs ht).mono
    ?_) (triple_body h.sfType (show 0 < bps - h.wastedBitsPerSample by omega) (by omega) buffer hbs ht) ?_
  · intro u e hb
    rw [← hcode]
    exact refused_of_body ht (by omega) hb
  · rintro u2 out _
    split
    · exact .bind_lift (debugAssert_ok (decide_eq_true h31)) (.pure _)
    · exact .pure _

/-! ### The channels of a frame -/

theorem refuses_slice {bps bs : Nat} (h32 : bps ≤ 32) (hbs : bs < 2 ^ 16) {pre mid post : List I32}
    (hm : mid.length = bs) {a b : Nat} (ha : a = pre.length) (hb : b = pre.length + bs) :
    Refuses (withSlice (pre ++ mid ++ post) a b (decodeSubframe bps)) (RefusedSubframe bps bs) := by
  have e2 : ((pre ++ mid ++ post).take b).drop a = mid := by
    have e1 : (pre ++ mid ++ post).take b = pre ++ mid := by
      rw [hb, ← hm, ← List.length_append, List.take_left]
    rw [e1, ha, List.drop_left]
  refine Refuses.withSlice (by omega) (by simp; omega) ?_
  rw [e2, ← hm]
  exact refuses_subframe h32 mid (by omega)

/-- The channels are refused: after some subframes, there is one that is refused. -/
def RefusedChannels (depths : List Nat) (bs : Nat) (u : List Bool) (e : Error) : Prop :=
  ∃ (good : List Subframe) (d : Nat) (bad : List Bool),
    (∀ p ∈ List.zip depths good, p.2.WellFormed p.1 bs) ∧ depths[good.length]? = some d ∧
    RefusedSubframe d bs bad e ∧ u = (List.zipWith Subframe.bits depths good).flatten ++ bad

theorem RefusedChannels.head {d bs : Nat} {depths : List Nat} {u : List Bool} {e : Error}
    (h : RefusedSubframe d bs u e) : RefusedChannels (d :: depths) bs u e :=
  ⟨[], d, u, by simp, rfl, h, by simp⟩

theorem RefusedChannels.tail {d bs : Nat} {depths : List Nat} {u : List Bool} {e : Error} {s : Subframe}
    (hs : s.WellFormed d bs) (h : RefusedChannels depths bs u e) :
    RefusedChannels (d :: depths) bs (s.bits d ++ u) e := by
  obtain ⟨good, d', bad, h1, h2, h3, rfl⟩ := h
  refine ⟨s :: good, d', bad, ?_, by simpa using h2, h3, by simp⟩
  intro p hp
  rw [List.zip_cons_cons] at hp
  rcases List.mem_cons.1 hp with rfl | hp
  · exact hs
  · exact h1 p hp

theorem refuses_decodeIndependent {bps bs : Nat} (h32 : bps ≤ 32) (hbs : bs < 2 ^ 16) (n : Nat) :
    ∀ (ch : Nat) (pre rest : List I32), pre.length = ch * bs → rest.length = n * bs →
    Refuses (decodeIndependent bps bs n ch (pre ++ rest)) (RefusedChannels (List.replicate n bps) bs) := by
  induction n with
  | zero => intro ch pre rest _ _; exact .pure _
  | succ n ih =>
    intro ch pre rest h1 h2
    rw [Nat.add_mul, Nat.one_mul] at h2
    have hm : (rest.take bs).length = bs := by rw [List.length_take]; omega
    have hb : (ch + 1) * bs = pre.length + bs := by rw [h1]; ring
    have ht := triple_slice h32 hbs (pre := pre) (mid := rest.take bs) (post := rest.drop bs) hm
      (a := ch * bs) h1.symm hb
    have hr := refuses_slice h32 hbs (pre := pre) (mid := rest.take bs) (post := rest.drop bs) hm
      (a := ch * bs) h1.symm hb
    rw [List.append_assoc, List.take_append_drop] at ht hr
    rw [List.replicate_succ]
    show Refuses (withSlice _ _ _ _ >>= _) _
    refine .bind (hr.mono fun _ _ h => .head h) ht ?_
    rintro _ _ ⟨s, hs, rfl, rfl⟩
    refine (ih (ch + 1) (pre ++ subSamples bs s) (rest.drop bs) ?_ ?_).mono fun _ _ h => .tail hs h
    · rw [List.length_append, subSamples, length_toI32, length_samplesWith _ hs, h1]
      ring
    · rw [List.length_drop]; omega

theorem refuses_decodePair {d1 d2 bs : Nat} (h1 : d1 ≤ 32) (h2 : d2 ≤ 32) (hbs : bs < 2 ^ 16)
    (g : List I32 → List I32) {buffer : List I32} (hb : buffer.length = 2 * bs) :
    Refuses (do
      let buffer ← withSlice buffer 0 bs (decodeSubframe d1)
      let buffer ← withSlice buffer bs (bs * 2) (decodeSubframe d2)
      withSlice buffer 0 (bs * 2) fun b => pure (g b)) (RefusedChannels [d1, d2] bs) := by
  have hm : (buffer.take bs).length = bs := by rw [List.length_take]; omega
  have ht := triple_slice h1 hbs (pre := []) (mid := buffer.take bs) (post := buffer.drop bs) hm
    (a := 0) (b := bs) rfl (by simp)
  have hr := refuses_slice h1 hbs (pre := []) (mid := buffer.take bs) (post := buffer.drop bs) hm
    (a := 0) (b := bs) rfl (by simp)
  rw [List.nil_append, List.take_append_drop] at ht hr
  refine .bind (hr.mono fun _ _ h => .head h) ht ?_
  rintro _ _ ⟨s, hs, rfl, rfl⟩
  have ls : (subSamples bs s).length = bs := by
    rw [subSamples, length_toI32, length_samplesWith _ hs]
  have hm2 : (buffer.drop bs).length = bs := by rw [List.length_drop]; omega
  have ht2 := triple_slice h2 hbs (pre := subSamples bs s) (mid := buffer.drop bs) (post := []) hm2
    (a := bs) (b := bs * 2) (by omega) (by omega)
  have hr2 := refuses_slice h2 hbs (pre := subSamples bs s) (mid := buffer.drop bs) (post := []) hm2
    (a := bs) (b := bs * 2) (by omega) (by omega)
  simp only [List.append_nil] at ht2 hr2
  simp only [List.nil_append]
  refine .bind (hr2.mono fun _ _ h => .tail hs (.head h)) ht2 ?_
  rintro _ _ ⟨t, ht, rfl, rfl⟩
  have lt : (subSamples bs t).length = bs := by
    rw [subSamples, length_toI32, length_samplesWith _ ht]
  exact .withSlice (by omega) (by simp; omega) (.pure _)

theorem refuses_decodeChannels (ch : ChannelField) {bps bs : Nat} (hbps : bps ≤ 31) (hbs : bs < 2 ^ 16)
    {buffer : List I32} (hb : buffer.length = ch.count * bs) :
    Refuses (decodeChannels (caOf ch) bps bs buffer) (RefusedChannels (ch.depths bps) bs) := by
  cases ch with
  | independent n => exact refuses_decodeIndependent (by omega) hbs (n.val + 1) 0 [] buffer (by simp) hb
  | leftSide => exact refuses_decodePair (d1 := bps) (d2 := bps + 1) (by omega) (by omega) hbs decodeLeftSide hb
  | rightSide => exact refuses_decodePair (d1 := bps + 1) (d2 := bps) (by omega) (by omega) hbs decodeRightSide hb
  | midSide => exact refuses_decodePair (d1 := bps) (d2 := bps + 1) (by omega) (by omega) hbs decodeMidSide hb

end Claxon
