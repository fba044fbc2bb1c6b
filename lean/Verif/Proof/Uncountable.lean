import Verif.Proof.RefusedConverse
import Verif.Spec.Uncountable

/-! The arithmetic overflow and its cause: the decoder overflows exactly if the bits that it reads have more zeros in
a row than it can count, at a place where it counts zeros. -/

namespace Claxon

open Spec Bitstream ReadBytes

variable {α β : Type}

/-- If `m` overflows, the unread bits begin with bits of which `Q` holds. -/
def Overflows (m : Dec (Bitstream Flat) α) (Q : List Bool → Prop) : Prop :=
  ∀ b : Bitstream Flat, b.Inv → ∀ b', m b = (.error (.panic .overflow), b') →
    ∃ used rest, b.bits = used ++ rest ∧ Q used

theorem endFail_ne_overflow {fault : Option Nat} : Flat.endFail fault ≠ .panic .overflow := by
  cases fault <;> exact nofun

namespace Overflows

variable {Q : List Bool → Prop}

theorem pure (a : α) : Overflows (Pure.pure a) Q := by
  intro b _ b' h
  cases h

theorem err (e : Error) : Overflows (Dec.fail (.err e) : Dec (Bitstream Flat) α) Q := by
  intro b _ b' he
  cases he

theorem lift {r : Res α} {a : α} (h : r = .ok a) : Overflows (liftM r) Q := by
  subst h; exact pure a

theorem bind {m : Dec (Bitstream Flat) α} {f : α → Dec (Bitstream Flat) β} {P : List Bool → α → Prop}
    (hm : Overflows m Q) (ht : Triple m P) (hf : ∀ u a, P u a → Overflows (f a) (fun v => Q (u ++ v))) :
    Overflows (m >>= f) Q := by
  intro b hb b' h
  have h1 := ht b hb
  have h2 := hm b hb
  rw [Dec.bind_def] at h
  generalize m b = x at h h1 h2
  rcases x with ⟨r, b1⟩
  cases r with
  | error e1 =>
    simp only [Prod.mk.injEq, Except.error.injEq] at h
    obtain ⟨rfl, rfl⟩ := h
    exact h2 b1 rfl
  | ok a =>
    obtain ⟨hb1, hf1, u, hu, hP⟩ := h1
    obtain ⟨v, rest, hv, hQ⟩ := hf u a hP b1 hb1 b' h
    exact ⟨u ++ v, rest, by rw [hu, hv, List.append_assoc], hQ⟩

theorem bind_lift {r : Res α} {f : α → Dec (Bitstream Flat) β} {a : α} (h : r = .ok a) (hf : Overflows (f a) Q) :
    Overflows (liftM r >>= f) Q := by
  subst h; exact hf

/-- The second part does not fail. -/
theorem bind_pure {m : Dec (Bitstream Flat) α} {f : α → β} (hm : Overflows m Q) :
    Overflows (m >>= fun a => Pure.pure (f a)) Q := by
  intro b hb b' h
  have h2 := hm b hb
  rw [Dec.bind_def] at h
  generalize m b = x at h h2
  rcases x with ⟨r, b1⟩
  cases r with
  | error e1 =>
    simp only [Prod.mk.injEq, Except.error.injEq] at h
    obtain ⟨rfl, rfl⟩ := h
    exact h2 b1 rfl
  | ok a => cases h

theorem mono {m : Dec (Bitstream Flat) α} {Q' : List Bool → Prop} (hm : Overflows m Q)
    (h : ∀ u, Q u → Q' u) : Overflows m Q' := by
  intro b hb b' he
  obtain ⟨u, rest, h1, h2⟩ := hm b hb b' he
  exact ⟨u, rest, h1, h u h2⟩

theorem withSlice {buffer : List I32} {a b : Nat} {f : List I32 → Dec (Bitstream Flat) (List I32)}
    (hab : a ≤ b) (hb : b ≤ buffer.length) (h : Overflows (f ((buffer.take b).drop a)) Q) :
    Overflows (withSlice buffer a b f) Q :=
  bind_lift (slice_ok ⟨hab, hb⟩) (bind_pure h)

theorem loopN {step : Dec (Bitstream Flat) I32} {P : List Bool → I32 → Prop} (ht : Triple step P)
    (h : ∀ Q, Overflows step Q) (buf : List I32) : Overflows (loopN step buf) Q := by
  induction buf generalizing Q with
  | nil => exact pure _
  | cons x buf ih => exact bind (h _) ht fun _ _ _ => bind_pure ih

/-- A loop overflows in one of its steps. -/
theorem loopN_step {step : Dec (Bitstream Flat) I32} {enc : Int → List Bool} {f : Int → I32} {R : Int → Prop}
    (ht : Triple step (fun u a => ∃ v, R v ∧ u = enc v ∧ a = f v)) (h : Overflows step Q) (buf : List I32) :
    Overflows (Claxon.loopN step buf) (fun u => ∃ (vs : List Int) (v : List Bool), vs.length < buf.length ∧
      (∀ v ∈ vs, R v) ∧ u = vs.flatMap enc ++ v ∧ Q v) := by
  induction buf with
  | nil => exact pure _
  | cons x buf ih =>
    refine bind (h.mono fun u hu => ⟨[], u, by simp, by simp, by simp, hu⟩) ht ?_
    rintro u a ⟨v, hR, rfl, rfl⟩
    refine bind_pure (ih.mono ?_)
    rintro u' ⟨vs, w, h1, h2, rfl, h3⟩
    refine ⟨v :: vs, w, by simpa using h1, ?_, by simp, h3⟩
    intro x hx
    rcases List.mem_cons.1 hx with rfl | hx
    · exact hR
    · exact h2 x hx

end Overflows

/-! ### The primitives -/

section

variable {Q : List Bool → Prop}

theorem overflows_of_ok {w : Nat} {m : Dec (Bitstream Flat) (BitVec w)} {k : Nat}
    (hm : ∀ b : Bitstream Flat, b.Inv → k ≤ b.bits.length →
      ∃ a b', m b = (.ok a, b') ∧ Inv b' ∧ b'.reader.fault = b.reader.fault ∧
      a.toNat < 2 ^ k ∧ b.bits = natToBits k a.toNat ++ b'.bits)
    (he : ∀ b : Bitstream Flat, b.Inv → b.bits.length < k →
      ∃ b', m b = (.error (Flat.endFail b.reader.fault), b')) :
    Overflows m Q := by
  intro b hb b' h
  rcases Nat.lt_or_ge b.bits.length k with hlt | hge
  · obtain ⟨b1, h1⟩ := he b hb hlt
    rw [h1] at h
    simp only [Prod.mk.injEq, Except.error.injEq] at h
    exact absurd h.1 endFail_ne_overflow
  · obtain ⟨a, b1, h1, _⟩ := hm b hb hge
    rw [h1] at h
    cases h

theorem overflows_readLeqU8 {k : Nat} (hk : k ≤ 8) : Overflows (readLeqU8 k) Q :=
  overflows_of_ok (fun _ hb => readLeqU8_ok hb hk) (fun _ hb => readLeqU8_eof hb hk)

theorem overflows_readGtU8LeqU16 {k : Nat} (hk8 : 8 < k) (hk : k ≤ 16) : Overflows (readGtU8LeqU16 k) Q :=
  overflows_of_ok (fun _ hb => readGtU8LeqU16_ok hb hk8 hk) (fun _ hb => readGtU8LeqU16_eof hb hk8 hk)

theorem overflows_readLeqU16 {k : Nat} (hk : k ≤ 16) : Overflows (readLeqU16 k) Q :=
  overflows_of_ok (fun _ hb => readLeqU16_ok hb hk) (fun _ hb => readLeqU16_eof hb hk)

theorem overflows_readLeqU32 {k : Nat} (hk : k ≤ 32) : Overflows (readLeqU32 k) Q :=
  overflows_of_ok (fun _ hb => readLeqU32_ok hb hk) (fun _ hb => readLeqU32_eof hb hk)

theorem overflows_readBit : Overflows readBit Q := by
  intro b hb b' h
  rcases Nat.lt_or_ge b.bits.length 1 with hlt | hge
  · obtain ⟨b1, h1⟩ := readBit_eof hb hlt
    rw [h1] at h
    simp only [Prod.mk.injEq, Except.error.injEq] at h
    exact absurd h.1 endFail_ne_overflow
  · obtain ⟨a, b1, h1, _⟩ := readBit_ok hb hge
    rw [h1] at h
    cases h

end

theorem replicate_split {n m : Nat} (h : m ≤ n) :
    List.replicate n false = List.replicate m false ++ List.replicate (n - m) false := by
  rw [← List.replicate_add, show m + (n - m) = n by omega]

theorem overflows_readUnary : Overflows readUnary (· = List.replicate (2 ^ 32) false) := by
  intro b hb b' h
  rcases unary_or_zeros b.bits with ⟨n, rest, hz⟩ | hz
  · rcases Nat.lt_or_ge n (2 ^ 32) with hlt | hge
    · obtain ⟨b1, h1, _⟩ := (readUnary_unary hb hz).1 hlt
      rw [h1] at h
      cases h
    · exact ⟨_, _, by rw [hz, unaryBits, replicate_split hge, List.append_assoc, List.append_assoc], rfl⟩
  · rcases Nat.lt_or_ge b.bits.length (2 ^ 32) with hlt | hge
    · obtain ⟨b1, h1⟩ := (readUnary_zeros hb hz).1 hlt
      rw [h1] at h
      simp only [Prod.mk.injEq, Except.error.injEq] at h
      exact absurd h.1 endFail_ne_overflow
    · exact ⟨_, _, by rw [hz, replicate_split hge], rfl⟩

theorem failsOn_zeros : FailsOn readUnary (List.replicate (2 ^ 32) false) (.panic .overflow) := by
  refine .of fun b rest hb h => ?_
  rcases unary_or_zeros rest with ⟨n, rest', hz⟩ | hz
  · refine (readUnary_unary hb (n := 2 ^ 32 + n) (rest := rest') ?_).2 (Nat.le_add_right _ _)
    rw [h, hz, unaryBits, unaryBits, List.replicate_add, List.append_assoc, List.append_assoc, List.append_assoc]
  · have h' : b.bits = List.replicate (2 ^ 32 + rest.length) false := by rw [h, hz, List.replicate_add, List.length_replicate]
    have hl : b.bits.length = 2 ^ 32 + rest.length := by rw [h', List.length_replicate]
    refine (readUnary_zeros hb ?_).2 ?_
    · rw [hl]; exact h'
    · rw [hl]; exact Nat.le_add_right _ _

theorem overflows_riceStep {w k : Nat} {rd : Dec (Bitstream Flat) (BitVec w)} (hk : k < 32)
    {P : List Bool → BitVec w → Prop} (ht : Triple rd P) (hrd : ∀ Q, Overflows rd Q) :
    Overflows (riceStep k rd) (· = List.replicate (2 ^ 32) false) := by
  refine .bind overflows_readUnary triple_readUnary fun _ _ _ => ?_
  refine .bind (hrd _) ht fun _ _ _ => ?_
  exact .bind_lift (shl_ok hk) (.pure _)

theorem failsOn_riceStep {w k : Nat} {rd : Dec (Bitstream Flat) (BitVec w)} :
    FailsOn (riceStep k rd) (List.replicate (2 ^ 32) false) (.panic .overflow) :=
  FailsOn.bind_left _ failsOn_zeros

theorem failsOn_loopN {step : Dec (Bitstream Flat) I32} {enc : Int → List Bool} {f : Int → I32} {bits : List Bool}
    {e : Fail} (hf : FailsOn step bits e) (vs : List Int) (h : ∀ v ∈ vs, Reads step (enc v) (f v)) :
    ∀ buf : List I32, vs.length < buf.length → FailsOn (loopN step buf) (vs.flatMap enc ++ bits) e := by
  induction vs with
  | nil =>
    intro buf hlen
    cases buf with
    | nil => simp at hlen
    | cons x buf => exact FailsOn.bind_left _ hf
  | cons v vs ih =>
    intro buf hlen
    cases buf with
    | nil => simp at hlen
    | cons x buf =>
      rw [List.flatMap_cons, List.append_assoc]
      exact FailsOn.bind (h v (by simp))
        (FailsOn.bind_left _ (ih (fun w hw => h w (by simp [hw])) buf (by simpa using hlen)))

/-! ### Residuals -/

/-- A partition in which there are too many zeros after some values. -/
def UncountablePartition (m : RiceMethod) (len : Nat) (u : List Bool) : Prop :=
  ∃ p : Partition, p.param ≤ m.maxParam ∧ (∀ v ∈ p.values, fold v / 2 ^ p.param < 2 ^ 32) ∧ p.values.length < len ∧
    u = p.bits m ++ List.replicate (2 ^ 32) false

theorem uncountable_partition {m : RiceMethod} {k len : Nat} {u v : List Bool} (hu : u = natToBits m.paramBits k)
    (hk : k ≤ m.maxParam)
    (h : ∃ (vs : List Int) (w : List Bool), vs.length < len ∧ (∀ v ∈ vs, fold v / 2 ^ k < 2 ^ 32) ∧
      v = vs.flatMap (riceBits k) ++ w ∧ w = List.replicate (2 ^ 32) false) :
    UncountablePartition m len (u ++ v) := by
  obtain ⟨vs, w, h1, h2, rfl, rfl⟩ := h
  exact ⟨⟨k, vs⟩, hk, h2, h1, by rw [Partition.bits, hu, List.append_assoc]⟩

theorem overflows_partition (m : RiceMethod) (buf : List I32) :
    Overflows (partitionDec m buf) (UncountablePartition m buf.length) := by
  cases m with
  | rice =>
    refine .bind (overflows_readLeqU8 (k := 4) (by omega)) (triple_readLeqU8 (k := 4) (by omega)) ?_
    rintro u a ⟨hu, ha⟩
    simp only
    by_cases h15 : a.toNat = 0b1111
    · rw [if_pos h15]
      exact .err _
    · rw [if_neg h15]
      split
      · rw [small_eq]
        exact (Overflows.loopN_step (triple_riceStep (by omega) (by omega) (triple_readLeqU8 (by omega)))
          (overflows_riceStep (by omega) (triple_readLeqU8 (by omega)) fun _ => overflows_readLeqU8 (by omega)) buf).mono
          fun v h => uncountable_partition hu (by show _ ≤ 14; omega) h
      · rw [large_eq]
        exact (Overflows.loopN_step (triple_riceStep (by omega) (by omega) (triple_readGtU8LeqU16 (by omega) (by omega)))
          (overflows_riceStep (by omega) (triple_readGtU8LeqU16 (by omega) (by omega))
            fun _ => overflows_readGtU8LeqU16 (by omega) (by omega)) buf).mono
          fun v h => uncountable_partition hu (by show _ ≤ 14; omega) h
  | rice2 =>
    refine .bind (overflows_readLeqU8 (k := 5) (by omega)) (triple_readLeqU8 (k := 5) (by omega)) ?_
    rintro u a ⟨hu, ha⟩
    simp only
    by_cases h15 : a.toNat = 0b11111
    · rw [if_pos h15]
      exact .err _
    · rw [if_neg h15, rice2_eq]
      exact (Overflows.loopN_step (triple_riceStep (by omega) (by omega) (triple_readLeqU32 (by omega)))
        (overflows_riceStep (by omega) (triple_readLeqU32 (by omega)) fun _ => overflows_readLeqU32 (by omega)) buf).mono
        fun v h => uncountable_partition hu (by show _ ≤ 30; omega) h

theorem failsOn_uncountablePartition (m : RiceMethod) (buf : List I32) {u : List Bool}
    (h : UncountablePartition m buf.length u) : FailsOn (partitionDec m buf) u (.panic .overflow) := by
  obtain ⟨p, hp, hv, hl, rfl⟩ := h
  rw [Partition.bits, List.append_assoc]
  cases m with
  | rice =>
    simp only [RiceMethod.maxParam] at hp
    refine FailsOn.bind (reads_readLeqU8 (k := 4) (by omega) (show p.param < 2 ^ 4 by omega)) ?_
    simp only [toNat_ofNat8 (show p.param < 256 by omega)]
    rw [if_neg (by omega)]
    split
    · rw [small_eq]
      exact failsOn_loopN failsOn_riceStep _ (fun v hmem => reads_riceStep (by omega) (by omega)
        (fun _ h => reads_readLeqU8 (by omega) h) v (hv v hmem)) _ hl
    · rw [large_eq]
      exact failsOn_loopN failsOn_riceStep _ (fun v hmem => reads_riceStep (by omega) (by omega)
        (fun _ h => reads_readGtU8LeqU16 (by omega) (by omega) h) v (hv v hmem)) _ hl
  | rice2 =>
    simp only [RiceMethod.maxParam] at hp
    refine FailsOn.bind (reads_readLeqU8 (k := 5) (by omega) (show p.param < 2 ^ 5 by omega)) ?_
    simp only [toNat_ofNat8 (show p.param < 256 by omega)]
    rw [if_neg (by omega), rice2_eq]
    exact failsOn_loopN failsOn_riceStep _ (fun v hmem => reads_riceStep (by omega) (by omega)
        (fun _ h => reads_readLeqU32 (by omega) h) v (hv v hmem)) _ hl

theorem overflows_partitionLoop (m : RiceMethod) (nspp n : Nat) :
    ∀ (start len : Nat) (buffer : List I32),
    buffer.length = start + (sizesFrom nspp n len).sum →
    Overflows (partitionLoop (ptypeOf m) nspp n start len buffer)
      (fun u => ∃ (good : List Partition) (size : Nat) (v : List Bool),
        (∀ p ∈ good, p.param ≤ m.maxParam ∧ ∀ v ∈ p.values, fold v / 2 ^ p.param < 2 ^ 32) ∧
        good.map (fun p => p.values.length) <+: sizesFrom nspp n len ∧
        (sizesFrom nspp n len)[good.length]? = some size ∧
        u = good.flatMap (Partition.bits m) ++ v ∧ UncountablePartition m size v) := by
  induction n with
  | zero => intro start len buffer _; exact .pure _
  | succ n ih =>
    intro start len buffer hlen
    simp only [sizesFrom, List.sum_cons] at hlen
    rw [partitionLoop_succ]
    have hslice : Triple (withSlice buffer start (start + len) (partitionDec m))
        (fun u out => ∃ p : Partition, (p.param ≤ m.maxParam ∧
          ∀ v ∈ p.values, fold v / 2 ^ p.param < 2 ^ 32) ∧ p.values.length = len ∧
          u = p.bits m ∧
          out = buffer.take start ++ p.values.map resI32 ++ buffer.drop (start + len)) := by
      apply Triple.withSlice (by omega) (by omega) (triple_partition m _)
      rintro u out ⟨p, h1, hq, h2, h3, h4⟩
      refine ⟨p, ⟨h1, hq⟩, ?_, h3, by rw [h4]⟩
      rw [h2, List.length_drop, List.length_take]
      omega
    refine .bind (.withSlice (by omega) (by omega) ((overflows_partition m _).mono ?_)) hslice ?_
    · intro u hu
      rw [List.length_drop, List.length_take, show min (start + len) buffer.length - start = len by omega] at hu
      exact ⟨[], len, u, by simp, by simp, by simp [sizesFrom], by simp, hu⟩
    rintro u buffer' ⟨p, h1, h2, h3, h4⟩
    have hl : buffer'.length = start + len + (sizesFrom nspp n nspp).sum := by
      rw [h4]
      simp only [List.length_append, List.length_take, List.length_map, List.length_drop]
      omega
    refine (ih (start + len) nspp buffer' hl).mono ?_
    rintro u' ⟨good, size, v, g1, g2, g3, rfl, g4⟩
    refine ⟨p :: good, size, v, ?_, ?_, by simpa [sizesFrom] using g3, by rw [h3]; simp, g4⟩
    · intro q hq
      rcases List.mem_cons.1 hq with rfl | hq
      · exact h1
      · exact g1 q hq
    · rw [List.map_cons, sizesFrom, h2]
      exact List.cons_prefix_cons.2 ⟨rfl, g2⟩

theorem failsOn_uncountableLoop (m : RiceMethod) (nspp size : Nat) {v : List Bool}
    (hv : UncountablePartition m size v) (good : List Partition) :
    ∀ (n start len : Nat) (buffer : List I32),
    (∀ p ∈ good, p.param ≤ m.maxParam ∧ ∀ v ∈ p.values, fold v / 2 ^ p.param < 2 ^ 32) →
    good.map (fun p => p.values.length) <+: sizesFrom nspp n len →
    (sizesFrom nspp n len)[good.length]? = some size →
    buffer.length = start + (sizesFrom nspp n len).sum →
    FailsOn (partitionLoop (ptypeOf m) nspp n start len buffer)
      (good.flatMap (Partition.bits m) ++ v) (.panic .overflow) := by
  induction good with
  | nil =>
    intro n start len buffer _ _ hn hlen
    cases n with
    | zero => simp [sizesFrom] at hn
    | succ n =>
      simp only [sizesFrom, List.sum_cons] at hlen
      obtain rfl : len = size := by simpa [sizesFrom] using hn
      rw [partitionLoop_succ]
      refine FailsOn.bind_left _ (FailsOn.withSlice (by omega) (by omega) (failsOn_uncountablePartition m _ ?_))
      rw [List.length_drop, List.length_take, show min (start + len) buffer.length - start = len by omega]
      exact hv
  | cons p good ih =>
    intro n start len buffer hg hs hn hlen
    cases n with
    | zero => simp [sizesFrom] at hn
    | succ n =>
      simp only [sizesFrom, List.sum_cons] at hlen
      rw [List.map_cons, sizesFrom, List.cons_prefix_cons] at hs
      obtain ⟨h1, h2⟩ := hg p (by simp)
      have hslice : Reads (withSlice buffer start (start + len) (partitionDec m)) (p.bits m)
          (buffer.take start ++ p.values.map resI32 ++ buffer.drop (start + len)) := by
        apply Reads.withSlice (by omega) (by omega)
        apply reads_partition m p h1 h2
        rw [List.length_drop, List.length_take]
        omega
      rw [partitionLoop_succ, List.flatMap_cons, List.append_assoc]
      refine FailsOn.bind hslice (ih n (start + len) nspp _ (fun q hq => hg q (by simp [hq])) hs.2
        (by simpa [sizesFrom] using hn) ?_)
      simp only [List.length_append, List.length_take, List.length_map, List.length_drop]
      omega

theorem overflows_residual {bs order : Nat} (hbs : bs < 2 ^ 16) (ho : order ≤ bs) (buffer : List I32)
    (hlen : buffer.length = bs - order) :
    Overflows (decodeResidual bs buffer) (UncountableResidual bs order) := by
  refine .bind (overflows_readLeqU8 (k := 2) (by omega)) (triple_readLeqU8 (k := 2) (by omega)) ?_
  rintro u1 code ⟨rfl, hcode⟩
  have hptype : Triple (if code = 0b00#8 then pure .rice
     else if code = 0b01#8 then pure .rice2
     else fmtErr "invalid residual, encountered reserved value" : Dec (Bitstream Flat) RicePartitionType)
     (fun u p => u = [] ∧ ∃ m : RiceMethod, code.toNat = m.code ∧ p = ptypeOf m) := by
    split
    · rename_i h; subst h; exact Triple.pure ⟨rfl, .rice, rfl, rfl⟩
    · split
      · rename_i h; subst h; exact Triple.pure ⟨rfl, .rice2, rfl, rfl⟩
      · exact Triple.err _
  refine .bind ?_ hptype ?_
  · split
    · exact .pure _
    · split
      · exact .pure _
      · exact .err _
  rintro u2 p ⟨rfl, m, hm, rfl⟩
  refine .bind (overflows_readLeqU8 (k := 4) (by omega)) (triple_readLeqU8 (k := 4) (by omega)) ?_
  rintro u3 ob ⟨rfl, hob⟩
  have hpo : ob.toNat ≤ 15 := by omega
  have hpow : 2 ^ ob.toNat ≤ 2 ^ 15 := Nat.pow_le_pow_right (by omega) hpo
  simp only
  refine .bind_lift (if_pos (by omega)) ?_
  refine .bind_lift (if_pos (by omega)) ?_
  rw [and_mask _ _ hpo, Nat.shiftRight_eq_div_pow, hm]
  split
  · exact .err _
  · rename_i hdiv
    have hdiv : bs % 2 ^ ob.toNat = 0 := by simpa using hdiv
    have hprod : 2 ^ ob.toNat * (bs / 2 ^ ob.toNat) = bs := by
      have := Nat.div_add_mod bs (2 ^ ob.toNat); omega
    refine .bind_lift (mulU_ok (by rw [hprod]; omega)) ?_
    refine .bind_lift (debugAssert_ok (by rw [hprod]; simp)) ?_
    rw [Nat.mod_eq_of_lt (show buffer.length < 2 ^ 16 by omega)]
    refine .bind_lift (subU_ok (by omega)) ?_
    rw [show bs - buffer.length = order by omega]
    split
    · exact .err _
    · rename_i hfirst
      have hfirst : order ≤ bs / 2 ^ ob.toNat := by omega
      refine .bind_lift (subU_ok hfirst) ?_
      refine (overflows_partitionLoop m _ _ _ _ buffer (by
        rw [← partitionSizes_eq, partitionSizes_sum hdiv hfirst, hlen]; omega)).mono ?_
      rintro u4 ⟨good, size, v, h1, h2, h3, rfl, last, h4, h5, h6, rfl⟩
      rw [← partitionSizes_eq] at h2 h3
      have := UncountableResidual.quotient (blockSize := bs) (order := order) m ob.toNat hpo hdiv hfirst good h1 h2
        size h3 last h4 h5 h6
      rw [List.nil_append]
      rwa [List.append_assoc, List.append_assoc, List.append_assoc] at this

theorem failsOn_uncountableResidual {bs order : Nat} (hbs : bs < 2 ^ 16) (ho : order ≤ bs) (buffer : List I32)
    (hlen : buffer.length = bs - order) {bits : List Bool} (h : UncountableResidual bs order bits) :
    FailsOn (decodeResidual bs buffer) bits (.panic .overflow) := by
  cases h with
  | quotient m k hk hdiv hfirst good hg hs size hz last hp hv hl =>
    unfold decodeResidual
    rw [List.append_assoc, List.append_assoc, List.append_assoc]
    refine FailsOn.bind (reads_readLeqU8 (k := 2) (by omega) (show m.code < 2 ^ 2 by cases m <;> decide)) ?_
    simp only
    rw [code_ofNat m, pure_bind]
    refine FailsOn.bind (reads_readLeqU8 (k := 4) (by omega) (show k < 2 ^ 4 by omega)) ?_
    have hpow : 2 ^ k ≤ 2 ^ 15 := Nat.pow_le_pow_right (by omega) hk
    simp only [toNat_ofNat8 (show k < 256 by omega)]
    refine FailsOn.bind_lift (if_pos (by omega)) ?_
    refine FailsOn.bind_lift (if_pos (by omega)) ?_
    rw [and_mask _ _ hk, if_neg (by simpa using hdiv), Nat.shiftRight_eq_div_pow]
    have hprod : 2 ^ k * (bs / 2 ^ k) = bs := by
      have := Nat.div_add_mod bs (2 ^ k); omega
    refine FailsOn.bind_lift (mulU_ok (by rw [hprod]; omega)) ?_
    refine FailsOn.bind_lift (debugAssert_ok (by rw [hprod]; simp)) ?_
    rw [Nat.mod_eq_of_lt (show buffer.length < 2 ^ 16 by omega)]
    refine FailsOn.bind_lift (subU_ok (by omega)) ?_
    rw [show bs - buffer.length = order by omega, if_neg (by omega)]
    refine FailsOn.bind_lift (subU_ok hfirst) ?_
    refine failsOn_uncountableLoop m _ size ⟨last, hp, hv, hl, rfl⟩ good _ 0 _ buffer hg ?_ ?_ ?_
    · rw [← partitionSizes_eq]; exact hs
    · rw [← partitionSizes_eq]; exact hz
    · rw [← partitionSizes_eq, partitionSizes_sum hdiv hfirst, hlen]; omega

/-! ### Subframes -/

section

variable {Q : List Bool → Prop}

theorem overflows_sampleStep {bps : Nat} (h0 : 0 < bps) (h32 : bps ≤ 32) : Overflows (sampleStep bps) Q := by
  refine .bind (overflows_readLeqU32 h32) (triple_readLeqU32 h32) fun _ _ _ => ?_
  exact .lift (extendSignU32_ok h0 h32)

theorem overflows_verbatim {bps : Nat} (h0 : 0 < bps) (h32 : bps ≤ 32) (buffer : List I32) :
    Overflows (decodeVerbatim bps buffer) Q := by
  unfold decodeVerbatim
  refine .bind_lift (debugAssert_ok (decide_eq_true h32)) ?_
  rw [verbatimLoop_eq]
  exact .loopN (triple_sampleStep h0 h32) (fun _ => overflows_sampleStep h0 h32) _

theorem overflows_readCoefficients {prec : Nat} (h0 : 0 < prec) (h16 : prec ≤ 16) (n : Nat) :
    ∀ (arr : List I16), n ≤ arr.length → ∀ Q, Overflows (readCoefficients prec n arr) Q := by
  induction n with
  | zero => intro arr _ _; exact .pure _
  | succ n ih =>
    intro arr hlen Q
    refine .bind (overflows_readLeqU16 h16) (triple_readLeqU16 h16) fun _ _ _ => ?_
    refine .bind_lift (extendSignU16_ok h0 h16) ?_
    refine .bind_lift (setIndex_ok (by omega)) ?_
    exact ih _ (by simp; omega) _

end

/-- The body of a subframe with a fixed predictor. -/
def UncountableFixed (bps blockSize order : Nat) (u : List Bool) : Prop :=
  ∃ (warmUp : List Int) (bits : List Bool), warmUp.length = order ∧ order ≤ blockSize ∧
    (∀ v ∈ warmUp, FitsIn bps v) ∧ UncountableResidual blockSize order bits ∧
    u = warmUp.flatMap (intToBits bps) ++ bits

theorem overflows_fixed {bps : Nat} (h0 : 0 < bps) (h32 : bps ≤ 32) {order : Nat} (h4 : order ≤ 4)
    (buffer : List I32) (hbs : buffer.length < 2 ^ 16) :
    Overflows (decodeFixed bps order buffer) (UncountableFixed bps buffer.length order) := by
  unfold decodeFixed
  split
  · exact .err _
  rename_i ho
  have ho : order ≤ buffer.length := by omega
  refine .bind (.withSlice (Nat.zero_le _) ho (overflows_verbatim h0 h32 _))
    (Triple.withSlice (Nat.zero_le _) ho (triple_verbatim h0 h32 _)
    (Q := fun u out => ∃ warm : List Int, warm.length = order ∧ (∀ v ∈ warm, FitsIn bps v) ∧
      u = warm.flatMap (intToBits bps) ∧
      out = warm.map (BitVec.ofInt 32) ++ buffer.drop order) (by
    rintro u out ⟨vs, h1, h2, h3, h4⟩
    exact ⟨vs, by rw [h1, slice_head ho], h2, h3, by simp [h4]⟩)) ?_
  rintro u1 b1 ⟨warm, hwlen, hv, rfl, rfl⟩
  have hlen : (warm.map (BitVec.ofInt 32) ++ buffer.drop order).length = buffer.length := by
    simp; omega
  rw [hlen, Nat.mod_eq_of_lt hbs]
  refine .bind (.withSlice ho (by omega) ((overflows_residual hbs ho _ (by simp; omega)).mono ?_))
    (Triple.withSlice ho (by omega) (triple_residual hbs ho _ (by simp; omega))
    (Q := fun u out => ∃ r : Residual, r.WellFormed buffer.length order ∧ u = r.bits ∧
      out = warm.map (BitVec.ofInt 32) ++ r.values.map resI32) (by
    rintro u out ⟨r, h1, h2, h3⟩
    refine ⟨r, h1, h2, ?_⟩
    rw [h3, List.take_left' (by simp [hwlen]), List.drop_of_length_le (by omega), List.append_nil])) ?_
  · exact fun u h => ⟨warm, u, hwlen, ho, hv, h, rfl⟩
  rintro u2 b2 ⟨r, hres, hu2, rfl⟩
  obtain ⟨tail, h1, h2⟩ := predictFixed_spec order h4 (warm.map (BitVec.ofInt 32))
    (r.values.map resI32) (by simp [hwlen])
  exact .lift h1

/-- The body of a subframe with a linear predictor. -/
def UncountableLpc (bps blockSize order : Nat) (u : List Bool) : Prop :=
  ∃ (warmUp : List Int) (precision shift : Nat) (coefs : List Int) (bits : List Bool), warmUp.length = order ∧
    order ≤ blockSize ∧ (∀ v ∈ warmUp, FitsIn bps v) ∧ 1 ≤ precision ∧ precision ≤ 15 ∧ shift ≤ 15 ∧
    coefs.length = order ∧ (∀ c ∈ coefs, FitsIn precision c) ∧ UncountableResidual blockSize order bits ∧
    u = warmUp.flatMap (intToBits bps) ++ natToBits 4 (precision - 1) ++ intToBits 5 shift ++
      coefs.flatMap (intToBits precision) ++ bits

theorem overflows_lpc {bps : Nat} (h0 : 0 < bps) (h32 : bps ≤ 32) {order : Nat} (ho1 : 1 ≤ order)
    (ho32 : order ≤ 32) (buffer : List I32) (hbs : buffer.length < 2 ^ 16) :
    Overflows (decodeLpc bps order buffer) (UncountableLpc bps buffer.length order) := by
  unfold decodeLpc
  refine .bind_lift (debugAssert_ok (decide_eq_true ho32)) ?_
  split
  · exact .err _
  rename_i ho
  have ho : order ≤ buffer.length := by omega
  refine .bind (.withSlice (Nat.zero_le _) ho (overflows_verbatim h0 h32 _))
    (Triple.withSlice (Nat.zero_le _) ho (triple_verbatim h0 h32 _)
    (Q := fun u out => ∃ warm : List Int, warm.length = order ∧ (∀ v ∈ warm, FitsIn bps v) ∧
      u = warm.flatMap (intToBits bps) ∧
      out = warm.map (BitVec.ofInt 32) ++ buffer.drop order) (by
    rintro u out ⟨vs, h1, h2, h3, h4⟩
    exact ⟨vs, by rw [h1, slice_head ho], h2, h3, by simp [h4]⟩)) ?_
  rintro u1 b1 ⟨warm, hwlen, hv, rfl, rfl⟩
  have hlen : (warm.map (BitVec.ofInt 32) ++ buffer.drop order).length = buffer.length := by
    simp; omega
  rw [hlen, Nat.mod_eq_of_lt hbs]
  refine .bind (overflows_readLeqU8 (k := 4) (by omega)) (triple_readLeqU8 (k := 4) (by omega)) ?_
  rintro u2 precMo ⟨rfl, hprec⟩
  simp only [Nat.add_sub_cancel]
  split
  · exact .err _
  rename_i hne
  refine .bind (overflows_readLeqU16 (k := 5) (by omega)) (triple_readLeqU16 (k := 5) (by omega)) ?_
  rintro u3 su ⟨rfl, hsu⟩
  refine .bind_lift (extendSignU16_ok (by omega) (by omega)) ?_
  have hsx := intToBits_signExt su (k := 5) (by omega) (by omega) hsu
  generalize hshift : (su <<< (16 - 5)).sshiftRight (16 - 5) = sh at hsx ⊢
  rw [hsx.1]
  split
  · exact .err _
  rename_i hneg
  obtain ⟨shift, hshN⟩ : ∃ n : Nat, sh.toInt = n := ⟨sh.toInt.toNat, by omega⟩
  have hs15 : shift ≤ 15 := by
    have := hsx.2.2.1
    rw [hshN] at this
    norm_num at this
    omega
  have hsh : sh = BitVec.ofInt 16 (shift : Int) := by rw [← hshN, BitVec.ofInt_toInt]
  refine .bind (overflows_readCoefficients (by omega) (by omega) order (List.replicate 32 0#16) (by simp; omega) _)
    (triple_readCoefficients (by omega) (by omega) order (List.replicate 32 0#16) (by simp; omega)) ?_
  rintro u4 arr ⟨coefs, hclen, hc, rfl, rfl⟩
  refine .bind (.withSlice ho (by omega) ((overflows_residual hbs ho _ (by simp; omega)).mono ?_))
    (Triple.withSlice ho (by omega) (triple_residual hbs ho _ (by simp; omega))
    (Q := fun u out => ∃ r : Residual, r.WellFormed buffer.length order ∧ u = r.bits ∧
      out = warm.map (BitVec.ofInt 32) ++ r.values.map resI32) (by
    rintro u out ⟨r, h1, h2, h3⟩
    refine ⟨r, h1, h2, ?_⟩
    rw [h3, List.take_left' (by simp [hwlen]), List.drop_of_length_le (by omega), List.append_nil])) ?_
  · intro u h
    rw [hshN]
    exact ⟨warm, precMo.toNat + 1, shift, coefs, u, hwlen, ho, hv, by omega, by omega, hs15, hclen, hc, h,
      by simp only [List.append_assoc, Nat.add_sub_cancel]⟩
  rintro u5 b2 ⟨r, hres, hu5, rfl⟩
  refine .bind_lift (slice_ok ⟨Nat.zero_le _, by simp; omega⟩) ?_
  rw [List.drop_zero, List.take_left' (by simp; omega)]
  obtain ⟨res, h1, h2⟩ := predictLpc_spec (prec := precMo.toNat + 1) h32 (by omega) hv hc
    (by omega) (by omega) hs15 (vals := r.values)
  rw [hsh, ← hwlen, h2, h1]
  exact .lift rfl

/-- The body of a subframe. -/
def UncountableBody (bps blockSize : Nat) : SubframeType → List Bool → Prop
  | .constant => fun _ => False
  | .verbatim => fun _ => False
  | .fixed order => UncountableFixed bps blockSize order
  | .lpc order => UncountableLpc bps blockSize order

theorem overflows_body (t : SubframeType) {bps : Nat} (h0 : 0 < bps) (h32 : bps ≤ 32) (buffer : List I32)
    (hbs : buffer.length < 2 ^ 16) (ht : TypeOk t) :
    Overflows (decodeBody t bps buffer) (UncountableBody bps buffer.length t) := by
  cases t with
  | constant =>
    simp only [decodeBody, decodeConstant_eq]
    exact .bind_pure (overflows_sampleStep h0 h32)
  | verbatim => exact overflows_verbatim h0 h32 buffer
  | fixed n => exact overflows_fixed h0 h32 ht buffer hbs
  | lpc n => exact overflows_lpc h0 h32 ht.1 ht.2 buffer hbs

theorem addU_one_overflow {k : Nat} (h : 2 ^ 32 ≤ 1 + k) : addU 32 1 k = panicRes .overflow := by
  unfold addU
  rw [if_neg (by omega)]
  rfl

/-- The number of wasted bits. -/
def UncountableWasted (u : List Bool) : Prop :=
  ∃ next : Bool, u = true :: List.replicate (2 ^ 32 - 1) false ++ [next]

theorem replicate_last {m n : Nat} (h : m + 1 = n) :
    List.replicate n false = List.replicate m false ++ [false] := by
  rw [← h, List.replicate_add]; rfl

theorem overflows_wasted : Overflows wastedDec UncountableWasted := by
  refine .bind overflows_readBit triple_readBit ?_
  rintro u a rfl
  cases a with
  | false => exact .pure _
  | true =>
    rw [if_neg (by decide)]
    intro b hb b' h
    have h1 := overflows_readUnary b hb
    have h2 := triple_readUnary b hb
    rw [Dec.bind_def] at h
    generalize readUnary b = x at h h1 h2
    rcases x with ⟨r, b1⟩
    cases r with
    | error e1 =>
      simp only [Prod.mk.injEq, Except.error.injEq] at h
      obtain ⟨rfl, rfl⟩ := h
      obtain ⟨used, rest, h3, rfl⟩ := h1 b1 rfl
      refine ⟨_, rest, h3, false, ?_⟩
      rw [replicate_last (show (2 ^ 32 - 1) + 1 = 2 ^ 32 by norm_num)]
      rfl
    | ok k =>
      obtain ⟨_, _, u, h3, rfl, h4⟩ := h2
      simp only at h
      rcases Nat.lt_or_ge (1 + k) (2 ^ 32) with hlt | hge
      · rw [Dec.liftM_of (addU_ok hlt)] at h
        cases h
      · obtain rfl : k = 2 ^ 32 - 1 := by omega
        exact ⟨_, _, h3, true, rfl⟩

theorem failsOn_wastedZeros {u : List Bool} (h : UncountableWasted u) : FailsOn wastedDec u (.panic .overflow) := by
  obtain ⟨next, rfl⟩ := h
  rw [show true :: List.replicate (2 ^ 32 - 1) false ++ [next] = [true] ++ (List.replicate (2 ^ 32 - 1) false ++ [next])
    from rfl]
  refine FailsOn.bind (reads_readBit true) ?_
  rw [if_neg (by decide)]
  cases next with
  | true =>
    have hr : Reads readUnary (unaryBits (2 ^ 32 - 1)) (2 ^ 32 - 1) := reads_readUnary (by norm_num)
    have hf : FailsOn (liftM (addU 32 1 (2 ^ 32 - 1)) : Dec (Bitstream Flat) Nat) [] (.panic .overflow) := by
      rw [addU_one_overflow (by norm_num)]
      exact FailsOn.fail _
    have := FailsOn.bind (f := fun k => (liftM (addU 32 1 k) : Dec (Bitstream Flat) Nat)) hr hf
    rw [List.append_nil] at this
    exact this
  | false =>
    rw [← replicate_last (show (2 ^ 32 - 1) + 1 = 2 ^ 32 by norm_num)]
    exact FailsOn.bind_left _ failsOn_zeros

theorem uncountable_of_body {bps bs wasted : Nat} {t : SubframeType} (ht : TypeOk t) (hw : wasted < bps)
    {bits : List Bool} (h : UncountableBody (bps - wasted) bs t bits) :
    UncountableSubframe bps bs (subframeHeaderBits (codeOf t) wasted ++ bits) := by
  cases t with
  | constant => exact absurd h id
  | verbatim => exact absurd h id
  | fixed order =>
    obtain ⟨warm, bits, h1, h2, h3, h4, rfl⟩ := h
    subst h1
    rw [← List.append_assoc]
    exact .fixedResidual warm wasted hw ht h2 h3 bits h4
  | lpc order =>
    obtain ⟨warm, p, s, cs, bits, h1, h2, h3, h4, h5, h6, h7, h8, h9, rfl⟩ := h
    subst h1
    simp only [← List.append_assoc]
    exact .lpcResidual warm wasted p s cs hw ht.1 ht.2 h2 h3 h4 h5 h6 h7 h8 bits h9

theorem overflows_subframe {bps : Nat} (h32 : bps ≤ 32) (buffer : List I32) (hbs : buffer.length < 2 ^ 16) :
    Overflows (decodeSubframe bps buffer) (UncountableSubframe bps buffer.length) := by
  refine .bind_lift (debugAssert_ok (decide_eq_true h32)) ?_
  have hhead : Triple readSubframeHeader (fun u h => h.wastedBitsPerSample ≤ 31 ∧ TypeOk h.sfType ∧
      ∃ code, code < 2 ^ 6 ∧ ¬ ReservedType code ∧ codeOf h.sfType = code ∧
        u = subframeHeaderBits code h.wastedBitsPerSample) := by
    rw [readSubframeHeader_eq]
    apply triple_readBit.bind
    rintro u1 pad rfl
    cases pad with
    | true => exact Triple.err _
    | false =>
      simp only [Bool.false_eq_true, if_false]
      apply (triple_readLeqU8 (k := 6) (by omega)).bind
      rintro u2 n ⟨rfl, hn⟩
      rcases subframeType_cases hn with ⟨_, h⟩ | ⟨hr, h1, h2, h⟩
      · rw [BitVec.ofNat_toNat, BitVec.setWidth_eq] at h
        rw [h]
        exact Triple.bind (P := fun _ _ => False) (Triple.err _) (fun _ _ h => absurd h id)
      · rw [BitVec.ofNat_toNat, BitVec.setWidth_eq] at h
        rw [h, pure_bind]
        apply triple_wasted.bind
        rintro u4 k rfl
        split
        · exact Triple.err _
        · apply Triple.pure
          exact ⟨by simp only; omega, h1, n.toNat, hn, hr, h2, by simp [subframeHeaderBits]⟩
  refine .bind ?_ hhead ?_
  · rw [readSubframeHeader_eq]
    refine .bind overflows_readBit triple_readBit ?_
    rintro u1 pad rfl
    cases pad with
    | true => exact .err _
    | false =>
      simp only [Bool.false_eq_true, if_false]
      refine .bind (overflows_readLeqU8 (k := 6) (by omega)) (triple_readLeqU8 (k := 6) (by omega)) ?_
      rintro u2 n ⟨rfl, hn⟩
      rcases subframeType_cases hn with ⟨hr, h⟩ | ⟨hr, h1, h2, h⟩
      · rw [BitVec.ofNat_toNat, BitVec.setWidth_eq] at h
        rw [h]
        exact .bind (P := fun _ _ => False) (.err _) (Triple.err _) (fun _ _ h => absurd h id)
      · rw [BitVec.ofNat_toNat, BitVec.setWidth_eq] at h
        rw [h, pure_bind]
        refine .bind (overflows_wasted.mono ?_) triple_wasted_lt ?_
        · rintro u ⟨next, rfl⟩
          have := UncountableSubframe.wasted (bps := bps) (blockSize := buffer.length) n.toNat hn hr next
          rw [List.append_assoc] at this
          exact this
        · rintro u4 k ⟨rfl, hk⟩
          split
          · exact .err _
          · exact .pure _
  rintro u1 h ⟨h31, ht, code, h6, hr, hcode, rfl⟩
  split
  · exact .err _
  rename_i hlt
  refine .bind ((overflows_body h.sfType (show 0 < bps - h.wastedBitsPerSample by omega) (by omega) buffer hbs ht).mono
    ?_) (triple_body h.sfType (show 0 < bps - h.wastedBitsPerSample by omega) (by omega) buffer hbs ht) ?_
  · intro u hb
    rw [← hcode]
    exact uncountable_of_body ht (by omega) hb
  · rintro u2 out _
    split
    · exact .bind_lift (debugAssert_ok (decide_eq_true h31)) (.pure _)
    · exact .pure _

theorem bad_of_uncountable {bps bs : Nat} (h32 : bps ≤ 32) (hbs : bs < 2 ^ 16) {bits : List Bool}
    (h : UncountableSubframe bps bs bits) : BadSubframe bps bs bits (.panic .overflow) := by
  cases h with
  | wasted code h6 ht next =>
    intro buffer _
    unfold decodeSubframe
    refine FailsOn.bind_lift (debugAssert_ok (decide_eq_true h32)) (FailsOn.bind_left _ ?_)
    rw [readSubframeHeader_eq, List.append_assoc]
    show FailsOn _ ([false] ++ (natToBits 6 code ++ (true :: List.replicate (2 ^ 32 - 1) false ++ [next]))) _
    refine FailsOn.bind (reads_readBit false) ?_
    simp only [Bool.false_eq_true, if_false]
    refine FailsOn.bind (reads_readLeqU8 (k := 6) (by omega) h6) ?_
    rw [type_of_code h6 ht, pure_bind]
    exact FailsOn.bind_left _ (failsOn_wastedZeros ⟨next, rfl⟩)
  | fixedResidual warmUp wasted hw h4 hl hv bits h =>
    rw [List.append_assoc]
    refine bad_fixed h32 hw h4 fun buffer hb => ?_
    unfold decodeFixed
    rw [if_neg (by omega)]
    refine FailsOn.bind (Reads.withSlice (Nat.zero_le _) (by omega)
      (reads_verbatim (by omega) (by omega) warmUp hv _ (slice_head (by omega)))) ?_
    simp only [List.take_zero, List.nil_append]
    have hlen : (warmUp.map (BitVec.ofInt 32) ++ buffer.drop warmUp.length).length = buffer.length := by
      simp; omega
    rw [hlen, hb, Nat.mod_eq_of_lt hbs]
    exact FailsOn.bind_left _ (FailsOn.withSlice hl (by omega)
      (failsOn_uncountableResidual hbs hl _ (by simp; omega) h))
  | lpcResidual warmUp wasted precision shift coefs hw h1 ho hl hv hp1 hp15 hs hlen hc bits h =>
    simp only [List.append_assoc]
    refine bad_lpc h32 hw h1 ho fun buffer hb => ?_
    unfold decodeLpc
    refine FailsOn.bind_lift (debugAssert_ok (decide_eq_true ho)) ?_
    rw [if_neg (by omega)]
    refine FailsOn.bind (Reads.withSlice (Nat.zero_le _) (by omega)
      (reads_verbatim (by omega) (by omega) warmUp hv _ (slice_head (by omega)))) ?_
    simp only [List.take_zero, List.nil_append]
    have hlen' : (warmUp.map (BitVec.ofInt 32) ++ buffer.drop warmUp.length).length = buffer.length := by
      simp; omega
    rw [hlen', hb, Nat.mod_eq_of_lt hbs]
    refine FailsOn.bind (reads_readLeqU8 (k := 4) (by omega) (show precision - 1 < 2 ^ 4 by omega)) ?_
    simp only [toNat_ofNat8 (show precision - 1 < 256 by omega)]
    rw [if_neg (by omega)]
    refine FailsOn.bind (reads_readLeqU16 (by omega) (emod_toNat_lt shift 5)) ?_
    refine FailsOn.bind_lift (shift5 hs).1 ?_
    rw [(shift5 hs).2, if_neg (by omega), show precision - 1 + 1 = precision by omega, ← hlen]
    refine FailsOn.bind (reads_readCoefficients (by omega) (by omega) coefs (List.replicate 32 0#16) hc
      (by simp; omega)) ?_
    rw [hlen]
    exact FailsOn.bind_left _ (FailsOn.withSlice hl (by omega)
      (failsOn_uncountableResidual hbs hl _ (by simp; omega) h))

/-! ### The channels of a frame -/

theorem overflows_slice {bps bs : Nat} (h32 : bps ≤ 32) (hbs : bs < 2 ^ 16) {pre mid post : List I32}
    (hm : mid.length = bs) {a b : Nat} (ha : a = pre.length) (hb : b = pre.length + bs) :
    Overflows (withSlice (pre ++ mid ++ post) a b (decodeSubframe bps)) (UncountableSubframe bps bs) := by
  have e2 : ((pre ++ mid ++ post).take b).drop a = mid := by
    have e1 : (pre ++ mid ++ post).take b = pre ++ mid := by
      rw [hb, ← hm, ← List.length_append, List.take_left]
    rw [e1, ha, List.drop_left]
  refine Overflows.withSlice (by omega) (by simp; omega) ?_
  rw [e2, ← hm]
  exact overflows_subframe h32 mid (by omega)

/-- After some subframes, there is one with too many zeros. -/
def UncountableChannels (depths : List Nat) (bs : Nat) (u : List Bool) : Prop :=
  ∃ (good : List Subframe) (d : Nat) (bad : List Bool),
    (∀ p ∈ List.zip depths good, p.2.WellFormed p.1 bs) ∧ depths[good.length]? = some d ∧
    UncountableSubframe d bs bad ∧ u = (List.zipWith Subframe.bits depths good).flatten ++ bad

theorem UncountableChannels.head {d bs : Nat} {depths : List Nat} {u : List Bool}
    (h : UncountableSubframe d bs u) : UncountableChannels (d :: depths) bs u :=
  ⟨[], d, u, by simp, rfl, h, by simp⟩

theorem UncountableChannels.tail {d bs : Nat} {depths : List Nat} {u : List Bool} {s : Subframe}
    (hs : s.WellFormed d bs) (h : UncountableChannels depths bs u) :
    UncountableChannels (d :: depths) bs (s.bits d ++ u) := by
  obtain ⟨good, d', bad, h1, h2, h3, rfl⟩ := h
  refine ⟨s :: good, d', bad, ?_, by simpa using h2, h3, by simp⟩
  intro p hp
  rw [List.zip_cons_cons] at hp
  rcases List.mem_cons.1 hp with rfl | hp
  · exact hs
  · exact h1 p hp

theorem overflows_decodeIndependent {bps bs : Nat} (h32 : bps ≤ 32) (hbs : bs < 2 ^ 16) (n : Nat) :
    ∀ (ch : Nat) (pre rest : List I32), pre.length = ch * bs → rest.length = n * bs →
    Overflows (decodeIndependent bps bs n ch (pre ++ rest)) (UncountableChannels (List.replicate n bps) bs) := by
  induction n with
  | zero => intro ch pre rest _ _; exact .pure _
  | succ n ih =>
    intro ch pre rest h1 h2
    rw [Nat.add_mul, Nat.one_mul] at h2
    have hm : (rest.take bs).length = bs := by rw [List.length_take]; omega
    have hb : (ch + 1) * bs = pre.length + bs := by rw [h1]; ring
    have ht := triple_slice h32 hbs (pre := pre) (mid := rest.take bs) (post := rest.drop bs) hm
      (a := ch * bs) h1.symm hb
    have hr := overflows_slice h32 hbs (pre := pre) (mid := rest.take bs) (post := rest.drop bs) hm
      (a := ch * bs) h1.symm hb
    rw [List.append_assoc, List.take_append_drop] at ht hr
    rw [List.replicate_succ]
    show Overflows (withSlice _ _ _ _ >>= _) _
    refine .bind (hr.mono fun _ h => .head h) ht ?_
    rintro _ _ ⟨s, hs, rfl, rfl⟩
    refine (ih (ch + 1) (pre ++ subSamples bs s) (rest.drop bs) ?_ ?_).mono fun _ h => .tail hs h
    · rw [List.length_append, subSamples, length_toI32, length_samplesWith _ hs, h1]
      ring
    · rw [List.length_drop]; omega

theorem overflows_decodePair {d1 d2 bs : Nat} (h1 : d1 ≤ 32) (h2 : d2 ≤ 32) (hbs : bs < 2 ^ 16)
    (g : List I32 → List I32) {buffer : List I32} (hb : buffer.length = 2 * bs) :
    Overflows (do
      let buffer ← withSlice buffer 0 bs (decodeSubframe d1)
      let buffer ← withSlice buffer bs (bs * 2) (decodeSubframe d2)
      withSlice buffer 0 (bs * 2) fun b => pure (g b)) (UncountableChannels [d1, d2] bs) := by
  have hm : (buffer.take bs).length = bs := by rw [List.length_take]; omega
  have ht := triple_slice h1 hbs (pre := []) (mid := buffer.take bs) (post := buffer.drop bs) hm
    (a := 0) (b := bs) rfl (by simp)
  have hr := overflows_slice h1 hbs (pre := []) (mid := buffer.take bs) (post := buffer.drop bs) hm
    (a := 0) (b := bs) rfl (by simp)
  rw [List.nil_append, List.take_append_drop] at ht hr
  refine .bind (hr.mono fun _ h => .head h) ht ?_
  rintro _ _ ⟨s, hs, rfl, rfl⟩
  have ls : (subSamples bs s).length = bs := by
    rw [subSamples, length_toI32, length_samplesWith _ hs]
  have hm2 : (buffer.drop bs).length = bs := by rw [List.length_drop]; omega
  have ht2 := triple_slice h2 hbs (pre := subSamples bs s) (mid := buffer.drop bs) (post := []) hm2
    (a := bs) (b := bs * 2) (by omega) (by omega)
  have hr2 := overflows_slice h2 hbs (pre := subSamples bs s) (mid := buffer.drop bs) (post := []) hm2
    (a := bs) (b := bs * 2) (by omega) (by omega)
  simp only [List.append_nil] at ht2 hr2
  simp only [List.nil_append]
  refine .bind (hr2.mono fun _ h => .tail hs (.head h)) ht2 ?_
  rintro _ _ ⟨t, ht, rfl, rfl⟩
  have lt : (subSamples bs t).length = bs := by
    rw [subSamples, length_toI32, length_samplesWith _ ht]
  exact .withSlice (by omega) (by simp; omega) (.pure _)

theorem overflows_decodeChannels (ch : ChannelField) {bps bs : Nat} (hbps : bps ≤ 31) (hbs : bs < 2 ^ 16)
    {buffer : List I32} (hb : buffer.length = ch.count * bs) :
    Overflows (decodeChannels (caOf ch) bps bs buffer) (UncountableChannels (ch.depths bps) bs) := by
  cases ch with
  | independent n => exact overflows_decodeIndependent (by omega) hbs (n.val + 1) 0 [] buffer (by simp) hb
  | leftSide => exact overflows_decodePair (d1 := bps) (d2 := bps + 1) (by omega) (by omega) hbs decodeLeftSide hb
  | rightSide => exact overflows_decodePair (d1 := bps + 1) (d2 := bps) (by omega) (by omega) hbs decodeRightSide hb
  | midSide => exact overflows_decodePair (d1 := bps) (d2 := bps + 1) (by omega) (by omega) hbs decodeMidSide hb

/-! ### Frames -/

/-- From bits to bytes. -/
theorem Overflows.withBitstream {m : Dec (Bitstream Flat) α} {Q : List Bool → Prop} (h : Overflows m Q) (s : Flat)
    {s' : Flat} (he : withBitstream m s = (.error (.panic .overflow), s')) :
    ∃ bytes rest, s.bytes = bytes ++ rest ∧ ∃ used more, bytesToBits bytes = used ++ more ∧ more.length < 8 ∧
      Q used := by
  have h1 := h (Bitstream.new s) (Bitstream.inv_new s)
  unfold Claxon.withBitstream at he
  generalize m (Bitstream.new s) = x at he h1
  rcases x with ⟨r, b'⟩
  simp only [Prod.mk.injEq] at he
  obtain ⟨rfl, rfl⟩ := he
  obtain ⟨used, rest, h2, h3⟩ := h1 b' rfl
  rw [Bitstream.bits_new] at h2
  have hlen : 8 * s.bytes.length = used.length + rest.length := by
    have := congrArg List.length h2
    rwa [length_bytesToBits, List.length_append] at this
  obtain ⟨n, hn1, hn2⟩ : ∃ n, used.length ≤ 8 * n ∧ 8 * n < used.length + 8 := ⟨(used.length + 7) / 8, by omega, by omega⟩
  have hn3 : n ≤ s.bytes.length := by omega
  refine ⟨s.bytes.take n, s.bytes.drop n, by simp, used, rest.take (8 * n - used.length), ?_, ?_, h3⟩
  · have e1 : bytesToBits (s.bytes.take n) = (bytesToBits s.bytes).take (8 * n) := by
      conv_rhs => rw [← List.take_append_drop n s.bytes, bytesToBits_append]
      rw [List.take_left' (by rw [length_bytesToBits, List.length_take, Nat.min_eq_left hn3])]
    rw [e1, h2, List.take_append, List.take_of_length_le hn1]
  · rw [List.length_take]; omega

/-- If the frame reader overflows, there are too many zeros. -/
theorem uncountable_frame (buffer : VecI32) (s : Flat) {s' : Flat}
    (h : readNextOrEof buffer s = (.error (.panic .overflow), s')) : Uncountable s.bytes := by
  rw [readNextOrEof_flat, Dec.bind_def] at h
  have hh := header_reads s
  rw [readFrameHeaderOrEof_flat] at hh
  generalize flatHeader s.bytes s = x at hh h
  rcases x with ⟨e1 | _ | hd, s1⟩
  · simp only [Prod.mk.injEq, Except.error.injEq] at h
    obtain ⟨rfl, rfl⟩ := h
    exact absurd hh id
  · cases h
  · obtain ⟨hf1, hdr, hw, rfl, hs⟩ := hh
    simp only [flatBody] at h
    have h1 := size_bounds hdr.blockSize
    rw [show (headerOf hdr).bitsPerSample = hdr.sampleSize.bits from rfl] at h
    rcases hsz : hdr.sampleSize.bits with _ | bps
    · rw [hsz] at h
      cases h
    rw [hsz] at h
    have hb := bits_bounds hsz
    simp only at h
    rw [Dec.bind_liftM_of (debugAssert_ok (decide_eq_true (by omega)))] at h
    have hlen : (ensureBufferLen buffer ((headerOf hdr).channels * (headerOf hdr).blockSize)).data.length =
        hdr.channels.count * (headerOf hdr).blockSize := by rw [length_ensureBufferLen, channels_headerOf]
    have hbs : (headerOf hdr).blockSize < 2 ^ 16 := by show hdr.blockSize.size < _; omega
    have ht := BTriple.withBitstream (triple_decodeChannels hdr.channels (bps := bps) (by omega) hbs hlen) s1
    have hrf := fun s' => Overflows.withBitstream (overflows_decodeChannels hdr.channels (bps := bps) (by omega) hbs hlen)
      s1 (s' := s')
    rw [show (headerOf hdr).channelAssignment = caOf hdr.channels from rfl, Dec.bind_def] at h
    generalize withBitstream (decodeChannels (caOf hdr.channels) bps (headerOf hdr).blockSize
        (ensureBufferLen buffer ((headerOf hdr).channels * (headerOf hdr).blockSize)).data) s1 = y at ht hrf h
    rcases y with ⟨e1 | data, s2⟩
    · simp only [Prod.mk.injEq, Except.error.injEq] at h
      obtain ⟨rfl, rfl⟩ := h
      obtain ⟨body, rest, hu, used, more, hbody, hmore, good, d, bad, g1, g2, g3, rfl⟩ := hrf s2 rfl
      exact ⟨hdr.bytes ++ body, rest, by rw [hs, hu, List.append_assoc],
          .subframe hdr bps hw hsz good g1 d g2 bad g3 more hmore body hbody⟩
    · obtain ⟨hf2, used, hu, bits, pad, hub, hpad, subs, hcount, hsubs, rfl, rfl⟩ := ht
      simp only [Dec.bind_get_run] at h
      rw [Dec.bind_def] at h
      have hcrc := btriple_readBeU16 (lim := .never) s2
      generalize (readBeU16 : Dec Flat U16) s2 = z at hcrc h
      rcases z with ⟨e1 | p, s3⟩
      · simp only [Prod.mk.injEq, Except.error.injEq] at h
        obtain ⟨rfl, rfl⟩ := h
        exact absurd hcrc id
      · simp only at h
        split at h
        · cases h
        · have hbody : Frame.bodyBits bps ⟨hdr, subs, pad⟩ = bytesToBits used := by rw [hub]; rfl
          have hfw : Frame.WellFormed bps ⟨hdr, subs, pad⟩ :=
            { header := hw
              sampleSize := hsz
              count := hcount
              subframes := hsubs
              padding := hpad
              aligned := by rw [hbody, length_bytesToBits]; omega }
          rw [Dec.bind_liftM_of (frameTime_ok _ hw)] at h
          rw [Dec.bind_liftM_of (show Block.new hdr.time (headerOf hdr).blockSize
              { data := toI32 (hdr.channels.decorrelate Arith.wrap32.wrap
                  (subs.map (Subframe.samplesWith .wrap32 (headerOf hdr).blockSize))).flatten
                cap := (ensureBufferLen buffer ((headerOf hdr).channels *
                  (headerOf hdr).blockSize)).cap } = .ok (blockOf ⟨hdr, subs, pad⟩ buffer) by
            rw [channels_headerOf]; exact block_new hfw buffer)] at h
          cases h

/-- Too many zeros make the frame reader overflow. -/
theorem frame_uncountable {bytes : List U8} (h : Uncountable bytes) (buffer : VecI32) (fault : Option Nat) :
    (readNextOrEof buffer (⟨bytes, fault⟩ : Flat)).1 = .error (.panic .overflow) := by
  obtain ⟨used, rest, rfl, h⟩ := h
  cases h with
  | subframe h bps hw hs good hg depth hd bad hb more hm body hbody =>
    have h1 := size_bounds h.blockSize
    have h32 : depth ≤ 32 := by
      have := bits_bounds hs
      have := depths_le (List.mem_of_getElem? hd)
      omega
    rw [List.append_assoc]
    refine failsOn_badFrame hw hs hg hd (bad_of_uncountable h32 (by omega) hb) (more := more ++ bytesToBits rest) ?_
      buffer fault
    rw [bytesToBits_append, hbody]
    simp only [List.append_assoc]

end Claxon
