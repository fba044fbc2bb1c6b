import Verif.Proof.Bytes
import Verif.Spec.Frame
import Mathlib.Tactic.IntervalCases

/-! Coded numbers in frame headers. -/

namespace Claxon

open Spec ReadBytes

/-- What the loop over the leading ones finds, for every first byte. -/
theorem leadingOnes_spec (b : U8) :
    ((leadingOnesLoop b 8 0 127#8 128#8).1 = 0 ∧ b.toNat < 128 ∧
      (b &&& (leadingOnesLoop b 8 0 127#8 128#8).2).toNat = b.toNat) ∨
    ((leadingOnesLoop b 8 0 127#8 128#8).1 = 1 ∧ 128 ≤ b.toNat ∧ b.toNat < 192) ∨
    (2 ≤ (leadingOnesLoop b 8 0 127#8 128#8).1 ∧ (leadingOnesLoop b 8 0 127#8 128#8).1 ≤ 8 ∧
      b.toNat = 256 - 2 ^ (8 - (leadingOnesLoop b 8 0 127#8 128#8).1) +
        (b &&& (leadingOnesLoop b 8 0 127#8 128#8).2).toNat ∧
      (b &&& (leadingOnesLoop b 8 0 127#8 128#8).2).toNat <
        2 ^ (7 - (leadingOnesLoop b 8 0 127#8 128#8).1)) := by
  revert b
  decide +kernel

theorem continuation_byte (b : U8) :
    (b &&& 0b1100_0000#8 = 0b1000_0000#8 ↔ b.toNat = 128 + (b &&& 0b0011_1111#8).toNat) ∧
      (b &&& 0b0011_1111#8).toNat = b.toNat % 64 := by
  revert b
  decide +kernel

theorem continuationBytes_add (n w x : Nat) :
    continuationBytes n (w * 64 ^ n + x) = continuationBytes n x := by
  have : ∀ k, k ≤ n → continuationBytes k (w * 64 ^ n + x) = continuationBytes k x := by
    intro k hk
    induction k with
    | zero => rfl
    | succ k ih =>
      simp only [continuationBytes]
      rw [ih (by omega)]
      congr 3
      obtain ⟨d, rfl⟩ : ∃ d, n = k + 1 + d := ⟨n - (k + 1), by omega⟩
      have e : w * 64 ^ (k + 1 + d) + x = 64 ^ k * (64 * (w * 64 ^ d)) + x := by
        rw [Nat.pow_add, Nat.pow_succ]; ring
      rw [e, Nat.mul_add_div (Nat.pow_pos (by omega)), Nat.mul_add_mod]
  exact this n (Nat.le_refl _)

theorem continuationBytes_mod (n v : Nat) : continuationBytes n (v % 64 ^ n) = continuationBytes n v := by
  conv_rhs => rw [← Nat.div_add_mod v (64 ^ n), Nat.mul_comm]
  rw [continuationBytes_add]

theorem pow64 (n : Nat) : 64 ^ n = 2 ^ (6 * n) := by rw [Nat.pow_mul]

/-- Adding six more bits. -/
theorem varint_step {i : Nat} (hi : i ≤ 6) {r : U64} {w d : Nat} (hr : r.toNat = w * 64 ^ (i + 1))
    (hd : d < 64) {x : U8} (hx : x.toNat = d) :
    (r ||| (x.setWidth 64 : U64) <<< (6 * i)).toNat = (w * 64 + d) * 64 ^ i := by
  have hlt : d * 64 ^ i < 64 ^ (i + 1) := by
    rw [Nat.pow_succ, Nat.mul_comm]
    exact Nat.mul_lt_mul_of_pos_left hd (Nat.pow_pos (by omega))
  have h64 : (64 : Nat) ^ (i + 1) ≤ 2 ^ 42 := by
    rw [pow64]; exact Nat.pow_le_pow_right (by omega) (by omega)
  have hs : ((x.setWidth 64 : U64) <<< (6 * i)).toNat = d * 64 ^ i := by
    rw [BitVec.toNat_shiftLeft, BitVec.toNat_setWidth, hx, Nat.shiftLeft_eq, ← pow64,
      Nat.mod_eq_of_lt (a := d) (by omega), Nat.mod_eq_of_lt (by omega)]
  rw [BitVec.toNat_or, hs, hr, pow64 (i + 1), Nat.mul_comm w,
    ← Nat.two_pow_add_eq_or_of_lt (by rw [← pow64]; exact hlt), ← pow64, Nat.pow_succ]
  ring

theorem breads_varLengthLoop (v : Nat) : ∀ (i : Nat), i ≤ 7 → ∀ (r : U64) (w : Nat),
    r.toNat = w * 64 ^ i → w * 64 ^ i + v % 64 ^ i < 2 ^ 64 →
    BReads (varLengthLoop i r) (continuationBytes i v) (BitVec.ofNat 64 (w * 64 ^ i + v % 64 ^ i)) := by
  intro i
  induction i with
  | zero =>
    intro _ r w hr _
    refine (BReads.pure r).congr rfl ?_
    apply BitVec.eq_of_toNat_eq
    have := r.isLt
    simp [Nat.mod_one] at hr ⊢
    omega
  | succ i ih =>
    intro hi r w hr hlt
    have hbyte : (BitVec.ofNat 8 (128 + v / 64 ^ i % 64)).toNat = 128 + v / 64 ^ i % 64 := by
      rw [BitVec.toNat_ofNat, Nat.mod_eq_of_lt (by omega)]
    obtain ⟨hc1, hc2⟩ := continuation_byte (BitVec.ofNat 8 (128 + v / 64 ^ i % 64))
    simp only [varLengthLoop, continuationBytes]
    refine (breads_readU8 _).bind (cs := continuationBytes i v) ?_
    rw [if_neg (by rw [not_not]; exact hc1.2 (by rw [hc2, hbyte]; omega))]
    apply BReads.bind_lift (shl_ok (by omega))
    have hstep := varint_step (by omega : i ≤ 6) hr (d := v / 64 ^ i % 64) (by omega)
      (x := BitVec.ofNat 8 (128 + v / 64 ^ i % 64) &&& 63#8) (by rw [hc2, hbyte]; omega)
    have hval : w * 64 ^ (i + 1) + v % 64 ^ (i + 1) =
        (w * 64 + v / 64 ^ i % 64) * 64 ^ i + v % 64 ^ i := by
      rw [Nat.pow_succ, Nat.mod_mul]
      ring
    rw [hval] at hlt ⊢
    exact ih (by omega) _ _ hstep hlt

theorem btriple_varLengthLoop : ∀ (i : Nat), i ≤ 7 → ∀ (r : U64) (w : Nat),
    r.toNat = w * 64 ^ i → (w + 1) * 64 ^ i ≤ 2 ^ 64 →
    BTriple .never (varLengthLoop i r) (fun u a => ∃ x, x < 64 ^ i ∧ u = continuationBytes i x ∧
      a.toNat = w * 64 ^ i + x) := by
  intro i
  induction i with
  | zero =>
    intro _ r w hr _
    exact .pure ⟨0, by simp, rfl, by simpa using hr⟩
  | succ i ih =>
    intro hi r w hr hlt
    simp only [varLengthLoop]
    apply btriple_readU8.bind
    rintro _ b rfl
    obtain ⟨hc1, hc2⟩ := continuation_byte b
    apply BTriple.ite
    · intro _; exact .err _
    · intro hb
      rw [not_not] at hb
      apply BTriple.bind_lift (shl_ok (by omega))
      have hd : (b &&& 63#8).toNat < 64 := by rw [hc2]; omega
      have hstep := varint_step (by omega : i ≤ 6) hr hd rfl
      refine (ih (by omega) _ _ hstep ?_).mono ?_
      · refine Nat.le_trans ?_ hlt
        rw [Nat.pow_succ, Nat.mul_comm (64 ^ i), ← Nat.mul_assoc]
        exact Nat.mul_le_mul_right _ (by omega)
      · rintro _ a ⟨x, hx, rfl, ha⟩
        refine ⟨(b &&& 63#8).toNat * 64 ^ i + x, ?_, ?_, ?_⟩
        · rw [Nat.pow_succ]
          calc _ < (b &&& 63#8).toNat * 64 ^ i + 64 ^ i := by omega
            _ = ((b &&& 63#8).toNat + 1) * 64 ^ i := by ring
            _ ≤ 64 * 64 ^ i := Nat.mul_le_mul_right _ hd
            _ = _ := by ring
        · simp only [continuationBytes]
          rw [continuationBytes_add]
          have e : ((b &&& 63#8).toNat * 64 ^ i + x) / 64 ^ i % 64 = (b &&& 63#8).toNat := by
            rw [Nat.mul_comm, Nat.mul_add_div (Nat.pow_pos (by omega)), Nat.div_eq_of_lt hx]
            omega
          rw [e, ← hc1.1 hb]
          simp
        · rw [ha, Nat.pow_succ]; ring

/-- The part of `v` that goes into the first byte. -/
theorem codedNumber_top {n v : Nat} (h : CodedNumberAccepted n v) :
    n ≤ 7 ∧ v / 64 ^ n < (if n = 0 then 128 else 2 ^ (6 - n)) := by
  rcases h with ⟨hn, hv⟩ | ⟨rfl, hv⟩
  · refine ⟨by omega, ?_⟩
    interval_cases n <;> simp only [codedNumberBits] at hv ⊢ <;> norm_num at hv ⊢ <;> omega
  · refine ⟨Nat.le_refl _, ?_⟩
    norm_num
    omega

theorem codedNumber_accepted {n v : Nat} (hn : n ≤ 7)
    (h : v / 64 ^ n < (if n = 0 then 128 else 2 ^ (6 - n))) : CodedNumberAccepted n v := by
  rcases Nat.lt_or_ge n 7 with h7 | h7
  · refine .inl ⟨by omega, ?_⟩
    interval_cases n <;> simp only [codedNumberBits] at h ⊢ <;> norm_num at h ⊢ <;> omega
  · obtain rfl : n = 7 := by omega
    refine .inr ⟨rfl, ?_⟩
    norm_num at h
    omega

theorem codedNumber_lt {n v : Nat} (h : CodedNumberAccepted n v) : v < 2 ^ 42 := by
  rcases h with ⟨hn, hv⟩ | ⟨rfl, hv⟩
  · refine Nat.lt_of_lt_of_le hv (Nat.pow_le_pow_right (by omega) ?_)
    unfold codedNumberBits; split <;> omega
  · exact hv

theorem firstByte {n v : Nat} (h : CodedNumberAccepted n v) :
    (BitVec.ofNat 8 ((if n = 0 then 0 else 256 - 2 ^ (7 - n)) + v / 64 ^ n)).toNat =
      (if n = 0 then 0 else 256 - 2 ^ (7 - n)) + v / 64 ^ n := by
  obtain ⟨hn, ht⟩ := codedNumber_top h
  rw [BitVec.toNat_ofNat, Nat.mod_eq_of_lt]
  generalize v / 64 ^ n = t at ht
  interval_cases n <;> norm_num at ht ⊢ <;> omega

theorem breads_readVarLengthInt {n v : Nat} (h : CodedNumberAccepted n v) :
    BReads readVarLengthInt (codedNumber n v) (BitVec.ofNat 64 v) := by
  have hb := firstByte h
  obtain ⟨hn, ht⟩ := codedNumber_top h
  have hv := codedNumber_lt h
  unfold readVarLengthInt codedNumber
  refine (breads_readU8 _).bind (cs := continuationBytes n v) ?_
  have hspec := leadingOnes_spec
    (BitVec.ofNat 8 ((if n = 0 then 0 else 256 - 2 ^ (7 - n)) + v / 64 ^ n))
  generalize BitVec.ofNat 8 ((if n = 0 then 0 else 256 - 2 ^ (7 - n)) + v / 64 ^ n) = b at hb hspec ⊢
  generalize leadingOnesLoop b 8 0 127#8 128#8 = p at hspec ⊢
  rcases p with ⟨ones, mask⟩
  simp only at hspec ⊢
  have key : ones ≠ 1 ∧ ones - 1 = n ∧ (b &&& mask).toNat = v / 64 ^ n := by
    generalize v / 64 ^ n = t at ht hb ⊢
    rcases hspec with ⟨h1, h2, h3⟩ | ⟨h1, h2, h3⟩ | ⟨h1, h2, h3, h4⟩
    · rw [h3, hb]
      interval_cases n <;> norm_num at ht hb ⊢ <;> omega
    · interval_cases n <;> norm_num at ht hb ⊢ <;> omega
    · generalize (b &&& mask).toNat = m at h3 h4 ⊢
      rw [hb] at h3
      interval_cases n <;> interval_cases ones <;> norm_num at ht h3 h4 ⊢ <;> omega
  obtain ⟨k1, k2, k3⟩ := key
  rw [if_neg k1, k2]
  apply BReads.bind_lift (shl_ok (by omega))
  have hr : ((b &&& mask).setWidth 64 <<< (6 * n) : U64).toNat = v / 64 ^ n * 64 ^ n := by
    rw [BitVec.toNat_shiftLeft, BitVec.toNat_setWidth, k3, Nat.shiftLeft_eq, ← pow64,
      Nat.mod_eq_of_lt (a := v / 64 ^ n)]
    · apply Nat.mod_eq_of_lt
      have := Nat.div_mul_le_self v (64 ^ n)
      omega
    · have := Nat.div_le_self v (64 ^ n); omega
  have hdm : v / 64 ^ n * 64 ^ n + v % 64 ^ n = v := by
    rw [Nat.mul_comm]; exact Nat.div_add_mod _ _
  have := breads_varLengthLoop v n hn _ _ hr (by rw [hdm]; omega)
  rwa [hdm] at this

theorem btriple_readVarLengthInt : BTriple .never (readVarLengthInt : Dec Flat U64)
    (fun u a => ∃ n, CodedNumberAccepted n a.toNat ∧ u = codedNumber n a.toNat) := by
  unfold readVarLengthInt
  apply btriple_readU8.bind
  rintro _ b rfl
  have hspec := leadingOnes_spec b
  generalize leadingOnesLoop b 8 0 127#8 128#8 = p at hspec ⊢
  rcases p with ⟨ones, mask⟩
  simp only at hspec ⊢
  by_cases h1 : ones = 1
  · rw [if_pos h1]; exact .err _
  rw [if_neg h1]
  have key : ones - 1 ≤ 7 ∧
      (b &&& mask).toNat < (if ones - 1 = 0 then 128 else 2 ^ (6 - (ones - 1))) ∧
      b.toNat = (if ones - 1 = 0 then 0 else 256 - 2 ^ (7 - (ones - 1))) + (b &&& mask).toNat := by
    rcases hspec with ⟨h1, h2, h3⟩ | ⟨h1, _, _⟩ | ⟨h1, h2, h3, h4⟩
    · subst h1; rw [h3]; simp; omega
    · omega
    · generalize (b &&& mask).toNat = m at h3 h4 ⊢
      interval_cases ones <;> norm_num at h3 h4 ⊢ <;> omega
  obtain ⟨k1, k2, k3⟩ := key
  generalize ones - 1 = n at k1 k2 k3 ⊢
  apply BTriple.bind_lift (shl_ok (by omega))
  have h64 : ((b &&& mask).toNat + 1) * 64 ^ n ≤ 2 ^ 42 := by
    generalize (b &&& mask).toNat = m at k2 ⊢
    interval_cases n <;> norm_num at k2 ⊢ <;> omega
  have hr : ((b &&& mask).setWidth 64 <<< (6 * n) : U64).toNat = (b &&& mask).toNat * 64 ^ n := by
    have hm := (b &&& mask).isLt
    rw [BitVec.toNat_shiftLeft, BitVec.toNat_setWidth, Nat.shiftLeft_eq, ← pow64,
      Nat.mod_eq_of_lt (a := (b &&& mask).toNat) (by omega)]
    apply Nat.mod_eq_of_lt
    rw [Nat.add_mul] at h64
    omega
  refine (btriple_varLengthLoop n k1 _ _ hr (Nat.le_trans h64 (by norm_num))).mono ?_
  rintro _ a ⟨x, hx, rfl, ha⟩
  have hdiv : a.toNat / 64 ^ n = (b &&& mask).toNat := by
    rw [ha, Nat.mul_comm, Nat.mul_add_div (Nat.pow_pos (by omega)), Nat.div_eq_of_lt hx]
    omega
  refine ⟨n, codedNumber_accepted k1 (by rw [hdiv]; exact k2), ?_⟩
  unfold codedNumber
  rw [hdiv, ← k3, ha, continuationBytes_add]
  simp

/-- A coded number of minimal length is one that is accepted. -/
theorem codedNumberOk_shortest {v : Nat} (h : v < 2 ^ 36) : CodedNumberOk (shortestLength v) v := by
  unfold shortestLength
  refine ⟨?_, ?_⟩
  · repeat' split
    all_goals omega
  · repeat' split
    all_goals assumption

end Claxon
