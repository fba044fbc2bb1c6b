import Verif.Proof.Crc
import Verif.Spec.CrcPoly
import Mathlib.Tactic.Ring
import Mathlib.Tactic.NormNum
import Mathlib.Tactic.LinearCombination
import Mathlib.Data.ZMod.Basic
import Mathlib.Algebra.Polynomial.Monic

/-! The shift register computes the remainder of polynomial division. -/

namespace Spec

open Polynomial Claxon

theorem bitsPoly_append_one (xs : List Bool) (b : Bool) :
    bitsPoly (xs ++ [b]) = bitsPoly xs * X + (if b then 1 else 0) := by
  simp [bitsPoly, List.foldl_append]

/-- The polynomial of a register. -/
noncomputable def regPoly {n : Nat} (s : BitVec n) : (ZMod 2)[X] :=
  ∑ i ∈ Finset.range n, if s.getLsbD i then X ^ i else 0

theorem two_poly : (2 : (ZMod 2)[X]) = 0 := by
  calc (2 : (ZMod 2)[X]) = C 1 + C 1 := by rw [map_one]; norm_num
    _ = C (1 + 1) := (map_add _ _ _).symm
    _ = C 0 := by rw [show (1 + 1 : ZMod 2) = 0 by decide]
    _ = 0 := map_zero _

theorem regPoly_xor {n : Nat} (a b : BitVec n) : regPoly (a ^^^ b) = regPoly a + regPoly b := by
  unfold regPoly
  rw [← Finset.sum_add_distrib]
  refine Finset.sum_congr rfl ?_
  intro i _
  rw [BitVec.getLsbD_xor]
  cases a.getLsbD i <;> cases b.getLsbD i <;> simp
  have h := two_poly
  linear_combination (-(X : (ZMod 2)[X]) ^ i) * h

theorem regPoly_shift {n : Nat} (s : BitVec n) :
    regPoly (s <<< 1) + (if s.msb then X ^ n else 0) = regPoly s * X := by
  cases n with
  | zero => simp [regPoly, BitVec.eq_of_zero_length rfl (y := 0#0)]
  | succ n =>
    unfold regPoly
    rw [Finset.sum_range_succ', Finset.sum_range_succ, add_mul, Finset.sum_mul]
    have h1 : ∀ i ∈ Finset.range n, (if (s <<< 1).getLsbD (i + 1) then (X : (ZMod 2)[X]) ^ (i + 1) else 0)
        = (if s.getLsbD i then X ^ i else 0) * X := by
      intro i hi
      rw [Finset.mem_range] at hi
      rw [BitVec.getLsbD_shiftLeft]
      simp only [show i + 1 < n + 1 by omega, decide_true, show ¬ (i + 1 < 1) by omega, decide_false,
        Bool.not_false, Bool.true_and, Nat.add_sub_cancel]
      cases s.getLsbD i <;> simp [pow_succ]
    rw [Finset.sum_congr rfl h1]
    have h2 : (s <<< 1).getLsbD 0 = false := by simp
    rw [h2, BitVec.msb_eq_getLsbD_last]
    simp only [Nat.add_sub_cancel]
    cases s.getLsbD n <;> simp [pow_succ]

theorem regPoly_zero {n : Nat} : regPoly (0#n) = 0 := by
  simp [regPoly]

theorem degree_regPoly {n : Nat} (s : BitVec n) : (regPoly s).degree < n := by
  unfold regPoly
  refine lt_of_le_of_lt (degree_sum_le _ _) ?_
  rw [Finset.sup_lt_iff]
  · intro i hi
    rw [Finset.mem_range] at hi
    split
    · rw [degree_X_pow]
      exact_mod_cast hi
    · rw [degree_zero]
      exact WithBot.bot_lt_coe _
  · exact WithBot.bot_lt_coe _

theorem regPoly_step {n : Nat} (poly s : BitVec n) (b : Bool) : ∃ q : (ZMod 2)[X],
    regPoly s * X + (if b then 1 else 0) * X ^ n =
      regPoly (crcStep poly s b) + (X ^ n + regPoly poly) * q := by
  have h2 := two_poly
  have h := regPoly_shift s
  unfold crcStep
  rw [regPoly_xor, ← h]
  cases s.msb <;> cases b <;> simp only [bne_self_eq_false, Bool.false_eq_true, if_false, if_true,
    Bool.bne_true, Bool.bne_false, Bool.not_false, regPoly_zero]
  · exact ⟨0, by ring⟩
  · exact ⟨1, by linear_combination (-(regPoly poly)) * h2⟩
  · exact ⟨1, by linear_combination (-(regPoly poly)) * h2⟩
  · exact ⟨0, by linear_combination ((X : (ZMod 2)[X]) ^ n) * h2⟩

theorem regPoly_crc {n : Nat} (poly : BitVec n) (bits : List Bool) : ∃ q : (ZMod 2)[X],
    bitsPoly bits * X ^ n = regPoly (crcBits poly bits) + (X ^ n + regPoly poly) * q := by
  induction bits using List.reverseRecOn with
  | nil => exact ⟨0, by simp [bitsPoly, crcBits, regPoly_zero]⟩
  | append_singleton xs b ih =>
    obtain ⟨q, hq⟩ := ih
    obtain ⟨q', hq'⟩ := regPoly_step poly (crcBits poly xs) b
    refine ⟨q * X + q', ?_⟩
    rw [bitsPoly_append_one]
    have : crcBits poly (xs ++ [b]) = crcStep poly (crcBits poly xs) b := by
      simp [crcBits, List.foldl_append]
    rw [this]
    linear_combination X * hq + hq'

/-- The register holds the remainder of the division by the generator. -/
theorem crcBits_poly {n : Nat} (poly : BitVec n) (bits : List Bool) :
    regPoly (crcBits poly bits) = (bitsPoly bits * X ^ n) %ₘ (X ^ n + regPoly poly) := by
  obtain ⟨q, hq⟩ := regPoly_crc poly bits
  have hdeg := degree_regPoly poly
  have hmon : (X ^ n + regPoly poly).Monic := monic_X_pow_add hdeg
  have hd : (X ^ n + regPoly poly).degree = (n : WithBot ℕ) := by
    rw [degree_add_eq_left_of_degree_lt (by rw [degree_X_pow]; exact hdeg), degree_X_pow]
  exact (div_modByMonic_unique q _ hmon ⟨hq.symm, by rw [hd]; exact degree_regPoly _⟩).2.symm

theorem bitsPoly_natToBits (k v : Nat) :
    bitsPoly (natToBits k v) = ∑ i ∈ Finset.range k, if v.testBit i then X ^ i else 0 := by
  have gen : ∀ (k : Nat) (p : (ZMod 2)[X]),
      (natToBits k v).foldl (fun p b => p * X + (if b then 1 else 0)) p =
        p * X ^ k + ∑ i ∈ Finset.range k, if v.testBit i then X ^ i else 0 := by
    intro k
    induction k with
    | zero => intro p; simp [natToBits]
    | succ k ih =>
      intro p
      simp only [natToBits, List.foldl_cons]
      rw [ih, Finset.sum_range_succ]
      cases v.testBit k <;> simp <;> ring
  have := gen k 0
  simpa [bitsPoly] using this

theorem bitsPoly_bitvec {n : Nat} (s : BitVec n) :
    bitsPoly (natToBits n s.toNat) = regPoly s := by
  rw [bitsPoly_natToBits]
  rfl

theorem crc8Generator_eq : X ^ 8 + regPoly (0b00000111#8) = crc8Generator := by
  unfold crc8Generator regPoly
  simp only [Finset.sum_range_succ, Finset.sum_range_zero, Bool.false_eq_true, if_false, if_true,
    show (0b00000111#8).getLsbD 0 = true by decide,
    show (0b00000111#8).getLsbD 1 = true by decide,
    show (0b00000111#8).getLsbD 2 = true by decide,
    show (0b00000111#8).getLsbD 3 = false by decide,
    show (0b00000111#8).getLsbD 4 = false by decide,
    show (0b00000111#8).getLsbD 5 = false by decide,
    show (0b00000111#8).getLsbD 6 = false by decide,
    show (0b00000111#8).getLsbD 7 = false by decide]
  ring

theorem crc8_poly (bytes : List U8) :
    bitsPoly (natToBits 8 (crc8 bytes).toNat) =
      (bitsPoly (bytesToBits bytes) * X ^ 8) %ₘ crc8Generator := by
  rw [bitsPoly_bitvec, crc8, crcBits_poly, crc8Generator_eq]

theorem crc16Generator_eq : X ^ 16 + regPoly (0b1000000000000101#16) = crc16Generator := by
  unfold crc16Generator regPoly
  simp only [Finset.sum_range_succ, Finset.sum_range_zero, Bool.false_eq_true, if_false, if_true,
    show (0b1000000000000101#16).getLsbD 0 = true by decide,
    show (0b1000000000000101#16).getLsbD 1 = false by decide,
    show (0b1000000000000101#16).getLsbD 2 = true by decide,
    show (0b1000000000000101#16).getLsbD 3 = false by decide,
    show (0b1000000000000101#16).getLsbD 4 = false by decide,
    show (0b1000000000000101#16).getLsbD 5 = false by decide,
    show (0b1000000000000101#16).getLsbD 6 = false by decide,
    show (0b1000000000000101#16).getLsbD 7 = false by decide,
    show (0b1000000000000101#16).getLsbD 8 = false by decide,
    show (0b1000000000000101#16).getLsbD 9 = false by decide,
    show (0b1000000000000101#16).getLsbD 10 = false by decide,
    show (0b1000000000000101#16).getLsbD 11 = false by decide,
    show (0b1000000000000101#16).getLsbD 12 = false by decide,
    show (0b1000000000000101#16).getLsbD 13 = false by decide,
    show (0b1000000000000101#16).getLsbD 14 = false by decide,
    show (0b1000000000000101#16).getLsbD 15 = true by decide]
  ring

theorem crc16_poly (bytes : List U8) :
    bitsPoly (natToBits 16 (crc16 bytes).toNat) =
      (bitsPoly (bytesToBits bytes) * X ^ 16) %ₘ crc16Generator := by
  rw [bitsPoly_bitvec, crc16, crcBits_poly, crc16Generator_eq]

end Spec
