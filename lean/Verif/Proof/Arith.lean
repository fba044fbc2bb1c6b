import Verif.Spec.Checked
import Verif.Model.Subframe
import Verif.Spec.Subframe
import Verif.Proof.Dec
import Verif.Proof.Bits
import Verif.Proof.Bitstream
import Mathlib.Tactic.Ring
import Mathlib.Tactic.Linarith

/-! Integer arithmetic: sign extension, Rice residuals, and the two's complement operations of the
decoder. -/

namespace Claxon

open Spec

theorem two_pow_split {k w : Nat} (h : k ≤ w) : 2 ^ w = 2 ^ k * 2 ^ (w - k) := by
  rw [← Nat.pow_add]; congr 1; omega

/-! ### Folding -/

theorem unfold_fold (r : Int) : unfold (fold r) = r := by
  unfold fold unfold
  split <;> split <;> omega

theorem fold_unfold (u : Nat) : fold (unfold u) = u := by
  unfold fold unfold
  split <;> split <;> omega

theorem fold_lt {r : Int} : fold r < 2 ^ 32 ↔ FitsIn 32 r := by
  unfold fold FitsIn
  split <;> omega

theorem residual_wrap32 {r : Int} (h : FitsIn 32 r) : Arith.wrap32.residual r = r := by
  show unfold (fold r % 2 ^ 32) = r
  rw [Nat.mod_eq_of_lt (fold_lt.2 h), unfold_fold]

theorem unfold_fits (u : Nat) : FitsIn 32 (unfold (u % 2 ^ 32)) := by
  rw [← fold_lt, fold_unfold]; exact Nat.mod_lt _ (by decide)

/-! ### Sign extension -/

theorem shl_sar_toInt {w : Nat} (x : BitVec w) {k : Nat} (hk0 : 0 < k) (hk : k ≤ w) :
    ((x <<< (w - k)).sshiftRight (w - k)).toInt = (x.toNat : Int).bmod (2 ^ k) := by
  rw [BitVec.toInt_sshiftRight, BitVec.toInt_shiftLeft, Int.shiftRight_eq_div_pow, Nat.shiftLeft_eq]
  have hw : (2 : Nat) ^ w = 2 ^ k * 2 ^ (w - k) := two_pow_split hk
  have hk2 : (2 : Nat) ^ k = 2 * 2 ^ (k - 1) := by
    rw [show k = (k - 1) + 1 by omega, Nat.pow_succ]; simp; omega
  have hP : 0 < 2 ^ (w - k) := Nat.two_pow_pos _
  have hh : 0 < 2 ^ (k - 1) := Nat.two_pow_pos _
  rw [hw]
  generalize 2 ^ (w - k) = P at *
  rw [hk2]
  generalize 2 ^ (k - 1) = h at *
  generalize x.toNat = n
  have hPi : (0 : Int) < P := by omega
  rw [Int.bmod_def, Int.bmod_def]
  have e1 : ((n * P : Nat) : Int) % ((2 * h * P : Nat) : Int) = ((n : Int) % ((2 * h : Nat) : Int)) * P := by
    push_cast
    rw [mul_comm (n : Int), mul_comm (2 * (h : Int)), Int.mul_emod_mul_of_pos _ _ hPi, mul_comm]
  rw [e1]
  have e2 : (((2 * h * P : Nat) : Int) + 1) / 2 = (h : Int) * P := by
    have : ((2 * h * P : Nat) : Int) = 2 * ((h : Int) * P) := by push_cast; ring
    omega
  have e3 : (((2 * h : Nat) : Int) + 1) / 2 = (h : Int) := by omega
  rw [e2, e3]
  by_cases c : (n : Int) % ((2 * h : Nat) : Int) < h
  · rw [if_pos c, if_pos (Int.mul_lt_mul_of_pos_right c hPi), Int.mul_ediv_cancel _ (by omega)]
  · rw [if_neg c, if_neg]
    · have : (n : Int) % ((2 * h : Nat) : Int) * P - ((2 * h * P : Nat) : Int) =
          ((n : Int) % ((2 * h : Nat) : Int) - ((2 * h : Nat) : Int)) * P := by push_cast; ring
      rw [this, Int.mul_ediv_cancel _ (by omega)]
    · intro c'
      exact c (lt_of_mul_lt_mul_right c' (by omega))

theorem extendSignU32_ok {x : U32} {k : Nat} (hk0 : 0 < k) (hk : k ≤ 32) :
    extendSignU32 x k = .ok ((x <<< (32 - k)).sshiftRight (32 - k)) := by
  simp only [extendSignU32, subU_ok hk]
  show (shl x (32 - k) >>= fun up => sar up (32 - k)) = _
  rw [shl_ok (by omega)]
  exact sar_ok (by omega)

theorem extendSignU16_ok {x : U16} {k : Nat} (hk0 : 0 < k) (hk : k ≤ 16) :
    extendSignU16 x k = .ok ((x <<< (16 - k)).sshiftRight (16 - k)) := by
  simp only [extendSignU16, subU_ok hk]
  show (shl x (16 - k) >>= fun up => sar up (16 - k)) = _
  rw [shl_ok (by omega)]
  exact sar_ok (by omega)

theorem fitsIn_two_pow {k : Nat} (hk : 0 < k) : (2 : Int) ^ k = 2 * 2 ^ (k - 1) := by
  rw [show k = (k - 1) + 1 by omega, Int.pow_succ]; simp; omega

theorem toNat_emod (v : Int) (k : Nat) : ((v % (2 ^ k : Int)).toNat : Int) = v % 2 ^ k := by
  rw [Int.toNat_of_nonneg]
  exact Int.emod_nonneg _ (by have := Nat.two_pow_pos k; positivity)

theorem emod_toNat_lt (v : Int) (k : Nat) : (v % (2 ^ k : Int)).toNat < 2 ^ k := by
  have h1 := toNat_emod v k
  have h2 : v % (2 : Int) ^ k < 2 ^ k := Int.emod_lt_of_pos _ (by positivity)
  rw [← h1] at h2
  exact_mod_cast h2

theorem bmod_of_fits {k : Nat} {v : Int} (h : FitsIn k v) : v.bmod (2 ^ k) = v := by
  obtain ⟨h1, h2, h3⟩ := h
  have hk2 : (2 : Nat) ^ k = 2 * 2 ^ (k - 1) := by
    rw [show k = (k - 1) + 1 by omega, Nat.pow_succ]; simp; omega
  have h1' : -((2 ^ (k - 1) : Nat) : Int) ≤ v := by push_cast; exact h1
  have h2' : v < ((2 ^ (k - 1) : Nat) : Int) := by push_cast; exact h2
  rw [hk2]
  generalize 2 ^ (k - 1) = p at *
  apply Int.bmod_eq_of_le <;> omega

theorem fits_bmod {k : Nat} (hk : 0 < k) (v : Int) : FitsIn k (v.bmod (2 ^ k)) := by
  have hk2 : (2 : Nat) ^ k = 2 * 2 ^ (k - 1) := by
    rw [show k = (k - 1) + 1 by omega, Nat.pow_succ]; simp; omega
  have hp : 0 < 2 ^ (k - 1) := Nat.two_pow_pos _
  have h1 : -((2 ^ (k - 1) : Nat) : Int) ≤ v.bmod (2 ^ k) := by
    rw [hk2]
    have := @Int.le_bmod v (2 * 2 ^ (k - 1)) (by omega)
    push_cast at this ⊢
    omega
  have h2 : v.bmod (2 ^ k) < ((2 ^ (k - 1) : Nat) : Int) := by
    rw [hk2]
    have := @Int.bmod_lt v (2 * 2 ^ (k - 1)) (by omega)
    push_cast at this ⊢
    omega
  push_cast at h1 h2
  exact ⟨h1, h2, hk⟩

/-- The sign extension of the field that holds `v`. -/
theorem signExt_field {w k : Nat} {v : Int} (hk0 : 0 < k) (hk : k ≤ w) (hv : FitsIn k v) :
    ((BitVec.ofNat w (v % (2 ^ k : Int)).toNat <<< (w - k)).sshiftRight (w - k)) =
      BitVec.ofInt w v := by
  apply BitVec.eq_of_toInt_eq
  rw [shl_sar_toInt _ hk0 hk, BitVec.toNat_ofNat, BitVec.toInt_ofInt]
  have hlt := emod_toNat_lt v k
  rw [Nat.mod_eq_of_lt (Nat.lt_of_lt_of_le hlt (Nat.pow_le_pow_right (by omega) hk)), toNat_emod]
  have e1 : (v % 2 ^ k).bmod (2 ^ k) = v := by
    rw [show ((2 : Int) ^ k) = ((2 ^ k : Nat) : Int) by push_cast; rfl, Int.emod_bmod, bmod_of_fits hv]
  rw [e1, bmod_of_fits]
  obtain ⟨h1, h2, h3⟩ := hv
  have : (2 : Int) ^ (k - 1) ≤ 2 ^ (w - 1) := by
    apply pow_le_pow_right₀ (by omega) (by omega)
  exact ⟨by omega, by omega, by omega⟩

/-- What the bits of an unsigned field mean after sign extension. -/
theorem intToBits_signExt {w k : Nat} (x : BitVec w) (hk0 : 0 < k) (hk : k ≤ w)
    (hx : x.toNat < 2 ^ k) :
    natToBits k x.toNat =
      intToBits k ((x <<< (w - k)).sshiftRight (w - k)).toInt ∧
    FitsIn k ((x <<< (w - k)).sshiftRight (w - k)).toInt := by
  rw [shl_sar_toInt _ hk0 hk]
  constructor
  · unfold intToBits
    congr 1
    have : (x.toNat : Int).bmod (2 ^ k) % (2 ^ k : Int) = x.toNat := by
      rw [show ((2 : Int) ^ k) = ((2 ^ k : Nat) : Int) by push_cast; rfl, Int.bmod_emod]
      rw [← Int.natCast_mod, Nat.mod_eq_of_lt hx]
    rw [this]; simp
  · exact fits_bmod hk0 _

theorem riceToSigned_toInt (v : U32) : (riceToSigned v).toInt = unfold v.toNat := by
  have hlt := v.isLt
  have hhalf : (v >>> 1).toNat = v.toNat / 2 := by
    rw [BitVec.toNat_ushiftRight, Nat.shiftRight_eq_div_pow]
  have hhalf' : (v >>> 1).toInt = (v.toNat / 2 : Nat) := by
    rw [BitVec.toInt_eq_toNat_of_lt (by rw [hhalf]; omega), hhalf]
  have hext := shl_sar_toInt v (k := 1) (by omega) (by omega)
  simp only [Nat.add_one_sub_one] at hext
  unfold riceToSigned unfold
  split
  · rename_i h
    have hext : (v <<< 31).sshiftRight 31 = 0#32 := by
      apply BitVec.eq_of_toInt_eq
      rw [hext, Int.bmod_def]; simp; omega
    rw [hext]
    simp only [BitVec.xor_zero]
    rw [hhalf']
  · rename_i h
    have hext : (v <<< 31).sshiftRight 31 = BitVec.allOnes 32 := by
      apply BitVec.eq_of_toInt_eq
      rw [hext, Int.bmod_def]; simp; omega
    rw [hext]
    simp only [BitVec.xor_allOnes]
    rw [BitVec.toInt_not, hhalf]
    rw [show ((2 : Int) ^ 32 - 1 - ((v.toNat / 2 : Nat) : Int)) =
      (-((v.toNat / 2 : Nat) : Int) - 1) + ((2 ^ 32 : Nat) : Int) by push_cast; omega,
      Int.add_bmod_right, bmod_of_fits]
    unfold FitsIn; omega

theorem riceToSigned_eq (u : Nat) :
    riceToSigned (BitVec.ofNat 32 u) = BitVec.ofInt 32 (unfold (u % 2 ^ 32)) := by
  apply BitVec.eq_of_toInt_eq
  rw [riceToSigned_toInt, BitVec.toNat_ofNat, BitVec.toInt_ofInt, bmod_of_fits (unfold_fits u)]

/-- Joining quotient and remainder. -/
theorem shl_or_ofNat {k q r : Nat} (hk : k < 32) (hr : r < 2 ^ k) :
    (BitVec.ofNat 32 q <<< k ||| BitVec.ofNat 32 r) = BitVec.ofNat 32 (q * 2 ^ k + r) := by
  apply BitVec.eq_of_toNat_eq
  have hw : (2 : Nat) ^ 32 = 2 ^ k * 2 ^ (32 - k) := two_pow_split (by omega)
  have hr' : r < 2 ^ 32 := Nat.lt_of_lt_of_le hr (Nat.pow_le_pow_right (by omega) (by omega))
  rw [BitVec.toNat_or, BitVec.toNat_shiftLeft, BitVec.toNat_ofNat, BitVec.toNat_ofNat,
    BitVec.toNat_ofNat, Nat.shiftLeft_eq, Nat.mod_mul_mod, Nat.mod_eq_of_lt hr']
  rw [Nat.mul_comm q, hw, Nat.mul_mod_mul_left]
  rw [← Nat.two_pow_add_eq_or_of_lt hr]
  rw [Nat.mod_mul, Nat.mul_add_mod, Nat.mod_eq_of_lt hr, Nat.mul_add_div (Nat.two_pow_pos _),
    Nat.div_eq_of_lt hr]
  simp [Nat.add_comm]

end Claxon
