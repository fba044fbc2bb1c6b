import Verif.Spec.Bits
import Mathlib.Tactic.Ring
import Mathlib.Tactic.Conv

/-! Lemmas about bit strings. -/

namespace Spec

open Claxon

@[simp] theorem length_natToBits (k v : Nat) : (natToBits k v).length = k := by
  induction k with
  | zero => rfl
  | succ k ih => simp [natToBits, ih]

theorem getElem_natToBits (k v i : Nat) (h : i < (natToBits k v).length) :
    (natToBits k v)[i] = v.testBit (k - 1 - i) := by
  induction k generalizing i with
  | zero => simp at h
  | succ k ih =>
    cases i with
    | zero => simp [natToBits]
    | succ i =>
      have hi : i < (natToBits k v).length := by simpa using h
      have h1 : (natToBits (k + 1) v)[i + 1] = (natToBits k v)[i] := by simp [natToBits]
      have h2 : k + 1 - 1 - (i + 1) = k - 1 - i := by omega
      rw [h1, ih i hi, h2]

theorem natToBits_congr {k v w : Nat} (h : ∀ i < k, v.testBit i = w.testBit i) :
    natToBits k v = natToBits k w := by
  induction k with
  | zero => rfl
  | succ k ih =>
    simp only [natToBits]
    rw [h k (by omega), ih (fun i hi => h i (by omega))]

@[simp] theorem natToBits_mod (k v : Nat) : natToBits k (v % 2 ^ k) = natToBits k v := by
  apply natToBits_congr
  intro i hi
  simp [Nat.testBit_mod_two_pow, hi]

theorem natToBits_add (m n v : Nat) :
    natToBits (m + n) v = natToBits m (v / 2 ^ n) ++ natToBits n v := by
  induction m with
  | zero => simp [natToBits]
  | succ m ih =>
    have : m + 1 + n = (m + n) + 1 := by omega
    rw [this]
    simp only [natToBits, ih, List.cons_append]
    rw [Nat.testBit_div_two_pow, Nat.add_comm m n]

theorem natToBits_inj {k v w : Nat} (hv : v < 2 ^ k) (hw : w < 2 ^ k)
    (h : natToBits k v = natToBits k w) : v = w := by
  apply Nat.eq_of_testBit_eq
  intro i
  by_cases hi : i < k
  · have h1 : (natToBits k v)[k - 1 - i]'(by simp; omega) = (natToBits k w)[k - 1 - i]'(by simp; omega) := by
      simp only [h]
    rw [getElem_natToBits, getElem_natToBits] at h1
    have : k - 1 - (k - 1 - i) = i := by omega
    rwa [this] at h1
  · have hk : 2 ^ k ≤ 2 ^ i := Nat.pow_le_pow_right (by omega) (by omega)
    rw [Nat.testBit_lt_two_pow (by omega), Nat.testBit_lt_two_pow (by omega)]

theorem bitsToNat_foldl (l : List Bool) (a : Nat) :
    l.foldl (fun v b => 2 * v + b.toNat) a = a * 2 ^ l.length + bitsToNat l := by
  unfold bitsToNat
  induction l generalizing a with
  | nil => simp
  | cons b l ih =>
    simp only [List.foldl_cons, List.length_cons]
    rw [ih, ih (2 * 0 + b.toNat), Nat.pow_succ]
    ring

@[simp] theorem bitsToNat_nil : bitsToNat [] = 0 := rfl

theorem bitsToNat_cons (b : Bool) (l : List Bool) :
    bitsToNat (b :: l) = b.toNat * 2 ^ l.length + bitsToNat l := by
  have := bitsToNat_foldl l (2 * 0 + b.toNat)
  simpa [bitsToNat] using this

theorem bitsToNat_append (l m : List Bool) :
    bitsToNat (l ++ m) = bitsToNat l * 2 ^ m.length + bitsToNat m := by
  unfold bitsToNat
  rw [List.foldl_append, bitsToNat_foldl]
  rfl

theorem bitsToNat_lt (l : List Bool) : bitsToNat l < 2 ^ l.length := by
  induction l with
  | nil => simp
  | cons b l ih =>
    rw [bitsToNat_cons, List.length_cons, Nat.pow_succ]
    cases b <;> simp <;> omega

theorem bitsToNat_natToBits (k v : Nat) : bitsToNat (natToBits k v) = v % 2 ^ k := by
  induction k with
  | zero => simp [natToBits, Nat.mod_one]
  | succ k ih =>
    rw [natToBits, bitsToNat_cons, ih, length_natToBits]
    rw [Nat.mod_pow_succ, Nat.testBit_eq_decide_div_mod_eq]
    rcases Nat.mod_two_eq_zero_or_one (v / 2 ^ k) with h | h <;> simp [h]
    omega

theorem natToBits_bitsToNat (l : List Bool) : natToBits l.length (bitsToNat l) = l := by
  induction l with
  | nil => rfl
  | cons b l ih =>
    rw [List.length_cons, natToBits, bitsToNat_cons]
    have hlt := bitsToNat_lt l
    congr 1
    · rw [Nat.testBit_eq_decide_div_mod_eq, Nat.mul_comm, Nat.mul_add_div (Nat.two_pow_pos _),
        Nat.div_eq_of_lt hlt]
      cases b <;> simp
    · conv_rhs => rw [← ih]
      rw [← natToBits_mod, Nat.mul_comm, Nat.mul_add_mod, natToBits_mod]

@[simp] theorem length_byteBits (b : U8) : (byteBits b).length = 8 := by simp [byteBits]

theorem getElem_byteBits (b : U8) (i : Nat) (h : i < (byteBits b).length) :
    (byteBits b)[i] = b.getLsbD (7 - i) := by
  simp only [byteBits]
  rw [getElem_natToBits]
  rfl

@[simp] theorem bytesToBits_nil : bytesToBits [] = [] := rfl
@[simp] theorem bytesToBits_cons (b : U8) (bs : List U8) :
    bytesToBits (b :: bs) = byteBits b ++ bytesToBits bs := rfl
@[simp] theorem bytesToBits_append (as bs : List U8) :
    bytesToBits (as ++ bs) = bytesToBits as ++ bytesToBits bs := by simp [bytesToBits]

@[simp] theorem length_bytesToBits (bs : List U8) : (bytesToBits bs).length = 8 * bs.length := by
  induction bs with
  | nil => rfl
  | cons b bs ih => simp [ih]; omega

@[simp] theorem length_unaryBits (n : Nat) : (unaryBits n).length = n + 1 := by simp [unaryBits]

theorem byteBits_inj {a b : U8} (h : byteBits a = byteBits b) : a = b :=
  BitVec.eq_of_toNat_eq (natToBits_inj a.isLt b.isLt h)

theorem bytesToBits_inj {as bs : List U8} (h : bytesToBits as = bytesToBits bs) : as = bs := by
  induction as generalizing bs with
  | nil =>
    cases bs with
    | nil => rfl
    | cons b bs => have := congrArg List.length h; simp at this; omega
  | cons a as ih =>
    cases bs with
    | nil => have := congrArg List.length h; simp at this
    | cons b bs =>
      simp only [bytesToBits_cons] at h
      have := List.append_inj h (by simp)
      rw [byteBits_inj this.1, ih this.2]

theorem unaryBits_succ (n : Nat) : unaryBits (n + 1) = false :: unaryBits n := by
  simp [unaryBits, List.replicate_succ]

/-- Unary codes form a prefix code. -/
theorem unaryBits_append_inj {m n : Nat} {r s : List Bool}
    (h : unaryBits m ++ r = unaryBits n ++ s) : m = n ∧ r = s := by
  induction m generalizing n with
  | zero =>
    cases n with
    | zero => simpa [unaryBits] using h
    | succ n => simp [unaryBits, List.replicate_succ] at h
  | succ m ih =>
    cases n with
    | zero => simp [unaryBits, List.replicate_succ] at h
    | succ n =>
      rw [unaryBits_succ, unaryBits_succ] at h
      simp only [List.cons_append, List.cons.injEq, true_and] at h
      have := ih h
      exact ⟨by omega, this.2⟩

end Spec
