import Verif.Spec.Checked
import Verif.Proof.Bits
import Verif.Proof.Dec
import Verif.Spec.Crc
import Verif.Model.Crc

/-! The shift register: linearity, the look-up tables, burst errors. -/

namespace Spec

open Claxon

/-- Running the register over a bit string. -/
abbrev crcRun {n : Nat} (poly reg : BitVec n) (bits : List Bool) : BitVec n :=
  bits.foldl (crcStep poly) reg

theorem xor_left_comm' {n : Nat} (a b c : BitVec n) : a ^^^ (b ^^^ c) = b ^^^ (a ^^^ c) := by
  rw [← BitVec.xor_assoc, BitVec.xor_comm a b, BitVec.xor_assoc]

theorem xor_cancel' {n : Nat} (a b : BitVec n) : a ^^^ (a ^^^ b) = b := by
  rw [← BitVec.xor_assoc, BitVec.xor_self, BitVec.zero_xor]

theorem crcStep_xor {n : Nat} (poly a c : BitVec n) (x y : Bool) :
    crcStep poly (a ^^^ c) (x != y) = crcStep poly a x ^^^ crcStep poly c y := by
  unfold crcStep
  rw [BitVec.shiftLeft_xor_distrib, BitVec.msb_xor]
  cases a.msb <;> cases c.msb <;> cases x <;> cases y <;> simp <;>
    simp [BitVec.xor_comm, xor_left_comm', xor_cancel']

/-- The exclusive or of two bit strings. -/
def xorBits (xs ys : List Bool) : List Bool := List.zipWith (fun a b => a != b) xs ys

theorem crcRun_xor {n : Nat} (poly : BitVec n) : ∀ (xs ys : List Bool) (a c : BitVec n),
    xs.length = ys.length →
    crcRun poly (a ^^^ c) (xorBits xs ys) = crcRun poly a xs ^^^ crcRun poly c ys
  | [], [], _, _, _ => rfl
  | [], _ :: _, _, _, h => by simp at h
  | _ :: _, [], _, _, h => by simp at h
  | x :: xs, y :: ys, a, c, h => by
    have hl : xs.length = ys.length := by simpa using h
    have := crcRun_xor poly xs ys (crcStep poly a x) (crcStep poly c y) hl
    rw [← crcStep_xor] at this
    exact this

theorem xorBits_false (xs : List Bool) : xorBits xs (List.replicate xs.length false) = xs := by
  induction xs with
  | nil => rfl
  | cons x xs ih =>
    simp only [xorBits, List.length_cons, List.replicate_succ, List.zipWith_cons_cons] at ih ⊢
    rw [ih]
    simp

/-- Register and message contribute separately. -/
theorem crcRun_split {n : Nat} (poly s : BitVec n) (xs : List Bool) :
    crcRun poly s xs = crcRun poly s (List.replicate xs.length false) ^^^ crcRun poly 0#n xs := by
  have := crcRun_xor poly (List.replicate xs.length false) xs s 0#n (by simp)
  rw [BitVec.xor_zero] at this
  rw [← this]
  congr 1
  have hc : xorBits (List.replicate xs.length false) xs = xorBits xs (List.replicate xs.length false) := by
    unfold xorBits
    rw [List.zipWith_comm]
    congr 1
    funext a b
    cases a <;> cases b <;> rfl
  rw [hc, xorBits_false]

theorem crcRun_zeros_xor {n : Nat} (poly a c : BitVec n) (k : Nat) :
    crcRun poly (a ^^^ c) (List.replicate k false) =
      crcRun poly a (List.replicate k false) ^^^ crcRun poly c (List.replicate k false) := by
  have := crcRun_xor poly (List.replicate k false) (List.replicate k false) a c rfl
  rwa [show xorBits (List.replicate k false) (List.replicate k false) = List.replicate k false by
    have := xorBits_false (List.replicate k false)
    rwa [List.length_replicate] at this] at this

theorem crcRun_zero {n : Nat} (poly : BitVec n) (k : Nat) :
    crcRun poly 0#n (List.replicate k false) = 0#n := by
  induction k with
  | zero => rfl
  | succ k ih =>
    rw [List.replicate_succ]
    show crcRun poly (crcStep poly 0#n false) _ = _
    rw [show crcStep poly 0#n false = 0#n by simp [crcStep]]
    exact ih

/-! ### The tables -/

theorem crc8_table : ∀ b : U8,
    CRC8_TABLE[b.toNat]? = some (crcRun 0b00000111#8 b (List.replicate 8 false)) ∧
      crcRun 0b00000111#8 0#8 (byteBits b) = crcRun 0b00000111#8 b (List.replicate 8 false) := by
  decide +kernel

theorem crc16_table : ∀ b : U8,
    CRC16_TABLE[b.toNat]? =
      some (crcRun 0b1000000000000101#16 (b.setWidth 16 <<< 8) (List.replicate 8 false)) ∧
      crcRun 0b1000000000000101#16 0#16 (byteBits b) =
        crcRun 0b1000000000000101#16 (b.setWidth 16 <<< 8) (List.replicate 8 false) ∧
      crcRun 0b1000000000000101#16 (b.setWidth 16) (List.replicate 8 false) = b.setWidth 16 <<< 8 := by
  decide +kernel

theorem crc8Update_eq (s b : U8) :
    crc8Update s b = .ok (crcRun 0b00000111#8 s (byteBits b)) := by
  unfold crc8Update index
  rw [(crc8_table (s ^^^ b)).1]
  simp only
  rw [crcRun_split _ s, length_byteBits, (crc8_table b).2, crcRun_zeros_xor]

theorem crc16Update_eq (s : U16) (b : U8) :
    crc16Update s b = .ok (crcRun 0b1000000000000101#16 s (byteBits b)) := by
  unfold crc16Update index
  rw [(crc16_table _).1]
  show Except.ok _ = _
  congr 1
  have hs : s = ((s >>> 8).setWidth 8).setWidth 16 <<< 8 ^^^ (s.setWidth 8).setWidth 16 := by
    ext i hi
    simp only [BitVec.getElem_xor, BitVec.getElem_shiftLeft, BitVec.getElem_setWidth,
      BitVec.getLsbD_setWidth, BitVec.getLsbD_ushiftRight]
    rcases Nat.lt_or_ge i 8 with h | h
    · simp [h, BitVec.getLsbD_eq_getElem hi]
    · simp only [show ¬ i < 8 by omega, decide_false, Bool.not_false, Bool.true_and, Bool.false_and,
        Bool.xor_false, show i - 8 < 8 by omega, decide_true]
      rw [show 8 + (i - 8) = i by omega, BitVec.getLsbD_eq_getElem hi]
  have hsl : s <<< 8 = (s.setWidth 8).setWidth 16 <<< 8 := by
    ext i hi
    simp only [BitVec.getElem_shiftLeft]
    rcases Nat.lt_or_ge i 8 with h | h
    · simp [h]
    · simp [show i - 8 < 8 by omega, show i - 8 < 16 by omega]
  have h16 := crc16_table
  conv => rhs; rw [crcRun_split _ s, length_byteBits, (h16 b).2.1]
  rw [BitVec.setWidth_xor, BitVec.shiftLeft_xor_distrib, crcRun_zeros_xor, hsl]
  conv => rhs; rw [hs, crcRun_zeros_xor, (h16 _).2.2]
  simp only [BitVec.xor_comm, xor_left_comm']

theorem crc8_append (xs : List U8) (b : U8) :
    crc8 (xs ++ [b]) = crcRun 0b00000111#8 (crc8 xs) (byteBits b) := by
  unfold crc8 crcBits
  rw [bytesToBits_append, List.foldl_append]
  simp

theorem crc16_append (xs : List U8) (b : U8) :
    crc16 (xs ++ [b]) = crcRun 0b1000000000000101#16 (crc16 xs) (byteBits b) := by
  unfold crc16 crcBits
  rw [bytesToBits_append, List.foldl_append]
  simp

/-! ### Bursts -/

theorem getD_default' {l : List Bool} {i : Nat} (h : l.length ≤ i) : l.getD i false = false := by
  rw [List.getD_eq_getElem?_getD, List.getElem?_eq_none h]; rfl

theorem getD_getElem' {l : List Bool} {i : Nat} (h : i < l.length) : l.getD i false = l[i] := by
  rw [List.getD_eq_getElem?_getD, List.getElem?_eq_getElem h]; rfl

/-- If the register ends at zero after at most `n` bits, then those bits are what it held. -/
theorem crcRun_eq_zero {n : Nat} (poly : BitVec n) (hodd : poly.getLsbD 0 = true) :
    ∀ (w : List Bool) (s : BitVec n), w.length ≤ n → crcRun poly s w = 0#n →
    ∀ i, i < n → s.getMsbD i = w.getD i false
  | [], s, _, h, i, hi => by
    have : s = 0#n := h
    simp [this]
  | b :: w, s, hl, h, i, hi => by
    simp only [List.length_cons] at hl
    have ih := crcRun_eq_zero poly hodd w (crcStep poly s b) (by omega) h
    have hn : 0 < n := by omega
    have hlast := ih (n - 1) (by omega)
    rw [getD_default' (by omega)] at hlast
    have hmsb : s.msb = b := by
      by_contra hne
      have : crcStep poly s b = (s <<< 1) ^^^ poly := by
        unfold crcStep
        rw [if_pos (by simpa using hne)]
      rw [this, BitVec.getMsbD_xor, BitVec.getMsbD_eq_getLsbD, BitVec.getMsbD_eq_getLsbD] at hlast
      simp only [show n - 1 < n by omega, decide_true, Bool.true_and,
        show n - 1 - (n - 1) = 0 by omega, hodd] at hlast
      simp at hlast
    have hst : crcStep poly s b = s <<< 1 := by
      unfold crcStep
      rw [if_neg (by simp [hmsb])]
      simp
    rw [hst] at ih
    cases i with
    | zero =>
      simp only [List.getD_cons_zero]
      rw [← hmsb]
      simp [BitVec.msb]
    | succ i =>
      have := ih i (by omega)
      rw [BitVec.getMsbD_shiftLeft] at this
      simp only [List.getD_cons_succ]
      rw [← this, Nat.add_comm]

/-- Running the register over the bits it holds gives zero. -/
theorem crcRun_self {n : Nat} (poly : BitVec n) : ∀ (w : List Bool) (s : BitVec n),
    w.length ≤ n → (∀ i, i < n → s.getMsbD i = w.getD i false) → crcRun poly s w = 0#n
  | [], s, _, h => by
    show s = 0#n
    apply BitVec.eq_of_getMsbD_eq
    intro i hi
    rw [h i hi]
    simp
  | b :: w, s, hl, h => by
    simp only [List.length_cons] at hl
    have hmsb : s.msb = b := by
      have := h 0 (by omega)
      simpa [BitVec.msb] using this
    have hst : crcStep poly s b = s <<< 1 := by
      unfold crcStep
      rw [if_neg (by simp [hmsb])]
      simp
    show crcRun poly (crcStep poly s b) w = _
    rw [hst]
    refine crcRun_self poly w _ (by omega) ?_
    intro i hi
    rw [BitVec.getMsbD_shiftLeft]
    rcases Nat.lt_or_ge (1 + i) n with h1 | h1
    · have := h (i + 1) (by omega)
      rw [List.getD_cons_succ] at this
      rw [← this, Nat.add_comm]
    · rw [getD_default' (by omega)]
      simp [BitVec.getMsbD, show ¬ (i + 1 < n) by omega]

/-- Two messages with the same CRC that differ in at most `n` consecutive bits are equal. -/
theorem crc_burst {n : Nat} (poly : BitVec n) (hodd : poly.getLsbD 0 = true) (p u v q : List Bool)
    (hu : u.length ≤ n) (hv : v.length = u.length)
    (h : crcBits poly (p ++ u ++ q) = crcBits poly (p ++ v ++ q)) : u = v := by
  have hz : ∀ (k : Nat) (s : BitVec n), crcRun poly s (List.replicate k false) = 0#n → s = 0#n := by
    intro k
    induction k with
    | zero => intro s h; exact h
    | succ k ih =>
      intro s h
      rw [List.replicate_succ] at h
      have h1 : crcRun poly s [false] = 0#n := ih (crcStep poly s false) h
      rcases Nat.eq_zero_or_pos n with rfl | hn
      · exact BitVec.eq_of_zero_length rfl
      · have h2 := crcRun_eq_zero poly hodd [false] s hn h1
        apply BitVec.eq_of_getMsbD_eq
        intro i hi
        rw [h2 i hi]
        cases i <;> simp
  have hrun : ∀ w, crcBits poly (p ++ w ++ q) = crcRun poly (crcRun poly (crcBits poly p) w) q := by
    intro w
    unfold crcBits crcRun
    rw [List.foldl_append, List.foldl_append]
  rw [hrun, hrun, crcRun_split poly _ q, crcRun_split poly (crcRun poly (crcBits poly p) v) q] at h
  have h1 : crcRun poly (crcRun poly (crcBits poly p) u ^^^ crcRun poly (crcBits poly p) v)
      (List.replicate q.length false) = 0#n := by
    rw [crcRun_zeros_xor]
    have := (BitVec.xor_left_inj _).1 h
    rw [this, BitVec.xor_self]
  have h2 := hz _ _ h1
  rw [← crcRun_xor poly u v _ _ hv.symm, BitVec.xor_self] at h2
  have h3 := crcRun_eq_zero poly hodd (xorBits u v) 0#n (by simp [xorBits]; omega) h2
  apply List.ext_getElem hv.symm
  intro i h4 h5
  have := h3 i (by omega)
  rw [getD_getElem' (by simp [xorBits]; omega)] at this
  simp only [xorBits, List.getElem_zipWith] at this
  simpa using this.symm

end Spec
