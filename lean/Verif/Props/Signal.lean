import Verif.Proof.Stereo
import Verif.Proof.Predict
import Verif.Proof.Subframe
import Mathlib.Data.List.GetD

/-! # C15 to C19: stereo decorrelation, residuals, sign extension and prediction -/

namespace Claxon.Props

open Claxon Spec

/-- The `i32`s with the given values. -/
def i32s (vs : List Int) : List I32 := vs.map (BitVec.ofInt 32)

/-! ## C15 -/

/-- **C15.** Left and side give back left and right, for samples of up to 31 bits. -/
theorem C15_leftSide (left right : List Int) (hlen : left.length = right.length)
    (hl : ∀ v ∈ left, FitsIn 31 v) (hr : ∀ v ∈ right, FitsIn 31 v) :
    decodeLeftSide (i32s (left ++ List.zipWith (fun l r => l - r) left right)) = i32s (left ++ right) := by
  have h := decorrelate_correlate .leftSide (channels := [left, right]) (n := left.length) (bps := 31)
    (by omega) (by simp [hlen]) (by simpa using ⟨hl, hr⟩)
  have h2 := decodeLeftSide_eq (xs := left) (ys := List.zipWith (fun l r => l - r) left right)
    (by simp [hlen])
  rw [show i32s (left ++ List.zipWith (fun l r => l - r) left right) = _ from toI32_append _ _, h2]
  simp only [ChannelField.correlate] at h
  rw [h]
  simp [toI32, i32s]

/-- **C15.** Side and right give back left and right, for samples of up to 31 bits. -/
theorem C15_rightSide (left right : List Int) (hlen : left.length = right.length)
    (hl : ∀ v ∈ left, FitsIn 31 v) (hr : ∀ v ∈ right, FitsIn 31 v) :
    decodeRightSide (i32s (List.zipWith (fun l r => l - r) left right ++ right)) =
      i32s (left ++ right) := by
  have h := decorrelate_correlate .rightSide (channels := [left, right]) (n := left.length) (bps := 31)
    (by omega) (by simp [hlen]) (by simpa using ⟨hl, hr⟩)
  have h2 := decodeRightSide_eq (xs := List.zipWith (fun l r => l - r) left right) (ys := right)
    (by simp [hlen])
  rw [show i32s (List.zipWith (fun l r => l - r) left right ++ right) = _ from toI32_append _ _, h2]
  simp only [ChannelField.correlate] at h
  rw [h]
  simp [toI32, i32s]

/-- **C15.** Mid (rounded down) and side give back left and right, for samples of up to 31 bits. -/
theorem C15_midSide (left right : List Int) (hlen : left.length = right.length)
    (hl : ∀ v ∈ left, FitsIn 31 v) (hr : ∀ v ∈ right, FitsIn 31 v) :
    decodeMidSide (i32s (List.zipWith (fun l r => (l + r) / 2) left right ++
      List.zipWith (fun l r => l - r) left right)) = i32s (left ++ right) := by
  have h := decorrelate_correlate .midSide (channels := [left, right]) (n := left.length) (bps := 31)
    (by omega) (by simp [hlen]) (by simpa using ⟨hl, hr⟩)
  have h2 := decodeMidSide_eq (xs := List.zipWith (fun l r => (l + r) / 2) left right)
    (ys := List.zipWith (fun l r => l - r) left right) (by simp [hlen])
  rw [show i32s (List.zipWith (fun l r => (l + r) / 2) left right ++
    List.zipWith (fun l r => l - r) left right) = _ from toI32_append _ _, h2]
  simp only [ChannelField.correlate] at h
  rw [h]
  simp [toI32, i32s]

example : (∀ v ∈ [2 ^ 30 - 1, -2 ^ 30, 5], FitsIn 31 v) ∧ (∀ v ∈ [-2 ^ 30, 2 ^ 30 - 1, 2], FitsIn 31 v) ∧
    decodeMidSide (i32s [-1, -1, 3, 2 ^ 31 - 1, -2 ^ 31 + 1, 3]) =
      i32s [2 ^ 30 - 1, -2 ^ 30, 5, -2 ^ 30, 2 ^ 30 - 1, 2] := by
  decide

/-! ## C16 -/

/-- **C16.** 2k is mapped to k, and 2k + 1 to -1 - k. -/
theorem C16_mapping (v : U32) : (riceToSigned v).toInt =
    if v.toNat % 2 = 0 then ((v.toNat / 2 : Nat) : Int) else -1 - ((v.toNat / 2 : Nat) : Int) := by
  rw [riceToSigned_toInt]
  unfold unfold
  split <;> omega

/-- **C16.** It is the inverse of the folding of every `i32`, so it is a bijection. -/
theorem C16_inverse (r : I32) :
    fold r.toInt < 2 ^ 32 ∧ riceToSigned (BitVec.ofNat 32 (fold r.toInt)) = r ∧
      ∀ v : U32, riceToSigned v = r → v.toNat = fold r.toInt := by
  have hlt : fold r.toInt < 2 ^ 32 := fold_lt.2 (toInt_bounds r (by omega))
  refine ⟨hlt, ?_, ?_⟩
  · rw [riceToSigned_eq, Nat.mod_eq_of_lt hlt, unfold_fold]
    exact BitVec.ofInt_toInt
  · rintro v rfl
    rw [riceToSigned_toInt, fold_unfold]

example : (riceToSigned 0xffff_ffff#32).toInt = -2 ^ 31 ∧ fold (-2 ^ 31) = 0xffff_ffff := by decide

/-! ## C17 -/

/-- **C17.** Sign extension of an `n`-bit two's complement field is the integer that was written. -/
theorem C17_u32 {n : Nat} (h1 : 1 ≤ n) (hn : n ≤ 32) {v : Int} (hv : FitsIn n v) {x : U32}
    (hx : x.toNat = bitsToNat (intToBits n v)) :
    ∃ y : I32, extendSignU32 x n = .ok y ∧ y.toInt = v := by
  refine ⟨_, extendSignU32_ok h1 hn, ?_⟩
  rw [shl_sar_toInt _ h1 hn, hx, intToBits, bitsToNat_natToBits,
    Nat.mod_eq_of_lt (emod_toNat_lt v n), toNat_emod]
  have : v % (2 : Int) ^ n = v % ((2 ^ n : Nat) : Int) := by push_cast; rfl
  rw [this, Int.emod_bmod, bmod_of_fits hv]

/-- **C17.** The 16-bit variant. -/
theorem C17_u16 {n : Nat} (h1 : 1 ≤ n) (hn : n ≤ 16) {v : Int} (hv : FitsIn n v) {x : U16}
    (hx : x.toNat = bitsToNat (intToBits n v)) :
    ∃ y : I16, extendSignU16 x n = .ok y ∧ y.toInt = v := by
  refine ⟨_, extendSignU16_ok h1 hn, ?_⟩
  rw [shl_sar_toInt _ h1 hn, hx, intToBits, bitsToNat_natToBits,
    Nat.mod_eq_of_lt (emod_toNat_lt v n), toNat_emod]
  have : v % (2 : Int) ^ n = v % ((2 ^ n : Nat) : Int) := by push_cast; rfl
  rw [this, Int.emod_bmod, bmod_of_fits hv]

example : FitsIn 5 (-9) ∧ intToBits 5 (-9) = [true, false, true, true, true] ∧
    (0b10111#32 : U32).toNat = bitsToNat (intToBits 5 (-9)) := by decide

/-! ## C18 -/

/-- The differences of consecutive elements. -/
def diffs (s : List Int) : List Int := List.zipWith (fun a b => b - a) s s.tail

/-- The finite differences of the given order. -/
def differences : (order : Nat) → List Int → List Int
  | 0, s => s
  | k + 1, s => diffs (differences k s)

theorem length_diffs (s : List Int) : (diffs s).length = s.length - 1 := by
  simp [diffs]

theorem length_differences (k : Nat) (s : List Int) : (differences k s).length = s.length - k := by
  induction k with
  | zero => rfl
  | succ k ih => rw [differences, length_diffs, ih]; omega

theorem getD_diffs {s : List Int} {i : Nat} (h : i + 1 < s.length) :
    (diffs s).getD i 0 = s.getD (i + 1) 0 - s.getD i 0 := by
  rw [List.getD_eq_getElem _ _ (by rw [length_diffs]; omega), List.getD_eq_getElem _ _ h,
    List.getD_eq_getElem _ _ (by omega)]
  simp [diffs]

/-- The `i`-th difference is the sample at `i + order` minus its prediction. -/
theorem getD_differences {order : Nat} (ho : order ≤ 4) {s : List Int} {i : Nat}
    (h : i + order < s.length) :
    (differences order s).getD i 0 =
      s.getD (i + order) 0 - fixedPrediction order (s.take (i + order)).reverse := by
  have hago : ∀ j, j < i + order →
      ago (s.take (i + order)).reverse j = s.getD (i + order - 1 - j) 0 := by
    intro j hj
    unfold ago
    rw [List.getD_eq_getElem _ _ (by simp; omega), List.getD_eq_getElem _ _ (by omega)]
    simp only [List.getElem_reverse, List.getElem_take, List.length_take]
    congr 1
    omega
  have l := length_differences
  have hc : order = 0 ∨ order = 1 ∨ order = 2 ∨ order = 3 ∨ order = 4 := by omega
  rcases hc with rfl | rfl | rfl | rfl | rfl
  · simp [differences, fixedPrediction]
  · rw [differences, getD_diffs (by rw [l]; omega)]
    simp only [fixedPrediction, differences]
    rw [hago 0 (by omega)]
    rfl
  · rw [differences, getD_diffs (by rw [l]; omega), differences,
      getD_diffs (by rw [l]; omega), getD_diffs (by rw [l]; omega)]
    simp only [fixedPrediction, differences]
    rw [hago 0 (by omega), hago 1 (by omega)]
    rw [show i + 2 - 1 - 0 = i + 1 by omega, show i + 2 - 1 - 1 = i by omega]
    ring
  · rw [differences, getD_diffs (by rw [l]; omega), differences,
      getD_diffs (by rw [l]; omega), getD_diffs (by rw [l]; omega), differences,
      getD_diffs (by rw [l]; omega), getD_diffs (by rw [l]; omega), getD_diffs (by rw [l]; omega)]
    simp only [fixedPrediction, differences]
    rw [hago 0 (by omega), hago 1 (by omega), hago 2 (by omega)]
    rw [show i + 3 - 1 - 0 = i + 2 by omega, show i + 3 - 1 - 1 = i + 1 by omega,
      show i + 3 - 1 - 2 = i by omega]
    ring
  · rw [differences, getD_diffs (by rw [l]; omega), differences,
      getD_diffs (by rw [l]; omega), getD_diffs (by rw [l]; omega), differences,
      getD_diffs (by rw [l]; omega), getD_diffs (by rw [l]; omega), getD_diffs (by rw [l]; omega),
      differences, getD_diffs (by rw [l]; omega), getD_diffs (by rw [l]; omega),
      getD_diffs (by rw [l]; omega), getD_diffs (by rw [l]; omega)]
    simp only [fixedPrediction, differences]
    rw [hago 0 (by omega), hago 1 (by omega), hago 2 (by omega), hago 3 (by omega)]
    rw [show i + 4 - 1 - 0 = i + 3 by omega, show i + 4 - 1 - 1 = i + 2 by omega,
      show i + 4 - 1 - 2 = i + 1 by omega, show i + 4 - 1 - 3 = i by omega]
    ring

/-- The value of a computed sample. -/
theorem getD_reconstruct (A : Arith) (predict : List Int → Int) : ∀ (rs past : List Int) (i : Nat),
    i < rs.length →
    (reconstruct A predict past rs).getD i 0 =
      A.wrap (predict (((reconstruct A predict past rs).take i).reverse ++ past) +
        A.residual (rs.getD i 0))
  | [], _, i, h => by simp at h
  | r :: rs, past, 0, _ => by simp [reconstruct]
  | r :: rs, past, i + 1, h => by
    simp only [reconstruct, List.getD_cons_succ, List.take_succ_cons, List.reverse_cons,
      List.append_assoc, List.cons_append, List.nil_append]
    exact getD_reconstruct A predict rs _ i (by simpa using h)

/-- A sequence that satisfies the equations is the one that is computed. -/
theorem reconstruct_unique (predict : List Int → Int) : ∀ (rs past out : List Int),
    out.length = rs.length →
    (∀ i, i < rs.length → out.getD i 0 =
      (predict ((out.take i).reverse ++ past) + rs.getD i 0).bmod (2 ^ 32)) →
    reconstruct Arith.wrapOnly predict past rs = out
  | [], _, out, hl, _ => by
    rw [List.eq_nil_of_length_eq_zero hl]; rfl
  | r :: rs, past, [], hl, _ => by simp at hl
  | r :: rs, past, o :: out, hl, h => by
    have h0 := h 0 (by simp)
    simp only [List.getD_cons_zero, List.take_zero, List.reverse_nil, List.nil_append] at h0
    simp only [reconstruct]
    have e : Arith.wrapOnly.wrap (predict past + Arith.wrapOnly.residual r) = o := by
      rw [h0]; rfl
    rw [e, reconstruct_unique predict rs (o :: past) out (by simpa using hl)]
    intro i hi
    have := h (i + 1) (by simpa using hi)
    simpa using this

/-- **C18.** For every signal of 32-bit samples and every order from 0 to 4, prediction restores the signal
from its first `order` samples and its finite differences of that order (even if these do not fit in
32 bits). -/
theorem C18_roundtrip {order : Nat} (ho : order ≤ 4) (s : List Int) (hlen : order ≤ s.length)
    (hs : ∀ v ∈ s, FitsIn 32 v) :
    predictFixed order (i32s (s.take order ++ differences order s)) = .ok (i32s s) := by
  obtain ⟨tail, h1, h2⟩ := predictFixed_spec order ho (i32s (s.take order)) (i32s (differences order s))
    (by simp [i32s, hlen])
  have e : i32s (s.take order ++ differences order s) =
      i32s (s.take order) ++ i32s (differences order s) := by simp [i32s]
  rw [e, h1]
  have hmap : ∀ xs : List Int, (∀ v ∈ xs, FitsIn 32 v) → (i32s xs).map BitVec.toInt = xs := by
    intro xs hxs
    unfold i32s
    rw [List.map_map]
    conv_rhs => rw [← List.map_id xs]
    apply List.map_congr_left
    intro v hv
    exact toInt_ofInt_fits (hxs v hv)
  have htail : tail.map BitVec.toInt = s.drop order := by
    rw [h2]
    have hL : ((i32s (differences order s)).map BitVec.toInt).length = s.length - order := by
      simp [i32s, length_differences]
    apply reconstruct_unique
    · rw [hL]; simp
    · intro i hi
      rw [hL] at hi
      rw [hmap _ (fun v hv => hs v (List.mem_of_mem_take hv)), ← List.reverse_append]
      have e2 : s.take order ++ (s.drop order).take i = s.take (i + order) := by
        rw [Nat.add_comm, List.take_add]
      rw [e2]
      have e3 : ((i32s (differences order s)).map BitVec.toInt).getD i 0 =
          ((differences order s).getD i 0).bmod (2 ^ 32) := by
        rw [List.getD_eq_getElem _ _ (by rw [hL]; omega),
          List.getD_eq_getElem _ _ (by rw [length_differences]; omega)]
        simp [i32s, BitVec.toInt_ofInt]
      rw [e3, getD_differences ho (by omega), Int.add_bmod_bmod]
      have e4 : (s.drop order).getD i 0 = s.getD (i + order) 0 := by
        rw [List.getD_eq_getElem _ _ (by simp; omega), List.getD_eq_getElem _ _ (by omega)]
        simp [Nat.add_comm]
      have e5 : FitsIn 32 (s.getD (i + order) 0) := by
        rw [List.getD_eq_getElem _ _ (by omega)]
        exact hs _ (List.getElem_mem _)
      rw [e4]
      conv_lhs => rw [← bmod_of_fits e5]
      congr 1
      ring
  congr 1
  have : tail = i32s (s.drop order) := map_toInt_inj htail
  rw [this, i32s, i32s, ← List.map_append, List.take_append_drop]
  rfl

/-- **C18.** For every buffer, valid or not, prediction keeps the first `order` samples, and the finite
differences of the result are the residuals, modulo 2^32. -/
theorem C18_differences {order : Nat} (ho : order ≤ 4) (buffer : List I32)
    (hlen : order ≤ buffer.length) :
    ∃ out : List I32, predictFixed order buffer = .ok out ∧ out.length = buffer.length ∧
      out.take order = buffer.take order ∧
      ∀ i, i < buffer.length - order →
        (2 ^ 32 : Int) ∣ (differences order (out.map BitVec.toInt)).getD i 0 -
          (buffer.map BitVec.toInt).getD (i + order) 0 := by
  obtain ⟨tail, h1, h2⟩ := predictFixed_spec order ho (buffer.take order) (buffer.drop order)
    (by simp [hlen])
  rw [List.take_append_drop] at h1
  have hL : tail.length = buffer.length - order := by
    have := congrArg List.length h2
    rw [length_reconstruct] at this
    simpa using this
  refine ⟨_, h1, by simp [hL]; omega, by rw [List.take_left' (by simp [hlen])], ?_⟩
  intro i hi
  have hfull : ((buffer.take order ++ tail).map BitVec.toInt).length = buffer.length := by
    simp [hL]; omega
  rw [getD_differences ho (by rw [hfull]; omega)]
  have e1 : ((buffer.take order ++ tail).map BitVec.toInt).take (i + order) =
      (buffer.take order).map BitVec.toInt ++ (tail.map BitVec.toInt).take i := by
    rw [List.map_append, List.take_append, List.take_of_length_le (by simp)]
    simp [hlen]
  have e2 : ((buffer.take order ++ tail).map BitVec.toInt).getD (i + order) 0 =
      (tail.map BitVec.toInt).getD i 0 := by
    rw [List.map_append, List.getD_append_right _ _ _ _ (by simp)]
    simp [hlen]
  have e3 : (buffer.map BitVec.toInt).getD (i + order) 0 =
      ((buffer.drop order).map BitVec.toInt).getD i 0 := by
    rw [List.getD_eq_getElem _ _ (by simp; omega), List.getD_eq_getElem _ _ (by simp; omega)]
    simp [Nat.add_comm]
  rw [e1, e2, e3, List.reverse_append, h2, getD_reconstruct _ _ _ _ _ (by simp; omega)]
  generalize fixedPrediction order _ = p
  generalize ((buffer.drop order).map BitVec.toInt).getD i 0 = d
  show (2 ^ 32 : Int) ∣ (p + d).bmod (2 ^ 32) - p - d
  obtain ⟨k, hk⟩ : ∃ k, (p + d).bmod (2 ^ 32) = (p + d) + 2 ^ 32 * k := by
    rw [Int.bmod_def]
    split
    · exact ⟨-((p + d) / 2 ^ 32), by push_cast; rw [Int.emod_def]; ring⟩
    · exact ⟨-((p + d) / 2 ^ 32) - 1, by push_cast; rw [Int.emod_def]; ring⟩
  exact ⟨k, by rw [hk]; ring⟩

example : differences 3 [1, 4, 2, -7, 2 ^ 31 - 1] = [-2, 2147483670] ∧
    (∀ v ∈ [1, 4, 2, -7, 2 ^ 31 - 1], FitsIn 32 v) ∧
    predictFixed 3 (i32s [1, 4, 2, -2, 2147483670]) = .ok (i32s [1, 4, 2, -7, 2 ^ 31 - 1]) := by
  decide

/-! ## C19 -/

/-- What the format prescribes: the first samples are the warm-up samples, and every other one is the
residual plus the linear prediction from the preceding samples; the result is taken modulo 2^32. -/
structure LpcOf (coefs : List Int) (shift : Nat) (buffer out : List I32) : Prop where
  length : out.length = buffer.length
  warmUp : out.take coefs.length = buffer.take coefs.length
  sample : ∀ n, coefs.length ≤ n → n < buffer.length →
    (out.map BitVec.toInt).getD n 0 =
      ((buffer.map BitVec.toInt).getD n 0 +
        (List.zipWith (· * ·) coefs ((out.map BitVec.toInt).take n).reverse).sum / 2 ^ shift).bmod (2 ^ 32)

theorem lpcOf {coefs : List Int} {shift : Nat} {buffer tail : List I32}
    (hlen : coefs.length ≤ buffer.length)
    (h : tail.map BitVec.toInt = reconstruct Arith.wrapOnly (linearPrediction coefs shift)
      ((buffer.take coefs.length).map BitVec.toInt).reverse
      ((buffer.drop coefs.length).map BitVec.toInt)) :
    LpcOf coefs shift buffer (buffer.take coefs.length ++ tail) := by
  have hL : tail.length = buffer.length - coefs.length := by
    have := congrArg List.length h
    rw [length_reconstruct] at this
    simpa using this
  refine ⟨by simp [hL]; omega, by rw [List.take_left' (by simp [hlen])], ?_⟩
  intro n hn hn'
  obtain ⟨i, rfl⟩ : ∃ i, n = i + coefs.length := ⟨n - coefs.length, by omega⟩
  have e1 : ((buffer.take coefs.length ++ tail).map BitVec.toInt).take (i + coefs.length) =
      (buffer.take coefs.length).map BitVec.toInt ++ (tail.map BitVec.toInt).take i := by
    rw [List.map_append, List.take_append, List.take_of_length_le (by simp)]
    simp [hlen]
  have e2 : ((buffer.take coefs.length ++ tail).map BitVec.toInt).getD (i + coefs.length) 0 =
      (tail.map BitVec.toInt).getD i 0 := by
    rw [List.map_append, List.getD_append_right _ _ _ _ (by simp)]
    simp [hlen]
  have e3 : (buffer.map BitVec.toInt).getD (i + coefs.length) 0 =
      ((buffer.drop coefs.length).map BitVec.toInt).getD i 0 := by
    rw [List.getD_eq_getElem _ _ (by simp; omega), List.getD_eq_getElem _ _ (by simp; omega)]
    simp [Nat.add_comm]
  rw [e1, e2, e3, List.reverse_append, h, getD_reconstruct _ _ _ _ _ (by simp; omega)]
  show Int.bmod (_ + _) (2 ^ 32) = _
  rw [Int.add_comm]
  rfl

/-- **C19.** For every order from 1 to 32, every shift from 0 to 15 and all coefficients, warm-up samples
and residuals, prediction computes what the format prescribes, and never overflows (an overflow would be a
panic). The coefficients are stored in reverse order; the path for orders up to 12 and the one for higher
orders satisfy the same equation. -/
theorem C19_lpc (coefs : List I16) (h32 : coefs.length ≤ 32) (shift : I16)
    (hs : 0 ≤ shift.toInt ∧ shift.toInt ≤ 15) (buffer : List I32) (hlen : coefs.length ≤ buffer.length) :
    ∃ out, (if coefs.length ≤ 12 then predictLpcLowOrder coefs.reverse shift buffer
        else predictLpcHighOrder coefs.reverse shift buffer) = .ok out ∧
      LpcOf (coefs.map BitVec.toInt) shift.toInt.toNat buffer out := by
  have hshift : shift.toInt = shift.toInt.toNat := by omega
  have key : ∃ tail, (if coefs.length ≤ 12 then predictLpcLowOrder coefs.reverse shift buffer
        else predictLpcHighOrder coefs.reverse shift buffer) =
          .ok (buffer.take (coefs.map BitVec.toInt).length ++ tail) ∧
      tail.map BitVec.toInt = reconstruct Arith.wrapOnly
        (linearPrediction (coefs.map BitVec.toInt) shift.toInt.toNat)
        ((buffer.take (coefs.map BitVec.toInt).length).map BitVec.toInt).reverse
        ((buffer.drop (coefs.map BitVec.toInt).length).map BitVec.toInt) := by
    by_cases h12 : coefs.length ≤ 12
    · obtain ⟨tail, h1, h2⟩ := predictLpcLowOrder_spec coefs.reverse (by simpa using h12)
        shift.toInt.toNat shift hshift (by omega) (buffer.take coefs.length) (buffer.drop coefs.length)
        (by simp [hlen])
      rw [List.take_append_drop] at h1
      rw [← List.map_reverse, List.reverse_reverse] at h2
      rw [if_pos h12, List.length_map]
      exact ⟨tail, h1, h2⟩
    · obtain ⟨tail, h1, h2⟩ := predictLpcHighOrder_spec coefs.reverse (by simp; omega)
        (by simpa using h32) shift.toInt.toNat shift hshift (by omega) (buffer.take coefs.length)
        (buffer.drop coefs.length) (by simp [hlen])
      rw [List.take_append_drop] at h1
      rw [← List.map_reverse, List.reverse_reverse] at h2
      rw [if_neg h12, List.length_map]
      exact ⟨tail, h1, h2⟩
  obtain ⟨tail, h1, h2⟩ := key
  exact ⟨_, h1, lpcOf (by simpa using hlen) h2⟩

/-- **C19.** The equation determines the result, so the specialised path and the general one agree with each
other, and with any other implementation of the format. -/
theorem C19_determined {coefs : List Int} {shift : Nat} {buffer out₁ out₂ : List I32}
    (h₁ : LpcOf coefs shift buffer out₁) (h₂ : LpcOf coefs shift buffer out₂) : out₁ = out₂ := by
  have key : ∀ n, n ≤ buffer.length → out₁.take n = out₂.take n := by
    intro n
    induction n with
    | zero => intro _; rfl
    | succ n ih =>
      intro hn
      have ih := ih (by omega)
      have l1 := h₁.length
      have l2 := h₂.length
      by_cases hc : coefs.length ≤ n
      · have e1 := h₁.sample n hc (by omega)
        have e2 := h₂.sample n hc (by omega)
        rw [← List.map_take, ih, List.map_take, ← e2, List.getD_eq_getElem _ _ (by simp; omega),
          List.getD_eq_getElem _ _ (by simp; omega), List.getElem_map, List.getElem_map] at e1
        rw [List.take_succ_eq_append_getElem (by omega), List.take_succ_eq_append_getElem (by omega), ih,
          BitVec.eq_of_toInt_eq e1]
      · have e1 := congrArg (List.take (n + 1)) h₁.warmUp
        have e2 := congrArg (List.take (n + 1)) h₂.warmUp
        rw [List.take_take, List.take_take, Nat.min_eq_left (by omega)] at e1 e2
        rw [e1, e2]
  have := key buffer.length (Nat.le_refl _)
  rwa [List.take_of_length_le (by rw [h₁.length]), List.take_of_length_le (by rw [h₂.length])] at this

/-- Extreme coefficients and samples: 32767 * (2^31 - 1) - 32768 * (-2^31), shifted by 15. -/
example : predictLpcLowOrder [-32768#16, 32767#16] 15#16 (i32s [-2 ^ 31, 2 ^ 31 - 1, 7]) =
    .ok (i32s [-2 ^ 31, 2 ^ 31 - 1, -65537 + 7]) := by
  decide +kernel

end Claxon.Props
