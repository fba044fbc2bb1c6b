import Verif.Proof.Arith
import Mathlib.Data.BitVec
import Mathlib.Algebra.BigOperators.Group.List.Basic
import Mathlib.Algebra.Order.Ring.Abs

/-! Fixed and linear prediction in place, against the reconstruction of the specification. -/

namespace Claxon

open Spec

/-- Wrapping arithmetic on residuals that have been decoded already. -/
def Arith.wrapOnly : Arith := { wrap := fun v => v.bmod (2 ^ 32), residual := id }

theorem reconstruct_wrap32 (predict : List Int → Int) (past rs : List Int) :
    reconstruct Arith.wrap32 predict past rs =
      reconstruct Arith.wrapOnly predict past (rs.map Arith.wrap32.residual) := by
  induction rs generalizing past with
  | nil => rfl
  | cons r rs ih =>
    simp only [reconstruct, List.map_cons, Arith.wrapOnly]
    rw [ih]
    rfl

theorem length_reconstruct (A : Arith) (predict : List Int → Int) (past rs : List Int) :
    (reconstruct A predict past rs).length = rs.length := by
  induction rs generalizing past with
  | nil => rfl
  | cons r rs ih => simp [reconstruct, ih]

/-- If the exact samples fit in 32 bits, wrapping arithmetic gives the same. -/
theorem reconstruct_exact (predict : List Int → Int) (past rs : List Int)
    (hr : ∀ r ∈ rs, FitsIn 32 r)
    (hs : ∀ s ∈ reconstruct Arith.exact predict past rs, FitsIn 32 s) :
    reconstruct Arith.wrap32 predict past rs = reconstruct Arith.exact predict past rs := by
  induction rs generalizing past with
  | nil => rfl
  | cons r rs ih =>
    have h1 : Arith.wrap32.wrap (predict past + Arith.wrap32.residual r) = predict past + r := by
      rw [residual_wrap32 (hr r (by simp))]
      exact bmod_of_fits (hs _ (by simp [reconstruct, Arith.exact]))
    simp only [reconstruct]
    rw [h1]
    have h2 : Arith.exact.wrap (predict past + Arith.exact.residual r) = predict past + r := rfl
    rw [h2]
    congr 1
    apply ih
    · intro r' h'; exact hr r' (by simp [h'])
    · intro s h'
      apply hs
      simp only [reconstruct, h2]
      simp [h']

/-! ### Fixed prediction -/

/-- The prediction plus residual of the model. -/
def fixedStep (C : List I32) (window : List I32) (d : I32) : I32 :=
  ((C.zip window).map fun cs => cs.1 * cs.2).foldl (fun a x => a + x) 0 + d

theorem predictFixedLoop_spec (C : List I32) (predict : List Int → Int)
    (hC : ∀ (pre : List I32) (d : I32), C.length ≤ pre.length →
      (fixedStep C (pre.drop (pre.length - C.length) ++ [d]) d).toInt =
        (predict (pre.map BitVec.toInt).reverse + d.toInt).bmod (2 ^ 32)) :
    ∀ (res pre : List I32), C.length ≤ pre.length →
    ∃ tail, predictFixedLoop C (C.length + 1) res.length (pre.length - C.length) (pre ++ res) =
      .ok (pre ++ tail) ∧
      tail.map BitVec.toInt = reconstruct Arith.wrapOnly predict (pre.map BitVec.toInt).reverse
        (res.map BitVec.toInt) := by
  intro res
  induction res with
  | nil =>
    intro pre _
    exact ⟨[], by simp [predictFixedLoop], rfl⟩
  | cons d res ih =>
    intro pre hpre
    have hs : slice (pre ++ d :: res) (pre.length - C.length) (pre.length - C.length + (C.length + 1)) =
        .ok (pre.drop (pre.length - C.length) ++ [d]) := by
      rw [slice_ok (by simp; omega)]
      congr 1
      rw [show pre.length - C.length + (C.length + 1) = pre.length + 1 by omega, List.take_append,
        List.take_of_length_le (by omega), List.drop_append,
        show pre.length + 1 - pre.length = 1 by omega,
        show pre.length - C.length - pre.length = 0 by omega]
      simp
    have hi : index (pre.drop (pre.length - C.length) ++ [d]) C.length = .ok d := by
      rw [index_ok (by simp; omega)]
      congr 1
      rw [List.getElem_append_right (by simp; omega)]
      simp
    have hset : ∀ s : I32, setIndex (pre ++ d :: res) (pre.length - C.length + C.length) s =
        .ok (pre ++ s :: res) := by
      intro s
      rw [setIndex_ok (by simp; omega), show pre.length - C.length + C.length = pre.length by omega,
        List.set_append_right _ _ (by omega)]
      simp
    obtain ⟨tail, h1, h2⟩ := ih
      (pre ++ [fixedStep C (pre.drop (pre.length - C.length) ++ [d]) d]) (by simp; omega)
    refine ⟨fixedStep C (pre.drop (pre.length - C.length) ++ [d]) d :: tail, ?_, ?_⟩
    · rw [List.length_cons, predictFixedLoop, hs]
      show (index (pre.drop (pre.length - C.length) ++ [d]) C.length >>= _) = _
      rw [hi]
      show (setIndex (pre ++ d :: res) (pre.length - C.length + C.length) (fixedStep C _ d) >>= _) = _
      rw [hset]
      show predictFixedLoop C (C.length + 1) res.length (pre.length - C.length + 1) _ = _
      rw [List.length_append, List.length_singleton, List.append_assoc] at h1
      rw [show pre.length - C.length + 1 = pre.length + 1 - C.length by omega]
      simpa using h1
    · rw [List.map_cons, h2, List.map_cons, reconstruct]
      have e : Arith.wrapOnly.wrap (predict (pre.map BitVec.toInt).reverse +
          Arith.wrapOnly.residual d.toInt) =
          (fixedStep C (pre.drop (pre.length - C.length) ++ [d]) d).toInt := (hC pre d hpre).symm
      rw [e]
      simp

theorem eq_append_of_length {pre : List I32} {k : Nat} (h : k ≤ pre.length) :
    ∃ a b, pre = a ++ b ∧ b.length = k :=
  ⟨pre.take (pre.length - k), pre.drop (pre.length - k), (List.take_append_drop _ _).symm,
    by simp; omega⟩

theorem fixedCoefficients_spec (order : Nat) (h : order ≤ 4) :
    ∃ C : List I32, fixedCoefficients order = .ok C ∧ C.length = order ∧
      ∀ (pre : List I32) (d : I32), C.length ≤ pre.length →
      (fixedStep C (pre.drop (pre.length - C.length) ++ [d]) d).toInt =
        (fixedPrediction order (pre.map BitVec.toInt).reverse + d.toInt).bmod (2 ^ 32) := by
  have key : ∀ (x : I32) (v : Int), x = BitVec.ofInt 32 v → x.toInt = v.bmod (2 ^ 32) := by
    rintro x v rfl; rw [BitVec.toInt_ofInt]
  have hcases : order = 0 ∨ order = 1 ∨ order = 2 ∨ order = 3 ∨ order = 4 := by omega
  rcases hcases with rfl | rfl | rfl | rfl | rfl
  · refine ⟨_, rfl, rfl, ?_⟩
    intro pre d _
    apply key
    simp [fixedStep, fixedPrediction]
  · refine ⟨_, rfl, rfl, ?_⟩
    intro pre d hpre
    obtain ⟨a, b, rfl, hb⟩ := eq_append_of_length hpre
    obtain ⟨x, rfl⟩ := List.length_eq_one_iff.1 hb
    apply key
    simp [fixedStep, fixedPrediction, ago, BitVec.ofInt_add]
  · refine ⟨_, rfl, rfl, ?_⟩
    intro pre d hpre
    obtain ⟨a, b, rfl, hb⟩ := eq_append_of_length hpre
    obtain ⟨x, y, rfl⟩ := List.length_eq_two.1 hb
    apply key
    simp [fixedStep, fixedPrediction, ago, BitVec.ofInt_add, BitVec.ofInt_mul, Int.sub_eq_add_neg,
      BitVec.ofInt_neg]
    grind
  · refine ⟨_, rfl, rfl, ?_⟩
    intro pre d hpre
    obtain ⟨a, b, rfl, hb⟩ := eq_append_of_length hpre
    obtain ⟨x, y, z, rfl⟩ := List.length_eq_three.1 hb
    apply key
    simp [fixedStep, fixedPrediction, ago, BitVec.ofInt_add, BitVec.ofInt_mul, Int.sub_eq_add_neg,
      BitVec.ofInt_neg]
    grind
  · refine ⟨_, rfl, rfl, ?_⟩
    intro pre d hpre
    obtain ⟨a, b, rfl, hb⟩ := eq_append_of_length hpre
    obtain ⟨x, y, z, w, rfl⟩ : ∃ x y z w, b = [x, y, z, w] := by
      match b, hb with
      | [x, y, z, w], _ => exact ⟨x, y, z, w, rfl⟩
    apply key
    simp [fixedStep, fixedPrediction, ago, BitVec.ofInt_add, BitVec.ofInt_mul, Int.sub_eq_add_neg,
      BitVec.ofInt_neg]
    grind

theorem predictFixed_spec (order : Nat) (horder : order ≤ 4) (pre res : List I32)
    (hpre : pre.length = order) :
    ∃ tail, predictFixed order (pre ++ res) = .ok (pre ++ tail) ∧
      tail.map BitVec.toInt = reconstruct Arith.wrapOnly (fixedPrediction order)
        (pre.map BitVec.toInt).reverse (res.map BitVec.toInt) := by
  obtain ⟨C, hC, hlen, hstep⟩ := fixedCoefficients_spec order horder
  obtain ⟨tail, h1, h2⟩ := predictFixedLoop_spec C _ hstep res pre (by omega)
  refine ⟨tail, ?_, h2⟩
  simp only [predictFixed]
  rw [debugAssert_ok (decide_eq_true horder), hC, subU_ok (by simp; omega)]
  show predictFixedLoop C (order + 1) ((pre ++ res).length - order) 0 (pre ++ res) = _
  rw [← h1, hlen, List.length_append, hpre]
  congr 1 <;> omega

/-! ### Linear prediction -/

theorem toInt_bounds {w : Nat} (x : BitVec w) (hw : 0 < w) : FitsIn w x.toInt := by
  have h1 := BitVec.le_toInt x
  have h2 := BitVec.toInt_lt (x := x)
  exact ⟨h1, h2, hw⟩

theorem addI64_ok {a b : I64} (h : FitsIn 64 (a.toInt + b.toInt)) :
    addI64 a b = .ok (a + b) ∧ (a + b).toInt = a.toInt + b.toInt := by
  constructor
  · exact if_pos ⟨h.1, h.2.1⟩
  · rw [BitVec.toInt_add, bmod_of_fits h]

theorem mulI64_ok {a b : I64} (h : FitsIn 64 (a.toInt * b.toInt)) :
    mulI64 a b = .ok (a * b) ∧ (a * b).toInt = a.toInt * b.toInt := by
  constructor
  · exact if_pos ⟨h.1, h.2.1⟩
  · rw [BitVec.toInt_mul, bmod_of_fits h]

theorem abs_mul_le {a b : Int} {m n : Int} (ha : |a| ≤ m) (hb : |b| ≤ n) : |a * b| ≤ m * n := by
  rw [abs_mul]
  exact mul_le_mul ha hb (abs_nonneg _) (le_trans (abs_nonneg _) ha)

/-- The inner product does not overflow. -/
theorem innerProduct_ok (ps : List (I64 × I64))
    (hps : ∀ p ∈ ps, |p.1.toInt| ≤ 2 ^ 15 ∧ |p.2.toInt| ≤ 2 ^ 31) :
    ∀ (acc : I64) (j : Nat), j + ps.length ≤ 32 → |acc.toInt| ≤ 2 ^ 46 * j →
    ∃ r, innerProduct ps acc = .ok r ∧
      r.toInt = acc.toInt + (ps.map fun p => p.1.toInt * p.2.toInt).sum ∧
      |r.toInt| ≤ 2 ^ 46 * ((j + ps.length : Nat) : Int) := by
  induction ps with
  | nil =>
    intro acc j _ hacc
    exact ⟨acc, rfl, by simp, by simpa using hacc⟩
  | cons p ps ih =>
    intro acc j hj hacc
    obtain ⟨h1, h2⟩ := hps p (by simp)
    have hm := abs_mul_le h1 h2
    simp only [List.length_cons] at hj
    have hj' : (j : Int) ≤ 31 := by omega
    rw [abs_le] at hm hacc
    have hmul := @mulI64_ok p.1 p.2 (by unfold FitsIn; norm_num at hm ⊢; omega)
    have hadd := @addI64_ok acc (p.1 * p.2) (by
      rw [hmul.2]; unfold FitsIn; norm_num at hm hacc ⊢; omega)
    obtain ⟨r, hr1, hr2, hr3⟩ := ih (fun q hq => hps q (by simp [hq])) (acc + p.1 * p.2) (j + 1)
      (by omega) (by
        rw [hadd.2, hmul.2, abs_le]
        push_cast
        norm_num at hm hacc ⊢
        omega)
    refine ⟨r, ?_, ?_, ?_⟩
    · rw [← hr1]
      obtain ⟨c, s⟩ := p
      show (mulI64 c s >>= fun p => addI64 acc p >>= fun acc' => innerProduct ps acc') = _
      rw [hmul.1]
      show (addI64 acc (c * s) >>= fun acc' => innerProduct ps acc') = _
      rw [hadd.1]
      rfl
    · rw [hr2, hadd.2, hmul.2, List.map_cons, List.sum_cons]; ring
    · rw [List.length_cons, show j + (ps.length + 1) = j + 1 + ps.length by omega]; exact hr3

theorem toInt_setWidth32 (x : I64) : (x.setWidth 32).toInt = x.toInt.bmod (2 ^ 32) := by
  rw [BitVec.toInt_setWidth, BitVec.toInt_eq_toNat_bmod, Int.bmod_bmod_of_dvd]
  decide

theorem zip_map_sum (cs : List I64) (window : List I32) :
    ((cs.zip (window.map fun s => s.signExtend 64)).map fun p => p.1.toInt * p.2.toInt).sum =
      (List.zipWith (· * ·) (cs.map BitVec.toInt) (window.map BitVec.toInt)).sum := by
  congr 1
  induction cs generalizing window with
  | nil => simp
  | cons c cs ih =>
    cases window with
    | nil => simp
    | cons s window =>
      simp only [List.map_cons, List.zip_cons_cons, List.zipWith_cons_cons, ih]
      rw [BitVec.toInt_signExtend_of_le (by omega)]

theorem sum_zipWith_reverse (xs ys : List Int) (h : xs.length = ys.length) :
    (List.zipWith (· * ·) xs.reverse ys.reverse).sum = (List.zipWith (· * ·) xs ys).sum := by
  induction xs generalizing ys with
  | nil => cases ys <;> simp_all
  | cons x xs ih =>
    cases ys with
    | nil => simp at h
    | cons y ys =>
      simp only [List.length_cons, Nat.add_right_cancel_iff] at h
      rw [List.reverse_cons, List.reverse_cons, List.zipWith_append (by simp [h]), List.sum_append,
        ih ys h]
      simp [add_comm]

theorem lpcSample_ok (cs : List I64) (window : List I32) (hcs : ∀ c ∈ cs, |c.toInt| ≤ 2 ^ 15)
    (hlen : cs.length = window.length) (h32 : cs.length ≤ 32) (shift : Nat) (qlpShift : I16)
    (hs : qlpShift.toInt = shift) (hs64 : shift < 64) (d : I32) :
    ∃ s, lpcSample cs window qlpShift d = .ok s ∧
      s.toInt = ((List.zipWith (· * ·) (cs.map BitVec.toInt) (window.map BitVec.toInt)).sum / 2 ^ shift +
        d.toInt).bmod (2 ^ 32) := by
  obtain ⟨r, h1, h2, h3⟩ := innerProduct_ok (cs.zip (window.map fun s => s.signExtend 64)) (by
    intro p hp
    have hmem := List.of_mem_zip hp
    refine ⟨hcs _ hmem.1, ?_⟩
    obtain ⟨s, _, hs⟩ := List.mem_map.1 hmem.2
    rw [← hs, BitVec.toInt_signExtend_of_le (by omega), abs_le]
    have := toInt_bounds s (by omega)
    unfold FitsIn at this
    norm_num at this ⊢
    omega) 0 0 (by simp; omega) (by simp)
  rw [zip_map_sum] at h2
  have hsar : sarI16 r qlpShift = .ok (r.sshiftRight shift) := by
    unfold sarI16
    rw [hs, if_pos (by omega)]
    simp
  have hval : (r.sshiftRight shift).toInt = r.toInt / 2 ^ shift := by
    rw [BitVec.toInt_sshiftRight, Int.shiftRight_eq_div_pow]; simp
  have hlenz : (cs.zip (window.map fun s => s.signExtend 64)).length ≤ 32 := by simp; omega
  have hr : |r.toInt| ≤ 2 ^ 51 := by
    refine le_trans h3 ?_
    norm_num
    simp at hlenz
    omega
  have hb : |r.toInt / 2 ^ shift| ≤ 2 ^ 51 := by
    rw [abs_le] at hr ⊢
    have hp : (0 : Int) < 2 ^ shift := by positivity
    constructor
    · rw [Int.le_ediv_iff_mul_le hp]
      have : (-2 ^ 51 : Int) * 2 ^ shift ≤ -2 ^ 51 * 1 := by
        apply mul_le_mul_of_nonpos_left _ (by norm_num)
        omega
      omega
    · have := Int.ediv_le_ediv hp hr.2
      have h2 : (2 ^ 51 : Int) / 2 ^ shift ≤ 2 ^ 51 := Int.ediv_le_self _ (by norm_num)
      omega
  have hd := toInt_bounds d (by omega)
  have hadd := @addI64_ok (r.sshiftRight shift) (d.signExtend 64) (by
    rw [hval, BitVec.toInt_signExtend_of_le (by omega)]
    rw [abs_le] at hb
    unfold FitsIn at hd ⊢
    norm_num at hd hb ⊢
    omega)
  refine ⟨(r.sshiftRight shift + d.signExtend 64).setWidth 32, ?_, ?_⟩
  · simp only [lpcSample]
    rw [h1]
    show (sarI16 r qlpShift >>= _) = _
    rw [hsar]
    show (addI64 (r.sshiftRight shift) (d.signExtend 64) >>= _) = _
    rw [hadd.1]
    rfl
  · rw [toInt_setWidth32, hadd.2, hval, BitVec.toInt_signExtend_of_le (by omega), h2]
    simp

theorem zipWith_take (coefs past : List Int) :
    List.zipWith (· * ·) coefs past = List.zipWith (· * ·) coefs (past.take coefs.length) := by
  induction coefs generalizing past with
  | nil => simp
  | cons c coefs ih =>
    cases past with
    | nil => simp
    | cons p past =>
      simp only [List.zipWith_cons_cons, List.length_cons, List.take_succ_cons]
      rw [ih]

theorem lpcLoop_spec (cs : List I64) (hcs : ∀ c ∈ cs, |c.toInt| ≤ 2 ^ 15) (h32 : cs.length ≤ 32)
    (shift : Nat) (qlpShift : I16) (hs : qlpShift.toInt = shift) (hs64 : shift < 64) :
    ∀ (res pre : List I32), cs.length ≤ pre.length →
    ∃ tail, (∀ post, lpcLoop cs qlpShift cs.length res.length pre.length (pre ++ res ++ post) =
      .ok (pre ++ tail ++ post)) ∧
      tail.map BitVec.toInt =
        reconstruct Arith.wrapOnly (linearPrediction (cs.map BitVec.toInt).reverse shift)
          (pre.map BitVec.toInt).reverse (res.map BitVec.toInt) := by
  intro res
  induction res with
  | nil =>
    intro pre _
    exact ⟨[], by simp [lpcLoop], rfl⟩
  | cons d res ih =>
    intro pre hpre
    obtain ⟨s, hsample, hsint⟩ := lpcSample_ok cs (pre.drop (pre.length - cs.length)) hcs
      (by simp; omega) h32 shift qlpShift hs hs64 d
    obtain ⟨tail, h1, h2⟩ := ih (pre ++ [s]) (by simp; omega)
    refine ⟨s :: tail, ?_, ?_⟩
    · intro post
      have hslice : slice (pre ++ d :: res ++ post) (pre.length - cs.length) pre.length =
          .ok (pre.drop (pre.length - cs.length)) := by
        rw [slice_ok (by simp), List.append_assoc, List.take_left']
        rfl
      have hidx : index (pre ++ d :: res ++ post) pre.length = .ok d := by
        rw [index_ok (by simp)]
        congr 1
        simp
      have hset : setIndex (pre ++ d :: res ++ post) pre.length s = .ok (pre ++ s :: res ++ post) := by
        rw [setIndex_ok (by simp), List.append_assoc, List.set_append_right _ _ (by omega)]
        simp
      rw [List.length_cons, lpcLoop, subU_ok hpre]
      show (slice (pre ++ d :: res ++ post) (pre.length - cs.length) pre.length >>= _) = _
      rw [hslice]
      show (index (pre ++ d :: res ++ post) pre.length >>= _) = _
      rw [hidx]
      show (lpcSample cs (pre.drop (pre.length - cs.length)) qlpShift d >>= _) = _
      rw [hsample]
      show (setIndex (pre ++ d :: res ++ post) pre.length s >>= _) = _
      rw [hset]
      show lpcLoop cs qlpShift cs.length res.length (pre.length + 1) (pre ++ s :: res ++ post) = _
      have := h1 post
      rw [List.length_append, List.length_singleton] at this
      simpa using this
    · rw [List.map_cons, h2, List.map_cons, reconstruct]
      have e : Arith.wrapOnly.wrap (linearPrediction (cs.map BitVec.toInt).reverse shift
          (pre.map BitVec.toInt).reverse + Arith.wrapOnly.residual d.toInt) = s.toInt := by
        rw [hsint]
        show (linearPrediction _ _ _ + d.toInt).bmod (2 ^ 32) = _
        congr 2
        rw [linearPrediction, zipWith_take, List.length_reverse, List.length_map]
        have : ((pre.map BitVec.toInt).reverse.take cs.length) =
            ((pre.drop (pre.length - cs.length)).map BitVec.toInt).reverse := by
          rw [List.take_reverse, List.length_map, List.map_drop]
        rw [this, sum_zipWith_reverse _ _ (by simp; omega)]
      rw [e]
      simp

theorem reconstruct_append (A : Arith) (predict : List Int → Int) (past rs ss : List Int) :
    reconstruct A predict past (rs ++ ss) = reconstruct A predict past rs ++
      reconstruct A predict ((reconstruct A predict past rs).reverse ++ past) ss := by
  induction rs generalizing past with
  | nil => rfl
  | cons r rs ih =>
    simp only [List.cons_append, reconstruct, List.reverse_cons, List.append_assoc]
    rw [ih]
    simp

theorem zipWith_pad (xs : List Int) (n : Nat) (ys : List Int) :
    (List.zipWith (· * ·) (xs ++ List.replicate n 0) ys).sum =
      (List.zipWith (· * ·) xs ys).sum := by
  induction xs generalizing ys with
  | nil =>
    simp only [List.nil_append, List.zipWith_nil_left, List.sum_nil]
    induction n generalizing ys with
    | zero => simp
    | succ n ih => cases ys <;> simp [List.replicate_succ, ih]
  | cons x xs ih => cases ys <;> simp [ih]

theorem linearPrediction_pad (coefs : List Int) (n shift : Nat) :
    linearPrediction (coefs ++ List.replicate n 0) shift = linearPrediction coefs shift := by
  funext past
  simp only [linearPrediction, zipWith_pad]

theorem padCoefficients_ok (raw : List I16) : ∀ (pre post : List I64), post.length = raw.length →
    padCoefficients raw pre.length (pre ++ post) =
      .ok (pre ++ raw.map fun c => c.signExtend 64) := by
  induction raw with
  | nil =>
    intro pre post h
    have : post = [] := List.eq_nil_of_length_eq_zero h
    subst this
    simp [padCoefficients]
  | cons c cs ih =>
    intro pre post h
    cases post with
    | nil => simp at h
    | cons p post =>
      rw [padCoefficients, setIndex_ok (by simp)]
      show padCoefficients cs (pre.length + 1) ((pre ++ p :: post).set pre.length (c.signExtend 64)) = _
      have := ih (pre ++ [c.signExtend 64]) post (by simpa using h)
      rw [List.length_append, List.length_singleton] at this
      rw [List.set_append_right _ _ (by omega)]
      simpa using this

theorem signExtend_bound (c : I16) : |(c.signExtend 64 : I64).toInt| ≤ 2 ^ 15 := by
  rw [BitVec.toInt_signExtend_of_le (by omega), abs_le]
  have := toInt_bounds c (by omega)
  unfold FitsIn at this
  norm_num at this ⊢
  omega

theorem map_signExtend_toInt (raw : List I16) :
    (raw.map fun c => (c.signExtend 64 : I64)).map BitVec.toInt = raw.map BitVec.toInt := by
  rw [List.map_map]
  apply List.map_congr_left
  intro c _
  exact BitVec.toInt_signExtend_of_le (by omega)

theorem predictLpcLowOrder_spec (raw : List I16) (hraw : raw.length ≤ 12) (shift : Nat)
    (qlpShift : I16) (hs : qlpShift.toInt = shift) (hs64 : shift < 64) (pre res : List I32)
    (hpre : pre.length = raw.length) :
    ∃ tail, predictLpcLowOrder raw qlpShift (pre ++ res) = .ok (pre ++ tail) ∧
      tail.map BitVec.toInt = reconstruct Arith.wrapOnly
        (linearPrediction (raw.map BitVec.toInt).reverse shift)
        (pre.map BitVec.toInt).reverse (res.map BitVec.toInt) := by
  have hbound : ∀ c ∈ (raw.map fun c => (c.signExtend 64 : I64)), |c.toInt| ≤ 2 ^ 15 := by
    intro c hc
    obtain ⟨c', _, rfl⟩ := List.mem_map.1 hc
    exact signExtend_bound c'
  obtain ⟨tail1, h1, h1'⟩ := lpcLoop_spec (raw.map fun c => (c.signExtend 64 : I64)) hbound
    (by simp; omega) shift qlpShift hs hs64 (res.take (12 - raw.length)) pre (by simp; omega)
  rw [map_signExtend_toInt] at h1'
  have hlen1 : tail1.length = (res.take (12 - raw.length)).length := by
    have := congrArg List.length h1'
    rw [length_reconstruct] at this
    simpa using this
  have hpad : padCoefficients raw (12 - raw.length) (List.replicate 12 0#64) =
      .ok (List.replicate (12 - raw.length) 0#64 ++ raw.map fun c => c.signExtend 64) := by
    have := padCoefficients_ok raw (List.replicate (12 - raw.length) 0#64)
      (List.replicate raw.length 0#64) (by simp)
    rw [List.replicate_append_replicate, List.length_replicate,
      show 12 - raw.length + raw.length = 12 by omega] at this
    exact this
  have hstep : predictLpcLowOrder raw qlpShift (pre ++ res) =
      (if (pre ++ tail1 ++ res.drop (12 - raw.length)).length ≤ 12 then
        pure (pre ++ tail1 ++ res.drop (12 - raw.length))
      else lpcLoop (List.replicate (12 - raw.length) 0#64 ++ raw.map fun c => c.signExtend 64)
        qlpShift 12 ((pre ++ tail1 ++ res.drop (12 - raw.length)).length - 12) 12
        (pre ++ tail1 ++ res.drop (12 - raw.length))) := by
    simp only [predictLpcLowOrder]
    rw [debugAssert_ok (by simp; omega)]
    show (debugAssert _ >>= _) = _
    rw [debugAssert_ok (by simp; omega)]
    show (subU 64 12 raw.length >>= _) = _
    rw [subU_ok hraw]
    show (padCoefficients raw (12 - raw.length) (List.replicate 12 0#64) >>= _) = _
    rw [hpad]
    show (subU 64 (min 12 (pre ++ res).length) raw.length >>= _) = _
    rw [subU_ok (by simp; omega)]
    show (lpcLoop _ qlpShift raw.length (min 12 (pre ++ res).length - raw.length) raw.length
      (pre ++ res) >>= _) = _
    have := h1 (res.drop (12 - raw.length))
    rw [List.append_assoc, List.take_append_drop, List.length_map, hpre, List.length_take] at this
    rw [show min 12 (pre ++ res).length - raw.length = min (12 - raw.length) res.length by
      simp; omega, this]
    rfl
  have hrec := reconstruct_append Arith.wrapOnly
    (linearPrediction (raw.map BitVec.toInt).reverse shift) (pre.map BitVec.toInt).reverse
    ((res.take (12 - raw.length)).map BitVec.toInt) ((res.drop (12 - raw.length)).map BitVec.toInt)
  rw [← List.map_append, List.take_append_drop, ← h1'] at hrec
  rw [hstep]
  rcases Nat.lt_or_ge 12 (pre ++ res).length with hlong | hshort
  · have hl12 : (pre ++ tail1).length = 12 := by
      simp at hlong ⊢
      rw [hlen1, List.length_take]; omega
    obtain ⟨tail2, h2, h2'⟩ := lpcLoop_spec
      (List.replicate (12 - raw.length) 0#64 ++ raw.map fun c => (c.signExtend 64 : I64))
      (by
        intro c hc
        rcases List.mem_append.1 hc with hc | hc
        · rw [(List.mem_replicate.1 hc).2]; decide
        · exact hbound c hc)
      (by simp; omega) shift qlpShift hs hs64 (res.drop (12 - raw.length)) (pre ++ tail1)
      (by rw [hl12]; simp; omega)
    have hcl : (List.replicate (12 - raw.length) 0#64 ++
      raw.map fun c => (c.signExtend 64 : I64)).length = 12 := by simp; omega
    rw [hcl] at h2
    have h2n := h2 []
    rw [List.append_nil, List.append_nil, hl12] at h2n
    have hlt : ¬ (pre ++ tail1 ++ res.drop (12 - raw.length)).length ≤ 12 := by
      simp only [List.length_append, List.length_drop] at hl12 hlong ⊢
      omega
    have hn : (pre ++ tail1 ++ res.drop (12 - raw.length)).length - 12 =
        (res.drop (12 - raw.length)).length := by
      rw [List.length_append, hl12]; omega
    refine ⟨tail1 ++ tail2, ?_, ?_⟩
    · rw [if_neg hlt, hn, h2n, List.append_assoc]
    · rw [hrec, List.map_append, h2']
      congr 1
      rw [List.map_append, map_signExtend_toInt, List.reverse_append, List.map_replicate,
        List.reverse_replicate]
      show reconstruct _ (linearPrediction (_ ++ List.replicate _ 0) shift) _ _ = _
      rw [linearPrediction_pad]
      simp
  · have hdrop : res.drop (12 - raw.length) = [] := by
      apply List.drop_eq_nil_of_le
      simp at hshort; omega
    refine ⟨tail1, ?_, ?_⟩
    · rw [if_pos]
      · rw [hdrop, List.append_nil]; rfl
      · rw [hdrop]
        simp only [List.length_append, hlen1, List.length_take, List.length_nil] at hshort ⊢
        omega
    · rw [hrec, hdrop]
      simp [reconstruct]

theorem predictLpcHighOrder_spec (raw : List I16) (hraw : 12 < raw.length) (hraw' : raw.length ≤ 32)
    (shift : Nat) (qlpShift : I16) (hs : qlpShift.toInt = shift) (hs64 : shift < 64)
    (pre res : List I32) (hpre : pre.length = raw.length) :
    ∃ tail, predictLpcHighOrder raw qlpShift (pre ++ res) = .ok (pre ++ tail) ∧
      tail.map BitVec.toInt = reconstruct Arith.wrapOnly
        (linearPrediction (raw.map BitVec.toInt).reverse shift)
        (pre.map BitVec.toInt).reverse (res.map BitVec.toInt) := by
  have hbound : ∀ c ∈ (raw.map fun c => (c.signExtend 64 : I64)), |c.toInt| ≤ 2 ^ 15 := by
    intro c hc
    obtain ⟨c', _, rfl⟩ := List.mem_map.1 hc
    exact signExtend_bound c'
  obtain ⟨tail, h1, h1'⟩ := lpcLoop_spec (raw.map fun c => (c.signExtend 64 : I64)) hbound
    (by simp; omega) shift qlpShift hs hs64 res pre (by simp; omega)
  rw [map_signExtend_toInt] at h1'
  refine ⟨tail, ?_, h1'⟩
  have := h1 []
  rw [List.append_nil, List.append_nil, List.length_map, hpre] at this
  simp only [predictLpcHighOrder]
  rw [debugAssert_ok (by simp; omega)]
  show (debugAssert _ >>= _) = _
  rw [debugAssert_ok (by simp; omega)]
  show (debugAssert _ >>= _) = _
  rw [debugAssert_ok (by simpa using hraw)]
  show (debugAssert _ >>= _) = _
  rw [debugAssert_ok (by simp; omega)]
  show lpcLoop _ qlpShift raw.length ((pre ++ res).length - raw.length) raw.length (pre ++ res) = _
  rw [show (pre ++ res).length - raw.length = res.length by simp; omega, this]

end Claxon
