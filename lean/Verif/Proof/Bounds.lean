import Verif.Proof.Capacity
import Verif.Spec.Checked
import Verif.Proof.Dec
import Verif.Model.Input

/-! The buffered reader stays within its buffer, whatever its source does. -/

namespace Claxon

/-- The source never claims to have read more bytes than fit in the buffer. -/
def Src.Honest [FuzzCfg] (src : Src) : Prop := ∀ k n written, src.outcome k = .ok n written → n ≤ CAPACITY

/-- A call has succeeded, or has failed with an I/O error: it has not panicked, and has not done
anything undefined. -/
def Benign {α : Type} : Except Fail α → Prop
  | .ok _ => True
  | .error (.err (.ioError _)) => True
  | .error _ => False

theorem Benign.error {α β : Type} {f : Fail} (h : Benign (.error f : Except Fail α)) :
    Benign (.error f : Except Fail β) := by
  rcases f with (_ | _ | _) | _ | _ | _
  · trivial
  all_goals exact h.elim

namespace BufferedReader

variable [FuzzCfg]

/-- The invariant of the buffered reader. -/
structure InBounds (r : BufferedReader) : Prop where
  honest : r.inner.Honest
  cap : r.buf.length = CAPACITY
  pos : r.pos ≤ r.numValid
  valid : r.numValid ≤ CAPACITY

theorem inBounds_new {src : Src} (h : src.Honest) : (new src).InBounds :=
  ⟨h, by simp [new], Nat.le_refl _, Nat.zero_le _⟩

theorem refill_inBounds {r : BufferedReader} (h : r.InBounds) :
    Benign (refill r).1 ∧ (refill r).2.InBounds ∧ ((refill r).1 = .ok () → (refill r).2.pos = 0) := by
  unfold refill
  simp only
  cases ho : r.inner.outcome r.inner.calls with
  | ok n written =>
    have hn := h.honest _ _ _ ho
    have : n % 2 ^ 32 ≤ CAPACITY := Nat.le_trans (Nat.mod_le _ _) hn
    refine ⟨trivial, ⟨h.honest, ?_, Nat.zero_le _, this⟩, fun _ => rfl⟩
    have := h.cap
    simp only [List.length_append, List.length_take, List.length_drop]
    omega
  | err code written =>
    refine ⟨trivial, ⟨h.honest, ?_, Nat.zero_le _, h.valid⟩, fun h => by simp at h⟩
    have := h.cap
    simp only [List.length_append, List.length_take, List.length_drop]
    omega

theorem takeByte_inBounds {r : BufferedReader} (h : r.InBounds) (hlt : r.pos < r.numValid) :
    Benign (takeByte r).1 ∧ (takeByte r).2.InBounds := by
  have hlt' : r.pos < r.buf.length := by rw [h.cap]; exact Nat.lt_of_lt_of_le hlt h.valid
  have hv := h.valid
  unfold takeByte
  simp only [Dec.bind_get_run, List.getElem?_eq_getElem hlt']
  rw [Dec.bind_liftM_of (addU_ok (by have := capacity_le; omega)), Dec.bind_set_run]
  exact ⟨trivial, h.honest, h.cap, hlt, h.valid⟩

theorem readU8_inBounds {r : BufferedReader} (h : r.InBounds) :
    Benign (readU8 r).1 ∧ (readU8 r).2.InBounds := by
  unfold readU8
  simp only [Dec.bind_get_run, Dec.ite_run]
  by_cases hp : r.pos = r.numValid
  · rw [if_pos hp]
    have := refill_inBounds h
    rw [Dec.bind_def]
    generalize refill r = x at this ⊢
    rcases x with ⟨v, r'⟩
    rcases v with f | _
    · exact ⟨this.1.error, this.2.1⟩
    · simp only [Dec.bind_get_run, Dec.ite_run]
      have h0 := this.2.2 rfl
      by_cases hz : r'.numValid = 0
      · rw [if_pos hz]; exact ⟨trivial, this.2.1⟩
      · rw [if_neg hz]
        exact takeByte_inBounds this.2.1 (by simp only at h0; omega)
  · rw [if_neg hp]
    exact takeByte_inBounds h (by have := h.pos; omega)

theorem Benign_map {α β : Type} {m : Dec BufferedReader α} {r : BufferedReader} (f : α → β)
    (h : Benign (m r).1 ∧ (m r).2.InBounds) :
    Benign ((do let a ← m; pure (f a) : Dec BufferedReader β) r).1 ∧
      ((do let a ← m; pure (f a) : Dec BufferedReader β) r).2.InBounds := by
  rw [Dec.bind_def]
  generalize m r = x at h
  rcases x with ⟨v, r'⟩
  rcases v with f | _
  · exact ⟨h.1.error, h.2⟩
  · exact ⟨trivial, h.2⟩

theorem readU8OrEof_inBounds {r : BufferedReader} (h : r.InBounds) :
    Benign (readU8OrEof r).1 ∧ (readU8OrEof r).2.InBounds := by
  unfold readU8OrEof
  simp only [Dec.bind_get_run, Dec.ite_run]
  by_cases hp : r.pos = r.numValid
  · rw [if_pos hp]
    have := refill_inBounds h
    rw [Dec.bind_def]
    generalize refill r = x at this ⊢
    rcases x with ⟨v, r'⟩
    rcases v with f | _
    · exact ⟨this.1.error, this.2.1⟩
    · simp only [Dec.bind_get_run, Dec.ite_run]
      by_cases hz : r'.numValid = 0
      · rw [if_pos hz]; exact ⟨trivial, this.2.1⟩
      · rw [if_neg hz]
        exact Benign_map _ (readU8_inBounds this.2.1)
  · rw [if_neg hp]
    exact Benign_map _ (readU8_inBounds h)

theorem readIntoStep_inBounds {r : BufferedReader} (h : r.InBounds) (n : Nat) :
    Benign (readIntoStep n r).1 ∧ (readIntoStep n r).2.InBounds ∧
      ∀ c left, (readIntoStep n r).1 = .ok (c, left) →
        left ≤ n - (r.numValid - r.pos) ∧
          (0 < left → (readIntoStep n r).2.pos < (readIntoStep n r).2.numValid) := by
  have hp := h.pos
  have hv := h.valid
  have hcap := h.cap
  unfold readIntoStep
  simp only [Dec.bind_get_run]
  have e : min n (r.numValid - r.pos) ≤ r.numValid - r.pos := Nat.min_le_right _ _
  rw [Dec.bind_liftM_of (subU_ok hp), Dec.bind_liftM_of (slice_ok (by omega)),
    Dec.bind_liftM_of (addU_ok (by have := capacity_le; omega)), Dec.bind_set_run, Dec.ite_run]
  have hi : InBounds { r with pos := r.pos + min n (r.numValid - r.pos) } :=
    ⟨h.honest, h.cap, by simp only; omega, h.valid⟩
  by_cases hc : n - min n (r.numValid - r.pos) > 0
  · rw [if_pos hc]
    have := refill_inBounds hi
    rw [Dec.bind_def]
    generalize refill { r with pos := r.pos + min n (r.numValid - r.pos) } = x at this ⊢
    rcases x with ⟨v, r'⟩
    rcases v with f | _
    · exact ⟨this.1.error, this.2.1, fun c l h => by simp at h⟩
    · simp only [Dec.bind_get_run, Dec.ite_run]
      have h0 := this.2.2 rfl
      by_cases hz : r'.numValid = 0
      · rw [if_pos hz]; exact ⟨trivial, this.2.1, fun c l h => by simp [ioErr, Dec.fail] at h⟩
      · rw [if_neg hz]
        refine ⟨trivial, this.2.1, fun c l hcl => ?_⟩
        simp only [Dec.pure_run, Except.ok.injEq, Prod.mk.injEq] at hcl
        simp only at h0
        refine ⟨by omega, fun _ => ?_⟩
        show r'.pos < r'.numValid
        omega
  · rw [if_neg hc]
    refine ⟨trivial, hi, fun c l hcl => ?_⟩
    simp only [Dec.pure_run, Except.ok.injEq, Prod.mk.injEq] at hcl
    exact ⟨by omega, fun hl => by omega⟩

theorem readIntoLoop_inBounds (fuel : Nat) : ∀ (n : Nat) (r : BufferedReader), r.InBounds →
    (n + 1 < fuel ∨ n < fuel ∧ r.pos < r.numValid ∨ n = 0 ∧ 0 < fuel) →
    Benign (readIntoLoop fuel n r).1 ∧ (readIntoLoop fuel n r).2.InBounds := by
  induction fuel with
  | zero => intro n r _ h; omega
  | succ fuel ih =>
    intro n r h hf
    unfold readIntoLoop
    simp only [Dec.ite_run]
    by_cases hn : n > 0
    · rw [if_pos hn, Dec.bind_def]
      have hs := readIntoStep_inBounds h n
      generalize readIntoStep n r = x at hs ⊢
      rcases x with ⟨v, r'⟩
      rcases v with f | ⟨c, left⟩
      · exact ⟨hs.1.error, hs.2.1⟩
      · obtain ⟨h1, h2⟩ := hs.2.2 c left rfl
        simp only at h1 h2
        refine Benign_map _ (ih left r' hs.2.1 ?_)
        rcases Nat.eq_zero_or_pos left with rfl | hl
        · exact Or.inr (Or.inr ⟨rfl, by omega⟩)
        · exact Or.inr (Or.inl ⟨by omega, h2 hl⟩)
    · rw [if_neg hn]
      exact ⟨trivial, h⟩

theorem readInto_inBounds {r : BufferedReader} (h : r.InBounds) (n : Nat) :
    Benign (readInto n r).1 ∧ (readInto n r).2.InBounds :=
  readIntoLoop_inBounds _ n r h (Or.inl (by omega))

theorem skipStep_inBounds {r : BufferedReader} (h : r.InBounds) (n : Nat) :
    Benign (skipStep n r).1 ∧ (skipStep n r).2.InBounds ∧
      ∀ left, (skipStep n r).1 = .ok left →
        left ≤ n - (r.numValid - r.pos) ∧
          (0 < left → (skipStep n r).2.pos < (skipStep n r).2.numValid) := by
  have hp := h.pos
  have hv := h.valid
  have hcap := h.cap
  unfold skipStep
  simp only [Dec.bind_get_run]
  have e : min n (r.numValid - r.pos) ≤ r.numValid - r.pos := Nat.min_le_right _ _
  rw [Dec.bind_liftM_of (subU_ok hp),
    Dec.bind_liftM_of (addU_ok (by have := capacity_le; omega)), Dec.bind_set_run, Dec.ite_run]
  have hi : InBounds { r with pos := r.pos + min n (r.numValid - r.pos) } :=
    ⟨h.honest, h.cap, by simp only; omega, h.valid⟩
  by_cases hc : n - min n (r.numValid - r.pos) > 0
  · rw [if_pos hc]
    have := refill_inBounds hi
    rw [Dec.bind_def]
    generalize refill { r with pos := r.pos + min n (r.numValid - r.pos) } = x at this ⊢
    rcases x with ⟨v, r'⟩
    rcases v with f | _
    · exact ⟨this.1.error, this.2.1, fun l h => by simp at h⟩
    · simp only [Dec.bind_get_run, Dec.ite_run]
      have h0 := this.2.2 rfl
      by_cases hz : r'.numValid = 0
      · rw [if_pos hz]; exact ⟨trivial, this.2.1, fun l h => by simp [ioErr, Dec.fail] at h⟩
      · rw [if_neg hz]
        refine ⟨trivial, this.2.1, fun l hcl => ?_⟩
        simp only [Dec.pure_run, Except.ok.injEq] at hcl
        simp only at h0
        refine ⟨by omega, fun _ => ?_⟩
        show r'.pos < r'.numValid
        omega
  · rw [if_neg hc]
    refine ⟨trivial, hi, fun l hcl => ?_⟩
    simp only [Dec.pure_run, Except.ok.injEq] at hcl
    exact ⟨by omega, fun hl => by omega⟩

theorem skipLoop_inBounds (fuel : Nat) : ∀ (n : Nat) (r : BufferedReader), r.InBounds →
    (n + 1 < fuel ∨ n < fuel ∧ r.pos < r.numValid ∨ n = 0 ∧ 0 < fuel) →
    Benign (skipLoop fuel n r).1 ∧ (skipLoop fuel n r).2.InBounds := by
  induction fuel with
  | zero => intro n r _ h; omega
  | succ fuel ih =>
    intro n r h hf
    unfold skipLoop
    simp only [Dec.ite_run]
    by_cases hn : n > 0
    · rw [if_pos hn, Dec.bind_def]
      have hs := skipStep_inBounds h n
      generalize skipStep n r = x at hs ⊢
      rcases x with ⟨v, r'⟩
      rcases v with f | left
      · exact ⟨hs.1.error, hs.2.1⟩
      · obtain ⟨h1, h2⟩ := hs.2.2 left rfl
        simp only at h1 h2
        refine ih left r' hs.2.1 ?_
        rcases Nat.eq_zero_or_pos left with rfl | hl
        · exact Or.inr (Or.inr ⟨rfl, by omega⟩)
        · exact Or.inr (Or.inl ⟨by omega, h2 hl⟩)
    · rw [if_neg hn]
      exact ⟨trivial, h⟩

theorem skip_inBounds {r : BufferedReader} (h : r.InBounds) (n : Nat) :
    Benign (skip n r).1 ∧ (skip n r).2.InBounds :=
  skipLoop_inBounds _ n r h (Or.inl (by omega))

end BufferedReader

end Claxon
