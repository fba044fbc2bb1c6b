import Verif.Proof.Capacity
import Verif.Proof.Flow
import Verif.Spec.Lazy

/-! `BufferedReader` does not ask its source for more than is needed. -/

namespace Claxon

open Spec

namespace BufferedReader

/-- `Lazy`, or a call failed. Up to `t` more bytes will be used for sure. -/
def LazyT (r0 r : BufferedReader) (t : Nat) : Prop :=
  r.inner.outcome = r0.inner.outcome ∧ r0.inner.calls ≤ r.inner.calls ∧
    (SourceFails r0 r ∨
      ∃ used, r0.unread ++ between r0.inner.outcome r0.inner.calls (r.inner.calls - r0.inner.calls) =
          used ++ r.unread ∧
        ∀ n < r.inner.calls - r0.inner.calls,
          (∀ written, r0.inner.outcome (r0.inner.calls + n) ≠ .ok 0 written) →
          (r0.unread ++ between r0.inner.outcome r0.inner.calls n).length < used.length + t)

theorem LazyT.lazy {r0 r : BufferedReader} (h : LazyT r0 r 0) : Lazy r0 r ∨ SourceFails r0 r := by
  obtain ⟨h1, h2, h3 | h3⟩ := h
  · exact .inr h3
  · exact .inl ⟨h1, h2, h3⟩

theorem LazyT.refl (r : BufferedReader) : LazyT r r 0 :=
  ⟨rfl, Nat.le_refl _, .inr ⟨[], by simp [between], fun n hn => by omega⟩⟩

theorem LazyT.mono {r0 r : BufferedReader} {t t' : Nat} (h : LazyT r0 r t) (ht : t ≤ t') : LazyT r0 r t' := by
  obtain ⟨h1, h2, h3 | ⟨used, h3, h4⟩⟩ := h
  · exact ⟨h1, h2, .inl h3⟩
  · exact ⟨h1, h2, .inr ⟨used, h3, fun n hn hz => by have := h4 n hn hz; omega⟩⟩

theorem refill_calls (r : BufferedReader) : (refill r).2.inner.calls = r.inner.calls + 1 ∧
    (refill r).2.inner.outcome = r.inner.outcome := by
  unfold refill
  simp only
  split <;> exact ⟨rfl, rfl⟩

theorem lazy_refill {r0 r : BufferedReader} (hg : r.Good) (h : LazyT r0 r 0) (hp : r.pos = r.numValid) :
    (∀ f, (refill r).1 = .error f → LazyT r0 (refill r).2 0) ∧
    ((refill r).1 = .ok () → LazyT r0 (refill r).2 1 ∧
      ((refill r).2.numValid = 0 → LazyT r0 (refill r).2 0)) := by
  obtain ⟨h1, h2, h3⟩ := h
  obtain ⟨hc, ho⟩ := refill_calls r
  have hun : r.unread = [] := by
    unfold unread
    exact List.drop_of_length_le (by rw [List.length_take]; omega)
  have hsub : (refill r).2.inner.calls - r0.inner.calls = (r.inner.calls - r0.inner.calls) + 1 := by omega
  have hidx : r0.inner.calls + (r.inner.calls - r0.inner.calls) = r.inner.calls := by omega
  have hfail : SourceFails r0 r → SourceFails r0 (refill r).2 := by
    rintro ⟨n, hn, code, hcode⟩
    exact ⟨n, by omega, code, hcode⟩
  cases hout : r.inner.outcome r.inner.calls with
  | err code written =>
    have he : (refill r).1 = .error (.err (.ioError (.inner code))) := by
      unfold refill; simp only [hout]
    refine ⟨fun _ _ => ⟨ho.trans h1, by omega, .inl ⟨r.inner.calls - r0.inner.calls, by omega, code, written, ?_⟩⟩,
      fun h => by rw [he] at h; simp at h⟩
    rw [hidx, ← h1, hout]
  | ok n written =>
    obtain ⟨hc1, hc2⟩ := hg.contract _ _ _ hout
    have hn : n % 2 ^ 32 = n := Nat.mod_eq_of_lt (by have := capacity_le; omega)
    have he : (refill r).1 = .ok () := by unfold refill; simp only [hout]
    have hnv : (refill r).2.numValid = n := by unfold refill; simp only [hout, hn]
    have hunread : (refill r).2.unread = written.take n := by
      have hcap := hg.cap
      unfold refill unread
      simp only [hout, hn, List.drop_zero]
      rw [List.take_append_of_le_length (by rw [List.length_take]; omega), List.take_take,
        Nat.min_eq_left (by omega)]
    refine ⟨fun f hf => by rw [he] at hf; simp at hf, fun _ => ?_⟩
    have key : ∀ t, (t = 1 ∨ n = 0) → LazyT r0 (refill r).2 t := by
      intro t ht
      refine ⟨ho.trans h1, by omega, ?_⟩
      rcases h3 with h3 | ⟨used, h3, h4⟩
      · exact .inl (hfail h3)
      refine .inr ⟨used, ?_, fun k hk hz => ?_⟩
      · rw [hsub, between, hidx, ← h1, hout, hunread]
        simp only
        rw [hun, List.append_nil, ← h1] at h3
        rw [← List.append_assoc, h3]
      · rw [hsub] at hk
        by_cases hlt : k < r.inner.calls - r0.inner.calls
        · have := h4 k hlt hz
          omega
        · obtain rfl : k = r.inner.calls - r0.inner.calls := by omega
          rw [hun, List.append_nil] at h3
          rw [h3]
          rcases ht with rfl | rfl
          · omega
          · rw [hidx, ← h1] at hz
            exact absurd hout (hz written)
    exact ⟨key 1 (.inl rfl), fun h => key 0 (.inr (by omega))⟩

theorem lazy_take {r0 r : BufferedReader} {t k : Nat} (hg : r.Good) (h : LazyT r0 r t)
    (hk : k ≤ r.numValid - r.pos) : LazyT r0 { r with pos := r.pos + k } (t - k) := by
  obtain ⟨h1, h2, h3 | ⟨used, h3, h4⟩⟩ := h
  · exact ⟨h1, h2, .inl h3⟩
  · have hlen : r.unread.length = r.numValid - r.pos := by
      have := hg.cap
      have := hg.valid
      unfold unread
      simp only [List.length_drop, List.length_take]
      omega
    refine ⟨h1, h2, .inr ⟨used ++ r.unread.take k, ?_, fun n hn hz => ?_⟩⟩
    · rw [h3, List.append_assoc]
      congr 1
      show _ = _ ++ List.drop (r.pos + k) (List.take r.numValid r.buf)
      rw [← List.drop_drop]
      exact (List.take_append_drop k r.unread).symm
    · have := h4 n hn hz
      simp only [List.length_append, List.length_take] at this ⊢
      omega

theorem lazy_takeByte {r0 r : BufferedReader} {t : Nat} (hg : r.Good) (h : LazyT r0 r t) (ht : t ≤ 1)
    (hlt : r.pos < r.numValid) : LazyT r0 (takeByte r).2 0 := by
  have hlt' : r.pos < r.buf.length := by rw [hg.cap]; exact Nat.lt_of_lt_of_le hlt hg.valid
  have hv := hg.valid
  unfold takeByte
  simp only [Dec.bind_get_run, List.getElem?_eq_getElem hlt']
  rw [Dec.bind_liftM_of (addU_ok (by have := capacity_le; omega)), Dec.bind_set_run]
  have := lazy_take (k := 1) hg h (by omega)
  rwa [show t - 1 = 0 by omega] at this

theorem lazy_readU8' {r0 r : BufferedReader} {t : Nat} (hg : r.Good) (h : LazyT r0 r t) (ht : t ≤ 1)
    (hlt : r.pos < r.numValid) : LazyT r0 (readU8 r).2 0 := by
  unfold readU8
  rw [Dec.bind_get_run, Dec.ite_run, if_neg (by omega)]
  exact lazy_takeByte hg h ht hlt

theorem lazy_readU8 {r0 r : BufferedReader} (hg : r.Good) (h : LazyT r0 r 0) : LazyT r0 (readU8 r).2 0 := by
  by_cases hp : r.pos = r.numValid
  · unfold readU8
    rw [Dec.bind_get_run, Dec.ite_run, if_pos hp]
    obtain ⟨h1, h2⟩ := lazy_refill hg h hp
    have hf := flows_refill hg
    have h0 := (refill_inBounds hg.toInBounds).2.2
    rcases hx : refill r with ⟨f | u, r1⟩
    · rw [hx] at h1
      rw [Dec.bind_error _ hx]
      exact h1 f rfl
    · rw [hx] at h2 hf h0
      obtain ⟨h3, h4⟩ := h2 rfl
      rw [Dec.bind_ok _ hx, Dec.bind_get_run, Dec.ite_run]
      by_cases hz : r1.numValid = 0
      · rw [if_pos hz]
        exact h4 hz
      · rw [if_neg hz]
        exact lazy_takeByte hf.good h3 (Nat.le_refl _) (by have := h0 rfl; simp only at this ⊢; omega)
  · exact lazy_readU8' hg h (Nat.zero_le _) (by have := hg.pos; omega)

theorem map_state {σ α β : Type} (m : Dec σ α) (f : α → β) (s : σ) :
    ((do let a ← m; Pure.pure (f a) : Dec σ β) s).2 = (m s).2 := by
  rw [Dec.bind_def]
  rcases m s with ⟨e | a, s'⟩ <;> rfl

theorem lazy_readU8OrEof {r0 r : BufferedReader} (hg : r.Good) (h : LazyT r0 r 0) :
    LazyT r0 (readU8OrEof r).2 0 := by
  unfold readU8OrEof
  rw [Dec.bind_get_run, Dec.ite_run]
  by_cases hp : r.pos = r.numValid
  · rw [if_pos hp]
    obtain ⟨h1, h2⟩ := lazy_refill hg h hp
    have hf := flows_refill hg
    have h0 := (refill_inBounds hg.toInBounds).2.2
    rcases hx : refill r with ⟨f | u, r1⟩
    · rw [hx] at h1
      rw [Dec.bind_error _ hx]
      exact h1 f rfl
    · rw [hx] at h2 hf h0
      obtain ⟨h3, h4⟩ := h2 rfl
      rw [Dec.bind_ok _ hx, Dec.bind_get_run, Dec.ite_run]
      by_cases hz : r1.numValid = 0
      · rw [if_pos hz]
        exact h4 hz
      · rw [if_neg hz, map_state]
        exact lazy_readU8' hf.good h3 (Nat.le_refl _) (by have := h0 rfl; simp only at this ⊢; omega)
  · rw [if_neg hp, map_state]
    exact lazy_readU8 hg h

theorem lazy_readIntoStep {r0 r : BufferedReader} {t n : Nat} (hg : r.Good) (hn : 0 < n)
    (h : LazyT r0 r t) (ht : t = 0 ∨ t = 1 ∧ r.pos < r.numValid) :
    (∀ f, (readIntoStep n r).1 = .error f → LazyT r0 (readIntoStep n r).2 0) ∧
    ∀ c left, (readIntoStep n r).1 = .ok (c, left) → (left = 0 ∧ LazyT r0 (readIntoStep n r).2 0) ∨
      (0 < left ∧ LazyT r0 (readIntoStep n r).2 1 ∧ (readIntoStep n r).2.pos < (readIntoStep n r).2.numValid) := by
  have hp := hg.pos
  have hv := hg.valid
  have hc := hg.cap
  have htake := lazy_take (k := min n (r.numValid - r.pos)) hg h (Nat.min_le_right _ _)
  rw [show t - min n (r.numValid - r.pos) = 0 by omega] at htake
  have hgood : ({ r with pos := r.pos + min n (r.numValid - r.pos) } : BufferedReader).Good :=
    ⟨⟨hg.honest, hc, by simp only; omega, hv⟩, hg.contract⟩
  unfold readIntoStep
  rw [Dec.bind_get_run, Dec.bind_liftM_of (subU_ok (by omega)),
    Dec.bind_liftM_of (slice_ok ⟨by omega, by rw [hc]; omega⟩),
    Dec.bind_liftM_of (addU_ok (by have := capacity_le; omega)), Dec.bind_set_run, Dec.ite_run]
  generalize hr1 : ({ r with pos := r.pos + min n (r.numValid - r.pos) } : BufferedReader) = r1 at *
  have hr1p : r1.pos = r.pos + min n (r.numValid - r.pos) := by rw [← hr1]
  have hr1n : r1.numValid = r.numValid := by rw [← hr1]
  by_cases hl : n - min n (r.numValid - r.pos) > 0
  · rw [if_pos hl]
    obtain ⟨h1, h2⟩ := lazy_refill hgood htake (by omega)
    have h0 := (refill_inBounds hgood.toInBounds).2.2
    rcases hx : refill r1 with ⟨f | u, r2⟩
    · rw [hx] at h1
      rw [Dec.bind_error _ hx]
      exact ⟨fun _ _ => h1 f rfl, fun c left h => by simp at h⟩
    · rw [hx] at h2 h0
      obtain ⟨h3, h4⟩ := h2 rfl
      rw [Dec.bind_ok _ hx, Dec.bind_get_run, Dec.ite_run]
      by_cases hz : r2.numValid = 0
      · rw [if_pos hz]
        exact ⟨fun _ _ => h4 hz, fun c left h => by simp [ioErr, Dec.fail] at h⟩
      · rw [if_neg hz]
        refine ⟨fun f h => by simp at h, fun c left h => .inr ?_⟩
        simp only [Dec.pure_run, Except.ok.injEq, Prod.mk.injEq] at h ⊢
        exact ⟨by omega, h3, by have := h0 rfl; simp only at this ⊢; omega⟩
  · rw [if_neg hl]
    refine ⟨fun f h => by simp at h, fun c left h => .inl ?_⟩
    simp only [Dec.pure_run, Except.ok.injEq, Prod.mk.injEq] at h ⊢
    exact ⟨h.2.symm, htake⟩

theorem good_readIntoStep {r : BufferedReader} (hg : r.Good) (n : Nat) : (readIntoStep n r).2.Good :=
  (flows_readIntoStep hg n).good

theorem lazy_readIntoLoop (fuel : Nat) : ∀ (n t : Nat) (r0 r : BufferedReader), r.Good → LazyT r0 r t →
    (t = 0 ∨ t = 1 ∧ 0 < n ∧ r.pos < r.numValid) →
    (readIntoLoop fuel n r).1 = .error .diverged ∨ LazyT r0 (readIntoLoop fuel n r).2 0 := by
  induction fuel with
  | zero => intro n t r0 r hg h ht; exact .inl rfl
  | succ fuel ih =>
    intro n t r0 r hg h ht
    unfold readIntoLoop
    rw [Dec.ite_run]
    by_cases hn : n > 0
    · rw [if_pos hn]
      obtain ⟨h1, h2⟩ := lazy_readIntoStep hg hn h (by omega)
      have hg' := good_readIntoStep hg n
      rcases hx : readIntoStep n r with ⟨f | ⟨c, left⟩, r1⟩
      · rw [hx] at h1
        rw [Dec.bind_error _ hx]
        exact .inr (h1 f rfl)
      · rw [hx] at h2 hg'
        rw [Dec.bind_ok _ hx]
        dsimp only
        rw [map_state, Dec.bind_def]
        have key : (readIntoLoop fuel left r1).1 = .error .diverged ∨
            LazyT r0 (readIntoLoop fuel left r1).2 0 := by
          rcases h2 c left rfl with ⟨h3, h4⟩ | ⟨h3, h4, h5⟩
          · exact ih left 0 r0 r1 hg' h4 (.inl rfl)
          · exact ih left 1 r0 r1 hg' h4 (.inr ⟨rfl, h3, h5⟩)
        rcases hy : readIntoLoop fuel left r1 with ⟨f | rest, r2⟩
        · rw [hy] at key
          simpa using key
        · rw [hy] at key
          simpa using key
    · rw [if_neg hn]
      exact .inr (by obtain rfl : t = 0 := by omega
                     exact h)

theorem lazy_skipStep {r0 r : BufferedReader} {t n : Nat} (hg : r.Good) (hn : 0 < n)
    (h : LazyT r0 r t) (ht : t = 0 ∨ t = 1 ∧ r.pos < r.numValid) :
    (∀ f, (skipStep n r).1 = .error f → LazyT r0 (skipStep n r).2 0) ∧
    ∀ left, (skipStep n r).1 = .ok left → (left = 0 ∧ LazyT r0 (skipStep n r).2 0) ∨
      (0 < left ∧ LazyT r0 (skipStep n r).2 1 ∧ (skipStep n r).2.pos < (skipStep n r).2.numValid) := by
  have hp := hg.pos
  have hv := hg.valid
  have hc := hg.cap
  have htake := lazy_take (k := min n (r.numValid - r.pos)) hg h (Nat.min_le_right _ _)
  rw [show t - min n (r.numValid - r.pos) = 0 by omega] at htake
  have hgood : ({ r with pos := r.pos + min n (r.numValid - r.pos) } : BufferedReader).Good :=
    ⟨⟨hg.honest, hc, by simp only; omega, hv⟩, hg.contract⟩
  unfold skipStep
  rw [Dec.bind_get_run, Dec.bind_liftM_of (subU_ok (by omega)),
    Dec.bind_liftM_of (addU_ok (by have := capacity_le; omega)), Dec.bind_set_run, Dec.ite_run]
  generalize hr1 : ({ r with pos := r.pos + min n (r.numValid - r.pos) } : BufferedReader) = r1 at *
  have hr1p : r1.pos = r.pos + min n (r.numValid - r.pos) := by rw [← hr1]
  have hr1n : r1.numValid = r.numValid := by rw [← hr1]
  by_cases hl : n - min n (r.numValid - r.pos) > 0
  · rw [if_pos hl]
    obtain ⟨h1, h2⟩ := lazy_refill hgood htake (by omega)
    have h0 := (refill_inBounds hgood.toInBounds).2.2
    rcases hx : refill r1 with ⟨f | u, r2⟩
    · rw [hx] at h1
      rw [Dec.bind_error _ hx]
      exact ⟨fun _ _ => h1 f rfl, fun left h => by simp at h⟩
    · rw [hx] at h2 h0
      obtain ⟨h3, h4⟩ := h2 rfl
      rw [Dec.bind_ok _ hx, Dec.bind_get_run, Dec.ite_run]
      by_cases hz : r2.numValid = 0
      · rw [if_pos hz]
        exact ⟨fun _ _ => h4 hz, fun left h => by simp [ioErr, Dec.fail] at h⟩
      · rw [if_neg hz]
        refine ⟨fun f h => by simp at h, fun left h => .inr ?_⟩
        simp only [Dec.pure_run, Except.ok.injEq] at h ⊢
        exact ⟨by omega, h3, by have := h0 rfl; simp only at this ⊢; omega⟩
  · rw [if_neg hl]
    refine ⟨fun f h => by simp at h, fun left h => .inl ?_⟩
    simp only [Dec.pure_run, Except.ok.injEq] at h ⊢
    exact ⟨h.symm, htake⟩

theorem good_skipStep {r : BufferedReader} (hg : r.Good) (n : Nat) : (skipStep n r).2.Good :=
  (flows_skipStep hg n).good

theorem lazy_skipLoop (fuel : Nat) : ∀ (n t : Nat) (r0 r : BufferedReader), r.Good → LazyT r0 r t →
    (t = 0 ∨ t = 1 ∧ 0 < n ∧ r.pos < r.numValid) →
    (skipLoop fuel n r).1 = .error .diverged ∨ LazyT r0 (skipLoop fuel n r).2 0 := by
  induction fuel with
  | zero => intro n t r0 r hg h ht; exact .inl rfl
  | succ fuel ih =>
    intro n t r0 r hg h ht
    unfold skipLoop
    rw [Dec.ite_run]
    by_cases hn : n > 0
    · rw [if_pos hn]
      obtain ⟨h1, h2⟩ := lazy_skipStep hg hn h (by omega)
      have hg' := good_skipStep hg n
      rcases hx : skipStep n r with ⟨f | left, r1⟩
      · rw [hx] at h1
        rw [Dec.bind_error _ hx]
        exact .inr (h1 f rfl)
      · rw [hx] at h2 hg'
        rw [Dec.bind_ok _ hx]
        have key : (skipLoop fuel left r1).1 = .error .diverged ∨
            LazyT r0 (skipLoop fuel left r1).2 0 := by
          rcases h2 left rfl with ⟨h3, h4⟩ | ⟨h3, h4, h5⟩
          · exact ih left 0 r0 r1 hg' h4 (.inl rfl)
          · exact ih left 1 r0 r1 hg' h4 (.inr ⟨rfl, h3, h5⟩)
        exact key
    · rw [if_neg hn]
      exact .inr (by obtain rfl : t = 0 := by omega
                     exact h)

theorem lazy_readInto {r0 r : BufferedReader} (hg : r.Good) (h : LazyT r0 r 0) (n : Nat) :
    LazyT r0 (readInto n r).2 0 := by
  have hb := (readInto_inBounds hg.toInBounds n).1
  rcases lazy_readIntoLoop (n + 2) n 0 r0 r hg h (.inl rfl) with h1 | h1
  · rw [readInto, h1] at hb
    exact hb.elim
  · exact h1

theorem lazy_skip {r0 r : BufferedReader} (hg : r.Good) (h : LazyT r0 r 0) (n : Nat) :
    LazyT r0 (skip n r).2 0 := by
  have hb := (skip_inBounds hg.toInBounds n).1
  rcases lazy_skipLoop (n + 2) n 0 r0 r hg h (.inl rfl) with h1 | h1
  · rw [skip, h1] at hb
    exact hb.elim
  · exact h1

end BufferedReader

end Claxon
