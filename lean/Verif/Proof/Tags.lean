import Verif.Spec.Checked
import Verif.Proof.Metadata
import Verif.Spec.Client

/-! The tag iterators. -/

namespace Claxon

open Spec

theorem utf8_head {b : U8} {rest : List U8} (h : Utf8 (b :: rest)) : isCont b = false := by
  rw [← utf8Valid_iff, utf8Valid_cons] at h
  rw [← Bool.not_eq_true, isCont_iff]
  intro hc
  rw [if_neg, if_neg, if_neg, if_neg] at h
  · cases h
  · simp [BitVec.le_def]; omega
  · simp [BitVec.le_def]; omega
  · simp [BitVec.le_def]; omega
  · simp [BitVec.lt_def]; omega

theorem strTo_comment (t : Tag) : strTo t.comment t.name.length = .ok t.name := by
  unfold strTo isCharBoundary
  have e : t.comment[t.name.length]? = some 0x3d#8 := by simp [Tag.comment]
  rw [e, if_pos]
  · simp [Tag.comment]
  · split
    · rfl
    · rfl

theorem strFrom_comment {t : Tag} (h : t.Legal) : strFrom t.comment (t.name.length + 1) = .ok t.value := by
  have e : t.comment[t.name.length + 1]? = t.value[0]? := by
    simp only [Tag.comment]
    rw [List.getElem?_append_right (by omega)]
    simp
  have d : t.comment.drop (t.name.length + 1) = t.value := by
    simp [Tag.comment]
  suffices hb : isCharBoundary t.comment (t.name.length + 1) = true by
    unfold strFrom
    rw [if_pos hb, d]
  unfold isCharBoundary
  rw [if_neg (by omega), e]
  have hv := h.value
  rcases hval : t.value with _ | ⟨b, v⟩
  · simp [Tag.comment, hval]
  · rw [hval] at hv
    simp [utf8_head hv]

theorem calls_iterator {σ α : Type} {m : Dec σ (Option α)} {R : σ → List α → Prop}
    (hnil : ∀ s, R s [] → ∃ s', m s = (.ok none, s') ∧ R s' [])
    (hcons : ∀ s x xs, R s (x :: xs) → ∃ s', m s = (.ok (some x), s') ∧ R s' xs) (n : Nat) :
    ∀ (s : σ) (xs : List α), R s xs → calls m n s = (List.range n).map fun k => .ok xs[k]? := by
  induction n with
  | zero => intro s xs _; rfl
  | succ n ih =>
    intro s xs h
    rw [List.range_succ_eq_map, List.map_cons, List.map_map]
    unfold calls
    cases xs with
    | nil =>
      obtain ⟨s', h1, h2⟩ := hnil s h
      rw [h1, ih s' [] h2]
      simp [Function.comp_def]
    | cons x xs =>
      obtain ⟨s', h1, h2⟩ := hcons s x xs h
      rw [h1, ih s' xs h2]
      simp [Function.comp_def]

theorem calls_tags (n : Nat) (ts : List Tag) (h : ∀ t ∈ ts, t.Legal) :
    calls tagsNext n (storedTags ts) =
      (List.range n).map fun k => .ok ((ts.map fun t => (t.name, t.value))[k]?) := by
  refine calls_iterator
    (R := fun s xs => ∃ ts : List Tag, (∀ t ∈ ts, t.Legal) ∧ s = storedTags ts ∧
      xs = ts.map fun t => (t.name, t.value)) ?_ ?_ n _ _ ⟨ts, h, rfl, rfl⟩
  · rintro _ ⟨ts, h, rfl, hx⟩
    obtain rfl : ts = [] := by simpa using hx.symm
    exact ⟨_, rfl, [], h, rfl, rfl⟩
  · rintro _ x xs ⟨ts, h, rfl, hx⟩
    rcases ts with _ | ⟨t, ts⟩
    · cases hx
    cases hx
    refine ⟨storedTags ts, ?_, ts, fun t' ht' => h t' (by simp [ht']), rfl, rfl⟩
    show (tagsNext : Dec _ _) ((t.comment, t.name.length) :: storedTags ts) = _
    unfold tagsNext
    simp only [Dec.bind_get_run, Dec.bind_set_run]
    rw [strTo_comment, strFrom_comment (h t (by simp))]
    rfl

/-! ### `get_tag` -/

theorem sameLetter_iff (a b : U8) : (asciiLower a == asciiLower b) = sameLetter a b := by
  have ha := a.isLt
  have hb := b.isLt
  have key : ∀ x : U8, (asciiLower x).toNat =
      if 0x41 ≤ x.toNat ∧ x.toNat ≤ 0x5a then x.toNat + 0x20 else x.toNat := by decide +kernel
  rw [Bool.eq_iff_iff]
  simp only [sameLetter, beq_iff_eq, Bool.or_eq_true, Bool.and_eq_true, decide_eq_true_eq,
    ← BitVec.toNat_inj, key]
  split <;> split <;> omega

theorem eqIgnoreAsciiCase_eq : ∀ s t : Str, eqIgnoreAsciiCase s t = sameName s t := by
  intro s
  induction s with
  | nil => intro t; cases t <;> simp [eqIgnoreAsciiCase, sameName]
  | cons a s ih =>
    intro t
    cases t with
    | nil => simp [eqIgnoreAsciiCase, sameName]
    | cons b t =>
      rw [sameName, ← ih t, ← sameLetter_iff]
      unfold eqIgnoreAsciiCase
      simp only [List.length_cons, List.zip_cons_cons, List.all_cons]
      rw [show (s.length + 1 == t.length + 1) = (s.length == t.length) by simp]
      cases (s.length == t.length) <;> cases (asciiLower a == asciiLower b) <;> simp

theorem storedTags_getElem? (ts : List Tag) (i : Nat) :
    (storedTags ts)[i]? = ts[i]?.map fun t => (t.comment, t.name.length) := by
  simp [storedTags]

/-- The values that are still to come. -/
def tagValues (needle : Str) (ts : List Tag) : List Str :=
  (ts.filter fun t => sameName t.name needle).map Tag.value

theorem getTagLoop_run (needle : Str) (ts : List Tag) (h : ∀ t ∈ ts, t.Legal) (n : Nat) :
    ∀ i, n = ts.length - i → i ≤ ts.length →
      match tagValues needle (ts.drop i) with
      | [] => getTagLoop n ⟨storedTags ts, needle, i⟩ = (.ok none, ⟨storedTags ts, needle, ts.length⟩)
      | v :: vs => ∃ j, j ≤ ts.length ∧ tagValues needle (ts.drop j) = vs ∧
          getTagLoop n ⟨storedTags ts, needle, i⟩ = (.ok (some v), ⟨storedTags ts, needle, j⟩) := by
  induction n with
  | zero =>
    intro i hn hi
    have : ts.length = i := by omega
    subst this
    simp only [List.drop_length]
    rfl
  | succ n ih =>
    intro i hn hi
    have hlt : i < ts.length := by omega
    have hlen : i < (storedTags ts).length := by simp [storedTags]; omega
    have hget : (storedTags ts)[i]? = some (ts[i].comment, ts[i].name.length) := by
      rw [storedTags_getElem?, List.getElem?_eq_getElem hlt]; rfl
    have hidx : index (storedTags ts) i = .ok (ts[i].comment, ts[i].name.length) := by
      unfold index; rw [hget]
    have hle : ts[i].Legal := h _ (List.getElem_mem hlt)
    have hrun : getTagLoop (n + 1) ⟨storedTags ts, needle, i⟩ =
        if sameName ts[i].name needle then
          (.ok (some ts[i].value), ⟨storedTags ts, needle, i + 1⟩)
        else getTagLoop n ⟨storedTags ts, needle, i + 1⟩ := by
      rw [getTagLoop]
      simp only [Dec.bind_get_run]
      rw [if_pos hlen, Dec.bind_liftM_of hidx]
      simp only [Dec.bind_set_run]
      rw [Dec.bind_liftM_of (strTo_comment _), eqIgnoreAsciiCase_eq]
      by_cases hs : sameName ts[i].name needle = true
      · rw [if_pos hs, if_pos hs, Dec.bind_liftM_of (strFrom_comment hle)]
        rfl
      · rw [if_neg hs, if_neg hs]
    rw [hrun, List.drop_eq_getElem_cons hlt]
    by_cases hs : sameName ts[i].name needle = true
    · have : tagValues needle (ts[i] :: ts.drop (i + 1)) =
          ts[i].value :: tagValues needle (ts.drop (i + 1)) := by
        unfold tagValues; rw [List.filter_cons_of_pos (by simpa using hs)]; rfl
      rw [this, if_pos hs]
      exact ⟨i + 1, by omega, rfl, rfl⟩
    · have : tagValues needle (ts[i] :: ts.drop (i + 1)) = tagValues needle (ts.drop (i + 1)) := by
        unfold tagValues; rw [List.filter_cons_of_neg (by simpa using hs)]
      rw [this, if_neg hs]
      exact ih (i + 1) (by omega) (by omega)

theorem calls_getTag (needle : Str) (n : Nat) (ts : List Tag) (h : ∀ t ∈ ts, t.Legal) :
    calls getTagNext n (GetTag.new (storedTags ts) needle) =
      (List.range n).map fun k => .ok ((tagValues needle ts)[k]?) := by
  have hl : (storedTags ts).length = ts.length := by simp [storedTags]
  refine calls_iterator
    (R := fun s xs => ∃ i, i ≤ ts.length ∧ s = ⟨storedTags ts, needle, i⟩ ∧
      xs = tagValues needle (ts.drop i)) ?_ ?_ n _ _ ⟨0, by omega, rfl, rfl⟩
  · rintro _ ⟨i, hi, rfl, hx⟩
    have := getTagLoop_run needle ts h _ i rfl hi
    rw [← hx] at this
    refine ⟨_, ?_, ts.length, Nat.le_refl _, rfl, by simp [tagValues]⟩
    unfold getTagNext
    simp only [Dec.bind_get_run]
    rw [hl]
    exact this
  · rintro _ x xs ⟨i, hi, rfl, hx⟩
    have := getTagLoop_run needle ts h _ i rfl hi
    rw [← hx] at this
    obtain ⟨j, hj, hv, hr⟩ := this
    refine ⟨_, ?_, j, hj, rfl, hv.symm⟩
    unfold getTagNext
    simp only [Dec.bind_get_run]
    rw [hl]
    exact hr

end Claxon
