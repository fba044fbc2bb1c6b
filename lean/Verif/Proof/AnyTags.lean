import Verif.Spec.AnyTags
import Verif.Proof.Tags

/-! The tag iterators on comments that need not come from a stream, for C95. -/

namespace Claxon

open Spec

theorem charBytes_cont (c : Char) : ∃ b bs, charBytes c = b :: bs ∧ ∀ x ∈ bs, isCont x = true := by
  have hv := charCode_valid c
  have key : ∀ v, isCont (BitVec.ofNat 8 (v % 64 + 128)) = true := by
    intro v
    rw [isCont_iff, toNat_ofNat8 (by omega)]
    omega
  rw [charBytes_eq]
  split
  · exact ⟨_, _, rfl, by simp⟩
  · split
    · exact ⟨_, _, rfl, by simp [key]⟩
    · split
      · exact ⟨_, _, rfl, by simp [key]⟩
      · exact ⟨_, _, rfl, by simp [key]⟩

theorem boundary_of_cut {s : Str} {i : Nat} (h : CutAt s i) : isCharBoundary s i = true := by
  obtain ⟨a, b, ha, hb, rfl, rfl⟩ := h
  unfold isCharBoundary
  split
  · rfl
  · rw [List.getElem?_append_right (Nat.le_refl _), Nat.sub_self]
    cases b with
    | nil => simp
    | cons x b => simp [utf8_head hb]

theorem cut_of_boundary (text : List Char) : ∀ i, isCharBoundary (textBytes text) i = true →
    CutAt (textBytes text) i := by
  induction text with
  | nil =>
    intro i h
    unfold isCharBoundary at h
    have : i = 0 := by
      by_contra hi
      rw [if_neg hi] at h
      simp [textBytes] at h
      exact hi h
    subst this
    exact ⟨[], [], ⟨[], rfl⟩, ⟨[], rfl⟩, rfl, rfl⟩
  | cons c text ih =>
    intro i h
    by_cases hi : i = 0
    · subst hi
      exact ⟨[], textBytes (c :: text), ⟨[], rfl⟩, ⟨_, rfl⟩, rfl, rfl⟩
    obtain ⟨b, bs, e, hc⟩ := charBytes_cont c
    have e2 : textBytes (c :: text) = charBytes c ++ textBytes text := rfl
    by_cases hl : i < (charBytes c).length
    · exfalso
      unfold isCharBoundary at h
      rw [if_neg hi, e2, List.getElem?_append_left hl, e] at h
      obtain ⟨j, rfl⟩ : ∃ j, i = j + 1 := ⟨i - 1, by omega⟩
      rw [e] at hl
      have hj : j < bs.length := by simpa using hl
      rw [List.getElem?_cons_succ, List.getElem?_eq_getElem hj] at h
      simp [hc _ (List.getElem_mem hj)] at h
    · have h2 : isCharBoundary (textBytes text) (i - (charBytes c).length) = true := by
        unfold isCharBoundary at h ⊢
        rw [if_neg hi, e2, List.getElem?_append_right (by omega)] at h
        split
        · rfl
        · revert h
          cases (textBytes text)[i - (charBytes c).length]? with
          | none => simp; omega
          | some x => simp
      obtain ⟨a, d, ha, hd, h3, h4⟩ := ih _ h2
      refine ⟨charBytes c ++ a, d, utf8_cons ha rfl, hd, ?_, ?_⟩
      · rw [e2, h3, List.append_assoc]
      · rw [List.length_append, h4]; omega

theorem boundary_iff {s : Str} (hs : Utf8 s) (i : Nat) : isCharBoundary s i = true ↔ CutAt s i := by
  obtain ⟨text, rfl⟩ := hs
  exact ⟨cut_of_boundary text i, boundary_of_cut⟩

theorem boundary_of_separated {s name value : Str} {i : Nat} (h : Separated s i name value) :
    isCharBoundary s (i + 1) = true := by
  obtain ⟨-, hv, c, -, rfl, rfl⟩ := h
  unfold isCharBoundary
  rw [if_neg (by omega), List.getElem?_append_right (by omega)]
  simp only [Nat.add_sub_cancel_left, List.getElem?_cons_succ]
  cases value with
  | nil => simp
  | cons x b => simp [utf8_head hv]

theorem separated_of_boundary {name rest : Str} (hn : Utf8 name) (hr : Utf8 rest)
    (hs : Utf8 (name ++ rest)) (h : isCharBoundary (name ++ rest) (name.length + 1) = true) :
    ∃ value, Separated (name ++ rest) name.length name value := by
  obtain ⟨a, b, ha, hb, h1, h2⟩ := (boundary_iff hs _).1 h
  have h3 : (name ++ rest).length = (a ++ b).length := congrArg _ h1
  rcases rest with _ | ⟨c, value⟩
  · simp at h3
    omega
  have h4 : b = value := by
    have := congrArg (List.drop (name.length + 1)) h1
    rw [← h2, List.drop_left, h2] at this
    rw [← this]
    simp
  subst h4
  refine ⟨b, hn, hb, c, ?_, rfl, rfl⟩
  obtain ⟨text, ht⟩ := hr
  rcases text with _ | ⟨d, text⟩
  · cases ht
  obtain ⟨x, xs, e, hc⟩ := charBytes_cont d
  rw [show textBytes (d :: text) = charBytes d ++ textBytes text from rfl, e] at ht
  obtain ⟨rfl, h5⟩ := List.cons.inj ht
  rcases xs with _ | ⟨y, ys⟩
  · have := charBytes_eq d
    rw [e] at this
    split at this
    · rename_i hd
      obtain ⟨rfl, -⟩ := List.cons.inj this
      rw [toNat_ofNat8 (by omega)]
      omega
    · split at this
      · cases this
      · split at this <;> cases this
  · rw [h5] at hb
    have := utf8_head hb
    rw [hc y (by simp)] at this
    cases this

theorem separated_iff {s : Str} {i : Nat} (hs : Utf8 s) : (∃ name value, Separated s i name value) ↔
    isCharBoundary s i = true ∧ isCharBoundary s (i + 1) = true := by
  constructor
  · rintro ⟨name, value, h⟩
    refine ⟨?_, boundary_of_separated h⟩
    obtain ⟨hn, hv, c, hc, rfl, rfl⟩ := h
    unfold isCharBoundary
    split
    · rfl
    · rw [List.getElem?_append_right (Nat.le_refl _), Nat.sub_self]
      simp only [List.getElem?_cons_zero, Bool.not_eq_true']
      rw [← Bool.not_eq_true, isCont_iff]
      omega
  · rintro ⟨h1, h2⟩
    obtain ⟨a, b, ha, hb, rfl, rfl⟩ := (boundary_iff hs _).1 h1
    exact ⟨a, separated_of_boundary ha hb hs h2⟩

/-- The results of an iterator, which may be panics. -/
theorem calls_outcomes {σ α : Type} {m : Dec σ (Option α)} {R : σ → List (Except Fail (Option α)) → Prop}
    (hnil : ∀ s, R s [] → ∃ s', m s = (.ok none, s') ∧ R s' [])
    (hcons : ∀ s x xs, R s (x :: xs) → ∃ s', m s = (x, s') ∧ R s' xs) (n : Nat) :
    ∀ (xs : List (Except Fail (Option α))) (s : σ), R s xs →
      calls m (xs.length + n) s = xs ++ List.replicate n (.ok none) := by
  intro xs
  induction xs with
  | nil =>
    induction n with
    | zero => intro s _; rfl
    | succ n ih =>
      intro s h
      obtain ⟨s', h1, h2⟩ := hnil s h
      have := ih s' h2
      simp only [List.length_nil, Nat.zero_add, List.nil_append] at this ⊢
      rw [calls, h1, List.replicate_succ]
      simp only
      rw [this]
  | cons x xs ih =>
    intro s h
    obtain ⟨s', h1, h2⟩ := hcons s x xs h
    rw [List.length_cons, Nat.add_right_comm, calls, h1, List.cons_append]
    simp only
    rw [ih s' h2]

theorem tagsNext_item {p : Str × Nat} {x : Except Fail (Option (Str × Str))} (hp : Utf8 p.1) (h : ItemOf p x)
    (rest : List (Str × Nat)) : tagsNext (p :: rest) = (x, rest) := by
  unfold tagsNext
  simp only [Dec.bind_get_run, Dec.bind_set_run]
  cases h with
  | item h =>
    obtain ⟨h1, h2⟩ := (separated_iff hp).1 ⟨_, _, h⟩
    obtain ⟨-, -, c, -, h3, rfl⟩ := h
    unfold strTo strFrom
    rw [if_pos h1, if_pos h2, Dec.bind_liftM_of rfl, Dec.bind_liftM_of rfl]
    subst h3
    simp
  | panic h =>
    unfold strTo strFrom
    rename_i s i
    by_cases h1 : isCharBoundary s i = true
    · by_cases h2 : isCharBoundary s (i + 1) = true
      · obtain ⟨name, value, h3⟩ := (separated_iff hp).2 ⟨h1, h2⟩
        exact absurd h3 (h name value)
      · rw [if_pos h1, if_neg h2]
        rfl
    · rw [if_neg h1]
      rfl

theorem exists_item (p : Str × Nat) : ∃ x, ItemOf p x := by
  by_cases h : ∃ name value, Separated p.1 p.2 name value
  · obtain ⟨name, value, h⟩ := h
    exact ⟨_, .item h⟩
  · exact ⟨_, .panic fun name value h' => h ⟨name, value, h'⟩⟩

theorem exists_items (ps : List (Str × Nat)) : ∃ xs, List.Forall₂ ItemOf ps xs := by
  induction ps with
  | nil => exact ⟨[], .nil⟩
  | cons p ps ih =>
    obtain ⟨xs, h⟩ := ih
    obtain ⟨x, h1⟩ := exists_item p
    exact ⟨_, .cons h1 h⟩

theorem exists_finds (needle : Str) (ps : List (Str × Nat)) : ∃ xs, Finds needle ps xs := by
  induction ps with
  | nil => exact ⟨[], .nil⟩
  | cons p ps ih =>
    obtain ⟨xs, h⟩ := ih
    obtain ⟨s, i⟩ := p
    by_cases h1 : CutAt s i
    · obtain ⟨a, b, ha, hb, rfl, rfl⟩ := h1
      cases hn : sameName a needle with
      | false => exact ⟨_, .other ha hb hn h⟩
      | true =>
        by_cases h2 : ∃ value, Separated (a ++ b) a.length a value
        · obtain ⟨value, h2⟩ := h2
          exact ⟨_, .found h2 hn h⟩
        · exact ⟨_, .noValue ha hb hn (fun value h' => h2 ⟨value, h'⟩) h⟩
    · exact ⟨_, .noName h1 h⟩

theorem getTagLoop_step {needle : Str} {ps : List (Str × Nat)} {s : Str} {i k : Nat} (hk : ps[k]? = some (s, i)) (n : Nat) :
    getTagLoop (n + 1) ⟨ps, needle, k⟩ =
      if isCharBoundary s i then
        if sameName (s.take i) needle then
          if isCharBoundary s (i + 1) then (.ok (some (s.drop (i + 1))), ⟨ps, needle, k + 1⟩)
          else (.error (.panic .charBoundary), ⟨ps, needle, k + 1⟩)
        else getTagLoop n ⟨ps, needle, k + 1⟩
      else (.error (.panic .charBoundary), ⟨ps, needle, k + 1⟩) := by
  have hlt : k < ps.length := (List.getElem?_eq_some_iff.1 hk).1
  have hidx : index ps k = .ok (s, i) := by unfold index; rw [hk]
  rw [getTagLoop]
  simp only [Dec.bind_get_run]
  rw [if_pos hlt, Dec.bind_liftM_of hidx]
  simp only [Dec.bind_set_run]
  unfold strTo strFrom
  by_cases h1 : isCharBoundary s i = true
  · rw [if_pos h1, if_pos h1, Dec.bind_liftM_of rfl, eqIgnoreAsciiCase_eq]
    by_cases h2 : sameName (s.take i) needle = true
    · rw [if_pos h2, if_pos h2]
      by_cases h3 : isCharBoundary s (i + 1) = true
      · rw [if_pos h3, if_pos h3]
        rfl
      · rw [if_neg h3, if_neg h3]
        rfl
    · rw [if_neg h2, if_neg h2]
  · rw [if_neg h1, if_neg h1]
    rfl

theorem getTagLoop_finds {needle : Str} {ps : List (Str × Nat)} (hp : ∀ p ∈ ps, Utf8 p.1) {rest : List (Str × Nat)}
    {items : List (Except Fail (Option Str))} (h : Finds needle rest items) : ∀ k, ps.drop k = rest → k ≤ ps.length →
    match (generalizing := false) items with
    | [] => getTagLoop (ps.length - k) ⟨ps, needle, k⟩ = (.ok none, ⟨ps, needle, ps.length⟩)
    | x :: xs => ∃ j, j ≤ ps.length ∧ Finds needle (ps.drop j) xs ∧
        getTagLoop (ps.length - k) ⟨ps, needle, k⟩ = (x, ⟨ps, needle, j⟩) := by
  have at_ : ∀ {k p more}, ps.drop k = p :: more →
      ps[k]? = some p ∧ k < ps.length ∧ ps.drop (k + 1) = more ∧ Utf8 p.1 := by
    intro k p more hd
    have h1 : ps[k]? = some p := by
      have := congrArg (fun l => l[0]?) hd
      simpa using this
    refine ⟨h1, (List.getElem?_eq_some_iff.1 h1).1, ?_, hp p (List.mem_of_getElem? h1)⟩
    rw [← List.drop_drop, hd]
    rfl
  induction h with
  | nil =>
    intro k hd hk
    have : k = ps.length := by
      have := congrArg List.length hd
      simp at this
      omega
    subst this
    rw [Nat.sub_self]
    rfl
  | found h hn hm ih =>
    intro k hd hk
    obtain ⟨h1, h2, h3, h4⟩ := at_ hd
    obtain ⟨b1, b2⟩ := (separated_iff h4).1 ⟨_, _, h⟩
    obtain ⟨-, -, c, -, rfl, rfl⟩ := h
    refine ⟨k + 1, h2, h3 ▸ hm, ?_⟩
    rw [show ps.length - k = (ps.length - (k + 1)) + 1 by omega, getTagLoop_step h1, if_pos b1, if_pos (by simpa using hn),
      if_pos b2]
    simp
  | other u1 u2 hn hm ih =>
    intro k hd hk
    obtain ⟨h1, h2, h3, h4⟩ := at_ hd
    have b1 := boundary_of_cut ⟨_, _, u1, u2, rfl, rfl⟩
    rw [show ps.length - k = (ps.length - (k + 1)) + 1 by omega, getTagLoop_step h1, if_pos b1, if_neg (by simpa using hn)]
    exact ih (k + 1) h3 h2
  | noName h hm ih =>
    intro k hd hk
    obtain ⟨h1, h2, h3, h4⟩ := at_ hd
    refine ⟨k + 1, h2, h3 ▸ hm, ?_⟩
    rw [show ps.length - k = (ps.length - (k + 1)) + 1 by omega, getTagLoop_step h1,
      if_neg (fun b => h ((boundary_iff h4 _).1 b))]
  | noValue u1 u2 hn h hm ih =>
    intro k hd hk
    obtain ⟨h1, h2, h3, h4⟩ := at_ hd
    have b1 := boundary_of_cut ⟨_, _, u1, u2, rfl, rfl⟩
    refine ⟨k + 1, h2, h3 ▸ hm, ?_⟩
    rw [show ps.length - k = (ps.length - (k + 1)) + 1 by omega, getTagLoop_step h1, if_pos b1, if_pos (by simpa using hn),
      if_neg fun b => (separated_of_boundary u1 u2 h4 b).elim fun v hv => h v hv]

end Claxon
