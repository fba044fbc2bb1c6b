import Verif.Proof.AnyTags

/-! # C95: the tag iterators on any list of comments

`Tags::new` and `GetTag::new` (metadata.rs:139-189) can be called with any strings and any positions. The theorems
say for every such list what each call of `next` gives. -/

namespace Claxon

open Spec

/-- C95: for any comments, call number `k` of `Tags::next` gives the name and the value of comment number `k`, if the
given position is that of an ASCII character. If it is not, then the call panics, and later calls are not affected.
After the last comment all calls give `None`. -/
theorem C95_tags (comments : List (Str × Nat)) (hu : ∀ p ∈ comments, Utf8 p.1) :
    ∃ items, List.Forall₂ ItemOf comments items ∧
      ∀ n, calls tagsNext (comments.length + n) comments = items ++ List.replicate n (.ok none) := by
  obtain ⟨items, h⟩ := exists_items comments
  refine ⟨items, h, fun n => ?_⟩
  rw [h.length_eq]
  refine calls_outcomes (R := fun s xs => (∀ p ∈ s, Utf8 p.1) ∧ List.Forall₂ ItemOf s xs) ?_ ?_ n items _ ⟨hu, h⟩
  · rintro s ⟨-, h⟩
    cases h
    exact ⟨[], rfl, by simp, .nil⟩
  · rintro s x xs ⟨hu, h⟩
    cases h with
    | cons h1 h2 =>
      exact ⟨_, tagsNext_item (hu _ List.mem_cons_self) h1 _, fun p hp => hu p (List.mem_cons_of_mem _ hp), h2⟩

/-- C95: a comment has only one outcome. -/
theorem C95_tags_unique {p : Str × Nat} {x y : Except Fail (Option (Str × Str))} (hx : ItemOf p x) (hy : ItemOf p y) :
    x = y := by
  cases hx with
  | item h1 =>
    cases hy with
    | item h2 =>
      obtain ⟨-, -, c, -, e1, l1⟩ := h1
      obtain ⟨-, -, d, -, e2, l2⟩ := h2
      obtain ⟨rfl, h⟩ := List.append_inj (e1.symm.trans e2) (l1.trans l2.symm)
      obtain ⟨-, rfl⟩ := List.cons.inj h
      rfl
    | panic h2 => exact absurd h1 (h2 _ _)
  | panic h1 =>
    cases hy with
    | item h2 => exact absurd h2 (h1 _ _)
    | panic h2 => rfl

/-- C95: for any comments and any name, the calls of `GetTag::next` give, in order, the values of the comments whose
name is the given one without regard to the case of ASCII letters. A call panics when it comes to a comment whose position is not
that of a character, or one with the given name whose position is not that of an ASCII character. Later calls
continue after that comment. In the end all calls give `None`. -/
theorem C95_getTag (comments : List (Str × Nat)) (needle : Str) (hu : ∀ p ∈ comments, Utf8 p.1) :
    (∃ items, Finds needle comments items) ∧ ∀ items, Finds needle comments items →
      ∀ n, calls getTagNext (items.length + n) (GetTag.new comments needle) =
        items ++ List.replicate n (.ok none) := by
  refine ⟨exists_finds needle comments, fun items h n => ?_⟩
  refine calls_outcomes (R := fun (s : GetTag) xs => s.vorbisComments = comments ∧ s.needle = needle ∧ s.index ≤ comments.length ∧
    Finds needle (comments.drop s.index) xs) ?_ ?_ n items _ ⟨rfl, rfl, Nat.zero_le _, h⟩
  · rintro ⟨_, _, k⟩ ⟨rfl, rfl, hk, hf⟩
    exact ⟨_, getTagLoop_finds hu hf k rfl hk, rfl, rfl, Nat.le_refl _, by rw [List.drop_length]; exact .nil⟩
  · rintro ⟨_, _, k⟩ x xs ⟨rfl, rfl, hk, hf⟩
    obtain ⟨j, hj, h1, h2⟩ := getTagLoop_finds hu hf k rfl hk
    exact ⟨_, h2, rfl, rfl, hj, h1⟩

/-- Comments as a program might give them: `é=a` with the position of the second byte of the `é`, `A:b`, `A=` with a
position beyond the end, `aé` with the position of the `é`, and `a=c`. -/
def oddComments : List (Str × Nat) :=
  [([0xc3, 0xa9, 0x3d, 0x61], 1), ([0x41, 0x3a, 0x62], 1), ([0x41, 0x3d], 3), ([0x61, 0xc3, 0xa9], 1), ([0x61, 0x3d, 0x63], 1)]

theorem oddComments_utf8 : ∀ p ∈ oddComments, Utf8 p.1 := by
  intro p hp
  simp only [oddComments, List.mem_cons, List.not_mem_nil, or_false] at hp
  rcases hp with rfl | rfl | rfl | rfl | rfl
  · exact ⟨['é', '=', 'a'], by decide +kernel⟩
  · exact ⟨['A', ':', 'b'], by decide +kernel⟩
  · exact ⟨['A', '='], by decide +kernel⟩
  · exact ⟨['a', 'é'], by decide +kernel⟩
  · exact ⟨['a', '=', 'c'], by decide +kernel⟩

/-- The hypotheses of the theorems are met, and both outcomes occur. -/
example : (∃ items, List.Forall₂ ItemOf oddComments items ∧
      ∀ n, calls tagsNext (5 + n) oddComments = items ++ List.replicate n (.ok none)) ∧
    calls tagsNext 6 oddComments =
      [.error (.panic .charBoundary), .ok (some ([0x41], [0x62])), .error (.panic .charBoundary),
       .error (.panic .charBoundary), .ok (some ([0x61], [0x63])), .ok none] :=
  ⟨C95_tags oddComments oddComments_utf8, by decide +kernel⟩

example : (∃ items, Finds [0x61] oddComments items) ∧
    calls getTagNext 6 (GetTag.new oddComments [0x61]) =
      [.error (.panic .charBoundary), .ok (some [0x62]), .error (.panic .charBoundary),
       .error (.panic .charBoundary), .ok (some [0x63]), .ok none] :=
  ⟨(C95_getTag oddComments [0x61] oddComments_utf8).1, by decide +kernel⟩

/-- If another name is looked for, then the fourth comment is passed over. -/
example : calls getTagNext 3 (GetTag.new oddComments [0x62]) =
      [.error (.panic .charBoundary), .error (.panic .charBoundary), .ok none] := by decide +kernel

end Claxon
