import Verif.Props.Trace
import Verif.Props.Metadata

/-! # C63: size hints -/

namespace Claxon.Props

open Claxon Spec ReadBytes

theorem tagsNext_stored (t : Tag) (ts : List Tag) (h : t.Legal) :
    tagsNext (storedTags (t :: ts)) = (.ok (some (t.name, t.value)), storedTags ts) := by
  unfold tagsNext
  rw [Dec.bind_get_run]
  simp only [storedTags, List.map_cons]
  rw [Dec.bind_set_run, Dec.bind_liftM_of (strTo_comment t), Dec.bind_liftM_of (strFrom_comment h)]
  rfl

theorem after_tags (n : Nat) (ts : List Tag) (h : ∀ t ∈ ts, t.Legal) :
    after tagsNext n (storedTags ts) = storedTags (ts.drop n) := by
  induction n generalizing ts with
  | zero => rfl
  | succ n ih =>
    cases ts with
    | nil =>
      have := ih [] (by simp)
      rw [List.drop_nil] at this ⊢
      exact this
    | cons t ts =>
      rw [after, tagsNext_stored t ts (h t List.mem_cons_self)]
      exact ih ts fun t ht => h t (List.mem_cons_of_mem _ ht)

variable {src : Src} {bytes : List U8} {fault : Option Nat} {fuel : Nat} {o : FlacReaderOptions}
  {reader : FlacReader BufferedReader}

/-- **C63.** The iterator over the tags always says exactly how many tags are still to come: `len()` can be
trusted. -/
theorem C63_tags (hd : src.Delivers bytes fault) (h : FlacReader.newExt fuel src o = .ok reader) (n : Nat) :
    tagsSizeHint (after tagsNext n reader.tags) =
      (reader.tags.length - n, some (reader.tags.length - n)) ∧
    HintHolds tagsNext (after tagsNext n reader.tags) (tagsSizeHint (after tagsNext n reader.tags)) := by
  obtain ⟨_, tags, h2, h3, -⟩ := open_tags hd h
  have h2' : ∀ t ∈ tags.drop n, t.Legal := fun t ht => h2 t (List.mem_of_mem_drop ht)
  have hhint : tagsSizeHint (storedTags (tags.drop n)) =
      ((tags.drop n).length, some (tags.drop n).length) := by simp [tagsSizeHint, storedTags]
  rw [h3, after_tags n tags h2, hhint]
  refine ⟨by simp [storedTags], ?_, ?_⟩
  · intro x hx
    rw [calls_tags _ _ h2'] at hx
    obtain ⟨k, hk, rfl⟩ := List.mem_map.1 hx
    have hk := List.mem_range.1 hk
    exact ⟨_, by rw [List.getElem?_eq_getElem (by simpa using hk)]⟩
  · intro m hm k
    cases hm
    rw [after_tags _ _ h2', List.drop_length, calls_tags _ [] (by simp)]
    simp

/-- **C63.** The iterator over metadata blocks says truthfully, after any number of calls, that there is at least
one more item, or that there are none; with any reader that does not panic itself. -/
theorem C63_metadata {σ : Type} [ReadBytes σ] {P : σ → Prop} (hP : NeverPanicsAll P) (s : σ) (hs : P s)
    (n : Nat) :
    HintHolds MetadataBlockReader.next (after MetadataBlockReader.next n (MetadataBlockReader.new s))
      (after MetadataBlockReader.next n (MetadataBlockReader.new s)).sizeHint := by
  have gen : ∀ n (it : MetadataBlockReader σ), P it.input → P (after MetadataBlockReader.next n it).input := by
    intro n
    induction n with
    | zero => exact fun _ h => h
    | succ n ih => exact fun it h => ih _ (safe_next mild_returns hP it h).2
  have hit := gen n (MetadataBlockReader.new s) hs
  generalize after MetadataBlockReader.next n (MetadataBlockReader.new s) = it at hit ⊢
  unfold MetadataBlockReader.sizeHint
  by_cases hdone : it.done = true
  · rw [if_pos hdone]
    refine ⟨fun x hx => by simp [calls] at hx, fun h hh k => ?_⟩
    cases hh
    exact (C43_none (MetadataBlockReader.next_done _ hdone)).2 k
  · rw [if_neg hdone]
    refine ⟨fun x hx => ?_, fun h hh => by cases hh⟩
    simp only [calls, List.mem_singleton] at hx
    subst hx
    have h1 := (safe_next mild_returns hP it hit).1
    rcases hx : MetadataBlockReader.next it with ⟨f | _ | a, it'⟩
    · rw [hx] at h1
      rcases h1 with ⟨a, h1⟩ | ⟨e, h1⟩
      · cases h1
      · cases h1
        exact absurd hx (next_not_err it e it')
    · exact absurd (next_none hx).2 hdone
    · exact ⟨a, rfl⟩

/-- The reader may be a buffered reader around any source, an endless one for example. -/
example {src : Src} (hc : src.Contract) (n : Nat) : HintHolds MetadataBlockReader.next
    (after MetadataBlockReader.next n (MetadataBlockReader.new (BufferedReader.new src)))
    (after MetadataBlockReader.next n (MetadataBlockReader.new (BufferedReader.new src))).sizeHint :=
  C63_metadata (buffered_neverPanics src.outcome) _ (buffered_new hc) n

/-- There are streams with tags. -/
example : ∃ src : Src, ∃ reader bytes, src.Delivers bytes none ∧ FlacReader.new 3 src = .ok reader ∧
    reader.tags.length = 2 := by
  obtain ⟨r', h1, _⟩ := newExt_of exampleMetadata (rest := [1#8]) (show 2 < 3 by decide) (bytewise_delivers _)
  exact ⟨_, _, _, bytewise_delivers _, h1, rfl⟩

end Claxon.Props
