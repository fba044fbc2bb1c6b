import Verif.Spec.MetadataItems
import Verif.Proof.MetadataIter
import Verif.Proof.RefusedMetadata

/-! The items of iterating over metadata blocks. -/

namespace Claxon

open Spec ReadBytes

theorem readBlock_cases (s : Flat) :
    (∃ (b : EncodedBlock) (s' : Flat), s.bytes = b.bytes ++ s'.bytes ∧ s'.fault = s.fault ∧
      readBlock s = (.ok (b.isLast, b.block), s')) ∨
    (∃ e s', readBlock s = (.error (.err e), s') ∧ MetadataItems s.fault s.bytes [.error e]) := by
  have h := btriple_block (lim := .never) s
  rcases hr : readBlock s with ⟨⟨_ | _ | _ | _⟩ | r, s'⟩
  · rename_i e
    right
    refine ⟨e, s', rfl, ?_⟩
    by_cases hq : ∃ used rest e', s.bytes = used ++ rest ∧ RefusedBlock used e'
    · obtain ⟨used, rest, e', hb, hq⟩ := hq
      have := (bfails_block hq rest s.fault).1
      rw [← hb, hr] at this
      cases this
      rw [hb]
      exact .refused used rest e hq
    · rcases brefuses_block s e s' hr with he | ⟨used, rest, hb, hq'⟩
      · rw [show e = _ from he]
        refine .cut _ ?_ ?_
        · rintro b ⟨rest, hb⟩
          have := breads_block b rest s.fault
          rw [hb, hr] at this
          cases this
        · rintro used e' h' ⟨rest, hb⟩
          exact hq ⟨used, rest, e', hb.symm, h'⟩
      · exact absurd ⟨used, rest, e, hb, hq'⟩ hq
  · rw [hr] at h; exact absurd h id
  · rw [hr] at h; exact absurd h id
  · rw [hr] at h; exact absurd h id
  · rw [hr] at h
    obtain ⟨h1, u, h2, b, h3, h4⟩ := h
    left
    subst h3 h4
    exact ⟨b, s', h2, h1, rfl⟩

theorem metadata_items (n : Nat) : ∀ (s : Flat), s.bytes.length ≤ n →
    ∃ items, MetadataItems s.fault s.bytes items ∧
      (∀ n, calls MetadataBlockReader.next n (MetadataBlockReader.new s) =
        (List.range n).map fun k => .ok items[k]?) := by
  induction n with
  | zero =>
    intro s hl
    have hs : s.bytes = [] := List.length_eq_zero_iff.1 (by omega)
    rcases readBlock_cases s with ⟨b, s', h1, _⟩ | ⟨e, s', h1, h2⟩
    · have := length_bytes_ge b
      have := congrArg List.length h1
      rw [List.length_append] at this
      omega
    · refine ⟨[.error e], h2, ?_⟩
      intro n
      refine calls_iterator (R := fun r xs => (r = MetadataBlockReader.new s ∧ xs = [.error e]) ∨
        (r.done = true ∧ xs = [])) ?_ ?_ n _ _ (.inl ⟨rfl, rfl⟩)
      · rintro r (⟨_, h⟩ | ⟨h, _⟩)
        · cases h
        · exact ⟨r, MetadataBlockReader.next_done r h, .inr ⟨h, rfl⟩⟩
      · rintro r x xs (⟨rfl, h⟩ | ⟨_, h⟩)
        · cases h
          refine ⟨⟨s', true⟩, ?_, .inr ⟨rfl, rfl⟩⟩
          rw [MetadataBlockReader.new, next_block_run, h1]
        · cases h
  | succ n ih =>
    intro s hl
    rcases readBlock_cases s with ⟨b, s', h1, h2, h3⟩ | ⟨e, s', h1, h2⟩
    · by_cases hb : b.isLast = true
      · refine ⟨[.ok b.block], ?_, ?_⟩
        · rw [h1]; exact .last b _ hb
        intro n
        refine calls_iterator (R := fun r xs => (r = MetadataBlockReader.new s ∧ xs = [.ok b.block]) ∨
          (r.done = true ∧ xs = [])) ?_ ?_ n _ _ (.inl ⟨rfl, rfl⟩)
        · rintro r (⟨_, h⟩ | ⟨h, _⟩)
          · cases h
          · exact ⟨r, MetadataBlockReader.next_done r h, .inr ⟨h, rfl⟩⟩
        · rintro r x xs (⟨rfl, h⟩ | ⟨_, h⟩)
          · cases h
            refine ⟨⟨s', b.isLast⟩, ?_, .inr ⟨hb, rfl⟩⟩
            rw [MetadataBlockReader.new, next_block_run, h3]
          · cases h
      · rw [Bool.not_eq_true] at hb
        have hlen := congrArg List.length h1
        have := length_bytes_ge b
        rw [List.length_append] at hlen
        obtain ⟨items, hi, hc⟩ := ih s' (by omega)
        refine ⟨.ok b.block :: items, ?_, ?_⟩
        · rw [h1]
          rw [h2] at hi
          exact .more b _ items hb hi
        · intro n
          cases n with
          | zero => rfl
          | succ n =>
            rw [List.range_succ_eq_map, List.map_cons, List.map_map]
            unfold calls
            have hn : MetadataBlockReader.next (MetadataBlockReader.new s) =
                (.ok (some (.ok b.block)), MetadataBlockReader.new s') := by
              rw [MetadataBlockReader.new, next_block_run, h3]
              simp only [hb]
              rfl
            rw [hn, hc n]
            simp [Function.comp_def]
    · refine ⟨[.error e], h2, ?_⟩
      intro n
      refine calls_iterator (R := fun r xs => (r = MetadataBlockReader.new s ∧ xs = [.error e]) ∨
        (r.done = true ∧ xs = [])) ?_ ?_ n _ _ (.inl ⟨rfl, rfl⟩)
      · rintro r (⟨_, h⟩ | ⟨h, _⟩)
        · cases h
        · exact ⟨r, MetadataBlockReader.next_done r h, .inr ⟨h, rfl⟩⟩
      · rintro r x xs (⟨rfl, h⟩ | ⟨_, h⟩)
        · cases h
          refine ⟨⟨s', true⟩, ?_, .inr ⟨rfl, rfl⟩⟩
          rw [MetadataBlockReader.new, next_block_run, h1]
        · cases h

/-- What the first item of the specification is, in terms of reading one block. -/
theorem items_step {fault : Option Nat} {bytes : List U8} {items : List (Except Error MetadataBlock)}
    (h : MetadataItems fault bytes items) :
    (∃ b rest, readBlock (⟨bytes, fault⟩ : Flat) = (.ok (true, b), ⟨rest, fault⟩) ∧ items = [.ok b]) ∨
    (∃ b rest more, readBlock (⟨bytes, fault⟩ : Flat) = (.ok (false, b), ⟨rest, fault⟩) ∧
      items = .ok b :: more ∧ MetadataItems fault rest more) ∨
    ∃ e, (readBlock (⟨bytes, fault⟩ : Flat)).1 = .error (.err e) ∧ items = [.error e] := by
  cases h with
  | last b rest hb => exact .inl ⟨b.block, rest, by rw [breads_block b rest fault, hb], rfl⟩
  | more b rest items hb next =>
    exact .inr (.inl ⟨b.block, rest, items, by rw [breads_block b rest fault, hb], rfl, next⟩)
  | refused used rest e h => exact .inr (.inr ⟨e, (bfails_block h rest fault).1, rfl⟩)
  | cut _ h h' =>
    refine .inr (.inr ⟨_, ?_, rfl⟩)
    rcases readBlock_cases ⟨bytes, fault⟩ with ⟨b, s', h1, _⟩ | ⟨e, s', h1, _⟩
    · exact absurd ⟨_, h1.symm⟩ (h b)
    · rcases brefuses_block _ e s' h1 with he | ⟨used, rest, hb, hq⟩
      · rw [h1, show e = _ from he]
      · exact absurd ⟨rest, hb.symm⟩ (h' used e hq)

theorem items_unique {fault : Option Nat} {bytes : List U8} {items : List (Except Error MetadataBlock)}
    (h : MetadataItems fault bytes items) : ∀ {items'}, MetadataItems fault bytes items' → items' = items := by
  have key : ∀ {items items' : List (Except Error MetadataBlock)} {bytes : List U8},
      (∀ {rest more more'}, (readBlock (⟨bytes, fault⟩ : Flat)).2 = ⟨rest, fault⟩ → more.length < items.length →
        MetadataItems fault rest more → MetadataItems fault rest more' → more' = more) →
      MetadataItems fault bytes items → MetadataItems fault bytes items' → items' = items := by
    intro items items' bytes ih h h'
    rcases items_step h with ⟨b, rest, h1, rfl⟩ | ⟨b, rest, more, h1, rfl, hm⟩ | ⟨e, h1, rfl⟩ <;>
      rcases items_step h' with ⟨b', rest', h1', rfl⟩ | ⟨b', rest', more', h1', rfl, hm'⟩ | ⟨e', h1', rfl⟩ <;>
      (first | rw [h1] at h1' | rw [h1'] at h1) <;> first | cases h1' | cases h1
    · rfl
    · rw [ih (by rw [h1]) (by simp) hm hm']
    · rfl
  intro items' h'
  induction hn : items.length using Nat.strong_induction_on generalizing bytes items items' with
  | _ n ih =>
    subst hn
    exact key (fun {rest more more'} _ hl hm hm' => ih _ hl hm hm' rfl) h h'

end Claxon
