import Verif.Spec.Client
import Verif.Proof.Open
import Verif.Proof.Tags

/-! Iterating over metadata blocks. -/

namespace Claxon

open Spec ReadBytes

theorem next_block_run {σ : Type} [ReadBytes σ] (s : σ) :
    MetadataBlockReader.next { input := s, done := false } =
      match readBlock s with
      | (.error (.err e), s') => (.ok (some (.error e)), { input := s', done := true })
      | (.error f, s') => (.error f, { input := s', done := false })
      | (.ok r, s') => (.ok (some (.ok r.2)), { input := s', done := r.1 }) := by
  rw [MetadataBlockReader.next_run]
  unfold readBlock
  simp only [Dec.bind_def]
  rcases readMetadataBlockHeader s with ⟨⟨_ | _ | _ | _⟩ | header, s1⟩ <;> try rfl
  simp only
  rcases readMetadataBlock header.blockType header.length s1 with ⟨⟨_ | _ | _ | _⟩ | block, s2⟩ <;> rfl

/-! ### For every reader -/

section

variable {σ : Type} [ReadBytes σ]

/-- Errors are items of the iterator. -/
theorem next_not_err (r : MetadataBlockReader σ) (e : Error) (r' : MetadataBlockReader σ) :
    MetadataBlockReader.next r ≠ (.error (.err e), r') := by
  rcases r with ⟨s, done⟩
  cases done with
  | true => rw [MetadataBlockReader.next_done _ rfl]; intro h; cases h
  | false =>
    rw [next_block_run]
    rcases readBlock s with ⟨(e | _ | _ | _) | a, s'⟩ <;> intro h <;> cases h

theorem next_none {r r' : MetadataBlockReader σ} (h : MetadataBlockReader.next r = (.ok none, r')) :
    r' = r ∧ r.done = true := by
  rcases r with ⟨s, done⟩
  cases done with
  | true =>
    rw [MetadataBlockReader.next_done _ rfl] at h
    cases h
    exact ⟨rfl, rfl⟩
  | false =>
    rw [next_block_run] at h
    generalize readBlock s = x at h
    rcases x with ⟨⟨_ | _ | _ | _⟩ | r, s'⟩ <;> cases h

theorem next_error {r r' : MetadataBlockReader σ} {e : Error}
    (h : MetadataBlockReader.next r = (.ok (some (.error e)), r')) : r'.done = true := by
  rcases r with ⟨s, done⟩
  cases done with
  | true =>
    rw [MetadataBlockReader.next_done _ rfl] at h
    cases h
  | false =>
    rw [next_block_run] at h
    generalize readBlock s = x at h
    rcases x with ⟨⟨_ | _ | _ | _⟩ | r, s'⟩ <;> cases h
    rfl

end

end Claxon
