import Verif.Proof.Trace
import Verif.Proof.RefusedConverse
import Verif.Proof.SamplesApi

/-! # Where the flat reader is after a frame, an error or the end -/

namespace Claxon

open Spec ReadBytes

theorem yields_flat {s s' : Flat} {bytes : List U8} (h : Yields s bytes s') :
    s.bytes = bytes ++ s'.bytes ∧ s'.fault = s.fault := by
  induction h with
  | nil s => exact ⟨rfl, rfl⟩
  | @byte s s₁ s' b bytes h _ ih =>
    rcases s with ⟨l, f⟩
    rcases l with _ | ⟨x, l⟩
    · cases f <;> cases h
    · cases h
      exact ⟨by rw [List.cons_append, ← ih.1], ih.2⟩
  | @byteOrEof s s₁ s' b bytes h _ ih =>
    rcases s with ⟨l, f⟩
    rcases l with _ | ⟨x, l⟩
    · cases f <;> cases h
    · cases h
      exact ⟨by rw [List.cons_append, ← ih.1], ih.2⟩

/-- Reading a frame from a byte string: the end, the failure at the end of the bytes, or a result that does not depend
on the bytes behind those that were read. -/
theorem frame_flat (buffer : VecI32) (bytes : List U8) (fault : Option Nat) :
    (bytes.length < 2 ∧ fault = none ∧
      readNextOrEof buffer (⟨bytes, fault⟩ : Flat) = (.ok none, ⟨[], fault⟩)) ∨
    readNextOrEof buffer (⟨bytes, fault⟩ : Flat) = (.error (Flat.endFail fault), ⟨[], fault⟩) ∨
    ∃ used rest result, bytes = used ++ rest ∧
      ∀ more fault', readNextOrEof buffer (⟨used ++ more, fault'⟩ : Flat) = (result, ⟨more, fault'⟩) := by
  obtain ⟨used, ⟨rest, f⟩, hy, h⟩ := frame_trace buffer (⟨bytes, fault⟩ : Flat)
  obtain ⟨h1, h2⟩ := yields_flat hy
  simp only at h1 h2
  subst h2
  rcases h with ⟨hl, s₂, h3, h4⟩ | ⟨e, s₂, h3 | h3, h4⟩ | ⟨result, -, h3⟩
  · left
    rcases rest with _ | ⟨x, rest⟩
    · cases f
      · cases h3
        exact ⟨by rw [h1, List.append_nil]; exact hl, rfl, h4⟩
      · cases h3
    · cases h3
  · right; left
    rcases rest with _ | ⟨x, rest⟩
    · cases f <;> cases h3 <;> exact h4
    · cases h3
  · right; left
    rcases rest with _ | ⟨x, rest⟩
    · cases f <;> cases h3; exact h4
    · cases h3
  · exact .inr (.inr ⟨used, rest, result, h1, h3⟩)

theorem frame_flat_short (buffer : VecI32) {bytes : List U8} (h : bytes.length < 2) :
    readNextOrEof buffer (⟨bytes, none⟩ : Flat) = (.ok none, ⟨[], none⟩) := by
  rw [readNextOrEof_flat]
  match bytes, h with
  | [], _ => rfl
  | [_], _ => rfl

/-- After an error with a reason, exactly the bytes that are the reason have been read. -/
theorem refused_exact (buffer : VecI32) {bytes : List U8} {fault : Option Nat} {e : Error}
    (he : ∀ io, e ≠ .ioError io) (h : (readNextOrEof buffer (⟨bytes, fault⟩ : Flat)).1 = .error (.err e)) :
    ∃ used rest, bytes = used ++ rest ∧ RefusedFrame used e ∧ 2 ≤ used.length ∧
      readNextOrEof buffer (⟨bytes, fault⟩ : Flat) = (.error (.err e), ⟨rest, fault⟩) := by
  have io : ∀ fault, Flat.endFail fault ≠ .err e := by
    intro fault hf
    cases fault with
    | none => cases hf; exact he _ rfl
    | some c => cases hf; exact he _ rfl
  have step : ∀ bytes fault, (readNextOrEof buffer (⟨bytes, fault⟩ : Flat)).1 = .error (.err e) →
      ∃ used rest, bytes = used ++ rest ∧
        ∀ more fault', readNextOrEof buffer (⟨used ++ more, fault'⟩ : Flat) = (.error (.err e), ⟨more, fault'⟩) := by
    intro bytes fault h
    rcases frame_flat buffer bytes fault with ⟨-, -, h1⟩ | h1 | ⟨used, rest, result, h1, h2⟩
    · rw [h1] at h; cases h
    · rw [h1] at h
      injection h with h
      exact absurd h (io _)
    · rw [h1, h2] at h
      obtain rfl : result = _ := h
      exact ⟨used, rest, h1, h2⟩
  obtain ⟨used, rest, rfl, h2⟩ := step _ _ h
  have h3 := h2 [] none
  rw [List.append_nil] at h3
  have hl : 2 ≤ used.length := by
    by_contra hl
    rw [frame_flat_short buffer (Nat.lt_of_not_le hl)] at h3
    cases h3
  refine ⟨used, rest, rfl, ?_, hl, h2 _ _⟩
  rcases refused_frame buffer _ h3 with h4 | ⟨u, v, h4, h5⟩
  · exact absurd h4 (he _)
  · simp only at h4
    have h6 := frame_refused_run h5 buffer v none
    rw [← h4, h3] at h6
    simp only [Prod.mk.injEq, Flat.mk.injEq, and_true, true_and] at h6
    rw [← h6, List.append_nil] at h4
    rw [h4]
    exact h5

/-- A call that does not return `None` uses up at least two bytes, unless the source fails. -/
theorem frame_progress (buffer : VecI32) (bytes : List U8) :
    (readNextOrEof buffer (⟨bytes, none⟩ : Flat) = (.ok none, ⟨[], none⟩)) ∨
    (readNextOrEof buffer (⟨bytes, none⟩ : Flat)).1 ≠ .ok none ∧
      ∃ used rest, bytes = used ++ rest ∧ 2 ≤ used.length ∧
        (readNextOrEof buffer (⟨bytes, none⟩ : Flat)).2 = ⟨rest, none⟩ := by
  rcases Nat.lt_or_ge bytes.length 2 with hl | hl
  · exact .inl (frame_flat_short buffer hl)
  · right
    have h1 : (readNextOrEof buffer (⟨bytes, none⟩ : Flat)).1 ≠ .ok none := by
      intro h
      have h2 := frame_reads_any buffer (⟨bytes, none⟩ : Flat)
      rw [show readNextOrEof buffer (⟨bytes, none⟩ : Flat) = (.ok none, _) from Prod.ext h rfl] at h2
      exact absurd h2.1 (Nat.not_lt.2 hl)
    refine ⟨h1, ?_⟩
    rcases frame_flat buffer bytes none with ⟨h, -, -⟩ | h | ⟨used, rest, result, rfl, h⟩
    · omega
    · rw [h]
      exact ⟨bytes, [], by rw [List.append_nil], hl, rfl⟩
    · refine ⟨used, rest, rfl, ?_, by rw [h]⟩
      by_contra h2
      have h3 := h [] none
      rw [List.append_nil, frame_flat_short buffer (Nat.lt_of_not_le h2)] at h3
      rw [h, ← (Prod.mk.inj h3).1] at h1
      exact h1 rfl

end Claxon
