import Verif.Proof.Samples
import Verif.Proof.Block

/-! # The iterators on platforms with other pointer widths -/

namespace Claxon

open Spec ReadBytes

variable {σ : Type}

/-- A step of the iterator over the stereo samples. -/
theorem StereoSamples.next_width (t : Target) (hw : 32 ≤ t.usizeBits) {it : StereoSamples}
    (h : it.currentSample ≤ it.blockDuration) (hd : it.blockDuration < 2 ^ 16) :
    @next _ t it = @next _ target64 it ∧ (@next _ target64 it).2.blockDuration = it.blockDuration ∧
      (@next _ target64 it).2.currentSample ≤ it.blockDuration := by
  have h1 : 2 ^ 32 ≤ 2 ^ t.usizeBits := Nat.pow_le_pow_right (by decide) hw
  have e1 : addU t.usizeBits it.currentSample it.blockDuration = .ok (it.currentSample + it.blockDuration) :=
    if_pos (by omega)
  have e2 : addU 64 it.currentSample it.blockDuration = .ok (it.currentSample + it.blockDuration) :=
    if_pos (by omega)
  have e3 : addU 32 it.currentSample 1 = .ok (it.currentSample + 1) := if_pos (by omega)
  have key : ∀ t' : Target, addU t'.usizeBits it.currentSample it.blockDuration =
      .ok (it.currentSample + it.blockDuration) → @next _ t' it =
        if it.currentSample = it.blockDuration then (.ok none, it)
        else match getUnchecked it.buffer it.currentSample,
            getUnchecked it.buffer (it.currentSample + it.blockDuration) with
          | .ok l, .ok r => (.ok (some (l, r)), { it with currentSample := it.currentSample + 1 })
          | .ok _, .error f => (.error f, it)
          | .error f, _ => (.error f, it) := by
    intro t' e
    unfold next
    rw [Dec.bind_get_run]
    by_cases hc : it.currentSample = it.blockDuration
    · rw [if_pos hc, if_pos hc]; rfl
    rw [if_neg hc, if_neg hc]
    rcases h1 : getUnchecked it.buffer it.currentSample with f | l
    · rfl
    rw [Dec.bind_liftM_of rfl, Dec.bind_liftM_of e]
    rcases h2 : getUnchecked it.buffer (it.currentSample + it.blockDuration) with f | r
    · rfl
    rw [Dec.bind_liftM_of rfl, Dec.bind_liftM_of e3, Dec.bind_set_run]
    rfl
  rw [key t e1, key target64 e2]
  refine ⟨rfl, ?_⟩
  split
  · exact ⟨rfl, h⟩
  split
  · exact ⟨rfl, by show it.currentSample + 1 ≤ _; omega⟩
  · exact ⟨rfl, h⟩
  · exact ⟨rfl, h⟩

theorem StereoSamples.calls_width (t : Target) (hw : 32 ≤ t.usizeBits) (n : Nat) : ∀ {it : StereoSamples},
    it.currentSample ≤ it.blockDuration → it.blockDuration < 2 ^ 16 →
    calls (@next _ t) n it = calls (@next _ target64) n it := by
  induction n with
  | zero => intros; rfl
  | succ n ih =>
    intro it h hd
    obtain ⟨h1, h2, h3⟩ := next_width t hw h hd
    rw [calls, calls, h1, ih (by omega) (by omega)]

section

variable [ReadBytes σ]

/-- The block of the iterator is the initial one, or a decoded one with a sample in it. -/
def FlacSamples.Decoded (it : FlacSamples σ) : Prop :=
  it.block = .empty ∨ ∃ buffer, it.block.Shape buffer ∧ it.sample < it.block.duration

omit [ReadBytes σ] in
theorem FlacSamples.current_width (t : Target) (hw : 32 ≤ t.usizeBits) {it : FlacSamples σ}
    {buffer : VecI32} (hs : it.block.Shape buffer) (hc : it.channel < it.block.channels)
    (hi : it.sample < it.block.duration) :
    @current _ _ t it = @current _ _ target64 it ∧ (@current _ _ target64 it).2 = it := by
  have e : @Block.sample _ t it.block it.channel it.sample =
      @Block.sample _ target64 it.block it.channel it.sample := by
    rw [@Block.Shape.sample_eq _ t _ _ hs hw _ _ hc hi,
      @Block.Shape.sample_eq _ target64 _ _ hs (by decide) _ _ hc hi]
  unfold current
  rw [Dec.bind_get_run, Dec.bind_get_run, e]
  refine ⟨rfl, ?_⟩
  rcases @Block.sample _ target64 it.block it.channel it.sample <;> rfl

theorem FlacSamples.next_width (t : Target) (hw : 32 ≤ t.usizeBits) {it : FlacSamples σ}
    (h : it.Decoded) : @next _ _ _ _ t it = @next _ _ _ _ target64 it ∧
    (@next _ _ _ _ target64 it).2.Decoded := by
  unfold next
  rw [Dec.bind_get_run, Dec.bind_get_run]
  by_cases hf : it.hasFailed = true
  · rw [if_pos hf, if_pos hf]
    exact ⟨rfl, h⟩
  rw [if_neg hf, if_neg hf]
  rcases ha : addU 32 it.channel 1 with f | c
  · exact ⟨rfl, h⟩
  rw [Dec.bind_liftM_of rfl, Dec.bind_liftM_of rfl]
  by_cases hc : c ≥ it.block.channels
  · rw [if_pos hc, if_pos hc]
    rcases hb : addU 32 it.sample 1 with f | i
    · exact ⟨rfl, h⟩
    rw [Dec.bind_liftM_of rfl, Dec.bind_liftM_of rfl, Dec.bind_set_run, Dec.bind_set_run]
    by_cases hi : i ≥ it.block.duration
    · rw [if_pos hi, if_pos hi]
      unfold nextBlock
      rw [Dec.bind_get_run, Dec.bind_get_run, Dec.bind_set_run, Dec.bind_set_run]
      dsimp only
      rw [Dec.bind_def, Dec.bind_def]
      simp only [Dec.catchErr, onReader, Dec.zoom_run]
      rcases hr : readNextOrEof it.block.intoBuffer it.frameReader with ⟨e | _ | b, s'⟩
      · cases e
        · exact ⟨rfl, .inl rfl⟩
        · exact ⟨rfl, .inl rfl⟩
        · exact ⟨rfl, .inl rfl⟩
        · exact ⟨rfl, .inl rfl⟩
      · exact ⟨rfl, .inl rfl⟩
      · simp only
        rw [Dec.bind_get_run, Dec.bind_get_run, Dec.bind_set_run, Dec.bind_set_run]
        have hs := post_block _ _ _ _ hr b rfl
        have h1 := current_width (σ := σ) t hw (it := ⟨s', b, 0, 0, it.hasFailed⟩) hs hs.channels.1 hs.blockSize.1
        refine ⟨h1.1, ?_⟩
        rw [h1.2]
        exact .inr ⟨_, hs, hs.blockSize.1⟩
    · rw [if_neg hi, if_neg hi]
      rcases h with h | ⟨buffer, hs, -⟩
      · rw [h] at hi; exact absurd (Nat.zero_le _) hi
      have h1 := current_width (σ := σ) t hw (it := { it with channel := 0, sample := i }) hs hs.channels.1
        (Nat.lt_of_not_le hi)
      refine ⟨h1.1, ?_⟩
      rw [h1.2]
      exact .inr ⟨_, hs, Nat.lt_of_not_le hi⟩
  · rw [if_neg hc, if_neg hc, Dec.bind_set_run, Dec.bind_set_run]
    rcases h with h | ⟨buffer, hs, hlt⟩
    · rw [h] at hc; exact absurd (Nat.zero_le _) hc
    have h1 := current_width (σ := σ) t hw (it := { it with channel := c }) hs (Nat.lt_of_not_le hc) hlt
    refine ⟨h1.1, ?_⟩
    rw [h1.2]
    exact .inr ⟨_, hs, hlt⟩

theorem FlacSamples.calls_width (t : Target) (hw : 32 ≤ t.usizeBits) (n : Nat) : ∀ {it : FlacSamples σ},
    it.Decoded → calls (@next _ _ _ _ t) n it = calls (@next _ _ _ _ target64) n it := by
  induction n with
  | zero => intros; rfl
  | succ n ih =>
    intro it h
    obtain ⟨h1, h2⟩ := next_width t hw h
    rw [calls, calls, h1, ih h2]

end

end Claxon
