import Verif.Props.Block
import Verif.Props.Lib

/-! # C30: how large the buffers become -/

namespace Claxon.Props

open Claxon Spec ReadBytes

variable {σ : Type} [ReadBytes σ] {s s' : σ} {buffer : VecI32} {b : Block}

/-- **C30.** The buffer of a block is not larger than the one that was given, or than the largest block
needs: 65535 samples in 8 channels, or 2 MiB. -/
theorem C30_bounded (h : readNextOrEof buffer s = (.ok (some b), s')) :
    b.intoBuffer.cap ≤ max buffer.cap (65535 * 8) := by
  have hs := post_block buffer _ _ _ h b rfl
  rw [show b.intoBuffer.cap = _ from hs.cap]
  have hn : b.channels * b.blockSize ≤ 8 * 65535 :=
    Nat.mul_le_mul hs.channels.2 (by have := hs.blockSize.2; omega)
  unfold ensureBufferLen
  split
  · split
    · exact Nat.le_trans hn (Nat.le_max_right _ _)
    · exact Nat.le_max_left _ _
  · exact Nat.le_max_left _ _

omit [ReadBytes σ] in
theorem current_state (it : FlacSamples σ) : (FlacSamples.current it).2 = it := by
  unfold FlacSamples.current
  rw [Dec.bind_get_run]
  cases h : it.block.sample it.channel it.sample with
  | ok v => rfl
  | error f => rfl

theorem nextBlock_cap (it : FlacSamples σ) :
    (FlacSamples.nextBlock it).2.block.buffer.cap ≤ max it.block.buffer.cap (65535 * 8) := by
  unfold FlacSamples.nextBlock
  rw [Dec.bind_get_run, Dec.bind_set_run]
  simp only [Dec.bind_def, Dec.catchErr, FlacSamples.onReader, Dec.zoom]
  rcases hx : readNextOrEof it.block.intoBuffer it.frameReader with ⟨f | _ | b, s1⟩
  · cases f <;> exact Nat.zero_le _
  · exact Nat.zero_le _
  · have := C30_bounded hx
    simp only [Dec.bind_get_run, Dec.bind_set_run, current_state]
    exact this

theorem next_cap (it : FlacSamples σ) :
    (FlacSamples.next it).2.block.buffer.cap ≤ max it.block.buffer.cap (65535 * 8) := by
  unfold FlacSamples.next
  rw [Dec.bind_get_run]
  have hself : it.block.buffer.cap ≤ max it.block.buffer.cap (65535 * 8) := Nat.le_max_left _ _
  rw [Dec.ite_run]
  split
  · exact hself
  cases h : addU 32 it.channel 1 with
  | error f => exact hself
  | ok c =>
    rw [Dec.bind_liftM_of rfl, Dec.ite_run]
    split
    · cases h : addU 32 it.sample 1 with
      | error f => exact hself
      | ok c =>
        rw [Dec.bind_liftM_of rfl, Dec.bind_set_run, Dec.ite_run]
        split
        · exact nextBlock_cap _
        · rw [current_state]; exact hself
    · rw [Dec.bind_set_run, current_state]; exact hself

/-- **C30.** The buffer of a sample iterator never grows beyond what the largest block needs, whatever the
reader does and however often `next` is called. -/
theorem C30_iterator (n : Nat) : (after FlacSamples.next n (FlacSamples.new s)).block.buffer.cap ≤ 65535 * 8 := by
  have key : ∀ n (it : FlacSamples σ), it.block.buffer.cap ≤ 65535 * 8 →
      (after FlacSamples.next n it).block.buffer.cap ≤ 65535 * 8 := by
    intro n
    induction n with
    | zero => intro it h; exact h
    | succ n ih =>
      intro it h
      exact ih _ (Nat.le_trans (next_cap it) (by omega))
  exact key n _ (by simp [FlacSamples.new, Block.empty, VecI32.empty])

/-- The buffer is not always empty: after one call it has room for the first block. -/
example : (after FlacSamples.next 1 (FlacSamples.new (BufferedReader.new (bytewise (exampleFrame.bytes 16))))).block.buffer.cap
    = 8 := by
  decide +kernel

theorem nextBlock_kept {it it' : FlacSamples σ} {v : I32}
    (h : FlacSamples.nextBlock it = (.ok (some (.ok v)), it')) :
    ∃ s', readNextOrEof it.block.intoBuffer it.frameReader = (.ok (some it'.block), s') := by
  unfold FlacSamples.nextBlock at h
  rw [Dec.bind_get_run, Dec.bind_set_run] at h
  simp only [Dec.bind_def, Dec.catchErr, FlacSamples.onReader, Dec.zoom] at h
  rcases hx : readNextOrEof it.block.intoBuffer it.frameReader with ⟨f | _ | b, s1⟩
  · rw [hx] at h; cases f <;> cases h
  · rw [hx] at h; cases h
  · rw [hx] at h
    simp only [Dec.bind_get_run, Dec.bind_set_run] at h
    have := congrArg Prod.snd h
    rw [current_state] at this
    subst this
    exact ⟨s1, rfl⟩

/-- **C30.** A sample iterator keeps its buffer, too: whatever its state, when a call yields a sample, the buffer is the
one from before, unless a block has been read for which that was too small. -/
theorem C30_iteratorKept {it it' : FlacSamples σ} {v : I32}
    (h : FlacSamples.next it = (.ok (some (.ok v)), it'))
    (hcap : it'.block.duration * it'.block.channels ≤ it.block.buffer.cap) :
    it'.block.buffer.cap = it.block.buffer.cap := by
  have same : ∀ i : FlacSamples σ, FlacSamples.current i = (.ok (some (.ok v)), it') → i.block = it.block →
      it'.block.buffer.cap = it.block.buffer.cap := by
    intro i h hi
    have := congrArg Prod.snd h
    rw [current_state] at this
    rw [← show i = it' from this, hi]
  unfold FlacSamples.next at h
  rw [Dec.bind_get_run, Dec.ite_run] at h
  split at h
  · cases h
  cases hc : addU 32 it.channel 1 with
  | error f => rw [hc] at h; cases h
  | ok c =>
    rw [hc, Dec.bind_liftM_of rfl, Dec.ite_run] at h
    split at h
    · cases hc : addU 32 it.sample 1 with
      | error f => rw [hc] at h; cases h
      | ok c =>
        rw [hc, Dec.bind_liftM_of rfl, Dec.bind_set_run, Dec.ite_run] at h
        split at h
        · obtain ⟨s', h'⟩ := nextBlock_kept h
          exact C30_reused h' hcap
        · exact same _ h rfl
    · rw [Dec.bind_set_run] at h
      exact same _ h rfl

/-- The second frame is read into the buffer of the first. -/
example : ∃ v, (FlacSamples.next (after FlacSamples.next 8 (FlacSamples.new (BufferedReader.new
    (bytewise (exampleFrame.bytes 16 ++ exampleFrame.bytes 16)))))).1 = .ok (some (.ok v)) :=
  ⟨5#32, by decide +kernel⟩

end Claxon.Props
