import Verif.Spec.Checked
import Verif.Proof.BlockPost
import Verif.Proof.Dec
import Verif.Spec.Client
import Verif.Props.Frame

/-! # C29, C30: blocks and their buffers -/

namespace Claxon.Props

open Claxon Spec ReadBytes

variable {σ : Type} [ReadBytes σ] {s s' : σ} {buffer : VecI32} {b : Block}

/-! ## C29 -/

/-- **C29.** The number of samples of a block that was read, from any reader. -/
theorem C29_len (h : readNextOrEof buffer s = (.ok (some b), s')) :
    b.len = .ok (b.duration * b.channels) := by
  have hs := post_block buffer _ _ _ h b rfl
  have h1 := hs.blockSize
  have h2 := hs.channels
  refine mulU_ok ?_
  calc b.blockSize * b.channels ≤ 2 ^ 16 * 8 := Nat.mul_le_mul h1.2.le h2.2
    _ < 2 ^ 32 := by decide

/-- **C29.** The channels of a block have as many samples as its duration says. -/
theorem C29_channel (h : readNextOrEof buffer s = (.ok (some b), s')) {c : Nat} (hc : c < b.channels) :
    ∃ xs, b.channel c = .ok xs ∧ xs.length = b.duration := by
  have hs := post_block buffer _ _ _ h b rfl
  have hle : (c + 1) * b.blockSize ≤ b.buffer.data.length := by
    rw [hs.length]; exact Nat.mul_le_mul_right _ hc
  rw [hs.channel_eq (by decide) hc]
  refine ⟨_, slice_ok ⟨Nat.mul_le_mul_right _ (by omega), hle⟩, ?_⟩
  rw [List.length_drop, List.length_take, Nat.min_eq_left hle, Nat.add_mul, Nat.one_mul, Nat.add_sub_cancel_left]
  rfl

/-- **C29.** There are no other channels. -/
theorem C29_noChannel (h : readNextOrEof buffer s = (.ok (some b), s')) {c : Nat} (hc : b.channels ≤ c)
    (hu : c < 2 ^ 32) : b.channel c = .error (.panic .index) := by
  have hs := post_block buffer _ _ _ h b rfl
  have hlt : (c + 1) * b.blockSize < 2 ^ 64 :=
    Nat.lt_of_le_of_lt (Nat.mul_le_mul (show c + 1 ≤ 2 ^ 32 by omega) hs.blockSize.2.le) (by decide)
  rw [Block.channel_of hlt (show c + 1 < 2 ^ 64 by omega)]
  refine if_neg ?_
  rintro ⟨-, h2⟩
  rw [hs.length] at h2
  have h3 : b.channels * b.blockSize < (c + 1) * b.blockSize :=
    Nat.mul_lt_mul_of_pos_right (by omega) (by have := hs.blockSize; omega)
  omega

/-- **C29.** Single samples are those of the channels. -/
theorem C29_sample (h : readNextOrEof buffer s = (.ok (some b), s')) {c i : Nat} (hc : c < b.channels)
    (hi : i < b.duration) :
    ∃ xs, ∃ hx : i < xs.length, b.channel c = .ok xs ∧ b.sample c i = .ok xs[i] := by
  have hs := post_block buffer _ _ _ h b rfl
  have hle : (c + 1) * b.blockSize ≤ b.buffer.data.length := by
    rw [hs.length]; exact Nat.mul_le_mul_right _ hc
  have he : (c + 1) * b.blockSize = c * b.blockSize + b.blockSize := by rw [Nat.add_mul, Nat.one_mul]
  have hi' : i < b.blockSize := hi
  rw [hs.channel_eq (by decide) hc, hs.sample_eq (by decide) hc hi']
  refine ⟨_, ?_, slice_ok ⟨Nat.mul_le_mul_right _ (by omega), hle⟩, ?_⟩
  · rw [List.length_drop, List.length_take, Nat.min_eq_left hle]
    omega
  · rw [index_ok (by omega)]
    simp

theorem sample_index {c i : Nat} (hs : b.Shape buffer) (hc : c < 2 ^ 32) (hi : i < 2 ^ 32) :
    b.sample c i = index b.buffer.data (c * b.blockSize + i) := by
  refine Block.sample_of ?_
  have := Nat.mul_le_mul (show c ≤ 2 ^ 32 by omega) (Nat.le_of_lt hs.blockSize.2)
  show _ < 2 ^ 64
  omega

/-- **C29.** `sample` panics if there is no such channel, and if there is no such sample in the last channel. -/
theorem C29_noSample (h : readNextOrEof buffer s = (.ok (some b), s')) {c i : Nat} (hc : c < 2 ^ 32) (hi : i < 2 ^ 32)
    (hn : b.channels ≤ c ∨ c + 1 = b.channels ∧ b.duration ≤ i) : b.sample c i = .error (.panic .index) := by
  have hs := post_block buffer _ _ _ h b rfl
  rw [sample_index hs hc hi]
  have hge : b.buffer.data.length ≤ c * b.blockSize + i := by
    rw [hs.length]
    rcases hn with hn | ⟨h1, h2⟩
    · exact Nat.le_trans (Nat.mul_le_mul_right _ hn) (Nat.le_add_right _ _)
    · rw [← h1, Nat.add_mul, Nat.one_mul]
      exact Nat.add_le_add_left h2 _
  unfold index
  rw [List.getElem?_eq_none hge]
  rfl

/-- **C29.** If there is no such sample in a channel, `sample` continues with the samples of the next channel. -/
theorem C29_nextChannel (h : readNextOrEof buffer s = (.ok (some b), s')) {c i : Nat} (hc : c < b.channels)
    (hi : i < 2 ^ 32) (hn : b.duration ≤ i) : b.sample c i = b.sample (c + 1) (i - b.duration) := by
  have hs := post_block buffer _ _ _ h b rfl
  have := hs.channels
  rw [sample_index hs (by omega) hi, sample_index hs (by omega) (by omega), Nat.add_mul, Nat.one_mul, Nat.add_assoc]
  have hd : b.blockSize + (i - b.duration) = i := Nat.add_sub_cancel' hn
  rw [hd]

theorem stereo_calls {xs : List I32} {d : Nat} (hd : d < 2 ^ 32) (hlen : xs.length = 2 * d) (more : Nat) :
    ∀ k i, i + k = d → calls StereoSamples.next (k + more) ⟨xs, d, i⟩ =
      (List.zipWith (fun l r => (.ok (some (l, r)) : Except Fail (Option (I32 × I32))))
        ((xs.take d).drop i) (xs.drop (d + i))) ++ List.replicate more (.ok none)
  | 0, i, hi => by
    obtain rfl : i = d := by omega
    have : ∀ n, calls StereoSamples.next n ⟨xs, i, i⟩ = List.replicate n (.ok none) := by
      intro n
      induction n with
      | zero => rfl
      | succ n ih =>
        have h1 : StereoSamples.next ⟨xs, i, i⟩ = (.ok none, ⟨xs, i, i⟩) := by
          unfold StereoSamples.next
          rw [Dec.bind_get_run]
          simp only [if_true]
          rfl
        rw [calls, h1, ih]
        rfl
    rw [Nat.zero_add, this, List.drop_of_length_le (by simp), List.zipWith_nil_left]
    rfl
  | k + 1, i, hi => by
    have hl : i < xs.length := by omega
    have hr : i + d < xs.length := by omega
    have h1 : StereoSamples.next ⟨xs, d, i⟩ = (.ok (some (xs[i], xs[i + d])), ⟨xs, d, i + 1⟩) := by
      unfold StereoSamples.next
      rw [Dec.bind_get_run]
      simp only
      rw [if_neg (by omega)]
      have e1 : StereoSamples.getUnchecked xs i = .ok xs[i] := by
        simp [StereoSamples.getUnchecked, hl]
      have e2 : StereoSamples.getUnchecked xs (i + d) = .ok xs[i + d] := by
        simp [StereoSamples.getUnchecked, hr]
      rw [Dec.bind_liftM_of e1, Dec.bind_liftM_of (addU_ok (w := Target.usizeBits) (show i + d < 2 ^ 64 by omega)),
        Dec.bind_liftM_of e2, Dec.bind_liftM_of (addU_ok (by omega))]
      rfl
    rw [show k + 1 + more = k + more + 1 by omega, calls, h1]
    simp only
    rw [stereo_calls hd hlen more k (i + 1) (by omega)]
    rw [List.drop_eq_getElem_cons (l := xs.take d) (i := i) (by simp; omega),
      List.drop_eq_getElem_cons (l := xs) (i := d + i) (by omega)]
    simp [Nat.add_comm d i, Nat.add_assoc, Nat.add_left_comm d i 1]

/-- **C29.** The stereo iterator of a block with two channels yields the pairs of samples in order, then
`None` forever. In particular its unchecked accesses are within bounds. -/
theorem C29_stereo (h : readNextOrEof buffer s = (.ok (some b), s')) (h2 : b.channels = 2) (more : Nat) :
    ∃ left right it, b.channel 0 = .ok left ∧ b.channel 1 = .ok right ∧ b.stereoSamples = .ok it ∧
      calls StereoSamples.next (b.duration + more) it =
        List.zipWith (fun l r => .ok (some (l, r))) left right ++ List.replicate more (.ok none) := by
  have hs := post_block buffer _ _ _ h b rfl
  have hbs := hs.blockSize
  have hlen := hs.length
  rw [h2] at hlen
  rw [hs.channel_eq (by decide) (show 0 < b.channels by omega),
    hs.channel_eq (by decide) (show 1 < b.channels by omega)]
  refine ⟨_, _, ⟨b.buffer.data, b.blockSize, 0⟩, slice_ok ⟨by omega, by omega⟩, slice_ok ⟨by omega, by omega⟩,
    ?_, ?_⟩
  · rw [Block.stereoSamples_of (show b.blockSize * 2 < 2 ^ 64 by omega)]
    rw [if_neg (by simp [h2]), if_pos (by show b.buffer.data.length ≥ _; omega)]
  · rw [show b.duration = b.blockSize from rfl,
      stereo_calls (by omega) hlen more b.blockSize 0 (by omega)]
    simp only [Nat.zero_mul, Nat.zero_add, Nat.one_mul, Nat.add_zero, List.drop_zero]
    rw [show (1 + 1) * b.blockSize = b.buffer.data.length by omega, List.take_length]

/-- **C29.** There is no stereo iterator if there are not two channels. -/
theorem C29_notStereo (h2 : b.channels ≠ 2) : b.stereoSamples = .error (.panic .explicit) := if_pos h2

/-- The empty block, which is not returned by the decoder, has an empty "channel" for every number, although
the documentation says that there is a panic. -/
theorem C29_empty (c : Nat) (hu : c < 2 ^ 32) : Block.empty.channel c = .ok [] := by
  rw [Block.channel_of (show _ < 2 ^ 64 by simp [Block.empty]) (show _ < 2 ^ 64 by omega)]
  simp [Block.empty, VecI32.empty, slice]

/-- A block that is read. -/
theorem example_read : ∃ b r', readNextOrEof .empty (BufferedReader.new (bytewise (exampleFrame.bytes 16))) =
    (.ok (some b), r') ∧ b.channels = 2 ∧ b.duration = 4 := by
  obtain ⟨b, r', h1, -, h3⟩ := C23_lossless exampleFrame_encodes .empty (rest := [])
    (by rw [List.append_nil]; exact bytewise_remaining _)
  exact ⟨b, r', h1, h3.count, (h3.duration [5, 7, 6, 6] (by decide)).symm⟩

/-- The theorems of C29 for this block: it has two channels of four samples, and no more. -/
example : ∃ (b : Block) (r' : BufferedReader),
    readNextOrEof .empty (BufferedReader.new (bytewise (exampleFrame.bytes 16))) = (.ok (some b), r') ∧
    b.len = .ok 8 ∧ (∃ xs, b.channel 1 = .ok xs ∧ xs.length = 4) ∧ b.channel 2 = .error (.panic .index) ∧
    (∃ xs, ∃ hx : 3 < xs.length, b.channel 1 = .ok xs ∧ b.sample 1 3 = .ok xs[3]) ∧
    b.sample 1 4 = .error (.panic .index) ∧ b.sample 0 5 = b.sample 1 1 ∧ ∃ it, b.stereoSamples = .ok it := by
  obtain ⟨b, r', h, h2, h4⟩ := example_read
  refine ⟨b, r', h, ?_, ?_, C29_noChannel h (by omega) (by decide), C29_sample h (by omega) (by omega),
    C29_noSample h (by decide) (by decide) (.inr ⟨by omega, by omega⟩), ?_, ?_⟩
  · have := C29_len h
    rwa [h2, h4] at this
  · have := C29_channel h (c := 1) (by omega)
    rwa [h4] at this
  · have := C29_nextChannel h (c := 0) (i := 5) (by omega) (by decide) (by omega)
    rwa [h4] at this
  · obtain ⟨-, -, it, -, -, hit, -⟩ := C29_stereo h h2 0
    exact ⟨it, hit⟩

example : Block.empty.channel 7 = .ok [] := C29_empty 7 (by decide)

/-! ## C30 -/

/-- **C30.** The buffer of a block holds exactly its samples. -/
theorem C30_exact (h : readNextOrEof buffer s = (.ok (some b), s')) :
    b.len = .ok b.intoBuffer.data.length := by
  have hs := post_block buffer _ _ _ h b rfl
  rw [C29_len h, show b.intoBuffer.data.length = _ from hs.length, Nat.mul_comm]
  rfl

/-- **C30.** A buffer with enough capacity is kept. -/
theorem C30_reused (h : readNextOrEof buffer s = (.ok (some b), s'))
    (hcap : b.duration * b.channels ≤ buffer.cap) : b.intoBuffer.cap = buffer.cap := by
  have hs := post_block buffer _ _ _ h b rfl
  rw [show b.intoBuffer.cap = _ from hs.cap]
  have : b.channels * b.blockSize ≤ buffer.cap := by rw [Nat.mul_comm]; exact hcap
  unfold ensureBufferLen
  split
  · rw [if_neg (by omega)]
  · rfl

/-- **C30.** If the capacity does not suffice, there is a new buffer that is large enough. `Vec`s are never
longer than their capacity. -/
theorem C30_grown (h : readNextOrEof buffer s = (.ok (some b), s')) (hv : buffer.data.length ≤ buffer.cap)
    (hcap : buffer.cap < b.duration * b.channels) :
    b.duration * b.channels ≤ b.intoBuffer.cap ∧ buffer.cap < b.intoBuffer.cap := by
  have hs := post_block buffer _ _ _ h b rfl
  rw [show b.intoBuffer.cap = _ from hs.cap]
  have : buffer.cap < b.channels * b.blockSize := by rw [Nat.mul_comm]; exact hcap
  unfold ensureBufferLen
  rw [if_pos (by show buffer.data.length < _; omega), if_pos this,
    show b.duration * b.channels = b.channels * b.blockSize from Nat.mul_comm ..]
  exact ⟨Nat.le_refl _, this⟩

/-- A buffer without room grows to the eight samples of this block, and the buffer of the block has room for the next
one like it. -/
example : ∃ (b : Block) (r' : BufferedReader),
    readNextOrEof .empty (BufferedReader.new (bytewise (exampleFrame.bytes 16))) = (.ok (some b), r') ∧
    b.len = .ok b.intoBuffer.data.length ∧ 8 ≤ b.intoBuffer.cap ∧
    ∀ (b' : Block) (s s' : BufferedReader), readNextOrEof b.intoBuffer s = (.ok (some b'), s') →
      b'.duration * b'.channels ≤ 8 → b'.intoBuffer.cap = b.intoBuffer.cap := by
  obtain ⟨b, r', h, h2, h4⟩ := example_read
  have hg := C30_grown h (by decide) (by rw [h2, h4]; decide)
  rw [h2, h4] at hg
  exact ⟨b, r', h, C30_exact h, hg.1, fun b' s s' h' hle => C30_reused h' (by omega)⟩

end Claxon.Props
