import Verif.Proof.Width
import Verif.Spec.Block
import Verif.Proof.FrameApi

/-! # The accessors of blocks -/

namespace Claxon

open Spec

/-- A part of a concatenation of lists of the same length. -/
theorem slice_flatten {α β : Type} (f : α → β) (n : Nat) : ∀ (xss : List (List α)) (c : Nat) (h : c < xss.length),
    (∀ xs ∈ xss, xs.length = n) →
    ((xss.flatten.map f).take ((c + 1) * n)).drop (c * n) = xss[c].map f ∧
      (c + 1) * n ≤ (xss.flatten.map f).length
  | xs :: xss, 0, _, h => by
    have hx : xs.length = n := h xs (by simp)
    rw [Nat.zero_add, Nat.one_mul, Nat.zero_mul, List.drop_zero]
    simp only [List.flatten_cons, List.map_append, List.getElem_cons_zero]
    constructor
    · rw [List.take_left' (by simpa using hx)]
    · simp; omega
  | xs :: xss, c + 1, hc, h => by
    have hx : xs.length = n := h xs (by simp)
    obtain ⟨h1, h2⟩ := slice_flatten f n xss c (by simpa using hc) (fun ys hy => h ys (by simp [hy]))
    simp only [List.flatten_cons, List.map_append, List.getElem_cons_succ]
    rw [show (c + 1 + 1) * n = (xs.map f).length + (c + 1) * n by rw [List.length_map, hx]; ring,
      show (c + 1) * n = (xs.map f).length + c * n by rw [List.length_map, hx]; ring,
      List.take_length_add_append, ← List.drop_drop, List.drop_left' rfl]
    constructor
    · rw [show (xs.map f).length + c * n = (c + 1) * n by rw [List.length_map, hx]; ring]
      exact h1
    · rw [List.length_append]
      have := h2
      rw [show (xs.map f).length + c * n = (c + 1) * n by rw [List.length_map, hx]; ring]
      omega

theorem holds_of {b : Block} {channels : List (List Int)} (hn : b.channels = channels.length)
    (hs : ∀ c ∈ channels, c.length = b.blockSize) (hd : b.buffer.data = toI32 channels.flatten)
    (hf : ∀ c ∈ channels, ∀ v ∈ c, FitsIn 32 v) (hl : b.blockSize * b.channels < 2 ^ 32) (hch : b.channels < 2 ^ 32) :
    b.Holds b.firstSampleNumber channels where
  time := rfl
  count := hn
  duration := hs
  len := by
    rw [Block.len, mulU_ok hl, hn]
    rfl
  channel := by
    intro c hc
    obtain ⟨h1, h2⟩ := slice_flatten (BitVec.ofInt 32) b.blockSize channels c hc hs
    refine ⟨channels[c].map (BitVec.ofInt 32), ?_, ?_⟩
    · have h3 : (c + 1) * b.blockSize < 2 ^ 32 := by
        refine Nat.lt_of_le_of_lt ?_ hl
        rw [Nat.mul_comm, hn]
        exact Nat.mul_le_mul_left _ hc
      rw [Block.channel_of (Nat.lt_of_lt_of_le h3 (by decide))
        (Nat.lt_of_le_of_lt (show c + 1 ≤ b.channels by omega) (Nat.lt_of_lt_of_le hch (by decide))), hd, toI32, slice_ok ⟨Nat.mul_le_mul_right _ (by omega), h2⟩, h1]
    · rw [List.map_map]
      conv_rhs => rw [← List.map_id channels[c]]
      apply List.map_congr_left
      intro v hv
      exact toInt_ofInt_fits (hf _ (List.getElem_mem hc) v hv)

theorem fits_wrap32 (v : Int) : FitsIn 32 (Arith.wrap32.wrap v) := fits_bmod (by omega) _

theorem fits_samplesWith {s : Subframe} {bs : Nat} : ∀ v ∈ s.samplesWith .wrap32 bs, FitsIn 32 v := by
  intro v hv
  obtain ⟨w, -, rfl⟩ := List.mem_map.1 hv
  exact fits_wrap32 _

theorem fits_half {v : Int} (h : FitsIn 32 v) : FitsIn 32 (v / 2) := by
  obtain ⟨h1, h2, -⟩ := h
  refine ⟨?_, ?_, by omega⟩ <;> norm_num at h1 h2 ⊢ <;> omega

theorem mem_zipWith {α β γ : Type} {f : α → β → γ} {xs : List α} {ys : List β} {z : γ}
    (h : z ∈ List.zipWith f xs ys) : ∃ x ∈ xs, ∃ y ∈ ys, z = f x y := by
  obtain ⟨i, hi, rfl⟩ := List.mem_iff_getElem.1 h
  rw [List.length_zipWith] at hi
  exact ⟨xs[i], List.getElem_mem _, ys[i], List.getElem_mem _, by rw [List.getElem_zipWith]⟩

theorem fits_decorrelate (f : ChannelField) {signals : List (List Int)}
    (h : ∀ c ∈ signals, ∀ v ∈ c, FitsIn 32 v) :
    ∀ c ∈ f.decorrelate Arith.wrap32.wrap signals, ∀ v ∈ c, FitsIn 32 v := by
  unfold ChannelField.decorrelate
  split
  · intro c hc v hv
    rcases List.mem_cons.1 hc with rfl | hc
    · exact h _ (by simp) v hv
    · rw [List.mem_singleton] at hc
      subst hc
      obtain ⟨x, -, y, -, rfl⟩ := mem_zipWith hv
      exact fits_wrap32 _
  · intro c hc v hv
    rcases List.mem_cons.1 hc with rfl | hc
    · obtain ⟨x, -, y, -, rfl⟩ := mem_zipWith hv
      exact fits_wrap32 _
    · rw [List.mem_singleton] at hc
      subst hc
      exact h _ (by simp) v hv
  · intro c hc v hv
    rcases List.mem_cons.1 hc with rfl | hc
    · obtain ⟨x, -, y, -, rfl⟩ := mem_zipWith hv
      exact fits_half (fits_wrap32 _)
    · rw [List.mem_singleton] at hc
      subst hc
      obtain ⟨x, -, y, -, rfl⟩ := mem_zipWith hv
      exact fits_half (fits_wrap32 _)
  · exact h

/-- The block of a well-formed frame. -/
theorem blockOf_holds {bps : Nat} {f : Frame} (hw : f.WellFormed bps) (buffer : VecI32) :
    (blockOf f buffer).Holds f.header.time f.wrappedChannels := by
  obtain ⟨h1, h2⟩ := wrappedChannels_shape hw
  have h3 := size_bounds f.header.blockSize
  have h4 := count_bounds f.header.channels
  refine holds_of h1.symm h2 rfl ?_ ?_ (Nat.lt_of_le_of_lt h4.2 (by norm_num))
  · apply fits_decorrelate
    intro c hc v hv
    obtain ⟨s, -, rfl⟩ := List.mem_map.1 hc
    exact fits_samplesWith v hv
  · calc f.header.blockSize.size * f.header.channels.count ≤ 65535 * 8 := Nat.mul_le_mul h3.2 h4.2
      _ < 2 ^ 32 := by norm_num

end Claxon
