import Verif.Proof.FrameApi
import Verif.Proof.Block

/-! # Every block of samples can be encoded -/

namespace Claxon

open Spec

/-- A subframe that stores the samples as they are. -/
def verbatim (vs : List Int) : Subframe := ⟨.verbatim vs, 0⟩

theorem verbatim_samples (n : Nat) (vs : List Int) : (verbatim vs).samples n = vs := by
  simp [verbatim, Subframe.samples, Subframe.samplesWith, Coding.samplesWith, Arith.exact]

theorem verbatim_legal {bps n : Nat} {vs : List Int} (hb : bps ≤ 32) (hp : 0 < bps) (hn : vs.length = n)
    (hv : ∀ v ∈ vs, FitsIn bps v) : (verbatim vs).Legal bps n where
  wellFormed := ⟨hp, hn, hv⟩
  residual := trivial
  samples := by
    rw [verbatim_samples]
    exact fun v h => FitsIn.mono (hv v h) hb

/-- The signals that are put into the subframes have the right length and fit. -/
theorem correlate_fits (field : ChannelField) {bps n : Nat} (hp : 0 < bps) {channels : List (List Int)}
    (hc : channels.length = field.count) (hsize : ∀ c ∈ channels, c.length = n)
    (hfit : ∀ c ∈ channels, ∀ v ∈ c, FitsIn bps v) :
    (field.correlate channels).length = field.count ∧
    ∀ p ∈ List.zip (field.depths bps) (field.correlate channels),
      bps ≤ p.1 ∧ p.1 ≤ bps + 1 ∧ p.2.length = n ∧ ∀ v ∈ p.2, FitsIn p.1 v := by
  have side : ∀ l r : List Int, (∀ v ∈ l, FitsIn bps v) → (∀ v ∈ r, FitsIn bps v) →
      ∀ v ∈ List.zipWith (fun l r => l - r) l r, FitsIn (bps + 1) v := by
    intro l r hl hr v hv
    obtain ⟨a, ha, b, hb, rfl⟩ := mem_zipWith hv
    obtain ⟨h1, h2, -⟩ := hl a ha
    obtain ⟨h3, h4, -⟩ := hr b hb
    have : (2 : Int) ^ (bps + 1 - 1) = 2 * 2 ^ (bps - 1) := by
      obtain ⟨k, rfl⟩ : ∃ k, bps = k + 1 := ⟨bps - 1, by omega⟩
      simp [Int.pow_succ, Int.mul_comm]
    exact ⟨by omega, by omega, by omega⟩
  have mid : ∀ l r : List Int, (∀ v ∈ l, FitsIn bps v) → (∀ v ∈ r, FitsIn bps v) →
      ∀ v ∈ List.zipWith (fun l r => (l + r) / 2) l r, FitsIn bps v := by
    intro l r hl hr v hv
    obtain ⟨a, ha, b, hb, rfl⟩ := mem_zipWith hv
    obtain ⟨h1, h2, -⟩ := hl a ha
    obtain ⟨h3, h4, -⟩ := hr b hb
    exact ⟨by omega, by omega, by omega⟩
  have two : field.count = 2 → ∃ l r, channels = [l, r] := by
    intro h
    rw [h] at hc
    match channels, hc with
    | [l, r], _ => exact ⟨l, r, rfl⟩
  cases field with
  | independent k =>
    refine ⟨hc, fun p hp' => ?_⟩
    obtain ⟨h1, h2⟩ := List.of_mem_zip hp'
    have e : p.1 = bps := List.eq_of_mem_replicate h1
    rw [e]
    exact ⟨by omega, by omega, hsize _ h2, hfit _ h2⟩
  | leftSide =>
    obtain ⟨l, r, rfl⟩ := two rfl
    refine ⟨rfl, fun p hp' => ?_⟩
    have hl := hsize l (by simp)
    have hr := hsize r (by simp)
    have : p = (bps, l) ∨ p = (bps + 1, List.zipWith (fun l r => l - r) l r) := by
      simpa [ChannelField.depths, ChannelField.correlate] using hp'
    rcases this with rfl | rfl
    · exact ⟨by omega, by omega, hl, hfit _ (by simp)⟩
    · exact ⟨by simp, by simp, by simp [hl, hr], side l r (hfit _ (by simp)) (hfit _ (by simp))⟩
  | rightSide =>
    obtain ⟨l, r, rfl⟩ := two rfl
    refine ⟨rfl, fun p hp' => ?_⟩
    have hl := hsize l (by simp)
    have hr := hsize r (by simp)
    have : p = (bps + 1, List.zipWith (fun l r => l - r) l r) ∨ p = (bps, r) := by
      simpa [ChannelField.depths, ChannelField.correlate] using hp'
    rcases this with rfl | rfl
    · exact ⟨by simp, by simp, by simp [hl, hr], side l r (hfit _ (by simp)) (hfit _ (by simp))⟩
    · exact ⟨by omega, by omega, hr, hfit _ (by simp)⟩
  | midSide =>
    obtain ⟨l, r, rfl⟩ := two rfl
    refine ⟨rfl, fun p hp' => ?_⟩
    have hl := hsize l (by simp)
    have hr := hsize r (by simp)
    have : p = (bps, List.zipWith (fun l r => (l + r) / 2) l r) ∨
        p = (bps + 1, List.zipWith (fun l r => l - r) l r) := by
      simpa [ChannelField.depths, ChannelField.correlate] using hp'
    rcases this with rfl | rfl
    · exact ⟨by omega, by omega, by simp [hl, hr], mid l r (hfit _ (by simp)) (hfit _ (by simp))⟩
    · exact ⟨by simp, by simp, by simp [hl, hr], side l r (hfit _ (by simp)) (hfit _ (by simp))⟩

/-- The frame with the given header that stores the given channels without compression. -/
def verbatimFrame (bps : Nat) (header : Spec.FrameHeader) (channels : List (List Int)) : Frame :=
  let subframes := (header.channels.correlate channels).map verbatim
  let n := (List.zipWith Subframe.bits (header.channels.depths bps) subframes).flatten.length
  ⟨header, subframes, List.replicate ((8 - n % 8) % 8) false⟩

theorem verbatimFrame_encodes {bps : Nat} {header : Spec.FrameHeader} (hh : header.Legal)
    (hs : header.sampleSize.bits = some bps) {channels : List (List Int)}
    (hc : channels.length = header.channels.count)
    (hsize : ∀ c ∈ channels, c.length = header.blockSize.size)
    (hfit : ∀ c ∈ channels, ∀ v ∈ c, FitsIn bps v) :
    (verbatimFrame bps header channels).Encodes bps channels := by
  have hb : 8 ≤ bps ∧ bps ≤ 24 := by
    cases h : header.sampleSize <;> rw [h] at hs <;> simp [SampleSizeField.bits] at hs <;> omega
  obtain ⟨hl, hp⟩ := correlate_fits header.channels (by omega) hc hsize hfit
  refine ⟨⟨hh, hs, by simp [verbatimFrame, hl], ?_, ?_, ?_⟩, hc, hsize, hfit, ?_⟩
  · intro p hmem
    simp only [verbatimFrame] at hmem
    rw [List.zip_map_right] at hmem
    obtain ⟨q, hq, rfl⟩ := List.mem_map.1 hmem
    obtain ⟨h1, h2, h3, h4⟩ := hp q hq
    exact verbatim_legal (by show q.1 ≤ 32; omega) (by show 0 < q.1; omega) h3 h4
  · exact ⟨by simp [verbatimFrame]; omega, fun b h => List.eq_of_mem_replicate h⟩
  · simp only [verbatimFrame, Frame.bodyBits]
    rw [List.length_append, List.length_replicate]
    generalize (List.flatten _).length = n
    omega
  · simp only [verbatimFrame, List.map_map]
    conv_rhs => rw [← List.map_id (header.channels.correlate channels)]
    apply List.map_congr_left
    intro vs _
    exact verbatim_samples _ _

end Claxon
