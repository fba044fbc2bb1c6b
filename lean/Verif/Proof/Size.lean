import Verif.Proof.FrameApi
import Verif.Proof.CrcDist

/-! How short a frame can be. -/

namespace Spec

open Claxon

theorem length_intToBits (k : Nat) (v : Int) : (intToBits k v).length = k := by
  unfold intToBits; exact length_natToBits k _

theorem length_wastedBits (k : Nat) : (wastedBits k).length = k + 1 := by
  unfold wastedBits
  split
  · rename_i h; subst h; rfl
  · simp only [List.length_cons, length_unaryBits]; omega

theorem Residual.WellFormed.length_bits {r : Residual} {blockSize order : Nat} (h : r.WellFormed blockSize order) :
    10 ≤ r.bits.length := by
  have hs := h.sizes
  cases hp : r.partitions with
  | nil => rw [hp] at hs; cases hs
  | cons p ps =>
    have hm : 4 ≤ r.method.paramBits := by cases r.method <;> simp [RiceMethod.paramBits]
    unfold Residual.bits
    rw [hp]
    simp only [List.length_append, length_natToBits, List.flatMap_cons, Partition.bits]
    omega

/-- A subframe has at least 16 bits. -/
theorem Subframe.WellFormed.length_bits {bps blockSize : Nat} {s : Subframe} (h : s.WellFormed bps blockSize)
    (hb : 8 ≤ bps) (hn : 1 ≤ blockSize) : 16 ≤ (s.bits bps).length := by
  have hw := h.wasted
  have hc := h.coding
  unfold Subframe.bits
  simp only [List.length_append, List.length_cons, length_natToBits, length_wastedBits]
  suffices 8 ≤ s.wasted + (s.coding.bits (bps - s.wasted)).length by omega
  cases hcod : s.coding with
  | constant v => simp only [Coding.bits, length_intToBits]; omega
  | verbatim vs =>
    rw [hcod] at hc
    obtain ⟨h1, -⟩ := hc
    cases vs with
    | nil => simp at h1; omega
    | cons v vs =>
      simp only [Coding.bits, List.flatMap_cons, List.length_append, length_intToBits]
      omega
  | fixed warmUp residual =>
    rw [hcod] at hc
    have := hc.2.2.length_bits
    simp only [Coding.bits, List.length_append]
    omega
  | lpc warmUp precision shift coefs residual =>
    rw [hcod] at hc
    have := hc.2.2.2.2.2.2.2.2.length_bits
    simp only [Coding.bits, List.length_append]
    omega

theorem length_flatten_ge {α : Type} {n : Nat} : ∀ {xss : List (List α)}, (∀ xs ∈ xss, n ≤ xs.length) →
    xss.length * n ≤ xss.flatten.length
  | [], _ => by simp
  | xs :: xss, h => by
    have h1 := length_flatten_ge (xss := xss) fun ys hy => h ys (by simp [hy])
    have h2 := h xs (by simp)
    rw [List.length_cons, Nat.add_mul, List.flatten_cons, List.length_append]
    omega

theorem length_depths (bps : Nat) (f : ChannelField) : (f.depths bps).length = f.count := by
  cases f <;> simp [ChannelField.depths, ChannelField.count]

theorem depths_ge {bps : Nat} {f : ChannelField} {d : Nat} (h : d ∈ f.depths bps) : bps ≤ d := by
  cases f <;> simp [ChannelField.depths] at h <;> omega

/-- The body of a frame has at least two bytes per channel. -/
theorem Frame.WellFormed.length_body {bps : Nat} {f : Frame} (h : f.WellFormed bps) :
    2 * f.header.channels.count ≤ (bitsToBytes (f.bodyBits bps)).length := by
  have hb := (bits_bounds h.sampleSize).1
  have hn := (size_bounds f.header.blockSize).1
  have h1 : 16 * f.header.channels.count ≤ (f.bodyBits bps).length := by
    unfold Frame.bodyBits
    have := length_flatten_ge (n := 16)
      (xss := List.zipWith Subframe.bits (f.header.channels.depths bps) f.subframes) (by
        intro xs hx
        rw [← List.map_uncurry_zip_eq_zipWith] at hx
        obtain ⟨p, hp, rfl⟩ := List.mem_map.1 hx
        have hd := depths_ge (List.of_mem_zip hp).1
        exact (h.subframes p hp).length_bits (by omega) hn)
    rw [List.length_zipWith, length_depths, h.count, Nat.min_self] at this
    rw [List.length_append]
    omega
  have h2 := bytesToBits_bitsToBytes ((f.bodyBits bps).length / 8) (f.bodyBits bps) (by
    have := h.aligned; omega)
  have h3 := congrArg List.length h2
  rw [length_bytesToBits] at h3
  omega

theorem length_header (h : FrameHeader) :
    6 + h.blockSize.extra.length ≤ h.bytes.length := by
  simp only [FrameHeader.bytes, FrameHeader.fieldBytes, codedNumber, List.length_append,
    List.length_cons, List.length_nil]
  omega

theorem beBytes_two_length (v : Nat) : (beBytes 2 v).length = 2 := by simp [beBytes]

/-- The least number of bytes of a frame with the given number of channels and block size. -/
theorem Frame.WellFormed.length_bytes {bps : Nat} {f : Frame} (h : f.WellFormed bps) :
    8 + 2 * f.header.channels.count + f.header.blockSize.extra.length ≤ (f.bytes bps).length := by
  have h1 := h.length_body
  have h2 := length_header f.header
  unfold Frame.bytes Frame.contentBytes
  rw [List.length_append, List.length_append, beBytes_two_length]
  omega

/-- At most 20165 samples per byte. -/
theorem Frame.WellFormed.samples_le {bps : Nat} {f : Frame} (h : f.WellFormed bps) :
    f.header.blockSize.size * f.header.channels.count ≤ 20165 * (f.bytes bps).length := by
  have h1 := h.length_bytes
  have h2 := count_bounds f.header.channels
  have h3 : f.header.blockSize.size ≤ 32768 ∨
      (f.header.blockSize.size ≤ 65535 ∧ f.header.blockSize.extra.length = 2) := by
    have := (size_bounds f.header.blockSize).2
    cases hb : f.header.blockSize with
    | size192 => left; simp [BlockSizeField.size]
    | times576 k =>
      left
      have : 2 ^ k.val ≤ 2 ^ 3 := Nat.pow_le_pow_right (by omega) (by omega)
      simp only [BlockSizeField.size]
      omega
    | times256 k =>
      left
      have : 2 ^ k.val ≤ 2 ^ 7 := Nat.pow_le_pow_right (by omega) (by omega)
      simp only [BlockSizeField.size]
      omega
    | bits8 n => left; simp only [BlockSizeField.size]; omega
    | bits16 n => right; simp [BlockSizeField.size, BlockSizeField.extra, beBytes]
  generalize f.header.channels.count = c at *
  generalize f.header.blockSize.size = n at *
  rcases h3 with h3 | ⟨h3, h4⟩
  · have : n * c ≤ 32768 * c := Nat.mul_le_mul_right c h3
    omega
  · have : n * c ≤ 65535 * c := Nat.mul_le_mul_right c h3
    omega

end Spec
