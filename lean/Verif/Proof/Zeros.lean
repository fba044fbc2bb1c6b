import Verif.Proof.Bytes

/-! Long runs of zeros, in bits and in bytes. -/

namespace Claxon

open Spec

theorem byteBits_drop (bytes : List U8) : ∀ (k : Nat) (h : k < bytes.length),
    ((bytesToBits bytes).drop (8 * k)).take 8 = byteBits bytes[k] := by
  induction bytes with
  | nil => intro k h; simp at h
  | cons b bytes ih =>
    intro k h
    rw [show bytesToBits (b :: bytes) = byteBits b ++ bytesToBits bytes from rfl]
    have hl := length_byteBits b
    cases k with
    | zero =>
      rw [Nat.mul_zero, List.drop_zero, List.take_left' hl]
      rfl
    | succ k =>
      have h8 : (byteBits b ++ bytesToBits bytes).drop (8 * (k + 1)) = (bytesToBits bytes).drop (8 * k) := by
        rw [List.drop_append, List.drop_of_length_le (by omega), List.nil_append, hl]
        congr 1
      rw [h8, ih k (by simpa using h)]
      rfl

theorem byteBits_zero {b : U8} (h : byteBits b = List.replicate 8 false) : b = 0#8 := by
  revert b; decide +kernel

theorem zeroBytes_of_longZeros {bytes : List U8} (h : LongZeros (bytesToBits bytes)) :
    ∃ pre n post, 2 ^ 29 - 1 ≤ n ∧ bytes = pre ++ (List.replicate n 0#8 ++ post) := by
  obtain ⟨p, n, q, hn, hbits⟩ := h
  have hlen := congrArg List.length hbits
  rw [length_bytesToBits, List.length_append, List.length_append, List.length_replicate] at hlen
  obtain ⟨a, ha⟩ : ∃ a, a = (p.length + 7) / 8 := ⟨_, rfl⟩
  obtain ⟨c, hc⟩ : ∃ c, c = (p.length + n) / 8 - a := ⟨_, rfl⟩
  have hmid : (bytes.drop a).take c = List.replicate c 0#8 := by
    apply List.ext_getElem
    · rw [List.length_take, List.length_drop, List.length_replicate]; omega
    · intro i h1 h2
      rw [List.length_replicate] at h2
      rw [List.getElem_take, List.getElem_drop, List.getElem_replicate]
      apply byteBits_zero
      rw [← byteBits_drop bytes (a + i) (by omega), hbits]
      rw [List.drop_append, List.drop_of_length_le (by omega), List.nil_append,
        List.drop_append, List.drop_replicate, List.take_append, List.take_replicate,
        List.length_replicate]
      rw [show min 8 (n - (8 * (a + i) - p.length)) = 8 by omega,
        show 8 - (n - (8 * (a + i) - p.length)) = 0 by omega, List.take_zero, List.append_nil]
  refine ⟨bytes.take a, c, bytes.drop (a + c), by omega, ?_⟩
  rw [← hmid, ← List.drop_drop, List.take_append_drop, List.take_append_drop]

end Claxon
