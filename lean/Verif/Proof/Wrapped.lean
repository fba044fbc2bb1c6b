import Verif.Proof.ReleaseDec
import Verif.Proof.FrameApi
import Verif.Proof.Overflow

/-! # Counting zeros without overflow checks

In a build without overflow checks, the counter of `read_unary` wraps around. -/

namespace Claxon

open Spec ReadBytes Bitstream

variable {α : Type}

/-! ### What does not panic in a checked build -/

theorem refRd_refl {σ : Type} (I : ReadBytes σ) : RefRd I I where
  readU8 := Ref.refl _
  readU8OrEof := Ref.refl _
  readInto _ := Ref.refl _
  skip _ := Ref.refl _
  onAlloc _ _ := Ref.refl _

theorem Reads.ref {m m' : Dec (Bitstream Flat) α} {bits : List Bool} {a : α} (hm : Reads m bits a) (h : Ref m m') :
    Reads m' bits a := by
  intro b rest hb hbits
  obtain ⟨b', h1, h2⟩ := hm b rest hb hbits
  refine ⟨b', ?_, h2⟩
  rw [h.eq_of (by rw [h1]; intro p hp; cases hp), h1]

theorem Sim.ref {σ τ : Type} {R : σ → τ → Prop} {E : Fail → Prop} {m m' : Dec σ α} {f : Dec τ α}
    (hm : Sim R E True m f) (h : Ref m m') (hf : ∀ t p, (f t).1 ≠ .error (.panic p)) : Sim R E True m' f := by
  intro s t hst
  rw [h.eq_of]
  · exact hm s t hst
  · intro p hp
    rcases hm s t hst with ⟨h1, -⟩ | ⟨e, h1, -, h3⟩
    · exact hf t p (by rw [← h1, hp])
    · refine hf t p ?_
      rw [h3 trivial, ← h1, hp]

/-- The buffered reader behaves like the flat one in every build. -/
theorem simBufferedRd_any (bd : Build) (fault : Option Nat) :
    @SimRd _ _ (@BufferedReader.instReadBytesOfBuild bd) _ (BufRel fault) (FaultOf fault) True := by
  have e : ∀ fault p, Flat.endFail fault ≠ .panic p := by intro fault p; cases fault <;> (intro h; cases h)
  refine @SimRd.mk _ _ (@BufferedReader.instReadBytesOfBuild bd) _ _ _ _
    (@SimU8.mk _ _ (@BufferedReader.instReadBytesOfBuild bd) _ _ _ _ ?_) ?_
  · refine Sim.ref (BufferedReader.sim_readU8 fault) (BufferedReader.refRd bd).readU8 ?_
    rintro ⟨bytes, fault⟩ p h
    cases bytes with
    | nil => exact e _ _ (by injection h)
    | cons => cases h
  · refine Sim.ref (BufferedReader.sim_readU8OrEof fault) (BufferedReader.refRd bd).readU8OrEof ?_
    rintro ⟨bytes, fault⟩ p h
    cases bytes <;> cases fault <;> cases h

/-! ### Counting modulo 2^32 -/

section Unchecked

attribute [local instance] uncheckedBuild

theorem shiftLeft_any {x : U8} {s : Nat} (h : s ≤ 8) : shiftLeft x s = .ok (x <<< s) := by
  have : RefR (@shiftLeft checkedBuild x s) (shiftLeft x s) := same_shiftLeft x s uncheckedBuild
  rw [shiftLeft_ok h] at this
  rcases this with ⟨p, h⟩ | h
  · cases h
  · exact h.symm

theorem unaryEnd_run {fresh : U8} (hz : leadingZeros fresh < 8) (n : Nat) (b : Bitstream Flat) :
    unaryEnd fresh n b =
      (.ok n, { b with data := fresh <<< (leadingZeros fresh + 1), bitsLeft := 8 - (leadingZeros fresh + 1) }) := by
  rw [unaryEnd, Dec.bind_liftM_of (show subU 32 8 (leadingZeros fresh + 1) = .ok _ from if_pos (by omega)),
    Dec.bind_liftM_of (shiftLeft_any (by omega)), Dec.bind_ok _ (update_run _ _ _)]
  rfl

/-- What is left of the byte in which a unary code ends. -/
theorem end_inv {fresh : U8} (b : Bitstream Flat) (l : List U8) (hz : leadingZeros fresh < 8) :
    Inv { b with
      reader := { b.reader with bytes := l }
      data := fresh <<< (leadingZeros fresh + 1), bitsLeft := 8 - (leadingZeros fresh + 1) } := by
  refine ⟨?_, ?_⟩
  · show 8 - (leadingZeros fresh + 1) ≤ 7
    omega
  · intro j hj
    simp only at hj
    simp [BitVec.getLsbD_shiftLeft, show j < leadingZeros fresh + 1 by omega]

theorem readUnaryWrapped_unary (l : List U8) : ∀ (fuel m : Nat) (b : Bitstream Flat) (n : Nat) (rest : List Bool),
    n < 8 * fuel → b.reader.bytes = l → bytesToBits l = unaryBits n ++ rest →
    ∃ b', readUnaryWrapped fuel m b = (.ok ((m + n) % 2 ^ 32), b') ∧ Inv b' ∧
        b'.reader.fault = b.reader.fault ∧ b'.bits = rest := by
  induction l with
  | nil =>
    intro fuel m b n rest _ _ h
    have := congrArg List.length h
    simp at this
    omega
  | cons f l ih =>
    intro fuel m b n rest hf hbytes h
    obtain ⟨fuel, rfl⟩ : ∃ k, fuel = k + 1 := ⟨fuel - 1, by omega⟩
    rw [readUnaryWrapped, Dec.bind_ok _ (readByte_cons hbytes)]
    rcases unary_cons h with ⟨hz, hn, hrest⟩ | ⟨hz, hz8, hn, hrest⟩
    · subst hn
      rw [if_pos hz, unaryEnd_run hz]
      refine ⟨_, rfl, end_inv b l hz, rfl, ?_⟩
      rw [hrest, bits]
      simp only
      rw [show 8 - (leadingZeros f + 1) = 7 - leadingZeros f by omega]
    · rw [if_neg hz]
      have := ih fuel ((m + leadingZeros f) % 2 ^ 32) { b with reader := { b.reader with bytes := l } } (n - 8) rest
        (by omega) rfl hrest
      rwa [Nat.mod_add_mod, show m + leadingZeros f + (n - 8) = m + n by omega] at this

theorem readUnaryLoop_wraps (l : List U8) : ∀ (m : Nat) (b : Bitstream Flat) (n : Nat) (rest : List Bool),
    n < 8 * 2 ^ 64 → b.reader.bytes = l → bytesToBits l = unaryBits n ++ rest →
    ∃ b', readUnaryLoop m b = (.ok ((m + n) % 2 ^ 32), b') ∧ Inv b' ∧
        b'.reader.fault = b.reader.fault ∧ b'.bits = rest := by
  induction l with
  | nil =>
    intro m b n rest _ _ h
    have := congrArg List.length h
    simp at this
    omega
  | cons f l ih =>
    intro m b n rest hf hbytes h
    rw [readUnaryLoop, Dec.bind_ok _ (readByte_cons hbytes)]
    rcases unary_cons h with ⟨hz, hn, hrest⟩ | ⟨hz, hz8, hn, hrest⟩
    · subst hn
      have hend : ∀ k, ∃ b', unaryEnd f k { b with reader := { b.reader with bytes := l } } = (.ok k, b') ∧ Inv b' ∧
          b'.reader.fault = b.reader.fault ∧ b'.bits = rest := by
        intro k
        rw [unaryEnd_run hz]
        refine ⟨_, rfl, end_inv b l hz, rfl, ?_⟩
        rw [hrest, bits]
        simp only
        rw [show 8 - (leadingZeros f + 1) = 7 - leadingZeros f by omega]
      by_cases hm : m + leadingZeros f < 2 ^ 32
      · rw [dif_pos hm, dif_pos hz, Nat.mod_eq_of_lt hm]
        exact hend _
      · rw [dif_neg hm, if_neg (by decide), if_pos hz]
        exact hend _
    · by_cases hm : m + leadingZeros f < 2 ^ 32
      · rw [dif_pos hm, dif_neg hz]
        have := ih (m + leadingZeros f) { b with reader := { b.reader with bytes := l } } (n - 8) rest (by omega) rfl hrest
        rwa [show m + leadingZeros f + (n - 8) = m + n by omega] at this
      · rw [dif_neg hm, if_neg (by decide), if_neg hz]
        have := readUnaryWrapped_unary l (2 ^ 64) ((m + leadingZeros f) % 2 ^ 32)
          { b with reader := { b.reader with bytes := l } } (n - 8) rest (by omega) rfl hrest
        rwa [Nat.mod_add_mod, show m + leadingZeros f + (n - 8) = m + n by omega] at this

theorem zeros_cons {f : U8} {l : List U8} (h : bytesToBits (f :: l) = List.replicate (8 * (f :: l).length) false) :
    ¬ leadingZeros f < 8 ∧ bytesToBits l = List.replicate (8 * l.length) false := by
  have hz : ¬ leadingZeros f < 8 := by
    intro hz
    rw [bytesToBits_cons, bits_of_leadingZeros_lt f hz, List.append_assoc] at h
    exact unary_ne_zeros h
  refine ⟨hz, ?_⟩
  rw [bytesToBits_cons, bits_of_leadingZeros_eq f hz, List.length_cons,
    show 8 * (l.length + 1) = 8 + 8 * l.length by omega,
    ← List.replicate_append_replicate] at h
  exact List.append_cancel_left h

theorem readUnaryWrapped_zeros (l : List U8) : ∀ (fuel m : Nat) (b : Bitstream Flat), l.length < fuel →
    b.reader.bytes = l → bytesToBits l = List.replicate (8 * l.length) false →
    ∃ b', readUnaryWrapped fuel m b = (.error (Flat.endFail b.reader.fault), b') := by
  induction l with
  | nil =>
    intro fuel m b hf hbytes _
    obtain ⟨fuel, rfl⟩ : ∃ k, fuel = k + 1 := ⟨fuel - 1, by simp at hf; omega⟩
    rw [readUnaryWrapped]
    exact ⟨_, Dec.bind_error _ (readByte_nil hbytes)⟩
  | cons f l ih =>
    intro fuel m b hf hbytes h
    obtain ⟨fuel, rfl⟩ : ∃ k, fuel = k + 1 := ⟨fuel - 1, by simp at hf; omega⟩
    obtain ⟨hz, hl⟩ := zeros_cons h
    rw [readUnaryWrapped, Dec.bind_ok _ (readByte_cons hbytes), if_neg hz]
    exact ih fuel _ { b with reader := { b.reader with bytes := l } } (by simpa using hf) rfl hl

theorem readUnaryLoop_zerosWrap (l : List U8) : ∀ (m : Nat) (b : Bitstream Flat), l.length < 2 ^ 64 →
    b.reader.bytes = l → bytesToBits l = List.replicate (8 * l.length) false →
    ∃ b', readUnaryLoop m b = (.error (Flat.endFail b.reader.fault), b') := by
  induction l with
  | nil =>
    intro m b _ hbytes _
    rw [readUnaryLoop]
    exact ⟨_, Dec.bind_error _ (readByte_nil hbytes)⟩
  | cons f l ih =>
    intro m b hf hbytes h
    have hlen : l.length < 2 ^ 64 := by rw [List.length_cons] at hf; omega
    obtain ⟨hz, hl⟩ := zeros_cons h
    rw [readUnaryLoop, Dec.bind_ok _ (readByte_cons hbytes)]
    by_cases hm : m + leadingZeros f < 2 ^ 32
    · rw [dif_pos hm, dif_neg hz]
      exact ih _ { b with reader := { b.reader with bytes := l } } hlen rfl hl
    · rw [dif_neg hm, if_neg (by decide), if_neg hz]
      exact readUnaryWrapped_zeros l _ _ { b with reader := { b.reader with bytes := l } } hlen rfl hl

/-- `read_unary` without overflow checks counts modulo 2^32. -/
theorem readUnary_wraps {b : Bitstream Flat} (hb : Inv b) {n : Nat} {rest : List Bool}
    (h : b.bits = unaryBits n ++ rest) (hn : n < 8 * 2 ^ 64) :
    ∃ b', readUnary b = (.ok (n % 2 ^ 32), b') ∧ Inv b' ∧ b'.reader.fault = b.reader.fault ∧ b'.bits = rest := by
  rcases Nat.lt_or_ge n (2 ^ 32) with hlt | hge
  · obtain ⟨b', h1, h2⟩ := (readUnary_unary hb h).1 hlt
    rw [Nat.mod_eq_of_lt hlt]
    refine ⟨b', ?_, h2⟩
    have e : Ref (@readUnary Flat _ checkedBuild) readUnary := same_readUnary uncheckedBuild _ _ (refRd_refl _)
    rw [e.eq_of (by rw [h1]; intro p hp; cases hp), h1]
  · have hle := hb.le
    simp only [readUnary, Dec.bind_get_run]
    have hc : ¬ leadingZeros b.data < b.bitsLeft := by
      intro hc
      have hz : leadingZeros b.data < 8 := by omega
      have hsplit : (byteBits b.data).take b.bitsLeft = unaryBits (leadingZeros b.data) ++
          (byteBits (b.data <<< (leadingZeros b.data + 1))).take (b.bitsLeft - (leadingZeros b.data + 1)) := by
        rw [bits_of_leadingZeros_lt b.data hz, List.take_append, List.take_of_length_le (by simp; omega),
          List.take_take, length_unaryBits]
        congr 2
        omega
      rw [bits, hsplit, List.append_assoc] at h
      have := (unaryBits_append_inj h).1
      omega
    rw [if_neg hc]
    rw [bits, data_zero_of_leadingZeros hb hc] at h
    obtain ⟨h1, h2⟩ := unary_of_zeros h
    have := readUnaryLoop_wraps _ b.bitsLeft b (n - b.bitsLeft) rest (by omega) rfl h2
    rwa [show b.bitsLeft + (n - b.bitsLeft) = n by omega] at this

/-- Without a one, it runs into the end. -/
theorem readUnary_zerosWrap {b : Bitstream Flat} (hb : Inv b)
    (h : b.bits = List.replicate b.bits.length false) (hlen : b.reader.bytes.length < 2 ^ 64) :
    ∃ b', readUnary b = (.error (Flat.endFail b.reader.fault), b') := by
  have hle := hb.le
  simp only [readUnary, Dec.bind_get_run]
  have hc : ¬ leadingZeros b.data < b.bitsLeft := by
    intro hc
    have hz : leadingZeros b.data < 8 := by omega
    have hsplit : (byteBits b.data).take b.bitsLeft = unaryBits (leadingZeros b.data) ++
        (byteBits (b.data <<< (leadingZeros b.data + 1))).take (b.bitsLeft - (leadingZeros b.data + 1)) := by
      rw [bits_of_leadingZeros_lt b.data hz, List.take_append, List.take_of_length_le (by simp; omega),
        List.take_take, length_unaryBits]
      congr 2
      omega
    refine unary_ne_zeros (n := leadingZeros b.data) (m := b.bits.length) (rest := ?_) (.trans ?_ h)
    · exact (byteBits (b.data <<< (leadingZeros b.data + 1))).take (b.bitsLeft - (leadingZeros b.data + 1)) ++
        bytesToBits b.reader.bytes
    · rw [bits, hsplit, List.append_assoc]
  rw [if_neg hc]
  refine readUnaryLoop_zerosWrap _ _ _ hlen rfl ?_
  rw [length_bits b hb, bits, data_zero_of_leadingZeros hb hc, ← List.replicate_append_replicate] at h
  exact List.append_cancel_left h

end Unchecked

/-! ### A frame that is accepted only without overflow checks -/

/-- The bytes between the header and the checksum: the header of a constant subframe that announces wasted bits,
`8 * n + 7` zeros and a one, and the sample. -/
def wrappedBody (n : Nat) : List U8 := [0x01#8] ++ List.replicate n 0#8 ++ [0x01#8, 0x05#8]

/-- A frame with `8 * n + 8` wasted bits per sample. -/
def wrappedFrame (n : Nat) : List U8 :=
  hugeHeader.bytes ++ wrappedBody n ++ beBytes 2 (crc16 (hugeHeader.bytes ++ wrappedBody n)).toNat

theorem bits_wrapped (n : Nat) : bytesToBits (wrappedBody n) =
    (false :: natToBits 6 0 ++ (true :: unaryBits (8 * n + 7))) ++ natToBits 8 5 := by
  unfold wrappedBody
  rw [bytesToBits_append, bytesToBits_append, bytesToBits_zeros]
  have e1 : bytesToBits [0x01#8] = false :: natToBits 6 0 ++ [true] := by decide
  have e2 : bytesToBits [0x01#8, 0x05#8] = List.replicate 7 false ++ ([true] ++ natToBits 8 5) := by decide
  rw [e1, e2]
  simp [unaryBits, List.replicate_add]

end Claxon
