import Verif.Spec.Checked
import Verif.Model.Bitstream
import Verif.Spec.Flat
import Verif.Proof.Dec
import Verif.Proof.Bits
import Mathlib.Tactic.Ring

/-! The bit-level reader over the flat reader, as a reader of a flat bit string. -/

namespace Claxon

open Spec

namespace Bitstream

/-- The bits that have not been consumed yet. -/
def bits (b : Bitstream Flat) : List Bool :=
  (byteBits b.data).take b.bitsLeft ++ bytesToBits b.reader.bytes

/-- The invariant between calls: at most seven buffered bits, and zeros behind them. -/
structure Inv (b : Bitstream Flat) : Prop where
  le : b.bitsLeft ≤ 7
  low : ∀ j, j < 8 - b.bitsLeft → b.data.getLsbD j = false

theorem inv_new (r : Flat) : Inv (Bitstream.new r) := ⟨by simp [Bitstream.new], by simp [Bitstream.new]⟩

@[simp] theorem bits_new (r : Flat) : (Bitstream.new r).bits = bytesToBits r.bytes := by
  simp [bits, Bitstream.new]

theorem length_bits (b : Bitstream Flat) (h : Inv b) :
    b.bits.length = b.bitsLeft + 8 * b.reader.bytes.length := by
  have := h.le
  simp [bits]; omega

theorem readByte_cons {b : Bitstream Flat} {x : U8} {rest : List U8} (h : b.reader.bytes = x :: rest) :
    readByte b = (.ok x, { b with reader := { b.reader with bytes := rest } }) := by
  simp [readByte, ReadBytes.readU8, Flat.readU8, h]

theorem readByte_nil {b : Bitstream Flat} (h : b.reader.bytes = []) :
    readByte b = (.error (Flat.endFail b.reader.fault), b) := by
  simp [readByte, ReadBytes.readU8, Flat.readU8, h]

@[simp] theorem update_run (d : U8) (n : Nat) (b : Bitstream Flat) :
    update d n b = (.ok (), { b with data := d, bitsLeft := n }) := rfl

theorem shiftLeft_ok {x : U8} {s : Nat} (h : s ≤ 8) : shiftLeft x s = .ok (x <<< s) := by
  simp only [shiftLeft, debugAssert, h, decide_true, if_true, shl, show s < 32 by omega]
  show Except.ok _ = _
  congr 1
  apply BitVec.eq_of_getLsbD_eq
  intro i hi
  simp [BitVec.getLsbD_shiftLeft]

theorem shiftRight_ok {x : U8} {s : Nat} (h : s ≤ 8) : shiftRight x s = .ok (x >>> s) := by
  simp only [shiftRight, debugAssert, h, decide_true, if_true, shr, show s < 32 by omega]
  show Except.ok _ = _
  congr 1
  apply BitVec.eq_of_getLsbD_eq
  intro i hi
  simp only [BitVec.getLsbD_setWidth, BitVec.getLsbD_ushiftRight, hi, show s + i < 32 by omega,
    decide_true, Bool.true_and]

theorem maskU8_ok {n : Nat} (h : n ≤ 8) : maskU8 n = .ok (0xff#8 <<< (8 - n)) := by
  simp only [maskU8, debugAssert, h, decide_true, if_true, subU]
  show shiftLeft _ _ = _
  exact shiftLeft_ok (by omega)

theorem getLsbD_ff (i : Nat) : (0xff#8).getLsbD i = decide (i < 8) := by
  rcases Nat.lt_or_ge i 8 with h | h
  · have : i = 0 ∨ i = 1 ∨ i = 2 ∨ i = 3 ∨ i = 4 ∨ i = 5 ∨ i = 6 ∨ i = 7 := by omega
    rcases this with rfl | rfl | rfl | rfl | rfl | rfl | rfl | rfl <;> rfl
  · rw [BitVec.getLsbD_of_ge _ _ h]; simp; omega

/-- The assertions at the end of `read_leq_u8` hold under the invariant. -/
theorem finish_ok {b : Bitstream Flat} (h : Inv b) {k : Nat} (hk : k ≤ 8) (x : U8) :
    readLeqU8Finish k x b = (.ok (x >>> (8 - k)), b) := by
  have hle := h.le
  have h0 : (b.data &&& ~~~(0xff#8 <<< (8 - b.bitsLeft)) == 0#8) = true := by
    rw [beq_iff_eq]
    apply BitVec.eq_of_getLsbD_eq
    intro i hi
    simp only [BitVec.getLsbD_and, BitVec.getLsbD_not, BitVec.getLsbD_shiftLeft, getLsbD_ff,
      BitVec.getLsbD_zero]
    rcases Nat.lt_or_ge i (8 - b.bitsLeft) with h1 | h1
    · rw [h.low i h1]; rfl
    · simp [show ¬ i < 8 - b.bitsLeft by omega, hi]
      intro _; omega
  simp only [readLeqU8Finish, Dec.bind_get_run,
    Dec.bind_liftM_of (debugAssert_ok (decide_eq_true (show b.bitsLeft < 8 by omega))),
    Dec.bind_liftM_of (maskU8_ok (show b.bitsLeft ≤ 8 by omega)),
    Dec.bind_liftM_of (debugAssert_ok h0), Dec.bind_liftM_of (subU_ok hk)]
  exact Dec.liftM_of (shiftRight_ok (by omega)) b

theorem testBit_toNat {w : Nat} (x : BitVec w) (i : Nat) : x.toNat.testBit i = x.getLsbD i := rfl

/-- Joining the front part of the buffered byte with a fresh byte. -/
theorem join_bits (d f : U8) (n k : Nat) (hn : n ≤ 7) (hk : k ≤ 8) (hnk : n < k)
    (hlow : ∀ j, j < 8 - n → d.getLsbD j = false) :
    (byteBits d).take n ++ byteBits f =
      natToBits k ((d ||| ((f &&& (0xff#8 <<< (8 - (k - n)))) >>> n)) >>> (8 - k)).toNat ++
        (byteBits (f <<< (k - n))).take (8 - (k - n)) := by
  apply List.ext_getElem
  · simp; omega
  · intro i h1 h2
    simp only [List.length_append, List.length_take, length_byteBits, length_natToBits] at h1 h2
    rw [List.getElem_append, List.getElem_append]
    simp only [List.length_take, length_byteBits, length_natToBits, List.getElem_take,
      getElem_byteBits, getElem_natToBits, testBit_toNat]
    by_cases c1 : i < n
    · have c2 : i < k := by omega
      have c3 : i < min n 8 := by omega
      simp only [c2, c3, dite_true, BitVec.getLsbD_ushiftRight, BitVec.getLsbD_or,
        BitVec.getLsbD_and, BitVec.getLsbD_shiftLeft, getLsbD_ff]
      have e1 : 8 - k + (k - 1 - i) = 7 - i := by omega
      have e2 : ¬ (n + (8 - k + (k - 1 - i)) < 8) := by omega
      simp [e1]
      intro h _ _ _
      rw [BitVec.getLsbD_of_ge _ _ (by omega)] at h
      exact absurd h (by simp)
    · have c3 : ¬ i < min n 8 := by omega
      by_cases c2 : i < k
      · simp only [c2, c3, dite_true, dite_false, BitVec.getLsbD_ushiftRight, BitVec.getLsbD_or,
          BitVec.getLsbD_and, BitVec.getLsbD_shiftLeft, getLsbD_ff]
        have e1 : 7 - (i - min n 8) = n + (8 - k + (k - 1 - i)) := by omega
        rw [hlow _ (by omega), e1]
        have e3 : n + (8 - k + (k - 1 - i)) < 8 := by omega
        have e4 : ¬ n + (8 - k + (k - 1 - i)) < 8 - (k - n) := by omega
        have e5 : n + (8 - k + (k - 1 - i)) - (8 - (k - n)) < 8 := by omega
        simp [e3, e4, e5]
      · simp only [c2, c3, dite_false, BitVec.getLsbD_shiftLeft]
        have e1 : 7 - (i - min n 8) = 7 - (i - k) - (k - n) := by omega
        have e3 : 7 - (i - k) < 8 := by omega
        have e4 : ¬ 7 - (i - k) < k - n := by omega
        simp [e1, e3, e4]

/-- Taking bits from the buffered byte alone. -/
theorem front_bits (d : U8) (n k : Nat) (hn : n ≤ 7) (hkn : k ≤ n) :
    (byteBits d).take n =
      natToBits k ((d &&& (0xff#8 <<< (8 - k))) >>> (8 - k)).toNat ++
        (byteBits (d <<< k)).take (n - k) := by
  apply List.ext_getElem
  · simp; omega
  · intro i h1 h2
    simp only [List.length_take, length_byteBits] at h1
    rw [List.getElem_append]
    simp only [length_natToBits, List.getElem_take,
      getElem_byteBits, getElem_natToBits, testBit_toNat]
    by_cases c2 : i < k
    · simp only [c2, dite_true, BitVec.getLsbD_ushiftRight,
        BitVec.getLsbD_and, BitVec.getLsbD_shiftLeft, getLsbD_ff]
      have e1 : 8 - k + (k - 1 - i) = 7 - i := by omega
      have e2 : 7 - i < 8 := by omega
      have e3 : ¬ 7 - i < 8 - k := by omega
      have e4 : 7 - i - (8 - k) < 8 := by omega
      simp [e1, e2, e3, e4]
    · simp only [c2, dite_false, BitVec.getLsbD_shiftLeft]
      have e1 : 7 - i = 7 - (i - k) - k := by omega
      have e3 : 7 - (i - k) < 8 := by omega
      have e4 : ¬ 7 - (i - k) < k := by omega
      simp [e1, e3, e4]

theorem shr_lt {x : U8} {k : Nat} (hk : k ≤ 8) : (x >>> (8 - k)).toNat < 2 ^ k := by
  rw [BitVec.toNat_ushiftRight, Nat.shiftRight_eq_div_pow, Nat.div_lt_iff_lt_mul (Nat.two_pow_pos _),
    ← Nat.pow_add]
  have := x.isLt
  have e : k + (8 - k) = 8 := by omega
  rw [e]; exact this

/-- `read_leq_u8` with enough bits available. -/
theorem readLeqU8_ok {b : Bitstream Flat} (hb : Inv b) {k : Nat} (hk : k ≤ 8)
    (hlen : k ≤ b.bits.length) :
    ∃ a b', readLeqU8 k b = (.ok a, b') ∧ Inv b' ∧ b'.reader.fault = b.reader.fault ∧
      a.toNat < 2 ^ k ∧ b.bits = natToBits k a.toNat ++ b'.bits := by
  have hle := hb.le
  rw [length_bits b hb] at hlen
  simp only [readLeqU8, Dec.bind_liftM_of (debugAssert_ok (decide_eq_true hk)), Dec.bind_get_run]
  by_cases hc : b.bitsLeft < k
  · rw [if_pos hc]
    rcases hbytes : b.reader.bytes with _ | ⟨f, rest⟩
    · rw [hbytes] at hlen; simp at hlen; omega
    · have hinv : Inv { b with
          reader := { b.reader with bytes := rest }
          data := f <<< (k - b.bitsLeft), bitsLeft := 8 - (k - b.bitsLeft) } := by
        constructor
        · show 8 - (k - b.bitsLeft) ≤ 7
          omega
        · intro j hj
          simp only at hj
          simp [BitVec.getLsbD_shiftLeft, show j < k - b.bitsLeft by omega]
      refine ⟨_, _, ?_, hinv, rfl, shr_lt (x := b.data ||| ((f &&& (0xff#8 <<< (8 - (k - b.bitsLeft)))) >>> b.bitsLeft)) hk, ?_⟩
      · rw [Dec.bind_ok _ (readByte_cons hbytes)]
        rw [Dec.bind_liftM_of (subU_ok (by omega)), Dec.bind_liftM_of (maskU8_ok (by omega)),
          Dec.bind_liftM_of (shr_ok (by omega)), Dec.bind_liftM_of (shiftLeft_ok (by omega)),
          Dec.bind_liftM_of (subU_ok (by omega)), Dec.bind_ok _ (update_run _ _ _)]
        exact finish_ok hinv hk _
      · simp only [bits, hbytes, bytesToBits_cons]
        rw [← List.append_assoc, join_bits b.data f b.bitsLeft k hle hk hc hb.low, List.append_assoc]
  · rw [if_neg hc]
    have hinv : Inv { b with data := b.data <<< k, bitsLeft := b.bitsLeft - k } := by
      constructor
      · show b.bitsLeft - k ≤ 7
        omega
      · intro j hj
        simp only at hj
        simp only [BitVec.getLsbD_shiftLeft]
        by_cases c : j < k
        · simp [c]
        · rw [hb.low _ (by omega)]; simp
    refine ⟨_, _, ?_, hinv, rfl, shr_lt (x := b.data &&& (0xff#8 <<< (8 - k))) hk, ?_⟩
    · rw [Dec.bind_liftM_of (maskU8_ok (by omega)), Dec.bind_liftM_of (shl_ok (by omega)),
          Dec.bind_liftM_of (subU_ok (by omega)), Dec.bind_ok _ (update_run _ _ _)]
      exact finish_ok hinv hk _
    · simp only [bits]
      rw [front_bits b.data b.bitsLeft k hle (by omega), List.append_assoc]

/-- `read_leq_u8` with too few bits available. -/
theorem readLeqU8_eof {b : Bitstream Flat} (hb : Inv b) {k : Nat} (hk : k ≤ 8)
    (hlen : b.bits.length < k) :
    ∃ b', readLeqU8 k b = (.error (Flat.endFail b.reader.fault), b') := by
  rw [length_bits b hb] at hlen
  have hc : b.bitsLeft < k := by omega
  have hbytes : b.reader.bytes = [] := by
    rcases h : b.reader.bytes with _ | ⟨f, rest⟩
    · rfl
    · rw [h] at hlen; simp at hlen; omega
  simp only [readLeqU8, Dec.bind_liftM_of (debugAssert_ok (decide_eq_true hk)), Dec.bind_get_run,
    if_pos hc]
  exact ⟨_, Dec.bind_error _ (readByte_nil hbytes)⟩

/-! ### `read_bit` -/

theorem readBit_ok {b : Bitstream Flat} (hb : Inv b) (hlen : 1 ≤ b.bits.length) :
    ∃ a b', readBit b = (.ok a, b') ∧ Inv b' ∧ b'.reader.fault = b.reader.fault ∧
      b.bits = a :: b'.bits := by
  have hle := hb.le
  rw [length_bits b hb] at hlen
  simp only [readBit, Dec.bind_get_run]
  by_cases hc : b.bitsLeft = 0
  · rw [if_pos hc]
    rcases hbytes : b.reader.bytes with _ | ⟨f, rest⟩
    · rw [hbytes] at hlen; simp at hlen; omega
    · have hinv : Inv { b with
          reader := { b.reader with bytes := rest }
          data := f <<< 1, bitsLeft := 7 } := by
        constructor
        · show 7 ≤ 7
          omega
        · intro j hj
          simp only at hj
          simp [BitVec.getLsbD_shiftLeft, show j < 1 by omega]
      refine ⟨(f &&& 0b1000_0000#8) != 0#8, _, ?_, hinv, rfl, ?_⟩
      · rw [Dec.bind_ok _ (readByte_cons hbytes), Dec.bind_ok _ (update_run _ _ _)]
        rfl
      · simp only [bits, hbytes, hc, bytesToBits_cons, List.take_zero, List.nil_append]
        rw [← List.cons_append]
        congr 1
        clear hinv hbytes
        revert f
        decide +kernel
  · rw [if_neg hc]
    have hinv : Inv { b with data := b.data <<< 1, bitsLeft := b.bitsLeft - 1 } := by
      constructor
      · show b.bitsLeft - 1 ≤ 7
        omega
      · intro j hj
        simp only at hj
        simp only [BitVec.getLsbD_shiftLeft]
        by_cases c : j < 1
        · simp [c]
        · rw [hb.low _ (by omega)]; simp
    refine ⟨(b.data &&& 0b1000_0000#8) != 0#8, _, ?_, hinv, rfl, ?_⟩
    · rw [Dec.bind_liftM_of (subU_ok (by omega)), Dec.bind_ok _ (update_run _ _ _)]
      rfl
    · simp only [bits]
      rw [← List.cons_append]
      congr 1
      have := front_bits b.data b.bitsLeft 1 hle (by omega)
      rw [this]
      rw [← List.singleton_append]
      congr 1
      generalize b.data = d
      revert d
      decide +kernel

theorem readBit_eof {b : Bitstream Flat} (hb : Inv b) (hlen : b.bits.length < 1) :
    ∃ b', readBit b = (.error (Flat.endFail b.reader.fault), b') := by
  rw [length_bits b hb] at hlen
  have hc : b.bitsLeft = 0 := by omega
  have hbytes : b.reader.bytes = [] := by
    rcases h : b.reader.bytes with _ | ⟨f, rest⟩
    · rfl
    · rw [h] at hlen; simp at hlen
  simp only [readBit, Dec.bind_get_run, if_pos hc]
  exact ⟨_, Dec.bind_error _ (readByte_nil hbytes)⟩

/-! ### `read_unary` -/

theorem leadingZeros_le (x : U8) : leadingZeros x ≤ 8 := by
  revert x; decide +kernel

theorem bits_of_leadingZeros_lt (x : U8) (h : leadingZeros x < 8) :
    byteBits x = unaryBits (leadingZeros x) ++
      (byteBits (x <<< (leadingZeros x + 1))).take (7 - leadingZeros x) := by
  revert x; decide +kernel

theorem bits_of_leadingZeros_eq (x : U8) (h : ¬ leadingZeros x < 8) :
    byteBits x = List.replicate 8 false := by
  revert x; decide +kernel

/-- The bits of a byte string are a unary code and a rest, or only zeros. -/
theorem unary_or_zeros (l : List Bool) :
    (∃ n rest, l = unaryBits n ++ rest) ∨ l = List.replicate l.length false := by
  induction l with
  | nil => right; rfl
  | cons x l ih =>
    cases x with
    | true => left; exact ⟨0, l, rfl⟩
    | false =>
      rcases ih with ⟨n, rest, h⟩ | h
      · left; exact ⟨n + 1, rest, by rw [unaryBits_succ, h]; rfl⟩
      · right
        rw [List.length_cons, List.replicate_succ, ← h]

/-- A unary code that begins with `k` zeros. -/
theorem unary_of_zeros {k n : Nat} {l rest : List Bool}
    (h : List.replicate k false ++ l = unaryBits n ++ rest) :
    k ≤ n ∧ l = unaryBits (n - k) ++ rest := by
  induction k generalizing n with
  | zero => exact ⟨by omega, by simpa using h⟩
  | succ k ih =>
    cases n with
    | zero => simp [unaryBits, List.replicate_succ] at h
    | succ n =>
      rw [unaryBits_succ, List.replicate_succ] at h
      simp only [List.cons_append, List.cons.injEq, true_and] at h
      have := ih h
      rw [show n + 1 - (k + 1) = n - k by omega]
      exact ⟨by omega, this.2⟩

theorem unary_ne_zeros {n m : Nat} {rest : List Bool} :
    unaryBits n ++ rest ≠ List.replicate m false := by
  intro h
  have : true ∈ List.replicate m false := by rw [← h]; simp [unaryBits]
  simp at this

/-- How the bits of a byte string decompose in terms of the leading zeros of the first byte. -/
theorem unary_cons {f : U8} {l : List U8} {n : Nat} {rest : List Bool}
    (h : bytesToBits (f :: l) = unaryBits n ++ rest) :
    (leadingZeros f < 8 ∧ n = leadingZeros f ∧
      rest = (byteBits (f <<< (n + 1))).take (7 - n) ++ bytesToBits l) ∨
    (¬ leadingZeros f < 8 ∧ leadingZeros f = 8 ∧ 8 ≤ n ∧ bytesToBits l = unaryBits (n - 8) ++ rest) := by
  have hle := leadingZeros_le f
  by_cases hz : leadingZeros f < 8
  · left
    rw [bytesToBits_cons, bits_of_leadingZeros_lt f hz, List.append_assoc] at h
    have := unaryBits_append_inj h
    exact ⟨hz, this.1.symm, by rw [← this.1, ← this.2]⟩
  · right
    rw [bytesToBits_cons, bits_of_leadingZeros_eq f hz] at h
    obtain ⟨h1, h2⟩ := unary_of_zeros h
    exact ⟨hz, by omega, h1, h2⟩

theorem readUnaryLoop_lt {m : Nat} {b : Bitstream Flat} {f : U8} {l : List U8}
    (hbytes : b.reader.bytes = f :: l) (hm : m + leadingZeros f < 2 ^ 32)
    (hz : leadingZeros f < 8) :
    readUnaryLoop m b = (.ok (m + leadingZeros f),
      { b with
        reader := { b.reader with bytes := l }
        data := f <<< (leadingZeros f + 1), bitsLeft := 8 - (leadingZeros f + 1) }) := by
  rw [readUnaryLoop, Dec.bind_ok _ (readByte_cons hbytes), dif_pos hm, dif_pos hz, unaryEnd,
    Dec.bind_liftM_of (subU_ok (by omega)), Dec.bind_liftM_of (shiftLeft_ok (by omega)),
    Dec.bind_ok _ (update_run _ _ _)]
  rfl

theorem readUnaryLoop_eq {m : Nat} {b : Bitstream Flat} {f : U8} {l : List U8}
    (hbytes : b.reader.bytes = f :: l) (hm : m + leadingZeros f < 2 ^ 32)
    (hz : ¬ leadingZeros f < 8) :
    readUnaryLoop m b =
      readUnaryLoop (m + leadingZeros f) { b with reader := { b.reader with bytes := l } } := by
  rw [readUnaryLoop, Dec.bind_ok _ (readByte_cons hbytes), dif_pos hm, dif_neg hz]

theorem readUnaryLoop_panic {m : Nat} {b : Bitstream Flat} {f : U8} {l : List U8}
    (hbytes : b.reader.bytes = f :: l) (hm : ¬ m + leadingZeros f < 2 ^ 32) :
    readUnaryLoop m b =
      (.error (.panic .overflow), { b with reader := { b.reader with bytes := l } }) := by
  rw [readUnaryLoop, Dec.bind_ok _ (readByte_cons hbytes), dif_neg hm]
  rfl

theorem readUnaryLoop_unary (l : List U8) : ∀ (m : Nat) (b : Bitstream Flat) (n : Nat)
    (rest : List Bool), b.reader.bytes = l → bytesToBits l = unaryBits n ++ rest →
    (m + n < 2 ^ 32 → ∃ b', readUnaryLoop m b = (.ok (m + n), b') ∧ Inv b' ∧
        b'.reader.fault = b.reader.fault ∧ b'.bits = rest) ∧
    (2 ^ 32 ≤ m + n → ∃ b', readUnaryLoop m b = (.error (.panic .overflow), b')) := by
  induction l with
  | nil =>
    intro m b n rest _ h
    have := congrArg List.length h
    simp at this
    omega
  | cons f l ih =>
    intro m b n rest hbytes h
    rcases unary_cons h with ⟨hz, hn, hrest⟩ | ⟨hz, hz8, hn, hrest⟩
    · subst hn
      constructor
      · intro hlt
        refine ⟨_, readUnaryLoop_lt hbytes hlt hz, ⟨?_, ?_⟩, rfl, ?_⟩
        · show 8 - (leadingZeros f + 1) ≤ 7
          omega
        · intro j hj
          simp only at hj
          simp [BitVec.getLsbD_shiftLeft, show j < leadingZeros f + 1 by omega]
        · rw [hrest, bits]
          simp only
          rw [show 8 - (leadingZeros f + 1) = 7 - leadingZeros f by omega]
      · intro hge
        exact ⟨_, readUnaryLoop_panic hbytes (by omega)⟩
    · by_cases hm : m + leadingZeros f < 2 ^ 32
      · rw [readUnaryLoop_eq hbytes hm hz]
        have := ih (m + leadingZeros f) { b with reader := { b.reader with bytes := l } } (n - 8) rest rfl hrest
        rw [show m + leadingZeros f + (n - 8) = m + n by omega] at this
        exact this
      · exact ⟨fun _ => by omega, fun _ => ⟨_, readUnaryLoop_panic hbytes hm⟩⟩

theorem readUnaryLoop_zeros (l : List U8) : ∀ (m : Nat) (b : Bitstream Flat),
    b.reader.bytes = l → bytesToBits l = List.replicate (8 * l.length) false → m < 2 ^ 32 →
    (m + 8 * l.length < 2 ^ 32 →
      ∃ b', readUnaryLoop m b = (.error (Flat.endFail b.reader.fault), b')) ∧
    (2 ^ 32 ≤ m + 8 * l.length →
      ∃ b', readUnaryLoop m b = (.error (.panic .overflow), b')) := by
  induction l with
  | nil =>
    intro m b hbytes _ hm
    constructor
    · intro _
      rw [readUnaryLoop]
      exact ⟨_, Dec.bind_error _ (readByte_nil hbytes)⟩
    · simp; omega
  | cons f l ih =>
    intro m b hbytes h hm
    have hle := leadingZeros_le f
    have hz : ¬ leadingZeros f < 8 := by
      intro hz
      rw [bytesToBits_cons, bits_of_leadingZeros_lt f hz, List.append_assoc] at h
      exact unary_ne_zeros h
    have hz8 : leadingZeros f = 8 := by omega
    have hl : bytesToBits l = List.replicate (8 * l.length) false := by
      rw [bytesToBits_cons, bits_of_leadingZeros_eq f hz, List.length_cons,
        show 8 * (l.length + 1) = 8 + 8 * l.length by omega,
        ← List.replicate_append_replicate] at h
      exact List.append_cancel_left h
    by_cases hm' : m + leadingZeros f < 2 ^ 32
    · rw [readUnaryLoop_eq hbytes hm' hz]
      have := ih (m + leadingZeros f) { b with reader := { b.reader with bytes := l } } rfl hl hm'
      rw [hz8] at this ⊢
      rw [show m + 8 + 8 * l.length = m + 8 * (f :: l).length by simp; omega] at this
      exact this
    · constructor
      · simp only [List.length_cons]; omega
      · exact fun _ => ⟨_, readUnaryLoop_panic hbytes hm'⟩

theorem data_zero_of_leadingZeros {b : Bitstream Flat} (hb : Inv b)
    (h : ¬ leadingZeros b.data < b.bitsLeft) :
    (byteBits b.data).take b.bitsLeft = List.replicate b.bitsLeft false := by
  have key : ∀ (x : U8) (n : Fin 8), ¬ leadingZeros x < n.val →
      (byteBits x).take n.val = List.replicate n.val false := by decide +kernel
  exact key b.data ⟨b.bitsLeft, by have := hb.le; omega⟩ h

/-- `read_unary` when the unread bits begin with a unary code. -/
theorem readUnary_unary {b : Bitstream Flat} (hb : Inv b) {n : Nat} {rest : List Bool}
    (h : b.bits = unaryBits n ++ rest) :
    (n < 2 ^ 32 → ∃ b', readUnary b = (.ok n, b') ∧ Inv b' ∧
        b'.reader.fault = b.reader.fault ∧ b'.bits = rest) ∧
    (2 ^ 32 ≤ n → ∃ b', readUnary b = (.error (.panic .overflow), b')) := by
  have hle := hb.le
  simp only [readUnary, Dec.bind_get_run]
  by_cases hc : leadingZeros b.data < b.bitsLeft
  · rw [if_pos hc]
    have hz : leadingZeros b.data < 8 := by omega
    have hsplit : (byteBits b.data).take b.bitsLeft = unaryBits (leadingZeros b.data) ++
        (byteBits (b.data <<< (leadingZeros b.data + 1))).take
          (b.bitsLeft - (leadingZeros b.data + 1)) := by
      rw [bits_of_leadingZeros_lt b.data hz, List.take_append, List.take_of_length_le (by simp; omega),
        List.take_take, length_unaryBits]
      congr 2
      omega
    rw [bits, hsplit, List.append_assoc] at h
    obtain ⟨h1, h2⟩ := unaryBits_append_inj h
    constructor
    · intro _
      rw [Dec.bind_liftM_of (shl_ok (by omega)), Dec.bind_liftM_of (subU_ok (by omega)),
        Dec.bind_ok _ (update_run _ _ _)]
      refine ⟨{ b with
        data := b.data <<< (leadingZeros b.data + 1)
        bitsLeft := b.bitsLeft - (leadingZeros b.data + 1) }, by rw [h1]; rfl, ⟨?_, ?_⟩, rfl, h2⟩
      · show b.bitsLeft - (leadingZeros b.data + 1) ≤ 7
        omega
      · intro j hj
        simp only at hj
        simp only [BitVec.getLsbD_shiftLeft]
        by_cases c : j < leadingZeros b.data + 1
        · simp [c]
        · rw [hb.low _ (by omega)]; simp
    · omega
  · rw [if_neg hc]
    rw [bits, data_zero_of_leadingZeros hb hc] at h
    obtain ⟨hn, h2⟩ := unary_of_zeros h
    have := readUnaryLoop_unary _ b.bitsLeft b (n - b.bitsLeft) rest rfl h2
    rw [show b.bitsLeft + (n - b.bitsLeft) = n by omega] at this
    exact this

/-- `read_unary` when there is no one bit left. -/
theorem readUnary_zeros {b : Bitstream Flat} (hb : Inv b)
    (h : b.bits = List.replicate b.bits.length false) :
    (b.bits.length < 2 ^ 32 →
      ∃ b', readUnary b = (.error (Flat.endFail b.reader.fault), b')) ∧
    (2 ^ 32 ≤ b.bits.length → ∃ b', readUnary b = (.error (.panic .overflow), b')) := by
  have hle := hb.le
  simp only [readUnary, Dec.bind_get_run]
  have hc : ¬ leadingZeros b.data < b.bitsLeft := by
    intro hc
    have hz : leadingZeros b.data < 8 := by omega
    have h1 := congrArg (fun l : List Bool => l[leadingZeros b.data]?) h
    have hlt : leadingZeros b.data < b.bits.length := by rw [length_bits b hb]; omega
    simp only [bits] at h1 hlt
    rw [List.getElem?_append_left (by simp; omega), List.getElem?_take_of_lt hc,
      bits_of_leadingZeros_lt b.data hz, List.getElem?_append_left (by simp),
      List.getElem?_replicate] at h1
    simp [unaryBits] at h1
  rw [if_neg hc]
  have hlen := length_bits b hb
  rw [hlen]
  apply readUnaryLoop_zeros _ _ _ rfl
  · rw [hlen, bits, data_zero_of_leadingZeros hb hc, ← List.replicate_append_replicate] at h
    exact List.append_cancel_left h
  · omega

/-! ### `read_gt_u8_leq_u16` -/

theorem getLsbD_ones32 (j : Nat) : (0xffffffff#32).getLsbD j = decide (j < 32) := by
  rw [show (0xffffffff#32) = BitVec.allOnes 32 from rfl, BitVec.getLsbD_allOnes]

theorem join16_one (d f : U8) (n k : Nat) (hk : k ≤ 16) (hk8 : 8 < k)
    (hnk : k - n ≤ 8) (hn : n ≤ 7) :
    (byteBits d).take n ++ byteBits f =
      natToBits k (((d.setWidth 32 <<< (k - 8)) &&& (0xffffffff#32 <<< (k - n))) |||
        (f.setWidth 32 >>> (8 - (k - n)))).toNat ++
      (byteBits ((f.setWidth 32 <<< ((8 - (8 - (k - n))) % 32)).setWidth 8)).take (8 - (k - n)) := by
  apply List.ext_getElem
  · simp; omega
  · intro i h1 h2
    simp only [List.length_append, List.length_take, length_byteBits, length_natToBits] at h1 h2
    rw [List.getElem_append, List.getElem_append]
    simp only [List.length_take, length_byteBits, length_natToBits, List.getElem_take,
      getElem_byteBits, getElem_natToBits, testBit_toNat, BitVec.getLsbD_or, BitVec.getLsbD_and,
      BitVec.getLsbD_shiftLeft, BitVec.getLsbD_ushiftRight, getLsbD_ones32, BitVec.getLsbD_setWidth]
    by_cases c1 : i < n
    · simp only [show i < min n 8 by omega, show i < k by omega, dite_true]
      simp only [show k - 1 - i < 32 by omega, show ¬ k - 1 - i < k - 8 by omega,
        show k - 1 - i - (k - 8) = 7 - i by omega, show 7 - i < 32 by omega,
        show ¬ k - 1 - i < k - n by omega, show k - 1 - i - (k - n) < 32 by omega]
      rw [BitVec.getLsbD_of_ge f _ (by omega)]
      simp
    · by_cases c2 : i < k
      · simp only [show ¬ i < min n 8 by omega, c2, dite_true, dite_false]
        simp only [show k - 1 - i < k - n by omega, show 8 - (k - n) + (k - 1 - i) = 7 - (i - min n 8) by omega,
          show 7 - (i - min n 8) < 32 by omega]
        simp
      · simp only [show ¬ i < min n 8 by omega, c2, dite_false]
        simp only [show (8 - (8 - (k - n))) % 32 = k - n by omega, show 7 - (i - k) < 8 by omega,
          show 7 - (i - k) < 32 by omega, show ¬ 7 - (i - k) < k - n by omega,
          show 7 - (i - k) - (k - n) < 32 by omega,
          show 7 - (i - min n 8) = 7 - (i - k) - (k - n) by omega]
        simp

theorem join16_two (d f g : U8) (n k : Nat) (hk : k ≤ 16) (hk8 : 8 < k)
    (hnk : 8 < k - n) (hn : n ≤ 7) :
    (byteBits d).take n ++ byteBits f ++ byteBits g =
      natToBits k (((d.setWidth 32 <<< (k - 8)) &&& (0xffffffff#32 <<< (k - n))) |||
        (f.setWidth 32 <<< (k - n - 8)) ||| (g.setWidth 32 >>> (16 - (k - n)))).toNat ++
      (byteBits ((g.setWidth 32 <<< ((8 - (16 - (k - n))) % 32)).setWidth 8)).take (16 - (k - n)) := by
  apply List.ext_getElem
  · simp; omega
  · intro i h1 h2
    simp only [List.length_append, List.length_take, length_byteBits, length_natToBits] at h1 h2
    rw [List.getElem_append, List.getElem_append]
    simp only [List.getElem_append, List.length_append, List.length_take, length_byteBits, length_natToBits, List.getElem_take,
      getElem_byteBits, getElem_natToBits, testBit_toNat, BitVec.getLsbD_or, BitVec.getLsbD_and,
      BitVec.getLsbD_shiftLeft, BitVec.getLsbD_ushiftRight, getLsbD_ones32, BitVec.getLsbD_setWidth]
    by_cases c1 : i < n
    · simp only [show i < min n 8 by omega, show i < min n 8 + 8 by omega, show i < k by omega, dite_true]
      simp only [show k - 1 - i < 32 by omega, show ¬ k - 1 - i < k - 8 by omega,
        show k - 1 - i - (k - 8) = 7 - i by omega, show 7 - i < 32 by omega,
        show ¬ k - 1 - i < k - n by omega, show k - 1 - i - (k - n) < 32 by omega]
      rw [BitVec.getLsbD_of_ge f _ (by omega), BitVec.getLsbD_of_ge g _ (by omega)]
      simp
    · by_cases c2 : i < n + 8
      · simp only [show ¬ i < min n 8 by omega, show i < min n 8 + 8 by omega, show i < k by omega,
          dite_true, dite_false]
        rw [BitVec.getLsbD_of_ge g _ (by omega)]
        simp only [show k - 1 - i < k - n by omega, show k - 1 - i < 32 by omega,
          show ¬ k - 1 - i < k - n - 8 by omega,
          show k - 1 - i - (k - n - 8) = 7 - (i - min n 8) by omega,
          show 7 - (i - min n 8) < 32 by omega]
        simp
      · by_cases c3 : i < k
        · simp only [show ¬ i < min n 8 by omega, show ¬ i < min n 8 + 8 by omega, c3,
            dite_true, dite_false]
          simp only [show k - 1 - i < k - n by omega, show k - 1 - i < 32 by omega,
            show k - 1 - i < k - n - 8 by omega,
            show 16 - (k - n) + (k - 1 - i) = 7 - (i - (min n 8 + 8)) by omega,
            show 7 - (i - (min n 8 + 8)) < 32 by omega]
          simp
        · simp only [show ¬ i < min n 8 by omega, show ¬ i < min n 8 + 8 by omega, c3, dite_false]
          simp only [show (8 - (16 - (k - n))) % 32 = k - n - 8 by omega, show 7 - (i - k) < 8 by omega,
            show 7 - (i - k) < 32 by omega, show ¬ 7 - (i - k) < k - n - 8 by omega,
            show 7 - (i - k) - (k - n - 8) < 32 by omega,
            show 7 - (i - (min n 8 + 8)) = 7 - (i - k) - (k - n - 8) by omega]
          simp

theorem lt_two_pow_of_getLsbD {w : Nat} (x : BitVec w) (k : Nat)
    (h : ∀ j, k ≤ j → x.getLsbD j = false) : x.toNat < 2 ^ k :=
  Nat.lt_pow_two_of_testBit _ fun j hj => h j hj

theorem join16_lt_one (d f : U8) (n k : Nat) (hk : k ≤ 16) (hk8 : 8 < k) (_hnk : k - n ≤ 8) :
    (((d.setWidth 32 <<< (k - 8)) &&& (0xffffffff#32 <<< (k - n))) |||
        (f.setWidth 32 >>> (8 - (k - n)))).toNat < 2 ^ k := by
  apply lt_two_pow_of_getLsbD
  intro j hj
  simp only [BitVec.getLsbD_or, BitVec.getLsbD_and,
      BitVec.getLsbD_shiftLeft, BitVec.getLsbD_ushiftRight, BitVec.getLsbD_setWidth]
  rw [BitVec.getLsbD_of_ge d _ (by omega), BitVec.getLsbD_of_ge f _ (by omega)]
  simp

theorem join16_lt_two (d f g : U8) (n k : Nat) (hk : k ≤ 16) (hk8 : 8 < k) (_hnk : 8 < k - n) :
    (((d.setWidth 32 <<< (k - 8)) &&& (0xffffffff#32 <<< (k - n))) |||
        (f.setWidth 32 <<< (k - n - 8)) ||| (g.setWidth 32 >>> (16 - (k - n)))).toNat < 2 ^ k := by
  apply lt_two_pow_of_getLsbD
  intro j hj
  simp only [BitVec.getLsbD_or, BitVec.getLsbD_and,
      BitVec.getLsbD_shiftLeft, BitVec.getLsbD_ushiftRight, BitVec.getLsbD_setWidth]
  rw [BitVec.getLsbD_of_ge d _ (by omega), BitVec.getLsbD_of_ge f _ (by omega),
    BitVec.getLsbD_of_ge g _ (by omega)]
  simp

theorem low_shl32 (f : U8) (s j : Nat) (h : j < s % 32) :
    ((f.setWidth 32 <<< (s % 32)).setWidth 8).getLsbD j = false := by
  simp [BitVec.getLsbD_shiftLeft, h]

/-- `read_gt_u8_leq_u16` with enough bits available. -/
theorem readGtU8LeqU16_ok {b : Bitstream Flat} (hb : Inv b) {k : Nat} (hk8 : 8 < k) (hk : k ≤ 16)
    (hlen : k ≤ b.bits.length) :
    ∃ a b', readGtU8LeqU16 k b = (.ok a, b') ∧ Inv b' ∧ b'.reader.fault = b.reader.fault ∧
      a.toNat < 2 ^ k ∧ b.bits = natToBits k a.toNat ++ b'.bits := by
  have hle := hb.le
  rw [length_bits b hb] at hlen
  simp only [readGtU8LeqU16, Dec.bind_liftM_of (debugAssert_ok (decide_eq_true (And.intro hk8 hk))),
    Dec.bind_get_run, Dec.bind_liftM_of (subU_ok (show b.bitsLeft ≤ k by omega)),
    Dec.bind_liftM_of (shl_ok (show k - b.bitsLeft < 32 by omega)),
    Dec.bind_liftM_of (subU_ok (show 8 ≤ k by omega)),
    Dec.bind_liftM_of (shl_ok (show k - 8 < 32 by omega))]
  rcases hbytes : b.reader.bytes with _ | ⟨f, rest⟩
  · rw [hbytes] at hlen; simp at hlen; omega
  · rw [Dec.bind_ok _ (readByte_cons hbytes)]
    by_cases hc : k - b.bitsLeft ≤ 8
    · have hl : (if k - b.bitsLeft ≥ 8 then shl (f.setWidth 32 : U32) (k - b.bitsLeft - 8)
          else shr (f.setWidth 32) (8 - (k - b.bitsLeft)) : Res U32) =
          .ok (f.setWidth 32 >>> (8 - (k - b.bitsLeft))) := by
        split
        · rw [show k - b.bitsLeft - 8 = 0 by omega, show 8 - (k - b.bitsLeft) = 0 by omega]
          rw [shl_ok (by omega)]
          simp
        · exact shr_ok (by omega)
      rw [Dec.bind_liftM_of hl, if_pos hc, Dec.bind_ok _ (update_run _ _ _)]
      refine ⟨_, _, rfl, ⟨?_, ?_⟩, rfl, join16_lt_one b.data f b.bitsLeft k hk hk8 hc, ?_⟩
      · show 8 - (k - b.bitsLeft) ≤ 7
        omega
      · intro j hj
        simp only at hj ⊢
        exact low_shl32 _ _ _ (by omega)
      · simp only [bits, hbytes, bytesToBits_cons]
        rw [← List.append_assoc, join16_one b.data f b.bitsLeft k hk hk8 hc hle, List.append_assoc]
    · rcases hrest : rest with _ | ⟨g, rest'⟩
      · rw [hbytes, hrest] at hlen; simp at hlen; omega
      · have hl : (if k - b.bitsLeft ≥ 8 then shl (f.setWidth 32 : U32) (k - b.bitsLeft - 8)
            else shr (f.setWidth 32) (8 - (k - b.bitsLeft)) : Res U32) =
            .ok (f.setWidth 32 <<< (k - b.bitsLeft - 8)) := by
          rw [if_pos (by omega), shl_ok (by omega)]
        rw [Dec.bind_liftM_of hl, if_neg hc, Dec.bind_ok _ (readByte_cons (by rfl)),
          Dec.bind_liftM_of (subU_ok (by omega)), Dec.bind_liftM_of (shr_ok (by omega)),
          Dec.bind_liftM_of (subU_ok (by omega)), Dec.bind_ok _ (update_run _ _ _)]
        refine ⟨_, _, rfl, ⟨?_, ?_⟩, rfl,
          join16_lt_two b.data f g b.bitsLeft k hk hk8 (by omega), ?_⟩
        · show 16 - (k - b.bitsLeft) ≤ 7
          omega
        · intro j hj
          simp only at hj ⊢
          exact low_shl32 _ _ _ (by omega)
        · simp only [bits, hbytes, hrest, bytesToBits_cons]
          rw [← List.append_assoc, ← List.append_assoc,
            join16_two b.data f g b.bitsLeft k hk hk8 (by omega) hle, List.append_assoc]

/-- `read_gt_u8_leq_u16` with too few bits available. -/
theorem readGtU8LeqU16_eof {b : Bitstream Flat} (hb : Inv b) {k : Nat} (hk8 : 8 < k) (hk : k ≤ 16)
    (hlen : b.bits.length < k) :
    ∃ b', readGtU8LeqU16 k b = (.error (Flat.endFail b.reader.fault), b') := by
  have hle := hb.le
  rw [length_bits b hb] at hlen
  simp only [readGtU8LeqU16, Dec.bind_liftM_of (debugAssert_ok (decide_eq_true (And.intro hk8 hk))),
    Dec.bind_get_run, Dec.bind_liftM_of (subU_ok (show b.bitsLeft ≤ k by omega)),
    Dec.bind_liftM_of (shl_ok (show k - b.bitsLeft < 32 by omega)),
    Dec.bind_liftM_of (subU_ok (show 8 ≤ k by omega)),
    Dec.bind_liftM_of (shl_ok (show k - 8 < 32 by omega))]
  rcases hbytes : b.reader.bytes with _ | ⟨f, rest⟩
  · exact ⟨_, Dec.bind_error _ (readByte_nil hbytes)⟩
  · rw [Dec.bind_ok _ (readByte_cons hbytes)]
    rw [hbytes] at hlen
    simp only [List.length_cons] at hlen
    have hl : (if k - b.bitsLeft ≥ 8 then shl (f.setWidth 32 : U32) (k - b.bitsLeft - 8)
        else shr (f.setWidth 32) (8 - (k - b.bitsLeft)) : Res U32) =
        .ok (f.setWidth 32 <<< (k - b.bitsLeft - 8)) := by
      rw [if_pos (by omega), shl_ok (by omega)]
    have hrest : rest = [] := by
      cases rest with
      | nil => rfl
      | cons => simp only [List.length_cons] at hlen; omega
    subst hrest
    rw [Dec.bind_liftM_of hl, if_neg (by omega)]
    exact ⟨_, Dec.bind_error _ (readByte_nil (by rfl))⟩

/-! ### `read_leq_u16`, `read_leq_u32` -/

theorem shl_or_toNat {w : Nat} (x y : BitVec w) (s : Nat) (hx : x.toNat * 2 ^ s < 2 ^ w)
    (hy : y.toNat < 2 ^ s) : (x <<< s ||| y).toNat = x.toNat * 2 ^ s + y.toNat := by
  rw [BitVec.toNat_or, BitVec.toNat_shiftLeft, Nat.shiftLeft_eq, Nat.mod_eq_of_lt hx, Nat.mul_comm,
    Nat.two_pow_add_eq_or_of_lt hy]

theorem natToBits_join (m n x y : Nat) (hy : y < 2 ^ n) :
    natToBits (m + n) (x * 2 ^ n + y) = natToBits m x ++ natToBits n y := by
  rw [natToBits_add, Nat.mul_comm, Nat.mul_add_div (Nat.two_pow_pos _), Nat.div_eq_of_lt hy,
    Nat.add_zero]
  congr 1
  rw [← natToBits_mod, Nat.mul_add_mod, natToBits_mod]

/-- `read_leq_u16` with enough bits available. -/
theorem readLeqU16_ok {b : Bitstream Flat} (hb : Inv b) {k : Nat} (hk : k ≤ 16)
    (hlen : k ≤ b.bits.length) :
    ∃ a b', readLeqU16 k b = (.ok a, b') ∧ Inv b' ∧ b'.reader.fault = b.reader.fault ∧
      a.toNat < 2 ^ k ∧ b.bits = natToBits k a.toNat ++ b'.bits := by
  simp only [readLeqU16, Dec.bind_liftM_of (debugAssert_ok (decide_eq_true hk))]
  by_cases hc : k ≤ 8
  · rw [if_pos hc]
    obtain ⟨a, b', hr, hinv, hf, hlt, hbits⟩ := readLeqU8_ok hb hc hlen
    have h8 := a.isLt
    have he : (a.setWidth 16).toNat = a.toNat := by
      rw [BitVec.toNat_setWidth, Nat.mod_eq_of_lt (by omega)]
    refine ⟨a.setWidth 16, b', ?_, hinv, hf, by rw [he]; exact hlt, by rw [he]; exact hbits⟩
    rw [Dec.bind_ok _ hr]; rfl
  · rw [if_neg hc]
    obtain ⟨a, b1, hr, hinv, hf, hlt, hbits⟩ := readLeqU8_ok hb (Nat.le_refl 8) (by omega)
    have hl1 : k - 8 ≤ b1.bits.length := by
      have := congrArg List.length hbits
      simp at this; omega
    obtain ⟨a', b2, hr2, hinv2, hf2, hlt2, hbits2⟩ := readLeqU8_ok hinv (k := k - 8) (by omega) hl1
    have h8 := a.isLt
    have h8' := a'.isLt
    have he : (a.setWidth 16 <<< (k - 8) ||| a'.setWidth 16).toNat = a.toNat * 2 ^ (k - 8) + a'.toNat := by
      have e1 : (a.setWidth 16).toNat = a.toNat := by
        rw [BitVec.toNat_setWidth, Nat.mod_eq_of_lt (by omega)]
      have e2 : (a'.setWidth 16).toNat = a'.toNat := by
        rw [BitVec.toNat_setWidth, Nat.mod_eq_of_lt (by omega)]
      rw [shl_or_toNat, e1, e2]
      · rw [e1]
        calc a.toNat * 2 ^ (k - 8) < 2 ^ 8 * 2 ^ (k - 8) := Nat.mul_lt_mul_of_pos_right hlt (Nat.two_pow_pos _)
          _ = 2 ^ (8 + (k - 8)) := by rw [Nat.pow_add]
          _ ≤ 2 ^ 16 := Nat.pow_le_pow_right (by omega) (by omega)
      · rw [e2]; exact hlt2
    refine ⟨a.setWidth 16 <<< (k - 8) ||| a'.setWidth 16, b2, ?_, hinv2, by rw [hf2, hf], ?_, ?_⟩
    · rw [Dec.bind_ok _ hr, Dec.bind_ok _ hr2, Dec.bind_liftM_of (shl_ok (by omega))]; rfl
    · rw [he]
      have : a.toNat + 1 ≤ 2 ^ 8 := hlt
      calc a.toNat * 2 ^ (k - 8) + a'.toNat < a.toNat * 2 ^ (k - 8) + 2 ^ (k - 8) := by omega
        _ = (a.toNat + 1) * 2 ^ (k - 8) := by rw [Nat.add_mul, Nat.one_mul]
        _ ≤ 2 ^ 8 * 2 ^ (k - 8) := Nat.mul_le_mul_right _ this
        _ = 2 ^ k := by rw [← Nat.pow_add]; congr 1; omega
    · rw [he, hbits, hbits2]
      conv_rhs => rw [show k = 8 + (k - 8) by omega]
      rw [show 8 + (k - 8) - 8 = k - 8 by omega, natToBits_join _ _ _ _ hlt2, List.append_assoc]

theorem readLeqU16_eof {b : Bitstream Flat} (hb : Inv b) {k : Nat} (hk : k ≤ 16)
    (hlen : b.bits.length < k) :
    ∃ b', readLeqU16 k b = (.error (Flat.endFail b.reader.fault), b') := by
  simp only [readLeqU16, Dec.bind_liftM_of (debugAssert_ok (decide_eq_true hk))]
  by_cases hc : k ≤ 8
  · rw [if_pos hc]
    obtain ⟨b', h⟩ := readLeqU8_eof hb hc hlen
    exact ⟨_, Dec.bind_error _ h⟩
  · rw [if_neg hc]
    by_cases h8 : b.bits.length < 8
    · obtain ⟨b', h⟩ := readLeqU8_eof hb (Nat.le_refl 8) h8
      exact ⟨_, Dec.bind_error _ h⟩
    · obtain ⟨a, b1, hr, hinv, hf, hlt, hbits⟩ := readLeqU8_ok hb (Nat.le_refl 8) (by omega)
      have hl1 : b1.bits.length < k - 8 := by
        have := congrArg List.length hbits
        simp at this; omega
      obtain ⟨b2, h⟩ := readLeqU8_eof hinv (by omega) hl1
      rw [Dec.bind_ok _ hr, ← hf]
      exact ⟨_, Dec.bind_error _ h⟩

/-- `read_leq_u32` with enough bits available. -/
theorem readLeqU32_ok {b : Bitstream Flat} (hb : Inv b) {k : Nat} (hk : k ≤ 32)
    (hlen : k ≤ b.bits.length) :
    ∃ a b', readLeqU32 k b = (.ok a, b') ∧ Inv b' ∧ b'.reader.fault = b.reader.fault ∧
      a.toNat < 2 ^ k ∧ b.bits = natToBits k a.toNat ++ b'.bits := by
  simp only [readLeqU32, Dec.bind_liftM_of (debugAssert_ok (decide_eq_true hk))]
  by_cases hc : k ≤ 16
  · rw [if_pos hc]
    obtain ⟨a, b', hr, hinv, hf, hlt, hbits⟩ := readLeqU16_ok hb hc hlen
    have h8 := a.isLt
    have he : (a.setWidth 32).toNat = a.toNat := by
      rw [BitVec.toNat_setWidth, Nat.mod_eq_of_lt (by omega)]
    refine ⟨a.setWidth 32, b', ?_, hinv, hf, by rw [he]; exact hlt, by rw [he]; exact hbits⟩
    rw [Dec.bind_ok _ hr]; rfl
  · rw [if_neg hc]
    obtain ⟨a, b1, hr, hinv, hf, hlt, hbits⟩ := readLeqU16_ok hb (Nat.le_refl 16) (by omega)
    have hl1 : k - 16 ≤ b1.bits.length := by
      have := congrArg List.length hbits
      simp at this; omega
    obtain ⟨a', b2, hr2, hinv2, hf2, hlt2, hbits2⟩ := readLeqU16_ok hinv (k := k - 16) (by omega) hl1
    have h8 := a.isLt
    have h8' := a'.isLt
    have he : (a.setWidth 32 <<< (k - 16) ||| a'.setWidth 32).toNat = a.toNat * 2 ^ (k - 16) + a'.toNat := by
      have e1 : (a.setWidth 32).toNat = a.toNat := by
        rw [BitVec.toNat_setWidth, Nat.mod_eq_of_lt (by omega)]
      have e2 : (a'.setWidth 32).toNat = a'.toNat := by
        rw [BitVec.toNat_setWidth, Nat.mod_eq_of_lt (by omega)]
      rw [shl_or_toNat, e1, e2]
      · rw [e1]
        calc a.toNat * 2 ^ (k - 16) < 2 ^ 16 * 2 ^ (k - 16) := Nat.mul_lt_mul_of_pos_right hlt (Nat.two_pow_pos _)
          _ = 2 ^ (16 + (k - 16)) := by rw [Nat.pow_add]
          _ ≤ 2 ^ 32 := Nat.pow_le_pow_right (by omega) (by omega)
      · rw [e2]; exact hlt2
    refine ⟨a.setWidth 32 <<< (k - 16) ||| a'.setWidth 32, b2, ?_, hinv2, by rw [hf2, hf], ?_, ?_⟩
    · rw [Dec.bind_ok _ hr, Dec.bind_ok _ hr2, Dec.bind_liftM_of (shl_ok (by omega))]; rfl
    · rw [he]
      have : a.toNat + 1 ≤ 2 ^ 16 := hlt
      calc a.toNat * 2 ^ (k - 16) + a'.toNat < a.toNat * 2 ^ (k - 16) + 2 ^ (k - 16) := by omega
        _ = (a.toNat + 1) * 2 ^ (k - 16) := by rw [Nat.add_mul, Nat.one_mul]
        _ ≤ 2 ^ 16 * 2 ^ (k - 16) := Nat.mul_le_mul_right _ this
        _ = 2 ^ k := by rw [← Nat.pow_add]; congr 1; omega
    · rw [he, hbits, hbits2]
      conv_rhs => rw [show k = 16 + (k - 16) by omega]
      rw [show 16 + (k - 16) - 16 = k - 16 by omega, natToBits_join _ _ _ _ hlt2, List.append_assoc]

theorem readLeqU32_eof {b : Bitstream Flat} (hb : Inv b) {k : Nat} (hk : k ≤ 32)
    (hlen : b.bits.length < k) :
    ∃ b', readLeqU32 k b = (.error (Flat.endFail b.reader.fault), b') := by
  simp only [readLeqU32, Dec.bind_liftM_of (debugAssert_ok (decide_eq_true hk))]
  by_cases hc : k ≤ 16
  · rw [if_pos hc]
    obtain ⟨b', h⟩ := readLeqU16_eof hb hc hlen
    exact ⟨_, Dec.bind_error _ h⟩
  · rw [if_neg hc]
    by_cases h8 : b.bits.length < 16
    · obtain ⟨b', h⟩ := readLeqU16_eof hb (Nat.le_refl 16) h8
      exact ⟨_, Dec.bind_error _ h⟩
    · obtain ⟨a, b1, hr, hinv, hf, hlt, hbits⟩ := readLeqU16_ok hb (Nat.le_refl 16) (by omega)
      have hl1 : b1.bits.length < k - 16 := by
        have := congrArg List.length hbits
        simp at this; omega
      obtain ⟨b2, h⟩ := readLeqU16_eof hinv (by omega) hl1
      rw [Dec.bind_ok _ hr, ← hf]
      exact ⟨_, Dec.bind_error _ h⟩

end Bitstream

end Claxon
