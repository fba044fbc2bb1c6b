import Verif.Spec.BitOps
import Verif.Proof.Client
import Verif.Proof.Logic
import Verif.Props.Input

/-! # C05, C06: reading bits -/

namespace Claxon.Props

open Claxon Spec

theorem takeBits_append {k v : Nat} (hv : v < 2 ^ k) (rest : List Bool) :
    takeBits k (natToBits k v ++ rest) = some (v, rest) := by
  have hl : (natToBits k v).length = k := by simp
  rw [takeBits, if_pos (by rw [List.length_append, hl]; omega), List.take_append_of_le_length (by omega),
    List.take_of_length_le (by omega), bitsToNat_natToBits, Nat.mod_eq_of_lt hv, List.drop_append_of_le_length (by omega),
    List.drop_of_length_le (by omega), List.nil_append]

theorem takeUnary_append (n : Nat) (rest : List Bool) :
    takeUnary (unaryBits n ++ rest) = some (n, rest) := by
  induction n with
  | zero => rfl
  | succ n ih =>
    show (takeUnary (unaryBits n ++ rest)).map _ = _
    rw [ih]
    rfl

theorem takeUnary_zeros (n : Nat) : takeUnary (List.replicate n false) = none := by
  induction n with
  | zero => rfl
  | succ n ih =>
    show (takeUnary (List.replicate n false)).map _ = _
    rw [ih]
    rfl

theorem zerosAtFront_unary (n : Nat) (rest : List Bool) : zerosAtFront (unaryBits n ++ rest) = n := by
  induction n with
  | zero => rfl
  | succ n ih => exact congrArg (· + 1) ih

theorem zerosAtFront_zeros (n : Nat) : zerosAtFront (List.replicate n false) = n := by
  induction n with
  | zero => rfl
  | succ n ih => exact congrArg (· + 1) ih

/-- One operation on a flat reader. -/
theorem bitOp_flat {b : Bitstream Flat} (hb : b.Inv) (op : BitOp) (hop : op.Legal) :
    (∃ v b', op.run b = (.ok v, b') ∧ b'.Inv ∧ b'.reader.fault = b.reader.fault ∧
      op.tooMany b.bits = false ∧ op.spec b.bits = some (v, b'.bits)) ∨
    ((op.run b).1 = .error (Flat.endFail b.reader.fault) ∧ op.tooMany b.bits = false ∧ op.spec b.bits = none) ∨
    ((op.run b).1 = .error (.panic .overflow) ∧ op.tooMany b.bits = true) := by
  have fixed : ∀ {w : Nat} {m : Dec (Bitstream Flat) (BitVec w)} (k : Nat),
      (k ≤ b.bits.length → ∃ a b', m b = (.ok a, b') ∧ b'.Inv ∧ b'.reader.fault = b.reader.fault ∧
        a.toNat < 2 ^ k ∧ b.bits = natToBits k a.toNat ++ b'.bits) →
      (b.bits.length < k → ∃ b', m b = (.error (Flat.endFail b.reader.fault), b')) →
      (∃ v b', (do let v ← m; pure v.toNat : Dec (Bitstream Flat) Nat) b = (.ok v, b') ∧ b'.Inv ∧
        b'.reader.fault = b.reader.fault ∧ false = false ∧ takeBits k b.bits = some (v, b'.bits)) ∨
      (((do let v ← m; pure v.toNat : Dec (Bitstream Flat) Nat) b).1 =
        .error (Flat.endFail b.reader.fault) ∧ false = false ∧ takeBits k b.bits = none) ∨
      (((do let v ← m; pure v.toNat : Dec (Bitstream Flat) Nat) b).1 = .error (.panic .overflow) ∧
        false = true) := by
    intro w m k h1 h2
    rcases Nat.lt_or_ge b.bits.length k with hk | hk
    · right; left
      obtain ⟨b', e⟩ := h2 hk
      rw [Dec.bind_error _ e, takeBits, if_neg (by omega)]
      exact ⟨rfl, rfl, rfl⟩
    · left
      obtain ⟨a, b', e, hi, hf, ha, hbits⟩ := h1 hk
      refine ⟨a.toNat, b', by rw [Dec.bind_ok _ e]; rfl, hi, hf, rfl, ?_⟩
      rw [hbits, takeBits_append ha]
  cases op with
  | bit =>
    rcases Nat.lt_or_ge b.bits.length 1 with hk | hk
    · right; left
      obtain ⟨b', e⟩ := Bitstream.readBit_eof hb hk
      simp only [BitOp.run, BitOp.spec]
      rw [Dec.bind_error _ e, takeBits, if_neg (by omega)]
      exact ⟨rfl, rfl, rfl⟩
    · left
      obtain ⟨a, b', e, hi, hf, hbits⟩ := Bitstream.readBit_ok hb hk
      refine ⟨a.toNat, b', by simp only [BitOp.run]; rw [Dec.bind_ok _ e]; rfl, hi, hf, rfl, ?_⟩
      simp only [BitOp.spec]
      rw [hbits, takeBits, if_pos (by simp)]
      cases a <;> rfl
  | unary =>
    simp only [BitOp.run, BitOp.spec, BitOp.tooMany, decide_eq_false_iff_not, decide_eq_true_eq]
    rcases Bitstream.unary_or_zeros b.bits with ⟨n, rest, h⟩ | h
    · have hc : zerosAtFront b.bits = n := by rw [h]; exact zerosAtFront_unary n rest
      rcases Nat.lt_or_ge n (2 ^ 32) with hn | hn
      · left
        obtain ⟨b', h1, h2, h3, h4⟩ := (Bitstream.readUnary_unary hb h).1 hn
        refine ⟨n, b', h1, h2, h3, by rw [hc]; exact Nat.not_le.2 hn, ?_⟩
        rw [h, takeUnary_append, h4]
      · right; right
        obtain ⟨b', h1⟩ := (Bitstream.readUnary_unary hb h).2 hn
        exact ⟨by rw [h1], by rw [hc]; exact hn⟩
    · have hc : zerosAtFront b.bits = b.bits.length := by
        conv_lhs => rw [h]
        exact zerosAtFront_zeros _
      rcases Nat.lt_or_ge b.bits.length (2 ^ 32) with hn | hn
      · right; left
        obtain ⟨b', h1⟩ := (Bitstream.readUnary_zeros hb h).1 hn
        refine ⟨by rw [h1], by rw [hc]; exact Nat.not_le.2 hn, ?_⟩
        rw [h, takeUnary_zeros]
      · right; right
        obtain ⟨b', h1⟩ := (Bitstream.readUnary_zeros hb h).2 hn
        exact ⟨by rw [h1], by rw [hc]; exact hn⟩
  | leqU8 k => exact fixed k (Bitstream.readLeqU8_ok hb hop) (Bitstream.readLeqU8_eof hb hop)
  | gtU8LeqU16 k =>
    exact fixed k (Bitstream.readGtU8LeqU16_ok hb hop.1 hop.2)
      (Bitstream.readGtU8LeqU16_eof hb hop.1 hop.2)
  | leqU16 k => exact fixed k (Bitstream.readLeqU16_ok hb hop) (Bitstream.readLeqU16_eof hb hop)
  | leqU32 k => exact fixed k (Bitstream.readLeqU32_ok hb hop) (Bitstream.readLeqU32_eof hb hop)

theorem bitOps_flat (ops : List BitOp) : ∀ (b : Bitstream Flat), b.Inv → (∀ op ∈ ops, op.Legal) →
    runBitOps ops b = specBitOps (Flat.endFail b.reader.fault) ops b.bits := by
  induction ops with
  | nil => intro _ _ _; rfl
  | cons op ops ih =>
    intro b hb hops
    rw [runBitOps, specBitOps]
    rcases bitOp_flat hb op (hops op (by simp)) with ⟨v, b', h1, h2, h3, h4, h5⟩ | ⟨h1, h2, h3⟩ | ⟨h1, h2⟩
    · rw [h1, h4, h5, if_neg Bool.false_ne_true]
      show _ :: _ = _ :: _
      rw [ih b' h2 (fun o ho => hops o (by simp [ho])), h3]
    · rw [h2, h3, if_neg Bool.false_ne_true]
      rcases hx : op.run b with ⟨x, b'⟩
      rw [hx] at h1
      simp only at h1
      rw [h1]
    · rw [h2, if_pos rfl]
      rcases hx : op.run b with ⟨x, b'⟩
      rw [hx] at h1
      simp only at h1
      rw [h1]

theorem bitOp_sim {σ τ : Type} [Build] [ReadBytes σ] [ReadBytes τ] {R : σ → τ → Prop} {E : Fail → Prop}
    (h : SimU8 R E True) (op : BitOp) :
    Sim (BitstreamRel R) E True (op.run : Dec (Bitstream σ) Nat) op.run := by
  cases op <;> unfold BitOp.run <;> simp only
  · sim h.readBit
  · exact h.readUnary
  · sim (h.readLeqU8 _)
  · sim (h.readGtU8LeqU16 _)
  · sim (h.readLeqU16 _)
  · sim (h.readLeqU32 _)

theorem bitOps_sim {σ τ : Type} [Build] [ReadBytes σ] [ReadBytes τ] {R : σ → τ → Prop} {E : Fail → Prop}
    (h : SimU8 R E True) (ops : List BitOp) : ∀ (b : Bitstream σ) (c : Bitstream τ),
    BitstreamRel R b c → runBitOps ops b = runBitOps ops c := by
  induction ops with
  | nil => intro _ _ _; rfl
  | cons op ops ih =>
    intro b c hbc
    rw [runBitOps, runBitOps]
    have h1 := bitOp_sim h op b c hbc
    generalize op.run b = x at h1
    generalize op.run c = y at h1
    rcases x with ⟨x1, x2⟩
    rcases y with ⟨y1, y2⟩
    rcases h1 with ⟨h1, h2⟩ | ⟨f, h1, h2, h3⟩
    · simp only at h1
      subst h1
      rcases x1 with f | v
      · rfl
      · show _ :: _ = _ :: _
        rw [ih _ _ h2]
    · simp only [true_implies] at h1 h3
      subst h1 h3
      rfl

/-- **C05.** Every sequence of bit-level reads is a sequence of removals from the front of one bit
string: on a buffered reader in any state with `bytes` to come, in whatever chunks,
and in any sequence of operations of any legal width. Reading past the end fails with end-of-file, or with the error of
the wrapped reader if that is how it ends; and counting `2 ^ 32` zeros overflows. -/
theorem C05_bits {r : BufferedReader} {bytes : List U8} {fault : Option Nat}
    (h : r.Remaining bytes fault) (ops : List BitOp)
    (hops : ∀ op ∈ ops, op.Legal) :
    runBitOps ops (Bitstream.new r) = specBitOps (Flat.endFail fault) ops (bytesToBits bytes) := by
  rw [bitOps_sim (simBufferedRd fault).toSimU8 ops _ (Bitstream.new ⟨bytes, fault⟩) ⟨h.rel, rfl, rfl⟩,
    bitOps_flat ops _ (Bitstream.inv_new _) hops, Bitstream.bits_new]
  rfl

/-- **C05**, on a cursor. -/
theorem C05_bits_cursor {data : List U8} {pos : Nat} (hpos : pos ≤ data.length)
    (hlen : data.length < 2 ^ 63) (ops : List BitOp) (hops : ∀ op ∈ ops, op.Legal) :
    runBitOps ops (Bitstream.new (Cursor.mk data pos)) =
      specBitOps (.err (.ioError .unexpectedEof)) ops (bytesToBits (data.drop pos)) := by
  rw [bitOps_sim (simCursorRd data).toSimU8 ops _ (Bitstream.new (Flat.ofBytes (data.drop pos)))
    ⟨⟨rfl, hpos, Nat.lt_of_lt_of_le hlen (by decide), rfl⟩, rfl, rfl⟩,
    bitOps_flat ops _ (Bitstream.inv_new _) hops, Bitstream.bits_new]
  rfl

/-- A non-trivial instance: reads of various widths that cross the byte boundaries. -/
example : specBitOps (.err (.ioError .unexpectedEof)) [.leqU8 3, .unary, .gtU8LeqU16 9, .leqU32 17]
    (bytesToBits [0x12, 0x34, 0x56]) =
    [.ok 0, .ok 0, .ok 0x46, .error (.err (.ioError .unexpectedEof))] ∧
    (BufferedReader.new exampleSource).Remaining [0x12, 0x34, 0x56] none :=
  ⟨by decide, .new exampleSource_delivers⟩

/-! ## C06 -/

/-- **C06.** At every alignment (after `k` bits), a unary number of any size below `2 ^ 32` is read
correctly, and exactly its bits are consumed: the `j` bits behind it are what is read next. -/
theorem C06_unary {r : BufferedReader} {bytes : List U8} {fault : Option Nat}
    (h : r.Remaining bytes fault) (k v n j w : Nat) (rest : List Bool) (hk : k ≤ 8) (hv : v < 2 ^ k)
    (hn : n < 2 ^ 32) (hj : j ≤ 32) (hw : w < 2 ^ j)
    (hbits : bytesToBits bytes = natToBits k v ++ unaryBits n ++ natToBits j w ++ rest) :
    runBitOps [.leqU8 k, .unary, .leqU32 j] (Bitstream.new r) = [.ok v, .ok n, .ok w] := by
  rw [bitOps_sim (simBufferedRd fault).toSimU8 _ _ (Bitstream.new ⟨bytes, fault⟩) ⟨h.rel, rfl, rfl⟩]
  rw [List.append_assoc, List.append_assoc] at hbits
  obtain ⟨b1, h1, i1, e1, _⟩ := reads_readLeqU8 hk hv (Bitstream.new ⟨bytes, fault⟩) _
    (Bitstream.inv_new _) (by rw [Bitstream.bits_new]; exact hbits)
  obtain ⟨b2, h2, i2, e2, _⟩ := reads_readUnary hn b1 _ i1 e1
  obtain ⟨b3, h3, i3, e3, _⟩ := reads_readLeqU32 hj hw b2 _ i2 e2
  have hv8 : v < 2 ^ 8 := Nat.lt_of_lt_of_le hv (Nat.pow_le_pow_right (by decide) hk)
  have hw32 : w < 2 ^ 32 := Nat.lt_of_lt_of_le hw (Nat.pow_le_pow_right (by decide) hj)
  simp only [runBitOps, BitOp.run]
  rw [Dec.bind_ok _ h1]
  simp only [Dec.pure_run, h2]
  rw [Dec.bind_ok _ h3]
  simp only [Dec.pure_run, BitVec.toNat_ofNat, Nat.mod_eq_of_lt hv8, Nat.mod_eq_of_lt hw32]

/-- A run of zeros that crosses two byte boundaries. -/
example : bytesToBits [0xa0, 0x00, 0x07] =
    natToBits 3 5 ++ unaryBits 18 ++ natToBits 2 3 ++ [] := by decide

/-- Longer runs overflow the counter. -/
theorem C06_limit {r : BufferedReader} {bytes : List U8} {fault : Option Nat}
    (h : r.Remaining bytes fault) (n : Nat) (rest : List Bool) (hn : 2 ^ 32 ≤ n)
    (hbits : bytesToBits bytes = unaryBits n ++ rest) :
    runBitOps [.unary] (Bitstream.new r) = [.error (.panic .overflow)] := by
  rw [bitOps_sim (simBufferedRd fault).toSimU8 _ _ (Bitstream.new ⟨bytes, fault⟩) ⟨h.rel, rfl, rfl⟩]
  obtain ⟨b', h1⟩ := (Bitstream.readUnary_unary (Bitstream.inv_new ⟨bytes, fault⟩)
    (by rw [Bitstream.bits_new]; exact hbits)).2 hn
  simp only [runBitOps, BitOp.run, h1]

example : bytesToBits (List.replicate (2 ^ 29) 0#8 ++ [0x80#8]) = unaryBits (2 ^ 32) ++ List.replicate 7 false := by
  have h : ∀ n, bytesToBits (List.replicate n 0#8) = List.replicate (8 * n) false := by
    intro n
    induction n with
    | zero => rfl
    | succ n ih =>
      rw [List.replicate_succ, show 8 * (n + 1) = 8 + 8 * n by omega, ← List.replicate_append_replicate, ← ih]
      rfl
  rw [bytesToBits_append, h]
  simp only [unaryBits, List.append_assoc]
  rfl

end Claxon.Props
