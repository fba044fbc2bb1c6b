import Verif.Props.Bits
import Verif.Props.Subframe
import Verif.Props.Uncountable
import Verif.Props.Unchecked
import Verif.Props.Release
import Verif.Proof.Wrapped
import Verif.Proof.Loose

/-! # C86: what a build without overflow checks decodes -/

namespace Claxon.Props

open Claxon Spec ReadBytes Bitstream

variable {bytes : List U8} {fault : Option Nat}

theorem spec_length {op : BitOp} {bits rest : List Bool} {v : Nat} (h : op.spec bits = some (v, rest)) :
    rest.length ≤ bits.length := by
  have ht : ∀ k, takeBits k bits = some (v, rest) → rest.length ≤ bits.length := by
    intro k h
    unfold takeBits at h
    split at h
    · cases h
      rw [List.length_drop]
      omega
    · cases h
  cases op with
  | unary =>
    rcases Bitstream.unary_or_zeros bits with ⟨n, rest', h'⟩ | h'
    · rw [h', BitOp.spec, takeUnary_append] at h
      cases h
      rw [h', List.length_append]
      omega
    · rw [h', BitOp.spec, takeUnary_zeros] at h
      cases h
  | _ => exact ht _ h

theorem spec_lt {op : BitOp} (hop : op.Legal) {bits rest : List Bool} {v : Nat} (hm : op.tooMany bits = false)
    (h : op.spec bits = some (v, rest)) : v < 2 ^ 32 := by
  have ht : ∀ k, k ≤ 32 → takeBits k bits = some (v, rest) → v < 2 ^ 32 := by
    intro k hk h
    unfold takeBits at h
    split at h
    · cases h
      refine Nat.lt_of_lt_of_le (bitsToNat_lt _) (Nat.pow_le_pow_right (by decide) ?_)
      rw [List.length_take]
      omega
    · cases h
  cases op with
  | unary =>
    rcases Bitstream.unary_or_zeros bits with ⟨n, rest', h'⟩ | h'
    · rw [h', BitOp.spec, takeUnary_append] at h
      cases h
      rw [BitOp.tooMany, h', zerosAtFront_unary, decide_eq_false_iff_not] at hm
      omega
    · rw [h', BitOp.spec, takeUnary_zeros] at h
      cases h
  | bit => exact ht _ (by decide) h
  | leqU8 k => exact ht _ (Nat.le_trans hop (by decide)) h
  | gtU8LeqU16 k => exact ht _ (Nat.le_trans hop.2 (by decide)) h
  | leqU16 k => exact ht _ (Nat.le_trans hop (by decide)) h
  | leqU32 k => exact ht _ hop h

theorem same_bitOp {σ : Type} (op : BitOp) : Same σ (τ := Bitstream σ) op.run := by
  intro bd I I' h
  cases op with
  | unary => exact same_readUnary bd I I' h
  | bit => exact Sim.bind (same_readBit bd I I' h) (fun _ => Ref.refl _)
  | leqU8 k => exact Sim.bind (same_readLeqU8 k bd I I' h) (fun _ => Ref.refl _)
  | gtU8LeqU16 k => exact Sim.bind (same_readGtU8LeqU16 k bd I I' h) (fun _ => Ref.refl _)
  | leqU16 k => exact Sim.bind (same_readLeqU16 k bd I I' h) (fun _ => Ref.refl _)
  | leqU32 k => exact Sim.bind (same_readLeqU32 k bd I I' h) (fun _ => Ref.refl _)

section Unchecked

attribute [local instance] uncheckedBuild

/-- One operation on a flat reader, without overflow checks. -/
theorem bitOp_wraps {b : Bitstream Flat} (hb : b.Inv) (op : BitOp) (hop : op.Legal)
    (hl : b.bits.length < 8 * 2 ^ 64) :
    (∃ v b', op.run b = (.ok (v % 2 ^ 32), b') ∧ b'.Inv ∧ b'.reader.fault = b.reader.fault ∧
      op.spec b.bits = some (v, b'.bits)) ∨
    ((op.run b).1 = .error (Flat.endFail b.reader.fault) ∧ op.spec b.bits = none) := by
  have e : Ref (@BitOp.run Flat checkedBuild _ op) op.run := same_bitOp op uncheckedBuild _ _ (refRd_refl _)
  rcases bitOp_flat hb op hop with ⟨v, b', h1, h2, h3, h4, h5⟩ | ⟨h1, h2, h3⟩ | ⟨h1, h2⟩
  · left
    refine ⟨v, b', ?_, h2, h3, h5⟩
    rw [e.eq_of (by rw [h1]; intro p hp; cases hp), h1, Nat.mod_eq_of_lt (spec_lt hop h4 h5)]
  · right
    refine ⟨?_, h3⟩
    rw [e.eq_of (by rw [h1]; intro p hp; cases hb : b.reader.fault <;> rw [hb] at hp <;> cases hp), h1]
  · cases op with
    | unary =>
      simp only [BitOp.run, BitOp.spec]
      rcases Bitstream.unary_or_zeros b.bits with ⟨n, rest, h⟩ | h
      · left
        obtain ⟨b', h1, h2, h3, h4⟩ := readUnary_wraps hb h (by
          rw [h, List.length_append] at hl
          simp only [unaryBits, List.length_append, List.length_replicate] at hl
          omega)
        exact ⟨n, b', h1, h2, h3, by rw [h, takeUnary_append, h4]⟩
      · right
        obtain ⟨b', h1⟩ := readUnary_zerosWrap hb h (by
          have := Bitstream.length_bits b hb
          omega)
        exact ⟨by rw [h1], by rw [h, takeUnary_zeros]⟩
    | _ => cases h2

theorem bitOps_wraps (ops : List BitOp) : ∀ (b : Bitstream Flat), b.Inv → (∀ op ∈ ops, op.Legal) →
    b.bits.length < 8 * 2 ^ 64 →
    runBitOps ops b = specBitOpsWrapped (Flat.endFail b.reader.fault) ops b.bits := by
  induction ops with
  | nil => intro _ _ _ _; rfl
  | cons op ops ih =>
    intro b hb hops hl
    rw [runBitOps, specBitOpsWrapped]
    rcases bitOp_wraps hb op (hops op (by simp)) hl with ⟨v, b', h1, h2, h3, h4⟩ | ⟨h1, h2⟩
    · rw [h1, h4]
      show _ :: _ = _ :: _
      rw [ih b' h2 (fun o ho => hops o (by simp [ho])) (Nat.lt_of_le_of_lt (spec_length h4) hl), h3]
    · rw [h2]
      rcases hx : op.run b with ⟨x, b'⟩
      rw [hx] at h1
      simp only at h1
      rw [h1]

theorem bits_unchecked {r : BufferedReader} (h : r.Remaining bytes fault) (hl : bytes.length < 2 ^ 64)
    (ops : List BitOp) (hops : ∀ op ∈ ops, op.Legal) :
    runBitOps ops (Bitstream.new r) = specBitOpsWrapped (Flat.endFail fault) ops (bytesToBits bytes) := by
  rw [bitOps_sim (simBufferedRd_any uncheckedBuild fault).toSimU8 ops _ (Bitstream.new ⟨bytes, fault⟩) ⟨h.rel, rfl, rfl⟩,
    bitOps_wraps ops _ (Bitstream.inv_new _) hops (by rw [Bitstream.bits_new, length_bytesToBits]; simp only; omega),
    Bitstream.bits_new]
  rfl

theorem frame_unchecked {r : BufferedReader} (hr : r.Remaining bytes fault) (buffer : VecI32) :
    (readNextOrEof buffer r).1 = (readNextOrEof buffer (⟨bytes, fault⟩ : Flat)).1 :=
  Sim.result ((simBufferedRd_any uncheckedBuild fault).readNextOrEof buffer) hr

theorem frame_loose {r r' : BufferedReader} (hr : r.Remaining bytes fault) (hl : bytes.length < 2 ^ 64)
    (buffer : VecI32) {block : Block} (h : readNextOrEof buffer r = (.ok (some block), r')) :
    ∃ (bps : Nat) (f : Frame) (rest : List U8), f.Loose bps ∧ bytes = f.looseBytes bps ++ rest ∧
      r'.Remaining rest fault ∧ block.Holds f.header.time f.reduced.wrappedChannels := by
  have hs := (simBufferedRd_any uncheckedBuild fault).readNextOrEof buffer
  have h1 := frame_unchecked hr buffer
  rw [h] at h1
  rcases hx : readNextOrEof buffer (⟨bytes, fault⟩ : Flat) with ⟨x, t⟩
  rw [hx] at h1
  simp only at h1
  subst h1
  obtain ⟨r2, h2, h3⟩ := Sim.ok hs hr hx
  rw [h] at h2
  cases h2
  obtain ⟨-, bps, f, hw, hb, rfl⟩ := loose_frame buffer ⟨bytes, fault⟩ hl hx
  exact ⟨bps, f, t.bytes, hw, hb, h3, loose_holds hw buffer⟩

theorem loose_buffered {bps : Nat} {f : Frame} (hw : f.Loose bps) {rest : List U8} {r : BufferedReader}
    (hr : r.Remaining (f.looseBytes bps ++ rest) fault) (hl : (f.looseBytes bps ++ rest).length < 2 ^ 64)
    (buffer : VecI32) :
    ∃ (block : Block) (r' : BufferedReader), readNextOrEof buffer r = (.ok (some block), r') ∧
      r'.Remaining rest fault ∧ block.Holds f.header.time f.reduced.wrappedChannels := by
  obtain ⟨r2, h2, h3⟩ := Sim.ok ((simBufferedRd_any uncheckedBuild fault).readNextOrEof buffer) hr
    (loose_decoded hw buffer rest fault hl)
  exact ⟨_, r2, h2, h3, loose_holds hw buffer⟩

end Unchecked

/-- **C86.** In a build without overflow checks, the bits are read as in any other (`C05_bits`), but zeros are counted
modulo `2 ^ 32`. -/
theorem C86_bits {r : BufferedReader} (h : r.Remaining bytes fault) (hl : bytes.length < 2 ^ 64) (ops : List BitOp)
    (hops : ∀ op ∈ ops, op.Legal) :
    @runBitOps _ uncheckedBuild (@BufferedReader.instReadBytesOfBuild uncheckedBuild) ops (Bitstream.new r) =
      specBitOpsWrapped (Flat.endFail fault) ops (bytesToBits bytes) :=
  bits_unchecked h hl ops hops

/-- `2 ^ 32 + 3` zeros and a one, in bytes that are delivered one by one: the number is 3, where a build with overflow
checks panics. -/
example : ∃ (r : BufferedReader) (bytes : List U8), r.Remaining bytes none ∧ bytes.length < 2 ^ 64 ∧
    @runBitOps _ uncheckedBuild (@BufferedReader.instReadBytesOfBuild uncheckedBuild) [.unary] (Bitstream.new r) =
      [.ok 3] ∧
    runBitOps [.unary] (Bitstream.new r) = [.error (.panic .overflow)] := by
  have gen : ∀ n, 8 * n = 2 ^ 32 → ∃ (r : BufferedReader) (bytes : List U8), r.Remaining bytes none ∧
      bytes.length < 2 ^ 64 ∧
      @runBitOps _ uncheckedBuild (@BufferedReader.instReadBytesOfBuild uncheckedBuild) [.unary] (Bitstream.new r) =
        [.ok 3] ∧
      runBitOps [.unary] (Bitstream.new r) = [.error (.panic .overflow)] := by
    intro n hn
    have hl : (List.replicate n 0#8 ++ [0x10#8]).length < 2 ^ 64 := by
      rw [List.length_append, List.length_replicate, List.length_singleton]
      omega
    have hbits : bytesToBits (List.replicate n 0#8 ++ [0x10#8]) = unaryBits (8 * n + 3) ++ natToBits 4 0 := by
      rw [bytesToBits_append, bytesToBits_zeros,
        show bytesToBits [0x10#8] = List.replicate 3 false ++ ([true] ++ natToBits 4 0) by decide]
      simp [unaryBits, List.replicate_add]
    have hr := bytewise_remaining (List.replicate n 0#8 ++ [0x10#8])
    refine ⟨_, _, hr, hl, ?_, ?_⟩
    · rw [C86_bits hr hl [.unary] (by simp [BitOp.Legal]), hbits, specBitOpsWrapped, BitOp.spec, takeUnary_append, hn]
      rfl
    · rw [C05_bits hr [.unary] (by simp [BitOp.Legal]), hbits, specBitOps, BitOp.tooMany, zerosAtFront_unary,
        decide_eq_true (by omega), if_pos rfl]
  exact gen (2 ^ 29) (by norm_num)

/-- **C86.** A build without overflow checks reads a frame exactly as one with them does, unless the input begins with a
frame in which there are more zeros in a row than can be counted. -/
theorem C86_same {r : BufferedReader} (buffer : VecI32) (hr : r.Remaining bytes fault) (h : ¬ Uncountable bytes) :
    @readNextOrEof _ (@BufferedReader.instReadBytesOfBuild uncheckedBuild) _ uncheckedBuild buffer r =
      readNextOrEof buffer r := by
  refine Ref.eq_of (same_readNextOrEof buffer uncheckedBuild _ _ (BufferedReader.refRd uncheckedBuild)) ?_
  intro p hp
  rcases (C85_returns buffer hr).2 h with ⟨a, h1⟩ | ⟨e, h1⟩ <;> rw [h1] at hp <;> cases hp

/-- `C86_same` applies to every input of less than half a gigabyte. -/
example {r : BufferedReader} (buffer : VecI32) (hr : r.Remaining bytes fault) (h : bytes.length < 2 ^ 29) :
    @readNextOrEof _ (@BufferedReader.instReadBytesOfBuild uncheckedBuild) _ uncheckedBuild buffer r =
      readNextOrEof buffer r :=
  C86_same buffer hr (fun hu => absurd (C85_size hu).2 (Nat.not_le.2 h))

/-- The frame with `2 ^ 32` wasted bits cannot be counted. -/
theorem uncountable_wrapped {n : Nat} (hn : 8 * n + 8 = 2 ^ 32) (rest : List U8) : Uncountable (wrappedFrame n ++ rest) := by
  refine ⟨hugeHeader.bytes ++ ([0x01#8] ++ List.replicate n 0#8 ++ [0x01#8]),
    0x05#8 :: beBytes 2 (crc16 (hugeHeader.bytes ++ wrappedBody n)).toNat ++ rest, ?_, ?_⟩
  · simp [wrappedFrame, wrappedBody]
  · refine .subframe hugeHeader 8 hugeHeader_wellFormed rfl [] (by simp) 8 rfl _
      (.wasted 0 (by decide) (by unfold ReservedType; omega) true) [] (by decide) _ ?_
    rw [bytesToBits_append, bytesToBits_append, bytesToBits_zeros,
      show bytesToBits [0x01#8] = false :: natToBits 6 0 ++ [true] by decide,
      show 2 ^ 32 - 1 = 8 * n + 7 by omega, List.replicate_add]
    simp [natToBits]

/-- **C86.** A loose frame is a frame of the format, except that there is no limit on the number of zeros in a row, and that
of the number of wasted bits only the remainder modulo `2 ^ 32` counts. A build without overflow checks decodes every such
frame, modulo `2 ^ 32`. -/
theorem C86_loose {bps : Nat} {f : Frame} (hf : f.Loose bps) {rest : List U8} {r : BufferedReader} (buffer : VecI32)
    (hr : r.Remaining (f.looseBytes bps ++ rest) fault) (hl : (f.looseBytes bps ++ rest).length < 2 ^ 64) :
    ∃ (block : Block) (r' : BufferedReader),
      @readNextOrEof _ (@BufferedReader.instReadBytesOfBuild uncheckedBuild) _ uncheckedBuild buffer r =
        (.ok (some block), r') ∧
      r'.Remaining rest fault ∧ block.Holds f.header.time f.reduced.wrappedChannels :=
  loose_buffered hf hr hl buffer

/-- **C86.** And it decodes nothing else. -/
theorem C86_frame {r r' : BufferedReader} (buffer : VecI32) (hr : r.Remaining bytes fault) (hl : bytes.length < 2 ^ 64)
    {block : Block}
    (h : @readNextOrEof _ (@BufferedReader.instReadBytesOfBuild uncheckedBuild) _ uncheckedBuild buffer r =
      (.ok (some block), r')) :
    ∃ (bps : Nat) (f : Frame) (rest : List U8), f.Loose bps ∧ bytes = f.looseBytes bps ++ rest ∧
      r'.Remaining rest fault ∧ block.Holds f.header.time f.reduced.wrappedChannels :=
  frame_loose hr hl buffer h

/-- **C86.** Every well-formed frame is a loose one, with the same bytes, and denotes the same. -/
theorem C86_wellFormed {bps : Nat} {f : Frame} (h : f.WellFormed bps) :
    f.Loose bps ∧ f.looseBytes bps = f.bytes bps ∧ f.reduced = f :=
  loose_of_wellFormed h

example : exampleFrame.WellFormed 16 := exampleFrame_encodes.legal.wellFormed

/-- A loose frame that is not well-formed, with `2 ^ 32` wasted bits per sample, in bytes that are delivered one by one. -/
theorem wrapped_example {n : Nat} (hn : 8 * n + 8 = 2 ^ 32) :
    (wrappedLoose n).Loose 8 ∧ ¬ (wrappedLoose n).WellFormed 8 ∧
    (BufferedReader.new (bytewise (wrappedFrame n))).Remaining ((wrappedLoose n).looseBytes 8 ++ []) none ∧
    ((wrappedLoose n).looseBytes 8 ++ []).length < 2 ^ 64 := by
  refine ⟨wrapped_loose hn, ?_, ?_, ?_⟩
  · intro h
    have := (h.subframes (8, { wasted := 8 * n + 8, coding := .constant 5 }) (by
      simp [wrappedLoose, show hugeHeader.channels.depths 8 = [8] from rfl])).wasted
    simp only at this
    omega
  · rw [wrapped_bytes hn, List.append_nil]
    exact bytewise_remaining _
  · rw [wrapped_bytes hn]
    have e : hugeHeader.bytes.length ≤ 16 := by decide
    simp only [wrappedFrame, wrappedBody, List.length_append, List.length_replicate, List.length_cons, List.length_nil,
      length_beBytes]
    omega

example : ∃ (f : Frame) (r : BufferedReader), f.Loose 8 ∧ ¬ f.WellFormed 8 ∧ r.Remaining (f.looseBytes 8 ++ []) none ∧
    (f.looseBytes 8 ++ []).length < 2 ^ 64 :=
  ⟨_, _, wrapped_example (n := 2 ^ 29 - 1) (by norm_num)⟩

/-- **C86.** In particular it is exactly the encoding of a well-formed frame, unless there are more zeros in a row than can
be counted. -/
theorem C86_exactly {r r' : BufferedReader} (buffer : VecI32) (hr : r.Remaining bytes fault) {block : Block}
    (h : @readNextOrEof _ (@BufferedReader.instReadBytesOfBuild uncheckedBuild) _ uncheckedBuild buffer r =
      (.ok (some block), r')) (hu : ¬ Uncountable bytes) :
    ∃ (bps : Nat) (f : Frame) (rest : List U8), f.WellFormed bps ∧ bytes = f.bytes bps ++ rest ∧
      r'.Remaining rest fault ∧ block.Holds f.header.time f.wrappedChannels := by
  rw [C86_same buffer hr hu] at h
  exact C25_frame hr buffer h

/-- **C86.** The exceptions are needed: a build without overflow checks decodes a frame with `2 ^ 32` wasted bits
per sample, which is not the encoding of any frame, as if there were none. (A build with overflow checks panics.) -/
theorem C86_more : ∃ (r r' : BufferedReader) (bytes : List U8) (block : Block), r.Remaining bytes none ∧
    ¬ BeginsWithFrame bytes ∧
    @readNextOrEof _ (@BufferedReader.instReadBytesOfBuild uncheckedBuild) _ uncheckedBuild .empty r =
      (.ok (some block), r') ∧
    block.Holds 0 [List.replicate 192 5] ∧
    (readNextOrEof .empty r).1 = .error (.panic .overflow) := by
  have gen : ∀ n, 8 * n + 8 = 2 ^ 32 → ∃ (r r' : BufferedReader) (bytes : List U8) (block : Block),
      r.Remaining bytes none ∧ ¬ BeginsWithFrame bytes ∧
      @readNextOrEof _ (@BufferedReader.instReadBytesOfBuild uncheckedBuild) _ uncheckedBuild .empty r =
        (.ok (some block), r') ∧
      block.Holds 0 [List.replicate 192 5] ∧
      (readNextOrEof .empty r).1 = .error (.panic .overflow) := by
    intro n hn
    obtain ⟨h1, -, h2, h3⟩ := wrapped_example hn
    obtain ⟨block, r', h4, -, h5⟩ := C86_loose h1 .empty h2 h3
    rw [wrapped_channels hn] at h5
    have hr := bytewise_remaining (wrappedFrame n)
    have hu : Uncountable (wrappedFrame n) := by
      have := uncountable_wrapped hn []
      rwa [List.append_nil] at this
    exact ⟨_, r', _, block, hr, (C85_exclusive hu).1, h4, h5, (C85_overflow .empty hr).2 hu⟩
  exact gen (2 ^ 29 - 1) (by norm_num)

/-- `C86_exactly` applies to an ordinary frame. -/
example : ∃ (r r' : BufferedReader) (bytes : List U8) (block : Block), r.Remaining bytes none ∧ ¬ Uncountable bytes ∧
    @readNextOrEof _ (@BufferedReader.instReadBytesOfBuild uncheckedBuild) _ uncheckedBuild .empty r =
      (.ok (some block), r') := by
  have hr := bytewise_remaining (exampleFrame.bytes 16)
  have hu : ¬ Uncountable (exampleFrame.bytes 16) := fun hu => absurd (C85_size hu).2 (by decide +kernel)
  obtain ⟨r', h, -⟩ := buffered_frame exampleFrame_encodes.legal.wellFormed VecI32.empty (rest := [])
    (r := BufferedReader.new (bytewise (exampleFrame.bytes 16))) (by rw [List.append_nil]; exact hr)
  exact ⟨_, r', _, _, hr, hu, (C86_same .empty hr hu).trans h⟩

end Claxon.Props
