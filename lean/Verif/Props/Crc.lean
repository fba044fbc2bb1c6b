import Verif.Proof.FrameApi
import Verif.Proof.CrcPoly
import Verif.Proof.CrcDist
import Verif.Spec.Raw
import Verif.Props.Example

/-! # C07, C08, C09: the checksums -/

namespace Claxon.Props

open Claxon Spec ReadBytes Polynomial

/-! ## C07 -/

/-- The operations that the checksum readers support. -/
def Bytewise (ops : List RawOp) : Prop := ∀ op ∈ ops, op = .readU8 ∨ op = .readU8OrEof

theorem crc8_update {σ : Type} [ReadBytes σ] (b : U8) (c : Crc8Reader σ) :
    Crc8Reader.updateState b c =
      (.ok (), { c with state := crcRun 0b00000111#8 c.state (byteBits b) }) := by
  simp only [Crc8Reader.updateState, Dec.bind_get_run]
  rw [Dec.bind_liftM_of (crc8Update_eq _ _)]
  rfl

theorem crc8_run {σ : Type} [ReadBytes σ] : ∀ (ops : List RawOp), Bytewise ops →
    ∀ (used : List U8) (c : Crc8Reader σ), c.state = crc8 used →
    (runRaw ops c).1 = (runRaw ops c.inner).1 ∧ (runRaw ops c).2.inner = (runRaw ops c.inner).2 ∧
      (runRaw ops c).2.state = crc8 (used ++ handed (runRaw ops c.inner).1)
  | [], _, used, c, hc => by simp [runRaw, handed, hc]
  | op :: ops, hops, used, c, hc => by
    have hstep : ∃ new : List U8, (op.run c).1 = (op.run c.inner).1 ∧
        (op.run c).2.inner = (op.run c.inner).2 ∧ (op.run c).2.state = crc8 (used ++ new) ∧
        handed [(op.run c.inner).1] = new := by
      rcases hops op (by simp) with rfl | rfl
      · simp only [RawOp.run, Dec.bind_def, ReadBytes.readU8, Crc8Reader.readU8, Crc8Reader.onInner,
          Dec.zoom_run]
        generalize ReadBytes.readU8 c.inner = x
        rcases x with ⟨e | b, s⟩
        · exact ⟨[], rfl, rfl, by simpa using hc, rfl⟩
        · refine ⟨[b], ?_⟩
          simp only [crc8_update]
          exact ⟨rfl, rfl, by rw [crc8_append, ← hc]; rfl, rfl⟩
      · simp only [RawOp.run, Dec.bind_def, ReadBytes.readU8OrEof, Crc8Reader.readU8OrEof,
          Crc8Reader.onInner, Dec.zoom_run]
        generalize ReadBytes.readU8OrEof c.inner = x
        rcases x with ⟨e | _ | b, s⟩
        · exact ⟨[], rfl, rfl, by simpa using hc, rfl⟩
        · exact ⟨[], rfl, rfl, by simpa using hc, rfl⟩
        · refine ⟨[b], ?_⟩
          simp only [Dec.bind_def, crc8_update]
          exact ⟨rfl, rfl, by rw [crc8_append, ← hc]; rfl, rfl⟩
    obtain ⟨new, h1, h2, h3, h4⟩ := hstep
    obtain ⟨i1, i2, i3⟩ := crc8_run ops (fun o ho => hops o (by simp [ho])) (used ++ new) _ h3
    simp only [runRaw]
    rw [i1, i2, i3, h1, h2]
    refine ⟨rfl, rfl, ?_⟩
    rw [List.append_assoc, ← h4]
    simp [handed]

theorem crc16_update {σ : Type} [ReadBytes σ] (b : U8) (c : Crc16Reader σ) :
    Crc16Reader.updateState b c =
      (.ok (), { c with state := crcRun 0b1000000000000101#16 c.state (byteBits b) }) := by
  simp only [Crc16Reader.updateState, Dec.bind_get_run]
  rw [Dec.bind_liftM_of (crc16Update_eq _ _)]
  rfl

theorem crc16_run {σ : Type} [ReadBytes σ] : ∀ (ops : List RawOp), Bytewise ops →
    ∀ (used : List U8) (c : Crc16Reader σ), c.state = crc16 used →
    (runRaw ops c).1 = (runRaw ops c.inner).1 ∧ (runRaw ops c).2.inner = (runRaw ops c.inner).2 ∧
      (runRaw ops c).2.state = crc16 (used ++ handed (runRaw ops c.inner).1)
  | [], _, used, c, hc => by simp [runRaw, handed, hc]
  | op :: ops, hops, used, c, hc => by
    have hstep : ∃ new : List U8, (op.run c).1 = (op.run c.inner).1 ∧
        (op.run c).2.inner = (op.run c.inner).2 ∧ (op.run c).2.state = crc16 (used ++ new) ∧
        handed [(op.run c.inner).1] = new := by
      rcases hops op (by simp) with rfl | rfl
      · simp only [RawOp.run, Dec.bind_def, ReadBytes.readU8, Crc16Reader.readU8, Crc16Reader.onInner,
          Dec.zoom_run]
        generalize ReadBytes.readU8 c.inner = x
        rcases x with ⟨e | b, s⟩
        · exact ⟨[], rfl, rfl, by simpa using hc, rfl⟩
        · refine ⟨[b], ?_⟩
          simp only [crc16_update]
          exact ⟨rfl, rfl, by rw [crc16_append, ← hc]; rfl, rfl⟩
      · simp only [RawOp.run, Dec.bind_def, ReadBytes.readU8OrEof, Crc16Reader.readU8OrEof,
          Crc16Reader.onInner, Dec.zoom_run]
        generalize ReadBytes.readU8OrEof c.inner = x
        rcases x with ⟨e | _ | b, s⟩
        · exact ⟨[], rfl, rfl, by simpa using hc, rfl⟩
        · exact ⟨[], rfl, rfl, by simpa using hc, rfl⟩
        · refine ⟨[b], ?_⟩
          simp only [Dec.bind_def, crc16_update]
          exact ⟨rfl, rfl, by rw [crc16_append, ← hc]; rfl, rfl⟩
    obtain ⟨new, h1, h2, h3, h4⟩ := hstep
    obtain ⟨i1, i2, i3⟩ := crc16_run ops (fun o ho => hops o (by simp [ho])) (used ++ new) _ h3
    simp only [runRaw]
    rw [i1, i2, i3, h1, h2]
    refine ⟨rfl, rfl, ?_⟩
    rw [List.append_assoc, ← h4]
    simp [handed]

/-- **C07.** Reading through the CRC-8 reader, around any reader whatsoever, gives the results of that
reader and leaves it in the same state. The checksum is the remainder of the bytes handed out, as a
polynomial, times x^8 modulo x^8 + x^2 + x + 1. -/
theorem C07_crc8 {σ : Type} [ReadBytes σ] (s : σ) (ops : List RawOp) (hops : Bytewise ops) :
    (runRaw ops (Crc8Reader.new s)).1 = (runRaw ops s).1 ∧
    (runRaw ops (Crc8Reader.new s)).2.inner = (runRaw ops s).2 ∧
    bitsPoly (natToBits 8 (runRaw ops (Crc8Reader.new s)).2.crc.toNat) =
      (bitsPoly (bytesToBits (handed (runRaw ops s).1)) * X ^ 8) %ₘ (X ^ 8 + X ^ 2 + X + 1) := by
  obtain ⟨h1, h2, h3⟩ := crc8_run ops hops [] (Crc8Reader.new s) rfl
  refine ⟨h1, h2, ?_⟩
  have := crc8_poly (handed (runRaw ops s).1)
  rw [← crc8Generator, ← this]
  unfold Crc8Reader.crc
  rw [h3]
  rfl

/-- **C07.** The same for the CRC-16 reader, with x^16 + x^15 + x^2 + 1. -/
theorem C07_crc16 {σ : Type} [ReadBytes σ] (s : σ) (ops : List RawOp) (hops : Bytewise ops) :
    (runRaw ops (Crc16Reader.new s)).1 = (runRaw ops s).1 ∧
    (runRaw ops (Crc16Reader.new s)).2.inner = (runRaw ops s).2 ∧
    bitsPoly (natToBits 16 (runRaw ops (Crc16Reader.new s)).2.crc.toNat) =
      (bitsPoly (bytesToBits (handed (runRaw ops s).1)) * X ^ 16) %ₘ (X ^ 16 + X ^ 15 + X ^ 2 + 1) := by
  obtain ⟨h1, h2, h3⟩ := crc16_run ops hops [] (Crc16Reader.new s) rfl
  refine ⟨h1, h2, ?_⟩
  have := crc16_poly (handed (runRaw ops s).1)
  rw [← crc16Generator, ← this]
  unfold Crc16Reader.crc
  rw [h3]
  rfl

/-- The operations of the example: three bytes, the last one by the other method, and one past the end. -/
example : Bytewise [.readU8, .readU8, .readU8OrEof, .readU8] ∧
    handed (runRaw [.readU8, .readU8, .readU8OrEof, .readU8]
      (Cursor.mk [0x12, 0x34, 0x56] 0)).1 = [0x12, 0x34, 0x56] ∧
    (runRaw [.readU8, .readU8, .readU8OrEof, .readU8]
      (Crc8Reader.new (Cursor.mk [0x12, 0x34, 0x56] 0))).2.crc = 0x7c#8 :=
  ⟨by unfold Bytewise; decide, by decide +kernel, by decide +kernel⟩

/-! ## C08 -/

/-- `a` and `b` have the same length, are different, and differ in at most `n` consecutive bits. -/
def Burst (n : Nat) (a b : List U8) : Prop :=
  a ≠ b ∧ ∃ p u v q : List Bool, bytesToBits a = p ++ u ++ q ∧ bytesToBits b = p ++ v ++ q ∧
    u.length = v.length ∧ u.length ≤ n

/-- **C08.** A burst of at most 8 bits changes the CRC-8. -/
theorem C08_crc8 {a b : List U8} (h : Burst 8 a b) : crc8 a ≠ crc8 b := by
  obtain ⟨hne, p, u, v, q, ha, hb, hl, hn⟩ := h
  intro hc
  refine hne (bytesToBits_inj ?_)
  unfold crc8 at hc
  rw [ha, hb] at hc
  rw [ha, hb, crc_burst _ (by decide) p u v q hn hl.symm hc]

/-- **C08.** A burst of at most 16 bits changes the CRC-16. -/
theorem C08_crc16 {a b : List U8} (h : Burst 16 a b) : crc16 a ≠ crc16 b := by
  obtain ⟨hne, p, u, v, q, ha, hb, hl, hn⟩ := h
  intro hc
  refine hne (bytesToBits_inj ?_)
  unfold crc16 at hc
  rw [ha, hb] at hc
  rw [ha, hb, crc_burst _ (by decide) p u v q hn hl.symm hc]

/-- Reading a frame from `r` consumes exactly the bytes `used` and returns a block. -/
def Accepts (buffer : VecI32) (r : BufferedReader) (used : List U8) : Prop :=
  ∃ b r' rest fault, readNextOrEof buffer r = (.ok (some b), r') ∧
    r.Remaining (used ++ rest) fault ∧ r'.Remaining rest fault

theorem Accepts.frame {buffer : VecI32} {r : BufferedReader} {used : List U8}
    (h : Accepts buffer r used) : ∃ bps f, Frame.WellFormed bps f ∧ used = f.bytes bps := by
  obtain ⟨b, r', rest, fault, h, hr, hr'⟩ := h
  obtain ⟨bps, f, rest', hw, hb, hr'', -⟩ := of_buffered_frame hr h
  obtain ⟨rfl, -⟩ := hr''.unique hr'
  exact ⟨bps, f, hw, List.append_cancel_right hb⟩

/-- **C08.** If one string of bytes is accepted as a frame, then no string that arises from it by a burst
of at most 16 bits is, whatever the readers, the buffers and the bytes that follow. -/
theorem C08_frame {buffer₁ buffer₂ : VecI32} {r₁ r₂ : BufferedReader} {used₁ used₂ : List U8}
    (h : Burst 16 used₁ used₂) (h₁ : Accepts buffer₁ r₁ used₁) : ¬ Accepts buffer₂ r₂ used₂ := by
  intro h₂
  obtain ⟨bps₁, f₁, -, rfl⟩ := h₁.frame
  obtain ⟨bps₂, f₂, -, rfl⟩ := h₂.frame
  apply C08_crc16 h
  unfold Frame.bytes
  rw [crc16_codeword, crc16_codeword]

/-- Reading a frame header from `r` consumes exactly the bytes `used`. -/
def AcceptsHeader (r : BufferedReader) (used : List U8) : Prop :=
  ∃ hd r' rest fault, readFrameHeaderOrEof r = (.ok (some hd), r') ∧
    r.Remaining (used ++ rest) fault ∧ r'.Remaining rest fault

theorem AcceptsHeader.header {r : BufferedReader} {used : List U8} (h : AcceptsHeader r used) :
    ∃ hd : Spec.FrameHeader, hd.WellFormed ∧ used = hd.bytes := by
  obtain ⟨hd, r', rest, fault, h, hr, hr'⟩ := h
  obtain ⟨rest', e1, e2⟩ := Sim.of_ok (simBufferedRd fault).readFrameHeaderOrEof hr h
  obtain ⟨rfl, -⟩ := e2.unique hr'
  have e3 := header_reads ⟨used ++ rest', fault⟩
  rw [e1] at e3
  obtain ⟨-, hh, hw, -, hb⟩ := e3
  exact ⟨hh, hw, List.append_cancel_right hb⟩

/-- **C08.** The same for frame headers and bursts of at most 8 bits. -/
theorem C08_header {r₁ r₂ : BufferedReader} {used₁ used₂ : List U8}
    (h : Burst 8 used₁ used₂) (h₁ : AcceptsHeader r₁ used₁) : ¬ AcceptsHeader r₂ used₂ := by
  intro h₂
  obtain ⟨hd₁, -, rfl⟩ := h₁.header
  obtain ⟨hd₂, -, rfl⟩ := h₂.header
  apply C08_crc8 h
  unfold FrameHeader.bytes
  rw [crc8_codeword, crc8_codeword]

/-- The number of bits in which two byte strings of the same length differ. -/
def differingBits (a b : List U8) : Nat :=
  (List.zipWith (fun x y => x != y) (bytesToBits a) (bytesToBits b)).count true

/-- **C08.** An odd number of changed bits changes the CRC-8 and the CRC-16. -/
theorem C08_odd {a b : List U8} (hl : a.length = b.length) (h : differingBits a b % 2 = 1) :
    crc8 a ≠ crc8 b ∧ crc16 a ≠ crc16 b :=
  ⟨crc_odd _ crc8_even (by simp [hl]) h, crc_odd _ crc16_even (by simp [hl]) h⟩

theorem differingBits_prefix {p xs ys : List Bool} {a b : List U8} (ha : bytesToBits a = p ++ xs)
    (hb : bytesToBits b = p ++ ys) (hn : differingBits a b ≤ 3) : (xorBits xs ys).count true ≤ 3 := by
  unfold differingBits at hn
  rw [ha, hb, List.zipWith_append rfl, List.count_append] at hn
  unfold xorBits
  omega

/-- **C08.** Two different frames of the same length, at most 4096 bytes, that are both accepted differ in
at least four bits, whatever the readers, the buffers and the bytes that follow. -/
theorem C08_frame_distance {buffer₁ buffer₂ : VecI32} {r₁ r₂ : BufferedReader} {used₁ used₂ : List U8}
    (h₁ : Accepts buffer₁ r₁ used₁) (h₂ : Accepts buffer₂ r₂ used₂) (hne : used₁ ≠ used₂)
    (hl : used₁.length = used₂.length) (hs : used₁.length ≤ 4096) :
    4 ≤ differingBits used₁ used₂ := by
  by_contra hlt
  obtain ⟨bps₁, f₁, -, rfl⟩ := h₁.frame
  obtain ⟨bps₂, f₂, -, rfl⟩ := h₂.frame
  have hp : ∀ (bps : Nat) (f : Frame), ∃ t, bytesToBits (f.bytes bps) = syncBits ++ t := by
    intro bps f
    unfold Frame.bytes Frame.contentBytes FrameHeader.bytes
    simp only [List.append_assoc]
    exact header_prefix _ _
  obtain ⟨xs, hx⟩ := hp bps₁ f₁
  obtain ⟨ys, hy⟩ := hp bps₂ f₂
  have e1 := congrArg List.length hx
  have e2 := congrArg List.length hy
  simp only [length_bytesToBits, List.length_append, syncBits, length_natToBits] at e1 e2
  refine crc_three (p := syncBits) (by decide) (0b1000000000000101#16) (by decide)
    (bound := 32766) (fun k hk => crc16_cycle hk) crc16_even (xs := xs) (ys := ys) (by omega) (by omega)
    (fun h => hne (bytesToBits_inj (by rw [hx, hy, h]))) (differingBits_prefix hx hy (by omega)) ?_
  rw [← hx, ← hy]
  show crc16 _ = crc16 _
  unfold Frame.bytes
  rw [crc16_codeword, crc16_codeword]

/-- **C08.** The same for frame headers; those are never too long. -/
theorem C08_header_distance {r₁ r₂ : BufferedReader} {used₁ used₂ : List U8}
    (h₁ : AcceptsHeader r₁ used₁) (h₂ : AcceptsHeader r₂ used₂) (hne : used₁ ≠ used₂)
    (hl : used₁.length = used₂.length) : 4 ≤ differingBits used₁ used₂ := by
  by_contra hlt
  obtain ⟨hd₁, hw₁, rfl⟩ := h₁.header
  obtain ⟨hd₂, -, rfl⟩ := h₂.header
  have hlen := hw₁.length_bytes
  have hp : ∀ hd : Spec.FrameHeader, ∃ t, bytesToBits hd.bytes = syncBits ++ t :=
    fun hd => header_prefix hd _
  obtain ⟨xs, hx⟩ := hp hd₁
  obtain ⟨ys, hy⟩ := hp hd₂
  have e1 := congrArg List.length hx
  have e2 := congrArg List.length hy
  simp only [length_bytesToBits, List.length_append, syncBits, length_natToBits] at e1 e2
  refine crc_three (p := syncBits) (by decide) (0b00000111#8) (by decide)
    (bound := 126) (fun k hk => crc8_cycle hk) crc8_even (xs := xs) (ys := ys) (by omega) (by omega)
    (fun h => hne (bytesToBits_inj (by rw [hx, hy, h]))) (differingBits_prefix hx hy (by omega)) ?_
  rw [← hx, ← hy]
  show crc8 _ = crc8 _
  unfold FrameHeader.bytes
  rw [crc8_codeword, crc8_codeword]

/-- The example frame is accepted, and its last two bytes changed arbitrarily are a burst. -/
theorem exampleFrame_accepted (buffer : VecI32) :
    Accepts buffer (BufferedReader.new (bytewise (exampleFrame.bytes 16))) (exampleFrame.bytes 16) := by
  have hr : (BufferedReader.new (bytewise (exampleFrame.bytes 16))).Remaining
      (exampleFrame.bytes 16 ++ []) none := by
    rw [List.append_nil]; exact bytewise_remaining _
  obtain ⟨r', h1, h2⟩ := buffered_frame exampleFrame_encodes.legal.wellFormed buffer hr
  exact ⟨_, r', [], none, h1, hr, h2⟩

example : Burst 16 (exampleFrame.bytes 16) (exampleFrame.contentBytes 16 ++ [0x12, 0x34]) :=
  ⟨by decide +kernel, bytesToBits (exampleFrame.contentBytes 16),
    natToBits 16 (crc16 (exampleFrame.contentBytes 16)).toNat, bytesToBits [0x12, 0x34], [],
    by rw [List.append_nil]; unfold Frame.bytes; rw [bytesToBits_append, bytesToBits_beBytes_two],
    by rw [List.append_nil, bytesToBits_append], by simp, by simp⟩

/-- The example frame with another padding bit. -/
def paddedFrame : Frame := { exampleFrame with padding := List.replicate 5 false ++ [true] }

/-- Two frames of the same length that are accepted and differ: in four bits. -/
example : Accepts ⟨[], 0⟩ (BufferedReader.new (bytewise (paddedFrame.bytes 16))) (paddedFrame.bytes 16) ∧
    exampleFrame.bytes 16 ≠ paddedFrame.bytes 16 ∧
    (exampleFrame.bytes 16).length = (paddedFrame.bytes 16).length ∧
    (exampleFrame.bytes 16).length ≤ 4096 ∧
    differingBits (exampleFrame.bytes 16) (paddedFrame.bytes 16) = 4 := by
  refine ⟨?_, by decide +kernel, by decide +kernel, by decide +kernel, by decide +kernel⟩
  have hw : paddedFrame.WellFormed 16 :=
    { header := exampleFrame_encodes.legal.wellFormed.header
      sampleSize := exampleFrame_encodes.legal.wellFormed.sampleSize
      count := exampleFrame_encodes.legal.wellFormed.count
      subframes := exampleFrame_encodes.legal.wellFormed.subframes
      padding := by decide
      aligned := by decide +kernel }
  have hr : (BufferedReader.new (bytewise (paddedFrame.bytes 16))).Remaining
      (paddedFrame.bytes 16 ++ []) none := by
    rw [List.append_nil]; exact bytewise_remaining _
  obtain ⟨r', h1, h2⟩ := buffered_frame hw ⟨[], 0⟩ hr
  exact ⟨_, r', [], none, h1, hr, h2⟩

/-! ## C09 -/

/-- **C09.** If a block is returned, then the bytes consumed are a header `h`, the CRC-8 of the header,
data, and the CRC-16 of all that. -/
theorem C09_checked {buffer : VecI32} {r r' : BufferedReader} {bytes : List U8} {fault : Option Nat}
    {b : Block} (hr : r.Remaining bytes fault) (h : readNextOrEof buffer r = (.ok (some b), r')) :
    ∃ (hd : Spec.FrameHeader) (data rest : List U8), hd.WellFormed ∧
      bytes = (hd.fieldBytes ++ [crc8 hd.fieldBytes] ++ data) ++
        beBytes 2 (crc16 (hd.fieldBytes ++ [crc8 hd.fieldBytes] ++ data)).toNat ++ rest ∧
      r'.Remaining rest fault := by
  obtain ⟨bps, f, rest, hw, hb, hr', -⟩ := of_buffered_frame hr h
  exact ⟨f.header, bitsToBytes (f.bodyBits bps), rest, hw.header, hb, hr'⟩

/-- **C09.** A header with another checksum yields an error. -/
theorem C09_header {r : BufferedReader} {fault : Option Nat} {hd : Spec.FrameHeader}
    (hw : hd.WellFormed) {c : U8} (hc : c ≠ crc8 hd.fieldBytes) {rest : List U8}
    (hr : r.Remaining (hd.fieldBytes ++ [c] ++ rest) fault) (buffer : VecI32) :
    (readNextOrEof buffer r).1 = .error (.err (.formatError "frame header CRC mismatch")) := by
  rw [Sim.result ((simBufferedRd fault).readNextOrEof buffer) hr, frame_bad_header hw hc.symm]

/-- **C09.** A frame with another checksum yields an error. -/
theorem C09_frame {r : BufferedReader} {fault : Option Nat} {bps : Nat} {f : Frame}
    (hw : f.WellFormed bps) {c : U16} (hc : c ≠ crc16 (f.contentBytes bps)) {rest : List U8}
    (hr : r.Remaining (f.contentBytes bps ++ beBytes 2 c.toNat ++ rest) fault) (buffer : VecI32) :
    (readNextOrEof buffer r).1 = .error (.err (.formatError "frame CRC mismatch")) := by
  rw [Sim.result ((simBufferedRd fault).readNextOrEof buffer) hr, frame_crc hw, if_neg hc.symm]

example : exampleFrame.WellFormed 16 ∧ (0x1234#16 : U16) ≠ crc16 (exampleFrame.contentBytes 16) ∧
    (BufferedReader.new (bytewise (exampleFrame.contentBytes 16 ++ [0x12, 0x34]))).Remaining
      (exampleFrame.contentBytes 16 ++ beBytes 2 (0x1234#16 : U16).toNat ++ []) none :=
  ⟨exampleFrame_encodes.legal.wellFormed, by decide +kernel, by
    rw [List.append_nil]; exact bytewise_remaining _⟩

example : exampleFrame.header.WellFormed ∧ (0x12#8 : U8) ≠ crc8 exampleFrame.header.fieldBytes :=
  ⟨exampleFrame_encodes.legal.wellFormed.header, by decide +kernel⟩

end Claxon.Props
