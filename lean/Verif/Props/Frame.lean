import Verif.Proof.Zeros
import Verif.Proof.Suffix
import Verif.Proof.Overflow
import Verif.Proof.Encode
import Verif.Proof.Truncate
import Verif.Proof.BitstreamApi
import Verif.Props.Example

/-! # C23, C26, C27, C28, C31, C32, C54, C55: frames -/

namespace Claxon.Props

open Claxon Spec ReadBytes

variable {r r' : BufferedReader} {bytes rest : List U8} {fault : Option Nat} {bps : Nat}

/-! ## C23 -/

/-- The channels of a frame that encodes them. -/
theorem encodes_channels {f : Frame} {channels : List (List Int)} (h : f.Encodes bps channels) :
    f.wrappedChannels = channels := by
  have hb := bits_bounds h.legal.sampleSize
  unfold Frame.wrappedChannels
  rw [← decorrelate_correlate f.header.channels (n := f.header.blockSize.size) (bps := bps) (by omega)
    h.size h.range, ← h.signals]
  congr 1
  apply List.map_congr_left
  intro s hs
  have hl : (f.header.channels.depths bps).length = f.subframes.length := by
    rw [h.legal.count]; cases f.header.channels <;> simp [ChannelField.depths, ChannelField.count]
  obtain ⟨i, hi, rfl⟩ := List.mem_iff_getElem.1 hs
  have := h.legal.subframes ((f.header.channels.depths bps)[i]'(by omega), f.subframes[i]) (by
    rw [List.mem_iff_getElem]
    exact ⟨i, by simp; omega, by simp⟩)
  exact Claxon.Subframe.Legal.wrap32_eq this

/-- **C23.** Every encoding of a block of samples is decoded to these samples, with the right duration,
number of channels and time, and exactly the encoding is consumed. -/
theorem C23_lossless {f : Frame} {channels : List (List Int)} (h : f.Encodes bps channels)
    (buffer : VecI32) (hr : r.Remaining (f.bytes bps ++ rest) fault) :
    ∃ block r', readNextOrEof buffer r = (.ok (some block), r') ∧ r'.Remaining rest fault ∧
      block.Holds f.header.time channels := by
  obtain ⟨r', h1, h2⟩ := buffered_frame h.legal.wellFormed buffer hr
  refine ⟨_, r', h1, h2, ?_⟩
  rw [← encodes_channels h]
  exact blockOf_holds h.legal.wellFormed buffer

/-- The bit depths that a frame can have. -/
def frameDepths : List Nat := [8, 12, 16, 20, 24]

/-- **C23.** For every block of samples, with every channel coding for that number of channels, an encoding
exists. -/
theorem C23_exists {channels : List (List Int)} {n time : Nat} (hbps : bps ∈ frameDepths)
    (field : ChannelField) (hcount : channels.length = field.count)
    (h1 : 1 ≤ n) (hn : n ≤ 65535) (hsize : ∀ c ∈ channels, c.length = n)
    (hrange : ∀ c ∈ channels, ∀ v ∈ c, -2 ^ (bps - 1) ≤ v ∧ v < 2 ^ (bps - 1)) (ht : time < 2 ^ 36) :
    ∃ f : Frame, f.Encodes bps channels ∧ f.header.channels = field ∧ f.header.time = time := by
  obtain ⟨size, hs⟩ : ∃ size : SampleSizeField, size.bits = some bps := by
    simp only [frameDepths, List.mem_cons, List.not_mem_nil, or_false] at hbps
    rcases hbps with rfl | rfl | rfl | rfl | rfl
    · exact ⟨.bits8, rfl⟩
    · exact ⟨.bits12, rfl⟩
    · exact ⟨.bits16, rfl⟩
    · exact ⟨.bits20, rfl⟩
    · exact ⟨.bits24, rfl⟩
  have hpos : 0 < bps := by
    simp only [frameDepths, List.mem_cons, List.not_mem_nil, or_false] at hbps
    omega
  refine ⟨verbatimFrame bps
    { variableBlockSize := true, blockSize := .bits16 ⟨n - 1, by omega⟩, sampleRate := .streaminfo,
      channels := field, sampleSize := size, number := time, numberLength := shortestLength time } channels,
    verbatimFrame_encodes ⟨ht, rfl, by simp⟩ hs hcount ?_ ?_, rfl, rfl⟩
  · intro c hc
    rw [hsize c hc]
    show n = n - 1 + 1
    omega
  · intro c hc v hv
    exact ⟨(hrange c hc v hv).1, (hrange c hc v hv).2, hpos⟩

example : (BufferedReader.new (bytewise (exampleFrame.bytes 16))).Remaining
    (exampleFrame.bytes 16 ++ []) none ∧ exampleFrame.Encodes 16 exampleChannels :=
  ⟨by rw [List.append_nil]; exact bytewise_remaining _, exampleFrame_encodes⟩

/-! ## C26 -/

theorem frame_overflows [FuzzCfg] (buffer : VecI32) (s : Flat) :
    Returns (readNextOrEof buffer s).1 ∨
      (readNextOrEof buffer s).1 = .error (.panic .overflow) ∧ LongZeros (bytesToBits s.bytes) := by
  have h := frame_reads_any buffer s
  generalize readNextOrEof buffer s = x at h ⊢
  rcases x with ⟨e | a, s'⟩
  · cases e with
    | err e => exact .inl (.inr ⟨e, rfl⟩)
    | panic p => exact .inr ⟨congrArg _ h.1, h.2⟩
    | ub => exact .inr ⟨congrArg _ h.1, h.2⟩
    | diverged => exact .inr ⟨congrArg _ h.1, h.2⟩
  · exact .inl (.inl ⟨a, rfl⟩)

theorem frame_returns [FuzzCfg] (buffer : VecI32) (s : Flat) (hs : ¬ LongZeros (bytesToBits s.bytes)) :
    Returns (readNextOrEof buffer s).1 :=
  (frame_overflows buffer s).resolve_right fun h => hs h.2

/-- **C26.** Reading a frame returns, unless there are `2 ^ 32 - 1` zero bits in a row among the bytes to come;
and unless there was an I/O error, a suffix of the bytes is to come, so that this applies to the next call
too. -/
theorem C26_frame [FuzzCfg] (buffer : VecI32) (hr : r.Remaining bytes fault)
    (hz : ¬ LongZeros (bytesToBits bytes)) :
    Returns (readNextOrEof buffer r).1 ∧
    (IsIoError (readNextOrEof buffer r).1 = false →
      ∃ rest, rest <:+ bytes ∧ (readNextOrEof buffer r).2.Remaining rest fault) := by
  have hsim := (simBufferedRd fault).readNextOrEof buffer
  constructor
  · rw [Sim.result hsim hr]
    exact frame_returns buffer _ hz
  · intro hio
    obtain ⟨rest, h1, -, h3⟩ := Sim.remaining hsim ((simSuffix bytes fault).rd.readNextOrEof buffer) hr hio
    exact ⟨rest, h1, h3⟩

theorem runOps_frame [FuzzCfg] (buffer : VecI32) (ops : List Op) (s : BufferedReader) :
    runOps (.frame buffer :: ops) s =
      (readNextOrEof buffer s).1.map .block ::
        (if IsIoError (readNextOrEof buffer s).1 then [] else runOps ops (readNextOrEof buffer s).2) := by
  rw [runOps]
  generalize runOps (σ := BufferedReader) ops = k
  rw [show (Op.frame buffer).run s = (readNextOrEof buffer >>= fun b => pure (Out.block b)) s from rfl,
    Dec.bind_def]
  generalize readNextOrEof buffer s = x
  rcases x with ⟨e | a, s'⟩
  · simp only
    rcases e with e | _ | _ | _ <;> (try cases e) <;> rfl
  · rfl

/-- **C26.** Without a long run of zeros to come, no sequence of frame reads, up to the first I/O error,
panics, whatever the buffers. -/
theorem C26_frames [FuzzCfg] (buffers : List VecI32) (hr : r.Remaining bytes fault)
    (hz : ¬ LongZeros (bytesToBits bytes)) :
    ∀ out ∈ runOps (buffers.map .frame) r, Returns out := by
  induction buffers generalizing r bytes with
  | nil => simp [runOps]
  | cons buffer buffers ih =>
    obtain ⟨h1, h2⟩ := C26_frame buffer hr hz
    rw [List.map_cons, runOps_frame]
    generalize readNextOrEof buffer r = x at h1 h2
    intro out ho
    rcases List.mem_cons.1 ho with rfl | ho
    · rcases h1 with ⟨a, h1⟩ | ⟨e, h1⟩ <;> rw [h1]
      · exact .inl ⟨_, rfl⟩
      · exact .inr ⟨_, rfl⟩
    · by_cases hio : IsIoError x.1 = true
      · rw [if_pos hio] at ho
        simp at ho
      · rw [if_neg hio] at ho
        obtain ⟨rest, h3, h4⟩ := h2 (by simpa using hio)
        exact ih h4 (not_longZeros_suffix hz h3) out ho

/-- **C26.** The same for a single subframe, decoded from the bits of a reader into a buffer as long as the
longest block, for all bit depths that are allowed. -/
theorem C26_subframe {b : Bitstream BufferedReader} {bits : List Bool} (hb : b.Unread bits fault)
    (hz : ¬ LongZeros bits) (hbps : bps ≤ 32) (buffer : List I32) (hbuf : buffer.length ≤ 65535) :
    Returns (decodeSubframe bps buffer b).1 := by
  rcases (triple_subframe hbps buffer (by omega)).buffered_noPanic
    ((simBufferedRd fault).toSimU8.decodeSubframe _ _) hb hz with ⟨a, b', h⟩ | ⟨e, b', h⟩ <;> rw [h]
  · exact .inl ⟨a, rfl⟩
  · exact .inr ⟨e, rfl⟩

example : (BufferedReader.new (bytewise [0xff#8, 0xf8#8, 0x00#8, 0x13#8])).Remaining
    [0xff#8, 0xf8#8, 0x00#8, 0x13#8] none ∧ ¬ LongZeros (bytesToBits [0xff#8, 0xf8#8, 0x00#8, 0x13#8]) :=
  ⟨bytewise_remaining _, not_longZeros (by decide)⟩

/-- **C26.** In particular, no stream of less than 512 MiB makes the decoder panic. -/
theorem C26_small (buffers : List VecI32) (hr : r.Remaining bytes fault) (hlen : bytes.length < 2 ^ 29) :
    ∀ out ∈ runOps (buffers.map .frame) r, Returns out :=
  C26_frames buffers hr (not_longZeros hlen)

/-- **C26.** A stream without 2 ^ 29 - 1 zero bytes in a row, of any length, does not make it panic either. -/
theorem C26_bytes (buffers : List VecI32) (hr : r.Remaining bytes fault)
    (hz : ¬ ∃ pre n post, 2 ^ 29 - 1 ≤ n ∧ bytes = pre ++ (List.replicate n 0#8 ++ post)) :
    ∀ out ∈ runOps (buffers.map .frame) r, Returns out :=
  C26_frames buffers hr fun h => hz (zeroBytes_of_longZeros h)

example : ∀ out ∈ runOps ([VecI32.empty, VecI32.empty].map .frame)
    (BufferedReader.new (bytewise (exampleFrame.bytes 16 ++ [0xff#8, 0xf8#8]))), Returns out :=
  C26_small _ (bytewise_remaining _) (Nat.lt_of_le_of_lt (show _ ≤ 100 by decide +kernel) (by decide))

/-- A stream of any length of which no byte is zero. -/
example (n : Nat) : ¬ ∃ pre m post, 2 ^ 29 - 1 ≤ m ∧
    List.replicate n 0x13#8 = pre ++ (List.replicate m 0#8 ++ post) := by
  rintro ⟨pre, m, post, hm, h⟩
  have : 0#8 ∈ List.replicate n 0x13#8 := by
    rw [h]
    exact List.mem_append_right _ (List.mem_append_left _ (List.mem_replicate.2 ⟨by omega, rfl⟩))
  exact absurd (List.eq_of_mem_replicate this) (by decide)

/-! ## C27 -/

/-- **C27**, which is false: there is a stream, of a little more than 512 MiB, on which reading a frame
panics with an arithmetic overflow in a checked build. -/
theorem C27_false : ¬ ∀ (r : BufferedReader) (bytes : List U8) (fault : Option Nat) (buffer : VecI32),
    r.Remaining bytes fault → (readNextOrEof buffer r).1 ≠ .error (.panic .overflow) := by
  intro h
  have hr := bytewise_remaining (hugeFrame (2 ^ 29))
  apply h _ _ _ .empty hr
  rw [Sim.result ((simBufferedRd none).readNextOrEof .empty) hr]
  exact hugeFrame_panics (Nat.le_refl _) _ _

/-- The size of the stream of `C27_false`. -/
theorem hugeFrame_length (n : Nat) : (hugeFrame n).length = n + 8 := by
  unfold hugeFrame
  simp only [List.length_append, List.length_replicate]
  rw [show hugeHeader.bytes.length = 6 by decide +kernel]
  simp only [List.length_cons, List.length_nil]
  omega

/-- **C27**, what holds: on any stream, the call returns, or it panics with an arithmetic overflow, for which there must
be `2 ^ 32 - 1` zero bits in a row. There is no other panic, and no undefined behaviour. -/
theorem C27_partial [FuzzCfg] (buffer : VecI32) (hr : r.Remaining bytes fault) :
    Returns (readNextOrEof buffer r).1 ∨
      (readNextOrEof buffer r).1 = .error (.panic .overflow) ∧ LongZeros (bytesToBits bytes) := by
  rw [Sim.result ((simBufferedRd fault).readNextOrEof buffer) hr]
  exact frame_overflows buffer _

/-- **C27**, what holds: the same for any sequence of frame reads, up to the first I/O error, also after a panic. -/
theorem C27_frames_partial [FuzzCfg] (buffers : List VecI32) (hr : r.Remaining bytes fault) :
    ∀ out ∈ runOps (buffers.map .frame) r,
      Returns out ∨ out = .error (.panic .overflow) ∧ LongZeros (bytesToBits bytes) := by
  induction buffers generalizing r bytes with
  | nil => simp [runOps]
  | cons buffer buffers ih =>
    have h1 := C27_partial buffer hr
    have h2 : IsIoError (readNextOrEof buffer r).1 = false →
        ∃ rest, rest <:+ bytes ∧ (readNextOrEof buffer r).2.Remaining rest fault := fun hio =>
      (Sim.remaining ((simBufferedRd fault).readNextOrEof buffer)
        ((simSuffix bytes fault).rd.readNextOrEof buffer) hr hio).imp fun rest h => ⟨h.1, h.2.2⟩
    rw [List.map_cons, runOps_frame]
    generalize readNextOrEof buffer r = x at h1 h2
    intro out ho
    rcases List.mem_cons.1 ho with rfl | ho
    · rcases h1 with (⟨a, h1⟩ | ⟨e, h1⟩) | ⟨h1, hz⟩ <;> rw [h1]
      · exact .inl (.inl ⟨_, rfl⟩)
      · exact .inl (.inr ⟨_, rfl⟩)
      · exact .inr ⟨rfl, hz⟩
    · by_cases hio : IsIoError x.1 = true
      · rw [if_pos hio] at ho
        simp at ho
      · rw [if_neg hio] at ho
        obtain ⟨rest, ⟨pre, rfl⟩, h4⟩ := h2 (by simpa using hio)
        refine (ih h4 out ho).imp_right fun h => ⟨h.1, ?_⟩
        rw [bytesToBits_append]
        exact h.2.append_left _

/-! ## C28 -/

/-- **C28.** What a call returns, apart from the capacity of the buffer, and the state in which it leaves the
reader, do not depend on the buffer that is passed in. -/
theorem C28_independent [FuzzCfg] {σ : Type} [ReadBytes σ] (buffer₁ buffer₂ : VecI32) (s : σ) :
    (readNextOrEof buffer₁ s).2 = (readNextOrEof buffer₂ s).2 ∧
    (readNextOrEof buffer₁ s).1.map (Option.map Block.contents) =
      (readNextOrEof buffer₂ s).1.map (Option.map Block.contents) :=
  readNextOrEof_indep buffer₁ buffer₂ s

/-! ## C31 -/

/-- A frame that is cut off after at least two bytes, or by an I/O error. -/
theorem cut_flat {f : Frame} (hw : f.WellFormed bps) (buffer : VecI32) {pre ys : List U8}
    (h2 : 2 ≤ pre.length) (hy : ys ≠ []) (hpre : f.bytes bps = pre ++ ys) :
    (readNextOrEof buffer (⟨pre, fault⟩ : Flat)).1 = .error (Flat.endFail fault) := by
  have h := frame_ext (cut := fault) (fault := none) (ys := ys) pre h2 buffer
  have hf := reads_frame hw buffer [] none
  rw [List.append_nil, hpre] at hf
  rw [hf] at h
  rcases h with ⟨-, -, h⟩ | ⟨e, h1, h2, -⟩
  · simp only [Flat.mk.injEq] at h
    exact absurd (List.append_eq_nil_iff.1 h.1.symm).2 hy
  · rw [h1, h2]

/-- **C31**, which is false: a stream that ends after the first byte of a frame is reported as a clean end of
the stream. -/
theorem C31_false : ¬ ∀ (f : Frame) (bps : Nat) (pre ys : List U8) (r : BufferedReader) (buffer : VecI32),
    f.Legal bps → f.bytes bps = pre ++ ys → pre ≠ [] → ys ≠ [] → r.Remaining pre none →
    (readNextOrEof buffer r).1 = .error (.err (.ioError .unexpectedEof)) := by
  intro h
  have h1 := h exampleFrame 16 [0xff#8] (exampleFrame.bytes 16).tail _ .empty exampleFrame_encodes.legal
    (by decide +kernel) (by simp) (by decide +kernel) (bytewise_remaining _)
  rw [Sim.result ((simBufferedRd none).readNextOrEof .empty) (bytewise_remaining _)] at h1
  exact absurd h1 (by rw [readNextOrEof_flat]; intro h; cases h)

/-- **C31**, what holds: a stream that ends in the middle of a frame, after at least two bytes of it, is
reported as an unexpected end of file. -/
theorem C31_partial {f : Frame} (hw : f.WellFormed bps) (buffer : VecI32) {pre ys : List U8}
    (h2 : 2 ≤ pre.length) (hy : ys ≠ []) (hpre : f.bytes bps = pre ++ ys) (hr : r.Remaining pre none) :
    (readNextOrEof buffer r).1 = .error (.err (.ioError .unexpectedEof)) := by
  rw [Sim.result ((simBufferedRd none).readNextOrEof buffer) hr]
  exact cut_flat hw buffer h2 hy hpre

/-- **C31.** If an I/O error cuts off the frame, wherever it is, this error is reported. -/
theorem C31_fault {f : Frame} {code : Nat} (hw : f.WellFormed bps) (buffer : VecI32) {pre ys : List U8}
    (hy : ys ≠ []) (hpre : f.bytes bps = pre ++ ys) (hr : r.Remaining pre (some code)) :
    (readNextOrEof buffer r).1 = .error (.err (.ioError (.inner code))) := by
  rw [Sim.result ((simBufferedRd (some code)).readNextOrEof buffer) hr]
  rcases Nat.lt_or_ge pre.length 2 with h | h
  · rw [readNextOrEof_flat]
    match pre, h with
    | [], _ => rfl
    | [a], _ => rfl
  · exact cut_flat hw buffer h hy hpre

/-- **C31.** Wherever a stream ends in the middle of a frame, no block is returned. -/
theorem C31_noBlock {f : Frame} (hw : f.WellFormed bps) (buffer : VecI32) {pre ys : List U8} {b : Block}
    (hy : ys ≠ []) (hpre : f.bytes bps = pre ++ ys) (hr : r.Remaining pre fault) :
    (readNextOrEof buffer r).1 ≠ .ok (some b) := by
  rcases Nat.lt_or_ge pre.length 2 with h | h
  · intro hb
    obtain ⟨bps', f', rest', -, hb', -⟩ := of_buffered_frame hr (Prod.ext hb rfl)
    have := congrArg List.length hb'
    have h4 : 4 ≤ (f'.bytes bps').length := by
      simp [Frame.bytes, Frame.contentBytes, FrameHeader.bytes, FrameHeader.fieldBytes]
    rw [List.length_append] at this
    omega
  · rw [Sim.result ((simBufferedRd fault).readNextOrEof buffer) hr, cut_flat hw buffer h hy hpre]
    simp

example : exampleFrame.bytes 16 = (exampleFrame.bytes 16).take 7 ++ (exampleFrame.bytes 16).drop 7 ∧
    2 ≤ ((exampleFrame.bytes 16).take 7).length ∧ (exampleFrame.bytes 16).drop 7 ≠ [] :=
  ⟨(List.take_append_drop ..).symm, by decide +kernel, by decide +kernel⟩

/-! ## C32 -/

/-- **C32.** If a block is returned, it was decoded from a part of the stream at its beginning; whatever
follows this part, in whatever stream, the block and the position where reading resumes are the same. The
part ends with the checksum of what is before it. -/
theorem C32_local {block : Block} {buffer : VecI32} (hr : r.Remaining bytes fault)
    (h : readNextOrEof buffer r = (.ok (some block), r')) :
    ∃ content rest : List U8, bytes = content ++ beBytes 2 (crc16 content).toNat ++ rest ∧
      r'.Remaining rest fault ∧
      ∀ (q : BufferedReader) (rest' : List U8) (fault' : Option Nat),
        q.Remaining (content ++ beBytes 2 (crc16 content).toNat ++ rest') fault' →
        ∃ q', readNextOrEof buffer q = (.ok (some block), q') ∧ q'.Remaining rest' fault' := by
  obtain ⟨bps, f, rest, hw, hb, hrest, rfl⟩ := of_buffered_frame hr h
  exact ⟨f.contentBytes bps, rest, hb, hrest, fun q rest' fault' hq => buffered_frame hw buffer hq⟩

/-- **C32.** More generally, if at least two bytes are to come and the outcome is anything but the error at
the end of the stream, then it is the same if the stream goes on. -/
theorem C32_prefix {buffer : VecI32} (hr : r.Remaining bytes fault) (h2 : 2 ≤ bytes.length)
    (hio : IsIoError (readNextOrEof buffer r).1 = false) {q : BufferedReader} {more : List U8}
    {fault' : Option Nat} (hq : q.Remaining (bytes ++ more) fault') :
    (readNextOrEof buffer q).1 = (readNextOrEof buffer r).1 ∧
    ∃ rest, (readNextOrEof buffer r).2.Remaining rest fault ∧
      (readNextOrEof buffer q).2.Remaining (rest ++ more) fault' := by
  have hsim := (simBufferedRd fault).readNextOrEof buffer
  have hsim' := (simBufferedRd fault').readNextOrEof buffer
  obtain ⟨rest, -, h3, h4⟩ := Sim.remaining hsim ((simSuffix bytes fault).rd.readNextOrEof buffer) hr hio
  have hext := frame_ext (cut := fault) (fault := fault') (ys := more) bytes h2 buffer
  rw [h3] at hext
  have hres := Sim.result hsim' hq
  rcases hext with ⟨h5, -, h6⟩ | ⟨e, h5, h6, -⟩
  · simp only at h5
    rw [← h5] at hres
    have hio' : IsIoError (readNextOrEof buffer q).1 = false := by rw [hres]; exact hio
    obtain ⟨rest', -, h7, h8⟩ :=
      Sim.remaining hsim' ((simSuffix _ fault').rd.readNextOrEof buffer) hq hio'
    rw [h7] at h6
    simp only [Flat.mk.injEq, and_true] at h6
    subst h6
    exact ⟨hres, rest, h4, h8⟩
  · simp only at h5
    rw [h5, h6] at hio
    cases fault <;> simp [IsIoError, Flat.endFail] at hio

/-- The example frame, followed by anything: the outcome is the same. -/
example : ∃ (b : Block), ∀ more : List U8,
    (readNextOrEof .empty (BufferedReader.new (bytewise (exampleFrame.bytes 16 ++ more)))).1 = .ok (some b) := by
  obtain ⟨b, r', h, -⟩ := C23_lossless exampleFrame_encodes .empty (rest := [])
    (by rw [List.append_nil]; exact bytewise_remaining (exampleFrame.bytes 16))
  refine ⟨b, fun more => ?_⟩
  rw [(C32_prefix (bytewise_remaining _) (by decide +kernel) (by rw [h]; rfl) (bytewise_remaining _)).1, h]

/-! ## C54 -/

/-- A frame, and the samples that it encodes. -/
structure Encoded where
  bps : Nat
  frame : Frame
  channels : List (List Int)
  encodes : frame.Encodes bps channels

/-- The bytes of a sequence of frames. -/
def Encoded.stream (es : List Encoded) : List U8 := es.flatMap fun e => e.frame.bytes e.bps

/-- **C54.** Reading frames repeatedly, with any buffers, from the concatenation of any frames returns their
blocks in order, and then `None` as often as one calls. -/
theorem C54_sequence (es : List Encoded) (buffers more : List VecI32)
    (hl : buffers.length = es.length) (hr : r.Remaining (Encoded.stream es) none) :
    ∃ blocks : List Block,
      runOps ((buffers ++ more).map .frame) r =
        blocks.map (fun b => .ok (.block (some b))) ++ more.map (fun _ => .ok (.block none)) ∧
      List.Forall₂ (fun e b => b.Holds e.frame.header.time e.channels) es blocks := by
  induction es generalizing r buffers with
  | nil =>
    obtain rfl : buffers = [] := List.eq_nil_of_length_eq_zero hl
    refine ⟨[], ?_, .nil⟩
    rw [List.nil_append, List.map_nil, List.nil_append]
    induction more generalizing r with
    | nil => rfl
    | cons buffer more ih =>
      have hflat : readNextOrEof buffer (⟨[], none⟩ : Flat) = (.ok none, ⟨[], none⟩) := by
        rw [readNextOrEof_flat]; rfl
      obtain ⟨r', h1, h2⟩ := Sim.ok ((simBufferedRd none).readNextOrEof buffer) hr hflat
      rw [List.map_cons, runOps_frame, h1]
      simp only [IsIoError, Bool.false_eq_true, if_false]
      rw [ih h2]
      rfl
  | cons e es ih =>
    match buffers, hl with
    | buffer :: buffers, hl =>
      obtain ⟨block, r', h1, h2, h3⟩ := C23_lossless e.encodes buffer (rest := Encoded.stream es) hr
      obtain ⟨blocks, h4, h5⟩ := ih buffers (by simpa using hl) h2
      refine ⟨block :: blocks, ?_, .cons h3 h5⟩
      rw [List.cons_append, List.map_cons, runOps_frame, h1]
      simp only [IsIoError, Bool.false_eq_true, if_false]
      rw [h4]
      rfl

example : ∃ es : List Encoded, es.length = 2 ∧
    (BufferedReader.new (bytewise (Encoded.stream es))).Remaining (Encoded.stream es) none :=
  ⟨[⟨16, _, _, exampleFrame_encodes⟩, ⟨16, _, _, exampleFrame_encodes⟩], rfl, bytewise_remaining _⟩

/-! ## C55 -/

/-- A frame with 8 bits per sample, with a sample that does not fit. -/
def loudFrame : Frame where
  header :=
    { variableBlockSize := false, blockSize := .bits8 0, sampleRate := .streaminfo
      channels := .independent 0, sampleSize := .bits8, number := 0, numberLength := 0 }
  subframes := [⟨.fixed [] ⟨.rice, 0, [⟨8, [1000]⟩]⟩, 0⟩]
  padding := List.replicate 6 false

theorem loudFrame_wellFormed : loudFrame.WellFormed 8 where
  header := ⟨.inl (by unfold CodedNumberOk; decide), by decide⟩
  sampleSize := rfl
  count := rfl
  subframes := by
    intro p hp
    have : p = (8, ⟨.fixed [] ⟨.rice, 0, [⟨8, [1000]⟩]⟩, 0⟩) := by
      simpa [loudFrame, ChannelField.depths] using hp
    subst this
    exact ⟨by decide, by decide, by decide,
      ⟨by decide, by decide, by decide, by decide, by decide, by decide⟩⟩
  padding := by decide
  aligned := by decide +kernel

/-- **C55**, which is false: a frame with 8 bits per sample, from which the sample 1000 is decoded. -/
theorem C55_false : ¬ ∀ (r r' : BufferedReader) (fault : Option Nat) (buffer : VecI32) (bps : Nat)
    (f : Frame) (rest : List U8) (block : Block) (channels : List (List Int)) (time : Nat),
    f.WellFormed bps → r.Remaining (f.bytes bps ++ rest) fault →
    readNextOrEof buffer r = (.ok (some block), r') → block.Holds time channels →
    ∀ c ∈ channels, ∀ v ∈ c, FitsIn bps v := by
  intro h
  have hr : (BufferedReader.new (bytewise (loudFrame.bytes 8))).Remaining (loudFrame.bytes 8 ++ []) none := by
    rw [List.append_nil]; exact bytewise_remaining _
  obtain ⟨r', h1, -⟩ := buffered_frame loudFrame_wellFormed .empty hr
  have := h _ _ _ _ _ _ _ _ _ _ loudFrame_wellFormed hr h1 (blockOf_holds loudFrame_wellFormed .empty)
    [1000] (by decide) 1000 (by decide)
  exact absurd this (by decide)

/-- The samples of a subframe are stored as they are, or they are all the same. -/
def Unpredicted (s : Subframe) : Prop := (∃ v, s.coding = .constant v) ∨ ∃ vs, s.coding = .verbatim vs

theorem fits_mul {k w : Nat} {v : Int} (hw : w < k) (h : FitsIn (k - w) v) : FitsIn k (v * 2 ^ w) := by
  obtain ⟨h1, h2, h3⟩ := h
  have e : (2 : Int) ^ (k - 1) = 2 ^ (k - w - 1) * 2 ^ w := by rw [← pow_add]; congr 1; omega
  have hp : (0 : Int) < 2 ^ w := by positivity
  refine ⟨?_, ?_, by omega⟩
  · rw [e, ← neg_mul]
    exact mul_le_mul_of_nonneg_right h1 hp.le
  · rw [e]
    exact mul_lt_mul_of_pos_right h2 hp

theorem unpredicted_fits {s : Subframe} {n : Nat} (hb : bps ≤ 32) (hw : s.WellFormed bps n)
    (hu : Unpredicted s) : ∀ v ∈ s.samplesWith .wrap32 n, FitsIn bps v := by
  obtain ⟨h1, h2⟩ := hw
  have key : ∀ v ∈ s.coding.samplesWith .wrap32 n, FitsIn (bps - s.wasted) v := by
    rcases hu with ⟨w, hc⟩ | ⟨vs, hc⟩
    · rw [hc] at h2 ⊢
      intro v hv
      rw [List.eq_of_mem_replicate hv]
      exact h2
    · rw [hc] at h2 ⊢
      exact h2.2
  intro v hv
  obtain ⟨w, hw', rfl⟩ := List.mem_map.1 hv
  have h3 := fits_mul h1 (key w hw')
  have h4 := FitsIn.mono h3 hb
  show FitsIn bps (Int.bmod (w * 2 ^ s.wasted) (2 ^ 32))
  have : Int.bmod (w * 2 ^ s.wasted) (2 ^ 32) = w * 2 ^ s.wasted := by
    obtain ⟨h5, h6, -⟩ := h4
    apply Int.bmod_eq_of_le
    · simpa using h5
    · simpa using h6
  rw [this]
  exact h3

/-- The channel with number `c` is in the subframe with that number as it is, not as a difference. -/
def StoredAsIs : ChannelField → Nat → Prop
  | .independent _, _ => True
  | .leftSide, c => c = 0
  | .rightSide, c => c = 1
  | .midSide, _ => False

/-- The subframe with number `c` has samples of as many bits as the channel field says. -/
theorem depth_subframe {f : Frame} (hw : f.WellFormed bps) {c : Nat} {s : Subframe} (hs : f.subframes[c]? = some s) :
    ∃ d, (f.header.channels.depths bps)[c]? = some d ∧ s.WellFormed d f.header.blockSize.size := by
  obtain ⟨hi, rfl⟩ := List.getElem?_eq_some_iff.1 hs
  have hd : (f.header.channels.depths bps).length = f.subframes.length := by
    rw [hw.count]; cases f.header.channels <;> simp [ChannelField.depths, ChannelField.count]
  exact ⟨_, List.getElem?_eq_getElem (by omega), hw.subframes ((f.header.channels.depths bps)[c]'(by omega),
    f.subframes[c]) (by rw [List.mem_iff_getElem]; exact ⟨c, by simp; omega, by simp⟩)⟩

/-- What `channel` returns is what the frame denotes. -/
theorem channel_frame {f : Frame} (hw : f.WellFormed bps) (hr : r.Remaining (f.bytes bps ++ rest) fault)
    {buffer : VecI32} {block : Block} (h : readNextOrEof buffer r = (.ok (some block), r')) {c : Nat}
    (hc : c < block.channels) :
    ∃ xs, block.channel c = .ok xs ∧ f.wrappedChannels[c]? = some (xs.map BitVec.toInt) := by
  obtain ⟨r'', h1, -⟩ := buffered_frame hw buffer hr
  rw [h1] at h
  simp only [Prod.mk.injEq, Except.ok.injEq, Option.some.injEq] at h
  obtain ⟨rfl, rfl⟩ := h
  have hh := blockOf_holds hw buffer
  have hlen : c < f.wrappedChannels.length := by rw [← hh.count]; exact hc
  obtain ⟨xs, h2, h3⟩ := hh.channel c hlen
  exact ⟨xs, h2, by rw [List.getElem?_eq_getElem hlen, h3]⟩

/-- **C55**, what holds: the samples of a channel fit if they are not predicted and not stored as a difference; and for
every frame that an encoder makes of samples that fit, by C23. -/
theorem C55_partial {f : Frame} (hw : f.WellFormed bps) (hr : r.Remaining (f.bytes bps ++ rest) fault)
    {buffer : VecI32} {block : Block} (h : readNextOrEof buffer r = (.ok (some block), r')) {c : Nat} {s : Subframe}
    (hs : f.subframes[c]? = some s) (hc : StoredAsIs f.header.channels c) (hu : Unpredicted s)
    (hcc : c < block.channels) : ∃ xs, block.channel c = .ok xs ∧ ∀ x ∈ xs, FitsIn bps x.toInt := by
  obtain ⟨xs, h1, h2⟩ := channel_frame hw hr h hcc
  refine ⟨xs, h1, fun x hx => ?_⟩
  obtain ⟨d, hd, hws⟩ := depth_subframe hw hs
  have hb := bits_bounds hw.sampleSize
  have hx' : x.toInt ∈ xs.map BitVec.toInt := List.mem_map.2 ⟨x, hx, rfl⟩
  have hsub : f.wrappedChannels[c]? = some (s.samplesWith .wrap32 f.header.blockSize.size) ∧ d = bps := by
    unfold Frame.wrappedChannels
    have hcount := hw.count
    cases hch : f.header.channels <;> rw [hch] at hc hcount hd
    case independent n =>
      refine ⟨by simp [ChannelField.decorrelate, hs], ?_⟩
      simp only [ChannelField.depths, List.getElem?_replicate] at hd
      split at hd <;> simp_all
    case midSide => exact hc.elim
    all_goals
      obtain ⟨s0, s1, he⟩ : ∃ s0 s1, f.subframes = [s0, s1] := List.length_eq_two.1 hcount
      obtain rfl : c = _ := hc
      rw [he] at hs ⊢
      simp_all [ChannelField.decorrelate, ChannelField.depths]
  obtain ⟨h3, rfl⟩ := hsub
  rw [h2, Option.some.injEq] at h3
  rw [h3] at hx'
  exact unpredicted_fits (by omega) hws hu _ hx'

/-- **C55**, what holds: without prediction, whatever the channel coding, the samples have at most two bits too many. -/
theorem C55_difference_partial {f : Frame} (hw : f.WellFormed bps) (hr : r.Remaining (f.bytes bps ++ rest) fault)
    {buffer : VecI32} {block : Block} (h : readNextOrEof buffer r = (.ok (some block), r'))
    (hu : ∀ s ∈ f.subframes, Unpredicted s) {c : Nat} (hcc : c < block.channels) :
    ∃ xs, block.channel c = .ok xs ∧ ∀ x ∈ xs, FitsIn (bps + 2) x.toInt := by
  obtain ⟨xs, h1, h2⟩ := channel_frame hw hr h hcc
  refine ⟨xs, h1, fun x hx => ?_⟩
  have hb := bits_bounds hw.sampleSize
  have hx' : x.toInt ∈ xs.map BitVec.toInt := List.mem_map.2 ⟨x, hx, rfl⟩
  generalize x.toInt = v at hx'
  clear hx h1
  have hfits : ∀ (i : Nat) s, f.subframes[i]? = some s → ∃ d, (f.header.channels.depths bps)[i]? = some d ∧
      (d ≤ bps + 1 → ∀ w ∈ s.samplesWith .wrap32 f.header.blockSize.size, FitsIn d w) := by
    intro i s hs
    obtain ⟨d, hd, hws⟩ := depth_subframe hw hs
    exact ⟨d, hd, fun hd => unpredicted_fits (by omega) hws (hu s (List.mem_of_getElem? hs))⟩
  have hwrap : ∀ w : Int, FitsIn (bps + 2) w → w.bmod (2 ^ 32) = w := by
    intro w hw
    obtain ⟨h5, h6, -⟩ := FitsIn.mono hw (show bps + 2 ≤ 32 by omega)
    apply Int.bmod_eq_of_le
    · simpa using h5
    · simpa using h6
  have hpow1 : (2 : Int) ^ (bps + 2 - 1) = 4 * 2 ^ (bps - 1) := by
    rw [show bps + 2 - 1 = (bps - 1) + 2 by omega, pow_add]; ring
  have hpow2 : (2 : Int) ^ (bps + 1 - 1) = 2 * 2 ^ (bps - 1) := by
    rw [show bps + 1 - 1 = (bps - 1) + 1 by omega, pow_add]; ring
  have hwide : ∀ w : Int, FitsIn (bps + 2) w ↔ -(4 * 2 ^ (bps - 1)) ≤ w ∧ w < 4 * 2 ^ (bps - 1) := by
    intro w
    rw [FitsIn, hpow1]
    exact ⟨fun h => ⟨h.1, h.2.1⟩, fun h => ⟨h.1, h.2, by omega⟩⟩
  have hside : ∀ w : Int, FitsIn (bps + 1) w → -(2 * 2 ^ (bps - 1)) ≤ w ∧ w < 2 * 2 ^ (bps - 1) := by
    intro w hw
    rw [FitsIn, hpow2] at hw
    exact ⟨hw.1, hw.2.1⟩
  have hpos : (0 : Int) < 2 ^ (bps - 1) := by positivity
  have hplain : ∀ w : Int, FitsIn bps w → -(2 ^ (bps - 1)) ≤ w ∧ w < 2 ^ (bps - 1) := fun w hw => ⟨hw.1, hw.2.1⟩
  have hwrapped : ∀ w : Int, -(4 * 2 ^ (bps - 1)) ≤ w ∧ w < 4 * 2 ^ (bps - 1) → Arith.wrap32.wrap w = w :=
    fun w h => hwrap w ((hwide w).2 h)
  unfold Frame.wrappedChannels at h2
  have hcount := hw.count
  rw [hwide]
  cases hch : f.header.channels <;> rw [hch] at hcount hfits h2
  case independent n =>
    simp only [ChannelField.decorrelate, List.getElem?_map] at h2
    obtain ⟨s, hs, he⟩ := Option.map_eq_some_iff.1 h2
    obtain ⟨d, hd, h3⟩ := hfits c s hs
    simp only [ChannelField.depths, List.getElem?_replicate] at hd
    split at hd <;> simp only [Option.some.injEq, reduceCtorEq] at hd
    subst hd
    have := hplain _ (h3 (by omega) v (he ▸ hx'))
    omega
  all_goals
    obtain ⟨s0, s1, he⟩ : ∃ s0 s1, f.subframes = [s0, s1] := List.length_eq_two.1 hcount
    rw [he] at h2 hfits
    obtain ⟨d0, hd0, h3⟩ := hfits 0 s0 rfl
    obtain ⟨d1, hd1, h4⟩ := hfits 1 s1 rfl
    simp only [ChannelField.depths, List.getElem?_cons_zero, List.getElem?_cons_succ, Option.some.injEq] at hd0 hd1
    subst hd0 hd1
    replace h3 := h3 (by omega)
    replace h4 := h4 (by omega)
    simp only [ChannelField.decorrelate, List.map_cons, List.map_nil] at h2
    match c, h2 with
    | 0, h2 =>
      simp only [List.getElem?_cons_zero, Option.some.injEq] at h2
      rw [← h2] at hx'
      first
      | have := hplain _ (h3 v hx')
        omega
      | obtain ⟨x, hx, y, hy, rfl⟩ := mem_zipWith hx'
        first
        | have h5 := hplain _ (h3 x hx)
          have h6 := hside _ (h4 y hy)
          rw [hwrapped _ (by omega)]
          omega
        | have h5 := hside _ (h3 x hx)
          have h6 := hplain _ (h4 y hy)
          rw [hwrapped _ (by omega)]
          omega
    | 1, h2 =>
      simp only [List.getElem?_cons_zero, List.getElem?_cons_succ, Option.some.injEq] at h2
      rw [← h2] at hx'
      first
      | have := hplain _ (h4 v hx')
        omega
      | obtain ⟨x, hx, y, hy, rfl⟩ := mem_zipWith hx'
        have h5 := hplain _ (h3 x hx)
        have h6 := hside _ (h4 y hy)
        rw [hwrapped _ (by omega)]
        omega
    | _ + 2, h2 => simp at h2

example : ∃ f : Frame, f.Encodes 8 [[1, -2, 3], [4, 5, -6]] ∧ f.header.channels = .independent 1 ∧
    ∀ s ∈ f.subframes, Unpredicted s := by
  refine ⟨verbatimFrame 8
    { variableBlockSize := true, blockSize := .bits8 2, sampleRate := .streaminfo,
      channels := .independent 1, sampleSize := .bits8, number := 7, numberLength := 0 } _,
    verbatimFrame_encodes ⟨by decide, by decide, by decide⟩ rfl rfl (by decide) (by decide), rfl, ?_⟩
  intro s hs
  obtain ⟨vs, -, rfl⟩ := List.mem_map.1 hs
  exact .inr ⟨vs, rfl⟩

example : ∃ f : Frame, f.Encodes 8 [[100, -2, 3], [-100, 5, -6]] ∧ StoredAsIs f.header.channels 0 ∧
    ¬ StoredAsIs f.header.channels 1 ∧ ∀ s ∈ f.subframes, Unpredicted s := by
  refine ⟨verbatimFrame 8
    { variableBlockSize := true, blockSize := .bits8 2, sampleRate := .streaminfo,
      channels := .leftSide, sampleSize := .bits8, number := 7, numberLength := 0 } _,
    verbatimFrame_encodes ⟨by decide, by decide, by decide⟩ rfl rfl (by decide) (by decide), rfl,
    (fun h => absurd (show (1 : Nat) = 0 from h) (by decide)), ?_⟩
  intro s hs
  obtain ⟨vs, -, rfl⟩ := List.mem_map.1 hs
  exact .inr ⟨vs, rfl⟩

end Claxon.Props
