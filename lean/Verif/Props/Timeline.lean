import Verif.Spec.Timeline
import Verif.Proof.ExamplesFile
import Verif.Props.Encoder

/-! # C74: where blocks are in a stream

`Block::time()` is documented as the sample number of the first sample of the block. For the last block of a stream with
a fixed block size, if it is shorter than the others, it is a different number. -/

namespace Claxon.Props

open Claxon Spec ReadBytes

variable {r : BufferedReader} {rest : List U8} {fault : Option Nat}

theorem Encoded.duration {e : Encoded} {b : Block} {time : Nat} (h : b.Holds time e.channels) :
    b.duration = e.frame.header.blockSize.size := by
  have hc := e.encodes.count
  have := count_bounds e.frame.header.channels
  obtain ⟨c, cs, hcs⟩ : ∃ c cs, e.channels = c :: cs := by
    cases h : e.channels with
    | nil => rw [h] at hc; simp at hc; omega
    | cons c cs => exact ⟨c, cs, rfl⟩
  rw [← h.duration c (by simp [hcs]), e.encodes.size c (by simp [hcs])]

/-- The blocks that are read from a sequence of frames have the times and durations of their headers. -/
theorem reads_headers {es : List Encoded} {buffer buffer' : VecI32} {blocks : List Block} {r' : BufferedReader}
    (hr : r.Remaining (Encoded.stream es ++ rest) fault) (h : ReadsBlocks r buffer blocks r' buffer')
    (hl : blocks.length ≤ es.length) :
    blocks.map (fun b => (b.time, b.duration)) =
      (es.map fun e => (e.frame.header.time, e.frame.header.blockSize.size)).take blocks.length := by
  induction es generalizing r buffer blocks with
  | nil =>
    obtain rfl := List.eq_nil_of_length_eq_zero (Nat.le_zero.1 hl)
    rfl
  | cons e es ih =>
    cases h with
    | nil => rfl
    | cons h1 next =>
      have hr' : r.Remaining (e.frame.bytes e.bps ++ (Encoded.stream es ++ rest)) fault := by
        rw [← List.append_assoc]; exact hr
      obtain ⟨b, r₁, h2, h3, h4⟩ := C23_lossless e.encodes buffer hr'
      rw [h1] at h2
      cases h2
      rw [List.map_cons, List.length_cons, List.map_cons, List.take_succ_cons,
        ih h3 next (by simpa using hl), h4.time, Encoded.duration h4]

/-- **C74, for streams with a variable block size.** The time of every block is the number of samples before it. -/
theorem C74_variable_partial {es : List Encoded} {start : Nat} {buffer buffer' : VecI32} {blocks : List Block}
    {r' : BufferedReader} (hn : NumberedBySample start (es.map fun e => e.frame.header))
    (hr : r.Remaining (Encoded.stream es ++ rest) fault) (h : ReadsBlocks r buffer blocks r' buffer')
    (hl : blocks.length ≤ es.length) : Consecutive start blocks := by
  have hh := reads_headers hr h hl
  clear hr h
  induction es generalizing start blocks with
  | nil =>
    obtain rfl := List.eq_nil_of_length_eq_zero (Nat.le_zero.1 hl)
    trivial
  | cons e es ih =>
    cases blocks with
    | nil => trivial
    | cons b blocks =>
      obtain ⟨h1, h2, h3⟩ := hn
      simp only [List.map_cons, List.length_cons, List.take_succ_cons, List.cons.injEq, Prod.mk.injEq] at hh
      obtain ⟨⟨h4, h5⟩, h6⟩ := hh
      refine ⟨?_, ?_⟩
      · rw [h4, FrameHeader.time, if_pos h1, h2]
      · rw [h5]
        exact ih h3 (by simpa using hl) h6

/-- In a stream with a fixed block size, the time of a block is its number times its own size. -/
theorem fixed_times {es : List Encoded} {size index : Nat} {blocks : List Block}
    (hn : NumberedByFrame size index (es.map fun e => e.frame.header)) (hl : blocks.length ≤ es.length)
    (hh : blocks.map (fun b => (b.time, b.duration)) =
      (es.map fun e => (e.frame.header.time, e.frame.header.blockSize.size)).take blocks.length) :
    ∀ k (hk : k < blocks.length), blocks[k].time = (index + k) * blocks[k].duration ∧ 0 < blocks[k].duration ∧
      (k + 1 < es.length → blocks[k].duration = size) := by
  induction es generalizing index blocks with
  | nil =>
    obtain rfl := List.eq_nil_of_length_eq_zero (Nat.le_zero.1 hl)
    intro k hk
    simp at hk
  | cons e es ih =>
    cases blocks with
    | nil => intro k hk; simp at hk
    | cons b blocks =>
      obtain ⟨h1, h2, hs, h3⟩ := hn
      simp only [List.map_cons, List.length_cons, List.take_succ_cons, List.cons.injEq, Prod.mk.injEq] at hh
      obtain ⟨⟨h4, h5⟩, h6⟩ := hh
      intro k hk
      cases k with
      | zero =>
        refine ⟨?_, ?_, ?_⟩
        · show b.time = (index + 0) * b.duration
          rw [h4, h5, FrameHeader.time, if_neg (by rw [h1]; decide), h2, Nat.add_zero]
        · show 0 < b.duration
          rw [h5]
          exact (size_bounds _).1
        · intro hlt
          show b.duration = size
          rw [h5]
          rcases hs with hs | ⟨hs, -⟩
          · exact hs
          · simp at hs
            subst hs
            simp at hlt
      | succ k =>
        have hk' : k < blocks.length := by simpa using hk
        obtain ⟨h7, h8, h9⟩ := ih h3 (by simpa using hl) h6 k hk'
        refine ⟨?_, h8, fun hlt => h9 (by simpa using hlt)⟩
        show blocks[k].time = (index + (k + 1)) * blocks[k].duration
        rw [h7]
        congr 1
        omega

/-- **C74, for streams with a fixed block size.** The time of every block but the last of the stream is the number of
samples before it; and so is that of the last block, if it is not shorter than the others. -/
theorem C74_fixed_partial {es : List Encoded} {size : Nat} {buffer buffer' : VecI32} {blocks : List Block}
    {r' : BufferedReader} (hn : NumberedByFrame size 0 (es.map fun e => e.frame.header))
    (hr : r.Remaining (Encoded.stream es ++ rest) fault) (h : ReadsBlocks r buffer blocks r' buffer')
    (hl : blocks.length ≤ es.length) {k : Nat} (hk : k < blocks.length)
    (hlast : k + 1 < es.length ∨ blocks[k].duration = size) :
    blocks[k].time = k * size := by
  obtain ⟨h1, -, h2⟩ := fixed_times hn hl (reads_headers hr h hl) k hk
  rw [h1, Nat.zero_add]
  rcases hlast with h | h
  · rw [h2 h]
  · rw [h]

/-- **C74.** What the time of the last block of a stream with a fixed block size is instead: the number of frames before
it, times its own size. So the true position can be computed from what is returned, if one knows the size of the other
blocks. -/
theorem C74_recover {es : List Encoded} {size : Nat} {buffer buffer' : VecI32} {blocks : List Block}
    {r' : BufferedReader} (hn : NumberedByFrame size 0 (es.map fun e => e.frame.header))
    (hr : r.Remaining (Encoded.stream es ++ rest) fault) (h : ReadsBlocks r buffer blocks r' buffer')
    (hl : blocks.length ≤ es.length) {k : Nat} (hk : k < blocks.length) :
    blocks[k].time = k * blocks[k].duration ∧
      blocks[k].time / blocks[k].duration * size = k * size ∧
      ((blocks.take k).map Block.duration).sum = k * size := by
  have hh := fixed_times hn hl (reads_headers hr h hl)
  obtain ⟨h1, h2, -⟩ := hh k hk
  rw [Nat.zero_add] at h1
  refine ⟨h1, ?_, ?_⟩
  · rw [h1, Nat.mul_div_cancel _ h2]
  · have : (blocks.take k).map Block.duration = List.replicate k size := by
      refine List.ext_getElem (by simp; omega) fun i h3 h4 => ?_
      simp only [List.length_replicate] at h4
      rw [List.getElem_map, List.getElem_take, List.getElem_replicate]
      exact (hh i (by omega)).2.2 (by omega)
    rw [this, List.sum_replicate, smul_eq_mul]

/-! ## The hypotheses can be met -/

/-- All frames can be read. -/
theorem reads_all {es : List Encoded} (hr : r.Remaining (Encoded.stream es ++ rest) fault) (buffer : VecI32) :
    ∃ blocks r' buffer', ReadsBlocks r buffer blocks r' buffer' ∧ blocks.length = es.length := by
  induction es generalizing r buffer with
  | nil => exact ⟨[], r, buffer, .nil, rfl⟩
  | cons e es ih =>
    have hr' : r.Remaining (e.frame.bytes e.bps ++ (Encoded.stream es ++ rest)) fault := by
      rw [← List.append_assoc]; exact hr
    obtain ⟨b, r₁, h2, h3, -⟩ := C23_lossless e.encodes buffer hr'
    obtain ⟨blocks, r', buffer', h4, h5⟩ := ih h3 b.intoBuffer
    exact ⟨b :: blocks, r', buffer', .cons h2 h4, by simp [h5]⟩

/-- A stereo frame of three samples per channel, with the sample number of its first sample. -/
def variableEncoded (number : Nat) (h : number < 2 ^ 36) : Encoded :=
  ⟨8, verbatimFrame 8
    { variableBlockSize := true, blockSize := .bits8 2, sampleRate := .streaminfo, channels := .independent 1
      sampleSize := .bits8, number := number, numberLength := shortestLength number } [[1, -2, 3], [4, 5, -6]],
    [[1, -2, 3], [4, 5, -6]],
    verbatimFrame_encodes ⟨h, rfl, fun h => absurd (show true = false from h) (by decide)⟩ rfl rfl
      (show ∀ c ∈ [[1, -2, 3], [4, 5, -6]], c.length = 3 by decide) (by decide)⟩

/-- Two frames, at the positions 100 and 103. -/
example : NumberedBySample 100 ([variableEncoded 100 (by decide), variableEncoded 103 (by decide)].map
      fun e => e.frame.header) ∧
    ∃ (r : BufferedReader) (blocks : List Block) (r' : BufferedReader) (buffer' : VecI32),
      r.Remaining (Encoded.stream [variableEncoded 100 (by decide), variableEncoded 103 (by decide)] ++ []) none ∧
      ReadsBlocks r .empty blocks r' buffer' ∧ blocks.length = 2 := by
  refine ⟨⟨rfl, rfl, rfl, rfl, trivial⟩, ?_⟩
  have hr := bytewise_remaining
    (Encoded.stream [variableEncoded 100 (by decide), variableEncoded 103 (by decide)] ++ [])
  obtain ⟨blocks, r', buffer', h1, h2⟩ := reads_all hr .empty
  exact ⟨_, blocks, r', buffer', hr, h1, h2⟩

/-- A mono frame with a frame number. -/
def fixedEncoded (number : Nat) (signal : List Int) (h : Encodable 8 (.independent 0) [signal]) (hn : number < 2 ^ 31) :
    Encoded :=
  ⟨8, encodeFrame 8 (.independent 0) number [signal], [signal], encodeFrame_encodes h hn⟩

/-- Two frames of three samples, and one of two. -/
example : ∃ es : List Encoded, es.length = 3 ∧ NumberedByFrame 3 0 (es.map fun e => e.frame.header) ∧
    ∃ (r : BufferedReader) (blocks : List Block) (r' : BufferedReader) (buffer' : VecI32),
      r.Remaining (Encoded.stream es ++ []) none ∧ ReadsBlocks r .empty blocks r' buffer' ∧ blocks.length = 3 := by
  have h3 : Encodable 8 (.independent 0) [[1, 2, 3]] :=
    ⟨by decide, rfl, ⟨3, by decide, by decide, by decide⟩, by decide⟩
  have h2 : Encodable 8 (.independent 0) [[1, 2]] :=
    ⟨by decide, rfl, ⟨2, by decide, by decide, by decide⟩, by decide⟩
  refine ⟨[fixedEncoded 0 _ h3 (by decide), fixedEncoded 1 _ h3 (by decide), fixedEncoded 2 _ h2 (by decide)], rfl,
    ⟨rfl, rfl, .inl rfl, rfl, rfl, .inl rfl, rfl, rfl, .inr ⟨rfl, (by decide : 2 ≤ 3)⟩, trivial⟩, ?_⟩
  have hr := bytewise_remaining (Encoded.stream [fixedEncoded 0 _ h3 (by decide), fixedEncoded 1 _ h3 (by decide),
    fixedEncoded 2 _ h2 (by decide)] ++ [])
  obtain ⟨blocks, r', buffer', h4, h5⟩ := reads_all hr .empty
  exact ⟨_, blocks, r', buffer', hr, h4, h5⟩

/-! ## A file that shows that it is not always so -/

/-- A streaminfo block that announces a fixed block size of 16. -/
def fixedInfo : StreamInfo :=
  { minBlockSize := 16, maxBlockSize := 16, minFrameSize := none, maxFrameSize := none, sampleRate := 44100
    channels := 1, bitsPerSample := 8, samples := some 21, md5sum := List.replicate 16 0#8 }

/-- A recording of 21 samples, as a block of 16 and a block of 5. -/
def fixedBlocks : List (List (List Int)) := [[List.replicate 16 1], [[2, 3, 4, 5, 6]]]

theorem fixedBlocks_encodable : ∀ block ∈ fixedBlocks, Encodable 8 (.independent 0) block := by
  intro block hb
  simp only [fixedBlocks, List.mem_cons, List.not_mem_nil, or_false] at hb
  rcases hb with rfl | rfl
  · exact ⟨by decide, rfl, ⟨16, by decide, by decide, by decide⟩, by decide⟩
  · exact ⟨by decide, rfl, ⟨5, by decide, by decide, by decide⟩, by decide⟩

theorem open_fixed (blocks : List (List (List Int))) : ∃ r₀,
    (bytewise (encodeStream fixedInfo 8 (.independent 0) blocks)).Delivers
      (encodeStream fixedInfo 8 (.independent 0) blocks) none ∧
    FlacReader.new 1 (bytewise (encodeStream fixedInfo 8 (.independent 0) blocks)) =
      .ok (FlacReader.make .default fixedInfo none r₀) ∧
    r₀.Remaining (encodeFrames 8 (.independent 0) 0 blocks) none := by
  have hi : fixedInfo.Legal := by constructor <;> decide
  let first : EncodedBlock :=
    { isLast := true, blockType := 0#8, body := streaminfoBytes fixedInfo, block := .streamInfo fixedInfo
      encodes := .streamInfo _ hi, typeLt := by decide, lengthLt := by decide }
  have hd := bytewise_delivers (encodeStream fixedInfo 8 (.independent 0) blocks)
  obtain ⟨r₀, h1, h2⟩ := C47_last (first := first) (fuel := 1) (o := .default)
    (rest := encodeFrames 8 (.independent 0) 0 blocks) rfl rfl (by decide) hd
  exact ⟨r₀, hd, h1, h2⟩

/-- **C74 is not true.** Not even for files with a streaminfo block that announces a fixed block size, with blocks of
exactly that size, except for the last one, which is shorter, and with frames numbered from 0 on. -/
theorem C74_false : ¬ ∀ (info : StreamInfo) (blocks : List (List (List Int))) (src : Src)
    (reader : FlacReader BufferedReader) (frames r' : BufferedReader) (decoded : List Block) (buffer' : VecI32),
    info.Legal → info.channels = 1 → info.bitsPerSample = 8 → info.minBlockSize = info.maxBlockSize →
    (∀ block ∈ blocks, Encodable 8 (.independent 0) block) →
    (∀ block ∈ blocks.dropLast, ∀ c ∈ block, c.length = info.maxBlockSize) →
    (∀ block ∈ blocks, ∀ c ∈ block, c.length ≤ info.maxBlockSize) →
    src.Delivers (encodeStream info 8 (.independent 0) blocks) none →
    FlacReader.new 1 src = .ok reader → reader.blocks = .ok frames →
    ReadsBlocks frames .empty decoded r' buffer' → Consecutive 0 decoded := by
  intro h
  have hi : fixedInfo.Legal := by constructor <;> decide
  obtain ⟨r₀, hd, h1, h2⟩ := open_fixed fixedBlocks
  obtain ⟨b₀, r₁, h3, h4, h5⟩ := C61_frame (number := 0) (fixedBlocks_encodable _ (by simp [fixedBlocks])) (by decide)
    h2 .empty
  obtain ⟨b₁, r₂, h6, h7, h8⟩ := C61_frame (number := 1) (block := [[2, 3, 4, 5, 6]])
    (fixedBlocks_encodable _ (by simp [fixedBlocks])) (by decide) h4 b₀.intoBuffer
  have h9 := h fixedInfo fixedBlocks _ _ r₀ r₂ [b₀, b₁] _ hi rfl rfl rfl fixedBlocks_encodable (by decide) (by decide) hd
    h1 rfl (.cons h3 (.cons h6 .nil))
  have h10 := h9.2.1
  rw [← h5.duration (List.replicate 16 1) (by simp), h8.time] at h10
  revert h10
  decide

end Claxon.Props
