import Verif.Model.Examples
import Verif.Props.Timeline

/-! # C76: a buffer that is allocated up front

The documentation of `StreamInfo::max_block_size` says that a buffer of this size times the number of channels avoids
allocations during decoding. -/

namespace Claxon.Props

open Claxon Spec ReadBytes

/-- **C76, for streams that keep to the streaminfo block.** If no frame has more samples per channel, or more channels,
than announced, then a buffer with room for that many samples is kept for all blocks: nothing is allocated. -/
theorem C76_upFront_partial {info : StreamInfo} {es : List Encoded} {r r' : BufferedReader} {rest : List U8}
    {fault : Option Nat} {buffer buffer' : VecI32} {blocks : List Block}
    (h : ∀ e ∈ es, e.channels.length ≤ info.channels ∧ ∀ c ∈ e.channels, c.length ≤ info.maxBlockSize)
    (hb : info.maxBlockSize * info.channels ≤ buffer.cap) (hr : r.Remaining (Encoded.stream es ++ rest) fault)
    (hl : blocks.length ≤ es.length) (hread : ReadsBlocks r buffer blocks r' buffer') :
    (∀ b ∈ blocks, b.intoBuffer.cap = buffer.cap) ∧ buffer'.cap = buffer.cap := by
  induction es generalizing r buffer blocks with
  | nil =>
    obtain rfl := List.eq_nil_of_length_eq_zero (Nat.le_zero.1 hl)
    cases hread
    exact ⟨by simp, rfl⟩
  | cons e es ih =>
    cases hread with
    | nil => exact ⟨by simp, rfl⟩
    | @cons _ _ _ _ _ b blocks h1 next =>
      have hr' : r.Remaining (e.frame.bytes e.bps ++ (Encoded.stream es ++ rest)) fault := by
        rw [← List.append_assoc]; exact hr
      obtain ⟨b', r₁, h2, h3, h4⟩ := C23_lossless e.encodes buffer hr'
      rw [h1] at h2
      cases h2
      obtain ⟨h5, h6⟩ := h e (by simp)
      have hpos := (post_block buffer _ _ _ h1 b rfl).channels
      obtain ⟨c, hc⟩ : ∃ c, c ∈ e.channels := by
        have := h4.count
        exact List.exists_mem_of_length_pos (by omega)
      have hcap : b.intoBuffer.cap = buffer.cap := by
        refine C30_reused h1 (Nat.le_trans ?_ hb)
        rw [← h4.duration c hc, h4.count]
        exact Nat.mul_le_mul (h6 c hc) h5
      obtain ⟨h7, h8⟩ := ih (fun e he => h e (by simp [he])) (by rw [hcap]; exact hb) h3 (by simpa using hl) next
      rw [hcap] at h7 h8
      refine ⟨fun b' hb' => ?_, h8⟩
      rcases List.mem_cons.1 hb' with rfl | hb'
      · exact hcap
      · exact h7 b' hb'

/-- **C76.** The buffer that decode_ogg and decode_mp4 allocate for a stream is such a buffer: it has room for exactly as
many samples, so it is kept for all frames of streams that keep to the streaminfo block. -/
theorem C76_programs_partial {info : StreamInfo} {es : List Encoded} {r r' : BufferedReader} {rest : List U8}
    {fault : Option Nat} {buffer' : VecI32} {blocks : List Block}
    (h : ∀ e ∈ es, e.channels.length ≤ info.channels ∧ ∀ c ∈ e.channels, c.length ≤ info.maxBlockSize)
    (hr : r.Remaining (Encoded.stream es ++ rest) fault) (hl : blocks.length ≤ es.length)
    (hread : ReadsBlocks r (Examples.blockBuffer info) blocks r' buffer') :
    (∀ b ∈ blocks, b.intoBuffer.cap = info.maxBlockSize * info.channels) ∧
      buffer'.cap = info.maxBlockSize * info.channels :=
  C76_upFront_partial h (Nat.le_refl _) hr hl hread

/-- **C76.** And for all streams: a buffer with room for eight channels of 65535 samples is always kept. -/
theorem C76_largest {σ : Type} [ReadBytes σ] {s s' : σ} {buffer buffer' : VecI32} {blocks : List Block}
    (hb : 65535 * 8 ≤ buffer.cap) (h : ReadsBlocks s buffer blocks s' buffer') :
    (∀ b ∈ blocks, b.intoBuffer.cap = buffer.cap) ∧ buffer'.cap = buffer.cap := by
  induction h with
  | nil => exact ⟨by simp, rfl⟩
  | @cons _ _ _ buffer _ b blocks h1 _ ih =>
    have hs := post_block _ _ _ _ h1 b rfl
    have hcap : b.intoBuffer.cap = buffer.cap := by
      refine C30_reused h1 (Nat.le_trans ?_ hb)
      exact Nat.mul_le_mul (show b.blockSize ≤ 65535 by have := hs.blockSize.2; omega) hs.channels.2
    obtain ⟨h2, h3⟩ := ih (by rw [hcap]; exact hb)
    rw [hcap] at h2 h3
    refine ⟨fun b' hb' => ?_, h3⟩
    rcases List.mem_cons.1 hb' with rfl | hb'
    · exact hcap
    · exact h2 b' hb'

/-- **C76 is not true of all streams.** Frames can be larger than the streaminfo block announces (C53). Here it announces
blocks of 16 samples, and there is one of 17. -/
theorem C76_false : ¬ ∀ (fuel : Nat) (src : Src) (bytes : List U8) (reader : FlacReader BufferedReader)
    (frames r' : BufferedReader) (blocks : List Block) (buffer buffer' : VecI32), src.Delivers bytes none →
    FlacReader.new fuel src = .ok reader → reader.blocks = .ok frames →
    reader.streaminfo.maxBlockSize * reader.streaminfo.channels ≤ buffer.cap →
    ReadsBlocks frames buffer blocks r' buffer' → buffer'.cap = buffer.cap := by
  intro h
  have he : Encodable 8 (.independent 0) [List.replicate 17 1] :=
    ⟨by decide, rfl, ⟨17, by decide, by decide, by decide⟩, by decide⟩
  obtain ⟨r₀, hd, h1, h2⟩ := open_fixed [[List.replicate 17 1]]
  obtain ⟨b, r₁, h3, h4, h5⟩ := C61_frame (number := 0) he (by decide) h2 { data := [], cap := 16 }
  have h6 := h 1 _ _ _ r₀ r₁ [b] { data := [], cap := 16 } _ hd h1 rfl (by decide : 16 * 1 ≤ 16) (.cons h3 .nil)
  have h7 := (C30_grown h3 (by decide) ?_).2
  · exact absurd h6 (Nat.ne_of_gt h7)
  · rw [h5.count, ← h5.duration (List.replicate 17 1) (by simp)]
    decide

/-- The stream of two frames, with a buffer of 4096 * 2 samples. -/
example : ∃ (info : StreamInfo) (r : BufferedReader) (blocks : List Block) (r' : BufferedReader) (buffer' : VecI32),
    (∀ e ∈ [exampleEncoded, exampleEncoded],
      e.channels.length ≤ info.channels ∧ ∀ c ∈ e.channels, c.length ≤ info.maxBlockSize) ∧
    info.maxBlockSize * info.channels ≤ 8192 ∧
    r.Remaining (Encoded.stream [exampleEncoded, exampleEncoded] ++ []) none ∧
    ReadsBlocks r { data := [], cap := 8192 } blocks r' buffer' ∧ blocks.length = 2 := by
  have hr := bytewise_remaining (Encoded.stream [exampleEncoded, exampleEncoded] ++ [])
  obtain ⟨blocks, r', buffer', h1, h2⟩ := reads_all hr { data := [], cap := 8192 }
  refine ⟨exampleInfo, _, blocks, r', buffer', ?_, by decide, hr, h1, h2⟩
  intro e he
  simp only [List.mem_cons, List.not_mem_nil, or_false, or_self] at he
  subst he
  decide

/-- The same stream, with the buffer of decode_ogg. -/
example : ∃ (r : BufferedReader) (blocks : List Block) (r' : BufferedReader) (buffer' : VecI32),
    ReadsBlocks r (Examples.blockBuffer exampleInfo) blocks r' buffer' ∧ blocks.length = 2 ∧
      buffer'.cap = exampleInfo.maxBlockSize * exampleInfo.channels := by
  have hr := bytewise_remaining (Encoded.stream [exampleEncoded, exampleEncoded] ++ [])
  obtain ⟨blocks, r', buffer', h1, h2⟩ := reads_all hr (Examples.blockBuffer exampleInfo)
  refine ⟨_, blocks, r', buffer', h1, h2, (C76_programs_partial ?_ hr (Nat.le_of_eq h2) h1).2⟩
  intro e he
  simp only [List.mem_cons, List.not_mem_nil, or_false, or_self] at he
  subst he
  decide

end Claxon.Props
