import Verif.Spec.Encoder
import Verif.Props.Lib
import Verif.Proof.Size

/-! # C61: every recording can be stored and read back -/

namespace Claxon.Props

open Claxon Spec ReadBytes

theorem shortestLength_le {v : Nat} : shortestLength v ≤ 6 := by
  unfold shortestLength
  repeat' split
  all_goals omega

theorem correlate_length {mode : ChannelField} {block : List (List Int)} (h : block.length = mode.count) :
    (mode.correlate block).length = mode.count := by
  cases mode with
  | independent n => exact h
  | leftSide =>
    match block, h with
    | [a, b], _ => rfl
  | rightSide =>
    match block, h with
    | [a, b], _ => rfl
  | midSide =>
    match block, h with
    | [a, b], _ => rfl

theorem fits_sub {bps : Nat} {a b : Int} (ha : FitsIn bps a) (hb : FitsIn bps b) :
    FitsIn (bps + 1) (a - b) := by
  unfold FitsIn at *
  obtain ⟨k, rfl⟩ : ∃ k, bps = k + 1 := ⟨bps - 1, by omega⟩
  simp only [Nat.add_sub_cancel] at *
  rw [Int.pow_succ]
  omega

theorem fits_mid {bps : Nat} {a b : Int} (ha : FitsIn bps a) (hb : FitsIn bps b) :
    FitsIn bps ((a + b) / 2) := by
  unfold FitsIn at *
  omega

theorem forall_zipWith {f : Int → Int → Int} {P Q R : Int → Prop} (hf : ∀ a b, P a → Q b → R (f a b)) :
    ∀ {xs ys : List Int}, (∀ a ∈ xs, P a) → (∀ b ∈ ys, Q b) → ∀ c ∈ List.zipWith f xs ys, R c
  | [], _, _, _, c, hc => by simp at hc
  | _ :: _, [], _, _, c, hc => by simp at hc
  | x :: xs, y :: ys, hx, hy, c, hc => by
    rw [List.zipWith_cons_cons] at hc
    rcases List.mem_cons.1 hc with rfl | hc
    · exact hf x y (hx x (by simp)) (hy y (by simp))
    · exact forall_zipWith hf (fun a ha => hx a (by simp [ha])) (fun b hb => hy b (by simp [hb])) c hc

/-- The signals fit the depths of their subframes. -/
theorem correlate_fits {bps n : Nat} {mode : ChannelField} {block : List (List Int)}
    (hc : block.length = mode.count) (hn : ∀ c ∈ block, c.length = n)
    (hr : ∀ c ∈ block, ∀ v ∈ c, FitsIn bps v) :
    ∀ p ∈ List.zip (mode.depths bps) (mode.correlate block),
      p.2.length = n ∧ ∀ v ∈ p.2, FitsIn p.1 v := by
  cases mode with
  | independent k =>
    intro p hp
    have h1 := List.of_mem_zip hp
    have h2 : p.1 = bps := by
      have := h1.1
      simp [ChannelField.depths] at this
      exact this
    rw [h2]
    exact ⟨hn _ h1.2, hr _ h1.2⟩
  | leftSide =>
    match block, hc with
    | [a, b], _ =>
      have ha := hn a (by simp); have hb := hn b (by simp)
      have ra := hr a (by simp); have rb := hr b (by simp)
      intro p hp
      simp only [ChannelField.depths, ChannelField.correlate, List.zip_cons_cons, List.zip_nil_left,
        List.mem_cons, List.not_mem_nil, or_false] at hp
      rcases hp with rfl | rfl
      · exact ⟨ha, ra⟩
      · exact ⟨by simp [ha, hb], forall_zipWith (fun _ _ => fits_sub) ra rb⟩
  | rightSide =>
    match block, hc with
    | [a, b], _ =>
      have ha := hn a (by simp); have hb := hn b (by simp)
      have ra := hr a (by simp); have rb := hr b (by simp)
      intro p hp
      simp only [ChannelField.depths, ChannelField.correlate, List.zip_cons_cons, List.zip_nil_left,
        List.mem_cons, List.not_mem_nil, or_false] at hp
      rcases hp with rfl | rfl
      · exact ⟨by simp [ha, hb], forall_zipWith (fun _ _ => fits_sub) ra rb⟩
      · exact ⟨hb, rb⟩
  | midSide =>
    match block, hc with
    | [a, b], _ =>
      have ha := hn a (by simp); have hb := hn b (by simp)
      have ra := hr a (by simp); have rb := hr b (by simp)
      intro p hp
      simp only [ChannelField.depths, ChannelField.correlate, List.zip_cons_cons, List.zip_nil_left,
        List.mem_cons, List.not_mem_nil, or_false] at hp
      rcases hp with rfl | rfl
      · exact ⟨by simp [ha, hb], forall_zipWith (fun _ _ => fits_mid) ra rb⟩
      · exact ⟨by simp [ha, hb], forall_zipWith (fun _ _ => fits_sub) ra rb⟩

theorem verbatim_samples (n : Nat) (signal : List Int) :
    Subframe.samples n ⟨.verbatim signal, 0⟩ = signal := by
  unfold Subframe.samples Subframe.samplesWith Coding.samplesWith
  simp [Arith.exact]

theorem sampleSizeField_bits {bps : Nat} (h : bps ∈ [8, 12, 16, 20, 24]) :
    (sampleSizeField bps).bits = some bps := by
  simp only [List.mem_cons, List.not_mem_nil, or_false] at h
  rcases h with rfl | rfl | rfl | rfl | rfl <;> rfl

theorem encodeFrame_encodes {bps : Nat} {mode : ChannelField} {number : Nat} {block : List (List Int)}
    (h : Encodable bps mode block) (hnum : number < 2 ^ 31) :
    (encodeFrame bps mode number block).Encodes bps block := by
  obtain ⟨n, hn1, hn2, hn⟩ := h.size
  have hsize : (encodeFrame bps mode number block).header.blockSize.size = n := by
    have hlen : (block.headD []).length = n := by
      have hc := h.count
      have := count_bounds mode
      cases block with
      | nil => simp at hc; omega
      | cons c cs => exact hn c (by simp)
    show (Fin.ofNat 65535 ((block.headD []).length - 1)).val + 1 = n
    rw [hlen]
    simp only [Fin.val_ofNat]
    omega
  have hsig := correlate_fits h.count hn h.range
  have hbps := (bits_bounds (sampleSizeField_bits h.depth))
  have hdepth : ∀ d ∈ mode.depths bps, d ≤ bps + 1 := by
    intro d hd
    cases mode <;> simp [ChannelField.depths] at hd <;> omega
  refine ⟨⟨⟨?_, rfl, fun _ => hnum⟩, sampleSizeField_bits h.depth, ?_, ?_, ?_, ?_⟩, h.count, ?_, h.range, ?_⟩
  · show number < _
    omega
  · show ((mode.correlate block).map _).length = _
    rw [List.length_map]
    exact correlate_length h.count
  · intro p hp
    rw [hsize]
    have hp' : p ∈ List.zip (mode.depths bps)
        ((mode.correlate block).map fun signal => (⟨.verbatim signal, 0⟩ : Subframe)) := hp
    rw [List.zip_map_right] at hp'
    obtain ⟨q, hq, rfl⟩ := List.mem_map.1 hp'
    obtain ⟨h1, h2⟩ := hsig q hq
    have hd := hdepth _ (List.of_mem_zip hq).1
    have hd' := depths_ge (List.of_mem_zip hq).1
    refine ⟨⟨?_, h1, ?_⟩, trivial, ?_⟩
    · show 0 < q.1
      omega
    · exact h2
    · show ∀ v ∈ Subframe.samples n ⟨.verbatim q.2, 0⟩, _
      rw [verbatim_samples]
      intro v hv
      have := h2 v hv
      unfold FitsIn at this ⊢
      have hp2 : (2 : Int) ^ (q.1 - 1) ≤ 2 ^ 31 :=
        pow_le_pow_right₀ (by norm_num) (by omega)
      omega
  · show (List.replicate _ false).length < 8 ∧ ∀ b ∈ List.replicate _ false, b = false
    rw [List.length_replicate]
    exact ⟨Nat.mod_lt _ (by decide), fun b hb => (List.mem_replicate.1 hb).2⟩
  · have key : ∀ l : List Bool,
        (l ++ List.replicate ((8 - (l ++ []).length % 8) % 8) false).length % 8 = 0 := by
      intro l
      rw [List.append_nil, List.length_append, List.length_replicate]
      omega
    exact key _
  · rw [hsize]; exact hn
  · show ((mode.correlate block).map _).map _ = _
    rw [List.map_map]
    exact (List.map_congr_left (fun s _ => verbatim_samples _ s)).trans (List.map_id _)

/-- The blocks with their encodings. -/
theorem encodeFrames_encoded {bps : Nat} {mode : ChannelField} : ∀ (blocks : List (List (List Int)))
    (number : Nat), (∀ block ∈ blocks, Encodable bps mode block) → number + blocks.length ≤ 2 ^ 31 →
    ∃ es : List Encoded, Encoded.stream es = encodeFrames bps mode number blocks ∧
      Encoded.samples es = blocks.flatMap fun block => interleave (block.headD []).length block
  | [], _, _, _ => ⟨[], rfl, rfl⟩
  | block :: blocks, number, h, hn => by
    rw [List.length_cons] at hn
    obtain ⟨es, h1, h2⟩ := encodeFrames_encoded blocks (number + 1) (fun b hb => h b (by simp [hb]))
      (by omega)
    have henc := encodeFrame_encodes (number := number) (h block (by simp)) (by omega)
    refine ⟨⟨bps, _, block, henc⟩ :: es, ?_, ?_⟩
    · show _ ++ Encoded.stream es = _
      rw [h1]; rfl
    · show interleave _ block ++ Encoded.samples es = _
      rw [h2, List.flatMap_cons]
      congr 2
      have hc := henc.count
      have := count_bounds (encodeFrame bps mode number block).header.channels
      cases block with
      | nil => simp at hc; omega
      | cons c cs => exact (henc.size c (by simp)).symm

/-- **C61.** Every block of samples can be stored in a frame, in every stereo mode that fits the number of
channels, and is read back exactly. -/
theorem C61_frame {bps : Nat} {mode : ChannelField} {number : Nat} {block : List (List Int)}
    (h : Encodable bps mode block) (hnum : number < 2 ^ 31) {r : BufferedReader} {rest : List U8}
    {fault : Option Nat}
    (hr : r.Remaining ((encodeFrame bps mode number block).bytes bps ++ rest) fault) (buffer : VecI32) :
    ∃ b r', readNextOrEof buffer r = (.ok (some b), r') ∧ r'.Remaining rest fault ∧
      b.Holds (number * (block.headD []).length) block := by
  have henc := encodeFrame_encodes h hnum
  obtain ⟨b, r', h1, h2, h3⟩ := C23_lossless henc buffer hr
  refine ⟨b, r', h1, h2, ?_⟩
  have hc := henc.count
  have := count_bounds (encodeFrame bps mode number block).header.channels
  have hs : (encodeFrame bps mode number block).header.blockSize.size = (block.headD []).length := by
    cases block with
    | nil => simp at hc; omega
    | cons c cs => exact (henc.size c (by simp)).symm
  have ht : (encodeFrame bps mode number block).header.time = number * (block.headD []).length := by
    unfold FrameHeader.time
    rw [hs]
    rfl
  rwa [ht] at h3

/-- **C61.** Every recording can be stored in a stream, and is read back exactly: the streaminfo, and all
samples, in order. -/
theorem C61_stream {info : StreamInfo} (hi : info.Legal) {bps : Nat} {mode : ChannelField}
    {blocks : List (List (List Int))} (h : ∀ block ∈ blocks, Encodable bps mode block)
    (hn : blocks.length ≤ 2 ^ 31) {src : Src} {fuel : Nat} (hf : 0 < fuel)
    (hd : src.Delivers (encodeStream info bps mode blocks) none) :
    ∃ reader it, FlacReader.new fuel src = .ok reader ∧ reader.streaminfo = info ∧
      reader.samples = .ok it ∧
      ∀ n, calls FlacSamples.next
          ((blocks.flatMap fun block => interleave (block.headD []).length block).length + n) it =
        (blocks.flatMap fun block => interleave (block.headD []).length block).map yields ++
          List.replicate n (.ok none) := by
  obtain ⟨es, h1, h2⟩ := encodeFrames_encoded blocks 0 h (by omega)
  have hlen : (streaminfoBytes info).length = 34 := length_streaminfoBytes hi
  let first : EncodedBlock :=
    { isLast := true, blockType := 0#8, body := streaminfoBytes info, block := .streamInfo info
      encodes := .streamInfo _ hi, typeLt := by decide, lengthLt := by rw [hlen]; decide }
  have hbytes : encodeStream info bps mode blocks =
      streamMarker ++ metadataBytes [first] ++ Encoded.stream es := by
    unfold encodeStream metadataBytes
    rw [h1]
    simp only [List.flatMap_cons, List.flatMap_nil, List.append_nil]
    unfold EncodedBlock.bytes
    simp only [first]
    rw [hlen]
    rfl
  rw [hbytes] at hd
  obtain ⟨reader, it, h3, h4, -, -, h5, -, h6⟩ := C24_stream (first := first) (more := []) (info := info)
    es ⟨[], first, rfl, rfl, by simp⟩ rfl (by simp) (by simp [commentsIn]) hf hd
  rw [h2] at h6
  exact ⟨reader, it, h3, h4, h5, h6⟩

/-- A recording of two blocks with two channels of 12 bits, and another one with four channels of 8 bits. -/
example : (∀ block ∈ [[[2047, -2048, 3], [-2048, 2047, 0]], [[1], [2]]], Encodable 12 .midSide block) ∧
    Encodable 8 (.independent 3) [[127], [-128], [0], [1]] := by
  refine ⟨?_, ⟨by decide, rfl, ⟨1, by decide, by decide, by decide⟩, by decide⟩⟩
  intro block hb
  simp only [List.mem_cons, List.not_mem_nil, or_false] at hb
  rcases hb with rfl | rfl
  · exact ⟨by decide, rfl, ⟨3, by decide, by decide, by decide⟩, by decide⟩
  · exact ⟨by decide, rfl, ⟨1, by decide, by decide, by decide⟩, by decide⟩

end Claxon.Props
