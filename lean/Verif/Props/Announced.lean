import Verif.Props.Timeline

/-! # C77: the samples are as many, and have as many bits, as announced

The number of samples, and the number of bits per sample, in the streaminfo block are not compared to the frames. -/

namespace Claxon.Props

open Claxon Spec ReadBytes

theorem length_interleave {n : Nat} {channels : List (List Int)} (h : ∀ c ∈ channels, c.length = n) :
    (interleave n channels).length = n * channels.length := by
  have hi : ∀ i ∈ List.range n, (channels.filterMap fun c => c[i]?).length = channels.length := by
    intro i hi
    rw [List.mem_range] at hi
    have : ∀ cs : List (List Int), (∀ c ∈ cs, c.length = n) → (cs.filterMap fun c => c[i]?).length = cs.length := by
      intro cs
      induction cs with
      | nil => intro _; rfl
      | cons c cs ih =>
        intro h
        have hc := h c (by simp)
        rw [List.filterMap_cons_some (f := fun c : List Int => c[i]?) (List.getElem?_eq_getElem (show i < c.length by omega)),
          List.length_cons, List.length_cons, ih fun c hc => h c (by simp [hc])]
    exact this channels h
  unfold interleave
  rw [List.length_flatMap, List.map_congr_left hi]
  simp

theorem mem_interleave {n : Nat} {channels : List (List Int)} {v : Int} (h : v ∈ interleave n channels) :
    ∃ c ∈ channels, v ∈ c := by
  obtain ⟨i, -, h⟩ := List.mem_flatMap.1 h
  obtain ⟨c, hc, h⟩ := List.mem_filterMap.1 h
  exact ⟨c, hc, List.mem_of_getElem? h⟩

/-- **C77, for streams that keep to it.** If the frames have the number of channels that the streaminfo block announces,
and their sizes add up to the number of samples that it announces, the sample iterator yields that number of samples for
every channel, and then nothing. And all samples have as many bits as announced, if those that were encoded have. -/
theorem C77_announced_partial {first : EncodedBlock} {more : List EncodedBlock} {info : StreamInfo} {src : Src}
    {fuel n : Nat} (es : List Encoded) (hc : Complete (first :: more)) (h1 : first.block = .streamInfo info)
    (h2 : ∀ b ∈ more, ¬ IsStreaminfo b) (h3 : (commentsIn more).length ≤ 1) (hf : more.length < fuel)
    (hd : src.Delivers (streamMarker ++ metadataBytes (first :: more) ++ Encoded.stream es) none)
    (hn : info.samples = some n) (hch : ∀ e ∈ es, e.channels.length = info.channels)
    (hsum : (es.map fun e => e.frame.header.blockSize.size).sum = n)
    (hbits : ∀ e ∈ es, ∀ c ∈ e.channels, ∀ v ∈ c, FitsIn info.bitsPerSample v) :
    ∃ reader it, FlacReader.new fuel src = .ok reader ∧ reader.streaminfo = info ∧ reader.samples = .ok it ∧
      ∃ samples : List Int, samples.length = n * info.channels ∧ (∀ v ∈ samples, FitsIn info.bitsPerSample v) ∧
        ∀ k, calls FlacSamples.next (n * info.channels + k) it = samples.map yields ++ List.replicate k (.ok none) := by
  obtain ⟨reader, it, h4, h5, -, -, h6, -, h7⟩ := C24_stream es hc h1 h2 h3 hf hd
  have hlen : (Encoded.samples es).length = n * info.channels := by
    subst hsum
    clear hd hbits h7 hn
    induction es with
    | nil => simp [Encoded.samples]
    | cons e es ih =>
      rw [Encoded.samples, List.flatMap_cons, List.length_append, length_interleave e.encodes.size, List.map_cons,
        List.sum_cons, Nat.add_mul, hch e (by simp)]
      exact congrArg _ (ih fun e he => hch e (by simp [he]))
  refine ⟨reader, it, h4, h5, h6, Encoded.samples es, hlen, ?_, fun k => by rw [← hlen]; exact h7 k⟩
  intro v hv
  obtain ⟨e, he, hv⟩ := List.mem_flatMap.1 hv
  obtain ⟨c, hc, hv⟩ := mem_interleave hv
  exact hbits e he c hc v hv

/-- **C77 is not true: the number of samples.** The streaminfo block announces 21 samples, and there are 16. -/
theorem C77_count_false : ¬ ∀ (fuel n : Nat) (src : Src) (bytes : List U8) (reader : FlacReader BufferedReader)
    (it : FlacSamples BufferedReader) (samples : List Int), src.Delivers bytes none →
    FlacReader.new fuel src = .ok reader → reader.samples = .ok it →
    (∀ k, calls FlacSamples.next (samples.length + k) it = samples.map yields ++ List.replicate k (.ok none)) →
    reader.streaminfo.samples = some n → samples.length = n * reader.streaminfo.channels := by
  intro h
  have hd := bytewise_delivers (encodeStream fixedInfo 8 (.independent 0) [[List.replicate 16 1]])
  obtain ⟨reader, it, h1, h2, h3, h4⟩ := C61_stream (info := fixedInfo) (by constructor <;> decide)
    (fun b hb => fixedBlocks_encodable b (by simp only [List.mem_singleton] at hb; simp [fixedBlocks, hb]))
    (by decide) Nat.one_pos hd
  have h5 := h 1 21 _ _ reader it _ hd h1 h3 h4 (by rw [h2]; rfl)
  rw [h2] at h5
  revert h5
  decide

/-- **C77 is not true: the number of bits.** The streaminfo block announces 8 bits per sample, and there is a frame with
16 bits per sample. -/
theorem C77_bits_false : ¬ ∀ (fuel : Nat) (src : Src) (bytes : List U8) (reader : FlacReader BufferedReader)
    (it : FlacSamples BufferedReader) (samples : List Int), src.Delivers bytes none →
    FlacReader.new fuel src = .ok reader → reader.samples = .ok it →
    (∀ k, calls FlacSamples.next (samples.length + k) it = samples.map yields ++ List.replicate k (.ok none)) →
    ∀ v ∈ samples, FitsIn reader.streaminfo.bitsPerSample v := by
  intro h
  have hd := bytewise_delivers (encodeStream fixedInfo 16 (.independent 0) [[[1000, -1000]]])
  obtain ⟨reader, it, h1, h2, h3, h4⟩ := C61_stream (info := fixedInfo) (by constructor <;> decide)
    (fun b hb => by
      simp only [List.mem_singleton] at hb
      subst hb
      exact ⟨by decide, rfl, ⟨2, by decide, by decide, by decide⟩, by decide⟩)
    (by decide) Nat.one_pos hd
  have h5 := h 1 _ _ reader it _ hd h1 h3 h4 1000 (by decide)
  rw [h2] at h5
  revert h5
  decide

/-- The streaminfo block of the example announces four samples in two channels, and there is one frame with those. -/
example : Complete (infoBlock false :: [paddingBlock false, commentBlock true]) ∧ exampleInfo.samples = some 4 ∧
    (∀ e ∈ [exampleEncoded], e.channels.length = exampleInfo.channels) ∧
    ([exampleEncoded].map fun e => e.frame.header.blockSize.size).sum = 4 ∧
    ∀ e ∈ [exampleEncoded], ∀ c ∈ e.channels, ∀ v ∈ c, FitsIn exampleInfo.bitsPerSample v := by
  refine ⟨exampleComplete, rfl, ?_, by decide, ?_⟩ <;>
  · intro e he
    rw [List.mem_singleton] at he
    subst he
    decide

end Claxon.Props
