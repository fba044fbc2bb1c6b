import Verif.Props.Progress

/-! # C60: truncated streams -/

namespace Claxon.Props

open Claxon Spec ReadBytes

variable {r₁ r₂ : BufferedReader} {bytes more : List U8} {fault₁ fault₂ : Option Nat}

/-- What can be read from a stream can be read from every longer one. -/
theorem ReadsBlocks.extend {r₁ r₂ r' : BufferedReader} {bytes : List U8} {buffer buffer' : VecI32}
    {blocks : List Block} (h : ReadsBlocks r₁ buffer blocks r' buffer')
    (hr₁ : r₁.Remaining bytes fault₁) (hr₂ : r₂.Remaining (bytes ++ more) fault₂) :
    ∃ r'', ReadsBlocks r₂ buffer blocks r'' buffer' := by
  induction h generalizing r₂ bytes with
  | nil => exact ⟨r₂, .nil⟩
  | cons h _ ih =>
    obtain ⟨bps, f, rest, hw, rfl, hr', rfl⟩ := of_buffered_frame hr₁ h
    rw [List.append_assoc] at hr₂
    obtain ⟨q, h1, h2⟩ := buffered_frame hw _ hr₂
    obtain ⟨r'', h3⟩ := ih hr' h2
    exact ⟨r'', .cons h1 h3⟩

/-- **C60.** If a stream is cut off, wherever it is, then the iterator yields some of the first samples that it
yields for the whole stream. Then it ends with an error, with `None`, or with the overflow of C27, whatever is in the
stream. -/
theorem C60_always (hr₁ : r₁.Remaining bytes fault₁) (hr₂ : r₂.Remaining (bytes ++ more) fault₂) :
    ∃ (samples : List I32) (last : Except Fail (Option (Except Error I32))),
      Ending bytes (FlacSamples.new r₁) samples last ∧
      calls FlacSamples.next samples.length (FlacSamples.new r₂) =
        samples.map (fun v => .ok (some (.ok v))) := by
  obtain ⟨samples, last, -, ⟨blocks, r', buffer', h2, h3⟩, h4⟩ :=
    samples_ending _ (Nat.lt_succ_self _) (FlacSamples.atEnd_new r₁) hr₁
  obtain ⟨r'', h5⟩ := ReadsBlocks.extend h2 hr₁ hr₂
  refine ⟨samples, last, h4, ?_⟩
  have h6 := C33_blocks h5
  rw [h3, List.length_map, List.map_map] at h6
  exact h6

/-- **C60.** If a stream is cut off, wherever it is, then the iterator yields some of the first samples that it
yields for the whole stream, then an error or `None`, and from then on `None`. -/
theorem C60_samples (hr₁ : r₁.Remaining bytes fault₁) (hr₂ : r₂.Remaining (bytes ++ more) fault₂)
    (hz : ¬ LongZeros (bytesToBits bytes)) :
    ∃ (samples : List I32) (last : Except Fail (Option (Except Error I32))), IsEnd last ∧
      (∀ k, calls FlacSamples.next (samples.length + 1 + k) (FlacSamples.new r₁) =
        samples.map (fun v => .ok (some (.ok v))) ++ last :: List.replicate k (.ok none)) ∧
      calls FlacSamples.next samples.length (FlacSamples.new r₂) =
        samples.map (fun v => .ok (some (.ok v))) := by
  obtain ⟨samples, last, ⟨h1, h2⟩ | ⟨-, h, -⟩, h3⟩ := C60_always hr₁ hr₂
  · exact ⟨samples, last, h1, h2, h3⟩
  · exact absurd h hz

/-- **C60.** If a stream that is cut off can be opened, then so can the whole stream, and the metadata is the
same. If the cut-off stream is rejected, then so is the whole stream, and with the same error, unless the
error is that the stream ended (or that reading it failed there). -/
theorem C60_open {src₁ src₂ : Src} {fuel : Nat} {o : FlacReaderOptions}
    (hd₁ : src₁.Delivers bytes fault₁) (hd₂ : src₂.Delivers (bytes ++ more) fault₂) :
    (∀ reader₁, FlacReader.newExt fuel src₁ o = .ok reader₁ →
      ∃ reader₂, FlacReader.newExt fuel src₂ o = .ok reader₂ ∧
        reader₂.streaminfo = reader₁.streaminfo ∧ reader₂.vorbisComment = reader₁.vorbisComment) ∧
    ∀ e, FlacReader.newExt fuel src₁ o = .error (.err e) → (∀ io, e ≠ .ioError io) →
      FlacReader.newExt fuel src₂ o = .error (.err e) := by
  have hr₁ := BufferedReader.Remaining.new hd₁
  have hr₂ := BufferedReader.Remaining.new hd₂
  have hs₁ := (simAllBuffered fault₁).full.openStream fuel o
  have hs₂ := (simAllBuffered fault₂).full.openStream fuel o
  have e₁ := Sim.result hs₁ hr₁
  have e₂ := Sim.result hs₂ hr₂
  have hext := (simExt fault₁ more fault₂).openStream fuel o ⟨bytes, fault₁⟩ ⟨bytes ++ more, fault₂⟩ ⟨rfl, rfl⟩
  have hcut : ∀ f, IsCut fault₁ f → ∃ io, f = .err (.ioError io) := by
    rintro f rfl
    cases fault₁ <;> exact ⟨_, rfl⟩
  have key : (∃ io, (openStream fuel o (BufferedReader.new src₁)).1 = .error (.err (.ioError io))) ∨
      (openStream fuel o (BufferedReader.new src₂)).1 = (openStream fuel o (BufferedReader.new src₁)).1 := by
    rcases hext with ⟨h, -⟩ | ⟨f, h, hf, -⟩
    · right; rw [e₁, e₂, h]
    · obtain ⟨io, rfl⟩ := hcut f hf
      left; exact ⟨io, by rw [e₁, h]⟩
  unfold FlacReader.newExt FlacReader.newExtGen
  generalize openStream fuel o (BufferedReader.new src₁) = x₁ at key ⊢
  generalize openStream fuel o (BufferedReader.new src₂) = x₂ at key ⊢
  rcases x₁ with ⟨f₁ | ⟨info₁, vc₁⟩, s₁⟩ <;> rcases x₂ with ⟨f₂ | ⟨info₂, vc₂⟩, s₂⟩ <;>
    simp only at key ⊢
  all_goals refine ⟨?_, ?_⟩
  · intro _ h; cases h
  · intro e h hne
    cases h
    rcases key with ⟨io, h⟩ | h
    · cases h; exact absurd rfl (hne io)
    · cases h; rfl
  · intro _ h; cases h
  · intro e h hne
    cases h
    rcases key with ⟨io, h⟩ | h
    · cases h; exact absurd rfl (hne io)
    · cases h
  · rintro _ -
    rcases key with ⟨io, h⟩ | h <;> cases h
  · intro e h; cases h
  · intro _ h
    cases h
    rcases key with ⟨io, h⟩ | h
    · cases h
    · cases h; exact ⟨_, rfl, rfl, rfl⟩
  · intro e h; cases h

/-- **C60.** Opening and decoding together: what a cut-off stream gives is the same metadata, and some of the first
samples, then an error or `None`, and from then on `None`. -/
theorem C60_stream {src₁ src₂ : Src} {fuel : Nat} {o : FlacReaderOptions}
    {reader₁ : FlacReader BufferedReader} (ho : o.metadataOnly = false)
    (hd₁ : src₁.Delivers bytes fault₁) (hd₂ : src₂.Delivers (bytes ++ more) fault₂)
    (hz : ¬ LongZeros (bytesToBits bytes)) (h : FlacReader.newExt fuel src₁ o = .ok reader₁) :
    ∃ (reader₂ : FlacReader BufferedReader) (it₁ it₂ : FlacSamples BufferedReader) (samples : List I32)
      (last : Except Fail (Option (Except Error I32))),
      FlacReader.newExt fuel src₂ o = .ok reader₂ ∧ reader₂.streaminfo = reader₁.streaminfo ∧
      reader₂.vendor = reader₁.vendor ∧ reader₂.tags = reader₁.tags ∧
      reader₁.samples = .ok it₁ ∧ reader₂.samples = .ok it₂ ∧ IsEnd last ∧
      (∀ k, calls FlacSamples.next (samples.length + 1 + k) it₁ =
        samples.map (fun v => .ok (some (.ok v))) ++ last :: List.replicate k (.ok none)) ∧
      calls FlacSamples.next samples.length it₂ = samples.map (fun v => .ok (some (.ok v))) := by
  obtain ⟨reader₂, h2, h3, h4⟩ := (C60_open (fuel := fuel) (o := o) hd₁ hd₂).1 reader₁ h
  obtain ⟨first, mds, info, vc, r₁, rest, hb, hm, rfl, hr₁⟩ := newExt_ok hd₁ h
  obtain ⟨first', mds', info', vc', r₂, rest', hb', hm', rfl, hr₂⟩ := newExt_ok hd₂ h2
  have hrest : rest' = rest ++ more := by
    rw [hb, List.append_assoc, List.append_assoc, List.append_assoc, List.append_cancel_left_eq] at hb'
    exact ((metadata_unique (hm.complete ho) (hm'.complete ho) hb').2).symm
  subst hrest
  obtain ⟨samples, last, h5, h6, h7⟩ := C60_samples hr₁ hr₂
    (not_longZeros_suffix hz (by rw [hb]; exact List.suffix_append _ _))
  refine ⟨_, FlacSamples.new r₁, FlacSamples.new r₂, samples, last, h2, h3, ?_, ?_, ?_, ?_, h5, h6, h7⟩
  · unfold FlacReader.vendor; rw [h4]
  · unfold FlacReader.tags; rw [h4]
  · simp [FlacReader.make, FlacReader.samples, ho]
  · simp [FlacReader.make, FlacReader.samples, ho]

/-- A stream with two frames, cut off in the second one. -/
example : ∃ (a b : List U8), exampleFrame.bytes 16 = a ++ b ∧ b ≠ [] ∧ a ≠ [] ∧
    ∃ reader, FlacReader.newExt 3 (bytewise (streamMarker ++
      metadataBytes (infoBlock false :: [paddingBlock false, commentBlock true]) ++
        (exampleFrame.bytes 16 ++ a))) .default = .ok reader :=
  ⟨(exampleFrame.bytes 16).take 5, (exampleFrame.bytes 16).drop 5, (List.take_append_drop _ _).symm,
    by decide +kernel, by decide +kernel,
    (C36_open exampleMetadata (by decide) (bytewise_delivers _)).imp fun _ h => h.1⟩

/-- What the iterator yields for the first frame and a part of the second one. -/
example : calls FlacSamples.next 10 (FlacSamples.new
    (BufferedReader.new (bytewise (exampleFrame.bytes 16 ++ (exampleFrame.bytes 16).take 5)))) =
      ([5, 3, 7, 4, 6, 8, 6, 2].map fun v => .ok (some (.ok (BitVec.ofInt 32 v)))) ++
        [.ok (some (.error (.ioError .unexpectedEof))), .ok none] := by decide +kernel

end Claxon.Props
