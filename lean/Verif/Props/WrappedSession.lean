import Verif.Proof.LooseSamples

/-! # C86: everything that a build without overflow checks makes of an input -/

namespace Claxon.Props

open Claxon Spec ReadBytes

variable {r : BufferedReader} {bytes : List U8} {fault : Option Nat} {blocks blocks' : List (Nat × List (List Int))}
  {finished finished' : Bool}

/-- **C86.** Without overflow checks, the end of the stream is reported exactly where there are less than two bytes left. -/
theorem C86_end (buffer : VecI32) (hr : r.Remaining bytes fault) :
    (@readNextOrEof _ (@BufferedReader.instReadBytesOfBuild uncheckedBuild) _ uncheckedBuild buffer r).1 = .ok none ↔
      bytes.length < 2 ∧ fault = none := by
  constructor
  · intro h
    rcases hx : @readNextOrEof _ (@BufferedReader.instReadBytesOfBuild uncheckedBuild) _ uncheckedBuild buffer r with
      ⟨x, r'⟩
    rw [hx] at h
    obtain rfl : x = .ok none := h
    obtain ⟨h1, h2, -⟩ := loose_none hr buffer hx
    exact ⟨h1, h2⟩
  · rintro ⟨h1, rfl⟩
    obtain ⟨r', h2, -⟩ := loose_end hr h1 buffer
    rw [h2]

/-- **C86.** Everything else that does not begin with a loose frame is an error. -/
theorem C86_error (buffer : VecI32) (hr : r.Remaining bytes fault) (hl : bytes.length < 2 ^ 64)
    (hf : ∀ bps f, Frame.Loose bps f → ¬ f.looseBytes bps <+: bytes) (h2 : 2 ≤ bytes.length ∨ fault ≠ none) :
    ∃ e, (@readNextOrEof _ (@BufferedReader.instReadBytesOfBuild uncheckedBuild) _ uncheckedBuild buffer r).1 =
      .error (.err e) := by
  obtain ⟨e, r', h⟩ := loose_error hr hl hf h2 buffer
  exact ⟨e, by rw [h]⟩

/-- **C86.** Every input decodes to something. -/
theorem C86_total (fault : Option Nat) (bytes : List U8) :
    ∃ blocks finished, DecodesLoosely fault bytes blocks finished :=
  decodesLoosely_total fault _ bytes (Nat.le_refl _)

/-- **C86.** It decodes to one thing only. -/
theorem C86_unique (h : DecodesLoosely fault bytes blocks finished) (h' : DecodesLoosely fault bytes blocks' finished')
    (hl : bytes.length < 2 ^ 64) : blocks' = blocks ∧ finished' = finished :=
  decodesLoosely_unique h hl h'

/-- **C86.** If a build with overflow checks does not panic on it, it decodes to the same (`C84_blocks`). -/
theorem C86_agrees {last : SessionEnd} (h : Decodes fault bytes blocks last) (hl : bytes.length < 2 ^ 64)
    (ho : last ≠ .overflowed) :
    ∃ finished, (finished = true ↔ last = .finished) ∧ DecodesLoosely fault bytes blocks finished :=
  decodesLoosely_of h hl ho

/-- **C86.** Without overflow checks, the sample iterator yields the samples that the input decodes to, then an error,
unless the stream has ended, and then `None` as often as one calls. -/
theorem C86_samples (h : DecodesLoosely fault bytes blocks finished) (hr : r.Remaining bytes fault)
    (hl : bytes.length < 2 ^ 64) :
    ∃ last : Except Fail (Option (Except Error I32)),
      (if finished then last = .ok none else ∃ e, last = .ok (some (.error e))) ∧ ∀ more,
      calls (@FlacSamples.next _ (@BufferedReader.instReadBytesOfBuild uncheckedBuild) _ uncheckedBuild _)
          ((samplesOf blocks).length + 1 + more) (FlacSamples.new r) =
        (samplesOf blocks).map yields ++ last :: List.replicate more (.ok none) :=
  calls_decodesU h (FlacSamples.atEnd_new r) hr hl

/-! ## Examples -/

/-- The frame with `2 ^ 32` wasted bits per sample, and then a byte that does not belong to anything: a build with overflow
checks panics, and one without them yields 192 samples and the end of the stream. -/
example : ∃ (r : BufferedReader) (bytes : List U8), r.Remaining bytes none ∧ bytes.length < 2 ^ 64 ∧
    Decodes none bytes [] .overflowed ∧ DecodesLoosely none bytes [(0, [List.replicate 192 5])] true := by
  have gen : ∀ n, 8 * n + 8 = 2 ^ 32 → ∃ (r : BufferedReader) (bytes : List U8), r.Remaining bytes none ∧
      bytes.length < 2 ^ 64 ∧ Decodes none bytes [] .overflowed ∧
      DecodesLoosely none bytes [(0, [List.replicate 192 5])] true := by
    intro n hn
    obtain ⟨h1, -, -, h3⟩ := wrapped_example hn
    rw [wrapped_bytes hn, List.append_nil] at h3
    have h4 : (wrappedFrame n).length < 2 ^ 64 - 1 := by
      have e : hugeHeader.bytes.length ≤ 16 := by decide
      simp only [wrappedFrame, wrappedBody, List.length_append, List.length_replicate, List.length_cons, List.length_nil,
        length_beBytes]
      omega
    refine ⟨_, wrappedFrame n ++ [0x80#8], bytewise_remaining _, ?_, ?_, ?_⟩
    · rw [List.length_append, List.length_singleton]
      omega
    · obtain ⟨used, rest, h, hu⟩ := uncountable_wrapped hn [0x80#8]
      rw [h]
      exact .uncountable used rest hu
    · have := DecodesLoosely.frame (fault := none) 8 _ h1 [0x80#8] [] true (.finish _ (by decide) rfl)
      rwa [wrapped_bytes hn, wrapped_channels hn] at this
  exact gen (2 ^ 29 - 1) (by norm_num)

/-- A frame, and then something else, of less than half a gigabyte: the builds agree. -/
example : ∃ bytes : List U8, bytes.length < 2 ^ 64 ∧ Decodes none bytes
    [(exampleFrame.header.time, exampleFrame.wrappedChannels)] .finished :=
  ⟨exampleFrame.bytes 16 ++ [0x80], by decide +kernel,
    .frame 16 exampleFrame exampleFrame_encodes.legal.wellFormed _ _ _ (.finish _ (by decide) rfl)⟩

/-- `C86_error` applies to something that is not a frame. -/
example : ∃ (r : BufferedReader) (bytes : List U8), r.Remaining bytes none ∧ bytes.length < 2 ^ 64 ∧
    2 ≤ bytes.length ∧ ∀ bps f, Frame.Loose bps f → ¬ f.looseBytes bps <+: bytes := by
  refine ⟨_, [0, 0], bytewise_remaining _, by decide, by decide, ?_⟩
  rintro bps f - ⟨rest, h⟩
  have : f.looseBytes bps ++ rest = 0xff#8 :: ((f.looseBytes bps).tail ++ rest) := rfl
  rw [this] at h
  cases h

end Claxon.Props
