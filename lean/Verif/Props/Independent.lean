import Verif.Props.Classified

/-! # C79, C80: what the audio does not depend on -/

namespace Claxon.Props

open Claxon Spec ReadBytes

variable {r r₁ r₂ : BufferedReader} {rest : List U8} {fault fault₁ fault₂ : Option Nat} {fuel₁ fuel₂ fuel : Nat}
  {src src₁ src₂ : Src} {o₁ o₂ : FlacReaderOptions} {reader₁ reader₂ : FlacReader BufferedReader}

/-! ## C79 -/

/-- Where the reader is after opening. -/
theorem position_unique {o : FlacReaderOptions} {reader : FlacReader BufferedReader}
    {blocks : List EncodedBlock} (ho : o.metadataOnly = false) (hc : Complete blocks)
    (hd : src.Delivers (streamMarker ++ metadataBytes blocks ++ rest) fault)
    (h : FlacReader.newExt fuel src o = .ok reader) :
    ∃ info vc r', reader = FlacReader.make o info vc r' ∧ r'.Remaining rest fault := by
  obtain ⟨first, more, info, vc, r', rest', h1, h2, rfl, h3⟩ := newExt_ok hd h
  rw [List.append_assoc, List.append_assoc, List.append_cancel_left_eq] at h1
  obtain ⟨_, rfl⟩ := metadata_unique hc (h2.complete ho) h1
  exact ⟨info, vc, r', rfl, h3⟩

/-- **C79.** Whatever the metadata blocks are, and whether or not the Vorbis comment is wanted, the same bytes
after them give the same blocks, the same samples and the same errors. -/
theorem C79_audio {blocks₁ blocks₂ : List EncodedBlock} {audio : List U8}
    (hc₁ : Complete blocks₁) (hc₂ : Complete blocks₂)
    (hd₁ : src₁.Delivers (streamMarker ++ metadataBytes blocks₁ ++ audio) fault)
    (hd₂ : src₂.Delivers (streamMarker ++ metadataBytes blocks₂ ++ audio) fault)
    (ho₁ : o₁.metadataOnly = false) (ho₂ : o₂.metadataOnly = false)
    (h₁ : FlacReader.newExt fuel₁ src₁ o₁ = .ok reader₁) (h₂ : FlacReader.newExt fuel₂ src₂ o₂ = .ok reader₂) :
    ∃ frames₁ frames₂ samples₁ samples₂,
      reader₁.blocks = .ok frames₁ ∧ reader₂.blocks = .ok frames₂ ∧
      (∀ ops : List Op, (∀ op ∈ ops, op.WellTyped) → runOps ops frames₁ = runOps ops frames₂) ∧
      reader₁.samples = .ok samples₁ ∧ reader₂.samples = .ok samples₂ ∧
      reader₁.intoSamples = .ok samples₁ ∧ reader₂.intoSamples = .ok samples₂ ∧
      ∀ n, calls FlacSamples.next n samples₁ = calls FlacSamples.next n samples₂ := by
  obtain ⟨i₁, v₁, r₁, rfl, hr₁⟩ := position_unique ho₁ hc₁ hd₁ h₁
  obtain ⟨i₂, v₂, r₂, rfl, hr₂⟩ := position_unique ho₂ hc₂ hd₂ h₂
  have hm : ∀ {o : FlacReaderOptions} {i v} {r : BufferedReader}, o.metadataOnly = false →
      FlacReader.make o i v r = { streaminfo := i, vorbisComment := v, input := .full r } := by
    intro o i v r ho
    unfold FlacReader.make
    rw [ho]; rfl
  rw [hm ho₁, hm ho₂]
  refine ⟨r₁, r₂, FlacSamples.new r₁, FlacSamples.new r₂, rfl, rfl, fun ops hops => ?_, rfl, rfl, rfl, rfl,
    fun n => ?_⟩
  · rw [(simAllBuffered fault).runOps ops hops _ _ hr₁.rel, (simAllBuffered fault).runOps ops hops _ _ hr₂.rel]
  · have h := fun {r : BufferedReader} (hr : r.Remaining audio fault) =>
      SimAll.calls_eq' ((simAllBuffered fault).rd.samplesNext (simAllBuffered fault).isErr) n (FlacSamples.new r)
        (FlacSamples.new ⟨audio, fault⟩) ⟨rfl, rfl, rfl, rfl, fun _ => hr.rel⟩
    rw [h hr₁, h hr₂]

/-- A file with tags and padding, and the same file without: both can be opened. -/
example : Complete (infoBlock false :: [paddingBlock false, commentBlock true]) ∧
    Complete [infoBlock true] ∧
    (∃ reader, FlacReader.new 3 (bytewise (streamMarker ++
      metadataBytes (infoBlock false :: [paddingBlock false, commentBlock true]) ++
        (Encoded.stream [exampleEncoded] ++ [1#8, 2#8]))) = .ok reader) ∧
    ∃ reader, FlacReader.new 3 (bytewise (streamMarker ++ metadataBytes [infoBlock true] ++
        (Encoded.stream [exampleEncoded] ++ [1#8, 2#8]))) = .ok reader := by
  have hc : Complete [infoBlock true] := ⟨[], infoBlock true, rfl, rfl, by simp⟩
  refine ⟨exampleComplete, hc, ?_, ?_⟩
  · obtain ⟨r', h, _⟩ := newExt_of (fuel := 3) (metadata_of_complete (o := FlacReaderOptions.default) rfl
      exampleComplete rfl exampleMetadata.onlyOne (by decide)) (by decide) (bytewise_delivers _)
    exact ⟨_, h⟩
  · obtain ⟨r', h, _⟩ := newExt_of (fuel := 3) (metadata_of_complete (o := FlacReaderOptions.default) rfl hc rfl
      (by simp) (by decide)) (by decide) (bytewise_delivers _)
    exact ⟨_, h⟩

/-! ## C80 -/

/-- **C80.** Blocks are decoded from a part of the stream at its beginning. Whatever follows this part, in
whatever stream, the blocks are the same, and so is the position where reading goes on. -/
theorem C80_blocks {bytes : List U8} {r' : BufferedReader} {blocks : List Block} {buffer buffer' : VecI32}
    (hr : r.Remaining bytes fault) (h : ReadsBlocks r buffer blocks r' buffer') :
    ∃ used rest, bytes = used ++ rest ∧ r'.Remaining rest fault ∧
      ∀ (q : BufferedReader) (rest' : List U8) (fault' : Option Nat), q.Remaining (used ++ rest') fault' →
        ∃ q', ReadsBlocks q buffer blocks q' buffer' ∧ q'.Remaining rest' fault' := by
  induction h generalizing bytes with
  | nil => exact ⟨[], bytes, rfl, hr, fun q rest' fault' hq => ⟨q, .nil, hq⟩⟩
  | cons h _ ih =>
    obtain ⟨content, rest, rfl, h1, h2⟩ := C32_local hr h
    obtain ⟨used, rest, rfl, h3, h4⟩ := ih h1
    refine ⟨content ++ beBytes 2 (crc16 content).toNat ++ used, rest, by simp, h3, fun q rest' fault' hq => ?_⟩
    rw [List.append_assoc] at hq
    obtain ⟨q₁, h5, h6⟩ := h2 q _ _ hq
    obtain ⟨q', h7, h8⟩ := h4 q₁ _ _ h6
    exact ⟨q', .cons h5 h7, h8⟩

/-- Two example frames, and then something else: two blocks are read. -/
example : ∃ blocks r' buffer', ReadsBlocks (BufferedReader.new (bytewise
      (Encoded.stream [exampleEncoded, exampleEncoded] ++ [1#8]))) .empty blocks r' buffer' ∧
    blocks.flatMap blockSamples = (Encoded.samples [exampleEncoded, exampleEncoded]).map fun v =>
      .ok (BitVec.ofInt 32 v) := by
  obtain ⟨blocks, r', buffer', h1, _, h2⟩ := encoded_blocks [exampleEncoded, exampleEncoded] .empty
    (bytewise_remaining _)
  exact ⟨blocks, r', buffer', h1, h2⟩

/-- **C80.** So the samples of these blocks are what the iterator yields first, whatever follows. -/
theorem C80_samples {bytes : List U8} {r' : BufferedReader} {blocks : List Block} {buffer' : VecI32}
    (hr : r.Remaining bytes fault) (h : ReadsBlocks r .empty blocks r' buffer') :
    ∃ used rest, bytes = used ++ rest ∧
      ∀ (q : BufferedReader) (rest' : List U8) (fault' : Option Nat), q.Remaining (used ++ rest') fault' →
        calls FlacSamples.next (blocks.flatMap blockSamples).length (FlacSamples.new q) =
          (blocks.flatMap blockSamples).map fun x => x.map fun v => some (.ok v) := by
  obtain ⟨used, rest, h1, _, h2⟩ := C80_blocks hr h
  refine ⟨used, rest, h1, fun q rest' fault' hq => ?_⟩
  obtain ⟨q', h3, _⟩ := h2 q rest' fault' hq
  exact C33_blocks h3

section
variable {first : EncodedBlock} {more : List EncodedBlock} {info : StreamInfo}

/-- **C80.** Whatever follows the frames of a stream, their samples are all delivered. If at least two bytes
follow, and they are not the beginning of a frame, then an error says so, and then comes `None`. -/
theorem C80_stream (es : List Encoded) (hc : Complete (first :: more))
    (h1 : first.block = .streamInfo info) (h2 : ∀ b ∈ more, ¬ IsStreaminfo b)
    (h3 : (commentsIn more).length ≤ 1) (hf : more.length < fuel)
    (hd : src.Delivers (streamMarker ++ metadataBytes (first :: more) ++ (Encoded.stream es ++ rest)) fault) :
    ∃ reader samples, FlacReader.new fuel src = .ok reader ∧ reader.samples = .ok samples ∧
      calls FlacSamples.next (Encoded.samples es).length samples = (Encoded.samples es).map yields ∧
      ∀ x y rest', rest = x :: y :: rest' → ¬ (x.toNat = 0xff ∧ y.toNat / 4 = 0b111110) → ∀ n,
        calls FlacSamples.next ((Encoded.samples es).length + (n + 1)) samples =
          (Encoded.samples es).map yields ++ [.ok (some (.error (.formatError "frame sync code missing")))] ++
            List.replicate n (.ok none) := by
  obtain ⟨r', h4, h5⟩ := newExt_of
    (metadata_of_complete (o := FlacReaderOptions.default) rfl hc h1 h2 h3) hf hd
  obtain ⟨blocks, r'', buffer, h6, h7, h8⟩ := encoded_blocks es .empty h5
  obtain ⟨it, h9, h10⟩ := FlacSamples.calls_blocks (FlacSamples.atEnd_new r') h6
  have hlen : (blocks.flatMap blockSamples).length = (Encoded.samples es).length := by rw [h8, List.length_map]
  refine ⟨_, FlacSamples.new r', h4, rfl, ?_, ?_⟩
  · have := h10 0
    rw [Nat.add_zero, hlen, h8, List.map_map, calls, List.append_nil] at this
    exact this
  · rintro x y rest' rfl hxy n
    have h11 : (readNextOrEof buffer r'').1 = .error (.err (.formatError "frame sync code missing")) := by
      rw [Sim.result ((simBufferedRd fault).readNextOrEof buffer) h7]
      exact failsOn_sync hxy rest' fault buffer
    rw [← hlen, h10 (n + 1), h8, List.map_map, List.append_assoc]
    congr 1
    rw [calls, FlacSamples.next_atEnd h9]
    unfold FlacSamples.afterBlock
    generalize readNextOrEof buffer r'' = z at h11
    obtain ⟨z, r₃⟩ := z
    simp only at h11
    subst h11
    simp only
    rw [calls_failed rfl]
    rfl

/-- A file with an ID3v1 tag, `TAG` and 125 more bytes, at its end. -/
example : ¬ ((0x54#8).toNat = 0xff ∧ (0x41#8).toNat / 4 = 0b111110) ∧
    ∃ src : Src, src.Delivers (streamMarker ++
      metadataBytes (infoBlock false :: [paddingBlock false, commentBlock true]) ++
        (Encoded.stream [exampleEncoded] ++ (0x54#8 :: 0x41#8 :: 0x47#8 :: List.replicate 125 0))) none :=
  ⟨by decide, bytewise _, bytewise_delivers _⟩

end

end Claxon.Props
