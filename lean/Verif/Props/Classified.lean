import Verif.Proof.Reserved
import Verif.Props.Lib

/-! # C78: what is not implemented, and what is invalid -/

namespace Claxon.Props

open Claxon Spec ReadBytes

variable {r : BufferedReader} {bytes rest : List U8} {fault : Option Nat} {bps fuel : Nat}

/-! ## Frames -/

/-- **C78.** Every frame of the full format is decoded to its samples if it needs no feature that is not
implemented. Otherwise the result is `Unsupported`, for the first such feature. -/
theorem C78_frame {f : Full.Frame} (hw : f.WellFormed bps) (hr : r.Remaining (f.bytes bps ++ rest) fault)
    (buffer : VecI32) :
    match f.features with
    | [] => ∃ g : Frame, f = g.full ∧ g.WellFormed bps ∧
        ∃ b r', readNextOrEof buffer r = (.ok (some b), r') ∧ r'.Remaining rest fault ∧
          b.Holds g.header.time g.wrappedChannels
    | x :: _ => (readNextOrEof buffer r).1 = .error (.err (.unsupported x.message)) := by
  split
  · rename_i hx
    obtain ⟨g, rfl, hg⟩ := frame_plain hx hw
    rw [frame_full_bytes] at hr
    obtain ⟨r', h1, h2⟩ := buffered_frame hg buffer hr
    exact ⟨g, rfl, hg, _, r', h1, h2, blockOf_holds hg buffer⟩
  · rename_i x xs hx
    rw [Sim.result ((simBufferedRd fault).readNextOrEof buffer) hr]
    exact failsOn_frame hw hx buffer rest fault

/-- **C78.** So a `FormatError` means that the input does not begin with a frame of the format. -/
theorem C78_invalid {msg : String} {buffer : VecI32} (hr : r.Remaining bytes fault)
    (h : (readNextOrEof buffer r).1 = .error (.err (.formatError msg))) :
    ¬ ∃ bps f rest, Full.Frame.WellFormed bps f ∧ bytes = f.bytes bps ++ rest := by
  rintro ⟨bps, f, rest, hw, rfl⟩
  have := C78_frame hw hr buffer
  split at this
  · obtain ⟨_, _, _, b, r', h1, _⟩ := this
    rw [h1] at h
    cases h
  · rw [this] at h
    cases h

/-- A frame of one channel whose residual has a Rice coded partition and one that is not encoded. -/
def unencodedFrame : Full.Frame where
  header :=
    { variableBlockSize := false, blockSize := .bits8 3, sampleRate := .table 8, channels := .independent 0
      sampleSize := .bits16, number := 300, numberLength := 1 }
  subframes := [⟨.fixed [4] ⟨.rice, 1, [.rice ⟨1, [1]⟩, .unencoded 3 [2, -3]]⟩, 0⟩]
  padding := List.replicate 4 false

theorem unencodedFrame_wellFormed : unencodedFrame.WellFormed 16 where
  header := Spec.FrameHeader.Legal.wellFormed ⟨by decide, by decide, by decide⟩
  sampleSize := .inl rfl
  count := rfl
  subframes := by
    intro p hp
    have : p = (16, ⟨.fixed [4] ⟨.rice, 1, [.rice ⟨1, [1]⟩, .unencoded 3 [2, -3]]⟩, 0⟩) := by
      simpa [unencodedFrame, ChannelField.depths] using hp
    subst this
    refine ⟨by decide, by decide, by decide, ⟨by decide, by decide, by decide, ?_, by decide⟩⟩
    intro p hp
    have : p = .rice ⟨1, [1]⟩ ∨ p = .unencoded 3 [2, -3] := by simpa using hp
    rcases this with rfl | rfl
    · exact ⟨by decide, by decide⟩
    · exact ⟨by decide, by decide⟩
  padding := by decide
  aligned := by decide +kernel

/-- A frame that leaves the number of bits per sample to the streaminfo block, and has a predictor with a
negative shift. -/
def shiftFrame : Full.Frame where
  header :=
    { variableBlockSize := false, blockSize := .bits8 3, sampleRate := .table 8, channels := .independent 0
      sampleSize := .streaminfo, number := 300, numberLength := 1 }
  subframes := [⟨.lpc [2] 3 (-1) [1] ⟨.rice, 0, [.rice ⟨2, [1, -5, 6]⟩]⟩, 0⟩]
  padding := List.replicate 4 false

theorem shiftFrame_wellFormed : shiftFrame.WellFormed 16 where
  header := Spec.FrameHeader.Legal.wellFormed ⟨by decide, by decide, by decide⟩
  sampleSize := .inr rfl
  count := rfl
  subframes := by
    intro p hp
    have : p = (16, ⟨.lpc [2] 3 (-1) [1] ⟨.rice, 0, [.rice ⟨2, [1, -5, 6]⟩]⟩, 0⟩) := by
      simpa [shiftFrame, ChannelField.depths] using hp
    subst this
    refine ⟨by decide, by decide, by decide, by decide, by decide, by decide, by decide, by decide,
      by decide, ⟨by decide, by decide, by decide, ?_, by decide⟩⟩
    intro p hp
    have : p = .rice ⟨2, [1, -5, 6]⟩ := by simpa using hp
    subst this
    exact ⟨by decide, by decide⟩
  padding := by decide
  aligned := by decide +kernel

example : unencodedFrame.WellFormed 16 ∧ unencodedFrame.features = [.unencodedPartition] ∧
    shiftFrame.WellFormed 16 ∧ shiftFrame.features = [.depthInStreaminfo, .negativeShift] :=
  ⟨unencodedFrame_wellFormed, by decide, shiftFrame_wellFormed, by decide⟩

/-- The hypotheses of `C78_frame` also hold of frames without these features. -/
example : ∃ f : Full.Frame, f.WellFormed 16 ∧ f.features = [] := by
  refine ⟨{ unencodedFrame with
    subframes := [⟨.constant 7, 0⟩], padding := [] }, ⟨Spec.FrameHeader.Legal.wellFormed ⟨by decide, by decide, by decide⟩, .inl rfl, rfl, ?_, by decide,
    by decide +kernel⟩, by decide⟩
  intro p hp
  have : p = (16, ⟨.constant 7, 0⟩) := by simpa [unencodedFrame, ChannelField.depths] using hp
  subst this
  exact ⟨by decide, by unfold Full.Coding.WellFormed; decide⟩

/-- The example frame with a wrong sync code: the hypotheses of `C78_invalid` can be met. -/
example : ((readNextOrEof .empty (BufferedReader.new (bytewise [0xff, 0x00]))).1 :
    Res (Option Block)) = .error (.err (.formatError "frame sync code missing")) := by
  rw [Sim.result ((simBufferedRd none).readNextOrEof .empty) (bytewise_remaining _)]
  rfl

/-! ## Streams -/

section
variable {src : Src} {first : EncodedBlock} {more : List EncodedBlock} {info : StreamInfo}

/-- **C78.** Of a stream with a frame that is not supported, the samples before this frame are decoded. Then
comes the error, and then `None` as often as one calls. -/
theorem C78_stream (es : List Encoded) {f : Full.Frame} (hw : f.WellFormed bps) {x : Feature}
    {xs : List Feature} (hx : f.features = x :: xs) (hc : Complete (first :: more))
    (h1 : first.block = .streamInfo info) (h2 : ∀ b ∈ more, ¬ IsStreaminfo b)
    (h3 : (commentsIn more).length ≤ 1) (hf : more.length < fuel)
    (hd : src.Delivers (streamMarker ++ metadataBytes (first :: more) ++
      (Encoded.stream es ++ (f.bytes bps ++ rest))) fault) :
    ∃ reader samples, FlacReader.new fuel src = .ok reader ∧ reader.samples = .ok samples ∧
      ∀ n, calls FlacSamples.next ((Encoded.samples es).length + (n + 1)) samples =
        (Encoded.samples es).map yields ++ [.ok (some (.error (.unsupported x.message)))] ++
          List.replicate n (.ok none) := by
  obtain ⟨r', h4, h5⟩ := newExt_of
    (metadata_of_complete (o := FlacReaderOptions.default) rfl hc h1 h2 h3) hf hd
  refine ⟨_, FlacSamples.new r', h4, rfl, fun n => ?_⟩
  obtain ⟨blocks, r'', buffer, h6, h7, h8⟩ := encoded_blocks es .empty h5
  obtain ⟨it, h9, h10⟩ := FlacSamples.calls_blocks (FlacSamples.atEnd_new r') h6
  have h11 := C78_frame hw h7 buffer
  rw [hx] at h11
  simp only at h11
  have hlen : (blocks.flatMap blockSamples).length = (Encoded.samples es).length := by rw [h8, List.length_map]
  rw [← hlen, h10 (n + 1), h8, List.map_map, List.append_assoc]
  congr 1
  rw [calls, FlacSamples.next_atEnd h9]
  unfold FlacSamples.afterBlock
  generalize readNextOrEof buffer r'' = y at h11
  obtain ⟨y, r₃⟩ := y
  simp only at h11
  subst h11
  simp only
  rw [calls_failed rfl]
  rfl

example : ∃ src : Src, Complete (infoBlock false :: [paddingBlock false, commentBlock true]) ∧
    src.Delivers (streamMarker ++ metadataBytes (infoBlock false :: [paddingBlock false, commentBlock true]) ++
      (Encoded.stream [exampleEncoded] ++ (unencodedFrame.bytes 16 ++ [1, 2, 3]))) none :=
  ⟨bytewise _, exampleComplete, bytewise_delivers _⟩

end

/-! ## Reserved values -/

/-- **C78.** A frame header with a reserved value yields a `FormatError`. -/
theorem C78_reservedHeader {c : HeaderCodes} (h : c.Reserved) (hr : r.Remaining (c.bytes ++ rest) fault)
    (buffer : VecI32) : ∃ msg, (readNextOrEof buffer r).1 = .error (.err (.formatError msg)) := by
  rw [Sim.result ((simBufferedRd fault).readNextOrEof buffer) hr]
  exact failsOn_headerCodes h rest fault buffer

example : HeaderCodes.Reserved ⟨false, true, 12, 9, 1, 3, false⟩ ∧ ¬ HeaderCodes.Reserved ⟨false, true, 12, 9, 1, 4, false⟩ ∧
    HeaderCodes.bytes ⟨false, true, 12, 9, 1, 3, false⟩ = [0xff, 0xf9, 0xc9, 0x16] :=
  ⟨by unfold HeaderCodes.Reserved; decide, by unfold HeaderCodes.Reserved; decide, by decide⟩

/-- **C78.** A frame with a reserved value in one of its subframes, after any number of subframes without,
yields a `FormatError`. -/
theorem C78_reservedSubframe {h : Spec.FrameHeader} (hh : h.WellFormed) (hs : h.sampleSize.bits = some bps)
    {good : List Subframe} {bad more : List Bool} {d : Nat} {body : List U8}
    (hgood : ∀ p ∈ List.zip (h.channels.depths bps) good, p.2.WellFormed p.1 h.blockSize.size)
    (hd : (h.channels.depths bps)[good.length]? = some d) (hbad : ReservedSubframe d h.blockSize.size bad)
    (hbody : bytesToBits body =
      (List.zipWith Subframe.bits (h.channels.depths bps) good).flatten ++ bad ++ more)
    (hr : r.Remaining (h.bytes ++ body) fault) (buffer : VecI32) :
    ∃ msg, (readNextOrEof buffer r).1 = .error (.err (.formatError msg)) := by
  have hd32 : d ≤ 32 := by
    have := (bits_bounds hs).2
    have hm := List.mem_of_getElem? hd
    cases hch : h.channels <;> simp [hch, ChannelField.depths] at hm <;> omega
  obtain ⟨msg, hm⟩ := bad_reserved hd32 hbad
  refine ⟨msg, ?_⟩
  rw [Sim.result ((simBufferedRd fault).readNextOrEof buffer) hr]
  exact failsOn_badFrame hh hs hgood hd hm hbody buffer fault

/-- The second channel of this frame, the side of the first, has a reserved type. -/
example : let h := exampleFrame.header
    let good : List Subframe := [⟨.constant 7, 0⟩]
    h.WellFormed ∧ h.sampleSize.bits = some 16 ∧
    (∀ p ∈ List.zip (h.channels.depths 16) good, p.2.WellFormed p.1 h.blockSize.size) ∧
    (h.channels.depths 16)[good.length]? = some 17 ∧
    ReservedSubframe 17 h.blockSize.size (false :: natToBits 6 13) ∧
    bytesToBits [0, 0, 7, 0b00011010] =
      (List.zipWith Subframe.bits (h.channels.depths 16) good).flatten ++ (false :: natToBits 6 13) ++ [false] := by
  refine ⟨Spec.FrameHeader.Legal.wellFormed ⟨by decide, by decide, by decide⟩, rfl, ?_, rfl, .type 13 (by decide), by decide⟩
  intro p hp
  have : p = (16, ⟨.constant 7, 0⟩) := by simpa [exampleFrame, ChannelField.depths] using hp
  subst this
  exact ⟨by decide, by unfold Coding.WellFormed; decide⟩

/-! ## Metadata -/

section
variable {src : Src} {first : EncodedBlock} {more : List EncodedBlock} {info : StreamInfo}
  {o : FlacReaderOptions}

/-- **C78.** A stream in which, after the streaminfo block and any number of blocks, an application or Vorbis
comment block announces more than 10 MiB, is not supported. -/
theorem C78_largeBlock {ty : U8} {isLast : Bool} {length : Nat} (ht : ty = 2#8 ∨ ty = 4#8)
    (hlen : maxBlockLength < length) (h24 : length < 2 ^ 24) (ho : o.metadataOnly = false)
    (h1 : first.block = .streamInfo info) (hlast : first.isLast = false)
    (hm : ∀ b ∈ more, b.isLast = false ∧ ¬ IsStreaminfo b) (hc : (commentsIn more).length ≤ 1)
    (hf : more.length < fuel)
    (hd : src.Delivers (streamMarker ++ metadataBytes (first :: more) ++ headerBytes isLast ty length ++ rest)
      fault) :
    ∃ msg, FlacReader.newExt fuel src o = .error (.err (.unsupported msg)) := by
  obtain ⟨msg, hb⟩ := bfails_largeBlock ht hlen
  exact ⟨msg, newExt_badBlock (bfails_readBlock (by rcases ht with rfl | rfl <;> decide) h24 hb) ho h1 hlast
    hm hc hf hd⟩

/-- **C78.** A metadata block of the invalid type 127 yields a `FormatError`. -/
theorem C78_invalidBlock {isLast : Bool} {length : Nat} (h24 : length < 2 ^ 24)
    (ho : o.metadataOnly = false) (h1 : first.block = .streamInfo info) (hlast : first.isLast = false)
    (hm : ∀ b ∈ more, b.isLast = false ∧ ¬ IsStreaminfo b) (hc : (commentsIn more).length ≤ 1)
    (hf : more.length < fuel)
    (hd : src.Delivers (streamMarker ++ metadataBytes (first :: more) ++ headerBytes isLast 127 length ++ rest)
      fault) :
    FlacReader.newExt fuel src o = .error (.err (.formatError "invalid metadata block type")) :=
  newExt_badBlock (bfails_readBlock (by decide) h24 fun _ _ => ⟨rfl, by simp⟩) ho h1 hlast hm hc hf hd

example : (infoBlock false).block = .streamInfo exampleInfo ∧ (infoBlock false).isLast = false ∧
    (∀ b ∈ [paddingBlock false, commentBlock false], b.isLast = false ∧ ¬ IsStreaminfo b) ∧
    (commentsIn [paddingBlock false, commentBlock false]).length ≤ 1 ∧
    maxBlockLength < 10485761 ∧ 10485761 < 2 ^ 24 := by
  refine ⟨rfl, rfl, ?_, by decide, by decide, by decide⟩
  intro b hb
  have : b = paddingBlock false ∨ b = commentBlock false := by simpa using hb
  rcases this with rfl | rfl
  · exact ⟨rfl, by rintro ⟨_, h⟩; cases h⟩
  · exact ⟨rfl, by rintro ⟨_, h⟩; cases h⟩

end

end Claxon.Props
