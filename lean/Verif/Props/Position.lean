import Verif.Proof.Capacity
import Verif.Proof.Position
import Verif.Props.ExamplesFile

/-! # C72: what the comments in the examples say about cursors

The comments in `/repo/examples/decode_ogg.rs` and `/repo/examples/bench_decode.rs` are wrong: skipping with a cursor
can fail, and the position of a cursor after opening a stream is not the size of the metadata. -/

namespace Claxon.Props

open Claxon Spec ReadBytes Examples

/-! ## Skipping with a cursor -/

/-- **C72, as the comment in decode_ogg.rs says, is false:** skipping seven bytes with a cursor can fail. -/
theorem C72_skip_false : ¬ ∀ packet : List U8, ∃ c, ReadBytes.skip 7 (cursorOf packet) = (.ok (), c) := by
  intro h
  obtain ⟨c, h⟩ := h []
  have h1 : (ReadBytes.skip 7 (cursorOf [])).1 = .error (.err (.ioError .unexpectedEof)) := by decide +kernel
  rw [h] at h1
  cases h1

/-- **C72, the part about skipping that holds:** skipping with a cursor succeeds if there are enough bytes, and else
reports the end of the file. -/
theorem C72_skip_partial {packet : List U8} {n : Nat} (hn : n < 2 ^ 32) :
    (ReadBytes.skip n (cursorOf packet)).1 =
      if n ≤ packet.length then .ok () else .error (.err (.ioError .unexpectedEof)) := by
  show (Cursor.skip n (cursorOf packet)).1 = _
  unfold Cursor.skip
  rw [Dec.bind_get_run, Dec.bind_liftM_of (show addU 64 (cursorOf packet).pos n = .ok n by
    show addU 64 0 n = _
    rw [addU, if_pos (by omega), Nat.zero_add])]
  by_cases h : n ≤ packet.length
  · rw [if_pos h]
    exact congrArg (fun m : Dec Cursor Unit => (m (cursorOf packet)).1)
      (if_pos (show n ≤ (cursorOf packet).data.length from h))
  · rw [if_neg h]
    exact congrArg (fun m : Dec Cursor Unit => (m (cursorOf packet)).1)
      (if_neg (show ¬ n ≤ (cursorOf packet).data.length from h))

example : (ReadBytes.skip 7 (cursorOf (List.replicate 7 0#8))).1 = .ok () ∧
    (ReadBytes.skip 7 (cursorOf (List.replicate 6 0#8))).1 = .error (.err (.ioError .unexpectedEof)) := by
  decide +kernel

/-! ## The position of a cursor -/

/-- **C72, the part about the position that holds:** after opening a stream, the position of the cursor is the size of
the metadata, rounded up to a multiple of 2048, or the end of the data. -/
theorem C72_position_partial {fuel : Nat} {blocks : List EncodedBlock} {frames data : List U8}
    {reader : FlacReader BufferedReader} (hc : Complete blocks)
    (hdata : data = streamMarker ++ metadataBytes blocks ++ frames)
    (h : FlacReader.new fuel (memory data) = .ok reader) :
    memoryPosition data reader.intoInner =
      min (roundUp (streamMarker ++ metadataBytes blocks).length) data.length := by
  have hd : (memory data).Delivers (streamMarker ++ metadataBytes blocks ++ frames) none := by
    rw [← hdata]
    exact memory_delivers data
  obtain ⟨r, hr, hin, hlazy⟩ := C62_open (memory_contract data) h
  obtain ⟨r', hfull, hrem⟩ := C48_unique (rest := frames) hc hd h
  obtain rfl : r = r' := by
    rcases hr with hr | hr <;> rw [hfull] at hr <;> cases hr
    rfl
  rw [← hin, memoryPosition]
  rcases hlazy with hlazy | ⟨n, -, code, _, hn⟩
  · obtain ⟨used, h1, h2⟩ := hlazy.used
    obtain ⟨left, h3, h4⟩ := hrem.rest
    have hs : r.inner.outcome = (memory data).outcome := hlazy.source
    rw [Src.Delivers, hs] at h3
    have h5 := memory_left h3
    simp only [show (BufferedReader.new (memory data)).inner = memory data from rfl,
      show (BufferedReader.new (memory data)).unread = [] from rfl, show (memory data).calls = 0 from rfl,
      List.nil_append, Nat.sub_zero, memory_between, Nat.zero_add] at h1 h2
    generalize hk : r.inner.calls = k at *
    have hlen : used.length = (streamMarker ++ metadataBytes blocks).length := by
      have e1 := congrArg List.length h1
      have e2 := congrArg List.length h4
      have e3 := congrArg List.length hdata
      have e4 := congrArg List.length h5
      rw [BufferedReader.unread] at e1
      simp only [List.length_take, List.length_append, List.length_drop] at e1 e2 e3 e4 ⊢
      omega
    have hle : (streamMarker ++ metadataBytes blocks).length ≤ data.length := by
      have := congrArg List.length hdata
      rw [List.length_append] at this
      omega
    have h6 := congrArg List.length h1
    rw [List.length_append, List.length_take] at h6
    rw [hlen] at h2 h6
    clear * - h2 h6 hle
    generalize (streamMarker ++ metadataBytes blocks).length = m at *
    rw [roundUp]
    by_cases hq : (m + 2047) / 2048 < k
    · have h7 : data.length ≤ (m + 2047) / 2048 * CAPACITY := by
        by_contra h7
        have := h2 _ hq (by
          intro w h8
          rw [memory_outcome] at h8
          injection h8 with h8
          rw [List.length_take, List.length_drop] at h8
          simp only [capacity_eq] at h7 h8
          omega)
        rw [List.length_take] at this
        simp only [capacity_eq] at h7 this
        omega
      simp only [capacity_eq] at h7 h6 ⊢
      omega
    · simp only [capacity_eq] at h6 ⊢
      omega
  · cases hn

/-- **C72, as the comment in bench_decode.rs says, is false:** the position of a cursor after opening a stream is not
the size of the metadata. -/
theorem C72_position_false : ¬ ∀ (blocks : List EncodedBlock) (frames : List U8) (reader : FlacReader BufferedReader),
    Complete blocks →
    FlacReader.new 3 (memory (streamMarker ++ metadataBytes blocks ++ frames)) = .ok reader →
    memoryPosition (streamMarker ++ metadataBytes blocks ++ frames) reader.intoInner =
      (streamMarker ++ metadataBytes blocks).length := by
  intro h
  obtain ⟨reader, h1, -⟩ := C36_open exampleMetadata (rest := [1#8]) (by decide : 2 < 3) (memory_delivers _)
  have h2 := h _ [1#8] reader exampleComplete h1
  rw [C72_position_partial exampleComplete rfl h1] at h2
  revert h2
  decide +kernel


example : Complete [infoBlock false, paddingBlock false, commentBlock true] ∧
    ∃ reader, FlacReader.new 3 (memory (streamMarker ++
      metadataBytes [infoBlock false, paddingBlock false, commentBlock true] ++ [1#8])) = .ok reader :=
  ⟨exampleComplete, (C36_open exampleMetadata (by decide) (memory_delivers _)).imp fun _ h => h.1⟩

/-- **C72.** The number of bytes that bench_decode counts as audio is too small, by less than 2048, and never negative. -/
theorem C72_dataBytes {fuel : Nat} {first : EncodedBlock} {more : List EncodedBlock} {info : StreamInfo}
    {frames data : List U8} (hc : Complete (first :: more)) (h1 : first.block = .streamInfo info)
    (h2 : ∀ b ∈ more, ¬ IsStreaminfo b) (h3 : (commentsIn more).length ≤ 1) (hf : more.length < fuel)
    (hdata : data = streamMarker ++ metadataBytes (first :: more) ++ frames) :
    ∃ n, dataBytes fuel data = .ok n ∧ n ≤ frames.length ∧ frames.length < n + 2048 := by
  have hd : (memory data).Delivers (streamMarker ++ metadataBytes (first :: more) ++ frames) none := by
    rw [← hdata]
    exact memory_delivers data
  obtain ⟨reader, h4⟩ : ∃ reader, FlacReader.new fuel (memory data) = .ok reader :=
    (newExt_of (metadata_of_complete (o := FlacReaderOptions.default) rfl hc h1 h2 h3) hf hd).elim fun _ h => ⟨_, h.1⟩
  have h5 := C72_position_partial hc hdata h4
  have h6 := congrArg List.length hdata
  rw [List.length_append] at h6
  refine ⟨data.length - memoryPosition data reader.intoInner, ?_, ?_, ?_⟩
  · unfold dataBytes
    rw [show expect (FlacReader.new fuel (memory data)) = .ok reader from congrArg expect h4]
    show subU _ _ _ = _
    rw [subU, if_pos (by rw [h5]; omega)]
  · rw [h5, roundUp]; omega
  · rw [h5, roundUp]; omega

/-! ## tags.rs -/

/-- **C72.** The tags of a stream are printed in order, as `file: NAME=value`. -/
theorem C72_tags {fuel : Nat} {files : FlacReader.Files} {fname : String} {src : Src} {first : EncodedBlock}
    {more : List EncodedBlock} {info : StreamInfo} {vendor : Str} {tags : List Tag} {rest : List U8}
    {fault : Option Nat} (hfile : files fname = .ok src) (hc : Complete (first :: more))
    (h1 : first.block = .streamInfo info) (h2 : ∀ b ∈ more, ¬ IsStreaminfo b)
    (h3 : commentsIn more = [⟨vendor, storedTags tags⟩]) (ht : ∀ t ∈ tags, t.Legal) (hf : more.length < fuel)
    (hd : src.Delivers (streamMarker ++ metadataBytes (first :: more) ++ rest) fault) (lines : List Str) :
    printTags fuel files fname lines =
      (.ok (), lines ++ tags.map fun t => utf8 fname ++ [0x3a#8, 0x20#8] ++ t.comment) := by
  obtain ⟨r', h4, -⟩ := newExt_of (metadata_of_complete (o := FlacReaderOptions.default) rfl hc h1 h2
    (by rw [h3]; simp)) hf hd
  rw [printTags, open_of hfile, Dec.bind_liftM_of (show expect (FlacReader.new fuel src) = .ok _ from
    congrArg expect h4)]
  rw [show FlacReader.tags (FlacReader.make FlacReaderOptions.default info _ r') = storedTags tags by rw [h3]; rfl,
    tagsLoop fname tags lines ht]
  simp [tagLine, Tag.comment]

example : commentsIn [paddingBlock false, commentBlock true] = [⟨exampleVendor, storedTags (tagsOf exampleEntries)⟩] ∧
    (∀ t ∈ tagsOf exampleEntries, t.Legal) ∧ ((tagsOf exampleEntries).map fun t =>
      utf8 "a" ++ [0x3a#8, 0x20#8] ++ t.comment) = ["a: Title=a=é", "a: ARTIST="].map utf8 :=
  ⟨rfl, exampleEntries_legal, by decide +kernel⟩

/-- **C72.** Streams without a Vorbis comment have no tags, and files that cannot be opened end the program. -/
theorem C72_noTags {fuel : Nat} {files : FlacReader.Files} {fname : String} {src : Src}
    (hfile : files fname = .ok src) (lines : List Str) :
    (∀ reader, FlacReader.new fuel src = .ok reader → reader.vendor = none →
      printTags fuel files fname lines = (.ok (), lines)) ∧
    ∀ e, FlacReader.new fuel src = .error (.err e) →
      printTags fuel files fname lines = (.error (.panic .explicit), lines) := by
  constructor
  · intro reader h hv
    rw [printTags, open_of hfile, Dec.bind_liftM_of (show expect (FlacReader.new fuel src) = .ok _ from
      congrArg expect h)]
    have : reader.tags = [] := by
      unfold FlacReader.tags
      unfold FlacReader.vendor at hv
      rw [Option.map_eq_none_iff.1 hv]
    rw [this]
    rfl
  · intro e h
    rw [printTags, open_of hfile, h]
    rfl

/-- The file called `fname` is a stream whose Vorbis comment has the tags `tags`, or a stream without a Vorbis comment
if `tags` is empty. What follows the metadata is arbitrary. -/
def HasTags (fuel : Nat) (files : FlacReader.Files) (fname : String) (tags : List Tag) : Prop :=
  ∃ src first more info rest fault, files fname = .ok src ∧ Complete (first :: more) ∧
    first.block = .streamInfo info ∧ (∀ b ∈ more, ¬ IsStreaminfo b) ∧
    ((∃ vendor, commentsIn more = [⟨vendor, storedTags tags⟩]) ∨ commentsIn more = [] ∧ tags = []) ∧
    (∀ t ∈ tags, t.Legal) ∧ more.length < fuel ∧
    src.Delivers (streamMarker ++ metadataBytes (first :: more) ++ rest) fault

/-- What the program prints about some files with their tags. -/
def tagLines (inputs : List (String × List Tag)) : List Str :=
  inputs.flatMap fun p => p.2.map fun t => utf8 p.1 ++ [0x3a#8, 0x20#8] ++ t.comment

theorem printTags_of {fuel : Nat} {files : FlacReader.Files} {fname : String} {tags : List Tag}
    (h : HasTags fuel files fname tags) (lines : List Str) :
    printTags fuel files fname lines = (.ok (), lines ++ tagLines [(fname, tags)]) := by
  obtain ⟨src, first, more, info, rest, fault, hfile, hc, h1, h2, h3, ht, hf, hd⟩ := h
  rcases h3 with ⟨vendor, h3⟩ | ⟨h3, rfl⟩
  · rw [C72_tags hfile hc h1 h2 h3 ht hf hd]
    simp [tagLines]
  · obtain ⟨r', h4, -⟩ := newExt_of (metadata_of_complete (o := FlacReaderOptions.default) rfl hc h1 h2
      (by rw [h3]; simp)) hf hd
    rw [(C72_noTags hfile lines).1 _ h4 (by rw [h3]; rfl)]
    simp [tagLines]

theorem printAllTags_append {fuel : Nat} {files : FlacReader.Files} (more : List String) :
    ∀ (inputs : List (String × List Tag)) (lines : List Str), (∀ p ∈ inputs, HasTags fuel files p.1 p.2) →
      printAllTags fuel files (inputs.map (·.1) ++ more) lines =
        printAllTags fuel files more (lines ++ tagLines inputs)
  | [], lines, _ => by simp [tagLines]
  | p :: inputs, lines, h => by
    rw [List.map_cons, List.cons_append, printAllTags, Dec.bind_ok _ (printTags_of (h p (by simp)) lines),
      printAllTags_append more inputs _ fun q hq => h q (by simp [hq])]
    simp [tagLines]

/-- **C72.** Given any number of files, the program prints the tags of each, in order, and nothing else. -/
theorem C72_files {fuel : Nat} {files : FlacReader.Files} {inputs : List (String × List Tag)}
    (h : ∀ p ∈ inputs, HasTags fuel files p.1 p.2) :
    printAllTags fuel files (inputs.map (·.1)) [] = (.ok (), tagLines inputs) := by
  have := printAllTags_append [] inputs [] h
  rwa [List.append_nil, List.nil_append] at this

/-- **C72.** At the first file that is missing or is not a FLAC stream, the program ends with a panic; the tags of the
files before it have been printed, and nothing about the files after it. -/
theorem C72_badFile {fuel : Nat} {files : FlacReader.Files} {inputs : List (String × List Tag)}
    (h : ∀ p ∈ inputs, HasTags fuel files p.1 p.2) {bad : String} {others : List String}
    (hb : (∃ e, files bad = .error e) ∨ ∃ src e, files bad = .ok src ∧ FlacReader.new fuel src = .error (.err e)) :
    printAllTags fuel files (inputs.map (·.1) ++ bad :: others) [] =
      (.error (.panic .explicit), tagLines inputs) := by
  rw [printAllTags_append (bad :: others) inputs [] h, List.nil_append, printAllTags]
  refine Dec.bind_error _ ?_
  rcases hb with ⟨e, hb⟩ | ⟨src, e, hb, hn⟩
  · rw [printTags, FlacReader.open', hb]
    rfl
  · exact (C72_noTags hb _).2 e hn

/-- Two files, one with tags and one without, and what cannot be opened. -/
def exampleFiles : FlacReader.Files := fun name =>
  if name = "a" then .ok (bytewise (streamMarker ++ metadataBytes [infoBlock false, paddingBlock false,
    commentBlock true] ++ []))
  else if name = "b" then .ok (bytewise (streamMarker ++ metadataBytes [infoBlock false, paddingBlock true] ++ []))
  else .error (.inner 2)

theorem exampleFiles_a : HasTags 3 exampleFiles "a" (tagsOf exampleEntries) :=
  ⟨_, infoBlock false, [paddingBlock false, commentBlock true], exampleInfo, [], none, rfl, exampleComplete, rfl,
    exampleMetadata.onlyOne, .inl ⟨exampleVendor, rfl⟩, exampleEntries_legal, by decide, bytewise_delivers _⟩

theorem exampleFiles_b : HasTags 3 exampleFiles "b" [] :=
  ⟨_, infoBlock false, [paddingBlock true], exampleInfo, [], none, rfl,
    ⟨[infoBlock false], paddingBlock true, rfl, rfl, by simp [infoBlock]⟩, rfl,
    by simp [paddingBlock, IsStreaminfo], .inr ⟨rfl, rfl⟩, by simp, by decide, bytewise_delivers _⟩

example : printAllTags 3 exampleFiles ["a", "b", "a"] [] =
    (.ok (), ["a: Title=a=é", "a: ARTIST=", "a: Title=a=é", "a: ARTIST="].map utf8) :=
  (C72_files (inputs := [("a", tagsOf exampleEntries), ("b", []), ("a", tagsOf exampleEntries)]) (by
    simp [exampleFiles_a, exampleFiles_b])).trans (congrArg _ (by decide +kernel))

example : printAllTags 3 exampleFiles ["a", "c", "b"] [] =
    (.error (.panic .explicit), ["a: Title=a=é", "a: ARTIST="].map utf8) :=
  (C72_badFile (inputs := [("a", tagsOf exampleEntries)]) (by simp [exampleFiles_a]) (.inl ⟨_, rfl⟩)).trans
    (congrArg _ (by decide +kernel))

end Claxon.Props
