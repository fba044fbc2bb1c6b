import Verif.Proof.Docs
import Verif.Props.Position
import Verif.Props.Release

/-! # C93: the examples in the documentation of the crate -/

namespace Claxon.Props

open Claxon Spec ReadBytes Examples Docs

variable {F : Type} {fuel : Nat} {files : FlacReader.Files} {name : String} {src : Src} {first : EncodedBlock}
  {more : List EncodedBlock} {info : StreamInfo}

/-! ## What the examples are to compute -/

/-- The root mean square of some samples: the root of the sum of their squares, from the first to the last, over their
number. -/
def rmsOf {F : Type} (fl : Floats F) (xs : List Int) : F :=
  fl.sqrt (fl.div ((xs.map fun x => fl.mul (fl.ofInt x) (fl.ofInt x)).foldl fl.add fl.zero) (fl.ofInt xs.length))

/-- The same with a number of samples that is kept in 32 bits, with a sign. -/
def wrappedRmsOf {F : Type} (fl : Floats F) (xs : List Int) : F :=
  fl.sqrt (fl.div ((xs.map fun x => fl.mul (fl.ofInt x) (fl.ofInt x)).foldl fl.add fl.zero)
    (fl.ofInt ((xs.length : Int).bmod (2 ^ 32))))

/-! ## The root mean square -/

theorem toInts (es : List Encoded) (n : Nat) : ∃ xs : List I32, xs.map BitVec.toInt = Encoded.samples es ∧
    (Encoded.samples es).map yields ++ List.replicate n (.ok none) =
      (xs.map Except.ok).map (fun x => .ok (some x)) ++ List.replicate n (.ok none) ∧
    xs.length = (Encoded.samples es).length :=
  ⟨_, samples_toInt es, by simp [yields, Function.comp_def], by simp⟩

/-- The first example, from the loop. -/
theorem rms_of (fl : Floats F) (es : List Encoded) (hc : Complete (first :: more))
    (h1 : first.block = .streamInfo info) (h2 : ∀ b ∈ more, ¬ IsStreaminfo b)
    (h3 : (commentsIn more).length ≤ 1) (hf : more.length < fuel) (hf' : (Encoded.samples es).length < fuel)
    (hfile : files name = .ok src)
    (hd : src.Delivers (streamMarker ++ metadataBytes (first :: more) ++ Encoded.stream es) none) :
    ∃ xs : List I32, xs.map BitVec.toInt = Encoded.samples es ∧ xs.length = (Encoded.samples es).length ∧
      rms fl fuel files name = match runAll (rmsBody fl) (xs.map .ok) (fl.zero, 0#32) with
        | (.ok (), st) => .ok (fl.sqrt (fl.div st.1 (fl.ofInt st.2.toInt)))
        | (.error f, _) => .error f := by
  obtain ⟨reader, it, h4, -, -, -, h5, -, h6⟩ := C24_stream es hc h1 h2 h3 hf hd
  obtain ⟨xs, h7, h8, h9⟩ := toInts es 1
  refine ⟨xs, h7, h9, ?_⟩
  unfold rms
  rw [open_of hfile, show expect (FlacReader.new fuel src) = .ok reader from congrArg expect h4]
  show (reader.samples >>= fun samples => _) = _
  rw [h5]
  show (match forLoop FlacSamples.next (rmsBody fl) fuel it (fl.zero, 0#32) with
    | (.ok (), st) => _
    | (.error f, _) => _) = _
  rw [forLoop_of (xs.map Except.ok) fuel it (by rw [List.length_map, h9, h6 1, h8]; rfl)
    (by rw [List.length_map, h9]; exact hf')]

/-- **C93, the part about the first example that holds:** on a file with a stream as in C24 of less than `2 ^ 31`
samples, it computes the root mean square of the samples. -/
theorem C93_rms_partial (fl : Floats F) (es : List Encoded) (hc : Complete (first :: more))
    (h1 : first.block = .streamInfo info) (h2 : ∀ b ∈ more, ¬ IsStreaminfo b)
    (h3 : (commentsIn more).length ≤ 1) (hf : more.length < fuel) (hf' : (Encoded.samples es).length < fuel)
    (hfile : files name = .ok src)
    (hd : src.Delivers (streamMarker ++ metadataBytes (first :: more) ++ Encoded.stream es) none)
    (hn : (Encoded.samples es).length < 2 ^ 31) :
    rms fl fuel files name = .ok (rmsOf fl (Encoded.samples es)) := by
  obtain ⟨xs, h4, h5, h6⟩ := rms_of fl es hc h1 h2 h3 hf hf' hfile hd
  rw [h6, show (0#32 : I32) = BitVec.ofNat 32 0 from rfl, runAll_rms fl xs fl.zero 0 (by omega), h4]
  show Except.ok (fl.sqrt (fl.div _ (fl.ofInt (BitVec.ofNat 32 (0 + xs.length)).toInt))) = _
  rw [Nat.zero_add, h5, BitVec.toInt_ofNat', Int.bmod_eq_of_le (by omega) (by omega)]
  rfl

/-- **C93, the first example:** with `2 ^ 31` samples or more it panics, in a build with overflow checks, as the number
of samples is kept in an `i32`. -/
theorem C93_rms_overflow (fl : Floats F) (es : List Encoded) (hc : Complete (first :: more))
    (h1 : first.block = .streamInfo info) (h2 : ∀ b ∈ more, ¬ IsStreaminfo b)
    (h3 : (commentsIn more).length ≤ 1) (hf : more.length < fuel) (hf' : (Encoded.samples es).length < fuel)
    (hfile : files name = .ok src)
    (hd : src.Delivers (streamMarker ++ metadataBytes (first :: more) ++ Encoded.stream es) none)
    (hn : 2 ^ 31 ≤ (Encoded.samples es).length) :
    rms fl fuel files name = .error (.panic .overflow) := by
  obtain ⟨xs, h4, h5, h6⟩ := rms_of fl es hc h1 h2 h3 hf hf' hfile hd
  have := runAll_overflow fl xs fl.zero 0 (by omega) (by omega)
  rw [h6]
  rcases hy : runAll (rmsBody fl) (xs.map .ok) (fl.zero, 0#32) with ⟨y, st⟩
  rw [show (BitVec.ofNat 32 0) = (0#32 : I32) from rfl, hy] at this
  simp only at this
  subst this
  rfl

/-- **C93, the first example:** in a build without overflow checks, the number of samples wraps. -/
theorem C93_rms_wraps (fl : Floats F) (es : List Encoded) (hc : Complete (first :: more))
    (h1 : first.block = .streamInfo info) (h2 : ∀ b ∈ more, ¬ IsStreaminfo b)
    (h3 : (commentsIn more).length ≤ 1) (hf : more.length < fuel) (hf' : (Encoded.samples es).length < fuel)
    (hfile : files name = .ok src)
    (hd : src.Delivers (streamMarker ++ metadataBytes (first :: more) ++ Encoded.stream es) none) :
    @rms _ uncheckedBuild _ F fl fuel files name = .ok (wrappedRmsOf fl (Encoded.samples es)) := by
  obtain ⟨r', h4, h5⟩ := newExt_of
    (metadata_of_complete (o := FlacReaderOptions.default) rfl hc h1 h2 h3) hf hd
  obtain ⟨xs, h7, h8, h9⟩ := toInts es 1
  obtain ⟨reader, it, h10, -, -, -, h11, -, h12⟩ := C24_stream es hc h1 h2 h3 hf hd
  have e1 := h10.symm.trans h4
  cases e1
  cases h11
  have h13 := h12 1
  have h14 := C57_samples h5 ((Encoded.samples es).length + 1) (by
    intro h
    have h : _ ∈ calls FlacSamples.next ((Encoded.samples es).length + 1) (FlacSamples.new r') := h
    rw [h13] at h
    simp [yields] at h)
  have h15 := h14.trans (h13.trans h8)
  have h16 : @FlacReader.open' _ uncheckedBuild fuel files name = FlacReader.newExt fuel src .default := by
    unfold FlacReader.open'
    rw [hfile]
    exact C57_open hd
  unfold rms
  rw [h16, show expect (FlacReader.newExt fuel src .default) = .ok _ from congrArg expect h4]
  show (match forLoop _ (@rmsBody uncheckedBuild _ fl) fuel (FlacSamples.new r') (fl.zero, 0#32) with
    | (.ok (), st) => _
    | (.error f, _) => _) = _
  rw [forLoop_of (xs.map Except.ok) fuel _ (by rw [List.length_map, h9]; exact h15)
    (by rw [List.length_map, h9]; exact hf'), show (0#32 : I32) = BitVec.ofNat 32 0 from rfl,
    runAll_wraps fl xs fl.zero 0, h7]
  show Except.ok (fl.sqrt (fl.div _ (fl.ofInt (BitVec.ofNat 32 (0 + xs.length)).toInt))) = _
  rw [Nat.zero_add, h9, BitVec.toInt_ofNat']
  rfl

theorem samples_replicate (n : Nat) : (Encoded.samples (List.replicate n exampleEncoded)).length = 8 * n := by
  induction n with
  | zero => rfl
  | succ n ih =>
    rw [show List.replicate (n + 1) exampleEncoded = [exampleEncoded] ++ List.replicate n exampleEncoded from rfl,
      samples_append, List.length_append, ih, show (Encoded.samples [exampleEncoded]).length = 8 from by decide +kernel]
    omega

/-- The hypotheses are met by the example stream, of two frames. -/
example (fl : Floats F) : rms fl 17 (fun _ => .ok (bytewise (streamMarker ++
    metadataBytes (infoBlock false :: [paddingBlock false, commentBlock true]) ++
      Encoded.stream [exampleEncoded, exampleEncoded]))) "a" =
    .ok (rmsOf fl [5, 3, 7, 4, 6, 8, 6, 2, 5, 3, 7, 4, 6, 8, 6, 2]) :=
  C93_rms_partial fl [exampleEncoded, exampleEncoded] exampleComplete rfl exampleMetadata.onlyOne (by decide)
    (by decide) (by decide) rfl (bytewise_delivers _) (by decide)

/-- With integers for floats, and no root: this is `(2 * 239) / 16`. -/
example : rmsOf ⟨(0 : Int), id, (· + ·), (· * ·), (· / ·), id⟩ [5, 3, 7, 4, 6, 8, 6, 2, 5, 3, 7, 4, 6, 8, 6, 2] = 29 := by
  decide

/-- So are those for streams with many samples, by the example frame, repeated. -/
theorem long_example {n : Nat} (fl : Floats F) (hn : 2 ^ 31 ≤ 8 * n) :
    rms fl (8 * n + 3) (fun _ => .ok (bytewise (streamMarker ++
      metadataBytes (infoBlock false :: [paddingBlock false, commentBlock true]) ++
        Encoded.stream (List.replicate n exampleEncoded)))) "a" = .error (.panic .overflow) :=
  C93_rms_overflow fl _ exampleComplete rfl exampleMetadata.onlyOne (by decide) (by show 2 < _; omega)
    (by rw [samples_replicate]; omega) rfl (bytewise_delivers _) (by rw [samples_replicate]; exact hn)

/-- The number of samples that has wrapped is negative. -/
example : ((2 ^ 31 : Int)).bmod (2 ^ 32) = -2 ^ 31 := by decide

/-- **C93, for the first example, is false:** there is a file, with a stream as in C24, for which it does not compute
the root mean square. -/
theorem C93_rms_false (fl : Floats F) : ¬ ∀ (es : List Encoded) (fuel : Nat) (files : FlacReader.Files) (src : Src),
    2 < fuel → (Encoded.samples es).length < fuel → files "a" = .ok src →
    src.Delivers (streamMarker ++ metadataBytes (infoBlock false :: [paddingBlock false, commentBlock true]) ++
      Encoded.stream es) none →
    rms fl fuel files "a" = .ok (rmsOf fl (Encoded.samples es)) := by
  intro h
  have gen : ∀ n, ¬ 2 ^ 31 ≤ 8 * n := by
    intro n hn
    have h1 := h (List.replicate n exampleEncoded) (8 * n + 3) (fun _ => .ok _) _ (by omega) (by rw [samples_replicate]; omega)
      rfl (bytewise_delivers _)
    rw [long_example fl hn] at h1
    cases h1
  exact gen (2 ^ 28) (by decide)

/-- **C93.** If the file cannot be opened, or after less than `2 ^ 31` samples there is an error, the first example
panics, as `unwrap` does. -/
theorem C93_rms_error (fl : Floats F) :
    (∀ e, FlacReader.open' fuel files name = .error (.err e) → rms fl fuel files name = .error (.panic .explicit)) ∧
    ∀ (reader : FlacReader BufferedReader) (it : FlacSamples BufferedReader) (xs : List I32) (e : Error),
      FlacReader.open' fuel files name = .ok reader → reader.samples = .ok it →
      calls FlacSamples.next (xs.length + 1) it =
        xs.map (fun x => .ok (some (.ok x))) ++ [.ok (some (.error e))] →
      xs.length < fuel → xs.length < 2 ^ 31 → rms fl fuel files name = .error (.panic .explicit) := by
  constructor
  · intro e h
    unfold rms
    rw [h]
    rfl
  · intro reader it xs e h1 h2 h3 h4 h5
    unfold rms
    rw [show expect (FlacReader.open' fuel files name) = .ok reader from congrArg expect h1]
    show (reader.samples >>= fun samples => _) = _
    rw [h2]
    show (match forLoop FlacSamples.next (rmsBody fl) fuel it (fl.zero, 0#32) with
      | (.ok (), st) => _
      | (.error f, _) => _) = _
    rw [forLoop_fails (f := .panic .explicit) (last := .error e) (fun s => rfl) (xs.map Except.ok) fuel it
      (by rw [List.length_map, h3, List.map_map]; rfl) (by rw [List.length_map]; exact h4),
      show (0#32 : I32) = BitVec.ofNat 32 0 from rfl, Dec.bind_ok _ (runAll_rms fl xs fl.zero 0 (by omega))]
    rfl

/-- Each case occurs: an empty file cannot be opened, and here there is a frame of eight samples, and then a byte that
does not begin a frame. -/
example (fl : Floats F) : rms fl 17 (fun _ => .ok (bytewise [])) "a" = .error (.panic .explicit) := by
  rcases h : FlacReader.open' 17 (fun _ => .ok (bytewise [])) "a" with f | reader
  · have h1 : (FlacReader.open' 17 (fun _ => .ok (bytewise [])) "a").map (fun _ => ()) =
        .error (.err (.ioError .unexpectedEof)) := by decide +kernel
    rw [h] at h1
    cases h1
    exact (C93_rms_error fl).1 _ h
  · have h1 : (FlacReader.open' 17 (fun _ => .ok (bytewise [])) "a").map (fun _ => ()) =
        .error (.err (.ioError .unexpectedEof)) := by decide +kernel
    rw [h] at h1
    cases h1

example : rms ⟨(0 : Int), id, (· + ·), (· * ·), (· / ·), id⟩ 17 (fun _ => .ok (bytewise (streamMarker ++
    metadataBytes (infoBlock false :: [paddingBlock false, commentBlock true]) ++
      (Encoded.stream [exampleEncoded] ++ [1, 2, 3])))) "a" = .error (.panic .explicit) := by
  decide +kernel

/-! ## Decoding a file -/

/-- **C93.** On every file, the second example writes what `decode_simple` writes (C69), and panics where that one
returns an error. -/
theorem C93_decode (w : Option (Wav I32)) : decodeFile fuel files name w =
    (expect (decodeSimple fuel files name w).1, (decodeSimple fuel files name w).2) := by
  unfold decodeFile decodeSimple
  rcases h1 : FlacReader.open' fuel files name with f | reader
  · cases f <;> rfl
  · rw [Dec.bind_liftM_of rfl, Dec.bind_liftM_of (show expect (.ok reader) = .ok reader from rfl), Dec.bind_set_run,
      Dec.bind_set_run]
    rcases h2 : reader.samples with f | it
    · cases f with
      | err e =>
        unfold FlacReader.samples panicRes at h2
        revert h2
        split <;> simp
      | _ => rfl
    · rw [Dec.bind_liftM_of rfl, Dec.bind_liftM_of rfl]
      exact decodeFileLoop next_noErr fuel it _

/-- **C93.** So on a file with a stream as in C24, it writes a WAV file with the number of channels, the sample rate and
the bits per sample of the streaminfo, and exactly the samples of the stream, in order. -/
theorem C93_decodes (es : List Encoded) (hc : Complete (first :: more))
    (h1 : first.block = .streamInfo info) (h2 : ∀ b ∈ more, ¬ IsStreaminfo b)
    (h3 : (commentsIn more).length ≤ 1) (hf : more.length < fuel) (hf' : (Encoded.samples es).length < fuel)
    (hfile : files name = .ok src)
    (hd : src.Delivers (streamMarker ++ metadataBytes (first :: more) ++ Encoded.stream es) none)
    (w : Option (Wav I32)) :
    ∃ samples : List I32, decodeFile fuel files name w =
        (.ok (), some ⟨info.channels, info.sampleRate, info.bitsPerSample, samples⟩) ∧
      samples.map BitVec.toInt = Encoded.samples es := by
  obtain ⟨samples, h4, h5⟩ := C69_simple es hc h1 h2 h3 hf hf' hfile hd w
  exact ⟨samples, by rw [C93_decode, h4]; rfl, h5⟩

example (w : Option (Wav I32)) : ∃ samples : List I32,
    decodeFile 17 (fun _ => .ok (bytewise (streamMarker ++
      metadataBytes (infoBlock false :: [paddingBlock false, commentBlock true]) ++
        Encoded.stream [exampleEncoded, exampleEncoded]))) "a" w =
      (.ok (), some ⟨2, 44100, 16, samples⟩) ∧
    samples.map BitVec.toInt = [5, 3, 7, 4, 6, 8, 6, 2, 5, 3, 7, 4, 6, 8, 6, 2] :=
  C93_decodes [exampleEncoded, exampleEncoded] exampleComplete rfl exampleMetadata.onlyOne (by decide)
    (by decide) (by decide) rfl (bytewise_delivers _) w

/-! ## Artists -/

theorem range_getElem? (xs : List Str) : (List.range (xs.length + 1)).map (fun k => (.ok xs[k]? : Except Fail _)) =
    xs.map (fun x => .ok (some x)) ++ [.ok none] := by
  rw [List.range_succ, List.map_append]
  congr 1
  · refine List.ext_getElem (by simp) fun i h1 h2 => ?_
    simp at h1
    simp [h1]
  · simp

/-- **C93.** The third example prints the values of the tags whose names are `ARTIST`, but for case, in the order in
which they are in the Vorbis comment. -/
theorem C93_artists {vendor : Str} {tags : List Tag} {rest : List U8}
    {fault : Option Nat} (hfile : files name = .ok src) (hc : Complete (first :: more))
    (h1 : first.block = .streamInfo info) (h2 : ∀ b ∈ more, ¬ IsStreaminfo b)
    (h3 : commentsIn more = [⟨vendor, storedTags tags⟩]) (ht : ∀ t ∈ tags, t.Legal) (hf : more.length < fuel)
    (hd : src.Delivers (streamMarker ++ metadataBytes (first :: more) ++ rest) fault) (lines : List Str) :
    artists fuel files name lines =
      (.ok (), lines ++ (tags.filter fun t => sameName t.name (utf8 "ARTIST")).map fun t => t.value) := by
  obtain ⟨r', h4, -⟩ := newExt_of (metadata_of_complete (o := FlacReaderOptions.default) rfl hc h1 h2
    (by rw [h3]; simp)) hf hd
  rw [artists, open_of hfile, Dec.bind_liftM_of (show expect (FlacReader.new fuel src) = .ok _ from
    congrArg expect h4)]
  rw [show FlacReader.tags (FlacReader.make FlacReaderOptions.default info _ r') = storedTags tags by rw [h3]; rfl,
    show FlacReader.getTag (FlacReader.make FlacReaderOptions.default info _ r') (utf8 "ARTIST") =
      GetTag.new (storedTags tags) (utf8 "ARTIST") by rw [h3]; rfl,
    forLoop_of ((tags.filter fun t => sameName t.name (utf8 "ARTIST")).map fun t => t.value) _ _
      (by rw [C41_tags ht, range_getElem?]) ?_, runAll_lines]
  have := List.length_filter_le (fun t : Tag => sameName t.name (utf8 "ARTIST")) tags
  simp [storedTags]
  omega

/-- The artist of the example is the empty string. -/
example (lines : List Str) : artists 3 (fun _ => .ok (bytewise (streamMarker ++
    metadataBytes (infoBlock false :: [paddingBlock false, commentBlock true]) ++ [1#8]))) "a" lines =
      (.ok (), lines ++ [[]]) := by
  rw [C93_artists (tags := tagsOf exampleEntries) (vendor := exampleVendor) rfl exampleComplete rfl
    exampleMetadata.onlyOne rfl exampleEntries_legal (by decide) (bytewise_delivers _)]
  rw [show (((tagsOf exampleEntries).filter fun t => sameName t.name (utf8 "ARTIST")).map fun t => t.value) = [[]] by
    decide +kernel]

/-- **C93.** Streams without a Vorbis comment have no artists, and files that cannot be opened end the example. -/
theorem C93_noArtists (lines : List Str) :
    (∀ reader, FlacReader.open' fuel files name = .ok reader → reader.vendor = none →
      artists fuel files name lines = (.ok (), lines)) ∧
    ∀ e, FlacReader.open' fuel files name = .error (.err e) →
      artists fuel files name lines = (.error (.panic .explicit), lines) := by
  constructor
  · intro reader h hv
    have hn : reader.vorbisComment = none := by
      unfold FlacReader.vendor at hv
      exact Option.map_eq_none_iff.1 hv
    rw [artists, h, Dec.bind_liftM_of (show expect (.ok reader) = .ok reader from rfl)]
    unfold FlacReader.tags FlacReader.getTag
    rw [hn]
    rfl
  · intro e h
    rw [artists, h]
    rfl

example : artists 3 (fun _ => .ok (bytewise (streamMarker ++ metadataBytes [infoBlock true]))) "a" [] = (.ok (), []) ∧
    artists 3 (fun _ => .ok (bytewise [])) "a" [] = (.error (.panic .explicit), []) := by
  decide +kernel

end Claxon.Props
