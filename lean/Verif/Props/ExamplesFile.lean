import Verif.Proof.ExamplesFile
import Verif.Props.Progress

/-! # C69: the example programs `decode_simple` and `decode` -/

namespace Claxon.Props

open Claxon Spec ReadBytes Examples

variable {fuel : Nat} {files : FlacReader.Files} {name : String} {src : Src} {first : EncodedBlock}
  {more : List EncodedBlock} {info : StreamInfo}

theorem open_of (hfile : files name = .ok src) : FlacReader.open' fuel files name = FlacReader.new fuel src := by
  unfold FlacReader.open'
  rw [hfile]
  rfl

theorem create_legal {α : Type} (h : info.Legal) :
    (Wav.create info : Wav α) = ⟨info.channels, info.sampleRate, info.bitsPerSample, []⟩ := by
  have h1 := h.channels
  have h2 := h.bitsPerSample
  unfold Wav.create
  rw [Nat.mod_eq_of_lt (by omega), Nat.mod_eq_of_lt (by omega)]

/-- The loop in decode_simple. -/
theorem simpleLoop : ∀ (xs : List I32) (fuel : Nat) (it : FlacSamples BufferedReader) (w : Wav I32) (last : _),
    calls FlacSamples.next (xs.length + 1) it = xs.map (fun x => .ok (some (.ok x))) ++ [.ok last] →
    xs.length < fuel →
    (last = none → forLoop FlacSamples.next simpleBody fuel it (some w) = (.ok (), some (w.append xs))) ∧
    ∀ e, last = some (.error e) →
      forLoop FlacSamples.next simpleBody fuel it (some w) = (.error (.err e), some (w.append xs)) := by
  intro xs
  induction xs with
  | nil =>
    intro fuel it w last hc hf
    obtain ⟨fuel, rfl⟩ : ∃ k, fuel = k + 1 := ⟨fuel - 1, by simp at hf; omega⟩
    have h1 : (FlacSamples.next it).1 = .ok last := by simpa [calls] using hc
    rcases hy : FlacSamples.next it with ⟨y, it'⟩
    rw [hy] at h1
    simp only at h1
    subst h1
    rw [forLoop, hy]
    refine ⟨?_, ?_⟩
    · rintro rfl; simp [Wav.append]
    · rintro e rfl; simp [Wav.append]; rfl
  | cons x xs ih =>
    intro fuel it w last hc hf
    obtain ⟨fuel, rfl⟩ : ∃ k, fuel = k + 1 := ⟨fuel - 1, by simp at hf; omega⟩
    rw [List.length_cons, calls] at hc
    simp only [List.map_cons, List.cons_append, List.cons.injEq] at hc
    rcases hy : FlacSamples.next it with ⟨y, it'⟩
    rw [hy] at hc
    simp only at hc
    obtain ⟨rfl, h2⟩ := hc
    have := ih fuel it' (w.append [x]) last h2 (by simp at hf; omega)
    rw [forLoop, hy]
    simp only
    have e : simpleBody (.ok x) (some w) = (.ok (), some (w.append [x])) := rfl
    rw [Dec.bind_ok _ e]
    simpa [Wav.append] using this

/-- decode_simple, from the calls of the iterator. -/
theorem decodeSimple_of {reader : FlacReader BufferedReader} {r r' r'' : BufferedReader} {blocks : List Block}
    {buffer : VecI32} {xs : List I32} (h : FlacReader.open' fuel files name = .ok reader)
    (hi : reader.input = .full r) (hb : ReadsBlocks r .empty blocks r' buffer) (hx : samplesOf blocks xs)
    (hf : xs.length < fuel) (w : Option (Wav I32)) :
    (readNextOrEof buffer r' = (.ok none, r'') → decodeSimple fuel files name w =
      (.ok (), some ((Wav.create reader.streaminfo).append xs))) ∧
    ∀ e, readNextOrEof buffer r' = (.error (.err e), r'') → decodeSimple fuel files name w =
      (.error (.err e), some ((Wav.create reader.streaminfo).append xs)) := by
  have hs : reader.samples = .ok (FlacSamples.new r) := by unfold FlacReader.samples; rw [hi]
  have he := C33_end (s'' := r'') hb
  unfold samplesOf at hx
  rw [hx, List.length_map, List.map_map] at he
  have start : decodeSimple fuel files name w =
      forLoop FlacSamples.next simpleBody fuel (FlacSamples.new r) (some (Wav.create reader.streaminfo)) := by
    unfold decodeSimple
    rw [Dec.bind_liftM_of h, Dec.bind_set_run, Dec.bind_liftM_of hs]
  rw [start]
  constructor
  · intro hn
    exact (simpleLoop xs fuel _ _ none (he.1 hn) hf).1 rfl
  · intro e hn
    exact (simpleLoop xs fuel _ _ _ (he.2 e hn) hf).2 e rfl

theorem samples_toInt (es : List Encoded) :
    ((Encoded.samples es).map (BitVec.ofInt 32)).map BitVec.toInt = Encoded.samples es := by
  rw [List.map_map]
  conv => rhs; rw [← List.map_id (Encoded.samples es)]
  refine List.map_congr_left fun v hv => ?_
  unfold Encoded.samples interleave at hv
  simp only [List.mem_flatMap, List.mem_filterMap] at hv
  obtain ⟨e, -, i, -, c, hc, hv⟩ := hv
  exact Examples.FitsIn.toInt hc (List.mem_of_getElem? hv)

/-- **C69.** `decode_simple`, on a file with a stream as in C24, writes a WAV file with the number of channels, the
sample rate and the bits per sample of the streaminfo, and exactly the samples of the stream, in order. -/
theorem C69_simple (es : List Encoded) (hc : Complete (first :: more))
    (h1 : first.block = .streamInfo info) (h2 : ∀ b ∈ more, ¬ IsStreaminfo b)
    (h3 : (commentsIn more).length ≤ 1) (hf : more.length < fuel) (hf' : (Encoded.samples es).length < fuel)
    (hfile : files name = .ok src)
    (hd : src.Delivers (streamMarker ++ metadataBytes (first :: more) ++ Encoded.stream es) none)
    (w : Option (Wav I32)) :
    ∃ samples : List I32, decodeSimple fuel files name w =
        (.ok (), some ⟨info.channels, info.sampleRate, info.bitsPerSample, samples⟩) ∧
      samples.map BitVec.toInt = Encoded.samples es := by
  obtain ⟨r', h4, h5⟩ := newExt_of
    (metadata_of_complete (o := FlacReaderOptions.default) rfl hc h1 h2 h3) hf hd
  have hl : info.Legal := BodyEncodes.info_legal first.encodes h1
  obtain ⟨blocks, r₁, buffer, h6, h7, h8, h9⟩ := encoded_counts es .empty (rest := []) (by rwa [List.append_nil])
  obtain ⟨r₂, h10, -⟩ := Sim.ok ((simBufferedRd none).readNextOrEof buffer) h7 (readNextOrEof_nil buffer)
  refine ⟨_, ?_, samples_toInt es⟩
  rw [(decodeSimple_of ((open_of hfile).trans h4) rfl h6 h9 (by simpa using hf') w).1 h10]
  show _ = (Except.ok (), some (Wav.append ⟨_, _, _, []⟩ _))
  rw [← create_legal hl]
  rfl

/-- The hypotheses are met by the example stream, of two frames. -/
example : Complete (infoBlock false :: [paddingBlock false, commentBlock true]) ∧
    (infoBlock false).block = .streamInfo exampleInfo ∧
    (∀ b ∈ [paddingBlock false, commentBlock true], ¬ IsStreaminfo b) ∧
    (commentsIn [paddingBlock false, commentBlock true]).length ≤ 1 ∧
    [paddingBlock false, commentBlock true].length < 17 ∧
    (Encoded.samples [exampleEncoded, exampleEncoded]).length < 17 ∧
    (bytewise (streamMarker ++ metadataBytes (infoBlock false :: [paddingBlock false, commentBlock true]) ++
      Encoded.stream [exampleEncoded, exampleEncoded])).Delivers
      (streamMarker ++ metadataBytes (infoBlock false :: [paddingBlock false, commentBlock true]) ++
        Encoded.stream [exampleEncoded, exampleEncoded]) none :=
  ⟨exampleComplete, rfl, exampleMetadata.onlyOne, by decide, by decide, by decide, bytewise_delivers _⟩

/-- **C69.** On any file that can be opened: if reading a frame fails after some blocks, `decode_simple` has written
exactly the samples of these blocks, and returns that error. -/
theorem C69_simpleError {reader : FlacReader BufferedReader} {r r' r'' : BufferedReader} {blocks : List Block}
    {buffer : VecI32} {e : Error} {xs : List I32} (h : FlacReader.open' fuel files name = .ok reader)
    (hi : reader.blocks = .ok r) (hb : ReadsBlocks r .empty blocks r' buffer)
    (he : readNextOrEof buffer r' = (.error (.err e), r''))
    (hx : blocks.flatMap blockSamples = xs.map .ok) (hf : xs.length < fuel) (w : Option (Wav I32)) :
    decodeSimple fuel files name w =
      (.error (.err e), some ⟨reader.streaminfo.channels % 2 ^ 16, reader.streaminfo.sampleRate,
        reader.streaminfo.bitsPerSample % 2 ^ 16, xs⟩) := by
  refine (decodeSimple_of h ?_ hb hx hf w).2 e he
  unfold FlacReader.blocks at hi
  split at hi
  · cases hi; assumption
  · cases hi

theorem decode_start {reader : FlacReader BufferedReader} {r : BufferedReader}
    (h : FlacReader.open' fuel files name = .ok reader) (hi : reader.blocks = .ok r) (w : Option (Wav (BitVec 16))) :
    Examples.decode fuel files name w =
      if reader.streaminfo.bitsPerSample ≠ 16 ∨ reader.streaminfo.channels ≠ 2 then (.error (.panic .explicit), w)
      else decodeLoop fuel .empty r (some (Wav.create reader.streaminfo)) := by
  unfold Examples.decode
  rw [Dec.bind_liftM_of (show expect (FlacReader.open' fuel files name) = .ok reader by rw [h]; rfl)]
  by_cases h1 : reader.streaminfo.bitsPerSample ≠ 16
  · rw [if_pos h1, if_pos (.inl h1)]
    rfl
  · rw [if_neg h1]
    by_cases h2 : reader.streaminfo.channels ≠ 2
    · rw [if_pos h2, if_pos (.inr h2)]
      rfl
    · rw [if_neg h2, if_neg (by simp only [not_or]; exact ⟨h1, h2⟩), Dec.bind_set_run, Dec.bind_liftM_of hi]
      rfl

theorem simpleLoop_overflow : ∀ (xs : List I32) (fuel : Nat) (it : FlacSamples BufferedReader) (w : Option (Wav I32)),
    calls FlacSamples.next (xs.length + 1) it =
      xs.map (fun x => .ok (some (.ok x))) ++ [.error (.panic .overflow)] → xs.length < fuel →
    (forLoop FlacSamples.next simpleBody fuel it w).1 = .error (.panic .overflow)
  | [], fuel, it, w, hc, hf => by
    obtain ⟨fuel, rfl⟩ : ∃ k, fuel = k + 1 := ⟨fuel - 1, by simp at hf; omega⟩
    have h1 : (FlacSamples.next it).1 = .error (.panic .overflow) := by simpa [calls] using hc
    rw [forLoop]
    generalize FlacSamples.next it = x at h1 ⊢
    rcases x with ⟨x, it'⟩
    subst h1
    rfl
  | x :: xs, fuel, it, w, hc, hf => by
    obtain ⟨fuel, rfl⟩ : ∃ k, fuel = k + 1 := ⟨fuel - 1, by simp at hf; omega⟩
    rw [List.length_cons, calls] at hc
    simp only [List.map_cons, List.cons_append, List.cons.injEq] at hc
    obtain ⟨h1, h2⟩ := hc
    rw [forLoop]
    generalize FlacSamples.next it = y at h1 h2 ⊢
    rcases y with ⟨y, it'⟩
    subst h1
    exact simpleLoop_overflow xs fuel it' _ h2 (by simp at hf; omega)

/-- A file with one frame, followed by two bytes that are not the beginning of a frame. -/
def brokenFile : List U8 :=
  streamMarker ++ metadataBytes (infoBlock false :: [paddingBlock false, commentBlock true]) ++
    exampleFrame.bytes 16 ++ [0xff#8, 0xff#8]

example : decodeSimple 9 (fun _ => .ok (bytewise brokenFile)) "broken.flac" none =
    (.error (.err (.formatError "frame sync code missing")),
      some ⟨2, 44100, 16, [5, 3, 7, 4, 6, 8, 6, 2].map (BitVec.ofInt 32)⟩) := by decide +kernel

/-- **C69.** `decode_simple` comes to an end on every finite file, without a panic but for the overflow of C27, for which
the file must have `2 ^ 32 - 1` zero bits in a row. -/
theorem C69_simpleReturns {bytes : List U8} {fault : Option Nat}
    (hfile : ∀ src, files name = .ok src → src.Delivers bytes fault)
    (hf : 20165 * bytes.length < fuel) (w : Option (Wav I32)) :
    Returns (decodeSimple fuel files name w).1 ∨
      (decodeSimple fuel files name w).1 = .error (.panic .overflow) ∧ LongZeros (bytesToBits bytes) := by
  cases hs : files name with
  | error e =>
    refine .inl <| .inr ⟨.ioError e, ?_⟩
    unfold decodeSimple FlacReader.open'
    rw [hs]
    rfl
  | ok src =>
    have hd := hfile src hs
    have hr : Returns (FlacReader.open' fuel files name) := by
      rw [open_of hs]
      exact newExt_returns hd (by omega)
    rcases hr with ⟨reader, ho⟩ | ⟨e, ho⟩
    · obtain ⟨first, more, info, vc, r', rest, hb, -, rfl, hr⟩ := newExt_ok hd ((open_of hs).symm.trans ho)
      obtain ⟨samples, last, h1, h2⟩ := C59_ending hr
      have hl : samples.length < fuel := by
        rw [hb, List.length_append] at hf
        omega
      have start : decodeSimple fuel files name w =
          forLoop FlacSamples.next simpleBody fuel (FlacSamples.new r') (some (Wav.create info)) := by
        unfold decodeSimple
        rw [Dec.bind_liftM_of ho, Dec.bind_set_run]
        rfl
      rw [start]
      rcases h2 with ⟨h2, h3⟩ | ⟨rfl, hz, h3⟩
      · have h4 : calls FlacSamples.next (samples.length + 1) (FlacSamples.new r') =
            samples.map (fun x => .ok (some (.ok x))) ++ [last] := by simpa using h3 0
        cases h2 with
        | none => exact .inl (.inl ⟨_, congrArg Prod.fst ((simpleLoop samples fuel _ _ none h4 hl).1 rfl)⟩)
        | error e => exact .inl (.inr ⟨_, congrArg Prod.fst ((simpleLoop samples fuel _ _ _ h4 hl).2 e rfl)⟩)
      · exact .inr ⟨simpleLoop_overflow samples fuel _ _ h3 hl,
          longZeros_suffix hz (by rw [hb]; exact List.suffix_append _ _)⟩
    · refine .inl <| .inr ⟨e, ?_⟩
      unfold decodeSimple
      rw [ho]
      rfl

example : (bytewise brokenFile).Delivers brokenFile none ∧ ¬ LongZeros (bytesToBits brokenFile) :=
  ⟨bytewise_delivers _, not_longZeros (by decide +kernel)⟩

/-- **C69.** `decode`, on a file with a stream as in C24 of two channels and 16 bits per sample, writes a WAV file with
the number of channels, the sample rate and the bits per sample of the streaminfo, and exactly the samples of the
stream, in order. -/
theorem C69_decode (es : List Encoded) (hc : Complete (first :: more))
    (h1 : first.block = .streamInfo info) (h2 : ∀ b ∈ more, ¬ IsStreaminfo b)
    (h3 : (commentsIn more).length ≤ 1) (hf : more.length < fuel) (hf' : es.length < fuel)
    (hch : info.channels = 2) (hbps : info.bitsPerSample = 16)
    (hes : ∀ e ∈ es, e.channels.length = 2 ∧ e.bps = 16)
    (hfile : files name = .ok src)
    (hd : src.Delivers (streamMarker ++ metadataBytes (first :: more) ++ Encoded.stream es) none)
    (w : Option (Wav (BitVec 16))) :
    ∃ samples : List (BitVec 16),
      Examples.decode fuel files name w = (.ok (), some ⟨2, info.sampleRate, 16, samples⟩) ∧
      samples.map BitVec.toInt = Encoded.samples es := by
  obtain ⟨r', h4, h5⟩ := newExt_of
    (metadata_of_complete (o := FlacReaderOptions.default) rfl hc h1 h2 h3) hf hd
  have hl : info.Legal := BodyEncodes.info_legal first.encodes h1
  obtain ⟨blocks, r₁, buffer, h6, h7, h8, h9⟩ := encoded_counts es .empty (rest := []) (by rwa [List.append_nil])
  obtain ⟨r₂, h10, -⟩ := Sim.ok ((simBufferedRd none).readNextOrEof buffer) h7 (readNextOrEof_nil buffer)
  have hlen : blocks.length = es.length := by simpa using congrArg List.length h8
  have htwo : ∀ b ∈ blocks, b.channels = 2 := by
    intro b hb
    have : b.channels ∈ blocks.map Block.channels := List.mem_map_of_mem hb
    rw [h8] at this
    obtain ⟨e, he, h⟩ := List.mem_map.1 this
    rw [← h, (hes e he).1]
  obtain ⟨xs, h11, h12⟩ := decodeLoop_of h6 htwo h10 (fuel := fuel) (by omega)
  obtain rfl := samplesOf_unique h9 h11
  refine ⟨((Encoded.samples es).map (BitVec.ofInt 32)).map (BitVec.setWidth 16), ?_, ?_⟩
  · rw [decode_start ((open_of hfile).trans h4) (r := r') rfl]
    show (if info.bitsPerSample ≠ 16 ∨ info.channels ≠ 2 then _ else decodeLoop fuel .empty r'
      (some (Wav.create info))) = _
    rw [if_neg (by omega), h12, create_legal hl, hch, hbps]
    rfl
  · rw [List.map_map, List.map_map]
    conv => rhs; rw [← List.map_id (Encoded.samples es)]
    refine List.map_congr_left fun i hi => ?_
    unfold Encoded.samples interleave at hi
    simp only [List.mem_flatMap, List.mem_filterMap] at hi
    obtain ⟨e, he, j, -, c, hc, hi⟩ := hi
    have hfit := e.encodes.range c hc i (List.mem_of_getElem? hi)
    rw [(hes e he).2] at hfit
    show ((BitVec.ofInt 32 i).setWidth 16).toInt = i
    have e : (BitVec.ofInt 32 i).setWidth 16 = BitVec.ofInt 16 i := by
      apply BitVec.eq_of_toNat_eq
      simp only [BitVec.toNat_setWidth, BitVec.toNat_ofInt]
      omega
    rw [e, toInt_ofInt_fits hfit]

example : exampleInfo.channels = 2 ∧ exampleInfo.bitsPerSample = 16 ∧
    ∀ e ∈ [exampleEncoded, exampleEncoded], e.channels.length = 2 ∧ e.bps = 16 := by decide

/-- A file that was opened has an input. -/
theorem open_blocks {reader : FlacReader BufferedReader} (h : FlacReader.open' fuel files name = .ok reader) :
    ∃ r, reader.input = .full r ∧ reader.blocks = .ok r := by
  unfold FlacReader.open' at h
  cases hfile : files name with
  | error e => rw [hfile] at h; cases h
  | ok src =>
    rw [hfile] at h
    change FlacReader.newExt fuel src .default = .ok reader at h
    unfold FlacReader.newExt FlacReader.newExtGen at h
    rcases hx : openStream fuel .default (BufferedReader.new src) with ⟨f | ⟨info, vc⟩, r'⟩
    · rw [hx] at h; cases h
    · rw [hx] at h; cases h
      exact ⟨r', rfl, rfl⟩

/-- **C69.** On any file: if `decode` succeeds, then so does `decode_simple`, and it writes the same WAV file, except that
`decode` has reduced the samples to 16 bits. -/
theorem C69_agree {w : Option (Wav (BitVec 16))} {wav : Wav (BitVec 16)}
    (h : Examples.decode fuel files name w = (.ok (), some wav)) (hf : wav.samples.length < fuel)
    (w' : Option (Wav I32)) :
    ∃ xs : List I32, decodeSimple fuel files name w' = (.ok (), some ⟨2, wav.sampleRate, 16, xs⟩) ∧
      wav = ⟨2, wav.sampleRate, 16, xs.map (BitVec.setWidth 16)⟩ := by
  cases ho : FlacReader.open' fuel files name with
  | error f =>
    unfold Examples.decode at h
    rw [ho] at h
    cases f <;> cases h
  | ok reader =>
    obtain ⟨r, hi, hb⟩ := open_blocks ho
    rw [decode_start ho hb] at h
    by_cases hc : reader.streaminfo.bitsPerSample ≠ 16 ∨ reader.streaminfo.channels ≠ 2
    · rw [if_pos hc] at h; cases h
    · rw [if_neg hc] at h
      simp only [not_or, not_not] at hc
      obtain ⟨blocks, xs, r', buffer, h1, h2, h3, h4, h5⟩ := decodeLoop_cases fuel .empty r
        (some (Wav.create reader.streaminfo))
      rw [h] at h4 h5
      rcases h5 with ⟨-, h5⟩ | ⟨-, h5⟩
      · cases h5
      · cases h5 with
        | done h5 =>
          simp only [Option.map_some, Option.some.injEq] at h4
          have hw : wav = ⟨2, reader.streaminfo.sampleRate, 16, xs.map (BitVec.setWidth 16)⟩ := by
            rw [h4]; simp [Wav.append, Wav.create, hc.1, hc.2]
          refine ⟨xs, ?_, ?_⟩
          · rw [(decodeSimple_of ho hi h1 h3 (by rw [hw] at hf; simpa using hf) w').1 h5, hw]
            simp [Wav.append, Wav.create, hc.1, hc.2]
          · rw [hw]

example : Examples.decode 9 (fun _ => .ok (bytewise (brokenFile.take (brokenFile.length - 2)))) "a.flac" none =
    (.ok (), some ⟨2, 44100, 16, [5, 3, 7, 4, 6, 8, 6, 2].map (BitVec.ofInt 16)⟩) := by decide +kernel

/-- `decode` panics on the broken file, but has written the samples of its first frame. -/
example : Examples.decode 9 (fun _ => .ok (bytewise brokenFile)) "broken.flac" none =
    (.error (.panic .explicit), some ⟨2, 44100, 16, [5, 3, 7, 4, 6, 8, 6, 2].map (BitVec.ofInt 16)⟩) := by
  decide +kernel

/-- **C69.** The unchecked writes of `decode`: for every decoded block with two channels they stay within the room that
was requested (an unchecked write out of bounds would be `ub`) and fill it exactly (otherwise `flush` panics), with the
samples of the block. -/
theorem C69_unchecked {σ : Type} [ReadBytes σ] {buffer : VecI32} {b : Block} {s s' : σ}
    (h : readNextOrEof buffer s = (.ok (some b), s')) (h2 : b.channels = 2) :
    ∃ xs : List I32, decodeBlock b = .ok (xs.map (BitVec.setWidth 16)) ∧ blockSamples b = xs.map .ok :=
  decodeBlock_of h h2

example : ∃ (b : Block) (r' : BufferedReader),
    readNextOrEof .empty (BufferedReader.new (bytewise (exampleFrame.bytes 16))) = (.ok (some b), r') ∧
      b.channels = 2 ∧ b.duration ≠ 0 := by
  obtain ⟨b, r', h1, h2, h3⟩ := example_read
  exact ⟨b, r', h1, h2, by omega⟩

/-- **C69.** `decode` ends on every finite file: it succeeds, or panics where it says so (the file cannot be opened, is
not of two channels and 16 bits, or there is an error in it), or there is the overflow of C27. In particular there are
no unchecked writes out of bounds. -/
theorem C69_decodeEnds {bytes : List U8} {fault : Option Nat}
    (hfile : ∀ src, files name = .ok src → src.Delivers bytes fault)
    (hf : bytes.length < fuel) (w : Option (Wav (BitVec 16))) :
    (Examples.decode fuel files name w).1 = .ok () ∨
      (Examples.decode fuel files name w).1 = .error (.panic .explicit) ∨
      (Examples.decode fuel files name w).1 = .error (.panic .overflow) ∧ LongZeros (bytesToBits bytes) := by
  have refused : ∀ e, FlacReader.open' fuel files name = .error (.err e) →
      (Examples.decode fuel files name w).1 = .error (.panic .explicit) := by
    intro e he
    unfold Examples.decode
    rw [he]
    rfl
  cases hs : files name with
  | error e =>
    refine .inr (.inl (refused (.ioError e) ?_))
    unfold FlacReader.open'
    rw [hs]
    rfl
  | ok src =>
    have hd := hfile src hs
    have hr : Returns (FlacReader.open' fuel files name) := by
      rw [open_of hs]
      exact newExt_returns hd (by omega)
    rcases hr with ⟨reader, ho⟩ | ⟨e, ho⟩
    · obtain ⟨first, more, info, vc, r, rest, hb, -, rfl, hr⟩ := newExt_ok hd ((open_of hs).symm.trans ho)
      have hl : rest.length < fuel := by
        rw [hb, List.length_append] at hf
        omega
      rw [decode_start ho rfl, show (FlacReader.make .default info vc r).streaminfo = info from rfl]
      by_cases hc : info.bitsPerSample ≠ 16 ∨ info.channels ≠ 2
      · exact .inr (.inl (by rw [if_pos hc]))
      · rw [if_neg hc]
        obtain ⟨blocks, xs, r', buffer, h1, h2, h3, h4, h5⟩ := decodeLoop_cases fuel .empty r
          (some (Wav.create info))
        have hn := (C59_blocks hr h1).1
        rcases h5 with ⟨h5, -⟩ | ⟨-, h5⟩
        · omega
        · generalize (decodeLoop fuel .empty r (some (Wav.create info))).1 = x at h5 ⊢
          have key : ∀ {r r' : BufferedReader} {rest : List U8} {buffer buffer' : VecI32} {blocks : List Block},
              r.Remaining rest fault → ReadsBlocks r buffer blocks r' buffer' →
              ∃ rest', r'.Remaining rest' fault ∧ rest' <:+ rest := by
            intro r r' rest buffer buffer' blocks hr h
            induction h generalizing rest with
            | nil => exact ⟨rest, hr, List.suffix_rfl⟩
            | cons h _ ih =>
              obtain ⟨used, rest', rfl, hr', -, -⟩ := C59_block hr h
              obtain ⟨rest'', h1, h2⟩ := ih hr'
              exact ⟨rest'', h1, h2.trans (List.suffix_append _ _)⟩
          obtain ⟨rest', hr', hsuf⟩ := key hr h1
          cases h5 with
          | done => exact .inl rfl
          | error => exact .inr (.inl rfl)
          | notStereo => exact .inr (.inl rfl)
          | fail h hne =>
            rename_i f _
            have := C27_partial buffer hr'
            rw [h] at this
            rcases this with (⟨_, h⟩ | ⟨e, h⟩) | ⟨h, hz⟩ <;> cases h
            · exact absurd rfl (hne e)
            · exact .inr (.inr ⟨rfl, longZeros_suffix hz
                (hsuf.trans (by rw [hb]; exact List.suffix_append _ _))⟩)
    · exact .inr (.inl (refused e ho))

example : ∀ src, (fun _ : String => (.ok (bytewise brokenFile) : Except IoError Src)) "broken.flac" = .ok src →
    src.Delivers brokenFile none := by
  rintro _ ⟨⟩
  exact bytewise_delivers _

end Claxon.Props
