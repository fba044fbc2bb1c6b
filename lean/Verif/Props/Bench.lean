import Verif.Model.Bench
import Verif.Props.Position
import Verif.Props.Session
import Verif.Props.Header

/-! # C89: the benchmark programs -/

namespace Claxon.Props

open Claxon Spec ReadBytes Examples

variable {fuel : Nat} {data : List U8}

/-! ## bench_decode -/

/-- How `bench_decode` ends after the last block of a stream. -/
def benchEnd : SessionEnd → Res (List Nat)
  | .finished => .ok []
  | .failed _ => .error (.panic .explicit)
  | .overflowed => .error (.panic .overflow)

/-- The numbers of samples of some blocks. -/
def lensOf (blocks : List (Nat × List (List Int))) : List Nat := blocks.map fun b => (b.2.headD []).length * b.2.length

theorem benchLoop_of {r r' : BufferedReader} {buffer buffer' : VecI32} {bs : List Block}
    {blocks : List (Nat × List (List Int))} {last : SessionEnd} (h : ReadsBlocks r buffer bs r' buffer')
    (hb : List.Forall₂ (fun (b : Block) (x : Nat × List (List Int)) => b.Holds x.1 x.2) bs blocks)
    (he : (readNextOrEof buffer' r').1 = endOf last) : ∀ {fuel : Nat}, bs.length < fuel →
      benchLoop fuel buffer r = (benchEnd last).map (lensOf blocks ++ ·) ∧ 0 ∉ lensOf blocks := by
  induction h generalizing blocks with
  | @nil s buffer =>
    rintro (_ | fuel) hf
    · cases hf
    cases hb
    refine ⟨?_, by simp [lensOf]⟩
    rw [benchLoop]
    generalize readNextOrEof buffer s = x at he
    obtain ⟨x, s'⟩ := x
    obtain rfl : x = endOf last := he
    cases last <;> rfl
  | @cons s s₁ s' buffer buffer' b bs h next ih =>
    rintro (_ | fuel) hf
    · cases hf
    obtain ⟨x, blocks, hx, hbs, rfl⟩ : ∃ x bl, b.Holds x.1 x.2 ∧ List.Forall₂ _ bs bl ∧ blocks = x :: bl := by
      cases hb with
      | cons h1 h2 => exact ⟨_, _, h1, h2, rfl⟩
    obtain ⟨h1, h2⟩ := ih hbs he (fuel := fuel) (by simpa using hf)
    have hp := post_block _ _ _ _ h _ rfl
    have hc := hx.count
    have hd : (x.2.headD []).length = b.duration := by
      rcases hx2 : x.2 with - | ⟨c, cs⟩
      · rw [hx2] at hc
        have := hp.channels
        simp at hc
        omega
      · exact hx.duration c (by rw [hx2]; simp)
    have hlen : lensOf (x :: blocks) = b.duration * x.2.length :: lensOf blocks := by
      rw [lensOf, List.map_cons, hd]
      rfl
    refine ⟨?_, ?_⟩
    · rw [benchLoop, h]
      show (do let len ← b.len; let lens ← benchLoop fuel b.intoBuffer s₁; pure (len :: lens) : Res _) = _
      rw [hx.len, h1, hlen]
      cases last <;> rfl
    · rw [hlen]
      simp only [List.mem_cons, not_or]
      refine ⟨?_, h2⟩
      have h3 := hp.channels
      have h4 := hp.blockSize
      rw [← hc]
      exact (Nat.mul_pos (by show 0 < b.blockSize; omega) (by omega)).ne

/-- What comes of `bench_decode`, for an input with the given outcome: five runs with the number of samples according to
the streaminfo and the blocks, or a panic. -/
def benchOutcome (bytes : Nat) : SessionResult → Res (List BenchRun)
  | .failed _ => .error (.panic .explicit)
  | .opened info _ blocks last =>
    match info.samples, last with
    | none, _ => .error (.panic .explicit)
    | some _, .failed _ => .error (.panic .explicit)
    | some _, .overflowed => .error (.panic .overflow)
    | some n, .finished =>
      if blocks = [] then .error (.panic .index)
      else .ok (List.replicate 5 ⟨BitVec.ofNat 64 (n * info.channels), bytes, lensOf blocks⟩)

theorem index_ok {α : Type} {xs : List α} {i : Nat} (h : i < xs.length) : ∃ x, index xs i = .ok x :=
  ⟨xs[i], by rw [index, List.getElem?_eq_getElem h]⟩

theorem printStats_ok {lens : List Nat} (h0 : 0 ∉ lens) (hne : lens ≠ []) (hl : lens.length < 2 ^ 57) :
    printStats lens = .ok () := by
  have hpos : 0 < lens.length := List.length_pos_iff.2 hne
  have hm : ∀ k, k ≤ 90 → mulU 64 k lens.length = .ok (k * lens.length) ∧
      ∃ x, index lens (k * lens.length / 100) = .ok x := by
    intro k hk
    have h1 : k * lens.length ≤ 90 * lens.length := Nat.mul_le_mul_right _ hk
    exact ⟨by rw [mulU, if_pos (by omega)], index_ok (by omega)⟩
  obtain ⟨h1, x, h2⟩ := hm 10 (by omega)
  obtain ⟨h3, y, h4⟩ := hm 50 (by omega)
  obtain ⟨h5, z, h6⟩ := hm 90 (by omega)
  unfold printStats
  rw [assert, if_pos (decide_eq_true h0)]
  show (do let a ← mulU 64 10 lens.length; let _ ← index lens (a / 100)
           let b ← mulU 64 50 lens.length; let _ ← index lens (b / 100)
           let c ← mulU 64 90 lens.length; let _ ← index lens (c / 100) : Res Unit) = _
  rw [h1, h3, h5]
  show (do let _ ← index lens (10 * lens.length / 100); let _ ← index lens (50 * lens.length / 100)
           let _ ← index lens (90 * lens.length / 100) : Res Unit) = _
  rw [h2, h4, h6]
  rfl

theorem benchRuns_ok {run : BenchRun} (h1 : benchFile fuel data = .ok run) (h2 : printStats run.lens = .ok ()) :
    ∀ n, benchRuns fuel data n = .ok (List.replicate n run)
  | 0 => rfl
  | n + 1 => by
    rw [benchRuns, h1]
    show (do printStats run.lens; let more ← benchRuns fuel data n; pure (run :: more) : Res _) = _
    rw [h2, benchRuns_ok h1 h2 n]
    rfl

theorem benchRuns_error {f : Fail} (h1 : benchFile fuel data = .error f) : benchMain fuel data = .error f := by
  rw [benchMain, benchRuns, h1]
  rfl

/-- **C89.** What `bench_decode` does is determined by the outcome (C84) of the input: it panics deliberately if the file
cannot be opened, if there is an error in it, and if the streaminfo does not have the number of samples. If there are no
frames, the index of a percentile is out of bounds. Otherwise it makes five runs through all blocks of the stream; what
it divides by is not zero, and nothing overflows. -/
theorem C89_decode {result : SessionResult} (h : Session .default none data result)
    (hf : data.length < fuel) (hl : data.length < 2 ^ 57) :
    ∃ bytes, benchMain fuel data = benchOutcome bytes result ∧
      ∀ info vc blocks last, result = .opened info vc blocks last → dataBytes fuel data = .ok bytes := by
  have hd := memory_delivers data
  cases h with
  | opened first more info vc hm rest blocks last h =>
    generalize hdata : streamMarker ++ metadataBytes (first :: more) ++ rest = data at *
    have hlen := length_metadataBytes more
    have hle : more.length + rest.length < fuel := by
      rw [← hdata, metadataBytes_cons] at hf
      simp only [List.length_append] at hf
      omega
    obtain ⟨r, h1, h2⟩ := newExt_of (fuel := fuel) hm (by omega)
      (show (memory data).Delivers (streamMarker ++ metadataBytes (first :: more) ++ rest) none by rw [hdata]; exact hd)
    have hnew : FlacReader.new fuel (memory data) = .ok (FlacReader.make .default info vc r) := h1
    obtain ⟨bytes, hbytes⟩ : ∃ bytes, dataBytes fuel data = .ok bytes := by
      unfold dataBytes
      rw [hnew]
      show ∃ bytes, subU _ _ _ = _
      rw [subU, if_pos (show memoryPosition _ _ ≤ _ from Nat.min_le_right _ _)]
      exact ⟨_, rfl⟩
    have hinfo : info.Legal := BodyEncodes.info_legal first.encodes hm.streaminfo
    refine ⟨bytes, ?_, fun _ _ _ _ _ => hbytes⟩
    have hch := hinfo.channels
    have hmax := hinfo.maxBlockSize
    have hbps := hinfo.bitsPerSample
    have hmul : info.maxBlockSize * info.channels ≤ 2 ^ 16 * 8 := Nat.mul_le_mul (Nat.le_of_lt hmax) hch.2
    cases hn : info.samples with
    | none =>
      refine (benchRuns_error (f := .panic .explicit) ?_).trans (by simp only [benchOutcome, hn])
      unfold benchFile
      rw [hbytes, hnew]
      show (unwrapSome info.samples >>= _) = _
      rw [hn]
      rfl
    | some n =>
      have hn36 := (hinfo.samples n hn).2
      have hprod : n * info.channels ≤ 2 ^ 36 * 8 := Nat.mul_le_mul (Nat.le_of_lt hn36) hch.2
      have hi64 : mulI64 (BitVec.ofNat 64 n) (BitVec.ofNat 64 info.channels) =
          .ok (BitVec.ofNat 64 (n * info.channels)) := by
        have e1 : (BitVec.ofNat 64 n).toInt = n := by
          have e : (BitVec.ofNat 64 n).toNat = n := Nat.mod_eq_of_lt (by omega)
          rw [BitVec.toInt_eq_toNat_of_lt (by rw [e]; omega), e]
        have e2 : (BitVec.ofNat 64 info.channels).toInt = info.channels := by
          have e : (BitVec.ofNat 64 info.channels).toNat = info.channels := Nat.mod_eq_of_lt (by omega)
          rw [BitVec.toInt_eq_toNat_of_lt (by rw [e]; omega), e]
        rw [mulI64, e1, e2, if_pos, BitVec.ofNat_mul]
        rw [← Int.natCast_mul]
        omega
      have hfile : benchFile fuel data =
          (benchLoop fuel ⟨[], info.maxBlockSize * info.channels⟩ r).map
            fun lens => ⟨BitVec.ofNat 64 (n * info.channels), bytes, lens⟩ := by
        unfold benchFile
        rw [hbytes, hnew]
        show (unwrapSome info.samples >>= _) = _
        rw [hn]
        show (mulI64 (BitVec.ofNat 64 n) (BitVec.ofNat 64 info.channels) >>= _) = _
        rw [hi64]
        show (assert (info.bitsPerSample < 8 * 16) >>= _) = _
        rw [assert, if_pos (decide_eq_true (by omega))]
        show (mulU 64 info.maxBlockSize info.channels >>= _) = _
        rw [mulU, if_pos (by omega)]
        show (benchLoop fuel ⟨[], info.maxBlockSize * info.channels⟩ r >>= _) = _
        cases benchLoop fuel ⟨[], info.maxBlockSize * info.channels⟩ r <;> rfl
      obtain ⟨bs, r', buffer', h3, h4, h5⟩ := C84_blocks h ⟨[], info.maxBlockSize * info.channels⟩ h2
      have hcount := (C59_blocks h2 h3).1
      obtain ⟨h6, h7⟩ := benchLoop_of h3 h4 h5 (fuel := fuel) (by omega)
      rw [h6] at hfile
      cases last with
      | failed e => exact (benchRuns_error hfile).trans (by simp only [benchOutcome, hn])
      | overflowed => exact (benchRuns_error hfile).trans (by simp only [benchOutcome, hn])
      | finished =>
        have hfile' : benchFile fuel data = .ok ⟨BitVec.ofNat 64 (n * info.channels), bytes, lensOf blocks⟩ := by
          rw [hfile]
          simp only [benchEnd, Except.map, List.append_nil]
        simp only [benchOutcome, hn]
        split
        · rename_i he
          subst he
          rw [benchMain, benchRuns, hfile']
          rfl
        · rename_i he
          refine benchRuns_ok hfile' (printStats_ok h7 (by simpa [lensOf] using he) ?_) 5
          have h8 : (lensOf blocks).length = bs.length := by
            rw [lensOf, List.length_map]
            exact h4.length_eq.symm
          have h9 : rest.length ≤ data.length := by
            rw [← hdata, List.length_append]
            exact Nat.le_add_left _ _
          show (lensOf blocks).length < _
          omega
  | refused used rest e h =>
    have h1 : FlacReader.newExt fuel (memory (used ++ rest)) .default = .error (.err e) :=
      C84_session (.refused used rest e h) hd (by omega)
    refine ⟨0, benchRuns_error ?_, nofun⟩
    unfold benchFile dataBytes
    rw [show FlacReader.new fuel (memory (used ++ rest)) = .error (.err e) from h1]
    rfl
  | cut _ hm he =>
    have h1 : FlacReader.newExt fuel (memory data) .default = _ :=
      C84_session (.cut data hm he) hd (by omega)
    refine ⟨0, benchRuns_error ?_, nofun⟩
    unfold benchFile dataBytes
    rw [show FlacReader.new fuel (memory data) = _ from h1]
    rfl

/-! ## bench_metadata -/

/-- The names of the tags that `bench_metadata` looks up. -/
def wantedTags : List String :=
  ["title", "album", "artist", "albumartist", "artistsort", "albumartistsort", "tracknumber", "tracktotal",
    "discnumber", "disctotal", "date", "originaldate", "musicbrainz_trackid", "musicbrainz_albumid",
    "musicbrainz_artistid", "musicbrainz_albumartistid"]

/-- A file with these tags has all that `bench_metadata` looks up. -/
def AllTags (tags : List Tag) : Prop := ∀ name ∈ wantedTags, ∃ t ∈ tags, sameName t.name (utf8 name)

instance (tags : List Tag) : Decidable (AllTags tags) := by unfold AllTags; infer_instance

theorem expectTags_of {σ : Type} {reader : FlacReader σ} {tags : List Tag} (ht : ∀ t ∈ tags, t.Legal)
    (hr : ∀ name, reader.getTag name = GetTag.new (storedTags tags) name) : ∀ names : List String,
    expectTags reader names =
      if ∀ name ∈ names, ∃ t ∈ tags, sameName t.name (utf8 name) then .ok () else .error (.panic .explicit)
  | [] => by rw [if_pos (by simp)]; rfl
  | name :: names => by
    have h1 : (getTagNext (reader.getTag (utf8 name))).1 =
        .ok ((tags.filter fun t => sameName t.name (utf8 name)).map fun t => t.value)[0]? := by
      have := C41_tags ht (utf8 name) 1
      rw [← hr] at this
      exact List.head_eq_of_cons_eq this
    rw [expectTags, h1]
    rcases hx : tags.filter (fun t => sameName t.name (utf8 name)) with - | ⟨t, ts⟩
    · rw [hx, if_neg]
      · rfl
      intro h
      obtain ⟨t, h2, h3⟩ := h name (by simp)
      exact List.filter_eq_nil_iff.1 hx t h2 h3
    · have hm : t ∈ tags.filter (fun t => sameName t.name (utf8 name)) := by rw [hx]; simp
      obtain ⟨h2, h3⟩ := List.mem_filter.1 hm
      have e : (∀ n ∈ name :: names, ∃ t ∈ tags, sameName t.name (utf8 n)) ↔
          ∀ n ∈ names, ∃ t ∈ tags, sameName t.name (utf8 n) := by
        simp only [List.mem_cons, forall_eq_or_imp, and_iff_right_iff_imp]
        exact fun _ => ⟨t, h2, h3⟩
      simp only [e, hx]
      exact expectTags_of ht hr names

theorem mem_benchTags (name : String) : name ∈ benchTags ↔ name ∈ wantedTags := by
  simp only [benchTags, wantedTags, List.mem_cons, List.not_mem_nil, or_false]
  tauto

theorem benchOpen_of {files : FlacReader.Files} {name : String} {tags : List Tag} (h : HasTags fuel files name tags) :
    ∀ runs, benchOpen fuel files name (runs + 1) = if AllTags tags then .ok () else .error (.panic .explicit) := by
  obtain ⟨src, first, more, info, rest, fault, hfile, hc, h1, h2, h3, ht, hf, hd⟩ := h
  obtain ⟨r, h4, -⟩ := newExt_of (metadata_of_complete (o := FlacReaderOptions.default) rfl hc h1 h2
      (by rcases h3 with ⟨vendor, h3⟩ | ⟨h3, -⟩ <;> rw [h3] <;> simp)) hf hd
  change FlacReader.new fuel src =
    .ok (FlacReader.make FlacReaderOptions.default info (commentsIn more).head? r) at h4
  generalize hr : FlacReader.make FlacReaderOptions.default info (commentsIn more).head? r = reader at h4
  have hopen : FlacReader.open' fuel files name = .ok reader := (open_of hfile).trans h4
  have htags := expectTags_of (reader := reader) ht (by
    intro name
    rw [← hr]
    rcases h3 with ⟨vendor, h3⟩ | ⟨h3, rfl⟩ <;> rw [h3] <;> rfl) benchTags
  have step : ∀ runs, benchOpen fuel files name (runs + 1) =
      if AllTags tags then benchOpen fuel files name runs else .error (.panic .explicit) := by
    intro runs
    rw [benchOpen, hopen]
    show (do expectTags reader benchTags; benchOpen fuel files name runs : Res Unit) = _
    rw [htags]
    simp only [mem_benchTags]
    show (do (if AllTags tags then .ok () else .error (.panic .explicit)); benchOpen fuel files name runs : Res Unit) = _
    split <;> rfl
  intro runs
  induction runs with
  | zero =>
    rw [step]
    rfl
  | succ runs ih =>
    rw [step, ih]
    split <;> rfl

/-- **C89.** `bench_metadata`, on files with metadata, succeeds if all of them have all the tags that it looks up, in
whatever case, and there is at least one file. If a tag is missing it panics deliberately, and without any file the index
of a percentile is out of bounds. -/
theorem C89_metadata {files : FlacReader.Files} {inputs : List (String × List Tag)}
    (h : ∀ p ∈ inputs, HasTags fuel files p.1 p.2) (hl : inputs.length < 2 ^ 57) :
    benchMetadata fuel files (inputs.map (·.1)) =
      if inputs = [] then .error (.panic .index)
      else if ∀ p ∈ inputs, AllTags p.2 then .ok ()
      else .error (.panic .explicit) := by
  have hb : benchFiles fuel files (inputs.map (·.1)) =
      if ∀ p ∈ inputs, AllTags p.2 then .ok () else .error (.panic .explicit) := by
    clear hl
    induction inputs with
    | nil => rw [if_pos (by simp)]; rfl
    | cons p inputs ih =>
      rw [List.map_cons, benchFiles, benchOpen_of (h p (by simp)), ih fun q hq => h q (by simp [hq])]
      by_cases h1 : AllTags p.2
      · rw [if_pos h1]
        simp only [List.mem_cons, forall_eq_or_imp, h1, true_and]
        rfl
      · have h2 : ¬ ∀ q ∈ p :: inputs, AllTags q.2 := fun h => h1 (h p (by simp))
        rw [if_neg h1, if_neg h2]
        rfl
  unfold benchMetadata
  rw [hb]
  by_cases hne : inputs = []
  · subst hne
    rw [if_pos (by simp), if_pos rfl]
    rfl
  · rw [if_neg hne]
    split
    · have hpos : 0 < inputs.length := List.length_pos_iff.2 hne
      have hm : ∀ k, k ≤ 90 → mulU 64 k (inputs.map (·.1)).length = .ok (k * inputs.length) ∧
          ∃ x, index (inputs.map (·.1)) (k * inputs.length / 100) = .ok x := by
        intro k hk
        have h1 : k * inputs.length ≤ 90 * inputs.length := Nat.mul_le_mul_right _ hk
        exact ⟨by rw [mulU, List.length_map, if_pos (by omega)], index_ok (by rw [List.length_map]; omega)⟩
      obtain ⟨h1, x, h2⟩ := hm 10 (by omega)
      obtain ⟨h3, y, h4⟩ := hm 50 (by omega)
      obtain ⟨h5, z, h6⟩ := hm 90 (by omega)
      show (do let a ← mulU 64 10 (inputs.map (·.1)).length; let _ ← index (inputs.map (·.1)) (a / 100)
               let b ← mulU 64 50 (inputs.map (·.1)).length; let _ ← index (inputs.map (·.1)) (b / 100)
               let c ← mulU 64 90 (inputs.map (·.1)).length; let _ ← index (inputs.map (·.1)) (c / 100) : Res Unit) = _
      rw [h1, h3, h5]
      show (do let _ ← index (inputs.map (·.1)) (10 * inputs.length / 100)
               let _ ← index (inputs.map (·.1)) (50 * inputs.length / 100)
               let _ ← index (inputs.map (·.1)) (90 * inputs.length / 100) : Res Unit) = _
      rw [h2, h4, h6]
      rfl
    · rfl

/-! ## Examples -/

/-- An input with two frames. -/
def benchData : List U8 := streamMarker ++ metadataBytes [infoBlock true] ++ (exampleFrame.bytes 16 ++ exampleFrame.bytes 16)

example : benchMain 9 benchData =
    .ok (List.replicate 5 ⟨BitVec.ofNat 64 (exampleInfo.samples.getD 0 * 2), 0, [8, 8]⟩) := by decide +kernel

example : ∃ result, Session .default none benchData result ∧ benchData.length < 2 ^ 57 :=
  (C84_sessionTotal _ _ _).imp fun _ h => ⟨h, by decide +kernel⟩

/-- An input without frames. -/
example : benchMain 9 (streamMarker ++ metadataBytes [infoBlock true]) = .error (.panic .index) := by decide +kernel

example : AllTags (wantedTags.map fun name => ⟨utf8 name.toUpper, [0x31#8]⟩) := by decide +kernel

example : benchMetadata 3 exampleFiles ["a", "b"] = .error (.panic .explicit) :=
  (C89_metadata (inputs := [("a", tagsOf exampleEntries), ("b", [])]) (by simp [exampleFiles_a, exampleFiles_b])
    (by simp)).trans (by decide +kernel)

end Claxon.Props
