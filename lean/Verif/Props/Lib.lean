import Verif.Proof.OpenApi
import Verif.Props.Samples
import Verif.Props.Metadata

/-! # C24, C44–C50, C53: opening a stream -/

namespace Claxon.Props

open Claxon Spec ReadBytes

variable {r r' : BufferedReader} {bytes rest : List U8} {fault : Option Nat} {src : Src} {fuel : Nat}
  {o : FlacReaderOptions} {reader : FlacReader BufferedReader} {first : EncodedBlock}
  {more : List EncodedBlock} {info : StreamInfo}

/-! ## C24 -/

theorem newExt_error {f : Fail} (h : (openStream fuel o (BufferedReader.new src)).1 = .error f) :
    FlacReader.newExt fuel src o = .error f := by
  unfold FlacReader.newExt FlacReader.newExtGen
  generalize openStream fuel o (BufferedReader.new src) = x at h
  rcases x with ⟨_ | _, _⟩
  · cases h; rfl
  · cases h

/-- **C24.** A stream that consists of the marker, legal metadata blocks (first the streaminfo, at most one
Vorbis comment, the last one flagged) and frames that encode some channels is decoded to exactly the
samples of these channels, in order, and then the end; the streaminfo, the vendor string and the tags
are those of the metadata blocks. -/
theorem C24_stream (es : List Encoded) (hc : Complete (first :: more))
    (h1 : first.block = .streamInfo info) (h2 : ∀ b ∈ more, ¬ IsStreaminfo b)
    (h3 : (commentsIn more).length ≤ 1) (hf : more.length < fuel)
    (hd : src.Delivers (streamMarker ++ metadataBytes (first :: more) ++ Encoded.stream es) none) :
    ∃ reader samples, FlacReader.new fuel src = .ok reader ∧ reader.streaminfo = info ∧
      reader.vendor = (commentsIn more).head?.map VorbisComment.vendor ∧
      reader.tags = ((commentsIn more).head?.map VorbisComment.comments).getD [] ∧
      reader.samples = .ok samples ∧ reader.intoSamples = .ok samples ∧
      ∀ n, calls FlacSamples.next ((Encoded.samples es).length + n) samples =
        (Encoded.samples es).map yields ++ List.replicate n (.ok none) := by
  obtain ⟨r', h4, h5⟩ := newExt_of
    (metadata_of_complete (o := FlacReaderOptions.default) rfl hc h1 h2 h3) hf hd
  refine ⟨_, FlacSamples.new r', h4, rfl, rfl, ?_, rfl, rfl, fun n => C33_frames es h5 n⟩
  show FlacReader.tags { streaminfo := _, vorbisComment := (commentsIn more).head?, input := _ } = _
  unfold FlacReader.tags
  cases (commentsIn more).head? <;> rfl

/-- The example frame. -/
def exampleEncoded : Encoded := ⟨16, exampleFrame, exampleChannels, exampleFrame_encodes⟩

theorem exampleComplete : Complete (infoBlock false :: [paddingBlock false, commentBlock true]) :=
  exampleMetadata.complete rfl

example : Complete (infoBlock false :: [paddingBlock false, commentBlock true]) ∧
    (infoBlock false).block = .streamInfo exampleInfo ∧
    (∀ b ∈ [paddingBlock false, commentBlock true], ¬ IsStreaminfo b) ∧
    (commentsIn [paddingBlock false, commentBlock true]).length ≤ 1 ∧
    Encoded.samples [exampleEncoded, exampleEncoded] = [5, 3, 7, 4, 6, 8, 6, 2, 5, 3, 7, 4, 6, 8, 6, 2] :=
  ⟨exampleComplete, rfl, exampleMetadata.onlyOne, by decide, by decide⟩

/-! ## C44 -/

/-- **C44.** A stream is opened only if it starts with the marker and legal metadata blocks, of which the
first, and only the first, is the streaminfo, and at most one is a Vorbis comment. If all metadata is
read, these are all the blocks up to the one flagged as the last. -/
theorem C44_structure (hd : src.Delivers bytes fault) (h : FlacReader.newExt fuel src o = .ok reader) :
    ∃ first more rest, bytes = streamMarker ++ metadataBytes (first :: more) ++ rest ∧
      first.block = .streamInfo reader.streaminfo ∧ (∀ b ∈ more, ¬ IsStreaminfo b) ∧
      (commentsIn more).length ≤ 1 ∧ (o.metadataOnly = false → Complete (first :: more)) := by
  obtain ⟨first, more, info, vc, r', rest, h1, h2, rfl, h3⟩ := newExt_ok hd h
  exact ⟨first, more, rest, h1, h2.streaminfo, h2.onlyOne, h2.comments, h2.complete⟩

/-- **C44.** Conversely, whenever a stream consists of the marker and metadata blocks up to one flagged as
the last, and all metadata is read, it is opened only if these blocks are as above. -/
theorem C44_all (ho : o.metadataOnly = false) (hc : Complete (first :: more))
    (hd : src.Delivers (streamMarker ++ metadataBytes (first :: more) ++ rest) fault)
    (h : FlacReader.newExt fuel src o = .ok reader) :
    first.block = .streamInfo reader.streaminfo ∧ (∀ b ∈ more, ¬ IsStreaminfo b) ∧
      (commentsIn more).length ≤ 1 := by
  obtain ⟨first', more', info, vc, r', rest', h1, h2, rfl, h3⟩ := newExt_ok hd h
  rw [List.append_assoc, List.append_assoc, List.append_cancel_left_eq] at h1
  obtain ⟨h4, _⟩ := metadata_unique hc (h2.complete ho) h1
  rw [List.map_cons, List.map_cons] at h4
  injection h4 with h5 h6
  refine ⟨?_, ?_, ?_⟩
  · rw [show first.block = first'.block from congrArg Prod.snd h5]
    exact h2.streaminfo
  · exact mem_summary h6.symm (P := fun b => ¬ IsStreaminfo b)
      (fun b b' hb hn => by rwa [← isStreaminfo_summary hb]) h2.onlyOne
  · rw [commentsIn_summary h6]
    exact h2.comments

/-- **C44.** If the first block is not the streaminfo, this is reported, whatever the options are. -/
theorem C44_first {b : EncodedBlock} (hb : ¬ IsStreaminfo b)
    (hd : src.Delivers (streamMarker ++ b.bytes ++ rest) fault) :
    FlacReader.newExt fuel src o = .error (.err (.formatError "streaminfo block missing")) := by
  have hbf : BFails (openStream fuel o) (streamMarker ++ b.bytes)
      (.err (.formatError "streaminfo block missing")) := by
    rw [openStream_eq, openFlat_eq]
    refine BFails.bind breads_marker ?_
    rw [← List.append_nil b.bytes]
    refine BFails.bind (breads_block b) ?_
    intro rest fault
    rcases hblock : b.block with i | n | ⟨id, data⟩ | sp | c | _ | _ | _
    · exact absurd ⟨i, hblock⟩ hb
    all_goals exact ⟨rfl, by simp⟩
  have h1 := hbf.buffered ((simAllBuffered fault).full.openStream fuel o)
    (BufferedReader.Remaining.new hd)
  unfold FlacReader.newExt FlacReader.newExtGen
  generalize openStream fuel o (BufferedReader.new src) = x at h1
  rcases x with ⟨_ | _, _⟩
  · cases h1; rfl
  · cases h1

example : ¬ IsStreaminfo (paddingBlock false) ∧ Complete [infoBlock false, infoBlock true] :=
  ⟨by rintro ⟨_, ⟨⟩⟩, [infoBlock false], infoBlock true, rfl, rfl, by simp [infoBlock]⟩

/-! ## C45 -/

/-- **C45.** Without `read_vorbis_comment` there is no vendor string, and there are no tags, whatever the
input is. -/
theorem C45_ignored {σ : Type} [ReadBytes σ] {s : σ} {reader : FlacReader σ}
    (h : FlacReader.newExtGen fuel s o = .ok reader) (ho : o.readVorbisComment = false) :
    reader.vendor = none ∧ (∀ n, calls tagsNext n reader.tags = List.replicate n (.ok none)) ∧
      ∀ name n, calls getTagNext n (reader.getTag name) = List.replicate n (.ok none) := by
  have hv : reader.vorbisComment = none := by
    unfold FlacReader.newExtGen at h
    rw [openStream_eq, openFlat_eq] at h
    rw [Dec.bind_def] at h
    generalize readStreamHeader s = x at h
    rcases x with ⟨e | u, s1⟩
    · cases h
    simp only at h
    rw [Dec.bind_def] at h
    generalize readBlock s1 = x at h
    rcases x with ⟨e | ⟨l, b⟩, s2⟩
    · cases h
    simp only at h
    rcases b with i | n | ⟨id, data⟩ | sp | c | _ | _ | _
    · simp only at h
      rw [Dec.bind_def] at h
      generalize openLoop fuel o none l s2 = x at h
      rcases x with ⟨e | vc, s3⟩
      · cases h
      · rw [ho] at h
        cases h
        rfl
    all_goals cases h
  have ht : reader.tags = storedTags [] := by unfold FlacReader.tags; rw [hv]; rfl
  have hg : ∀ name, reader.getTag name = GetTag.new (storedTags []) name := by
    intro name; unfold FlacReader.getTag; rw [hv]; rfl
  refine ⟨by unfold FlacReader.vendor; rw [hv]; rfl, fun n => ?_, fun name n => ?_⟩
  · rw [ht, calls_tags n [] (by simp)]
    simp
  · rw [hg, calls_getTag name n [] (by simp)]
    simp [tagValues]

/-- **C45.** With `read_vorbis_comment`, whether only metadata is read or not, a reader reports the first
Vorbis comment among the metadata blocks, and nothing if there is none. -/
theorem C45_reported (ho : o.readVorbisComment = true) (hc : Complete (first :: more))
    (hd : src.Delivers (streamMarker ++ metadataBytes (first :: more) ++ rest) fault)
    (h : FlacReader.newExt fuel src o = .ok reader) :
    reader.vendor = (commentsIn more).head?.map VorbisComment.vendor ∧
      reader.tags = ((commentsIn more).head?.map VorbisComment.comments).getD [] := by
  obtain ⟨first', more', info, vc, r', rest', h1, h2, rfl, h3⟩ := newExt_ok hd h
  rw [List.append_assoc, List.append_assoc, List.append_cancel_left_eq] at h1
  have hvc : vc = (commentsIn more).head? := by
    rw [h2.comment, if_pos ho]
    rcases h2.enough with h4 | ⟨_, _, h4⟩
    · have hc' : Complete (first' :: more') := ⟨_, _, (List.dropLast_append_getLast _).symm, h4, h2.notLast⟩
      obtain ⟨h5, _⟩ := metadata_unique hc hc' h1
      rw [List.map_cons, List.map_cons] at h5
      injection h5 with h6 h7
      rw [commentsIn_summary h7]
    · have h5 := metadata_prefix hc h2.notLast h1
      rw [List.map_cons, List.map_cons, List.cons_prefix_cons] at h5
      obtain ⟨t, ht⟩ := commentsIn_prefix h5.2
      rw [← ht]
      cases hm : commentsIn more' with
      | nil => exact absurd hm (h4 ho)
      | cons c cs => rfl
  subst hvc
  refine ⟨rfl, ?_⟩
  show FlacReader.tags { streaminfo := _, vorbisComment := (commentsIn more).head?, input := _ } = _
  unfold FlacReader.tags
  cases (commentsIn more).head? <;> rfl

example : (commentsIn [paddingBlock false, commentBlock true]).head?.map VorbisComment.vendor =
    some exampleVendor := rfl

/-- **C45.** The default options, which `new` uses, read everything: the Vorbis comment is reported, and there is
access to the audio. -/
theorem C45_default (hc : Complete (first :: more))
    (hd : src.Delivers (streamMarker ++ metadataBytes (first :: more) ++ rest) fault)
    (h : FlacReader.new fuel src = .ok reader) :
    reader.vendor = (commentsIn more).head?.map VorbisComment.vendor ∧
      reader.tags = ((commentsIn more).head?.map VorbisComment.comments).getD [] ∧
      ∃ frames, reader.blocks = .ok frames ∧ frames.Remaining rest fault := by
  obtain ⟨h1, h2⟩ := C45_reported (o := FlacReaderOptions.default) rfl hc hd h
  refine ⟨h1, h2, ?_⟩
  obtain ⟨first', more', info, vc, r', rest', h3, h4, rfl, h5⟩ := newExt_ok hd h
  rw [List.append_assoc, List.append_assoc, List.append_cancel_left_eq] at h3
  obtain ⟨_, rfl⟩ := metadata_unique hc (h4.complete rfl) h3
  exact ⟨r', rfl, h5⟩

example : ∃ reader, FlacReader.new 3 (bytewise (streamMarker ++
    metadataBytes (infoBlock false :: [paddingBlock false, commentBlock true]) ++ [1#8])) = .ok reader :=
  (C36_open exampleMetadata (by decide) (bytewise_delivers _)).imp fun _ h => h.1

/-! ## C46 -/

/-- **C46.** Readers for metadata only panic when one asks for blocks or samples. -/
theorem C46_panic {σ : Type} [ReadBytes σ] {s : σ} {reader : FlacReader σ}
    (h : FlacReader.newExtGen fuel s o = .ok reader) (ho : o.metadataOnly = true) :
    reader.blocks = .error (.panic .explicit) ∧ reader.samples = .error (.panic .explicit) ∧
      reader.intoSamples = .error (.panic .explicit) := by
  unfold FlacReader.newExtGen at h
  generalize openStream fuel o s = x at h
  rcases x with ⟨e | ⟨info, vc⟩, s'⟩
  · cases h
  · cases h
    unfold FlacReader.blocks FlacReader.samples FlacReader.intoSamples FlacReader.make
    rw [ho]
    exact ⟨rfl, rfl, rfl⟩

/-- **C46.** Other readers do not. -/
theorem C46_ok {σ : Type} [ReadBytes σ] {s : σ} {reader : FlacReader σ}
    (h : FlacReader.newExtGen fuel s o = .ok reader) (ho : o.metadataOnly = false) :
    ∃ frames, reader.blocks = .ok frames ∧ reader.samples = .ok (FlacSamples.new frames) ∧
      reader.intoSamples = .ok (FlacSamples.new frames) := by
  unfold FlacReader.newExtGen at h
  generalize openStream fuel o s = x at h
  rcases x with ⟨e | ⟨info, vc⟩, s'⟩
  · cases h
  · cases h
    unfold FlacReader.blocks FlacReader.samples FlacReader.intoSamples FlacReader.make
    rw [ho]
    exact ⟨s', rfl, rfl, rfl⟩

example : ∃ reader, FlacReader.newExtGen 2 (⟨streamMarker ++ (infoBlock true).bytes, none⟩ : Flat)
    { metadataOnly := true, readVorbisComment := false } = .ok reader := by
  have h : openStream 2 { metadataOnly := true, readVorbisComment := false }
      (⟨streamMarker ++ (infoBlock true).bytes, none⟩ : Flat) = (.ok (exampleInfo, none), ⟨[], none⟩) := by
    decide +kernel
  unfold FlacReader.newExtGen
  rw [h]
  exact ⟨_, rfl⟩

/-! ## C47 -/

/-- **C47 is not quite true.** With `metadata_only` and without `read_vorbis_comment`, one more block is
read after the streaminfo. So if the streaminfo is followed by something that is not a legal block, the
stream is not opened. -/
theorem C47_false : ¬ ∀ (o : FlacReaderOptions) (first : EncodedBlock) (info : StreamInfo)
    (rest : List U8) (src : Src) (fuel : Nat), o.metadataOnly = true → o.readVorbisComment = false →
    first.block = .streamInfo info → src.Delivers (streamMarker ++ first.bytes ++ rest) none →
    ∃ reader, FlacReader.newExt (fuel + 1) src o = .ok reader := by
  intro h
  obtain ⟨reader, h1⟩ := h { metadataOnly := true, readVorbisComment := false } (infoBlock false) exampleInfo
    [] _ 2 rfl rfl rfl (bytewise_delivers _)
  have h2 := Sim.result ((simAllBuffered none).full.openStream 3
    { metadataOnly := true, readVorbisComment := false }) (bytewise_remaining
      (streamMarker ++ (infoBlock false).bytes ++ []))
  have h3 : (openStream 3 { metadataOnly := true, readVorbisComment := false }
      (⟨streamMarker ++ (infoBlock false).bytes ++ [], none⟩ : Flat)).1 =
        .error (.err (.ioError .unexpectedEof)) := by
    decide +kernel
  rw [h3] at h2
  rw [newExt_error h2] at h1
  cases h1

/-- **C47, except for the case above.** If only metadata is wanted, nothing is read after the Vorbis comment,
whatever follows, be it illegal or an I/O error. -/
theorem C47_comment_partial {pre : List EncodedBlock} {c : EncodedBlock} {vc : VorbisComment}
    (hm : o.metadataOnly = true) (hv : o.readVorbisComment = true)
    (h1 : first.block = .streamInfo info) (h2 : ∀ b ∈ pre, ¬ IsStreaminfo b) (h3 : commentsIn pre = [])
    (h4 : ∀ b ∈ first :: pre, b.isLast = false) (hc : c.block = .vorbisComment vc)
    (hf : pre.length + 1 < fuel)
    (hd : src.Delivers (streamMarker ++ metadataBytes (first :: (pre ++ [c])) ++ rest) fault) :
    ∃ r', FlacReader.newExt fuel src o = .ok (FlacReader.make o info (some vc) r') ∧
      r'.Remaining rest fault := by
  have h5 : commentsIn (pre ++ [c]) = [vc] := by
    rw [commentsIn_append, h3, commentsIn_comment hc]; rfl
  refine newExt_of ⟨h1, ?_, by simp [h5], by simp [h5, hv], ?_, ?_⟩ (by simpa using hf) hd
  · refine other_snoc h2 ?_
    rintro ⟨i, hi⟩
    rw [hc] at hi
    cases hi
  · exact .inr ⟨hm, by simp, fun _ => by simp [h5]⟩
  · intro fewer h6 h7
    have h8 := prefix_snoc h6 h7
    rintro (h9 | ⟨_, _, h9⟩)
    · rw [h4 _ (?_ : _ ∈ first :: pre)] at h9
      · cases h9
      · rcases List.mem_cons.1 (List.getLast_mem (l := first :: fewer) (by simp)) with h | h
        · rw [h]; simp
        · exact List.mem_cons_of_mem _ (h8.subset h)
    · obtain ⟨t, rfl⟩ := h8
      rw [commentsIn_append, List.append_eq_nil_iff] at h3
      exact h9 hv h3.1

/-- **C47, except for the case above.** If nothing but the streaminfo is wanted, one more block is read, and
nothing after it, whatever follows. -/
theorem C47_one_partial {b : EncodedBlock}
    (hm : o.metadataOnly = true) (hv : o.readVorbisComment = false)
    (h1 : first.block = .streamInfo info) (h2 : ¬ IsStreaminfo b) (h4 : first.isLast = false)
    (hf : 1 < fuel)
    (hd : src.Delivers (streamMarker ++ metadataBytes [first, b] ++ rest) fault) :
    ∃ r', FlacReader.newExt fuel src o = .ok (FlacReader.make o info none r') ∧
      r'.Remaining rest fault := by
  refine newExt_of ⟨h1, by simpa using h2, ?_, by simp [hv], ?_, ?_⟩ (by simpa using hf) hd
  · exact List.length_filterMap_le _ _
  · exact .inr ⟨hm, by simp, by simp [hv]⟩
  · intro fewer h6 h7
    have : fewer = [] := by
      obtain ⟨t, ht⟩ := h6
      match fewer, ht with
      | [], _ => rfl
      | [a], h => simp at h; exact absurd (by rw [h.1]) h7
      | a :: b :: l, h => simp at h
    subst this
    rintro (h9 | ⟨_, h9, _⟩)
    · rw [List.getLast_singleton, h4] at h9; cases h9
    · exact h9 rfl

/-- **C47.** If the streaminfo is flagged as the last block, nothing is read after it. -/
theorem C47_last (h1 : first.block = .streamInfo info) (h4 : first.isLast = true) (hf : 0 < fuel)
    (hd : src.Delivers (streamMarker ++ metadataBytes [first] ++ rest) fault) :
    ∃ r', FlacReader.newExt fuel src o = .ok (FlacReader.make o info none r') ∧
      r'.Remaining rest fault := by
  refine newExt_of (more := []) ⟨h1, by simp, by simp [commentsIn], by simp [commentsIn], .inl h4, ?_⟩
    (by simpa using hf) hd
  intro fewer h6 h7
  exact absurd (List.prefix_nil.1 h6) h7

/-- The hypotheses are met by a stream that ends with an error in the middle of things. -/
example : (infoBlock false).block = .streamInfo exampleInfo ∧
    (∀ b ∈ [paddingBlock false], ¬ IsStreaminfo b) ∧ commentsIn [paddingBlock false] = [] ∧
    (∀ b ∈ infoBlock false :: [paddingBlock false], b.isLast = false) :=
  ⟨rfl, fun b hb => exampleMetadata.onlyOne b (by simp_all), rfl, by
    intro b hb
    rcases List.mem_cons.1 hb with rfl | hb
    · rfl
    · simp only [List.mem_singleton] at hb
      rw [hb]; rfl⟩

/-! ## C48 -/

/-- **C48.** After opening, the next byte is the one after the metadata block flagged as the last. -/
theorem C48_position (hd : src.Delivers bytes fault) (h : FlacReader.new fuel src = .ok reader) :
    ∃ blocks rest r', bytes = streamMarker ++ metadataBytes blocks ++ rest ∧ Complete blocks ∧
      reader.input = .full r' ∧ reader.blocks = .ok r' ∧ r'.Remaining rest fault := by
  obtain ⟨first, more, info, vc, r', rest, h1, h2, rfl, h3⟩ := newExt_ok hd h
  exact ⟨first :: more, rest, r', h1, h2.complete rfl, rfl, rfl, h3⟩

/-- **C48.** There is only one way to read the stream like this. -/
theorem C48_unique {blocks : List EncodedBlock} (hc : Complete blocks)
    (hd : src.Delivers (streamMarker ++ metadataBytes blocks ++ rest) fault)
    (h : FlacReader.new fuel src = .ok reader) :
    ∃ r', reader.input = .full r' ∧ r'.Remaining rest fault := by
  obtain ⟨blocks', rest', r', h1, h2, h3, _, h4⟩ := C48_position hd h
  rw [List.append_assoc, List.append_assoc, List.append_cancel_left_eq] at h1
  obtain ⟨_, rfl⟩ := metadata_unique hc h2 h1
  exact ⟨r', h3, h4⟩

example : ∃ reader, FlacReader.new 3 (bytewise (streamMarker ++
    metadataBytes (infoBlock false :: [paddingBlock false, commentBlock true]) ++ [1#8])) = .ok reader :=
  (C36_open exampleMetadata (by decide) (bytewise_delivers _)).imp fun _ h => h.1

/-! ## C49 -/

/-- **C49.** A stream that does not start with `fLaC` is rejected. If it starts with `ID3`, the message says
so. -/
theorem C49_marker {a b c d : U8} (hm : [a, b, c, d] ≠ [0x66#8, 0x4c#8, 0x61#8, 0x43#8])
    (hd : src.Delivers (a :: b :: c :: d :: rest) fault) :
    FlacReader.newExt fuel src o = .error (.err (.formatError
      (if [a, b, c] = [0x49#8, 0x44#8, 0x33#8] then "stream starts with ID3 header rather than FLAC header"
        else "invalid stream header"))) := by
  refine newExt_error ?_
  have h1 : BFails (openStream fuel o) [a, b, c, d] (.err (.formatError (markerError [a, b, c, d]))) := by
    unfold openStream
    exact BFails.bind_left _ (bfails_marker hm)
  exact h1.buffered (rest := rest) ((simAllBuffered fault).full.openStream fuel o)
    (BufferedReader.Remaining.new hd)

/-- **C49.** A stream of fewer than four bytes is cut off. -/
theorem C49_short (hl : bytes.length < 4) (hd : src.Delivers bytes fault) :
    FlacReader.newExt fuel src o = .error (.err (.ioError
      (match fault with
      | none => .unexpectedEof
      | some code => .inner code))) := by
  refine newExt_error ?_
  rw [Sim.result ((simAllBuffered fault).full.openStream fuel o) (BufferedReader.Remaining.new hd)]
  match bytes, hl with
  | [], _ => cases fault <;> rfl
  | [a], _ => cases fault <;> rfl
  | [a, b], _ => cases fault <;> rfl
  | [a, b, c], _ => cases fault <;> rfl

/-- **C49.** The first four bytes of a stream that is opened are `fLaC`. -/
theorem C49_accepted (hd : src.Delivers bytes fault) (h : FlacReader.newExt fuel src o = .ok reader) :
    bytes.take 4 = [0x66#8, 0x4c#8, 0x61#8, 0x43#8] := by
  obtain ⟨first, more, info, vc, r', rest, rfl, _⟩ := newExt_ok hd h
  rfl

example : (bytewise [0x49#8, 0x44#8, 0x33#8, 0x04#8, 0x00#8]).Delivers
    (0x49#8 :: 0x44#8 :: 0x33#8 :: 0x04#8 :: [0x00#8]) none ∧
    [0x49#8, 0x44#8, 0x33#8, 0x04#8] ≠ [0x66#8, 0x4c#8, 0x61#8, 0x43#8] :=
  ⟨bytewise_delivers _, by decide⟩

/-! ## C50 -/

/-- **C50.** `new_ext` returns a reader or an error, for every input and all options. (`fuel` bounds the
number of iterations of the loop over metadata blocks; it is not a limit of the code, see
`C50_fuel`.) -/
theorem C50_newExt (hd : src.Delivers bytes fault) (hf : bytes.length < 4 * fuel) :
    Returns (FlacReader.newExt fuel src o) := newExt_returns hd hf

/-- **C50.** A larger bound on the number of iterations does not change the result, and with a small bound,
too, there is no panic. -/
theorem C50_fuel (hd : src.Delivers bytes fault) :
    FlacReader.newExt fuel src o = .error .diverged ∨
      (Returns (FlacReader.newExt fuel src o) ∧
        ∀ k, FlacReader.newExt (fuel + k) src o = FlacReader.newExt fuel src o) := by
  by_cases h : FlacReader.newExt fuel src o = .error .diverged
  · exact .inl h
  · have h1 : ∀ k, FlacReader.newExt (fuel + k) src o = FlacReader.newExt fuel src o := fun k =>
      newExtGen_more fuel k o _ (by rintro _ rfl; exact h)
    refine .inr ⟨?_, h1⟩
    rw [← h1 (bytes.length + 1)]
    exact newExt_returns hd (by omega)

/-- **C50.** `read_metadata_block` returns a block or an error, for every input, type and length. -/
theorem C50_block {blockType : U8} {length : Nat} (hlen : length < 2 ^ 32)
    (hr : r.Remaining bytes fault) : Returns (readMetadataBlock blockType length r).1 :=
  (btriple_body (lim := .never) blockType length).returns
    ((simAllBuffered fault).full.readMetadataBlock _ _ hlen) hr fun _ => id

/-- **C50.** `read_metadata_block_with_header` returns a block or an error, for every input. -/
theorem C50_withHeader (hr : r.Remaining bytes fault) : Returns (readMetadataBlockWithHeader r).1 := by
  have ht : BTriple .never readMetadataBlockWithHeader (fun _ _ => True) := by
    rw [readMetadataBlockWithHeader_eq]
    exact btriple_block.bind fun _ _ _ => .pure trivial
  exact ht.returns (simAllBuffered fault).full.readMetadataBlockWithHeader hr fun _ => id

/-- **C50.** Every call of the metadata iterator returns. -/
theorem C50_iterator (hr : r.Remaining bytes fault) (n : Nat) :
    ∀ x ∈ calls MetadataBlockReader.next n (MetadataBlockReader.new r), Returns x := by
  obtain ⟨items, _, h⟩ := C43_items hr
  rw [h n]
  intro x hx
  obtain ⟨k, _, rfl⟩ := List.mem_map.1 hx
  exact .inl ⟨_, rfl⟩

example : (bytewise [0x66#8, 0x4c#8]).Delivers [0x66#8, 0x4c#8] none ∧
    [0x66#8, 0x4c#8].length < 4 * 1 := ⟨bytewise_delivers _, by decide⟩

/-! ## C53 -/

/-- A streaminfo that announces one channel. -/
def monoBlock : EncodedBlock where
  isLast := true
  blockType := 0#8
  body := streaminfoBytes { exampleInfo with channels := 1 }
  block := .streamInfo { exampleInfo with channels := 1 }
  encodes := .streamInfo _ ⟨by decide, by decide, by decide, by decide, by decide, by decide, by decide,
    by decide, by decide, by decide, by decide⟩
  typeLt := by decide
  lengthLt := by decide +kernel

theorem exampleStream : Encoded.stream [exampleEncoded, exampleEncoded] =
    exampleFrame.bytes 16 ++ exampleFrame.bytes 16 := by
  unfold Encoded.stream
  rw [List.flatMap_cons, List.flatMap_cons, List.flatMap_nil, List.append_nil]
  rfl

/-- **C53 is not true.** The number of channels and the block size are not compared to the streaminfo: a
stream that announces one channel and blocks of 16 to 4096 samples can have a block with two channels
of four samples, and another one after it. -/
theorem C53_false : (∀ (fuel : Nat) (src : Src) (bytes : List U8) (fault : Option Nat)
      (reader : FlacReader BufferedReader) (frames r' : BufferedReader) (blocks : List Block)
      (buffer : VecI32), src.Delivers bytes fault → FlacReader.new fuel src = .ok reader →
      reader.blocks = .ok frames → ReadsBlocks frames .empty blocks r' buffer →
      ∀ b ∈ blocks, b.channels = reader.streaminfo.channels) → False := by
  intro h
  have hd := bytewise_delivers (streamMarker ++ metadataBytes (monoBlock :: []) ++
    Encoded.stream [exampleEncoded, exampleEncoded])
  obtain ⟨r₀, h1, h2⟩ := C47_last (first := monoBlock) (fuel := 1) (o := .default) rfl rfl (by decide) hd
  have h2' : r₀.Remaining (exampleFrame.bytes 16 ++ (exampleFrame.bytes 16)) none := by
    rw [exampleStream] at h2; exact h2
  obtain ⟨b, r₁, h3, h4, h5⟩ := C23_lossless exampleFrame_encodes .empty h2'
  have := h 1 _ _ _ _ r₀ r₁ [b] _ hd h1 rfl (.cons h3 .nil) b (by simp)
  rw [h5.count] at this
  exact absurd (show exampleChannels.length = 1 from this) (by decide)

/-- **C53 is not true.** The same for the block size, of a block that is not the last one. -/
theorem C53_size_false : (∀ (fuel : Nat) (src : Src) (bytes : List U8) (fault : Option Nat)
      (reader : FlacReader BufferedReader) (frames r' : BufferedReader) (blocks : List Block)
      (buffer : VecI32), src.Delivers bytes fault → FlacReader.new fuel src = .ok reader →
      reader.blocks = .ok frames → ReadsBlocks frames .empty blocks r' buffer →
      ∀ b ∈ blocks.dropLast, reader.streaminfo.minBlockSize ≤ b.duration) → False := by
  intro h
  have hd := bytewise_delivers (streamMarker ++ metadataBytes (infoBlock true :: []) ++
    Encoded.stream [exampleEncoded, exampleEncoded])
  obtain ⟨r₀, h1, h2⟩ := C47_last (first := infoBlock true) (fuel := 1) (o := .default) rfl rfl (by decide) hd
  have h2' : r₀.Remaining (exampleFrame.bytes 16 ++ (exampleFrame.bytes 16)) none := by
    rw [exampleStream] at h2; exact h2
  obtain ⟨b, r₁, h3, h4, h5⟩ := C23_lossless exampleFrame_encodes .empty h2'
  obtain ⟨b', r₂, h6, h7, h8⟩ := C23_lossless exampleFrame_encodes (rest := []) b.intoBuffer
    (by rw [List.append_nil]; exact h4)
  have := h 1 _ _ _ _ r₀ r₂ [b, b'] _ hd h1 rfl (.cons h3 (.cons h6 .nil)) b (by simp)
  rw [← h5.duration [5, 7, 6, 6] (by simp [exampleChannels])] at this
  exact absurd (show (16 : Nat) ≤ 4 from this) (by decide)

/-- **C53, for streams that keep to it.** If the frames have the number of channels, and block sizes within
the bounds, that the streaminfo announces, so have the blocks. -/
theorem C53_agree_partial (es : List Encoded)
    (h : ∀ e ∈ es, e.channels.length = info.channels ∧ ∀ c ∈ e.channels,
      info.minBlockSize ≤ c.length ∧ c.length ≤ info.maxBlockSize) (buffer : VecI32)
    (hr : r.Remaining (Encoded.stream es ++ rest) fault) :
    ∃ blocks r' buffer', ReadsBlocks r buffer blocks r' buffer' ∧ r'.Remaining rest fault ∧
      blocks.length = es.length ∧ ∀ b ∈ blocks, b.channels = info.channels ∧
        info.minBlockSize ≤ b.duration ∧ b.duration ≤ info.maxBlockSize := by
  induction es generalizing r buffer with
  | nil => exact ⟨[], r, buffer, .nil, hr, rfl, by simp⟩
  | cons e es ih =>
    have hr' : r.Remaining (e.frame.bytes e.bps ++ (Encoded.stream es ++ rest)) fault := by
      rw [← List.append_assoc]; exact hr
    obtain ⟨b, r₁, h1, h2, h3⟩ := C23_lossless e.encodes buffer hr'
    obtain ⟨blocks, r', buffer', h4, h5, h6, h7⟩ := ih (fun e he => h e (by simp [he])) b.intoBuffer h2
    refine ⟨b :: blocks, r', buffer', .cons h1 h4, h5, by simp [h6], ?_⟩
    intro b' hb'
    rcases List.mem_cons.1 hb' with rfl | hb'
    · obtain ⟨h8, h9⟩ := h e (by simp)
      refine ⟨by rw [h3.count, h8], ?_⟩
      have hpos := (post_block buffer _ _ _ h1 b' rfl).channels
      obtain ⟨c, hc⟩ : ∃ c, c ∈ e.channels := by
        have := h3.count
        exact List.exists_mem_of_length_pos (by omega)
      rw [← h3.duration c hc]
      exact h9 c hc
    · exact h7 b' hb'

/-- **C53, what is checked in any case.** Every block has one to eight channels and between 1 and 65535
samples. -/
theorem C53_bounds_partial {σ : Type} [ReadBytes σ] {s s' : σ} {buffer buffer' : VecI32} {blocks : List Block}
    (h : ReadsBlocks s buffer blocks s' buffer') :
    ∀ b ∈ blocks, 1 ≤ b.channels ∧ b.channels ≤ 8 ∧ 1 ≤ b.duration ∧ b.duration ≤ 65535 := by
  induction h with
  | nil => simp
  | cons h1 _ ih =>
    intro b hb
    rcases List.mem_cons.1 hb with rfl | hb
    · have hs := post_block _ _ _ _ h1 b rfl
      have := hs.blockSize
      exact ⟨hs.channels.1, hs.channels.2, hs.blockSize.1, by
        show b.blockSize ≤ 65535
        omega⟩
    · exact ih b hb

example : ∀ e ∈ [exampleEncoded], e.channels.length = 2 ∧ ∀ c ∈ e.channels, 4 ≤ c.length ∧ c.length ≤ 4 := by
  intro e he
  rw [List.mem_singleton] at he
  subst he
  decide

end Claxon.Props
