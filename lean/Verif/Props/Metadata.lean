import Verif.Proof.MetadataItems
import Verif.Proof.AllocOpen
import Verif.Proof.Tags
import Verif.Props.ExampleMetadata

/-! # C36–C43: metadata blocks -/

namespace Claxon.Props

open Claxon Spec ReadBytes

variable {r r' : BufferedReader} {bytes rest : List U8} {fault : Option Nat} {src : Src} {fuel : Nat}
  {o : FlacReaderOptions} {reader : FlacReader BufferedReader}

/-! ## C36 -/

/-- **C36.** The 34 bytes that encode a legal streaminfo are decoded to it, and nothing else is consumed. -/
theorem C36_exact {info : StreamInfo} (h : info.Legal)
    (hr : r.Remaining (streaminfoBytes info ++ rest) fault) :
    (streaminfoBytes info).length = 34 ∧
    ∃ r', readMetadataBlock 0#8 34 r = (.ok (.streamInfo info), r') ∧ r'.Remaining rest fault := by
  have hl := length_streaminfoBytes h
  have hb := breads_body (.streamInfo info h)
  rw [hl] at hb
  exact ⟨hl, hb.buffered ((simAllBuffered fault).full.readMetadataBlock _ _ (by omega)) hr⟩

/-- **C36.** The same for the stream that starts with it. -/
theorem C36_open {first : EncodedBlock} {more : List EncodedBlock} {info : StreamInfo}
    {vc : Option VorbisComment} (h : Metadata o first more info vc) (hf : more.length < fuel)
    (hd : src.Delivers (streamMarker ++ metadataBytes (first :: more) ++ rest) fault) :
    ∃ reader, FlacReader.newExt fuel src o = .ok reader ∧ reader.streaminfo = info := by
  obtain ⟨r', h1, _⟩ := newExt_of h hf hd
  exact ⟨_, h1, rfl⟩

example : exampleInfo.Legal ∧
    (BufferedReader.new (bytewise (streaminfoBytes exampleInfo ++ [1#8]))).Remaining
      (streaminfoBytes exampleInfo ++ [1#8]) none :=
  ⟨exampleInfo_legal, bytewise_remaining _⟩

example : Metadata .default (infoBlock false) [paddingBlock false, commentBlock true] exampleInfo
    (some { vendor := exampleVendor, comments := storedTags (tagsOf exampleEntries) }) ∧
    (bytewise (streamMarker ++ metadataBytes (infoBlock false :: [paddingBlock false, commentBlock true]) ++
      [1#8])).Delivers (streamMarker ++
        metadataBytes (infoBlock false :: [paddingBlock false, commentBlock true]) ++ [1#8]) none :=
  ⟨exampleMetadata, bytewise_delivers _⟩

/-! ## C37 -/

/-- **C37.** A streaminfo that is accepted satisfies the bounds, and it is the one that is encoded. -/
theorem C37_bounds {blockType : U8} {length : Nat} {info : StreamInfo} (hlen : length < 2 ^ 32)
    (hr : r.Remaining bytes fault)
    (h : readMetadataBlock blockType length r = (.ok (.streamInfo info), r')) :
    info.Legal ∧ length = 34 ∧ ∃ rest, bytes = streaminfoBytes info ++ rest ∧ r'.Remaining rest fault := by
  obtain ⟨used, rest, h1, h2, h3, h4⟩ := (btriple_body (lim := .never) blockType length).buffered
    ((simAllBuffered fault).full.readMetadataBlock _ _ hlen) hr h
  cases h4 with
  | streamInfo _ hi => exact ⟨hi, by rw [← h3, length_streaminfoBytes hi], rest, h1, h2⟩

/-- **C37.** The streaminfo of a stream that is opened satisfies the bounds. -/
theorem C37_open (hd : src.Delivers bytes fault) (h : FlacReader.newExt fuel src o = .ok reader) :
    reader.streaminfo.Legal := by
  obtain ⟨first, more, info, vc, r', rest, h1, h2, rfl, h3⟩ := newExt_ok hd h
  exact BodyEncodes.info_legal first.encodes h2.streaminfo

/-- The bounds, spelled out. -/
theorem C37_spelled {i : StreamInfo} (h : i.Legal) :
    16 ≤ i.minBlockSize ∧ i.minBlockSize ≤ i.maxBlockSize ∧ 1 ≤ i.sampleRate ∧ i.sampleRate ≤ 655350 ∧
    1 ≤ i.channels ∧ i.channels ≤ 8 ∧ 1 ≤ i.bitsPerSample ∧ i.bitsPerSample ≤ 32 ∧
    (∀ n ∈ i.samples, 1 ≤ n ∧ n < 2 ^ 36) ∧ (∀ n ∈ i.minFrameSize, 1 ≤ n ∧ n < 2 ^ 24) ∧
    (∀ n ∈ i.maxFrameSize, 1 ≤ n ∧ n < 2 ^ 24) ∧
    (∀ m ∈ i.minFrameSize, ∀ n ∈ i.maxFrameSize, m ≤ n) :=
  ⟨h.minBlockSize, h.blockSizes, h.sampleRate.1, h.sampleRate.2, h.channels.1, h.channels.2,
    h.bitsPerSample.1, h.bitsPerSample.2, h.samples, h.minFrameSize, h.maxFrameSize, h.frameSizes⟩

example : ∃ reader, FlacReader.newExt 3 (bytewise (streamMarker ++
    metadataBytes (infoBlock false :: [paddingBlock false, commentBlock true]) ++ [])) .default = .ok reader :=
  (C36_open exampleMetadata (by decide) (bytewise_delivers _)).imp fun _ h => h.1

/-! ## C38 -/

/-- **C38.** If the body of a block is read successfully, exactly as many bytes as announced are
consumed. -/
theorem C38_body {blockType : U8} {length : Nat} {block : MetadataBlock} (hlen : length < 2 ^ 32)
    (hr : r.Remaining bytes fault)
    (h : readMetadataBlock blockType length r = (.ok block, r')) :
    length ≤ bytes.length ∧ r'.Remaining (bytes.drop length) fault := by
  obtain ⟨used, rest, h1, h2, rfl, h4⟩ := (btriple_body (lim := .never) blockType length).buffered
    ((simAllBuffered fault).full.readMetadataBlock _ _ hlen) hr h
  subst h1
  rw [List.drop_left]
  exact ⟨by simp, h2⟩

theorem beNat_beBytes_three {n : Nat} (h : n < 2 ^ 24) : ∃ x y z, beBytes 3 n = [x, y, z] ∧
    beNat [x, y, z] = n := by
  refine ⟨_, _, _, rfl, ?_⟩
  simp [beNat]
  omega

theorem encoded_consumed (b : EncodedBlock) (rest : List U8) : ∃ t x y z tail,
    b.bytes ++ rest = t :: x :: y :: z :: tail ∧ beNat [x, y, z] ≤ tail.length ∧
    tail.drop (beNat [x, y, z]) = rest := by
  obtain ⟨x, y, z, h1, h2⟩ := beNat_beBytes_three b.lengthLt
  refine ⟨BitVec.ofNat 8 ((if b.isLast then 128 else 0) + b.blockType.toNat), x, y, z, b.body ++ rest,
    ?_, ?_, ?_⟩
  · unfold EncodedBlock.bytes
    rw [h1]
    rfl
  · rw [h2, List.length_append]; omega
  · rw [h2, List.drop_left]

/-- **C38.** If a block is read successfully, exactly the four bytes of the header (a flag and the type,
and three bytes for the length) and then as many bytes as announced there are consumed. -/
theorem C38_block {block : MetadataBlock} (hr : r.Remaining bytes fault)
    (h : readMetadataBlockWithHeader r = (.ok block, r')) :
    ∃ t x y z tail, bytes = t :: x :: y :: z :: tail ∧ beNat [x, y, z] ≤ tail.length ∧
      r'.Remaining (tail.drop (beNat [x, y, z])) fault := by
  have ht : BTriple .never readMetadataBlockWithHeader
      (fun u b => ∃ e : EncodedBlock, u = e.bytes ∧ b = e.block) := by
    rw [readMetadataBlockWithHeader_eq]
    refine btriple_block.bind ?_
    rintro _ _ ⟨e, rfl, rfl⟩
    exact .pure ⟨e, by rw [List.append_nil], rfl⟩
  obtain ⟨used, rest, rfl, h2, e, rfl, rfl⟩ := ht.buffered
    (simAllBuffered fault).full.readMetadataBlockWithHeader hr h
  obtain ⟨t, x, y, z, tail, h3, h4, h5⟩ := encoded_consumed e rest
  exact ⟨t, x, y, z, tail, h3, h4, by rw [h5]; exact h2⟩

/-- **C38.** The same for the metadata block iterator. -/
theorem C38_next {it' : MetadataBlockReader BufferedReader} {block : MetadataBlock}
    (hr : r.Remaining bytes fault)
    (h : MetadataBlockReader.next { input := r, done := false } = (.ok (some (.ok block)), it')) :
    ∃ t x y z tail, bytes = t :: x :: y :: z :: tail ∧ beNat [x, y, z] ≤ tail.length ∧
      it'.input.Remaining (tail.drop (beNat [x, y, z])) fault := by
  refine C38_block hr (block := block) ?_
  rw [next_block_run] at h
  rw [readMetadataBlockWithHeader_eq, Dec.bind_def]
  generalize readBlock r = x at h
  rcases x with ⟨⟨_ | _ | _ | _⟩ | ⟨l, b⟩, s'⟩ <;> cases h
  rfl

/-- **C38.** And every block that is encoded legally is read, as a whole. -/
theorem C38_legal (b : EncodedBlock) (hr : r.Remaining (b.bytes ++ rest) fault) :
    ∃ r', readMetadataBlockWithHeader r = (.ok b.block, r') ∧ r'.Remaining rest fault := by
  have h : BReads readMetadataBlockWithHeader b.bytes b.block := by
    rw [readMetadataBlockWithHeader_eq]
    exact (breads_block b).bind_nil (.pure _)
  exact h.buffered (simAllBuffered fault).full.readMetadataBlockWithHeader hr

example : ∃ r', readMetadataBlockWithHeader
    (BufferedReader.new (bytewise ((commentBlock true).bytes ++ [7#8]))) =
      (.ok (commentBlock true).block, r') ∧ r'.Remaining [7#8] none :=
  C38_legal _ (bytewise_remaining _)

/-! ## C39 -/

/-- **C39.** The encoding of a vendor string and a list of tags, with empty comments anywhere in between,
is decoded to the vendor string and the tags in order. -/
theorem C39_exact {vendor : Str} {entries : List (Option Tag)} (hv : Utf8 vendor)
    (ht : ∀ t ∈ tagsOf entries, t.Legal)
    (hl : (vorbisCommentBytes vendor entries).length ≤ maxBlockLength)
    (hr : r.Remaining (vorbisCommentBytes vendor entries ++ rest) fault) :
    ∃ vc r', readMetadataBlock 4#8 (vorbisCommentBytes vendor entries).length r =
        (.ok (.vorbisComment vc), r') ∧ r'.Remaining rest fault ∧
      vc.vendor = vendor ∧ vc.comments.map Prod.fst = (tagsOf entries).map Tag.comment ∧
      ∀ n, calls tagsNext n vc.comments =
        (List.range n).map fun k => .ok (((tagsOf entries).map fun t => (t.name, t.value))[k]?) := by
  obtain ⟨r', h1, h2⟩ := (breads_body (.vorbisComment vendor entries hv ht hl)).buffered
    ((simAllBuffered fault).full.readMetadataBlock _ _ (by unfold maxBlockLength at hl; omega)) hr
  refine ⟨_, r', h1, h2, rfl, ?_, fun n => calls_tags n _ ht⟩
  simp [storedTags]

/-- **C39.** The same through `vendor()` and `tags()` of a reader. -/
theorem C39_open {first : EncodedBlock} {more : List EncodedBlock} {info : StreamInfo}
    {vendor : Str} {entries : List (Option Tag)} (ht : ∀ t ∈ tagsOf entries, t.Legal)
    (h : Metadata o first more info
      (some { vendor := vendor, comments := storedTags (tagsOf entries) })) (hf : more.length < fuel)
    (hd : src.Delivers (streamMarker ++ metadataBytes (first :: more) ++ rest) fault) :
    ∃ reader, FlacReader.newExt fuel src o = .ok reader ∧ reader.vendor = some vendor ∧
      ∀ n, calls tagsNext n reader.tags =
        (List.range n).map fun k => .ok (((tagsOf entries).map fun t => (t.name, t.value))[k]?) := by
  obtain ⟨r', h1, _⟩ := newExt_of h hf hd
  exact ⟨_, h1, rfl, fun n => calls_tags n _ ht⟩

example : Utf8 exampleVendor ∧ (∀ t ∈ tagsOf exampleEntries, t.Legal) ∧
    (vorbisCommentBytes exampleVendor exampleEntries).length ≤ maxBlockLength ∧
    (BufferedReader.new (bytewise (vorbisCommentBytes exampleVendor exampleEntries ++ []))).Remaining
      (vorbisCommentBytes exampleVendor exampleEntries ++ []) none ∧ (tagsOf exampleEntries).length = 2 :=
  ⟨exampleVendor_utf8, exampleEntries_legal, by decide +kernel, bytewise_remaining _, rfl⟩

/-! ## C40 -/

/-- **C40.** The tags of a Vorbis comment that is accepted are well-formed, the stored comments are
`name=value`, and iterating over them never panics. -/
theorem C40_block {blockType : U8} {length : Nat} {vc : VorbisComment} (hlen : length < 2 ^ 32)
    (hr : r.Remaining bytes fault)
    (h : readMetadataBlock blockType length r = (.ok (.vorbisComment vc), r')) :
    Utf8 vc.vendor ∧ ∃ tags : List Tag, (∀ t ∈ tags, t.Legal) ∧
      vc.comments.map Prod.fst = tags.map Tag.comment ∧ vc.comments = storedTags tags ∧
      (∀ n, calls tagsNext n vc.comments =
        (List.range n).map fun k => .ok ((tags.map fun t => (t.name, t.value))[k]?)) ∧
      ∀ n name, ∀ x ∈ calls getTagNext n (GetTag.new vc.comments name), Returns x := by
  obtain ⟨used, rest, h1, h2, h3, h4⟩ := (btriple_body (lim := .never) blockType length).buffered
    ((simAllBuffered fault).full.readMetadataBlock _ _ hlen) hr h
  cases h4 with
  | vorbisComment vendor entries hv ht hl =>
    refine ⟨hv, tagsOf entries, ht, by simp [storedTags], rfl, fun n => calls_tags n _ ht, ?_⟩
    intro n name x hx
    rw [calls_getTag name n _ ht] at hx
    obtain ⟨k, _, rfl⟩ := List.mem_map.1 hx
    exact .inl ⟨_, rfl⟩

/-- The tags that a reader reports are well-formed. -/
theorem open_tags (hd : src.Delivers bytes fault) (h : FlacReader.newExt fuel src o = .ok reader) :
    (∀ v ∈ reader.vendor, Utf8 v) ∧ ∃ tags : List Tag, (∀ t ∈ tags, t.Legal) ∧
      reader.tags = storedTags tags ∧ ∀ name, reader.getTag name = GetTag.new (storedTags tags) name := by
  obtain ⟨first, more, info, vc, r', rest, h1, h2, rfl, h3⟩ := newExt_ok hd h
  cases vc with
  | none => exact ⟨by simp [FlacReader.vendor, FlacReader.make], [], by simp, rfl, fun _ => rfl⟩
  | some vc =>
    have hm : vc ∈ commentsIn more := by
      have h4 := h2.comment
      split at h4
      · exact List.mem_of_mem_head? (Option.mem_def.2 h4.symm)
      · cases h4
    obtain ⟨b, _, hb⟩ := mem_commentsIn.1 hm
    obtain ⟨hv, tags, ht, htags⟩ := BodyEncodes.comment_legal b.encodes hb
    refine ⟨?_, tags, ht, htags, fun name => ?_⟩
    · rintro _ ⟨⟩
      exact hv
    · show GetTag.new vc.comments name = _
      rw [htags]

/-- **C40.** The tags that a reader reports are well-formed, and the iterators never panic. -/
theorem C40_open (hd : src.Delivers bytes fault) (h : FlacReader.newExt fuel src o = .ok reader) :
    (∀ v ∈ reader.vendor, Utf8 v) ∧ ∃ tags : List Tag, (∀ t ∈ tags, t.Legal) ∧
      reader.tags.map Prod.fst = tags.map Tag.comment ∧
      (∀ n, calls tagsNext n reader.tags =
        (List.range n).map fun k => .ok ((tags.map fun t => (t.name, t.value))[k]?)) ∧
      ∀ n name, ∀ x ∈ calls getTagNext n (reader.getTag name), Returns x := by
  obtain ⟨h1, tags, h2, h3, h4⟩ := open_tags hd h
  refine ⟨h1, tags, h2, by simp [h3, storedTags], fun n => by rw [h3]; exact calls_tags n _ h2, ?_⟩
  intro n name x hx
  rw [h4, calls_getTag name n _ h2] at hx
  obtain ⟨k, _, rfl⟩ := List.mem_map.1 hx
  exact .inl ⟨_, rfl⟩

/-- **C40.** What `Tag.Legal` means for the name. -/
theorem C40_name {t : Tag} (h : t.Legal) :
    (∀ b ∈ t.name, 0x20 ≤ b.toNat ∧ b.toNat ≤ 0x7d ∧ b ≠ 0x3d#8) ∧ Utf8 t.name ∧ Utf8 t.value := by
  refine ⟨h.name, ?_, h.value⟩
  have := (utf8_ascii (rest := []) (Tag.Legal.ascii h)).2 ⟨[], rfl⟩
  rwa [List.append_nil] at this

example : ∃ vc r', readMetadataBlock 4#8 (vorbisCommentBytes exampleVendor exampleEntries).length
    (BufferedReader.new (bytewise (vorbisCommentBytes exampleVendor exampleEntries ++ []))) =
      (.ok (.vorbisComment vc), r') := by
  obtain ⟨vc, r', h, _⟩ := C39_exact exampleVendor_utf8 exampleEntries_legal (by decide +kernel)
    (bytewise_remaining (vorbisCommentBytes exampleVendor exampleEntries ++ []))
  exact ⟨vc, r', h⟩

/-! ## C41 -/

/-- **C41.** `get_tag` yields the values of the tags whose name equals the given one up to the case of
ASCII letters, in order, and then `None` as often as one calls. -/
theorem C41_filter (hd : src.Delivers bytes fault) (h : FlacReader.newExt fuel src o = .ok reader) :
    ∃ tags : List Tag, (∀ t ∈ tags, t.Legal) ∧
      (∀ n, calls tagsNext n reader.tags =
        (List.range n).map fun k => .ok ((tags.map fun t => (t.name, t.value))[k]?)) ∧
      ∀ (name : Str) (n : Nat), calls getTagNext n (reader.getTag name) =
        (List.range n).map fun k =>
          .ok (((tags.filter fun t => sameName t.name name).map fun t => t.value)[k]?) := by
  obtain ⟨_, tags, h2, h3, h4⟩ := open_tags hd h
  refine ⟨tags, h2, fun n => by rw [h3]; exact calls_tags n _ h2, fun name n => ?_⟩
  rw [h4]
  exact calls_getTag name n _ h2

theorem sameName_letters : ∀ {s t : Str}, sameName s t = true → ∀ b ∈ t, ∃ a ∈ s, sameLetter a b = true
  | [], [], _, b, hb => nomatch hb
  | [], _ :: _, h, _, _ => nomatch h
  | _ :: _, [], h, _, _ => nomatch h
  | a :: s, b' :: t, h, b, hb => by
    rw [sameName, Bool.and_eq_true] at h
    rcases List.mem_cons.1 hb with rfl | hb
    · exact ⟨a, by simp, h.1⟩
    · obtain ⟨a', h1, h2⟩ := sameName_letters h.2 b hb
      exact ⟨a', by simp [h1], h2⟩

/-- **C41.** Looking up a name with `=` or a character that is not ASCII gives no results. -/
theorem C41_noName (hd : src.Delivers bytes fault) (h : FlacReader.newExt fuel src o = .ok reader) {name : Str}
    (hn : ∃ b ∈ name, 0x80 ≤ b.toNat ∨ b = 0x3d#8) (n : Nat) :
    calls getTagNext n (reader.getTag name) = List.replicate n (.ok none) := by
  obtain ⟨tags, h1, -, h2⟩ := C41_filter hd h
  rw [h2, List.filter_eq_nil_iff.2]
  · simp
  intro t ht hs
  obtain ⟨b, hb, hn⟩ := hn
  obtain ⟨a, ha, hl⟩ := sameName_letters hs b hb
  have hleg := (h1 t ht).name a ha
  have hne : a.toNat ≠ 0x3d := fun h => hleg.2.2 (BitVec.eq_of_toNat_eq h)
  have hb' : 0x80 ≤ b.toNat ∨ b.toNat = 0x3d := hn.imp id (fun h => by rw [h]; rfl)
  unfold sameLetter at hl
  simp only [Bool.or_eq_true, beq_iff_eq, Bool.and_eq_true, decide_eq_true_eq] at hl
  rcases hl with (rfl | hl) | hl <;> omega

/-- **C41.** The same for every list of legal tags. -/
theorem C41_tags {tags : List Tag} (h : ∀ t ∈ tags, t.Legal) (name : Str) (n : Nat) :
    calls getTagNext n (GetTag.new (storedTags tags) name) =
      (List.range n).map fun k =>
        .ok (((tags.filter fun t => sameName t.name name).map fun t => t.value)[k]?) :=
  calls_getTag name n tags h

example : (∀ t ∈ tagsOf exampleEntries, t.Legal) ∧
    ((tagsOf exampleEntries).filter fun t => sameName t.name (textBytes "tItLe".toList)).map
      (fun t => t.value) = [textBytes "a=é".toList] :=
  ⟨exampleEntries_legal, by decide +kernel⟩

/-! ## C42 -/

/-- **C42.** Whatever the input, reading a block of announced length `length` requests at most `length`
bytes for strings and payload altogether, and nothing at all if `length` exceeds 10 MiB. Apart from
strings and payload, room for the list of comments is requested once, for fewer than `length / 4` of
them. This holds whether or not the block is accepted. -/
theorem C42_block {σ : Type} [ReadBytes σ] (blockType : U8) (length : Nat) (s : Logged σ) :
    ∃ new, (readMetadataBlock blockType length s).2.log = s.log ++ new ∧
      requestedBytes new ≤ length ∧ (length ≤ maxBlockLength ∨ new = []) ∧
      (∀ q ∈ new, q.size = 1 ∧ q.count ≤ maxBlockLength ∨ q.size = 32 ∧ q.count < length / 4) ∧
      (new.filter fun q => q.size ≠ 1).length ≤ 1 := by
  obtain ⟨new, h1, h2⟩ := allocs_body blockType length s
  refine ⟨new, h1, h2.total, h2.limit, ?_, h2.once⟩
  intro q hq
  rcases h2.other q hq with h3 | h3
  · rcases h2.small q hq with h4 | h4
    · exact .inl h4
    · omega
  · exact .inr h3

/-- **C42.** The same for everything that is requested while opening a stream: no string or payload is
larger than 10 MiB. -/
theorem C42_open {σ : Type} [ReadBytes σ] (fuel : Nat) (o : FlacReaderOptions) (s : Logged σ) :
    ∃ new, (openStream fuel o s).2.log = s.log ++ new ∧
      ∀ q ∈ new, q.size = 1 ∧ q.count ≤ maxBlockLength ∨ q.size = 32 ∧ q.count < maxBlockLength / 4 :=
  allocsEach_open fuel o s

/-- **C42.** Application and Vorbis comment blocks that announce more than 10 MiB are not supported; they
are rejected before anything is read or requested. -/
theorem C42_unsupported {σ : Type} [ReadBytes σ] {blockType : U8} {length : Nat} (s : σ)
    (ht : blockType = 2#8 ∨ blockType = 4#8) (hl : maxBlockLength < length) :
    ∃ msg, readMetadataBlock blockType length s = (.error (.err (.unsupported msg)), s) := by
  have h1 : ¬ length < 4 := by unfold maxBlockLength at hl; omega
  have h2 : ¬ length < 8 := by unfold maxBlockLength at hl; omega
  unfold maxBlockLength at hl
  rcases ht with rfl | rfl
  · refine ⟨"application blocks larger than 10 MiB are not supported", ?_⟩
    unfold readMetadataBlock readApplicationBlock
    rw [if_neg (by decide), if_neg (by decide), if_pos rfl, if_neg h1, if_pos hl]
    rfl
  · refine ⟨"Vorbis comment blocks larger than 10 MiB are not supported", ?_⟩
    unfold readMetadataBlock readVorbisCommentBlock
    rw [if_neg (by decide), if_neg (by decide), if_neg (by decide), if_neg (by decide), if_pos rfl,
      if_neg h2, if_pos hl]
    rfl

/-- **C42.** Blocks of all other types make the reader request no memory, whatever length they announce. -/
theorem C42_other {σ : Type} [ReadBytes σ] {ty : U8} (ht : ty ≠ 2#8 ∧ ty ≠ 4#8) (length : Nat) (s : Logged σ) :
    (readMetadataBlock ty length s).2.log = s.log := by
  have hskip : ∀ b : MetadataBlock, Silent (do skip length; pure b : Dec (Logged σ) _) := fun b =>
    (silent_skip _).bind fun _ => .pure _
  suffices h : Silent (readMetadataBlock ty length : Dec (Logged σ) _) from h s
  unfold readMetadataBlock
  split
  · split
    · exact silent_streaminfo.bind fun _ => .pure _
    · exact .fail _
  · rw [if_neg ht.1, if_neg ht.2]
    repeat' split
    all_goals first | exact hskip _ | exact .fail _

/-- **C42.** The log does not change what is read: the results, and the reader afterwards, are the same. -/
theorem C42_transparent (s : Logged BufferedReader) {blockType : U8} {length : Nat}
    (hlen : length < 2 ^ 32) :
    (readMetadataBlock blockType length s).1 = (readMetadataBlock blockType length s.inner).1 ∧
    (readMetadataBlock blockType length s).2.inner = (readMetadataBlock blockType length s.inner).2 ∧
    ∀ fuel o, (openStream fuel o s).1 = (openStream fuel o s.inner).1 := by
  have key : ∀ {α : Type} {m : Dec (Logged BufferedReader) α} {m' : Dec BufferedReader α},
      Sim (fun l r => l.inner = r) (fun _ => False) True m m' →
      (m s).1 = (m' s.inner).1 ∧ (m s).2.inner = (m' s.inner).2 := by
    intro α m m' h
    rcases h s s.inner rfl with h1 | ⟨_, _, h2, _⟩
    · exact h1
    · exact h2.elim
  obtain ⟨h1, h2⟩ := key (simLogged.full.readMetadataBlock blockType length hlen)
  exact ⟨h1, h2, fun fuel o => (key (simLogged.full.openStream fuel o)).1⟩

/-- Requests are indeed written down: the vendor string, the list of comments, and two comments. -/
example : (readMetadataBlock 4#8 (vorbisCommentBytes exampleVendor exampleEntries).length
    (⟨⟨vorbisCommentBytes exampleVendor exampleEntries, none⟩, []⟩ : Logged Flat)).2.log =
      [⟨10, 1⟩, ⟨3, 32⟩, ⟨10, 1⟩, ⟨7, 1⟩] := by decide +kernel

/-! ## C43 -/

/-- **C43.** Iterating over metadata blocks yields the blocks up to and including the first one flagged as
the last, or up to the first place where there is no legal block and the error for it; and then `None`
as often as one calls. -/
theorem C43_items (hr : r.Remaining bytes fault) :
    ∃ items, MetadataItems fault bytes items ∧
      ∀ n, calls MetadataBlockReader.next n (MetadataBlockReader.new r) =
        (List.range n).map fun k => .ok items[k]? := by
  obtain ⟨items, h1, h2⟩ := metadata_items bytes.length ⟨bytes, fault⟩ (le_refl _)
  refine ⟨items, h1, fun n => ?_⟩
  rw [(simAllBuffered fault).metadataCalls n hr.rel, h2]

/-- **C43.** The items are determined by the input. -/
theorem C43_unique {items items' : List (Except Error MetadataBlock)} (h : MetadataItems fault bytes items)
    (h' : MetadataItems fault bytes items') : items' = items :=
  items_unique h h'

/-- **C43.** There is at least one item; all but the last are blocks. -/
theorem C43_nonempty {items : List (Except Error MetadataBlock)} (h : MetadataItems fault bytes items) :
    items ≠ [] ∧ ∀ x ∈ items.dropLast, ∃ b, x = .ok b := by
  induction h with
  | last b rest h => exact ⟨by simp, by simp⟩
  | more b rest items h next ih =>
    refine ⟨by simp, ?_⟩
    intro x hx
    rw [List.dropLast_cons_of_ne_nil ih.1] at hx
    rcases List.mem_cons.1 hx with rfl | hx
    · exact ⟨_, rfl⟩
    · exact ih.2 x hx
  | refused => exact ⟨by simp, by simp⟩
  | cut => exact ⟨by simp, by simp⟩

/-- **C43.** For every reader: once the iterator has returned `None`, it does not change any more, and
nothing is read from its input, however often one calls. -/
theorem C43_none {σ : Type} [ReadBytes σ] {it it' : MetadataBlockReader σ}
    (h : MetadataBlockReader.next it = (.ok none, it')) :
    it' = it ∧ ∀ n, calls MetadataBlockReader.next n it = List.replicate n (.ok none) := by
  obtain ⟨rfl, _⟩ := next_none h
  refine ⟨rfl, fun n => ?_⟩
  induction n with
  | zero => rfl
  | succ n ih => rw [calls, h, List.replicate_succ, ih]

/-- **C43.** For every reader: after an error the iterator returns `None`, without reading from its
input. -/
theorem C43_error {σ : Type} [ReadBytes σ] {it it' : MetadataBlockReader σ} {e : Error}
    (h : MetadataBlockReader.next it = (.ok (some (.error e)), it')) :
    MetadataBlockReader.next it' = (.ok none, it') :=
  MetadataBlockReader.next_done _ (next_error h)

/-- **C43.** The same after the block flagged as the last: if the header that was read has the flag set,
the iterator returns `None` from then on, without reading from its input; otherwise it goes on. -/
theorem C43_last {it' : MetadataBlockReader BufferedReader} {block : MetadataBlock}
    (hr : r.Remaining bytes fault)
    (h : MetadataBlockReader.next { input := r, done := false } = (.ok (some (.ok block)), it')) :
    (∀ t ∈ bytes.head?, 128 ≤ t.toNat → MetadataBlockReader.next it' = (.ok none, it')) ∧
    (∀ t ∈ bytes.head?, t.toNat < 128 → it' = MetadataBlockReader.new it'.input) := by
  rw [next_block_run] at h
  rcases hx : readBlock r with ⟨⟨_ | _ | _ | _⟩ | ⟨l, b⟩, s'⟩
  all_goals rw [hx] at h
  all_goals cases h
  obtain ⟨used, rest, rfl, h2, e, rfl, h3⟩ := (btriple_block (lim := .never)).buffered (simBlock fault) hr hx
  cases h3
  have ht := e.typeLt
  have key : ∀ t ∈ (e.bytes ++ rest).head?, t.toNat = (if e.isLast then 128 else 0) + e.blockType.toNat := by
    rintro t ⟨⟩
    rw [BitVec.toNat_ofNat]
    split <;> omega
  constructor
  · intro t h1 h4
    have := key t h1
    refine MetadataBlockReader.next_done _ ?_
    by_contra hl
    rw [if_neg hl] at this
    omega
  · intro t h1 h4
    have := key t h1
    unfold MetadataBlockReader.new
    congr
    rw [← Bool.not_eq_true]
    intro hl
    rw [if_pos hl] at this
    omega

example : MetadataItems none (metadataBytes [paddingBlock false, commentBlock true] ++ [9#8])
    [.ok (.padding 3), .ok (commentBlock true).block] := by
  have := MetadataItems.last (fault := none) (commentBlock true) [9#8] rfl
  exact .more (paddingBlock false) _ _ rfl this

example : MetadataItems none (metadataBytes [paddingBlock false] ++ [0x7f#8, 0#8, 0#8, 1#8])
    [.ok (.padding 3), .error (.formatError "invalid metadata block type")] := by
  have := MetadataItems.refused (fault := none) _ [] _ (.mk false 127#8 1 (by decide) (by decide) [] _ (.type 1))
  exact .more (paddingBlock false) _ _ rfl this

end Claxon.Props
