import Verif.Proof.RefusedOpen
import Verif.Props.Metadata

/-! # C82: every error of opening a stream has its reason -/

namespace Claxon.Props

open Claxon Spec ReadBytes

variable {r : BufferedReader} {bytes : List U8} {fault : Option Nat} {src : Src} {fuel : Nat}
  {o : FlacReaderOptions}

/-- The input begins with the metadata of a stream, as far as the options ask for it. -/
def BeginsWithMetadata (o : FlacReaderOptions) (bytes : List U8) : Prop :=
  ∃ first more info vc rest, Metadata o first more info vc ∧
    bytes = streamMarker ++ metadataBytes (first :: more) ++ rest

/-- The input begins with something that is to be refused, with the error `e`. -/
def RefusedOpening (o : FlacReaderOptions) (bytes : List U8) (e : Error) : Prop :=
  ∃ used rest, bytes = used ++ rest ∧ RefusedStream o used e

/-- The input begins with a metadata block. -/
def BeginsWithBlock (bytes : List U8) : Prop :=
  ∃ (b : EncodedBlock) (rest : List U8), bytes = b.bytes ++ rest

/-- The input begins with a metadata block that is to be refused, with the error `e`. -/
def RefusedReading (bytes : List U8) (e : Error) : Prop :=
  ∃ used rest, bytes = used ++ rest ∧ RefusedBlock used e

/-! ## Lemmas -/

theorem refusedMetadata_notIo {ty : U8} {length : Nat} {used : List U8} {e : Error}
    (h : RefusedMetadata ty length used e) (io : IoError) : e ≠ .ioError io := by
  cases h <;> simp

theorem refusedBlock_notIo {used : List U8} {e : Error} (h : RefusedBlock used e) (io : IoError) :
    e ≠ .ioError io := by
  cases h with
  | mk _ _ _ _ _ _ _ h => exact refusedMetadata_notIo h io

theorem refusedStream_notIo {used : List U8} {e : Error} (h : RefusedStream o used e) (io : IoError) :
    e ≠ .ioError io := by
  cases h with
  | first _ _ h => exact refusedBlock_notIo h io
  | block _ _ _ _ _ h => exact refusedBlock_notIo h io
  | _ => simp

theorem newExt_fails_iff {e : Error} : FlacReader.newExt fuel src o = .error (.err e) ↔
    (openStream fuel o (BufferedReader.new src)).1 = .error (.err e) := by
  unfold FlacReader.newExt FlacReader.newExtGen
  generalize openStream fuel o (BufferedReader.new src) = x
  rcases x with ⟨f | ⟨info, vc⟩, r'⟩ <;> simp

theorem opening_refused {e : Error} (hd : src.Delivers bytes fault)
    (h : FlacReader.newExt fuel src o = .error (.err e)) :
    e = .ioError (fault.elim .unexpectedEof .inner) ∨ RefusedOpening o bytes e := by
  rw [newExt_fails_iff, Sim.result ((simAllBuffered fault).full.openStream fuel o) (BufferedReader.Remaining.new hd)] at h
  exact brefuses_open fuel o ⟨bytes, fault⟩ e _ (Prod.ext h rfl)

theorem refused_opening {e : Error} (hd : src.Delivers bytes fault) (hf : bytes.length < 4 * fuel)
    (h : RefusedOpening o bytes e) : FlacReader.newExt fuel src o = .error (.err e) := by
  obtain ⟨used, rest, rfl, h⟩ := h
  rw [newExt_fails_iff]
  rw [List.length_append] at hf
  exact (bfails_open h (by omega)).buffered ((simAllBuffered fault).full.openStream fuel o)
    (BufferedReader.Remaining.new hd)

theorem opens {o : FlacReaderOptions} (hd : src.Delivers bytes fault) (hf : bytes.length < 4 * fuel)
    (h : BeginsWithMetadata o bytes) : ∃ reader, FlacReader.newExt fuel src o = .ok reader := by
  obtain ⟨first, more, info, vc, rest, hm, rfl⟩ := h
  have := length_metadataBytes more
  rw [metadataBytes_cons] at hf
  simp only [List.length_append] at hf
  obtain ⟨r', h, _⟩ := newExt_of (fuel := fuel) hm (by omega) hd
  exact ⟨_, h⟩

/-! ## Opening a stream -/

/-- **C82.** Opening a stream fails with a `FormatError` or an `Unsupported` error exactly if the input begins with
something that is to be refused with that error. -/
theorem C82_reason (hd : src.Delivers bytes fault) (hf : bytes.length < 4 * fuel) {e : Error}
    (he : ∀ io, e ≠ .ioError io) :
    FlacReader.newExt fuel src o = .error (.err e) ↔ RefusedOpening o bytes e :=
  ⟨fun h => (opening_refused hd h).resolve_left (he _), refused_opening hd hf⟩

/-- **C82.** There is at most one reason to refuse an input, and none if it begins with metadata. -/
theorem C82_unique {e e' : Error} (h : RefusedOpening o bytes e) :
    (RefusedOpening o bytes e' → e' = e) ∧ ¬ BeginsWithMetadata o bytes := by
  have hd := bytewise_delivers bytes
  have hf : bytes.length < 4 * (bytes.length + 1) := by omega
  have h1 := refused_opening hd hf h
  refine ⟨fun h' => ?_, fun h' => ?_⟩
  · have h2 := refused_opening hd hf h'
    rw [h1] at h2
    cases h2
    rfl
  · obtain ⟨_, h2⟩ := opens hd hf h'
    rw [h1] at h2
    cases h2

/-- **C82.** All there is to say about opening a stream: it succeeds if the input begins with metadata, and fails with
the error in question if it begins with what is to be refused. Otherwise the input ends too early, and the error is
the one of the source, or `UnexpectedEof`. -/
theorem C82_outcome (hd : src.Delivers bytes fault) (hf : bytes.length < 4 * fuel) :
    match FlacReader.newExt fuel src o with
    | .ok _ => BeginsWithMetadata o bytes
    | .error (.err e) => RefusedOpening o bytes e ∨
        e = .ioError (fault.elim .unexpectedEof .inner) ∧ ¬ BeginsWithMetadata o bytes ∧
          ∀ e', ¬ RefusedOpening o bytes e'
    | .error _ => False := by
  have h1 := newExt_returns (o := o) hd hf
  have h2 := fun e => opening_refused (o := o) (fuel := fuel) (e := e) hd
  have h3 := fun e => refused_opening (o := o) (e := e) hd hf
  have h4 := opens (o := o) hd hf
  have h5 := fun reader => newExt_ok (o := o) (fuel := fuel) (reader := reader) hd
  generalize FlacReader.newExt fuel src o = x at h1 h2 h3 h4 h5 ⊢
  rcases x with (e | _ | _ | _) | reader
  · rcases h2 e rfl with h | h
    · refine .inr ⟨h, fun hb => ?_, fun e' he' => ?_⟩
      · obtain ⟨_, hb⟩ := h4 hb
        cases hb
      · have := h3 e' he'
        cases this
        obtain ⟨used, rest, rfl, h'⟩ := he'
        exact refusedStream_notIo h' _ h
    · exact .inl h
  · rcases h1 with ⟨_, h⟩ | ⟨_, h⟩ <;> cases h
  · rcases h1 with ⟨_, h⟩ | ⟨_, h⟩ <;> cases h
  · rcases h1 with ⟨_, h⟩ | ⟨_, h⟩ <;> cases h
  · obtain ⟨first, more, info, vc, r', rest, hb, hm, _, _⟩ := h5 reader rfl
    exact ⟨first, more, info, vc, rest, hm, hb⟩

/-- **C82.** The input ends too early: it begins neither with metadata nor with what is to be refused. -/
theorem C82_truncated (hd : src.Delivers bytes fault) (hf : bytes.length < 4 * fuel)
    (hm : ¬ BeginsWithMetadata o bytes) (he : ∀ e, ¬ RefusedOpening o bytes e) :
    FlacReader.newExt fuel src o = .error (.err (.ioError (fault.elim .unexpectedEof .inner))) := by
  have h := C82_outcome (o := o) hd hf
  generalize FlacReader.newExt fuel src o = x at h ⊢
  rcases x with (e | _ | _ | _) | reader
  · rcases h with h | ⟨rfl, _⟩
    · exact absurd h (he e)
    · rfl
  · exact h.elim
  · exact h.elim
  · exact h.elim
  · exact absurd h hm

/-- **C82.** An I/O error is the one of the source, or `UnexpectedEof` if there is none. The input then begins
neither with metadata nor with anything that is to be refused. -/
theorem C82_ioError (hd : src.Delivers bytes fault) (hf : bytes.length < 4 * fuel) {io : IoError}
    (h : FlacReader.newExt fuel src o = .error (.err (.ioError io))) :
    io = fault.elim .unexpectedEof .inner ∧ ¬ BeginsWithMetadata o bytes ∧ ∀ e, ¬ RefusedOpening o bytes e := by
  have h1 := C82_outcome (o := o) hd hf
  rw [h] at h1
  rcases h1 with ⟨used, rest, _, h2⟩ | ⟨h2, h3, h4⟩
  · exact absurd rfl (refusedStream_notIo h2 io)
  · cases h2
    exact ⟨rfl, h3, h4⟩

/-- **C82.** The only thing that is not supported: application and Vorbis comment blocks of more than 10 MiB. -/
theorem C82_unsupported {msg : String} (h : RefusedOpening o bytes (.unsupported msg)) :
    ∃ (pre body : List U8) (flag : Bool) (length : Nat), maxBlockLength < length ∧ length < 2 ^ 24 ∧
      ((msg = "application blocks larger than 10 MiB are not supported" ∧
          bytes = pre ++ BitVec.ofNat 8 ((if flag then 128 else 0) + 2) :: beBytes 3 length ++ body) ∨
        (msg = "Vorbis comment blocks larger than 10 MiB are not supported" ∧
          bytes = pre ++ BitVec.ofNat 8 ((if flag then 128 else 0) + 4) :: beBytes 3 length ++ body)) := by
  obtain ⟨used, rest, rfl, h⟩ := h
  have hb : ∀ pre next : List U8, RefusedBlock next (.unsupported msg) → used = pre ++ next →
      ∃ (pre body : List U8) (flag : Bool) (length : Nat), maxBlockLength < length ∧ length < 2 ^ 24 ∧
      ((msg = "application blocks larger than 10 MiB are not supported" ∧
          used ++ rest = pre ++ BitVec.ofNat 8 ((if flag then 128 else 0) + 2) :: beBytes 3 length ++ body) ∨
        (msg = "Vorbis comment blocks larger than 10 MiB are not supported" ∧
          used ++ rest = pre ++ BitVec.ofNat 8 ((if flag then 128 else 0) + 4) :: beBytes 3 length ++ body)) := by
    rintro pre next hn rfl
    cases hn with
    | mk flag ty length _ hl body _ h =>
      cases h with
      | largeApplication _ hx =>
        exact ⟨pre, rest, flag, length, hx, hl, .inl ⟨rfl, by simp⟩⟩
      | largeComments _ hx =>
        exact ⟨pre, rest, flag, length, hx, hl, .inr ⟨rfl, by simp⟩⟩
  cases h with
  | first next _ h => exact hb _ next h rfl
  | block first more _ next _ h => exact hb _ next h rfl

/-! ## Reading a metadata block -/

theorem block_reasons : (BRefuses readMetadataBlockWithHeader (fun u e => RefusedBlock u e)) ∧
    ∀ {used e}, RefusedBlock used e → BFails readMetadataBlockWithHeader used (.err e) := by
  rw [readMetadataBlockWithHeader_eq]
  exact ⟨.bind (lim := .never) brefuses_block btriple_block fun _ _ _ => .pure _, fun h => .bind_left _ (bfails_block h)⟩

/-- **C82.** The same for reading a single metadata block. -/
theorem C82_block (hr : r.Remaining bytes fault) {e : Error} (he : ∀ io, e ≠ .ioError io) :
    (readMetadataBlockWithHeader r).1 = .error (.err e) ↔ RefusedReading bytes e := by
  have hs := (simAllBuffered fault).full.readMetadataBlockWithHeader
  constructor
  · intro h
    rw [Sim.result hs hr] at h
    exact (block_reasons.1 ⟨bytes, fault⟩ e _ (Prod.ext h rfl)).resolve_left (he _)
  · rintro ⟨used, rest, rfl, h⟩
    exact (block_reasons.2 h).buffered hs hr

/-- **C82.** All there is to say about reading a metadata block. -/
theorem C82_blockOutcome (hr : r.Remaining bytes fault) :
    match (readMetadataBlockWithHeader r).1 with
    | .ok _ => BeginsWithBlock bytes
    | .error (.err e) => RefusedReading bytes e ∨
        e = .ioError (fault.elim .unexpectedEof .inner) ∧ ¬ BeginsWithBlock bytes ∧ ∀ e', ¬ RefusedReading bytes e'
    | .error _ => False := by
  have hs := (simAllBuffered fault).full.readMetadataBlockWithHeader
  have h1 : BTriple .never readMetadataBlockWithHeader (fun u _ => ∃ b : EncodedBlock, u = b.bytes) := by
    rw [readMetadataBlockWithHeader_eq]
    refine btriple_block.bind ?_
    rintro _ _ ⟨b, rfl, rfl⟩
    exact .pure ⟨b, List.append_nil _⟩
  have h2 := h1 ⟨bytes, fault⟩
  have h3 := block_reasons.1 ⟨bytes, fault⟩
  have h4 : BeginsWithBlock bytes →
      ∃ a, (readMetadataBlockWithHeader (⟨bytes, fault⟩ : Flat)).1 = .ok a := by
    rintro ⟨b, rest, rfl⟩
    rw [readMetadataBlockWithHeader_eq, Dec.bind_ok _ (breads_block b rest fault)]
    exact ⟨_, rfl⟩
  have h5 : ∀ e, RefusedReading bytes e →
      (readMetadataBlockWithHeader (⟨bytes, fault⟩ : Flat)).1 = .error (.err e) := by
    rintro e ⟨used, rest, rfl, h⟩
    exact (block_reasons.2 h rest fault).1
  rw [Sim.result hs hr]
  generalize readMetadataBlockWithHeader (⟨bytes, fault⟩ : Flat) = x at h2 h3 h4 h5 ⊢
  rcases x with ⟨(e | _ | _ | _) | block, s⟩
  · rcases h3 e s rfl with h | h
    · refine .inr ⟨h, fun hb => ?_, fun e' he' => ?_⟩
      · obtain ⟨_, hb⟩ := h4 hb
        cases hb
      · have := h5 e' he'
        cases this
        obtain ⟨used, rest, rfl, h'⟩ := he'
        exact refusedBlock_notIo h' _ h
    · exact .inl h
  · exact h2.elim
  · exact h2.elim
  · exact h2.elim
  · obtain ⟨_, used, hb, b, rfl⟩ := h2
    exact ⟨b, s.bytes, hb⟩

/-! ## Examples -/

/-- A file that begins with an ID3 tag, and something that is no audio file at all. -/
example (more : List U8) :
    RefusedOpening .default ([0x49#8, 0x44#8, 0x33#8, 0x04#8] ++ more)
      (.formatError "stream starts with ID3 header rather than FLAC header") ∧
    RefusedOpening .default ([0x23#8, 0x21#8, 0x2f#8, 0x62#8] ++ more) (.formatError "invalid stream header") :=
  ⟨⟨_, more, rfl, .id3 _⟩, ⟨_, more, rfl, .marker _ rfl (by decide) (by decide)⟩⟩

/-- A streaminfo without a sample rate. -/
example (more : List U8) : RefusedOpening .default (streamMarker ++ (0x00#8 :: beBytes 3 34 ++
    streaminfoBytes { exampleInfo with sampleRate := 0 }) ++ more) (.formatError "invalid sample rate") :=
  ⟨_, more, rfl, .first _ _ (.mk false 0#8 34 (by decide) (by decide) _ _ (.streaminfo _
    ⟨by decide, by decide, by decide, by decide, by decide, by decide, by decide, by decide, by decide⟩ _
    (.sampleRate (by decide) (by decide) (by decide) (by decide))))⟩

/-- Two streaminfo blocks, with padding in between. -/
theorem refused_second (more : List U8) : RefusedOpening .default
    (streamMarker ++ metadataBytes [infoBlock false, paddingBlock false] ++ (infoBlock true).bytes ++ more)
    (.formatError "encountered second streaminfo block") := by
  refine ⟨_, more, rfl, .streaminfo _ _ ⟨⟨_, rfl⟩, ?_, by decide, ?_⟩ _ ⟨_, rfl⟩⟩
  · intro b hb
    rw [List.mem_singleton] at hb
    subst hb
    rintro ⟨i, hi⟩
    cases hi
  · intro fewer hp
    rcases List.prefix_concat_iff.1 (show fewer <+: [] ++ [paddingBlock false] from hp) with rfl | h
    · rintro (h | ⟨h, _⟩) <;> cases h
    · rw [List.prefix_nil] at h
      subst h
      rintro (h | ⟨h, _⟩) <;> cases h

/-- It is found, whatever the source does. -/
example (more : List U8) (h : more.length < 1000) :
    FlacReader.newExt 1000 (bytewise (streamMarker ++ metadataBytes [infoBlock false, paddingBlock false] ++
      (infoBlock true).bytes ++ more)) .default = .error (.err (.formatError "encountered second streaminfo block")) :=
  (C82_reason (bytewise_delivers _) (by
    have : (streamMarker ++ metadataBytes [infoBlock false, paddingBlock false] ++ (infoBlock true).bytes).length < 2000 := by
      decide +kernel
    rw [List.length_append]
    omega) (by simp)).2 (refused_second more)

/-- A Vorbis comment block of 42 bytes with three entries (one of them empty) and a comment without `=`. -/
example (more : List U8) : RefusedReading (0x84#8 :: beBytes 3 42 ++ (lengthPrefixed [] ++ leBytes 4 4 ++
    (exampleEntries.flatMap entryBytes ++ lengthPrefixed [0x41#8])) ++ more)
    (.formatError "Vorbis comment does not contain '='") :=
  ⟨_, more, rfl, .mk true 4#8 42 (by decide) (by decide) _ _ (.entries 42 (by decide) (by decide) [] (by decide)
    ⟨[], rfl⟩ 4 (by decide) _ _ (.entry exampleEntries exampleEntries_legal (by decide) [0x41#8] (by simp)
      (by decide +kernel) _ (.separator _ (by decide))))⟩

/-- One that should have four entries, but ends after three. -/
example (more : List U8) : RefusedReading (0x84#8 :: beBytes 3 37 ++ (lengthPrefixed [] ++ leBytes 4 4 ++
    exampleEntries.flatMap entryBytes) ++ more)
    (.formatError "Vorbis comment block contains wrong number of entries") :=
  ⟨_, more, rfl, .mk true 4#8 37 (by decide) (by decide) _ _ (.entries 37 (by decide) (by decide) [] (by decide)
    ⟨[], rfl⟩ 4 (by decide) _ _ (.count exampleEntries exampleEntries_legal (by decide) (by decide +kernel)))⟩

/-- The beginning of a stream: neither metadata, nor a reason to refuse it. -/
example : ¬ BeginsWithMetadata .default streamMarker ∧ ∀ e, ¬ RefusedOpening .default streamMarker e := by
  have h1 : FlacReader.newExt 2 (bytewise streamMarker) .default = .error (.err (.ioError .unexpectedEof)) := by
    rw [newExt_fails_iff, Sim.result ((simAllBuffered none).full.openStream 2 .default)
      (BufferedReader.Remaining.new (bytewise_delivers _))]
    rfl
  exact (C82_ioError (bytewise_delivers _) (by decide) h1).2

end Claxon.Props
