import Verif.Spec.Session
import Verif.Props.OpenReasons
import Verif.Props.Reasons
import Verif.Props.Progress

/-! # C84: a specification of everything that is decoded -/

namespace Claxon.Props

open Claxon Spec ReadBytes

variable {r : BufferedReader} {bytes : List U8} {fault : Option Nat} {src : Src} {fuel : Nat}
  {o : FlacReaderOptions} {blocks blocks' : List (Nat × List (List Int))} {last last' : SessionEnd}

/-! ## Lemmas -/

/-- How reading frames ends. -/
def endOf : SessionEnd → Except Fail (Option Block)
  | .finished => .ok none
  | .failed e => .error (.err e)
  | .overflowed => .error (.panic .overflow)

/-- How the sample iterator ends. -/
def endItem : SessionEnd → Except Fail (Option (Except Error I32))
  | .finished => .ok none
  | .failed e => .ok (some (.error e))
  | .overflowed => .error (.panic .overflow)

theorem holds_unique {b : Block} {time time' : Nat} {channels channels' : List (List Int)}
    (h : b.Holds time channels) (h' : b.Holds time' channels') : time' = time ∧ channels' = channels := by
  refine ⟨h'.time.symm.trans h.time, List.ext_getElem (h'.count.symm.trans h.count) fun c hc hc' => ?_⟩
  obtain ⟨xs, h1, h2⟩ := h.channel c hc'
  obtain ⟨xs', h1', h2'⟩ := h'.channel c hc
  rw [h1] at h1'
  cases h1'
  rw [← h2, ← h2']

theorem decodes_cut (h : ¬ BeginsWithFrame bytes) (h' : ∀ e, ¬ Refused bytes e) (hz : ¬ Uncountable bytes)
    (h2 : 2 ≤ bytes.length ∨ fault ≠ none) :
    Decodes fault bytes [] (.failed (.ioError (fault.elim .unexpectedEof .inner))) := by
  refine .cut bytes ?_ ?_ ?_ h2
  · rintro bps f hw ⟨rest, rfl⟩
    exact h ⟨bps, f, rest, hw, rfl⟩
  · rintro used e hu ⟨rest, rfl⟩
    exact h' e ⟨used, rest, rfl, hu⟩
  · rintro used hu ⟨rest, rfl⟩
    exact hz ⟨used, rest, rfl, hu⟩

theorem short_none (buffer : VecI32) (hr : r.Remaining bytes none) (h2 : bytes.length < 2) :
    (readNextOrEof buffer r).1 = .ok none := by
  rw [Sim.result ((simBufferedRd none).readNextOrEof buffer) hr]
  match bytes, h2 with
  | [], _ => rw [readNextOrEof_flat]; rfl
  | [b], _ => rw [readNextOrEof_flat]; rfl

theorem not_uncountable_of_frame (h : BeginsWithFrame bytes) : ¬ Uncountable bytes := by
  obtain ⟨bps, f, rest, hw, rfl⟩ := h
  intro hu
  have hr := bytewise_remaining (f.bytes bps ++ rest)
  obtain ⟨r', h1, _⟩ := buffered_frame hw .empty hr
  have h2 := (uncountable_result .empty hr).2 hu
  rw [h1] at h2
  cases h2

/-- What the first call returns. -/
theorem decodes_first (h : Decodes fault bytes blocks last) (buffer : VecI32) (hr : r.Remaining bytes fault) :
    (blocks = [] ∧ (readNextOrEof buffer r).1 = endOf last) ∨
    ∃ bps f rest more, Frame.WellFormed bps f ∧ bytes = f.bytes bps ++ rest ∧
      blocks = (f.header.time, f.wrappedChannels) :: more ∧ Decodes fault rest more last := by
  cases h with
  | frame bps f hw rest blocks last next => exact .inr ⟨bps, f, rest, blocks, hw, rfl, rfl, next⟩
  | refused used rest e h => exact .inl ⟨rfl, refused_result buffer hr ⟨used, rest, rfl, h⟩⟩
  | uncountable used rest h => exact .inl ⟨rfl, (uncountable_result buffer hr).2 ⟨used, rest, rfl, h⟩⟩
  | finish bytes h2 hf =>
    subst hf
    exact .inl ⟨rfl, short_none buffer hr h2⟩
  | cut bytes hf he hz h2 =>
    refine .inl ⟨rfl, ?_⟩
    have ho := C81_outcome buffer hr
    generalize readNextOrEof buffer r = x at ho ⊢
    have hz' : ¬ Uncountable bytes := fun ⟨used, rest, hb, hu⟩ => hz used hu ⟨rest, hb.symm⟩
    rcases x with ⟨(e | _ | _ | _) | _ | b, r'⟩
    · rcases ho with ⟨used, rest, hb, hu⟩ | ⟨rfl, _⟩
      · exact absurd ⟨rest, hb.symm⟩ (he used e hu)
      · rfl
    · exact absurd ho.2 hz'
    · exact absurd ho.2 hz'
    · exact absurd ho.2 hz'
    · obtain ⟨h3, h4⟩ := ho
      rcases h2 with h2 | h2
      · exact absurd h3 (by omega)
      · exact absurd h4 h2
    · obtain ⟨bps, f, rest, hw, hb⟩ := ho
      exact absurd ⟨rest, hb.symm⟩ (hf bps f hw)

theorem endOf_inj (h : endOf last = endOf last') : last = last' := by
  cases last <;> cases last' <;> cases h <;> rfl

theorem endOf_ne_block (last : SessionEnd) (b : Block) : endOf last ≠ .ok (some b) := by
  cases last <;> exact nofun

/-- A source that delivers the given bytes one by one, and then fails. -/
def bytewiseThen (bytes : List U8) (code : Nat) : Src where
  outcome := fun k =>
    match bytes[k]? with
    | some b => .ok 1 [b]
    | none => .err code []
  calls := 0

theorem bytewiseThen_delivers (bytes : List U8) (code : Nat) : (bytewiseThen bytes code).Delivers bytes (some code) := by
  have gen : ∀ (tail : List U8) (k : Nat), bytes.drop k = tail →
      Delivers (bytewiseThen bytes code).outcome k tail (some code) := by
    intro tail
    induction tail with
    | nil =>
      intro k hk
      refine .fault (written := []) ?_
      have : bytes.length ≤ k := List.drop_eq_nil_iff.1 hk
      simp only [bytewiseThen]
      rw [List.getElem?_eq_none this]
    | cons b tail ih =>
      intro k hk
      have hb : bytes[k]? = some b := by
        rw [← List.head?_drop, hk]; rfl
      refine .chunk (k := k) (n := 1) (written := [b]) (rest := tail) ?_ (by omega) (by decide)
        (by simp) (ih (k + 1) ?_)
      · simp only [bytewiseThen]
        rw [hb]
      · rw [← List.drop_drop, hk]; rfl
  exact gen bytes 0 rfl

theorem exists_delivers (bytes : List U8) (fault : Option Nat) : ∃ src : Src, src.Delivers bytes fault := by
  cases fault with
  | none => exact ⟨_, bytewise_delivers bytes⟩
  | some code => exact ⟨_, bytewiseThen_delivers bytes code⟩

theorem exists_remaining (bytes : List U8) (fault : Option Nat) : ∃ r : BufferedReader, r.Remaining bytes fault := by
  obtain ⟨src, h⟩ := exists_delivers bytes fault
  exact ⟨_, BufferedReader.Remaining.new h⟩

theorem decodes_unique (h : Decodes fault bytes blocks last) :
    ∀ {blocks' : List (Nat × List (List Int))} {last' : SessionEnd}, Decodes fault bytes blocks' last' →
      blocks' = blocks ∧ last' = last := by
  have hend : ∀ {bytes : List U8} {last : SessionEnd} {blocks' : List (Nat × List (List Int))} {last' : SessionEnd},
      Decodes fault bytes [] last → Decodes fault bytes blocks' last' → blocks' = [] ∧ last' = last := by
    intro bytes last blocks' last' h h'
    obtain ⟨r, hr⟩ := exists_remaining bytes fault
    rcases decodes_first h .empty hr with ⟨-, h1⟩ | ⟨_, _, _, _, _, _, h1, _⟩
    · rcases decodes_first h' .empty hr with ⟨h2, h3⟩ | ⟨bps, f, rest, more, hw, rfl, _, _⟩
      · exact ⟨h2, endOf_inj (h3.symm.trans h1)⟩
      · obtain ⟨r', h4, _⟩ := buffered_frame hw .empty hr
        rw [h4] at h1
        exact absurd h1.symm (endOf_ne_block _ _)
    · cases h1
  induction h with
  | frame bps f hw rest blocks last next ih =>
    intro blocks' last' h'
    obtain ⟨r, hr⟩ := exists_remaining (f.bytes bps ++ rest) fault
    obtain ⟨r₁, h1, h2⟩ := buffered_frame hw .empty hr
    rcases decodes_first h' .empty hr with ⟨-, h3⟩ | ⟨bps', f', rest', more, hw', hb, rfl, h'⟩
    · rw [h1] at h3
      exact absurd h3.symm (endOf_ne_block _ _)
    · rw [hb] at hr
      obtain ⟨r₁', h1', h2'⟩ := buffered_frame hw' .empty hr
      have h3 := blockOf_holds hw .empty
      have h3' := blockOf_holds hw' .empty
      rw [h1'] at h1
      obtain ⟨h4, rfl⟩ := Prod.mk.inj h1
      rw [Option.some.inj (Except.ok.inj h4)] at h3'
      obtain ⟨h5, h6⟩ := holds_unique h3 h3'
      obtain ⟨rfl, -⟩ := h2.unique h2'
      obtain ⟨rfl, rfl⟩ := ih h'
      exact ⟨by rw [h5, h6], rfl⟩
  | refused used rest e h => exact hend (.refused used rest e h)
  | uncountable used rest h => exact hend (.uncountable used rest h)
  | finish bytes h2 hf => exact hend (.finish bytes h2 hf)
  | cut bytes hf he hz h2 => exact hend (.cut bytes hf he hz h2)

theorem decodes_total (fault : Option Nat) : ∀ n (bytes : List U8), bytes.length < n →
    ∃ blocks last, Decodes fault bytes blocks last := by
  intro n
  induction n with
  | zero => intro bytes h; omega
  | succ n ih =>
    intro bytes hn
    by_cases hf : BeginsWithFrame bytes
    · obtain ⟨bps, f, rest, hw, rfl⟩ := hf
      have := hw.length_bytes
      rw [List.length_append] at hn
      obtain ⟨blocks, last, h⟩ := ih rest (by omega)
      exact ⟨_, _, .frame bps f hw rest blocks last h⟩
    by_cases he : ∃ e, Refused bytes e
    · obtain ⟨e, used, rest, rfl, h⟩ := he
      exact ⟨_, _, .refused used rest e h⟩
    by_cases hz : Uncountable bytes
    · obtain ⟨used, rest, rfl, h⟩ := hz
      exact ⟨_, _, .uncountable used rest h⟩
    by_cases h2 : 2 ≤ bytes.length ∨ fault ≠ none
    · exact ⟨_, _, decodes_cut hf (fun e h => he ⟨e, h⟩) hz h2⟩
    · rw [not_or, not_not] at h2
      exact ⟨_, _, .finish bytes (by omega) h2.2⟩

/-- Reading all frames, according to the specification. -/
theorem decodes_reads (h : Decodes fault bytes blocks last) : ∀ {r : BufferedReader} (buffer : VecI32),
    r.Remaining bytes fault →
    ∃ bs r' buffer' rest, ReadsBlocks r buffer bs r' buffer' ∧
      List.Forall₂ (fun (b : Block) (x : Nat × List (List Int)) => b.Holds x.1 x.2) bs blocks ∧
      r'.Remaining rest fault ∧ (readNextOrEof buffer' r').1 = endOf last := by
  have hend : ∀ {bytes : List U8} {last : SessionEnd}, Decodes fault bytes [] last → ∀ {r : BufferedReader} (buffer : VecI32),
      r.Remaining bytes fault → ∃ bs r' buffer' rest, ReadsBlocks r buffer bs r' buffer' ∧
        List.Forall₂ (fun (b : Block) (x : Nat × List (List Int)) => b.Holds x.1 x.2) bs [] ∧
        r'.Remaining rest fault ∧ (readNextOrEof buffer' r').1 = endOf last := by
    intro bytes last h r buffer hr
    rcases decodes_first h buffer hr with ⟨-, h1⟩ | ⟨_, _, _, _, _, _, h1, _⟩
    · exact ⟨[], r, buffer, bytes, .nil, .nil, hr, h1⟩
    · cases h1
  induction h with
  | frame bps f hw rest blocks last next ih =>
    intro r buffer hr
    obtain ⟨r₁, h1, h2⟩ := buffered_frame hw buffer hr
    obtain ⟨bs, r', buffer', rest', h3, h4, h5, h6⟩ := ih (blockOf f buffer).intoBuffer h2
    exact ⟨_, r', buffer', rest', .cons h1 h3, .cons (blockOf_holds hw buffer) h4, h5, h6⟩
  | refused used rest e h => exact hend (.refused used rest e h)
  | uncountable used rest h => exact hend (.uncountable used rest h)
  | finish bytes h2 hf => exact hend (.finish bytes h2 hf)
  | cut bytes hf he hz h2 => exact hend (.cut bytes hf he hz h2)

theorem afterBlock_end {buffer : VecI32} (h : (readNextOrEof buffer r).1 = endOf last) :
    (FlacSamples.afterBlock buffer r).1 = endItem last := by
  unfold FlacSamples.afterBlock
  generalize readNextOrEof buffer r = x at h ⊢
  rcases x with ⟨y, r'⟩
  cases last <;> subst h <;> rfl

/-- The iterator, once it has come to the end of a block. -/
theorem calls_end {it : FlacSamples BufferedReader} {buffer : VecI32} (hit : it.AtEnd r buffer)
    (hr : r.Remaining bytes fault) (h : (readNextOrEof buffer r).1 = endOf last) (more : Nat)
    (hl : last = .overflowed → more = 0) :
    calls FlacSamples.next (1 + more) it = endItem last :: List.replicate more (.ok none) := by
  have hstep := afterBlock_step hr List.suffix_rfl buffer it
  have heq := afterBlock_end h
  rw [Nat.add_comm, calls, FlacSamples.next_atEnd hit, heq]
  congr 1
  cases last with
  | overflowed => rw [hl rfl]; rfl
  | failed e => exact calls_failed (hstep.err e heq) more
  | finished =>
    rcases hstep.none heq with hf | ⟨r', h1, h2⟩
    · exact calls_failed hf more
    · rw [h1, calls_eof h2]

theorem readsBlocks_samples {σ : Type} [ReadBytes σ] {s s' : σ} {buffer buffer' : VecI32} {bs : List Block}
    (h : ReadsBlocks s buffer bs s' buffer') :
    ∀ {blocks : List (Nat × List (List Int))},
      List.Forall₂ (fun (b : Block) (x : Nat × List (List Int)) => b.Holds x.1 x.2) bs blocks →
      bs.flatMap blockSamples = (samplesOf blocks).map fun v => .ok (BitVec.ofInt 32 v) := by
  induction h with
  | nil => intro blocks h; cases h; rfl
  | @cons s s₁ s' buffer buffer' b bs h _ ih =>
    intro blocks h'
    cases h' with
    | @cons _ x _ blocks hb h' =>
      have hs := post_block buffer _ _ _ h b rfl
      have hd : (x.2.headD []).length = b.duration := by
        have h1 := hb.count
        have h2 := hs.channels
        obtain ⟨c, cs, hcs⟩ : ∃ c cs, x.2 = c :: cs := by
          cases h : x.2 with
          | nil => rw [h] at h1; simp at h1; omega
          | cons c cs => exact ⟨c, cs, rfl⟩
        rw [hcs]
        exact hb.duration c (by simp [hcs])
      rw [List.flatMap_cons, ih h', blockSamples_holds hs hb, ← hd, ← List.map_append]
      rfl

/-! ## C84 -/

/-- **C84.** Every input decodes to something. -/
theorem C84_total (fault : Option Nat) (bytes : List U8) : ∃ blocks last, Decodes fault bytes blocks last :=
  decodes_total fault _ bytes (Nat.lt_succ_self _)

/-- **C84.** It decodes to one thing only. -/
theorem C84_unique (h : Decodes fault bytes blocks last) (h' : Decodes fault bytes blocks' last') :
    blocks' = blocks ∧ last' = last :=
  decodes_unique h h'

/-- **C84.** Reading frames one after the other, into whichever buffer, returns the blocks that the input decodes to,
and then `None` or the error, or it panics, as prescribed. -/
theorem C84_blocks (h : Decodes fault bytes blocks last) (buffer : VecI32) (hr : r.Remaining bytes fault) :
    ∃ bs r' buffer', ReadsBlocks r buffer bs r' buffer' ∧
      List.Forall₂ (fun (b : Block) (x : Nat × List (List Int)) => b.Holds x.1 x.2) bs blocks ∧
      (readNextOrEof buffer' r').1 = endOf last := by
  obtain ⟨bs, r', buffer', rest, h1, h2, -, h3⟩ := decodes_reads h buffer hr
  exact ⟨bs, r', buffer', h1, h2, h3⟩

/-- **C84.** The sample iterator yields the samples that the input decodes to, then the error, if there is one, and
then `None` as often as one calls. (After a panic there is nothing to say about further calls.) -/
theorem C84_samples (h : Decodes fault bytes blocks last) (hr : r.Remaining bytes fault) (more : Nat)
    (hl : last = .overflowed → more = 0) :
    calls FlacSamples.next ((samplesOf blocks).length + 1 + more) (FlacSamples.new r) =
      (samplesOf blocks).map yields ++ endItem last :: List.replicate more (.ok none) := by
  obtain ⟨bs, r', buffer', rest, h1, h2, h3, h4⟩ := decodes_reads h .empty hr
  obtain ⟨it', h5, h6⟩ := FlacSamples.calls_blocks (FlacSamples.atEnd_new r) h1
  have h7 := h6 (1 + more)
  rw [readsBlocks_samples h1 h2, List.length_map, List.map_map, calls_end h5 h3 h4 more hl] at h7
  rw [Nat.add_assoc, h7]
  rfl

/-- **C84.** The overflow is only for inputs of half a gigabyte. -/
theorem C84_overflow (h : Decodes fault bytes blocks .overflowed) :
    LongZeros (bytesToBits bytes) ∧ 2 ^ 29 ≤ bytes.length := by
  have hz : LongZeros (bytesToBits bytes) := by
    generalize hl : SessionEnd.overflowed = last at h
    induction h with
    | frame bps f hw rest blocks last next ih =>
      rw [bytesToBits_append]
      exact (ih hl).append_left _
    | uncountable used rest h => exact uncountable_longZeros ⟨used, rest, rfl, h⟩
    | refused => cases hl
    | finish => cases hl
    | cut => cases hl
  exact ⟨hz, longZeros_length hz⟩

/-- **C84.** Every input has an outcome, whichever options it is opened with. -/
theorem C84_sessionTotal (o : FlacReaderOptions) (fault : Option Nat) (bytes : List U8) :
    ∃ result, Session o fault bytes result := by
  by_cases hm : BeginsWithMetadata o bytes
  · obtain ⟨first, more, info, vc, rest, hm, rfl⟩ := hm
    obtain ⟨blocks, last, h⟩ := C84_total fault rest
    exact ⟨_, .opened first more info vc hm rest blocks last h⟩
  by_cases he : ∃ e, RefusedOpening o bytes e
  · obtain ⟨e, used, rest, rfl, h⟩ := he
    exact ⟨_, .refused used rest e h⟩
  · refine ⟨_, .cut bytes ?_ ?_⟩
    · rintro first more info vc h ⟨rest, rfl⟩
      exact hm ⟨first, more, info, vc, rest, h, rfl⟩
    · rintro used e h ⟨rest, rfl⟩
      exact he ⟨e, used, rest, rfl, h⟩

/-- **C84.** What a client observes is the outcome of the input: the error of opening it, or else the streaminfo, the
vendor string, the tags, and all that the sample iterators yield, or that they refuse to. -/
theorem C84_session {result : SessionResult} (h : Session o fault bytes result)
    (hd : src.Delivers bytes fault) (hf : bytes.length < 4 * fuel) :
    match result with
    | .failed e => FlacReader.newExt fuel src o = .error (.err e)
    | .opened info vc blocks last => ∃ reader, FlacReader.newExt fuel src o = .ok reader ∧
        reader.streaminfo = info ∧ reader.vendor = vc.map VorbisComment.vendor ∧
        reader.tags = (vc.map VorbisComment.comments).getD [] ∧
        if o.metadataOnly then
          reader.samples = .error (.panic .explicit) ∧ reader.intoSamples = .error (.panic .explicit)
        else ∃ it, reader.samples = .ok it ∧ reader.intoSamples = .ok it ∧
          ∀ more, (last = .overflowed → more = 0) →
            calls FlacSamples.next ((samplesOf blocks).length + 1 + more) it =
              (samplesOf blocks).map yields ++ endItem last :: List.replicate more (.ok none) := by
  cases h with
  | opened first more info vc hm rest blocks last h =>
    have := length_metadataBytes more
    rw [metadataBytes_cons] at hf
    simp only [List.length_append] at hf
    obtain ⟨r', h1, h2⟩ := newExt_of (fuel := fuel) hm (by omega) hd
    refine ⟨_, h1, rfl, ?_, ?_, ?_⟩
    · cases vc <;> rfl
    · cases vc <;> rfl
    · split
      · rename_i ho
        exact ⟨(C46_panic h1 ho).2.1, (C46_panic h1 ho).2.2⟩
      · rename_i ho
        refine ⟨FlacSamples.new r', ?_, ?_, C84_samples h h2⟩
        · simp [FlacReader.make, FlacReader.samples, ho]
        · simp [FlacReader.make, FlacReader.intoSamples, ho]
  | refused used rest e h => exact refused_opening hd hf ⟨used, rest, rfl, h⟩
  | cut _ hm he =>
    refine C82_truncated hd hf ?_ ?_
    · rintro ⟨first, more, info, vc, rest, h, rfl⟩
      exact hm first more info vc h ⟨rest, rfl⟩
    · rintro e ⟨used, rest, rfl, h⟩
      exact he used e h ⟨rest, rfl⟩

/-- **C84.** An input has one outcome only. -/
theorem C84_sessionUnique {result result' : SessionResult} (h : Session o fault bytes result)
    (h' : Session o fault bytes result') : result' = result := by
  have hbm : ∀ {first more info vc rest}, Metadata o first more info vc →
      bytes = streamMarker ++ metadataBytes (first :: more) ++ rest → BeginsWithMetadata o bytes :=
    fun {first more info vc rest} hm hb => ⟨first, more, info, vc, rest, hm, hb⟩
  generalize hb : bytes = bytes' at h'
  cases h with
  | opened first more info vc hm rest blocks last h =>
    cases h' with
    | opened first' more' info' vc' hm' rest' blocks' last' h' =>
      have h1 := breads_open (fuel := more.length + more'.length + 1) hm (by omega) rest none
      have h1' := breads_open (fuel := more.length + more'.length + 1) hm' (by omega) rest' none
      rw [hb, h1'] at h1
      cases h1
      obtain ⟨rfl, rfl⟩ := C84_unique h h'
      rfl
    | refused used rest' e hu =>
      exact absurd (hbm hm rfl) (C82_unique (e' := e) ⟨used, rest', hb, hu⟩).2
    | cut _ hm' he => exact absurd ⟨rest, hb⟩ (hm' first more info vc hm)
  | refused used rest e h =>
    cases h' with
    | opened first' more' info' vc' hm' rest' blocks' last' h' =>
      exact absurd (hbm hm' hb) (C82_unique (e' := e) ⟨used, rest, rfl, h⟩).2
    | refused used' rest' e' hu => rw [(C82_unique ⟨used, rest, rfl, h⟩).1 ⟨used', rest', hb, hu⟩]
    | cut _ hm' he => exact absurd ⟨rest, hb⟩ (he used e h)
  | cut _ hm he =>
    subst hb
    cases h' with
    | opened first' more' info' vc' hm' rest' blocks' last' h' =>
      exact absurd ⟨rest', rfl⟩ (hm first' more' info' vc' hm')
    | refused used' rest' e' hu => exact absurd ⟨rest', rfl⟩ (he used' e' hu)
    | cut => rfl

/-- Two frames, and the beginning of a third. -/
theorem example_decodes : Decodes none (exampleFrame.bytes 16 ++ (exampleFrame.bytes 16 ++ [0xff#8, 0xf8#8, 0x69#8]))
    [(exampleFrame.header.time, exampleFrame.wrappedChannels), (exampleFrame.header.time, exampleFrame.wrappedChannels)]
    (.failed (.ioError .unexpectedEof)) := by
  have h1 : (readNextOrEof .empty (BufferedReader.new (bytewise [0xff#8, 0xf8#8, 0x69#8]))).1 =
      .error (.err (.ioError .unexpectedEof)) := by
    rw [Sim.result ((simBufferedRd none).readNextOrEof .empty) (bytewise_remaining _), readNextOrEof_flat]
    rfl
  obtain ⟨_, h2, h3, h4⟩ := C81_ioError (bytewise_remaining _) h1
  have hw := exampleFrame_encodes.legal.wellFormed
  exact .frame 16 _ hw _ _ _ (.frame 16 _ hw _ _ _ (decodes_cut h2 h3 h4 (.inl (by decide))))

example : samplesOf [(exampleFrame.header.time, exampleFrame.wrappedChannels),
    (exampleFrame.header.time, exampleFrame.wrappedChannels)] = [5, 3, 7, 4, 6, 8, 6, 2, 5, 3, 7, 4, 6, 8, 6, 2] := by
  decide +kernel

example : Session .default none (streamMarker ++
      metadataBytes (infoBlock false :: [paddingBlock false, commentBlock true]) ++
        (exampleFrame.bytes 16 ++ (exampleFrame.bytes 16 ++ [0xff#8, 0xf8#8, 0x69#8])))
    (.opened exampleInfo (some { vendor := exampleVendor, comments := storedTags (tagsOf exampleEntries) })
      [(exampleFrame.header.time, exampleFrame.wrappedChannels),
        (exampleFrame.header.time, exampleFrame.wrappedChannels)] (.failed (.ioError .unexpectedEof))) :=
  .opened _ _ _ _ exampleMetadata _ _ _ example_decodes

example (more : List U8) : Session .default none ([0x49#8, 0x44#8, 0x33#8, 0x04#8] ++ more)
    (.failed (.formatError "stream starts with ID3 header rather than FLAC header")) :=
  .refused _ more _ (.id3 _)

end Claxon.Props
