import Verif.Proof.MetadataIter
import Verif.Proof.Client

/-! From the flat reader to the buffered reader, and to `new_ext`. -/

namespace Claxon

open Spec ReadBytes

section

variable {α : Type} {fault : Option Nat} {m : Dec BufferedReader α} {m' : Dec Flat α}
  {r r' : BufferedReader} {bytes : List U8}

theorem BReads.buffered [FuzzCfg] {bs rest : List U8} {a : α} (hb : BReads m' bs a)
    (hm : Sim (BufRel fault) (FaultOf fault) True m m') (hr : r.Remaining (bs ++ rest) fault) :
    ∃ r', m r = (.ok a, r') ∧ r'.Remaining rest fault :=
  Sim.ok hm hr (hb rest fault)

theorem BFails.buffered [FuzzCfg] {bs rest : List U8} {e : Fail} {x : Bool} (hb : BFails m' bs e x)
    (hm : Sim (BufRel fault) (FaultOf fault) True m m') (hr : r.Remaining (bs ++ rest) fault) :
    (m r).1 = .error e := by
  rw [Sim.result hm hr, (hb _ _).1]

theorem BTriple.buffered [FuzzCfg] {lim : Limit} {P : List U8 → α → Prop} {a : α} (hb : BTriple lim m' P)
    (hm : Sim (BufRel fault) (FaultOf fault) True m m') (hr : r.Remaining bytes fault)
    (h : m r = (.ok a, r')) :
    ∃ used rest, bytes = used ++ rest ∧ r'.Remaining rest fault ∧ P used a := by
  obtain ⟨rest, h1, h2⟩ := Sim.of_ok hm hr h
  have h3 := hb ⟨bytes, fault⟩
  rw [h1] at h3
  obtain ⟨_, used, h4, h5⟩ := h3
  exact ⟨used, rest, h4, h2, h5⟩

theorem BTriple.returns [FuzzCfg] {lim : Limit} {P : List U8 → α → Prop} (hb : BTriple lim m' P)
    (hm : Sim (BufRel fault) (FaultOf fault) True m m') (hr : r.Remaining bytes fault)
    (hl : ∀ f, ¬ lim.Allows f bytes) : Returns (m r).1 := by
  rw [Sim.result hm hr]
  have h3 := hb ⟨bytes, fault⟩
  generalize m' ⟨bytes, fault⟩ = x at h3
  rcases x with ⟨⟨e | _ | _ | _⟩ | a, s⟩
  · exact .inr ⟨e, rfl⟩
  · exact absurd h3 (hl _)
  · exact absurd h3 (hl _)
  · exact absurd h3 (hl _)
  · exact .inl ⟨a, rfl⟩

end

theorem BodyEncodes.info_legal {ty : U8} {body : List U8} {block : MetadataBlock} {info : StreamInfo}
    (h : BodyEncodes ty body block) (hb : block = .streamInfo info) : info.Legal := by
  cases h <;> cases hb
  assumption

theorem BodyEncodes.comment_legal {ty : U8} {body : List U8} {block : MetadataBlock} {vc : VorbisComment}
    (h : BodyEncodes ty body block) (hb : block = .vorbisComment vc) :
    Utf8 vc.vendor ∧ ∃ tags : List Tag, (∀ t ∈ tags, t.Legal) ∧ vc.comments = storedTags tags := by
  cases h <;> cases hb
  rename_i entries hv ht hl
  exact ⟨hv, tagsOf entries, ht, rfl⟩

theorem mem_commentsIn {vc : VorbisComment} {bs : List EncodedBlock} :
    vc ∈ commentsIn bs ↔ ∃ b ∈ bs, b.block = .vorbisComment vc := by
  unfold commentsIn
  rw [List.mem_filterMap]
  refine exists_congr fun b => and_congr_right fun _ => ?_
  rcases b.block with i | n | ⟨id, data⟩ | sp | c | _ | _ | _ <;> simp

theorem simBlock [FuzzCfg] (fault : Option Nat) :
    Sim (BufRel fault) (FaultOf fault) True (readBlock : Dec BufferedReader _) readBlock := by
  unfold readBlock
  refine Sim.bind_of (fun hd => hd.length < 2 ^ 32) (simAllBuffered fault).full.readMetadataBlockHeader
    (fun _ _ _ => readMetadataBlockHeader_length) (fun hd hlen => ?_)
  exact Sim.bind ((simAllBuffered fault).full.readMetadataBlock _ _ hlen) fun _ => Sim.pure _

/-! ### `new_ext` -/

section

variable {src : Src} {bytes : List U8} {fault : Option Nat} {fuel : Nat} {o : FlacReaderOptions}

theorem newExt_of [FuzzCfg] {first : EncodedBlock} {more : List EncodedBlock} {info : StreamInfo}
    {vc : Option VorbisComment} {rest : List U8} (h : Metadata o first more info vc)
    (hf : more.length < fuel)
    (hd : src.Delivers (streamMarker ++ metadataBytes (first :: more) ++ rest) fault) :
    ∃ r', FlacReader.newExt fuel src o = .ok (FlacReader.make o info vc r') ∧
      r'.Remaining rest fault := by
  obtain ⟨r', h1, h2⟩ := (breads_open h hf).buffered ((simAllBuffered fault).full.openStream fuel o)
    (BufferedReader.Remaining.new hd)
  refine ⟨r', ?_, h2⟩
  unfold FlacReader.newExt FlacReader.newExtGen
  rw [h1]

theorem newExt_ok [FuzzCfg] {reader : FlacReader BufferedReader} (hd : src.Delivers bytes fault)
    (h : FlacReader.newExt fuel src o = .ok reader) :
    ∃ first more info vc r' rest,
      bytes = streamMarker ++ metadataBytes (first :: more) ++ rest ∧ Metadata o first more info vc ∧
      reader = FlacReader.make o info vc r' ∧ r'.Remaining rest fault := by
  unfold FlacReader.newExt FlacReader.newExtGen at h
  rcases hx : openStream fuel o (BufferedReader.new src) with ⟨f | ⟨info, vc⟩, r'⟩
  · rw [hx] at h; cases h
  · rw [hx] at h
    cases h
    obtain ⟨used, rest, h1, h2, first, more, h3, h4⟩ := (btriple_open fuel o).buffered
      ((simAllBuffered fault).full.openStream fuel o) (BufferedReader.Remaining.new hd) hx
    exact ⟨first, more, info, vc, r', rest, by rw [h1, h3], h4, rfl, h2⟩

theorem newExt_returns [FuzzCfg] (hd : src.Delivers bytes fault) (hf : bytes.length < 4 * fuel) :
    Returns (FlacReader.newExt fuel src o) := by
  have h := (btriple_open fuel o).returns ((simAllBuffered fault).full.openStream fuel o)
    (BufferedReader.Remaining.new hd) (by rintro f ⟨-, h⟩; omega)
  unfold FlacReader.newExt FlacReader.newExtGen
  generalize openStream fuel o (BufferedReader.new src) = x at h ⊢
  rcases x with ⟨f | ⟨info, vc⟩, r'⟩
  · rcases h with ⟨a, h⟩ | ⟨e, h⟩ <;> cases h
    exact .inr ⟨e, rfl⟩
  · exact .inl ⟨_, rfl⟩

end

/-! ### The bound on the number of iterations -/

section

variable {σ : Type} [ReadBytes σ]

theorem openLoop_more (fuel k : Nat) : ∀ (o : FlacReaderOptions) (vc : Option VorbisComment) (done : Bool)
    (s : σ), (openLoop fuel o vc done s).1 ≠ .error .diverged →
      openLoop (fuel + k) o vc done s = openLoop fuel o vc done s := by
  induction fuel with
  | zero => intro o vc done s h; exact absurd rfl h
  | succ fuel ih =>
    intro o vc done s
    rw [show fuel + 1 + k = (fuel + k) + 1 by omega, openLoop_succ, openLoop_succ]
    cases done with
    | true => intro _; rfl
    | false =>
      simp only [Bool.false_eq_true, if_false]
      rw [Dec.bind_def, Dec.bind_def]
      generalize readBlock s = x
      rcases x with ⟨e | ⟨l, b⟩, s'⟩
      · intro _; rfl
      · simp only
        rcases b with i | n | ⟨id, data⟩ | sp | c | _ | _ | _ <;> simp only [afterBlockRead] <;> intro h
        · trivial
        · by_cases hc : (!o.hasDesiredBlocks) = true
          · simp only [if_pos hc]
          · simp only [if_neg hc] at h ⊢; exact ih _ _ _ _ h
        · by_cases hc : (!o.hasDesiredBlocks) = true
          · simp only [if_pos hc]
          · simp only [if_neg hc] at h ⊢; exact ih _ _ _ _ h
        · by_cases hc : (!o.hasDesiredBlocks) = true
          · simp only [if_pos hc]
          · simp only [if_neg hc] at h ⊢; exact ih _ _ _ _ h
        · by_cases hv : vc.isSome = true
          · simp only [if_pos hv]
          · simp only [if_neg hv] at h ⊢
            by_cases hc : (!{ o with readVorbisComment := false }.hasDesiredBlocks) = true
            · simp only [if_pos hc]
            · simp only [if_neg hc] at h ⊢; exact ih _ _ _ _ h
        · by_cases hc : (!o.hasDesiredBlocks) = true
          · simp only [if_pos hc]
          · simp only [if_neg hc] at h ⊢; exact ih _ _ _ _ h
        · by_cases hc : (!o.hasDesiredBlocks) = true
          · simp only [if_pos hc]
          · simp only [if_neg hc] at h ⊢; exact ih _ _ _ _ h
        · by_cases hc : (!o.hasDesiredBlocks) = true
          · simp only [if_pos hc]
          · simp only [if_neg hc] at h ⊢; exact ih _ _ _ _ h

theorem openStream_more (fuel k : Nat) (o : FlacReaderOptions) (s : σ)
    (h : (openStream fuel o s).1 ≠ .error .diverged) :
    openStream (fuel + k) o s = openStream fuel o s := by
  rw [openStream_eq, openFlat_eq] at h
  rw [openStream_eq, openFlat_eq, openStream_eq, openFlat_eq]
  rw [Dec.bind_def] at h ⊢
  rw [Dec.bind_def]
  generalize readStreamHeader s = x at h ⊢
  rcases x with ⟨e | u, s1⟩
  · rfl
  · simp only at h ⊢
    rw [Dec.bind_def] at h ⊢
    rw [Dec.bind_def]
    generalize readBlock s1 = x at h ⊢
    rcases x with ⟨e | ⟨l, b⟩, s2⟩
    · rfl
    · simp only at h ⊢
      rcases b with i | n | ⟨id, data⟩ | sp | c | _ | _ | _ <;> simp only at h ⊢
      rw [Dec.bind_def] at h ⊢
      rw [Dec.bind_def, openLoop_more]
      intro hd
      apply h
      generalize openLoop fuel o none l s2 = y at hd ⊢
      rcases y with ⟨e | v, s3⟩
      · cases hd; rfl
      · cases hd

/-- Whatever the bound, if it is not exceeded the result is that with any larger bound. -/
theorem newExtGen_more (fuel k : Nat) (o : FlacReaderOptions) (s : σ)
    (h : ∀ r, FlacReader.newExtGen fuel s o = r → r ≠ .error .diverged) :
    FlacReader.newExtGen (fuel + k) s o = FlacReader.newExtGen fuel s o := by
  have h' := h _ rfl
  unfold FlacReader.newExtGen at h' ⊢
  rw [openStream_more]
  intro hd
  apply h'
  generalize openStream fuel o s = y at hd ⊢
  rcases y with ⟨e | v, s3⟩
  · cases hd; rfl
  · cases hd

end

end Claxon
