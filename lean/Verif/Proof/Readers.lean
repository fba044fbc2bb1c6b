import Verif.Proof.Buffered
import Verif.Proof.Crc

/-! Further pairs of readers that behave alike. -/

namespace Claxon

open Spec

/-! ### `Cursor` -/

/-- The cursor `c` has the bytes of `t` left to deliver. No slice has `2 ^ 63` bytes or more. -/
def CursorRel (data : List U8) (c : Cursor) (t : Flat) : Prop :=
  c.data = data ∧ c.pos ≤ c.data.length ∧ c.data.length < 2 ^ 63 ∧ t = Flat.ofBytes (c.data.drop c.pos)

/-- The failure at the end of the file. -/
def IsEof (f : Fail) : Prop := f = .err (.ioError .unexpectedEof)

theorem IsEof.isErr {f : Fail} (h : IsEof f) : ∃ e, f = .err e := ⟨_, h⟩

theorem CursorRel.new {data : List U8} (h : data.length < 2 ^ 63) :
    CursorRel data { data := data, pos := 0 } (Flat.ofBytes data) :=
  ⟨rfl, Nat.zero_le _, h, rfl⟩

namespace Cursor

theorem sim_readU8 (data : List U8) : Sim (CursorRel data) IsEof True readU8 Flat.readU8 := by
  rintro ⟨data', pos⟩ t ⟨rfl, h1, h2, rfl⟩
  unfold readU8
  simp only [Dec.bind_get_run, Dec.ite_run] at h1 ⊢
  split
  · rename_i hlt
    rw [Dec.bind_set_run, Dec.liftM_of (index_ok hlt)]
    rw [Flat.readU8, Flat.ofBytes, List.drop_eq_getElem_cons hlt]
    exact Or.inl ⟨rfl, rfl, hlt, h2, rfl⟩
  · rename_i hge
    rw [Flat.readU8, Flat.ofBytes, List.drop_of_length_le (by omega)]
    refine Or.inl ⟨rfl, rfl, h1, h2, ?_⟩
    show _ = Flat.ofBytes (data'.drop pos)
    rw [List.drop_of_length_le (by omega)]
    rfl

theorem sim_readU8OrEof (data : List U8) : Sim (CursorRel data) IsEof True readU8OrEof Flat.readU8OrEof := by
  rintro ⟨data', pos⟩ t ⟨rfl, h1, h2, rfl⟩
  unfold readU8OrEof
  simp only [Dec.bind_get_run, Dec.ite_run] at h1 ⊢
  split
  · rename_i hlt
    rw [Dec.bind_set_run, Dec.bind_liftM_of (index_ok hlt)]
    rw [Flat.readU8OrEof, Flat.ofBytes, List.drop_eq_getElem_cons hlt]
    exact Or.inl ⟨rfl, rfl, hlt, h2, rfl⟩
  · rename_i hge
    rw [Flat.readU8OrEof, Flat.ofBytes, List.drop_of_length_le (by omega)]
    refine Or.inl ⟨rfl, rfl, h1, h2, ?_⟩
    show _ = Flat.ofBytes (data'.drop pos)
    rw [List.drop_of_length_le (by omega)]
    rfl

theorem sim_readInto (data : List U8) (n : Nat) (hn : n < 2 ^ 63) :
    Sim (CursorRel data) IsEof True (readInto n) (Flat.readInto n) := by
  rintro ⟨data', pos⟩ t ⟨rfl, h1, h2, rfl⟩
  unfold readInto
  simp only [Dec.bind_get_run] at h1 h2 ⊢
  rw [Dec.bind_liftM_of (addU_ok (by omega)), Dec.ite_run]
  simp only [Flat.readInto, Flat.ofBytes, List.length_drop]
  by_cases hle : pos + n ≤ data'.length
  · rw [if_pos hle, if_pos (by omega), Dec.bind_liftM_of (slice_ok (by omega)), Dec.bind_set_run]
    refine Or.inl ⟨?_, rfl, hle, h2, ?_⟩
    · simp only [Dec.pure_run, Except.ok.injEq]
      rw [List.take_drop]
    · rw [List.drop_drop]
      rfl
  · rw [if_neg hle, if_neg (by omega)]
    exact Or.inr ⟨_, rfl, rfl, fun _ => rfl⟩

theorem sim_skip (data : List U8) (n : Nat) (hn : n < 2 ^ 32) :
    Sim (CursorRel data) IsEof True (skip n) (Flat.skip n) := by
  rintro ⟨data', pos⟩ t ⟨rfl, h1, h2, rfl⟩
  unfold skip
  simp only [Dec.bind_get_run] at h1 h2 ⊢
  rw [Dec.bind_liftM_of (addU_ok (by omega)), Dec.ite_run]
  simp only [Flat.skip, Flat.ofBytes, List.length_drop]
  by_cases hle : pos + n ≤ data'.length
  · rw [if_pos hle, if_pos (by omega)]
    refine Or.inl ⟨rfl, rfl, hle, h2, ?_⟩
    rw [List.drop_drop]
    rfl
  · rw [if_neg hle, if_neg (by omega)]
    exact Or.inr ⟨_, rfl, rfl, fun _ => rfl⟩

end Cursor

theorem simCursorRd (data : List U8) : SimRd (CursorRel data) IsEof True where
  readU8 := Cursor.sim_readU8 data
  readU8OrEof := Cursor.sim_readU8OrEof data

theorem simCursor (data : List U8) : SimRdFull (CursorRel data) IsEof True where
  readU8 := Cursor.sim_readU8 data
  readInto := Cursor.sim_readInto data
  skip := Cursor.sim_skip data
  onAlloc _ _ := Sim.pure ()

/-! ### A longer input -/

/-- `s` ends with `cut` where `t` goes on with `ys`, and ends with `fault`. -/
def ExtRel (cut : Option Nat) (ys : List U8) (fault : Option Nat) (s t : Flat) : Prop :=
  s.fault = cut ∧ t = ⟨s.bytes ++ ys, fault⟩

/-- The failure at the end of a stream. -/
def IsCut (cut : Option Nat) (f : Fail) : Prop := f = Flat.endFail cut

theorem simExtU8 (cut : Option Nat) (ys : List U8) (fault : Option Nat) :
    Sim (ExtRel cut ys fault) (IsCut cut) False Flat.readU8 Flat.readU8 := by
  rintro ⟨bs, f⟩ t ⟨h1, rfl⟩
  simp only at h1
  subst h1
  cases bs with
  | nil => exact Or.inr ⟨_, rfl, rfl, fun h => h.elim⟩
  | cons b bs => exact Or.inl ⟨rfl, rfl, rfl⟩

theorem simExt (cut : Option Nat) (ys : List U8) (fault : Option Nat) :
    SimRdFull (ExtRel cut ys fault) (IsCut cut) False where
  readU8 := simExtU8 cut ys fault
  readInto n _ := by
    rintro ⟨bs, f⟩ t ⟨h1, rfl⟩
    simp only at h1
    subst h1
    show SimAt _ _ _ (Flat.readInto n _) (Flat.readInto n _)
    simp only [Flat.readInto, List.length_append]
    by_cases hn : n ≤ bs.length
    · rw [if_pos hn, if_pos (by omega), List.take_append_of_le_length hn,
        List.drop_append_of_le_length hn]
      exact Or.inl ⟨rfl, rfl, rfl⟩
    · rw [if_neg hn]
      exact Or.inr ⟨_, rfl, rfl, fun h => h.elim⟩
  skip n _ := by
    rintro ⟨bs, f⟩ t ⟨h1, rfl⟩
    simp only at h1
    subst h1
    show SimAt _ _ _ (Flat.skip n _) (Flat.skip n _)
    simp only [Flat.skip, List.length_append]
    by_cases hn : n ≤ bs.length
    · rw [if_pos hn, if_pos (by omega), List.drop_append_of_le_length hn]
      exact Or.inl ⟨rfl, rfl, rfl⟩
    · rw [if_neg hn]
      exact Or.inr ⟨_, rfl, rfl, fun h => h.elim⟩
  onAlloc _ _ := Sim.pure ()

/-! ### The checksum readers -/

/-- The checksum reader has computed the CRC-8 of what was consumed of `whole`. -/
def Crc8Of (whole : List U8) (fault : Option Nat) (c : Crc8Reader Flat) (t : Flat) : Prop :=
  c.inner = t ∧ t.fault = fault ∧ ∃ used, whole = used ++ t.bytes ∧ c.state = crc8 used

/-- The checksum reader has computed the CRC-16 of what was consumed of `whole`. -/
def Crc16Of (whole : List U8) (fault : Option Nat) (c : Crc16Reader Flat) (t : Flat) : Prop :=
  c.inner = t ∧ t.fault = fault ∧ ∃ used, whole = used ++ t.bytes ∧ c.state = crc16 used

/-- What was consumed of `whole` when `t` is left. -/
def consumed (whole : List U8) (t : Flat) : List U8 := whole.take (whole.length - t.bytes.length)

theorem consumed_eq {whole used : List U8} {t : Flat} (h : whole = used ++ t.bytes) :
    consumed whole t = used := by
  unfold consumed
  rw [h, List.length_append, Nat.add_sub_cancel]
  simp

theorem Crc8Of.crc {whole : List U8} {fault : Option Nat} {c : Crc8Reader Flat} {t : Flat}
    (h : Crc8Of whole fault c t) : c.crc = crc8 (consumed whole t) := by
  obtain ⟨_, _, used, h1, h2⟩ := h
  rw [consumed_eq h1]
  exact h2

theorem Crc16Of.crc {whole : List U8} {fault : Option Nat} {c : Crc16Reader Flat} {t : Flat}
    (h : Crc16Of whole fault c t) : c.crc = crc16 (consumed whole t) := by
  obtain ⟨_, _, used, h1, h2⟩ := h
  rw [consumed_eq h1]
  exact h2

theorem simCrc8Of (whole : List U8) (fault : Option Nat) :
    SimRd (Crc8Of whole fault) (fun _ => False) True where
  readU8 := by
    rintro ⟨i, st⟩ ⟨bs, f⟩ ⟨h1, h2, used, h3, h4⟩
    simp only at h1 h2 h3 h4
    subst h1 h2 h3 h4
    left
    simp only [ReadBytes.readU8, Crc8Reader.readU8, Crc8Reader.onInner, Crc8Reader.updateState,
      Dec.bind_def, Dec.zoom_run, Flat.readU8, Dec.get_run, crc8Update_eq]
    cases bs with
    | nil => exact ⟨rfl, rfl, rfl, used, rfl, rfl⟩
    | cons b bs =>
      refine ⟨rfl, rfl, rfl, used ++ [b], by simp, ?_⟩
      rw [crc8_append]
      rfl
  readU8OrEof := by
    rintro ⟨i, st⟩ ⟨bs, f⟩ ⟨h1, h2, used, h3, h4⟩
    simp only at h1 h2 h3 h4
    subst h1 h2 h3 h4
    left
    simp only [ReadBytes.readU8OrEof, Crc8Reader.readU8OrEof, Crc8Reader.onInner,
      Crc8Reader.updateState, Dec.bind_def, Dec.zoom_run, Flat.readU8OrEof]
    cases bs with
    | nil => cases f <;> exact ⟨rfl, rfl, rfl, used, rfl, rfl⟩
    | cons b bs =>
      simp only [Dec.get_run, Dec.bind_def, crc8Update_eq]
      refine ⟨rfl, rfl, rfl, used ++ [b], by simp, ?_⟩
      rw [crc8_append]
      rfl

theorem simCrc16Of (whole : List U8) (fault : Option Nat) :
    SimRd (Crc16Of whole fault) (fun _ => False) True where
  readU8 := by
    rintro ⟨i, st⟩ ⟨bs, f⟩ ⟨h1, h2, used, h3, h4⟩
    simp only at h1 h2 h3 h4
    subst h1 h2 h3 h4
    left
    simp only [ReadBytes.readU8, Crc16Reader.readU8, Crc16Reader.onInner, Crc16Reader.updateState,
      Dec.bind_def, Dec.zoom_run, Flat.readU8, Dec.get_run, crc16Update_eq]
    cases bs with
    | nil => exact ⟨rfl, rfl, rfl, used, rfl, rfl⟩
    | cons b bs =>
      refine ⟨rfl, rfl, rfl, used ++ [b], by simp, ?_⟩
      rw [crc16_append]
      rfl
  readU8OrEof := by
    rintro ⟨i, st⟩ ⟨bs, f⟩ ⟨h1, h2, used, h3, h4⟩
    simp only at h1 h2 h3 h4
    subst h1 h2 h3 h4
    left
    simp only [ReadBytes.readU8OrEof, Crc16Reader.readU8OrEof, Crc16Reader.onInner,
      Crc16Reader.updateState, Dec.bind_def, Dec.zoom_run, Flat.readU8OrEof]
    cases bs with
    | nil => cases f <;> exact ⟨rfl, rfl, rfl, used, rfl, rfl⟩
    | cons b bs =>
      simp only [Dec.get_run, Dec.bind_def, crc16Update_eq]
      refine ⟨rfl, rfl, rfl, used ++ [b], by simp, ?_⟩
      rw [crc16_append]
      rfl

/-! ### Frames on the flat reader, with the checksums spelled out -/

open ReadBytes

/-- The frame header, after the first two bytes. -/
def flatHeaderRest [FuzzCfg] [Build] (whole : List U8) (sync : U16) : Dec Flat FrameHeader := do
  let h ← headerFields sync
  let t ← Dec.get
  let presumedCrc ← readU8
  if FuzzCfg.fuzzing = false ∧ crc8 (consumed whole t) ≠ presumedCrc then fmtErr "frame header CRC mismatch"
  else pure h

/-- The frame header. -/
def flatHeader [FuzzCfg] [Build] (whole : List U8) : Dec Flat (Option FrameHeader) := do
  match ← readBeU16OrEof with
  | none => pure none
  | some sync => do
    let h ← flatHeaderRest whole sync
    pure (some h)

/-- The frame after its header. -/
def flatBody [FuzzCfg] [Build] (whole : List U8) (h : FrameHeader) (buffer : VecI32) : Dec Flat (Option Block) := do
  let buffer := ensureBufferLen buffer (h.channels * h.blockSize)
  match h.bitsPerSample with
  | none => unsupportedErr "header without bits per sample info"
  | some bps => do
    debugAssert (decide (bps ≤ 32))
    let data ← withBitstream (decodeChannels h.channelAssignment bps h.blockSize buffer.data)
    let t ← Dec.get
    let presumedCrc ← readBeU16
    if FuzzCfg.fuzzing = false ∧ crc16 (consumed whole t) ≠ presumedCrc then fmtErr "frame CRC mismatch"
    else do
      let time ← frameTime h
      let block ← Block.new time h.blockSize { data := data, cap := buffer.cap }
      pure (some block)

theorem simFlatHeader [FuzzCfg] [Build] (whole : List U8) (fault : Option Nat) :
    Sim (Crc8Of whole fault) (fun _ => False) True readFrameHeaderBody (flatHeader whole) := by
  have h := simCrc8Of whole fault
  rw [readFrameHeaderBody_eq]
  unfold flatHeader
  refine Sim.bind h.readBeU16OrEof ?_
  rintro (_ | sync)
  · exact Sim.pure _
  · refine Sim.bind ?_ (fun _ => Sim.pure _)
    unfold headerRest flatHeaderRest
    refine Sim.bind (h.headerFields _) (fun hd => ?_)
    apply Sim.get
    intro c t hct
    rw [hct.crc]
    refine Sim.bind h.readU8 (fun p => ?_)
    exact Sim.ite (fun _ => Sim.fmtErr _) (fun _ => Sim.pure _)

/-- The frame header reader on the flat reader. -/
theorem readFrameHeaderOrEof_flat [FuzzCfg] [Build] (s : Flat) :
    readFrameHeaderOrEof s = flatHeader s.bytes s := by
  have h := simFlatHeader s.bytes s.fault (Crc8Reader.new s) s ⟨rfl, rfl, [], rfl, rfl⟩
  unfold readFrameHeaderOrEof withCrc8
  rcases h with ⟨h1, h2⟩ | ⟨_, _, h, _⟩
  · exact Prod.ext h1 h2.1
  · exact h.elim

/-- The frame reader on the flat reader. -/
theorem readNextOrEof_flat [FuzzCfg] [Build] (buffer : VecI32) (s : Flat) :
    readNextOrEof buffer s = (do
      match ← flatHeader s.bytes with
      | none => pure none
      | some h => flatBody s.bytes h buffer : Dec Flat _) s := by
  have hs := simCrc16Of s.bytes s.fault
  have h : SimAt (Crc16Of s.bytes s.fault) (fun _ => False) True
      ((do
        match ← readFrameHeaderOrEof with
        | none => pure none
        | some h => readFrameBody h buffer : Dec (Crc16Reader Flat) _) (Crc16Reader.new s))
      ((do
        match ← readFrameHeaderOrEof with
        | none => pure none
        | some h => flatBody s.bytes h buffer : Dec Flat _) s) := by
    refine Sim.bind hs.readFrameHeaderOrEof ?_ _ _ ⟨rfl, rfl, [], rfl, rfl⟩
    rintro (_ | hd)
    · exact Sim.pure _
    · unfold readFrameBody flatBody
      simp only
      rcases hd.bitsPerSample with _ | bps
      · exact Sim.unsupportedErr _
      · simp only
        refine Sim.bind (Sim.lift _) (fun _ => ?_)
        refine Sim.bind (Sim.withBitstream (hs.decodeChannels _ _ _ _)) (fun data => ?_)
        apply Sim.get
        intro c t hct
        rw [hct.crc]
        refine Sim.bind hs.readBeU16 (fun p => ?_)
        refine Sim.ite (fun _ => Sim.fmtErr _) (fun _ => ?_)
        sim (Sim.pure _)
  have e : ∀ {β : Type} (f : Option FrameHeader → Dec Flat β),
      (readFrameHeaderOrEof >>= f) s = (flatHeader s.bytes >>= f) s := by
    intro β f
    rw [Dec.bind_def, Dec.bind_def, readFrameHeaderOrEof_flat]
  unfold readNextOrEof withCrc16
  rw [← e]
  rcases h with ⟨h1, h2⟩ | ⟨_, _, h, _⟩
  · exact Prod.ext h1 h2.1
  · exact h.elim

end Claxon
