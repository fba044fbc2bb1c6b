import Verif.Proof.Capacity
import Verif.Proof.Prog
import Verif.Proof.Flow
import Verif.Proof.Zeros
import Verif.Spec.Trace

/-! The decoder of frames with an arbitrary reader. -/

namespace Claxon

open Spec

variable {σ α : Type}

/-- A program returns what it returns for the bytes that it reads; or the reader fails. -/
theorem Prog.trace [ReadBytes σ] (p : Prog α) (hc : p.Clean) (s : σ) :
    ∃ bytes s₁, Yields s bytes s₁ ∧
      ((∃ r, NoIo r ∧ p.interp s = (r, s₁) ∧
          ∀ more fault, p.interp (⟨bytes ++ more, fault⟩ : Flat) = (r, ⟨more, fault⟩)) ∨
        ∃ f s₂, ReadBytes.readU8 s₁ = (.error f, s₂) ∧ p.interp s = (.error f, s₂)) := by
  induction p generalizing s with
  | ret r => exact ⟨[], s, .nil s, .inl ⟨r, hc, rfl, fun _ _ => rfl⟩⟩
  | u8 k ih =>
    rw [interp]
    rcases h : (ReadBytes.readU8 s : Except Fail U8 × σ) with ⟨f | b, s'⟩
    · exact ⟨[], s, .nil s, .inr ⟨f, s', h, Dec.bind_error _ h⟩⟩
    · obtain ⟨bytes, s₁, hy, h'⟩ := ih b (hc b) s'
      refine ⟨b :: bytes, s₁, .byte h hy, ?_⟩
      rw [Dec.bind_ok _ h]
      rcases h' with ⟨r, h0, h1, h2⟩ | h'
      · refine .inl ⟨r, h0, h1, fun more fault => ?_⟩
        rw [interp, ← h2 more fault]
        rfl
      · exact .inr h'

/-- The rest of a header after the first two bytes, from a certain state of the checksum. -/
def headerFrom [ReadBytes σ] (x8 : U8) (sync : U16) : Dec σ FrameHeader := fun w =>
  ((headerRest sync (⟨w, x8⟩ : Crc8Reader σ)).1, (headerRest sync (⟨w, x8⟩ : Crc8Reader σ)).2.inner)

/-- The rest of a frame after the first two bytes, from certain states of the checksums. -/
def frameRest [ReadBytes σ] (x8 : U8) (x16 : U16) (sync : U16) (buffer : VecI32) : Dec σ (Option Block) := fun s =>
  let m : Dec (Crc16Reader σ) (Option Block) := do
    let h ← headerFrom x8 sync
    readFrameBody h buffer
  ((m ⟨s, x16⟩).1, (m ⟨s, x16⟩).2.inner)

theorem rep_frameRest (x8 : U8) (x16 : U16) (sync : U16) (buffer : VecI32) :
    RepI (fun _ _ => frameRest x8 x16 sync buffer) := by
  have h := RepAt.bind (L := crc16Lens) ((rep_headerRest sync x8).within.crc16 x16)
    (f := fun σ _ h => readFrameBody h buffer) (fun h x => rep_readFrameBody h buffer x)
  exact h.within

theorem crc8Update_ok (x b : U8) : ∃ y, crc8Update x b = .ok y :=
  ⟨_, index_ok (by rw [show CRC8_TABLE.length = 256 by decide +kernel]; exact BitVec.isLt _)⟩

theorem crc16Update_ok (x : U16) (b : U8) : ∃ y, crc16Update x b = .ok y := by
  unfold crc16Update
  rw [index_ok (by rw [show CRC16_TABLE.length = 256 by decide +kernel]; exact BitVec.isLt _)]
  exact ⟨_, rfl⟩

/-- `read_u8_or_eof` through both checksums. -/
theorem readU8OrEof_crc (x8 : U8) (x16 : U16) (b : U8) :
    ∃ y8 y16, ∀ (σ : Type) [ReadBytes σ] (s s' : σ), ReadBytes.readU8OrEof s = (.ok (some b), s') →
      (ReadBytes.readU8OrEof (⟨⟨s, x16⟩, x8⟩ : Crc8Reader (Crc16Reader σ))) =
        (.ok (some b), ⟨⟨s', y16⟩, y8⟩) := by
  obtain ⟨y8, h8⟩ := crc8Update_ok x8 b
  obtain ⟨y16, h16⟩ := crc16Update_ok x16 b
  refine ⟨y8, y16, fun σ _ s s' h => ?_⟩
  have h1 : (ReadBytes.readU8OrEof (⟨s, x16⟩ : Crc16Reader σ)) = (.ok (some b), ⟨s', y16⟩) := by
    show Crc16Reader.readU8OrEof _ = _
    simp only [Crc16Reader.readU8OrEof, Crc16Reader.onInner, Dec.bind_def, Dec.zoom_run, h,
      Crc16Reader.updateState, Dec.get_run, Dec.liftM_run, h16]
    rfl
  show Crc8Reader.readU8OrEof _ = _
  simp only [Crc8Reader.readU8OrEof, Crc8Reader.onInner, Dec.bind_def, Dec.zoom_run, h1,
    Crc8Reader.updateState, Dec.get_run, Dec.liftM_run, h8]
  rfl

theorem readU8OrEof_crc_none [ReadBytes σ] (x8 : U8) (x16 : U16) {s s' : σ}
    (h : ReadBytes.readU8OrEof s = (.ok none, s')) :
    ReadBytes.readU8OrEof (⟨⟨s, x16⟩, x8⟩ : Crc8Reader (Crc16Reader σ)) = (.ok none, ⟨⟨s', x16⟩, x8⟩) := by
  have h1 : (ReadBytes.readU8OrEof (⟨s, x16⟩ : Crc16Reader σ)) = (.ok none, ⟨s', x16⟩) := by
    show Crc16Reader.readU8OrEof _ = _
    simp only [Crc16Reader.readU8OrEof, Crc16Reader.onInner, Dec.bind_def, Dec.zoom_run, h]
    rfl
  show Crc8Reader.readU8OrEof _ = _
  simp only [Crc8Reader.readU8OrEof, Crc8Reader.onInner, Dec.bind_def, Dec.zoom_run, h1]
  rfl

theorem readU8OrEof_crc_error [ReadBytes σ] (x8 : U8) (x16 : U16) {s s' : σ} {f : Fail}
    (h : ReadBytes.readU8OrEof s = (.error f, s')) :
    ReadBytes.readU8OrEof (⟨⟨s, x16⟩, x8⟩ : Crc8Reader (Crc16Reader σ)) =
      (.error f, ⟨⟨s', x16⟩, x8⟩) := by
  have h1 : (ReadBytes.readU8OrEof (⟨s, x16⟩ : Crc16Reader σ)) = (.error f, ⟨s', x16⟩) := by
    show Crc16Reader.readU8OrEof _ = _
    simp only [Crc16Reader.readU8OrEof, Crc16Reader.onInner, Dec.bind_def, Dec.zoom_run, h]
  show Crc8Reader.readU8OrEof _ = _
  simp only [Crc8Reader.readU8OrEof, Crc8Reader.onInner, Dec.bind_def, Dec.zoom_run, h1]

/-- What is done with the first two bytes. -/
theorem readNextOrEof_of_none [ReadBytes σ] {s : σ} {w : Crc8Reader (Crc16Reader σ)}
    (h : readBeU16OrEof (Crc8Reader.new (Crc16Reader.new s)) = (.ok none, w)) (buffer : VecI32) :
    readNextOrEof buffer s = (.ok none, w.inner.inner) := by
  have hh : readFrameHeaderOrEof (Crc16Reader.new s) = (.ok none, w.inner) := by
    unfold readFrameHeaderOrEof withCrc8
    rw [readFrameHeaderBody_eq]
    dsimp only
    rw [Dec.bind_ok _ h]
    rfl
  unfold readNextOrEof withCrc16
  dsimp only
  rw [Dec.bind_ok _ hh]
  rfl

theorem readNextOrEof_of_sync [ReadBytes σ] {s : σ} {w : Crc8Reader (Crc16Reader σ)} {sync : U16}
    (h : readBeU16OrEof (Crc8Reader.new (Crc16Reader.new s)) = (.ok (some sync), w))
    (buffer : VecI32) :
    readNextOrEof buffer s = frameRest w.state w.inner.state sync buffer w.inner.inner := by
  have hh : readFrameHeaderOrEof (Crc16Reader.new s) =
      ((headerRest sync w).1.map some, (headerRest sync w).2.inner) := by
    unfold readFrameHeaderOrEof withCrc8
    rw [readFrameHeaderBody_eq]
    dsimp only
    rw [Dec.bind_ok _ h]
    dsimp only
    rw [Dec.bind_def]
    generalize headerRest sync w = y
    rcases y with ⟨f | hd, w'⟩ <;> rfl
  rcases w with ⟨⟨s', x16⟩, x8⟩
  unfold readNextOrEof withCrc16 frameRest
  dsimp only
  rcases hy : headerRest sync (⟨⟨s', x16⟩, x8⟩ : Crc8Reader (Crc16Reader σ)) with ⟨f | hd, w'⟩
  · rw [hy] at hh
    rw [Dec.bind_error _ hh, Dec.bind_error (e := f) (s' := w'.inner) _ (by rw [headerFrom, hy])]
  · rw [hy] at hh
    rw [Dec.bind_ok _ hh, Dec.bind_ok (a := hd) (s' := w'.inner) _ (by rw [headerFrom, hy])]

theorem readNextOrEof_of_error [ReadBytes σ] {s : σ} {w : Crc8Reader (Crc16Reader σ)} {f : Fail}
    (h : readBeU16OrEof (Crc8Reader.new (Crc16Reader.new s)) = (.error f, w)) (buffer : VecI32) :
    readNextOrEof buffer s = (.error f, w.inner.inner) := by
  have hh : readFrameHeaderOrEof (Crc16Reader.new s) = (.error f, w.inner) := by
    unfold readFrameHeaderOrEof withCrc8
    rw [readFrameHeaderBody_eq]
    dsimp only
    rw [Dec.bind_error _ h]
  unfold readNextOrEof withCrc16
  dsimp only
  rw [Dec.bind_error _ hh]

/-- Reading a frame from any reader; the I/O errors are those of the reader. -/
theorem frame_trace_clean [ReadBytes σ] (buffer : VecI32) (s : σ) :
    ∃ bytes s₁, Yields s bytes s₁ ∧
      ((bytes.length < 2 ∧ ∃ s₂, ReadBytes.readU8OrEof s₁ = (.ok none, s₂) ∧
          readNextOrEof buffer s = (.ok none, s₂)) ∨
        (∃ f s₂, (ReadBytes.readU8 s₁ = (.error f, s₂) ∨ ReadBytes.readU8OrEof s₁ = (.error f, s₂)) ∧
          readNextOrEof buffer s = (.error f, s₂)) ∨
        ∃ r, NoIo r ∧ readNextOrEof buffer s = (r, s₁) ∧
          ∀ more fault, readNextOrEof buffer (⟨bytes ++ more, fault⟩ : Flat) = (r, ⟨more, fault⟩)) := by
  rcases h0 : (ReadBytes.readU8OrEof s : Except Fail (Option U8) × σ) with ⟨f | _ | b0, s1⟩
  · refine ⟨[], s, .nil s, .inr (.inl ⟨f, s1, .inr h0, ?_⟩)⟩
    exact readNextOrEof_of_error (Dec.bind_error _ (readU8OrEof_crc_error _ _ h0)) _
  · refine ⟨[], s, .nil s, .inl ⟨by simp, s1, h0, ?_⟩⟩
    exact readNextOrEof_of_none (Dec.bind_ok _ (readU8OrEof_crc_none _ _ h0)) _
  · obtain ⟨y8, y16, hy⟩ := readU8OrEof_crc 0#8 0#16 b0
    have h0' := hy σ s s1 h0
    rcases h1 : (ReadBytes.readU8OrEof s1 : Except Fail (Option U8) × σ) with ⟨f | _ | b1, s2⟩
    · refine ⟨[b0], s1, .byteOrEof h0 (.nil _), .inr (.inl ⟨f, s2, .inr h1, ?_⟩)⟩
      exact readNextOrEof_of_error ((Dec.bind_ok _ h0').trans
        (Dec.bind_error _ (readU8OrEof_crc_error _ _ h1))) _
    · refine ⟨[b0], s1, .byteOrEof h0 (.nil _), .inl ⟨by simp, s2, h1, ?_⟩⟩
      exact readNextOrEof_of_none ((Dec.bind_ok _ h0').trans
        (Dec.bind_ok _ (readU8OrEof_crc_none _ _ h1))) _
    · obtain ⟨z8, z16, hz⟩ := readU8OrEof_crc y8 y16 b1
      have key : ∀ (τ : Type) [ReadBytes τ] (t t1 t2 : τ), ReadBytes.readU8OrEof t = (.ok (some b0), t1) →
          ReadBytes.readU8OrEof t1 = (.ok (some b1), t2) → readNextOrEof buffer t =
            frameRest z8 z16 (b0.setWidth 16 <<< 8 ||| b1.setWidth 16) buffer t2 := by
        intro τ _ t t1 t2 ht ht1
        exact readNextOrEof_of_sync ((Dec.bind_ok _ (hy τ t t1 ht)).trans
          (Dec.bind_ok _ (hz τ t1 t2 ht1))) _
      obtain ⟨p, hc, hp⟩ := (rep_frameRest z8 z16 (b0.setWidth 16 <<< 8 ||| b1.setWidth 16) buffer).eq
      obtain ⟨bytes, s3, hys, h⟩ := p.trace hc s2
      refine ⟨b0 :: b1 :: bytes, s3, .byteOrEof h0 (.byteOrEof h1 hys), .inr ?_⟩
      rw [key σ s s1 s2 h0 h1, hp]
      rcases h with ⟨r, hr, h2, h3⟩ | ⟨f, s4, h2, h3⟩
      · refine .inr ⟨r, hr, h2, fun more fault => ?_⟩
        rw [key Flat _ ⟨b1 :: (bytes ++ more), fault⟩ ⟨bytes ++ more, fault⟩ rfl rfl, hp]
        exact h3 more fault
      · exact .inl ⟨f, s4, .inl h2, h3⟩

/-- Reading a frame from any reader. -/
theorem frame_trace [ReadBytes σ] (buffer : VecI32) (s : σ) :
    ∃ bytes s₁, Yields s bytes s₁ ∧
      ((bytes.length < 2 ∧ ∃ s₂, ReadBytes.readU8OrEof s₁ = (.ok none, s₂) ∧
          readNextOrEof buffer s = (.ok none, s₂)) ∨
        (∃ f s₂, (ReadBytes.readU8 s₁ = (.error f, s₂) ∨ ReadBytes.readU8OrEof s₁ = (.error f, s₂)) ∧
          readNextOrEof buffer s = (.error f, s₂)) ∨
        ∃ r, readNextOrEof buffer s = (r, s₁) ∧
          ∀ more fault, readNextOrEof buffer (⟨bytes ++ more, fault⟩ : Flat) = (r, ⟨more, fault⟩)) := by
  obtain ⟨bytes, s₁, hy, h | h | ⟨r, -, h⟩⟩ := frame_trace_clean buffer s
  · exact ⟨bytes, s₁, hy, .inl h⟩
  · exact ⟨bytes, s₁, hy, .inr (.inl h)⟩
  · exact ⟨bytes, s₁, hy, .inr (.inr ⟨r, h⟩)⟩

/-- Bytes come out of the buffer, and from the source, in order. -/
theorem BufferedReader.readU8_exact {r r' : BufferedReader} {b : U8} (h : r.Good)
    (hr : BufferedReader.readU8 r = (.ok b, r')) :
    ∃ d, r'.del = r.del ++ d ∧ b :: r'.pending = r.pending ++ d := by
  have take : ∀ {r r' : BufferedReader} {b : U8}, r.Good → r.pos < r.numValid →
      takeByte r = (.ok b, r') → r'.del = r.del ∧ b :: r'.pending = r.pending := by
    intro r r' b h hlt hr
    have hlt' : r.pos < r.buf.length := by rw [h.cap]; exact Nat.lt_of_lt_of_le hlt h.valid
    have hv := h.valid
    unfold takeByte at hr
    simp only [Dec.bind_get_run, List.getElem?_eq_getElem hlt'] at hr
    rw [Dec.bind_liftM_of (addU_ok (by have := capacity_le; omega)), Dec.bind_set_run] at hr
    simp only [Dec.pure_run, Prod.mk.injEq, Except.ok.injEq] at hr
    obtain ⟨rfl, rfl⟩ := hr
    refine ⟨rfl, ?_⟩
    simp only [pending]
    rw [List.drop_eq_getElem_cons (i := r.pos) (by rw [List.length_take]; omega), List.getElem_take]
  by_cases hp : r.pos = r.numValid
  · have hpend : r.pending = [] := by
      unfold pending
      exact List.drop_of_length_le (by rw [List.length_take]; omega)
    unfold BufferedReader.readU8 at hr
    rw [Dec.bind_get_run, Dec.ite_run, if_pos hp] at hr
    rcases hx : refill r with ⟨f | u, r1⟩
    · rw [Dec.bind_error _ hx] at hr; simp at hr
    · rw [Dec.bind_ok _ hx, Dec.bind_get_run, Dec.ite_run] at hr
      by_cases hz : r1.numValid = 0
      · rw [if_pos hz] at hr; simp [ioErr, Dec.fail] at hr
      · rw [if_neg hz] at hr
        have hf := flows_refill h
        have h0 := (refill_inBounds h.toInBounds).2.2 (by rw [hx])
        rw [hx] at hf h0
        obtain ⟨h1, h2⟩ := take hf.good (by simp only at h0 ⊢; omega) hr
        have h3 : r1.del = r.del ++ r1.pending := by
          have hb := hx
          unfold refill at hb
          simp only at hb
          cases ho : r.inner.outcome r.inner.calls with
          | err code => rw [ho] at hb; simp at hb
          | ok n written =>
            rw [ho] at hb
            simp only [Prod.mk.injEq, true_and] at hb
            obtain ⟨hc1, hc2⟩ := h.contract _ _ _ ho
            have hn : n % 2 ^ 32 = n := Nat.mod_eq_of_lt (by have := capacity_le; omega)
            have hcap := h.cap
            rw [← hb]
            simp only [BufferedReader.del, delivered, ho, pending, List.drop_zero, hn]
            rw [List.take_append_of_le_length (by rw [List.length_take]; omega), List.take_take,
              Nat.min_eq_left (by omega)]
        exact ⟨r1.pending, by rw [h1, h3], by rw [h2, hpend, List.nil_append]⟩
  · unfold BufferedReader.readU8 at hr
    rw [Dec.bind_get_run, Dec.ite_run, if_neg hp] at hr
    obtain ⟨h1, h2⟩ := take h (by have := h.pos; omega) hr
    exact ⟨[], by rw [h1, List.append_nil], by rw [h2, List.append_nil]⟩

/-- `read_u8_or_eof` is `read_u8`, as long as there are bytes. -/
theorem BufferedReader.readU8OrEof_some {r r' : BufferedReader} {b : U8} (h : r.Good)
    (hr : BufferedReader.readU8OrEof r = (.ok (some b), r')) :
    BufferedReader.readU8 r = (.ok b, r') := by
  have lift : ∀ {r : BufferedReader}, ((do let b ← BufferedReader.readU8; Pure.pure (some b) :
      Dec BufferedReader (Option U8)) r) = (.ok (some b), r') → BufferedReader.readU8 r = (.ok b, r') := by
    intro r hr
    rw [Dec.bind_def] at hr
    rcases hx : BufferedReader.readU8 r with ⟨f | c, r1⟩
    · rw [hx] at hr; simp at hr
    · rw [hx] at hr
      simp only [Dec.pure_run, Prod.mk.injEq, Except.ok.injEq, Option.some.injEq] at hr
      rw [hr.1, hr.2]
  unfold BufferedReader.readU8OrEof at hr
  rw [Dec.bind_get_run, Dec.ite_run] at hr
  by_cases hp : r.pos = r.numValid
  · rw [if_pos hp] at hr
    rcases hx : refill r with ⟨f | u, r1⟩
    · rw [Dec.bind_error _ hx] at hr; simp at hr
    · rw [Dec.bind_ok _ hx, Dec.bind_get_run, Dec.ite_run] at hr
      by_cases hz : r1.numValid = 0
      · rw [if_pos hz] at hr; simp at hr
      · rw [if_neg hz] at hr
        have h1 := lift hr
        have h0 := (refill_inBounds h.toInBounds).2.2 (by rw [hx])
        rw [hx] at h0
        unfold BufferedReader.readU8 at h1 ⊢
        rw [Dec.bind_get_run, Dec.ite_run, if_neg (by simp only at h0; omega)] at h1
        rw [Dec.bind_get_run, Dec.ite_run, if_pos hp, Dec.bind_ok _ hx, Dec.bind_get_run, Dec.ite_run,
          if_neg hz]
        exact h1
  · rw [if_neg hp] at hr
    exact lift hr

theorem BufferedReader.yields_exact {r r' : BufferedReader} {bytes : List U8} (hy : Yields r bytes r')
    (h : r.Good) : r'.Good ∧ r'.inner.outcome = r.inner.outcome ∧
      ∃ d, r'.del = r.del ++ d ∧ bytes ++ r'.pending = r.pending ++ d := by
  have step : ∀ {s s₁ s' : BufferedReader} {b : U8} {bytes : List U8}, s.Good →
      BufferedReader.readU8 s = (.ok b, s₁) → (s₁.Good → s'.Good ∧
        s'.inner.outcome = s₁.inner.outcome ∧
        ∃ d, s'.del = s₁.del ++ d ∧ bytes ++ s'.pending = s₁.pending ++ d) →
      s'.Good ∧ s'.inner.outcome = s.inner.outcome ∧
        ∃ d, s'.del = s.del ++ d ∧ b :: bytes ++ s'.pending = s.pending ++ d := by
    intro s s₁ s' b bytes h h1 ih
    have hf := flows_readU8 h
    rw [h1] at hf
    obtain ⟨i1, i2, d, i3, i4⟩ := ih hf.good
    obtain ⟨d', j1, j2⟩ := readU8_exact h h1
    exact ⟨i1, i2.trans hf.src, d' ++ d, by rw [i3, j1, List.append_assoc],
      by rw [List.cons_append, i4, ← List.append_assoc, ← j2, List.cons_append]⟩
  induction hy with
  | nil s => exact ⟨h, rfl, [], by simp, by simp⟩
  | byte h1 rest ih => exact step h h1 ih
  | byteOrEof h1 rest ih => exact step h (readU8OrEof_some h h1) ih

/-- Long runs of zeros in what is read without errors in between, are in what the source delivers, apart from
what was in the buffer. -/
theorem BufferedReader.yields_zeros {r r' : BufferedReader} {bytes : List U8} (hy : Yields r bytes r')
    (h : r.Good) (hz : ZerosBelow r.inner.outcome (2 ^ 29 - 1 - 2048)) :
    ¬ LongZeros (bytesToBits bytes) := by
  intro hl
  obtain ⟨pre, n, post, hn, rfl⟩ := zeroBytes_of_longZeros hl
  obtain ⟨-, ho, d, hd, he⟩ := yields_exact hy h
  have hp : r.pending.length ≤ 2048 := by
    have := h.valid
    simp only [capacity_eq] at this
    simp only [pending, List.length_drop, List.length_take]
    omega
  have key : ∃ m pre' post', n - 2048 ≤ m ∧ d = pre' ++ (List.replicate m 0#8 ++ post') := by
    have e : d = (pre ++ (List.replicate n 0#8 ++ (post ++ r'.pending))).drop r.pending.length := by
      rw [← List.append_assoc (List.replicate n 0#8), ← List.append_assoc, he, List.drop_left]
    rw [List.drop_append, List.drop_append, List.drop_replicate] at e
    refine ⟨n - (r.pending.length - pre.length), _, _, by omega, e⟩
  obtain ⟨m, pre', post', hm, rfl⟩ := key
  have hlt := hz r'.inner.calls (r.del ++ pre') m post' (by
    rw [← ho]
    show r'.del = _
    rw [hd, List.append_assoc])
  omega

end Claxon
