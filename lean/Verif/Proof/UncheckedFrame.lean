import Verif.Proof.Unchecked
import Verif.Proof.BlockPost
import Verif.Proof.Crc

/-! Frames in builds without overflow checks. -/

namespace Claxon

open ReadBytes Bitstream Spec

variable {σ α β : Type}

/-! ### The readers that compute checksums -/

section

variable [ReadBytes σ] {P : σ → Prop} {E : Fail → σ → Prop}

theorem crc8_total (s b : U8) : Total (crc8Update s b) := ⟨_, crc8Update_eq s b⟩

theorem crc16_total (s : U16) (b : U8) : Total (crc16Update s b) := ⟨_, crc16Update_eq s b⟩

omit [ReadBytes σ] in
theorem wp_crc8_inner {m : Dec σ α} {Q : α → Prop} (h : Wp P E m Q) :
    Wp (fun r : Crc8Reader σ => P r.inner) (fun f r => E f r.inner) (Crc8Reader.onInner m) Q := by
  intro r hr
  have := h r.inner hr
  unfold Crc8Reader.onInner
  rw [Dec.zoom_run]
  rcases hx : m r.inner with ⟨e | a, s'⟩ <;> rw [hx] at this <;> exact this

omit [ReadBytes σ] in
theorem wp_crc16_inner {m : Dec σ α} {Q : α → Prop} (h : Wp P E m Q) :
    Wp (fun r : Crc16Reader σ => P r.inner) (fun f r => E f r.inner) (Crc16Reader.onInner m) Q := by
  intro r hr
  have := h r.inner hr
  unfold Crc16Reader.onInner
  rw [Dec.zoom_run]
  rcases hx : m r.inner with ⟨e | a, s'⟩ <;> rw [hx] at this <;> exact this

omit [ReadBytes σ] in
theorem wp_crc8_update (b : U8) : Wp (fun r : Crc8Reader σ => P r.inner) (fun f r => E f r.inner)
    (Crc8Reader.updateState b) (fun _ => True) := by
  intro r hr
  obtain ⟨c, hc⟩ := crc8_total r.state b
  unfold Crc8Reader.updateState
  rw [Dec.bind_get_run, Dec.bind_liftM_of hc]
  exact ⟨trivial, hr⟩

omit [ReadBytes σ] in
theorem wp_crc16_update (b : U8) : Wp (fun r : Crc16Reader σ => P r.inner) (fun f r => E f r.inner)
    (Crc16Reader.updateState b) (fun _ => True) := by
  intro r hr
  obtain ⟨c, hc⟩ := crc16_total r.state b
  unfold Crc16Reader.updateState
  rw [Dec.bind_get_run, Dec.bind_liftM_of hc]
  exact ⟨trivial, hr⟩

theorem crc8_ends {n : Nat} : ∀ {r : Crc8Reader σ}, Ends E n r.inner → Ends (fun f (r : Crc8Reader σ) => E f r.inner) n r := by
  induction n with
  | zero => exact fun h => h
  | succ n ih =>
    intro r h b r' hx
    change Crc8Reader.readU8 r = _ at hx
    unfold Crc8Reader.readU8 Crc8Reader.onInner at hx
    rw [Dec.bind_def, Dec.zoom_run] at hx
    rcases hy : (ReadBytes.readU8 r.inner : Except Fail U8 × σ) with ⟨e | a, s'⟩ <;> rw [hy] at hx
    · cases hx
    · obtain ⟨c, hc⟩ := crc8_total r.state a
      simp only [Crc8Reader.updateState] at hx
      rw [bind_assoc, Dec.bind_get_run, bind_assoc] at hx
      simp only at hx
      rw [Dec.bind_liftM_of hc] at hx
      cases hx
      exact ih (h _ _ hy)

theorem crc16_ends {n : Nat} : ∀ {r : Crc16Reader σ}, Ends E n r.inner →
    Ends (fun f (r : Crc16Reader σ) => E f r.inner) n r := by
  induction n with
  | zero => exact fun h => h
  | succ n ih =>
    intro r h b r' hx
    change Crc16Reader.readU8 r = _ at hx
    unfold Crc16Reader.readU8 Crc16Reader.onInner at hx
    rw [Dec.bind_def, Dec.zoom_run] at hx
    rcases hy : (ReadBytes.readU8 r.inner : Except Fail U8 × σ) with ⟨e | a, s'⟩ <;> rw [hy] at hx
    · cases hx
    · obtain ⟨c, hc⟩ := crc16_total r.state a
      simp only [Crc16Reader.updateState] at hx
      rw [bind_assoc, Dec.bind_get_run, bind_assoc] at hx
      simp only at hx
      rw [Dec.bind_liftM_of hc] at hx
      cases hx
      exact ih (h _ _ hy)

theorem Steady.crc8 (h : Steady P E) : Steady (fun r : Crc8Reader σ => P r.inner) (fun f r => E f r.inner) where
  readU8 := (wp_crc8_inner h.readU8).any fun b => (wp_crc8_update b).any fun _ => Wp.pure trivial
  readU8OrEof := by
    refine (wp_crc8_inner h.readU8OrEof).any fun o => ?_
    rcases o with _ | b
    · exact Wp.pure trivial
    · exact (wp_crc8_update b).any fun _ => Wp.pure trivial
  err e r hr := h.err e r.inner hr
  ends n hn r hr := crc8_ends (h.ends n hn _ hr)

theorem Steady.crc16 (h : Steady P E) : Steady (fun r : Crc16Reader σ => P r.inner) (fun f r => E f r.inner) where
  readU8 := (wp_crc16_inner h.readU8).any fun b => (wp_crc16_update b).any fun _ => Wp.pure trivial
  readU8OrEof := by
    refine (wp_crc16_inner h.readU8OrEof).any fun o => ?_
    rcases o with _ | b
    · exact Wp.pure trivial
    · exact (wp_crc16_update b).any fun _ => Wp.pure trivial
  err e r hr := h.err e r.inner hr
  ends n hn r hr := crc16_ends (h.ends n hn _ hr)

end

/-- What `Block::new` makes of a decoded frame. -/
theorem new_shape {h : FrameHeader} (hh : h.Bounded) {buffer : VecI32} {data : List I32}
    (hd : data.length = h.channels * h.blockSize) {time : Nat} {b : Block}
    (hb : Block.new time h.blockSize ⟨data, (ensureBufferLen buffer (h.channels * h.blockSize)).cap⟩ = .ok b) :
    b.Shape buffer := by
  have hbs := hh.blockSize
  have hch := hh.channels
  unfold Block.new at hb
  rw [if_neg (by omega)] at hb
  cases hb
  have hlt : h.channels * h.blockSize < 2 ^ 32 :=
    calc h.channels * h.blockSize ≤ 8 * 2 ^ 16 := Nat.mul_le_mul hch.2 hbs.2.le
      _ < 2 ^ 32 := by decide
  have hc : data.length % 2 ^ 32 / h.blockSize = h.channels := by
    rw [Nat.mod_eq_of_lt (by omega), hd, Nat.mul_div_cancel _ (by omega)]
  refine ⟨hbs, ?_, ?_, ?_⟩
  · show 1 ≤ data.length % 2 ^ 32 / h.blockSize ∧ data.length % 2 ^ 32 / h.blockSize ≤ 8
    rw [hc]; exact hch
  · show data.length = data.length % 2 ^ 32 / h.blockSize * h.blockSize
    rw [hc]; exact hd
  · show _ = (ensureBufferLen buffer (data.length % 2 ^ 32 / h.blockSize * h.blockSize)).cap
    rw [hc]

/-! ### Headers -/

section

variable [bd : Build] (hb : bd.checked = false) [ReadBytes σ] {P : σ → Prop} {E : Fail → σ → Prop}
  (hP : Steady P E)

include hP

omit bd in
theorem Steady.fails (e : Error) {Q : α → Prop} : Wp P E (Dec.fail (.err e) : Dec σ α) Q := Wp.err hP.err e

omit bd in
theorem wp_readBeU16 : Wp P E (readBeU16 : Dec σ U16) (fun _ => True) :=
  hP.readU8.any fun _ => hP.readU8.any fun _ => Wp.pure trivial

omit bd in
theorem wp_readBeU16OrEof : Wp P E (readBeU16OrEof : Dec σ (Option U16)) (fun _ => True) := by
  unfold readBeU16OrEof
  refine hP.readU8OrEof.any fun o => ?_
  rcases o with _ | b
  · exact Wp.pure trivial
  · refine hP.readU8OrEof.any fun o => ?_
    rcases o with _ | b
    · exact Wp.pure trivial
    · exact Wp.pure trivial

include hb

theorem wp_varLengthLoop (i : Nat) : ∀ r, Wp P E (varLengthLoop i r : Dec σ U64) (fun _ => True) := by
  induction i with
  | zero => exact fun _ => Wp.pure trivial
  | succ i ih =>
    intro r
    refine hP.readU8.any fun b => Wp.ite (fun _ => hP.fails _) fun _ => ?_
    exact (Wp.total (total_shl hb _ _)).any fun _ => ih _

theorem wp_readVarLengthInt : Wp P E (readVarLengthInt : Dec σ U64) (fun _ => True) := by
  unfold readVarLengthInt
  refine hP.readU8.any fun b => ?_
  generalize leadingOnesLoop b 8 0 127#8 128#8 = x
  rcases x with ⟨ones, mask⟩
  refine Wp.ite (fun _ => hP.fails _) fun _ => ?_
  exact (Wp.total (total_shl hb _ _)).any fun _ => wp_varLengthLoop hb hP _ _

theorem wp_readBlockTime (v : Bool) : Wp P E (readBlockTime v : Dec σ BlockTime) (fun _ => True) := by
  unfold readBlockTime
  refine Wp.ite (fun _ => ?_) fun _ => ?_
  · exact (wp_readVarLengthInt hb hP).any fun _ => Wp.pure trivial
  · exact (wp_readVarLengthInt hb hP).any fun _ => Wp.ite (fun _ => hP.fails _) fun _ => Wp.pure trivial

omit hb in
theorem wp_blockSizeCode {n : Nat} (hn : n < 16) : Wp P E (blockSizeCode n : Dec σ _) BlockSizeCode.Ok := by
  unfold blockSizeCode
  refine Wp.ite (fun _ => hP.fails _) fun _ => Wp.ite (fun _ => Wp.pure (by simp [BlockSizeCode.Ok])) fun _ => ?_
  refine Wp.ite (fun h => ?_) fun _ => Wp.ite (fun _ => Wp.pure trivial) fun _ =>
    Wp.ite (fun _ => Wp.pure trivial) fun _ => ?_
  · have h2 : 576 * (1 <<< (n - 2)) < 2 ^ 16 := by
      rw [Nat.shiftLeft_eq]
      have : 2 ^ (n - 2) ≤ 2 ^ 3 := Nat.pow_le_pow_right (by omega) (by omega)
      omega
    refine (Wp.lift (if_pos h2) rfl).bind fun bs hbs => Wp.pure ?_
    subst hbs
    refine ⟨?_, h2⟩
    rw [Nat.shiftLeft_eq]
    have := Nat.two_pow_pos (n - 2)
    omega
  · have h2 : 256 * (1 <<< (n - 8)) < 2 ^ 16 := by
      rw [Nat.shiftLeft_eq]
      have : 2 ^ (n - 8) ≤ 2 ^ 7 := Nat.pow_le_pow_right (by omega) (by omega)
      omega
    refine (Wp.lift (if_pos h2) rfl).bind fun bs hbs => Wp.pure ?_
    subst hbs
    refine ⟨?_, h2⟩
    rw [Nat.shiftLeft_eq]
    have := Nat.two_pow_pos (n - 8)
    omega

omit hb in
theorem wp_readBlockSize {c : BlockSizeCode} (h : c.Ok) :
    Wp P E (readBlockSize c : Dec σ _) (fun bs => 1 ≤ bs ∧ bs < 2 ^ 16) := by
  unfold readBlockSize
  cases c with
  | known bs => exact Wp.pure h
  | read8 =>
    refine hP.readU8.any fun b => Wp.lift (if_pos ?_) ?_
    · have := b.isLt; omega
    · have := b.isLt; omega
  | read16 =>
    refine (wp_readBeU16 hP).any fun b => Wp.ite (fun _ => hP.fails _) fun hne => ?_
    have hlt := b.isLt
    have hne' : b.toNat ≠ 65535 := fun h => hne (BitVec.eq_of_toNat_eq (by rw [h]; rfl))
    exact Wp.lift (if_pos (by omega)) (by omega)

theorem wp_readSampleRate (c : SampleRateCode) : Wp P E (readSampleRate c : Dec σ _) (fun _ => True) := by
  unfold readSampleRate
  cases c with
  | known bs => exact Wp.pure trivial
  | read8 => exact hP.readU8.any fun b => Wp.pure trivial
  | read16 => exact (wp_readBeU16 hP).any fun b => Wp.pure trivial
  | read16Ten =>
    exact (wp_readBeU16 hP).any fun b => (Wp.total (total_mulU hb _ _ _)).any fun _ => Wp.pure trivial

omit bd hb in
theorem wp_sampleRateCode (n : Nat) : Wp P E (sampleRateCode n : Dec σ _) (fun _ => True) := by
  unfold sampleRateCode
  split <;> first | exact Wp.pure trivial | exact hP.fails _

omit hb in
theorem wp_channelAssignmentCode (n : Nat) : Wp P E (channelAssignmentCode n : Dec σ _) (fun ca =>
    ∀ k, ca = .independent k → 1 ≤ k ∧ k ≤ 8) := by
  unfold channelAssignmentCode
  refine Wp.ite (fun hn => ?_) (fun _ => ?_)
  · refine (Wp.lift (if_pos (by omega)) rfl).bind fun ch hch => Wp.pure ?_
    intro k hk
    cases hk
    omega
  refine Wp.ite (fun _ => Wp.pure (by intro k hk; cases hk)) (fun _ => ?_)
  refine Wp.ite (fun _ => Wp.pure (by intro k hk; cases hk)) (fun _ => ?_)
  exact Wp.ite (fun _ => Wp.pure (by intro k hk; cases hk)) (fun _ => hP.fails _)

omit bd hb in
theorem wp_bitsPerSampleCode (n : Nat) : Wp P E (bitsPerSampleCode n : Dec σ _) (fun o =>
    ∀ k, o = some k → 8 ≤ k ∧ k ≤ 24) := by
  unfold bitsPerSampleCode
  split <;> first | exact hP.fails _ | exact Wp.pure (by simp)

theorem wp_header : Wp P E (readFrameHeaderOrEof : Dec σ _) (fun o => ∀ h, o = some h → h.Bounded) := by
  have hb' : Wp (fun r : Crc8Reader σ => P r.inner) (fun f r => E f r.inner)
      (readFrameHeaderBody : Dec (Crc8Reader σ) _) (fun o => ∀ h, o = some h → h.Bounded) := by
    have hC := hP.crc8
    unfold readFrameHeaderBody
    refine (wp_readBeU16OrEof hC).any fun o => ?_
    rcases o with _ | sync
    · exact Wp.pure (by simp)
    · refine Wp.ite (fun _ => hC.fails _) fun _ => Wp.ite (fun _ => hC.fails _) fun _ => ?_
      dsimp only
      refine hC.readU8.any fun a => ?_
      refine (wp_blockSizeCode hC (by
        rw [BitVec.toNat_ushiftRight, Nat.shiftRight_eq_div_pow]
        have := a.isLt
        omega)).bind fun bsc hbsc => ?_
      refine (wp_sampleRateCode hC _).any fun sr => hC.readU8.any fun c => ?_
      refine (wp_channelAssignmentCode hC _).bind fun ca hca => ?_
      refine (wp_bitsPerSampleCode hC _).bind fun bps hbps => ?_
      refine Wp.ite (fun _ => hC.fails _) fun _ => ?_
      refine (wp_readBlockTime hb hC _).any fun t => (wp_readBlockSize hC hbsc).bind fun bs hbs => ?_
      refine (wp_readSampleRate hb hC _).any fun rate => Wp.get fun crc => hC.readU8.any fun p => ?_
      refine Wp.ite (fun _ => hC.fails _) fun _ => Wp.pure ?_
      intro h hh
      cases hh
      refine ⟨hbs, ?_, hbps⟩
      unfold FrameHeader.channels
      cases ca with
      | independent n => exact hca n rfl
      | leftSideStereo => simp
      | rightSideStereo => simp
      | midSideStereo => simp
  intro s hs
  have := hb' (Crc8Reader.new s) hs
  unfold readFrameHeaderOrEof withCrc8
  rcases hx : readFrameHeaderBody (Crc8Reader.new s) with ⟨e | a, r⟩ <;> rw [hx] at this <;> exact this

/-! ### Frames -/

theorem wp_decodeIndependent {bps bs : Nat} (h : bps ≤ 32) (hbs : bs < 2 ^ 16) (n : Nat) : ∀ (ch : Nat)
    (buffer : List I32), (ch + n) * bs ≤ buffer.length →
    Bwp P E (decodeIndependent bps bs n ch buffer) (fun out => out.length = buffer.length) := by
  induction n with
  | zero => exact fun _ _ _ => Wp.pure rfl
  | succ n ih =>
    intro ch buffer hlen
    have h1 : (ch + 1) * bs ≤ (ch + (n + 1)) * bs := Nat.mul_le_mul_right _ (by omega)
    have h2 : (ch + 1) * bs = ch * bs + bs := by rw [Nat.add_mul, Nat.one_mul]
    refine (Wp.withSlice (by omega) (by omega) fun s hs => wp_decodeSubframe hb hP h (by omega)).bind
      fun out ho => ?_
    exact (ih (ch + 1) out (by rw [ho, show ch + 1 + n = ch + (n + 1) by omega]; exact hlen)).mono
      fun _ h => h.trans ho

theorem wp_decodeChannels {h : FrameHeader} {bps : Nat} (hle : bps + 1 ≤ 32) (hbs : h.blockSize < 2 ^ 16)
    {buffer : List I32} (hlen : buffer.length = h.channels * h.blockSize) :
    Bwp P E (decodeChannels h.channelAssignment bps h.blockSize buffer) (fun out => out.length = buffer.length) := by
  have pair : ∀ {b1 b2 : Nat} {f : List I32 → List I32}, b1 ≤ 32 → b2 ≤ 32 →
      (∀ xs : List I32, xs.length % 2 = 0 → (f xs).length = xs.length) →
      buffer.length = 2 * h.blockSize →
      Bwp P E (do
        let buffer ← withSlice buffer 0 h.blockSize (decodeSubframe b1)
        let buffer ← withSlice buffer h.blockSize (h.blockSize * 2) (decodeSubframe b2)
        withSlice buffer 0 (h.blockSize * 2) fun b => Pure.pure (f b)) (fun out => out.length = buffer.length) := by
    intro b1 b2 f h1 h2 hf hl
    refine (Wp.withSlice (by omega) (by omega) fun s hs => wp_decodeSubframe hb hP h1 (by omega)).bind
      fun o1 ho1 => ?_
    refine (Wp.withSlice (by omega) (by omega) fun s hs => wp_decodeSubframe hb hP h2 (by omega)).bind
      fun o2 ho2 => ?_
    exact (Wp.withSlice (by omega) (by omega) fun s hs => Wp.pure (hf s (by omega))).mono
      fun _ h => h.trans (ho2.trans ho1)
  unfold FrameHeader.channels at hlen
  unfold decodeChannels
  cases hca : h.channelAssignment with
  | independent n =>
    rw [hca] at hlen
    exact wp_decodeIndependent hb hP (by omega) hbs n 0 buffer (by simp only at hlen; rw [hlen, Nat.zero_add])
  | leftSideStereo =>
    rw [hca] at hlen
    exact pair (by omega) (by omega) (fun xs _ => length_decodeLeftSide xs) hlen
  | rightSideStereo =>
    rw [hca] at hlen
    exact pair (by omega) (by omega) (fun xs h => length_decodeRightSide h) hlen
  | midSideStereo =>
    rw [hca] at hlen
    exact pair (by omega) (by omega) (fun xs _ => length_decodeMidSide xs) hlen

theorem wp_frame (buffer : VecI32) :
    Wp P E (readNextOrEof buffer : Dec σ _) (fun o => ∀ b, o = some b → b.Shape buffer) := by
  have body : Wp (fun r : Crc16Reader σ => P r.inner) (fun f r => E f r.inner)
      (do
        match ← (readFrameHeaderOrEof : Dec (Crc16Reader σ) _) with
        | none => Pure.pure none
        | some h => readFrameBody h buffer) (fun o => ∀ b, o = some b → b.Shape buffer) := by
    have hC := hP.crc16
    refine (wp_header hb hC).bind fun o ho => ?_
    rcases o with _ | h
    · exact Wp.pure (by simp)
    · have hh := ho h rfl
      simp only
      unfold readFrameBody
      rcases hbps : h.bitsPerSample with _ | bps
      · exact hC.fails _
      · simp only
        have hb2 := hh.bitsPerSample bps hbps
        refine (Wp.total (total_debugAssert hb _)).any fun _ => ?_
        refine Wp.bind (Q := fun data => data.length = h.channels * h.blockSize) ?_ fun data hd =>
          Wp.get fun crc => (wp_readBeU16 hC).any fun p => ?_
        · intro r hr
          have := wp_decodeChannels hb hC (bps := bps) (by omega) hh.blockSize.2
            (ensureBufferLen_length buffer (h.channels * h.blockSize)) (Bitstream.new r) hr
          unfold withBitstream
          rcases hx : decodeChannels h.channelAssignment bps h.blockSize
            (ensureBufferLen buffer (h.channels * h.blockSize)).data (Bitstream.new r) with ⟨e | a, r'⟩ <;>
            rw [hx] at this
          · exact this
          · exact ⟨this.1.trans (ensureBufferLen_length _ _), this.2⟩
        · refine Wp.ite (fun _ => hC.fails _) fun _ => ?_
          refine Wp.any (Q := fun _ => True) (Wp.total ?_) fun t => ?_
          · unfold frameTime
            split
            · exact total_mulU hb _ _ _
            · exact ⟨_, rfl⟩
          · rcases hn : Block.new t h.blockSize
              ⟨data, (ensureBufferLen buffer (h.channels * h.blockSize)).cap⟩ with e | b
            · unfold Block.new at hn
              rw [if_neg (by have := hh.blockSize.1; omega)] at hn
              cases hn
            · refine Wp.bind (Wp.lift rfl rfl) fun b' hb' => Wp.pure ?_
              intro b'' h''
              cases h''
              cases hb'
              exact new_shape hh hd hn
  intro s hs
  have := body (Crc16Reader.new s) hs
  unfold readNextOrEof withCrc16
  generalize hm : (do
        match ← (readFrameHeaderOrEof : Dec (Crc16Reader σ) _) with
        | none => Pure.pure none
        | some h => readFrameBody h buffer) = m at this ⊢
  rcases hx : m (Crc16Reader.new s) with ⟨e | a, r⟩ <;> rw [hx] at this <;> exact this

end

end Claxon
