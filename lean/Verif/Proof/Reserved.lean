import Verif.Spec.Reserved
import Verif.Proof.Full
import Verif.Proof.MetadataApi

/-! # Reserved values -/

namespace Claxon

open Spec ReadBytes Bitstream

/-- The header of a subframe. -/
theorem reads_subframeHeader {code wasted : Nat} {t : SubframeType} (h6 : code < 2 ^ 6)
    (ht : (subframeTypeOf (BitVec.ofNat 8 code) : Dec (Bitstream Flat) SubframeType) = pure t)
    (hw : wasted ≤ 31) :
    Reads readSubframeHeader (false :: natToBits 6 code ++ wastedBits wasted) ⟨t, wasted⟩ := by
  rw [readSubframeHeader_eq]
  show Reads _ ([false] ++ natToBits 6 code ++ wastedBits wasted) _
  rw [List.append_assoc]
  apply (reads_readBit false).bind
  simp only [Bool.false_eq_true, if_false]
  apply (reads_readLeqU8 (k := 6) (by omega) h6).bind
  rw [ht, pure_bind]
  apply (reads_wasted hw).bind_nil
  rw [if_neg (by omega)]
  exact Reads.pure _

/-- A subframe whose body cannot be decoded. -/
theorem bad_body {bps bs code wasted : Nat} {t : SubframeType} (h32 : bps ≤ 32) (h6 : code < 2 ^ 6)
    (ht : (subframeTypeOf (BitVec.ofNat 8 code) : Dec (Bitstream Flat) SubframeType) = pure t)
    (hw : wasted < bps) {bits : List Bool} {e : Fail} {x : Bool}
    (h : ∀ buffer : List I32, buffer.length = bs → FailsOn (decodeBody t (bps - wasted) buffer) bits e x) :
    BadSubframe bps bs (false :: natToBits 6 code ++ wastedBits wasted ++ bits) e x := by
  intro buffer hb
  unfold decodeSubframe
  refine FailsOn.bind_lift (debugAssert_ok (decide_eq_true h32)) ?_
  refine FailsOn.bind (reads_subframeHeader h6 ht (by omega)) ?_
  simp only
  rw [if_neg (by omega)]
  exact FailsOn.bind_left _ (h buffer hb)

theorem failsOn_method {method bs : Nat} {x : Bool} (hm : method = 2 ∨ method = 3) (buffer : List I32) :
    FailsOn (decodeResidual bs buffer) (natToBits 2 method)
      (.err (.formatError "invalid residual, encountered reserved value")) x := by
  unfold decodeResidual
  rw [← List.append_nil (natToBits 2 method)]
  refine FailsOn.bind (reads_readLeqU8 (k := 2) (by omega) (show method < 2 ^ 2 by omega)) ?_
  rcases hm with rfl | rfl
  · exact FailsOn.bind_left _ (FailsOn.fail _)
  · exact FailsOn.bind_left _ (FailsOn.fail _)

theorem bad_reserved {bps bs : Nat} (h32 : bps ≤ 32) {bits : List Bool}
    (h : ReservedSubframe bps bs bits) :
    ∃ msg, BadSubframe bps bs bits (.err (.formatError msg)) := by
  have hz : ∀ n, ∀ v ∈ List.replicate n (0 : Int), FitsIn 1 v := by
    intro n v hv
    rw [List.eq_of_mem_replicate hv]
    decide
  cases h with
  | padding =>
    refine ⟨"invalid subframe header", fun buffer _ => ?_⟩
    unfold decodeSubframe
    refine FailsOn.bind_lift (debugAssert_ok (decide_eq_true h32)) (FailsOn.bind_left _ ?_)
    rw [readSubframeHeader_eq, ← List.append_nil [true]]
    refine FailsOn.bind (reads_readBit true) ?_
    exact FailsOn.fail _
  | type code hcode =>
    refine ⟨"invalid subframe header, encountered reserved value", fun buffer _ => ?_⟩
    unfold decodeSubframe
    refine FailsOn.bind_lift (debugAssert_ok (decide_eq_true h32)) (FailsOn.bind_left _ ?_)
    rw [readSubframeHeader_eq]
    show FailsOn _ ([false] ++ natToBits 6 code) _
    refine FailsOn.bind (reads_readBit false) ?_
    simp only [Bool.false_eq_true, if_false]
    rw [← List.append_nil (natToBits 6 code)]
    refine FailsOn.bind (reads_readLeqU8 (k := 6) (by omega) (by omega)) (FailsOn.bind_left _ ?_)
    have h31 : code ≤ 31 := by omega
    interval_cases code <;> first | omega | exact FailsOn.fail _
  | precision warmUp wasted h1 hw32 hl hw hv =>
    refine ⟨"invalid subframe, qlp precision value invalid", ?_⟩
    have htc := reads_typeCode (.lpc (List.replicate warmUp.length 0) 1 0 (List.replicate warmUp.length 0)
      ⟨.rice, 0, [⟨0, []⟩]⟩) (bps := 1) (bs := warmUp.length)
      ⟨by simpa using h1, by simpa using hw32, hz _, by omega, by omega, by omega, by simp, hz _,
        by simpa using plain_residual _⟩
    simp only [Coding.typeCode, typeOf, List.length_replicate] at htc
    rw [List.append_assoc]
    refine bad_body h32 htc.1 htc.2 hw ?_
    intro buffer hb
    show FailsOn (decodeLpc _ _ _) _ _
    unfold decodeLpc
    refine FailsOn.bind_lift (debugAssert_ok (decide_eq_true hw32)) ?_
    rw [if_neg (by omega)]
    refine FailsOn.bind (Reads.withSlice (Nat.zero_le _) (by omega)
      (reads_verbatim (by omega) (by omega) warmUp hv _ (slice_head (by omega)))) ?_
    rw [← List.append_nil (natToBits 4 0b1111)]
    refine FailsOn.bind (reads_readLeqU8 (k := 4) (by omega) (show 15 < 2 ^ 4 by omega)) ?_
    exact FailsOn.fail _
  | methodFixed warmUp wasted method h4 hl hw hv hm =>
    refine ⟨"invalid residual, encountered reserved value", ?_⟩
    have htc := reads_typeCode (.fixed (List.replicate warmUp.length 0) ⟨.rice, 0, [⟨0, []⟩]⟩)
      (bps := 1) (bs := warmUp.length) ⟨by simpa using h4, hz _, by simpa using plain_residual _⟩
    simp only [Coding.typeCode, typeOf, List.length_replicate] at htc
    rw [List.append_assoc]
    refine bad_body h32 htc.1 htc.2 hw ?_
    intro buffer hb
    show FailsOn (decodeFixed _ _ _) _ _
    unfold decodeFixed
    rw [if_neg (by omega)]
    refine FailsOn.bind (Reads.withSlice (Nat.zero_le _) (by omega)
      (reads_verbatim (by omega) (by omega) warmUp hv _ (slice_head (by omega)))) ?_
    refine FailsOn.bind_left _ (FailsOn.withSlice ?_ ?_ (failsOn_method hm _))
    · simp
    · simp
  | methodLpc warmUp wasted precision shift coefs method h1 hw32 hl hw hv hp1 hp15 hs hlen hc hm =>
    refine ⟨"invalid residual, encountered reserved value", ?_⟩
    have htc := reads_typeCode (.lpc (List.replicate warmUp.length 0) 1 0 (List.replicate warmUp.length 0)
      ⟨.rice, 0, [⟨0, []⟩]⟩) (bps := 1) (bs := warmUp.length)
      ⟨by simpa using h1, by simpa using hw32, hz _, by omega, by omega, by omega, by simp, hz _,
        by simpa using plain_residual _⟩
    simp only [Coding.typeCode, typeOf, List.length_replicate] at htc
    rw [List.append_assoc, List.append_assoc, List.append_assoc, List.append_assoc]
    refine bad_body h32 htc.1 htc.2 hw ?_
    intro buffer hb
    show FailsOn (decodeLpc _ _ _) _ _
    unfold decodeLpc
    refine FailsOn.bind_lift (debugAssert_ok (decide_eq_true hw32)) ?_
    rw [if_neg (by omega)]
    refine FailsOn.bind (Reads.withSlice (Nat.zero_le _) (by omega)
      (reads_verbatim (by omega) (by omega) warmUp hv _ (slice_head (by omega)))) ?_
    refine FailsOn.bind (reads_readLeqU8 (k := 4) (by omega) (show precision - 1 < 2 ^ 4 by omega)) ?_
    simp only [toNat_ofNat8 (show precision - 1 < 256 by omega)]
    rw [if_neg (by omega)]
    refine FailsOn.bind (reads_readLeqU16 (by omega) (emod_toNat_lt shift 5)) ?_
    refine FailsOn.bind_lift (shift5 hs).1 ?_
    rw [(shift5 hs).2, if_neg (by omega), show precision - 1 + 1 = precision by omega, ← hlen]
    refine FailsOn.bind (reads_readCoefficients (by omega) (by omega) coefs (List.replicate 32 0#16) hc
      (by simp; omega)) ?_
    refine FailsOn.bind_left _ (FailsOn.withSlice ?_ ?_ (failsOn_method hm _))
    · simp; omega
    · simp

/-! ### Frame headers -/

section
variable {σ : Type}

theorem blockSizeCode_cases (n : Fin 16) :
    (n.val = 0 ∧ ∃ msg, (blockSizeCode n.val : Dec σ _) = fmtErr msg) ∨
      (n.val ≠ 0 ∧ ∃ v, (blockSizeCode n.val : Dec σ _) = pure v) := by
  obtain ⟨n, hn⟩ := n
  simp only
  interval_cases n <;> first | exact .inl ⟨by decide, _, rfl⟩ | exact .inr ⟨by decide, _, rfl⟩

theorem sampleRateCode_cases (n : Fin 16) :
    (n.val = 15 ∧ ∃ msg, (sampleRateCode n.val : Dec σ _) = fmtErr msg) ∨
      (n.val ≠ 15 ∧ ∃ v, (sampleRateCode n.val : Dec σ _) = pure v) := by
  obtain ⟨n, hn⟩ := n
  simp only
  interval_cases n <;> first | exact .inl ⟨by decide, _, rfl⟩ | exact .inr ⟨by decide, _, rfl⟩

theorem channelAssignmentCode_cases (n : Fin 16) :
    (11 ≤ n.val ∧ ∃ msg, (channelAssignmentCode n.val : Dec σ _) = fmtErr msg) ∨
      (n.val < 11 ∧ ∃ v, (channelAssignmentCode n.val : Dec σ _) = pure v) := by
  obtain ⟨n, hn⟩ := n
  simp only
  interval_cases n <;> first | exact .inl ⟨by decide, _, rfl⟩ | exact .inr ⟨by decide, _, rfl⟩

theorem bitsPerSampleCode_cases (n : Fin 8) :
    ((n.val = 3 ∨ n.val = 7) ∧ ∃ msg, (bitsPerSampleCode n.val : Dec σ _) = fmtErr msg) ∨
      (n.val ≠ 3 ∧ n.val ≠ 7 ∧ ∃ v, (bitsPerSampleCode n.val : Dec σ _) = pure v) := by
  match n with
  | 3 | 7 => exact .inl ⟨by decide, _, rfl⟩
  | 0 | 1 | 2 | 4 | 5 | 6 => exact .inr ⟨by decide, by decide, _, rfl⟩

end

theorem headerFields_reserved {c : HeaderCodes} (h : c.Reserved) (rest : List U8) (fault : Option Nat)
    {b1 b2 b3 : U8} (hb : c.bytes = [0xff#8, b1, b2, b3]) :
    ∃ msg, (headerFields ((0xff#8 : U8).setWidth 16 <<< 8 ||| b1.setWidth 16)
      (⟨b2 :: b3 :: rest, fault⟩ : Flat)).1 = .error (.err (.formatError msg)) := by
  obtain ⟨r1, v, bs, sr, ch, ss, r2⟩ := c
  simp only [HeaderCodes.bytes, List.cons.injEq, true_and, and_true] at hb
  obtain ⟨rfl, rfl, rfl⟩ := hb
  unfold headerFields
  have hsync : ∀ r1 v : Bool, ((0xff#8 : U8).setWidth 16 <<< 8 |||
      (BitVec.ofNat 8 (0xf8 + 2 * r1.toNat + v.toNat)).setWidth 16) &&& 0b1111_1111_1111_1100#16 =
        0b1111_1111_1111_1000#16 := by decide
  have hres : ∀ r1 v : Bool, (((0xff#8 : U8).setWidth 16 <<< 8 |||
      (BitVec.ofNat 8 (0xf8 + 2 * r1.toNat + v.toNat)).setWidth 16) &&& 0b0000_0000_0000_0010#16 ≠ 0#16) ↔
        r1 = true := by decide
  have hbs : ∀ bs sr : Fin 16, (BitVec.ofNat 8 (16 * bs.val + sr.val) >>> 4).toNat = bs.val ∧
      (BitVec.ofNat 8 (16 * bs.val + sr.val) &&& 0b0000_1111#8).toNat = sr.val := by decide +kernel
  have hch : ∀ (ch : Fin 16) (ss : Fin 8) (r2 : Bool),
      (BitVec.ofNat 8 (16 * ch.val + 2 * ss.val + r2.toNat) >>> 4).toNat = ch.val ∧
      ((BitVec.ofNat 8 (16 * ch.val + 2 * ss.val + r2.toNat) &&& 0b0000_1110#8) >>> 1).toNat = ss.val ∧
      ((BitVec.ofNat 8 (16 * ch.val + 2 * ss.val + r2.toNat) &&& 0b0000_0001#8 ≠ 0#8) ↔ r2 = true) := by
    decide +kernel
  rw [if_neg (by rw [hsync]; simp)]
  by_cases h1 : r1 = true
  · rw [if_pos ((hres r1 v).2 h1)]
    exact ⟨_, rfl⟩
  rw [if_neg (fun hc => h1 ((hres r1 v).1 hc))]
  rw [Dec.bind_ok _ (show readU8 (⟨_ :: _ :: rest, fault⟩ : Flat) = (.ok _, ⟨_ :: rest, fault⟩) from rfl)]
  rw [(hbs bs sr).1, (hbs bs sr).2]
  rcases blockSizeCode_cases (σ := Flat) bs with ⟨h2, msg, hm⟩ | ⟨h2, bsv, hm⟩
  · rw [hm]; exact ⟨msg, rfl⟩
  rw [hm, pure_bind]
  rcases sampleRateCode_cases (σ := Flat) sr with ⟨h3, msg, hm⟩ | ⟨h3, srv, hm⟩
  · rw [hm]; exact ⟨msg, rfl⟩
  rw [hm, pure_bind]
  rw [Dec.bind_ok _ (show readU8 (⟨_ :: rest, fault⟩ : Flat) = (.ok _, ⟨rest, fault⟩) from rfl)]
  rw [(hch ch ss r2).1, (hch ch ss r2).2.1]
  rcases channelAssignmentCode_cases (σ := Flat) ch with ⟨h4, msg, hm⟩ | ⟨h4, chv, hm⟩
  · rw [hm]; exact ⟨msg, rfl⟩
  rw [hm, pure_bind]
  rcases bitsPerSampleCode_cases (σ := Flat) ss with ⟨h5, msg, hm⟩ | ⟨h5, h5', ssv, hm⟩
  · rw [hm]; exact ⟨msg, rfl⟩
  rw [hm, pure_bind]
  have h6 : r2 = true := by
    simp only [HeaderCodes.Reserved] at h
    rcases h with h | h | h | h | h | h | h
    · exact absurd h h1
    · exact absurd h h2
    · exact absurd h h3
    · omega
    · exact absurd h h5
    · exact absurd h h5'
    · exact h
  rw [if_pos ((hch ch ss r2).2.2.2 h6)]
  exact ⟨_, rfl⟩

/-- A frame header with a reserved value. -/
theorem failsOn_headerCodes {c : HeaderCodes} (h : c.Reserved) (rest : List U8) (fault : Option Nat)
    (buffer : VecI32) :
    ∃ msg, (readNextOrEof buffer (⟨c.bytes ++ rest, fault⟩ : Flat)).1 = .error (.err (.formatError msg)) := by
  obtain ⟨b1, b2, b3, hb⟩ : ∃ b1 b2 b3, c.bytes = [0xff#8, b1, b2, b3] := ⟨_, _, _, rfl⟩
  obtain ⟨msg, hm⟩ := headerFields_reserved h rest fault hb
  refine ⟨msg, ?_⟩
  rw [readNextOrEof_flat, hb]
  generalize hy : headerFields ((0xff#8 : U8).setWidth 16 <<< 8 ||| b1.setWidth 16)
      (⟨b2 :: b3 :: rest, fault⟩ : Flat) = y at hm
  obtain ⟨y, s⟩ := y
  simp only at hm
  subst hm
  have hh : flatHeader ([0xff#8, b1, b2, b3] ++ rest) ⟨[0xff#8, b1, b2, b3] ++ rest, fault⟩ =
      (.error (.err (.formatError msg)), s) := by
    unfold flatHeader
    rw [Dec.bind_ok _ (show readBeU16OrEof (⟨[0xff#8, b1, b2, b3] ++ rest, fault⟩ : Flat) =
      (.ok (some ((0xff#8 : U8).setWidth 16 <<< 8 ||| b1.setWidth 16)), ⟨b2 :: b3 :: rest, fault⟩) from rfl)]
    simp only
    unfold flatHeaderRest
    rw [Dec.bind_error _ (Dec.bind_error _ hy)]
  rw [Dec.bind_error _ hh]

theorem sync_bytes {x y : U8} (h : (x.setWidth 16 <<< 8 ||| y.setWidth 16) &&& 0b1111_1111_1111_1100#16 =
    0b1111_1111_1111_1000#16) : x.toNat = 0xff ∧ y.toNat / 4 = 0b111110 := by
  have hb : ∀ i, _ := fun i => congrArg (fun z : BitVec 16 => z.getLsbD i) h
  have hx : x = 0xff#8 := by
    refine BitVec.eq_of_getLsbD_eq fun i hi => ?_
    have := hb (i + 8)
    interval_cases i <;> simpa using this
  have hy : y &&& 0xfc#8 = 0xf8#8 := by
    refine BitVec.eq_of_getLsbD_eq fun i hi => ?_
    have := hb i
    interval_cases i
    · simp
    · simp
    all_goals simpa using this
  refine ⟨by rw [hx]; rfl, ?_⟩
  clear h hb hx x
  revert y
  decide +kernel

/-- Bytes that are not the beginning of a frame. -/
theorem failsOn_sync {x y : U8} (h : ¬ (x.toNat = 0xff ∧ y.toNat / 4 = 0b111110)) (rest : List U8)
    (fault : Option Nat) (buffer : VecI32) :
    (readNextOrEof buffer (⟨x :: y :: rest, fault⟩ : Flat)).1 =
      .error (.err (.formatError "frame sync code missing")) := by
  have hne : (x.setWidth 16 <<< 8 ||| y.setWidth 16 : U16) &&& 0b1111_1111_1111_1100#16 ≠
      0b1111_1111_1111_1000#16 := fun h' => h (sync_bytes h')
  have hh : flatHeader (x :: y :: rest) ⟨x :: y :: rest, fault⟩ =
      (.error (.err (.formatError "frame sync code missing")), ⟨rest, fault⟩) := by
    unfold flatHeader
    rw [Dec.bind_ok _ (show readBeU16OrEof (⟨x :: y :: rest, fault⟩ : Flat) =
      (.ok (some (x.setWidth 16 <<< 8 ||| y.setWidth 16)), ⟨rest, fault⟩) from rfl)]
    simp only
    unfold flatHeaderRest headerFields
    rw [if_pos hne]
    rfl
  rw [readNextOrEof_flat, Dec.bind_error _ hh]

/-! ### Metadata blocks -/

theorem bfails_readBlock {isLast : Bool} {ty : U8} {length : Nat} {e : Fail} (ht : ty.toNat < 128)
    (hl : length < 2 ^ 24) (h : BFails (readMetadataBlock ty length) [] e) :
    BFails readBlock (headerBytes isLast ty length) e := by
  unfold readBlock
  rw [← List.append_nil (headerBytes _ _ _)]
  exact BFails.bind (breads_blockHeader ht hl) (BFails.bind_left _ h)

theorem bfails_largeBlock {ty : U8} {length : Nat} (ht : ty = 2#8 ∨ ty = 4#8) (hl : maxBlockLength < length) :
    ∃ msg, BFails (readMetadataBlock ty length) [] (.err (.unsupported msg)) := by
  have h1 : ¬ length < 4 := by unfold maxBlockLength at hl; omega
  have h2 : ¬ length < 8 := by unfold maxBlockLength at hl; omega
  unfold maxBlockLength at hl
  rcases ht with rfl | rfl
  · refine ⟨"application blocks larger than 10 MiB are not supported", fun _ _ => ?_⟩
    unfold readMetadataBlock readApplicationBlock
    rw [if_neg (by decide), if_neg (by decide), if_pos rfl, if_neg h1, if_pos hl]
    exact ⟨rfl, by simp⟩
  · refine ⟨"Vorbis comment blocks larger than 10 MiB are not supported", fun _ _ => ?_⟩
    unfold readMetadataBlock readVorbisCommentBlock
    rw [if_neg (by decide), if_neg (by decide), if_neg (by decide), if_neg (by decide), if_pos rfl,
      if_neg h2, if_pos hl]
    exact ⟨rfl, by simp⟩

theorem bfails_openLoop {bad : List U8} {e : Fail} (hbad : BFails readBlock bad e) (more : List EncodedBlock) :
    ∀ (fuel : Nat) (opts : FlacReaderOptions) (vc : Option VorbisComment), opts.metadataOnly = false →
    (∀ b ∈ more, b.isLast = false ∧ ¬ IsStreaminfo b) →
    vc.toList.length + (commentsIn more).length ≤ 1 → more.length < fuel →
    BFails (openLoop fuel opts vc false) (metadataBytes more ++ bad) e := by
  induction more with
  | nil =>
    intro fuel opts vc _ _ _ hf
    obtain ⟨fuel, rfl⟩ : ∃ n, fuel = n + 1 := ⟨fuel - 1, by simp at hf; omega⟩
    rw [openLoop_succ, if_neg (by simp)]
    exact BFails.bind_left _ hbad
  | cons b more ih =>
    intro fuel opts vc ho hm hc hf
    obtain ⟨fuel, rfl⟩ : ∃ n, fuel = n + 1 := ⟨fuel - 1, by simp at hf; omega⟩
    rw [List.length_cons] at hf
    rw [openLoop_succ, if_neg (by simp), metadataBytes_cons, List.append_assoc]
    refine BFails.bind (breads_block b) ?_
    obtain ⟨hlast, hns⟩ := hm b (by simp)
    simp only [hlast]
    have hrest := fun c hc' => hm c (List.mem_cons_of_mem b hc')
    have hcons : commentsIn (b :: more) = commentsIn [b] ++ commentsIn more := commentsIn_append [b] more
    have hdes : ∀ x, FlacReaderOptions.hasDesiredBlocks { metadataOnly := false, readVorbisComment := x } = true :=
      fun x => by cases x <;> rfl
    obtain ⟨mo, rv⟩ := opts
    simp only at ho
    subst ho
    have hother : (∀ c, b.block ≠ .vorbisComment c) →
        BFails (if !FlacReaderOptions.hasDesiredBlocks { metadataOnly := false, readVorbisComment := rv }
          then pure vc else openLoop fuel { metadataOnly := false, readVorbisComment := rv } vc false) (metadataBytes more ++ bad) e := by
      intro hnc
      rw [hdes, if_neg (by simp)]
      refine ih fuel _ vc rfl hrest ?_ (by omega)
      rw [hcons, commentsIn_other hnc, List.nil_append] at hc
      exact hc
    rcases hblock : b.block with i | n | ⟨id, data⟩ | sp | c | _ | _ | _
    · exact absurd ⟨i, hblock⟩ hns
    · exact hother (by intro c hc; rw [hblock] at hc; cases hc)
    · exact hother (by intro c hc; rw [hblock] at hc; cases hc)
    · exact hother (by intro c hc; rw [hblock] at hc; cases hc)
    · rw [hcons, commentsIn_comment hblock] at hc
      simp only [List.singleton_append, List.length_cons] at hc
      have hvc : vc = none := by
        cases vc with
        | none => rfl
        | some _ => simp at hc
      subst hvc
      unfold afterBlockRead
      simp only [Option.isSome_none]
      rw [if_neg (by simp), hdes, if_neg (by simp)]
      exact ih fuel _ (some c) rfl hrest (by simp at hc ⊢; omega) (by omega)
    all_goals exact hother (by intro c hc; rw [hblock] at hc; cases hc)

/-- A stream with a metadata block that cannot be read. -/
theorem newExt_badBlock {src : Src} {fault : Option Nat} {fuel : Nat} {o : FlacReaderOptions}
    {first : EncodedBlock} {more : List EncodedBlock} {info : StreamInfo} {bad rest : List U8} {e : Error}
    (hbad : BFails readBlock bad (.err e)) (ho : o.metadataOnly = false) (h1 : first.block = .streamInfo info)
    (hlast : first.isLast = false)
    (hm : ∀ b ∈ more, b.isLast = false ∧ ¬ IsStreaminfo b) (hc : (commentsIn more).length ≤ 1)
    (hf : more.length < fuel)
    (hd : src.Delivers (streamMarker ++ metadataBytes (first :: more) ++ bad ++ rest) fault) :
    FlacReader.newExt fuel src o = .error (.err e) := by
  have hb : BFails (openStream fuel o) (streamMarker ++ metadataBytes (first :: more) ++ bad) (.err e) := by
    rw [openStream_eq, openFlat_eq, List.append_assoc]
    refine BFails.bind breads_marker ?_
    rw [metadataBytes_cons, List.append_assoc]
    refine BFails.bind (breads_block first) ?_
    simp only [h1, hlast]
    exact BFails.bind_left _ (bfails_openLoop hbad more fuel o none ho hm (by simpa using hc) hf)
  have h2 := hb.buffered ((simAllBuffered fault).full.openStream fuel o) (BufferedReader.Remaining.new hd)
  unfold FlacReader.newExt FlacReader.newExtGen
  generalize openStream fuel o (BufferedReader.new src) = y at h2
  obtain ⟨y, r⟩ := y
  simp only at h2
  subst h2
  rfl

end Claxon
