import Verif.Spec.Full
import Verif.Proof.FrameApi

/-! # Frames with features that claxon does not implement -/

namespace Claxon

open Spec ReadBytes Bitstream

/-- The failure that tells of a feature. -/
abbrev Unimplemented (x : Feature) : Fail := .err (.unsupported x.message)

theorem FailsOn.withSlice {buffer : List I32} {a b : Nat} {f : List I32 → Dec (Bitstream Flat) (List I32)}
    {bits : List Bool} {e : Fail} {x : Bool} (hab : a ≤ b) (hb : b ≤ buffer.length)
    (h : FailsOn (f ((buffer.take b).drop a)) bits e x) : FailsOn (withSlice buffer a b f) bits e x :=
  FailsOn.bind_lift (slice_ok ⟨hab, hb⟩) (FailsOn.bind_left _ h)

/-! ### Residuals -/

theorem failsOn_partition (m : RiceMethod) (width : Nat) (values : List Int) (buf : List I32) :
    FailsOn (partitionDec m buf) (Full.Partition.bits m (.unencoded width values))
      (Unimplemented .unencodedPartition) := by
  rw [Full.Partition.bits, List.append_assoc]
  cases m with
  | rice =>
    refine FailsOn.bind (reads_readLeqU8 (k := 4) (by omega) (show 15 < 2 ^ 4 by omega)) ?_
    exact (FailsOn.fail _).weaken _
  | rice2 =>
    refine FailsOn.bind (reads_readLeqU8 (k := 5) (by omega) (show 31 < 2 ^ 5 by omega)) ?_
    exact (FailsOn.fail _).weaken _

theorem failsOn_partitionLoop (m : RiceMethod) (nspp : Nat) {x : Feature} {xs : List Feature}
    (ps : List Full.Partition) :
    ∀ (start len : Nat) (buffer : List I32),
    ps.map (fun p => p.values.length) = sizesFrom nspp ps.length len →
    (∀ p ∈ ps, p.WellFormed m) →
    buffer.length = start + (ps.map fun p => p.values.length).sum →
    ps.flatMap Full.Partition.features = x :: xs →
    FailsOn (partitionLoop (ptypeOf m) nspp ps.length start len buffer)
      (ps.flatMap (Full.Partition.bits m)) (Unimplemented x) := by
  induction ps with
  | nil => intro _ _ _ _ _ _ h; simp at h
  | cons p ps ih =>
    intro start len buffer hs hp hlen hx
    simp only [List.length_cons, List.map_cons, sizesFrom, List.cons.injEq] at hs
    simp only [List.map_cons, List.sum_cons] at hlen
    rw [List.length_cons, partitionLoop_succ, List.flatMap_cons]
    cases p with
    | unencoded width values =>
      simp only [List.flatMap_cons, Full.Partition.features, List.singleton_append, List.cons.injEq] at hx
      obtain ⟨rfl, -⟩ := hx
      refine (FailsOn.bind_left _ ?_).weaken _
      exact FailsOn.withSlice (by omega) (by omega) (failsOn_partition m width values _)
    | rice p =>
      simp only [List.flatMap_cons, Full.Partition.features, List.nil_append] at hx
      simp only [Full.Partition.values] at hs hlen
      obtain ⟨h1, h2⟩ := hp (.rice p) (by simp)
      have hslice : Reads (withSlice buffer start (start + len) (partitionDec m)) (p.bits m)
          (buffer.take start ++ p.values.map resI32 ++ buffer.drop (start + len)) := by
        apply Reads.withSlice (by omega) (by omega)
        apply reads_partition m p h1 h2
        rw [List.length_drop, List.length_take]
        omega
      refine FailsOn.bind hslice (ih (start + len) nspp _ hs.2 (fun q hq => hp q (by simp [hq])) ?_ hx)
      simp only [List.length_append, List.length_take, List.length_map, List.length_drop]
      simp only [Full.Partition.values]
      omega

theorem Full.Residual.order_le {r : Full.Residual} {bs order : Nat} (h : r.WellFormed bs order) :
    order ≤ bs := Nat.le_trans h.first (Nat.div_le_self _ _)

theorem failsOn_residual (r : Full.Residual) {bs order : Nat} (hbs : bs < 2 ^ 16) (ho : order ≤ bs)
    (hw : r.WellFormed bs order) (buffer : List I32) (hlen : buffer.length = bs - order)
    {x : Feature} {xs : List Feature} (hx : r.features = x :: xs) :
    FailsOn (decodeResidual bs buffer) r.bits (Unimplemented x) := by
  obtain ⟨hpo, hdiv, hfirst, hparts, hsizes⟩ := hw
  have hnp : r.partitions.length = 2 ^ r.partitionOrder := by
    have := congrArg List.length hsizes
    simp [partitionSizes] at this
    have : 0 < 2 ^ r.partitionOrder := Nat.two_pow_pos _
    omega
  have hpow : 2 ^ r.partitionOrder ≤ 2 ^ 15 := Nat.pow_le_pow_right (by omega) hpo
  rw [Full.Residual.bits, List.append_assoc]
  refine FailsOn.bind (reads_readLeqU8 (k := 2) (by omega) (show r.method.code < 2 ^ 2 by
    cases r.method <;> decide)) ?_
  simp only
  rw [code_ofNat r.method, pure_bind]
  refine FailsOn.bind (reads_readLeqU8 (k := 4) (by omega) (show r.partitionOrder < 2 ^ 4 by omega)) ?_
  simp only [toNat_ofNat8 (show r.partitionOrder < 256 by omega)]
  refine FailsOn.bind_lift (if_pos (by omega)) ?_
  refine FailsOn.bind_lift (if_pos (by omega)) ?_
  rw [and_mask _ _ hpo, if_neg (by simpa using hdiv), Nat.shiftRight_eq_div_pow]
  have hprod : 2 ^ r.partitionOrder * (bs / 2 ^ r.partitionOrder) = bs := by
    have := Nat.div_add_mod bs (2 ^ r.partitionOrder); omega
  refine FailsOn.bind_lift (mulU_ok (by rw [hprod]; omega)) ?_
  refine FailsOn.bind_lift (debugAssert_ok (by rw [hprod]; simp)) ?_
  rw [Nat.mod_eq_of_lt (show buffer.length < 2 ^ 16 by omega)]
  refine FailsOn.bind_lift (subU_ok (by omega)) ?_
  rw [show bs - buffer.length = order by omega, if_neg (by omega)]
  refine FailsOn.bind_lift (subU_ok hfirst) ?_
  have := failsOn_partitionLoop r.method (bs / 2 ^ r.partitionOrder) r.partitions 0
    (bs / 2 ^ r.partitionOrder - order) buffer
    (by rw [hsizes, partitionSizes_eq, hnp])
    hparts
    (by rw [hsizes, partitionSizes_sum hdiv hfirst, hlen]; omega) hx
  rwa [hnp] at this

/-! ### Subframes -/

theorem failsOn_fixed {bps : Nat} (h0 : 0 < bps) (h32 : bps ≤ 32) (warm : List Int) (r : Full.Residual)
    (buffer : List I32) (hbs : buffer.length < 2 ^ 16)
    (hw : (Full.Coding.fixed warm r).WellFormed bps buffer.length)
    {x : Feature} {xs : List Feature} (hx : r.features = x :: xs) :
    FailsOn (decodeFixed bps warm.length buffer) ((Full.Coding.fixed warm r).bits bps) (Unimplemented x) := by
  obtain ⟨h4, hv, hres⟩ := hw
  have ho := Full.Residual.order_le hres
  unfold decodeFixed
  rw [if_neg (by omega)]
  refine FailsOn.bind (Reads.withSlice (Nat.zero_le _) ho
    (reads_verbatim h0 h32 warm hv _ (slice_head ho))) ?_
  simp only [List.take_zero, List.nil_append]
  have hlen : (warm.map (BitVec.ofInt 32) ++ buffer.drop warm.length).length = buffer.length := by
    simp; omega
  rw [hlen, Nat.mod_eq_of_lt hbs]
  refine FailsOn.bind_left _ (FailsOn.withSlice ho (by omega)
    (failsOn_residual r hbs ho hres _ (by simp; omega) hx))

theorem shift5_int {shift : Int} (hs : FitsIn 5 shift) :
    extendSignU16 (BitVec.ofNat 16 (shift % (2 ^ 5 : Int)).toNat) 5 =
      .ok (BitVec.ofInt 16 shift) ∧ (BitVec.ofInt 16 shift).toInt = shift := by
  constructor
  · rw [extendSignU16_ok (by omega) (by omega), signExt_field (by omega) (by omega) hs]
  · exact toInt_ofInt_fits (FitsIn.mono hs (by omega))

theorem failsOn_lpc {bps : Nat} (h0 : 0 < bps) (h32 : bps ≤ 32) (warm : List Int) (prec : Nat) (shift : Int)
    (coefs : List Int) (r : Full.Residual) (buffer : List I32) (hbs : buffer.length < 2 ^ 16)
    (hw : (Full.Coding.lpc warm prec shift coefs r).WellFormed bps buffer.length)
    {x : Feature} {xs : List Feature}
    (hx : (Full.Coding.lpc warm prec shift coefs r).features = x :: xs) :
    FailsOn (decodeLpc bps warm.length buffer) ((Full.Coding.lpc warm prec shift coefs r).bits bps)
      (Unimplemented x) := by
  obtain ⟨h1, hw32, hv, hp1, hp15, hs15, hclen, hc, hres⟩ := hw
  have ho := Full.Residual.order_le hres
  unfold decodeLpc
  refine FailsOn.bind_lift (debugAssert_ok (decide_eq_true hw32)) ?_
  rw [if_neg (by omega), Full.Coding.bits]
  simp only [List.append_assoc]
  refine FailsOn.bind (Reads.withSlice (Nat.zero_le _) ho
    (reads_verbatim h0 h32 warm hv _ (slice_head ho))) ?_
  simp only [List.take_zero, List.nil_append]
  have hlen : (warm.map (BitVec.ofInt 32) ++ buffer.drop warm.length).length = buffer.length := by
    simp; omega
  rw [hlen, Nat.mod_eq_of_lt hbs]
  refine FailsOn.bind (reads_readLeqU8 (k := 4) (by omega) (show prec - 1 < 2 ^ 4 by omega)) ?_
  simp only [toNat_ofNat8 (show prec - 1 < 256 by omega)]
  rw [if_neg (by omega)]
  refine FailsOn.bind (reads_readLeqU16 (by omega) (emod_toNat_lt shift 5)) ?_
  refine FailsOn.bind_lift (shift5_int hs15).1 ?_
  rw [(shift5_int hs15).2]
  simp only [Full.Coding.features] at hx
  by_cases hneg : shift < 0
  · rw [if_pos hneg, List.singleton_append, List.cons.injEq] at hx
    rw [if_pos hneg, ← hx.1]
    exact (FailsOn.fail _).weaken _
  rw [if_neg hneg, List.nil_append] at hx
  rw [if_neg hneg, show prec - 1 + 1 = prec by omega, ← hclen]
  refine FailsOn.bind (reads_readCoefficients (by omega) (by omega) coefs (List.replicate 32 0#16) hc
    (by simp; omega)) ?_
  rw [hclen]
  exact FailsOn.bind_left _ (FailsOn.withSlice ho (by omega)
    (failsOn_residual r hbs ho hres _ (by simp; omega) hx))

/-- The model's type of a coding. -/
def fullTypeOf : Full.Coding → SubframeType
  | .constant _ => .constant
  | .verbatim _ => .verbatim
  | .fixed warm _ => .fixed warm.length
  | .lpc warm _ _ _ _ => .lpc warm.length

theorem plain_residual (n : Nat) : (⟨.rice, 0, [⟨0, []⟩]⟩ : Residual).WellFormed n n where
  partitionOrder := by simp
  divides := by simp [Nat.mod_one]
  first := by simp
  params := by simp
  sizes := by simp [partitionSizes]
  quotients := by simp

theorem full_typeCode (c : Full.Coding) {bps bs : Nat} (hw : c.WellFormed bps bs) :
    c.typeCode < 2 ^ 6 ∧
    (subframeTypeOf (BitVec.ofNat 8 c.typeCode) : Dec (Bitstream Flat) SubframeType) =
      pure (fullTypeOf c) := by
  have hz : ∀ n, ∀ v ∈ List.replicate n (0 : Int), FitsIn 1 v := by
    intro n v hv
    rw [List.eq_of_mem_replicate hv]
    decide
  cases c with
  | constant v => exact ⟨by simp [Full.Coding.typeCode], rfl⟩
  | verbatim vs => exact ⟨by simp [Full.Coding.typeCode], rfl⟩
  | fixed warm r =>
    have := reads_typeCode (.fixed (List.replicate warm.length 0) ⟨.rice, 0, [⟨0, []⟩]⟩)
      (bps := 1) (bs := warm.length) ⟨by simpa using hw.1, hz _, by simpa using plain_residual _⟩
    simpa [Coding.typeCode, typeOf, Full.Coding.typeCode, fullTypeOf] using this
  | lpc warm p s cs r =>
    have := reads_typeCode (.lpc (List.replicate warm.length 0) 1 0 (List.replicate warm.length 0)
      ⟨.rice, 0, [⟨0, []⟩]⟩) (bps := 1) (bs := warm.length)
      ⟨by simpa using hw.1, by simpa using hw.2.1, hz _, by omega, by omega, by omega, by simp, hz _,
        by simpa using plain_residual _⟩
    simpa [Coding.typeCode, typeOf, Full.Coding.typeCode, fullTypeOf] using this

theorem failsOn_body (c : Full.Coding) {bps : Nat} (h0 : 0 < bps) (h32 : bps ≤ 32) (buffer : List I32)
    (hbs : buffer.length < 2 ^ 16) (hw : c.WellFormed bps buffer.length)
    {x : Feature} {xs : List Feature} (hx : c.features = x :: xs) :
    FailsOn (decodeBody (fullTypeOf c) bps buffer) (c.bits bps) (Unimplemented x) := by
  cases c with
  | constant v => simp [Full.Coding.features] at hx
  | verbatim vs => simp [Full.Coding.features] at hx
  | fixed warm r => exact failsOn_fixed h0 h32 warm r buffer hbs hw hx
  | lpc warm p s cs r => exact failsOn_lpc h0 h32 warm p s cs r buffer hbs hw hx

theorem failsOn_fullSubframe {bps : Nat} (h32 : bps ≤ 32) (s : Full.Subframe) (buffer : List I32)
    (hbs : buffer.length < 2 ^ 16) (hw : s.WellFormed bps buffer.length)
    {x : Feature} {xs : List Feature} (hx : s.coding.features = x :: xs) :
    FailsOn (decodeSubframe bps buffer) (s.bits bps) (Unimplemented x) := by
  obtain ⟨hwaste, hcod⟩ := hw
  unfold decodeSubframe
  refine FailsOn.bind_lift (debugAssert_ok (decide_eq_true h32)) ?_
  have hhead : Reads readSubframeHeader
      (false :: natToBits 6 s.coding.typeCode ++ wastedBits s.wasted)
      ⟨fullTypeOf s.coding, s.wasted⟩ := by
    rw [readSubframeHeader_eq]
    show Reads _ ([false] ++ natToBits 6 s.coding.typeCode ++ wastedBits s.wasted) _
    rw [List.append_assoc]
    apply (reads_readBit false).bind
    simp only [Bool.false_eq_true, if_false]
    obtain ⟨h6, htype⟩ := full_typeCode s.coding hcod
    apply (reads_readLeqU8 (k := 6) (by omega) h6).bind
    rw [htype, pure_bind]
    apply (reads_wasted (show s.wasted ≤ 31 by omega)).bind_nil
    rw [if_neg (by omega)]
    exact Reads.pure _
  refine FailsOn.bind hhead ?_
  simp only
  rw [if_neg (by omega)]
  have hbody := failsOn_body s.coding (show 0 < bps - s.wasted by omega) (by omega) buffer hbs hcod hx
  exact FailsOn.bind_left _ hbody

/-! ### What needs no feature -/

theorem partition_plain {m : RiceMethod} {p : Full.Partition} (h : p.features = []) (hw : p.WellFormed m) :
    ∃ q : Partition, p = .rice q ∧ q.param ≤ m.maxParam ∧ ∀ v ∈ q.values, fold v / 2 ^ q.param < 2 ^ 32 := by
  cases p with
  | rice q => exact ⟨q, rfl, hw⟩
  | unencoded w vs => simp [Full.Partition.features] at h

theorem partitions_plain {m : RiceMethod} (ps : List Full.Partition)
    (h : ps.flatMap Full.Partition.features = []) (hw : ∀ p ∈ ps, p.WellFormed m) :
    ∃ qs : List Partition, ps = qs.map .rice ∧
      ∀ q ∈ qs, q.param ≤ m.maxParam ∧ ∀ v ∈ q.values, fold v / 2 ^ q.param < 2 ^ 32 := by
  induction ps with
  | nil => exact ⟨[], rfl, by simp⟩
  | cons p ps ih =>
    rw [List.flatMap_cons, List.append_eq_nil_iff] at h
    obtain ⟨qs, rfl, hqs⟩ := ih h.2 (fun p hp => hw p (by simp [hp]))
    obtain ⟨q, rfl, hq⟩ := partition_plain h.1 (hw p (by simp))
    refine ⟨q :: qs, rfl, ?_⟩
    intro q' hq'
    rcases List.mem_cons.1 hq' with rfl | hq'
    · exact hq
    · exact hqs q' hq'

theorem residual_plain {r : Full.Residual} {bs order : Nat} (h : r.features = []) (hw : r.WellFormed bs order) :
    ∃ q : Residual, r = q.full ∧ q.WellFormed bs order := by
  obtain ⟨m, po, ps⟩ := r
  obtain ⟨h1, h2, h3, h4, h5⟩ := hw
  obtain ⟨qs, rfl, hqs⟩ := partitions_plain ps h h4
  refine ⟨⟨m, po, qs⟩, rfl, h1, h2, h3, fun p hp => (hqs p hp).1, ?_, fun p hp => (hqs p hp).2⟩
  simp only [List.map_map] at h5
  exact h5

theorem coding_plain {c : Full.Coding} {bps bs : Nat} (h : c.features = []) (hw : c.WellFormed bps bs) :
    ∃ q : Coding, c = q.full ∧ q.WellFormed bps bs := by
  cases c with
  | constant v => exact ⟨.constant v, rfl, hw⟩
  | verbatim vs => exact ⟨.verbatim vs, rfl, hw⟩
  | fixed warm r =>
    obtain ⟨q, rfl, hq⟩ := residual_plain h hw.2.2
    exact ⟨.fixed warm q, rfl, hw.1, hw.2.1, hq⟩
  | lpc warm p s cs r =>
    simp only [Full.Coding.features, List.append_eq_nil_iff] at h
    obtain ⟨h1, hw32, hv, hp1, hp15, hs15, hclen, hc, hres⟩ := hw
    obtain ⟨q, rfl, hq⟩ := residual_plain h.2 hres
    have hs : ¬ s < 0 := by
      intro hneg
      rw [if_pos hneg] at h
      simp at h
    obtain ⟨n, rfl⟩ : ∃ n : Nat, s = n := ⟨s.toNat, by omega⟩
    have := hs15.2.1
    norm_num at this
    exact ⟨.lpc warm p n cs q, rfl, h1, hw32, hv, hp1, hp15, by omega, hclen, hc, hq⟩

theorem subframe_plain {s : Full.Subframe} {bps bs : Nat} (h : s.coding.features = [])
    (hw : s.WellFormed bps bs) : ∃ q : Subframe, s = q.full ∧ q.WellFormed bps bs := by
  obtain ⟨c, w⟩ := s
  obtain ⟨q, rfl, hq⟩ := coding_plain h hw.2
  exact ⟨⟨q, w⟩, rfl, hw.1, hq⟩

theorem residual_full_bits (r : Residual) : r.full.bits = r.bits := by
  simp only [Full.Residual.bits, Residual.full, Residual.bits, List.flatMap_map]
  rfl

theorem coding_full_bits (bps : Nat) (c : Coding) : c.full.bits bps = c.bits bps := by
  cases c <;> simp only [Coding.full, Full.Coding.bits, Coding.bits, residual_full_bits]

theorem subframe_full_bits (bps : Nat) (s : Subframe) : s.full.bits bps = s.bits bps := by
  have : s.coding.full.typeCode = s.coding.typeCode := by cases s.coding <;> rfl
  simp only [Full.Subframe.bits, Subframe.full, Subframe.bits, coding_full_bits, this]

theorem frame_full_bodyBits (bps : Nat) (f : Frame) : f.full.bodyBits bps = f.bodyBits bps := by
  simp only [Full.Frame.bodyBits, Frame.full, Frame.bodyBits, List.zipWith_map_right]
  congr 3
  funext d s
  exact subframe_full_bits d s

theorem frame_full_bytes (bps : Nat) (f : Frame) : f.full.bytes bps = f.bytes bps := by
  simp only [Full.Frame.bytes, Full.Frame.contentBytes, Frame.bytes, Frame.contentBytes,
    frame_full_bodyBits]
  rfl

theorem subframes_plain (ds : List Nat) (ss : List Full.Subframe) {bs : Nat} (hl : ss.length ≤ ds.length)
    (h : (ss.flatMap fun s => s.coding.features) = []) (hw : ∀ p ∈ List.zip ds ss, p.2.WellFormed p.1 bs) :
    ∃ qs : List Subframe, ss = qs.map Subframe.full ∧ ∀ p ∈ List.zip ds qs, p.2.WellFormed p.1 bs := by
  induction ss generalizing ds with
  | nil => exact ⟨[], rfl, by simp⟩
  | cons s ss ih =>
    cases ds with
    | nil => simp at hl
    | cons d ds =>
      rw [List.flatMap_cons, List.append_eq_nil_iff] at h
      simp only [List.zip_cons_cons, List.mem_cons, forall_eq_or_imp] at hw
      obtain ⟨qs, rfl, hqs⟩ := ih ds (by simpa using hl) h.2 hw.2
      obtain ⟨q, rfl, hq⟩ := subframe_plain h.1 hw.1
      refine ⟨q :: qs, rfl, ?_⟩
      simp only [List.zip_cons_cons, List.mem_cons, forall_eq_or_imp]
      exact ⟨hq, hqs⟩

theorem frame_plain {f : Full.Frame} {bps : Nat} (h : f.features = []) (hw : f.WellFormed bps) :
    ∃ g : Frame, f = g.full ∧ g.WellFormed bps := by
  rw [Full.Frame.features, List.append_eq_nil_iff] at h
  obtain ⟨hdr, ss, pad⟩ := f
  obtain ⟨h1, h2, h3, h4, h5, h6⟩ := hw
  simp only at h h1 h2 h3 h4 h5
  have hl : (hdr.channels.depths bps).length = hdr.channels.count := by
    cases hdr.channels <;> simp [ChannelField.depths, ChannelField.count]
  obtain ⟨qs, rfl, hqs⟩ := subframes_plain _ ss (by omega) h.2 h4
  have hs : hdr.sampleSize ≠ .streaminfo := by
    intro hs
    rw [if_pos hs] at h
    simp at h
  refine ⟨⟨hdr, qs, pad⟩, rfl, h1, h2.resolve_right hs, by simpa using h3, hqs, h5, ?_⟩
  rw [← frame_full_bodyBits]
  exact h6

/-! ### Frames -/

/-- A subframe that cannot be decoded, whatever is in the buffer. -/
def BadSubframe (bps bs : Nat) (bits : List Bool) (e : Fail) (exact : Bool := false) : Prop :=
  ∀ buffer : List I32, buffer.length = bs → FailsOn (decodeSubframe bps buffer) bits e exact

theorem failsOn_slice {bps bs : Nat} {bad : List Bool} {e : Fail} {x : Bool} {pre mid post : List I32}
    (hm : mid.length = bs) (hbad : BadSubframe bps bs bad e x)
    {a b : Nat} (ha : a = pre.length) (hb : b = pre.length + bs) :
    FailsOn (withSlice (pre ++ mid ++ post) a b (decodeSubframe bps)) bad e x := by
  have e2 : ((pre ++ mid ++ post).take b).drop a = mid := by
    have e1 : (pre ++ mid ++ post).take b = pre ++ mid := by
      rw [hb, ← hm, ← List.length_append, List.take_left]
    rw [e1, ha, List.drop_left]
  refine FailsOn.withSlice (by omega) (by simp; omega) ?_
  rw [e2]
  exact hbad mid hm

theorem failsOn_decodeIndependent {bps bs n : Nat} (h32 : bps ≤ 32) (hbs : bs < 2 ^ 16) {bad : List Bool}
    {e : Fail} {x : Bool} (hbad : BadSubframe bps bs bad e x) (good : List Subframe) :
    ∀ (ch : Nat) (pre rest : List I32),
    pre.length = ch * bs → rest.length = (good.length + (n + 1)) * bs → (∀ s ∈ good, s.WellFormed bps bs) →
    FailsOn (decodeIndependent bps bs (good.length + (n + 1)) ch (pre ++ rest))
      (good.flatMap (Subframe.bits bps) ++ bad) e x := by
  induction good with
  | nil =>
    intro ch pre rest h1 h2 _
    rw [List.length_nil, Nat.zero_add, Nat.add_mul, Nat.one_mul] at h2
    have hr := failsOn_slice (pre := pre) (mid := rest.take bs) (post := rest.drop bs)
      (by rw [List.length_take]; omega) hbad (a := ch * bs) (b := (ch + 1) * bs)
      h1.symm (by rw [h1]; ring)
    rw [List.append_assoc, List.take_append_drop] at hr
    rw [List.length_nil, Nat.zero_add]
    exact FailsOn.bind_left _ hr
  | cons s good ih =>
    intro ch pre rest h1 h2 hs
    rw [List.length_cons, Nat.add_right_comm, Nat.add_mul, Nat.one_mul] at h2
    have hr := reads_slice h32 hbs (pre := pre) (mid := rest.take bs) (post := rest.drop bs)
      (by rw [List.length_take]; omega) (hs s (by simp)) (a := ch * bs) (b := (ch + 1) * bs)
      h1.symm (by rw [h1]; ring)
    rw [List.append_assoc, List.take_append_drop] at hr
    rw [List.length_cons, Nat.add_right_comm, List.flatMap_cons, List.append_assoc]
    refine FailsOn.bind hr (ih (ch + 1) (pre ++ subSamples bs s) (rest.drop bs) ?_ ?_ ?_)
    · rw [List.length_append, subSamples, length_toI32, length_samplesWith _ (hs s (by simp)), h1]
      ring
    · rw [List.length_drop]; omega
    · intro t ht; exact hs t (by simp [ht])

section
variable {bs d1 d2 : Nat} (hbs : bs < 2 ^ 16) (g : List I32 → List I32) {buffer : List I32}
  (hb : buffer.length = 2 * bs) {bad : List Bool} {e : Fail} {x : Bool}

include hb in
theorem failsOn_pair_left (h1 : BadSubframe d1 bs bad e x) :
    FailsOn (do
      let buffer ← withSlice buffer 0 bs (decodeSubframe d1)
      let buffer ← withSlice buffer bs (bs * 2) (decodeSubframe d2)
      withSlice buffer 0 (bs * 2) fun b => pure (g b)) bad e x := by
  have r1 := failsOn_slice (pre := []) (mid := buffer.take bs) (post := buffer.drop bs)
    (by rw [List.length_take]; omega) h1 (a := 0) (b := bs) rfl (by simp)
  rw [List.nil_append, List.take_append_drop] at r1
  exact FailsOn.bind_left _ r1

include hbs hb in
theorem failsOn_pair_right (h32 : d1 ≤ 32) {s : Subframe} (hs : s.WellFormed d1 bs)
    (h2 : BadSubframe d2 bs bad e x) :
    FailsOn (do
      let buffer ← withSlice buffer 0 bs (decodeSubframe d1)
      let buffer ← withSlice buffer bs (bs * 2) (decodeSubframe d2)
      withSlice buffer 0 (bs * 2) fun b => pure (g b)) (s.bits d1 ++ bad) e x := by
  have ls : (subSamples bs s).length = bs := by
    rw [subSamples, length_toI32, length_samplesWith _ hs]
  have r1 := reads_slice h32 hbs (pre := []) (mid := buffer.take bs) (post := buffer.drop bs)
    (by rw [List.length_take]; omega) hs (a := 0) (b := bs) rfl (by simp)
  rw [List.nil_append, List.take_append_drop] at r1
  simp only [List.nil_append] at r1
  have r2 := failsOn_slice (pre := subSamples bs s) (mid := buffer.drop bs) (post := [])
    (by rw [List.length_drop]; omega) h2 (a := bs) (b := bs * 2) (by omega) (by omega)
  simp only [List.append_nil] at r2
  exact FailsOn.bind r1 (FailsOn.bind_left _ r2)

end

theorem zipWith_replicate_left {α β : Type} (f : Nat → α → β) (bps : Nat) (subs : List α) {n : Nat}
    (h : subs.length ≤ n) : List.zipWith f (List.replicate n bps) subs = subs.map (f bps) := by
  induction subs generalizing n with
  | nil => simp
  | cons s subs ih =>
    cases n with
    | zero => simp at h
    | succ n => simp [List.replicate_succ, ih (by simpa using h)]

theorem forall_zip_replicate {α : Type} {n bps : Nat} {subs : List α} (h : subs.length ≤ n)
    {P : Nat → α → Prop} (hP : ∀ p ∈ List.zip (List.replicate n bps) subs, P p.1 p.2) :
    ∀ s ∈ subs, P bps s := by
  induction subs generalizing n with
  | nil => simp
  | cons s subs ih =>
    cases n with
    | zero => simp at h
    | succ n =>
      simp only [List.replicate_succ, List.zip_cons_cons, List.mem_cons, forall_eq_or_imp] at hP ⊢
      exact ⟨hP.1, ih (by simpa using h) hP.2⟩

/-- The channels of a frame, up to a subframe that cannot be decoded. -/
theorem failsOn_decodeChannels (ch : ChannelField) {bps bs d : Nat} (hbps : bps ≤ 31) (hbs : bs < 2 ^ 16)
    {buffer : List I32} (hb : buffer.length = ch.count * bs) {good : List Subframe}
    (hs : ∀ p ∈ List.zip (ch.depths bps) good, p.2.WellFormed p.1 bs)
    (hd : (ch.depths bps)[good.length]? = some d) {bad : List Bool} {e : Fail} {x : Bool} (hbad : BadSubframe d bs bad e x) :
    FailsOn (decodeChannels (caOf ch) bps bs buffer)
      ((List.zipWith Subframe.bits (ch.depths bps) good).flatten ++ bad) e x := by
  cases ch with
  | independent n =>
    have hlt : good.length < n.val + 1 := by
      have := (List.getElem?_eq_some_iff.1 hd).1
      simpa [ChannelField.depths] using this
    have hdd : d = bps := by
      simp only [ChannelField.depths] at hd
      rw [List.getElem?_replicate, if_pos hlt] at hd
      exact (Option.some.inj hd).symm
    subst hdd
    obtain ⟨k, hk⟩ : ∃ k, n.val + 1 = good.length + (k + 1) := ⟨n.val - good.length, by omega⟩
    have h2 := failsOn_decodeIndependent (n := k) (by omega) hbs hbad good 0 [] buffer
      (by simp) (by rw [hb, ← hk]; rfl)
      (forall_zip_replicate (by omega) (P := fun d s => Subframe.WellFormed d bs s) hs)
    rw [← hk, List.nil_append] at h2
    simp only [ChannelField.depths]
    rw [zipWith_replicate_left _ _ _ (by omega), ← List.flatMap_def]
    exact h2
  | leftSide =>
    match good, hs, hd with
    | [], _, hd => cases hd; exact failsOn_pair_left decodeLeftSide hb hbad
    | [s], hs, hd =>
      cases hd
      have hs1 := hs (bps, s) (by simp [ChannelField.depths])
      refine cast ?_ (failsOn_pair_right hbs decodeLeftSide hb (by omega) hs1 hbad)
      simp [ChannelField.depths]
      rfl
  | rightSide =>
    match good, hs, hd with
    | [], _, hd => cases hd; exact failsOn_pair_left decodeRightSide hb hbad
    | [s], hs, hd =>
      cases hd
      have hs1 := hs (bps + 1, s) (by simp [ChannelField.depths])
      refine cast ?_ (failsOn_pair_right hbs decodeRightSide hb (by omega) hs1 hbad)
      simp [ChannelField.depths]
      rfl
  | midSide =>
    match good, hs, hd with
    | [], _, hd => cases hd; exact failsOn_pair_left decodeMidSide hb hbad
    | [s], hs, hd =>
      cases hd
      have hs1 := hs (bps, s) (by simp [ChannelField.depths])
      refine cast ?_ (failsOn_pair_right hbs decodeMidSide hb (by omega) hs1 hbad)
      simp [ChannelField.depths]
      rfl

/-- A frame, up to a subframe that cannot be decoded. -/
theorem badFrame_run {bps d : Nat} {hdr : Spec.FrameHeader} (hhead : hdr.WellFormed)
    (hss : hdr.sampleSize.bits = some bps) {good : List Subframe}
    (hs : ∀ p ∈ List.zip (hdr.channels.depths bps) good, p.2.WellFormed p.1 hdr.blockSize.size)
    (hd : (hdr.channels.depths bps)[good.length]? = some d) {bad more : List Bool} {e : Fail}
    {x : Bool} (hbad : BadSubframe d hdr.blockSize.size bad e x) {body : List U8}
    (hbody : bytesToBits body =
      (List.zipWith Subframe.bits (hdr.channels.depths bps) good).flatten ++ bad ++ more)
    (buffer : VecI32) (fault : Option Nat) :
    ∃ b : Bitstream Flat, readNextOrEof buffer (⟨hdr.bytes ++ body, fault⟩ : Flat) = (.error e, b.reader) ∧
      (x = true → b.Inv ∧ b.bits = more ∧ b.reader.fault = fault) := by
  rw [readNextOrEof_flat]
  have hh := reads_header hdr hhead body fault
  rw [readFrameHeaderOrEof_flat] at hh
  rw [Dec.bind_ok _ hh]
  simp only [flatBody]
  rw [show (headerOf hdr).bitsPerSample = some bps by simp [headerOf, hss]]
  simp only
  have hb24 : bps ≤ 24 := (bits_bounds hss).2
  rw [Dec.bind_liftM_of (debugAssert_ok (decide_eq_true (by omega)))]
  have hf := failsOn_decodeChannels hdr.channels (bps := bps) (bs := hdr.blockSize.size)
    (buffer := (ensureBufferLen buffer (hdr.channels.count * hdr.blockSize.size)).data)
    (by omega) (by have := (size_bounds hdr.blockSize).2; omega)
    (length_ensureBufferLen _ _) hs hd hbad
  obtain ⟨b', hb', hx⟩ := hf (Bitstream.new ⟨body, fault⟩) more (Bitstream.inv_new _) (by
      rw [Bitstream.bits_new, hbody])
  rw [channels_headerOf]
  have hw : withBitstream (decodeChannels (headerOf hdr).channelAssignment bps
      (headerOf hdr).blockSize (ensureBufferLen buffer
        (hdr.channels.count * (headerOf hdr).blockSize)).data) ⟨body, fault⟩ = (.error e, b'.reader) := by
    simp only [withBitstream]
    rw [show decodeChannels (headerOf hdr).channelAssignment bps (headerOf hdr).blockSize
      (ensureBufferLen buffer (hdr.channels.count * (headerOf hdr).blockSize)).data =
      decodeChannels (caOf hdr.channels) bps hdr.blockSize.size
        (ensureBufferLen buffer (hdr.channels.count * hdr.blockSize.size)).data from rfl, hb']
  exact ⟨b', Dec.bind_error _ hw, hx⟩

theorem failsOn_badFrame {bps d : Nat} {hdr : Spec.FrameHeader} (hhead : hdr.WellFormed)
    (hss : hdr.sampleSize.bits = some bps) {good : List Subframe}
    (hs : ∀ p ∈ List.zip (hdr.channels.depths bps) good, p.2.WellFormed p.1 hdr.blockSize.size)
    (hd : (hdr.channels.depths bps)[good.length]? = some d) {bad more : List Bool} {e : Fail}
    (hbad : BadSubframe d hdr.blockSize.size bad e) {body : List U8}
    (hbody : bytesToBits body =
      (List.zipWith Subframe.bits (hdr.channels.depths bps) good).flatten ++ bad ++ more)
    (buffer : VecI32) (fault : Option Nat) :
    (readNextOrEof buffer (⟨hdr.bytes ++ body, fault⟩ : Flat)).1 = .error e := by
  obtain ⟨b, h, -⟩ := badFrame_run hhead hss hs hd hbad hbody buffer fault
  rw [h]

/-- The first subframe that needs a feature. -/
theorem split_features {x : Feature} {xs : List Feature} (ds : List Nat) (ss : List Full.Subframe) {bs : Nat}
    (hl : ss.length ≤ ds.length) (h : (ss.flatMap fun s => s.coding.features) = x :: xs)
    (hw : ∀ p ∈ List.zip ds ss, p.2.WellFormed p.1 bs) :
    ∃ (good : List Subframe) (s : Full.Subframe) (ys : List Feature) (d : Nat) (more : List Bool),
      (∀ p ∈ List.zip ds good, p.2.WellFormed p.1 bs) ∧ ds[good.length]? = some d ∧ s.WellFormed d bs ∧
      s.coding.features = x :: ys ∧
      (List.zipWith Full.Subframe.bits ds ss).flatten =
        (List.zipWith Subframe.bits ds good).flatten ++ s.bits d ++ more := by
  induction ss generalizing ds with
  | nil => simp at h
  | cons s ss ih =>
    cases ds with
    | nil => simp at hl
    | cons d ds =>
      rw [List.flatMap_cons] at h
      simp only [List.zip_cons_cons, List.mem_cons, forall_eq_or_imp] at hw
      rcases hf : s.coding.features with _ | ⟨y, ys⟩
      · rw [hf, List.nil_append] at h
        obtain ⟨q, rfl, hq⟩ := subframe_plain hf hw.1
        obtain ⟨good, s', ys, d', more, h1, h2, h3, h4, h5⟩ := ih ds (by simpa using hl) h hw.2
        refine ⟨q :: good, s', ys, d', more, ?_, by simpa using h2, h3, h4, ?_⟩
        · simp only [List.zip_cons_cons, List.mem_cons, forall_eq_or_imp]
          exact ⟨hq, h1⟩
        · simp only [List.zipWith_cons_cons, List.flatten_cons, h5, subframe_full_bits, List.append_assoc]
      · rw [hf, List.cons_append, List.cons.injEq] at h
        obtain ⟨rfl, -⟩ := h
        refine ⟨[], s, ys, d, (List.zipWith Full.Subframe.bits ds ss).flatten, by simp, rfl, hw.1, hf, ?_⟩
        simp

theorem failsOn_frame {bps : Nat} {f : Full.Frame} (hw : f.WellFormed bps) {x : Feature} {xs : List Feature}
    (hx : f.features = x :: xs) (buffer : VecI32) (rest : List U8) (fault : Option Nat) :
    (readNextOrEof buffer (⟨f.bytes bps ++ rest, fault⟩ : Flat)).1 = .error (Unimplemented x) := by
  obtain ⟨hhead, hss, hcount, hsub, hpad, hal⟩ := hw
  have hbytes : f.bytes bps ++ rest = f.header.bytes ++
      (bitsToBytes (f.bodyBits bps) ++ (beBytes 2 (crc16 (f.contentBytes bps)).toNat ++ rest)) := by
    simp [Full.Frame.bytes, Full.Frame.contentBytes]
  rw [hbytes]
  generalize beBytes 2 (crc16 (f.contentBytes bps)).toNat ++ rest = rest'
  by_cases hdef : f.header.sampleSize = .streaminfo
  · rw [readNextOrEof_flat]
    have hh := reads_header f.header hhead (bitsToBytes (f.bodyBits bps) ++ rest') fault
    rw [readFrameHeaderOrEof_flat] at hh
    rw [Dec.bind_ok _ hh]
    simp only [flatBody]
    rw [Full.Frame.features, if_pos hdef, List.singleton_append, List.cons.injEq] at hx
    rw [show (headerOf f.header).bitsPerSample = none by simp [headerOf, hdef, SampleSizeField.bits], ← hx.1]
    rfl
  · have hss := hss.resolve_right hdef
    rw [Full.Frame.features, if_neg hdef, List.nil_append] at hx
    have hl : (f.header.channels.depths bps).length = f.header.channels.count := by
      cases f.header.channels <;> simp [ChannelField.depths, ChannelField.count]
    obtain ⟨good, s, ys, d, more, h1, h2, h3, h4, h5⟩ := split_features _ f.subframes (by omega) hx hsub
    have hd : d ≤ 32 := by
      have := (bits_bounds hss).2
      have hm := List.mem_of_getElem? h2
      cases hch : f.header.channels <;> simp [hch, ChannelField.depths] at hm <;> omega
    have hbs := (size_bounds f.header.blockSize).2
    refine failsOn_badFrame hhead hss h1 h2 (bad := s.bits d) (more := more ++ f.padding ++ bytesToBits rest') ?_ ?_
      buffer fault
    · intro buf hbuf
      exact failsOn_fullSubframe hd s buf (by omega) (by rw [hbuf]; exact h3) h4
    · rw [bytesToBits_append, bytesToBits_bitsToBytes ((f.bodyBits bps).length / 8) _ (by omega),
        Full.Frame.bodyBits, h5]
      simp only [List.append_assoc]

end Claxon
