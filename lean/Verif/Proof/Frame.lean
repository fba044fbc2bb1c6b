import Verif.Proof.Header
import Verif.Spec.Checksums
import Verif.Proof.Stereo
import Verif.Proof.Subframe

/-! Frames. -/

namespace Claxon

open Spec ReadBytes

/-! ### Channels -/

theorem length_samplesWith (A : Arith) {bps bs : Nat} {s : Subframe} (h : s.WellFormed bps bs) :
    (s.samplesWith A bs).length = bs := by
  obtain ⟨_, hc⟩ := h
  unfold Subframe.samplesWith
  rw [List.length_map]
  rcases s with ⟨c, k⟩
  simp only at hc ⊢
  cases c with
  | constant v => simp [Coding.samplesWith]
  | verbatim vs => exact hc.1
  | fixed warm r =>
    have h1 := Residual.WellFormed.length hc.2.2
    have h2 := Residual.WellFormed.order_le hc.2.2
    simp only [Coding.samplesWith, List.length_append, length_reconstruct, h1]
    omega
  | lpc warm p sh cs r =>
    have hr := hc.2.2.2.2.2.2.2.2
    have h1 := Residual.WellFormed.length hr
    have h2 := Residual.WellFormed.order_le hr
    simp only [Coding.samplesWith, List.length_append, length_reconstruct, h1]
    omega

/-- The samples of a subframe, as in the buffer. -/
def subSamples (bs : Nat) (s : Subframe) : List I32 := toI32 (s.samplesWith .wrap32 bs)

section

variable {bps bs : Nat} (h32 : bps ≤ 32) (hbs : bs < 2 ^ 16)

include h32 hbs

/-- Decoding a subframe into a slice. -/
theorem reads_slice {pre mid post : List I32} (hm : mid.length = bs) {s : Subframe} (hs : s.WellFormed bps bs)
    {a b : Nat} (ha : a = pre.length) (hb : b = pre.length + bs) :
    Reads (withSlice (pre ++ mid ++ post) a b (decodeSubframe bps)) (s.bits bps)
      (pre ++ subSamples bs s ++ post) := by
  have e1 : (pre ++ mid ++ post).take b = pre ++ mid := by
    rw [hb, ← hm, ← List.length_append, List.take_left]
  have e2 : ((pre ++ mid ++ post).take b).drop a = mid := by
    rw [e1, ha, List.drop_left]
  have e3 : (pre ++ mid ++ post).take a = pre := by
    rw [ha, List.append_assoc, List.take_left]
  have e4 : (pre ++ mid ++ post).drop b = post := by
    rw [hb, ← hm, ← List.length_append, List.drop_left]
  have := Reads.withSlice (buffer := pre ++ mid ++ post) (a := a) (b := b) (f := decodeSubframe bps)
    (by omega) (by simp; omega)
    (by rw [e2]; exact reads_subframe h32 s mid (by omega) (by rw [hm]; exact hs))
  rw [e3, e4, hm] at this
  exact this

theorem triple_slice {pre mid post : List I32} (hm : mid.length = bs)
    {a b : Nat} (ha : a = pre.length) (hb : b = pre.length + bs) :
    Triple (withSlice (pre ++ mid ++ post) a b (decodeSubframe bps)) (fun u out => ∃ s : Subframe,
      s.WellFormed bps bs ∧ u = s.bits bps ∧ out = pre ++ subSamples bs s ++ post) := by
  have e1 : (pre ++ mid ++ post).take b = pre ++ mid := by
    rw [hb, ← hm, ← List.length_append, List.take_left]
  have e2 : ((pre ++ mid ++ post).take b).drop a = mid := by
    rw [e1, ha, List.drop_left]
  have e3 : (pre ++ mid ++ post).take a = pre := by
    rw [ha, List.append_assoc, List.take_left]
  have e4 : (pre ++ mid ++ post).drop b = post := by
    rw [hb, ← hm, ← List.length_append, List.drop_left]
  refine Triple.withSlice (buffer := pre ++ mid ++ post) (a := a) (b := b) (f := decodeSubframe bps)
    (by omega) (by simp; omega)
    (by rw [e2]; exact triple_subframe h32 mid (by omega)) ?_
  rintro u out ⟨s, h1, h2, h3⟩
  rw [e3, e4]
  rw [hm] at h1 h3
  exact ⟨s, h1, h2, by rw [h3]; rfl⟩

theorem reads_decodeIndependent (subs : List Subframe) : ∀ (ch : Nat) (pre rest : List I32),
    pre.length = ch * bs → rest.length = subs.length * bs → (∀ s ∈ subs, s.WellFormed bps bs) →
    Reads (decodeIndependent bps bs subs.length ch (pre ++ rest)) (subs.flatMap (Subframe.bits bps))
      (pre ++ subs.flatMap (subSamples bs)) := by
  induction subs with
  | nil =>
    intro ch pre rest _ h2 _
    have : rest = [] := List.length_eq_zero_iff.1 (by simpa using h2)
    subst this
    exact Reads.pure _
  | cons s subs ih =>
    intro ch pre rest h1 h2 hs
    rw [List.length_cons, Nat.add_mul, Nat.one_mul] at h2
    have hr := reads_slice h32 hbs (pre := pre) (mid := rest.take bs) (post := rest.drop bs)
      (by rw [List.length_take]; omega) (hs s (by simp)) (a := ch * bs) (b := (ch + 1) * bs)
      h1.symm (by rw [h1]; ring)
    rw [List.append_assoc, List.take_append_drop] at hr
    show Reads (withSlice _ _ _ _ >>= _) (s.bits bps ++ subs.flatMap _) _
    refine (hr.bind (ih (ch + 1) (pre ++ subSamples bs s) (rest.drop bs) ?_ ?_ ?_)).congr rfl ?_
    · rw [List.length_append, subSamples, length_toI32, length_samplesWith _ (hs s (by simp)), h1]
      ring
    · rw [List.length_drop]; omega
    · intro t ht; exact hs t (by simp [ht])
    · simp [List.append_assoc]

theorem triple_decodeIndependent (n : Nat) : ∀ (ch : Nat) (pre rest : List I32),
    pre.length = ch * bs → rest.length = n * bs →
    Triple (decodeIndependent bps bs n ch (pre ++ rest)) (fun u out => ∃ subs : List Subframe,
      subs.length = n ∧ (∀ s ∈ subs, s.WellFormed bps bs) ∧ u = subs.flatMap (Subframe.bits bps) ∧
      out = pre ++ subs.flatMap (subSamples bs)) := by
  induction n with
  | zero =>
    intro ch pre rest _ h2
    have : rest = [] := List.length_eq_zero_iff.1 (by simpa using h2)
    subst this
    exact Triple.pure ⟨[], rfl, by simp, rfl, rfl⟩
  | succ n ih =>
    intro ch pre rest h1 h2
    rw [Nat.add_mul, Nat.one_mul] at h2
    have hr := triple_slice h32 hbs (pre := pre) (mid := rest.take bs) (post := rest.drop bs)
      (by rw [List.length_take]; omega) (a := ch * bs) (b := (ch + 1) * bs)
      h1.symm (by rw [h1]; ring)
    rw [List.append_assoc, List.take_append_drop] at hr
    show Triple (withSlice _ _ _ _ >>= _) _
    refine hr.bind ?_
    rintro _ _ ⟨s, hs, rfl, rfl⟩
    refine (ih (ch + 1) (pre ++ subSamples bs s) (rest.drop bs) ?_ ?_).mono ?_
    · rw [List.length_append, subSamples, length_toI32, length_samplesWith _ hs, h1]
      ring
    · rw [List.length_drop]; omega
    · rintro _ _ ⟨subs, h3, h4, rfl, rfl⟩
      refine ⟨s :: subs, by simp [h3], ?_, by simp, by simp [List.append_assoc]⟩
      intro t ht
      rcases List.mem_cons.1 ht with rfl | ht
      · exact hs
      · exact h4 t ht

end

section

variable {d1 d2 bs : Nat} (h1 : d1 ≤ 32) (h2 : d2 ≤ 32) (hbs : bs < 2 ^ 16) (g : List I32 → List I32)
  {buffer : List I32} (hb : buffer.length = 2 * bs)

include h1 h2 hbs hb

theorem reads_decodePair {s t : Subframe} (hs : s.WellFormed d1 bs) (ht : t.WellFormed d2 bs) :
    Reads (do
      let buffer ← withSlice buffer 0 bs (decodeSubframe d1)
      let buffer ← withSlice buffer bs (bs * 2) (decodeSubframe d2)
      withSlice buffer 0 (bs * 2) fun b => pure (g b))
      (s.bits d1 ++ t.bits d2) (g (subSamples bs s ++ subSamples bs t)) := by
  have ls : (subSamples bs s).length = bs := by
    rw [subSamples, length_toI32, length_samplesWith _ hs]
  have lt : (subSamples bs t).length = bs := by
    rw [subSamples, length_toI32, length_samplesWith _ ht]
  have r1 := reads_slice h1 hbs (pre := []) (mid := buffer.take bs) (post := buffer.drop bs)
    (by rw [List.length_take]; omega) hs (a := 0) (b := bs) rfl (by simp)
  have r2 := reads_slice h2 hbs (pre := subSamples bs s) (mid := buffer.drop bs) (post := [])
    (by rw [List.length_drop]; omega) ht (a := bs) (b := bs * 2) (by omega) (by omega)
  rw [List.nil_append, List.take_append_drop] at r1
  simp only [List.nil_append] at r1
  simp only [List.append_nil] at r2
  refine r1.bind (cs := t.bits d2) (r2.bind_nil ?_)
  have e : ((subSamples bs s ++ subSamples bs t).take (bs * 2)).drop 0 =
      subSamples bs s ++ subSamples bs t := by
    rw [List.drop_zero, List.take_of_length_le (by simp; omega)]
  have := Reads.withSlice (buffer := subSamples bs s ++ subSamples bs t) (a := 0) (b := bs * 2)
    (f := fun b => Pure.pure (g b)) (by omega) (by simp; omega) (by rw [e]; exact Reads.pure _)
  refine this.congr rfl ?_
  rw [List.drop_of_length_le (by simp; omega)]
  simp

theorem triple_decodePair :
    Triple (do
      let buffer ← withSlice buffer 0 bs (decodeSubframe d1)
      let buffer ← withSlice buffer bs (bs * 2) (decodeSubframe d2)
      withSlice buffer 0 (bs * 2) fun b => pure (g b))
      (fun u out => ∃ s t : Subframe, s.WellFormed d1 bs ∧ t.WellFormed d2 bs ∧
        u = s.bits d1 ++ t.bits d2 ∧ out = g (subSamples bs s ++ subSamples bs t)) := by
  have r1 := triple_slice h1 hbs (pre := []) (mid := buffer.take bs) (post := buffer.drop bs)
    (by rw [List.length_take]; omega) (a := 0) (b := bs) rfl (by simp)
  rw [List.nil_append, List.take_append_drop] at r1
  refine r1.bind ?_
  rintro _ _ ⟨s, hs, rfl, rfl⟩
  have ls : (subSamples bs s).length = bs := by
    rw [subSamples, length_toI32, length_samplesWith _ hs]
  have r2 := triple_slice h2 hbs (pre := subSamples bs s) (mid := buffer.drop bs) (post := [])
    (by rw [List.length_drop]; omega) (a := bs) (b := bs * 2) (by omega) (by omega)
  simp only [List.append_nil] at r2
  simp only [List.nil_append]
  refine r2.bind ?_
  rintro _ _ ⟨t, ht, rfl, rfl⟩
  have lt : (subSamples bs t).length = bs := by
    rw [subSamples, length_toI32, length_samplesWith _ ht]
  have e : ((subSamples bs s ++ subSamples bs t).take (bs * 2)).drop 0 =
      subSamples bs s ++ subSamples bs t := by
    rw [List.drop_zero, List.take_of_length_le (by simp; omega)]
  refine Triple.withSlice (P := fun u out => u = [] ∧ out = g (subSamples bs s ++ subSamples bs t))
    (by omega) (by simp; omega) (by rw [e]; exact Triple.pure ⟨rfl, rfl⟩) ?_
  rintro _ _ ⟨rfl, rfl⟩
  refine ⟨s, t, hs, ht, by simp, ?_⟩
  rw [List.drop_of_length_le (by simp; omega)]
  simp

end

theorem zipWith_replicate (bps : Nat) (subs : List Subframe) {n : Nat} (h : subs.length = n) :
    List.zipWith Subframe.bits (List.replicate n bps) subs = subs.map (Subframe.bits bps) := by
  subst h
  induction subs with
  | nil => rfl
  | cons s subs ih => simp [List.replicate_succ, ih]

theorem flatMap_subSamples (bs : Nat) (subs : List Subframe) :
    subs.flatMap (subSamples bs) = toI32 (subs.map (Subframe.samplesWith .wrap32 bs)).flatten := by
  induction subs with
  | nil => rfl
  | cons s subs ih =>
    rw [List.flatMap_cons, ih, List.map_cons, List.flatten_cons, toI32_append]
    rfl

theorem mem_zip_replicate {n bps : Nat} {subs : List Subframe} (h : subs.length = n)
    {P : Nat → Subframe → Prop} :
    (∀ p ∈ List.zip (List.replicate n bps) subs, P p.1 p.2) ↔ ∀ s ∈ subs, P bps s := by
  subst h
  induction subs with
  | nil => simp
  | cons s subs ih =>
    simp only [List.length_cons, List.replicate_succ, List.zip_cons_cons, List.mem_cons,
      forall_eq_or_imp, ih]

theorem reads_decodeChannels (ch : ChannelField) {bps bs : Nat} (hbps : bps ≤ 31) (hbs : bs < 2 ^ 16)
    {buffer : List I32} (hb : buffer.length = ch.count * bs) {subs : List Subframe}
    (hc : subs.length = ch.count)
    (hs : ∀ p ∈ List.zip (ch.depths bps) subs, p.2.WellFormed p.1 bs) :
    Reads (decodeChannels (caOf ch) bps bs buffer)
      (List.zipWith Subframe.bits (ch.depths bps) subs).flatten
      (toI32 (ch.decorrelate Arith.wrap32.wrap (subs.map (Subframe.samplesWith .wrap32 bs))).flatten) := by
  cases ch with
  | independent n =>
    have h1 : subs.length = n.val + 1 := hc
    have h2 := reads_decodeIndependent (bps := bps) (bs := bs) (by omega) hbs subs 0 [] buffer
      (by simp) (by rw [hb, hc]) ((mem_zip_replicate h1 (P := fun d s => Subframe.WellFormed d bs s)).1 hs)
    rw [h1, List.nil_append, List.nil_append, flatMap_subSamples] at h2
    refine h2.congr ?_ rfl
    simp only [ChannelField.depths]
    rw [zipWith_replicate _ _ h1, List.flatMap_def]
  | leftSide =>
    match subs, hc, hs with
    | [s, t], _, hs =>
      have hs1 := hs (bps, s) (by simp [ChannelField.depths])
      have hs2 := hs (bps + 1, t) (by simp [ChannelField.depths])
      refine (reads_decodePair (by omega) (by omega) hbs decodeLeftSide hb hs1 hs2).congr ?_ ?_
      · simp [ChannelField.depths]
      · rw [subSamples, subSamples, decodeLeftSide_eq]
        · rfl
        · rw [length_samplesWith _ hs1, length_samplesWith _ hs2]
  | rightSide =>
    match subs, hc, hs with
    | [s, t], _, hs =>
      have hs1 := hs (bps + 1, s) (by simp [ChannelField.depths])
      have hs2 := hs (bps, t) (by simp [ChannelField.depths])
      refine (reads_decodePair (by omega) (by omega) hbs decodeRightSide hb hs1 hs2).congr ?_ ?_
      · simp [ChannelField.depths]
      · rw [subSamples, subSamples, decodeRightSide_eq]
        · rfl
        · rw [length_samplesWith _ hs1, length_samplesWith _ hs2]
  | midSide =>
    match subs, hc, hs with
    | [s, t], _, hs =>
      have hs1 := hs (bps, s) (by simp [ChannelField.depths])
      have hs2 := hs (bps + 1, t) (by simp [ChannelField.depths])
      refine (reads_decodePair (by omega) (by omega) hbs decodeMidSide hb hs1 hs2).congr ?_ ?_
      · simp [ChannelField.depths]
      · rw [subSamples, subSamples, decodeMidSide_eq]
        · rfl
        · rw [length_samplesWith _ hs1, length_samplesWith _ hs2]

theorem triple_decodeChannels (ch : ChannelField) {bps bs : Nat} (hbps : bps ≤ 31) (hbs : bs < 2 ^ 16)
    {buffer : List I32} (hb : buffer.length = ch.count * bs) :
    Triple (decodeChannels (caOf ch) bps bs buffer) (fun u out => ∃ subs : List Subframe,
      subs.length = ch.count ∧
      (∀ p ∈ List.zip (ch.depths bps) subs, p.2.WellFormed p.1 bs) ∧
      u = (List.zipWith Subframe.bits (ch.depths bps) subs).flatten ∧
      out = toI32 (ch.decorrelate Arith.wrap32.wrap
        (subs.map (Subframe.samplesWith .wrap32 bs))).flatten) := by
  cases ch with
  | independent n =>
    have h2 := triple_decodeIndependent (bps := bps) (bs := bs) (by omega) hbs (n.val + 1) 0 [] buffer
      (by simp) hb
    rw [List.nil_append] at h2
    refine h2.mono ?_
    rintro _ _ ⟨subs, h3, h4, rfl, rfl⟩
    refine ⟨subs, h3, (mem_zip_replicate h3 (P := fun d s => Subframe.WellFormed d bs s)).2 h4, ?_, ?_⟩
    · simp only [ChannelField.depths]
      rw [zipWith_replicate _ _ h3, List.flatMap_def]
    · rw [List.nil_append, flatMap_subSamples]; rfl
  | leftSide =>
    refine (triple_decodePair (d1 := bps) (d2 := bps + 1) (by omega) (by omega) hbs decodeLeftSide
      hb).mono ?_
    rintro _ _ ⟨s, t, hs, ht, rfl, rfl⟩
    refine ⟨[s, t], rfl, ?_, by simp [ChannelField.depths], ?_⟩
    · simp [ChannelField.depths, hs, ht]
    · rw [subSamples, subSamples, decodeLeftSide_eq]
      · rfl
      · rw [length_samplesWith _ hs, length_samplesWith _ ht]
  | rightSide =>
    refine (triple_decodePair (d1 := bps + 1) (d2 := bps) (by omega) (by omega) hbs decodeRightSide
      hb).mono ?_
    rintro _ _ ⟨s, t, hs, ht, rfl, rfl⟩
    refine ⟨[s, t], rfl, ?_, by simp [ChannelField.depths], ?_⟩
    · simp [ChannelField.depths, hs, ht]
    · rw [subSamples, subSamples, decodeRightSide_eq]
      · rfl
      · rw [length_samplesWith _ hs, length_samplesWith _ ht]
  | midSide =>
    refine (triple_decodePair (d1 := bps) (d2 := bps + 1) (by omega) (by omega) hbs decodeMidSide
      hb).mono ?_
    rintro _ _ ⟨s, t, hs, ht, rfl, rfl⟩
    refine ⟨[s, t], rfl, ?_, by simp [ChannelField.depths], ?_⟩
    · simp [ChannelField.depths, hs, ht]
    · rw [subSamples, subSamples, decodeMidSide_eq]
      · rfl
      · rw [length_samplesWith _ hs, length_samplesWith _ ht]

/-! ### Bits and bytes -/

theorem bytesToBits_bitsToBytes : ∀ (n : Nat) (bits : List Bool), bits.length = 8 * n →
    bytesToBits (bitsToBytes bits) = bits := by
  intro n
  induction n with
  | zero =>
    intro bits h
    have : bits = [] := List.length_eq_zero_iff.1 (by omega)
    subst this; rfl
  | succ n ih =>
    intro bits h
    match bits, h with
    | b7 :: b6 :: b5 :: b4 :: b3 :: b2 :: b1 :: b0 :: rest, h =>
      rw [bitsToBytes, bytesToBits_cons, ih rest (by simp at h; omega)]
      have e := natToBits_bitsToNat [b7, b6, b5, b4, b3, b2, b1, b0]
      have l := bitsToNat_lt [b7, b6, b5, b4, b3, b2, b1, b0]
      simp only [List.length_cons, List.length_nil] at e l
      rw [byteBits, BitVec.toNat_ofNat, Nat.mod_eq_of_lt (by omega), e]
      rfl

theorem bitsToBytes_bytesToBits (bytes : List U8) : bitsToBytes (bytesToBits bytes) = bytes := by
  apply bytesToBits_inj
  exact bytesToBits_bitsToBytes bytes.length _ (by simp)

/-! ### Frames -/

theorem size_bounds (f : BlockSizeField) : 1 ≤ f.size ∧ f.size ≤ 65535 := by
  cases f with
  | size192 => simp [BlockSizeField.size]
  | times576 k =>
    match k with
    | 0 | 1 | 2 | 3 => simp [BlockSizeField.size]
  | times256 k =>
    match k with
    | 0 | 1 | 2 | 3 | 4 | 5 | 6 | 7 => simp [BlockSizeField.size]
  | bits8 n => have := n.isLt; simp only [BlockSizeField.size]; omega
  | bits16 n => have := n.isLt; simp only [BlockSizeField.size]; omega

theorem count_bounds (f : ChannelField) : 1 ≤ f.count ∧ f.count ≤ 8 := by
  cases f <;> simp only [ChannelField.count] <;> omega

theorem bits_bounds {f : SampleSizeField} {bps : Nat} (h : f.bits = some bps) : 8 ≤ bps ∧ bps ≤ 24 := by
  cases f <;> simp [SampleSizeField.bits] at h <;> omega

theorem channels_headerOf (h : Spec.FrameHeader) : (headerOf h).channels = h.channels.count := by
  unfold FrameHeader.channels headerOf
  cases h.channels <;> rfl

theorem length_ensureBufferLen (buffer : VecI32) (n : Nat) : (ensureBufferLen buffer n).data.length = n := by
  unfold ensureBufferLen VecI32.len
  split
  · split
    · simp
    · simp; omega
  · simp; omega

theorem frameTime_ok (h : Spec.FrameHeader) (hw : h.WellFormed) : frameTime (headerOf h) = .ok h.time := by
  have h2 := size_bounds h.blockSize
  unfold frameTime headerOf FrameHeader.time
  simp only
  by_cases hv : h.variableBlockSize = true
  · rw [if_pos hv, if_pos hv]
  · have h3 := hw.frameNumber (by simpa using hv)
    rw [if_neg hv, if_neg hv]
    simp only
    rw [mulU_ok, Nat.mul_comm]
    calc h.blockSize.size * h.number < 65536 * 2 ^ 31 :=
          Nat.mul_lt_mul'' (by omega) h3
      _ ≤ 2 ^ 64 := by norm_num

/-- The block for a frame. -/
def blockOf (f : Frame) (buffer : VecI32) : Block where
  firstSampleNumber := f.header.time
  blockSize := f.header.blockSize.size
  channels := f.header.channels.count
  buffer :=
    { data := toI32 f.wrappedChannels.flatten
      cap := (ensureBufferLen buffer (f.header.channels.count * f.header.blockSize.size)).cap }

theorem length_flatten_of {xss : List (List Int)} {n : Nat} (h : ∀ xs ∈ xss, xs.length = n) :
    xss.flatten.length = xss.length * n := by
  induction xss with
  | nil => simp
  | cons xs xss ih =>
    rw [List.flatten_cons, List.length_append, ih (fun ys hy => h ys (by simp [hy])), h xs (by simp),
      List.length_cons]
    ring

theorem decorrelate_shape (w : Int → Int) (ch : ChannelField) {sigs : List (List Int)} {n : Nat}
    (hl : sigs.length = ch.count) (h : ∀ xs ∈ sigs, xs.length = n) :
    (ch.decorrelate w sigs).length = ch.count ∧ ∀ xs ∈ ch.decorrelate w sigs, xs.length = n := by
  cases ch with
  | independent k => exact ⟨hl, h⟩
  | leftSide | rightSide | midSide =>
    match sigs, hl, h with
    | [a, b], _, h =>
      have ha := h a (by simp)
      have hb := h b (by simp)
      simp [ChannelField.decorrelate, ChannelField.count, ha, hb]

theorem mem_zip_right {α β : Type} {xs : List α} {ys : List β} (h : ys.length ≤ xs.length) {y : β}
    (hy : y ∈ ys) : ∃ x, (x, y) ∈ List.zip xs ys := by
  obtain ⟨i, hi, rfl⟩ := List.mem_iff_getElem.1 hy
  refine ⟨xs[i], List.mem_iff_getElem.2 ⟨i, ?_, ?_⟩⟩
  · simp; omega
  · simp

theorem length_depths (bps : Nat) (ch : ChannelField) : (ch.depths bps).length = ch.count := by
  cases ch <;> simp [ChannelField.depths, ChannelField.count]

theorem wrappedChannels_shape {bps : Nat} {f : Frame} (hw : f.WellFormed bps) :
    f.wrappedChannels.length = f.header.channels.count ∧
      ∀ c ∈ f.wrappedChannels, c.length = f.header.blockSize.size := by
  apply decorrelate_shape
  · rw [List.length_map, hw.count]
  · intro xs hxs
    obtain ⟨s, hs, rfl⟩ := List.mem_map.1 hxs
    obtain ⟨d, hd⟩ := mem_zip_right (xs := f.header.channels.depths bps)
      (by rw [length_depths, hw.count]) hs
    exact length_samplesWith _ (hw.subframes _ hd)

theorem block_new {bps : Nat} {f : Frame} (hw : f.WellFormed bps) (buffer : VecI32) :
    Block.new f.header.time f.header.blockSize.size
      { data := toI32 f.wrappedChannels.flatten
        cap := (ensureBufferLen buffer (f.header.channels.count * f.header.blockSize.size)).cap } =
      .ok (blockOf f buffer) := by
  have h1 := size_bounds f.header.blockSize
  have h2 := count_bounds f.header.channels
  obtain ⟨h3, h4⟩ := wrappedChannels_shape hw
  unfold Block.new blockOf VecI32.len
  rw [if_neg (by omega)]
  simp only
  congr 2
  rw [length_toI32, length_flatten_of h4, h3, Nat.mod_eq_of_lt, Nat.mul_div_cancel _ (by omega)]
  calc f.header.channels.count * f.header.blockSize.size ≤ 8 * 65535 := Nat.mul_le_mul h2.2 h1.2
    _ < 2 ^ 32 := by norm_num

/-- The frame reader on a well-formed frame, with checksums `c8` and `c`. -/
theorem frame_any [FuzzCfg] {bps : Nat} {f : Frame} (hw : f.WellFormed bps) {c8 : U8}
    (h8 : FuzzCfg.fuzzing = false → crc8 f.header.fieldBytes = c8) (c : U16) (buffer : VecI32)
    (rest : List U8) (fault : Option Nat) :
    readNextOrEof buffer ⟨f.bytesWith bps c8 c ++ rest, fault⟩ =
      (if FuzzCfg.fuzzing = false ∧ crc16 (f.header.fieldBytes ++ [c8] ++ bitsToBytes (f.bodyBits bps)) ≠ c then
        .error (.err (.formatError "frame CRC mismatch"))
        else .ok (some (blockOf f buffer)), (⟨rest, fault⟩ : Flat)) := by
  have hb := bits_bounds hw.sampleSize
  have h1 := size_bounds f.header.blockSize
  rw [readNextOrEof_flat]
  have hh := header_any f.header hw.header c8
    (bitsToBytes (f.bodyBits bps) ++ (beBytes 2 c.toNat ++ rest)) fault
  rw [readFrameHeaderOrEof_flat, if_neg (fun h => h.2 (h8 h.1))] at hh
  have e : f.header.fieldBytes ++ [c8] ++ (bitsToBytes (f.bodyBits bps) ++
      (beBytes 2 c.toNat ++ rest)) = f.bytesWith bps c8 c ++ rest := by
    simp [Frame.bytesWith]
  rw [e] at hh
  simp only at hh ⊢
  rw [Dec.bind_ok _ hh]
  simp only [flatBody]
  have hbits : (headerOf f.header).bitsPerSample = some bps := hw.sampleSize
  rw [hbits]
  simp only
  rw [Dec.bind_liftM_of (debugAssert_ok (decide_eq_true (by omega)))]
  have hd : BReads (withBitstream (decodeChannels (headerOf f.header).channelAssignment bps
      (headerOf f.header).blockSize
      (ensureBufferLen buffer ((headerOf f.header).channels * (headerOf f.header).blockSize)).data))
      (bitsToBytes (f.bodyBits bps)) (toI32 f.wrappedChannels.flatten) := by
    have hal := hw.aligned
    refine BReads.withBitstream (pad := f.padding) (reads_decodeChannels f.header.channels (by omega)
      (by show f.header.blockSize.size < _; omega) ?_ hw.count ?_) ?_ hw.padding
    · rw [length_ensureBufferLen, channels_headerOf]
    · intro p hp
      exact hw.subframes p hp
    · exact bytesToBits_bitsToBytes ((f.bodyBits bps).length / 8) _ (by omega)
  rw [Dec.bind_ok _ (hd _ _)]
  simp only [Dec.bind_get_run]
  rw [Dec.bind_ok _ (breads_beU16 c.isLt rest fault)]
  have e3 : consumed (f.bytesWith bps c8 c ++ rest) ⟨beBytes 2 c.toNat ++ rest, fault⟩ =
      f.header.fieldBytes ++ [c8] ++ bitsToBytes (f.bodyBits bps) := by
    have := consumed_append (used := f.header.fieldBytes ++ [c8] ++ bitsToBytes (f.bodyBits bps))
      (rest := beBytes 2 c.toNat ++ rest) (f := fault)
    rwa [← List.append_assoc] at this
  rw [e3, BitVec.ofNat_toNat, BitVec.setWidth_eq]
  by_cases hc : FuzzCfg.fuzzing = false ∧ crc16 (f.header.fieldBytes ++ [c8] ++ bitsToBytes (f.bodyBits bps)) ≠ c
  · rw [if_pos hc, if_pos hc]
    rfl
  · rw [if_neg hc, if_neg hc, Dec.bind_liftM_of (frameTime_ok _ hw.header)]
    rw [Dec.bind_liftM_of (show Block.new f.header.time (headerOf f.header).blockSize
        { data := toI32 f.wrappedChannels.flatten
          cap := (ensureBufferLen buffer ((headerOf f.header).channels *
            (headerOf f.header).blockSize)).cap } = .ok (blockOf f buffer) by
      rw [channels_headerOf]; exact block_new hw buffer)]
    rfl

/-- The same, if checksums are compared, and that of the header matches. -/
theorem frame_crc {bps : Nat} {f : Frame} (hw : f.WellFormed bps) (c : U16) (buffer : VecI32)
    (rest : List U8) (fault : Option Nat) :
    readNextOrEof buffer ⟨f.contentBytes bps ++ beBytes 2 c.toNat ++ rest, fault⟩ =
      (if crc16 (f.contentBytes bps) = c then .ok (some (blockOf f buffer))
        else .error (.err (.formatError "frame CRC mismatch")), (⟨rest, fault⟩ : Flat)) := by
  have h := frame_any hw (fun _ => rfl) c buffer rest fault
  rw [show f.bytesWith bps (crc8 f.header.fieldBytes) c = f.contentBytes bps ++ beBytes 2 c.toNat from rfl,
    show f.header.fieldBytes ++ [crc8 f.header.fieldBytes] ++ bitsToBytes (f.bodyBits bps) = f.contentBytes bps from rfl]
    at h
  rw [h]
  by_cases hc : crc16 (f.contentBytes bps) = c
  · rw [if_neg (fun h => h.2 hc), if_pos hc]
  · rw [if_pos ⟨rfl, hc⟩, if_neg hc]

/-- Every well-formed frame is decoded. -/
theorem reads_frame {bps : Nat} {f : Frame} (hw : f.WellFormed bps) (buffer : VecI32) (rest : List U8)
    (fault : Option Nat) :
    readNextOrEof buffer ⟨f.bytes bps ++ rest, fault⟩ =
      (.ok (some (blockOf f buffer)), (⟨rest, fault⟩ : Flat)) := by
  unfold Frame.bytes
  rw [frame_crc hw, if_pos rfl]

/-- A wrong header checksum. -/
theorem frame_bad_header {h : Spec.FrameHeader} (hw : h.WellFormed) {c : U8} (hc : crc8 h.fieldBytes ≠ c)
    (buffer : VecI32) (rest : List U8) (fault : Option Nat) :
    readNextOrEof buffer ⟨h.fieldBytes ++ [c] ++ rest, fault⟩ =
      (.error (.err (.formatError "frame header CRC mismatch")), (⟨rest, fault⟩ : Flat)) := by
  have hh := header_crc h hw c rest fault
  rw [readFrameHeaderOrEof_flat, if_neg hc] at hh
  rw [readNextOrEof_flat, Dec.bind_def, hh]

/-- Whatever is accepted is a well-formed frame. -/
theorem frame_reads_any [FuzzCfg] (buffer : VecI32) (s : Flat) :
    match readNextOrEof buffer s with
    | (.ok none, _) => s.bytes.length < 2 ∧ s.fault = none
    | (.ok (some b), s') => s'.fault = s.fault ∧ ∃ (bps : Nat) (f : Frame) (c8 : U8) (c16 : U16), f.WellFormed bps ∧
        s.bytes = f.bytesWith bps c8 c16 ++ s'.bytes ∧ b = blockOf f buffer ∧
        (FuzzCfg.fuzzing = false → crc8 f.header.fieldBytes = c8 ∧ crc16 (f.contentBytes bps) = c16)
    | (.error (.err _), _) => True
    | (.error f, _) => f = .panic .overflow ∧ LongZeros (bytesToBits s.bytes) := by
  have hh := header_reads_any s
  rw [readNextOrEof_flat, Dec.bind_def]
  rw [readFrameHeaderOrEof_flat] at hh
  generalize flatHeader s.bytes s = x at hh ⊢
  rcases x with ⟨e | _ | hd, s1⟩
  · cases e <;> simp_all
  · exact hh
  · obtain ⟨hf1, h, c8, hw, rfl, hs, h8⟩ := hh
    simp only [flatBody]
    have h1 := size_bounds h.blockSize
    have hbits : (headerOf h).bitsPerSample = h.sampleSize.bits := rfl
    rw [hbits]
    rcases hsz : h.sampleSize.bits with _ | bps
    · trivial
    · have hb := bits_bounds hsz
      simp only
      rw [Dec.bind_liftM_of (debugAssert_ok (decide_eq_true (by omega)))]
      have hd := BTriple.withBitstream (triple_decodeChannels h.channels (bps := bps)
        (bs := (headerOf h).blockSize) (by omega) (by show h.blockSize.size < _; omega)
        (buffer := (ensureBufferLen buffer ((headerOf h).channels * (headerOf h).blockSize)).data)
        (by rw [length_ensureBufferLen, channels_headerOf])) s1
      rw [show (headerOf h).channelAssignment = caOf h.channels from rfl]
      rw [Dec.bind_def]
      have hle : LongZeros (bytesToBits s1.bytes) → LongZeros (bytesToBits s.bytes) := fun h => by
        rw [hs, bytesToBits_append]; exact h.append_left _
      generalize withBitstream (decodeChannels (caOf h.channels) bps (headerOf h).blockSize
        (ensureBufferLen buffer ((headerOf h).channels * (headerOf h).blockSize)).data) s1 = y at hd ⊢
      rcases y with ⟨e | data, s2⟩
      · cases e with
        | err e => trivial
        | _ =>
          exact hd.imp_right hle
      · obtain ⟨hf2, used, hu, bits, pad, hub, hpad, subs, hcount, hsubs, rfl, rfl⟩ := hd
        simp only [Dec.bind_get_run]
        rw [Dec.bind_def]
        have hcrc := btriple_beU16 (lim := .never) s2
        generalize (readBeU16 : Dec Flat U16) s2 = z at hcrc ⊢
        rcases z with ⟨e | p, s3⟩
        · cases e with
          | err e => trivial
          | _ => exact absurd hcrc id
        · obtain ⟨hf3, used3, hu3, rfl⟩ := hcrc
          simp only
          have e3 : consumed s.bytes s2 = h.fieldBytes ++ [c8] ++ used := by
            have := consumed_append (used := h.fieldBytes ++ [c8] ++ used) (rest := s2.bytes) (f := s2.fault)
            rw [hs, hu, ← List.append_assoc]
            exact this
          rw [e3]
          by_cases hc : FuzzCfg.fuzzing = false ∧ crc16 (h.fieldBytes ++ [c8] ++ used) ≠ p
          · rw [if_pos hc]
            trivial
          · rw [if_neg hc]
            have hbody : Frame.bodyBits bps ⟨h, subs, pad⟩ = bytesToBits used := by
              rw [hub]; rfl
            have hfw : Frame.WellFormed bps ⟨h, subs, pad⟩ :=
              { header := hw
                sampleSize := hsz
                count := hcount
                subframes := hsubs
                padding := hpad
                aligned := by rw [hbody, length_bytesToBits]; omega }
            rw [Dec.bind_liftM_of (frameTime_ok _ hw)]
            rw [Dec.bind_liftM_of (show Block.new h.time (headerOf h).blockSize
                { data := _
                  cap := (ensureBufferLen buffer ((headerOf h).channels *
                    (headerOf h).blockSize)).cap } = .ok (blockOf ⟨h, subs, pad⟩ buffer) by
              rw [channels_headerOf]; exact block_new hfw buffer)]
            refine ⟨?_, bps, ⟨h, subs, pad⟩, c8, p, hfw, ?_, rfl, fun hz => ⟨h8 hz, ?_⟩⟩
            · rw [hf3, hf2, hf1]
            · unfold Frame.bytesWith
              rw [hbody, bitsToBytes_bytesToBits, hs, hu, hu3]
              simp
            · unfold Frame.contentBytes
              rw [hbody, bitsToBytes_bytesToBits, FrameHeader.bytes, h8 hz]
              exact not_not.1 fun h => hc ⟨hz, h⟩

/-- The same, if checksums are compared. -/
theorem frame_reads (buffer : VecI32) (s : Flat) :
    match readNextOrEof buffer s with
    | (.ok none, _) => s.bytes.length < 2 ∧ s.fault = none
    | (.ok (some b), s') => s'.fault = s.fault ∧ ∃ (bps : Nat) (f : Frame), f.WellFormed bps ∧
        s.bytes = f.bytes bps ++ s'.bytes ∧ b = blockOf f buffer
    | (.error (.err _), _) => True
    | (.error f, _) => f = .panic .overflow ∧ LongZeros (bytesToBits s.bytes) := by
  have h := frame_reads_any buffer s
  generalize readNextOrEof buffer s = x at h ⊢
  rcases x with ⟨e | _ | b, s'⟩
  · cases e <;> exact h
  · exact h
  · obtain ⟨h1, bps, f, c8, c16, h2, h3, h4, h5⟩ := h
    obtain ⟨h5, h6⟩ := h5 rfl
    refine ⟨h1, bps, f, h2, ?_, h4⟩
    rw [h3, Frame.bytesWith, ← h5, ← h6]
    rfl

end Claxon
