import Verif.Proof.Wrapped
import Verif.Proof.Uncountable
import Verif.Proof.Block
import Verif.Spec.Loose

/-! # What is decoded without overflow checks

The results about residuals, subframes and frames (`Proof.Residual`, `Proof.Subframe`, `Proof.Frame`), for a decoder without
overflow checks: it also reads more zeros in a row than can be counted. -/

namespace Claxon

open Spec Bitstream ReadBytes

variable {α β : Type}

theorem RefR.of_ok {r r' : Res α} {a : α} (h : RefR r r') (hr : r = .ok a) : r' = .ok a := by
  rcases h with ⟨p, hp⟩ | rfl
  · rw [hp] at hr; cases hr
  · exact hr

theorem Ref.of_pure {σ : Type} {m m' : Dec σ α} {a : α} (h : Ref m m') (hm : m = Pure.pure a) : m' = Pure.pure a := by
  subst hm
  funext s
  exact h.eq_of (by intro p hp; cases hp)

/-- `m` reads exactly `bits` and returns `a`, whatever follows, if the input has a length. -/
def LReads (m : Dec (Bitstream Flat) α) (bits : List Bool) (a : α) : Prop :=
  ∀ (b : Bitstream Flat) (rest : List Bool), b.Inv → b.bits.length < 8 * 2 ^ 64 → b.bits = bits ++ rest →
    ∃ b', m b = (.ok a, b') ∧ b'.Inv ∧ b'.bits = rest ∧ b'.reader.fault = b.reader.fault

/-- If `m` succeeds, it has consumed some bits `used`, and `P used a` holds of the result. -/
def LTriple (m : Dec (Bitstream Flat) α) (P : List Bool → α → Prop) : Prop :=
  ∀ b : Bitstream Flat, b.Inv → b.bits.length < 8 * 2 ^ 64 → ∀ a b', m b = (.ok a, b') →
    b'.Inv ∧ b'.reader.fault = b.reader.fault ∧ ∃ used, b.bits = used ++ b'.bits ∧ P used a

namespace LReads

theorem of {m m' : Dec (Bitstream Flat) α} {bits : List Bool} {a : α} (h : Reads m bits a) (hr : Ref m m') :
    LReads m' bits a := fun b rest hb _ => h.ref hr b rest hb

theorem pure (a : α) : LReads (Pure.pure a) [] a := .of (Reads.pure a) (Ref.refl _)

theorem bind {m : Dec (Bitstream Flat) α} {f : α → Dec (Bitstream Flat) β} {bs cs : List Bool}
    {a : α} {c : β} (hm : LReads m bs a) (hf : LReads (f a) cs c) : LReads (m >>= f) (bs ++ cs) c := by
  intro b rest hb hl h
  rw [List.append_assoc] at h
  obtain ⟨b1, h1, hb1, hbits1, hf1⟩ := hm b _ hb hl h
  have hl1 : b1.bits.length < 8 * 2 ^ 64 := by
    rw [hbits1]
    rw [h, List.length_append] at hl
    omega
  obtain ⟨b2, h2, hb2, hbits2, hf2⟩ := hf b1 _ hb1 hl1 hbits1
  exact ⟨b2, by rw [Dec.bind_ok _ h1, h2], hb2, hbits2, hf2.trans hf1⟩

theorem bind_nil {m : Dec (Bitstream Flat) α} {f : α → Dec (Bitstream Flat) β} {bs : List Bool}
    {a : α} {c : β} (hm : LReads m bs a) (hf : LReads (f a) [] c) : LReads (m >>= f) bs c := by
  have := hm.bind hf
  rwa [List.append_nil] at this

theorem lift_ok {r : Res α} {a : α} (h : r = .ok a) : LReads (liftM r) [] a := .of (Reads.lift h) (Ref.refl _)

theorem bind_ok {r : Res α} {f : α → Dec (Bitstream Flat) β} {cs : List Bool} {a : α} {c : β}
    (h : r = .ok a) (hf : LReads (f a) cs c) : LReads (liftM r >>= f) cs c := by
  subst h; exact hf

theorem congr {m : Dec (Bitstream Flat) α} {bs cs : List Bool} {a c : α} (h : LReads m bs a)
    (hb : bs = cs) (ha : a = c) : LReads m cs c := by subst hb ha; exact h

end LReads

namespace LTriple

theorem pure {a : α} {P : List Bool → α → Prop} (h : P [] a) : LTriple (Pure.pure a) P := by
  intro b hb _ a' b' h'
  cases h'
  exact ⟨hb, rfl, [], rfl, h⟩

theorem err (e : Error) {P : List Bool → α → Prop} : LTriple (Dec.fail (.err e) : Dec (Bitstream Flat) α) P := by
  intro b _ _ a b' h
  cases h

theorem bind {m : Dec (Bitstream Flat) α} {f : α → Dec (Bitstream Flat) β}
    {P : List Bool → α → Prop} {Q : List Bool → β → Prop} (hm : LTriple m P)
    (hf : ∀ u a, P u a → LTriple (f a) (fun v c => Q (u ++ v) c)) : LTriple (m >>= f) Q := by
  intro b hb hl c b' h
  have h1 := hm b hb hl
  rw [Dec.bind_def] at h
  generalize m b = x at h h1
  rcases x with ⟨r, b1⟩
  cases r with
  | error e1 => cases h
  | ok a =>
    obtain ⟨hb1, hf1, u, hu, hP⟩ := h1 a b1 rfl
    have hl1 : b1.bits.length < 8 * 2 ^ 64 := by
      rw [hu, List.length_append] at hl
      omega
    obtain ⟨hb2, hf2, v, hv, hQ⟩ := hf u a hP b1 hb1 hl1 c b' h
    exact ⟨hb2, hf2.trans hf1, u ++ v, by rw [hu, hv, List.append_assoc], hQ⟩

theorem lift_ok {r : Res α} {a : α} (h : r = .ok a) {P : List Bool → α → Prop} (hP : P [] a) : LTriple (liftM r) P := by
  subst h; exact pure hP

theorem bind_ok {r : Res α} {f : α → Dec (Bitstream Flat) β} {Q : List Bool → β → Prop} {a : α}
    (h : r = .ok a) (hf : LTriple (f a) Q) : LTriple (liftM r >>= f) Q := by
  subst h; exact hf

theorem mono {m : Dec (Bitstream Flat) α} {P Q : List Bool → α → Prop} (hm : LTriple m P)
    (h : ∀ u a, P u a → Q u a) : LTriple m Q := by
  intro b hb hl a b' hab
  obtain ⟨hb1, hf1, u, hu, hP⟩ := hm b hb hl a b' hab
  exact ⟨hb1, hf1, u, hu, h u a hP⟩

theorem same {m : Dec (Bitstream Flat) α} {P : List Bool → α → Prop} (ht : Triple m P) : LTriple m P := by
  intro b hb _ a b' hm
  have h1 := ht b hb
  rw [hm] at h1
  exact h1

/-- What does not count zeros. -/
theorem of {m m' : Dec (Bitstream Flat) α} {P : List Bool → α → Prop} (ht : Triple m P)
    (ho : Overflows m (fun _ => False)) (h : Ref m m') : LTriple m' P := by
  intro b hb _ a b' hm
  have h1 := ht b hb
  have h2 := ho b hb
  have h3 := h.eq_of (s := b)
  generalize m b = x at h1 h2 h3
  rcases x with ⟨r, b1⟩
  have h4 : ∀ p, r ≠ .error (.panic p) := by
    rintro p rfl
    obtain ⟨rfl, -⟩ : p = .overflow ∧ _ := by
      obtain ⟨h, h'⟩ := h1
      cases h
      exact ⟨rfl, h'⟩
    obtain ⟨_, _, _, hf⟩ := h2 b1 rfl
    exact hf
  rw [h3 h4] at hm
  cases hm
  exact h1

end LTriple

theorem LReads.loopN {step : Dec (Bitstream Flat) I32} {enc : Int → List Bool} {f : Int → I32}
    (vs : List Int) (h : ∀ v ∈ vs, LReads step (enc v) (f v)) (buf : List I32)
    (hlen : buf.length = vs.length) :
    LReads (loopN step buf) (vs.flatMap enc) (vs.map f) := by
  induction vs generalizing buf with
  | nil =>
    have : buf = [] := List.eq_nil_of_length_eq_zero hlen
    subst this
    exact LReads.pure _
  | cons v vs ih =>
    cases buf with
    | nil => simp at hlen
    | cons x buf =>
      exact (h v (by simp)).bind
        ((ih (fun w hw => h w (by simp [hw])) buf (by simpa using hlen)).bind_nil (LReads.pure _))

theorem LTriple.loopN {step : Dec (Bitstream Flat) I32} {enc : Int → List Bool} {f : Int → I32}
    {R : Int → Prop} (h : LTriple step (fun u a => ∃ v, R v ∧ u = enc v ∧ a = f v))
    (buf : List I32) :
    LTriple (loopN step buf) (fun u out => ∃ vs : List Int, vs.length = buf.length ∧
      (∀ v ∈ vs, R v) ∧ u = vs.flatMap enc ∧ out = vs.map f) := by
  induction buf with
  | nil => exact LTriple.pure ⟨[], rfl, by simp, rfl, rfl⟩
  | cons x buf ih =>
    apply h.bind
    rintro u a ⟨v, hR, hu, ha⟩
    apply ih.bind
    rintro u' out ⟨vs, hlen, hRs, hu', hout⟩
    apply LTriple.pure
    refine ⟨v :: vs, by simp [hlen], ?_, ?_, ?_⟩
    · intro w hw
      rcases List.mem_cons.1 hw with rfl | hw
      · exact hR
      · exact hRs w hw
    · simp [hu, hu']
    · simp [ha, hout]

theorem LReads.withSlice {buffer : List I32} {a b : Nat} {f : List I32 → Dec (Bitstream Flat) (List I32)}
    {bits : List Bool} {out : List I32} (hab : a ≤ b) (hb : b ≤ buffer.length)
    (h : LReads (f ((buffer.take b).drop a)) bits out) :
    LReads (withSlice buffer a b f) bits (buffer.take a ++ out ++ buffer.drop b) := by
  apply LReads.bind_ok (slice_ok ⟨hab, hb⟩)
  exact h.bind_nil (LReads.pure _)

theorem LTriple.withSlice {buffer : List I32} {a b : Nat}
    {f : List I32 → Dec (Bitstream Flat) (List I32)} {P Q : List Bool → List I32 → Prop}
    (hab : a ≤ b) (hb : b ≤ buffer.length) (h : LTriple (f ((buffer.take b).drop a)) P)
    (hQ : ∀ u out, P u out → Q u (buffer.take a ++ out ++ buffer.drop b)) :
    LTriple (withSlice buffer a b f) Q := by
  apply LTriple.bind_ok (slice_ok ⟨hab, hb⟩)
  apply h.bind
  intro u out hP
  apply LTriple.pure
  rw [List.append_nil]
  exact hQ u out hP

theorem Residual.Loose.order_le {r : Residual} {bs order : Nat} (h : r.Loose bs order) :
    order ≤ bs := Nat.le_trans h.first (Nat.div_le_self _ _)

theorem Residual.Loose.length {r : Residual} {bs order : Nat} (h : r.Loose bs order) :
    r.values.length = bs - order := by
  have := congrArg List.sum h.sizes
  rw [partitionSizes_sum h.divides h.first] at this
  rw [← this, Residual.values, List.length_flatMap]

/-! ### Frames of the format -/

theorem loose_coding {bps bs : Nat} {c : Coding} (h : c.WellFormed bps bs) : c.Loose bps bs := by
  cases c with
  | constant v => exact h
  | verbatim vs => exact h
  | fixed warm r => exact ⟨h.1, h.2.1, ⟨h.2.2.1, h.2.2.2, h.2.2.3, h.2.2.4, h.2.2.5⟩⟩
  | lpc warm p s cs r =>
    obtain ⟨h1, h2, h3, h4, h5, h6, h7, h8, h9⟩ := h
    exact ⟨h1, h2, h3, h4, h5, h6, h7, h8, ⟨h9.1, h9.2, h9.3, h9.4, h9.5⟩⟩

theorem reduced_eq {s : Subframe} (h : s.wasted < 2 ^ 32) : s.reduced = s := by
  rcases s with ⟨c, k⟩
  simp only at h
  rw [Subframe.reduced, Nat.mod_eq_of_lt h]

theorem looseBits_eq {s : Subframe} (h : s.wasted < 2 ^ 32) (bps : Nat) : s.looseBits bps = s.bits bps := by
  rw [Subframe.looseBits, reduced_eq h]; rfl

/-- A well-formed frame is a loose one, with the same bytes and the same channels. -/
theorem loose_of_wellFormed {bps : Nat} {f : Frame} (h : f.WellFormed bps) :
    f.Loose bps ∧ f.looseBytes bps = f.bytes bps ∧ f.reduced = f := by
  have hb := bits_bounds h.sampleSize
  have hd : ∀ d ∈ f.header.channels.depths bps, d ≤ 32 := by
    intro d hd
    cases hch : f.header.channels <;> rw [hch] at hd <;> simp [ChannelField.depths] at hd <;> omega
  have hw : ∀ p ∈ List.zip (f.header.channels.depths bps) f.subframes, p.2.wasted < 2 ^ 32 := by
    intro p hp
    have h1 := (h.subframes p hp).wasted
    have h2 := hd p.1 (List.of_mem_zip hp).1
    omega
  have hz : List.zipWith Subframe.looseBits (f.header.channels.depths bps) f.subframes =
      List.zipWith Subframe.bits (f.header.channels.depths bps) f.subframes := by
    rw [← List.map_uncurry_zip_eq_zipWith, ← List.map_uncurry_zip_eq_zipWith]
    apply List.map_congr_left
    intro p hp
    exact looseBits_eq (hw p hp) _
  have hbody : f.looseBodyBits bps = f.bodyBits bps := by
    rw [Frame.looseBodyBits, hz]; rfl
  have hred : f.subframes.map Subframe.reduced = f.subframes := by
    conv_rhs => rw [← List.map_id f.subframes]
    apply List.map_congr_left
    intro s hs
    obtain ⟨d, hd⟩ := mem_zip_right (xs := f.header.channels.depths bps) (by rw [length_depths, h.count]) hs
    exact reduced_eq (hw _ hd)
  refine ⟨⟨h.header, h.sampleSize, h.count, ?_, h.padding, by rw [hbody]; exact h.aligned⟩, ?_, ?_⟩
  · intro p hp
    have h1 := h.subframes p hp
    exact ⟨by rw [reduced_eq (hw p hp)]; exact h1.wasted,
      by rw [reduced_eq (hw p hp)]; exact loose_coding h1.coding⟩
  · rw [Frame.looseBytes, Frame.looseContentBytes, hbody]; rfl
  · rw [Frame.reduced, hred]

/-! ### A frame that is accepted only without overflow checks -/

/-- One channel, 192 samples of 8 bits that are all 5, and `8 * n + 8` wasted bits. -/
def wrappedLoose (n : Nat) : Frame where
  header := hugeHeader
  subframes := [{ wasted := 8 * n + 8, coding := .constant 5 }]
  padding := []

theorem wrapped_body {n : Nat} (hn : 8 * n + 8 = 2 ^ 32) : (wrappedLoose n).looseBodyBits 8 = bytesToBits (wrappedBody n) := by
  rw [bits_wrapped]
  simp only [Frame.looseBodyBits, wrappedLoose, show hugeHeader.channels.depths 8 = [8] from rfl, List.zipWith_cons_cons,
    List.zipWith_nil_left, List.flatten_cons, List.flatten_nil, List.append_nil, Subframe.looseBits, Subframe.reduced]
  rw [hn, Nat.mod_self, wastedBits, if_neg (by norm_num), show 2 ^ 32 - 1 = 8 * n + 7 by omega]
  rfl

theorem wrapped_bytes {n : Nat} (hn : 8 * n + 8 = 2 ^ 32) : (wrappedLoose n).looseBytes 8 = wrappedFrame n := by
  rw [Frame.looseBytes, Frame.looseContentBytes, wrapped_body hn, bitsToBytes_bytesToBits]
  rfl

theorem wrapped_loose {n : Nat} (hn : 8 * n + 8 = 2 ^ 32) : (wrappedLoose n).Loose 8 where
  header := hugeHeader_wellFormed
  sampleSize := rfl
  count := rfl
  subframes := by
    intro p hp
    rw [show List.zip ((wrappedLoose n).header.channels.depths 8) (wrappedLoose n).subframes =
      [(8, { wasted := 8 * n + 8, coding := .constant 5 })] from rfl, List.mem_singleton] at hp
    subst hp
    constructor
    · rw [Subframe.reduced, hn]
      decide
    · rw [Subframe.reduced, hn]
      exact (by decide : FitsIn 8 5)
  padding := Nat.zero_lt_succ _
  aligned := by
    rw [wrapped_body hn, length_bytesToBits]
    omega

theorem wrapped_channels {n : Nat} (hn : 8 * n + 8 = 2 ^ 32) :
    (wrappedLoose n).reduced.wrappedChannels = [List.replicate 192 5] := by
  rw [Frame.reduced, wrappedLoose]
  simp only [List.map_cons, List.map_nil, Subframe.reduced]
  rw [hn, Nat.mod_self]
  decide +kernel

section Unchecked

attribute [local instance] uncheckedBuild

/-! ### The primitives -/

theorem lreads_readLeqU8 {k v : Nat} (hk : k ≤ 8) (hv : v < 2 ^ k) :
    LReads (readLeqU8 k) (natToBits k v) (BitVec.ofNat 8 v) :=
  .of (reads_readLeqU8 hk hv) (same_readLeqU8 k _ _ _ (refRd_refl _))

theorem ltriple_readLeqU8 {k : Nat} (hk : k ≤ 8) :
    LTriple (readLeqU8 k) (fun u a => u = natToBits k a.toNat ∧ a.toNat < 2 ^ k) :=
  .of (triple_readLeqU8 hk) (overflows_readLeqU8 hk) (same_readLeqU8 k _ _ _ (refRd_refl _))

theorem lreads_readGtU8LeqU16 {k v : Nat} (hk8 : 8 < k) (hk : k ≤ 16) (hv : v < 2 ^ k) :
    LReads (readGtU8LeqU16 k) (natToBits k v) (BitVec.ofNat 32 v) :=
  .of (reads_readGtU8LeqU16 hk8 hk hv) (same_readGtU8LeqU16 k _ _ _ (refRd_refl _))

theorem ltriple_readGtU8LeqU16 {k : Nat} (hk8 : 8 < k) (hk : k ≤ 16) :
    LTriple (readGtU8LeqU16 k) (fun u a => u = natToBits k a.toNat ∧ a.toNat < 2 ^ k) :=
  .of (triple_readGtU8LeqU16 hk8 hk) (overflows_readGtU8LeqU16 hk8 hk) (same_readGtU8LeqU16 k _ _ _ (refRd_refl _))

theorem lreads_readLeqU16 {k v : Nat} (hk : k ≤ 16) (hv : v < 2 ^ k) :
    LReads (readLeqU16 k) (natToBits k v) (BitVec.ofNat 16 v) :=
  .of (reads_readLeqU16 hk hv) (same_readLeqU16 k _ _ _ (refRd_refl _))

theorem ltriple_readLeqU16 {k : Nat} (hk : k ≤ 16) :
    LTriple (readLeqU16 k) (fun u a => u = natToBits k a.toNat ∧ a.toNat < 2 ^ k) :=
  .of (triple_readLeqU16 hk) (overflows_readLeqU16 hk) (same_readLeqU16 k _ _ _ (refRd_refl _))

theorem lreads_readLeqU32 {k v : Nat} (hk : k ≤ 32) (hv : v < 2 ^ k) :
    LReads (readLeqU32 k) (natToBits k v) (BitVec.ofNat 32 v) :=
  .of (reads_readLeqU32 hk hv) (same_readLeqU32 k _ _ _ (refRd_refl _))

theorem ltriple_readLeqU32 {k : Nat} (hk : k ≤ 32) :
    LTriple (readLeqU32 k) (fun u a => u = natToBits k a.toNat ∧ a.toNat < 2 ^ k) :=
  .of (triple_readLeqU32 hk) (overflows_readLeqU32 hk) (same_readLeqU32 k _ _ _ (refRd_refl _))

theorem lreads_readBit (x : Bool) : LReads readBit [x] x := .of (reads_readBit x) (same_readBit _ _ _ (refRd_refl _))

theorem ltriple_readBit : LTriple readBit (fun u a => u = [a]) :=
  .of triple_readBit overflows_readBit (same_readBit _ _ _ (refRd_refl _))

/-- Zeros are counted modulo `2 ^ 32`. -/
theorem lreads_readUnary (n : Nat) : LReads readUnary (unaryBits n) (n % 2 ^ 32) := by
  intro b rest hb hl h
  obtain ⟨b1, h1, h2, h3, h4⟩ := readUnary_wraps hb h (by
    rw [h, List.length_append, length_unaryBits] at hl
    omega)
  exact ⟨b1, h1, h2, h4, h3⟩

theorem ltriple_readUnary : LTriple readUnary (fun u a => ∃ n, u = unaryBits n ∧ a = n % 2 ^ 32) := by
  intro b hb hl a b' h
  rcases unary_or_zeros b.bits with ⟨n, rest, hz⟩ | hz
  · obtain ⟨b1, h1, h2, h3, h4⟩ := lreads_readUnary n b rest hb hl hz
    rw [h1] at h
    cases h
    exact ⟨h2, h4, _, by rw [h3]; exact hz, n, rfl, rfl⟩
  · obtain ⟨b1, h1⟩ := readUnary_zerosWrap hb hz (by
      have := Bitstream.length_bits b hb
      omega)
    rw [h1] at h
    cases h

/-! ### Arithmetic -/

theorem subU_okU {w a b : Nat} (h : b ≤ a) : subU w a b = .ok (a - b) := if_pos h
theorem mulU_okU {w a b : Nat} (h : a * b < 2 ^ w) : mulU w a b = .ok (a * b) := if_pos h
theorem shl_okU {w s : Nat} {x : BitVec w} (h : s < w) : shl x s = .ok (x <<< s) := if_pos h
theorem debugAssert_okU {c : Bool} (h : c = true) : debugAssert c = .ok () := if_pos h

theorem extendSignU16_okU {x : U16} {k : Nat} (hk0 : 0 < k) (hk : k ≤ 16) :
    extendSignU16 x k = .ok ((x <<< (16 - k)).sshiftRight (16 - k)) :=
  (same_extendSignU16 _ _ _).of_ok (extendSignU16_ok hk0 hk)

theorem extendSignU32_okU {x : U32} {k : Nat} (hk0 : 0 < k) (hk : k ≤ 32) :
    extendSignU32 x k = .ok ((x <<< (32 - k)).sshiftRight (32 - k)) :=
  (same_extendSignU32 _ _ _).of_ok (extendSignU32_ok hk0 hk)

theorem ofNat_mod (n : Nat) : BitVec.ofNat 32 (n % 2 ^ 32) = BitVec.ofNat 32 n := by
  apply BitVec.eq_of_toNat_eq
  simp

/-! ### Residuals -/

/-- One Rice code, without overflow checks. -/
def riceStepU {w : Nat} (k : Nat) (rd : Dec (Bitstream Flat) (BitVec w)) : Dec (Bitstream Flat) I32 := do
  let q ← readUnary
  let r ← rd
  let hi ← shl (BitVec.ofNat 32 q) k
  pure (riceToSigned (hi ||| r.setWidth 32))

theorem smallU_eq (k : Nat) (buf : List I32) :
    (ricePartitionSmall k buf : Dec (Bitstream Flat) _) = loopN (riceStepU k (readLeqU8 k)) buf := by
  induction buf with
  | nil => rfl
  | cons x buf ih => simp only [ricePartitionSmall, loopN, riceStepU, ih, bind_assoc, pure_bind]

theorem largeU_eq (k : Nat) (buf : List I32) :
    (ricePartitionLarge k buf : Dec (Bitstream Flat) _) = loopN (riceStepU k (readGtU8LeqU16 k)) buf := by
  induction buf with
  | nil => rfl
  | cons x buf ih =>
    simp only [ricePartitionLarge, loopN, riceStepU, ih, bind_assoc, pure_bind, BitVec.setWidth_eq]

theorem rice2U_eq (k : Nat) (buf : List I32) :
    (rice2PartitionLoop k buf : Dec (Bitstream Flat) _) = loopN (riceStepU k (readLeqU32 k)) buf := by
  induction buf with
  | nil => rfl
  | cons x buf ih =>
    simp only [rice2PartitionLoop, loopN, riceStepU, ih, bind_assoc, pure_bind, BitVec.setWidth_eq]

theorem lreads_riceStep {w k : Nat} {rd : Dec (Bitstream Flat) (BitVec w)} (hk : k < 32) (hw : k ≤ w)
    (hrd : ∀ v, v < 2 ^ k → LReads rd (natToBits k v) (BitVec.ofNat w v)) (r : Int)
    : LReads (riceStepU k rd) (riceBits k r) (resI32 r) := by
  have hm : fold r % 2 ^ k < 2 ^ k := Nat.mod_lt _ (Nat.two_pow_pos _)
  apply (lreads_readUnary _).bind
  apply (hrd _ hm).bind_nil
  apply LReads.bind_ok (shl_okU hk)
  rw [ofNat_mod, rice_value hk hm hw, Nat.div_add_mod', unfold_fold]
  exact LReads.pure _

theorem ltriple_riceStep {w k : Nat} {rd : Dec (Bitstream Flat) (BitVec w)} (hk : k < 32) (hw : k ≤ w)
    (hrd : LTriple rd (fun u a => u = natToBits k a.toNat ∧ a.toNat < 2 ^ k)) :
    LTriple (riceStepU k rd) (fun u a => ∃ r, True ∧ u = riceBits k r ∧ a = resI32 r) := by
  apply ltriple_readUnary.bind
  rintro u _ ⟨q, hu, rfl⟩
  apply hrd.bind
  rintro u' a ⟨hu', ha⟩
  apply LTriple.bind_ok (shl_okU hk)
  apply LTriple.pure
  refine ⟨unfold (q * 2 ^ k + a.toNat), trivial, ?_, ?_⟩
  · rw [riceBits, fold_unfold, hu, hu', List.append_nil, Nat.mul_comm,
      Nat.mul_add_div (Nat.two_pow_pos _), Nat.div_eq_of_lt ha, Nat.mul_add_mod,
      Nat.mod_eq_of_lt ha, Nat.add_zero]
  · rw [← rice_value hk ha hw, ofNat_mod]
    simp

/-- A partition, without overflow checks. -/
def partitionDecU (m : RiceMethod) (buf : List I32) : Dec (Bitstream Flat) (List I32) :=
  match m with
  | .rice => decodeRicePartition buf
  | .rice2 => decodeRice2Partition buf

theorem lreads_partition (m : RiceMethod) (p : Partition) (hp : p.param ≤ m.maxParam) (buf : List I32) (hlen : buf.length = p.values.length) :
    LReads (partitionDecU m buf) (p.bits m) (p.values.map resI32) := by
  cases m with
  | rice =>
    simp only [RiceMethod.maxParam] at hp
    apply (lreads_readLeqU8 (k := 4) (by omega) (show p.param < 2 ^ 4 by omega)).bind
    simp only [toNat_ofNat8 (show p.param < 256 by omega)]
    rw [if_neg (by omega)]
    split
    · rw [smallU_eq]
      exact LReads.loopN _ (fun v _ => lreads_riceStep (by omega) (by omega)
        (fun _ h => lreads_readLeqU8 (by omega) h) v) _ hlen
    · rw [largeU_eq]
      exact LReads.loopN _ (fun v _ => lreads_riceStep (by omega) (by omega)
        (fun _ h => lreads_readGtU8LeqU16 (by omega) (by omega) h) v) _ hlen
  | rice2 =>
    simp only [RiceMethod.maxParam] at hp
    apply (lreads_readLeqU8 (k := 5) (by omega) (show p.param < 2 ^ 5 by omega)).bind
    simp only [toNat_ofNat8 (show p.param < 256 by omega)]
    rw [if_neg (by omega), rice2U_eq]
    exact LReads.loopN _ (fun v _ => lreads_riceStep (by omega) (by omega)
        (fun _ h => lreads_readLeqU32 (by omega) h) v) _ hlen

theorem ltriple_partition (m : RiceMethod) (buf : List I32) :
    LTriple (partitionDecU m buf) (fun u out => ∃ p : Partition, p.param ≤ m.maxParam ∧ p.values.length = buf.length ∧ u = p.bits m ∧ out = p.values.map resI32) := by
  have conv : ∀ (k : Nat) (u u' : List Bool) (out : List I32), u = natToBits m.paramBits k →
      k ≤ m.maxParam →
      (∃ vs : List Int, vs.length = buf.length ∧ (∀ v ∈ vs, True) ∧
        u' = vs.flatMap (riceBits k) ∧
        out = vs.map resI32) →
      ∃ p : Partition, p.param ≤ m.maxParam ∧
        p.values.length = buf.length ∧ u ++ u' = p.bits m ∧ out = p.values.map resI32 := by
    rintro k u u' out hu hk ⟨vs, h1, -, h2, h3⟩
    exact ⟨⟨k, vs⟩, hk, h1, by rw [Partition.bits, hu, h2], h3⟩
  cases m with
  | rice =>
    apply (ltriple_readLeqU8 (k := 4) (by omega)).bind
    rintro u a ⟨hu, ha⟩
    simp only
    by_cases h15 : a.toNat = 0b1111
    · rw [if_pos h15]; exact LTriple.err _
    · rw [if_neg h15]
      split
      · rw [smallU_eq]
        exact (LTriple.loopN (ltriple_riceStep (by omega) (by omega)
          (ltriple_readLeqU8 (by omega))) buf).mono
          fun u' out h => conv a.toNat u u' out hu (by show _ ≤ 14; omega) h
      · rw [largeU_eq]
        exact (LTriple.loopN (ltriple_riceStep (by omega) (by omega)
          (ltriple_readGtU8LeqU16 (by omega) (by omega))) buf).mono
          fun u' out h => conv a.toNat u u' out hu (by show _ ≤ 14; omega) h
  | rice2 =>
    apply (ltriple_readLeqU8 (k := 5) (by omega)).bind
    rintro u a ⟨hu, ha⟩
    simp only
    by_cases h15 : a.toNat = 0b11111
    · rw [if_pos h15]; exact LTriple.err _
    · rw [if_neg h15, rice2U_eq]
      exact (LTriple.loopN (ltriple_riceStep (by omega) (by omega)
          (ltriple_readLeqU32 (by omega))) buf).mono
          fun u' out h => conv a.toNat u u' out hu (by show _ ≤ 30; omega) h

theorem partitionLoopU_succ (m : RiceMethod) (nspp n start len : Nat) (buffer : List I32) :
    (partitionLoop (ptypeOf m) nspp (n + 1) start len buffer : Dec (Bitstream Flat) _) =
      (withSlice buffer start (start + len) (partitionDecU m) >>= fun buffer' =>
        partitionLoop (ptypeOf m) nspp n (start + len) nspp buffer') := by
  cases m <;> rfl

theorem lreads_partitionLoop (m : RiceMethod) (nspp : Nat) (ps : List Partition) :
    ∀ (start len : Nat) (buffer : List I32),
    ps.map (fun p => p.values.length) = sizesFrom nspp ps.length len →
    (∀ p ∈ ps, p.param ≤ m.maxParam) →
    buffer.length = start + (ps.map fun p => p.values.length).sum →
    LReads (partitionLoop (ptypeOf m) nspp ps.length start len buffer)
      (ps.flatMap (Partition.bits m))
      (buffer.take start ++ (ps.flatMap Partition.values).map resI32) := by
  induction ps with
  | nil =>
    intro start len buffer _ _ hlen
    have : buffer.take start = buffer := List.take_of_length_le (by simp at hlen; omega)
    simp only [List.flatMap_nil, List.map_nil, List.append_nil, this]
    exact LReads.pure _
  | cons p ps ih =>
    intro start len buffer hs hp hlen
    simp only [List.length_cons, List.map_cons, sizesFrom, List.cons.injEq] at hs
    simp only [List.map_cons, List.sum_cons] at hlen
    rw [List.length_cons, partitionLoopU_succ, List.flatMap_cons]
    have h1 := hp p (by simp)
    have hslice : LReads (withSlice buffer start (start + len) (partitionDecU m)) (p.bits m)
        (buffer.take start ++ p.values.map resI32 ++ buffer.drop (start + len)) := by
      apply LReads.withSlice (by omega) (by omega)
      apply lreads_partition m p h1
      rw [List.length_drop, List.length_take]
      omega
    apply hslice.bind
    have hl : (buffer.take start ++ p.values.map resI32 ++ buffer.drop (start + len)).length =
        start + len + (ps.map fun p => p.values.length).sum := by
      simp only [List.length_append, List.length_take, List.length_map, List.length_drop]
      omega
    have := ih (start + len) nspp _ hs.2 (fun q hq => hp q (by simp [hq])) hl
    refine this.congr rfl ?_
    have htake : (buffer.take start ++ p.values.map resI32 ++ buffer.drop (start + len)).take (start + len) =
        buffer.take start ++ p.values.map resI32 := by
      apply List.take_left'
      simp only [List.length_append, List.length_take, List.length_map]
      omega
    rw [htake, List.flatMap_cons, List.map_append, List.append_assoc]

theorem ltriple_partitionLoop (m : RiceMethod) (nspp n : Nat) :
    ∀ (start len : Nat) (buffer : List I32),
    buffer.length = start + (sizesFrom nspp n len).sum →
    LTriple (partitionLoop (ptypeOf m) nspp n start len buffer)
      (fun u out => ∃ ps : List Partition, ps.length = n ∧
        ps.map (fun p => p.values.length) = sizesFrom nspp n len ∧
        (∀ p ∈ ps, p.param ≤ m.maxParam) ∧
        u = ps.flatMap (Partition.bits m) ∧
        out = buffer.take start ++ (ps.flatMap Partition.values).map resI32) := by
  induction n with
  | zero =>
    intro start len buffer hlen
    have : buffer.take start = buffer := List.take_of_length_le (by simp [sizesFrom] at hlen; omega)
    apply LTriple.pure
    exact ⟨[], rfl, rfl, by simp, rfl, by simp [this]⟩
  | succ n ih =>
    intro start len buffer hlen
    simp only [sizesFrom, List.sum_cons] at hlen
    rw [partitionLoopU_succ]
    have hslice : LTriple (withSlice buffer start (start + len) (partitionDecU m))
        (fun u out => ∃ p : Partition, p.param ≤ m.maxParam ∧ p.values.length = len ∧
          u = p.bits m ∧
          out = buffer.take start ++ p.values.map resI32 ++ buffer.drop (start + len)) := by
      apply LTriple.withSlice (by omega) (by omega) (ltriple_partition m _)
      rintro u out ⟨p, h1, h2, h3, h4⟩
      refine ⟨p, h1, ?_, h3, by rw [h4]⟩
      rw [h2, List.length_drop, List.length_take]
      omega
    apply hslice.bind
    rintro u buffer' ⟨p, h1, h2, h3, h4⟩
    have hl : buffer'.length = start + len + (sizesFrom nspp n nspp).sum := by
      rw [h4]
      simp only [List.length_append, List.length_take, List.length_map, List.length_drop]
      omega
    apply (ih (start + len) nspp buffer' hl).mono
    rintro u' out ⟨ps, g1, g2, g3, g4, g5⟩
    have htake : buffer'.take (start + len) = buffer.take start ++ p.values.map resI32 := by
      rw [h4]
      apply List.take_left'
      simp only [List.length_append, List.length_take, List.length_map]
      omega
    refine ⟨p :: ps, by simp [g1], by simp [g2, h2, sizesFrom], ?_, ?_, ?_⟩
    · intro q hq
      rcases List.mem_cons.1 hq with rfl | hq
      · exact h1
      · exact g3 q hq
    · rw [h3, g4, List.flatMap_cons]
    · rw [g5, htake, List.flatMap_cons, List.map_append, List.append_assoc]

theorem lreads_residual (r : Residual) {bs order : Nat} (hbs : bs < 2 ^ 16) (ho : order ≤ bs)
    (hw : r.Loose bs order) (buffer : List I32)
    (hlen : buffer.length = bs - order) :
    LReads (decodeResidual bs buffer) r.bits (r.values.map resI32) := by
  obtain ⟨hpo, hdiv, hfirst, hparams, hsizes⟩ := hw
  have hnp : r.partitions.length = 2 ^ r.partitionOrder := by
    have := congrArg List.length hsizes
    simp [partitionSizes] at this
    have : 0 < 2 ^ r.partitionOrder := Nat.two_pow_pos _
    omega
  have hpow : 2 ^ r.partitionOrder ≤ 2 ^ 15 := Nat.pow_le_pow_right (by omega) hpo
  rw [Residual.bits, List.append_assoc]
  apply (lreads_readLeqU8 (k := 2) (by omega) (show r.method.code < 2 ^ 2 by
    cases r.method <;> decide)).bind
  simp only
  rw [code_ofNat r.method, pure_bind]
  apply (lreads_readLeqU8 (k := 4) (by omega) (show r.partitionOrder < 2 ^ 4 by omega)).bind
  simp only [toNat_ofNat8 (show r.partitionOrder < 256 by omega)]
  apply LReads.bind_ok (if_pos (by omega))
  apply LReads.bind_ok (if_pos (by omega))
  rw [and_mask _ _ hpo, if_neg (by simpa using hdiv), Nat.shiftRight_eq_div_pow]
  have hprod : 2 ^ r.partitionOrder * (bs / 2 ^ r.partitionOrder) = bs := by
    have := Nat.div_add_mod bs (2 ^ r.partitionOrder); omega
  apply LReads.bind_ok (mulU_okU (by rw [hprod]; omega))
  apply LReads.bind_ok (debugAssert_okU (by rw [hprod]; simp))
  rw [Nat.mod_eq_of_lt (show buffer.length < 2 ^ 16 by omega)]
  apply LReads.bind_ok (subU_okU (by omega))
  rw [show bs - buffer.length = order by omega, if_neg (by omega)]
  apply LReads.bind_ok (subU_okU hfirst)
  have := lreads_partitionLoop r.method (bs / 2 ^ r.partitionOrder) r.partitions 0
    (bs / 2 ^ r.partitionOrder - order) buffer
    (by rw [hsizes, partitionSizes_eq, hnp])
    (fun p hp => hparams p hp)
    (by rw [hsizes, partitionSizes_sum hdiv hfirst, hlen]; omega)
  rw [hnp] at this
  simpa [Residual.values] using this

theorem ltriple_residual {bs order : Nat} (hbs : bs < 2 ^ 16) (ho : order ≤ bs) (buffer : List I32)
    (hlen : buffer.length = bs - order) :
    LTriple (decodeResidual bs buffer) (fun u out => ∃ r : Residual, r.Loose bs order ∧
      u = r.bits ∧ out = r.values.map resI32) := by
  apply (ltriple_readLeqU8 (k := 2) (by omega)).bind
  rintro u1 code ⟨hu1, hcode⟩
  have hptype : LTriple (if code = 0b00#8 then pure .rice
     else if code = 0b01#8 then pure .rice2
     else fmtErr "invalid residual, encountered reserved value" : Dec (Bitstream Flat) RicePartitionType)
     (fun u p => u = [] ∧ ∃ m : RiceMethod, code.toNat = m.code ∧ p = ptypeOf m) := by
    split
    · rename_i h; subst h; exact LTriple.pure ⟨rfl, .rice, rfl, rfl⟩
    · split
      · rename_i h; subst h; exact LTriple.pure ⟨rfl, .rice2, rfl, rfl⟩
      · exact LTriple.err _
  apply hptype.bind
  rintro u2 p ⟨rfl, m, hm, rfl⟩
  apply (ltriple_readLeqU8 (k := 4) (by omega)).bind
  rintro u3 ob ⟨hu3, hob⟩
  have hpo : ob.toNat ≤ 15 := by omega
  have hpow : 2 ^ ob.toNat ≤ 2 ^ 15 := Nat.pow_le_pow_right (by omega) hpo
  simp only
  apply LTriple.bind_ok (if_pos (by omega))
  apply LTriple.bind_ok (if_pos (by omega))
  rw [and_mask _ _ hpo, Nat.shiftRight_eq_div_pow]
  split
  · exact LTriple.err _
  · rename_i hdiv
    have hdiv : bs % 2 ^ ob.toNat = 0 := by simpa using hdiv
    have hprod : 2 ^ ob.toNat * (bs / 2 ^ ob.toNat) = bs := by
      have := Nat.div_add_mod bs (2 ^ ob.toNat); omega
    apply LTriple.bind_ok (mulU_okU (by rw [hprod]; omega))
    apply LTriple.bind_ok (debugAssert_okU (by rw [hprod]; simp))
    rw [Nat.mod_eq_of_lt (show buffer.length < 2 ^ 16 by omega)]
    apply LTriple.bind_ok (subU_okU (by omega))
    rw [show bs - buffer.length = order by omega]
    split
    · exact LTriple.err _
    · rename_i hfirst
      have hfirst : order ≤ bs / 2 ^ ob.toNat := by omega
      apply LTriple.bind_ok (subU_okU hfirst)
      apply (ltriple_partitionLoop m _ _ _ _ buffer (by
        rw [← partitionSizes_eq, partitionSizes_sum hdiv hfirst, hlen]; omega)).mono
      rintro u4 out ⟨ps, h1, h2, h3, h4, h5⟩
      refine ⟨⟨m, ob.toNat, ps⟩, ⟨hpo, hdiv, hfirst, h3,
        by rw [h2, partitionSizes_eq]⟩, ?_, ?_⟩
      · simp only [Residual.bits]
        rw [hu1, hu3, h4, hm]
        simp
      · rw [h5]
        simp [Residual.values]

/-! ### Subframes -/

theorem lreads_verbatim {bps : Nat} (h0 : 0 < bps) (h32 : bps ≤ 32) (vs : List Int) (hv : ∀ v ∈ vs, FitsIn bps v)
    (buffer : List I32) (hlen : buffer.length = vs.length) :
    LReads (decodeVerbatim bps buffer) (vs.flatMap (intToBits bps)) (vs.map (BitVec.ofInt 32)) :=
  .of (reads_verbatim h0 h32 vs hv buffer hlen) (same_decodeVerbatim _ _ _ _ _ (refRd_refl _))

theorem ltriple_verbatim {bps : Nat} (h0 : 0 < bps) (h32 : bps ≤ 32) (buffer : List I32) :
    LTriple (decodeVerbatim bps buffer) (fun u out => ∃ vs : List Int, vs.length = buffer.length ∧
      (∀ v ∈ vs, FitsIn bps v) ∧ u = vs.flatMap (intToBits bps) ∧ out = vs.map (BitVec.ofInt 32)) :=
  .of (triple_verbatim h0 h32 buffer) (overflows_verbatim h0 h32 buffer) (same_decodeVerbatim _ _ _ _ _ (refRd_refl _))

theorem lreads_readCoefficients {prec : Nat} (h0 : 0 < prec) (h16 : prec ≤ 16) (coefs : List Int) (arr : List I16)
    (hc : ∀ c ∈ coefs, FitsIn prec c) (hn : coefs.length ≤ arr.length) :
    LReads (readCoefficients prec coefs.length arr) (coefs.flatMap (intToBits prec))
      ((coefs.map (BitVec.ofInt 16)).reverse ++ arr.drop coefs.length) :=
  .of (reads_readCoefficients h0 h16 coefs arr hc hn) (same_readCoefficients _ _ _ _ _ _ (refRd_refl _))

theorem ltriple_readCoefficients {prec : Nat} (h0 : 0 < prec) (h16 : prec ≤ 16) (n : Nat) (arr : List I16)
    (hn : n ≤ arr.length) :
    LTriple (readCoefficients prec n arr) (fun u out => ∃ coefs : List Int, coefs.length = n ∧
      (∀ c ∈ coefs, FitsIn prec c) ∧ u = coefs.flatMap (intToBits prec) ∧
      out = (coefs.map (BitVec.ofInt 16)).reverse ++ arr.drop n) :=
  .of (triple_readCoefficients h0 h16 n arr hn) (overflows_readCoefficients h0 h16 n arr hn _)
    (same_readCoefficients _ _ _ _ _ _ (refRd_refl _))

theorem lreads_fixed {bps : Nat} (h0 : 0 < bps) (h32 : bps ≤ 32) (warm : List Int) (r : Residual)
    (buffer : List I32) (hbs : buffer.length < 2 ^ 16)
    (hw : (Coding.fixed warm r).Loose bps buffer.length) :
    LReads (decodeFixed bps warm.length buffer) ((Coding.fixed warm r).bits bps)
      (((Coding.fixed warm r).samplesWith .wrap32 buffer.length).map (BitVec.ofInt 32)) := by
  obtain ⟨h4, hv, hres⟩ := hw
  have ho := Residual.Loose.order_le hres
  unfold decodeFixed
  rw [if_neg (by omega)]
  apply LReads.bind (LReads.withSlice (Nat.zero_le _) ho
    (lreads_verbatim h0 h32 warm hv _ (slice_head ho)))
  simp only [List.take_zero, List.nil_append]
  have hlen : (warm.map (BitVec.ofInt 32) ++ buffer.drop warm.length).length = buffer.length := by
    simp; omega
  rw [hlen, Nat.mod_eq_of_lt hbs]
  apply LReads.bind_nil (LReads.withSlice ho (by omega)
    (lreads_residual r hbs ho hres _ (by simp; omega)))
  rw [List.take_left' (by simp), List.drop_of_length_le (by omega), List.append_nil]
  obtain ⟨tail, h1, h2⟩ := predictFixed_spec warm.length h4 (warm.map (BitVec.ofInt 32))
    (r.values.map resI32) (by simp)
  exact (LReads.lift_ok ((same_predictFixed _ _ _).of_ok h1)).congr rfl (predicted h32 hv h2)

theorem ltriple_fixed {bps : Nat} (h0 : 0 < bps) (h32 : bps ≤ 32) {order : Nat} (h4 : order ≤ 4)
    (buffer : List I32) (hbs : buffer.length < 2 ^ 16) :
    LTriple (decodeFixed bps order buffer) (fun u out => ∃ warm r, warm.length = order ∧
      (Coding.fixed warm r).Loose bps buffer.length ∧
      u = (Coding.fixed warm r).bits bps ∧
      out = ((Coding.fixed warm r).samplesWith .wrap32 buffer.length).map (BitVec.ofInt 32)) := by
  unfold decodeFixed
  split
  · exact LTriple.err _
  rename_i ho
  have ho : order ≤ buffer.length := by omega
  apply LTriple.bind (LTriple.withSlice (Nat.zero_le _) ho (ltriple_verbatim h0 h32 _)
    (Q := fun u out => ∃ warm : List Int, warm.length = order ∧ (∀ v ∈ warm, FitsIn bps v) ∧
      u = warm.flatMap (intToBits bps) ∧
      out = warm.map (BitVec.ofInt 32) ++ buffer.drop order) (by
    rintro u out ⟨vs, h1, h2, h3, h4⟩
    exact ⟨vs, by rw [h1, slice_head ho], h2, h3, by simp [h4]⟩))
  rintro u1 b1 ⟨warm, hwlen, hv, hu1, rfl⟩
  have hlen : (warm.map (BitVec.ofInt 32) ++ buffer.drop order).length = buffer.length := by
    simp; omega
  rw [hlen, Nat.mod_eq_of_lt hbs]
  apply LTriple.bind (LTriple.withSlice ho (by omega) (ltriple_residual hbs ho _ (by simp; omega))
    (Q := fun u out => ∃ r : Residual, r.Loose buffer.length order ∧ u = r.bits ∧
      out = warm.map (BitVec.ofInt 32) ++ r.values.map resI32) (by
    rintro u out ⟨r, h1, h2, h3⟩
    refine ⟨r, h1, h2, ?_⟩
    rw [h3, List.take_left' (by simp [hwlen]), List.drop_of_length_le (by omega), List.append_nil]))
  rintro u2 b2 ⟨r, hres, hu2, rfl⟩
  obtain ⟨tail, h1, h2⟩ := predictFixed_spec order h4 (warm.map (BitVec.ofInt 32))
    (r.values.map resI32) (by simp [hwlen])
  apply LTriple.lift_ok ((same_predictFixed _ _ _).of_ok h1)
  refine ⟨warm, r, hwlen, ⟨by omega, hv, by rw [hwlen]; exact hres⟩, ?_, ?_⟩
  · rw [hu1, hu2, List.append_nil]; rfl
  · simp only [Coding.samplesWith, hwlen]
    exact predicted h32 hv h2

theorem lreads_lpc {bps : Nat} (h0 : 0 < bps) (h32 : bps ≤ 32) (warm : List Int) (prec shift : Nat)
    (coefs : List Int) (r : Residual) (buffer : List I32) (hbs : buffer.length < 2 ^ 16)
    (hw : (Coding.lpc warm prec shift coefs r).Loose bps buffer.length) :
    LReads (decodeLpc bps warm.length buffer) ((Coding.lpc warm prec shift coefs r).bits bps)
      (((Coding.lpc warm prec shift coefs r).samplesWith .wrap32 buffer.length).map
        (BitVec.ofInt 32)) := by
  obtain ⟨h1, hw32, hv, hp1, hp15, hs15, hclen, hc, hres⟩ := hw
  have ho := Residual.Loose.order_le hres
  unfold decodeLpc
  apply LReads.bind_ok (debugAssert_okU (decide_eq_true hw32))
  rw [if_neg (by omega), Coding.bits]
  simp only [List.append_assoc]
  apply LReads.bind (LReads.withSlice (Nat.zero_le _) ho
    (lreads_verbatim h0 h32 warm hv _ (slice_head ho)))
  simp only [List.take_zero, List.nil_append]
  have hlen : (warm.map (BitVec.ofInt 32) ++ buffer.drop warm.length).length = buffer.length := by
    simp; omega
  rw [hlen, Nat.mod_eq_of_lt hbs]
  apply (lreads_readLeqU8 (k := 4) (by omega) (show prec - 1 < 2 ^ 4 by omega)).bind
  simp only [toNat_ofNat8 (show prec - 1 < 256 by omega)]
  rw [if_neg (by omega)]
  apply (lreads_readLeqU16 (by omega) (emod_toNat_lt shift 5)).bind
  apply LReads.bind_ok ((same_extendSignU16 _ _ _).of_ok (shift5 hs15).1)
  rw [(shift5 hs15).2, if_neg (by omega), show prec - 1 + 1 = prec by omega, ← hclen]
  apply (lreads_readCoefficients (by omega) (by omega) coefs (List.replicate 32 0#16) hc
    (by simp; omega)).bind
  rw [hclen]
  apply LReads.bind_nil (LReads.withSlice ho (by omega)
    (lreads_residual r hbs ho hres _ (by simp; omega)))
  rw [List.take_left' (by simp), List.drop_of_length_le (Nat.le_of_eq hlen), List.append_nil]
  apply LReads.bind_ok (slice_ok ⟨Nat.zero_le _, by simp; omega⟩)
  rw [List.drop_zero, List.take_left' (by simp; omega)]
  obtain ⟨res, h1, h2⟩ := predictLpc_spec h32 (by omega) hv hc hclen hw32 hs15 (vals := r.values)
  rw [h1] at h2
  rw [Ref.of_pure (Sim.ite (fun _ => Ref.lift (same_predictLpcLowOrder _ _ _ _))
    fun _ => Ref.lift (same_predictLpcHighOrder _ _ _ _)) h2]
  exact LReads.pure _

theorem ltriple_lpc {bps : Nat} (h0 : 0 < bps) (h32 : bps ≤ 32) {order : Nat} (ho1 : 1 ≤ order)
    (ho32 : order ≤ 32) (buffer : List I32) (hbs : buffer.length < 2 ^ 16) :
    LTriple (decodeLpc bps order buffer) (fun u out => ∃ warm prec shift coefs r,
      warm.length = order ∧
      (Coding.lpc warm prec shift coefs r).Loose bps buffer.length ∧
      u = (Coding.lpc warm prec shift coefs r).bits bps ∧
      out = ((Coding.lpc warm prec shift coefs r).samplesWith .wrap32 buffer.length).map
        (BitVec.ofInt 32)) := by
  unfold decodeLpc
  apply LTriple.bind_ok (debugAssert_okU (decide_eq_true ho32))
  split
  · exact LTriple.err _
  rename_i ho
  have ho : order ≤ buffer.length := by omega
  apply LTriple.bind (LTriple.withSlice (Nat.zero_le _) ho (ltriple_verbatim h0 h32 _)
    (Q := fun u out => ∃ warm : List Int, warm.length = order ∧ (∀ v ∈ warm, FitsIn bps v) ∧
      u = warm.flatMap (intToBits bps) ∧
      out = warm.map (BitVec.ofInt 32) ++ buffer.drop order) (by
    rintro u out ⟨vs, h1, h2, h3, h4⟩
    exact ⟨vs, by rw [h1, slice_head ho], h2, h3, by simp [h4]⟩))
  rintro u1 b1 ⟨warm, hwlen, hv, hu1, rfl⟩
  have hlen : (warm.map (BitVec.ofInt 32) ++ buffer.drop order).length = buffer.length := by
    simp; omega
  rw [hlen, Nat.mod_eq_of_lt hbs]
  apply (ltriple_readLeqU8 (k := 4) (by omega)).bind
  rintro u2 precMo ⟨hu2, hprec⟩
  simp only [Nat.add_sub_cancel]
  split
  · exact LTriple.err _
  rename_i hne
  apply (ltriple_readLeqU16 (k := 5) (by omega)).bind
  rintro u3 su ⟨hu3, hsu⟩
  apply LTriple.bind_ok (extendSignU16_okU (by omega) (by omega))
  have hsx := intToBits_signExt su (k := 5) (by omega) (by omega) hsu
  generalize hshift : (su <<< (16 - 5)).sshiftRight (16 - 5) = sh at hsx ⊢
  split
  · exact LTriple.err _
  rename_i hneg
  obtain ⟨shift, hshN⟩ : ∃ n : Nat, sh.toInt = n := ⟨sh.toInt.toNat, by omega⟩
  have hs15 : shift ≤ 15 := by
    have := hsx.2.2.1
    rw [hshN] at this
    norm_num at this
    omega
  have hsh : sh = BitVec.ofInt 16 (shift : Int) := by rw [← hshN, BitVec.ofInt_toInt]
  apply (ltriple_readCoefficients (by omega) (by omega) order (List.replicate 32 0#16)
    (by simp; omega)).bind
  rintro u4 arr ⟨coefs, hclen, hc, hu4, rfl⟩
  apply LTriple.bind (LTriple.withSlice ho (by omega) (ltriple_residual hbs ho _ (by simp; omega))
    (Q := fun u out => ∃ r : Residual, r.Loose buffer.length order ∧ u = r.bits ∧
      out = warm.map (BitVec.ofInt 32) ++ r.values.map resI32) (by
    rintro u out ⟨r, h1, h2, h3⟩
    refine ⟨r, h1, h2, ?_⟩
    rw [h3, List.take_left' (by simp [hwlen]), List.drop_of_length_le (by omega), List.append_nil]))
  rintro u5 b2 ⟨r, hres, hu5, rfl⟩
  apply LTriple.bind_ok (slice_ok ⟨Nat.zero_le _, by simp; omega⟩)
  rw [List.drop_zero, List.take_left' (by simp; omega)]
  obtain ⟨res, h1, h2⟩ := predictLpc_spec (prec := precMo.toNat + 1) h32 (by omega) hv hc
    (by omega) (by omega) hs15 (vals := r.values)
  rw [h1] at h2
  rw [hsh, ← hwlen, Ref.of_pure (Sim.ite (fun _ => Ref.lift (same_predictLpcLowOrder _ _ _ _))
    fun _ => Ref.lift (same_predictLpcHighOrder _ _ _ _)) h2]
  apply LTriple.pure
  refine ⟨warm, precMo.toNat + 1, shift, coefs, r, rfl, ⟨by omega, by omega, hv, by omega, by omega,
    hs15, by omega, hc, by rw [hwlen]; exact hres⟩, ?_, rfl⟩
  simp only [Coding.bits]
  rw [hu1, hu2, hu3, hu4, hu5, hsx.1, hshN]
  simp

/-- The body of a subframe, without overflow checks. -/
def decodeBodyU (t : SubframeType) (bps : Nat) (buffer : List I32) : Dec (Bitstream Flat) (List I32) :=
  match t with
  | .constant => decodeConstant bps buffer
  | .verbatim => decodeVerbatim bps buffer
  | .fixed ord => decodeFixed bps ord buffer
  | .lpc ord => decodeLpc bps ord buffer

/-- One sample, without overflow checks. -/
def sampleStepU (bps : Nat) : Dec (Bitstream Flat) I32 := do
  let unsigned ← readLeqU32 bps
  let signed ← extendSignU32 unsigned bps
  pure signed

theorem lreads_sampleStep {bps : Nat} (h0 : 0 < bps) (h32 : bps ≤ 32) {v : Int} (hv : FitsIn bps v) :
    LReads (sampleStepU bps) (intToBits bps v) (BitVec.ofInt 32 v) := by
  apply (lreads_readLeqU32 h32 (emod_toNat_lt v bps)).bind_nil
  apply LReads.lift_ok
  rw [extendSignU32_okU h0 h32, signExt_field h0 h32 hv]

theorem ltriple_sampleStep {bps : Nat} (h0 : 0 < bps) (h32 : bps ≤ 32) :
    LTriple (sampleStepU bps)
      (fun u a => ∃ v, FitsIn bps v ∧ u = intToBits bps v ∧ a = BitVec.ofInt 32 v) := by
  apply (ltriple_readLeqU32 h32).bind
  rintro u a ⟨hu, ha⟩
  apply LTriple.lift_ok (extendSignU32_okU h0 h32)
  have := intToBits_signExt a h0 h32 ha
  exact ⟨_, this.2, by rw [hu, List.append_nil]; exact this.1, by rw [BitVec.ofInt_toInt]⟩

theorem decodeConstantU_eq (bps : Nat) (buffer : List I32) :
    (decodeConstant bps buffer : Dec (Bitstream Flat) _) =
      (sampleStepU bps >>= fun s => pure (buffer.map fun _ => s)) := by
  simp only [decodeConstant, sampleStepU, bind_assoc]

theorem lreads_body (c : Coding) {bps : Nat} (h0 : 0 < bps) (h32 : bps ≤ 32) (buffer : List I32)
    (hbs : buffer.length < 2 ^ 16) (hw : c.Loose bps buffer.length) :
    LReads (decodeBodyU (typeOf c) bps buffer) (c.bits bps)
      ((c.samplesWith .wrap32 buffer.length).map (BitVec.ofInt 32)) := by
  cases c with
  | constant v =>
    simp only [typeOf, decodeBodyU, decodeConstantU_eq, Coding.samplesWith, List.map_replicate]
    apply (lreads_sampleStep h0 h32 hw).bind_nil
    rw [replicate_eq_map]
    exact LReads.pure _
  | verbatim vs => exact lreads_verbatim h0 h32 vs hw.2 buffer hw.1.symm
  | fixed warm r => exact lreads_fixed h0 h32 warm r buffer hbs hw
  | lpc warm p s cs r => exact lreads_lpc h0 h32 warm p s cs r buffer hbs hw

theorem ltriple_body (t : SubframeType) {bps : Nat} (h0 : 0 < bps) (h32 : bps ≤ 32) (buffer : List I32)
    (hbs : buffer.length < 2 ^ 16)
    (ht : TypeOk t) :
    LTriple (decodeBodyU t bps buffer) (fun u out => ∃ c : Coding, typeOf c = t ∧
      c.Loose bps buffer.length ∧ u = c.bits bps ∧
      out = (c.samplesWith .wrap32 buffer.length).map (BitVec.ofInt 32)) := by
  cases t with
  | constant =>
    simp only [decodeBodyU, decodeConstantU_eq]
    apply (ltriple_sampleStep h0 h32).bind
    rintro u a ⟨v, hv, hu, ha⟩
    apply LTriple.pure
    exact ⟨.constant v, rfl, hv, by rw [hu, List.append_nil]; rfl, by
      rw [replicate_eq_map, ha]; simp [Coding.samplesWith]⟩
  | verbatim =>
    apply (ltriple_verbatim h0 h32 buffer).mono
    rintro u out ⟨vs, h1, h2, h3, h4⟩
    exact ⟨.verbatim vs, rfl, ⟨h1, h2⟩, h3, h4⟩
  | fixed n =>
    apply (ltriple_fixed h0 h32 ht buffer hbs).mono
    rintro u out ⟨warm, r, rfl, h2, h3, h4⟩
    exact ⟨.fixed warm r, rfl, h2, h3, h4⟩
  | lpc n =>
    apply (ltriple_lpc h0 h32 ht.1 ht.2 buffer hbs).mono
    rintro u out ⟨warm, p, s, cs, r, rfl, h2, h3, h4⟩
    exact ⟨.lpc warm p s cs r, rfl, h2, h3, h4⟩

/-- The number of wasted bits, without overflow checks. -/
def wastedDecU : Dec (Bitstream Flat) Nat := do
  let wastesBits ← readBit
  (if !wastesBits then pure 0
    else do
      let k ← readUnary
      let k1 ← addU 32 1 k
      pure k1 : Dec (Bitstream Flat) Nat)

theorem readSubframeHeaderU_eq :
    (readSubframeHeader : Dec (Bitstream Flat) SubframeHeader) = (do
      let pad ← readBit
      if pad then fmtErr "invalid subframe header"
      else do
        let n ← readLeqU8 6
        let sfType ← subframeTypeOf n
        let wastedBits ← wastedDecU
        if wastedBits > 31 then fmtErr "wasted bits per sample must not exceed 31"
        else pure { sfType := sfType, wastedBitsPerSample := wastedBits }) := by
  simp only [readSubframeHeader, wastedDecU, bind_assoc]

theorem wrap_loose {bs bps : Nat} {c : Coding} (h32 : bps ≤ 32) (hw : c.Loose bps bs) :
    ((c.samplesWith .wrap32 bs).map fun v => Arith.wrap32.wrap (v * 2 ^ 0)) =
      c.samplesWith .wrap32 bs := by
  have key : ∀ v ∈ c.samplesWith .wrap32 bs, FitsIn 32 v := by
    have hrec : ∀ (p : List Int → Int) (rs past : List Int),
        ∀ v ∈ reconstruct Arith.wrap32 p past rs, FitsIn 32 v := by
      intro p rs
      induction rs with
      | nil => intro past v hv; simp [reconstruct] at hv
      | cons r rs ih =>
        intro past v hv
        rw [reconstruct] at hv
        rcases List.mem_cons.1 hv with rfl | hv
        · exact fits_bmod (by omega) _
        · exact ih _ v hv
    cases c with
    | constant v =>
      intro w hm
      rw [Coding.samplesWith, List.mem_replicate] at hm
      rw [hm.2]; exact FitsIn.mono hw h32
    | verbatim vs => intro w hm; exact FitsIn.mono (hw.2 w hm) h32
    | fixed warm r =>
      intro w hm
      rcases List.mem_append.1 hm with hm | hm
      · exact FitsIn.mono (hw.2.1 w hm) h32
      · exact hrec _ _ _ w hm
    | lpc warm p s cs r =>
      intro w hm
      rcases List.mem_append.1 hm with hm | hm
      · exact FitsIn.mono (hw.2.2.1 w hm) h32
      · exact hrec _ _ _ w hm
  conv_rhs => rw [← List.map_id (c.samplesWith .wrap32 bs)]
  apply List.map_congr_left
  intro v hv
  rw [Int.pow_zero, Int.mul_one]
  exact bmod_of_fits (key v hv)

theorem looseTypeCode (c : Coding) {bps bs : Nat} (hw : c.Loose bps bs) :
    c.typeCode < 2 ^ 6 ∧
    (subframeTypeOf (BitVec.ofNat 8 c.typeCode) : Dec (Bitstream Flat) SubframeType) = Pure.pure (typeOf c) := by
  cases c with
  | constant v => exact ⟨by simp [Coding.typeCode], rfl⟩
  | verbatim vs => exact ⟨by simp [Coding.typeCode], rfl⟩
  | fixed warm r =>
    have h4 := hw.1
    simp only [Coding.typeCode, typeOf]
    generalize warm.length = n at h4
    refine ⟨by omega, ?_⟩
    have : n = 0 ∨ n = 1 ∨ n = 2 ∨ n = 3 ∨ n = 4 := by omega
    rcases this with rfl | rfl | rfl | rfl | rfl <;> rfl
  | lpc warm p s cs r =>
    have h1 := hw.1
    have h2 := hw.2.1
    simp only [Coding.typeCode, typeOf]
    generalize warm.length = n at h1 h2
    refine ⟨by omega, ?_⟩
    obtain ⟨m, rfl⟩ : ∃ m, n = m + 1 := ⟨n - 1, by omega⟩
    rw [Nat.add_sub_cancel]
    have hm : m < 32 := by omega
    have key : ∀ m : Fin 32, ¬ (BitVec.ofNat 8 (32 + m.val) = 0#8) ∧
      ¬ (BitVec.ofNat 8 (32 + m.val) = 1#8) ∧
      ¬ (BitVec.ofNat 8 (32 + m.val) &&& 0b111_110#8 = 0b000_010#8 ∨
        BitVec.ofNat 8 (32 + m.val) &&& 0b111_100#8 = 0b000_100#8 ∨
        BitVec.ofNat 8 (32 + m.val) &&& 0b110_000#8 = 0b010_000#8) ∧
      ¬ (BitVec.ofNat 8 (32 + m.val) &&& 0b111_000#8 = 0b001_000#8) ∧
      (BitVec.ofNat 8 (32 + m.val) &&& 0b011_111#8).toNat = m.val := by decide +kernel
    obtain ⟨k1, k2, k3, k4, k5⟩ := key ⟨m, hm⟩
    simp only at k1 k2 k3 k4 k5
    rw [subframeTypeOf, if_neg k1, if_neg k2, if_neg k3, if_neg k4]
    simp only [k5]

theorem addU_wraps (n : Nat) : addU 32 1 (n % 2 ^ 32) = .ok ((n + 1) % 2 ^ 32) := by
  unfold addU orPanic
  rw [if_neg (by decide : ¬ (uncheckedBuild.checked = true))]
  split
  · rename_i hlt
    congr 1
    omega
  · show Except.ok _ = Except.ok _
    congr 1
    omega

/-- Wasted bits are counted modulo `2 ^ 32`. -/
theorem lreads_wasted (k : Nat) : LReads wastedDecU (wastedBits k) (k % 2 ^ 32) := by
  unfold wastedBits
  split
  · rename_i h; subst h
    exact (lreads_readBit false).bind_nil (LReads.pure _)
  · rename_i h
    apply LReads.congr ((lreads_readBit true).bind (c := k % 2 ^ 32) (cs := unaryBits (k - 1)) _) rfl rfl
    rw [if_neg (by decide)]
    apply (lreads_readUnary _).bind_nil
    exact (LReads.lift_ok (addU_wraps _)).congr rfl (by rw [Nat.sub_add_cancel (by omega)])

theorem ltriple_wasted : LTriple wastedDecU (fun u a => ∃ k, u = wastedBits k ∧ a = k % 2 ^ 32) := by
  apply ltriple_readBit.bind
  rintro u a rfl
  cases a with
  | false => exact LTriple.pure ⟨0, rfl, rfl⟩
  | true =>
    rw [if_neg (by decide)]
    apply ltriple_readUnary.bind
    rintro u _ ⟨n, rfl, rfl⟩
    exact LTriple.lift_ok (addU_wraps _) ⟨n + 1, by simp [wastedBits], rfl⟩

theorem lreads_subframe {bps : Nat} (h32 : bps ≤ 32) (s : Subframe) (buffer : List I32)
    (hbs : buffer.length < 2 ^ 16) (hw : s.Loose bps buffer.length) :
    LReads (decodeSubframe bps buffer) (s.looseBits bps)
      ((s.reduced.samplesWith .wrap32 buffer.length).map (BitVec.ofInt 32)) := by
  obtain ⟨hwaste, hcod⟩ := hw
  apply LReads.bind_ok (debugAssert_okU (decide_eq_true h32))
  have hhead : LReads readSubframeHeader
      (false :: natToBits 6 s.coding.typeCode ++ wastedBits s.wasted)
      ⟨typeOf s.coding, s.reduced.wasted⟩ := by
    rw [readSubframeHeaderU_eq]
    show LReads _ ([false] ++ natToBits 6 s.coding.typeCode ++ wastedBits s.wasted) _
    rw [List.append_assoc]
    apply (lreads_readBit false).bind
    simp only [Bool.false_eq_true, if_false]
    obtain ⟨h6, htype⟩ := looseTypeCode s.coding hcod
    apply (lreads_readLeqU8 (k := 6) (by omega) h6).bind
    rw [htype, pure_bind]
    apply (lreads_wasted s.wasted).bind_nil
    rw [if_neg (by show ¬ s.reduced.wasted > 31; omega)]
    exact LReads.pure _
  apply hhead.bind
  simp only
  generalize hk : s.reduced.wasted = k at hwaste hcod
  rw [if_neg (by omega)]
  have hbody := lreads_body s.coding (show 0 < bps - k by omega) (by omega) buffer hbs hcod
  have he : s.reduced.samplesWith .wrap32 buffer.length =
      (s.coding.samplesWith .wrap32 buffer.length).map fun v => Arith.wrap32.wrap (v * 2 ^ k) := by
    rw [Subframe.samplesWith, hk]; rfl
  apply hbody.bind_nil
  split
  · apply LReads.bind_ok (debugAssert_okU (decide_eq_true (by omega)))
    rw [Nat.mod_eq_of_lt (by omega), map_shl, he]
    exact LReads.pure _
  · have : k = 0 := by omega
    refine (LReads.pure _).congr rfl ?_
    rw [he, this, wrap_loose (bps := bps - k) (by omega) hcod]

theorem ltriple_subframe {bps : Nat} (h32 : bps ≤ 32) (buffer : List I32)
    (hbs : buffer.length < 2 ^ 16) :
    LTriple (decodeSubframe bps buffer) (fun u out => ∃ s : Subframe,
      s.Loose bps buffer.length ∧ u = s.looseBits bps ∧
      out = (s.reduced.samplesWith .wrap32 buffer.length).map (BitVec.ofInt 32)) := by
  apply LTriple.bind_ok (debugAssert_okU (decide_eq_true h32))
  have hhead : LTriple readSubframeHeader (fun u h => h.wastedBitsPerSample ≤ 31 ∧
      (∃ w, h.wastedBitsPerSample = w % 2 ^ 32 ∧ ∀ c : Coding, typeOf c = h.sfType →
        u = false :: natToBits 6 c.typeCode ++ wastedBits w) ∧
      TypeOk h.sfType) := by
    rw [readSubframeHeaderU_eq]
    apply ltriple_readBit.bind
    rintro u1 pad rfl
    cases pad with
    | true => exact LTriple.err _
    | false =>
      simp only [Bool.false_eq_true, if_false]
      apply (ltriple_readLeqU8 (k := 6) (by omega)).bind
      rintro u2 n ⟨hu2, hn⟩
      apply (LTriple.same (triple_typeCode n hn)).bind
      rintro u3 t ⟨rfl, ht, htt⟩
      apply ltriple_wasted.bind
      rintro u4 _ ⟨w, rfl, rfl⟩
      split
      · exact LTriple.err _
      · apply LTriple.pure
        refine ⟨by simp only; omega, ⟨w, rfl, ?_⟩, htt⟩
        intro c hc
        rw [ht c hc, hu2]
        simp
  apply hhead.bind
  rintro u1 ⟨t, k⟩ ⟨h31, ⟨w, hk, hu1⟩, ht⟩
  simp only at h31 hk hu1 ht ⊢
  split
  · exact LTriple.err _
  rename_i hlt
  have hbody := ltriple_body t (show 0 < bps - k by omega) (by omega) buffer hbs ht
  apply hbody.bind
  rintro u2 out ⟨c, hc, hcw, hu2, rfl⟩
  have hbits : u1 ++ u2 = Subframe.looseBits bps ⟨c, w⟩ := by
    rw [hu1 c hc, hu2, hk]; rfl
  have he : Subframe.samplesWith .wrap32 buffer.length (Subframe.reduced ⟨c, w⟩) =
      (c.samplesWith .wrap32 buffer.length).map fun v => Arith.wrap32.wrap (v * 2 ^ k) := by
    rw [hk]; rfl
  have hl : Subframe.Loose bps buffer.length ⟨c, w⟩ := by
    refine ⟨?_, ?_⟩
    · show w % 2 ^ 32 < bps
      omega
    · show c.Loose (bps - w % 2 ^ 32) _
      rw [← hk]
      exact hcw
  split
  · apply LTriple.bind_ok (debugAssert_okU (decide_eq_true h31))
    apply LTriple.pure
    refine ⟨⟨c, w⟩, hl, ?_, ?_⟩
    · rw [List.append_nil, hbits]
    · rw [Nat.mod_eq_of_lt (by omega), map_shl, he]
  · have h0 : k = 0 := by omega
    apply LTriple.pure
    refine ⟨⟨c, w⟩, hl, ?_, ?_⟩
    · rw [List.append_nil, hbits]
    · rw [he, h0, wrap_loose (bps := bps - k) (by omega) hcw]

theorem length_loose (A : Arith) {bps bs : Nat} {s : Subframe} (h : s.Loose bps bs) :
    (s.reduced.samplesWith A bs).length = bs := by
  obtain ⟨_, hc⟩ := h
  unfold Subframe.samplesWith
  rw [List.length_map]
  rcases s with ⟨c, k⟩
  show (c.samplesWith A bs).length = bs
  simp only at hc
  cases c with
  | constant v => simp [Coding.samplesWith]
  | verbatim vs => exact hc.1
  | fixed warm r =>
    have h1 := Residual.Loose.length hc.2.2
    have h2 := Residual.Loose.order_le hc.2.2
    simp only [Coding.samplesWith, List.length_append, length_reconstruct, h1]
    omega
  | lpc warm p sh cs r =>
    have hr := hc.2.2.2.2.2.2.2.2
    have h1 := Residual.Loose.length hr
    have h2 := Residual.Loose.order_le hr
    simp only [Coding.samplesWith, List.length_append, length_reconstruct, h1]
    omega

theorem lreads_slice {bps bs : Nat} (h32 : bps ≤ 32) (hbs : bs < 2 ^ 16) {pre mid post : List I32} (hm : mid.length = bs) {s : Subframe} (hs : s.Loose bps bs)
    {a b : Nat} (ha : a = pre.length) (hb : b = pre.length + bs) :
    LReads (withSlice (pre ++ mid ++ post) a b (decodeSubframe bps)) (s.looseBits bps)
      (pre ++ subSamples bs s.reduced ++ post) := by
  have e1 : (pre ++ mid ++ post).take b = pre ++ mid := by
    rw [hb, ← hm, ← List.length_append, List.take_left]
  have e2 : ((pre ++ mid ++ post).take b).drop a = mid := by
    rw [e1, ha, List.drop_left]
  have e3 : (pre ++ mid ++ post).take a = pre := by
    rw [ha, List.append_assoc, List.take_left]
  have e4 : (pre ++ mid ++ post).drop b = post := by
    rw [hb, ← hm, ← List.length_append, List.drop_left]
  have := LReads.withSlice (buffer := pre ++ mid ++ post) (a := a) (b := b) (f := decodeSubframe bps)
    (by omega) (by simp; omega)
    (by rw [e2]; exact lreads_subframe h32 s mid (by omega) (by rw [hm]; exact hs))
  rw [e3, e4, hm] at this
  exact this

theorem ltriple_slice {bps bs : Nat} (h32 : bps ≤ 32) (hbs : bs < 2 ^ 16) {pre mid post : List I32} (hm : mid.length = bs)
    {a b : Nat} (ha : a = pre.length) (hb : b = pre.length + bs) :
    LTriple (withSlice (pre ++ mid ++ post) a b (decodeSubframe bps)) (fun u out => ∃ s : Subframe,
      s.Loose bps bs ∧ u = s.looseBits bps ∧ out = pre ++ subSamples bs s.reduced ++ post) := by
  have e1 : (pre ++ mid ++ post).take b = pre ++ mid := by
    rw [hb, ← hm, ← List.length_append, List.take_left]
  have e2 : ((pre ++ mid ++ post).take b).drop a = mid := by
    rw [e1, ha, List.drop_left]
  have e3 : (pre ++ mid ++ post).take a = pre := by
    rw [ha, List.append_assoc, List.take_left]
  have e4 : (pre ++ mid ++ post).drop b = post := by
    rw [hb, ← hm, ← List.length_append, List.drop_left]
  refine LTriple.withSlice (buffer := pre ++ mid ++ post) (a := a) (b := b) (f := decodeSubframe bps)
    (by omega) (by simp; omega)
    (by rw [e2]; exact ltriple_subframe h32 mid (by omega)) ?_
  rintro u out ⟨s, h1, h2, h3⟩
  rw [e3, e4]
  rw [hm] at h1 h3
  exact ⟨s, h1, h2, by rw [h3]; rfl⟩

theorem lreads_decodeIndependent {bps bs : Nat} (h32 : bps ≤ 32) (hbs : bs < 2 ^ 16) (subs : List Subframe) : ∀ (ch : Nat) (pre rest : List I32),
    pre.length = ch * bs → rest.length = subs.length * bs → (∀ s ∈ subs, s.Loose bps bs) →
    LReads (decodeIndependent bps bs subs.length ch (pre ++ rest)) (subs.flatMap (Subframe.looseBits bps))
      (pre ++ subs.flatMap fun s => subSamples bs s.reduced) := by
  induction subs with
  | nil =>
    intro ch pre rest _ h2 _
    have : rest = [] := List.length_eq_zero_iff.1 (by simpa using h2)
    subst this
    exact LReads.pure _
  | cons s subs ih =>
    intro ch pre rest h1 h2 hs
    rw [List.length_cons, Nat.add_mul, Nat.one_mul] at h2
    have hr := lreads_slice h32 hbs (pre := pre) (mid := rest.take bs) (post := rest.drop bs)
      (by rw [List.length_take]; omega) (hs s (by simp)) (a := ch * bs) (b := (ch + 1) * bs)
      h1.symm (by rw [h1]; ring)
    rw [List.append_assoc, List.take_append_drop] at hr
    show LReads (withSlice _ _ _ _ >>= _) (s.looseBits bps ++ subs.flatMap _) _
    refine (hr.bind (ih (ch + 1) (pre ++ subSamples bs s.reduced) (rest.drop bs) ?_ ?_ ?_)).congr rfl ?_
    · rw [List.length_append, subSamples, length_toI32, length_loose _ (hs s (by simp)), h1]
      ring
    · rw [List.length_drop]; omega
    · intro t ht; exact hs t (by simp [ht])
    · simp [List.append_assoc]

theorem ltriple_decodeIndependent {bps bs : Nat} (h32 : bps ≤ 32) (hbs : bs < 2 ^ 16) (n : Nat) : ∀ (ch : Nat) (pre rest : List I32),
    pre.length = ch * bs → rest.length = n * bs →
    LTriple (decodeIndependent bps bs n ch (pre ++ rest)) (fun u out => ∃ subs : List Subframe,
      subs.length = n ∧ (∀ s ∈ subs, s.Loose bps bs) ∧ u = subs.flatMap (Subframe.looseBits bps) ∧
      out = pre ++ subs.flatMap fun s => subSamples bs s.reduced) := by
  induction n with
  | zero =>
    intro ch pre rest _ h2
    have : rest = [] := List.length_eq_zero_iff.1 (by simpa using h2)
    subst this
    exact LTriple.pure ⟨[], rfl, by simp, rfl, rfl⟩
  | succ n ih =>
    intro ch pre rest h1 h2
    rw [Nat.add_mul, Nat.one_mul] at h2
    have hr := ltriple_slice h32 hbs (pre := pre) (mid := rest.take bs) (post := rest.drop bs)
      (by rw [List.length_take]; omega) (a := ch * bs) (b := (ch + 1) * bs)
      h1.symm (by rw [h1]; ring)
    rw [List.append_assoc, List.take_append_drop] at hr
    show LTriple (withSlice _ _ _ _ >>= _) _
    refine hr.bind ?_
    rintro _ _ ⟨s, hs, rfl, rfl⟩
    refine (ih (ch + 1) (pre ++ subSamples bs s.reduced) (rest.drop bs) ?_ ?_).mono ?_
    · rw [List.length_append, subSamples, length_toI32, length_loose _ hs, h1]
      ring
    · rw [List.length_drop]; omega
    · rintro _ _ ⟨subs, h3, h4, rfl, rfl⟩
      refine ⟨s :: subs, by simp [h3], ?_, by simp, by simp [List.append_assoc]⟩
      intro t ht
      rcases List.mem_cons.1 ht with rfl | ht
      · exact hs
      · exact h4 t ht

theorem lreads_decodePair {d1 d2 bs : Nat} (h1 : d1 ≤ 32) (h2 : d2 ≤ 32) (hbs : bs < 2 ^ 16)
    (g : List I32 → List I32) {buffer : List I32} (hb : buffer.length = 2 * bs) {s t : Subframe} (hs : s.Loose d1 bs) (ht : t.Loose d2 bs) :
    LReads (do
      let buffer ← withSlice buffer 0 bs (decodeSubframe d1)
      let buffer ← withSlice buffer bs (bs * 2) (decodeSubframe d2)
      withSlice buffer 0 (bs * 2) fun b => pure (g b))
      (s.looseBits d1 ++ t.looseBits d2) (g (subSamples bs s.reduced ++ subSamples bs t.reduced)) := by
  have ls : (subSamples bs s.reduced).length = bs := by
    rw [subSamples, length_toI32, length_loose _ hs]
  have lt : (subSamples bs t.reduced).length = bs := by
    rw [subSamples, length_toI32, length_loose _ ht]
  have r1 := lreads_slice h1 hbs (pre := []) (mid := buffer.take bs) (post := buffer.drop bs)
    (by rw [List.length_take]; omega) hs (a := 0) (b := bs) rfl (by simp)
  have r2 := lreads_slice h2 hbs (pre := subSamples bs s.reduced) (mid := buffer.drop bs) (post := [])
    (by rw [List.length_drop]; omega) ht (a := bs) (b := bs * 2) (by omega) (by omega)
  rw [List.nil_append, List.take_append_drop] at r1
  simp only [List.nil_append] at r1
  simp only [List.append_nil] at r2
  refine r1.bind (cs := t.looseBits d2) (r2.bind_nil ?_)
  have e : ((subSamples bs s.reduced ++ subSamples bs t.reduced).take (bs * 2)).drop 0 =
      subSamples bs s.reduced ++ subSamples bs t.reduced := by
    rw [List.drop_zero, List.take_of_length_le (by simp; omega)]
  have := LReads.withSlice (buffer := subSamples bs s.reduced ++ subSamples bs t.reduced) (a := 0) (b := bs * 2)
    (f := fun b => Pure.pure (g b)) (by omega) (by simp; omega) (by rw [e]; exact LReads.pure _)
  refine this.congr rfl ?_
  rw [List.drop_of_length_le (by simp; omega)]
  simp

theorem ltriple_decodePair {d1 d2 bs : Nat} (h1 : d1 ≤ 32) (h2 : d2 ≤ 32) (hbs : bs < 2 ^ 16)
    (g : List I32 → List I32) {buffer : List I32} (hb : buffer.length = 2 * bs) :
    LTriple (do
      let buffer ← withSlice buffer 0 bs (decodeSubframe d1)
      let buffer ← withSlice buffer bs (bs * 2) (decodeSubframe d2)
      withSlice buffer 0 (bs * 2) fun b => pure (g b))
      (fun u out => ∃ s t : Subframe, s.Loose d1 bs ∧ t.Loose d2 bs ∧
        u = s.looseBits d1 ++ t.looseBits d2 ∧ out = g (subSamples bs s.reduced ++ subSamples bs t.reduced)) := by
  have r1 := ltriple_slice h1 hbs (pre := []) (mid := buffer.take bs) (post := buffer.drop bs)
    (by rw [List.length_take]; omega) (a := 0) (b := bs) rfl (by simp)
  rw [List.nil_append, List.take_append_drop] at r1
  refine r1.bind ?_
  rintro _ _ ⟨s, hs, rfl, rfl⟩
  have ls : (subSamples bs s.reduced).length = bs := by
    rw [subSamples, length_toI32, length_loose _ hs]
  have r2 := ltriple_slice h2 hbs (pre := subSamples bs s.reduced) (mid := buffer.drop bs) (post := [])
    (by rw [List.length_drop]; omega) (a := bs) (b := bs * 2) (by omega) (by omega)
  simp only [List.append_nil] at r2
  simp only [List.nil_append]
  refine r2.bind ?_
  rintro _ _ ⟨t, ht, rfl, rfl⟩
  have lt : (subSamples bs t.reduced).length = bs := by
    rw [subSamples, length_toI32, length_loose _ ht]
  have e : ((subSamples bs s.reduced ++ subSamples bs t.reduced).take (bs * 2)).drop 0 =
      subSamples bs s.reduced ++ subSamples bs t.reduced := by
    rw [List.drop_zero, List.take_of_length_le (by simp; omega)]
  refine LTriple.withSlice (P := fun u out => u = [] ∧ out = g (subSamples bs s.reduced ++ subSamples bs t.reduced))
    (by omega) (by simp; omega) (by rw [e]; exact LTriple.pure ⟨rfl, rfl⟩) ?_
  rintro _ _ ⟨rfl, rfl⟩
  refine ⟨s, t, hs, ht, by simp, ?_⟩
  rw [List.drop_of_length_le (by simp; omega)]
  simp

theorem flatMap_reduced (bs : Nat) (subs : List Subframe) :
    (subs.flatMap fun s => subSamples bs s.reduced) = (subs.map Subframe.reduced).flatMap (subSamples bs) := by
  rw [List.flatMap_map]

theorem zipWith_replicate_any {α β γ : Type} (f : α → β → γ) {n : Nat} (d : α) {xs : List β} (h : xs.length = n) :
    List.zipWith f (List.replicate n d) xs = xs.map (f d) := by
  subst h
  induction xs with
  | nil => rfl
  | cons x xs ih => simp [List.replicate_succ, ih]

theorem lreads_decodeChannels (ch : ChannelField) {bps bs : Nat} (hbps : bps ≤ 31) (hbs : bs < 2 ^ 16)
    {buffer : List I32} (hb : buffer.length = ch.count * bs) {subs : List Subframe}
    (hc : subs.length = ch.count)
    (hs : ∀ p ∈ List.zip (ch.depths bps) subs, p.2.Loose p.1 bs) :
    LReads (decodeChannels (caOf ch) bps bs buffer)
      (List.zipWith Subframe.looseBits (ch.depths bps) subs).flatten
      (toI32 (ch.decorrelate Arith.wrap32.wrap ((subs.map Subframe.reduced).map (Subframe.samplesWith .wrap32 bs))).flatten) := by
  cases ch with
  | independent n =>
    have h1 : subs.length = n.val + 1 := hc
    have h2 := lreads_decodeIndependent (bps := bps) (bs := bs) (by omega) hbs subs 0 [] buffer
      (by simp) (by rw [hb, hc]) ((mem_zip_replicate h1 (P := fun d s => Subframe.Loose d bs s)).1 hs)
    rw [h1, List.nil_append, List.nil_append, flatMap_reduced, flatMap_subSamples] at h2
    refine h2.congr ?_ rfl
    simp only [ChannelField.depths]
    rw [zipWith_replicate_any _ _ h1, List.flatMap_def]
  | leftSide =>
    match subs, hc, hs with
    | [s, t], _, hs =>
      have hs1 := hs (bps, s) (by simp [ChannelField.depths])
      have hs2 := hs (bps + 1, t) (by simp [ChannelField.depths])
      refine (lreads_decodePair (by omega) (by omega) hbs decodeLeftSide hb hs1 hs2).congr ?_ ?_
      · simp [ChannelField.depths]
      · rw [subSamples, subSamples, decodeLeftSide_eq]
        · rfl
        · rw [length_loose _ hs1, length_loose _ hs2]
  | rightSide =>
    match subs, hc, hs with
    | [s, t], _, hs =>
      have hs1 := hs (bps + 1, s) (by simp [ChannelField.depths])
      have hs2 := hs (bps, t) (by simp [ChannelField.depths])
      refine (lreads_decodePair (by omega) (by omega) hbs decodeRightSide hb hs1 hs2).congr ?_ ?_
      · simp [ChannelField.depths]
      · rw [subSamples, subSamples, decodeRightSide_eq]
        · rfl
        · rw [length_loose _ hs1, length_loose _ hs2]
  | midSide =>
    match subs, hc, hs with
    | [s, t], _, hs =>
      have hs1 := hs (bps, s) (by simp [ChannelField.depths])
      have hs2 := hs (bps + 1, t) (by simp [ChannelField.depths])
      refine (lreads_decodePair (by omega) (by omega) hbs decodeMidSide hb hs1 hs2).congr ?_ ?_
      · simp [ChannelField.depths]
      · rw [subSamples, subSamples, decodeMidSide_eq]
        · rfl
        · rw [length_loose _ hs1, length_loose _ hs2]

theorem ltriple_decodeChannels (ch : ChannelField) {bps bs : Nat} (hbps : bps ≤ 31) (hbs : bs < 2 ^ 16)
    {buffer : List I32} (hb : buffer.length = ch.count * bs) :
    LTriple (decodeChannels (caOf ch) bps bs buffer) (fun u out => ∃ subs : List Subframe,
      subs.length = ch.count ∧
      (∀ p ∈ List.zip (ch.depths bps) subs, p.2.Loose p.1 bs) ∧
      u = (List.zipWith Subframe.looseBits (ch.depths bps) subs).flatten ∧
      out = toI32 (ch.decorrelate Arith.wrap32.wrap
        ((subs.map Subframe.reduced).map (Subframe.samplesWith .wrap32 bs))).flatten) := by
  cases ch with
  | independent n =>
    have h2 := ltriple_decodeIndependent (bps := bps) (bs := bs) (by omega) hbs (n.val + 1) 0 [] buffer
      (by simp) hb
    rw [List.nil_append] at h2
    refine h2.mono ?_
    rintro _ _ ⟨subs, h3, h4, rfl, rfl⟩
    refine ⟨subs, h3, (mem_zip_replicate h3 (P := fun d s => Subframe.Loose d bs s)).2 h4, ?_, ?_⟩
    · simp only [ChannelField.depths]
      rw [zipWith_replicate_any _ _ h3, List.flatMap_def]
    · rw [List.nil_append, flatMap_reduced, flatMap_subSamples]; rfl
  | leftSide =>
    refine (ltriple_decodePair (d1 := bps) (d2 := bps + 1) (by omega) (by omega) hbs decodeLeftSide
      hb).mono ?_
    rintro _ _ ⟨s, t, hs, ht, rfl, rfl⟩
    refine ⟨[s, t], rfl, ?_, by simp [ChannelField.depths], ?_⟩
    · simp [ChannelField.depths, hs, ht]
    · rw [subSamples, subSamples, decodeLeftSide_eq]
      · rfl
      · rw [length_loose _ hs, length_loose _ ht]
  | rightSide =>
    refine (ltriple_decodePair (d1 := bps + 1) (d2 := bps) (by omega) (by omega) hbs decodeRightSide
      hb).mono ?_
    rintro _ _ ⟨s, t, hs, ht, rfl, rfl⟩
    refine ⟨[s, t], rfl, ?_, by simp [ChannelField.depths], ?_⟩
    · simp [ChannelField.depths, hs, ht]
    · rw [subSamples, subSamples, decodeRightSide_eq]
      · rfl
      · rw [length_loose _ hs, length_loose _ ht]
  | midSide =>
    refine (ltriple_decodePair (d1 := bps) (d2 := bps + 1) (by omega) (by omega) hbs decodeMidSide
      hb).mono ?_
    rintro _ _ ⟨s, t, hs, ht, rfl, rfl⟩
    refine ⟨[s, t], rfl, ?_, by simp [ChannelField.depths], ?_⟩
    · simp [ChannelField.depths, hs, ht]
    · rw [subSamples, subSamples, decodeMidSide_eq]
      · rfl
      · rw [length_loose _ hs, length_loose _ ht]

/-! ### Frames -/

theorem loose_shape {bps : Nat} {f : Frame} (hw : f.Loose bps) :
    f.reduced.wrappedChannels.length = f.header.channels.count ∧
      ∀ c ∈ f.reduced.wrappedChannels, c.length = f.header.blockSize.size := by
  show (ChannelField.decorrelate _ f.header.channels _).length = _ ∧
    ∀ c ∈ ChannelField.decorrelate _ f.header.channels _, _
  apply decorrelate_shape
  · rw [List.length_map, Frame.reduced, List.length_map, hw.count]
  · intro xs hxs
    obtain ⟨t, ht, rfl⟩ := List.mem_map.1 hxs
    obtain ⟨s, hs, rfl⟩ := List.mem_map.1 ht
    obtain ⟨d, hd⟩ := mem_zip_right (xs := f.header.channels.depths bps)
      (by rw [length_depths, hw.count]) hs
    exact length_loose _ (hw.subframes _ hd)

theorem loose_block {bps : Nat} {f : Frame} (hw : f.Loose bps) (buffer : VecI32) :
    Block.new f.header.time f.header.blockSize.size
      { data := toI32 f.reduced.wrappedChannels.flatten
        cap := (ensureBufferLen buffer (f.header.channels.count * f.header.blockSize.size)).cap } =
      .ok (blockOf f.reduced buffer) := by
  have h1 := size_bounds f.header.blockSize
  have h2 := count_bounds f.header.channels
  obtain ⟨h3, h4⟩ := loose_shape hw
  unfold Block.new blockOf VecI32.len
  rw [if_neg (by omega)]
  simp only
  congr 2
  rw [length_toI32, length_flatten_of h4, h3, Nat.mod_eq_of_lt, Nat.mul_div_cancel _ (by omega)]
  · rfl
  calc f.header.channels.count * f.header.blockSize.size ≤ 8 * 65535 := Nat.mul_le_mul h2.2 h1.2
    _ < 2 ^ 32 := by norm_num

theorem loose_holds {bps : Nat} {f : Frame} (hw : f.Loose bps) (buffer : VecI32) :
    (blockOf f.reduced buffer).Holds f.header.time f.reduced.wrappedChannels := by
  obtain ⟨h1, h2⟩ := loose_shape hw
  have h3 := size_bounds f.header.blockSize
  have h4 := count_bounds f.header.channels
  refine holds_of h1.symm h2 rfl ?_ ?_ (Nat.lt_of_le_of_lt h4.2 (by norm_num))
  · apply fits_decorrelate
    intro c hc v hv
    obtain ⟨s, -, rfl⟩ := List.mem_map.1 hc
    exact fits_samplesWith v hv
  · calc f.header.blockSize.size * f.header.channels.count ≤ 65535 * 8 := Nat.mul_le_mul h3.2 h4.2
      _ < 2 ^ 32 := by norm_num

/-- From bits to bytes. -/
theorem LReads.withBitstream {m : Dec (Bitstream Flat) α} {bits pad : List Bool} {bytes rest : List U8}
    {a : α} (hm : LReads m bits a) (hb : bytesToBits bytes = bits ++ pad) (hp : pad.length < 8)
    (hl : (bytes ++ rest).length < 2 ^ 64) (fault : Option Nat) :
    withBitstream m (⟨bytes ++ rest, fault⟩ : Flat) = (.ok a, ⟨rest, fault⟩) := by
  obtain ⟨b', h1, h2, h3, h4⟩ := hm (Bitstream.new ⟨bytes ++ rest, fault⟩) (pad ++ bytesToBits rest)
    (Bitstream.inv_new _) (by rw [Bitstream.bits_new, length_bytesToBits]; simp only; omega)
    (by rw [Bitstream.bits_new, bytesToBits_append, hb, List.append_assoc])
  have hlen := Bitstream.length_bits b' h2
  rw [h3, List.length_append, length_bytesToBits] at hlen
  have hle := h2.le
  have e : pad.length = ((byteBits b'.data).take b'.bitsLeft).length := by
    rw [List.length_take, length_byteBits]; omega
  have h5 := bytesToBits_inj (List.append_inj h3.symm e).2
  rcases b' with ⟨⟨rb, rf⟩, d, n⟩
  simp only [Bitstream.new] at h4 h5
  simp only [Claxon.withBitstream, h1, ← h5, h4]

theorem LTriple.withBitstream {m : Dec (Bitstream Flat) α} {P : List Bool → α → Prop} (hm : LTriple m P)
    (s : Flat) (hl : s.bytes.length < 2 ^ 64) {a : α} {s' : Flat} (h : withBitstream m s = (.ok a, s')) :
    s'.fault = s.fault ∧ ∃ bytes, s.bytes = bytes ++ s'.bytes ∧ ∃ used pad, bytesToBits bytes = used ++ pad ∧
      pad.length < 8 ∧ P used a := by
  have h1 := hm (Bitstream.new s) (Bitstream.inv_new s) (by rw [Bitstream.bits_new, length_bytesToBits]; omega)
  unfold Claxon.withBitstream at h
  generalize m (Bitstream.new s) = x at h h1
  rcases x with ⟨r, b'⟩
  simp only [Prod.mk.injEq] at h
  obtain ⟨rfl, rfl⟩ := h
  obtain ⟨h2, h4, used, h3, hP⟩ := h1 a b' rfl
  refine ⟨h4, ?_⟩
  have hle := h2.le
  rw [Bitstream.bits_new, Bitstream.bits, ← List.append_assoc] at h3
  have hlen := congrArg List.length h3
  rw [List.length_append, List.length_append, length_bytesToBits, length_bytesToBits,
    List.length_take, length_byteBits] at hlen
  have e1 : s.bytes = s.bytes.take (s.bytes.length - b'.reader.bytes.length) ++
      s.bytes.drop (s.bytes.length - b'.reader.bytes.length) := by simp
  rw [e1, bytesToBits_append] at h3
  have h6 := List.append_inj' h3 (by
    rw [length_bytesToBits, length_bytesToBits, List.length_drop]; omega)
  refine ⟨_, ?_, used, (byteBits b'.data).take b'.bitsLeft, h6.1, ?_, hP⟩
  · exact e1.trans (congrArg _ (bytesToBits_inj h6.2))
  · rw [List.length_take, length_byteBits]; omega

/-- A loose frame is decoded without overflow checks. -/
theorem loose_decoded {bps : Nat} {f : Frame} (hw : f.Loose bps) (buffer : VecI32) (rest : List U8)
    (fault : Option Nat) (hl : (f.looseBytes bps ++ rest).length < 2 ^ 64) :
    readNextOrEof buffer ⟨f.looseBytes bps ++ rest, fault⟩ =
      (.ok (some (blockOf f.reduced buffer)), (⟨rest, fault⟩ : Flat)) := by
  have hb := bits_bounds hw.sampleSize
  have h1 := size_bounds f.header.blockSize
  rw [readNextOrEof_flat]
  generalize hc : crc16 (f.looseContentBytes bps) = c
  have hbytes : f.header.bytes ++ (bitsToBytes (f.looseBodyBits bps) ++ (beBytes 2 c.toNat ++ rest)) =
      f.looseBytes bps ++ rest := by
    rw [Frame.looseBytes, hc, Frame.looseContentBytes]
    simp only [List.append_assoc]
  have hh := reads_header f.header hw.header (bitsToBytes (f.looseBodyBits bps) ++ (beBytes 2 c.toNat ++ rest)) fault
  have e : Ref (@readFrameHeaderOrEof Flat _ _ checkedBuild) readFrameHeaderOrEof :=
    same_readFrameHeaderOrEof uncheckedBuild _ _ (refRd_refl _)
  rw [hbytes] at hh
  replace hh := (e.eq_of (by rw [hh]; intro p hp; cases hp)).trans hh
  rw [readFrameHeaderOrEof_flat] at hh
  simp only at hh ⊢
  rw [Dec.bind_ok _ hh]
  simp only [flatBody]
  have hbits : (headerOf f.header).bitsPerSample = some bps := hw.sampleSize
  rw [hbits]
  simp only
  rw [Dec.bind_liftM_of (debugAssert_okU (decide_eq_true (by omega)))]
  have hal := hw.aligned
  have hd := LReads.withBitstream (pad := f.padding) (bytes := bitsToBytes (f.looseBodyBits bps))
    (rest := beBytes 2 c.toNat ++ rest)
    (lreads_decodeChannels f.header.channels (bps := bps) (bs := (headerOf f.header).blockSize)
      (buffer := (ensureBufferLen buffer ((headerOf f.header).channels * (headerOf f.header).blockSize)).data) (by omega)
      (by show f.header.blockSize.size < _; omega) (by rw [length_ensureBufferLen, channels_headerOf]) hw.count
      (fun p hp => hw.subframes p hp))
    (bytesToBits_bitsToBytes ((f.looseBodyBits bps).length / 8) _ (by omega)) hw.padding
    (by rw [← hbytes, List.length_append] at hl; omega) fault
  rw [show (headerOf f.header).channelAssignment = caOf f.header.channels from rfl, Dec.bind_ok _ hd]
  simp only [Dec.bind_get_run]
  rw [Dec.bind_ok _ (breads_beU16 c.isLt rest fault)]
  have e3 : consumed (f.looseBytes bps ++ rest) ⟨beBytes 2 c.toNat ++ rest, fault⟩ = f.looseContentBytes bps := by
    rw [← hbytes, ← List.append_assoc]
    exact consumed_append
  rw [e3, hc, BitVec.ofNat_toNat, BitVec.setWidth_eq, if_neg (fun h => h.2 rfl)]
  rw [Dec.bind_liftM_of ((same_frameTime _ _).of_ok (frameTime_ok _ hw.header))]
  rw [Dec.bind_liftM_of (show Block.new f.header.time (headerOf f.header).blockSize
      { data := toI32 (f.header.channels.decorrelate Arith.wrap32.wrap
          ((f.subframes.map Subframe.reduced).map (Subframe.samplesWith .wrap32 (headerOf f.header).blockSize))).flatten
        cap := (ensureBufferLen buffer ((headerOf f.header).channels *
          (headerOf f.header).blockSize)).cap } = .ok (blockOf f.reduced buffer) by
    rw [channels_headerOf]; exact loose_block hw buffer)]
  rfl

/-- What the frame reader decodes without overflow checks. -/
theorem loose_frame (buffer : VecI32) (s : Flat) (hl : s.bytes.length < 2 ^ 64) {block : Block} {s' : Flat}
    (h : readNextOrEof buffer s = (.ok (some block), s')) :
    s'.fault = s.fault ∧ ∃ (bps : Nat) (f : Frame), f.Loose bps ∧
      s.bytes = f.looseBytes bps ++ s'.bytes ∧ block = blockOf f.reduced buffer := by
  rw [readNextOrEof_flat, Dec.bind_def] at h
  have hh := header_reads s
  have e : Ref (@readFrameHeaderOrEof Flat _ _ checkedBuild) readFrameHeaderOrEof :=
    same_readFrameHeaderOrEof uncheckedBuild _ _ (refRd_refl _)
  have e1 := e.eq_of (s := s) (by
    intro p hp
    generalize @readFrameHeaderOrEof Flat _ _ checkedBuild s = x at hh hp
    rcases x with ⟨r, s1⟩
    obtain rfl : r = .error (.panic p) := hp
    exact hh)
  rw [← e1, readFrameHeaderOrEof_flat] at hh
  generalize flatHeader s.bytes s = x at hh h
  rcases x with ⟨e1 | _ | hd, s1⟩
  · cases h
  · cases h
  obtain ⟨hf1, hdr, hw, rfl, hs⟩ := hh
  simp only [flatBody] at h
  have h1 := size_bounds hdr.blockSize
  rw [show (headerOf hdr).bitsPerSample = hdr.sampleSize.bits from rfl] at h
  rcases hsz : hdr.sampleSize.bits with _ | bps
  · rw [hsz] at h
    cases h
  rw [hsz] at h
  have hb := bits_bounds hsz
  simp only at h
  rw [Dec.bind_liftM_of (show debugAssert (decide (bps ≤ 32)) = .ok () by
    unfold debugAssert; simp [show bps ≤ 32 by omega])] at h
  have hlen : (ensureBufferLen buffer ((headerOf hdr).channels * (headerOf hdr).blockSize)).data.length =
      hdr.channels.count * (headerOf hdr).blockSize := by rw [length_ensureBufferLen, channels_headerOf]
  have hbs : (headerOf hdr).blockSize < 2 ^ 16 := by show hdr.blockSize.size < _; omega
  have hl1 : s1.bytes.length < 2 ^ 64 := by
    have := congrArg List.length hs
    rw [List.length_append] at this
    omega
  have hrf := fun a s' => LTriple.withBitstream
    (ltriple_decodeChannels hdr.channels (bps := bps) (by omega) hbs hlen) s1 hl1 (a := a) (s' := s')
  rw [show (headerOf hdr).channelAssignment = caOf hdr.channels from rfl, Dec.bind_def] at h
  generalize withBitstream (decodeChannels (caOf hdr.channels) bps (headerOf hdr).blockSize
      (ensureBufferLen buffer ((headerOf hdr).channels * (headerOf hdr).blockSize)).data) s1 = y at hrf h
  rcases y with ⟨e1 | data, s2⟩
  · cases h
  obtain ⟨hf2, used, hu, long, pad, hub, hpad, subs, hcount, hsubs, rfl, rfl⟩ := hrf _ _ rfl
  simp only [Dec.bind_get_run] at h
  rw [Dec.bind_def] at h
  have hcrc := btriple_beU16 (lim := .never) s2
  generalize (readBeU16 : Dec Flat U16) s2 = z at hcrc h
  rcases z with ⟨e1 | p, s3⟩
  · cases h
  obtain ⟨hf3, used3, hu3, rfl⟩ := hcrc
  simp only at h
  have e3 : consumed s.bytes s2 = hdr.bytes ++ used := by
    have := consumed_append (used := hdr.bytes ++ used) (rest := s2.bytes) (f := s2.fault)
    rw [hs, hu, ← List.append_assoc]
    exact this
  rw [e3] at h
  split at h
  · cases h
  next hc =>
  have hbody : bytesToBits used = Frame.looseBodyBits bps ⟨hdr, subs, pad⟩ := hub
  have hused : used = bitsToBytes (Frame.looseBodyBits bps ⟨hdr, subs, pad⟩) := by
    rw [← hbody, bitsToBytes_bytesToBits]
  have hfw : Frame.Loose bps ⟨hdr, subs, pad⟩ :=
    { header := hw
      sampleSize := hsz
      count := hcount
      subframes := hsubs
      padding := hpad
      aligned := by
        rw [← hbody, length_bytesToBits]
        omega }
  rw [Dec.bind_liftM_of ((same_frameTime _ _).of_ok (frameTime_ok _ hw))] at h
  rw [Dec.bind_liftM_of (show Block.new hdr.time (headerOf hdr).blockSize
      { data := toI32 (hdr.channels.decorrelate Arith.wrap32.wrap
          ((subs.map Subframe.reduced).map (Subframe.samplesWith .wrap32 (headerOf hdr).blockSize))).flatten
        cap := (ensureBufferLen buffer ((headerOf hdr).channels *
          (headerOf hdr).blockSize)).cap } = .ok (blockOf (Frame.reduced ⟨hdr, subs, pad⟩) buffer) by
    rw [channels_headerOf]; exact loose_block hfw buffer)] at h
  cases h
  refine ⟨by rw [hf3, hf2, hf1], bps, ⟨hdr, subs, pad⟩, hfw, ?_, rfl⟩
  obtain rfl : crc16 (hdr.bytes ++ used) = p := not_not.1 fun h => hc ⟨rfl, h⟩
  rw [hs, hu, hu3, Frame.looseBytes, Frame.looseContentBytes, ← hused]
  simp

end Unchecked

end Claxon
