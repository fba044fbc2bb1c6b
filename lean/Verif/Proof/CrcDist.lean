import Verif.Proof.CrcPoly
import Verif.Spec.Frame

/-! Errors of up to three bits: the generators have the factor `x + 1`, which catches every odd number of
flipped bits, and the register runs through a long cycle, which catches two. -/

namespace Spec

open Polynomial Claxon

/-! ### An odd number of bits -/

theorem eval_bitsPoly (xs : List Bool) : (bitsPoly xs).eval 1 = ((xs.count true : Nat) : ZMod 2) := by
  induction xs using List.reverseRecOn with
  | nil => simp [bitsPoly]
  | append_singleton xs b ih =>
    rw [bitsPoly_append_one, eval_add, eval_mul, eval_X, mul_one, ih, List.count_append]
    cases b <;> simp

/-- A generator with an even number of terms: the parity of the message is that of the remainder. -/
theorem crc_parity {n : Nat} (poly : BitVec n) (hg : (X ^ n + regPoly poly).eval 1 = 0) (xs : List Bool) :
    ((xs.count true : Nat) : ZMod 2) = (regPoly (crcBits poly xs)).eval 1 := by
  obtain ⟨q, hq⟩ := regPoly_crc poly xs
  have := congrArg (eval 1) hq
  rw [eval_mul, eval_add, eval_mul, hg, zero_mul, add_zero, eval_bitsPoly] at this
  simpa using this

theorem crc8_even : (X ^ 8 + regPoly (0b00000111#8)).eval 1 = 0 := by
  rw [crc8Generator_eq]
  unfold crc8Generator
  simp only [eval_add, eval_pow, eval_X, eval_one, one_pow]
  decide

theorem crc16_even : (X ^ 16 + regPoly (0b1000000000000101#16)).eval 1 = 0 := by
  rw [crc16Generator_eq]
  unfold crc16Generator
  simp only [eval_add, eval_pow, eval_X, eval_one, one_pow]
  decide

theorem count_xorBits : ∀ (xs ys : List Bool), xs.length = ys.length →
    (xorBits xs ys).count true % 2 = (xs.count true + ys.count true) % 2
  | [], [], _ => rfl
  | [], _ :: _, h => by simp at h
  | _ :: _, [], h => by simp at h
  | x :: xs, y :: ys, h => by
    have ih := count_xorBits xs ys (by simpa using h)
    simp only [xorBits, List.zipWith_cons_cons, List.count_cons] at ih ⊢
    cases x <;> cases y <;> simp <;> omega

/-- An odd number of flipped bits changes the remainder. -/
theorem crc_odd {n : Nat} (poly : BitVec n) (hg : (X ^ n + regPoly poly).eval 1 = 0)
    {xs ys : List Bool} (hl : xs.length = ys.length) (hodd : (xorBits xs ys).count true % 2 = 1) :
    crcBits poly xs ≠ crcBits poly ys := by
  intro h
  have h1 := crc_parity poly hg xs
  rw [h, ← crc_parity poly hg ys, ZMod.natCast_eq_natCast_iff'] at h1
  rw [count_xorBits xs ys hl] at hodd
  omega

/-! ### Two bits -/

/-- One step of a register of `log2 m` bits without input, on numbers. -/
def regStep (m p s : Nat) : Nat := Nat.xor (2 * s % m) (if Nat.ble (m / 2) s then p else 0)

/-- `2 ^ d` steps, unless the register meets `m / 2`. -/
def regWalk (m p : Nat) : Nat → Nat → Option Nat
  | 0, s => if Nat.beq s (m / 2) then none else some (regStep m p s)
  | d + 1, s => (regWalk m p d s).bind (regWalk m p d)

/-- `k` steps. -/
def regRun (m p : Nat) : Nat → Nat → Nat
  | 0, s => s
  | k + 1, s => regRun m p k (regStep m p s)

theorem regRun_add (m p : Nat) : ∀ (j k s : Nat),
    regRun m p (j + k) s = regRun m p k (regRun m p j s)
  | 0, k, s => by simp [regRun]
  | j + 1, k, s => by
    rw [show j + 1 + k = (j + k) + 1 by omega]
    exact regRun_add m p j k _

theorem regWalk_some {m p : Nat} : ∀ {d s s' : Nat}, regWalk m p d s = some s' →
    s' = regRun m p (2 ^ d) s ∧ ∀ k < 2 ^ d, regRun m p k s ≠ m / 2
  | 0, s, s', h => by
    unfold regWalk at h
    split at h
    · cases h
    · rename_i hne
      obtain rfl := Option.some.inj h
      refine ⟨rfl, ?_⟩
      intro k hk
      obtain rfl : k = 0 := by omega
      intro he
      apply hne
      simp only [regRun] at he
      rw [he]
      exact Nat.beq_refl _
  | d + 1, s, s', h => by
    unfold regWalk at h
    cases hw : regWalk m p d s with
    | none => rw [hw] at h; cases h
    | some t =>
      rw [hw] at h
      have h : regWalk m p d t = some s' := h
      obtain ⟨rfl, ha⟩ := regWalk_some hw
      obtain ⟨rfl, hb⟩ := regWalk_some h
      refine ⟨?_, ?_⟩
      · rw [← regRun_add]; congr 1; omega
      · intro k hk
        rcases Nat.lt_or_ge k (2 ^ d) with h1 | h1
        · exact ha k h1
        · rw [show k = 2 ^ d + (k - 2 ^ d) by omega, regRun_add]
          exact hb _ (by omega)

/-- `2 + 4 + … + 2 ^ d` steps. -/
def regWalks (m p : Nat) : Nat → Nat → Option Nat
  | 0, s => some s
  | d + 1, s => (regWalk m p (d + 1) s).bind (regWalks m p d)

theorem regWalks_some {m p : Nat} : ∀ {d s s' : Nat}, regWalks m p d s = some s' →
    ∀ k, k + 2 < 2 ^ (d + 1) → regRun m p k s ≠ m / 2
  | 0, s, s', _, k, hk => by simp at hk
  | d + 1, s, s', h, k, hk => by
    unfold regWalks at h
    cases hw : regWalk m p (d + 1) s with
    | none => rw [hw] at h; cases h
    | some t =>
      rw [hw] at h
      obtain ⟨rfl, ha⟩ := regWalk_some hw
      have hb := regWalks_some (d := d) (s := regRun m p (2 ^ (d + 1)) s) h
      rcases Nat.lt_or_ge k (2 ^ (d + 1)) with h1 | h1
      · exact ha k h1
      · rw [show k = 2 ^ (d + 1) + (k - 2 ^ (d + 1)) by omega, regRun_add]
        exact hb _ (by omega)

theorem crc8_walk : (regWalks 256 7 6 7).isSome = true := by decide +kernel

set_option maxRecDepth 100000 in
theorem crc16_walk : (regWalks 65536 32773 14 32773).isSome = true := by decide +kernel

theorem crcStep_toNat {n : Nat} (hn : 0 < n) (poly s : BitVec n) :
    (crcStep poly s false).toNat = regStep (2 ^ n) poly.toNat s.toNat := by
  unfold crcStep regStep
  rw [BitVec.toNat_xor, BitVec.toNat_shiftLeft]
  have h2 : 2 ^ n / 2 = 2 ^ (n - 1) := by
    obtain ⟨k, rfl⟩ : ∃ k, n = k + 1 := ⟨n - 1, by omega⟩
    rw [Nat.pow_succ]; simp
  have hm : s.msb = Nat.ble (2 ^ n / 2) s.toNat := by
    rw [BitVec.msb_eq_decide, h2]
    rw [Bool.eq_iff_iff]
    simp
  rw [← hm, Nat.shiftLeft_eq, Nat.pow_one, Nat.mul_comm]
  cases s.msb <;> rfl

theorem crcRun_toNat {n : Nat} (hn : 0 < n) (poly : BitVec n) : ∀ (k : Nat) (s : BitVec n),
    (crcRun poly s (List.replicate k false)).toNat = regRun (2 ^ n) poly.toNat k s.toNat
  | 0, _ => rfl
  | k + 1, s => by
    rw [List.replicate_succ]
    show (crcRun poly (crcStep poly s false) (List.replicate k false)).toNat = _
    rw [crcRun_toNat hn poly k, crcStep_toNat hn]
    rfl

theorem crcRun_zeros_inj {n : Nat} (poly : BitVec n) (hodd : poly.getLsbD 0 = true) :
    ∀ (k : Nat) (s : BitVec n), crcRun poly s (List.replicate k false) = 0#n → s = 0#n := by
  intro k
  induction k with
  | zero => intro s h; exact h
  | succ k ih =>
    intro s h
    rw [List.replicate_succ] at h
    have h1 : crcRun poly s [false] = 0#n := ih (crcStep poly s false) h
    rcases Nat.eq_zero_or_pos n with rfl | hn
    · exact BitVec.eq_of_zero_length rfl
    · have h2 := crcRun_eq_zero poly hodd [false] s hn h1
      apply BitVec.eq_of_getMsbD_eq
      intro i hi
      rw [h2 i hi]
      cases i <;> simp

theorem count_succ {n : Nat} : ∀ {xs : List Bool}, xs.count true = n + 1 →
    ∃ i rest, xs = List.replicate i false ++ true :: rest ∧ rest.count true = n
  | [], h => by simp at h
  | true :: xs, h => ⟨0, xs, rfl, by simpa using h⟩
  | false :: xs, h => by
    obtain ⟨i, rest, rfl, hr⟩ := count_succ (xs := xs) (by simpa using h)
    exact ⟨i + 1, rest, rfl, hr⟩

theorem count_zero : ∀ {xs : List Bool}, xs.count true = 0 → xs = List.replicate xs.length false
  | [], _ => rfl
  | true :: xs, h => by simp at h
  | false :: xs, h => by
    have := count_zero (xs := xs) (by simpa using h)
    rw [List.length_cons, List.replicate_succ, ← this]

/-- Two flipped bits, with at most as many bits between them as the register is known not to repeat. -/
theorem crc_two {n : Nat} (hn : 0 < n) (poly : BitVec n) (hodd : poly.getLsbD 0 = true) {bound : Nat}
    (hwalk : ∀ k, k < bound → regRun (2 ^ n) poly.toNat k poly.toNat ≠ 2 ^ n / 2)
    {p xs ys : List Bool} (hl : xs.length = ys.length) (hb : xs.length ≤ bound + 1)
    (htwo : (xorBits xs ys).count true = 2) : crcBits poly (p ++ xs) ≠ crcBits poly (p ++ ys) := by
  intro h
  have h0 : crcRun poly 0#n (xorBits xs ys) = 0#n := by
    have := crcRun_xor poly xs ys (crcBits poly p) (crcBits poly p) hl
    rw [BitVec.xor_self] at this
    rw [this]
    unfold crcBits at h ⊢
    unfold crcRun
    rw [List.foldl_append, List.foldl_append] at h
    rw [h, BitVec.xor_self]
  have hlen : (xorBits xs ys).length = xs.length := by simp [xorBits]; omega
  generalize xorBits xs ys = e at *
  obtain ⟨i, rest, rfl, hr⟩ := count_succ htwo
  obtain ⟨d, rest, rfl, hr2⟩ := count_succ hr
  have hrest : rest = List.replicate rest.length false := Spec.count_zero hr2
  generalize rest.length = m at hrest
  subst hrest
  simp only [List.length_append, List.length_replicate, List.length_cons] at hlen
  have hd : d < bound := by omega
  unfold crcRun at h0
  rw [List.foldl_append] at h0
  have hz := crcRun_zero poly i
  unfold crcRun at hz
  rw [hz, List.foldl_cons, List.foldl_append, List.foldl_cons] at h0
  have h1 := crcRun_zeros_inj poly hodd _ _ h0
  have hs : crcStep poly 0#n true = poly := by
    unfold crcStep
    simp
  rw [hs] at h1
  have h2 := hwalk d hd
  rw [← crcRun_toNat hn poly d poly] at h2
  apply h2
  have h3 := crcRun_eq_zero poly hodd [true] (crcRun poly poly (List.replicate d false))
    hn h1
  generalize crcRun poly poly (List.replicate d false) = s at *
  have h4 : s = BitVec.ofNat n (2 ^ (n - 1)) := by
    apply BitVec.eq_of_getMsbD_eq
    intro j hj
    rw [h3 j hj, BitVec.getMsbD_eq_getLsbD, BitVec.getLsbD_ofNat, Nat.testBit_two_pow]
    cases j with
    | zero => simp [hn]
    | succ j =>
      simp
      omega
  rw [h4, BitVec.toNat_ofNat]
  obtain ⟨k, rfl⟩ : ∃ k, n = k + 1 := ⟨n - 1, by omega⟩
  have : 0 < 2 ^ k := Nat.two_pow_pos k
  rw [Nat.pow_succ, Nat.mod_eq_of_lt] <;> simp

/-- Up to three flipped bits after `p`. -/
theorem crc_three {n : Nat} (hn : 0 < n) (poly : BitVec n) (hodd : poly.getLsbD 0 = true) {bound : Nat}
    (hwalk : ∀ k, k < bound → regRun (2 ^ n) poly.toNat k poly.toNat ≠ 2 ^ n / 2)
    (hg : (X ^ n + regPoly poly).eval 1 = 0)
    {p xs ys : List Bool} (hl : xs.length = ys.length) (hb : xs.length ≤ bound + 1)
    (hne : xs ≠ ys) (hthree : (xorBits xs ys).count true ≤ 3) :
    crcBits poly (p ++ xs) ≠ crcBits poly (p ++ ys) := by
  have hxor : xorBits (p ++ xs) (p ++ ys) = List.replicate p.length false ++ xorBits xs ys := by
    unfold xorBits
    rw [List.zipWith_append rfl]
    congr 1
    induction p with
    | nil => rfl
    | cons b p ih => simp [List.replicate_succ]
  have hcount : (xorBits (p ++ xs) (p ++ ys)).count true = (xorBits xs ys).count true := by
    rw [hxor, List.count_append, List.count_replicate]
    simp
  have hpos : (xorBits xs ys).count true ≠ 0 := by
    intro h0
    apply hne
    have hz := Spec.count_zero h0
    apply List.ext_getElem hl
    intro i h1 h2
    have h3 : (xorBits xs ys)[i]'(by simp [xorBits]; omega) = false := by
      have h4 : i < (List.replicate (xorBits xs ys).length false).length := by
        simp [xorBits]; omega
      have : (xorBits xs ys)[i]'(by simp [xorBits]; omega) =
          (List.replicate (xorBits xs ys).length false)[i] := by
        congr 1
      rw [this, List.getElem_replicate]
    simpa [xorBits] using h3
  rcases (by omega : (xorBits xs ys).count true = 2 ∨ (xorBits xs ys).count true % 2 = 1) with h | h
  · exact crc_two hn poly hodd hwalk hl hb h
  · exact crc_odd poly hg (by simp [hl]) (by rw [hcount]; exact h)

theorem crc8_cycle {k : Nat} (hk : k < 126) :
    regRun (2 ^ 8) (0b00000111#8).toNat k (0b00000111#8).toNat ≠ 2 ^ 8 / 2 := by
  obtain ⟨s, hs⟩ := Option.isSome_iff_exists.1 crc8_walk
  exact regWalks_some hs k (by omega)

theorem crc16_cycle {k : Nat} (hk : k < 32766) :
    regRun (2 ^ 16) (0b1000000000000101#16).toNat k (0b1000000000000101#16).toNat ≠ 2 ^ 16 / 2 := by
  obtain ⟨s, hs⟩ := Option.isSome_iff_exists.1 crc16_walk
  exact regWalks_some hs k (by omega)

/-- The fifteen bits with which every header begins. -/
def syncBits : List Bool := natToBits 15 0x7ffc

theorem header_prefix (h : FrameHeader) (rest : List U8) :
    ∃ tail, bytesToBits (h.fieldBytes ++ rest) = syncBits ++ tail := by
  unfold FrameHeader.fieldBytes
  simp only [List.cons_append, List.nil_append, bytesToBits_cons]
  rw [← List.append_assoc]
  generalize bytesToBits _ = t
  have h15 : ∀ v : Bool, byteBits 0xff#8 ++ byteBits (BitVec.ofNat 8 (0xf8 + v.toNat)) =
      syncBits ++ [v] := by decide
  rw [h15, List.append_assoc]
  exact ⟨_, rfl⟩

theorem length_continuationBytes : ∀ (n v : Nat), (continuationBytes n v).length = n
  | 0, _ => rfl
  | n + 1, v => by simp [continuationBytes, length_continuationBytes n v]

/-- A header has at most 17 bytes. -/
theorem FrameHeader.WellFormed.length_bytes {h : FrameHeader} (hw : h.WellFormed) : h.bytes.length ≤ 17 := by
  have h1 : h.numberLength ≤ 7 := by
    rcases hw.number with ⟨h, -⟩ | ⟨h, -⟩ <;> omega
  have h2 : h.blockSize.extra.length ≤ 2 := by
    cases h.blockSize <;> simp [BlockSizeField.extra, beBytes]
  have h3 : h.sampleRate.extra.length ≤ 2 := by
    cases h.sampleRate <;> simp [SampleRateField.extra, beBytes]
  simp only [FrameHeader.bytes, FrameHeader.fieldBytes, codedNumber, List.length_append,
    List.length_cons, List.length_nil, length_continuationBytes]
  omega

end Spec
