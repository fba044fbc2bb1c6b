import Verif.Spec.Metadata

/-! The UTF-8 validation of the standard library accepts exactly the encodings of texts. -/

namespace Claxon

open Spec

/-- The code of a character. -/
def charCode (c : Char) : Nat := c.val.toNat

theorem charCode_valid (c : Char) : charCode c < 0xd800 ∨ (0xdfff < charCode c ∧ charCode c < 0x110000) :=
  c.valid

theorem charBytes_eq (c : Char) : charBytes c =
    if charCode c ≤ 0x7f then [BitVec.ofNat 8 (charCode c)]
    else if charCode c ≤ 0x7ff then
      [BitVec.ofNat 8 (charCode c / 64 % 0x20 + 0xc0), BitVec.ofNat 8 (charCode c % 0x40 + 0x80)]
    else if charCode c ≤ 0xffff then
      [BitVec.ofNat 8 (charCode c / 4096 % 0x10 + 0xe0), BitVec.ofNat 8 (charCode c / 64 % 0x40 + 0x80),
        BitVec.ofNat 8 (charCode c % 0x40 + 0x80)]
    else
      [BitVec.ofNat 8 (charCode c / 262144 % 0x08 + 0xf0),
        BitVec.ofNat 8 (charCode c / 4096 % 0x40 + 0x80), BitVec.ofNat 8 (charCode c / 64 % 0x40 + 0x80),
        BitVec.ofNat 8 (charCode c % 0x40 + 0x80)] := by
  unfold charBytes String.utf8EncodeChar charCode
  simp only
  split
  · rfl
  split
  · rfl
  split <;> rfl

theorem exists_char {v : Nat} (h : v < 0xd800 ∨ (0xdfff < v ∧ v < 0x110000)) :
    ∃ c, charCode c = v := by
  have h32 : v < 2 ^ 32 := by omega
  have e : (UInt32.ofNat v).toNat = v := by simpa using h32
  refine ⟨⟨UInt32.ofNat v, ?_⟩, e⟩
  unfold UInt32.isValidChar
  rw [e]
  exact h

theorem toNat_ofNat8 {v : Nat} (h : v < 256) : (BitVec.ofNat 8 v).toNat = v := by
  simp; omega

theorem isCont_iff (b : U8) : isCont b = true ↔ 0x80 ≤ b.toNat ∧ b.toNat ≤ 0xbf := by
  unfold isCont
  simp [BitVec.le_def]

theorem utf8Valid_cons (b0 : U8) (rest : List U8) : utf8Valid (b0 :: rest) =
    if b0 < 0x80#8 then utf8Valid rest
    else if 0xc2#8 ≤ b0 && b0 ≤ 0xdf#8 then
      match rest with
      | b1 :: rest => isCont b1 && utf8Valid rest
      | [] => false
    else if 0xe0#8 ≤ b0 && b0 ≤ 0xef#8 then
      match rest with
      | b1 :: b2 :: rest =>
        ((b0 == 0xe0#8 && (0xa0#8 ≤ b1 && b1 ≤ 0xbf#8)) ||
         (0xe1#8 ≤ b0 && b0 ≤ 0xec#8 && (0x80#8 ≤ b1 && b1 ≤ 0xbf#8)) ||
         (b0 == 0xed#8 && (0x80#8 ≤ b1 && b1 ≤ 0x9f#8)) ||
         (0xee#8 ≤ b0 && b0 ≤ 0xef#8 && (0x80#8 ≤ b1 && b1 ≤ 0xbf#8))) &&
        isCont b2 && utf8Valid rest
      | _ => false
    else if 0xf0#8 ≤ b0 && b0 ≤ 0xf4#8 then
      match rest with
      | b1 :: b2 :: b3 :: rest =>
        ((b0 == 0xf0#8 && (0x90#8 ≤ b1 && b1 ≤ 0xbf#8)) ||
         (0xf1#8 ≤ b0 && b0 ≤ 0xf3#8 && (0x80#8 ≤ b1 && b1 ≤ 0xbf#8)) ||
         (b0 == 0xf4#8 && (0x80#8 ≤ b1 && b1 ≤ 0x8f#8))) &&
        isCont b2 && isCont b3 && utf8Valid rest
      | _ => false
    else false := by
  rw [utf8Valid.eq_def]
  rfl

theorem utf8Valid_char (c : Char) (rest : List U8) :
    utf8Valid (charBytes c ++ rest) = utf8Valid rest := by
  have hv := charCode_valid c
  rw [charBytes_eq]
  generalize charCode c = v at hv ⊢
  split
  · rw [List.singleton_append, utf8Valid_cons, if_pos]
    rw [BitVec.lt_def, toNat_ofNat8 (by omega)]
    simp; omega
  split
  · rw [List.cons_append, utf8Valid_cons, if_neg, if_pos]
    · simp only [List.singleton_append]
      rw [(isCont_iff _).2, Bool.true_and]
      rw [toNat_ofNat8 (by omega)]
      omega
    · simp only [Bool.and_eq_true, decide_eq_true_eq, BitVec.le_def]
      rw [toNat_ofNat8 (by omega)]
      simp; omega
    · rw [BitVec.lt_def, toNat_ofNat8 (by omega)]
      simp
  split
  · rw [List.cons_append, utf8Valid_cons, if_neg, if_neg, if_pos]
    · simp only [List.cons_append, List.nil_append]
      rw [(isCont_iff (BitVec.ofNat 8 (v % 0x40 + 0x80))).2, Bool.and_true]
      · suffices h : ∀ x y : Bool, x = true → (x && y) = y by
          apply h
          simp only [Bool.or_eq_true, Bool.and_eq_true, decide_eq_true_eq, BitVec.le_def, beq_iff_eq,
            ← BitVec.toNat_inj]
          rw [toNat_ofNat8 (v := v / 4096 % 0x10 + 0xe0) (by omega),
            toNat_ofNat8 (v := v / 64 % 0x40 + 0x80) (by omega)]
          simp only [BitVec.toNat_ofNat, Nat.reducePow, Nat.reduceMod]
          omega
        intro x y hx; rw [hx, Bool.true_and]
      · rw [toNat_ofNat8 (by omega)]
        omega
    · simp only [Bool.and_eq_true, decide_eq_true_eq, BitVec.le_def]
      rw [toNat_ofNat8 (by omega)]
      simp; omega
    · simp only [Bool.and_eq_true, decide_eq_true_eq, BitVec.le_def]
      rw [toNat_ofNat8 (by omega)]
      simp; omega
    · rw [BitVec.lt_def, toNat_ofNat8 (by omega)]
      simp
  · rw [List.cons_append, utf8Valid_cons, if_neg, if_neg, if_neg, if_pos]
    · simp only [List.cons_append, List.nil_append]
      rw [(isCont_iff (BitVec.ofNat 8 (v % 0x40 + 0x80))).2,
        (isCont_iff (BitVec.ofNat 8 (v / 64 % 0x40 + 0x80))).2, Bool.and_true, Bool.and_true]
      · suffices h : ∀ x y : Bool, x = true → (x && y) = y by
          apply h
          simp only [Bool.or_eq_true, Bool.and_eq_true, decide_eq_true_eq, BitVec.le_def, beq_iff_eq,
            ← BitVec.toNat_inj]
          rw [toNat_ofNat8 (v := v / 262144 % 0x08 + 0xf0) (by omega),
            toNat_ofNat8 (v := v / 4096 % 0x40 + 0x80) (by omega)]
          simp only [BitVec.toNat_ofNat, Nat.reducePow, Nat.reduceMod]
          omega
        intro x y hx; rw [hx, Bool.true_and]
      · rw [toNat_ofNat8 (by omega)]
        omega
      · rw [toNat_ofNat8 (by omega)]
        omega
    all_goals
      first
      | rw [BitVec.lt_def, toNat_ofNat8 (by omega)]
        simp
        done
      | simp only [Bool.and_eq_true, decide_eq_true_eq, BitVec.le_def]
        rw [toNat_ofNat8 (by omega)]
        simp; omega

theorem utf8Valid_text (text : List Char) : utf8Valid (textBytes text) = true := by
  induction text with
  | nil => rfl
  | cons c text ih =>
    show utf8Valid (charBytes c ++ textBytes text) = true
    rw [utf8Valid_char, ih]

theorem eq_ofNat8 {b : U8} {v : Nat} (h : v = b.toNat) : BitVec.ofNat 8 v = b := by
  subst h; simp

theorem utf8_cons {c : Char} {bs rest : List U8} (h : Utf8 rest) (hc : charBytes c = bs) :
    Utf8 (bs ++ rest) := by
  obtain ⟨text, rfl⟩ := h
  exact ⟨c :: text, by rw [← hc]; rfl⟩

theorem utf8_of_valid (n : Nat) : ∀ bytes : List U8, bytes.length ≤ n → utf8Valid bytes = true →
    Utf8 bytes := by
  induction n with
  | zero =>
    intro bytes hl _
    obtain rfl : bytes = [] := List.length_eq_zero_iff.1 (by omega)
    exact ⟨[], rfl⟩
  | succ n ih =>
    intro bytes hl hv
    rcases bytes with _ | ⟨b0, rest⟩
    · exact ⟨[], rfl⟩
    rw [List.length_cons] at hl
    rw [utf8Valid_cons] at hv
    have h0 := b0.isLt
    by_cases c1 : b0 < 0x80#8
    · rw [if_pos c1] at hv
      rw [BitVec.lt_def] at c1
      simp only [BitVec.toNat_ofNat, Nat.reducePow, Nat.reduceMod] at c1
      obtain ⟨c, hc⟩ := exists_char (v := b0.toNat) (by omega)
      refine utf8_cons (c := c) (bs := [b0]) (ih _ (by omega) hv) ?_
      rw [charBytes_eq, hc, if_pos (by omega), eq_ofNat8 rfl]
    rw [if_neg c1] at hv
    by_cases c2 : (0xc2#8 ≤ b0 && b0 ≤ 0xdf#8) = true
    · rw [if_pos c2] at hv
      rcases rest with _ | ⟨b1, rest⟩
      · cases hv
      rw [List.length_cons] at hl
      simp only [Bool.and_eq_true, isCont_iff] at hv
      simp only [Bool.and_eq_true, decide_eq_true_eq, BitVec.le_def, BitVec.toNat_ofNat, Nat.reducePow,
        Nat.reduceMod] at c2
      obtain ⟨c, hc⟩ := exists_char (v := (b0.toNat - 0xc0) * 64 + (b1.toNat - 0x80)) (by omega)
      refine utf8_cons (c := c) (bs := [b0, b1]) (ih _ (by omega) hv.2) ?_
      rw [charBytes_eq, hc, if_neg (by omega), if_pos (by omega), eq_ofNat8 (b := b0) (by omega),
        eq_ofNat8 (b := b1) (by omega)]
    rw [if_neg c2] at hv
    by_cases c3 : (0xe0#8 ≤ b0 && b0 ≤ 0xef#8) = true
    · rw [if_pos c3] at hv
      rcases rest with _ | ⟨b1, _ | ⟨b2, rest⟩⟩
      · cases hv
      · cases hv
      rw [List.length_cons, List.length_cons] at hl
      simp only [Bool.or_eq_true, Bool.and_eq_true, isCont_iff, decide_eq_true_eq, BitVec.le_def,
        BitVec.toNat_ofNat, Nat.reducePow, Nat.reduceMod, beq_iff_eq, ← BitVec.toNat_inj] at hv c3
      have h1 := hv.1.1
      have h2 := hv.1.2
      obtain ⟨c, hc⟩ := exists_char
        (v := (b0.toNat - 0xe0) * 4096 + (b1.toNat - 0x80) * 64 + (b2.toNat - 0x80)) (by omega)
      refine utf8_cons (c := c) (bs := [b0, b1, b2]) (ih _ (by omega) hv.2) ?_
      rw [charBytes_eq, hc, if_neg (by omega), if_neg (by omega), if_pos (by omega),
        eq_ofNat8 (b := b0) (by omega), eq_ofNat8 (b := b1) (by omega), eq_ofNat8 (b := b2) (by omega)]
    rw [if_neg c3] at hv
    by_cases c4 : (0xf0#8 ≤ b0 && b0 ≤ 0xf4#8) = true
    · rw [if_pos c4] at hv
      rcases rest with _ | ⟨b1, _ | ⟨b2, _ | ⟨b3, rest⟩⟩⟩
      · cases hv
      · cases hv
      · cases hv
      rw [List.length_cons, List.length_cons, List.length_cons] at hl
      simp only [Bool.or_eq_true, Bool.and_eq_true, isCont_iff, decide_eq_true_eq, BitVec.le_def,
        BitVec.toNat_ofNat, Nat.reducePow, Nat.reduceMod, beq_iff_eq, ← BitVec.toNat_inj] at hv c4
      have h1 := hv.1.1.1
      have h2 := hv.1.1.2
      have h3 := hv.1.2
      obtain ⟨c, hc⟩ := exists_char (v := (b0.toNat - 0xf0) * 262144 + (b1.toNat - 0x80) * 4096 +
        (b2.toNat - 0x80) * 64 + (b3.toNat - 0x80)) (by omega)
      refine utf8_cons (c := c) (bs := [b0, b1, b2, b3]) (ih _ (by omega) hv.2) ?_
      rw [charBytes_eq, hc, if_neg (by omega), if_neg (by omega), if_neg (by omega),
        eq_ofNat8 (b := b0) (by omega), eq_ofNat8 (b := b1) (by omega), eq_ofNat8 (b := b2) (by omega),
        eq_ofNat8 (b := b3) (by omega)]
    rw [if_neg c4] at hv
    cases hv

theorem utf8Valid_iff (bytes : List U8) : utf8Valid bytes = true ↔ Utf8 bytes := by
  constructor
  · exact utf8_of_valid _ bytes (Nat.le_refl _)
  · rintro ⟨text, rfl⟩
    exact utf8Valid_text text

/-- ASCII strings are texts, and can be put in front of a text. -/
theorem utf8_ascii {name rest : List U8} (h : ∀ b ∈ name, b.toNat < 0x80) :
    Utf8 (name ++ rest) ↔ Utf8 rest := by
  rw [← utf8Valid_iff, ← utf8Valid_iff]
  induction name with
  | nil => rfl
  | cons b name ih =>
    have hb := h b (by simp)
    rw [List.cons_append, utf8Valid_cons, if_pos (by rw [BitVec.lt_def]; simpa using hb)]
    exact ih fun x hx => h x (by simp [hx])

end Claxon
