import Verif.Spec.Checked
import Verif.Proof.Logic
import Verif.Model.Frame

/-! A program logic for code that reads bytes from the flat reader. -/

namespace Claxon

open Spec

variable {α β : Type}

/-- `m` reads exactly `bytes` and returns `a`, whatever follows. -/
def BReads (m : Dec Flat α) (bytes : List U8) (a : α) : Prop :=
  ∀ (rest : List U8) (fault : Option Nat), m ⟨bytes ++ rest, fault⟩ = (.ok a, ⟨rest, fault⟩)

/-- `m` fails with `e` when the unread bytes begin with `bytes`. If `exact` is set, then these have been read, and no
others. -/
def BFails (m : Dec Flat α) (bytes : List U8) (e : Fail) (exact : Bool := false) : Prop :=
  ∀ (rest : List U8) (fault : Option Nat), (m ⟨bytes ++ rest, fault⟩).1 = .error e ∧
    (exact = true → (m ⟨bytes ++ rest, fault⟩).2 = ⟨rest, fault⟩)

/-- When a function may panic (or run out of fuel). -/
inductive Limit where
  | never
  /-- Only with an overflow, if there is a long run of zeros among the unread bytes. -/
  | zeros
  /-- Only by running out of fuel, if there are at least `n` unread bytes. -/
  | bytes (n : Nat)

def Limit.Allows : Limit → Fail → List U8 → Prop
  | .never, _, _ => False
  | .zeros, f, bs => f = .panic .overflow ∧ LongZeros (bytesToBits bs)
  | .bytes n, f, bs => f = .diverged ∧ n ≤ bs.length

theorem Limit.Allows.append_left {lim : Limit} {f : Fail} {bs : List U8} (h : lim.Allows f bs)
    (pre : List U8) : lim.Allows f (pre ++ bs) := by
  cases lim with
  | never => exact h
  | zeros =>
    have h : f = .panic .overflow ∧ LongZeros (bytesToBits bs) := h
    refine ⟨h.1, ?_⟩
    rw [bytesToBits_append]
    exact h.2.append_left _
  | bytes n =>
    have h : f = .diverged ∧ n ≤ bs.length := h
    refine ⟨h.1, ?_⟩
    rw [List.length_append]
    omega

/-- If `m` succeeds, it has consumed some bytes `used`, and `P used a` holds of the result. It never
panics unless `lim` allows it. -/
def BTriple (lim : Limit) (m : Dec Flat α) (P : List U8 → α → Prop) : Prop :=
  ∀ s : Flat,
    match m s with
    | (.ok a, s') => s'.fault = s.fault ∧ ∃ used, s.bytes = used ++ s'.bytes ∧ P used a
    | (.error (.err _), _) => True
    | (.error f, _) => lim.Allows f s.bytes

namespace BReads

theorem pure (a : α) : BReads (Pure.pure a) [] a := fun _ _ => rfl

theorem bind {m : Dec Flat α} {f : α → Dec Flat β} {bs cs : List U8} {a : α} {c : β}
    (hm : BReads m bs a) (hf : BReads (f a) cs c) : BReads (m >>= f) (bs ++ cs) c := by
  intro rest fault
  rw [List.append_assoc, Dec.bind_ok _ (hm _ _), hf]

theorem bind_nil {m : Dec Flat α} {f : α → Dec Flat β} {bs : List U8} {a : α} {c : β}
    (hm : BReads m bs a) (hf : BReads (f a) [] c) : BReads (m >>= f) bs c := by
  have := hm.bind hf
  rwa [List.append_nil] at this

theorem lift {r : Res α} {a : α} (h : r = .ok a) : BReads (liftM r) [] a := by
  subst h; exact fun _ _ => rfl

theorem bind_lift {r : Res α} {f : α → Dec Flat β} {cs : List U8} {a : α} {c : β}
    (h : r = .ok a) (hf : BReads (f a) cs c) : BReads (liftM r >>= f) cs c := by
  subst h; exact hf

theorem congr {m : Dec Flat α} {bs cs : List U8} {a c : α} (h : BReads m bs a)
    (hb : bs = cs) (ha : a = c) : BReads m cs c := by subst hb ha; exact h

end BReads

namespace BFails

variable {x : Bool}

theorem fail (e : Fail) : BFails (Dec.fail e : Dec Flat α) [] e x := fun _ _ => ⟨rfl, fun _ => rfl⟩

theorem bind {m : Dec Flat α} {f : α → Dec Flat β} {bs cs : List U8} {a : α} {e : Fail}
    (hm : BReads m bs a) (hf : BFails (f a) cs e x) : BFails (m >>= f) (bs ++ cs) e x := by
  intro rest fault
  rw [List.append_assoc, Dec.bind_ok _ (hm _ _)]
  exact hf _ _

theorem bind_left {m : Dec Flat α} (f : α → Dec Flat β) {bs : List U8} {e : Fail}
    (hm : BFails m bs e x) : BFails (m >>= f) bs e x := by
  intro rest fault
  have := hm rest fault
  rw [Dec.bind_def]
  generalize m ⟨bs ++ rest, fault⟩ = y at this
  rcases y with ⟨r, s⟩
  simp only at this
  obtain ⟨rfl, h⟩ := this
  exact ⟨rfl, h⟩

theorem bind_lift {r : Res α} {f : α → Dec Flat β} {cs : List U8} {a : α} {e : Fail}
    (h : r = .ok a) (hf : BFails (f a) cs e x) : BFails (liftM r >>= f) cs e x := by
  subst h; exact hf

end BFails

namespace BTriple

variable {lim : Limit}

theorem pure {a : α} {P : List U8 → α → Prop} (h : P [] a) : BTriple lim (Pure.pure a) P :=
  fun _ => ⟨rfl, [], rfl, h⟩

theorem err (e : Error) {P : List U8 → α → Prop} :
    BTriple lim (Dec.fail (.err e) : Dec Flat α) P := fun _ => trivial

theorem bind {m : Dec Flat α} {f : α → Dec Flat β}
    {P : List U8 → α → Prop} {Q : List U8 → β → Prop} (hm : BTriple lim m P)
    (hf : ∀ u a, P u a → BTriple lim (f a) (fun v c => Q (u ++ v) c)) :
    BTriple lim (m >>= f) Q := by
  intro b
  have h1 := hm b
  rw [Dec.bind_def]
  generalize m b = x at h1
  rcases x with ⟨r, b1⟩
  cases r with
  | error e => cases e <;> exact h1
  | ok a =>
    obtain ⟨hf1, u, hu, hP⟩ := h1
    have h2 := hf u a hP b1
    simp only
    generalize f a b1 = y at h2
    rcases y with ⟨r, b2⟩
    cases r with
    | error e =>
      cases e with
      | err e => trivial
      | _ =>
        rw [hu]
        exact Limit.Allows.append_left h2 u
    | ok c =>
      obtain ⟨hf2, v, hv, hQ⟩ := h2
      exact ⟨hf2.trans hf1, u ++ v, by rw [hu, hv, List.append_assoc], hQ⟩

theorem lift {r : Res α} {a : α} (h : r = .ok a) {P : List U8 → α → Prop} (hP : P [] a) :
    BTriple lim (liftM r) P := by
  subst h; exact fun _ => ⟨rfl, [], rfl, hP⟩

theorem bind_lift {r : Res α} {f : α → Dec Flat β} {Q : List U8 → β → Prop} {a : α}
    (h : r = .ok a) (hf : BTriple lim (f a) Q) : BTriple lim (liftM r >>= f) Q := by
  subst h; exact hf

theorem mono {m : Dec Flat α} {P Q : List U8 → α → Prop} (hm : BTriple lim m P)
    (h : ∀ u a, P u a → Q u a) : BTriple lim m Q := by
  intro b
  have h1 := hm b
  generalize m b = x at h1
  rcases x with ⟨r, b1⟩
  cases r with
  | error e => cases e <;> exact h1
  | ok a =>
    obtain ⟨hf1, u, hu, hP⟩ := h1
    exact ⟨hf1, u, hu, h u a hP⟩

theorem weaken {m : Dec Flat α} {P : List U8 → α → Prop} (hm : BTriple .never m P) :
    BTriple lim m P := by
  intro b
  have h1 := hm b
  generalize m b = x at h1
  rcases x with ⟨r, b1⟩
  cases r with
  | error e =>
    cases e with
    | err e => trivial
    | _ => exact absurd h1 id
  | ok a => exact h1

theorem ite {c : Prop} [Decidable c] {m n : Dec Flat α} {P : List U8 → α → Prop}
    (h1 : c → BTriple lim m P) (h2 : ¬ c → BTriple lim n P) :
    BTriple lim (if c then m else n) P := by
  split
  · next h => exact h1 h
  · next h => exact h2 h

end BTriple

/-! ### The primitives -/

open ReadBytes

theorem breads_readU8 (b : U8) : BReads readU8 [b] b := fun _ _ => rfl

theorem btriple_readU8 {lim : Limit} : BTriple lim (readU8 : Dec Flat U8) (fun u a => u = [a]) := by
  rintro ⟨bs, f⟩
  cases bs with
  | nil => cases f <;> trivial
  | cons b bs => exact ⟨rfl, [b], rfl, rfl⟩

theorem breads_readInto (bs : List U8) : BReads (readInto bs.length) bs bs := by
  intro rest fault
  simp [ReadBytes.readInto, Flat.readInto]

theorem btriple_readInto {lim : Limit} (n : Nat) :
    BTriple lim (readInto n : Dec Flat (List U8)) (fun u a => u = a ∧ a.length = n) := by
  rintro ⟨bs, f⟩
  simp only [ReadBytes.readInto, Flat.readInto]
  by_cases h : n ≤ bs.length
  · rw [if_pos h]
    exact ⟨rfl, bs.take n, by simp, rfl, by simp [h]⟩
  · rw [if_neg h]
    cases f <;> trivial

theorem breads_skip (bs : List U8) : BReads (skip bs.length) bs () := by
  intro rest fault
  simp [ReadBytes.skip, Flat.skip]

theorem btriple_skip {lim : Limit} (n : Nat) :
    BTriple lim (skip n : Dec Flat Unit) (fun u _ => u.length = n) := by
  rintro ⟨bs, f⟩
  simp only [ReadBytes.skip, Flat.skip]
  by_cases h : n ≤ bs.length
  · rw [if_pos h]
    exact ⟨rfl, bs.take n, by simp, by simp [h]⟩
  · rw [if_neg h]
    cases f <;> trivial

theorem breads_onAlloc (n k : Nat) : BReads (onAlloc n k) [] () := fun _ _ => rfl

theorem btriple_onAlloc {lim : Limit} (n k : Nat) :
    BTriple lim (onAlloc n k : Dec Flat Unit) (fun u _ => u = []) := fun _ => ⟨rfl, [], rfl, rfl⟩

theorem breads_readBeU16 (a b : U8) :
    BReads readBeU16 [a, b] (a.setWidth 16 <<< 8 ||| b.setWidth 16) := fun _ _ => rfl

theorem breads_readBeU24 (a b c : U8) :
    BReads readBeU24 [a, b, c]
      (a.setWidth 32 <<< 16 ||| b.setWidth 32 <<< 8 ||| c.setWidth 32) := fun _ _ => rfl

theorem breads_readBeU32 (a b c d : U8) :
    BReads readBeU32 [a, b, c, d]
      (a.setWidth 32 <<< 24 ||| b.setWidth 32 <<< 16 ||| c.setWidth 32 <<< 8 ||| d.setWidth 32) :=
  fun _ _ => rfl

theorem breads_readLeU32 (a b c d : U8) :
    BReads readLeU32 [a, b, c, d]
      (d.setWidth 32 <<< 24 ||| c.setWidth 32 <<< 16 ||| b.setWidth 32 <<< 8 ||| a.setWidth 32) :=
  fun _ _ => rfl

theorem btriple_readBeU16 {lim : Limit} : BTriple lim (readBeU16 : Dec Flat U16)
    (fun u v => ∃ a b, u = [a, b] ∧ v = a.setWidth 16 <<< 8 ||| b.setWidth 16) := by
  refine btriple_readU8.bind fun _ a ha => btriple_readU8.bind fun _ b hb => .pure ?_
  subst ha hb
  exact ⟨a, b, rfl, rfl⟩

theorem btriple_readBeU24 {lim : Limit} : BTriple lim (readBeU24 : Dec Flat U32)
    (fun u v => ∃ a b c, u = [a, b, c] ∧
      v = a.setWidth 32 <<< 16 ||| b.setWidth 32 <<< 8 ||| c.setWidth 32) := by
  refine btriple_readU8.bind fun _ a ha => btriple_readU8.bind fun _ b hb =>
    btriple_readU8.bind fun _ c hc => .pure ?_
  subst ha hb hc
  exact ⟨a, b, c, rfl, rfl⟩

theorem btriple_readBeU32 {lim : Limit} : BTriple lim (readBeU32 : Dec Flat U32)
    (fun u v => ∃ a b c d, u = [a, b, c, d] ∧
      v = a.setWidth 32 <<< 24 ||| b.setWidth 32 <<< 16 ||| c.setWidth 32 <<< 8 |||
        d.setWidth 32) := by
  refine btriple_readU8.bind fun _ a ha => btriple_readU8.bind fun _ b hb =>
    btriple_readU8.bind fun _ c hc => btriple_readU8.bind fun _ d hd => .pure ?_
  subst ha hb hc hd
  exact ⟨a, b, c, d, rfl, rfl⟩

theorem btriple_readLeU32 {lim : Limit} : BTriple lim (readLeU32 : Dec Flat U32)
    (fun u v => ∃ a b c d, u = [a, b, c, d] ∧
      v = d.setWidth 32 <<< 24 ||| c.setWidth 32 <<< 16 ||| b.setWidth 32 <<< 8 |||
        a.setWidth 32) := by
  refine btriple_readU8.bind fun _ a ha => btriple_readU8.bind fun _ b hb =>
    btriple_readU8.bind fun _ c hc => btriple_readU8.bind fun _ d hd => .pure ?_
  subst ha hb hc hd
  exact ⟨a, b, c, d, rfl, rfl⟩

/-! ### Multi-byte numbers -/

theorem beU16_toNat (a b : U8) :
    (a.setWidth 16 <<< 8 ||| b.setWidth 16 : U16).toNat = a.toNat * 256 + b.toNat := by
  have ha := a.isLt
  have hb := b.isLt
  have h : (a.setWidth 16 <<< 8 ||| b.setWidth 16 : U16) = a ++ b := by
    apply BitVec.eq_of_getLsbD_eq
    intro i hi
    simp only [BitVec.getLsbD_or, BitVec.getLsbD_shiftLeft, BitVec.getLsbD_setWidth,
      BitVec.getLsbD_append]
    by_cases h8 : i < 8
    · simp [h8, hi]
    · have : b.getLsbD i = false := BitVec.getLsbD_of_ge _ _ (by omega)
      simp [h8, hi, this]
      intro; omega
  rw [h, BitVec.toNat_append, Nat.shiftLeft_eq, Nat.mul_comm, ← Nat.two_pow_add_eq_or_of_lt hb]

theorem beU24_toNat (a b c : U8) :
    (a.setWidth 32 <<< 16 ||| b.setWidth 32 <<< 8 ||| c.setWidth 32 : U32).toNat =
      (a.toNat * 256 + b.toNat) * 256 + c.toNat := by
  have ha := a.isLt
  have hb := b.isLt
  have hc := c.isLt
  have e : (a.setWidth 32 <<< 16 ||| b.setWidth 32 <<< 8 ||| c.setWidth 32 : U32) =
      (a.setWidth 32 <<< 8 ||| b.setWidth 32) <<< 8 ||| c.setWidth 32 := by
    rw [BitVec.shiftLeft_or_distrib, ← BitVec.shiftLeft_add]
  have h1 : (a.setWidth 32 <<< 8 ||| b.setWidth 32 : U32).toNat = a.toNat * 256 + b.toNat := by
    rw [Bitstream.shl_or_toNat _ _ 8] <;> simp only [BitVec.toNat_setWidth] <;> omega
  rw [e, Bitstream.shl_or_toNat _ _ 8, h1]
  · simp only [BitVec.toNat_setWidth]; omega
  · rw [h1]; omega
  · simp only [BitVec.toNat_setWidth]; omega

theorem beU32_toNat (a b c d : U8) :
    (a.setWidth 32 <<< 24 ||| b.setWidth 32 <<< 16 ||| c.setWidth 32 <<< 8 ||| d.setWidth 32 :
      U32).toNat = ((a.toNat * 256 + b.toNat) * 256 + c.toNat) * 256 + d.toNat := by
  have ha := a.isLt
  have hb := b.isLt
  have hc := c.isLt
  have hd := d.isLt
  have e : (a.setWidth 32 <<< 24 ||| b.setWidth 32 <<< 16 ||| c.setWidth 32 <<< 8 ||| d.setWidth 32 :
      U32) = (a.setWidth 32 <<< 16 ||| b.setWidth 32 <<< 8 ||| c.setWidth 32) <<< 8 |||
        d.setWidth 32 := by
    rw [BitVec.shiftLeft_or_distrib, BitVec.shiftLeft_or_distrib, ← BitVec.shiftLeft_add,
      ← BitVec.shiftLeft_add]
  rw [e, Bitstream.shl_or_toNat _ _ 8, beU24_toNat]
  · simp only [BitVec.toNat_setWidth]; omega
  · rw [beU24_toNat]; omega
  · simp only [BitVec.toNat_setWidth]; omega

/-! ### From bits to bytes -/

theorem BReads.withBitstream {m : Dec (Bitstream Flat) α} {bits pad : List Bool} {bytes : List U8}
    {a : α} (hm : Reads m bits a) (hb : bytesToBits bytes = bits ++ pad) (hp : pad.length < 8) :
    BReads (withBitstream m) bytes a := by
  intro rest fault
  obtain ⟨b', h1, h2, h3, h4⟩ := hm (Bitstream.new ⟨bytes ++ rest, fault⟩) (pad ++ bytesToBits rest)
    (Bitstream.inv_new _) (by rw [Bitstream.bits_new, bytesToBits_append, hb, List.append_assoc])
  have hlen := Bitstream.length_bits b' h2
  rw [h3, List.length_append, length_bytesToBits] at hlen
  have hle := h2.le
  have e : pad.length = ((byteBits b'.data).take b'.bitsLeft).length := by
    rw [List.length_take, length_byteBits]; omega
  have h5 := bytesToBits_inj (List.append_inj h3.symm e).2
  rcases b' with ⟨⟨rb, rf⟩, d, n⟩
  simp only [Bitstream.new] at h4 h5
  simp only [Claxon.withBitstream, h1, ← h5, h4]

/-- A long run of zeros takes half a gigabyte. -/
theorem not_longZeros {bytes : List U8} (h : bytes.length < 2 ^ 29) : ¬ LongZeros (bytesToBits bytes) := by
  intro hl
  have := hl.length
  rw [length_bytesToBits] at this
  omega

theorem longZeros_suffix {bytes rest : List U8} (h : LongZeros (bytesToBits rest)) (hs : rest <:+ bytes) :
    LongZeros (bytesToBits bytes) := by
  obtain ⟨x, rfl⟩ := hs
  rw [bytesToBits_append]
  exact h.append_left _

theorem not_longZeros_suffix {bytes rest : List U8} (h : ¬ LongZeros (bytesToBits bytes))
    (hs : rest <:+ bytes) : ¬ LongZeros (bytesToBits rest) := by
  obtain ⟨pre, rfl⟩ := hs
  intro hl
  rw [bytesToBits_append] at h
  exact h (hl.append_left _)

theorem BTriple.withBitstream {m : Dec (Bitstream Flat) α} {P : List Bool → α → Prop}
    (hm : Triple m P) : BTriple .zeros (withBitstream m)
      (fun bytes a => ∃ used pad, bytesToBits bytes = used ++ pad ∧ pad.length < 8 ∧ P used a) := by
  intro s
  have h := hm (Bitstream.new s) (Bitstream.inv_new s)
  simp only [Claxon.withBitstream]
  generalize m (Bitstream.new s) = x at h
  rcases x with ⟨r, b'⟩
  cases r with
  | error e =>
    cases e with
    | err e => trivial
    | _ =>
      refine h.imp_right fun h' => ?_
      rw [Bitstream.bits_new] at h'
      exact h'
  | ok a =>
    obtain ⟨h2, h4, used, h3, hP⟩ := h
    refine ⟨h4, ?_⟩
    simp only
    have hle := h2.le
    rw [Bitstream.bits_new, Bitstream.bits, ← List.append_assoc] at h3
    have hlen := congrArg List.length h3
    rw [List.length_append, List.length_append, length_bytesToBits, length_bytesToBits,
      List.length_take, length_byteBits] at hlen
    have e1 : s.bytes = s.bytes.take (s.bytes.length - b'.reader.bytes.length) ++
        s.bytes.drop (s.bytes.length - b'.reader.bytes.length) := by simp
    rw [e1, bytesToBits_append] at h3
    have h6 := List.append_inj' h3 (by
      rw [length_bytesToBits, length_bytesToBits, List.length_drop]; omega)
    refine ⟨_, ?_, used, (byteBits b'.data).take b'.bitsLeft, h6.1, ?_, hP⟩
    · exact e1.trans (congrArg _ (bytesToBits_inj h6.2))
    · rw [List.length_take, length_byteBits]; omega

end Claxon
