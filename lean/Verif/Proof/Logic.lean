import Verif.Proof.Bitstream

/-! A program logic for code that reads from a bitstream over the flat reader. -/

namespace Claxon

open Spec

variable {α β : Type}

/-- `m` reads exactly `bits` and returns `a`, whatever follows. -/
def Reads (m : Dec (Bitstream Flat) α) (bits : List Bool) (a : α) : Prop :=
  ∀ (b : Bitstream Flat) (rest : List Bool), b.Inv → b.bits = bits ++ rest →
    ∃ b', m b = (.ok a, b') ∧ b'.Inv ∧ b'.bits = rest ∧ b'.reader.fault = b.reader.fault

/-- `m` fails with `e` when the unread bits begin with `bits`. If `exact` is set, then these have been read, and no
others. -/
def FailsOn (m : Dec (Bitstream Flat) α) (bits : List Bool) (e : Fail) (exact : Bool := false) : Prop :=
  ∀ (b : Bitstream Flat) (rest : List Bool), b.Inv → b.bits = bits ++ rest →
    ∃ b', m b = (.error e, b') ∧
      (exact = true → b'.Inv ∧ b'.bits = rest ∧ b'.reader.fault = b.reader.fault)

theorem _root_.Spec.LongZeros.append_left {bits : List Bool} (h : LongZeros bits) (pre : List Bool) :
    LongZeros (pre ++ bits) := by
  obtain ⟨p, n, q, hn, rfl⟩ := h
  exact ⟨pre ++ p, n, q, hn, by rw [List.append_assoc]⟩

theorem _root_.Spec.LongZeros.length {bits : List Bool} (h : LongZeros bits) :
    2 ^ 32 - 1 ≤ bits.length := by
  obtain ⟨p, n, q, hn, rfl⟩ := h
  rw [List.length_append, List.length_append, List.length_replicate]
  omega

theorem longZeros_unary {n : Nat} (hn : 2 ^ 32 - 1 ≤ n) (rest : List Bool) :
    LongZeros (unaryBits n ++ rest) := ⟨[], n, true :: rest, hn, by simp [unaryBits]⟩

/-- If `m` succeeds, it has consumed some bits `used`, and `P used a` holds of the result. It only
panics if there is a long run of zeros among the unread bits, with an arithmetic overflow. -/
def Triple (m : Dec (Bitstream Flat) α) (P : List Bool → α → Prop) : Prop :=
  ∀ b : Bitstream Flat, b.Inv →
    match m b with
    | (.ok a, b') => b'.Inv ∧ b'.reader.fault = b.reader.fault ∧
        ∃ used, b.bits = used ++ b'.bits ∧ P used a
    | (.error (.err _), _) => True
    | (.error f, _) => f = .panic .overflow ∧ LongZeros b.bits

namespace Reads

theorem pure (a : α) : Reads (Pure.pure a) [] a :=
  fun b _ hb h => ⟨b, rfl, hb, by simpa using h, rfl⟩

theorem bind {m : Dec (Bitstream Flat) α} {f : α → Dec (Bitstream Flat) β} {bs cs : List Bool}
    {a : α} {c : β} (hm : Reads m bs a) (hf : Reads (f a) cs c) : Reads (m >>= f) (bs ++ cs) c := by
  intro b rest hb h
  rw [List.append_assoc] at h
  obtain ⟨b1, h1, hb1, hbits1, hf1⟩ := hm b _ hb h
  obtain ⟨b2, h2, hb2, hbits2, hf2⟩ := hf b1 _ hb1 hbits1
  exact ⟨b2, by rw [Dec.bind_ok _ h1, h2], hb2, hbits2, hf2.trans hf1⟩

/-- `bind` when the second part reads nothing. -/
theorem bind_nil {m : Dec (Bitstream Flat) α} {f : α → Dec (Bitstream Flat) β} {bs : List Bool}
    {a : α} {c : β} (hm : Reads m bs a) (hf : Reads (f a) [] c) : Reads (m >>= f) bs c := by
  have := hm.bind hf
  rwa [List.append_nil] at this

theorem lift {r : Res α} {a : α} (h : r = .ok a) : Reads (liftM r) [] a := by
  subst h; exact fun b _ hb h => ⟨b, rfl, hb, by simpa using h, rfl⟩

theorem bind_lift {r : Res α} {f : α → Dec (Bitstream Flat) β} {cs : List Bool} {a : α} {c : β}
    (h : r = .ok a) (hf : Reads (f a) cs c) : Reads (liftM r >>= f) cs c := by
  have := (Reads.lift h).bind hf
  simpa using this

theorem congr {m : Dec (Bitstream Flat) α} {bs cs : List Bool} {a c : α} (h : Reads m bs a)
    (hb : bs = cs) (ha : a = c) : Reads m cs c := by subst hb ha; exact h

end Reads

namespace FailsOn

variable {x : Bool}

theorem of {m : Dec (Bitstream Flat) α} {bits : List Bool} {e : Fail}
    (h : ∀ (b : Bitstream Flat) (rest : List Bool), b.Inv → b.bits = bits ++ rest → ∃ b', m b = (.error e, b')) :
    FailsOn m bits e := fun b rest hb hbits => (h b rest hb hbits).imp fun _ h => ⟨h, by simp⟩

theorem fail (e : Fail) : FailsOn (Dec.fail e : Dec (Bitstream Flat) α) [] e x :=
  fun b _ hb h => ⟨b, rfl, fun _ => ⟨hb, h, rfl⟩⟩

theorem bind {m : Dec (Bitstream Flat) α} {f : α → Dec (Bitstream Flat) β} {bs cs : List Bool}
    {a : α} {e : Fail} (hm : Reads m bs a) (hf : FailsOn (f a) cs e x) : FailsOn (m >>= f) (bs ++ cs) e x := by
  intro b rest hb h
  rw [List.append_assoc] at h
  obtain ⟨b1, h1, hb1, hbits1, hf1⟩ := hm b _ hb h
  obtain ⟨b2, h2, h3⟩ := hf b1 _ hb1 hbits1
  exact ⟨b2, by rw [Dec.bind_ok _ h1, h2], fun hx => ⟨(h3 hx).1, (h3 hx).2.1, (h3 hx).2.2.trans hf1⟩⟩

theorem bind_left {m : Dec (Bitstream Flat) α} (f : α → Dec (Bitstream Flat) β) {bs : List Bool}
    {e : Fail} (hm : FailsOn m bs e x) : FailsOn (m >>= f) bs e x := by
  intro b rest hb h
  obtain ⟨b1, h1, h2⟩ := hm b _ hb h
  exact ⟨b1, Dec.bind_error _ h1, h2⟩

theorem bind_lift {r : Res α} {f : α → Dec (Bitstream Flat) β} {cs : List Bool} {a : α} {e : Fail}
    (h : r = .ok a) (hf : FailsOn (f a) cs e x) : FailsOn (liftM r >>= f) cs e x := by
  have := FailsOn.bind (Reads.lift h) hf
  simpa using this

theorem weaken {m : Dec (Bitstream Flat) α} {bs : List Bool} {e : Fail} (h : FailsOn m bs e)
    (more : List Bool) : FailsOn m (bs ++ more) e := by
  intro b rest hb hbits
  rw [List.append_assoc] at hbits
  obtain ⟨b', h1, -⟩ := h b _ hb hbits
  exact ⟨b', h1, by simp⟩

end FailsOn

namespace Triple

theorem pure {a : α} {P : List Bool → α → Prop} (h : P [] a) : Triple (Pure.pure a) P :=
  fun _ hb => ⟨hb, rfl, [], rfl, h⟩

theorem err (e : Error) {P : List Bool → α → Prop} :
    Triple (Dec.fail (.err e) : Dec (Bitstream Flat) α) P := fun _ _ => trivial

theorem bind {m : Dec (Bitstream Flat) α} {f : α → Dec (Bitstream Flat) β}
    {P : List Bool → α → Prop} {Q : List Bool → β → Prop} (hm : Triple m P)
    (hf : ∀ u a, P u a → Triple (f a) (fun v c => Q (u ++ v) c)) : Triple (m >>= f) Q := by
  intro b hb
  have h1 := hm b hb
  rw [Dec.bind_def]
  rcases hmb : m b with ⟨r, b1⟩
  rw [hmb] at h1
  cases r with
  | error e => cases e <;> trivial
  | ok a =>
    obtain ⟨hb1, hf1, u, hu, hP⟩ := h1
    have h2 := hf u a hP b1 hb1
    simp only
    rcases hfb : f a b1 with ⟨r, b2⟩
    rw [hfb] at h2
    have hle : LongZeros b1.bits → LongZeros b.bits := fun h => by rw [hu]; exact h.append_left u
    cases r with
    | error e =>
      cases e with
      | err e => trivial
      | panic => exact h2.imp_right hle
      | ub => exact h2.imp_right hle
      | diverged => exact h2.imp_right hle
    | ok c =>
      obtain ⟨hb2, hf2, v, hv, hQ⟩ := h2
      exact ⟨hb2, hf2.trans hf1, u ++ v, by rw [hu, hv, List.append_assoc], hQ⟩

theorem lift {r : Res α} {a : α} (h : r = .ok a) {P : List Bool → α → Prop} (hP : P [] a) :
    Triple (liftM r) P := by
  subst h; exact fun _ hb => ⟨hb, rfl, [], rfl, hP⟩

theorem bind_lift {r : Res α} {f : α → Dec (Bitstream Flat) β} {Q : List Bool → β → Prop} {a : α}
    (h : r = .ok a) (hf : Triple (f a) Q) : Triple (liftM r >>= f) Q := by
  subst h; exact hf

theorem mono {m : Dec (Bitstream Flat) α} {P Q : List Bool → α → Prop} (hm : Triple m P)
    (h : ∀ u a, P u a → Q u a) : Triple m Q := by
  intro b hb
  have h1 := hm b hb
  rcases hmb : m b with ⟨r, b1⟩
  rw [hmb] at h1
  cases r with
  | error e => cases e <;> trivial
  | ok a =>
    obtain ⟨hb1, hf1, u, hu, hP⟩ := h1
    exact ⟨hb1, hf1, u, hu, h u a hP⟩

end Triple

/-! ### The primitives -/

section

open Bitstream

theorem append_take_eq {k : Nat} {x : Nat} {l rest : List Bool} (hx : x < 2 ^ k)
    {y : Nat} (hy : y < 2 ^ k) (h : natToBits k x ++ l = natToBits k y ++ rest) :
    x = y ∧ l = rest := by
  have := List.append_inj h (by simp)
  exact ⟨natToBits_inj hx hy this.1, this.2⟩

theorem reads_of_ok {w : Nat} {m : Dec (Bitstream Flat) (BitVec w)} {k v : Nat} (hv : v < 2 ^ k)
    (hkw : k ≤ w)
    (hm : ∀ b : Bitstream Flat, b.Inv → k ≤ b.bits.length →
      ∃ a b', m b = (.ok a, b') ∧ Inv b' ∧ b'.reader.fault = b.reader.fault ∧
      a.toNat < 2 ^ k ∧ b.bits = natToBits k a.toNat ++ b'.bits) :
    Reads m (natToBits k v) (BitVec.ofNat w v) := by
  intro b rest hb h
  obtain ⟨a, b', h1, h2, h3, h4, h5⟩ := hm b hb (by rw [h]; simp)
  rw [h] at h5
  have := append_take_eq h4 hv h5.symm
  have ha : a = BitVec.ofNat w v := by
    apply BitVec.eq_of_toNat_eq
    rw [this.1, BitVec.toNat_ofNat, Nat.mod_eq_of_lt]
    exact Nat.lt_of_lt_of_le hv (Nat.pow_le_pow_right (by omega) hkw)
  exact ⟨b', by rw [h1, ha], h2, this.2, h3⟩

theorem triple_of_ok {w : Nat} {m : Dec (Bitstream Flat) (BitVec w)} {k : Nat}
    (hm : ∀ b : Bitstream Flat, b.Inv → k ≤ b.bits.length →
      ∃ a b', m b = (.ok a, b') ∧ Inv b' ∧ b'.reader.fault = b.reader.fault ∧
      a.toNat < 2 ^ k ∧ b.bits = natToBits k a.toNat ++ b'.bits)
    (he : ∀ b : Bitstream Flat, b.Inv → b.bits.length < k →
      ∃ b', m b = (.error (Flat.endFail b.reader.fault), b')) :
    Triple m (fun u a => u = natToBits k a.toNat ∧ a.toNat < 2 ^ k) := by
  intro b hb
  rcases Nat.lt_or_ge b.bits.length k with hlt | hge
  · obtain ⟨b', h⟩ := he b hb hlt
    rw [h]
    rcases b.reader.fault with _ | c <;> trivial
  · obtain ⟨a, b', h1, h2, h3, h4, h5⟩ := hm b hb hge
    rw [h1]
    exact ⟨h2, h3, _, h5, rfl, h4⟩

theorem reads_readLeqU8 {k v : Nat} (hk : k ≤ 8) (hv : v < 2 ^ k) :
    Reads (readLeqU8 k) (natToBits k v) (BitVec.ofNat 8 v) :=
  reads_of_ok hv hk fun _ hb => readLeqU8_ok hb hk

theorem reads_readGtU8LeqU16 {k v : Nat} (hk8 : 8 < k) (hk : k ≤ 16) (hv : v < 2 ^ k) :
    Reads (readGtU8LeqU16 k) (natToBits k v) (BitVec.ofNat 32 v) :=
  reads_of_ok hv (by omega) fun _ hb => readGtU8LeqU16_ok hb hk8 hk

theorem reads_readLeqU16 {k v : Nat} (hk : k ≤ 16) (hv : v < 2 ^ k) :
    Reads (readLeqU16 k) (natToBits k v) (BitVec.ofNat 16 v) :=
  reads_of_ok hv hk fun _ hb => readLeqU16_ok hb hk

theorem reads_readLeqU32 {k v : Nat} (hk : k ≤ 32) (hv : v < 2 ^ k) :
    Reads (readLeqU32 k) (natToBits k v) (BitVec.ofNat 32 v) :=
  reads_of_ok hv hk fun _ hb => readLeqU32_ok hb hk

theorem reads_readBit (x : Bool) : Reads readBit [x] x := by
  intro b rest hb h
  obtain ⟨a, b', h1, h2, h3, h4⟩ := readBit_ok hb (by rw [h]; simp)
  rw [h] at h4
  simp only [List.cons_append, List.nil_append, List.cons.injEq] at h4
  exact ⟨b', by rw [h1, h4.1], h2, h4.2.symm, h3⟩

theorem reads_readUnary {n : Nat} (hn : n < 2 ^ 32) : Reads readUnary (unaryBits n) n := by
  intro b rest hb h
  obtain ⟨b', h1, h2, h3, h4⟩ := (readUnary_unary hb h).1 hn
  exact ⟨b', h1, h2, h4, h3⟩

theorem triple_readLeqU8 {k : Nat} (hk : k ≤ 8) :
    Triple (readLeqU8 k) (fun u a => u = natToBits k a.toNat ∧ a.toNat < 2 ^ k) :=
  triple_of_ok (fun _ hb => readLeqU8_ok hb hk) (fun _ hb => readLeqU8_eof hb hk)

theorem triple_readGtU8LeqU16 {k : Nat} (hk8 : 8 < k) (hk : k ≤ 16) :
    Triple (readGtU8LeqU16 k) (fun u a => u = natToBits k a.toNat ∧ a.toNat < 2 ^ k) :=
  triple_of_ok (fun _ hb => readGtU8LeqU16_ok hb hk8 hk) (fun _ hb => readGtU8LeqU16_eof hb hk8 hk)

theorem triple_readLeqU16 {k : Nat} (hk : k ≤ 16) :
    Triple (readLeqU16 k) (fun u a => u = natToBits k a.toNat ∧ a.toNat < 2 ^ k) :=
  triple_of_ok (fun _ hb => readLeqU16_ok hb hk) (fun _ hb => readLeqU16_eof hb hk)

theorem triple_readLeqU32 {k : Nat} (hk : k ≤ 32) :
    Triple (readLeqU32 k) (fun u a => u = natToBits k a.toNat ∧ a.toNat < 2 ^ k) :=
  triple_of_ok (fun _ hb => readLeqU32_ok hb hk) (fun _ hb => readLeqU32_eof hb hk)

theorem triple_readBit : Triple readBit (fun u a => u = [a]) := by
  intro b hb
  rcases Nat.lt_or_ge b.bits.length 1 with hlt | hge
  · obtain ⟨b', h⟩ := readBit_eof hb hlt
    rw [h]
    rcases b.reader.fault with _ | c <;> trivial
  · obtain ⟨a, b', h1, h2, h3, h4⟩ := readBit_ok hb hge
    rw [h1]
    exact ⟨h2, h3, [a], h4, rfl⟩

theorem triple_readUnary : Triple readUnary (fun u n => u = unaryBits n ∧ n < 2 ^ 32) := by
  intro b hb
  rcases unary_or_zeros b.bits with ⟨n, rest, h⟩ | h
  · rcases Nat.lt_or_ge n (2 ^ 32) with hlt | hge
    · obtain ⟨b', h1, h2, h3, h4⟩ := (readUnary_unary hb h).1 hlt
      rw [h1]
      exact ⟨h2, h3, unaryBits n, by rw [h4]; exact h, rfl, hlt⟩
    · obtain ⟨b', h1⟩ := (readUnary_unary hb h).2 hge
      rw [h1]
      refine ⟨rfl, ?_⟩
      rw [h]; exact longZeros_unary (by omega) rest
  · rcases Nat.lt_or_ge b.bits.length (2 ^ 32) with hlt | hge
    · obtain ⟨b', h1⟩ := (readUnary_zeros hb h).1 hlt
      rw [h1]
      rcases b.reader.fault with _ | c <;> trivial
    · obtain ⟨b', h1⟩ := (readUnary_zeros hb h).2 hge
      rw [h1]
      exact ⟨rfl, [], b.bits.length, [], by omega, by simpa using h⟩

end

end Claxon
