import Verif.Model.Frame
import Verif.Proof.Dec
import Verif.Proof.Residual

/-! Builds without overflow checks: nothing that can panic there does. -/

namespace Claxon

open ReadBytes

variable {σ α β : Type}

/-- A result with `Q` and a state with `P`, or a failure with `E`. -/
def Wpr (P : σ → Prop) (E : Fail → σ → Prop) (Q : α → Prop) : Except Fail α × σ → Prop
  | (.ok a, s) => Q a ∧ P s
  | (.error f, s) => E f s

/-- From states with `P`, `m` succeeds with a result with `Q` and a state with `P`, or fails with `E`. -/
def Wp (P : σ → Prop) (E : Fail → σ → Prop) (m : Dec σ α) (Q : α → Prop) : Prop :=
  ∀ s, P s → Wpr P E Q (m s)

namespace Wp

variable {P : σ → Prop} {E : Fail → σ → Prop}

theorem pure {a : α} {Q : α → Prop} (h : Q a) : Wp P E (Pure.pure a : Dec σ α) Q := fun _ hs => ⟨h, hs⟩

theorem bind {m : Dec σ α} {f : α → Dec σ β} {Q : α → Prop} {Q' : β → Prop} (hm : Wp P E m Q)
    (hf : ∀ a, Q a → Wp P E (f a) Q') : Wp P E (m >>= f) Q' := by
  intro s hs
  have h := hm s hs
  rw [Dec.bind_def]
  rcases hx : m s with ⟨e | a, s'⟩ <;> rw [hx] at h
  · exact h
  · exact hf a h.1 s' h.2

theorem any {m : Dec σ α} {f : α → Dec σ β} {Q : α → Prop} {Q' : β → Prop} (hm : Wp P E m Q)
    (hf : ∀ a, Wp P E (f a) Q') : Wp P E (m >>= f) Q' := hm.bind fun a _ => hf a

theorem mono {m : Dec σ α} {Q Q' : α → Prop} (h : Wp P E m Q) (hq : ∀ a, Q a → Q' a) : Wp P E m Q' := by
  intro s hs
  have := h s hs
  rcases hx : m s with ⟨e | a, s'⟩ <;> rw [hx] at this
  · exact this
  · exact ⟨hq a this.1, this.2⟩

theorem lift {x : Res α} {a : α} {Q : α → Prop} (hx : x = .ok a) (h : Q a) : Wp P E (liftM x : Dec σ α) Q := by
  subst hx
  exact fun _ hs => ⟨h, hs⟩

theorem ite {c : Prop} [Decidable c] {m m' : Dec σ α} {Q : α → Prop} (h : c → Wp P E m Q)
    (h' : ¬ c → Wp P E m' Q) : Wp P E (if c then m else m') Q := by
  by_cases hc : c
  · rw [if_pos hc]; exact h hc
  · rw [if_neg hc]; exact h' hc

theorem get {f : σ → Dec σ α} {Q : α → Prop} (h : ∀ s, Wp P E (f s) Q) : Wp P E (Dec.get >>= f) Q :=
  fun s hs => h s s hs

end Wp

/-- `x` does not fail. -/
def Total (x : Res α) : Prop := ∃ a, x = .ok a

theorem Total.bind {x : Res α} {f : α → Res β} (h : Total x) (hf : ∀ a, Total (f a)) : Total (x >>= f) := by
  obtain ⟨a, rfl⟩ := h
  exact hf a

theorem Total.pure (a : α) : Total (Pure.pure a : Res α) := ⟨a, rfl⟩

theorem Wp.total {P : σ → Prop} {E : Fail → σ → Prop} {x : Res α} (h : Total x) :
    Wp P E (liftM x : Dec σ α) (fun _ => True) := by
  obtain ⟨a, rfl⟩ := h
  exact fun _ hs => ⟨trivial, hs⟩

/-- After `n` more bytes, the model may give up. -/
def Ends [ReadBytes σ] (E : Fail → σ → Prop) : Nat → σ → Prop
  | 0, s => E .diverged s
  | n + 1, s => ∀ b s', (ReadBytes.readU8 s : Except Fail U8 × σ) = (.ok b, s') → Ends E n s'

/-- What is assumed about the reader. -/
structure Steady [ReadBytes σ] (P : σ → Prop) (E : Fail → σ → Prop) : Prop where
  readU8 : Wp P E (ReadBytes.readU8 : Dec σ U8) (fun _ => True)
  readU8OrEof : Wp P E (ReadBytes.readU8OrEof : Dec σ (Option U8)) (fun _ => True)
  err : ∀ e s, P s → E (.err e) s
  ends : ∀ n, 2 ^ 64 ≤ n → ∀ s, P s → Ends E n s

section

variable [bd : Build] (hb : bd.checked = false)

include hb

theorem orPanic_total (p : Panic) (v : α) : orPanic p v = .ok v := by
  unfold orPanic
  rw [hb]
  rfl

theorem total_addU (w a b : Nat) : Total (addU w a b) := by
  unfold addU
  split
  · exact ⟨_, rfl⟩
  · exact ⟨_, orPanic_total hb _ _⟩

theorem total_subU (w a b : Nat) : Total (subU w a b) := by
  unfold subU
  split
  · exact ⟨_, rfl⟩
  · exact ⟨_, orPanic_total hb _ _⟩

theorem total_mulU (w a b : Nat) : Total (mulU w a b) := by
  unfold mulU
  split
  · exact ⟨_, rfl⟩
  · exact ⟨_, orPanic_total hb _ _⟩

theorem total_shl {w : Nat} (x : BitVec w) (s : Nat) : Total (shl x s) := by
  unfold shl
  split
  · exact ⟨_, rfl⟩
  · exact ⟨_, orPanic_total hb _ _⟩

theorem total_shr {w : Nat} (x : BitVec w) (s : Nat) : Total (shr x s) := by
  unfold shr
  split
  · exact ⟨_, rfl⟩
  · exact ⟨_, orPanic_total hb _ _⟩

theorem total_sar {w : Nat} (x : BitVec w) (s : Nat) : Total (sar x s) := by
  unfold sar
  split
  · exact ⟨_, rfl⟩
  · exact ⟨_, orPanic_total hb _ _⟩

theorem total_addI64 (a b : I64) : Total (addI64 a b) := by
  unfold addI64
  split
  · exact ⟨_, rfl⟩
  · exact ⟨_, orPanic_total hb _ _⟩

theorem total_mulI64 (a b : I64) : Total (mulI64 a b) := by
  unfold mulI64
  split
  · exact ⟨_, rfl⟩
  · exact ⟨_, orPanic_total hb _ _⟩

theorem total_sarI16 (x : I64) (s : I16) : Total (sarI16 x s) := by
  unfold sarI16
  split
  · exact ⟨_, rfl⟩
  · exact ⟨_, orPanic_total hb _ _⟩

theorem total_debugAssert (c : Bool) : Total (debugAssert c) := by
  unfold debugAssert
  split
  · exact ⟨_, rfl⟩
  · exact ⟨_, orPanic_total hb _ _⟩

theorem total_shiftLeft (x : U8) (s : Nat) : Total (shiftLeft x s) :=
  (total_debugAssert hb _).bind fun _ => (total_shl hb _ _).bind fun _ => .pure _

theorem total_shiftRight (x : U8) (s : Nat) : Total (shiftRight x s) :=
  (total_debugAssert hb _).bind fun _ => (total_shr hb _ _).bind fun _ => .pure _

theorem total_maskU8 (bits : Nat) : Total (Bitstream.maskU8 bits) :=
  (total_debugAssert hb _).bind fun _ => (total_subU hb _ _ _).bind fun _ => total_shiftLeft hb _ _

theorem total_extendSignU16 (v : U16) (bits : Nat) : Total (extendSignU16 v bits) :=
  (total_subU hb _ _ _).bind fun _ => (total_shl hb _ _).bind fun _ => total_sar hb _ _

theorem total_extendSignU32 (v : U32) (bits : Nat) : Total (extendSignU32 v bits) :=
  (total_subU hb _ _ _).bind fun _ => (total_shl hb _ _).bind fun _ => total_sar hb _ _

theorem total_innerProduct (xs : List (I64 × I64)) : ∀ acc, Total (innerProduct xs acc) := by
  induction xs with
  | nil => exact fun acc => ⟨acc, rfl⟩
  | cons x xs ih =>
    intro acc
    exact (total_mulI64 hb _ _).bind fun _ => (total_addI64 hb _ _).bind fun _ => ih _

theorem total_lpcSample (coefs : List I64) (window : List I32) (s : I16) (delta : I32) :
    Total (lpcSample coefs window s delta) :=
  (total_innerProduct hb _ _).bind fun _ => (total_sarI16 hb _ _).bind fun _ =>
    (total_addI64 hb _ _).bind fun _ => .pure _

omit hb in
/-- A result of at most `bits` bits. -/
theorem shiftRight_lt {x y : U8} {bits : Nat} (hle : bits ≤ 8)
    (h : (do let s ← subU 32 8 bits; shiftRight x s) = .ok y) : y.toNat < 2 ^ bits := by
  unfold subU at h
  rw [if_pos hle] at h
  change shiftRight x (8 - bits) = _ at h
  unfold shiftRight debugAssert at h
  rw [if_pos (by simp)] at h
  change (do let y ← shr (x.setWidth 32) (8 - bits); Pure.pure (y.setWidth 8) : Res U8) = _ at h
  unfold shr at h
  rw [if_pos (by omega)] at h
  change Except.ok ((x.setWidth 32 >>> (8 - bits)).setWidth 8) = _ at h
  cases h
  rw [BitVec.toNat_setWidth, BitVec.toNat_ushiftRight, BitVec.toNat_setWidth, Nat.shiftRight_eq_div_pow]
  have hx := x.isLt
  have h1 : x.toNat % 2 ^ 32 = x.toNat := Nat.mod_eq_of_lt (by omega)
  rw [h1]
  refine Nat.lt_of_le_of_lt (Nat.mod_le _ _) (Nat.div_lt_of_lt_mul ?_)
  rw [← Nat.pow_add]
  simpa [Nat.sub_add_cancel hle] using hx

end

/-! ### Bits -/

section

variable [bd : Build] (hb : bd.checked = false) [ReadBytes σ] {P : σ → Prop} {E : Fail → σ → Prop}

/-- The same for a bitstream: the bits that are left do not matter. -/
abbrev Bwp (P : σ → Prop) (E : Fail → σ → Prop) (m : Dec (Bitstream σ) α) (Q : α → Prop) : Prop :=
  Wp (fun b : Bitstream σ => P b.reader) (fun f b => E f b.reader) m Q

namespace Bitstream

omit bd [ReadBytes σ] in
theorem wp_update (data : U8) (left : Nat) : Bwp P E (update data left) (fun _ => True) :=
  fun _ h => ⟨trivial, h⟩

omit bd [ReadBytes σ] in
theorem wp_err (hE : ∀ e s, P s → E (.err e) s) (e : Error) {Q : α → Prop} :
    Wp P E (Dec.fail (.err e) : Dec σ α) Q := fun s h => hE e s h

variable (hP : Steady P E)

include hP

omit bd in
theorem wp_readByte : Bwp P E readByte (fun _ => True) := by
  intro b h
  have := hP.readU8 b.reader h
  unfold readByte
  rw [Dec.zoom_run]
  rcases hx : (ReadBytes.readU8 b.reader : Except Fail U8 × σ) with ⟨e | a, s'⟩ <;> rw [hx] at this <;> exact this

include hb

theorem wp_readBit : Bwp P E readBit (fun _ => True) := by
  unfold readBit
  refine Wp.get fun b => ?_
  refine Wp.ite (fun _ => ?_) (fun _ => ?_)
  · exact (wp_readByte hP).any fun _ => (wp_update _ _).any fun _ => Wp.pure trivial
  · exact (Wp.total (total_subU hb _ _ _)).any fun _ => (wp_update _ _).any fun _ => Wp.pure trivial

omit hP [ReadBytes σ] in
theorem wp_unaryEnd (fresh : U8) (n : Nat) : Bwp P E (unaryEnd fresh n) (fun _ => True) :=
  (Wp.total (total_subU hb _ _ _)).any fun _ => (Wp.total (total_shiftLeft hb _ _)).any fun _ =>
    (wp_update _ _).any fun _ => Wp.pure trivial

theorem wp_readUnaryWrapped (fuel : Nat) : ∀ (n : Nat) (b : Bitstream σ), P b.reader → Ends E fuel b.reader →
    Wpr (fun b : Bitstream σ => P b.reader) (fun f b => E f b.reader) (fun _ => True) (readUnaryWrapped fuel n b) := by
  induction fuel with
  | zero => exact fun n b _ h => h
  | succ fuel ih =>
    intro n b h he
    have h1 := wp_readByte hP b h
    rw [readUnaryWrapped, Dec.bind_def]
    rcases hx : readByte b with ⟨e | fresh, b'⟩ <;> rw [hx] at h1
    · exact h1
    · simp only
      rw [Dec.ite_run]
      by_cases hz : leadingZeros fresh < 8
      · rw [if_pos hz]
        exact wp_unaryEnd hb _ _ b' h1.2
      · rw [if_neg hz]
        refine ih _ b' h1.2 (he fresh b'.reader ?_)
        unfold readByte at hx
        rw [Dec.zoom_run] at hx
        simp only [Prod.mk.injEq] at hx
        rw [← hx.2, ← hx.1]

theorem wp_wrapped {fuel : Nat} (hf : 2 ^ 64 ≤ fuel) (n : Nat) :
    Bwp P E (readUnaryWrapped fuel n) (fun _ => True) :=
  fun b h => wp_readUnaryWrapped hb hP fuel n b h (hP.ends fuel hf _ h)

theorem wp_readUnaryLoop (k : Nat) : ∀ n, 2 ^ 32 - n ≤ k → Bwp P E (readUnaryLoop n) (fun _ => True) := by
  induction k with
  | zero =>
    intro n hn
    rw [readUnaryLoop]
    refine (wp_readByte hP).any fun fresh => ?_
    rw [dif_neg (by omega), hb]
    refine Wp.ite (fun h => by cases h) fun _ => Wp.ite (fun _ => wp_unaryEnd hb _ _) fun _ => ?_
    exact wp_wrapped hb hP (Nat.le_refl _) _
  | succ k ih =>
    intro n hn
    rw [readUnaryLoop]
    refine (wp_readByte hP).any fun fresh => ?_
    by_cases h1 : n + leadingZeros fresh < 2 ^ 32
    · rw [dif_pos h1]
      by_cases h2 : leadingZeros fresh < 8
      · rw [dif_pos h2]
        exact wp_unaryEnd hb _ _
      · rw [dif_neg h2]
        exact ih _ (by omega)
    · rw [dif_neg h1, hb]
      refine Wp.ite (fun h => by cases h) fun _ => Wp.ite (fun _ => wp_unaryEnd hb _ _) fun _ => ?_
      exact wp_wrapped hb hP (Nat.le_refl _) _

theorem wp_readUnary : Bwp P E readUnary (fun _ => True) := by
  unfold readUnary
  refine Wp.get fun b => ?_
  dsimp only
  refine Wp.ite (fun _ => ?_) (fun _ => wp_readUnaryLoop hb hP _ _ (Nat.le_refl _))
  exact (Wp.total (total_shl hb _ _)).any fun _ => (Wp.total (total_subU hb _ _ _)).any fun _ =>
    (wp_update _ _).any fun _ => Wp.pure trivial

omit hP [ReadBytes σ] in
theorem wp_readLeqU8Finish {bits : Nat} (hle : bits ≤ 8) (x : U8) :
    Bwp P E (readLeqU8Finish bits x) (fun y => y.toNat < 2 ^ bits) := by
  unfold readLeqU8Finish
  refine Wp.get fun b => ?_
  refine (Wp.total (total_debugAssert hb _)).any fun _ => (Wp.total (total_maskU8 hb _)).any fun _ =>
    (Wp.total (total_debugAssert hb _)).any fun _ => ?_
  obtain ⟨s, hs⟩ := total_subU hb 32 8 bits
  obtain ⟨y, hy⟩ := total_shiftRight hb x s
  refine (Wp.lift hs rfl).bind fun s' he => ?_
  subst he
  refine Wp.lift hy (shiftRight_lt hle (x := x) ?_)
  rw [hs]
  exact hy

theorem wp_readLeqU8 {bits : Nat} (hle : bits ≤ 8) : Bwp P E (readLeqU8 bits) (fun y => y.toNat < 2 ^ bits) := by
  unfold readLeqU8
  refine (Wp.total (total_debugAssert hb _)).any fun _ => Wp.get fun b => ?_
  refine Wp.ite (fun _ => ?_) (fun _ => ?_)
  · exact (wp_readByte hP).any fun _ => (Wp.total (total_subU hb _ _ _)).any fun _ =>
      (Wp.total (total_maskU8 hb _)).any fun _ => (Wp.total (total_shr hb _ _)).any fun _ =>
      (Wp.total (total_shiftLeft hb _ _)).any fun _ => (Wp.total (total_subU hb _ _ _)).any fun _ =>
      (wp_update _ _).any fun _ => wp_readLeqU8Finish hb hle _
  · exact (Wp.total (total_maskU8 hb _)).any fun _ => (Wp.total (total_shl hb _ _)).any fun _ =>
      (Wp.total (total_subU hb _ _ _)).any fun _ => (wp_update _ _).any fun _ => wp_readLeqU8Finish hb hle _

theorem wp_readGtU8LeqU16 (bits : Nat) : Bwp P E (readGtU8LeqU16 bits) (fun _ => True) := by
  unfold readGtU8LeqU16
  refine (Wp.total (total_debugAssert hb _)).any fun _ => Wp.get fun b => ?_
  refine (Wp.total (total_subU hb _ _ _)).any fun _ => (Wp.total (total_shl hb _ _)).any fun _ =>
    (Wp.total (total_subU hb _ _ _)).any fun _ => (Wp.total (total_shl hb _ _)).any fun _ =>
    (wp_readByte hP).any fun _ => ?_
  refine Wp.any (Q := fun _ => True) (Wp.total ?_) fun _ => Wp.ite (fun _ => ?_) (fun _ => ?_)
  · split
    · exact total_shl hb _ _
    · exact total_shr hb _ _
  · exact (wp_update _ _).any fun _ => Wp.pure trivial
  · exact (wp_readByte hP).any fun _ => (Wp.total (total_subU hb _ _ _)).any fun _ =>
      (Wp.total (total_shr hb _ _)).any fun _ => (Wp.total (total_subU hb _ _ _)).any fun _ =>
      (wp_update _ _).any fun _ => Wp.pure trivial

theorem wp_readLeqU16 {bits : Nat} (hle : bits ≤ 16) : Bwp P E (readLeqU16 bits) (fun _ => True) := by
  unfold readLeqU16
  refine (Wp.total (total_debugAssert hb _)).any fun _ => Wp.ite (fun h => ?_) (fun h => ?_)
  · exact (wp_readLeqU8 hb hP h).any fun _ => Wp.pure trivial
  · exact (wp_readLeqU8 hb hP (by omega)).any fun _ => (wp_readLeqU8 hb hP (by omega)).any fun _ =>
      (Wp.total (total_shl hb _ _)).any fun _ => Wp.pure trivial

theorem wp_readLeqU32 {bits : Nat} (hle : bits ≤ 32) : Bwp P E (readLeqU32 bits) (fun _ => True) := by
  unfold readLeqU32
  refine (Wp.total (total_debugAssert hb _)).any fun _ => Wp.ite (fun h => ?_) (fun h => ?_)
  · exact (wp_readLeqU16 hb hP h).any fun _ => Wp.pure trivial
  · exact (wp_readLeqU16 hb hP (by omega)).any fun _ => (wp_readLeqU16 hb hP (by omega)).any fun _ =>
      (Wp.total (total_shl hb _ _)).any fun _ => Wp.pure trivial

end Bitstream

/-! ### Subframes -/

open Bitstream

omit bd [ReadBytes σ] in
theorem Wp.err (hE : ∀ e s, P s → E (.err e) s) (e : Error) {Q : α → Prop} :
    Wp P E (Dec.fail (.err e) : Dec σ α) Q := fun s h => hE e s h

omit bd [ReadBytes σ] in
theorem Wp.withSlice {buffer : List I32} {a b : Nat} {f : List I32 → Dec σ (List I32)} (hab : a ≤ b)
    (hlen : b ≤ buffer.length)
    (hf : ∀ s : List I32, s.length = b - a → Wp P E (f s) (fun out => out.length = s.length)) :
    Wp P E (Claxon.withSlice buffer a b f) (fun out => out.length = buffer.length) := by
  unfold Claxon.withSlice
  refine (Wp.lift (if_pos ⟨hab, hlen⟩) rfl).bind fun s hs => ?_
  subst hs
  have hl : ((buffer.take b).drop a).length = b - a := by simp [List.length_take]; omega
  refine (hf _ hl).bind fun s' hs' => Wp.pure ?_
  simp only [List.length_append, List.length_take, List.length_drop, hs'] at *
  omega

variable (hP : Steady P E)

include hP hb

omit bd hb in
theorem Bwp.err (e : Error) {Q : α → Prop} : Bwp P E (Dec.fail (.err e)) Q := Wp.err (fun e s h => hP.err e s.reader h) e

omit bd hb [ReadBytes σ] hP in
theorem wp_subframeTypeOf (hE : ∀ e s, P s → E (.err e) s) (n : U8) : Bwp P E (subframeTypeOf n) (fun t =>
    (∀ k, t = .fixed k → k ≤ 4) ∧ ∀ k, t = .lpc k → 1 ≤ k ∧ k ≤ 32) := by
  have he : ∀ {Q : SubframeType → Prop} (e : Error), Bwp P E (Dec.fail (.err e)) Q :=
    fun e => Wp.err (fun e s h => hE e s.reader h) e
  unfold subframeTypeOf
  refine Wp.ite (fun _ => Wp.pure (by simp)) fun _ => ?_
  refine Wp.ite (fun _ => Wp.pure (by simp)) fun _ => ?_
  refine Wp.ite (fun _ => he _) fun _ => ?_
  refine Wp.ite (fun _ => ?_) fun _ => ?_
  · dsimp only
    refine Wp.ite (fun _ => he _) fun h => Wp.pure ⟨fun k hk => ?_, nofun⟩
    cases hk; omega
  · refine Wp.pure ⟨nofun, fun k hk => ?_⟩
    cases hk
    have : (n &&& 0b011_111#8).toNat ≤ 31 := by
      rw [BitVec.toNat_and]
      exact Nat.and_le_right
    omega

theorem wp_readSubframeHeader : Bwp P E readSubframeHeader (fun h => h.wastedBitsPerSample ≤ 31 ∧
    (∀ k, h.sfType = .fixed k → k ≤ 4) ∧ ∀ k, h.sfType = .lpc k → 1 ≤ k ∧ k ≤ 32) := by
  unfold readSubframeHeader
  refine (wp_readBit hb hP).any fun pad => Wp.ite (fun _ => Bwp.err hP _) fun _ => ?_
  refine (wp_readLeqU8 hb hP (by omega)).any fun n => ?_
  refine (wp_subframeTypeOf hP.err n).bind fun t ht => (wp_readBit hb hP).any fun w => ?_
  refine Wp.any (Q := fun _ => True) (Wp.ite (fun _ => Wp.pure trivial) fun _ => ?_) fun k => ?_
  · exact (wp_readUnary hb hP).any fun k => Wp.total (total_addU hb _ _ _)
  · exact Wp.ite (fun _ => Bwp.err hP _) fun h => Wp.pure ⟨by simp only; omega, ht⟩

theorem wp_ricePartitionSmall {k : Nat} (hk : k ≤ 8) (buffer : List I32) :
    Bwp P E (ricePartitionSmall k buffer) (fun out => out.length = buffer.length) := by
  induction buffer with
  | nil => exact Wp.pure rfl
  | cons x rest ih =>
    exact (wp_readUnary hb hP).any fun _ => (wp_readLeqU8 hb hP hk).any fun _ =>
      (Wp.total (total_shl hb _ _)).any fun _ => ih.bind fun out h => Wp.pure (by simp [h])

theorem wp_ricePartitionLarge (k : Nat) (buffer : List I32) :
    Bwp P E (ricePartitionLarge k buffer) (fun out => out.length = buffer.length) := by
  induction buffer with
  | nil => exact Wp.pure rfl
  | cons x rest ih =>
    exact (wp_readUnary hb hP).any fun _ => (wp_readGtU8LeqU16 hb hP k).any fun _ =>
      (Wp.total (total_shl hb _ _)).any fun _ => ih.bind fun out h => Wp.pure (by simp [h])

theorem wp_rice2PartitionLoop {k : Nat} (hk : k ≤ 32) (buffer : List I32) :
    Bwp P E (rice2PartitionLoop k buffer) (fun out => out.length = buffer.length) := by
  induction buffer with
  | nil => exact Wp.pure rfl
  | cons x rest ih =>
    exact (wp_readUnary hb hP).any fun _ => (wp_readLeqU32 hb hP hk).any fun _ =>
      (Wp.total (total_shl hb _ _)).any fun _ => ih.bind fun out h => Wp.pure (by simp [h])

theorem wp_decodeRicePartition (buffer : List I32) :
    Bwp P E (decodeRicePartition buffer) (fun out => out.length = buffer.length) := by
  unfold decodeRicePartition
  refine (wp_readLeqU8 hb hP (by omega)).any fun p => ?_
  dsimp only
  exact Wp.ite (fun _ => Bwp.err hP _) fun _ => Wp.ite (fun h => wp_ricePartitionSmall hb hP h _) fun _ =>
    wp_ricePartitionLarge hb hP _ _

theorem wp_decodeRice2Partition (buffer : List I32) :
    Bwp P E (decodeRice2Partition buffer) (fun out => out.length = buffer.length) := by
  unfold decodeRice2Partition
  refine (wp_readLeqU8 hb hP (by omega)).bind fun p hp => ?_
  dsimp only
  exact Wp.ite (fun _ => Bwp.err hP _) fun _ => wp_rice2PartitionLoop hb hP (by omega) _

theorem wp_partitionLoop (t : RicePartitionType) (k n : Nat) : ∀ (start len : Nat) (buffer : List I32),
    start + (Claxon.sizesFrom k n len).sum ≤ buffer.length →
    Bwp P E (partitionLoop t k n start len buffer) (fun out => out.length = buffer.length) := by
  induction n with
  | zero => exact fun _ _ _ _ => Wp.pure rfl
  | succ n ih =>
    intro start len buffer h
    rw [Claxon.sizesFrom, List.sum_cons] at h
    unfold partitionLoop
    refine Wp.bind (Wp.withSlice (by omega) (by omega) fun s _ => ?_) fun out ho => ?_
    · cases t
      · exact wp_decodeRicePartition hb hP s
      · exact wp_decodeRice2Partition hb hP s
    · exact (ih _ _ out (by omega)).mono fun _ h => h.trans ho

theorem wp_decodeResidual {bs : Nat} {buffer : List I32} (hbs : bs < 2 ^ 16) (hlen : buffer.length ≤ bs) :
    Bwp P E (decodeResidual bs buffer) (fun out => out.length = buffer.length) := by
  unfold decodeResidual
  refine (wp_readLeqU8 hb hP (by omega)).any fun code => ?_
  refine Wp.any (Q := fun _ => True) (Wp.ite (fun _ => Wp.pure trivial) fun _ => Wp.ite
    (fun _ => Wp.pure trivial) fun _ => Bwp.err hP _) fun t => ?_
  refine (wp_readLeqU8 hb hP (by omega)).bind fun o ho => ?_
  dsimp only
  generalize o.toNat = order at ho
  refine (Wp.lift (if_pos (by omega)) rfl).bind fun n hn => ?_
  refine (Wp.lift (if_pos (by omega)) rfl).bind fun k hk => ?_
  subst hn hk
  rw [and_mask _ _ (by omega), Nat.shiftRight_eq_div_pow]
  refine Wp.ite (fun _ => Bwp.err hP _) fun hd => ?_
  have hdiv : bs % 2 ^ order = 0 := by simpa using hd
  refine (Wp.total (total_mulU hb _ _ _)).any fun _ => (Wp.total (total_debugAssert hb _)).any fun _ => ?_
  have hm : buffer.length % 2 ^ 16 = buffer.length := Nat.mod_eq_of_lt (by omega)
  rw [hm]
  refine (Wp.lift (if_pos hlen) rfl).bind fun w hw => ?_
  subst hw
  refine Wp.ite (fun _ => Bwp.err hP _) fun hle => ?_
  refine (Wp.lift (if_pos (by omega)) rfl).bind fun l hl => ?_
  subst hl
  refine wp_partitionLoop hb hP _ _ _ _ _ _ ?_
  rw [← partitionSizes_eq, partitionSizes_sum hdiv (by omega)]
  omega

theorem wp_verbatimLoop {bps : Nat} (h : bps ≤ 32) (buffer : List I32) :
    Bwp P E (verbatimLoop bps buffer) (fun out => out.length = buffer.length) := by
  induction buffer with
  | nil => exact Wp.pure rfl
  | cons x rest ih =>
    exact (wp_readLeqU32 hb hP h).any fun _ => (Wp.total (total_extendSignU32 hb _ _)).any fun _ =>
      ih.bind fun out h => Wp.pure (by simp [h])

theorem wp_decodeVerbatim {bps : Nat} (h : bps ≤ 32) (buffer : List I32) :
    Bwp P E (decodeVerbatim bps buffer) (fun out => out.length = buffer.length) :=
  (Wp.total (total_debugAssert hb _)).any fun _ => wp_verbatimLoop hb hP h buffer

theorem wp_decodeConstant {bps : Nat} (h : bps ≤ 32) (buffer : List I32) :
    Bwp P E (decodeConstant bps buffer) (fun out => out.length = buffer.length) :=
  (wp_readLeqU32 hb hP h).any fun _ => (Wp.total (total_extendSignU32 hb _ _)).any fun _ => Wp.pure (by simp)

omit bd hb [ReadBytes σ] hP in
theorem predictFixedLoop_total (coefs : List I32) (n : Nat) : ∀ (i : Nat) (buffer : List I32),
    i + n + coefs.length ≤ buffer.length →
    ∃ out, predictFixedLoop coefs (coefs.length + 1) n i buffer = .ok out ∧ out.length = buffer.length := by
  induction n with
  | zero => exact fun i buffer _ => ⟨buffer, rfl, rfl⟩
  | succ n ih =>
    intro i buffer h
    rw [predictFixedLoop, show slice buffer i (i + (coefs.length + 1)) = .ok _ from if_pos ⟨by omega, by omega⟩]
    simp only [bind, Except.bind]
    rw [index_ok (by simp only [List.length_drop, List.length_take]; omega)]
    simp only
    unfold setIndex
    rw [if_pos (by omega)]
    have := fun v => ih (i + 1) (buffer.set (i + coefs.length) v) (by rw [List.length_set]; omega)
    simp only [List.length_set] at this
    exact this _

omit [ReadBytes σ] hP in
theorem predictFixed_total {order : Nat} (ho : order ≤ 4) {buffer : List I32} (h : order ≤ buffer.length) :
    ∃ out, predictFixed order buffer = .ok out ∧ out.length = buffer.length := by
  unfold predictFixed
  obtain ⟨u, hu⟩ := total_debugAssert hb (decide (order ≤ 4))
  obtain ⟨coefs, hc, hl⟩ : ∃ coefs, fixedCoefficients order = .ok coefs ∧ coefs.length = order := by
    unfold fixedCoefficients
    match order, ho with
    | 0, _ => exact ⟨_, rfl, rfl⟩
    | 1, _ => exact ⟨_, rfl, rfl⟩
    | 2, _ => exact ⟨_, rfl, rfl⟩
    | 3, _ => exact ⟨_, rfl, rfl⟩
    | 4, _ => exact ⟨_, rfl, rfl⟩
  rw [hu, hc]
  simp only [bind, Except.bind]
  rw [show subU 64 buffer.length order = .ok _ from if_pos h]
  simp only
  rw [← hl]
  exact predictFixedLoop_total coefs _ 0 buffer (by omega)

theorem wp_decodeFixed {bps order : Nat} (h : bps ≤ 32) (ho : order ≤ 4) {buffer : List I32}
    (hlen : buffer.length < 2 ^ 16) :
    Bwp P E (decodeFixed bps order buffer) (fun out => out.length = buffer.length) := by
  unfold decodeFixed
  refine Wp.ite (fun _ => Bwp.err hP _) fun hle => ?_
  refine (Wp.withSlice (by omega) (by omega) fun s _ => wp_decodeVerbatim hb hP h s).bind fun b1 h1 => ?_
  refine (Wp.withSlice (by omega) (by omega) fun s hs => ?_).bind fun b2 h2 => ?_
  · rw [Nat.mod_eq_of_lt (by omega)]
    exact wp_decodeResidual hb hP (by omega) (by omega)
  · obtain ⟨out, h3, h4⟩ := predictFixed_total hb ho (buffer := b2) (by omega)
    exact Wp.lift h3 (by omega)

omit [ReadBytes σ] hP in
theorem lpcLoop_total (coefs : List I64) (s : I16) (k n : Nat) : ∀ (i : Nat) (buffer : List I32),
    k ≤ i → i + n ≤ buffer.length →
    ∃ out, lpcLoop coefs s k n i buffer = .ok out ∧ out.length = buffer.length := by
  induction n with
  | zero => exact fun i buffer _ _ => ⟨buffer, rfl, rfl⟩
  | succ n ih =>
    intro i buffer hk h
    rw [lpcLoop, show subU 64 i k = .ok _ from if_pos hk]
    simp only [bind, Except.bind]
    rw [show slice buffer (i - k) i = .ok _ from if_pos ⟨by omega, by omega⟩]
    simp only
    rw [index_ok (by omega)]
    simp only
    obtain ⟨v, hv⟩ := total_lpcSample hb coefs ((buffer.take i).drop (i - k)) s buffer[i]
    rw [hv]
    simp only
    rw [show setIndex buffer i v = .ok _ from if_pos (by omega)]
    obtain ⟨out, h1, h2⟩ := ih (i + 1) (buffer.set i v) (by omega) (by rw [List.length_set]; omega)
    exact ⟨out, h1, by rw [h2, List.length_set]⟩

omit bd hb [ReadBytes σ] hP in
theorem padCoefficients_total (raw : List I16) : ∀ (i : Nat) (buf : List I64), i + raw.length ≤ buf.length →
    Total (padCoefficients raw i buf) := by
  induction raw with
  | nil => exact fun i buf _ => ⟨buf, rfl⟩
  | cons c cs ih =>
    intro i buf h
    rw [List.length_cons] at h
    rw [padCoefficients, show setIndex buf i _ = .ok _ from if_pos (by omega)]
    exact ih (i + 1) _ (by rw [List.length_set]; omega)

omit [ReadBytes σ] hP in
theorem predictLpcLowOrder_total {raw : List I16} (s : I16) {buffer : List I32} (h12 : raw.length ≤ 12)
    (h : raw.length ≤ buffer.length) :
    ∃ out, predictLpcLowOrder raw s buffer = .ok out ∧ out.length = buffer.length := by
  unfold predictLpcLowOrder
  obtain ⟨u, hu⟩ := total_debugAssert hb (decide (0 ≤ s.toInt))
  obtain ⟨u', hu'⟩ := total_debugAssert hb (decide (s.toInt < 64))
  rw [hu, hu']
  simp only [bind, Except.bind]
  rw [show subU 64 12 raw.length = .ok _ from if_pos h12]
  simp only
  obtain ⟨coefs, hc⟩ := padCoefficients_total raw (12 - raw.length) (List.replicate 12 0#64)
    (by rw [List.length_replicate]; omega)
  rw [hc]
  simp only
  rw [show subU 64 (min 12 buffer.length) raw.length = .ok _ from if_pos (by omega)]
  simp only
  obtain ⟨b1, h1, h2⟩ := lpcLoop_total hb (raw.map fun c => c.signExtend 64) s raw.length
    (min 12 buffer.length - raw.length) raw.length buffer (Nat.le_refl _) (by omega)
  rw [h1]
  simp only
  split
  · exact ⟨b1, rfl, h2⟩
  · obtain ⟨b2, h3, h4⟩ := lpcLoop_total hb coefs s 12 (b1.length - 12) 12 b1 (Nat.le_refl _) (by omega)
    exact ⟨b2, h3, h4.trans h2⟩

omit [ReadBytes σ] hP in
theorem predictLpcHighOrder_total {coefs : List I16} (s : I16) {buffer : List I32}
    (h : coefs.length ≤ buffer.length) :
    ∃ out, predictLpcHighOrder coefs s buffer = .ok out ∧ out.length = buffer.length := by
  unfold predictLpcHighOrder
  obtain ⟨u1, h1⟩ := total_debugAssert hb (decide (0 ≤ s.toInt))
  obtain ⟨u2, h2⟩ := total_debugAssert hb (decide (s.toInt < 64))
  obtain ⟨u3, h3⟩ := total_debugAssert hb (decide (coefs.length > 12))
  obtain ⟨u4, h4⟩ := total_debugAssert hb (decide (buffer.length ≥ coefs.length))
  simp only [h1, h2, h3, h4, bind, Except.bind]
  exact lpcLoop_total hb _ s _ _ _ buffer (Nat.le_refl _) (by omega)

theorem wp_readCoefficients {p : Nat} (hp : p ≤ 16) (idx : Nat) : ∀ arr : List I16, idx ≤ arr.length →
    Bwp P E (readCoefficients p idx arr) (fun out => out.length = arr.length) := by
  induction idx with
  | zero => exact fun arr _ => Wp.pure rfl
  | succ idx ih =>
    intro arr h
    refine (wp_readLeqU16 hb hP hp).any fun _ => (Wp.total (total_extendSignU16 hb _ _)).any fun c => ?_
    refine (Wp.lift (if_pos (by omega)) rfl).bind fun arr' ha => ?_
    subst ha
    exact (ih _ (by rw [List.length_set]; omega)).mono fun out ho => by rw [ho, List.length_set]

theorem wp_decodeLpc {bps order : Nat} (h : bps ≤ 32) (ho : order ≤ 32) {buffer : List I32}
    (hlen : buffer.length < 2 ^ 16) :
    Bwp P E (decodeLpc bps order buffer) (fun out => out.length = buffer.length) := by
  unfold decodeLpc
  refine (Wp.total (total_debugAssert hb _)).any fun _ => ?_
  refine Wp.ite (fun _ => Bwp.err hP _) fun hle => ?_
  refine (Wp.withSlice (by omega) (by omega) fun s _ => wp_decodeVerbatim hb hP h s).bind fun b1 h1 => ?_
  refine (wp_readLeqU8 hb hP (by omega)).bind fun p hp => ?_
  dsimp only
  refine Wp.ite (fun _ => Bwp.err hP _) fun hp' => ?_
  refine (wp_readLeqU16 hb hP (by omega)).any fun u => (Wp.total (total_extendSignU16 hb _ _)).any fun s => ?_
  refine Wp.ite (fun _ => Bwp.err hP _) fun _ => ?_
  refine (wp_readCoefficients hb hP (by omega) order _ (by rw [List.length_replicate]; omega)).bind
    fun arr harr => ?_
  rw [List.length_replicate] at harr
  refine (Wp.withSlice (by omega) (by omega) fun s hs => ?_).bind fun b2 h2 => ?_
  · rw [Nat.mod_eq_of_lt (by omega)]
    exact wp_decodeResidual hb hP (by omega) (by omega)
  · refine (Wp.lift (if_pos ⟨by omega, by omega⟩) rfl).bind fun coefs hc => ?_
    have hcl : coefs.length = order := by
      subst hc
      simp only [List.length_drop, List.length_take]; omega
    refine Wp.ite (fun h12 => ?_) fun h12 => ?_
    · obtain ⟨out, h3, h4⟩ := predictLpcLowOrder_total hb s (raw := coefs) (buffer := b2) (by omega) (by omega)
      exact Wp.lift h3 (by omega)
    · obtain ⟨out, h3, h4⟩ := predictLpcHighOrder_total hb s (coefs := coefs) (buffer := b2) (by omega)
      exact Wp.lift h3 (by omega)

theorem wp_decodeSubframe {bps : Nat} (h : bps ≤ 32) {buffer : List I32} (hlen : buffer.length < 2 ^ 16) :
    Bwp P E (decodeSubframe bps buffer) (fun out => out.length = buffer.length) := by
  unfold decodeSubframe
  refine (Wp.total (total_debugAssert hb _)).any fun _ => (wp_readSubframeHeader hb hP).bind fun hd hh => ?_
  refine Wp.ite (fun _ => Bwp.err hP _) fun hw => ?_
  dsimp only
  refine Wp.bind (Q := fun out => out.length = buffer.length) ?_ fun out ho => ?_
  · cases ht : hd.sfType with
    | constant => exact wp_decodeConstant hb hP (by omega) _
    | verbatim => exact wp_decodeVerbatim hb hP (by omega) _
    | fixed k => exact wp_decodeFixed hb hP (by omega) (hh.2.1 k ht) hlen
    | lpc k => exact wp_decodeLpc hb hP (by omega) (hh.2.2 k ht).2 hlen
  · refine Wp.ite (fun _ => (Wp.total (total_debugAssert hb _)).any fun _ => Wp.pure (by simpa using ho))
      fun _ => Wp.pure ho

end

end Claxon
