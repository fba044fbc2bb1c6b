import Verif.Proof.Sim
import Verif.Spec.Client

/-! Builds with and without overflow checks and debug assertions: unless the checked build panics, every
function gives the same result, and leaves the same state, in any other build. -/

namespace Claxon

variable {σ τ α β : Type}

/-- The failures after which nothing is claimed. -/
def IsPanic (f : Fail) : Prop := ∃ p, f = .panic p

/-- `m` panics, or `m'` does the same. -/
abbrev Ref (m m' : Dec σ α) : Prop := Sim Eq IsPanic False m m'

/-- `r` is a panic, or `r'` is the same. -/
def RefR (r r' : Res α) : Prop := (∃ p, r = .error (.panic p)) ∨ r = r'

namespace RefR

theorem refl (r : Res α) : RefR r r := Or.inr rfl

theorem bind {r r' : Res α} {f f' : α → Res β} (h : RefR r r') (hf : ∀ a, RefR (f a) (f' a)) :
    RefR (r >>= f) (r' >>= f') := by
  rcases h with ⟨p, rfl⟩ | rfl
  · exact Or.inl ⟨p, rfl⟩
  · rcases r with e | a
    · exact Or.inr rfl
    · exact hf a

theorem ite {c : Prop} {i i' : Decidable c} {m n m' n' : Res α}
    (h1 : c → RefR m m') (h2 : ¬c → RefR n n') :
    RefR (@_root_.ite _ c i m n) (@_root_.ite _ c i' m' n') := by
  by_cases h : c
  · rw [if_pos h, if_pos h]; exact h1 h
  · rw [if_neg h, if_neg h]; exact h2 h

end RefR

namespace Ref

theorem refl (m : Dec σ α) : Ref m m := by
  rintro s _ rfl
  exact Or.inl ⟨rfl, rfl⟩

theorem lift {r r' : Res α} (h : RefR r r') : Ref (liftM r : Dec σ α) (liftM r') := by
  rintro s _ rfl
  rcases h with ⟨p, rfl⟩ | rfl
  · exact Or.inr ⟨_, rfl, ⟨p, rfl⟩, fun h => h.elim⟩
  · exact Or.inl ⟨rfl, rfl⟩

theorem get {f f' : σ → Dec σ β} (hf : ∀ s, Ref (f s) (f' s)) :
    Ref (Dec.get >>= f) (Dec.get >>= f') := by
  apply Sim.get
  rintro s _ rfl
  exact hf s

theorem zoom {g : σ → τ} {p : τ → σ → σ} {m m' : Dec τ α} (h : Ref m m') :
    Ref (Dec.zoom g p m) (Dec.zoom g p m') := by
  rintro s _ rfl
  rcases h (g s) _ rfl with ⟨h1, h2⟩ | ⟨f, h1, h2, -⟩
  · exact Or.inl ⟨h1, by simp only [Dec.zoom_run, h2]⟩
  · exact Or.inr ⟨f, h1, h2, fun h => h.elim⟩

theorem catchErr {m m' : Dec σ α} (h : Ref m m') : Ref (Dec.catchErr m) (Dec.catchErr m') := by
  rintro s _ rfl
  have h := h s _ rfl
  unfold Dec.catchErr
  generalize m s = x at h ⊢
  generalize m' s = y at h ⊢
  rcases x with ⟨r, s1⟩
  rcases y with ⟨r', s2⟩
  rcases h with ⟨h1, h2⟩ | ⟨f, h1, ⟨p, rfl⟩, -⟩
  · obtain rfl : r = r' := h1
    obtain rfl : s1 = s2 := h2
    exact Or.inl ⟨rfl, rfl⟩
  · obtain rfl : r = _ := h1
    exact Or.inr ⟨_, rfl, ⟨p, rfl⟩, fun h => h.elim⟩

/-- `m` on one state is `m'` on the other. -/
theorem eq_of {m m' : Dec σ α} (h : Ref m m') {s : σ} (hp : ∀ p, (m s).1 ≠ .error (.panic p)) :
    m' s = m s := by
  rcases h s s rfl with ⟨h1, h2⟩ | ⟨f, h1, ⟨p, rfl⟩, -⟩
  · exact (Prod.ext h1 h2).symm
  · exact absurd h1 (hp p)

theorem withSlice (buffer : List I32) (a b : Nat) {f f' : List I32 → Dec σ (List I32)}
    (hf : ∀ s, Ref (f s) (f' s)) : Ref (withSlice buffer a b f) (withSlice buffer a b f') :=
  Sim.withSlice buffer a b hf

theorem withCrc8 {m m' : Dec (Crc8Reader σ) α} (h : Ref m m') : Ref (withCrc8 m) (withCrc8 m') := by
  rintro s _ rfl
  rcases h (Crc8Reader.new s) _ rfl with ⟨h1, h2⟩ | ⟨f, h1, h2, h3⟩
  · exact Or.inl ⟨h1, congrArg Crc8Reader.inner h2⟩
  · exact Or.inr ⟨f, h1, h2, h3⟩

theorem withCrc16 {m m' : Dec (Crc16Reader σ) α} (h : Ref m m') :
    Ref (withCrc16 m) (withCrc16 m') := by
  rintro s _ rfl
  rcases h (Crc16Reader.new s) _ rfl with ⟨h1, h2⟩ | ⟨f, h1, h2, h3⟩
  · exact Or.inl ⟨h1, congrArg Crc16Reader.inner h2⟩
  · exact Or.inr ⟨f, h1, h2, h3⟩

theorem withBitstream {m m' : Dec (Bitstream σ) α} (h : Ref m m') :
    Ref (withBitstream m) (withBitstream m') := by
  rintro s _ rfl
  rcases h (Bitstream.new s) _ rfl with ⟨h1, h2⟩ | ⟨f, h1, h2, h3⟩
  · exact Or.inl ⟨h1, congrArg Bitstream.reader h2⟩
  · exact Or.inr ⟨f, h1, h2, h3⟩

end Ref

/-- The operations of the reader `I'` are those of `I`, unless those of `I` panic. -/
structure RefRd (I I' : ReadBytes σ) : Prop where
  readU8 : Ref I.readU8 I'.readU8
  readU8OrEof : Ref I.readU8OrEof I'.readU8OrEof
  readInto : ∀ n, Ref (I.readInto n) (I'.readInto n)
  skip : ∀ n, Ref (I.skip n) (I'.skip n)
  onAlloc : ∀ n k, Ref (I.onAlloc n k) (I'.onAlloc n k)

/-- A pure function gives the same result in every build, unless it panics in a checked one. -/
abbrev SameR (f : [Build] → Res α) : Prop := ∀ bd : Build, RefR (@f checkedBuild) (@f bd)

/-- A function that does not read from a generic reader does the same in every build, unless it panics in a
checked one. -/
abbrev SameB (f : [Build] → Dec τ α) : Prop := ∀ bd : Build, Ref (@f checkedBuild) (@f bd)

/-- A function that reads from a generic reader does the same in every build, unless it panics in a checked
one. -/
abbrev Same (σ : Type) {τ α : Type} (f : [Build] → [ReadBytes σ] → Dec τ α) : Prop :=
  ∀ (bd : Build) (I I' : ReadBytes σ), RefRd I I' → Ref (@f checkedBuild I) (@f bd I')

/-! ### Arithmetic -/

theorem same_addU (w a b : Nat) : SameR (addU w a b) := by
  intro bd; unfold addU; exact RefR.ite (fun _ => .refl _) (fun _ => .inl ⟨_, rfl⟩)
theorem same_subU (w a b : Nat) : SameR (subU w a b) := by
  intro bd; unfold subU; exact RefR.ite (fun _ => .refl _) (fun _ => .inl ⟨_, rfl⟩)
theorem same_mulU (w a b : Nat) : SameR (mulU w a b) := by
  intro bd; unfold mulU; exact RefR.ite (fun _ => .refl _) (fun _ => .inl ⟨_, rfl⟩)
theorem same_shl {w : Nat} (x : BitVec w) (s : Nat) : SameR (shl x s) := by
  intro bd; unfold shl; exact RefR.ite (fun _ => .refl _) (fun _ => .inl ⟨_, rfl⟩)
theorem same_shr {w : Nat} (x : BitVec w) (s : Nat) : SameR (shr x s) := by
  intro bd; unfold shr; exact RefR.ite (fun _ => .refl _) (fun _ => .inl ⟨_, rfl⟩)
theorem same_sar {w : Nat} (x : BitVec w) (s : Nat) : SameR (sar x s) := by
  intro bd; unfold sar; exact RefR.ite (fun _ => .refl _) (fun _ => .inl ⟨_, rfl⟩)
theorem same_addI64 (a b : I64) : SameR (addI64 a b) := by
  intro bd; unfold addI64; exact RefR.ite (fun _ => .refl _) (fun _ => .inl ⟨_, rfl⟩)
theorem same_mulI64 (a b : I64) : SameR (mulI64 a b) := by
  intro bd; unfold mulI64; exact RefR.ite (fun _ => .refl _) (fun _ => .inl ⟨_, rfl⟩)
theorem same_debugAssert (c : Bool) : SameR (debugAssert c) := by
  intro bd; unfold debugAssert; exact RefR.ite (fun _ => .refl _) (fun _ => .inl ⟨_, rfl⟩)
theorem same_orPanic (p : Panic) (v : α) : SameR (orPanic p v) := fun _ => .inl ⟨p, rfl⟩
theorem same_sarI16 (x : I64) (s : I16) : SameR (sarI16 x s) := by
  intro bd; unfold sarI16; exact RefR.ite (fun _ => .refl _) (fun _ => .inl ⟨_, rfl⟩)

/-- Prove that a pure function is the same in all builds, from what is known about those it calls. -/
syntax "same_leaf" : tactic
macro_rules | `(tactic| same_leaf) => `(tactic| exact RefR.refl _)
macro_rules | `(tactic| same_leaf) => `(tactic| exact same_addU _ _ _ _)
macro_rules | `(tactic| same_leaf) => `(tactic| exact same_subU _ _ _ _)
macro_rules | `(tactic| same_leaf) => `(tactic| exact same_mulU _ _ _ _)
macro_rules | `(tactic| same_leaf) => `(tactic| exact same_shl _ _ _)
macro_rules | `(tactic| same_leaf) => `(tactic| exact same_shr _ _ _)
macro_rules | `(tactic| same_leaf) => `(tactic| exact same_sar _ _ _)
macro_rules | `(tactic| same_leaf) => `(tactic| exact same_addI64 _ _ _)
macro_rules | `(tactic| same_leaf) => `(tactic| exact same_mulI64 _ _ _)
macro_rules | `(tactic| same_leaf) => `(tactic| exact same_debugAssert _ _)
macro_rules | `(tactic| same_leaf) => `(tactic| exact same_orPanic _ _ _)
macro_rules | `(tactic| same_leaf) => `(tactic| exact same_sarI16 _ _ _)

macro "same_res" : tactic => `(tactic| repeat' (with_reducible first
  | same_leaf | refine RefR.bind ?_ ?_ | refine RefR.ite ?_ ?_ | intro _))

theorem same_shiftLeft (x : U8) (s : Nat) : SameR (shiftLeft x s) := by
  intro bd; unfold shiftLeft; same_res
macro_rules | `(tactic| same_leaf) => `(tactic| exact same_shiftLeft _ _ _)

theorem same_shiftRight (x : U8) (s : Nat) : SameR (shiftRight x s) := by
  intro bd; unfold shiftRight; same_res
macro_rules | `(tactic| same_leaf) => `(tactic| exact same_shiftRight _ _ _)

theorem same_maskU8 (bits : Nat) : SameR (Bitstream.maskU8 bits) := by
  intro bd; unfold Bitstream.maskU8; same_res
macro_rules | `(tactic| same_leaf) => `(tactic| exact same_maskU8 _ _)

theorem same_extendSignU16 (x : U16) (bits : Nat) : SameR (extendSignU16 x bits) := by
  intro bd; unfold extendSignU16; same_res
macro_rules | `(tactic| same_leaf) => `(tactic| exact same_extendSignU16 _ _ _)

theorem same_extendSignU32 (x : U32) (bits : Nat) : SameR (extendSignU32 x bits) := by
  intro bd; unfold extendSignU32; same_res
macro_rules | `(tactic| same_leaf) => `(tactic| exact same_extendSignU32 _ _ _)

theorem same_predictFixed (order : Nat) (buffer : List I32) : SameR (predictFixed order buffer) := by
  intro bd; unfold predictFixed; same_res
macro_rules | `(tactic| same_leaf) => `(tactic| exact same_predictFixed _ _ _)

theorem same_innerProduct (xs : List (I64 × I64)) : ∀ acc, SameR (innerProduct xs acc) := by
  induction xs with
  | nil => intro acc bd; exact RefR.refl _
  | cons x xs ih =>
    intro acc bd
    unfold innerProduct
    refine RefR.bind (same_mulI64 _ _ _) (fun _ => RefR.bind (same_addI64 _ _ _) (fun _ => ?_))
    exact ih _ _
macro_rules | `(tactic| same_leaf) => `(tactic| exact same_innerProduct _ _ _)

theorem same_lpcSample (coefs : List I64) (window : List I32) (s : I16) (delta : I32) :
    SameR (lpcSample coefs window s delta) := by
  intro bd; unfold lpcSample; same_res
macro_rules | `(tactic| same_leaf) => `(tactic| exact same_lpcSample _ _ _ _ _)

theorem same_lpcLoop (coefs : List I64) (s : I16) (k n : Nat) : ∀ i buffer,
    SameR (lpcLoop coefs s k n i buffer) := by
  induction n with
  | zero => intro i buffer bd; exact RefR.refl _
  | succ n ih =>
    intro i buffer bd
    unfold lpcLoop
    same_res
    exact ih _ _ _
macro_rules | `(tactic| same_leaf) => `(tactic| exact same_lpcLoop _ _ _ _ _ _ _)

theorem same_predictLpcLowOrder (raw : List I16) (s : I16) (buffer : List I32) :
    SameR (predictLpcLowOrder raw s buffer) := by
  intro bd; unfold predictLpcLowOrder; same_res
macro_rules | `(tactic| same_leaf) => `(tactic| exact same_predictLpcLowOrder _ _ _ _)

theorem same_predictLpcHighOrder (raw : List I16) (s : I16) (buffer : List I32) :
    SameR (predictLpcHighOrder raw s buffer) := by
  intro bd; unfold predictLpcHighOrder; same_res
macro_rules | `(tactic| same_leaf) => `(tactic| exact same_predictLpcHighOrder _ _ _ _)

theorem same_frameTime (h : FrameHeader) : SameR (frameTime h) := by
  intro bd
  unfold frameTime
  cases h.blockTime
  · exact same_mulU _ _ _ _
  · exact RefR.refl _
macro_rules | `(tactic| same_leaf) => `(tactic| exact same_frameTime _ _)

theorem same_blockLen (b : Block) : SameR (b.len) := fun bd => same_mulU _ _ _ bd
macro_rules | `(tactic| same_leaf) => `(tactic| exact same_blockLen _ _)

theorem same_blockChannel [Target] (b : Block) (ch : Nat) : SameR (b.channel ch) := by
  intro bd; show RefR (@Block.channel checkedBuild _ b ch) (@Block.channel bd _ b ch)
  unfold Block.channel; same_res

theorem same_blockSample [Target] (b : Block) (ch i : Nat) : SameR (b.sample ch i) := by
  intro bd; show RefR (@Block.sample checkedBuild _ b ch i) (@Block.sample bd _ b ch i)
  unfold Block.sample; same_res
macro_rules | `(tactic| same_leaf) => `(tactic| exact same_blockSample _ _ _ _)

theorem same_stereoSamples [Target] (b : Block) : SameR b.stereoSamples := by
  intro bd; show RefR (@Block.stereoSamples checkedBuild _ b) (@Block.stereoSamples bd _ b)
  unfold Block.stereoSamples; same_res

end Claxon
