import Mathlib.Tactic.Choose
import Mathlib.Tactic.IntervalCases
import Verif.Proof.FrameSplit
import Verif.Proof.NoIo
import Verif.Spec.Flat

/-! Programs that read bytes: the functions that are generic in the reader are trees of calls of
`readU8`, the same tree for every reader. -/

namespace Claxon

/-- Return a result, or read a byte and go on. -/
inductive Prog (α : Type) where
  | ret (r : Except Fail α)
  | u8 (k : U8 → Prog α)

namespace Prog

variable {σ α β : Type}

/-- Run a program with a reader. -/
def interp [ReadBytes σ] : Prog α → Dec σ α
  | ret r => Dec.lift r
  | u8 k => ReadBytes.readU8 >>= fun b => (k b).interp

/-- Go on with another program. -/
def bind : Prog α → (α → Prog β) → Prog β
  | ret (.ok a), f => f a
  | ret (.error e), _ => ret (.error e)
  | u8 k, f => u8 fun b => (k b).bind f

theorem interp_bind [ReadBytes σ] (p : Prog α) (f : α → Prog β) :
    ((p.bind f).interp : Dec σ β) = p.interp >>= fun a => (f a).interp := by
  induction p with
  | ret r => rcases r with e | a <;> rfl
  | u8 k ih => rw [bind, interp, interp, bind_assoc]; simp only [ih]

/-- The program itself does not fail with an I/O error; only the reader does. -/
def Clean : Prog α → Prop
  | ret r => NoIo r
  | u8 k => ∀ b, (k b).Clean

theorem Clean.bind {p : Prog α} {f : α → Prog β} (hp : p.Clean) (hf : ∀ a, (f a).Clean) : (p.bind f).Clean := by
  induction p with
  | ret r =>
    rcases r with e | a
    · exact NoIo.cast hp
    · exact hf a
  | u8 k ih => exact fun b => ih b (hp b)

end Prog

/-- A state that consists of a reader and something else. -/
structure Lens where
  W : Type → Type
  X : Type
  put : {σ : Type} → X → σ → W σ
  rd : {σ : Type} → W σ → σ
  aux : {σ : Type} → W σ → X
  rd_put : ∀ {σ : Type} (x : X) (s : σ), rd (put x s) = s
  aux_put : ∀ {σ : Type} (x : X) (s : σ), aux (put x s) = x
  eta : ∀ {σ : Type} (w : W σ), put (aux w) (rd w) = w

/-- The results `y` and `z` are the same, up to the rest of the state. -/
def Rep1 {σ α : Type} (L : Lens) (y : Except Fail (α × L.X) × σ) (z : Except Fail α × L.W σ) : Prop :=
  (∃ a x' s', y = (.ok (a, x'), s') ∧ z = (.ok a, L.put x' s')) ∨
  ∃ f s' x', y = (.error f, s') ∧ z = (.error f, L.put x' s')

/-- From the state `x` of the rest, `m` is a program for the reader. -/
def RepAt {α : Type} (L : Lens) (x : L.X) (m : ∀ (σ : Type) [ReadBytes σ], Dec (L.W σ) α) : Prop :=
  ∃ p : Prog (α × L.X), p.Clean ∧ ∀ (σ : Type) [ReadBytes σ] (s : σ), Rep1 L (p.interp s) (m σ (L.put x s))

namespace RepAt

variable {L : Lens} {x : L.X} {α β : Type}

theorem pure (a : α) : RepAt L x (fun _ _ => Pure.pure a) :=
  ⟨.ret (.ok (a, x)), .ok _, fun _ _ s => .inl ⟨a, x, s, rfl, rfl⟩⟩

theorem lift (r : Res α) [hr : NoIo r] : RepAt L x (fun _ _ => liftM r) := by
  rcases r with f | a
  · exact ⟨.ret (.error f), hr.cast, fun _ _ s => .inr ⟨f, s, x, rfl, rfl⟩⟩
  · exact pure a

theorem fail (f : Fail) [hf : NoIo (.error f : Except Fail α)] : RepAt (α := α) L x (fun _ _ => Dec.fail f) :=
  ⟨.ret (.error f), hf.cast, fun _ _ s => .inr ⟨f, s, x, rfl, rfl⟩⟩

theorem fmtErr (msg : String) : RepAt (α := α) L x (fun _ _ => Claxon.fmtErr msg) := fail _

theorem unsupportedErr (msg : String) : RepAt (α := α) L x (fun _ _ => Claxon.unsupportedErr msg) := fail _

theorem bind {m : ∀ (σ : Type) [ReadBytes σ], Dec (L.W σ) α}
    {f : ∀ (σ : Type) [ReadBytes σ], α → Dec (L.W σ) β} (hm : RepAt L x m)
    (hf : ∀ a x', RepAt L x' (fun σ _ => f σ a)) : RepAt L x (fun σ _ => m σ >>= f σ) := by
  obtain ⟨p, hc, hp⟩ := hm
  choose q hqc hq using hf
  refine ⟨p.bind fun ax => q ax.1 ax.2, hc.bind fun ax => hqc ax.1 ax.2, fun σ _ s => ?_⟩
  rw [Prog.interp_bind]
  dsimp only
  rcases hp σ s with ⟨a, x', s', h1, h2⟩ | ⟨e, s', x', h1, h2⟩
  · rw [Dec.bind_ok _ h1, Dec.bind_ok _ h2]
    exact hq a x' σ s'
  · rw [Dec.bind_error _ h1, Dec.bind_error _ h2]
    exact .inr ⟨e, s', x', rfl, rfl⟩

theorem ite {c : Prop} {i : Decidable c} {m n : ∀ (σ : Type) [ReadBytes σ], Dec (L.W σ) α}
    (h1 : c → RepAt L x m) (h2 : ¬ c → RepAt L x n) :
    RepAt L x (fun σ _ => @_root_.ite _ c i (m σ) (n σ)) := by
  by_cases h : c
  · simp only [if_pos h]; exact h1 h
  · simp only [if_neg h]; exact h2 h

theorem dite {c : Prop} {i : Decidable c} {m : ∀ (σ : Type) [ReadBytes σ], c → Dec (L.W σ) α}
    {n : ∀ (σ : Type) [ReadBytes σ], ¬ c → Dec (L.W σ) α}
    (h1 : ∀ h, RepAt L x (fun σ _ => m σ h)) (h2 : ∀ h, RepAt L x (fun σ _ => n σ h)) :
    RepAt L x (fun σ _ => @_root_.dite _ c i (m σ) (n σ)) := by
  by_cases h : c
  · simp only [dif_pos h]; exact h1 h
  · simp only [dif_neg h]; exact h2 h

theorem get {f : ∀ (σ : Type) [ReadBytes σ], L.W σ → Dec (L.W σ) β}
    {g : ∀ (σ : Type) [ReadBytes σ], Dec (L.W σ) β} (hg : ∀ (σ : Type) [ReadBytes σ] (s : σ), f σ (L.put x s) = g σ)
    (h : RepAt L x g) : RepAt L x (fun σ _ => Dec.get >>= f σ) := by
  obtain ⟨p, hc, hp⟩ := h
  refine ⟨p, hc, fun σ _ s => ?_⟩
  dsimp only
  rw [Dec.bind_get_run, hg]
  exact hp σ s

theorem withSlice (buffer : List I32) (a b : Nat)
    {f : ∀ (σ : Type) [ReadBytes σ], List I32 → Dec (L.W σ) (List I32)}
    (hf : ∀ xs x', RepAt L x' (fun σ _ => f σ xs)) :
    RepAt L x (fun σ _ => Claxon.withSlice buffer a b (f σ)) :=
  bind (lift _) fun _ _ => bind (hf _ _) fun _ _ => pure _

end RepAt

/-- The reader alone. -/
@[reducible] def idLens : Lens where
  W := fun σ => σ
  X := Unit
  put := fun _ s => s
  rd := fun s => s
  aux := fun _ => ()
  rd_put := fun _ _ => rfl
  aux_put := fun _ _ => rfl
  eta := fun _ => rfl

/-- A bitstream. -/
@[reducible] def bitLens : Lens where
  W := Bitstream
  X := U8 × Nat
  put := fun x s => ⟨s, x.1, x.2⟩
  rd := Bitstream.reader
  aux := fun b => (b.data, b.bitsLeft)
  rd_put := fun _ _ => rfl
  aux_put := fun _ _ => rfl
  eta := fun _ => rfl

/-- A reader with CRC-8. -/
@[reducible] def crc8Lens : Lens where
  W := Crc8Reader
  X := U8
  put := fun x s => ⟨s, x⟩
  rd := Crc8Reader.inner
  aux := Crc8Reader.state
  rd_put := fun _ _ => rfl
  aux_put := fun _ _ => rfl
  eta := fun _ => rfl

/-- A reader with CRC-16. -/
@[reducible] def crc16Lens : Lens where
  W := Crc16Reader
  X := U16
  put := fun x s => ⟨s, x⟩
  rd := Crc16Reader.inner
  aux := Crc16Reader.state
  rd_put := fun _ _ => rfl
  aux_put := fun _ _ => rfl
  eta := fun _ => rfl

/-- A program for the reader alone. -/
abbrev RepI {α : Type} (m : ∀ (σ : Type) [ReadBytes σ], Dec σ α) : Prop := RepAt idLens () m

/-- A program for a bitstream. -/
abbrev RepB {α : Type} (m : ∀ (σ : Type) [ReadBytes σ], Dec (Bitstream σ) α) : Prop :=
  ∀ x, RepAt bitLens x m

theorem rep_readU8 : RepI (fun _ _ => ReadBytes.readU8) := by
  refine ⟨.u8 fun b => .ret (.ok (b, ())), fun _ => .ok _, fun σ _ s => ?_⟩
  dsimp only
  rw [Prog.interp, Dec.bind_def]
  generalize (ReadBytes.readU8 s : Except Fail U8 × σ) = y
  rcases y with ⟨e | b, s'⟩
  · exact .inr ⟨e, s', (), rfl, rfl⟩
  · exact .inl ⟨b, (), s', rfl, rfl⟩

theorem RepI.eq {α : Type} {m : ∀ (σ : Type) [ReadBytes σ], Dec σ α} (h : RepI m) :
    ∃ p : Prog α, p.Clean ∧ ∀ (σ : Type) [ReadBytes σ], m σ = p.interp := by
  obtain ⟨p, hc, hp⟩ := h
  refine ⟨p.bind fun a => .ret (.ok a.1), hc.bind fun _ => .ok _, fun σ _ => ?_⟩
  funext s
  rw [Prog.interp_bind]
  rcases hp σ s with ⟨a, x', s', h1, h2⟩ | ⟨e, s', x', h1, h2⟩
  · rw [Dec.bind_ok _ h1]; exact h2
  · rw [Dec.bind_error _ h1]; exact h2

theorem RepI.of {α : Type} {m : ∀ (σ : Type) [ReadBytes σ], Dec σ α} (p : Prog α) (hc : p.Clean)
    (h : ∀ (σ : Type) [ReadBytes σ], m σ = p.interp) : RepI m := by
  refine ⟨p.bind fun a => .ret (.ok (a, ())), hc.bind fun _ => .ok _, fun σ _ s => ?_⟩
  dsimp only
  rw [Prog.interp_bind, h σ, Dec.bind_def]
  generalize (p.interp s : Except Fail α × σ) = y
  rcases y with ⟨e | b, s'⟩
  · exact .inr ⟨e, s', (), rfl, rfl⟩
  · exact .inl ⟨b, (), s', rfl, rfl⟩

theorem rep8_readU8 (x : U8) : RepAt crc8Lens x (fun σ _ => (ReadBytes.readU8 : Dec (Crc8Reader σ) U8)) := by
  have hx : ∀ b : U8, ∃ y, crc8Update x b = .ok y := fun b =>
    ⟨_, index_ok (by rw [show CRC8_TABLE.length = 256 by decide +kernel]; exact BitVec.isLt _)⟩
  choose y hy using hx
  refine ⟨.u8 fun b => .ret (.ok (b, y b)), fun _ => .ok _, fun σ _ s => ?_⟩
  dsimp only
  rw [show (ReadBytes.readU8 : Dec (Crc8Reader σ) U8) = Crc8Reader.readU8 from rfl]
  rw [Prog.interp]
  simp only [Crc8Reader.readU8, Crc8Reader.onInner, Dec.bind_def, Dec.zoom_run]
  generalize (ReadBytes.readU8 s : Except Fail U8 × σ) = z
  rcases z with ⟨e | b, s'⟩
  · exact .inr ⟨e, s', x, rfl, rfl⟩
  · refine .inl ⟨b, y b, s', rfl, ?_⟩
    simp only [Crc8Reader.updateState, Dec.bind_get_run, Dec.bind_liftM_of (hy b)]
    rfl

theorem rep16_readU8 (x : U16) : RepAt crc16Lens x (fun σ _ => (ReadBytes.readU8 : Dec (Crc16Reader σ) U8)) := by
  have hx : ∀ b : U8, ∃ y, crc16Update x b = .ok y := by
    intro b
    unfold crc16Update
    rw [index_ok (by rw [show CRC16_TABLE.length = 256 by decide +kernel]; exact BitVec.isLt _)]
    exact ⟨_, rfl⟩
  choose y hy using hx
  refine ⟨.u8 fun b => .ret (.ok (b, y b)), fun _ => .ok _, fun σ _ s => ?_⟩
  dsimp only
  rw [show (ReadBytes.readU8 : Dec (Crc16Reader σ) U8) = Crc16Reader.readU8 from rfl]
  rw [Prog.interp]
  simp only [Crc16Reader.readU8, Crc16Reader.onInner, Dec.bind_def, Dec.zoom_run]
  generalize (ReadBytes.readU8 s : Except Fail U8 × σ) = z
  rcases z with ⟨e | b, s'⟩
  · exact .inr ⟨e, s', x, rfl, rfl⟩
  · refine .inl ⟨b, y b, s', rfl, ?_⟩
    simp only [Crc16Reader.updateState, Dec.bind_get_run, Dec.bind_liftM_of (hy b)]
    rfl

namespace RepI

variable {α : Type}

/-- A program for the reader is one for a reader with CRC-8, too. -/
theorem crc8 {m : ∀ (σ : Type) [ReadBytes σ], Dec σ α} (h : RepI m) (x : U8) :
    RepAt crc8Lens x (fun σ _ => m (Crc8Reader σ)) := by
  obtain ⟨p, hc, hp⟩ := h.eq
  simp only [hp]
  clear hp h m
  induction p generalizing x with
  | ret r =>
    have : NoIo r := hc
    exact RepAt.lift r
  | u8 k ih => exact RepAt.bind (rep8_readU8 x) fun b x' => ih b x' (hc b)

/-- A program for the reader is one for a reader with CRC-16, too. -/
theorem crc16 {m : ∀ (σ : Type) [ReadBytes σ], Dec σ α} (h : RepI m) (x : U16) :
    RepAt crc16Lens x (fun σ _ => m (Crc16Reader σ)) := by
  obtain ⟨p, hc, hp⟩ := h.eq
  simp only [hp]
  clear hp h m
  induction p generalizing x with
  | ret r =>
    have : NoIo r := hc
    exact RepAt.lift r
  | u8 k ih => exact RepAt.bind (rep16_readU8 x) fun b x' => ih b x' (hc b)

end RepI

/-- A program for a larger state, from a certain rest, gives one for the reader. -/
theorem RepAt.within {α : Type} {L : Lens} {x : L.X} {m : ∀ (σ : Type) [ReadBytes σ], Dec (L.W σ) α}
    (h : RepAt L x m) : RepI (fun σ _ => fun s => ((m σ (L.put x s)).1, L.rd (m σ (L.put x s)).2)) := by
  obtain ⟨p, hc, hp⟩ := h
  refine RepI.of (p.bind fun a => .ret (.ok a.1)) (hc.bind fun _ => .ok _) fun σ _ => ?_
  funext s
  rw [Prog.interp_bind]
  rcases hp σ s with ⟨a, x', s', h1, h2⟩ | ⟨e, s', x', h1, h2⟩
  · rw [Dec.bind_ok _ h1, h2, L.rd_put]; rfl
  · rw [Dec.bind_error _ h1, h2, L.rd_put]

theorem RepB.within {α : Type} {m : ∀ (σ : Type) [ReadBytes σ], Dec (Bitstream σ) α} (h : RepB m) :
    RepI (fun σ _ => withBitstream (m σ)) := (h (0#8, 0)).within

/-! ### Tactics -/

/-- Calls. -/
syntax "rep_leaf" : tactic
macro_rules | `(tactic| rep_leaf) => `(tactic| exact RepAt.pure _)
macro_rules | `(tactic| rep_leaf) => `(tactic| exact RepAt.lift _)
macro_rules | `(tactic| rep_leaf) => `(tactic| exact RepAt.fail _)
macro_rules | `(tactic| rep_leaf) => `(tactic| exact RepAt.fmtErr _)
macro_rules | `(tactic| rep_leaf) => `(tactic| exact RepAt.unsupportedErr _)
macro_rules | `(tactic| rep_leaf) => `(tactic| exact rep_readU8)

/-- Prove that a function is a program, from the functions that it calls. -/
macro "rep" : tactic => `(tactic| repeat' (with_reducible first
  | rep_leaf
  | (refine RepAt.get (by intro σ _ s; dsimp +instances only; try exact rfl) ?_)
  | refine RepAt.bind ?_ ?_ | refine RepAt.ite ?_ ?_ | refine RepAt.dite ?_ ?_
  | refine RepAt.withSlice _ _ _ ?_ | intro _))

/-! ### The bitstream -/

namespace Bitstream

theorem rep_readByte : RepB (fun _ _ => readByte) := by
  intro x
  refine ⟨.u8 fun b => .ret (.ok (b, x)), fun _ => .ok _, fun σ _ s => ?_⟩
  rw [Prog.interp]
  simp only [readByte, Dec.zoom_run, Dec.bind_def]
  generalize (ReadBytes.readU8 s : Except Fail U8 × σ) = z
  rcases z with ⟨e | b, s'⟩
  · exact .inr ⟨e, s', x, rfl, rfl⟩
  · exact .inl ⟨b, x, s', rfl, rfl⟩
macro_rules | `(tactic| rep_leaf) => `(tactic| exact rep_readByte _)

theorem rep_update (d : U8) (n : Nat) : RepB (fun _ _ => update d n) := by
  intro x
  exact ⟨.ret (.ok ((), (d, n))), .ok _, fun σ _ s => .inl ⟨(), (d, n), s, rfl, rfl⟩⟩
macro_rules | `(tactic| rep_leaf) => `(tactic| exact rep_update _ _ _)

theorem rep_readBit : RepB (fun _ _ => readBit) := by
  intro x
  unfold readBit
  rep
macro_rules | `(tactic| rep_leaf) => `(tactic| exact rep_readBit _)

theorem rep_readUnaryLoop (n : Nat) : RepB (fun _ _ => readUnaryLoop n) := by
  generalize hk : 2 ^ 32 - n = k
  induction k using Nat.strongRecOn generalizing n with
  | ind k ih =>
    intro x
    simp only [readUnaryLoop.eq_1 (n := n)]
    refine RepAt.bind (rep_readByte _) (fun fresh x' => RepAt.dite (fun hlt => RepAt.dite (fun _ => ?_) (fun hz => ?_))
      (fun _ => ?_))
    · unfold unaryEnd; rep
    · exact ih (2 ^ 32 - (n + leadingZeros fresh)) (by omega) _ rfl _
    · exact RepAt.lift _
macro_rules | `(tactic| rep_leaf) => `(tactic| exact rep_readUnaryLoop _ _)

theorem rep_readUnary : RepB (fun _ _ => readUnary) := by
  intro x; unfold readUnary; rep
macro_rules | `(tactic| rep_leaf) => `(tactic| exact rep_readUnary _)

theorem rep_readLeqU8Finish (n : Nat) (v : U8) : RepB (fun _ _ => readLeqU8Finish n v) := by
  intro x; unfold readLeqU8Finish; rep
macro_rules | `(tactic| rep_leaf) => `(tactic| exact rep_readLeqU8Finish _ _ _)

theorem rep_readLeqU8 (n : Nat) : RepB (fun _ _ => readLeqU8 n) := by
  intro x; unfold readLeqU8; rep
macro_rules | `(tactic| rep_leaf) => `(tactic| exact rep_readLeqU8 _ _)

theorem rep_readGtU8LeqU16 (n : Nat) : RepB (fun _ _ => readGtU8LeqU16 n) := by
  intro x; unfold readGtU8LeqU16; rep
macro_rules | `(tactic| rep_leaf) => `(tactic| exact rep_readGtU8LeqU16 _ _)

theorem rep_readLeqU16 (n : Nat) : RepB (fun _ _ => readLeqU16 n) := by
  intro x; unfold readLeqU16; rep
macro_rules | `(tactic| rep_leaf) => `(tactic| exact rep_readLeqU16 _ _)

theorem rep_readLeqU32 (n : Nat) : RepB (fun _ _ => readLeqU32 n) := by
  intro x; unfold readLeqU32; rep
macro_rules | `(tactic| rep_leaf) => `(tactic| exact rep_readLeqU32 _ _)

end Bitstream

open Bitstream

/-! ### Subframes -/

theorem rep_subframeTypeOf (n : U8) : RepB (fun _ _ => subframeTypeOf n) := by
  intro x; unfold subframeTypeOf; rep
macro_rules | `(tactic| rep_leaf) => `(tactic| exact rep_subframeTypeOf _ _)

theorem rep_readSubframeHeader : RepB (fun _ _ => readSubframeHeader) := by
  intro x; unfold readSubframeHeader; rep
macro_rules | `(tactic| rep_leaf) => `(tactic| exact rep_readSubframeHeader _)

theorem rep_ricePartitionSmall (k : Nat) (buf : List I32) : RepB (fun _ _ => ricePartitionSmall k buf) := by
  induction buf with
  | nil => intro x; exact RepAt.pure _
  | cons y buf ih => intro x; simp only [ricePartitionSmall]; rep; exact ih _
macro_rules | `(tactic| rep_leaf) => `(tactic| exact rep_ricePartitionSmall _ _ _)

theorem rep_ricePartitionLarge (k : Nat) (buf : List I32) : RepB (fun _ _ => ricePartitionLarge k buf) := by
  induction buf with
  | nil => intro x; exact RepAt.pure _
  | cons y buf ih => intro x; simp only [ricePartitionLarge]; rep; exact ih _
macro_rules | `(tactic| rep_leaf) => `(tactic| exact rep_ricePartitionLarge _ _ _)

theorem rep_rice2PartitionLoop (k : Nat) (buf : List I32) : RepB (fun _ _ => rice2PartitionLoop k buf) := by
  induction buf with
  | nil => intro x; exact RepAt.pure _
  | cons y buf ih => intro x; simp only [rice2PartitionLoop]; rep; exact ih _
macro_rules | `(tactic| rep_leaf) => `(tactic| exact rep_rice2PartitionLoop _ _ _)

theorem rep_decodeRicePartition (buf : List I32) : RepB (fun _ _ => decodeRicePartition buf) := by
  intro x; unfold decodeRicePartition; rep
macro_rules | `(tactic| rep_leaf) => `(tactic| exact rep_decodeRicePartition _ _)

theorem rep_decodeRice2Partition (buf : List I32) : RepB (fun _ _ => decodeRice2Partition buf) := by
  intro x; unfold decodeRice2Partition; rep
macro_rules | `(tactic| rep_leaf) => `(tactic| exact rep_decodeRice2Partition _ _)

theorem rep_partitionLoop (ptype : RicePartitionType) (nspp n start len : Nat) (buffer : List I32) :
    RepB (fun _ _ => partitionLoop ptype nspp n start len buffer) := by
  induction n generalizing start len buffer with
  | zero => intro x; exact RepAt.pure _
  | succ n ih =>
    intro x
    simp only [partitionLoop]
    refine RepAt.bind (RepAt.withSlice _ _ _ ?_) (fun _ _ => ih _ _ _ _)
    intro s
    cases ptype <;> dsimp only <;> rep
macro_rules | `(tactic| rep_leaf) => `(tactic| exact rep_partitionLoop _ _ _ _ _ _ _)

theorem rep_decodeResidual (bs : Nat) (buffer : List I32) : RepB (fun _ _ => decodeResidual bs buffer) := by
  intro x; unfold decodeResidual; rep
macro_rules | `(tactic| rep_leaf) => `(tactic| exact rep_decodeResidual _ _ _)

theorem rep_decodeConstant (bps : Nat) (buffer : List I32) : RepB (fun _ _ => decodeConstant bps buffer) := by
  intro x; unfold decodeConstant; rep
macro_rules | `(tactic| rep_leaf) => `(tactic| exact rep_decodeConstant _ _ _)

theorem rep_verbatimLoop (bps : Nat) (buffer : List I32) : RepB (fun _ _ => verbatimLoop bps buffer) := by
  induction buffer with
  | nil => intro x; exact RepAt.pure _
  | cons y buffer ih => intro x; simp only [verbatimLoop]; rep; exact ih _
macro_rules | `(tactic| rep_leaf) => `(tactic| exact rep_verbatimLoop _ _ _)

theorem rep_decodeVerbatim (bps : Nat) (buffer : List I32) : RepB (fun _ _ => decodeVerbatim bps buffer) := by
  intro x; unfold decodeVerbatim; rep
macro_rules | `(tactic| rep_leaf) => `(tactic| exact rep_decodeVerbatim _ _ _)

theorem rep_decodeFixed (bps order : Nat) (buffer : List I32) :
    RepB (fun _ _ => decodeFixed bps order buffer) := by
  intro x; unfold decodeFixed; rep
macro_rules | `(tactic| rep_leaf) => `(tactic| exact rep_decodeFixed _ _ _ _)

theorem rep_readCoefficients (prec n : Nat) (arr : List I16) :
    RepB (fun _ _ => readCoefficients prec n arr) := by
  induction n generalizing arr with
  | zero => intro x; exact RepAt.pure _
  | succ n ih => intro x; simp only [readCoefficients]; rep; exact ih _ _
macro_rules | `(tactic| rep_leaf) => `(tactic| exact rep_readCoefficients _ _ _ _)

theorem rep_decodeLpc (bps order : Nat) (buffer : List I32) :
    RepB (fun _ _ => decodeLpc bps order buffer) := by
  intro x; unfold decodeLpc; rep
macro_rules | `(tactic| rep_leaf) => `(tactic| exact rep_decodeLpc _ _ _ _)

theorem rep_decodeSubframe (bps : Nat) (buffer : List I32) : RepB (fun _ _ => decodeSubframe bps buffer) := by
  intro x
  unfold decodeSubframe
  refine RepAt.bind (by rep_leaf) (fun _ _ => RepAt.bind (by rep_leaf) (fun header _ => ?_))
  refine RepAt.ite (fun _ => by rep_leaf) (fun _ => RepAt.bind ?_ ?_)
  · rcases header.sfType with _ | _ | ord | ord <;> simp only <;> rep
  · rep
macro_rules | `(tactic| rep_leaf) => `(tactic| exact rep_decodeSubframe _ _ _)

/-! ### Frames -/

theorem rep_readBeU16 : RepI (fun _ _ => readBeU16) := by unfold readBeU16; rep
macro_rules | `(tactic| rep_leaf) => `(tactic| exact rep_readBeU16)

theorem rep_varLengthLoop (n : Nat) (v : U64) : RepI (fun _ _ => varLengthLoop n v) := by
  induction n generalizing v with
  | zero => exact RepAt.pure _
  | succ n ih => simp only [varLengthLoop]; rep; exact ih _
macro_rules | `(tactic| rep_leaf) => `(tactic| exact rep_varLengthLoop _ _)

theorem rep_readVarLengthInt : RepI (fun _ _ => readVarLengthInt) := by unfold readVarLengthInt; rep
macro_rules | `(tactic| rep_leaf) => `(tactic| exact rep_readVarLengthInt)

theorem rep_readBlockTime (v : Bool) : RepI (fun _ _ => readBlockTime v) := by unfold readBlockTime; rep
macro_rules | `(tactic| rep_leaf) => `(tactic| exact rep_readBlockTime _)

theorem rep_readBlockSize (c : BlockSizeCode) : RepI (fun _ _ => readBlockSize c) := by
  cases c <;> simp only [readBlockSize] <;> rep
macro_rules | `(tactic| rep_leaf) => `(tactic| exact rep_readBlockSize _)

theorem rep_readSampleRate (c : SampleRateCode) : RepI (fun _ _ => readSampleRate c) := by
  cases c <;> simp only [readSampleRate] <;> rep
macro_rules | `(tactic| rep_leaf) => `(tactic| exact rep_readSampleRate _)

theorem rep_blockSizeCode (n : Nat) : RepI (fun _ _ => blockSizeCode n) := by unfold blockSizeCode; rep
macro_rules | `(tactic| rep_leaf) => `(tactic| exact rep_blockSizeCode _)

theorem rep_sampleRateCode (n : Nat) : RepI (fun _ _ => sampleRateCode n) := by
  by_cases h : n < 15
  · interval_cases n <;> exact RepAt.pure _
  · obtain ⟨k, rfl⟩ : ∃ k, n = k + 15 := ⟨n - 15, by omega⟩
    exact RepAt.fmtErr _
macro_rules | `(tactic| rep_leaf) => `(tactic| exact rep_sampleRateCode _)

theorem rep_channelAssignmentCode (n : Nat) : RepI (fun _ _ => channelAssignmentCode n) := by
  unfold channelAssignmentCode; rep
macro_rules | `(tactic| rep_leaf) => `(tactic| exact rep_channelAssignmentCode _)

theorem rep_bitsPerSampleCode (n : Nat) : RepI (fun _ _ => bitsPerSampleCode n) := by
  by_cases h : n < 7
  · interval_cases n <;> first | exact RepAt.pure _ | exact RepAt.fmtErr _
  · obtain ⟨k, rfl⟩ : ∃ k, n = k + 7 := ⟨n - 7, by omega⟩
    exact RepAt.fmtErr _
macro_rules | `(tactic| rep_leaf) => `(tactic| exact rep_bitsPerSampleCode _)

theorem rep_headerFields (sync : U16) : RepI (fun _ _ => headerFields sync) := by unfold headerFields; rep

theorem rep_headerRest (sync : U16) (x : U8) : RepAt crc8Lens x (fun _ _ => headerRest sync) := by
  unfold headerRest
  refine RepAt.bind ((rep_headerFields sync).crc8 x) (fun h x' => ?_)
  refine RepAt.get (by intro σ _ s; dsimp +instances only [Crc8Reader.crc]; try exact rfl) ?_
  exact RepAt.bind (rep8_readU8 _) (fun _ _ => by rep)

theorem rep_decodeIndependent (bps bs n ch : Nat) (buffer : List I32) :
    RepB (fun _ _ => decodeIndependent bps bs n ch buffer) := by
  induction n generalizing ch buffer with
  | zero => intro x; exact RepAt.pure _
  | succ n ih => intro x; simp only [decodeIndependent]; rep; exact ih _ _ _
macro_rules | `(tactic| rep_leaf) => `(tactic| exact rep_decodeIndependent _ _ _ _ _ _)

theorem rep_decodeChannels (ca : ChannelAssignment) (bps bs : Nat) (buffer : List I32) :
    RepB (fun _ _ => decodeChannels ca bps bs buffer) := by
  intro x; cases ca <;> simp only [decodeChannels] <;> rep

theorem rep_readFrameBody (hd : FrameHeader) (buffer : VecI32) (x : U16) :
    RepAt crc16Lens x (fun _ _ => readFrameBody hd buffer) := by
  unfold readFrameBody
  rcases hd.bitsPerSample with _ | bps
  · exact RepAt.unsupportedErr _
  · simp only
    refine RepAt.bind (RepAt.lift _) fun _ _ => RepAt.bind ((rep_decodeChannels _ _ _ _).within.crc16 _) fun _ x' => ?_
    refine RepAt.get (by intro σ _ s; dsimp +instances only [Crc16Reader.crc]; try exact rfl) ?_
    refine RepAt.bind (rep_readBeU16.crc16 _) (fun _ _ => ?_)
    rep

end Claxon
