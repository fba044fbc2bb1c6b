import Verif.Proof.Comments
import Verif.Spec.Checked
import Verif.Proof.FrameSplit
import Verif.Model.Lib

/-! Simulations: two readers that are related by `R` make every function of the model that is generic
in the reader behave the same. -/

namespace Claxon

variable {σ τ α β : Type}

/-- The outcomes `x` and `y` agree: same result and related states; or the first one is a failure `f`
with `E f`, after which nothing is promised of the states. The second one then is the same failure if
`B` holds. -/
def SimAt (R : σ → τ → Prop) (E : Fail → Prop) (B : Prop) (x : Except Fail α × σ)
    (y : Except Fail α × τ) : Prop :=
  (x.1 = y.1 ∧ R x.2 y.2) ∨ ∃ f, x.1 = .error f ∧ E f ∧ (B → y.1 = .error f)

/-- `m` and `m'` agree on related states. -/
def Sim (R : σ → τ → Prop) (E : Fail → Prop) (B : Prop) (m : Dec σ α) (m' : Dec τ α) : Prop :=
  ∀ s t, R s t → SimAt R E B (m s) (m' t)

namespace Sim

variable {R : σ → τ → Prop} {E : Fail → Prop} {B : Prop}

theorem pure (a : α) : Sim R E B (Pure.pure a) (Pure.pure a) := fun _ _ h => Or.inl ⟨rfl, h⟩

theorem fail (f : Fail) : Sim R E B (Dec.fail f : Dec σ α) (Dec.fail f) :=
  fun _ _ h => Or.inl ⟨rfl, h⟩

theorem lift (r : Res α) : Sim R E B (liftM r : Dec σ α) (liftM r) :=
  fun _ _ h => Or.inl ⟨rfl, h⟩

theorem fmtErr (x : String) : Sim R E B (Claxon.fmtErr x : Dec σ α) (Claxon.fmtErr x) := fail _

theorem unsupportedErr (x : String) :
    Sim R E B (Claxon.unsupportedErr x : Dec σ α) (Claxon.unsupportedErr x) := fail _

theorem bind {m : Dec σ α} {m' : Dec τ α} {f : α → Dec σ β} {f' : α → Dec τ β}
    (hm : Sim R E B m m') (hf : ∀ a, Sim R E B (f a) (f' a)) : Sim R E B (m >>= f) (m' >>= f') := by
  intro s t h
  have h1 := hm s t h
  simp only [Dec.bind_def]
  rcases hms : m s with ⟨r, s1⟩
  rcases hmt : m' t with ⟨r', t1⟩
  rw [hms, hmt] at h1
  rcases h1 with ⟨hr, hR⟩ | ⟨e, h1, h2, h3⟩
  · simp only at hr hR
    subst hr
    cases r with
    | ok a => exact hf a s1 t1 hR
    | error e => exact Or.inl ⟨rfl, hR⟩
  · simp only at h1 h3
    subst h1
    refine Or.inr ⟨e, rfl, h2, ?_⟩
    intro hB
    rw [h3 hB]

/-- As `bind`, with something known about the result of `m`. -/
theorem bind_of {m : Dec σ α} {m' : Dec τ α} {f : α → Dec σ β} {f' : α → Dec τ β} (P : α → Prop)
    (hm : Sim R E B m m') (hP : ∀ s a s', m s = (.ok a, s') → P a)
    (hf : ∀ a, P a → Sim R E B (f a) (f' a)) : Sim R E B (m >>= f) (m' >>= f') := by
  intro s t h
  have h1 := hm s t h
  simp only [Dec.bind_def]
  rcases hms : m s with ⟨r, s1⟩
  rcases hmt : m' t with ⟨r', t1⟩
  rw [hms, hmt] at h1
  rcases h1 with ⟨hr, hR⟩ | ⟨e, h1, h2, h3⟩
  · simp only at hr hR
    subst hr
    cases r with
    | ok a => exact hf a (hP s a s1 hms) s1 t1 hR
    | error e => exact Or.inl ⟨rfl, hR⟩
  · simp only at h1 h3
    subst h1
    refine Or.inr ⟨e, rfl, h2, ?_⟩
    intro hB
    rw [h3 hB]

theorem get {f : σ → Dec σ β} {f' : τ → Dec τ β} (hf : ∀ s t, R s t → Sim R E B (f s) (f' t)) :
    Sim R E B (Dec.get >>= f) (Dec.get >>= f') := fun s t h => hf s t h s t h

theorem ite {c : Prop} {i i' : Decidable c} {m n : Dec σ α} {m' n' : Dec τ α}
    (h1 : c → Sim R E B m m') (h2 : ¬c → Sim R E B n n') :
    Sim R E B (@_root_.ite _ c i m n) (@_root_.ite _ c i' m' n') := by
  by_cases h : c
  · rw [if_pos h, if_pos h]; exact h1 h
  · rw [if_neg h, if_neg h]; exact h2 h

theorem dite {c : Prop} [Decidable c] {m : c → Dec σ α} {n : ¬c → Dec σ α} {m' : c → Dec τ α}
    {n' : ¬c → Dec τ α} (h1 : ∀ h : c, Sim R E B (m h) (m' h))
    (h2 : ∀ h : ¬c, Sim R E B (n h) (n' h)) :
    Sim R E B (if h : c then m h else n h) (if h : c then m' h else n' h) := by
  split
  · exact h1 ‹_›
  · exact h2 ‹_›

end Sim

/-- The readers behave alike byte by byte. -/
structure SimU8 [ReadBytes σ] [ReadBytes τ] (R : σ → τ → Prop) (E : Fail → Prop) (B : Prop) : Prop where
  readU8 : Sim R E B (ReadBytes.readU8 : Dec σ U8) ReadBytes.readU8

/-- The readers behave alike byte by byte, and at the end of the file. -/
structure SimRd [ReadBytes σ] [ReadBytes τ] (R : σ → τ → Prop) (E : Fail → Prop) (B : Prop) : Prop
    extends SimU8 R E B where
  readU8OrEof : Sim R E B (ReadBytes.readU8OrEof : Dec σ (Option U8)) ReadBytes.readU8OrEof

/-- The readers behave alike in all operations, except at the end of the file. -/
structure SimRdFull [ReadBytes σ] [ReadBytes τ] (R : σ → τ → Prop) (E : Fail → Prop) (B : Prop) : Prop
    extends SimU8 R E B where
  readInto : ∀ n, n < 2 ^ 63 →
    Sim R E B (ReadBytes.readInto n : Dec σ (List U8)) (ReadBytes.readInto n)
  skip : ∀ n, n < 2 ^ 32 → Sim R E B (ReadBytes.skip n : Dec σ Unit) (ReadBytes.skip n)
  onAlloc : ∀ n k, Sim R E B (ReadBytes.onAlloc n k : Dec σ Unit) (ReadBytes.onAlloc n k)

/-- One step of a simulation proof; `h` proves the calls. -/
macro "sim_step" h:term : tactic => `(tactic| with_reducible first
  | exact Sim.pure _ | exact Sim.lift _ | exact Sim.fail _ | exact Sim.fmtErr _
  | exact Sim.unsupportedErr _ | exact $h
  | (refine Sim.bind (Sim.pure _) ?_; intro _) | (refine Sim.bind (Sim.lift _) ?_; intro _)
  | (refine Sim.bind $h ?_; intro _)
  | (refine Sim.ite ?_ ?_ <;> intro _))

/-- Run a simulation proof, with `h` for the calls. -/
macro "sim" h:term : tactic => `(tactic| repeat' (first
  | sim_step $h
  | ((fail_if_success (with_reducible refine Sim.get ?_)); (with_reducible refine Sim.bind ?_ ?_))
  | (with_reducible intro _)))

section Generic

set_option linter.unusedSectionVars false

variable [ReadBytes σ] [ReadBytes τ] {R : σ → τ → Prop} {E : Fail → Prop} {B : Prop}

namespace SimU8

theorem readBeU16 (h : SimU8 R E B) : Sim R E B (readBeU16 : Dec σ U16) readBeU16 := by
  unfold Claxon.readBeU16; sim h.readU8

theorem readBeU24 (h : SimU8 R E B) : Sim R E B (readBeU24 : Dec σ U32) readBeU24 := by
  unfold Claxon.readBeU24; sim h.readU8

theorem readBeU32 (h : SimU8 R E B) : Sim R E B (readBeU32 : Dec σ U32) readBeU32 := by
  unfold Claxon.readBeU32; sim h.readU8

theorem readLeU32 (h : SimU8 R E B) : Sim R E B (readLeU32 : Dec σ U32) readLeU32 := by
  unfold Claxon.readLeU32; sim h.readU8

theorem _root_.Claxon.SimRd.readBeU16OrEof (h : SimRd R E B) :
    Sim R E B (readBeU16OrEof : Dec σ (Option U16)) readBeU16OrEof := by
  unfold Claxon.readBeU16OrEof
  refine Sim.bind h.readU8OrEof ?_
  rintro (_ | b0)
  · exact Sim.pure _
  · refine Sim.bind h.readU8OrEof ?_
    rintro (_ | b1) <;> exact Sim.pure _

end SimU8

/-! ### Wrapped readers -/

/-- Bitstreams over related readers. -/
def BitstreamRel (R : σ → τ → Prop) (b : Bitstream σ) (c : Bitstream τ) : Prop :=
  R b.reader c.reader ∧ b.data = c.data ∧ b.bitsLeft = c.bitsLeft

/-- CRC-8 readers over related readers. -/
def Crc8Rel (R : σ → τ → Prop) (b : Crc8Reader σ) (c : Crc8Reader τ) : Prop :=
  R b.inner c.inner ∧ b.state = c.state

/-- CRC-16 readers over related readers. -/
def Crc16Rel (R : σ → τ → Prop) (b : Crc16Reader σ) (c : Crc16Reader τ) : Prop :=
  R b.inner c.inner ∧ b.state = c.state

theorem Sim.withCrc8 {m : Dec (Crc8Reader σ) α} {m' : Dec (Crc8Reader τ) α}
    (h : Sim (Crc8Rel R) E B m m') : Sim R E B (withCrc8 m) (withCrc8 m') := by
  intro s t hR
  rcases h (Crc8Reader.new s) (Crc8Reader.new t) ⟨hR, rfl⟩ with ⟨h1, h2⟩ | ⟨f, h1, h2, h3⟩
  · exact Or.inl ⟨h1, h2.1⟩
  · exact Or.inr ⟨f, h1, h2, h3⟩

theorem Sim.withCrc16 {m : Dec (Crc16Reader σ) α} {m' : Dec (Crc16Reader τ) α}
    (h : Sim (Crc16Rel R) E B m m') : Sim R E B (withCrc16 m) (withCrc16 m') := by
  intro s t hR
  rcases h (Crc16Reader.new s) (Crc16Reader.new t) ⟨hR, rfl⟩ with ⟨h1, h2⟩ | ⟨f, h1, h2, h3⟩
  · exact Or.inl ⟨h1, h2.1⟩
  · exact Or.inr ⟨f, h1, h2, h3⟩

theorem Sim.withBitstream {m : Dec (Bitstream σ) α} {m' : Dec (Bitstream τ) α}
    (h : Sim (BitstreamRel R) E B m m') : Sim R E B (withBitstream m) (withBitstream m') := by
  intro s t hR
  rcases h (Bitstream.new s) (Bitstream.new t) ⟨hR, rfl, rfl⟩ with ⟨h1, h2⟩ | ⟨f, h1, h2, h3⟩
  · exact Or.inl ⟨h1, h2.1⟩
  · exact Or.inr ⟨f, h1, h2, h3⟩

theorem Sim.crc8Inner {m : Dec σ α} {m' : Dec τ α} (hm : Sim R E B m m') :
    Sim (Crc8Rel R) E B (Crc8Reader.onInner m) (Crc8Reader.onInner m') := by
  intro s t hR
  rcases hm s.inner t.inner hR.1 with ⟨h1, h2⟩ | ⟨f, h1, h2, h3⟩
  · exact Or.inl ⟨h1, h2, hR.2⟩
  · exact Or.inr ⟨f, h1, h2, h3⟩

theorem Sim.crc8Update (byte : U8) :
    Sim (Crc8Rel R) E B (Crc8Reader.updateState byte : Dec (Crc8Reader σ) Unit)
      (Crc8Reader.updateState byte) := by
  intro s t hR
  simp only [Crc8Reader.updateState, Dec.bind_get_run, hR.2]
  rcases Claxon.crc8Update t.state byte with e | v
  · exact Or.inl ⟨rfl, hR⟩
  · exact Or.inl ⟨rfl, hR.1, rfl⟩

theorem SimU8.crc8 (h : SimU8 R E B) : SimU8 (Crc8Rel R) E B := by
  constructor
  refine Sim.bind (Sim.crc8Inner h.readU8) ?_
  intro byte
  refine Sim.bind (Sim.crc8Update byte) ?_
  intro _
  exact Sim.pure _

theorem SimRd.crc8' (h : SimRd R E B) : SimRd (Crc8Rel R) E B := by
  refine ⟨h.toSimU8.crc8, ?_⟩
  refine Sim.bind (Sim.crc8Inner h.readU8OrEof) ?_
  rintro (_ | byte)
  · exact Sim.pure _
  · refine Sim.bind (Sim.crc8Update byte) ?_
    intro _
    exact Sim.pure _

theorem Sim.crc16Inner {m : Dec σ α} {m' : Dec τ α} (hm : Sim R E B m m') :
    Sim (Crc16Rel R) E B (Crc16Reader.onInner m) (Crc16Reader.onInner m') := by
  intro s t hR
  rcases hm s.inner t.inner hR.1 with ⟨h1, h2⟩ | ⟨f, h1, h2, h3⟩
  · exact Or.inl ⟨h1, h2, hR.2⟩
  · exact Or.inr ⟨f, h1, h2, h3⟩

theorem Sim.crc16Update (byte : U8) :
    Sim (Crc16Rel R) E B (Crc16Reader.updateState byte : Dec (Crc16Reader σ) Unit)
      (Crc16Reader.updateState byte) := by
  intro s t hR
  simp only [Crc16Reader.updateState, Dec.bind_get_run, hR.2]
  rcases Claxon.crc16Update t.state byte with e | v
  · exact Or.inl ⟨rfl, hR⟩
  · exact Or.inl ⟨rfl, hR.1, rfl⟩

theorem SimU8.crc16 (h : SimU8 R E B) : SimU8 (Crc16Rel R) E B := by
  constructor
  refine Sim.bind (Sim.crc16Inner h.readU8) ?_
  intro byte
  refine Sim.bind (Sim.crc16Update byte) ?_
  intro _
  exact Sim.pure _

theorem SimRd.crc16' (h : SimRd R E B) : SimRd (Crc16Rel R) E B := by
  refine ⟨h.toSimU8.crc16, ?_⟩
  refine Sim.bind (Sim.crc16Inner h.readU8OrEof) ?_
  rintro (_ | byte)
  · exact Sim.pure _
  · refine Sim.bind (Sim.crc16Update byte) ?_
    intro _
    exact Sim.pure _

section Builds

variable [Build]

/-! ### The bitstream -/

namespace SimU8

open Bitstream

theorem readByte (h : SimU8 R E B) :
    Sim (BitstreamRel R) E B (readByte : Dec (Bitstream σ) U8) readByte := by
  intro s t hR
  rcases h.readU8 s.reader t.reader hR.1 with ⟨h1, h2⟩ | ⟨f, h1, h2, h3⟩
  · exact Or.inl ⟨h1, h2, hR.2⟩
  · exact Or.inr ⟨f, h1, h2, h3⟩

theorem update (data : U8) (n : Nat) :
    Sim (BitstreamRel R) E B (update data n : Dec (Bitstream σ) Unit) (update data n) :=
  fun _ _ hR => Or.inl ⟨rfl, hR.1, rfl, rfl⟩

theorem readBit (h : SimU8 R E B) :
    Sim (BitstreamRel R) E B (readBit : Dec (Bitstream σ) Bool) readBit := by
  unfold Bitstream.readBit
  apply Sim.get
  rintro s t ⟨_, h1, h2⟩
  simp only [h1, h2]
  sim (by first | exact h.readByte | exact update _ _)

theorem unaryEnd (fresh : U8) (n : Nat) :
    Sim (BitstreamRel R) E B (unaryEnd fresh n : Dec (Bitstream σ) Nat) (unaryEnd fresh n) := by
  unfold Bitstream.unaryEnd
  sim (update _ _)

theorem readUnaryWrapped (h : SimU8 R E B) (fuel : Nat) : ∀ n, Sim (BitstreamRel R) E B
    (readUnaryWrapped fuel n : Dec (Bitstream σ) Nat) (readUnaryWrapped fuel n) := by
  induction fuel with
  | zero => exact fun _ => Sim.fail _
  | succ fuel ih =>
    intro n
    unfold Bitstream.readUnaryWrapped
    exact Sim.bind h.readByte fun fresh => Sim.ite (fun _ => unaryEnd _ _) (fun _ => ih _)

theorem readUnaryLoop (h : SimU8 R E B) : ∀ n, Sim (BitstreamRel R) E B
    (readUnaryLoop n : Dec (Bitstream σ) Nat) (readUnaryLoop n) := by
  intro n
  generalize hk : 2 ^ 32 - n = k
  induction k using Nat.strongRecOn generalizing n with
  | ind k ih =>
    rw [Bitstream.readUnaryLoop, Bitstream.readUnaryLoop]
    refine Sim.bind h.readByte ?_
    intro fresh
    refine Sim.dite ?_ ?_
    · intro hlt
      refine Sim.dite ?_ ?_
      · intro _
        exact unaryEnd _ _
      · intro hz
        exact ih (2 ^ 32 - (n + leadingZeros fresh)) (by omega) _ rfl
    · intro _
      exact Sim.ite (fun _ => Sim.lift _)
        (fun _ => Sim.ite (fun _ => unaryEnd _ _) (fun _ => h.readUnaryWrapped _ _))

theorem readUnary (h : SimU8 R E B) :
    Sim (BitstreamRel R) E B (readUnary : Dec (Bitstream σ) Nat) readUnary := by
  unfold Bitstream.readUnary
  apply Sim.get
  rintro s t ⟨_, h1, h2⟩
  simp only [h1, h2]
  sim (by first | exact h.readUnaryLoop _ | exact update _ _)

theorem readLeqU8Finish (bits : Nat) (x : U8) : Sim (BitstreamRel R) E B
    (readLeqU8Finish bits x : Dec (Bitstream σ) U8) (readLeqU8Finish bits x) := by
  unfold Bitstream.readLeqU8Finish
  apply Sim.get
  rintro s t ⟨_, h1, h2⟩
  simp only [h1, h2]
  sim (update _ _)

theorem readLeqU8 (h : SimU8 R E B) (bits : Nat) :
    Sim (BitstreamRel R) E B (readLeqU8 bits : Dec (Bitstream σ) U8) (readLeqU8 bits) := by
  unfold Bitstream.readLeqU8
  refine Sim.bind (Sim.lift _) ?_
  intro _
  apply Sim.get
  rintro s t ⟨_, h1, h2⟩
  simp only [h1, h2]
  sim (by first | exact h.readByte | exact update _ _ | exact readLeqU8Finish _ _)

theorem readGtU8LeqU16 (h : SimU8 R E B) (bits : Nat) :
    Sim (BitstreamRel R) E B (readGtU8LeqU16 bits : Dec (Bitstream σ) U32) (readGtU8LeqU16 bits) := by
  unfold Bitstream.readGtU8LeqU16
  refine Sim.bind (Sim.lift _) ?_
  intro _
  apply Sim.get
  rintro s t ⟨_, h1, h2⟩
  simp only [h1, h2]
  sim (by first | exact h.readByte | exact update _ _)

theorem readLeqU16 (h : SimU8 R E B) (bits : Nat) :
    Sim (BitstreamRel R) E B (readLeqU16 bits : Dec (Bitstream σ) U16) (readLeqU16 bits) := by
  unfold Bitstream.readLeqU16
  sim (h.readLeqU8 _)

theorem readLeqU32 (h : SimU8 R E B) (bits : Nat) :
    Sim (BitstreamRel R) E B (readLeqU32 bits : Dec (Bitstream σ) U32) (readLeqU32 bits) := by
  unfold Bitstream.readLeqU32
  sim (h.readLeqU16 _)

/-! ### Subframes -/

theorem subframeTypeOf (n : U8) : Sim (BitstreamRel R) E B
    (subframeTypeOf n : Dec (Bitstream σ) SubframeType) (subframeTypeOf n) := by
  unfold Claxon.subframeTypeOf
  sim (Sim.pure _)

theorem readSubframeHeader (h : SimU8 R E B) : Sim (BitstreamRel R) E B
    (readSubframeHeader : Dec (Bitstream σ) SubframeHeader) readSubframeHeader := by
  unfold Claxon.readSubframeHeader
  sim (by first | exact h.readBit | exact h.readLeqU8 _ | exact subframeTypeOf _ | exact h.readUnary)

theorem ricePartitionSmall (h : SimU8 R E B) (k : Nat) (buf : List I32) : Sim (BitstreamRel R) E B
    (ricePartitionSmall k buf : Dec (Bitstream σ) _) (ricePartitionSmall k buf) := by
  induction buf with
  | nil => exact Sim.pure _
  | cons x buf ih =>
    unfold Claxon.ricePartitionSmall
    sim (by first | exact h.readUnary | exact h.readLeqU8 _ | exact ih)

theorem ricePartitionLarge (h : SimU8 R E B) (k : Nat) (buf : List I32) : Sim (BitstreamRel R) E B
    (ricePartitionLarge k buf : Dec (Bitstream σ) _) (ricePartitionLarge k buf) := by
  induction buf with
  | nil => exact Sim.pure _
  | cons x buf ih =>
    unfold Claxon.ricePartitionLarge
    sim (by first | exact h.readUnary | exact h.readGtU8LeqU16 _ | exact ih)

theorem rice2PartitionLoop (h : SimU8 R E B) (k : Nat) (buf : List I32) : Sim (BitstreamRel R) E B
    (rice2PartitionLoop k buf : Dec (Bitstream σ) _) (rice2PartitionLoop k buf) := by
  induction buf with
  | nil => exact Sim.pure _
  | cons x buf ih =>
    unfold Claxon.rice2PartitionLoop
    sim (by first | exact h.readUnary | exact h.readLeqU32 _ | exact ih)

theorem decodeRicePartition (h : SimU8 R E B) (buf : List I32) : Sim (BitstreamRel R) E B
    (decodeRicePartition buf : Dec (Bitstream σ) _) (decodeRicePartition buf) := by
  unfold Claxon.decodeRicePartition
  sim (by first | exact h.readLeqU8 _ | exact h.ricePartitionSmall _ _ | exact h.ricePartitionLarge _ _)

theorem decodeRice2Partition (h : SimU8 R E B) (buf : List I32) : Sim (BitstreamRel R) E B
    (decodeRice2Partition buf : Dec (Bitstream σ) _) (decodeRice2Partition buf) := by
  unfold Claxon.decodeRice2Partition
  sim (by first | exact h.readLeqU8 _ | exact h.rice2PartitionLoop _ _)

theorem _root_.Claxon.Sim.withSlice {σ τ : Type} {R : σ → τ → Prop} (buffer : List I32) (a b : Nat)
    {f : List I32 → Dec σ (List I32)} {f' : List I32 → Dec τ (List I32)}
    (hf : ∀ s, Sim R E B (f s) (f' s)) :
    Sim R E B (withSlice buffer a b f) (withSlice buffer a b f') := by
  unfold Claxon.withSlice
  sim (hf _)

theorem partitionLoop (h : SimU8 R E B) (ptype : RicePartitionType) (nspp n : Nat) :
    ∀ (start len : Nat) (buffer : List I32), Sim (BitstreamRel R) E B
    (partitionLoop ptype nspp n start len buffer : Dec (Bitstream σ) _)
    (partitionLoop ptype nspp n start len buffer) := by
  induction n with
  | zero => intro _ _ _; exact Sim.pure _
  | succ n ih =>
    intro start len buffer
    unfold Claxon.partitionLoop
    refine Sim.bind (Sim.withSlice _ _ _ ?_) ?_
    · intro s
      cases ptype
      · exact h.decodeRicePartition s
      · exact h.decodeRice2Partition s
    · intro _; exact ih _ _ _

theorem decodeResidual (h : SimU8 R E B) (bs : Nat) (buffer : List I32) : Sim (BitstreamRel R) E B
    (decodeResidual bs buffer : Dec (Bitstream σ) _) (decodeResidual bs buffer) := by
  unfold Claxon.decodeResidual
  sim (by first | exact h.readLeqU8 _ | exact h.partitionLoop _ _ _ _ _ _)

theorem decodeConstant (h : SimU8 R E B) (bps : Nat) (buffer : List I32) : Sim (BitstreamRel R) E B
    (decodeConstant bps buffer : Dec (Bitstream σ) _) (decodeConstant bps buffer) := by
  unfold Claxon.decodeConstant
  sim (h.readLeqU32 _)

theorem verbatimLoop (h : SimU8 R E B) (bps : Nat) (buffer : List I32) : Sim (BitstreamRel R) E B
    (verbatimLoop bps buffer : Dec (Bitstream σ) _) (verbatimLoop bps buffer) := by
  induction buffer with
  | nil => exact Sim.pure _
  | cons x buffer ih =>
    unfold Claxon.verbatimLoop
    sim (by first | exact h.readLeqU32 _ | exact ih)

theorem decodeVerbatim (h : SimU8 R E B) (bps : Nat) (buffer : List I32) : Sim (BitstreamRel R) E B
    (decodeVerbatim bps buffer : Dec (Bitstream σ) _) (decodeVerbatim bps buffer) := by
  unfold Claxon.decodeVerbatim
  sim (h.verbatimLoop _ _)

theorem decodeFixed (h : SimU8 R E B) (bps order : Nat) (buffer : List I32) :
    Sim (BitstreamRel R) E B
    (decodeFixed bps order buffer : Dec (Bitstream σ) _) (decodeFixed bps order buffer) := by
  unfold Claxon.decodeFixed
  sim (Sim.withSlice _ _ _ (fun _ => by
    first | exact h.decodeVerbatim _ _ | exact h.decodeResidual _ _))

theorem readCoefficients (h : SimU8 R E B) (prec n : Nat) : ∀ arr, Sim (BitstreamRel R) E B
    (readCoefficients prec n arr : Dec (Bitstream σ) _) (readCoefficients prec n arr) := by
  induction n with
  | zero => intro _; exact Sim.pure _
  | succ n ih =>
    intro arr
    unfold Claxon.readCoefficients
    sim (by first | exact h.readLeqU16 _ | exact ih _)

theorem decodeLpc (h : SimU8 R E B) (bps order : Nat) (buffer : List I32) :
    Sim (BitstreamRel R) E B
    (decodeLpc bps order buffer : Dec (Bitstream σ) _) (decodeLpc bps order buffer) := by
  unfold Claxon.decodeLpc
  sim (by first
    | exact h.readLeqU8 _ | exact h.readLeqU16 _ | exact h.readCoefficients _ _ _
    | exact Sim.withSlice _ _ _ (fun _ => by
        first | exact h.decodeVerbatim _ _ | exact h.decodeResidual _ _))

theorem decodeSubframe (h : SimU8 R E B) (bps : Nat) (buffer : List I32) : Sim (BitstreamRel R) E B
    (decodeSubframe bps buffer : Dec (Bitstream σ) _) (decodeSubframe bps buffer) := by
  unfold Claxon.decodeSubframe
  refine Sim.bind (Sim.lift _) ?_
  intro _
  refine Sim.bind h.readSubframeHeader ?_
  intro header
  refine Sim.ite (fun _ => Sim.fail _) ?_
  intro _
  refine Sim.bind ?_ ?_
  · rcases header.sfType with _ | _ | ord | ord
    · exact h.decodeConstant _ _
    · exact h.decodeVerbatim _ _
    · exact h.decodeFixed _ _ _
    · exact h.decodeLpc _ _ _
  · intro _
    sim (Sim.pure _)

/-! ### Frames -/

theorem varLengthLoop (h : SimU8 R E B) (n : Nat) : ∀ x, Sim R E B
    (varLengthLoop n x : Dec σ U64) (varLengthLoop n x) := by
  induction n with
  | zero => intro _; exact Sim.pure _
  | succ n ih =>
    intro x
    unfold Claxon.varLengthLoop
    sim (by first | exact h.readU8 | exact ih _)

theorem readVarLengthInt (h : SimU8 R E B) : Sim R E B (readVarLengthInt : Dec σ U64) readVarLengthInt := by
  unfold Claxon.readVarLengthInt
  sim (by first | exact h.readU8 | exact h.varLengthLoop _ _)

theorem readBlockTime (h : SimU8 R E B) (v : Bool) :
    Sim R E B (readBlockTime v : Dec σ BlockTime) (readBlockTime v) := by
  unfold Claxon.readBlockTime
  sim h.readVarLengthInt

theorem readBlockSize (h : SimU8 R E B) (c : BlockSizeCode) :
    Sim R E B (readBlockSize c : Dec σ Nat) (readBlockSize c) := by
  cases c <;> unfold Claxon.readBlockSize
  · exact Sim.pure _
  · sim h.readU8
  · sim h.readBeU16

theorem readSampleRate (h : SimU8 R E B) (c : SampleRateCode) :
    Sim R E B (readSampleRate c : Dec σ (Option Nat)) (readSampleRate c) := by
  cases c <;> unfold Claxon.readSampleRate
  · exact Sim.pure _
  · sim h.readU8
  · sim h.readBeU16
  · sim h.readBeU16

theorem blockSizeCode (n : Nat) : Sim R E B (blockSizeCode n : Dec σ _) (blockSizeCode n) := by
  unfold Claxon.blockSizeCode
  sim (Sim.pure _)

theorem sampleRateCode (n : Nat) : Sim R E B (sampleRateCode n : Dec σ _) (sampleRateCode n) := by
  unfold Claxon.sampleRateCode
  split <;> first | exact Sim.pure _ | exact Sim.fmtErr _

theorem channelAssignmentCode (n : Nat) :
    Sim R E B (channelAssignmentCode n : Dec σ _) (channelAssignmentCode n) := by
  unfold Claxon.channelAssignmentCode
  sim (Sim.pure _)

theorem bitsPerSampleCode (n : Nat) :
    Sim R E B (bitsPerSampleCode n : Dec σ _) (bitsPerSampleCode n) := by
  unfold Claxon.bitsPerSampleCode
  split <;> first | exact Sim.pure _ | exact Sim.fmtErr _

theorem headerFields (h : SimU8 R E B) (sync : U16) :
    Sim R E B (headerFields sync : Dec σ _) (headerFields sync) := by
  unfold Claxon.headerFields
  sim (by first
    | exact h.readU8 | exact h.readBlockTime _ | exact h.readBlockSize _
    | exact h.readSampleRate _ | exact blockSizeCode _ | exact sampleRateCode _
    | exact channelAssignmentCode _ | exact bitsPerSampleCode _)

theorem headerRest [FuzzCfg] (h : SimU8 R E B) (sync : U16) : Sim (Crc8Rel R) E B
    (headerRest sync : Dec (Crc8Reader σ) _) (headerRest sync) := by
  have h8 := h.crc8
  unfold Claxon.headerRest
  refine Sim.bind (h8.headerFields _) (fun hd => ?_)
  apply Sim.get
  rintro ⟨s, c⟩ ⟨t, c'⟩ ⟨_, hst⟩
  simp only at hst
  subst hst
  simp only [Crc8Reader.crc]
  sim h8.readU8
  exact Sim.ite (fun _ => Sim.fmtErr _) (fun _ => Sim.pure _)

theorem _root_.Claxon.SimRd.readFrameHeaderBody [FuzzCfg] (h : SimRd R E B) : Sim (Crc8Rel R) E B
    (readFrameHeaderBody : Dec (Crc8Reader σ) _) readFrameHeaderBody := by
  rw [readFrameHeaderBody_eq, readFrameHeaderBody_eq]
  refine Sim.bind h.crc8'.readBeU16OrEof ?_
  rintro (_ | sync)
  · exact Sim.pure _
  · exact Sim.bind (h.headerRest _) (fun _ => Sim.pure _)

theorem _root_.Claxon.SimRd.readFrameHeaderOrEof [FuzzCfg] (h : SimRd R E B) :
    Sim R E B (readFrameHeaderOrEof : Dec σ _) readFrameHeaderOrEof :=
  Sim.withCrc8 h.readFrameHeaderBody

theorem decodeIndependent (h : SimU8 R E B) (bps bs n : Nat) : ∀ ch buffer,
    Sim (BitstreamRel R) E B (decodeIndependent bps bs n ch buffer : Dec (Bitstream σ) _)
      (decodeIndependent bps bs n ch buffer) := by
  induction n with
  | zero => intro _ _; exact Sim.pure _
  | succ n ih =>
    intro ch buffer
    unfold Claxon.decodeIndependent
    sim (by first | exact Sim.withSlice _ _ _ (h.decodeSubframe _) | exact ih _ _)

theorem decodeChannels (h : SimU8 R E B) (ca : ChannelAssignment) (bps bs : Nat)
    (buffer : List I32) : Sim (BitstreamRel R) E B (decodeChannels ca bps bs buffer : Dec (Bitstream σ) _)
      (decodeChannels ca bps bs buffer) := by
  cases ca <;> unfold Claxon.decodeChannels
  · exact h.decodeIndependent _ _ _ _ _
  all_goals
    sim (by first
      | exact Sim.withSlice _ _ _ (h.decodeSubframe _)
      | exact Sim.withSlice _ _ _ (fun _ => Sim.pure _))

theorem readFrameBody [FuzzCfg] (h : SimU8 R E B) (hd : FrameHeader) (buffer : VecI32) : Sim (Crc16Rel R) E B
    (readFrameBody hd buffer : Dec (Crc16Reader σ) _) (readFrameBody hd buffer) := by
  have h16 := h.crc16
  unfold Claxon.readFrameBody
  rcases hd.bitsPerSample with _ | bps
  · exact Sim.unsupportedErr _
  · simp only
    sim (Sim.withBitstream (h16.decodeChannels _ _ _ _))
    apply Sim.get
    rintro ⟨s, c⟩ ⟨t, c'⟩ ⟨_, hst⟩
    simp only at hst
    subst hst
    simp only [Crc16Reader.crc]
    sim h16.readBeU16
    refine Sim.ite (fun _ => Sim.fmtErr _) (fun _ => ?_)
    sim (Sim.pure _)

theorem _root_.Claxon.SimRd.readNextOrEof [FuzzCfg] (h : SimRd R E B) (buffer : VecI32) :
    Sim R E B (readNextOrEof buffer : Dec σ _) (readNextOrEof buffer) := by
  refine Sim.withCrc16 ?_
  refine Sim.bind h.crc16'.readFrameHeaderOrEof ?_
  rintro (_ | hd)
  · exact Sim.pure _
  · exact h.readFrameBody hd buffer

end SimU8

end Builds

/-! ### Metadata -/

namespace SimU8

open Bitstream

theorem readMetadataBlockHeader (h : SimU8 R E B) :
    Sim R E B (readMetadataBlockHeader : Dec σ _) readMetadataBlockHeader := by
  unfold Claxon.readMetadataBlockHeader
  sim (by first | exact h.readU8 | exact h.readBeU24)

theorem checkStreaminfo (a b : U16) (c d e : U32) (f g : Nat) (i : U64) (j : List U8) : Sim R E B
    (checkStreaminfo a b c d e f g i j : Dec σ _) (checkStreaminfo a b c d e f g i j) := by
  unfold Claxon.checkStreaminfo
  sim (Sim.pure _)

theorem stringFromUtf8 (x : List U8) :
    Sim R E B (stringFromUtf8 x : Dec σ _) (stringFromUtf8 x) := by
  unfold Claxon.stringFromUtf8
  sim (Sim.pure _)

theorem checkComment (x : List U8) :
    Sim R E B (checkComment x : Dec σ _) (checkComment x) := by
  unfold Claxon.checkComment
  split
  · sim (stringFromUtf8 _)
  · exact Sim.fmtErr _

end SimU8

/-- The length in a metadata block header is less than 2^32 (in fact it has 24 bits). -/
theorem readMetadataBlockHeader_length {s s' : σ} {hd : MetadataBlockHeader}
    (h : readMetadataBlockHeader s = (.ok hd, s')) : hd.length < 2 ^ 32 := by
  simp only [readMetadataBlockHeader, Dec.bind_def] at h
  rcases hx : (ReadBytes.readU8 : Dec σ U8) s with ⟨_ | b, s1⟩ <;> rw [hx] at h
  · simp at h
  · simp only at h
    rcases hy : (readBeU24 : Dec σ U32) s1 with ⟨_ | n, s2⟩ <;> rw [hy] at h
    · simp at h
    · simp only [Dec.pure_run, Prod.mk.injEq, Except.ok.injEq] at h
      rw [← h.1]
      exact n.isLt

namespace SimRdFull

theorem readStreaminfoBlock (h : SimRdFull R E B) :
    Sim R E B (readStreaminfoBlock : Dec σ _) readStreaminfoBlock := by
  unfold Claxon.readStreaminfoBlock
  sim (by first
    | exact h.readU8 | exact h.readBeU16 | exact h.readBeU24 | exact h.readBeU32
    | exact h.readInto _ (by decide) | exact SimU8.checkStreaminfo _ _ _ _ _ _ _ _ _)

theorem commentsLoop (h : SimRdFull R E B) : ∀ (left n : Nat) (comments : List (Str × Nat)),
    Sim R E B (commentsLoop left n comments : Dec σ _) (commentsLoop left n comments) := by
  intro left
  induction left using Nat.strongRecOn with
  | ind left ih =>
    intro n comments
    have e1 := Claxon.commentsLoop_eq (σ := σ) left n comments
    have e2 := Claxon.commentsLoop_eq (σ := τ) left n comments
    rw [e1, e2]
    refine Sim.dite ?_ ?_
    · intro hlt
      sim (by first
        | exact h.readLeU32 | exact h.onAlloc _ _ | exact h.readInto _ (Nat.lt_trans (BitVec.isLt _) (by decide)) | exact SimU8.checkComment _)
      · exact ih _ (by omega) _ _
      · exact ih _ (by omega) _ _
    · intro _
      exact Sim.pure _

theorem readVorbisCommentBlock (h : SimRdFull R E B) (n : Nat) :
    Sim R E B (readVorbisCommentBlock n : Dec σ _) (readVorbisCommentBlock n) := by
  unfold Claxon.readVorbisCommentBlock
  sim (by first
    | exact h.readLeU32 | exact h.onAlloc _ _ | exact h.readInto _ (Nat.lt_trans (BitVec.isLt _) (by decide)) | exact SimU8.stringFromUtf8 _
    | exact h.commentsLoop _ _ _)

theorem readPaddingBlock (h : SimRdFull R E B) (n : Nat) (hn : n < 2 ^ 32) :
    Sim R E B (readPaddingBlock n : Dec σ _) (readPaddingBlock n) := h.skip n hn

theorem readApplicationBlock (h : SimRdFull R E B) (n : Nat) :
    Sim R E B (readApplicationBlock n : Dec σ _) (readApplicationBlock n) := by
  unfold Claxon.readApplicationBlock
  refine Sim.ite (fun _ => Sim.fmtErr _) (fun _ => ?_)
  refine Sim.ite (fun _ => Sim.unsupportedErr _) (fun hle => ?_)
  refine Sim.bind h.readBeU32 (fun id => ?_)
  refine Sim.bind_of (fun k => k < 2 ^ 32) (Sim.lift _) ?_ (fun k hk => ?_)
  · intro s k s' hk
    rw [subU_ok (by omega)] at hk
    obtain rfl := Except.ok.inj (Prod.mk.inj hk).1
    omega
  sim (by first | exact h.onAlloc _ _ | exact h.readInto _ (Nat.lt_trans hk (by decide)))

theorem readMetadataBlock (h : SimRdFull R E B) (ty : U8) (n : Nat) (hn : n < 2 ^ 32) :
    Sim R E B (readMetadataBlock ty n : Dec σ _) (readMetadataBlock ty n) := by
  unfold Claxon.readMetadataBlock
  sim (by first
    | exact h.readStreaminfoBlock | exact h.readPaddingBlock _ hn | exact h.readApplicationBlock _
    | exact h.skip _ hn | exact h.readVorbisCommentBlock _)

theorem readMetadataBlockWithHeader (h : SimRdFull R E B) :
    Sim R E B (readMetadataBlockWithHeader : Dec σ _) readMetadataBlockWithHeader := by
  unfold Claxon.readMetadataBlockWithHeader
  refine Sim.bind_of (fun hd => hd.length < 2 ^ 32) h.readMetadataBlockHeader
    (fun _ _ _ => readMetadataBlockHeader_length) (fun hd hlen => ?_)
  exact h.readMetadataBlock _ _ hlen

end SimRdFull

end Generic

/-! ### Opening a stream

The same as `openStream`, but working on the reader itself. -/

section Open

variable [ReadBytes σ]

/-- `metadataLoop`, with `done` as a parameter. -/
def openLoop : (fuel : Nat) → (opts : FlacReaderOptions) → (vc : Option VorbisComment) →
    (done : Bool) → Dec σ (Option VorbisComment)
  | 0, _, _, _ => Dec.fail .diverged
  | fuel + 1, opts, vc, done =>
    if done then pure vc
    else do
      let header ← readMetadataBlockHeader
      let block ← readMetadataBlock header.blockType header.length
      match block with
      | .vorbisComment c =>
        if vc.isSome then fmtErr "encountered second Vorbis comment block"
        else
          let opts := { opts with readVorbisComment := false }
          if !opts.hasDesiredBlocks then pure (some c)
          else openLoop fuel opts (some c) header.isLast
      | .streamInfo _ => fmtErr "encountered second streaminfo block"
      | _ =>
        if !opts.hasDesiredBlocks then pure vc
        else openLoop fuel opts vc header.isLast

/-- `openStream`, on the reader itself. -/
def openFlat (fuel : Nat) (options : FlacReaderOptions) :
    Dec σ (StreamInfo × Option VorbisComment) := do
  readStreamHeader
  let header ← readMetadataBlockHeader
  let block ← readMetadataBlock header.blockType header.length
  match block with
  | .streamInfo info => do
    let vc ← openLoop fuel options none header.isLast
    pure (info, if !options.readVorbisComment then none else vc)
  | _ => fmtErr "streaminfo block missing"

theorem MetadataBlockReader.next_done (r : MetadataBlockReader σ) (h : r.done = true) :
    MetadataBlockReader.next r = (.ok none, r) := by
  simp [MetadataBlockReader.next, h]

/-- What `next` does, spelled out. -/
theorem MetadataBlockReader.next_run (s : σ) :
    MetadataBlockReader.next { input := s, done := false } =
      match readMetadataBlockHeader s with
      | (.error (.err e), s') => (.ok (some (.error e)), { input := s', done := true })
      | (.error f, s') => (.error f, { input := s', done := false })
      | (.ok header, s') =>
        match readMetadataBlock header.blockType header.length s' with
        | (.error (.err e), s') => (.ok (some (.error e)), { input := s', done := true })
        | (.error f, s') => (.error f, { input := s', done := false })
        | (.ok block, s') => (.ok (some (.ok block)), { input := s', done := header.isLast }) := by
  simp only [MetadataBlockReader.next, Dec.bind_get_run, Bool.false_eq_true, if_false]
  simp only [MetadataBlockReader.readNext, MetadataBlockReader.onInput,
    MetadataBlockReader.setDone, Dec.catchErr, Dec.bind_def, Dec.zoom_run]
  rcases readMetadataBlockHeader s with ⟨⟨_ | _ | _ | _⟩ | header, s1⟩ <;> try rfl
  simp only
  rcases readMetadataBlock header.blockType header.length s1 with ⟨⟨_ | _ | _ | _⟩ | block, s2⟩ <;> rfl

/-- The same result, and the same final input. -/
def SameInput {α : Type} (x : Except Fail α × MetadataBlockReader σ) (y : Except Fail α × σ) : Prop :=
  x.1 = y.1 ∧ x.2.input = y.2

theorem metadataLoop_eq (fuel : Nat) : ∀ (opts : FlacReaderOptions) (vc : Option VorbisComment)
    (r : MetadataBlockReader σ),
    SameInput (metadataLoop fuel opts vc r) (openLoop fuel opts vc r.done r.input) := by
  induction fuel with
  | zero => intro opts vc r; exact ⟨rfl, rfl⟩
  | succ fuel ih =>
    intro opts vc r
    rcases r with ⟨s, done⟩
    cases done with
    | true =>
      simp only [metadataLoop, openLoop, if_true]
      rw [Dec.bind_ok _ (MetadataBlockReader.next_done _ rfl)]
      exact ⟨rfl, rfl⟩
    | false =>
      simp only [metadataLoop, openLoop, Bool.false_eq_true, if_false, Dec.bind_def,
        MetadataBlockReader.next_run]
      rcases readMetadataBlockHeader s with ⟨⟨_ | _ | _ | _⟩ | header, s1⟩ <;> try exact ⟨rfl, rfl⟩
      simp only
      rcases readMetadataBlock header.blockType header.length s1 with ⟨⟨_ | _ | _ | _⟩ | block, s2⟩ <;>
        try exact ⟨rfl, rfl⟩
      cases block <;> simp only [Dec.ite_run]
      case streamInfo => exact ⟨rfl, rfl⟩
      case vorbisComment c =>
        split
        · exact ⟨rfl, rfl⟩
        · split
          · exact ⟨rfl, rfl⟩
          · exact ih _ _ _
      all_goals
        split
        · exact ⟨rfl, rfl⟩
        · exact ih _ _ _

theorem openStream_eq (fuel : Nat) (options : FlacReaderOptions) :
    (openStream fuel options : Dec σ _) = openFlat fuel options := by
  unfold openStream openFlat
  congr 1
  funext _ s
  simp only [readMetadata, MetadataBlockReader.new, Dec.bind_def, MetadataBlockReader.next_run]
  rcases readMetadataBlockHeader s with ⟨⟨_ | _ | _ | _⟩ | header, s1⟩ <;> try rfl
  simp only
  rcases readMetadataBlock header.blockType header.length s1 with ⟨⟨_ | _ | _ | _⟩ | block, s2⟩ <;>
    try rfl
  cases block <;> try rfl
  simp only [Dec.bind_def]
  have h := metadataLoop_eq fuel options none { input := s2, done := header.isLast }
  rcases h1 : metadataLoop fuel options none { input := s2, done := header.isLast } with ⟨r, t⟩
  rcases h2 : openLoop fuel options none header.isLast s2 with ⟨r', t'⟩
  rw [h1] at h
  simp only at h
  rw [h2] at h
  obtain ⟨ha, hb⟩ := h
  simp only at ha hb
  subst ha hb
  cases r <;> rfl

end Open

namespace SimRdFull

variable [ReadBytes σ] [ReadBytes τ] {R : σ → τ → Prop} {E : Fail → Prop} {B : Prop}

theorem readStreamHeader (h : SimU8 R E B) :
    Sim R E B (readStreamHeader : Dec σ _) readStreamHeader := by
  unfold Claxon.readStreamHeader
  sim h.readBeU32

theorem openLoop (h : SimRdFull R E B) (fuel : Nat) : ∀ opts vc done,
    Sim R E B (openLoop fuel opts vc done : Dec σ _) (openLoop fuel opts vc done) := by
  induction fuel with
  | zero => intro _ _ _; exact Sim.fail _
  | succ fuel ih =>
    intro opts vc done
    unfold Claxon.openLoop
    refine Sim.ite (fun _ => Sim.pure _) (fun _ => ?_)
    refine Sim.bind_of (fun hd => hd.length < 2 ^ 32) h.readMetadataBlockHeader
      (fun _ _ _ => readMetadataBlockHeader_length) (fun hd hlen => ?_)
    refine Sim.bind (h.readMetadataBlock _ _ hlen) (fun block => ?_)
    cases block <;> simp only <;> sim (ih _ _ _)

theorem openFlat (h : SimRdFull R E B) (fuel : Nat) (opts : FlacReaderOptions) :
    Sim R E B (openFlat fuel opts : Dec σ _) (openFlat fuel opts) := by
  unfold Claxon.openFlat
  refine Sim.bind (readStreamHeader h.toSimU8) (fun _ => ?_)
  refine Sim.bind_of (fun hd => hd.length < 2 ^ 32) h.readMetadataBlockHeader
    (fun _ _ _ => readMetadataBlockHeader_length) (fun hd hlen => ?_)
  refine Sim.bind (h.readMetadataBlock _ _ hlen) (fun block => ?_)
  cases block <;> simp only <;> sim (h.openLoop _ _ _ _)

theorem openStream (h : SimRdFull R E B) (fuel : Nat) (opts : FlacReaderOptions) :
    Sim R E B (openStream fuel opts : Dec σ _) (openStream fuel opts) := by
  rw [openStream_eq, openStream_eq]
  exact h.openFlat fuel opts

end SimRdFull

/-! ### Iterators -/

section Iterators

variable [ReadBytes σ] [ReadBytes τ] {R : σ → τ → Prop} {E : Fail → Prop}

/-- Metadata block readers in the same state, over related readers unless they are done. -/
def MetadataRel (R : σ → τ → Prop) (a : MetadataBlockReader σ) (b : MetadataBlockReader τ) : Prop :=
  a.done = b.done ∧ (a.done = false → R a.input b.input)

theorem SimRdFull.metadataNext (h : SimRdFull R E True) (hE : ∀ f, E f → ∃ e, f = .err e) :
    Sim (MetadataRel R) (fun _ => False) True
      (MetadataBlockReader.next : Dec (MetadataBlockReader σ) _) MetadataBlockReader.next := by
  rintro ⟨s, d⟩ ⟨t, d'⟩ ⟨hd, hR⟩
  simp only at hd hR
  subst hd
  left
  cases d with
  | true =>
    rw [MetadataBlockReader.next_done _ rfl, MetadataBlockReader.next_done _ rfl]
    exact ⟨rfl, rfl, by simp⟩
  | false =>
    have hst := hR rfl
    rw [MetadataBlockReader.next_run, MetadataBlockReader.next_run]
    have h1 := h.readMetadataBlockHeader s t hst
    have hlen : ∀ header s1, Claxon.readMetadataBlockHeader s = (.ok header, s1) →
        header.length < 2 ^ 32 := fun _ _ => readMetadataBlockHeader_length
    generalize Claxon.readMetadataBlockHeader s = x at h1 hlen ⊢
    generalize Claxon.readMetadataBlockHeader t = y at h1 ⊢
    rcases x with ⟨r, s1⟩
    rcases y with ⟨r', t1⟩
    rcases h1 with ⟨h1, h2⟩ | ⟨f, h1, h2, h3⟩
    · obtain rfl : r = r' := h1
      rcases r with ⟨_ | _ | _ | _⟩ | header
      · exact ⟨rfl, rfl, by simp⟩
      · exact ⟨rfl, rfl, fun _ => h2⟩
      · exact ⟨rfl, rfl, fun _ => h2⟩
      · exact ⟨rfl, rfl, fun _ => h2⟩
      · simp only
        have h1 := h.readMetadataBlock header.blockType header.length (hlen _ _ rfl) s1 t1 h2
        generalize Claxon.readMetadataBlock header.blockType header.length s1 = x at h1 ⊢
        generalize Claxon.readMetadataBlock header.blockType header.length t1 = y at h1 ⊢
        rcases x with ⟨r, s2⟩
        rcases y with ⟨r', t2⟩
        rcases h1 with ⟨h1, h2⟩ | ⟨f, h1, h2, h3⟩
        · obtain rfl : r = r' := h1
          rcases r with ⟨_ | _ | _ | _⟩ | block
          · exact ⟨rfl, rfl, by simp⟩
          · exact ⟨rfl, rfl, fun _ => h2⟩
          · exact ⟨rfl, rfl, fun _ => h2⟩
          · exact ⟨rfl, rfl, fun _ => h2⟩
          · exact ⟨rfl, rfl, fun _ => h2⟩
        · obtain ⟨e, rfl⟩ := hE f h2
          obtain rfl : r = _ := h1
          obtain rfl : r' = _ := h3 trivial
          exact ⟨rfl, rfl, by simp⟩
    · obtain ⟨e, rfl⟩ := hE f h2
      obtain rfl : r = _ := h1
      obtain rfl : r' = _ := h3 trivial
      exact ⟨rfl, rfl, by simp⟩

/-- Sample iterators in the same state, over related readers unless they have failed. -/
def SamplesRel (R : σ → τ → Prop) (a : FlacSamples σ) (b : FlacSamples τ) : Prop :=
  a.block = b.block ∧ a.sample = b.sample ∧ a.channel = b.channel ∧ a.hasFailed = b.hasFailed ∧
    (a.hasFailed = false → R a.frameReader b.frameReader)

omit [ReadBytes σ] [ReadBytes τ] in
theorem SimU8.samplesCurrent :
    Sim (SamplesRel R) (fun _ => False) True
      (FlacSamples.current : Dec (FlacSamples σ) _) FlacSamples.current := by
  unfold FlacSamples.current
  apply Sim.get
  rintro ⟨s, b, i, c, d⟩ ⟨t, b', i', c', d'⟩ ⟨hb, hi, hc, hd, hR⟩
  simp only at hb hi hc hd
  subst hb hi hc hd
  simp only
  sim (Sim.pure _)

theorem SimRd.samplesNext [FuzzCfg] (h : SimRd R E True) (hE : ∀ f, E f → ∃ e, f = .err e) :
    Sim (SamplesRel R) (fun _ => False) True
      (FlacSamples.next : Dec (FlacSamples σ) _) FlacSamples.next := by
  rintro ⟨s, b, i, c, d⟩ ⟨t, b', i', c', d'⟩ ⟨hb, hi, hc, hd, hR⟩
  simp only at hb hi hc hd hR
  subst hb hi hc hd
  unfold FlacSamples.next
  simp only [Dec.bind_get_run]
  cases d with
  | true => exact Or.inl ⟨rfl, rfl, rfl, rfl, rfl, fun hh => Bool.noConfusion (show true = false from hh)⟩
  | false =>
    have hst := hR rfl
    simp only [Bool.false_eq_true, if_false]
    rcases addU 32 c 1 with e | c1
    · exact Or.inl ⟨rfl, rfl, rfl, rfl, rfl, fun _ => hst⟩
    · simp only [Dec.bind_liftM_ok, Dec.ite_run]
      split
      · rcases addU 32 i 1 with e | i1
        · exact Or.inl ⟨rfl, rfl, rfl, rfl, rfl, fun _ => hst⟩
        · simp only [Dec.bind_liftM_ok, Dec.bind_set_run, Dec.ite_run]
          split
          · unfold FlacSamples.nextBlock
            simp only [Dec.bind_get_run, Dec.bind_set_run]
            simp only [Dec.catchErr, FlacSamples.onReader, Dec.bind_def, Dec.zoom_run]
            have h1 := h.readNextOrEof b.intoBuffer s t hst
            generalize Claxon.readNextOrEof b.intoBuffer s = x at h1 ⊢
            generalize Claxon.readNextOrEof b.intoBuffer t = y at h1 ⊢
            rcases x with ⟨r, s1⟩
            rcases y with ⟨r', t1⟩
            rcases h1 with ⟨h1, h2⟩ | ⟨f, h1, h2, h3⟩
            · obtain rfl : r = r' := h1
              rcases r with ⟨_ | _ | _ | _⟩ | _ | blk
              · exact Or.inl ⟨rfl, rfl, rfl, rfl, rfl, fun hh => Bool.noConfusion (show true = false from hh)⟩
              · exact Or.inl ⟨rfl, rfl, rfl, rfl, rfl, fun _ => h2⟩
              · exact Or.inl ⟨rfl, rfl, rfl, rfl, rfl, fun _ => h2⟩
              · exact Or.inl ⟨rfl, rfl, rfl, rfl, rfl, fun _ => h2⟩
              · exact Or.inl ⟨rfl, rfl, rfl, rfl, rfl, fun _ => h2⟩
              · exact SimU8.samplesCurrent _ _ ⟨rfl, rfl, rfl, rfl, fun _ => h2⟩
            · obtain ⟨e, rfl⟩ := hE f h2
              obtain rfl : r = _ := h1
              obtain rfl : r' = _ := h3 trivial
              exact Or.inl ⟨rfl, rfl, rfl, rfl, rfl, fun hh => Bool.noConfusion (show true = false from hh)⟩
          · exact SimU8.samplesCurrent _ _ ⟨rfl, rfl, rfl, rfl, fun _ => hst⟩
      · exact SimU8.samplesCurrent _ _ ⟨rfl, rfl, rfl, rfl, fun _ => hst⟩

end Iterators

end Claxon
