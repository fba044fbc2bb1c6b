import Verif.Spec.Checked
import Verif.Spec.Client
import Verif.Proof.Readers

/-! Users cannot tell readers apart that behave alike. -/

namespace Claxon

open Spec

variable {σ τ : Type} [ReadBytes σ] [ReadBytes τ] {R : σ → τ → Prop} {E : Fail → Prop}

/-- All operations. -/
structure SimAll (R : σ → τ → Prop) (E : Fail → Prop) : Prop where
  rd : SimRd R E True
  full : SimRdFull R E True
  io : ∀ f, E f → ∃ e, f = .err (.ioError e)

namespace SimAll

theorem isErr (h : SimAll R E) : ∀ f, E f → ∃ e, f = .err e := fun f hf => by
  obtain ⟨e, rfl⟩ := h.io f hf; exact ⟨_, rfl⟩

theorem run [FuzzCfg] (h : SimAll R E) (op : Op) (hop : op.WellTyped) :
    Sim R E True (op.run : Dec σ Out) op.run := by
  cases op <;> unfold Op.run <;> simp only <;> try unfold Op.WellTyped at hop
  · sim h.rd.readU8
  · sim h.rd.readU8OrEof
  · sim h.rd.readBeU16
  · sim h.rd.readBeU16OrEof
  · sim h.rd.readBeU24
  · sim h.rd.readBeU32
  · sim h.rd.readLeU32
  · sim (h.full.readInto _ hop)
  · sim (h.full.skip _ hop)
  · sim (h.rd.readNextOrEof _)
  · sim (h.full.readMetadataBlock _ _ hop)
  · sim h.full.readMetadataBlockWithHeader

theorem runOps [FuzzCfg] (h : SimAll R E) (ops : List Op) (hops : ∀ op ∈ ops, op.WellTyped) :
    ∀ (s : σ) (t : τ), R s t → runOps ops s = runOps ops t := by
  induction ops with
  | nil => intro _ _ _; rfl
  | cons op ops ih =>
    intro s t hR
    unfold Spec.runOps
    rcases h.run op (hops op (by simp)) s t hR with ⟨h1, h2⟩ | ⟨f, h1, h2, h3⟩
    · rw [h1, ih (fun o ho => hops o (by simp [ho])) _ _ h2]
    · obtain ⟨e, rfl⟩ := h.io f h2
      rw [h1, h3 trivial]
      rfl

theorem newExt (h : SimAll R E) (fuel : Nat) (opts : FlacReaderOptions) {s : σ} {t : τ} (hR : R s t) :
    (∃ info vc s' t', FlacReader.newExtGen fuel s opts = .ok (FlacReader.make opts info vc s') ∧
      FlacReader.newExtGen fuel t opts = .ok (FlacReader.make opts info vc t') ∧ R s' t') ∨
    ∃ f, FlacReader.newExtGen fuel s opts = .error f ∧ FlacReader.newExtGen fuel t opts = .error f := by
  unfold FlacReader.newExtGen
  have h0 := h.full.openStream fuel opts s t hR
  generalize openStream fuel opts s = x at h0 ⊢
  generalize openStream fuel opts t = y at h0 ⊢
  rcases x with ⟨x1, x2⟩
  rcases y with ⟨y1, y2⟩
  rcases h0 with ⟨h1, h2⟩ | ⟨f, h1, h2, h3⟩
  · simp only at h1 h2
    subst h1
    rcases x1 with f | ⟨info, vc⟩
    · exact Or.inr ⟨f, rfl, rfl⟩
    · exact Or.inl ⟨info, vc, x2, y2, rfl, rfl, h2⟩
  · simp only [true_implies] at h1 h3
    subst h1 h3
    exact Or.inr ⟨f, rfl, rfl⟩

theorem openSession (h : SimAll R E) (fuel : Nat) (opts : FlacReaderOptions) {s : σ} {t : τ}
    (hR : R s t) : openSession fuel opts s = openSession fuel opts t := by
  unfold Spec.openSession
  rcases h.newExt fuel opts hR with ⟨info, vc, s', t', h1, h2, _⟩ | ⟨f, h1, h2⟩ <;> rw [h1, h2] <;> rfl

omit [ReadBytes σ] [ReadBytes τ] in
theorem calls_eq' {α σ' τ' : Type} {Q : σ' → τ' → Prop} {m : Dec σ' α} {m' : Dec τ' α}
    (h : Sim Q (fun _ => False) True m m') (n : Nat) : ∀ s t, Q s t → calls m n s = calls m' n t := by
  induction n with
  | zero => intro _ _ _; rfl
  | succ n ih =>
    intro s t hQ
    unfold calls
    rcases h s t hQ with ⟨h1, h2⟩ | ⟨f, _, h2, _⟩
    · rw [h1, ih _ _ h2]
    · exact h2.elim

theorem sampleSession [FuzzCfg] (h : SimAll R E) (fuel : Nat) (opts : FlacReaderOptions) (n : Nat) {s : σ} {t : τ}
    (hR : R s t) : sampleSession fuel opts n s = sampleSession fuel opts n t := by
  unfold Spec.sampleSession
  rcases h.newExt fuel opts hR with ⟨info, vc, s', t', h1, h2, hR'⟩ | ⟨f, h1, h2⟩ <;> rw [h1, h2]
  · show (FlacReader.samples _ >>= _) = (FlacReader.samples _ >>= _)
    unfold FlacReader.samples FlacReader.make
    by_cases hm : opts.metadataOnly = true
    · simp only [if_pos hm]; rfl
    · simp only [if_neg hm]
      show Except.ok _ = Except.ok _
      rw [calls_eq' (h.rd.samplesNext h.isErr) n _ (FlacSamples.new t')
        ⟨rfl, rfl, rfl, rfl, fun _ => hR'⟩]
  · rfl

theorem blockSession [FuzzCfg] (h : SimAll R E) (fuel : Nat) (opts : FlacReaderOptions) (ops : List Op)
    (hops : ∀ op ∈ ops, op.WellTyped) {s : σ} {t : τ}
    (hR : R s t) : blockSession fuel opts ops s = blockSession fuel opts ops t := by
  unfold Spec.blockSession
  rcases h.newExt fuel opts hR with ⟨info, vc, s', t', h1, h2, hR'⟩ | ⟨f, h1, h2⟩ <;> rw [h1, h2]
  · show (FlacReader.blocks _ >>= _) = (FlacReader.blocks _ >>= _)
    unfold FlacReader.blocks FlacReader.make
    by_cases hm : opts.metadataOnly = true
    · simp only [if_pos hm]; rfl
    · simp only [if_neg hm]
      show Except.ok _ = Except.ok _
      rw [h.runOps ops hops _ _ hR']
  · rfl

theorem metadataCalls (h : SimAll R E) (n : Nat) {s : σ} {t : τ} (hR : R s t) :
    calls MetadataBlockReader.next n (MetadataBlockReader.new s) =
      calls MetadataBlockReader.next n (MetadataBlockReader.new t) :=
  calls_eq' (h.full.metadataNext h.isErr) n _ _ ⟨rfl, fun _ => hR⟩

end SimAll

theorem simAllBuffered [FuzzCfg] (fault : Option Nat) : SimAll (BufRel fault) (FaultOf fault) where
  rd := simBufferedRd fault
  full := simBuffered fault
  io := by rintro f ⟨code, _, rfl⟩; exact ⟨_, rfl⟩

theorem simAllCursor (data : List U8) : SimAll (CursorRel data) IsEof where
  rd := simCursorRd data
  full := simCursor data
  io := by rintro f rfl; exact ⟨_, rfl⟩

/-! ### Transfer to the buffered reader -/

theorem BufRel.remaining [FuzzCfg] {fault : Option Nat} {r : BufferedReader} {t : Flat} (h : BufRel fault r t) :
    r.Remaining t.bytes fault := ⟨h.cap, h.pos, h.valid, h.rest⟩

theorem BufferedReader.Remaining.rel [FuzzCfg] {fault : Option Nat} {r : BufferedReader} {bytes : List U8}
    (h : r.Remaining bytes fault) : BufRel fault r ⟨bytes, fault⟩ :=
  ⟨h.capacity, h.pos, h.numValid, rfl, h.rest⟩

theorem BufferedReader.Remaining.new [FuzzCfg] {src : Src} {bytes : List U8} {fault : Option Nat}
    (h : src.Delivers bytes fault) : (BufferedReader.new src).Remaining bytes fault :=
  (BufRel.new h).remaining

section

variable [FuzzCfg] {α : Type} {fault : Option Nat} {m : Dec BufferedReader α} {m' : Dec Flat α}
  (hm : Sim (BufRel fault) (FaultOf fault) True m m') {r : BufferedReader} {bytes : List U8}
  (h : r.Remaining bytes fault)

include hm h

/-- The results agree. -/
theorem Sim.result : (m r).1 = (m' ⟨bytes, fault⟩).1 := by
  rcases hm r _ h.rel with ⟨h1, h2⟩ | ⟨f, h1, h2, h3⟩
  · exact h1
  · rw [h1, h3 trivial]

theorem Sim.ok {a : α} {t : Flat} (hf : m' ⟨bytes, fault⟩ = (.ok a, t)) :
    ∃ r', m r = (.ok a, r') ∧ r'.Remaining t.bytes fault := by
  rcases hm r _ h.rel with ⟨h1, h2⟩ | ⟨f, h1, h2, h3⟩
  · rw [hf] at h1 h2
    exact ⟨(m r).2, Prod.ext h1 rfl, h2.remaining⟩
  · rw [hf] at h3
    exact absurd (h3 trivial) (by simp)

theorem Sim.of_ok {a : α} {r' : BufferedReader} (hr : m r = (.ok a, r')) :
    ∃ rest, m' ⟨bytes, fault⟩ = (.ok a, ⟨rest, fault⟩) ∧ r'.Remaining rest fault := by
  rcases hm r _ h.rel with ⟨h1, h2⟩ | ⟨f, h1, h2, h3⟩
  · rw [hr] at h1 h2
    generalize m' ⟨bytes, fault⟩ = y at h1 h2 ⊢
    rcases y with ⟨y1, yb, yf⟩
    obtain rfl : yf = fault := h2.tfault
    obtain rfl : Except.ok a = y1 := h1
    exact ⟨yb, rfl, h2.remaining⟩
  · rw [hr] at h1
    exact absurd h1 (by simp)

end

end Claxon
