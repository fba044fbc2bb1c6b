import Verif.Spec.Checked
import Verif.Proof.Flow
import Verif.Spec.Client

/-! # C02, C04: the buffer of the buffered reader -/

namespace Claxon.Props

open Claxon Spec

/-! ## C02 -/

/-- **C02.** As long as the wrapped reader never claims to have read more bytes than fit in the buffer,
no sequence of operations, also after the end of the file and after errors of the wrapped reader,
accesses the buffer out of bounds (`Fail.ub`), panics, or hangs: every result is `Ok` or an I/O error. -/
theorem C02_in_bounds [FuzzCfg] {src : Src} (h : ∀ k n written, src.outcome k = .ok n written → n ≤ CAPACITY)
    (ops : List RawOp) :
    ∀ result ∈ (runRaw ops (BufferedReader.new src)).1,
      (∃ bytes, result = .ok bytes) ∨ ∃ e, result = .error (.err (.ioError e)) := by
  have key : ∀ (ops : List RawOp) (r : BufferedReader), r.InBounds →
      ∀ result ∈ (runRaw ops r).1, Benign result := by
    intro ops
    induction ops with
    | nil => intro r _ result hm; simp [runRaw] at hm
    | cons op ops ih =>
      intro r hr result hm
      have h1 : Benign (op.run r).1 ∧ (op.run r).2.InBounds := by
        cases op with
        | readU8 =>
          exact BufferedReader.Benign_map (m := BufferedReader.readU8) _
            (BufferedReader.readU8_inBounds hr)
        | readU8OrEof =>
          exact BufferedReader.Benign_map (m := BufferedReader.readU8OrEof) _
            (BufferedReader.readU8OrEof_inBounds hr)
        | readInto n => exact BufferedReader.readInto_inBounds hr n
        | skip n =>
          exact BufferedReader.Benign_map (m := BufferedReader.skip n) _
            (BufferedReader.skip_inBounds hr n)
      simp only [runRaw, List.mem_cons] at hm
      rcases hm with rfl | hm
      · exact h1.1
      · exact ih _ h1.2 _ hm
  intro result hm
  have := key ops _ (BufferedReader.inBounds_new h) result hm
  rcases result with (e | _ | _ | _) | a
  · cases e with
    | ioError e => exact Or.inr ⟨e, rfl⟩
    | formatError _ => exact this.elim
    | unsupported _ => exact this.elim
  · exact this.elim
  · exact this.elim
  · exact this.elim
  · exact Or.inl ⟨a, rfl⟩

/-- A source with an error and an end of file in the middle, to which the theorem applies. -/
example : ∀ k n written,
    (fun k => if k = 0 then ReadOutcome.ok 1 [0x41] else if k = 1 then .err 7 []
      else if k = 2 then .ok 0 [] else .ok 2048 (List.replicate 2048 1)) k = .ok n written →
    n ≤ CAPACITY := by
  intro k n written h
  simp only at h
  split at h
  · simp only [ReadOutcome.ok.injEq] at h; rw [← h.1]; decide
  split at h
  · simp at h
  split at h
  · simp only [ReadOutcome.ok.injEq] at h; rw [← h.1]; decide
  · simp only [ReadOutcome.ok.injEq] at h; rw [← h.1]; decide

/-- A reader that claims to have read more bytes than there is room for. Implementing `Read` like this
needs no `unsafe`. -/
def lyingSource : Src where
  outcome := fun _ => .ok 4096 []
  calls := 0

/-- The hypothesis of `C02_in_bounds` is needed: after 2048 bytes, a reader that violates the contract
of `io::Read` takes the buffered reader out of bounds. -/
theorem C02_contract_needed :
    ∃ ops, Except.error Fail.ub ∈ (runRaw ops (BufferedReader.new lyingSource)).1 := by
  refine ⟨[.readInto 2048, .readU8], ?_⟩
  decide +kernel

/-! ## C04 -/

/-- The full property C04: whatever the wrapped reader does (within its contract), and whatever the
caller does, the bytes handed out are bytes that have been delivered, in order, and none of them
twice. -/
def NoByteTwice : Prop :=
  ∀ src : Src, src.Contract → src.calls = 0 → ∀ ops : List RawOp,
    (handed (runRaw ops (BufferedReader.new src)).1).Sublist
      (delivered src.outcome (runRaw ops (BufferedReader.new src)).2.inner.calls)

/-- A reader that delivers one byte, fails once, and is then at the end of the file. -/
def faultySource : Src where
  outcome := fun k => if k = 0 then .ok 1 [0x41] else if k = 1 then .err 7 [] else .ok 0 []
  calls := 0

/-- **C04** is false of the code: after an I/O error the byte `0x41` is handed out a second time. -/
theorem C04_false : ¬ NoByteTwice := by
  intro h
  have := h faultySource (by
    intro k n written hk
    simp only [faultySource] at hk
    split at hk
    · simp only [ReadOutcome.ok.injEq] at hk; rw [← hk.1, ← hk.2]; decide
    split at hk
    · simp at hk
    · simp only [ReadOutcome.ok.injEq] at hk; rw [← hk.1, ← hk.2]; decide) rfl
    [.readU8, .readU8, .readU8]
  revert this
  decide +kernel

/-- **C04, partial.** No byte is handed out twice up to and including the first error of the wrapped
reader. (Missing: what comes after such an error, where the property is false. Ends of file, and
more data after them, are included.) -/
theorem C04_partial {src : Src} (hc : src.Contract) (h0 : src.calls = 0) (ops : List RawOp)
    (hok : ∀ result ∈ (runRaw ops (BufferedReader.new src)).1.dropLast, IsInnerError result = false) :
    (handed (runRaw ops (BufferedReader.new src)).1).Sublist
      (delivered src.outcome (runRaw ops (BufferedReader.new src)).2.inner.calls) := by
  have outcome : ∀ (ops : List RawOp) (r : BufferedReader), r.Good →
      (runRaw ops r).2.inner.outcome = r.inner.outcome ∧
      ∃ d, (runRaw ops r).2.del = r.del ++ d ∧
      ((∀ result ∈ (runRaw ops r).1.dropLast, IsInnerError result = false) →
        (handed (runRaw ops r).1).Sublist (r.pending ++ d)) := by
    intro ops
    induction ops with
    | nil => intro r _; exact ⟨rfl, [], by simp [runRaw], fun _ => by simp [runRaw, handed]⟩
    | cons op ops ih =>
      intro r hr
      have h1 := BufferedReader.flows_run hr op
      have ho := h1.src
      obtain ⟨i1, d, i2, i3⟩ := ih _ h1.good
      refine ⟨by simp only [runRaw]; rw [i1, ho], ?_⟩
      obtain ⟨d0, hd0⟩ := h1.del
      simp only [runRaw]
      rcases hx : (op.run r).1 with f | bs
      · rcases h1.error f hx with ⟨c, rfl⟩ | ⟨d1, hd1, hs1⟩
        · refine ⟨d0 ++ d, by rw [i2, hd0, List.append_assoc], fun hno => ?_⟩
          cases ops with
          | nil => simp [runRaw, handed]
          | cons op' ops' =>
            exfalso
            have := hno _ (by rw [List.dropLast_cons_of_ne_nil (by simp [runRaw])]; exact List.mem_cons_self)
            simp [IsInnerError] at this
        · refine ⟨d1 ++ d, by rw [i2, hd1, List.append_assoc], fun hno => ?_⟩
          have hno' : ∀ result ∈ (runRaw ops (op.run r).2).1.dropLast,
              IsInnerError result = false := by
            intro x hxm
            refine hno x ?_
            rw [List.dropLast_cons_of_ne_nil]
            · exact List.mem_cons_of_mem _ hxm
            · intro he; rw [he] at hxm; simp at hxm
          have := i3 hno'
          show (handed (runRaw ops (op.run r).2).1).Sublist _
          refine this.trans ?_
          rw [← List.append_assoc]
          exact hs1.append (List.Sublist.refl d)
      · obtain ⟨hs, rfl, d1, hd1, hs1⟩ := h1.ok bs hx
        refine ⟨d1 ++ d, by rw [i2, hd1, List.append_assoc], fun hno => ?_⟩
        have hno' : ∀ result ∈ (runRaw ops (op.run r).2).1.dropLast,
            IsInnerError result = false := by
          intro x hxm
          refine hno x ?_
          rw [List.dropLast_cons_of_ne_nil]
          · exact List.mem_cons_of_mem _ hxm
          · intro he; rw [he] at hxm; simp at hxm
        have := i3 hno'
        show (hs ++ handed (runRaw ops (op.run r).2).1).Sublist _
        refine ((List.Sublist.refl hs).append this).trans ?_
        rw [← List.append_assoc, ← List.append_assoc]
        exact hs1.append (List.Sublist.refl d)
  have hg : (BufferedReader.new src).Good :=
    ⟨BufferedReader.inBounds_new fun k n w h => (hc k n w h).2, hc⟩
  obtain ⟨o1, d, o2, o3⟩ := outcome ops _ hg
  have := o3 hok
  have e1 : (BufferedReader.new src).pending = [] := by
    simp [BufferedReader.pending, BufferedReader.new]
  have e2 : (BufferedReader.new src).del = [] := by
    simp [BufferedReader.del, BufferedReader.new, h0, delivered]
  rw [e1] at this
  rw [e2] at o2
  have e3 : delivered src.outcome (runRaw ops (BufferedReader.new src)).2.inner.calls = d := by
    have : (BufferedReader.new src).inner.outcome = src.outcome := rfl
    rw [← this, ← o1]
    exact o2
  rw [e3]
  exact this

/-- A sequence to which the theorem applies, with the error at its end. -/
example : (∀ result ∈ (runRaw [.readU8, .readU8] (BufferedReader.new faultySource)).1.dropLast,
      IsInnerError result = false) ∧
    (runRaw [.readU8, .readU8] (BufferedReader.new faultySource)).1 =
      [.ok [0x41], .error (.err (.ioError (.inner 7)))] := by
  decide +kernel

end Claxon.Props
