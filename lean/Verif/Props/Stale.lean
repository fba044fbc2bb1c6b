import Verif.Proof.Stale
import Verif.Props.Blame
import Verif.Props.Buffer

/-! # C91: what is read after an I/O error -/

namespace Claxon.Props

open Claxon Spec BufferedReader

theorem buffered_chunk (outcome : Nat → ReadOutcome) (first : Nat) :
    NeverPanicsAll (fun r : BufferedReader => (r.Good ∧ r.inner.outcome = outcome) ∧ Chunk first r) := by
  have hP := buffered_neverPanics outcome
  refine ⟨⟨fun r h => ?_, fun r h => ?_⟩, fun n hn r h => ?_, fun n hn r h => ?_, fun n m r h => ?_⟩
  · exact ⟨(hP.readU8 r h.1).1, (hP.readU8 r h.1).2, (keeps_readU8 first r h.2).1⟩
  · exact ⟨(hP.readU8OrEof r h.1).1, (hP.readU8OrEof r h.1).2, (keeps_readU8OrEof first r h.2).1⟩
  · exact ⟨(hP.readInto n hn r h.1).1, (hP.readInto n hn r h.1).2, (keeps_readIntoLoop _ n first r h.2).1⟩
  · exact ⟨(hP.skip n hn r h.1).1, (hP.skip n hn r h.1).2, (keeps_skipLoop _ n first r h.2).1⟩
  · exact ⟨.inl ⟨(), rfl⟩, h⟩

theorem chunk_after {src : Src} (hc : src.Contract) (ops : List Op) (hops : ∀ op ∈ ops, op.WellTyped) :
    Chunk src.calls (afterOps ops (BufferedReader.new src)) ∧
      (afterOps ops (BufferedReader.new src)).inner.outcome = src.outcome := by
  have := ops_invariant (buffered_chunk src.outcome src.calls) ops hops _ ⟨buffered_new hc, chunk_new hc⟩
  exact ⟨this.2, this.1.2⟩

/-- **C91.** At any time, the bytes that come next without another call of the source are the rest of the last chunk. -/
theorem C91_unread {src : Src} (hc : src.Contract) (ops : List Op) (hops : ∀ op ∈ ops, op.WellTyped)
    {r : BufferedReader} (hr : r = afterOps ops (BufferedReader.new src)) :
    r.unread <:+ lastChunk src.outcome src.calls (r.inner.calls - src.calls) := by
  obtain ⟨h1, h2⟩ := chunk_after hc ops hops
  rw [← hr] at h1 h2
  rw [← h2, ← h1.chunk]
  exact List.drop_suffix _ _

/-- **C91.** After an I/O error, the last chunk comes again, from its beginning. -/
theorem C91_error {src : Src} (hc : src.Contract) (ops : List Op) (hops : ∀ op ∈ ops, op.WellTyped) {op : Op}
    (hop : op.WellTyped) {r r' : BufferedReader} {e : IoError} {chunk : List U8}
    (hr : r = afterOps ops (BufferedReader.new src)) (h : op.run r = (.error (.err (.ioError e)), r'))
    (hchunk : chunk = lastChunk src.outcome src.calls (r'.inner.calls - src.calls)) :
    r'.unread = chunk ∧ chunk.length ≤ 2048 ∧
    ∀ n ≤ chunk.length, ∃ r'', readInto n r' = (.ok (chunk.take n), r'') ∧ r''.inner = r'.inner ∧
      r''.unread = chunk.drop n := by
  obtain ⟨h1, h2⟩ := chunk_after hc ops hops
  rw [← hr] at h1 h2
  obtain ⟨h3, h4⟩ := chunk_fails (C66_operation h) h1
  have h5 : r'.inner.outcome = src.outcome := (C66_source hc ops hops hr h).1
  have hu : r'.unread = chunk := by rw [unread, h4, List.drop_zero, h3.chunk, h5, hchunk]
  have happ : r' = afterOps (ops ++ [op]) (BufferedReader.new src) := by
    have : ∀ (xs : List Op) (s : BufferedReader), afterOps (xs ++ [op]) s = (op.run (afterOps xs s)).2 := by
      intro xs
      induction xs with
      | nil => exact fun _ => rfl
      | cons x xs ih => exact fun s => ih _
    rw [this, ← hr, h]
  obtain ⟨h6, h7⟩ := C62_unread hc (ops ++ [op]) (by
    intro o ho
    rcases List.mem_append.1 ho with ho | ho
    · exact hops o ho
    · rw [List.mem_singleton.1 ho]; exact hop) happ
  rw [hu] at h6 h7
  exact ⟨hu, h6, h7⟩

/-- **C91.** After an error because the source has come to its end, nothing comes again. -/
theorem C91_eof {src : Src} (hc : src.Contract) (ops : List Op) (hops : ∀ op ∈ ops, op.WellTyped) {op : Op}
    {r r' : BufferedReader} (hr : r = afterOps ops (BufferedReader.new src))
    (h : op.run r = (.error (.err (.ioError .unexpectedEof)), r')) : r'.unread = [] := by
  obtain ⟨h1, h2⟩ := chunk_after hc ops hops
  rw [← hr] at h1 h2
  obtain ⟨h3, h4⟩ := chunk_fails (C66_operation h) h1
  obtain ⟨h5, h6⟩ := C66_source hc ops hops hr h
  have hlt := h6.called
  have hb := h1.begun
  rcases h6.reason with ⟨code, written, -, he⟩ | ⟨written, ho, -⟩
  · cases he
  · rw [unread, h4, List.drop_zero, h3.chunk, show r'.inner.calls - src.calls = (r'.inner.calls - 1 - src.calls) + 1 by omega,
      lastChunk, show src.calls + (r'.inner.calls - 1 - src.calls) = r'.inner.calls - 1 by omega, ho]
    rfl

/-- **C91.** If the calls that fail write nothing to the buffer, what comes again after an I/O error is exactly what the
last call that did not fail has delivered. -/
theorem C91_chunk {src : Src} (hc : src.Contract) (ops : List Op) (hops : ∀ op ∈ ops, op.WellTyped) {op : Op}
    {r r' : BufferedReader} {e : IoError} (hr : r = afterOps ops (BufferedReader.new src))
    (h : op.run r = (.error (.err (.ioError e)), r')) {k n : Nat} {written : List U8} (hk : src.calls ≤ k)
    (hk' : k < r'.inner.calls) (hlast : src.outcome k = .ok n written)
    (hfail : ∀ j, k < j → j < r'.inner.calls → ∃ code, src.outcome j = .err code []) :
    r'.unread = written.take n := by
  obtain ⟨h1, h2⟩ := chunk_after hc ops hops
  rw [← hr] at h1 h2
  obtain ⟨h3, h4⟩ := chunk_fails (C66_operation h) h1
  have h5 : r'.inner.outcome = src.outcome := (C66_source hc ops hops hr h).1
  have key : ∀ m, k + 1 + m ≤ r'.inner.calls → lastChunk src.outcome src.calls (k - src.calls + 1 + m) = written.take n := by
    intro m
    induction m with
    | zero =>
      intro _
      rw [Nat.add_zero, lastChunk, show src.calls + (k - src.calls) = k by omega, hlast]
    | succ m ih =>
      intro hm
      obtain ⟨code, ho⟩ := hfail (k + 1 + m) (by omega) (by omega)
      rw [show k - src.calls + 1 + (m + 1) = (k - src.calls + 1 + m) + 1 by omega, lastChunk,
        show src.calls + (k - src.calls + 1 + m) = k + 1 + m by omega, ho, ih (by omega)]
      simp
  rw [unread, h4, List.drop_zero, h3.chunk, h5, ← key (r'.inner.calls - (k + 1)) (by omega)]
  congr 1
  omega

theorem keeps_raw (op : RawOp) : Keeps (op.run : Dec BufferedReader (List U8)) := by
  cases op with
  | readU8 => exact keeps_readU8.bind fun _ => .pure _
  | readU8OrEof => exact keeps_readU8OrEof.bind fun _ => .pure _
  | readInto n => exact keeps_readIntoLoop _ n
  | skip n => exact (keeps_skipLoop _ n).bind fun _ => .pure _

theorem reason_raw (op : RawOp) : HasReason (op.run : Dec BufferedReader (List U8)) := by
  cases op with
  | readU8 => exact reason_readU8.bind fun _ => .pure _
  | readU8OrEof => exact reason_readU8OrEof.bind fun _ => .pure _
  | readInto n => exact reason_readIntoLoop _ n
  | skip n => exact (reason_skipLoop _ n).bind fun _ => .pure _

/-- **C91.** So if the source fails only when its last call before delivered nothing, no byte is handed out twice, also when
going on after errors. -/
theorem C91_noneTwice {src : Src} (hc : src.Contract) (h0 : src.calls = 0)
    (hf : ∀ k code written, src.outcome k = .err code written → lastChunk src.outcome 0 k = []) (ops : List RawOp) :
    (handed (runRaw ops (BufferedReader.new src)).1).Sublist
      (delivered src.outcome (runRaw ops (BufferedReader.new src)).2.inner.calls) := by
  have outcome : ∀ (ops : List RawOp) (r : BufferedReader), r.Good → r.inner.outcome = src.outcome → Chunk 0 r →
      (runRaw ops r).2.inner.outcome = r.inner.outcome ∧
      ∃ d, (runRaw ops r).2.del = r.del ++ d ∧ (handed (runRaw ops r).1).Sublist (r.pending ++ d) := by
    intro ops
    induction ops with
    | nil => intro r _ _ _; exact ⟨rfl, [], by simp [runRaw], by simp [runRaw, handed]⟩
    | cons op ops ih =>
      intro r hr ho hch
      have h1 := BufferedReader.flows_run hr op
      have hk := keeps_raw op 0 r hch
      have hflow : ∃ h, Flow r (op.run r).2 h ∧ ∀ rest : List (Except Fail (List U8)),
          handed ((op.run r).1 :: rest) = h ++ handed rest := by
        rcases hx : (op.run r).1 with f | bs
        · refine ⟨[], ?_, fun rest => by simp [handed]⟩
          rcases h1.error f hx with ⟨c, rfl⟩ | h2
          · obtain ⟨d0, hd0⟩ := h1.del
            obtain ⟨-, -, hreason⟩ := reason_raw op r hr.contract
            obtain ⟨hlt, hwhy⟩ := hreason _ hx
            rcases hwhy with ⟨code, written, h3, -⟩ | ⟨written, -, h4⟩
            · have hempty := hf _ code written (by rw [← ho, ← h1.src]; exact h3)
              have hp : (op.run r).2.pending = [] := by
                rw [pending, hk.2 _ hx, List.drop_zero, hk.1.chunk, Nat.sub_zero,
                  show (op.run r).2.inner.calls = ((op.run r).2.inner.calls - 1) + 1 by omega, lastChunk, Nat.zero_add,
                  h3, h1.src, ho, hempty]
                simp
              exact ⟨d0, hd0, by rw [hp]; simp⟩
            · cases h4
          · exact h2
        · obtain ⟨hs, rfl, h2⟩ := h1.ok bs hx
          exact ⟨hs, h2, fun rest => by simp [handed]⟩
      obtain ⟨h, ⟨d1, hd1, hs1⟩, hh⟩ := hflow
      obtain ⟨i1, d, i2, i3⟩ := ih _ h1.good (h1.src.trans ho) hk.1
      refine ⟨by simp only [runRaw]; rw [i1, h1.src], d1 ++ d, ?_, ?_⟩
      · simp only [runRaw]; rw [i2, hd1, List.append_assoc]
      · simp only [runRaw]
        rw [hh]
        refine ((List.Sublist.refl h).append i3).trans ?_
        rw [← List.append_assoc, ← List.append_assoc]
        exact hs1.append (List.Sublist.refl d)
  have hg : (BufferedReader.new src).Good := (buffered_new hc).1
  obtain ⟨o1, d, o2, o3⟩ := outcome ops _ hg rfl (by rw [← h0]; exact chunk_new hc)
  have e1 : (BufferedReader.new src).pending = [] := by simp [BufferedReader.pending, BufferedReader.new]
  have e2 : (BufferedReader.new src).del = [] := by simp [BufferedReader.del, BufferedReader.new, h0, delivered]
  rw [e1] at o3
  rw [e2] at o2
  have e3 : delivered src.outcome (runRaw ops (BufferedReader.new src)).2.inner.calls = d := by
    have : (BufferedReader.new src).inner.outcome = src.outcome := rfl
    rw [← this, ← o1]
    exact o2
  rw [e3]
  exact o3

/-- The source of `C04_false`: the byte that it delivered comes again after the error. -/
example : lastChunk faultySource.outcome 0 2 = [0x41#8] ∧
    (runRaw [.readU8, .readU8, .readU8] (BufferedReader.new faultySource)).1 =
      [.ok [0x41#8], .error (.err (.ioError (.inner 7))), .ok [0x41#8]] := by
  decide +kernel

/-- A source that fails in the middle of writing: the front of what comes again is new, the rest is old. -/
example : lastChunk (fun k => if k = 0 then .ok 3 [1, 2, 3] else .err 7 [9]) 0 3 = [9, 2, 3] ∧
    (runRaw [.readInto 2, .readInto 5, .readInto 3]
      (BufferedReader.new ⟨fun k => if k = 0 then .ok 3 [1, 2, 3] else .err 7 [9], 0⟩)).1 =
      [.ok [1, 2], .error (.err (.ioError (.inner 7))), .ok [9, 2, 3]] := by
  decide +kernel

/-- A source that fails at the beginning, and after an end of file, and goes on: no byte comes twice. -/
def fitfulSource : Src where
  outcome := fun k =>
    if k = 0 then .err 4 [0x55] else if k = 1 then .ok 2 [1, 2] else if k = 2 then .ok 0 [] else
      if k = 3 then .err 4 [] else if k = 4 then .ok 1 [3] else .ok 0 []
  calls := 0

example : fitfulSource.Contract ∧
    (∀ k code written, fitfulSource.outcome k = .err code written → lastChunk fitfulSource.outcome 0 k = []) ∧
    (runRaw [.readU8, .readInto 3, .readU8, .readU8, .readU8] (BufferedReader.new fitfulSource)).1 =
      [.error (.err (.ioError (.inner 4))), .error (.err (.ioError .unexpectedEof)),
        .error (.err (.ioError (.inner 4))), .ok [3], .error (.err (.ioError .unexpectedEof))] := by
  refine ⟨?_, ?_, by decide +kernel⟩
  · intro k n written hk
    simp only [fitfulSource] at hk
    split at hk
    · cases hk
    split at hk
    · simp only [ReadOutcome.ok.injEq] at hk; rw [← hk.1, ← hk.2]; decide
    split at hk
    · simp only [ReadOutcome.ok.injEq] at hk; rw [← hk.1, ← hk.2]; decide
    split at hk
    · cases hk
    split at hk
    · simp only [ReadOutcome.ok.injEq] at hk; rw [← hk.1, ← hk.2]; decide
    · simp only [ReadOutcome.ok.injEq] at hk; rw [← hk.1, ← hk.2]; decide
  · intro k code written hk
    simp only [fitfulSource] at hk
    split at hk
    · next h => subst h; rfl
    split at hk
    · cases hk
    split at hk
    · cases hk
    split at hk
    · next h => subst h; rfl
    split at hk <;> cases hk

/-- For the theorems about other operations: a frame is read, and the source fails after two of its bytes. -/
example : (Op.frame .empty).WellTyped ∧
    ((Op.frame .empty).run (BufferedReader.new ⟨fun k => if k = 0 then .ok 2 [0xff, 0xf8] else .err 7 [], 0⟩)).1 =
      .error (.err (.ioError (.inner 7))) ∧
    ((Op.frame .empty).run
      (BufferedReader.new ⟨fun k => if k = 0 then .ok 2 [0xff, 0xf8] else .err 7 [], 0⟩)).2.unread = [0xff, 0xf8] :=
  ⟨trivial, by decide +kernel, by decide +kernel⟩

end Claxon.Props
