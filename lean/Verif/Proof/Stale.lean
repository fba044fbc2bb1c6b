import Verif.Proof.Blame
import Verif.Spec.Stale

/-! What the buffer of a buffered reader holds. -/

namespace Claxon

open Spec

namespace BufferedReader

variable {α β : Type}

/-- The buffer holds what the calls of the source since call number `first` have put there. -/
structure Chunk (first : Nat) (r : BufferedReader) : Prop where
  contract : r.inner.Contract
  cap : r.buf.length = CAPACITY
  valid : r.numValid ≤ CAPACITY
  begun : first ≤ r.inner.calls
  chunk : r.buf.take r.numValid = lastChunk r.inner.outcome first (r.inner.calls - first)

/-- An operation keeps this so, and leaves the reader at the beginning of the buffer when there is an I/O error. -/
def Keeps (m : Dec BufferedReader α) : Prop :=
  ∀ first r, Chunk first r → Chunk first (m r).2 ∧ ∀ e, (m r).1 = .error (.err (.ioError e)) → (m r).2.pos = 0

theorem Chunk.move {first : Nat} {r : BufferedReader} (h : Chunk first r) (p : Nat) : Chunk first { r with pos := p } :=
  ⟨h.contract, h.cap, h.valid, h.begun, h.chunk⟩

theorem chunk_refill {first : Nat} {r : BufferedReader} (h : Chunk first r) :
    Chunk first (refill r).2 ∧ (refill r).2.pos = 0 := by
  have hcap := h.cap
  have hvalid := h.valid
  have hfirst := h.begun
  have e : r.inner.calls + 1 - first = (r.inner.calls - first) + 1 := by omega
  have e' : first + (r.inner.calls - first) = r.inner.calls := by omega
  unfold refill
  simp only
  cases ho : r.inner.outcome r.inner.calls with
  | err code written =>
    refine ⟨⟨h.contract, ?_, hvalid, Nat.le_succ_of_le hfirst, ?_⟩, rfl⟩
    · simp only [List.length_append, List.length_take, List.length_drop]; omega
    · simp only
      rw [e, lastChunk, e', ho, ← h.chunk]
      simp only [List.length_take]
      rw [Nat.min_eq_left (by omega), List.take_append, List.take_take, List.length_take, List.drop_take]
      congr 1
      · congr 1; omega
      · by_cases hl : written.length ≤ r.buf.length
        · rw [Nat.min_eq_right hl]
        · rw [List.drop_of_length_le (by omega)]; simp
  | ok n written =>
    obtain ⟨h1, h2⟩ := h.contract _ _ _ ho
    have hn : n % 2 ^ 32 = n := Nat.mod_eq_of_lt (by have := capacity_le; omega)
    refine ⟨⟨h.contract, ?_, by simp only [hn]; exact h2, Nat.le_succ_of_le hfirst, ?_⟩, rfl⟩
    · simp only [List.length_append, List.length_take, List.length_drop]; omega
    · simp only
      rw [e, lastChunk, e', ho, hn, List.take_append_of_le_length (by rw [List.length_take]; omega), List.take_take,
        Nat.min_eq_left (by omega)]

theorem Keeps.bind {m : Dec BufferedReader α} {f : α → Dec BufferedReader β} (hm : Keeps m) (hf : ∀ a, Keeps (f a)) :
    Keeps (m >>= f) := by
  intro first r h
  have := hm first r h
  rw [Dec.bind_def]
  generalize m r = x at this
  rcases x with ⟨f' | a, r'⟩
  · exact ⟨this.1, fun e he => this.2 e (by cases he; rfl)⟩
  · exact hf a first r' this.1

theorem Keeps.get {f : BufferedReader → Dec BufferedReader β} (hf : ∀ r, Keeps (f r)) : Keeps (Dec.get >>= f) :=
  fun first r h => by rw [Dec.bind_get_run]; exact hf r first r h

theorem Keeps.ite {c : Prop} [Decidable c] {m m' : Dec BufferedReader α} (h : Keeps m) (h' : Keeps m') :
    Keeps (if c then m else m') := by
  by_cases hc : c
  · rw [if_pos hc]; exact h
  · rw [if_neg hc]; exact h'

theorem Keeps.of_noIo {first : Nat} {x : Except Fail α × BufferedReader} (h : Chunk first x.2)
    (hn : NoIo x.1) : Chunk first x.2 ∧ ∀ e, x.1 = .error (.err (.ioError e)) → x.2.pos = 0 :=
  ⟨h, fun e he => (hn.out e he).elim⟩

theorem Keeps.pure (a : α) : Keeps (Pure.pure a : Dec BufferedReader α) :=
  fun _ _ h => Keeps.of_noIo h (.ok a)

theorem Keeps.fail (f : Fail) [hn : NoIo (.error f : Except Fail α)] : Keeps (Dec.fail f : Dec BufferedReader α) :=
  fun _ _ h => Keeps.of_noIo h hn

theorem Keeps.lift {x : Res α} [hn : NoIo x] {f : α → Dec BufferedReader β} {first : Nat} {r : BufferedReader}
    (h : Chunk first r) (hf : ∀ a, Chunk first (f a r).2 ∧ ∀ e, (f a r).1 = .error (.err (.ioError e)) → (f a r).2.pos = 0) :
    Chunk first ((liftM x >>= f) r).2 ∧
      ∀ e, ((liftM x >>= f) r).1 = .error (.err (.ioError e)) → ((liftM x >>= f) r).2.pos = 0 := by
  rcases x with e | a
  · exact Keeps.of_noIo (x := ((liftM (.error e : Res α) >>= f) r)) h hn.cast
  · rw [Dec.bind_liftM_of rfl]; exact hf a

theorem Keeps.set {m : Dec BufferedReader α} (hm : Keeps m) {first : Nat} {r : BufferedReader} (h : Chunk first r) (p : Nat) :
    Chunk first ((Dec.set { r with pos := p } >>= fun _ => m) r).2 ∧
      ∀ e, ((Dec.set { r with pos := p } >>= fun _ => m) r).1 = .error (.err (.ioError e)) →
        ((Dec.set { r with pos := p } >>= fun _ => m) r).2.pos = 0 := by
  rw [Dec.bind_set_run]; exact hm _ _ (h.move p)

/-- To refill the buffer, and fail at the end of the file. -/
theorem Keeps.refill {k m : Dec BufferedReader α} (hm : m = ioErr .unexpectedEof ∨ Keeps m) (hk : Keeps k) :
    Keeps (do BufferedReader.refill; let r ← Dec.get; if r.numValid = 0 then m else k) := by
  intro first r h
  obtain ⟨h1, h2⟩ := chunk_refill h
  rw [Dec.bind_def]
  generalize BufferedReader.refill r = x at h1 h2
  rcases x with ⟨f | u, r'⟩
  · exact ⟨h1, fun _ _ => h2⟩
  · simp only
    rw [Dec.bind_get_run]
    by_cases h0 : r'.numValid = 0
    · rw [if_pos h0]
      rcases hm with rfl | hm
      · exact ⟨h1, fun _ _ => h2⟩
      · exact hm _ _ h1
    · rw [if_neg h0]; exact hk _ _ h1

theorem keeps_takeByte : Keeps takeByte := by
  intro first r h
  unfold takeByte
  rw [Dec.bind_get_run]
  cases hx : r.buf[r.pos]? with
  | none => exact Keeps.of_noIo (x := (_, _)) h .ub
  | some c => exact Keeps.lift h fun a => Keeps.set (.pure _) h a

theorem keeps_readU8 : Keeps readU8 := .get fun _ => .ite (.refill (.inl rfl) keeps_takeByte) keeps_takeByte

theorem keeps_readU8OrEof : Keeps readU8OrEof :=
  .get fun _ => .ite (.refill (.inr (.pure _)) (keeps_readU8.bind fun _ => .pure _))
    (keeps_readU8.bind fun _ => .pure _)

theorem keeps_readIntoStep (n : Nat) : Keeps (readIntoStep n) := by
  intro first r h
  unfold readIntoStep
  rw [Dec.bind_get_run]
  refine Keeps.lift h fun avail => Keeps.lift h fun copied => Keeps.lift h fun pos => ?_
  exact Keeps.set (.ite (.refill (.inl rfl) (.pure _)) (.pure _)) h pos

theorem keeps_readIntoLoop (fuel : Nat) : ∀ n, Keeps (readIntoLoop fuel n) := by
  induction fuel with
  | zero => exact fun _ => .fail _
  | succ fuel ih =>
    intro n
    rw [readIntoLoop]
    exact .ite ((keeps_readIntoStep n).bind fun _ => (ih _).bind fun _ => .pure _) (.pure _)

theorem keeps_skipStep (n : Nat) : Keeps (skipStep n) := by
  intro first r h
  unfold skipStep
  rw [Dec.bind_get_run]
  refine Keeps.lift h fun avail => Keeps.lift h fun pos => ?_
  exact Keeps.set (.ite (.refill (.inl rfl) (.pure _)) (.pure _)) h pos

theorem keeps_skipLoop (fuel : Nat) : ∀ n, Keeps (skipLoop fuel n) := by
  induction fuel with
  | zero => exact fun _ => .fail _
  | succ fuel ih =>
    intro n
    rw [skipLoop]
    exact .ite ((keeps_skipStep n).bind fun _ => ih _) (.pure _)

theorem chunk_steps {first : Nat} {r r' : BufferedReader} (h : Steps r r') (hc : Chunk first r) : Chunk first r' := by
  have go : ∀ {α : Type} {m : Dec BufferedReader α} {a : α} {s s₁ s' : BufferedReader}, Keeps m →
      m s = (.ok a, s₁) → Chunk first s → (Chunk first s₁ → Chunk first s') → Chunk first s' := by
    intro α m a s s₁ s' hm h hc ih
    have := (hm first s hc).1
    rw [h] at this
    exact ih this
  induction h with
  | nil => exact hc
  | readU8 h _ ih => exact go keeps_readU8 h hc ih
  | readU8OrEof h _ ih => exact go keeps_readU8OrEof h hc ih
  | readInto h _ ih => exact go (keeps_readIntoLoop _ _) h hc ih
  | skip h _ ih => exact go (keeps_skipLoop _ _) h hc ih
  | onAlloc h _ ih => exact go (.pure _) h hc ih

/-- After an I/O error, the whole buffer is still to be read. -/
theorem chunk_fails {first : Nat} {r r' : BufferedReader} {e : IoError} (h : ReaderFails r (.err (.ioError e)) r')
    (hc : Chunk first r) : Chunk first r' ∧ r'.pos = 0 := by
  obtain ⟨r₁, h1, h2⟩ := h
  have hc' := chunk_steps h1 hc
  have go : ∀ {α : Type} {m : Dec BufferedReader α}, Keeps m → m r₁ = (.error (.err (.ioError e)), r') →
      Chunk first r' ∧ r'.pos = 0 := by
    intro α m hm h
    have := hm first r₁ hc'
    rw [h] at this
    exact ⟨this.1, this.2 e rfl⟩
  cases h2 with
  | readU8 h => exact go keeps_readU8 h
  | readU8OrEof h => exact go keeps_readU8OrEof h
  | readInto n h => exact go (keeps_readIntoLoop _ _) h
  | skip n h => exact go (keeps_skipLoop _ _) h
  | onAlloc n m h => cases h

theorem chunk_new {src : Src} (hc : src.Contract) : Chunk src.calls (BufferedReader.new src) :=
  ⟨hc, by simp [BufferedReader.new], Nat.zero_le _, Nat.le_refl _, by simp [BufferedReader.new, lastChunk]⟩

end BufferedReader

end Claxon
