import Verif.Proof.Capacity
import Verif.Proof.Bounds
import Verif.Spec.Raw

/-! The bytes that go through the buffered reader. -/

namespace Claxon

open Spec

namespace BufferedReader

/-- The bytes in the buffer that have not been handed out. -/
def pending (r : BufferedReader) : List U8 := (r.buf.take r.numValid).drop r.pos

/-- The invariant, for sources that honour the contract. -/
structure Good (r : BufferedReader) : Prop extends InBounds r where
  contract : r.inner.Contract

/-- All bytes delivered so far. -/
def del (r : BufferedReader) : List U8 := delivered r.inner.outcome r.inner.calls

/-- From `r` to `r'`, the bytes `h` have been handed out. -/
def Flow (r r' : BufferedReader) (h : List U8) : Prop :=
  ∃ d, r'.del = r.del ++ d ∧ (h ++ r'.pending).Sublist (r.pending ++ d)

/-- The outcome `x` of a call in state `r`: bytes `h` with `H a h` have been handed out. -/
structure FlowsTo {α : Type} (r : BufferedReader) (H : α → List U8 → Prop)
    (x : Except Fail α × BufferedReader) : Prop where
  good : x.2.Good
  src : x.2.inner.outcome = r.inner.outcome
  del : ∃ d, x.2.del = r.del ++ d
  ok : ∀ a, x.1 = .ok a → ∃ h, H a h ∧ Flow r x.2 h
  error : ∀ f, x.1 = .error f → (∃ c, f = .err (.ioError (.inner c))) ∨ Flow r x.2 []

theorem Flow.refl (r : BufferedReader) : Flow r r [] := ⟨[], by simp, by simp⟩

theorem Flow.trans {r r' r'' : BufferedReader} {h h' : List U8} (h1 : Flow r r' h)
    (h2 : Flow r' r'' h') : Flow r r'' (h ++ h') := by
  obtain ⟨d, e1, s1⟩ := h1
  obtain ⟨d', e2, s2⟩ := h2
  refine ⟨d ++ d', by rw [e2, e1, List.append_assoc], ?_⟩
  rw [List.append_assoc, ← List.append_assoc r.pending]
  refine ((List.Sublist.refl h).append s2).trans ?_
  rw [← List.append_assoc]
  exact s1.append (List.Sublist.refl d')

theorem Flow.weaken {r r' : BufferedReader} {h h' : List U8} (hf : Flow r r' (h ++ h')) :
    Flow r r' h' := by
  obtain ⟨d, e, s⟩ := hf
  refine ⟨d, e, ?_⟩
  rw [List.append_assoc] at s
  exact (List.sublist_append_right _ _).trans s

theorem FlowsTo.bind {α β : Type} {m : Dec BufferedReader α} {f : α → Dec BufferedReader β}
    {H : α → List U8 → Prop} {H' : β → List U8 → Prop} {r : BufferedReader} (hm : FlowsTo r H (m r))
    (hf : ∀ a r' h, r'.Good → m r = (.ok a, r') → H a h →
      FlowsTo r' (fun b h' => H' b (h ++ h')) (f a r')) : FlowsTo r H' ((m >>= f) r) := by
  rw [Dec.bind_def]
  rcases hx : m r with ⟨v, r'⟩
  rw [hx] at hm
  rcases v with e | a
  · exact ⟨hm.good, hm.src, hm.del, fun _ h => by simp at h, fun f h => hm.error f (by simpa using h)⟩
  · obtain ⟨d, hd⟩ := hm.del
    obtain ⟨h, hH, hfl⟩ := hm.ok a rfl
    have hn := hf a r' h hm.good hx hH
    obtain ⟨d', hd'⟩ := hn.del
    refine ⟨hn.good, hn.src.trans hm.src, ⟨d ++ d', ?_⟩, fun b hb => ?_, fun e he => ?_⟩
    · show (f a r').2.del = _
      rw [hd', ← List.append_assoc]
      exact congrArg (· ++ d') hd
    · obtain ⟨h', h1, h2⟩ := hn.ok b hb
      exact ⟨_, h1, hfl.trans h2⟩
    · rcases hn.error e he with h1 | h1
      · exact Or.inl h1
      · exact Or.inr (Flow.weaken (hfl.trans h1))

theorem FlowsTo.pure {α : Type} {r : BufferedReader} {H : α → List U8 → Prop} {a : α} (h : r.Good)
    (hH : H a []) : FlowsTo r H ((Pure.pure a : Dec BufferedReader α) r) := by
  refine ⟨h, rfl, ⟨[], (List.append_nil _).symm⟩, fun b hb => ?_, fun e he => by simp at he⟩
  simp only [Dec.pure_run, Except.ok.injEq] at hb
  subst hb
  exact ⟨[], hH, Flow.refl r⟩

theorem FlowsTo.eof {α : Type} {r : BufferedReader} {H : α → List U8 → Prop} (h : r.Good) :
    FlowsTo r H ((ioErr .unexpectedEof : Dec BufferedReader α) r) :=
  ⟨h, rfl, ⟨[], (List.append_nil _).symm⟩, fun _ hb => by simp [ioErr, Dec.fail] at hb,
    fun _ _ => Or.inr (Flow.refl r)⟩

theorem flows_refill {r : BufferedReader} (h : r.Good) :
    FlowsTo r (fun _ hs => hs = []) (refill r) := by
  have hb := (refill_inBounds h.toInBounds).2.1
  revert hb
  unfold refill
  simp only
  cases ho : r.inner.outcome r.inner.calls with
  | err code =>
    intro hb
    refine ⟨⟨hb, h.contract⟩, rfl, ⟨[], ?_⟩, fun _ hb => by simp at hb, fun _ he => Or.inl ⟨code, ?_⟩⟩
    · simp only [BufferedReader.del, delivered, ho]
    · simp only [Except.error.injEq] at he
      exact he.symm
  | ok n written =>
    intro hb
    obtain ⟨h1, h2⟩ := h.contract _ _ _ ho
    have hd : ∀ (x : BufferedReader), x.inner = { r.inner with calls := r.inner.calls + 1 } →
        x.del = r.del ++ written.take n := by
      intro x hx
      simp only [BufferedReader.del, hx, delivered, ho]
    refine ⟨⟨hb, h.contract⟩, rfl, ⟨_, hd _ rfl⟩, fun _ _ => ⟨[], rfl, _, hd _ rfl, ?_⟩,
      fun _ he => by simp at he⟩
    have hn : n % 2 ^ 32 = n := Nat.mod_eq_of_lt (by have := capacity_le; omega)
    have hcap := h.cap
    simp only [pending, List.nil_append, List.drop_zero, hn]
    rw [List.take_append_of_le_length (by rw [List.length_take]; omega), List.take_take,
      Nat.min_eq_left (by omega)]
    exact List.sublist_append_right _ _

theorem flows_takeByte {r : BufferedReader} (h : r.Good) (hlt : r.pos < r.numValid) :
    FlowsTo r (fun b hs => hs = [b]) (takeByte r) := by
  have hlt' : r.pos < r.buf.length := by rw [h.cap]; exact Nat.lt_of_lt_of_le hlt h.valid
  have hv := h.valid
  unfold takeByte
  simp only [Dec.bind_get_run, List.getElem?_eq_getElem hlt']
  rw [Dec.bind_liftM_of (addU_ok (by have := capacity_le; omega)), Dec.bind_set_run]
  refine ⟨⟨⟨h.honest, h.cap, hlt, h.valid⟩, h.contract⟩, rfl, ⟨[], (List.append_nil _).symm⟩,
    fun b hb => ⟨_, rfl, [], (List.append_nil _).symm, ?_⟩, fun _ he => by simp at he⟩
  simp only [Dec.pure_run, Except.ok.injEq] at hb
  subst hb
  simp only [pending, Dec.pure_run, List.append_nil, List.singleton_append]
  rw [List.drop_eq_getElem_cons (i := r.pos) (by rw [List.length_take]; omega), List.getElem_take]
  exact List.Sublist.refl _

theorem FlowsTo.get {α : Type} {f : BufferedReader → Dec BufferedReader α} {r : BufferedReader}
    {H : α → List U8 → Prop} (h : FlowsTo r H (f r r)) : FlowsTo r H ((Dec.get >>= f) r) := h

theorem flows_readU8 {r : BufferedReader} (h : r.Good) :
    FlowsTo r (fun b hs => hs = [b]) (readU8 r) := by
  unfold readU8
  apply FlowsTo.get
  rw [Dec.ite_run]
  by_cases hp : r.pos = r.numValid
  · rw [if_pos hp]
    refine (flows_refill h).bind fun _ r' _ hg hr hh => FlowsTo.get ?_
    subst hh
    rw [Dec.ite_run]
    by_cases hz : r'.numValid = 0
    · rw [if_pos hz]; exact FlowsTo.eof hg
    · rw [if_neg hz]
      have h0 := (refill_inBounds h.toInBounds).2.2 (by rw [hr])
      rw [hr] at h0
      exact flows_takeByte hg (by simp only at h0; omega)
  · rw [if_neg hp]
    exact flows_takeByte h (by have := h.pos; omega)

theorem flows_readU8_some {r : BufferedReader} (h : r.Good) :
    FlowsTo r (fun (b : Option U8) hs => hs = b.toList)
      ((do let b ← readU8; Pure.pure (some b) : Dec BufferedReader (Option U8)) r) := by
  refine (flows_readU8 h).bind fun b r' hs hg _ hh => ?_
  subst hh
  exact FlowsTo.pure hg rfl

theorem flows_readU8OrEof {r : BufferedReader} (h : r.Good) :
    FlowsTo r (fun b hs => hs = b.toList) (readU8OrEof r) := by
  unfold readU8OrEof
  apply FlowsTo.get
  rw [Dec.ite_run]
  by_cases hp : r.pos = r.numValid
  · rw [if_pos hp]
    refine (flows_refill h).bind fun _ r' _ hg hr hh => FlowsTo.get ?_
    subst hh
    rw [Dec.ite_run]
    by_cases hz : r'.numValid = 0
    · rw [if_pos hz]; exact FlowsTo.pure hg rfl
    · rw [if_neg hz]
      exact flows_readU8_some hg
  · rw [if_neg hp]
    exact flows_readU8_some h

/-- Advancing the position. -/
theorem flows_advance {r : BufferedReader} (h : r.Good) {c : Nat} (hc : r.pos + c ≤ r.numValid) :
    FlowsTo r (fun _ hs => hs = (r.buf.take (r.pos + c)).drop r.pos)
      (Dec.set { r with pos := r.pos + c } r) := by
  have hv := h.valid
  have hcap := h.cap
  refine ⟨⟨⟨h.honest, h.cap, hc, h.valid⟩, h.contract⟩, rfl, ⟨[], (List.append_nil _).symm⟩,
    fun b hb => ⟨_, rfl, [], (List.append_nil _).symm, ?_⟩, fun _ he => by simp [Dec.set] at he⟩
  simp only [pending, Dec.set, List.append_nil]
  rw [← List.drop_drop, ← List.take_drop]
  have e : List.take c (r.buf.drop r.pos) = List.take c ((r.buf.take r.numValid).drop r.pos) := by
    rw [List.drop_take, List.take_take, Nat.min_eq_left (by omega)]
  rw [e, List.take_append_drop]
  exact List.Sublist.refl _

theorem flows_readIntoStep {r : BufferedReader} (h : r.Good) (n : Nat) :
    FlowsTo r (fun p hs => hs = p.1) (readIntoStep n r) := by
  have hp := h.pos
  have hv := h.valid
  have hcap := h.cap
  unfold readIntoStep
  apply FlowsTo.get
  have e : min n (r.numValid - r.pos) ≤ r.numValid - r.pos := Nat.min_le_right _ _
  rw [Dec.bind_liftM_of (subU_ok hp), Dec.bind_liftM_of (slice_ok (by omega)),
    Dec.bind_liftM_of (addU_ok (by have := capacity_le; omega))]
  refine (flows_advance h (by omega)).bind fun _ r' hs hg _ hh => ?_
  rw [Dec.ite_run]
  by_cases hc : n - min n (r.numValid - r.pos) > 0
  · rw [if_pos hc]
    refine (flows_refill hg).bind fun _ r'' hs' hg' _ hh' => FlowsTo.get ?_
    subst hh'
    rw [Dec.ite_run]
    by_cases hz : r''.numValid = 0
    · rw [if_pos hz]; exact FlowsTo.eof hg'
    · rw [if_neg hz]
      refine FlowsTo.pure hg' ?_
      rw [hh, List.append_nil, List.append_nil]
  · rw [if_neg hc]
    refine FlowsTo.pure hg ?_
    rw [hh, List.append_nil]

theorem flows_readIntoLoop (fuel : Nat) : ∀ (n : Nat) (r : BufferedReader), r.Good →
    FlowsTo r (fun bs hs => hs = bs) (readIntoLoop fuel n r) := by
  induction fuel with
  | zero =>
    intro n r h
    exact ⟨h, rfl, ⟨[], (List.append_nil _).symm⟩, fun _ hb => by simp [readIntoLoop, Dec.fail] at hb,
      fun _ _ => Or.inr (Flow.refl r)⟩
  | succ fuel ih =>
    intro n r h
    unfold readIntoLoop
    rw [Dec.ite_run]
    by_cases hn : n > 0
    · rw [if_pos hn]
      refine (flows_readIntoStep h n).bind fun p r' hs hg _ hh => ?_
      rcases p with ⟨c, left⟩
      refine (ih left r' hg).bind fun bs r'' hs' hg' _ hh' => ?_
      refine FlowsTo.pure hg' ?_
      rw [hh, hh', List.append_nil]
    · rw [if_neg hn]
      exact FlowsTo.pure h rfl

/-- Skipped bytes are not handed out. -/
theorem FlowsTo.drop {α : Type} {r : BufferedReader} {H : α → List U8 → Prop}
    {x : Except Fail α × BufferedReader} (hx : FlowsTo r H x) : FlowsTo r (fun _ hs => hs = []) x :=
  ⟨hx.good, hx.src, hx.del, fun a ha => by
    obtain ⟨hs, _, hf⟩ := hx.ok a ha
    exact ⟨[], rfl, Flow.weaken (h := hs) (by rwa [List.append_nil])⟩, hx.error⟩

theorem flows_skipStep {r : BufferedReader} (h : r.Good) (n : Nat) :
    FlowsTo r (fun _ hs => hs = []) (skipStep n r) := by
  have hp := h.pos
  have hv := h.valid
  have hcap := h.cap
  unfold skipStep
  apply FlowsTo.get
  have e : min n (r.numValid - r.pos) ≤ r.numValid - r.pos := Nat.min_le_right _ _
  rw [Dec.bind_liftM_of (subU_ok hp),
    Dec.bind_liftM_of (addU_ok (by have := capacity_le; omega))]
  refine (flows_advance h (by omega)).drop.bind fun _ r' hs hg _ hh => ?_
  subst hh
  rw [Dec.ite_run]
  by_cases hc : n - min n (r.numValid - r.pos) > 0
  · rw [if_pos hc]
    refine (flows_refill hg).bind fun _ r'' hs' hg' _ hh' => FlowsTo.get ?_
    subst hh'
    rw [Dec.ite_run]
    by_cases hz : r''.numValid = 0
    · rw [if_pos hz]; exact FlowsTo.eof hg'
    · rw [if_neg hz]; exact FlowsTo.pure hg' rfl
  · rw [if_neg hc]; exact FlowsTo.pure hg rfl

theorem flows_skipLoop (fuel : Nat) : ∀ (n : Nat) (r : BufferedReader), r.Good →
    FlowsTo r (fun _ hs => hs = []) (skipLoop fuel n r) := by
  induction fuel with
  | zero =>
    intro n r h
    exact ⟨h, rfl, ⟨[], (List.append_nil _).symm⟩, fun _ hb => by simp [skipLoop, Dec.fail] at hb,
      fun _ _ => Or.inr (Flow.refl r)⟩
  | succ fuel ih =>
    intro n r h
    unfold skipLoop
    rw [Dec.ite_run]
    by_cases hn : n > 0
    · rw [if_pos hn]
      refine (flows_skipStep h n).bind fun p r' hs hg _ hh => ?_
      subst hh
      exact ih p r' hg
    · rw [if_neg hn]
      exact FlowsTo.pure h rfl

theorem flows_run {r : BufferedReader} (h : r.Good) (op : RawOp) :
    FlowsTo r (fun bs hs => hs = bs) (op.run r) := by
  cases op with
  | readU8 =>
    refine FlowsTo.bind (m := BufferedReader.readU8) (flows_readU8 h) fun b r' hs hg _ hh => ?_
    subst hh
    exact FlowsTo.pure hg rfl
  | readU8OrEof =>
    refine FlowsTo.bind (m := BufferedReader.readU8OrEof) (flows_readU8OrEof h)
      fun b r' hs hg _ hh => ?_
    subst hh
    exact FlowsTo.pure hg (List.append_nil _)
  | readInto n => exact flows_readIntoLoop _ n r h
  | skip n =>
    refine FlowsTo.bind (m := BufferedReader.skip n) (flows_skipLoop _ n r h) fun b r' hs hg _ hh => ?_
    subst hh
    exact FlowsTo.pure hg rfl

end BufferedReader

end Claxon
