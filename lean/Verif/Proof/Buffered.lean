import Verif.Proof.Capacity
import Verif.Proof.Sim
import Verif.Spec.Flat
import Verif.Spec.Source

/-! The buffered reader behaves like the flat reader. -/

namespace Claxon

open Spec

variable [FuzzCfg]

/-- The buffered reader `r` has the bytes of `t` left to deliver. -/
structure BufRel (fault : Option Nat) (r : BufferedReader) (t : Flat) : Prop where
  cap : r.buf.length = CAPACITY
  pos : r.pos ≤ r.numValid
  valid : r.numValid ≤ CAPACITY
  tfault : t.fault = fault
  rest : ∃ rest, r.inner.Delivers rest fault ∧
    t.bytes = (r.buf.take r.numValid).drop r.pos ++ rest

/-- The failure of a source that ends in an error. -/
def FaultOf (fault : Option Nat) (f : Fail) : Prop :=
  ∃ code, fault = some code ∧ f = .err (.ioError (.inner code))

omit [FuzzCfg] in
theorem FaultOf.isErr {fault : Option Nat} {f : Fail} (h : FaultOf fault f) : ∃ e, f = .err e := by
  obtain ⟨_, _, rfl⟩ := h
  exact ⟨_, rfl⟩

theorem BufRel.new {src : Src} {bytes : List U8} {fault : Option Nat} (h : src.Delivers bytes fault) :
    BufRel fault (BufferedReader.new src) ⟨bytes, fault⟩ where
  cap := by simp [BufferedReader.new]
  pos := Nat.le_refl 0
  valid := Nat.zero_le _
  tfault := rfl
  rest := ⟨bytes, h, rfl⟩

namespace BufferedReader

/-- What a refill of an exhausted buffer does. -/
theorem refill_spec {fault : Option Nat} {r : BufferedReader} {rest : List U8}
    (hcap : r.buf.length = CAPACITY) (hd : r.inner.Delivers rest fault) :
    (∃ r', refill r = (.ok (), r') ∧ BufRel fault r' ⟨rest, fault⟩ ∧ r'.pos = 0 ∧
      ((0 < r'.numValid ∧ rest ≠ []) ∨ (r'.numValid = 0 ∧ rest = [] ∧ fault = none))) ∨
    ∃ code r', fault = some code ∧ rest = [] ∧
      refill r = (.error (.err (.ioError (.inner code))), r') := by
  unfold refill
  unfold Src.Delivers at hd
  cases hd with
  | chunk h hpos hc hlen next =>
    rename_i n written rest
    left
    rw [h]
    refine ⟨_, rfl, ⟨?_, Nat.zero_le _, ?_, rfl, rest, next, ?_⟩, rfl, Or.inl ⟨?_, ?_⟩⟩
    · simp only [List.length_append, List.length_take, List.length_drop]
      omega
    · simp only
      have : n % 2 ^ 32 = n := Nat.mod_eq_of_lt (by have := capacity_le; omega)
      omega
    · simp only
      have : n % 2 ^ 32 = n := Nat.mod_eq_of_lt (by have := capacity_le; omega)
      rw [this, List.drop_zero, List.take_append_of_le_length (by rw [List.length_take]; omega),
        List.take_take, Nat.min_eq_left (by omega)]
    · simp only
      have : n % 2 ^ 32 = n := Nat.mod_eq_of_lt (by have := capacity_le; omega)
      omega
    · intro he
      have := congrArg List.length he
      rw [List.length_append, List.length_take, List.length_nil] at this
      omega
  | eof h =>
    left
    obtain ⟨written, hw⟩ := h _ (Nat.le_refl _)
    rw [hw]
    refine ⟨_, rfl, ⟨?_, Nat.zero_le _, Nat.zero_le _, rfl, [], .eof fun j hj => h j ?_, ?_⟩, rfl,
      Or.inr ⟨rfl, rfl, rfl⟩⟩
    · simp only [List.length_append, List.length_take, List.length_drop]
      omega
    · simp only at hj
      omega
    · simp
  | fault h =>
    right
    rw [h]
    exact ⟨_, _, rfl, rfl, rfl⟩

theorem takeByte_spec {fault : Option Nat} {r : BufferedReader} {t : Flat} (h : BufRel fault r t)
    (hlt : r.pos < r.numValid) :
    ∃ b rest r', t.bytes = b :: rest ∧ takeByte r = (.ok b, r') ∧
      BufRel fault r' { t with bytes := rest } := by
  obtain ⟨hcap, hpos, hval, ht, rest, hd, hb⟩ := h
  have hlt' : r.pos < r.buf.length := by omega
  have hdrop : (r.buf.take r.numValid).drop r.pos =
      r.buf[r.pos] :: (r.buf.take r.numValid).drop (r.pos + 1) := by
    rw [List.drop_eq_getElem_cons (by rw [List.length_take]; omega), List.getElem_take]
  refine ⟨r.buf[r.pos], (r.buf.take r.numValid).drop (r.pos + 1) ++ rest,
    { r with pos := r.pos + 1 }, ?_, ?_, ?_⟩
  · rw [hb, hdrop]; rfl
  · unfold takeByte
    simp only [Dec.bind_get_run, List.getElem?_eq_getElem hlt']
    rw [Dec.bind_liftM_of (addU_ok (by have := capacity_le; omega))]
    rfl
  · exact ⟨hcap, hlt, hval, ht, rest, hd, rfl⟩

theorem sim_readU8 (fault : Option Nat) :
    Sim (BufRel fault) (FaultOf fault) True readU8 Flat.readU8 := by
  intro r t h
  unfold readU8
  simp only [Dec.bind_get_run, Dec.ite_run]
  split
  · rename_i hp
    obtain ⟨hcap, hpos, hval, ht, rest, hd, hb⟩ := h
    have hb : t.bytes = rest := by
      rw [hb, hp, List.drop_of_length_le (by rw [List.length_take]; omega)]; rfl
    rcases refill_spec hcap hd with ⟨r', hr, hrel, hp0, hcase⟩ | ⟨code, r', hf, hrest, hr⟩
    · rw [Dec.bind_ok _ hr]
      simp only [Dec.bind_get_run, Dec.ite_run]
      have hteq : t = ⟨rest, fault⟩ := by cases t; simp_all
      rcases hcase with ⟨hn, hne⟩ | ⟨hn, hre, hfa⟩
      · rw [if_neg (by omega)]
        obtain ⟨b, rest', r'', h1, h2, h3⟩ := takeByte_spec hrel (by omega)
        rw [h2, hteq]
        simp only at h1
        rw [h1]
        exact Or.inl ⟨rfl, h3⟩
      · rw [if_pos hn, hteq]
        subst hre hfa
        exact Or.inl ⟨rfl, hrel⟩
    · rw [Dec.bind_error _ hr]
      refine Or.inr ⟨_, rfl, ⟨code, hf, rfl⟩, fun _ => ?_⟩
      rw [Flat.readU8, hb, hrest, ht, hf]
      rfl
  · rename_i hp
    obtain ⟨b, rest', r'', h1, h2, h3⟩ := takeByte_spec h (by have := h.pos; omega)
    rw [h2, Flat.readU8, h1]
    exact Or.inl ⟨rfl, h3⟩

theorem sim_readU8OrEof (fault : Option Nat) :
    Sim (BufRel fault) (FaultOf fault) True readU8OrEof Flat.readU8OrEof := by
  have hsome : ∀ (r : BufferedReader) (t : Flat), BufRel fault r t → t.bytes ≠ [] →
      SimAt (BufRel fault) (FaultOf fault) True ((do let b ← readU8; pure (some b)) r)
        (Flat.readU8OrEof t) := by
    intro r t h hne
    obtain ⟨b, rest, hbs⟩ := List.exists_cons_of_ne_nil hne
    have h8 := sim_readU8 fault r t h
    simp only [Flat.readU8, hbs] at h8
    simp only [Flat.readU8OrEof, hbs]
    generalize hx : readU8 r = x at h8
    rcases x with ⟨v, r'⟩
    rcases h8 with ⟨h1, h2⟩ | ⟨f, h1, h2, h3⟩
    · simp only at h1
      subst h1
      rw [Dec.bind_ok _ hx]
      exact Or.inl ⟨rfl, h2⟩
    · exact absurd (h3 trivial) (by simp)
  intro r t h
  unfold readU8OrEof
  simp only [Dec.bind_get_run, Dec.ite_run]
  split
  · rename_i hp
    obtain ⟨hcap, hpos, hval, ht, rest, hd, hb⟩ := h
    have hb : t.bytes = rest := by
      rw [hb, hp, List.drop_of_length_le (by rw [List.length_take]; omega)]; rfl
    rcases refill_spec hcap hd with ⟨r', hr, hrel, hp0, hcase⟩ | ⟨code, r', hf, hrest, hr⟩
    · rw [Dec.bind_ok _ hr]
      simp only [Dec.bind_get_run, Dec.ite_run]
      have hteq : t = ⟨rest, fault⟩ := by cases t; simp_all
      rcases hcase with ⟨hn, hne⟩ | ⟨hn, hre, hfa⟩
      · rw [if_neg (by omega)]
        exact hsome r' t (hteq ▸ hrel) (hb ▸ hne)
      · rw [if_pos hn, hteq]
        subst hre hfa
        exact Or.inl ⟨rfl, hrel⟩
    · rw [Dec.bind_error _ hr]
      refine Or.inr ⟨_, rfl, ⟨code, hf, rfl⟩, fun _ => ?_⟩
      rw [Flat.readU8OrEof, hb, hrest, ht, hf]
  · rename_i hp
    refine hsome r t h ?_
    obtain ⟨b, rest', r'', h1, h2, h3⟩ := takeByte_spec h (by have := h.pos; omega)
    rw [h1]
    simp

/-- Dropping `n` bytes that are in the buffer. -/
theorem BufRel.advance {fault : Option Nat} {r : BufferedReader} {t : Flat} (h : BufRel fault r t)
    {n : Nat} (hn : n ≤ r.numValid - r.pos) :
    BufRel fault { r with pos := r.pos + n } { t with bytes := t.bytes.drop n } ∧
      t.bytes.take n = (r.buf.take (r.pos + n)).drop r.pos ∧ n ≤ t.bytes.length := by
  obtain ⟨hcap, hpos, hval, ht, rest, hd, hb⟩ := h
  have hl : ((r.buf.take r.numValid).drop r.pos).length = r.numValid - r.pos := by
    rw [List.length_drop, List.length_take]; omega
  refine ⟨⟨hcap, ?_, hval, ht, rest, hd, ?_⟩, ?_, ?_⟩
  · simp only; omega
  · simp only
    rw [hb, List.drop_append_of_le_length (by omega), List.drop_drop]
  · rw [hb, List.take_append_of_le_length (by omega), List.take_drop, List.take_take,
      Nat.min_eq_left (by omega)]
  · rw [hb, List.length_append]; omega

/-- One pass of the loop of `read_into`, if it is not the last. -/
theorem readIntoStep_spec {fault : Option Nat} {r : BufferedReader} {t : Flat} (h : BufRel fault r t)
    (n : Nat) :
    (∃ r', readIntoStep n r = (.ok (t.bytes.take n, 0), r') ∧ n ≤ t.bytes.length ∧
      BufRel fault r' { t with bytes := t.bytes.drop n }) ∨
    (∃ r' k, k < n ∧ k = r.numValid - r.pos ∧ readIntoStep n r = (.ok (t.bytes.take k, n - k), r') ∧
      k ≤ t.bytes.length ∧ BufRel fault r' { t with bytes := t.bytes.drop k } ∧
      r'.pos < r'.numValid) ∨
    (∃ r', t.bytes.length < n ∧ fault = none ∧
      readIntoStep n r = (.error (.err (.ioError .unexpectedEof)), r') ∧
      BufRel fault r' { t with bytes := [] }) ∨
    (∃ r' code, t.bytes.length < n ∧ fault = some code ∧
      readIntoStep n r = (.error (.err (.ioError (.inner code))), r')) := by
  have hpos := h.pos
  have hval := h.valid
  have hcap := h.cap
  have hk : min n (r.numValid - r.pos) ≤ r.numValid - r.pos := Nat.min_le_right _ _
  obtain ⟨hadv, htake, hle⟩ := BufRel.advance h hk
  unfold readIntoStep
  simp only [Dec.bind_get_run]
  rw [Dec.bind_liftM_of (subU_ok hpos)]
  rw [Dec.bind_liftM_of (slice_ok (by omega)),
    Dec.bind_liftM_of (addU_ok (by have := capacity_le; omega))]
  simp only [Dec.bind_set_run, Dec.ite_run]
  by_cases hn : n ≤ r.numValid - r.pos
  · rw [Nat.min_eq_left hn] at *
    rw [if_neg (by omega), ← htake]
    exact Or.inl ⟨_, rfl, hle, hadv⟩
  · rw [Nat.min_eq_right (by omega)] at *
    rw [if_pos (by omega), ← htake]
    obtain ⟨hcap', hpos', hval', ht', rest, hd, hb⟩ := hadv
    simp only at hcap' hpos' hval' ht' hb hd
    have hrest : t.bytes.drop (r.numValid - r.pos) = rest := by
      rw [hb, show r.pos + (r.numValid - r.pos) = r.numValid by omega,
        List.drop_of_length_le (by rw [List.length_take]; omega)]
      rfl
    right
    rcases refill_spec (r := { r with pos := r.pos + (r.numValid - r.pos) }) hcap' hd with
      ⟨r', hr, hrel, hp0, hcase⟩ | ⟨code, r', hf, hre, hr⟩
    · rw [Dec.bind_ok _ hr]
      simp only [Dec.bind_get_run, Dec.ite_run]
      have hteq : ({ t with bytes := t.bytes.drop (r.numValid - r.pos) } : Flat) = ⟨rest, fault⟩ := by
        rw [hrest, ht']
      rcases hcase with ⟨hn', hne⟩ | ⟨hn', hre, hfa⟩
      · rw [if_neg (by omega)]
        left
        exact ⟨r', _, by omega, rfl, rfl, hle, hteq ▸ hrel, by omega⟩
      · rw [if_pos hn']
        right; left
        refine ⟨r', ?_, hfa, rfl, ?_⟩
        · have := congrArg List.length hrest
          rw [List.length_drop, hre] at this
          simp at this
          omega
        · rw [hre] at hrel
          rw [ht']
          exact hrel
    · rw [Dec.bind_error _ hr]
      right; right
      refine ⟨r', code, ?_, hf, rfl⟩
      have := congrArg List.length hrest
      rw [List.length_drop, hre] at this
      simp at this
      omega

theorem readIntoLoop_spec {fault : Option Nat} (fuel : Nat) : ∀ (n : Nat) (r : BufferedReader) (t : Flat),
    BufRel fault r t → n + 2 ≤ fuel ∨ (n + 1 ≤ fuel ∧ r.pos < r.numValid) →
    SimAt (BufRel fault) (FaultOf fault) True (readIntoLoop fuel n r) (Flat.readInto n t) := by
  induction fuel with
  | zero => intro n r t h hf; omega
  | succ fuel ih =>
    intro n r t h hf
    unfold readIntoLoop
    rw [Dec.ite_run]
    by_cases hn : n > 0
    · rw [if_pos hn]
      rcases readIntoStep_spec h n with ⟨r', hs, hle, hrel⟩ | ⟨r', k, hkn, hke, hs, hle, hrel, hp⟩ |
        ⟨r', hlt, hf', hs, hrel⟩ | ⟨r', code, hlt, hf', hs⟩
      · rw [Dec.bind_ok _ hs]
        simp only
        obtain ⟨fuel, rfl⟩ : ∃ k, fuel = k + 1 := ⟨fuel - 1, by omega⟩
        simp only [readIntoLoop, Nat.lt_irrefl, if_false]
        rw [Flat.readInto, if_pos hle]
        refine Or.inl ⟨?_, hrel⟩
        show Except.ok (t.bytes.take n ++ []) = _
        rw [List.append_nil]
      · rw [Dec.bind_ok _ hs]
        simp only
        have hn' : n - k + 1 ≤ fuel := by
          rcases hf with hf | ⟨hf, hp'⟩
          · omega
          · omega
        have h1 := ih (n - k) r' _ hrel (Or.inr ⟨hn', hp⟩)
        simp only [Flat.readInto, List.length_drop] at h1 ⊢
        by_cases hlen : n ≤ t.bytes.length
        · rw [if_pos (by omega)] at h1
          rw [if_pos hlen]
          generalize hx : readIntoLoop fuel (n - k) r' = x at h1
          rcases x with ⟨v, r2⟩
          rcases h1 with ⟨h1, h2⟩ | ⟨f, h1, h2, h3⟩
          · simp only at h1 h2
            subst h1
            rw [Dec.bind_ok _ hx]
            rw [List.drop_drop, show k + (n - k) = n by omega] at h2
            refine Or.inl ⟨?_, h2⟩
            simp only [Dec.pure_run, Except.ok.injEq]
            rw [← List.take_add, show k + (n - k) = n by omega]
          · exact absurd (h3 trivial) (by simp)
        · rw [if_neg (by omega)] at h1
          rw [if_neg hlen]
          generalize hx : readIntoLoop fuel (n - k) r' = x at h1
          rcases x with ⟨v, r2⟩
          rcases h1 with ⟨h1, h2⟩ | ⟨f, h1, h2, h3⟩
          · simp only at h1 h2
            subst h1
            rw [Dec.bind_error _ hx]
            exact Or.inl ⟨rfl, h2⟩
          · simp only at h1
            subst h1
            rw [Dec.bind_error _ hx]
            exact Or.inr ⟨f, rfl, h2, h3⟩
      · rw [Dec.bind_error _ hs, Flat.readInto, if_neg (by omega)]
        refine Or.inl ⟨?_, hrel⟩
        rw [h.tfault, hf']
        rfl
      · rw [Dec.bind_error _ hs, Flat.readInto, if_neg (by omega)]
        refine Or.inr ⟨_, rfl, ⟨code, hf', rfl⟩, fun _ => ?_⟩
        rw [h.tfault, hf']
        rfl
    · obtain rfl : n = 0 := by omega
      rw [if_neg (by omega), Flat.readInto, if_pos (Nat.zero_le _)]
      exact Or.inl ⟨rfl, h⟩

omit [FuzzCfg] in
/-- The loop of `skip` does what the loop of `read_into` does, without copying. -/
theorem skipStep_eq (n : Nat) (r : BufferedReader) (hpos : r.pos ≤ r.numValid)
    (hv : r.numValid ≤ r.buf.length) :
    skipStep n r = ((readIntoStep n r).1.map Prod.snd, (readIntoStep n r).2) := by
  unfold skipStep readIntoStep
  simp only [Dec.bind_get_run]
  rw [Dec.bind_liftM_of (subU_ok hpos), Dec.bind_liftM_of (subU_ok hpos),
    Dec.bind_liftM_of (slice_ok (by omega))]
  rcases addU 32 r.pos (min n (r.numValid - r.pos)) with e | v
  · rfl
  · simp only [Dec.bind_liftM_ok, Dec.bind_set_run, Dec.ite_run]
    split
    · simp only [Dec.bind_def]
      rcases refill { inner := r.inner, buf := r.buf, pos := v, numValid := r.numValid } with ⟨_ | _, r1⟩
      · rfl
      · simp only [Dec.get_run, Dec.ite_run]
        split <;> rfl
    · rfl

theorem skipLoop_spec {fault : Option Nat} (fuel : Nat) : ∀ (n : Nat) (r : BufferedReader) (t : Flat),
    BufRel fault r t → n + 2 ≤ fuel ∨ (n + 1 ≤ fuel ∧ r.pos < r.numValid) →
    SimAt (BufRel fault) (FaultOf fault) True (skipLoop fuel n r) (Flat.skip n t) := by
  induction fuel with
  | zero => intro n r t h hf; omega
  | succ fuel ih =>
    intro n r t h hf
    have hsk := skipStep_eq n r h.pos (by have := h.cap; have := h.valid; omega)
    unfold skipLoop
    rw [Dec.ite_run]
    by_cases hn : n > 0
    · rw [if_pos hn]
      rcases readIntoStep_spec h n with ⟨r', hs, hle, hrel⟩ | ⟨r', k, hkn, hke, hs, hle, hrel, hp⟩ |
        ⟨r', hlt, hf', hs, hrel⟩ | ⟨r', code, hlt, hf', hs⟩
      · rw [hs] at hsk
        rw [Dec.bind_ok _ hsk]
        obtain ⟨fuel, rfl⟩ : ∃ k, fuel = k + 1 := ⟨fuel - 1, by omega⟩
        simp only [skipLoop, Nat.lt_irrefl, if_false]
        rw [Flat.skip, if_pos hle]
        exact Or.inl ⟨rfl, hrel⟩
      · rw [hs] at hsk
        rw [Dec.bind_ok _ hsk]
        have hn' : n - k + 1 ≤ fuel := by
          rcases hf with hf | ⟨hf, hp'⟩
          · omega
          · omega
        have h1 := ih (n - k) r' _ hrel (Or.inr ⟨hn', hp⟩)
        simp only [Flat.skip, List.length_drop, List.drop_drop] at h1 ⊢
        by_cases hlen : n ≤ t.bytes.length
        · rw [if_pos (by omega), show k + (n - k) = n by omega] at h1
          rw [if_pos hlen]
          exact h1
        · rw [if_neg (by omega)] at h1
          rw [if_neg hlen]
          exact h1
      · rw [hs] at hsk
        rw [Dec.bind_error _ hsk, Flat.skip, if_neg (by omega)]
        refine Or.inl ⟨?_, hrel⟩
        rw [h.tfault, hf']
        rfl
      · rw [hs] at hsk
        rw [Dec.bind_error _ hsk, Flat.skip, if_neg (by omega)]
        refine Or.inr ⟨_, rfl, ⟨code, hf', rfl⟩, fun _ => ?_⟩
        rw [h.tfault, hf']
        rfl
    · obtain rfl : n = 0 := by omega
      rw [if_neg (by omega), Flat.skip, if_pos (Nat.zero_le _)]
      exact Or.inl ⟨rfl, h⟩

end BufferedReader

/-- The buffered reader and the flat reader behave alike byte by byte. -/
theorem simBufferedRd (fault : Option Nat) : SimRd (BufRel fault) (FaultOf fault) True where
  readU8 := BufferedReader.sim_readU8 fault
  readU8OrEof := BufferedReader.sim_readU8OrEof fault

/-- The buffered reader and the flat reader behave alike. -/
theorem simBuffered (fault : Option Nat) : SimRdFull (BufRel fault) (FaultOf fault) True where
  readU8 := BufferedReader.sim_readU8 fault
  readInto n _ := fun r t h => BufferedReader.readIntoLoop_spec (n + 2) n r t h (Or.inl (Nat.le_refl _))
  skip n _ := fun r t h => BufferedReader.skipLoop_spec (n + 2) n r t h (Or.inl (Nat.le_refl _))
  onAlloc _ _ := Sim.pure ()

end Claxon
