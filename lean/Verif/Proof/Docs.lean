import Verif.Model.Docs
import Verif.Proof.ExamplesFile

/-! The loops of the examples in the documentation, for C93. -/

namespace Claxon

open Spec Examples Docs

/-- The body of a loop for the elements of a list. -/
def runAll {ω α : Type} (body : α → Dec ω Unit) : List α → Dec ω Unit
  | [] => pure ()
  | x :: xs => do body x; runAll body xs

theorem forLoop_of {τ ω α : Type} {next : Dec τ (Option α)} {body : α → Dec ω Unit} (xs : List α) :
    ∀ (fuel : Nat) (it : τ), calls next (xs.length + 1) it = xs.map (fun x => .ok (some x)) ++ [.ok none] →
    xs.length < fuel → forLoop next body fuel it = runAll body xs := by
  induction xs with
  | nil =>
    intro fuel it hc hf
    obtain ⟨fuel, rfl⟩ : ∃ k, fuel = k + 1 := ⟨fuel - 1, by simp at hf; omega⟩
    have h1 : (next it).1 = .ok none := by simpa [calls] using hc
    rcases hy : next it with ⟨y, it'⟩
    rw [hy] at h1
    simp only at h1
    subst h1
    rw [forLoop, hy, runAll]
  | cons x xs ih =>
    intro fuel it hc hf
    obtain ⟨fuel, rfl⟩ : ∃ k, fuel = k + 1 := ⟨fuel - 1, by simp at hf; omega⟩
    rw [List.length_cons, calls] at hc
    simp only [List.map_cons, List.cons_append, List.cons.injEq] at hc
    rcases hy : next it with ⟨y, it'⟩
    rw [hy] at hc
    simp only at hc
    obtain ⟨rfl, h2⟩ := hc
    rw [forLoop, hy, runAll]
    simp only
    rw [ih fuel it' h2 (by simp at hf; omega)]

/-- The last element is one with which the body fails. -/
theorem forLoop_fails {τ ω α : Type} {next : Dec τ (Option α)} {body : α → Dec ω Unit} {last : α} {f : Fail}
    (hb : ∀ s, body last s = (.error f, s)) (xs : List α) :
    ∀ (fuel : Nat) (it : τ), calls next (xs.length + 1) it = xs.map (fun x => .ok (some x)) ++ [.ok (some last)] →
    xs.length < fuel → forLoop next body fuel it = (do runAll body xs; Dec.fail f) := by
  induction xs with
  | nil =>
    intro fuel it hc hf
    obtain ⟨fuel, rfl⟩ : ∃ k, fuel = k + 1 := ⟨fuel - 1, by simp at hf; omega⟩
    have h1 : (next it).1 = .ok (some last) := by simpa [calls] using hc
    rcases hy : next it with ⟨y, it'⟩
    rw [hy] at h1
    simp only at h1
    subst h1
    rw [forLoop, hy, runAll]
    funext s
    simp only
    rw [Dec.bind_error _ (hb s)]
    rfl
  | cons x xs ih =>
    intro fuel it hc hf
    obtain ⟨fuel, rfl⟩ : ∃ k, fuel = k + 1 := ⟨fuel - 1, by simp at hf; omega⟩
    rw [List.length_cons, calls] at hc
    simp only [List.map_cons, List.cons_append, List.cons.injEq] at hc
    rcases hy : next it with ⟨y, it'⟩
    rw [hy] at hc
    simp only at hc
    obtain ⟨rfl, h2⟩ := hc
    rw [forLoop, hy, runAll]
    simp only
    rw [ih fuel it' h2 (by simp at hf; omega)]
    funext s
    rcases hx : body x s with ⟨y, s'⟩
    cases y with
    | ok u =>
      rw [Dec.bind_ok _ hx]
      rcases hz : runAll body xs s' with ⟨z, s''⟩
      have e : (do body x; runAll body xs : Dec ω Unit) s = (z, s'') := by rw [Dec.bind_ok _ hx, hz]
      cases z with
      | ok u => rw [Dec.bind_ok _ hz, Dec.bind_ok _ e]
      | error f => rw [Dec.bind_error _ hz, Dec.bind_error _ e]
    | error f =>
      have e : (do body x; runAll body xs : Dec ω Unit) s = (.error f, s') := by rw [Dec.bind_error _ hx]
      rw [Dec.bind_error _ hx, Dec.bind_error _ e]

theorem runAll_lines (xs : List Str) : ∀ lines : List Str,
    runAll printLine xs lines = (.ok (), lines ++ xs) := by
  induction xs with
  | nil => intro lines; simp [runAll]
  | cons x xs ih =>
    intro lines
    show runAll _ xs (lines ++ [x]) = _
    rw [ih]
    simp

/-- A computation of the iterator does not return an error with `?`. -/
def NoErr {σ α : Type} (m : Dec σ α) : Prop := ∀ s e, (m s).1 ≠ .error (.err e)

theorem NoErr.bind {σ α β : Type} {m : Dec σ α} {k : α → Dec σ β} (hm : NoErr m) (hk : ∀ a, NoErr (k a)) :
    NoErr (m >>= k) := by
  intro s e
  rcases hy : m s with ⟨y, s'⟩
  cases y with
  | ok a => rw [Dec.bind_ok _ hy]; exact hk a s' e
  | error f =>
    rw [Dec.bind_error _ hy]
    have := hm s e
    rw [hy] at this
    intro h
    cases h
    exact this rfl

theorem NoErr.pure {σ α : Type} (a : α) : NoErr (pure a : Dec σ α) := by
  intro s e h
  cases h

theorem NoErr.lift {σ α : Type} {x : Res α} (h : ∀ e, x ≠ .error (.err e)) : NoErr (liftM x : Dec σ α) :=
  fun _ e => h e

theorem NoErr.catchErr {σ α : Type} (m : Dec σ α) : NoErr (Dec.catchErr m) := by
  intro s e
  unfold Dec.catchErr
  rcases m s with ⟨_ | _ , s'⟩
  · rename_i f
    cases f <;> simp
  · simp

theorem addU_noErr [Build] (w a b : Nat) (e : Error) : addU w a b ≠ .error (.err e) := by
  unfold addU orPanic panicRes
  split
  · simp
  · split <;> simp

theorem mulU_noErr [Build] (w a b : Nat) (e : Error) : mulU w a b ≠ .error (.err e) := by
  unfold mulU orPanic panicRes
  split
  · simp
  · split <;> simp

theorem sample_noErr [Build] [Target] (b : Block) (ch t : Nat) (e : Error) : b.sample ch t ≠ .error (.err e) := by
  unfold Block.sample
  intro h
  rcases h1 : mulU Target.usizeBits ch b.blockSize with f | i
  · rw [h1] at h
    have h : (Except.error f : Res I32) = .error (.err e) := h
    cases h
    exact mulU_noErr _ _ _ e h1
  · rw [h1] at h
    rcases h2 : addU Target.usizeBits i t with f | j
    · rw [show (Except.ok i >>= fun start => addU Target.usizeBits start t >>= fun i => index b.buffer.data i)
        = (addU Target.usizeBits i t >>= fun i => index b.buffer.data i) from rfl, h2] at h
      have h : (Except.error f : Res I32) = .error (.err e) := h
      cases h
      exact addU_noErr _ _ _ e h2
    · rw [show (Except.ok i >>= fun start => addU Target.usizeBits start t >>= fun i => index b.buffer.data i)
        = (addU Target.usizeBits i t >>= fun i => index b.buffer.data i) from rfl, h2] at h
      revert h
      show index b.buffer.data j ≠ _
      unfold index panicRes
      split <;> simp

theorem next_noErr [FuzzCfg] [Build] [Target] {σ : Type} [ReadBytes σ] : NoErr (FlacSamples.next (σ := σ)) := by
  have get : NoErr (Dec.get : Dec (FlacSamples σ) _) := fun s e h => by cases h
  have set : ∀ it, NoErr (Dec.set it : Dec (FlacSamples σ) _) := fun it s e h => by cases h
  have hc : NoErr (FlacSamples.current (σ := σ)) :=
    get.bind fun it => (NoErr.lift (sample_noErr _ _ _)).bind fun s => NoErr.pure _
  have hb : NoErr (FlacSamples.nextBlock (σ := σ)) := by
    refine get.bind fun it => (set _).bind fun _ => (NoErr.catchErr _).bind fun x => ?_
    rcases x with e | _ | b
    · exact get.bind fun it => (set _).bind fun _ => NoErr.pure _
    · exact NoErr.pure _
    · exact get.bind fun it => (set _).bind fun _ => hc
  refine get.bind fun it => ?_
  split
  · exact NoErr.pure _
  · refine (NoErr.lift (addU_noErr _ _ _)).bind fun c => ?_
    split
    · refine (NoErr.lift (addU_noErr _ _ _)).bind fun t => (set _).bind fun _ => ?_
      split
      · exact hb
      · exact hc
    · exact (set _).bind fun _ => hc

/-- The loop of `decodeFile` does what that of decode_simple.rs does, but panics instead of returning an error. -/
theorem decodeFileLoop {τ : Type} {next : Dec τ (Option (Except Error I32))}
    (hn : ∀ it e, (next it).1 ≠ .error (.err e)) (fuel : Nat) : ∀ (it : τ) (w : Option (Wav I32)),
    forLoop next decodeFileBody fuel it w =
      (expect (forLoop next simpleBody fuel it w).1, (forLoop next simpleBody fuel it w).2) := by
  induction fuel with
  | zero => intro it w; rfl
  | succ fuel ih =>
    intro it w
    rw [forLoop, forLoop]
    rcases hy : next it with ⟨y, it'⟩
    rcases y with f | _ | x
    · have := hn it
      rw [hy] at this
      cases f with
      | err e => exact absurd rfl (this e)
      | _ => rfl
    · rfl
    · cases x with
      | error e => rfl
      | ok x =>
        simp only
        have e : ∀ w, ∃ u, decodeFileBody (.ok x) w = (.ok (), u) ∧ simpleBody (.ok x) w = (.ok (), u) :=
          fun w => ⟨_, rfl, rfl⟩
        obtain ⟨u, e1, e2⟩ := e w
        rw [Dec.bind_ok _ e1, Dec.bind_ok _ e2]
        exact ih it' u

theorem runAll_rms {F : Type} (fl : Floats F) (xs : List I32) : ∀ (acc : F) (n : Nat), n + xs.length < 2 ^ 31 →
    runAll (rmsBody fl) (xs.map .ok) (acc, BitVec.ofNat 32 n) = (.ok (),
      (((xs.map BitVec.toInt).map fun x => fl.mul (fl.ofInt x) (fl.ofInt x)).foldl fl.add acc,
        BitVec.ofNat 32 (n + xs.length))) := by
  induction xs with
  | nil => intro acc n _; rfl
  | cons x xs ih =>
    intro acc n hn
    rw [List.length_cons] at hn
    have e : rmsBody fl (.ok x) (acc, BitVec.ofNat 32 n) =
        (.ok (), (fl.add acc (fl.mul (fl.ofInt x.toInt) (fl.ofInt x.toInt)), BitVec.ofNat 32 (n + 1))) := by
      have : addI32 (BitVec.ofNat 32 n) 1#32 = .ok (BitVec.ofNat 32 (n + 1)) := by
        unfold addI32
        rw [if_pos]
        · rw [BitVec.ofNat_add]
        · have : (BitVec.ofNat 32 n).toInt = n := by
            rw [BitVec.toInt_ofNat', Int.bmod_eq_of_le] <;> omega
          rw [this, show (1#32).toInt = 1 from rfl]
          omega
      unfold rmsBody
      simp only [Dec.bind_get_run, Dec.bind_set_run]
      rw [Dec.bind_liftM_of this]
      rfl
    rw [List.map_cons, runAll, Dec.bind_ok _ e, ih _ (n + 1) (by omega)]
    simp [Nat.add_assoc, Nat.add_comm 1]

theorem runAll_overflow {F : Type} (fl : Floats F) (xs : List I32) : ∀ (acc : F) (n : Nat), n < 2 ^ 31 →
    2 ^ 31 ≤ n + xs.length →
    (runAll (rmsBody fl) (xs.map .ok) (acc, BitVec.ofNat 32 n)).1 = .error (.panic .overflow) := by
  induction xs with
  | nil => intro acc n h1 h2; simp at h2; omega
  | cons x xs ih =>
    intro acc n h1 h2
    rw [List.length_cons] at h2
    have hi : (BitVec.ofNat 32 n).toInt = n := by
      rw [BitVec.toInt_ofNat', Int.bmod_eq_of_le] <;> omega
    rw [List.map_cons, runAll]
    by_cases hn : n + 1 < 2 ^ 31
    · have e : rmsBody fl (.ok x) (acc, BitVec.ofNat 32 n) =
          (.ok (), (fl.add acc (fl.mul (fl.ofInt x.toInt) (fl.ofInt x.toInt)), BitVec.ofNat 32 (n + 1))) := by
        have := runAll_rms fl [x] acc n (by simpa using hn)
        simp only [List.map_cons, List.map_nil, runAll] at this
        rcases hy : rmsBody fl (.ok x) (acc, BitVec.ofNat 32 n) with ⟨y, st⟩
        cases y with
        | ok u => rw [Dec.bind_ok _ hy] at this; simpa using this
        | error f => rw [Dec.bind_error _ hy] at this; simp at this
      rw [Dec.bind_ok _ e]
      exact ih _ (n + 1) hn (by omega)
    · have : addI32 (BitVec.ofNat 32 n) 1#32 = .error (.panic .overflow) := by
        unfold addI32
        rw [if_neg]
        · rfl
        · rw [hi, show (1#32).toInt = 1 from rfl]
          omega
      have e : rmsBody fl (.ok x) (acc, BitVec.ofNat 32 n) = (.error (.panic .overflow),
          (fl.add acc (fl.mul (fl.ofInt x.toInt) (fl.ofInt x.toInt)), BitVec.ofNat 32 n)) := by
        unfold rmsBody
        simp only [Dec.bind_get_run, Dec.bind_set_run]
        rw [this]
        rfl
      rw [Dec.bind_error _ e]

section

attribute [local instance] uncheckedBuild

theorem runAll_wraps {F : Type} (fl : Floats F) (xs : List I32) : ∀ (acc : F) (n : Nat),
    runAll (@rmsBody uncheckedBuild _ fl) (xs.map .ok) (acc, BitVec.ofNat 32 n) = (.ok (),
      (((xs.map BitVec.toInt).map fun x => fl.mul (fl.ofInt x) (fl.ofInt x)).foldl fl.add acc,
        BitVec.ofNat 32 (n + xs.length))) := by
  induction xs with
  | nil => intro acc n; rfl
  | cons x xs ih =>
    intro acc n
    have e : @rmsBody uncheckedBuild _ fl (.ok x) (acc, BitVec.ofNat 32 n) =
        (.ok (), (fl.add acc (fl.mul (fl.ofInt x.toInt) (fl.ofInt x.toInt)), BitVec.ofNat 32 (n + 1))) := by
      have : @addI32 uncheckedBuild (BitVec.ofNat 32 n) 1#32 = .ok (BitVec.ofNat 32 (n + 1)) := by
        unfold addI32
        rw [BitVec.ofNat_add]
        split <;> rfl
      unfold rmsBody
      simp only [Dec.bind_get_run, Dec.bind_set_run]
      rw [Dec.bind_liftM_of this]
      rfl
    rw [List.map_cons, runAll, Dec.bind_ok _ e, ih _ (n + 1)]
    simp [Nat.add_assoc, Nat.add_comm 1]

end

end Claxon
