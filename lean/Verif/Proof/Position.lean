import Verif.Proof.Capacity
import Verif.Proof.Containers
import Verif.Props.Lazy
import Verif.Props.SizeHint

/-! # Cursors as the source of a buffered reader, and the loop that prints tags -/

namespace Claxon.Props

open Claxon Spec ReadBytes Examples

/-- A cursor keeps to the contract of readers. -/
theorem memory_contract [FuzzCfg] (data : List U8) : (memory data).Contract := by
  intro k n written h
  cases h
  exact ⟨Nat.le_refl _, by rw [List.length_take]; omega⟩

theorem memory_outcome [FuzzCfg] (data : List U8) (k : Nat) : (memory data).outcome k =
    .ok ((data.drop (k * CAPACITY)).take CAPACITY).length ((data.drop (k * CAPACITY)).take CAPACITY) := rfl

theorem memory_from [FuzzCfg] (data : List U8) : ∀ (n k : Nat), data.length < (k + n) * CAPACITY →
    Delivers (memory data).outcome k (data.drop (k * CAPACITY)) none := by
  have done : ∀ k, data.length ≤ k * CAPACITY →
      Delivers (memory data).outcome k (data.drop (k * CAPACITY)) none := by
    intro k hk
    rw [List.drop_eq_nil_of_le hk]
    refine .eof fun j hj => ⟨[], ?_⟩
    have : k * CAPACITY ≤ j * CAPACITY := Nat.mul_le_mul_right _ hj
    rw [memory_outcome, List.drop_eq_nil_of_le (by omega), List.take_nil]
    rfl
  intro n
  induction n with
  | zero => exact fun k hk => done k (by rw [Nat.add_zero] at hk; omega)
  | succ n ih =>
    intro k hk
    by_cases h : data.length ≤ k * CAPACITY
    · exact done k h
    · have hk' : (k + (n + 1)) * CAPACITY = (k + 1 + n) * CAPACITY := by congr 1; omega
      have h1 := ih (k + 1) (by omega)
      have h2 := Delivers.chunk (memory_outcome data k)
        (by rw [List.length_take, List.length_drop]; have := capacity_pos; omega)
        (by rw [List.length_take]; omega) (Nat.le_refl _) h1
      rw [List.take_length, Nat.add_mul, Nat.one_mul, ← List.drop_drop, List.take_append_drop] at h2
      exact h2

/-- A cursor delivers its bytes. -/
theorem memory_delivers [FuzzCfg] (data : List U8) : (memory data).Delivers data none := by
  have := memory_from data (data.length + 1) 0 (by
    have := Nat.mul_le_mul_left (data.length + 1) capacity_pos
    rw [Nat.zero_add]
    omega)
  rwa [Nat.zero_mul, List.drop_zero] at this

/-- What is left after `k` calls. -/
theorem memory_left [FuzzCfg] {data rest : List U8} {fault : Option Nat} {k : Nat}
    (h : Delivers (memory data).outcome k rest fault) : rest = data.drop (k * CAPACITY) := by
  induction h with
  | chunk h hpos hcap hlen next ih =>
    rename_i k n written rest fault
    rw [memory_outcome] at h
    cases h
    rw [ih, List.take_length, Nat.add_mul, Nat.one_mul, ← List.drop_drop, List.take_append_drop]
  | eof h =>
    rename_i k
    obtain ⟨w, h⟩ := h k (Nat.le_refl k)
    rw [memory_outcome] at h
    injection h with h1 h2
    rw [List.length_take, List.length_drop] at h1
    rw [List.drop_eq_nil_of_le (by have := capacity_pos; omega)]
  | fault h => rw [memory_outcome] at h; cases h

/-- What the first `k` calls deliver. -/
theorem memory_between [FuzzCfg] (data : List U8) (k : Nat) :
    between (memory data).outcome 0 k = data.take (k * CAPACITY) := by
  induction k with
  | zero => simp [between]
  | succ k ih =>
    rw [between, ih, Nat.zero_add, memory_outcome]
    simp only
    rw [List.take_length, Nat.add_mul, Nat.one_mul, List.take_add]

theorem forLoop_some {τ ω α : Type} {next : Dec τ (Option α)} {body : α → Dec ω Unit} {fuel : Nat} {it it' : τ} {a : α}
    {w w' : ω} (h : next it = (.ok (some a), it')) (hb : body a w = (.ok (), w')) :
    forLoop next body (fuel + 1) it w = forLoop next body fuel it' w' := by
  rw [forLoop, h]
  exact Dec.bind_ok _ hb

theorem tagsLoop (fname : String) : ∀ (ts : List Tag) (lines : List Str), (∀ t ∈ ts, t.Legal) →
    forLoop tagsNext (fun p lines => (.ok (), lines ++ [tagLine fname p])) ((storedTags ts).length + 1) (storedTags ts)
      lines = (.ok (), lines ++ ts.map fun t => tagLine fname (t.name, t.value)) := by
  intro ts
  induction ts with
  | nil =>
    intro lines _
    rw [List.map_nil, List.append_nil]
    rfl
  | cons t ts ih =>
    intro lines h
    refine (forLoop_some (tagsNext_stored t ts (h t List.mem_cons_self)) rfl).trans ?_
    refine (ih (lines ++ [tagLine fname (t.name, t.value)]) fun t ht => h t (List.mem_cons_of_mem _ ht)).trans ?_
    simp

end Claxon.Props
