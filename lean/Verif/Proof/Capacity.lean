import Verif.Spec.Checked
import Verif.Model.Input

/-! The size of the buffer. -/

namespace Claxon

theorem capacity_le [FuzzCfg] : CAPACITY ≤ 2048 := by
  unfold CAPACITY
  split <;> decide

theorem capacity_pos [FuzzCfg] : 0 < CAPACITY := by
  unfold CAPACITY
  split <;> decide

theorem capacity_eq : CAPACITY = 2048 := rfl

end Claxon
