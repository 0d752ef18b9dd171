import Verif.Model.Run

/-!
# Specification: values of options
-/

namespace Qopen

open Run

namespace Spec

/-- The value of an option switches something on: anything but `None`, `False`, zero and empty texts,
lists and dictionaries. -/
def On (v : J) : Prop :=
  v ≠ .null ∧ v ≠ .bool false ∧ v ≠ .num 0 ∧ v ≠ .str "" ∧ v ≠ .list [] ∧ v ≠ .dict []

end Spec

theorem Run.on_iff (v : J) : Spec.On v ↔ v.truthy = true := by
  unfold Spec.On
  cases v <;> simp [J.truthy]

theorem Run.off_iff (v : J) : ¬ Spec.On v ↔ v.truthy = false := by
  rw [Run.on_iff, Bool.not_eq_true]

end Qopen
