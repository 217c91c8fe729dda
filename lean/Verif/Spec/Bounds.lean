import Mathlib.Data.Real.Basic

/-! What it means for a point to respect optional bounds. -/

namespace Verif.Spec

/-- Every entry of `y` respects those of the bounds that are given. -/
def InsideBounds {ι : Type} (lower upper : Option (ι → ℝ)) (y : ι → ℝ) : Prop :=
  (∀ l, lower = some l → ∀ i, l i ≤ y i) ∧ ∀ u, upper = some u → ∀ i, y i ≤ u i

end Verif.Spec
