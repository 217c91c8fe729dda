import Verif.Model.Misc

/-! Specification vocabulary for searches (no definition of the model is used except the inner product). -/

namespace Verif.Spec

variable {ι : Type}

/-- The textbook Armijo condition for moving from `y` to `z`: the objective falls by at least `slope` times the fall
predicted by the gradient `g` at `y`, and no increase is predicted. -/
def ArmijoHolds [Fintype ι] (slope : ℝ) (obj : (ι → ℝ) → ℝ) (g y z : ι → ℝ) : Prop :=
  obj z ≤ obj y + slope * treeDot g (fun i => z i - y i) ∧ treeDot g (fun i => z i - y i) ≤ 0

/-- `z` and `y` and the objective values `fz`, `fy` there agree within the tolerances, in the given norms. -/
def CloseWithin {κ : Type} (rtol atol : ℝ) (normY : (ι → ℝ) → ℝ) (normF : (κ → ℝ) → ℝ) (z y : ι → ℝ)
    (fz fy : κ → ℝ) : Prop :=
  normY (fun i => |z i - y i| / (atol + rtol * |z i|)) < 1 ∧ normF (fun j => |fz j - fy j| / (atol + rtol * |fz j|)) < 1

end Verif.Spec
