import Verif.Spec.Rigid

/-!
# Symmetries of a problem

A symmetry is a way of moving the unknowns that leaves the problem as it is. Nothing here mentions a solver.
-/
namespace Verif.Spec
open Verif.Rigid
variable {ι κ A : Type} [Fintype ι] [DecidableEq ι] [Fintype κ] [DecidableEq κ]

/-- The rigid motion `m` (see `Rigid.Coordinates`) does not change the objective `f`; its gradient `g` turns with it. -/
structure KeepsObjective (m : Coordinates ι ι) (f : (ι → ℝ) → ℝ × A) (g : (ι → ℝ) → ι → ℝ) : Prop where
  value : ∀ y, f (m.point y) = f y
  gradient : ∀ y, g (m.point y) = m.Q.mulVec (g y)

/-- The rigid motion `m` of the unknowns amounts to the rotation `k` of the residuals `f` (for example, they change places). -/
structure KeepsResiduals (m : Coordinates ι ι) (k : Coordinates κ κ) (f : (ι → ℝ) → (κ → ℝ) × A) (j : (ι → ℝ) → Matrix κ ι ℝ) : Prop where
  value : ∀ y, f (m.point y) = (k.Q.mulVec (f y).1, (f y).2)
  jacobian : ∀ y, j (m.point y) = k.Q * j y * m.Q.transpose

/-- The affine map `y ↦ T y + t`. -/
def affineMap (T : Matrix ι ι ℝ) (t y : ι → ℝ) : ι → ℝ := fun i => T.mulVec y i + t i

/-- An affine map of the unknowns amounts to a linear map `S` of the equations. -/
structure KeepsEquations (T : Matrix ι ι ℝ) (t : ι → ℝ) (S : Matrix κ κ ℝ) (f : (ι → ℝ) → (κ → ℝ) × A) (j : (ι → ℝ) → Matrix κ ι ℝ) : Prop where
  value : ∀ y, (f (affineMap T t y)).1 = S.mulVec (f y).1
  jacobian : ∀ y, j (affineMap T t y) * T = S * j y

end Verif.Spec
