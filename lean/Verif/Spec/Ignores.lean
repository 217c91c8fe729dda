import Mathlib.Data.Matrix.Mul
import Mathlib.Data.Real.Basic

/-!
# Directions along which a problem does not change

`c` is a direction such that moving the unknowns along it changes nothing: the problem does not say where along `c` its solution should be. Nothing
here mentions a solver.
-/
namespace Verif.Spec
variable {ι κ A : Type} [Fintype ι]

/-- The point `y + s c`. -/
def along (c : ι → ℝ) (y : ι → ℝ) (s : ℝ) : ι → ℝ := fun i => y i + s * c i

/-- The component of `y` along `c` (times the length of `c`). -/
def component (c y : ι → ℝ) : ℝ := ∑ i, c i * y i

/-- An objective `f` with gradient `g` does not change along `c`. -/
structure Ignores (f : (ι → ℝ) → ℝ × A) (g : (ι → ℝ) → ι → ℝ) (c : ι → ℝ) : Prop where
  value : ∀ y s, f (along c y s) = f y
  gradient : ∀ y s, g (along c y s) = g y
  flat : ∀ y, component c (g y) = 0

/-- Residuals `f` with Jacobian `j` do not change along `c`. -/
structure ResidualsIgnore (f : (ι → ℝ) → (κ → ℝ) × A) (j : (ι → ℝ) → Matrix κ ι ℝ) (c : ι → ℝ) : Prop where
  value : ∀ y s, f (along c y s) = f y
  jacobian : ∀ y s, j (along c y s) = j y
  flat : ∀ y, (j y).mulVec c = 0

end Verif.Spec
