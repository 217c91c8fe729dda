import Mathlib.Analysis.Calculus.Deriv.Basic
import Mathlib.Data.Matrix.Mul
import Mathlib.Analysis.SpecialFunctions.Pow.Real

/-!
Vocabulary for systems of equations that are regular near a point.
-/

namespace Verif.Spec

variable {ι κ : Type} [Fintype ι] [Fintype κ]

/-- Within the Euclidean distance `ρ` of `y` the functions `r` are continuous, `jac` is their Jacobian (along every line), and it maps
onto the residuals, uniformly: `|Jᵀv|² ≥ μ |v|²`.  In particular there are at most as many equations as unknowns. -/
structure RegularNear (r : (ι → ℝ) → κ → ℝ) (jac : (ι → ℝ) → Matrix κ ι ℝ) (y : ι → ℝ) (ρ μ : ℝ) : Prop where
  continuous : ContinuousOn r {x | ∑ i, (x i - y i) ^ 2 ≤ ρ ^ 2}
  deriv : ∀ x, ∑ i, (x i - y i) ^ 2 ≤ ρ ^ 2 → ∀ (p : ι → ℝ) m,
    HasDerivAt (fun t : ℝ => r (fun i => x i + t * p i) m) (∑ i, jac x m i * p i) 0
  onto : ∀ x, ∑ i, (x i - y i) ^ 2 ≤ ρ ^ 2 → ∀ v : κ → ℝ, μ * ∑ m, v m ^ 2 ≤ ∑ i, (∑ m, jac x m i * v m) ^ 2

end Verif.Spec
