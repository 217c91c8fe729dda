import Mathlib.Analysis.Calculus.Deriv.Basic
import Mathlib.Data.Matrix.Mul
import Mathlib.Analysis.SpecialFunctions.Pow.Real

/-!
Vocabulary for systems of equations with a well-behaved Jacobian.
-/

namespace Verif.Spec

variable {ι κ : Type} [Fintype ι] [Fintype κ]

/-- `jac` is the Jacobian of the residuals `r` (along every line), and it is Lipschitz with constant `K` in the spectral norm.  It
need not be bounded. -/
structure LipschitzJacobian (r : (ι → ℝ) → κ → ℝ) (jac : (ι → ℝ) → Matrix κ ι ℝ) (K : ℝ) : Prop where
  deriv : ∀ (y p : ι → ℝ) m, HasDerivAt (fun t : ℝ => r (fun i => y i + t * p i) m) (∑ i, jac y m i * p i) 0
  lipschitz : ∀ (y z p : ι → ℝ), ∑ m, (∑ i, (jac y m i - jac z m i) * p i) ^ 2 ≤ K ^ 2 * (∑ i, (y i - z i) ^ 2) * ∑ i, p i ^ 2
  nonneg : 0 ≤ K

/-- The Jacobian maps onto the residuals everywhere, uniformly: `|Jᵀv|² ≥ μ |v|²`.  There are at most as many equations as unknowns,
and no stationary point of `½|r|²` other than the roots. -/
structure UniformlyOnto (jac : (ι → ℝ) → Matrix κ ι ℝ) (μ : ℝ) : Prop where
  pos : 0 < μ
  onto : ∀ y (v : κ → ℝ), μ * ∑ m, v m ^ 2 ≤ ∑ i, (∑ m, jac y m i * v m) ^ 2

/-- As many equations as unknowns, and everywhere all singular values of the Jacobian are between `√μ` and `√B`. -/
structure UniformlyInvertible (jac : (ι → ℝ) → Matrix ι ι ℝ) (μ B : ℝ) : Prop where
  pos : 0 < μ
  below : ∀ y (p : ι → ℝ), μ * ∑ i, p i ^ 2 ≤ ∑ m, (∑ i, jac y m i * p i) ^ 2
  above : ∀ y (p : ι → ℝ), ∑ m, (∑ i, jac y m i * p i) ^ 2 ≤ B * ∑ i, p i ^ 2

end Verif.Spec
