import Mathlib.Analysis.Calculus.FDeriv.Basic
import Mathlib.Analysis.Normed.Operator.NormedSpace

/-!
What has to hold around a starting point for Newton's method and for the chord method to converge from there (theorems of Kantorovich's
kind).  Norms are maximum norms.
-/

namespace Verif.Spec

variable {ι : Type} [Fintype ι]

/-- On the ball of radius `ρ` around `y0`, `jac` is the derivative of `F`, it is Lipschitz with constant `K`, and its inverse is bounded
by `β`. -/
structure NewtonBall (F : (ι → ℝ) → ι → ℝ) (jac : (ι → ℝ) → (ι → ℝ) →L[ℝ] (ι → ℝ)) (y0 : ι → ℝ) (ρ β K : ℝ) : Prop where
  deriv : ∀ y, ‖y - y0‖ ≤ ρ → HasFDerivAt F (jac y) y
  lipschitz : ∀ y z, ‖y - y0‖ ≤ ρ → ‖z - y0‖ ≤ ρ → ‖jac y - jac z‖ ≤ K * ‖y - z‖
  inverse : ∀ y, ‖y - y0‖ ≤ ρ → (jac y).IsInvertible ∧ ∀ v, ‖v‖ ≤ β * ‖jac y v‖
  nonneg : 0 ≤ ρ ∧ 0 ≤ β ∧ 0 ≤ K

/-- On the ball of radius `ρ` around `y0`, `jac` is the derivative of `F` and differs from that at `y0` by at most `K` times the
distance; the inverse of the latter is bounded by `β`. -/
structure ChordBall (F : (ι → ℝ) → ι → ℝ) (jac : (ι → ℝ) → (ι → ℝ) →L[ℝ] (ι → ℝ)) (y0 : ι → ℝ) (ρ β K : ℝ) : Prop where
  deriv : ∀ y, ‖y - y0‖ ≤ ρ → HasFDerivAt F (jac y) y
  near : ∀ y, ‖y - y0‖ ≤ ρ → ‖jac y - jac y0‖ ≤ K * ‖y - y0‖
  inverse : (jac y0).IsInvertible ∧ ∀ v, ‖v‖ ≤ β * ‖jac y0 v‖
  nonneg : 0 ≤ ρ ∧ 0 ≤ β ∧ 0 ≤ K

end Verif.Spec
