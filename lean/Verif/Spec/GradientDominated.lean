import Mathlib.Analysis.SpecialFunctions.Pow.Real

/-!
Vocabulary for problems without bad stationary points.
-/

namespace Verif.Spec

open Filter Topology

variable {ι : Type} [Fintype ι]

/-- The objective `f` is bounded below by `m`, and the squared length of its gradient is at least `2μ` times the height above `m`
(the Polyak-Łojasiewicz inequality): wherever the gradient vanishes, the objective has its least possible value.  Neither convexity
nor uniqueness, nor even the existence, of a minimiser is required. -/
structure GradientDominated (f : (ι → ℝ) → ℝ) (grad : (ι → ℝ) → (ι → ℝ)) (μ m : ℝ) : Prop where
  pos : 0 < μ
  lower : ∀ y, m ≤ f y
  slope : ∀ y, 2 * μ * (f y - m) ≤ ∑ i, grad y i ^ 2

/-- The points `Y` converge to a global minimiser of `f`, whose value is `m`; at all times the squared distance still to go is at
most `C` times the height above the minimum. -/
def ReachesMinimum (f : (ι → ℝ) → ℝ) (Y : ℕ → ι → ℝ) (m C : ℝ) : Prop :=
  ∃ x, f x = m ∧ (∀ z, f x ≤ f z) ∧ Tendsto Y atTop (𝓝 x) ∧ ∀ k, ∑ i, (Y k i - x i) ^ 2 ≤ C * (f (Y k) - m)

end Verif.Spec
