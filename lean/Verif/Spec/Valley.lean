import Mathlib.Data.Real.Basic

/-!
# One-dimensional objectives with a definite minimum

Nothing here mentions a solver.
-/
namespace Verif.Spec

/-- `F` has its minimum over `[a, b]` at `x`, and rises on both sides at least as fast as the parabola `μ/2 (t - x)²`. -/
structure Valley (F : ℝ → ℝ) (μ a b x : ℝ) : Prop where
  inside : a ≤ x ∧ x ≤ b
  left : ∀ p q, a ≤ p → p ≤ q → q ≤ x → μ / 2 * ((x - p) ^ 2 - (x - q) ^ 2) ≤ F p - F q
  right : ∀ p q, x ≤ p → p ≤ q → q ≤ b → μ / 2 * ((q - x) ^ 2 - (p - x) ^ 2) ≤ F q - F p

end Verif.Spec
