import Mathlib.Analysis.Real.Sqrt
import Mathlib.Algebra.BigOperators.Ring.Finset

/-!
# Objectives that are only known approximately

What a user hands to `minimise` is rarely the function they mean: it is evaluated in rounded arithmetic, and its gradient comes from
differentiating the rounded program. Nothing here mentions a solver.
-/
namespace Verif.Spec
variable {ι : Type} [Fintype ι]

/-- `F` is an `L`-smooth, `μ`-strongly convex function with gradient `G` and minimiser `xs`. -/
structure StronglyConvex (F : (ι → ℝ) → ℝ) (G : (ι → ℝ) → ι → ℝ) (L μ : ℝ) (xs : ι → ℝ) : Prop where
  mu_pos : 0 < μ
  mu_le : μ ≤ L
  smooth : ∀ y z, F z ≤ F y + (∑ i, G y i * (z i - y i)) + L / 2 * ∑ i, (z i - y i) ^ 2
  convex : ∀ y z, F y + (∑ i, G y i * (z i - y i)) + μ / 2 * ∑ i, (z i - y i) ^ 2 ≤ F z
  stationary : ∀ i, G xs i = 0

/-- The values computed for `F` are within `εf` of it and the gradients computed for `G` within `ε` (in Euclidean length), at every point. No
relation between the computed values and the computed gradients is asked for. -/
structure ComputedWithin (F : (ι → ℝ) → ℝ) (G : (ι → ℝ) → ι → ℝ) (f : (ι → ℝ) → ℝ) (g : (ι → ℝ) → ι → ℝ) (εf ε : ℝ) : Prop where
  value : ∀ y, |f y - F y| ≤ εf
  gradient : ∀ y, Real.sqrt (∑ i, (g y i - G y i) ^ 2) ≤ ε

end Verif.Spec
