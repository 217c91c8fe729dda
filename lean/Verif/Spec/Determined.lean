import Mathlib.Analysis.Real.Sqrt
import Mathlib.Algebra.BigOperators.Ring.Finset

/-!
# Answers that are determined by the problem

Lengths are Euclidean. Nothing here mentions a solver.
-/
namespace Verif.Spec
variable {ι κ : Type} [Fintype ι] [Fintype κ]

/-- The equations `F = 0` are well conditioned: different points have different values of `F`, by at least `μ` per unit of distance. (So
is `y - g(y)` for a contraction `g` at the rate `1 - μ`, and the gradient of a `μ`-strongly convex function.) -/
def Steep (F : (ι → ℝ) → κ → ℝ) (μ : ℝ) : Prop :=
  0 < μ ∧ ∀ x y, μ * Real.sqrt (∑ i, (x i - y i) ^ 2) ≤ Real.sqrt (∑ m, (F x m - F y m) ^ 2)

/-- The point `v` is within `τ` of a point at which `F` is at most `ε`. -/
def NearlySolves (F : (ι → ℝ) → κ → ℝ) (ε τ : ℝ) (v : ι → ℝ) : Prop :=
  ∃ y, Real.sqrt (∑ m, F y m ^ 2) ≤ ε ∧ Real.sqrt (∑ i, (v i - y i) ^ 2) ≤ τ

/-- Nowhere do `F` and `G` differ by more than `β`. -/
def Within (F G : (ι → ℝ) → κ → ℝ) (β : ℝ) : Prop := ∀ y, Real.sqrt (∑ m, (F y m - G y m) ^ 2) ≤ β

end Verif.Spec
