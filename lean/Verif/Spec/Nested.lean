import Mathlib.Analysis.Calculus.ContDiff.Basic
import Mathlib.Analysis.Calculus.FDeriv.Prod
import Mathlib.Analysis.Calculus.FDeriv.Pi

/-!
# A problem inside a problem

The parameters `a` of an inner fixed point problem `y = g(y, a)` are the unknowns of an outer problem, which sees the inner one only through
its solution. Lengths are measured by the largest entry in magnitude. Nothing here mentions a solver.
-/
namespace Verif.Spec
variable {ι κ : Type} [Fintype ι] [Fintype κ]

/-- Continuously differentiable maps `g(·, a)` that contract at the rate `q < 1`, that move with the parameters at the rate at most `M`, and whose
two derivatives change by at most `K` per unit of `y`. -/
structure ContractionFamily (g : (ι → ℝ) → (κ → ℝ) → (ι → ℝ)) (q M K : ℝ) : Prop where
  smooth : ContDiff ℝ 1 fun p : (ι → ℝ) × (κ → ℝ) => g p.1 p.2
  rate_nonneg : 0 ≤ q
  rate_lt : q < 1
  contracts : ∀ y a, ‖fderiv ℝ (fun y => g y a) y‖ ≤ q
  moves : ∀ y a, ‖fderiv ℝ (fun a => g y a) a‖ ≤ M
  change_nonneg : 0 ≤ K
  changes_y : ∀ y y' a, ‖fderiv ℝ (fun y => g y a) y - fderiv ℝ (fun y => g y a) y'‖ ≤ K * ‖y - y'‖
  changes_a : ∀ y y' a, ‖fderiv ℝ (fun a => g y a) a - fderiv ℝ (fun a => g y' a) a‖ ≤ K * ‖y - y'‖

/-- A differentiable objective of the inner solution and the parameters: it moves with the inner solution at the rate at most `Λ`, and its two
derivatives change by at most `B` per unit of `y`. -/
structure OuterObjective (H : (ι → ℝ) → (κ → ℝ) → ℝ) (Λ B : ℝ) : Prop where
  smooth : Differentiable ℝ fun p : (ι → ℝ) × (κ → ℝ) => H p.1 p.2
  moves : ∀ y a, ‖fderiv ℝ (fun y => H y a) y‖ ≤ Λ
  change_nonneg : 0 ≤ B
  changes_y : ∀ y y' a, ‖fderiv ℝ (fun y => H y a) y - fderiv ℝ (fun y => H y a) y'‖ ≤ B * ‖y - y'‖
  changes_a : ∀ y y' a, ‖fderiv ℝ (fun a => H y a) a - fderiv ℝ (fun a => H y' a) a‖ ≤ B * ‖y - y'‖

end Verif.Spec
