import Mathlib.Analysis.Calculus.FDeriv.Basic
import Mathlib.Analysis.Normed.Operator.NormedSpace

/-!
A branch of solutions: a sequence of problems, each with a regular root not far from that of the previous one.  Norms are maximum norms.
-/

namespace Verif.Spec

variable {ι : Type} [Fintype ι]

/-- The `n`-th problem is `F n y = 0`, `r n` is a root of it, and consecutive roots are at most `δ` apart.  Within distance `R` of its
root each problem has the derivative `jac n`, which is bounded by `M`, is Lipschitz with constant `K`, and has an inverse bounded
by `β`. -/
structure SolutionBranch (F : ℕ → (ι → ℝ) → ι → ℝ) (jac : ℕ → (ι → ℝ) → (ι → ℝ) →L[ℝ] (ι → ℝ)) (r : ℕ → ι → ℝ)
    (R M β K δ : ℝ) : Prop where
  root : ∀ n, F n (r n) = 0
  near : ∀ n, ‖r (n + 1) - r n‖ ≤ δ
  deriv : ∀ n y, ‖y - r n‖ ≤ R → HasFDerivAt (F n) (jac n y) y
  bounded : ∀ n y, ‖y - r n‖ ≤ R → ‖jac n y‖ ≤ M
  lipschitz : ∀ n y z, ‖y - r n‖ ≤ R → ‖z - r n‖ ≤ R → ‖jac n y - jac n z‖ ≤ K * ‖y - z‖
  inverse : ∀ n y, ‖y - r n‖ ≤ R → (jac n y).IsInvertible ∧ ∀ v, ‖v‖ ≤ β * ‖jac n y v‖
  nonneg : 0 ≤ R ∧ 0 ≤ M ∧ 0 ≤ β ∧ 0 ≤ K ∧ 0 ≤ δ

end Verif.Spec
