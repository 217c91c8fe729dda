import Mathlib.Analysis.Real.Sqrt
import Mathlib.Algebra.BigOperators.Ring.Finset
import Mathlib.Data.Matrix.Mul

/-!
# Residuals, Jacobians and linear least-squares problems that are only approximately right

Lengths are Euclidean. Nothing here mentions a solver.
-/
namespace Verif.Spec
variable {ι κ : Type} [Fintype ι] [Fintype κ]

/-- Within `ρ` of the point `r`, the residuals computed, `f`, are within `β` of the residuals meant, `F`, and the matrix computed for
the Jacobian, `J`, differs from the Jacobian `jac` of `F` by a matrix of norm at most `γ`.  No relation between `f` and `J` is asked
for. -/
structure ComputedFit (F : (ι → ℝ) → κ → ℝ) (jac : (ι → ℝ) → Matrix κ ι ℝ) (f : (ι → ℝ) → κ → ℝ) (J : (ι → ℝ) → Matrix κ ι ℝ)
    (r : ι → ℝ) (ρ γ β : ℝ) : Prop where
  value : ∀ y, Real.sqrt (∑ i, (y i - r i) ^ 2) ≤ ρ → Real.sqrt (∑ m, (f y m - F y m) ^ 2) ≤ β
  jacobian : ∀ y, Real.sqrt (∑ i, (y i - r i) ^ 2) ≤ ρ → ∀ v : ι → ℝ,
    Real.sqrt (∑ m, ((J y).mulVec v m - (jac y).mulVec v m) ^ 2) ≤ γ * Real.sqrt (∑ i, v i ^ 2)

/-- `x` solves the least-squares problem `min |M x - b|` up to the relative accuracy `η`, as iterative solvers such as LSMR or
conjugate gradients on the normal equations measure it: its gradient is at most `η` times that of `0`. -/
def RoughLeastSquares (η : ℝ) (M : Matrix κ ι ℝ) (b : κ → ℝ) (x : ι → ℝ) : Prop :=
  Real.sqrt (∑ i, (∑ m, M m i * (M.mulVec x m - b m)) ^ 2) ≤ η * Real.sqrt (∑ i, (∑ m, M m i * b m) ^ 2)

end Verif.Spec
