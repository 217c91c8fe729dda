import Mathlib.Data.Real.Basic
import Mathlib.Data.Matrix.Mul

/-! Specification vocabulary for matrices over the reals, spelled out: symmetric positive definite, least squares. -/

namespace Verif.Spec

variable {ι κ : Type} [Fintype ι] [Fintype κ]

/-- Symmetric and `xᵀ M x > 0` for every non-zero `x`. -/
def SPD (M : Matrix ι ι ℝ) : Prop :=
  (∀ i j, M i j = M j i) ∧ ∀ x : ι → ℝ, (∃ i, x i ≠ 0) → 0 < ∑ i, ∑ j, x i * M i j * x j

/-- Symmetric and `xᵀ M x ≥ 0` for every `x`. -/
def SPSD (M : Matrix ι ι ℝ) : Prop :=
  (∀ i j, M i j = M j i) ∧ ∀ x : ι → ℝ, 0 ≤ ∑ i, ∑ j, x i * M i j * x j

/-- `d` minimises `|M d - r|²`. -/
def IsLeastSquares (M : Matrix κ ι ℝ) (r : κ → ℝ) (d : ι → ℝ) : Prop :=
  ∀ d' : ι → ℝ, ∑ j, (M.mulVec d j - r j) ^ 2 ≤ ∑ j, (M.mulVec d' j - r j) ^ 2

end Verif.Spec
