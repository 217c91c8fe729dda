import Mathlib.Data.Complex.Basic
import Mathlib.LinearAlgebra.Matrix.Defs
import Mathlib.Algebra.BigOperators.Group.Finset.Basic

/-! Eigenvalues, real or complex, of a real matrix. -/

namespace Verif.Spec

/-- `z` is an eigenvalue of the real matrix `M`: some nonzero complex vector is stretched by `z`. -/
def IsEigenvalue {ι : Type} [Fintype ι] (M : Matrix ι ι ℝ) (z : ℂ) : Prop :=
  ∃ v : ι → ℂ, v ≠ 0 ∧ ∀ i, ∑ j, (M i j : ℂ) * v j = z * v i

end Verif.Spec
