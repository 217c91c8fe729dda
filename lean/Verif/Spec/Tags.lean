import Mathlib.Analysis.Calculus.FDeriv.Basic
import Mathlib.Analysis.Calculus.FDeriv.Pi
import Verif.Spec.Matrix

/-!
Specification vocabulary for the structure a caller can promise about a square matrix (the `tags` argument of the four
solve functions), spelled out entry by entry in the order of the flattened unknowns.
-/

namespace Verif.Spec

/-- The structural promises understood by the linear solvers. -/
inductive Tag where
  | symmetric
  | diagonal
  | tridiagonal
  | unitDiagonal
  | lowerTriangular
  | upperTriangular
  | positiveSemidefinite
  | negativeSemidefinite
  deriving DecidableEq

variable {n : ℕ}

/-- When a promise is true of a matrix. -/
def Tag.Holds (M : Matrix (Fin n) (Fin n) ℝ) : Tag → Prop
  | .symmetric => ∀ i j, M i j = M j i
  | .diagonal => ∀ i j, i ≠ j → M i j = 0
  | .tridiagonal => ∀ i j : Fin n, i.val + 1 < j.val ∨ j.val + 1 < i.val → M i j = 0
  | .unitDiagonal => ∀ i, M i i = 1
  | .lowerTriangular => ∀ i j, i < j → M i j = 0
  | .upperTriangular => ∀ i j, j < i → M i j = 0
  | .positiveSemidefinite => SPSD M
  | .negativeSemidefinite => SPSD (-M)

/-- All the promises made are true of the matrix. -/
def Truthful (tags : List Tag) (M : Matrix (Fin n) (Fin n) ℝ) : Prop := ∀ t ∈ tags, t.Holds M

/-- The Jacobian of a function at a point: row `i`, column `j` is the derivative of output `i` along unknown `j`. -/
noncomputable def jacobianMatrix (f : (Fin n → ℝ) → (Fin n → ℝ)) (y : Fin n → ℝ) : Matrix (Fin n) (Fin n) ℝ :=
  fun i j => fderiv ℝ f y (Pi.single j 1) i

/-- The Hessian of a function at a point: the Jacobian of its vector of partial derivatives. -/
noncomputable def hessianMatrix (f : (Fin n → ℝ) → ℝ) (y : Fin n → ℝ) : Matrix (Fin n) (Fin n) ℝ :=
  jacobianMatrix (fun z i => fderiv ℝ f z (Pi.single i 1)) y

end Verif.Spec
