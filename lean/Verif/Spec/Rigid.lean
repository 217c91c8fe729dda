import Verif.Model.GaussNewton
import Verif.Spec.Relabel
import Mathlib.Data.Matrix.Mul

/-!
Specification for C78: the same problem in other Cartesian coordinates, possibly with additional unknowns that the function
ignores and additional residuals that always vanish.
-/

namespace Verif.Rigid

variable {ι ι' κ κ' A : Type}

/-- New coordinates: `x = Q y + shift`, where the columns of `Q` are orthonormal.  If `Q` is square, this is a rigid motion
(rotation, reflection, translation); if it has more rows than columns, there are further, unused unknowns. -/
structure Coordinates (ι ι' : Type) [Fintype ι'] [DecidableEq ι] where
  Q : Matrix ι' ι ℝ
  orthonormal : Q.transpose * Q = 1
  shift : ι' → ℝ

variable [Fintype ι] [Fintype ι'] [Fintype κ] [Fintype κ'] [DecidableEq ι] [DecidableEq κ]

namespace Coordinates

/-- The new coordinates of the point `y`. -/
def point (m : Coordinates ι ι') (y : ι → ℝ) : ι' → ℝ := fun i => m.Q.mulVec y i + m.shift i

/-- The old coordinates; unused unknowns are ignored. -/
def back (m : Coordinates ι ι') (x : ι' → ℝ) : ι → ℝ := m.Q.transpose.mulVec fun i => x i - m.shift i

end Coordinates

/-- The objective in the new coordinates. -/
def objective (m : Coordinates ι ι') (f : (ι → ℝ) → ℝ × A) : (ι' → ℝ) → ℝ × A := fun x => f (m.back x)

/-- Its gradient (see `C78_gradient`). -/
def gradient (m : Coordinates ι ι') (g : (ι → ℝ) → ι → ℝ) : (ι' → ℝ) → ι' → ℝ := fun x => m.Q.mulVec (g (m.back x))

/-- The residuals in the new coordinates, themselves rotated by `k` (whose shift is not used), and padded with zeros. -/
def residuals (m : Coordinates ι ι') (k : Coordinates κ κ') (f : (ι → ℝ) → (κ → ℝ) × A) : (ι' → ℝ) → (κ' → ℝ) × A :=
  fun x => (k.Q.mulVec (f (m.back x)).1, (f (m.back x)).2)

/-- Their Jacobian (see `C78_jacobian`). -/
def jacobian (m : Coordinates ι ι') (k : Coordinates κ κ') (j : (ι → ℝ) → Matrix κ ι ℝ) : (ι' → ℝ) → Matrix κ' ι' ℝ :=
  fun x => k.Q * j (m.back x) * m.Q.transpose

/-- The outcome of a solve, with the answer in the new coordinates. -/
def moved (m : Coordinates ι ι') (o : Option (Except Err ((ι → ℝ) × Result × A × Nat))) :
    Option (Except Err ((ι' → ℝ) × Result × A × Nat)) :=
  o.map fun r => r.map fun s => (m.point s.1, s.2)

/-- The stopping test on the unknowns gives the same verdict in both coordinates. -/
def SameTest (m : Coordinates ι ι') (rtol atol : ℝ) (n : (ι → ℝ) → ℝ) (n' : (ι' → ℝ) → ℝ) : Prop :=
  ∀ y d, n' (scaledDiff rtol atol (m.point y) (m.Q.mulVec d)) = n (scaledDiff rtol atol y d)

/-- The stopping test on the residuals gives the same verdict in both coordinates. -/
def SameResidualTest (k : Coordinates κ κ') (rtol atol : ℝ) (n : (κ → ℝ) → ℝ) (n' : (κ' → ℝ) → ℝ) : Prop :=
  ∀ r d, n' (scaledDiff rtol atol (k.Q.mulVec r) (k.Q.mulVec d)) = n (scaledDiff rtol atol r d)

/-- `x` is the least-squares solution of `M x = b` of smallest length: it satisfies the normal equations and is a combination
of the rows of `M`. -/
def IsMinimalLeastSquares (M : Matrix κ ι ℝ) (b : κ → ℝ) (x : ι → ℝ) : Prop :=
  M.transpose.mulVec (M.mulVec x) = M.transpose.mulVec b ∧ ∃ w, x = M.transpose.mulVec w

/-- A linear solver that always finds this solution (as lineax's SVD-based solver does). -/
def SolvesMinimal (ls : LinSolve ι κ) : Prop :=
  ∀ M b, IsMinimalLeastSquares M b (ls.rect M b).1 ∧ (ls.rect M b).2 = .successful

end Verif.Rigid
