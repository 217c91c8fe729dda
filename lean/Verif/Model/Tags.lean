import Mathlib.LinearAlgebra.Matrix.ToLin
import Verif.Model.Ad
import Verif.Model.Dogleg
import Verif.Model.NewtonChord
import Verif.Spec.Tags

/-!
Model of how the `tags` argument travels through the library: from the four entry points into the operators handed to
`lx.linear_solve` by the solvers and by the implicit adjoint.

The other model files leave `tags` inside the (abstract) linear solver.  Here the linear solver is a function of the tags
as well.  What lineax does with a tag is not modelled: `TaggedSolve` is a parameter, and the theorems assume only that its
answers are right when the tags are true of the operator.  Unknowns and residuals are flattened, in the order `Fin n`.
-/

namespace Verif.Tags

open Spec

variable {n : ℕ}

/-- `lx.linear_solve(operator, vector, linear_solver, throw=False)` for a square operator that carries `tags`: its value and
its promoted result.  Called in `newton_chord.py:120-128`, `_ad.py:110`. -/
abbrev TaggedSolve (n : ℕ) := List Tag → Matrix (Fin n) (Fin n) ℝ → (Fin n → ℝ) → (Fin n → ℝ) × Result

/-- The four entry points.  (`_root_find.py`, `_fixed_point.py`, `_least_squares.py`, `_minimise.py`; lines at `forwarded`.) -/
inductive Entry where
  | rootFind
  | fixedPoint
  | leastSquares
  | minimise
  deriving DecidableEq

/-- The class of the solver (`isinstance` in the entry points).
(`_root_find.py:178-241`, `_fixed_point.py:115-150`, `_least_squares.py:102-131`.) -/
inductive Kind where
  | rootFinder
  | fixedPointSolver
  | leastSquaresSolver
  | minimiser
  deriving DecidableEq

/-- The `tags` that reach `iterative_solve`, and with it the solver and the adjoint: `_root_find.py:178-190` (dropped for
minimisers, kept otherwise: 195-215, 221-241), `_fixed_point.py:115-129` (dropped unless the solver is a fixed-point
solver, 150), `_least_squares.py:102-114, 131` (dropped for minimisers), `_minimise.py:115` (kept). -/
def forwarded (tags : List Tag) : Entry → Kind → List Tag
  | .rootFind, .minimiser => []
  | .rootFind, _ => tags
  | .fixedPoint, .fixedPointSolver => tags
  | .fixedPoint, _ => []
  | .leastSquares, .minimiser => []
  | .leastSquares, _ => tags
  | .minimise, _ => tags

/-- `newton_chord.py:83, 117-119`: the Jacobian handed to the linear solve of `Newton` and `Chord` carries the tags. -/
def newtonCfg (solve : TaggedSolve n) (tags : List Tag)
    (cfg : NewtonChord.Cfg (Fin n) (Fin n) ℝ (Matrix (Fin n) (Fin n) ℝ)) :
    NewtonChord.Cfg (Fin n) (Fin n) ℝ (Matrix (Fin n) (Fin n) ℝ) :=
  { cfg with linearSolve := solve tags }

/-- `gauss_newton.py:158-181`, `_make_f_info`: the residual Jacobian carries the tags, and `newton_step` (32-78) solves with
it.  (Operators built by quasi-Newton updates do not carry the caller's tags; `square` is the solve for those.) -/
def jacobianSolve (solve : TaggedSolve n) (tags : List Tag)
    (square : Matrix (Fin n) (Fin n) ℝ → (Fin n → ℝ) → (Fin n → ℝ) × Result) : LinSolve (Fin n) (Fin n) :=
  { rect := solve tags, square := square }

/-- `_ad.py:105-110`: the operator of the implicit function theorem carries the tags. -/
noncomputable def adjointSolve (solve : TaggedSolve n) (tags : List Tag) : Ad.Solve (Fin n) (Fin n) :=
  fun A b => (solve tags (LinearMap.toMatrix' A.toLinearMap) b).1

end Verif.Tags
