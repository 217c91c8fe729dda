import Verif.Model.Iterate
import Verif.Model.Misc

/-!
Model of the four entry points `minimise`, `least_squares`, `root_find`, `fixed_point` and of the conversions between them
(`optimistix/_minimise.py`, `_least_squares.py`, `_root_find.py`, `_fixed_point.py`).

The dispatch on the type of the solver (`isinstance`) is modelled by one definition per branch.
`jtu.tree_map(inexact_asarray, y0)`, `OutAsArray` (dtype conversions) and `eqx.filter_closure_convert` are identities here.
-/

namespace Verif

variable {Y Out Aux St Stats K : Type}

/-- A `jax.ShapeDtypeStruct` (shape, "is the dtype floating?") or a container of several of them.
(`_iterate.py:40-41`, `_minimise.py:98`, `_fixed_point.py:135`.) -/
inductive Struct where
  | leaf (shape : List Nat) (floating : Bool)
  | node (treedef : String) (leaves : List (List Nat × Bool))
  deriving DecidableEq

/-- `optimistix/_misc.py:218-228`, `NoneAux`: a function without aux becomes one with a dummy aux. -/
def noneAux (fn : Y → Out) : Y → Out × Unit := fun y => (fn y, ())

/-- `optimistix/_minimise.py:38-119`, `minimise`: the output structure must be one floating-point scalar (97-104), then
`iterative_solve` (106-119). -/
noncomputable def minimise (S : Solver Y K Aux St Stats) (fStruct : Struct) (af : Y → Bool) (fn : Y → K × Aux)
    (aux0 : Aux) (y0 : Y) (ms : Option Nat) (throw : Bool) : Option (Except Err (Solution Y Aux St Stats)) :=
  if fStruct = .leaf [] true then Driver.iterativeSolve S af fn aux0 y0 ms throw
  else some (.error (.valueError "minimisation function must output a single floating-point scalar."))

/-- `optimistix/_least_squares.py:36-41`, `_ToMinimiseFn`. -/
noncomputable def lsqToMinimiseFn {κ : Type} [Fintype κ] (residualFn : Y → (κ → ℝ) × Aux) : Y → ℝ × Aux :=
  fun y =>
    let ra := residualFn y
    (1/2 * sumSquares ra.1, ra.2)

/-- `optimistix/_least_squares.py:102-114`: least squares with a minimiser. -/
noncomputable def leastSquaresViaMinimiser {κ : Type} [Fintype κ] (S : Solver Y ℝ Aux St Stats) (af : Y → Bool)
    (fn : Y → (κ → ℝ) × Aux) (aux0 : Aux) (y0 : Y) (ms : Option Nat) (throw : Bool) :
    Option (Except Err (Solution Y Aux St Stats)) :=
  minimise S (.leaf [] true) af (lsqToMinimiseFn fn) aux0 y0 ms throw

/-- `optimistix/_least_squares.py:115-135`: least squares with a least-squares solver. -/
noncomputable def leastSquares (S : Solver Y Out Aux St Stats) (af : Y → Bool) (fn : Y → Out × Aux)
    (aux0 : Aux) (y0 : Y) (ms : Option Nat) (throw : Bool) : Option (Except Err (Solution Y Aux St Stats)) :=
  Driver.iterativeSolve S af fn aux0 y0 ms throw

/-- `optimistix/_root_find.py:34-36`, `_to_minimise_fn`: the objective is `norm(root)`. -/
def toMinimiseFn (norm : Out → K) (rootFn : Y → Out × Aux) : Y → K × (Out × Aux) :=
  fun y =>
    let ra := rootFn y
    (norm ra.1, ra)

/-- `optimistix/_root_find.py:39-41`, `_to_lstsq_fn`. -/
def toLstsqFn (rootFn : Y → Out × Aux) : Y → Out × (Out × Aux) :=
  fun y =>
    let ra := rootFn y
    (ra.1, ra)

/-- `optimistix/_root_find.py:45-80`, `_ToRoot`: wraps a minimiser or least-squares solver (`O` is the output type of
the function the inner solver sees) and additionally demands `norm(f) < atol`.  `fInf` is the all-`inf` tree of line 63. -/
def toRoot {O : Type} [LT K] [DecidableLT K] (norm : Out → K) (atol : K) (fInf : Out)
    (S : Solver Y O (Out × Aux) St Stats) : Solver Y O (Out × Aux) (St × Out) Stats where
  init fn y :=
    match S.init fn y with
    | .error e => .error e
    | .ok st => .ok (st, fInf)
  step fn y state :=
    let out := S.step fn y state.1
    (out.1, (out.2.1, out.2.2.1), out.2.2)
  terminate fn y state :=
    let tr := S.terminate fn y state.1
    (tr.1 && decide (norm state.2 < atol), tr.2)
  postprocess fn y aux state r := S.postprocess fn y aux state.1 r

/-- `optimistix/_root_find.py:192-194, 218-220`: the inner aux `(f, aux)` is replaced by `aux`. -/
def Solution.dropF (sol : Solution Y (Out × Aux) St Stats) : Solution Y Aux St Stats :=
  { sol with aux := sol.aux.2 }

/-- `optimistix/_root_find.py:179-194`: root finding with a minimiser (`norm`, `atol` are the solver's). -/
noncomputable def rootFindViaMinimiser [LT K] [DecidableLT K] (S : Solver Y K (Out × Aux) St Stats)
    (norm : Out → K) (atol : K) (fInf : Out) (af : Y → Bool) (fn : Y → Out × Aux) (aux0 : Out × Aux) (y0 : Y)
    (ms : Option Nat) (throw : Bool) : Option (Except Err (Solution Y Aux (St × Out) Stats)) :=
  (minimise (toRoot norm atol fInf S) (.leaf [] true) af (toMinimiseFn norm fn) aux0 y0 ms throw).map
    fun r => r.map Solution.dropF

/-- `optimistix/_root_find.py:195-220`: root finding with a least-squares solver. -/
noncomputable def rootFindViaLeastSquares [LT K] [DecidableLT K] (S : Solver Y Out (Out × Aux) St Stats)
    (norm : Out → K) (atol : K) (fInf : Out) (af : Y → Bool) (fn : Y → Out × Aux) (aux0 : Out × Aux) (y0 : Y)
    (ms : Option Nat) (throw : Bool) : Option (Except Err (Solution Y Aux (St × Out) Stats)) :=
  (Driver.iterativeSolve (toRoot norm atol fInf S) af (toLstsqFn fn) aux0 y0 ms throw).map
    fun r => r.map Solution.dropF

/-- `optimistix/_root_find.py:221-241`: root finding with a root finder. -/
noncomputable def rootFind (S : Solver Y Out Aux St Stats) (af : Y → Bool) (fn : Y → Out × Aux) (aux0 : Aux)
    (y0 : Y) (ms : Option Nat) (throw : Bool) : Option (Except Err (Solution Y Aux St Stats)) :=
  Driver.iterativeSolve S af fn aux0 y0 ms throw

/-- `optimistix/_fixed_point.py:35-47`, `_ToRootFn.__call__` (after its structure check): `fn(y) - y`. -/
def fpToRootFn [Sub Y] (fn : Y → Y × Aux) : Y → Y × Aux :=
  fun y =>
    let oa := fn y
    (oa.1 - y, oa.2)

/-- `optimistix/_fixed_point.py:40-46` and `135-138`: both branches reject a function whose output structure differs
from the structure of `y`. -/
def fpStructCheck (yStruct fStruct : Struct) : Except Err Unit :=
  if fStruct = yStruct then .ok ()
  else .error (.valueError "The input and output of `fixed_point_fn` must have the same structure")

/-- `optimistix/_fixed_point.py:115-129` with `_root_find.py:221-241`: fixed points with a root finder. -/
noncomputable def fixedPointViaRootFinder [Sub Y] (S : Solver Y Y Aux St Stats) (yStruct fStruct : Struct)
    (af : Y → Bool) (fn : Y → Y × Aux) (aux0 : Aux) (y0 : Y) (ms : Option Nat) (throw : Bool) :
    Option (Except Err (Solution Y Aux St Stats)) :=
  match fpStructCheck yStruct fStruct with
  | .error e => some (.error e)
  | .ok _ => rootFind S af (fpToRootFn fn) aux0 y0 ms throw

/-- `optimistix/_fixed_point.py:115-129` with `_root_find.py:195-220`: fixed points with a least-squares solver. -/
noncomputable def fixedPointViaLeastSquares [Sub Y] [LT K] [DecidableLT K] (S : Solver Y Y (Y × Aux) St Stats)
    (norm : Y → K) (atol : K) (fInf : Y) (yStruct fStruct : Struct) (af : Y → Bool) (fn : Y → Y × Aux)
    (aux0 : Y × Aux) (y0 : Y) (ms : Option Nat) (throw : Bool) :
    Option (Except Err (Solution Y Aux (St × Y) Stats)) :=
  match fpStructCheck yStruct fStruct with
  | .error e => some (.error e)
  | .ok _ => rootFindViaLeastSquares S norm atol fInf af (fpToRootFn fn) aux0 y0 ms throw

/-- `optimistix/_fixed_point.py:115-129` with `_root_find.py:179-194`: fixed points with a minimiser. -/
noncomputable def fixedPointViaMinimiser [Sub Y] [LT K] [DecidableLT K] (S : Solver Y K (Y × Aux) St Stats)
    (norm : Y → K) (atol : K) (fInf : Y) (yStruct fStruct : Struct) (af : Y → Bool) (fn : Y → Y × Aux)
    (aux0 : Y × Aux) (y0 : Y) (ms : Option Nat) (throw : Bool) :
    Option (Except Err (Solution Y Aux (St × Y) Stats)) :=
  match fpStructCheck yStruct fStruct with
  | .error e => some (.error e)
  | .ok _ => rootFindViaMinimiser S norm atol fInf af (fpToRootFn fn) aux0 y0 ms throw

/-- `optimistix/_fixed_point.py:130-154`: fixed points with a fixed-point solver. -/
noncomputable def fixedPoint (S : Solver Y Y Aux St Stats) (yStruct fStruct : Struct) (af : Y → Bool)
    (fn : Y → Y × Aux) (aux0 : Aux) (y0 : Y) (ms : Option Nat) (throw : Bool) :
    Option (Except Err (Solution Y Aux St Stats)) :=
  match fpStructCheck yStruct fStruct with
  | .error e => some (.error e)
  | .ok _ => Driver.iterativeSolve S af fn aux0 y0 ms throw

end Verif
