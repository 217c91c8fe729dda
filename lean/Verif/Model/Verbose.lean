import Verif.Model.GaussNewton
import Verif.Model.QuasiNewton
import Verif.Model.Optax

/-!
Model of the `verbose` argument: `_misc.py:368-397` and the reports made by the three families of solvers that have it.

Simplification: the reports of a solve are collected in a list, in the order in which the steps make them.  (`jax.debug.print`
promises no order between its lines unless asked; printing is part of the effects of a solve, not of its values.)
-/

namespace Verif.Verbose

variable {ι κ A SS DS HS OS : Type} {Y Out Aux St Stats : Type}

/-- What the user may pass as `verbose`.  (`_misc.py:368-382`.) -/
inductive Arg where
  | bool (b : Bool)
  | callable
  | other

/-- The attribute `self.verbose`: `_default_verbose`, `_default_no_verbose` or the user's callable.  (`_misc.py:368-397`.) -/
inductive Handler where
  | printAll
  | nothing
  | user
  deriving DecidableEq

/-- `_misc.py:368-382`, `default_verbose`. -/
def defaultVerbose : Arg → Except Err Handler
  | .callable => .ok .user
  | .bool true => .ok .printAll
  | .bool false => .ok .nothing
  | .other => .error (.valueError "Unrecognized `verbose`")

/-- A reported value: a count, a number, or a point.
(The second entries in `gauss_newton.py:300-312`, `quasi_newton.py:273-279`, `optax.py:96-100`.) -/
inductive Value (ι : Type) where
  | count (n : Nat)
  | number (x : ℝ)
  | point (y : ι → ℝ)

/-- What the user sees: a printed line with its pieces `name: value`, or a call of their function.  (`_misc.py:385-397`.) -/
inductive Effect (ι : Type) where
  | printed (pieces : List (String × Value ι))
  | called (kwargs : List (String × Value ι))

/-- `_misc.py:385-397`, `_default_verbose` (prints one line, unless there is nothing to print) and `_default_no_verbose`. -/
def emit : Handler → List (String × Value ι) → List (Effect ι)
  | .printAll, kwargs => if kwargs.length > 0 then [.printed kwargs] else []
  | .nothing, _ => []
  | .user, kwargs => [.called kwargs]

/-- A solver whose `step` reports: before each step from `(y, state)` the effects of `report fn y state` are added to the log.
The solver's statistics are paired with the log.
(`self.verbose(...)` in `gauss_newton.py:300-312`, `quasi_newton.py:273-279`, `optax.py:96-100`.) -/
def watched (S : Solver Y Out Aux St Stats) (h : Handler) (report : (Y → Out × Aux) → Y → St → List (String × Value ι)) :
    Solver Y Out Aux (St × List (Effect ι)) (Stats × List (Effect ι)) where
  init fn y := (S.init fn y).map fun s => (s, [])
  step fn y s := let o := S.step fn y s.1; (o.1, (o.2.1, s.2 ++ emit h (report fn y s.1)), o.2.2)
  terminate fn y s := S.terminate fn y s.1
  postprocess fn y a s r := let p := S.postprocess fn y a s.1 r; (p.1, p.2.1, p.2.2, s.2)

/-- The report of the least-squares solvers.  (`gauss_newton.py:300-312`.) -/
structure GNReport (ι : Type) where
  numSteps : Nat
  acceptedSteps : Nat
  stepsSinceAcceptance : Nat
  lossThisStep : ℝ
  lossLastAcceptedStep : ℝ
  stepSize : ℝ
  y : ι → ℝ
  yLastAcceptedStep : ι → ℝ

/-- `gauss_newton.py:300-313`: the names. -/
def GNReport.kwargs (r : GNReport ι) : List (String × Value ι) :=
  [("Step", .count r.numSteps), ("Accepted steps", .count r.acceptedSteps),
   ("Steps since acceptance", .count r.stepsSinceAcceptance), ("Loss on this step", .number r.lossThisStep),
   ("Loss on the last accepted step", .number r.lossLastAcceptedStep), ("Step size", .number r.stepSize),
   ("y", .point r.y), ("y on the last accepted step", .point r.yLastAcceptedStep)]

/-- `gauss_newton.py:298-313`: what `step` reports.  Counts and `loss` (299) are those of the state the step started from; `y` in
line 312 is the one selected in 294-296. -/
noncomputable def gnReport [Fintype κ] (cfg : GaussNewton.Cfg ι κ SS DS) (fn : (ι → ℝ) → (κ → ℝ) × A) (y : ι → ℝ)
    (st : GaussNewton.State ι κ A SS DS) : GNReport ι :=
  let rEval := (fn st.yEval).1
  let s := cfg.search.step st.firstStep y st.yEval (.residualJac st.residual st.jac) (.residualJac rEval (cfg.jac st.yEval))
    st.searchState
  { numSteps := st.numSteps, acceptedSteps := st.numAcceptedSteps, stepsSinceAcceptance := st.numStepsSinceAcceptance,
    lossThisStep := 0.5 * sumSquares rEval, lossLastAcceptedStep := 0.5 * sumSquares st.residual, stepSize := s.1,
    y := st.yEval, yLastAcceptedStep := if s.2.1 then st.yEval else y }

/-- The report of the quasi-Newton minimisers.  (`quasi_newton.py:273-279`.) -/
structure QNReport (ι : Type) where
  lossThisStep : ℝ
  lossLastAcceptedStep : ℝ
  stepSize : ℝ
  y : ι → ℝ
  yLastAcceptedStep : ι → ℝ

/-- `quasi_newton.py:273-279`: the names. -/
def QNReport.kwargs (r : QNReport ι) : List (String × Value ι) :=
  [("Loss on this step", .number r.lossThisStep), ("Loss on the last accepted step", .number r.lossLastAcceptedStep),
   ("Step size", .number r.stepSize), ("y", .point r.y), ("y on the last accepted step", .point r.yLastAcceptedStep)]

/-- `quasi_newton.py:273-279`: what `step` reports. -/
noncomputable def qnReport (cfg : QuasiNewton.Cfg ι SS DS HS) (fn : (ι → ℝ) → ℝ × A) (y : ι → ℝ)
    (st : QuasiNewton.State ι A SS DS HS) : QNReport ι :=
  let fEval := (fn st.yEval).1
  let s := cfg.search.step st.firstStep y st.yEval st.fInfo (.eval fEval) st.searchState
  { lossThisStep := fEval, lossLastAcceptedStep := GradientDescent.fOf st.fInfo, stepSize := s.1, y := st.yEval,
    yLastAcceptedStep := if s.2.1 then st.yEval else y }

/-- The report of `OptaxMinimiser`.  (`optax.py:96-100`.) -/
structure OptaxReport (ι : Type) where
  numSteps : Nat
  lossThisStep : ℝ
  y : ι → ℝ

/-- `optax.py:96-100`: the names. -/
def OptaxReport.kwargs (r : OptaxReport ι) : List (String × Value ι) :=
  [("Step", .count r.numSteps), ("Loss on this step", .number r.lossThisStep), ("y", .point r.y)]

/-- `optax.py:94-100`: what `step` reports. -/
def optaxReport (fn : (ι → ℝ) → ℝ × A) (y : ι → ℝ) (st : Optax.State OS) : OptaxReport ι :=
  { numSteps := st.step, lossThisStep := (fn y).1, y := y }

end Verif.Verbose
