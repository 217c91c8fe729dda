import Verif.Model.FixedPoint
import Verif.Model.LevenbergMarquardt
import Verif.Model.GradientMethods
import Mathlib.Analysis.Complex.Basic
import Mathlib.LinearAlgebra.Matrix.ConjTranspose

/-!
The solvers on complex unknowns (`_iterate.py:333-338` warns that this is "a work in progress, and may still return incorrect
results").

The code is the one modelled elsewhere over the reals; here it is run on `ℂ`.  Conventions of JAX and lineax, which are part
of the trusted base: `jnp.abs` is the modulus; `max_norm`, `rms_norm`, `two_norm` and `sum_squares` see only the moduli, so
that they are given as functions of them; `tree_dot` conjugates its first argument (`_search.py:181`); the derivative of a holomorphic
function is its complex Jacobian; the gradient of a real function `u` of `x + i y` is `du/dx - i du/dy`
(`_search.py:178-180`, `tests/test_least_squares.py:172-178`).  `accepts` (see `Verif.Search`) is dropped: only combinations
that are accepted are modelled.
-/

namespace Verif.Cx

open ComplexConjugate

variable {ι κ A SS DS : Type}

/-- `tree_dot` (`_misc.py:44`) with the convention of `_search.py:181`. -/
def treeDot [Fintype ι] (a b : ι → ℂ) : ℂ := ∑ i, conj (a i) * b i

/-- `sum_squares` (`_misc.py:43`). -/
noncomputable def sumSquares [Fintype ι] (a : ι → ℂ) : ℝ := ∑ i, ‖a i‖ ^ 2

/-- `two_norm` (`_misc.py:45`). -/
noncomputable def twoNorm [Fintype ι] (a : ι → ℂ) : ℝ := Real.sqrt (sumSquares a)

/-- `_misc.py:306-309`: the absolute difference, relative to the tolerance. -/
noncomputable def scaledDiff (rtol atol : ℝ) (x diff : ι → ℂ) : ι → ℝ := fun i => ‖diff i‖ / (atol + rtol * ‖x i‖)

/-- `_misc.py:291-310`, `cauchy_termination`. -/
noncomputable def cauchyTermination (rtol atol : ℝ) (normY : (ι → ℝ) → ℝ) (normF : (κ → ℝ) → ℝ) (y yDiff : ι → ℂ)
    (f fDiff : κ → ℂ) : Bool :=
  decide (normY (scaledDiff rtol atol y yDiff) < 1) && decide (normF (scaledDiff rtol atol f fDiff) < 1)

/-! ### `optimistix/_solver/fixed_point.py` -/

namespace FixedPointIter

/-- `fixed_point.py:52-69`, `step`. -/
noncomputable def step (cfg : Verif.FixedPointIter.Cfg ι ℝ) (fn : (ι → ℂ) → (ι → ℂ) × A) (y : ι → ℂ) (_st : Option ℝ) :
    (ι → ℂ) × Option ℝ × A :=
  let fa := fn y
  let newY : ι → ℂ := fun i => (1 - cfg.damp) * fa.1 i + cfg.damp * y i
  let error : ι → ℂ := fun i => y i - newY i
  let scale : ι → ℝ := fun i => cfg.atol + cfg.rtol * ‖newY i‖
  (newY, some (cfg.norm fun i => ‖error i / scale i‖), fa.2)

/-- `fixed_point.py:21-93`, the solver. -/
noncomputable def solver (cfg : Verif.FixedPointIter.Cfg ι ℝ) : Solver (ι → ℂ) (ι → ℂ) A (Option ℝ) Unit where
  init _ _ := .ok none
  step := step cfg
  terminate _ _ st := Verif.FixedPointIter.terminate st
  postprocess _ y aux _ _ := (y, aux, ())

end FixedPointIter

/-! ### `optimistix/_solver/newton_chord.py` -/

namespace NewtonChord

/-- `newton_chord.py:60-67`, the attributes (without the bounds, which make no sense here), the Jacobian, the linear solver, the
number standing for `jnp.inf` and the resolution (28), as in `Verif.NewtonChord.Cfg`. -/
structure Cfg (ι κ : Type) where
  rtol : ℝ
  atol : ℝ
  normY : (ι → ℝ) → ℝ
  normF : (κ → ℝ) → ℝ
  kappa : ℝ
  cauchy : Bool
  isNewton : Bool
  jac : (ι → ℂ) → Matrix κ ι ℂ
  linearSolve : Matrix κ ι ℂ → (κ → ℂ) → (ι → ℂ) × Result
  inf : ℝ
  isfinite : ℝ → Bool
  resolution : ℝ

/-- `newton_chord.py:40-47`, `_NewtonChordState`.  (The code stores the real numbers `diffsize` as complex numbers, 92-98, 147; it
compares them only with each other and with real numbers.) -/
structure State (ι κ : Type) where
  f : Option (κ → ℂ)
  linearState : Option (Matrix κ ι ℂ)
  diff : ι → ℂ
  diffsize : ℝ
  diffsizePrev : ℝ
  result : Result
  step : Nat

/-- `newton_chord.py:69-101`, `init`. -/
def init (cfg : Cfg ι κ) (y : ι → ℂ) : State ι κ :=
  { f := if cfg.cauchy then some (fun _ => cfg.inf) else none
    linearState := if cfg.isNewton then none else some (cfg.jac y)
    diff := fun _ => cfg.inf
    diffsize := cfg.inf
    diffsizePrev := 1
    result := .successful
    step := 0 }

/-- `newton_chord.py:115-128`: the linear solve. -/
def linSol (cfg : Cfg ι κ) (y : ι → ℂ) (fx : κ → ℂ) (st : State ι κ) : (ι → ℂ) × Result :=
  match cfg.isNewton, st.linearState with
  | false, some j => cfg.linearSolve j fx
  | _, _ => cfg.linearSolve (cfg.jac y) fx

/-- `newton_chord.py:103-152`, `step`. -/
noncomputable def step (cfg : Cfg ι κ) (fn : (ι → ℂ) → (κ → ℂ) × A) (y : ι → ℂ) (st : State ι κ) :
    (ι → ℂ) × State ι κ × A :=
  let fa := fn y
  let sol := linSol cfg y fa.1 st
  let diff := sol.1
  let newY : ι → ℂ := fun i => y i - diff i
  let scale : ι → ℝ := fun i => cfg.atol + cfg.rtol * ‖newY i‖
  let diffsize := cfg.normY fun i => ‖diff i / scale i‖
  (newY,
   { f := if cfg.cauchy then some fa.1 else none
     linearState := st.linearState
     diff := diff
     diffsize := diffsize
     diffsizePrev := st.diffsize
     result := sol.2
     step := st.step + 1 },
   fa.2)

/-- `newton_chord.py:154-196`, `terminate` (with `_small`, `_diverged`, `_converged`, 25-37). -/
noncomputable def terminate (cfg : Cfg ι κ) (y : ι → ℂ) (st : State ι κ) : Bool × Result :=
  let tr : Bool × Result :=
    match cfg.cauchy, st.f with
    | true, some f =>
      (cauchyTermination cfg.rtol cfg.atol cfg.normY cfg.normF y st.diff (fun _ => 0) f, .successful)
    | _, _ =>
      let atLeastTwo := decide (2 ≤ st.step)
      let rate := st.diffsize / st.diffsizePrev
      let factor := st.diffsize * rate / (1 - rate)
      let sm := decide (st.diffsize < cfg.resolution)
      let dv := !(cfg.isfinite rate) || decide (rate > 2)
      let cv := decide (factor > 0) && decide (factor < cfg.kappa)
      (atLeastTwo && (sm || dv || cv),
       if atLeastTwo && !sm && dv then .nonlinearDivergence else .successful)
  let linsolveFail := decide (st.result ≠ .successful)
  (linsolveFail || tr.1, if linsolveFail then st.result else tr.2)

/-- `newton_chord.py:59-251`, the solvers `Newton` and `Chord`. -/
noncomputable def solver (cfg : Cfg ι κ) : Solver (ι → ℂ) (κ → ℂ) A (State ι κ) Unit where
  init _ y := .ok (init cfg y)
  step := step cfg
  terminate _ y st := terminate cfg y st
  postprocess _ y aux _ _ := (y, aux, ())

end NewtonChord

/-! ### `optimistix/_search.py` -/

/-- `_search.py:44-197`, the variants of `FunctionInfo` that occur here. -/
inductive FnInfo (ι κ : Type) where
  | eval (f : ℝ)
  | evalGrad (f : ℝ) (grad : ι → ℂ)
  | residualJac (r : κ → ℂ) (jac : Matrix κ ι ℂ)

/-- `as_min`: `_search.py:77-78, 91-92, 155-156`. -/
noncomputable def FnInfo.asMin [Fintype κ] : FnInfo ι κ → ℝ
  | eval f => f
  | evalGrad f _ => f
  | residualJac r _ => 0.5 * sumSquares r

/-- `_search.py:158-160`, `ResidualJac.compute_grad`, of the residuals `r` and the Jacobian `jac`. -/
def computeGrad [Fintype κ] (r : κ → ℂ) (jac : Matrix κ ι ℂ) : ι → ℂ := jac.transpose.mulVec fun k => conj (r k)

/-- `_search.py:162-183`, `ResidualJac.compute_grad_dot`. -/
def computeGradDot [Fintype ι] [Fintype κ] (r : κ → ℂ) (jac : Matrix κ ι ℂ) (y : ι → ℂ) : ℂ :=
  treeDot (jac.mulVec fun i => conj (y i)) r

/-- `_search.py:316-379`, `AbstractSearch`. -/
structure Search (ι κ SS : Type) where
  init : SS
  step : Bool → (ι → ℂ) → (ι → ℂ) → FnInfo ι κ → FnInfo ι κ → SS → ℝ × Bool × Result × SS

/-- `_search.py:248-313`, `AbstractDescent`. -/
structure Descent (ι κ DS : Type) where
  init : (ι → ℂ) → FnInfo ι κ → DS
  query : (ι → ℂ) → FnInfo ι κ → DS → DS
  step : ℝ → DS → (ι → ℂ) × Result

/-- `learning_rate.py:16-35`, `LearningRate`. -/
def learningRate (rate : ℝ) : Search ι κ Unit where
  init := ()
  step _ _ _ _ _ _ := (rate, true, .successful, ())

/-- `trust_region.py:165-186`: `ClassicalTrustRegion.predict_reduction` for least squares (other variants do not occur). -/
noncomputable def classicalPredict [Fintype ι] [Fintype κ] (yDiff : ι → ℂ) : FnInfo ι κ → ℝ
  | .residualJac r jac =>
    let rtr := sumSquares r
    let jacobianTerm := sumSquares fun i => jac.mulVec yDiff i + r i
    0.5 * (jacobianTerm - rtr)
  | _ => 0

/-- `trust_region.py:109-193`, `ClassicalTrustRegion`. -/
noncomputable def classical [Fintype ι] [Fintype κ] (cfg : TrustRegion.Cfg ℝ) : Search ι κ ℝ where
  init := 1
  step firstStep y yEval fInfo fEvalInfo stepSize :=
    let yDiff := fun i => yEval i - y i
    let d := TrustRegion.decide' cfg firstStep (classicalPredict yDiff fInfo) fInfo.asMin fEvalInfo.asMin stepSize
    (d.1, d.2, .successful, d.1)

/-! ### Descents -/

/-- A linear solver for complex least-squares problems.  Called in `gauss_newton.py:75` and `levenberg_marquardt.py:75`. -/
abbrev LinSolve (ι κ : Type) := Matrix κ ι ℂ → (κ → ℂ) → (ι → ℂ) × Result

/-- `gauss_newton.py:32-78`, `newton_step`, for least squares (other variants do not occur). -/
def newtonStep (ls : LinSolve ι κ) : FnInfo ι κ → (ι → ℂ) × Result
  | .residualJac r jac => ls jac r
  | _ => (fun _ => 0, .successful)

/-- `gauss_newton.py:86-127`, `NewtonDescent` without normalisation. -/
def newtonDescent (ls : LinSolve ι κ) : Descent ι κ ((ι → ℂ) × Result) where
  init y _ := (y, .successful)
  query _ fInfo _ := newtonStep ls fInfo
  step stepSize st := (fun i => -stepSize * st.1 i, st.2)

/-- `levenberg_marquardt.py:23-31`, `_Damped`. -/
noncomputable def dampedOperator [DecidableEq ι] (jac : Matrix κ ι ℂ) (damping : ℝ) : Matrix (κ ⊕ ι) ι ℂ :=
  Matrix.of fun s i => match s with
    | .inl k => jac k i
    | .inr j => if j = i then (Real.sqrt damping : ℂ) else 0

/-- `levenberg_marquardt.py:69`: `(residual, 0)`. -/
def dampedVector (r : κ → ℂ) : κ ⊕ ι → ℂ
  | .inl k => r k
  | .inr _ => 0

/-- `levenberg_marquardt.py:34-76`, `damped_newton_step`, for least squares (other variants do not occur). -/
noncomputable def dampedNewtonStep [DecidableEq ι] (eps fmax : ℝ) (ls : LinSolve ι (κ ⊕ ι)) (stepSize : ℝ) :
    FnInfo ι κ → (ι → ℂ) × Result
  | .residualJac r jac => ls (dampedOperator jac (lmParam eps fmax stepSize)) (dampedVector r)
  | _ => (fun _ => 0, .successful)

/-- `levenberg_marquardt.py:83-133`, `DampedNewtonDescent`. -/
noncomputable def dampedNewtonDescent [DecidableEq ι] (eps fmax : ℝ) (ls : LinSolve ι (κ ⊕ ι)) :
    Descent ι κ (FnInfo ι κ) where
  init _ fInfo := fInfo
  query _ fInfo _ := fInfo
  step stepSize st :=
    let s := dampedNewtonStep eps fmax ls stepSize st
    (fun i => -s.1 i, s.2)

/-- `levenberg_marquardt.py:142-146`, `_IndirectDampedNewtonDescentState`. -/
structure IndirectState (ι κ : Type) where
  fInfo : FnInfo ι κ
  newton : ι → ℂ
  newtonNorm : ℝ
  result : Result

/-- `levenberg_marquardt.py:149-243`, `IndirectDampedNewtonDescent` with `two_norm`; `findLambda` as in `Verif.indirectDescent`. -/
noncomputable def indirectDescent [Fintype ι] [DecidableEq ι] (eps fmax : ℝ) (ls : LinSolve ι κ)
    (lsD : LinSolve ι (κ ⊕ ι)) (findLambda : (ℝ → ℝ) → ℝ × Result) : Descent ι κ (IndirectState ι κ) where
  init y fInfo := { fInfo, newton := y, newtonNorm := 0, result := .successful }
  query _ fInfo _ :=
    let n := newtonStep ls fInfo
    { fInfo, newton := n.1, newtonNorm := twoNorm n.1, result := n.2 }
  step stepSize st :=
    let scaledStepSize := st.newtonNorm * stepSize
    let comparisonFn := fun l => twoNorm (dampedNewtonStep eps fmax lsD (1 / l) st.fInfo).1 - scaledStepSize
    let r := if st.result = .successful ∧ stepSize < 1 then
        dampedNewtonStep eps fmax lsD (1 / (findLambda comparisonFn).1) st.fInfo
      else (st.newton, st.result)
    (fun i => -r.1 i, r.2)

/-- `gradient_methods.py:42-79`, `SteepestDescent` without normalisation; the state is the gradient. -/
def steepestDescent : Descent ι κ (ι → ℂ) where
  init y _ := y
  query _ fInfo st := match fInfo with
    | .evalGrad _ g => g
    | _ => st
  step stepSize grad := (fun i => -stepSize * grad i, .successful)

/-- `dogleg.py:77-102`: the Cauchy step of a least-squares problem. -/
noncomputable def cauchyStep [Fintype ι] [Fintype κ] (eps : ℝ) (r : κ → ℂ) (jac : Matrix κ ι ℂ) : ι → ℂ :=
  let grad := computeGrad r jac
  let denom := sumSquares (jac.mulVec grad)
  let scaling := if eps < denom then sumSquares grad / denom else 0
  fun i => -scaling * grad i

/-! ### `optimistix/_solver/gauss_newton.py` -/

namespace GaussNewton

/-- `gauss_newton.py:207-214`, the attributes of `AbstractGaussNewton`, with the complex Jacobian. -/
structure Cfg (ι κ SS DS : Type) where
  rtol : ℝ
  atol : ℝ
  normY : (ι → ℝ) → ℝ
  normF : (κ → ℝ) → ℝ
  descent : Descent ι κ DS
  search : Search ι κ SS
  jac : (ι → ℂ) → Matrix κ ι ℂ

/-- `gauss_newton.py:140-155`, `_GaussNewtonState` (without the step counts). -/
structure State (ι κ A SS DS : Type) where
  firstStep : Bool
  yEval : ι → ℂ
  searchState : SS
  residual : κ → ℂ
  jac : Matrix κ ι ℂ
  aux : A
  descentState : DS
  terminate : Bool
  result : Result

/-- `gauss_newton.py:216-241`, `init`. -/
def init (cfg : Cfg ι κ SS DS) (aux0 : A) (y : ι → ℂ) : State ι κ A SS DS :=
  { firstStep := true, yEval := y, searchState := cfg.search.init, residual := fun _ => 0, jac := 0, aux := aux0,
    descentState := cfg.descent.init y (.residualJac (fun _ => 0) 0), terminate := false, result := .successful }

/-- `gauss_newton.py:243-334`, `step`. -/
noncomputable def step (cfg : Cfg ι κ SS DS) (fn : (ι → ℂ) → (κ → ℂ) × A) (y : ι → ℂ) (st : State ι κ A SS DS) :
    (ι → ℂ) × State ι κ A SS DS × A :=
  let rEval := (fn st.yEval).1
  let jEval := cfg.jac st.yEval
  let auxEval := (fn st.yEval).2
  let s := cfg.search.step st.firstStep y st.yEval (.residualJac st.residual st.jac) (.residualJac rEval jEval)
    st.searchState
  let stepSize := s.1
  let accept := s.2.1
  let searchResult := s.2.2.1
  let searchState := s.2.2.2
  let r : (ι → ℂ) × (κ → ℂ) × Matrix κ ι ℂ × A × DS × Bool :=
    if accept then
      let descentState := cfg.descent.query st.yEval (.residualJac rEval jEval) st.descentState
      let yDiff := fun i => st.yEval i - y i
      let fDiff := fun i => rEval i - st.residual i
      let terminate := cauchyTermination cfg.rtol cfg.atol cfg.normY cfg.normF st.yEval yDiff rEval fDiff
      (st.yEval, rEval, jEval, auxEval, descentState, terminate)
    else (y, st.residual, st.jac, st.aux, st.descentState, false)
  let d := cfg.descent.step stepSize r.2.2.2.2.1
  let yEval := fun i => r.1 i + d.1 i
  let result := if searchResult = .successful then d.2 else searchResult
  let prevAux := if st.firstStep then r.2.2.2.1 else st.aux
  (r.1,
   { firstStep := false, yEval := yEval, searchState := searchState, residual := r.2.1, jac := r.2.2.1,
     aux := r.2.2.2.1, descentState := r.2.2.2.2.1, terminate := r.2.2.2.2.2, result := result },
   prevAux)

/-- `gauss_newton.py:184-358`, the solver. -/
noncomputable def solver (cfg : Cfg ι κ SS DS) (aux0 : A) : Solver (ι → ℂ) (κ → ℂ) A (State ι κ A SS DS) Unit where
  init _ y := .ok (init cfg aux0 y)
  step := step cfg
  terminate _ _ st := (st.terminate, st.result)
  postprocess _ y aux _ _ := (y, aux, ())

/-- `gauss_newton.py:361-395`, `GaussNewton`. -/
def gaussNewton (rtol atol : ℝ) (normY : (ι → ℝ) → ℝ) (normF : (κ → ℝ) → ℝ) (ls : LinSolve ι κ)
    (jac : (ι → ℂ) → Matrix κ ι ℂ) : Cfg ι κ Unit ((ι → ℂ) × Result) :=
  { rtol, atol, normY, normF, jac, descent := newtonDescent ls, search := learningRate 1 }

/-- `levenberg_marquardt.py:256-294`, `LevenbergMarquardt`. -/
noncomputable def levenbergMarquardt [Fintype ι] [DecidableEq ι] [Fintype κ] (eps fmax rtol atol : ℝ)
    (normY : (ι → ℝ) → ℝ) (normF : (κ → ℝ) → ℝ) (ls : LinSolve ι (κ ⊕ ι)) (jac : (ι → ℂ) → Matrix κ ι ℂ) :
    Cfg ι κ ℝ (FnInfo ι κ) :=
  { rtol, atol, normY, normF, jac, descent := dampedNewtonDescent eps fmax ls,
    search := classical TrustRegion.defaults }

/-- `levenberg_marquardt.py:315-360`, `IndirectLevenbergMarquardt`. -/
noncomputable def indirectLevenbergMarquardt [Fintype ι] [DecidableEq ι] [Fintype κ] (eps fmax rtol atol : ℝ)
    (normY : (ι → ℝ) → ℝ) (normF : (κ → ℝ) → ℝ) (ls : LinSolve ι κ) (lsD : LinSolve ι (κ ⊕ ι))
    (findLambda : (ℝ → ℝ) → ℝ × Result) (jac : (ι → ℂ) → Matrix κ ι ℂ) : Cfg ι κ ℝ (IndirectState ι κ) :=
  { rtol, atol, normY, normF, jac, descent := indirectDescent eps fmax ls lsD findLambda,
    search := classical TrustRegion.defaults }

end GaussNewton

/-! ### `optimistix/_solver/gradient_methods.py` -/

namespace GradientDescent

/-- `gradient_methods.py:130-136`, the attributes of `AbstractGradientDescent`, with the gradient as computed by JAX
(`lin_to_grad`, `_misc.py:245-258`; `autodiff_mode="fwd"` raises for complex inputs). -/
structure Cfg (ι SS DS : Type) where
  rtol : ℝ
  atol : ℝ
  normY : (ι → ℝ) → ℝ
  normF : (Unit → ℝ) → ℝ
  descent : Descent ι Unit DS
  search : Search ι Unit SS
  grad : (ι → ℂ) → ι → ℂ

/-- `gradient_methods.py:91-104`, `_GradientDescentState`. -/
structure State (ι A SS DS : Type) where
  firstStep : Bool
  yEval : ι → ℂ
  searchState : SS
  fInfo : FnInfo ι Unit
  aux : A
  descentState : DS
  terminate : Bool
  result : Result

/-- `gradient_methods.py:138-159`, `init`. -/
def init (cfg : Cfg ι SS DS) (aux0 : A) (y : ι → ℂ) : State ι A SS DS :=
  { firstStep := true, yEval := y, searchState := cfg.search.init, fInfo := .evalGrad 0 y, aux := aux0,
    descentState := cfg.descent.init y (.evalGrad 0 y), terminate := false, result := .successful }

/-- `gradient_methods.py:161-222`, `step`. -/
noncomputable def step (cfg : Cfg ι SS DS) (fn : (ι → ℂ) → ℝ × A) (y : ι → ℂ) (st : State ι A SS DS) :
    (ι → ℂ) × State ι A SS DS × A :=
  let fEval := (fn st.yEval).1
  let auxEval := (fn st.yEval).2
  let s := cfg.search.step st.firstStep y st.yEval st.fInfo (.eval fEval) st.searchState
  let stepSize := s.1
  let accept := s.2.1
  let searchResult := s.2.2.1
  let searchState := s.2.2.2
  let r : (ι → ℂ) × FnInfo ι Unit × A × DS × Bool :=
    if accept then
      let fEvalInfo : FnInfo ι Unit := .evalGrad fEval (cfg.grad st.yEval)
      let descentState := cfg.descent.query st.yEval fEvalInfo st.descentState
      let yDiff := fun i => st.yEval i - y i
      let fDiff : ℝ := fEval - st.fInfo.asMin
      let terminate := cauchyTermination cfg.rtol cfg.atol cfg.normY cfg.normF st.yEval yDiff
        (fun _ => (fEval : ℂ)) (fun _ => (fDiff : ℂ))
      let terminate := if st.firstStep then false else terminate
      (st.yEval, fEvalInfo, auxEval, descentState, terminate)
    else (y, st.fInfo, st.aux, st.descentState, false)
  let d := cfg.descent.step stepSize r.2.2.2.1
  let yEval := fun i => r.1 i + d.1 i
  let result := if searchResult = .successful then d.2 else searchResult
  let prevAux := if st.firstStep then r.2.2.1 else st.aux
  (r.1,
   { firstStep := false, yEval := yEval, searchState := searchState, fInfo := r.2.1, aux := r.2.2.1,
     descentState := r.2.2.2.1, terminate := r.2.2.2.2, result := result },
   prevAux)

/-- `gradient_methods.py:107-246`, the solver. -/
noncomputable def solver (cfg : Cfg ι SS DS) (aux0 : A) : Solver (ι → ℂ) ℝ A (State ι A SS DS) Unit where
  init _ y := .ok (init cfg aux0 y)
  step := step cfg
  terminate _ _ st := (st.terminate, st.result)
  postprocess _ y aux _ _ := (y, aux, ())

/-- `gradient_methods.py:249-287`, `GradientDescent`. -/
def gradientDescent (learningRate' rtol atol : ℝ) (normY : (ι → ℝ) → ℝ) (normF : (Unit → ℝ) → ℝ)
    (grad : (ι → ℂ) → ι → ℂ) : Cfg ι Unit (ι → ℂ) :=
  { rtol, atol, normY, normF, grad, descent := steepestDescent, search := learningRate learningRate' }

end GradientDescent

end Verif.Cx
