import Verif.Model.Search

/-!
Model of `optimistix/_solver/gauss_newton.py`.

`jac y` is the Jacobian of the residual function at `y` as computed by JAX (`_make_f_info`, 158-181); forward and reverse
mode are taken to give the same matrix.  The linear solver is a parameter; its result is already promoted.
-/

namespace Verif

variable {ι κ : Type}

/-- What a solver configuration provides for linear solves: one function per use in the code (least-squares operators
`κ × ι`, square operators `ι × ι`).  (`gauss_newton.py:75`, `levenberg_marquardt.py:75`.) -/
structure LinSolve (ι κ : Type) where
  rect : Matrix κ ι ℝ → (κ → ℝ) → (ι → ℝ) × Result
  square : Matrix ι ι ℝ → (ι → ℝ) → (ι → ℝ) × Result

/-- Does `newton_step` support this variant (`gauss_newton.py:60-74`)? -/
def newtonAccepts : FnInfo ι κ → Bool
  | .evalGradHessianInv .. => true
  | .evalGradHessian .. => true
  | .residualJac .. => true
  | _ => false

/-- `gauss_newton.py:32-78`, `newton_step` (the last case raises, 71-74; see `newtonAccepts`). -/
def newtonStep [Fintype ι] (ls : LinSolve ι κ) : FnInfo ι κ → (ι → ℝ) × Result
  | .evalGradHessianInv _ g hinv => (hinv.mulVec g, .successful)
  | .evalGradHessian _ g h => ls.square h g
  | .residualJac r jac => ls.rect jac r
  | _ => (fun _ => 0, .successful)

/-- `gauss_newton.py:86-127`, `NewtonDescent`; the state is `(newton, result)`.  Simplification: with `norm` given and a
zero Newton step the code divides `0/0`; here this is `0`. -/
noncomputable def newtonDescent [Fintype ι] (ls : LinSolve ι κ) (norm : Option ((ι → ℝ) → ℝ)) :
    Descent ι κ ((ι → ℝ) × Result) where
  accepts := newtonAccepts
  init y _ := (y, .successful)
  query _ fInfo _ :=
    let n := newtonStep ls fInfo
    match norm with
    | none => n
    | some nm => (fun i => n.1 i / nm n.1, n.2)
  step stepSize st := (fun i => -stepSize * st.1 i, st.2)

namespace GaussNewton

variable {A SS DS : Type}

/-- `gauss_newton.py:207-214`, the attributes of `AbstractGaussNewton` (`verbose`, which only prints, is dropped), with
the Jacobian oracle. -/
structure Cfg (ι κ SS DS : Type) where
  rtol : ℝ
  atol : ℝ
  normY : (ι → ℝ) → ℝ
  normF : (κ → ℝ) → ℝ
  descent : Descent ι κ DS
  search : Search ι κ SS
  jac : (ι → ℝ) → Matrix κ ι ℝ

/-- `gauss_newton.py:140-155`, `_GaussNewtonState`.  `residual`, `jac` are the two fields of its `f_info`. -/
structure State (ι κ A SS DS : Type) where
  firstStep : Bool
  yEval : ι → ℝ
  searchState : SS
  residual : κ → ℝ
  jac : Matrix κ ι ℝ
  aux : A
  descentState : DS
  terminate : Bool
  result : Result
  numSteps : Nat
  numAcceptedSteps : Nat
  numStepsSinceAcceptance : Nat

/-- `gauss_newton.py:216-241`, `init` (errors of incompatible searches/descents as in `GradientDescent.init`).
The initial `f_info` is all zeros (228). -/
def init (cfg : Cfg ι κ SS DS) (aux0 : A) (y : ι → ℝ) : Except Err (State ι κ A SS DS) :=
  let fInfo : FnInfo ι κ := .residualJac (fun _ => 0) 0
  if !cfg.search.accepts fInfo || !cfg.descent.accepts fInfo then .error (.valueError "incompatible search or descent")
  else .ok
    { firstStep := true, yEval := y, searchState := cfg.search.init, residual := fun _ => 0, jac := 0, aux := aux0,
      descentState := cfg.descent.init y fInfo, terminate := false, result := .successful,
      numSteps := 0, numAcceptedSteps := 0, numStepsSinceAcceptance := 0 }

/-- `gauss_newton.py:243-334`, `step`.  (The juggling of jaxprs in 254-260 does not change values.) -/
noncomputable def step (cfg : Cfg ι κ SS DS) (fn : (ι → ℝ) → (κ → ℝ) × A) (y : ι → ℝ) (st : State ι κ A SS DS) :
    (ι → ℝ) × State ι κ A SS DS × A :=
  let rEval := (fn st.yEval).1
  let jEval := cfg.jac st.yEval
  let auxEval := (fn st.yEval).2
  let s := cfg.search.step st.firstStep y st.yEval (.residualJac st.residual st.jac) (.residualJac rEval jEval)
    st.searchState
  let stepSize := s.1
  let accept := s.2.1
  let searchResult := s.2.2.1
  let searchState := s.2.2.2
  -- 276-296, `accepted`/`rejected`: `(y, residual, jac, aux, descent_state, terminate)`
  let r : (ι → ℝ) × (κ → ℝ) × Matrix κ ι ℝ × A × DS × Bool :=
    if accept then
      let descentState := cfg.descent.query st.yEval (.residualJac rEval jEval) st.descentState
      let yDiff := fun i => st.yEval i - y i
      let fDiff := fun i => rEval i - st.residual i
      let terminate := cauchyTermination cfg.rtol cfg.atol cfg.normY cfg.normF st.yEval yDiff rEval fDiff
      (st.yEval, rEval, jEval, auxEval, descentState, terminate)
    else (y, st.residual, st.jac, st.aux, st.descentState, false)
  let d := cfg.descent.step stepSize r.2.2.2.2.1
  let yEval := fun i => r.1 i + d.1 i
  let result := if searchResult = .successful then d.2 else searchResult
  let prevAux := if st.firstStep then r.2.2.2.1 else st.aux
  (r.1,
   { firstStep := false, yEval := yEval, searchState := searchState, residual := r.2.1, jac := r.2.2.1,
     aux := r.2.2.2.1, descentState := r.2.2.2.2.1, terminate := r.2.2.2.2.2, result := result,
     numSteps := st.numSteps + 1,
     numAcceptedSteps := st.numAcceptedSteps + if accept then 1 else 0,
     numStepsSinceAcceptance := if accept then 0 else st.numStepsSinceAcceptance + 1 },
   prevAux)

/-- `gauss_newton.py:184-358`, the solver (`terminate`: 336-345, `postprocess`: 347-358). -/
noncomputable def solver (cfg : Cfg ι κ SS DS) (aux0 : A) :
    Solver (ι → ℝ) (κ → ℝ) A (State ι κ A SS DS) Unit where
  init _ y := init cfg aux0 y
  step := step cfg
  terminate _ _ st := (st.terminate, st.result)
  postprocess _ y aux _ _ := (y, aux, ())

/-- `gauss_newton.py:361-395`, `GaussNewton`: Newton descent with learning rate one. -/
noncomputable def gaussNewton [Fintype ι] (rtol atol : ℝ) (normY : (ι → ℝ) → ℝ) (normF : (κ → ℝ) → ℝ)
    (ls : LinSolve ι κ) (jac : (ι → ℝ) → Matrix κ ι ℝ) : Cfg ι κ Unit ((ι → ℝ) × Result) :=
  { rtol, atol, normY, normF, jac, descent := newtonDescent ls none, search := learningRate 1 }

end GaussNewton

end Verif
