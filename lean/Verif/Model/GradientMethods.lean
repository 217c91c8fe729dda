import Verif.Model.Search

/-!
Model of `optimistix/_solver/gradient_methods.py` (`AbstractGradientDescent`, `GradientDescent`) and of
`optimistix/_solver/nonlinear_cg.py`.

`grad y` is the gradient of the user's function at `y` as computed by JAX (`jax.linearize` + `lin_to_grad`,
gradient_methods.py:171, 184); both autodiff modes are taken to give the same value.
-/

namespace Verif

namespace GradientDescent

variable {ι A SS DS : Type}

/-- `gradient_methods.py:130-136`, the attributes of `AbstractGradientDescent`; `normY`/`normF` are the one `norm` at
the two tree structures it is used at; `grad` is the gradient oracle. -/
structure Cfg (ι SS DS : Type) where
  rtol : ℝ
  atol : ℝ
  normY : (ι → ℝ) → ℝ
  normF : (Unit → ℝ) → ℝ
  descent : Descent ι Unit DS
  search : Search ι Unit SS
  grad : (ι → ℝ) → (ι → ℝ)

/-- `gradient_methods.py:91-104`, `_GradientDescentState`. -/
structure State (ι A SS DS : Type) where
  firstStep : Bool
  yEval : ι → ℝ
  searchState : SS
  fInfo : FnInfo ι Unit
  aux : A
  descentState : DS
  terminate : Bool
  result : Result

/-- `gradient_methods.py:138-159`, `init`.  `aux0` is the all-zeros placeholder (155).  The `ValueError`s of
incompatible searches and descents, raised when `step` is traced, are raised here. -/
def init (cfg : Cfg ι SS DS) (aux0 : A) (y : ι → ℝ) : Except Err (State ι A SS DS) :=
  let fInfo : FnInfo ι Unit := .evalGrad 0 y
  if !cfg.search.accepts fInfo || !cfg.descent.accepts fInfo then .error (.valueError "incompatible search or descent")
  else .ok
    { firstStep := true, yEval := y, searchState := cfg.search.init, fInfo := fInfo, aux := aux0,
      descentState := cfg.descent.init y fInfo, terminate := false, result := .successful }

/-- `state.f_info.f` (gradient_methods.py:189).  The residual variants have no `.f` and do not occur in minimisers. -/
noncomputable def fOf : FnInfo ι Unit → ℝ
  | .eval f => f
  | .evalGrad f _ => f
  | .evalGradHessian f _ _ => f
  | .evalGradHessianInv f _ _ => f
  | i => i.asMin

/-- `gradient_methods.py:161-222`, `step`. -/
noncomputable def step (cfg : Cfg ι SS DS) (fn : (ι → ℝ) → ℝ × A) (y : ι → ℝ) (st : State ι A SS DS) :
    (ι → ℝ) × State ι A SS DS × A :=
  let fEval := (fn st.yEval).1
  let auxEval := (fn st.yEval).2
  let s := cfg.search.step st.firstStep y st.yEval st.fInfo (.eval fEval) st.searchState
  let stepSize := s.1
  let accept := s.2.1
  let searchResult := s.2.2.1
  let searchState := s.2.2.2
  -- 183-203, `accepted`/`rejected`: `(y, f_info, aux, descent_state, terminate)`
  let r : (ι → ℝ) × FnInfo ι Unit × A × DS × Bool :=
    if accept then
      let fEvalInfo : FnInfo ι Unit := .evalGrad fEval (cfg.grad st.yEval)
      let descentState := cfg.descent.query st.yEval fEvalInfo st.descentState
      let yDiff := fun i => st.yEval i - y i
      let fDiff := fEval - fOf st.fInfo
      let terminate := cauchyTermination cfg.rtol cfg.atol cfg.normY cfg.normF st.yEval yDiff
        (fun _ => fEval) (fun _ => fDiff)
      let terminate := if st.firstStep then false else terminate
      (st.yEval, fEvalInfo, auxEval, descentState, terminate)
    else (y, st.fInfo, st.aux, st.descentState, false)
  let d := cfg.descent.step stepSize r.2.2.2.1
  let yEval := fun i => r.1 i + d.1 i
  let result := if searchResult = .successful then d.2 else searchResult
  let prevAux := if st.firstStep then r.2.2.1 else st.aux
  (r.1,
   { firstStep := false, yEval := yEval, searchState := searchState, fInfo := r.2.1, aux := r.2.2.1,
     descentState := r.2.2.2.1, terminate := r.2.2.2.2, result := result },
   prevAux)

/-- `gradient_methods.py:107-246`, the solver (`terminate`: 224-233, `postprocess`: 235-246). -/
noncomputable def solver (cfg : Cfg ι SS DS) (aux0 : A) : Solver (ι → ℝ) ℝ A (State ι A SS DS) Unit where
  init _ y := init cfg aux0 y
  step := step cfg
  terminate _ _ st := (st.terminate, st.result)
  postprocess _ y aux _ _ := (y, aux, ())

/-- `gradient_methods.py:249-287`, `GradientDescent`: steepest descent with a constant learning rate. -/
noncomputable def gradientDescent (learningRate' rtol atol : ℝ) (normY : (ι → ℝ) → ℝ) (normF : (Unit → ℝ) → ℝ)
    (grad : (ι → ℝ) → (ι → ℝ)) : Cfg ι Unit (ι → ℝ) :=
  { rtol, atol, normY, normF, grad, descent := steepestDescent none, search := learningRate learningRate' }

end GradientDescent

namespace NonlinearCG

variable {ι κ : Type} [Fintype ι] [Fintype κ]

/-- `nonlinear_cg.py:23-35`, `polak_ribiere`; `eps` is `jnp.finfo(dtype).eps`. -/
noncomputable def polakRibiere (eps : ℝ) (grad gradPrev _yDiffPrev : ι → ℝ) : ℝ :=
  let numerator := treeDot grad fun i => grad i - gradPrev i
  let denominator := sumSquares gradPrev
  if eps < denominator then (if numerator / denominator < 0 then 0 else numerator / denominator) else 0

/-- `nonlinear_cg.py:38-47`, `fletcher_reeves`. -/
noncomputable def fletcherReeves (eps : ℝ) (grad gradPrev _yDiffPrev : ι → ℝ) : ℝ :=
  let numerator := sumSquares grad
  let denominator := sumSquares gradPrev
  if eps < denominator then numerator / denominator else 0

/-- `nonlinear_cg.py:50-59`, `hestenes_stiefel` (note the minus sign of line 55). -/
noncomputable def hestenesStiefel (eps : ℝ) (grad gradPrev yDiffPrev : ι → ℝ) : ℝ :=
  let gradDiff := fun i => grad i - gradPrev i
  let numerator := treeDot grad gradDiff
  let denominator := -treeDot yDiffPrev gradDiff
  if eps < |denominator| then numerator / denominator else 0

/-- `nonlinear_cg.py:62-70`, `dai_yuan` (note the minus sign of line 66). -/
noncomputable def daiYuan (eps : ℝ) (grad gradPrev yDiffPrev : ι → ℝ) : ℝ :=
  let numerator := sumSquares grad
  let denominator := -treeDot yDiffPrev fun i => grad i - gradPrev i
  if eps < |denominator| then numerator / denominator else 0

/-- `nonlinear_cg.py:73-75`, `_NonlinearCGDescentState`. -/
structure DState (ι : Type) where
  yDiff : ι → ℝ
  grad : ι → ℝ

/-- `nonlinear_cg.py:78-154`, `NonlinearCGDescent`. -/
noncomputable def descent (method : (ι → ℝ) → (ι → ℝ) → (ι → ℝ) → ℝ) : Descent ι κ (DState ι) where
  accepts i := i.grad?.isSome
  init _ _ := { yDiff := fun _ => 0, grad := fun _ => 0 }
  query _ fInfo st :=
    let grad := fInfo.grad?.getD st.grad
    let beta := method grad st.grad st.yDiff
    let negGrad := fun i => -grad i
    let direction := fun i => negGrad i + beta * st.yDiff i
    { yDiff := if treeDot grad direction < 0 then direction else negGrad, grad := grad }
  step stepSize st := (fun i => stepSize * st.yDiff i, .successful)

/-- `nonlinear_cg.py:171-218`, `NonlinearCG`: `AbstractGradientDescent` with the CG descent and any search. -/
noncomputable def cfg {SS : Type} (rtol atol : ℝ) (normY : (ι → ℝ) → ℝ) (normF : (Unit → ℝ) → ℝ)
    (method : (ι → ℝ) → (ι → ℝ) → (ι → ℝ) → ℝ) (search : Search ι Unit SS) (grad : (ι → ℝ) → (ι → ℝ)) :
    GradientDescent.Cfg ι SS (DState ι) :=
  { rtol, atol, normY, normF, grad, descent := descent method, search := search }

end NonlinearCG

end Verif
