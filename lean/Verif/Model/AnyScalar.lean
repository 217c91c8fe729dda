import Verif.Model.GradientMethods
import Verif.Model.QuasiNewton
import Verif.Model.GaussNewton
import Verif.Model.Golden
import Verif.Model.Optax

/-!
The solvers of `GradientMethods`, `QuasiNewton`, `GaussNewton`, `Golden`, `Optax` and `NelderMead` are modelled over the
reals.  Here their control flow is written once more over an arbitrary scalar type `K`, so that it can be run on `XR`
(NaN and infinities).  For `K = ℝ` these definitions *are* the other models: see `Props/FiniteAnswers.lean`
(`gradient_is_search`, `quasi_newton_is_search`, `gauss_newton_is_search`, `golden_is_golden`, `optax_is_optax`).
-/

namespace Verif

/-! ### Search-based solvers -/

namespace SearchBased

/-- What `AbstractGradientDescent` (`gradient_methods.py:130-136`), `AbstractQuasiNewton` (`quasi_newton.py:145-175`) and
`AbstractGaussNewton` (`gauss_newton.py:207-214`) have in common, over scalars `K`.  `I` is the type of the stored
`f_info`, `E` of the one handed to the search for the trial point, `Out` of the output of `fn`.
`makeEval` makes the trial point's information, `makeInfo` the stored one after acceptance (gradient, Hessian update or
Jacobian), `flat` lists the entries of an output and `stored` those of the output held in an `f_info`.
`skipFirst`: is the stopping test disabled at the first step (`gradient_methods.py:193-195`, `quasi_newton.py:247-249`;
not in `gauss_newton.py`)? -/
structure Cfg (ι κ K Out I E SS DS HS : Type) where
  rtol : K
  atol : K
  normY : (ι → K) → K
  normF : (κ → K) → K
  flat : Out → κ → K
  stored : I → κ → K
  makeEval : (ι → K) → Out → E
  makeInfo : (ι → K) → (ι → K) → I → Out → HS → I × HS
  search : Bool → (ι → K) → (ι → K) → I → E → SS → K × Bool × Result × SS
  query : (ι → K) → I → DS → DS
  descend : K → DS → (ι → K) × Result
  skipFirst : Bool

/-- `gradient_methods.py:91-104`, `quasi_newton.py:85-104`, `gauss_newton.py:140-155` (without the counters). -/
structure State (ι K I A SS DS HS : Type) where
  firstStep : Bool
  yEval : ι → K
  searchState : SS
  fInfo : I
  aux : A
  descentState : DS
  terminate : Bool
  result : Result
  hess : HS

variable {ι κ K Out I E SS DS HS A : Type} [Add K] [Sub K] [Mul K] [Div K] [One K] [LT K] [DecidableLT K] [HasAbs K]

/-- `gradient_methods.py:161-222`, `quasi_newton.py:204-300`, `gauss_newton.py:243-334`, `step`. -/
noncomputable def step (cfg : Cfg ι κ K Out I E SS DS HS) (fn : (ι → K) → Out × A) (y : ι → K)
    (st : State ι K I A SS DS HS) : (ι → K) × State ι K I A SS DS HS × A :=
  let out := (fn st.yEval).1
  let auxEval := (fn st.yEval).2
  let s := cfg.search st.firstStep y st.yEval st.fInfo (cfg.makeEval st.yEval out) st.searchState
  let stepSize := s.1
  let accept := s.2.1
  let searchResult := s.2.2.1
  let searchState := s.2.2.2
  let r : (ι → K) × I × A × DS × Bool × HS :=
    if accept then
      let u := cfg.makeInfo y st.yEval st.fInfo out st.hess
      let descentState := cfg.query st.yEval u.1 st.descentState
      let yDiff := fun i => st.yEval i - y i
      let fDiff := fun j => cfg.flat out j - cfg.stored st.fInfo j
      let terminate := cauchyTermination cfg.rtol cfg.atol cfg.normY cfg.normF st.yEval yDiff (cfg.flat out) fDiff
      let terminate := if cfg.skipFirst && st.firstStep then false else terminate
      (st.yEval, u.1, auxEval, descentState, terminate, u.2)
    else (y, st.fInfo, st.aux, st.descentState, false, st.hess)
  let d := cfg.descend stepSize r.2.2.2.1
  let yEval := fun i => r.1 i + d.1 i
  let result := if searchResult = .successful then d.2 else searchResult
  let prevAux := if st.firstStep then r.2.2.1 else st.aux
  (r.1,
   { firstStep := false, yEval := yEval, searchState := searchState, fInfo := r.2.1, aux := r.2.2.1,
     descentState := r.2.2.2.1, terminate := r.2.2.2.2.1, result := result, hess := r.2.2.2.2.2 },
   prevAux)

/-- The solvers as such: `terminate` and `postprocess` are `gradient_methods.py:224-246`, `quasi_newton.py:302-324`,
`gauss_newton.py:336-358`.  `init0` makes the initial state, or an error (`init` of the three files); the flag `terminate` of
the initial state is `False` there (`gradient_methods.py:157`, `quasi_newton.py:198`, `gauss_newton.py:236`). -/
noncomputable def solver (cfg : Cfg ι κ K Out I E SS DS HS)
    (init0 : (ι → K) → Except Err (State ι K I A SS DS HS)) :
    Solver (ι → K) Out A (State ι K I A SS DS HS) Unit where
  init _ y := (init0 y).map fun st => { st with terminate := false }
  step := step cfg
  terminate _ _ st := (st.terminate, st.result)
  postprocess _ y aux _ _ := (y, aux, ())

end SearchBased

/-! ### Golden-section search -/

namespace GoldenAny

/-- `golden.py:17-23`, `_GoldenSearchState`, over scalars `K`. -/
structure State (K : Type) where
  lower : K
  middle : K
  upper : K
  fMiddle : K
  first : Bool
  terminate : Bool

variable {K A : Type} [Add K] [Sub K] [Mul K] [Div K] [One K] [LT K] [DecidableLT K] [HasAbs K]

/-- `golden.py:97-163`, `GoldenSearch.step`, over scalars `K`. -/
noncomputable def step (rtol atol : K) (fn : K → K × A) (y : K) (st : State K) : K × State K × A :=
  let y_ := if st.first then st.lower + (st.upper - st.middle) else y
  let fa := fn y_
  let yDiff := st.middle - y_
  let fDiff := st.fMiddle - fa.1
  let term := cauchyTermination (ι := Unit) (κ := Unit) rtol atol (fun v => HasAbs.abs (v ())) (fun v => HasAbs.abs (v ()))
    (fun _ => st.middle) (fun _ => yDiff) (fun _ => st.fMiddle) (fun _ => fDiff)
  let isMin := fa.1 < st.fMiddle
  let isLower := y_ < st.middle
  let newMiddle : State K :=
    { lower := if isLower then st.lower else st.middle, middle := y_,
      upper := if isLower then st.middle else st.upper, fMiddle := fa.1, first := false, terminate := term }
  let newOuter : State K :=
    { lower := if isLower then y_ else st.lower, middle := st.middle,
      upper := if isLower then st.upper else y_, fMiddle := st.fMiddle, first := false, terminate := term }
  let newState := if isMin then newMiddle else newOuter
  (newState.lower + (newState.upper - newState.middle), newState, fa.2)

/-- `golden.py:26-187`, the solver; `init0` is `init` (55-95): the bounds of the user, some middle point (its computation
needs the golden ratio, see `Golden.init`), its value, `first = True` (93) and `terminate = False` (94). -/
noncomputable def solver (rtol atol lower upper middle : K) : Solver K K A (State K) Unit where
  init fn _ := .ok { lower, middle, upper, fMiddle := (fn middle).1, first := true, terminate := false }
  step := step rtol atol
  terminate _ _ st := (st.terminate, .successful)
  postprocess _ y aux _ _ := (y, aux, ())

end GoldenAny

/-! ### Optax -/

namespace OptaxAny

/-- `optax.py:16-20`, `_OptaxState`, over scalars `K`. -/
structure State (K OS : Type) where
  step : Nat
  f : K
  optState : OS
  terminate : Bool

variable {ι K A OS : Type} [Add K] [Sub K] [Mul K] [Div K] [One K] [LT K] [DecidableLT K] [HasAbs K]

/-- `optax.py:84-120`, `step`, over scalars `K`; `update y f state` stands for the evaluation of the gradient and the call
of the optimiser's `update` (94-106). -/
noncomputable def step (rtol atol : K) (normY : (ι → K) → K) (normF : (Unit → K) → K)
    (update : (ι → K) → K → OS → (ι → K) × OS) (fn : (ι → K) → K × A) (y : ι → K) (st : State K OS) :
    (ι → K) × State K OS × A :=
  let f := (fn y).1
  let aux := (fn y).2
  let u := update y f st.optState
  let newY := fun i => y i + u.1 i
  let terminate := cauchyTermination rtol atol normY normF y u.1 (fun _ => f) (fun _ => f - st.f)
  (newY, { step := st.step + 1, f := f, optState := u.2, terminate := terminate }, aux)

/-- `optax.py:23-145`, `OptaxMinimiser` (`init`: 66-80, `terminate`: 122-132, `postprocess`: 134-145). -/
noncomputable def solver (rtol atol fmax : K) (normY : (ι → K) → K) (normF : (Unit → K) → K) (initOpt : (ι → K) → OS)
    (update : (ι → K) → K → OS → (ι → K) × OS) : Solver (ι → K) K A (State K OS) Unit where
  init _ y := .ok { step := 0, f := fmax, optState := initOpt y, terminate := false }
  step := step rtol atol normY normF update
  terminate _ _ st := (st.terminate, .successful)
  postprocess _ y aux _ _ := (y, aux, ())

end OptaxAny

/-! ### Nelder-Mead: the stopping test -/

namespace NelderMeadAny

/-- The part of `_NelderMeadState` (`nelder_mead.py:27-72`) read by `terminate`; `rest` is everything else. -/
structure State (n : Nat) (ι K R : Type) where
  simplex : Fin n → ι → K
  fSimplex : Fin n → K
  fBest : K
  best : ι → K
  rest : R

variable {n : Nat} {ι A R : Type}

/-- `nelder_mead.py:413-443`, `NelderMead.terminate`, on `XR`. -/
noncomputable def terminate (rtol atol : XR) (normX : (Fin n × ι → XR) → XR) (normF : (Fin n → XR) → XR)
    (st : State n ι XR R) : Bool × Result :=
  let xScale := fun c => atol + rtol * HasAbs.abs (st.best c)
  let xDiff := fun (p : Fin n × ι) => HasAbs.abs (st.simplex p.1 p.2 - st.best p.2)
  let xConverged := decide (normX (fun p => xDiff p / xScale p.2) < 1)
  let fScale := atol + rtol * HasAbs.abs st.fBest
  let fDiff := fun i => HasAbs.abs (st.fSimplex i - st.fBest)
  let fConverged := decide (normF (fun i => fDiff i / fScale) < 1)
  let converged := xConverged && fConverged
  let diverged := !(XR.isFinite st.fBest)
  (converged || diverged, if diverged then .nonlinearDivergence else .successful)

/-- `nelder_mead.py:91-463`, the solver.  The moves of the simplex (`nelder_mead.py:206-404`) are an arbitrary function
`move`; the step returns the new state's `best` (406-411, without the option `y0_simplex`). -/
noncomputable def solver (rtol atol : XR) (normX : (Fin n × ι → XR) → XR) (normF : (Fin n → XR) → XR)
    (init0 : (ι → XR) → State n ι XR R)
    (move : ((ι → XR) → XR × A) → State n ι XR R → State n ι XR R × A) :
    Solver (ι → XR) XR A (State n ι XR R) R where
  init _ y := .ok (init0 y)
  step fn _ st := let o := move fn st; (o.1.best, o.1, o.2)
  terminate _ _ st := terminate rtol atol normX normF st
  postprocess _ y aux st _ := (y, aux, st.rest)

end NelderMeadAny

end Verif
