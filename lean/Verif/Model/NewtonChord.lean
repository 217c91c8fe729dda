import Verif.Model.Problems

/-!
Model of `optimistix/_solver/newton_chord.py`, over an arbitrary scalar type `K`.

The Jacobian of the user's function (`jax.linearize`, `lx.JacobianLinearOperator`) is a function `jac : Y → J` into some
type `J` of linear operators; `linearSolve : J → Out → Y × Result` is `lx.linear_solve(..., throw=False)` with the
result already promoted to `optimistix.RESULTS` (149).
-/

namespace Verif.NewtonChord

/-- `newton_chord.py:60-67` (attributes), the options `lower`/`upper` (112-113), and the environment:
`inf` and `isfinite` are `jnp.inf` and `jnp.isfinite`; `resolution` is `10 ** (2 - finfo(dtype).precision)` (28). -/
structure Cfg (ι κ K J : Type) where
  rtol : K
  atol : K
  normY : (ι → K) → K
  normF : (κ → K) → K
  kappa : K
  cauchy : Bool
  isNewton : Bool
  lower : Option (ι → K)
  upper : Option (ι → K)
  jac : (ι → K) → J
  linearSolve : J → (κ → K) → (ι → K) × Result
  inf : K
  isfinite : K → Bool
  resolution : K

/-- `newton_chord.py:40-47`, `_NewtonChordState`. -/
structure State (ι κ K J : Type) where
  f : Option (κ → K)
  linearState : Option J
  diff : ι → K
  diffsize : K
  diffsizePrev : K
  result : Result
  step : Nat

variable {ι κ K J A : Type} [Add K] [Sub K] [Mul K] [Div K] [Zero K] [One K] [OfNat K 2] [LT K] [DecidableLT K]
  [HasAbs K]

/-- `newton_chord.py:69-101`, `init`. -/
def init (cfg : Cfg ι κ K J) (y : ι → K) : State ι κ K J :=
  { f := if cfg.cauchy then some (fun _ => cfg.inf) else none
    linearState := if cfg.isNewton then none else some (cfg.jac y)
    diff := fun _ => cfg.inf
    diffsize := cfg.inf
    diffsizePrev := 1
    result := .successful
    step := 0 }

/-- `newton_chord.py:130-133`: clip to the bounds that are given (`jnp.clip(a, min=b)`, `jnp.clip(a, max=b)`; a NaN
compares false and so stays NaN; the bounds themselves are assumed not to be NaN). -/
def clipBounds (lower upper : Option (ι → K)) (y : ι → K) : ι → K :=
  let y1 := match lower with
    | none => y
    | some l => fun i => if y i < l i then l i else y i
  match upper with
  | none => y1
  | some u => fun i => if u i < y1 i then u i else y1 i

/-- `newton_chord.py:115-128`: the linear solve, with the current (Newton) or the initial (Chord) Jacobian. -/
def linSol (cfg : Cfg ι κ K J) (y : ι → K) (fx : κ → K) (st : State ι κ K J) : (ι → K) × Result :=
  match cfg.isNewton, st.linearState with
  | false, some j => cfg.linearSolve j fx
  | _, _ => cfg.linearSolve (cfg.jac y) fx

/-- `newton_chord.py:103-152`, `step`. -/
def step (cfg : Cfg ι κ K J) (fn : (ι → K) → (κ → K) × A) (y : ι → K) (st : State ι κ K J) :
    (ι → K) × State ι κ K J × A :=
  let fa := fn y
  let sol := linSol cfg y fa.1 st
  let newY := clipBounds cfg.lower cfg.upper (fun i => y i - sol.1 i)
  let diff := if cfg.lower.isSome || cfg.upper.isSome then (fun i => y i - newY i) else sol.1
  let scale : ι → K := fun i => cfg.atol + cfg.rtol * HasAbs.abs (newY i)
  let diffsize := cfg.normY fun i => diff i / scale i
  (newY,
   { f := if cfg.cauchy then some fa.1 else none
     linearState := st.linearState
     diff := diff
     diffsize := diffsize
     diffsizePrev := st.diffsize
     result := sol.2
     step := st.step + 1 },
   fa.2)

/-- `newton_chord.py:25-29`, `_small`. -/
def small (cfg : Cfg ι κ K J) (diffsize : K) : Bool := decide (diffsize < cfg.resolution)

/-- `newton_chord.py:32-33`, `_diverged`. -/
def diverged (cfg : Cfg ι κ K J) (rate : K) : Bool := !(cfg.isfinite rate) || decide (rate > 2)

/-- `newton_chord.py:36-37`, `_converged`. -/
def converged (factor tol : K) : Bool := decide (factor > 0) && decide (factor < tol)

/-- `newton_chord.py:154-196`, `terminate`. -/
noncomputable def terminate (cfg : Cfg ι κ K J) (y : ι → K) (st : State ι κ K J) : Bool × Result :=
  let tr : Bool × Result :=
    match cfg.cauchy, st.f with
    | true, some f =>
      (cauchyTermination cfg.rtol cfg.atol cfg.normY cfg.normF y st.diff (fun _ => 0) f, .successful)
    | _, _ =>
      let atLeastTwo := decide (2 ≤ st.step)
      let rate := st.diffsize / st.diffsizePrev
      let factor := st.diffsize * rate / (1 - rate)
      let sm := small cfg st.diffsize
      let dv := diverged cfg rate
      let cv := converged factor cfg.kappa
      (atLeastTwo && (sm || dv || cv),
       if atLeastTwo && !sm && dv then .nonlinearDivergence else .successful)
  let linsolveFail := decide (st.result ≠ .successful)
  (linsolveFail || tr.1, if linsolveFail then st.result else tr.2)

/-- `newton_chord.py:59-251`, the solvers `Newton` (`isNewton = true`) and `Chord` (`isNewton = false`). -/
noncomputable def solver (cfg : Cfg ι κ K J) : Solver (ι → K) (κ → K) A (State ι κ K J) Unit where
  init _ y := .ok (init cfg y)
  step := step cfg
  terminate _ y st := terminate cfg y st
  postprocess _ y aux _ _ := (y, aux, ())

end Verif.NewtonChord
