import Verif.Model.QuasiNewton

/-!
Model of `optimistix/compat/_impl.py`, the drop-in for `jax.scipy.optimize.minimize`.
-/

namespace Verif.Compat

/-- What a caller may pass as `x0` (`_impl.py:86`): an array of dimension one, or anything else. -/
inductive X0 (d : Nat) where
  | vector (x : Fin d → ℝ)
  | other

/-- Values found in the dictionary `options`.  (`compat/_impl.py:95-102`.) -/
inductive OptVal (d : Nat) where
  | none
  | nat (n : Nat)
  | callable (norm : (Fin d → ℝ) → ℝ)
  | other

/-- The arguments of `minimize` other than `fun` (`_impl.py:42-50`).  `argsIsTuple` says whether `args` is a tuple; the
function is taken with `args` already applied.  The dictionary `options` is a list of key-value pairs. -/
structure Request (d : Nat) where
  x0 : X0 d
  argsIsTuple : Bool
  method : String
  tol : Option ℝ
  options : Option (List (String × OptVal d))

/-- `_impl.py:14-39`, `OptimizeResults`. -/
structure Results (d : Nat) where
  x : Fin d → ℝ
  success : Bool
  status : Nat
  «fun» : ℝ
  jac : Fin d → ℝ
  hessInv : Matrix (Fin d) (Fin d) ℝ
  nfev : Nat
  njev : Nat
  nit : Nat

variable {d : Nat}

/-- `d.pop(key, default)`: the value and the remaining dictionary.  Called in `compat/_impl.py:99-100`. -/
def pop (options : List (String × OptVal d)) (key : String) : Option (OptVal d) × List (String × OptVal d) :=
  ((options.find? fun p => p.1 == key).map Prod.snd, options.filter fun p => p.1 != key)

/-- The number of steps given by `maxiter` (`_impl.py:99, 108`); values of a wrong type raise somewhere below `minimise`. -/
def maxSteps : Option (OptVal d) → Except Err (Option Nat)
  | none => .ok none
  | some .none => .ok none
  | some (.nat n) => .ok (some n)
  | some _ => .error (.typeError "max_steps")

/-- `_impl.py:107`, `BFGS(rtol=tol, atol=tol, norm=max_norm)`: `use_inverse=True`, `BacktrackingArmijo()` with its defaults
`decrease_factor=0.5, slope=0.1, step_init=1.0` (`backtracking.py:29-31`).  `eps` is the machine epsilon of the curvature
guard; `ls` is the linear solver, not used with `use_inverse=True`. -/
noncomputable def bfgsCfg (eps tol : ℝ) (ls : LinSolve (Fin d) Unit) (grad : (Fin d → ℝ) → (Fin d → ℝ)) :
    QuasiNewton.Cfg (Fin d) ℝ ((Fin d → ℝ) × Result) Unit :=
  QuasiNewton.withArmijo tol tol maxNorm maxNorm ls { decreaseFactor := 0.5, slope := 0.1, stepInit := 1 }
    (QuasiNewton.bfgs eps true) grad

/-- `_impl.py:109-113`. -/
def statusOf (r : Result) : Nat :=
  if r = .successful then 0 else if r = .nonlinearMaxStepsReached then 1 else 3

/-- `state.f_info.hessian_inv.as_matrix()` (`_impl.py:120`). -/
def hessInvOf : FnInfo (Fin d) Unit → Matrix (Fin d) (Fin d) ℝ
  | .evalGradHessianInv _ _ h => h
  | _ => 0

/-- `_impl.py:114-125`. -/
noncomputable def results (sol : Solution (Fin d → ℝ) Unit (QuasiNewton.State (Fin d) Unit ℝ ((Fin d → ℝ) × Result) Unit)
    Unit) : Results d :=
  { x := sol.value
    success := decide (sol.result = .successful)
    status := statusOf sol.result
    «fun» := GradientDescent.fOf sol.state.fInfo
    jac := QuasiNewton.gradOf sol.state.fInfo
    hessInv := hessInvOf sol.state.fInfo
    nfev := sol.numSteps
    njev := sol.state.numAcceptedSteps
    nit := sol.state.numAcceptedSteps }

/-- `_impl.py:42-125`, `minimize`.  `none`: never returns.  `allfinite` as in `iterate`.
Not modelled: objectives that do not return a scalar (rejected by `minimise`). -/
noncomputable def minimize (eps : ℝ) (ls : LinSolve (Fin d) Unit) (allfinite : (Fin d → ℝ) → Bool)
    (f : (Fin d → ℝ) → ℝ) (grad : (Fin d → ℝ) → (Fin d → ℝ)) (q : Request d) : Option (Except Err (Results d)) :=
  if q.method.toLower ≠ "bfgs" then some (.error (.valueError "Method not recognized"))
  else match q.x0 with
    | .other => some (.error (.valueError "x0 must be a 1-dimensional array"))
    | .vector x0 =>
      if q.argsIsTuple = false then some (.error (.typeError "args must be a tuple"))
      else
        let tol := q.tol.getD 1e-5
        let options := q.options.getD []
        let maxiter := (pop options "maxiter").1
        let options := (pop options "maxiter").2
        let options := (pop options "norm").2
        if options.length ≠ 0 then some (.error (.valueError "Unsupported options"))
        else match maxSteps maxiter with
          | .error e => some (.error e)
          | .ok ms =>
            (Driver.iterativeSolve (QuasiNewton.solver (bfgsCfg eps tol ls grad) ()) allfinite (fun y => (f y, ())) () x0 ms
              false).map fun r => r.map results

end Verif.Compat
