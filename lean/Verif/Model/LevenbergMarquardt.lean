import Verif.Model.GaussNewton
import Verif.Model.NewtonChord

/-!
Model of `optimistix/_solver/levenberg_marquardt.py`.

The damped least-squares problem has the residuals `κ ⊕ ι` (the residuals of the problem and one per unknown), so that the
linear solver is given at that type.
-/

namespace Verif

variable {ι κ : Type}

/-- `levenberg_marquardt.py:55-58`: the Levenberg-Marquardt parameter of a step size.  `eps`, `fmax` are the machine
epsilon and the largest finite number. -/
noncomputable def lmParam (eps fmax stepSize : ℝ) : ℝ := if eps < stepSize then 1 / stepSize else fmax

/-- `levenberg_marquardt.py:23-31`, `_Damped`: `J` stacked on `sqrt(damping) I`. -/
noncomputable def dampedOperator [DecidableEq ι] (jac : Matrix κ ι ℝ) (damping : ℝ) : Matrix (κ ⊕ ι) ι ℝ :=
  Matrix.of fun s i => match s with
    | .inl k => jac k i
    | .inr j => if j = i then Real.sqrt damping else 0

/-- `levenberg_marquardt.py:69`: `(residual, 0)`. -/
def dampedVector (r : κ → ℝ) : κ ⊕ ι → ℝ
  | .inl k => r k
  | .inr _ => 0

/-- Does `damped_newton_step` support this variant (`levenberg_marquardt.py:59-74`)? -/
def dampedAccepts : FnInfo ι κ → Bool
  | .evalGradHessian .. => true
  | .residualJac .. => true
  | _ => false

/-- `levenberg_marquardt.py:34-76`, `damped_newton_step` (the last case raises, 70-74; see `dampedAccepts`).  Tagging the
operator as positive semidefinite (64-65) does not change it. -/
noncomputable def dampedNewtonStep [DecidableEq ι] (eps fmax : ℝ) (ls : LinSolve ι (κ ⊕ ι)) (stepSize : ℝ) :
    FnInfo ι κ → (ι → ℝ) × Result
  | .evalGradHessian _ g h => ls.square (h + lmParam eps fmax stepSize • (1 : Matrix ι ι ℝ)) g
  | .residualJac r jac => ls.rect (dampedOperator jac (lmParam eps fmax stepSize)) (dampedVector r)
  | _ => (fun _ => 0, .successful)

/-- `levenberg_marquardt.py:83-133`, `DampedNewtonDescent`; the state is the function information. -/
noncomputable def dampedNewtonDescent [DecidableEq ι] (eps fmax : ℝ) (ls : LinSolve ι (κ ⊕ ι)) :
    Descent ι κ (FnInfo ι κ) where
  accepts := dampedAccepts
  init _ fInfo := fInfo
  query _ fInfo _ := fInfo
  step stepSize st :=
    let s := dampedNewtonStep eps fmax ls stepSize st
    (fun i => -s.1 i, s.2)

/-- `levenberg_marquardt.py:142-146`, `_IndirectDampedNewtonDescentState`. -/
structure IndirectState (ι κ : Type) where
  fInfo : FnInfo ι κ
  newton : ι → ℝ
  newtonNorm : ℝ
  result : Result

/-- `levenberg_marquardt.py:149-243`, `IndirectDampedNewtonDescent`.  `findLambda` is the inner `root_find` (220-228: from
`lambda_0`, at most 32 steps, `lower=1e-5`), a function from the comparison function to the `lambda` found and
the result code; only `.value` is used. -/
noncomputable def indirectDescent [Fintype ι] [DecidableEq ι] (eps fmax : ℝ) (ls : LinSolve ι κ)
    (lsD : LinSolve ι (κ ⊕ ι)) (norm : (ι → ℝ) → ℝ) (findLambda : (ℝ → ℝ) → ℝ × Result) :
    Descent ι κ (IndirectState ι κ) where
  accepts := dampedAccepts
  init y fInfo := { fInfo, newton := y, newtonNorm := 0, result := .successful }
  query _ fInfo _ :=
    let n := newtonStep ls fInfo
    { fInfo, newton := n.1, newtonNorm := norm n.1, result := n.2 }
  step stepSize st :=
    let scaledStepSize := st.newtonNorm * stepSize
    let comparisonFn := fun l => norm (dampedNewtonStep eps fmax lsD (1 / l) st.fInfo).1 - scaledStepSize
    let r := if st.result = .successful ∧ stepSize < 1 then
        dampedNewtonStep eps fmax lsD (1 / (findLambda comparisonFn).1) st.fInfo
      else (st.newton, st.result)
    (fun i => -r.1 i, r.2)

/-- What the inner root find of `IndirectDampedNewtonDescent` takes from its environment: the derivative of a function of one
number (`jax.linearize`/`lx.JacobianLinearOperator`), the solution of one linear equation `a x = b`, the number standing for
`jnp.inf` in initial states, and `10 ** (2 - finfo(dtype).precision)`.
(`levenberg_marquardt.py:174, 214-228`, `newton_chord.py:112-125`.) -/
structure InnerEnv where
  deriv : (ℝ → ℝ) → ℝ → ℝ
  linearSolve : ℝ → ℝ → ℝ × Result
  inf : ℝ
  resolution : ℝ

/-- `levenberg_marquardt.py:174` and `225`: the default root finder `Newton(rtol=1e-2, atol=1e-2)` with `lower=1e-5`. -/
noncomputable def innerNewton (env : InnerEnv) (comparisonFn : ℝ → ℝ) : NewtonChord.Cfg Unit Unit ℝ ℝ :=
  { rtol := 1e-2, atol := 1e-2, normY := maxNorm, normF := maxNorm, kappa := 1e-2, cauchy := true, isNewton := true,
    lower := some fun _ => 1e-5, upper := none, jac := fun y => env.deriv comparisonFn (y ()),
    linearSolve := fun j f => let s := env.linearSolve j (f ()); (fun _ => s.1, s.2),
    inf := env.inf, isfinite := fun _ => true, resolution := env.resolution }

/-- `levenberg_marquardt.py:220-228`, the inner `root_find`: from `lambda_0`, at most 32 steps, `throw=False`.  (It always
returns: the second case does not occur, see `C70_damping_positive`.) -/
noncomputable def findLambdaNewton (env : InnerEnv) (lambda0 : ℝ) (comparisonFn : ℝ → ℝ) : ℝ × Result :=
  match rootFind (NewtonChord.solver (innerNewton env comparisonFn)) (fun _ => true)
      (fun y => (fun _ => comparisonFn (y ()), ())) () (fun _ => lambda0) (some 32) false with
  | some (.ok sol) => (sol.value (), sol.result)
  | _ => (0, .nonfinite)

namespace GaussNewton

/-- `levenberg_marquardt.py:256-294`, `LevenbergMarquardt`. -/
noncomputable def levenbergMarquardt [Fintype ι] [DecidableEq ι] [Fintype κ] (eps fmax rtol atol : ℝ)
    (normY : (ι → ℝ) → ℝ) (normF : (κ → ℝ) → ℝ) (ls : LinSolve ι (κ ⊕ ι)) (jac : (ι → ℝ) → Matrix κ ι ℝ) :
    Cfg ι κ ℝ (FnInfo ι κ) :=
  { rtol, atol, normY, normF, jac, descent := dampedNewtonDescent eps fmax ls,
    search := TrustRegion.classical TrustRegion.defaults }

/-- `levenberg_marquardt.py:315-360`, `IndirectLevenbergMarquardt`. -/
noncomputable def indirectLevenbergMarquardt [Fintype ι] [DecidableEq ι] [Fintype κ] (eps fmax rtol atol : ℝ)
    (normY : (ι → ℝ) → ℝ) (normF : (κ → ℝ) → ℝ) (ls : LinSolve ι κ) (lsD : LinSolve ι (κ ⊕ ι))
    (findLambda : (ℝ → ℝ) → ℝ × Result) (jac : (ι → ℝ) → Matrix κ ι ℝ) : Cfg ι κ ℝ (IndirectState ι κ) :=
  { rtol, atol, normY, normF, jac, descent := indirectDescent eps fmax ls lsD twoNorm findLambda,
    search := TrustRegion.classical TrustRegion.defaults }

end GaussNewton

end Verif
