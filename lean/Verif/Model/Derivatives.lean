import Verif.Model.GradientMethods
import Verif.Model.QuasiNewton
import Verif.Model.GaussNewton
import Mathlib.Analysis.Calculus.FDeriv.Basic
import Mathlib.Analysis.Calculus.FDeriv.Pi

/-!
Model of the options `autodiff_mode` (minimisers) and `jac` (least-squares solvers): how the gradient and the Jacobian, which are parameters
of the other models, are obtained from the function.

Trusted: `jax.linearize`, `jax.jacfwd`, `jax.jacrev` and `jax.linear_transpose` compute what they are documented to compute (the
Fréchet derivative, its columns, its rows, and the transpose of a linear map).  Simplification: the values of options are strings.
-/

namespace Verif.Derivatives

variable {ι κ A SS DS HS : Type} [Fintype ι] [DecidableEq ι] [Fintype κ] [DecidableEq κ]

/-- The dictionary `options`, as key-value pairs.  (`gauss_newton.py:226`, `gradient_methods.py:170`, `quasi_newton.py:213`.) -/
abbrev Options := List (String × String)

/-- `options.get(key, default)`.  Called in `gauss_newton.py:226, 252`, `gradient_methods.py:170`, `quasi_newton.py:213`. -/
def Options.get (o : Options) (key default : String) : String := (o.lookup key).getD default

/-- `jax.linear_transpose(lin_fn, y)`, for a map to the trees with entries `κ`.  Called in `_misc.py:251`. -/
def linearTranspose (lin : (ι → ℝ) →L[ℝ] (κ → ℝ)) (cotangent : κ → ℝ) : ι → ℝ :=
  fun i => ∑ k, cotangent k * lin (Pi.single i 1) k

/-- `jax.jacfwd(g)(y)`: one directional derivative for each entry of `y`.  Called in `_misc.py:254`. -/
noncomputable def jacfwd (g : (ι → ℝ) → (κ → ℝ)) (y : ι → ℝ) : Matrix κ ι ℝ := fun k i => fderiv ℝ g y (Pi.single i 1) k

/-- `jax.jacrev(g)(y)`: one pull-back for each entry of the output.  Called in `gauss_newton.py:176`. -/
noncomputable def jacrev (g : (ι → ℝ) → (κ → ℝ)) (y : ι → ℝ) : Matrix κ ι ℝ :=
  fun k => linearTranspose (fderiv ℝ g y) (Pi.single k 1)

/-- `_misc.py:245-258`, `lin_to_grad`.  Scalars are trees with one entry. -/
noncomputable def linToGrad (lin : (ι → ℝ) →L[ℝ] (Unit → ℝ)) (yEval : ι → ℝ) (autodiffMode : String) : Except Err (ι → ℝ) :=
  if autodiffMode = "bwd" then .ok (linearTranspose lin fun _ => 1)
  else if autodiffMode = "fwd" then .ok (jacfwd lin yEval ())
  else .error (.valueError "Only `autodiff_mode='fwd'` or `autodiff_mode='bwd'` are valid.")

/-- `gauss_newton.py:156-181`, `_make_f_info`: the Jacobian (as a matrix: that of a `FunctionLinearOperator` has the images of
the unit vectors as columns). -/
noncomputable def makeJac (fn : (ι → ℝ) → (κ → ℝ) × A) (y : ι → ℝ) (jac : String) : Except Err (Matrix κ ι ℝ) :=
  if jac = "fwd" then .ok fun k i => fderiv ℝ (fun y => (fn y).1) y (Pi.single i 1) k
  else if jac = "bwd" then .ok (jacrev (fun y => (fn y).1) y)
  else .error (.valueError "Only `jac='fwd'` or `jac='bwd'` are valid.")

/-- The value of a computation that has been checked not to raise.
(A helper for the exceptions of `_misc.py:245-258` and `gauss_newton.py:156-181`.) -/
def unwrap {E : Type} (default : E) : Except Err E → E
  | .ok e => e
  | .error _ => default

/-- `gradient_methods.py:170-184`, `quasi_newton.py:213-227`: the gradient of `fn` at `y_eval`, with the mode from the options. -/
noncomputable def gradAt (options : Options) (fn : (ι → ℝ) → ℝ × A) (y : ι → ℝ) : Except Err (ι → ℝ) :=
  linToGrad (fderiv ℝ (fun y _ => (fn y).1) y) y (options.get "autodiff_mode" "bwd")

/-- `gradient_methods.py:107-246`, `AbstractGradientDescent`, with the gradient it computes.  An invalid mode raises when `step` is
traced, after `init` and before any step is made.  Simplification: `step` is taken to be traced for `max_steps=0` too. -/
noncomputable def gradientSolver (cfg : GradientDescent.Cfg ι SS DS) (options : Options) (aux0 : A) :
    Solver (ι → ℝ) ℝ A (GradientDescent.State ι A SS DS) Unit where
  init fn y := do
    let st ← (GradientDescent.solver cfg aux0).init fn y
    let _ ← gradAt options fn y
    return st
  step fn := (GradientDescent.solver { cfg with grad := fun y => unwrap 0 (gradAt options fn y) } aux0).step fn
  terminate fn := (GradientDescent.solver cfg aux0).terminate fn
  postprocess fn := (GradientDescent.solver cfg aux0).postprocess fn

/-- `quasi_newton.py:107-324`, `AbstractQuasiNewton`, with the gradient it computes. -/
noncomputable def quasiNewtonSolver (cfg : QuasiNewton.Cfg ι SS DS HS) (options : Options) (aux0 : A) :
    Solver (ι → ℝ) ℝ A (QuasiNewton.State ι A SS DS HS) Unit where
  init fn y := do
    let st ← (QuasiNewton.solver cfg aux0).init fn y
    let _ ← gradAt options fn y
    return st
  step fn := (QuasiNewton.solver { cfg with grad := fun y => unwrap 0 (gradAt options fn y) } aux0).step fn
  terminate fn := (QuasiNewton.solver cfg aux0).terminate fn
  postprocess fn := (QuasiNewton.solver cfg aux0).postprocess fn

/-- `gauss_newton.py:184-358`, `AbstractGaussNewton`, with the Jacobian it computes.  An invalid `jac` raises in `init` (226-227),
before the search and the descent are set up. -/
noncomputable def gaussNewtonSolver (cfg : GaussNewton.Cfg ι κ SS DS) (options : Options) (aux0 : A) :
    Solver (ι → ℝ) (κ → ℝ) A (GaussNewton.State ι κ A SS DS) Unit where
  init fn y := do
    let _ ← makeJac fn y (options.get "jac" "fwd")
    (GaussNewton.solver cfg aux0).init fn y
  step fn := (GaussNewton.solver { cfg with jac := fun y => unwrap 0 (makeJac fn y (options.get "jac" "fwd")) } aux0).step fn
  terminate fn := (GaussNewton.solver cfg aux0).terminate fn
  postprocess fn := (GaussNewton.solver cfg aux0).postprocess fn

end Verif.Derivatives
