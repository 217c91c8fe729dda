import Verif.Model.Problems

/-!
Model of `optimistix/_search.py` (function information, searches, descents) and of the searches
`BacktrackingArmijo`, `ClassicalTrustRegion`, `LinearTrustRegion` and `LearningRate`.

Vectors are `ι → ℝ`, linear operators are matrices.  Everything is real-valued (the complex conjugations of
`_search.py:159,183` are the identity).
-/

namespace Verif

variable {ι κ : Type}

/-- `_search.py:44-197`, the variants of `FunctionInfo`. -/
inductive FnInfo (ι κ : Type) where
  | eval (f : ℝ)
  | evalGrad (f : ℝ) (grad : ι → ℝ)
  | evalGradHessian (f : ℝ) (grad : ι → ℝ) (hessian : Matrix ι ι ℝ)
  | evalGradHessianInv (f : ℝ) (grad : ι → ℝ) (hessianInv : Matrix ι ι ℝ)
  | residual (r : κ → ℝ)
  | residualJac (r : κ → ℝ) (jac : Matrix κ ι ℝ)

namespace FnInfo

/-- `as_min`: `_search.py:77-78, 91-92, 109-110, 126-127, 141-142, 155-156`. -/
noncomputable def asMin [Fintype κ] : FnInfo ι κ → ℝ
  | eval f => f
  | evalGrad f _ => f
  | evalGradHessian f _ _ => f
  | evalGradHessianInv f _ _ => f
  | residual r => 0.5 * sumSquares r
  | residualJac r _ => 0.5 * sumSquares r

/-- The gradient attribute (`.grad`) or `compute_grad` (`_search.py:158-160`); `none` if the variant has neither. -/
def grad? [Fintype κ] : FnInfo ι κ → Option (ι → ℝ)
  | eval _ => none
  | evalGrad _ g => some g
  | evalGradHessian _ g _ => some g
  | evalGradHessianInv _ g _ => some g
  | residual _ => none
  | residualJac r jac => some (jac.transpose.mulVec r)

/-- `compute_grad_dot`: `_search.py:94-95, 112-113, 129-130, 162-183`; `none` if the variant has no such method. -/
def gradDot? [Fintype ι] [Fintype κ] (y : ι → ℝ) : FnInfo ι κ → Option ℝ
  | eval _ => none
  | evalGrad _ g => some (treeDot g y)
  | evalGradHessian _ g _ => some (treeDot g y)
  | evalGradHessianInv _ g _ => some (treeDot g y)
  | residual _ => none
  | residualJac r jac => some (treeDot (jac.mulVec y) r)

end FnInfo

/-- `_search.py:316-379`, `AbstractSearch`.  A search that does not support a variant of `FunctionInfo` raises a
`ValueError` when its `step` is traced, i.e. before anything runs: `accepts` says which variants are supported, and
solvers check it in their `init`.  The remaining methods are then total. -/
structure Search (ι κ SS : Type) where
  accepts : FnInfo ι κ → Bool
  init : SS
  step : Bool → (ι → ℝ) → (ι → ℝ) → FnInfo ι κ → FnInfo ι κ → SS → ℝ × Bool × Result × SS

/-- `_search.py:248-313`, `AbstractDescent`; `accepts` as for `Search`. -/
structure Descent (ι κ DS : Type) where
  accepts : FnInfo ι κ → Bool
  init : (ι → ℝ) → FnInfo ι κ → DS
  query : (ι → ℝ) → FnInfo ι κ → DS → DS
  step : ℝ → DS → (ι → ℝ) × Result

/-! ### `optimistix/_solver/backtracking.py` -/

namespace Armijo

/-- `backtracking.py:29-31`. -/
structure Cfg (K : Type) where
  decreaseFactor : K
  slope : K
  stepInit : K

/-- `backtracking.py:33-49`, `__post_init__`. -/
def new {K : Type} [Zero K] [One K] [LE K] [DecidableLE K] (decreaseFactor slope stepInit : K) :
    Except Err (Cfg K) :=
  if decreaseFactor ≤ 0 ∨ 1 ≤ decreaseFactor then .error (.valueError "decrease_factor")
  else if slope ≤ 0 ∨ 1 ≤ slope then .error (.valueError "slope")
  else if stepInit ≤ 0 then .error (.valueError "step_init")
  else .ok { decreaseFactor, slope, stepInit }

/-- `backtracking.py:81-99`: the decision, from the predicted reduction and the objective at `y` and at `y_eval`.
Generic in the scalars, so that it can also be run on NaN and infinities. -/
def decide' {K : Type} [Zero K] [Mul K] [Sub K] [LE K] [DecidableLE K] (cfg : Cfg K) (firstStep : Bool)
    (predictedReduction fMin fMinEval stepSize : K) : K × Bool :=
  let fMinDiff := fMinEval - fMin
  let satisfiesArmijo := decide (fMinDiff ≤ cfg.slope * predictedReduction)
  let hasReduction := decide (predictedReduction ≤ 0)
  let accept := firstStep || (satisfiesArmijo && hasReduction)
  (if accept then cfg.stepInit else cfg.decreaseFactor * stepSize, accept)

/-- `backtracking.py:26-100`, `BacktrackingArmijo`; the state is `step_size`.  (`getD`: the missing-gradient branch
raises, 64-77, see `Search.accepts`.) -/
noncomputable def search [Fintype ι] [Fintype κ] (cfg : Cfg ℝ) : Search ι κ ℝ where
  accepts i := i.grad?.isSome
  init := cfg.stepInit
  step firstStep y yEval fInfo fEvalInfo stepSize :=
    let yDiff := fun i => yEval i - y i
    let d := decide' cfg firstStep ((fInfo.gradDot? yDiff).getD 0) fInfo.asMin fEvalInfo.asMin stepSize
    (d.1, d.2, .successful, d.1)

end Armijo

/-! ### `optimistix/_solver/trust_region.py` -/

namespace TrustRegion

/-- `trust_region.py:45-48`. -/
structure Cfg (K : Type) where
  highCutoff : K
  lowCutoff : K
  highConstant : K
  lowConstant : K

/-- `trust_region.py:50-68`, `__post_init__`. -/
def new {K : Type} [Zero K] [LT K] [DecidableLT K] (highCutoff lowCutoff highConstant lowConstant : K) :
    Except Err (Cfg K) :=
  if highCutoff < lowCutoff then .error (.valueError "low_cutoff must be below high_cutoff")
  else if lowConstant < 0 then .error (.valueError "low_constant must be greater than 0")
  else if highConstant < 0 then .error (.valueError "high_constant must be greater than 0")
  else .ok { highCutoff, lowCutoff, highConstant, lowConstant }

/-- `trust_region.py:125-128`, the default parameters. -/
noncomputable def defaults : Cfg ℝ := { highCutoff := 0.99, lowCutoff := 0.01, highConstant := 3.5, lowConstant := 0.25 }

/-- `trust_region.py:88-106`: the decision, generic in the scalars. -/
def decide' {K : Type} [Zero K] [One K] [Mul K] [Sub K] [LE K] [DecidableLE K] [LT K] [DecidableLT K] (cfg : Cfg K)
    (firstStep : Bool) (predictedReduction fMin fMinEval stepSize : K) : K × Bool :=
  let fMinDiff := fMinEval - fMin
  let accept := decide (fMinDiff ≤ cfg.lowCutoff * predictedReduction)
  let good := decide (fMinDiff < cfg.highCutoff * predictedReduction)
  let good := good && decide (predictedReduction < 0)
  let good := good && !firstStep
  let accept := accept || firstStep
  let mul := if good then cfg.highConstant else 1
  let mul := if accept then mul else cfg.lowConstant
  (mul * stepSize, accept)

/-- `trust_region.py:27-106`, `_AbstractTrustRegion` (`init`: 73-75, initial step size `1.0`). -/
noncomputable def search [Fintype κ] (cfg : Cfg ℝ) (accepts : FnInfo ι κ → Bool)
    (predictReduction : (ι → ℝ) → FnInfo ι κ → ℝ) : Search ι κ ℝ where
  accepts := accepts
  init := 1
  step firstStep y yEval fInfo fEvalInfo stepSize :=
    let yDiff := fun i => yEval i - y i
    let d := decide' cfg firstStep (predictReduction yDiff fInfo) fInfo.asMin fEvalInfo.asMin stepSize
    (d.1, d.2, .successful, d.1)

/-- `trust_region.py:130-193`, `ClassicalTrustRegion.predict_reduction`; `none` is the `ValueError` (187-193). -/
noncomputable def classicalPredict [Fintype ι] [Fintype κ] (yDiff : ι → ℝ) : FnInfo ι κ → Option ℝ
  | .evalGradHessian _ g h => some (treeDot yDiff fun i => g i + 0.5 * h.mulVec yDiff i)
  | .residualJac r jac =>
    let rtr := sumSquares r
    let jacobianTerm := sumSquares fun i => jac.mulVec yDiff i + r i
    some (0.5 * (jacobianTerm - rtr))
  | _ => none

/-- `trust_region.py:225-270`, `LinearTrustRegion.predict_reduction`; `none` is the `ValueError` (265-270). -/
def linearPredict [Fintype ι] [Fintype κ] (yDiff : ι → ℝ) (i : FnInfo ι κ) : Option ℝ := i.gradDot? yDiff

/-- `trust_region.py:109-193`, `ClassicalTrustRegion`. -/
noncomputable def classical [Fintype ι] [Fintype κ] (cfg : Cfg ℝ) : Search ι κ ℝ :=
  search cfg (fun i => match i with
    | .evalGradHessian .. => true
    | .residualJac .. => true
    | _ => false) fun yDiff i => (classicalPredict yDiff i).getD 0

/-- `trust_region.py:201-270`, `LinearTrustRegion`. -/
noncomputable def linear [Fintype ι] [Fintype κ] (cfg : Cfg ℝ) : Search ι κ ℝ :=
  search cfg (fun i => i.grad?.isSome) fun yDiff i => (linearPredict yDiff i).getD 0

end TrustRegion

/-! ### `optimistix/_solver/learning_rate.py` -/

/-- `learning_rate.py:16-35`, `LearningRate`. -/
def learningRate (rate : ℝ) : Search ι κ Unit where
  accepts _ := true
  init := ()
  step _ _ _ _ _ _ := (rate, true, .successful, ())

/-! ### `SteepestDescent`, `optimistix/_solver/gradient_methods.py` -/

/-- `gradient_methods.py:42-79`, `SteepestDescent`; the state is the (normalised) gradient.
Simplification: if `norm` is given and the gradient is zero the code divides `0/0`; here this is `0`. -/
noncomputable def steepestDescent [Fintype κ] (norm : Option ((ι → ℝ) → ℝ)) : Descent ι κ (ι → ℝ) where
  accepts i := i.grad?.isSome
  init y _ := y
  query _ fInfo st :=
    let grad := fInfo.grad?.getD st
    match norm with
    | none => grad
    | some n => fun i => grad i / n grad
  step stepSize grad := (fun i => -stepSize * grad i, .successful)

end Verif
