import Verif.Model.GaussNewton

/-!
Model of `optimistix/_solver/dogleg.py`.
-/

namespace Verif

variable {ι κ : Type}

/-- Square root, for both exact reals and `XR` (models `jnp.sqrt`).  Called in `dogleg.py:161, 164`. -/
class HasSqrt (K : Type) where
  sqrt : K → K

noncomputable instance : HasSqrt ℝ := ⟨Real.sqrt⟩

open Classical in
/-- `jnp.sqrt`: NaN on negative numbers. -/
noncomputable instance : HasSqrt XR :=
  ⟨fun x => match x with
    | .fin r => if r < 0 then .nan else .fin (Real.sqrt r)
    | .pinf => .pinf
    | .ninf => .nan
    | .nan => .nan⟩

/-- `jnp.clip(x, min=lo, max=hi)`, as `XR.clip`, over any scalars.  Called in `dogleg.py:160-165`. -/
def clipTo {K : Type} [LT K] [DecidableLT K] (lo hi x : K) : K :=
  let a := if x < lo then lo else x
  if hi < a then hi else a

namespace Dogleg

/-- `dogleg.py:160-170`: the parameter at which the second leg crosses the trust region, from the coefficients of the
quadratic equation.  Generic in the scalars so that the divisions can also be run on `XR`, where `0/0` is NaN. -/
def interpParam {K : Type} [OfNat K 2] [One K] [Zero K] [OfScientific K] [Neg K] [Add K] [Sub K] [Mul K] [Div K]
    [LT K] [DecidableLT K] [LE K] [DecidableLE K] [HasSqrt K] (a b c : K) : K :=
  let disc := HasSqrt.sqrt (b * b - 4.0 * a * c)
  let quadratic1 := clipTo 1 2 (0.5 * (-b + disc) / a)
  let quadratic2 := clipTo 1 2 ((2 * c) / (-b - disc))
  if (0 : K) ≤ b then quadratic1 else quadratic2

/-- `dogleg.py:29-34`, `_DoglegDescentState`. -/
structure State (ι : Type) where
  newton : ι → ℝ
  cauchy : ι → ℝ
  newtonNorm : ℝ
  cauchyNorm : ℝ
  result : Result

/-- The trust-region norm (`dogleg.py:52`) and how the crossing is found: `two_norm` uses the closed formula (155-172), any
other norm an inner `root_find` (173-184) on `[1, 2]`, here a parameter returning its value and result. -/
inductive Shape (ι : Type) where
  | twoNorm
  | other (norm : (ι → ℝ) → ℝ) (rootFind : (ℝ → ℝ) → ℝ × Result)

/-- The norm of a shape.  (`dogleg.py:52`.) -/
noncomputable def Shape.norm [Fintype ι] : Shape ι → (ι → ℝ) → ℝ
  | .twoNorm => Verif.twoNorm
  | .other n _ => n

/-- `dogleg.py:77-83`: the gradient and `grad^T Hess grad`; other variants raise (84-89). -/
def gradAndCurvature [Fintype ι] [Fintype κ] : FnInfo ι κ → (ι → ℝ) × ℝ
  | .evalGradHessian _ g h => (g, treeDot g (h.mulVec g))
  | .residualJac r jac =>
    let grad := jac.transpose.mulVec r
    (grad, ∑ k, jac.mulVec grad k * jac.mulVec grad k)
  | _ => (fun _ => 0, 0)

/-- `dogleg.py:69-111`, `DoglegDescent.query`. -/
noncomputable def query [Fintype ι] [Fintype κ] (eps : ℝ) (ls : LinSolve ι κ) (shape : Shape ι) (fInfo : FnInfo ι κ) :
    State ι :=
  let gc := gradAndCurvature fInfo
  let grad := gc.1
  let denom := gc.2
  let scaling := if eps < denom then sumSquares grad / denom else 0
  let n := newtonStep ls fInfo
  let newton := fun i => -n.1 i
  let newtonNorm := shape.norm n.1
  let cauchy := fun i => -scaling * grad i
  { newton, cauchy, newtonNorm, cauchyNorm := shape.norm cauchy, result := n.2 }

/-- `dogleg.py:143-144`, `interpolate`. -/
def interpolate (cauchy newton : ι → ℝ) (t : ℝ) : ι → ℝ := fun i => cauchy i + (t - 1) * (newton i - cauchy i)

/-- `dogleg.py:124-136`, `accept_scaled_cauchy`. -/
noncomputable def scaledCauchy (eps : ℝ) (st : State ι) (scaledStepSize : ℝ) : ι → ℝ :=
  if eps < st.cauchyNorm then fun i => st.cauchy i / st.cauchyNorm * scaledStepSize else fun _ => 0

/-- The coefficients of the quadratic equation (`dogleg.py:156-159`). -/
def coefficients [Fintype ι] (st : State ι) (scaledStepSize : ℝ) : ℝ × ℝ × ℝ :=
  let a := ∑ i, (st.newton i - st.cauchy i) * (st.newton i - st.cauchy i)
  let innerProd := treeDot st.cauchy fun i => st.newton i - st.cauchy i
  let b := 2 * (innerProd - a)
  let c := st.cauchyNorm ^ 2 - 2 * innerProd + a - scaledStepSize ^ 2
  (a, b, c)

/-- `dogleg.py:113-203`, `DoglegDescent.step`.  Simplification: the crossing is computed over the reals, where a division
by zero gives zero; `interpParam` over `XR` says when that happens. -/
noncomputable def step [Fintype ι] (eps : ℝ) (shape : Shape ι) (stepSize : ℝ) (st : State ι) : (ι → ℝ) × Result :=
  let scaledStepSize := st.newtonNorm * stepSize
  let r : (ι → ℝ) × Result :=
    if scaledStepSize < st.cauchyNorm then (scaledCauchy eps st scaledStepSize, .successful)
    else if stepSize < 1 then
      match shape with
      | .twoNorm =>
        let q := coefficients st scaledStepSize
        (interpolate st.cauchy st.newton (interpParam q.1 q.2.1 q.2.2), .successful)
      | .other norm rootFind =>
        let s := rootFind fun t => norm (interpolate st.cauchy st.newton t) - scaledStepSize
        (interpolate st.cauchy st.newton s.1, s.2)
    else (st.newton, .successful)
  (r.1, if st.result = .successful then r.2 else st.result)

/-- `dogleg.py:37-203`, `DoglegDescent` (`init`: dummy values, 54-67). -/
noncomputable def descent [Fintype ι] [Fintype κ] (eps : ℝ) (ls : LinSolve ι κ) (shape : Shape ι) :
    Descent ι κ (State ι) where
  accepts i := match i with
    | .evalGradHessian .. => true
    | .residualJac .. => true
    | _ => false
  init y _ := { newton := y, cauchy := y, newtonNorm := 0, cauchyNorm := 0, result := .successful }
  query _ fInfo _ := query eps ls shape fInfo
  step := step eps shape

end Dogleg

namespace GaussNewton

/-- `dogleg.py:217-267`, `Dogleg`. -/
noncomputable def dogleg [Fintype ι] [Fintype κ] (eps rtol atol : ℝ) (normY : (ι → ℝ) → ℝ) (normF : (κ → ℝ) → ℝ)
    (ls : LinSolve ι κ) (jac : (ι → ℝ) → Matrix κ ι ℝ) : Cfg ι κ ℝ (Dogleg.State ι) :=
  { rtol, atol, normY, normF, jac, descent := Dogleg.descent eps ls .twoNorm,
    search := TrustRegion.classical TrustRegion.defaults }

end GaussNewton

end Verif
