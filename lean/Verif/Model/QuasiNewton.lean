import Verif.Model.GaussNewton
import Verif.Model.GradientMethods
import Mathlib.LinearAlgebra.Matrix.Notation

/-!
Model of `optimistix/_solver/quasi_newton.py` (`AbstractQuasiNewton`, `BFGS`, `DFP`).
Hessian approximations are matrices; `lx.PyTreeLinearOperator` is the representation of a matrix by a tree of blocks.
-/

namespace Verif

namespace QuasiNewton

variable {ι A SS DS HS : Type}

/-- `quasi_newton.py:145-174`, the two abstract methods `init_hessian` and `update_hessian`.  The gradient information is
`(f, grad)`, the fields of `FunctionInfo.EvalGrad`. -/
structure HessianUpdate (ι HS : Type) where
  initHessian : (ι → ℝ) → ℝ → (ι → ℝ) → FnInfo ι Unit × HS
  updateHessian : (ι → ℝ) → (ι → ℝ) → FnInfo ι Unit → ℝ → (ι → ℝ) → HS → FnInfo ι Unit × HS

/-- `quasi_newton.py:137-143`, the attributes of `AbstractQuasiNewton` (without `verbose`), with the gradient oracle. -/
structure Cfg (ι SS DS HS : Type) where
  rtol : ℝ
  atol : ℝ
  normY : (ι → ℝ) → ℝ
  normF : (Unit → ℝ) → ℝ
  descent : Descent ι Unit DS
  search : Search ι Unit SS
  hess : HessianUpdate ι HS
  grad : (ι → ℝ) → (ι → ℝ)

/-- `quasi_newton.py:85-104`, `_QuasiNewtonState`. -/
structure State (ι A SS DS HS : Type) where
  firstStep : Bool
  yEval : ι → ℝ
  searchState : SS
  fInfo : FnInfo ι Unit
  aux : A
  descentState : DS
  terminate : Bool
  result : Result
  numAcceptedSteps : Nat
  hessianUpdateState : HS

/-- `quasi_newton.py:176-202`, `init` (errors of incompatible searches/descents as in `GradientDescent.init`). -/
def init (cfg : Cfg ι SS DS HS) (aux0 : A) (y : ι → ℝ) : Except Err (State ι A SS DS HS) :=
  let h := cfg.hess.initHessian y 0 fun _ => 0
  if !cfg.search.accepts h.1 || !cfg.descent.accepts h.1 then .error (.valueError "incompatible search or descent")
  else .ok
    { firstStep := true, yEval := y, searchState := cfg.search.init, fInfo := h.1, aux := aux0,
      descentState := cfg.descent.init y h.1, terminate := false, result := .successful, numAcceptedSteps := 0,
      hessianUpdateState := h.2 }

/-- `quasi_newton.py:204-300`, `step`. -/
noncomputable def step (cfg : Cfg ι SS DS HS) (fn : (ι → ℝ) → ℝ × A) (y : ι → ℝ) (st : State ι A SS DS HS) :
    (ι → ℝ) × State ι A SS DS HS × A :=
  let fEval := (fn st.yEval).1
  let auxEval := (fn st.yEval).2
  let s := cfg.search.step st.firstStep y st.yEval st.fInfo (.eval fEval) st.searchState
  let stepSize := s.1
  let accept := s.2.1
  let searchResult := s.2.2.1
  let searchState := s.2.2.2
  -- `accepted`/`rejected`: `(y, f_info, aux, descent_state, terminate, hessian_update_state)`
  let r : (ι → ℝ) × FnInfo ι Unit × A × DS × Bool × HS :=
    if accept then
      let u := cfg.hess.updateHessian y st.yEval st.fInfo fEval (cfg.grad st.yEval) st.hessianUpdateState
      let descentState := cfg.descent.query st.yEval u.1 st.descentState
      let yDiff := fun i => st.yEval i - y i
      let fDiff := fEval - GradientDescent.fOf st.fInfo
      let terminate := cauchyTermination cfg.rtol cfg.atol cfg.normY cfg.normF st.yEval yDiff
        (fun _ => fEval) (fun _ => fDiff)
      let terminate := if st.firstStep then false else terminate
      (st.yEval, u.1, auxEval, descentState, terminate, u.2)
    else (y, st.fInfo, st.aux, st.descentState, false, st.hessianUpdateState)
  let d := cfg.descent.step stepSize r.2.2.2.1
  let yEval := fun i => r.1 i + d.1 i
  let result := if searchResult = .successful then d.2 else searchResult
  let prevAux := if st.firstStep then r.2.2.1 else st.aux
  (r.1,
   { firstStep := false, yEval := yEval, searchState := searchState, fInfo := r.2.1, aux := r.2.2.1,
     descentState := r.2.2.2.1, terminate := r.2.2.2.2.1, result := result,
     numAcceptedSteps := st.numAcceptedSteps + if accept then 1 else 0,
     hessianUpdateState := r.2.2.2.2.2 },
   prevAux)

/-- `quasi_newton.py:106-324`, the solver. -/
noncomputable def solver (cfg : Cfg ι SS DS HS) (aux0 : A) : Solver (ι → ℝ) ℝ A (State ι A SS DS HS) Unit where
  init _ y := init cfg aux0 y
  step := step cfg
  terminate _ _ st := (st.terminate, st.result)
  postprocess _ y aux _ _ := (y, aux, ())

/-- `quasi_newton.py:78-82`, `_outer`. -/
def outer (a b : ι → ℝ) : Matrix ι ι ℝ := Matrix.of fun i j => a i * b j

/-- `quasi_newton.py:334-340` (BFGS) and `494-500` (DFP), `init_hessian`: the identity (`_identity_pytree`, 41-75). -/
def initIdentity [DecidableEq ι] (useInverse : Bool) (_y : ι → ℝ) (f : ℝ) (grad : ι → ℝ) : FnInfo ι Unit × Unit :=
  (if useInverse then .evalGradHessianInv f grad 1 else .evalGradHessian f grad 1, ())

/-- `quasi_newton.py:370-386` (the inverse branch of `AbstractBFGS.update_hessian`), on the difference of gradients `gd`
and of points `yd`.  `inner` is their inner product. -/
noncomputable def bfgsInv [Fintype ι] (hinv : Matrix ι ι ℝ) (gd yd : ι → ℝ) (inner : ℝ) : Matrix ι ι ℝ :=
  let invMvp := hinv.mulVec gd
  let mvpInner := treeDot gd invMvp
  let term1 : Matrix ι ι ℝ := Matrix.of fun i j => ((inner + mvpInner) * outer yd yd i j) / inner ^ 2
  let term2 : Matrix ι ι ℝ := Matrix.of fun i j => (outer invMvp yd i j + outer yd invMvp i j) / inner
  hinv + term1 - term2

/-- `quasi_newton.py:387-399`, the direct branch of `AbstractBFGS.update_hessian`. -/
noncomputable def bfgsDirect [Fintype ι] (h : Matrix ι ι ℝ) (gd yd : ι → ℝ) (inner : ℝ) : Matrix ι ι ℝ :=
  let mvp := h.mulVec yd
  let term1 : Matrix ι ι ℝ := Matrix.of fun i j => outer gd gd i j / inner
  let term2 : Matrix ι ι ℝ := Matrix.of fun i j => outer mvp mvp i j / treeDot yd mvp
  h + term1 - term2

/-- `quasi_newton.py:531-542`, the inverse branch of `AbstractDFP.update_hessian`. -/
noncomputable def dfpInv [Fintype ι] (hinv : Matrix ι ι ℝ) (gd yd : ι → ℝ) (inner : ℝ) : Matrix ι ι ℝ :=
  let invMvp := hinv.mulVec gd
  let term1 : Matrix ι ι ℝ := Matrix.of fun i j => outer yd yd i j / inner
  let term2 : Matrix ι ι ℝ := Matrix.of fun i j => outer invMvp invMvp i j / treeDot gd invMvp
  hinv + term1 - term2

/-- `quasi_newton.py:543-557`, the direct branch of `AbstractDFP.update_hessian`. -/
noncomputable def dfpDirect [Fintype ι] (h : Matrix ι ι ℝ) (gd yd : ι → ℝ) (inner : ℝ) : Matrix ι ι ℝ :=
  let mvp := h.mulVec yd
  let mvpInner := treeDot yd mvp
  let term1 : Matrix ι ι ℝ := Matrix.of fun i j => ((inner + mvpInner) * outer gd gd i j) / inner ^ 2
  let term2 : Matrix ι ι ℝ := Matrix.of fun i j => (outer mvp gd i j + outer gd mvp i j) / inner
  h + term1 - term2

/-- `f_info.grad` (`quasi_newton.py:353`). -/
def gradOf : FnInfo ι Unit → ι → ℝ
  | .evalGrad _ g => g
  | .evalGradHessian _ g _ => g
  | .evalGradHessianInv _ g _ => g
  | _ => fun _ => 0

/-- `quasi_newton.py:342-415` and `502-573`, `update_hessian` with the curvature guard; `eps` is
`jnp.finfo(inner.dtype).eps`.  Simplification: `use_inverse` is the variant of `f_info` (the two always agree;
the last case is excluded by the `assert`s of the code and unreachable). -/
noncomputable def guarded [Fintype ι] (eps : ℝ)
    (inv direct : Matrix ι ι ℝ → (ι → ℝ) → (ι → ℝ) → ℝ → Matrix ι ι ℝ)
    (y yEval : ι → ℝ) (fInfo : FnInfo ι Unit) (fEval : ℝ) (grad : ι → ℝ) (_ : Unit) : FnInfo ι Unit × Unit :=
  let yd := fun i => yEval i - y i
  let gd := fun i => grad i - gradOf fInfo i
  let inner := treeDot gd yd
  match fInfo with
  | .evalGradHessianInv _ _ hinv =>
    (.evalGradHessianInv fEval grad (if eps < inner then inv hinv gd yd inner else hinv), ())
  | .evalGradHessian _ _ h =>
    (.evalGradHessian fEval grad (if eps < inner then direct h gd yd inner else h), ())
  | _ => (.evalGrad fEval grad, ())

/-- `quasi_newton.py:327-415`, `AbstractBFGS`. -/
noncomputable def bfgs [Fintype ι] [DecidableEq ι] (eps : ℝ) (useInverse : Bool) : HessianUpdate ι Unit where
  initHessian := initIdentity useInverse
  updateHessian := guarded eps bfgsInv bfgsDirect

/-- `quasi_newton.py:487-573`, `AbstractDFP`. -/
noncomputable def dfp [Fintype ι] [DecidableEq ι] (eps : ℝ) (useInverse : Bool) : HessianUpdate ι Unit where
  initHessian := initIdentity useInverse
  updateHessian := guarded eps dfpInv dfpDirect

/-- `quasi_newton.py:418-460`, `BFGS`, and `576-…`, `DFP`: Newton descent (Cholesky) with backtracking. -/
noncomputable def withArmijo [Fintype ι] (rtol atol : ℝ) (normY : (ι → ℝ) → ℝ) (normF : (Unit → ℝ) → ℝ)
    (ls : LinSolve ι Unit) (armijo : Armijo.Cfg ℝ) (hess : HessianUpdate ι HS) (grad : (ι → ℝ) → (ι → ℝ)) :
    Cfg ι ℝ ((ι → ℝ) × Result) HS :=
  { rtol, atol, normY, normF, grad, hess, descent := newtonDescent ls none, search := Armijo.search armijo }

end QuasiNewton

end Verif
