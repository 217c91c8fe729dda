import Verif.Model.QuasiNewton
import Mathlib.Data.Matrix.Block
import Mathlib.Data.Fin.Basic

/-!
Model of `optimistix/_solver/limited_memory_bfgs.py`.

Ring buffers of length `h` are functions on `Fin h`; `history_length ≥ 1` is assumed (with `0` the code indexes empty
arrays).  The linear operators (`lx.FunctionLinearOperator`) are represented by their matrices, `operatorMatrix`.
-/

namespace Verif

namespace LBFGS

variable {ι : Type} {h : Nat}

/-- `n % history_length` as a position in a ring buffer (e.g. `limited_memory_bfgs.py:392`). -/
def slot (h : Nat) [NeZero h] (n : Nat) : Fin h := Fin.ofNat h n

/-- `(index_start - 1) % history_length` (`limited_memory_bfgs.py:166, 231`; Python's `%`, so that `-1` is the last
position). -/
def latestSlot (h : Nat) [NeZero h] (indexStart : Nat) : Fin h := Fin.ofNat h (indexStart + (h - 1))

/-- `limited_memory_bfgs.py:136-138`, `circ_index`: all positions, from `index_start` on. -/
def circIndex (h : Nat) [NeZero h] (indexStart : Nat) : List (Fin h) :=
  (List.range h).map fun i => slot h (i + indexStart)

/-- The matrix of a linear operator given as a function (lineax materialises operators in this way).
(`limited_memory_bfgs.py:325-329, 344-348`, where the operators are made from functions.) -/
def operatorMatrix [DecidableEq ι] (op : (ι → ℝ) → ι → ℝ) : Matrix ι ι ℝ :=
  Matrix.of fun i j => op (fun k => if k = j then 1 else 0) i

/-! ### `use_inverse=True` -/

/-- `limited_memory_bfgs.py:33-56`, `_LBFGSInverseHessianUpdateState`. -/
structure InvState (ι : Type) (h : Nat) where
  indexStart : Nat
  yDiff : Fin h → ι → ℝ
  gradDiff : Fin h → ι → ℝ
  inner : Fin h → ℝ

variable [Fintype ι]

/-- `limited_memory_bfgs.py:142-153`: the first loop, a `lax.scan(..., reverse=True)` over the positions, that is from the
last one to the first one, collecting the `alpha` of each position. -/
def backward (st : InvState ι h) : List (Fin h) → (ι → ℝ) → (ι → ℝ) × List ℝ
  | [], d => (d, [])
  | i :: is, d =>
    let r := backward st is d
    let alpha := st.inner i * treeDot (st.yDiff i) r.1
    (fun c => r.1 c - alpha * st.gradDiff i c, alpha :: r.2)

/-- `limited_memory_bfgs.py:178-198`: the second loop, a `lax.scan` from the first position to the last one. -/
def forward (st : InvState ι h) : List (Fin h × ℝ) → (ι → ℝ) → ι → ℝ
  | [], d => d
  | (i, alpha) :: rest, d =>
    let beta := st.inner i * treeDot (st.gradDiff i) d
    forward st rest fun c => d c + st.yDiff i c * (alpha - beta)

/-- `limited_memory_bfgs.py:165-173`, the scale `gamma_k` of the initial inverse Hessian approximation. -/
noncomputable def gammaInv [NeZero h] (st : InvState ι h) : ℝ :=
  let latestYDiff := st.yDiff (latestSlot h st.indexStart)
  let latestGradDiff := st.gradDiff (latestSlot h st.indexStart)
  let yGradDiffInner := treeDot latestYDiff latestGradDiff
  let gradDiffNormSq := treeDot latestGradDiff latestGradDiff
  let safe := if 0 < gradDiffNormSq then gradDiffNormSq else 1
  if 0 < gradDiffNormSq then yGradDiffInner / safe else 1

/-- `limited_memory_bfgs.py:117-198`, `_lbfgs_inverse_hessian_operator_fn`. -/
noncomputable def invOperator [NeZero h] (st : InvState ι h) (grad : ι → ℝ) : ι → ℝ :=
  let circ := circIndex h st.indexStart
  let r := backward st circ grad
  let gamma := gammaInv st
  forward st (circ.zip r.2) fun c => gamma * r.1 c

/-- `limited_memory_bfgs.py:318-324`, the initial state. -/
def initInv (ι : Type) (h : Nat) : InvState ι h :=
  { indexStart := 0, yDiff := fun _ _ => 0, gradDiff := fun _ _ => 0, inner := fun _ => 0 }

/-- `limited_memory_bfgs.py:389-418`, the new state when a pair is recorded, `use_inverse=True`. -/
noncomputable def recordInv [NeZero h] (eps : ℝ) (st : InvState ι h) (yDiff gradDiff : ι → ℝ) (inner : ℝ) :
    InvState ι h :=
  let inner := if eps < inner then inner else 1
  { indexStart := st.indexStart + 1
    yDiff := Function.update st.yDiff (slot h st.indexStart) yDiff
    gradDiff := Function.update st.gradDiff (slot h st.indexStart) gradDiff
    inner := Function.update st.inner (slot h st.indexStart) (1 / inner) }

/-- `AbstractLBFGS` with `use_inverse=True`: `init_hessian` (311-335) and `update_hessian` (352-528); the last case is the
`ValueError` of 365-371 and unreachable.  (All in `limited_memory_bfgs.py`.) -/
noncomputable def inverse [DecidableEq ι] (eps : ℝ) (h : Nat) [NeZero h] :
    QuasiNewton.HessianUpdate ι (InvState ι h) where
  initHessian _ f grad := (.evalGradHessianInv f grad (operatorMatrix (invOperator (initInv ι h))), initInv ι h)
  updateHessian y yEval fInfo fEval grad st :=
    let yd := fun i => yEval i - y i
    let gd := fun i => grad i - QuasiNewton.gradOf fInfo i
    let inner := treeDot yd gd
    match fInfo with
    | .evalGradHessianInv _ _ hinv =>
      if eps < inner then
        let st' := recordInv eps st yd gd inner
        (.evalGradHessianInv fEval grad (operatorMatrix (invOperator st')), st')
      else (.evalGradHessianInv fEval grad hinv, st)
    | _ => (.evalGrad fEval grad, st)

/-! ### `use_inverse=False` -/

/-- `limited_memory_bfgs.py:59-106`, `_LBFGSHessianUpdateState`. -/
structure DirState (ι : Type) (h : Nat) where
  indexStart : Nat
  yDiff : Fin h → ι → ℝ
  gradDiff : Fin h → ι → ℝ
  /-- `y_diff_grad_diff_cross_inner`, `L` of the paper. -/
  cross : Matrix (Fin h) (Fin h) ℝ
  /-- `y_diff_grad_diff_inner`, the diagonal of `D`. -/
  inner : Fin h → ℝ
  /-- `y_diff_cross_inner`, `SᵀS`. -/
  yCross : Matrix (Fin h) (Fin h) ℝ

/-- The dense linear algebra used by the compact representation: `jnp.linalg.cholesky` and
`jax.scipy.linalg.solve_triangular`.  Vectors of length `2 * history_length` are indexed by `Fin h ⊕ Fin h`, the
concatenation of two halves.  Called in `limited_memory_bfgs.py:255, 279, 282`. -/
structure DenseLA (h : Nat) where
  cholesky : Matrix (Fin h) (Fin h) ℝ → Matrix (Fin h) (Fin h) ℝ
  solveLower : Matrix (Fin h ⊕ Fin h) (Fin h ⊕ Fin h) ℝ → (Fin h ⊕ Fin h → ℝ) → Fin h ⊕ Fin h → ℝ
  solveUpper : Matrix (Fin h ⊕ Fin h) (Fin h ⊕ Fin h) ℝ → (Fin h ⊕ Fin h → ℝ) → Fin h ⊕ Fin h → ℝ

/-- `limited_memory_bfgs.py:230-240`, the scale `gamma_k` of the initial Hessian approximation. -/
noncomputable def gammaDir [NeZero h] (st : DirState ι h) : ℝ :=
  let latestGradDiff := st.gradDiff (latestSlot h st.indexStart)
  let latestYDiff := st.yDiff (latestSlot h st.indexStart)
  let curvature := treeDot latestYDiff latestGradDiff
  let safe := if 0 < curvature then curvature else 1
  if 0 < curvature then treeDot latestGradDiff latestGradDiff / safe else 1

/-- `limited_memory_bfgs.py:245-247`. -/
noncomputable def safeInner (st : DirState ι h) (j : Fin h) : ℝ := if st.inner j = 0 then 1 else st.inner j

/-- `limited_memory_bfgs.py:248-254`, `J_square`. -/
noncomputable def jSquare [NeZero h] (st : DirState ι h) : Matrix (Fin h) (Fin h) ℝ :=
  gammaDir st • st.yCross + (Matrix.of fun i j => st.cross i j / safeInner st j) * st.cross.transpose

/-- `limited_memory_bfgs.py:269-278`, `low_tri`. -/
noncomputable def lowTri (st : DirState ι h) (J : Matrix (Fin h) (Fin h) ℝ) : Matrix (Fin h ⊕ Fin h) (Fin h ⊕ Fin h) ℝ :=
  let sqrtDiag := fun j => Real.sqrt (safeInner st j)
  Matrix.fromBlocks (Matrix.diagonal sqrtDiag) 0 (Matrix.of fun i j => -st.cross i j / sqrtDiag j) J

/-- `limited_memory_bfgs.py:280-281`, `upper_tri`: the transpose, with its first `history_length` rows negated. -/
def upperTri (L : Matrix (Fin h ⊕ Fin h) (Fin h ⊕ Fin h) ℝ) : Matrix (Fin h ⊕ Fin h) (Fin h ⊕ Fin h) ℝ :=
  Matrix.of fun a b => match a with
    | .inl _ => -L.transpose a b
    | .inr _ => L.transpose a b

/-- `limited_memory_bfgs.py:201-295`, `_lbfgs_hessian_operator_fn`. -/
noncomputable def dirOperator [NeZero h] (la : DenseLA h) (st : DirState ι h) (step : ι → ℝ) : ι → ℝ :=
  let gamma := gammaDir st
  let J := la.cholesky (jSquare st)
  let rhs : Fin h ⊕ Fin h → ℝ
    | .inl j => treeDot (st.gradDiff j) step
    | .inr j => gamma * treeDot (st.yDiff j) step
  let low := lowTri st J
  let descent := la.solveLower low rhs
  let descent := la.solveUpper (upperTri low) descent
  fun c => gamma * step c - ∑ j, descent (.inl j) * st.gradDiff j c - gamma * ∑ j, descent (.inr j) * st.yDiff j c

/-- `limited_memory_bfgs.py:333-343`, the initial state. -/
def initDir (ι : Type) (h : Nat) : DirState ι h :=
  { indexStart := 0, yDiff := fun _ _ => 0, gradDiff := fun _ _ => 0, cross := 0, inner := fun _ => 1, yCross := 1 }

/-- `limited_memory_bfgs.py:389-400, 439-498`, the new state when a pair is recorded, `use_inverse=False`. -/
def recordDir [NeZero h] (st : DirState ι h) (yDiff gradDiff : ι → ℝ) : DirState ι h :=
  let p := slot h st.indexStart
  let newYDiff := Function.update st.yDiff p yDiff
  let newGradDiff := Function.update st.gradDiff p gradDiff
  -- the new row (with the old gradient differences) is set, then the column is zeroed
  let cross : Matrix (Fin h) (Fin h) ℝ := Matrix.of fun i j => if i = p then treeDot (st.gradDiff j) yDiff else st.cross i j
  let cross : Matrix (Fin h) (Fin h) ℝ := Matrix.of fun i j => if j = p then 0 else cross i j
  let inner := Function.update st.inner p (treeDot (newGradDiff p) yDiff)
  -- the new row is set, then the column
  let crossInner := fun j => treeDot (newYDiff j) (newYDiff p)
  let yCross : Matrix (Fin h) (Fin h) ℝ := Matrix.of fun i j => if i = p then crossInner j else st.yCross i j
  let yCross : Matrix (Fin h) (Fin h) ℝ := Matrix.of fun i j => if j = p then crossInner i else yCross i j
  { indexStart := st.indexStart + 1, yDiff := newYDiff, gradDiff := newGradDiff, cross, inner, yCross }

/-- `AbstractLBFGS` with `use_inverse=False`: `init_hessian` (332-350) and `update_hessian` (352-528).
(All in `limited_memory_bfgs.py`.) -/
noncomputable def direct [DecidableEq ι] (eps : ℝ) (h : Nat) [NeZero h] (la : DenseLA h) :
    QuasiNewton.HessianUpdate ι (DirState ι h) where
  initHessian _ f grad := (.evalGradHessian f grad (operatorMatrix (dirOperator la (initDir ι h))), initDir ι h)
  updateHessian y yEval fInfo fEval grad st :=
    let yd := fun i => yEval i - y i
    let gd := fun i => grad i - QuasiNewton.gradOf fInfo i
    let inner := treeDot yd gd
    match fInfo with
    | .evalGradHessian _ _ hess =>
      if eps < inner then
        let st' := recordDir st yd gd
        (.evalGradHessian fEval grad (operatorMatrix (dirOperator la st')), st')
      else (.evalGradHessian fEval grad hess, st)
    | _ => (.evalGrad fEval grad, st)

end LBFGS

end Verif
