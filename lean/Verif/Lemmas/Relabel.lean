import Verif.Lemmas.Simulate
import Verif.Model.Dogleg
import Mathlib.LinearAlgebra.Matrix.NonsingularInverse
import Verif.Model.LBFGS
import Verif.Model.FixedPoint
import Verif.Model.NewtonChord
import Verif.Model.BestSoFar
import Verif.Model.Optax

/-!
Every ingredient of the solvers commutes with repacking the unknowns and the residuals.
-/

namespace Verif.Relabel

variable {ι ι' κ κ' A K : Type}

/-! ### Vectors and matrices -/

@[simp] theorem vec_apply (e : ι ≃ ι') (y : ι → K) (j : ι') : vec e y j = y (e.symm j) := rfl

@[simp] theorem vec_symm (e : ι ≃ ι') (y : ι → K) : vec e.symm (vec e y) = y := by
  funext i; simp [vec]

@[simp] theorem vec_symm' (e : ι ≃ ι') (y : ι' → K) : vec e (vec e.symm y) = y := by
  funext i; simp [vec]

theorem vec_inj (e : ι ≃ ι') {x y : ι → K} (h : vec e x = vec e y) : x = y := by
  rw [← vec_symm e x, h, vec_symm]

section
variable [Fintype ι] [Fintype ι'] [Fintype κ] [Fintype κ']

theorem sum_symm (e : ι ≃ ι') (f : ι → ℝ) : ∑ j, f (e.symm j) = ∑ i, f i := Equiv.sum_comp e.symm f

theorem treeDot_vec (e : ι ≃ ι') (x y : ι → ℝ) : treeDot (vec e x) (vec e y) = treeDot x y :=
  sum_symm e fun i => x i * y i

theorem sumSquares_vec (e : ι ≃ ι') (x : ι → ℝ) : sumSquares (vec e x) = sumSquares x :=
  sum_symm e fun i => x i * x i

theorem twoNorm_same (e : ι ≃ ι') : SameNorm e (twoNorm (ι := ι)) twoNorm := fun v => by
  simp only [twoNorm, sumSquares_vec]

theorem rmsNorm_same (e : ι ≃ ι') : SameNorm e (rmsNorm (ι := ι)) rmsNorm := fun v => by
  simp only [rmsNorm, sumSquares_vec, Fintype.card_congr e]

theorem maxNorm_same (e : ι ≃ ι') : SameNorm e (maxNorm (ι := ι)) maxNorm := fun v => by
  simp only [maxNorm]
  apply le_antisymm
  · refine Finset.sup'_le _ _ fun o _ => ?_
    cases o with
    | none => exact Finset.le_sup' (fun o : Option ι => o.elim 0 fun i => |v i|) (Finset.mem_univ none)
    | some j =>
      exact Finset.le_sup' (fun o : Option ι => o.elim 0 fun i => |v i|) (Finset.mem_univ (some (e.symm j)))
  · refine Finset.sup'_le _ _ fun o _ => ?_
    cases o with
    | none => exact Finset.le_sup' (fun o : Option ι' => o.elim 0 fun i => |vec e v i|) (Finset.mem_univ none)
    | some j =>
      have := Finset.le_sup' (fun o : Option ι' => o.elim 0 fun i => |vec e v i|) (Finset.mem_univ (some (e j)))
      refine le_trans (le_of_eq ?_) this
      simp

theorem mulVec_mat (k : κ ≃ κ') (e : ι ≃ ι') (M : Matrix κ ι ℝ) (v : ι → ℝ) :
    (mat k e M).mulVec (vec e v) = vec k (M.mulVec v) := by
  funext a
  exact sum_symm e fun i => M (k.symm a) i * v i

theorem transpose_mat (k : κ ≃ κ') (e : ι ≃ ι') (M : Matrix κ ι ℝ) : (mat k e M).transpose = mat e k M.transpose := rfl

theorem mul_mat {μ μ' : Type} [Fintype μ] [Fintype μ'] (k : κ ≃ κ') (e : ι ≃ ι') (m : μ ≃ μ') (M : Matrix κ ι ℝ)
    (N : Matrix ι μ ℝ) : mat k e M * mat e m N = mat k m (M * N) := by
  ext a b
  exact sum_symm e fun i => M (k.symm a) i * N i (m.symm b)

end

theorem one_mat [DecidableEq ι] [DecidableEq ι'] (e : ι ≃ ι') : mat e e (1 : Matrix ι ι ℝ) = 1 := by
  ext a b
  simp only [mat, Matrix.of_apply, Matrix.one_apply, EmbeddingLike.apply_eq_iff_eq]

theorem zero_mat (k : κ ≃ κ') (e : ι ≃ ι') : mat k e (0 : Matrix κ ι ℝ) = 0 := rfl

theorem add_mat (k : κ ≃ κ') (e : ι ≃ ι') (M N : Matrix κ ι ℝ) : mat k e (M + N) = mat k e M + mat k e N := rfl

theorem smul_mat (k : κ ≃ κ') (e : ι ≃ ι') (c : ℝ) (M : Matrix κ ι ℝ) : mat k e (c • M) = c • mat k e M := rfl

theorem inv_mat [Fintype ι] [DecidableEq ι] [Fintype ι'] [DecidableEq ι'] (e : ι ≃ ι') (M : Matrix ι ι ℝ) :
    mat e e M⁻¹ = (mat e e M)⁻¹ := by
  have : ∀ N : Matrix ι ι ℝ, mat e e N = Matrix.reindex e e N := fun N => rfl
  rw [this, this, Matrix.inv_reindex]

/-! ### The termination test -/

theorem scaledDiff_vec [Add K] [Mul K] [Div K] [HasAbs K] (e : ι ≃ ι') (rtol atol : K) (x d : ι → K) :
    scaledDiff rtol atol (vec e x) (vec e d) = vec e (scaledDiff rtol atol x d) := rfl

theorem cauchyTermination_vec [Add K] [Mul K] [Div K] [HasAbs K] [LT K] [DecidableLT K] [One K] {e : ι ≃ ι'} {k : κ ≃ κ'}
    {nY : (ι → K) → K} {nY' : (ι' → K) → K} {nF : (κ → K) → K} {nF' : (κ' → K) → K} (hY : SameNorm e nY nY')
    (hF : SameNorm k nF nF') (rtol atol : K) (y yd : ι → K) (f fd : κ → K) :
    cauchyTermination rtol atol nY' nF' (vec e y) (vec e yd) (vec k f) (vec k fd) =
      cauchyTermination rtol atol nY nF y yd f fd := by
  simp only [cauchyTermination, scaledDiff_vec, hY _, hF _]

/-! ### Function information, searches and descents -/

/-- Function information about the repacked problem. -/
def info (e : ι ≃ ι') (k : κ ≃ κ') : FnInfo ι κ → FnInfo ι' κ'
  | .eval f => .eval f
  | .evalGrad f g => .evalGrad f (vec e g)
  | .evalGradHessian f g h => .evalGradHessian f (vec e g) (mat e e h)
  | .evalGradHessianInv f g h => .evalGradHessianInv f (vec e g) (mat e e h)
  | .residual r => .residual (vec k r)
  | .residualJac r j => .residualJac (vec k r) (mat k e j)

/-- The search decides in the same way about the repacked problem. -/
structure SameSearch {SS SS' : Type} (e : ι ≃ ι') (k : κ ≃ κ') (S : Search ι κ SS) (S' : Search ι' κ' SS')
    (m : SS → SS') : Prop where
  accepts : ∀ i, S'.accepts (info e k i) = S.accepts i
  init : S'.init = m S.init
  step : ∀ b y y' i i' s, S'.step b (vec e y) (vec e y') (info e k i) (info e k i') (m s) =
    ((S.step b y y' i i' s).1, (S.step b y y' i i' s).2.1, (S.step b y y' i i' s).2.2.1, m (S.step b y y' i i' s).2.2.2)

/-- The descent proposes the repacked step. -/
structure SameDescent {DS DS' : Type} (e : ι ≃ ι') (k : κ ≃ κ') (D : Descent ι κ DS) (D' : Descent ι' κ' DS')
    (m : DS → DS') : Prop where
  accepts : ∀ i, D'.accepts (info e k i) = D.accepts i
  init : ∀ y i, D'.init (vec e y) (info e k i) = m (D.init y i)
  query : ∀ y i s, D'.query (vec e y) (info e k i) (m s) = m (D.query y i s)
  step : ∀ a s, D'.step a (m s) = (vec e (D.step a s).1, (D.step a s).2)

section
variable [Fintype ι] [Fintype ι'] [Fintype κ] [Fintype κ']

theorem asMin_info (e : ι ≃ ι') (k : κ ≃ κ') (i : FnInfo ι κ) : (info e k i).asMin = i.asMin := by
  cases i <;> simp [info, FnInfo.asMin, sumSquares_vec]

theorem grad?_info (e : ι ≃ ι') (k : κ ≃ κ') (i : FnInfo ι κ) : (info e k i).grad? = i.grad?.map (vec e) := by
  cases i <;> simp [info, FnInfo.grad?, transpose_mat, mulVec_mat]

theorem gradDot?_info (e : ι ≃ ι') (k : κ ≃ κ') (y : ι → ℝ) (i : FnInfo ι κ) :
    (info e k i).gradDot? (vec e y) = i.gradDot? y := by
  cases i <;> simp [info, FnInfo.gradDot?, treeDot_vec, mulVec_mat]

theorem sub_vec (e : ι ≃ ι') (x y : ι → ℝ) : (fun i => vec e x i - vec e y i) = vec e fun i => x i - y i := rfl

theorem classicalPredict_info (e : ι ≃ ι') (k : κ ≃ κ') (y : ι → ℝ) (i : FnInfo ι κ) :
    TrustRegion.classicalPredict (vec e y) (info e k i) = TrustRegion.classicalPredict y i := by
  cases i with
  | evalGradHessian f g h =>
    simp only [info, TrustRegion.classicalPredict, mulVec_mat]
    exact congrArg some (treeDot_vec e y fun i => g i + 0.5 * h.mulVec y i)
  | residualJac r j =>
    simp only [info, TrustRegion.classicalPredict, mulVec_mat, sumSquares_vec]
    rw [show (fun i => vec k (j.mulVec y) i + vec k r i) = vec k (fun i => j.mulVec y i + r i) from rfl, sumSquares_vec]
  | _ => rfl

theorem armijo_same (e : ι ≃ ι') (k : κ ≃ κ') (c : Armijo.Cfg ℝ) :
    SameSearch e k (Armijo.search (ι := ι) (κ := κ) c) (Armijo.search c) id where
  accepts i := by simp [Armijo.search, grad?_info]
  init := rfl
  step b y y' i i' s := by
    simp only [Armijo.search, sub_vec, gradDot?_info, asMin_info, id]

theorem trust_same (e : ι ≃ ι') (k : κ ≃ κ') (c : TrustRegion.Cfg ℝ) {acc : FnInfo ι κ → Bool} {acc' : FnInfo ι' κ' → Bool}
    {p : (ι → ℝ) → FnInfo ι κ → ℝ} {p' : (ι' → ℝ) → FnInfo ι' κ' → ℝ} (ha : ∀ i, acc' (info e k i) = acc i)
    (hp : ∀ y i, p' (vec e y) (info e k i) = p y i) :
    SameSearch e k (TrustRegion.search c acc p) (TrustRegion.search c acc' p') id where
  accepts i := ha i
  init := rfl
  step b y y' i i' s := by simp only [TrustRegion.search, sub_vec, hp, asMin_info, id]

theorem classical_same (e : ι ≃ ι') (k : κ ≃ κ') (c : TrustRegion.Cfg ℝ) :
    SameSearch e k (TrustRegion.classical (ι := ι) (κ := κ) c) (TrustRegion.classical c) id := by
  refine trust_same e k c (fun i => ?_) fun y i => ?_
  · cases i <;> rfl
  · rw [classicalPredict_info]

theorem linear_same (e : ι ≃ ι') (k : κ ≃ κ') (c : TrustRegion.Cfg ℝ) :
    SameSearch e k (TrustRegion.linear (ι := ι) (κ := κ) c) (TrustRegion.linear c) id := by
  refine trust_same e k c (fun i => ?_) fun y i => ?_
  · simp [grad?_info]
  · simp only [TrustRegion.linearPredict, gradDot?_info]

omit [Fintype ι] [Fintype ι'] [Fintype κ] [Fintype κ'] in
theorem learningRate_same (e : ι ≃ ι') (k : κ ≃ κ') (r : ℝ) :
    SameSearch e k (learningRate (ι := ι) (κ := κ) r) (learningRate r) id where
  accepts _ := rfl
  init := rfl
  step _ _ _ _ _ _ := rfl

theorem steepest_same (e : ι ≃ ι') (k : κ ≃ κ') :
    SameDescent e k (steepestDescent (ι := ι) (κ := κ) none) (steepestDescent none) (vec e) where
  accepts i := by simp [steepestDescent, grad?_info]
  init _ _ := rfl
  query y i s := by
    simp only [steepestDescent, grad?_info]
    cases i.grad? <;> rfl
  step _ _ := rfl

theorem steepest_norm_same (e : ι ≃ ι') (k : κ ≃ κ') {n : (ι → ℝ) → ℝ} {n' : (ι' → ℝ) → ℝ} (hn : SameNorm e n n') :
    SameDescent e k (steepestDescent (ι := ι) (κ := κ) (some n)) (steepestDescent (some n')) (vec e) where
  accepts i := by simp [steepestDescent, grad?_info]
  init _ _ := rfl
  query y i s := by
    simp only [steepestDescent, grad?_info]
    cases i.grad? <;> simp only [Option.map_none, Option.map_some, Option.getD_none, Option.getD_some, hn _] <;> rfl
  step _ _ := rfl

/-- The state of the conjugate gradient descent, repacked. -/
def cgState (e : ι ≃ ι') (s : NonlinearCG.DState ι) : NonlinearCG.DState ι' := { yDiff := vec e s.yDiff, grad := vec e s.grad }

/-- A formula for `beta` that does not depend on the packing. -/
def SameMethod (e : ι ≃ ι') (m : (ι → ℝ) → (ι → ℝ) → (ι → ℝ) → ℝ) (m' : (ι' → ℝ) → (ι' → ℝ) → (ι' → ℝ) → ℝ) : Prop :=
  ∀ a b c, m' (vec e a) (vec e b) (vec e c) = m a b c

theorem polakRibiere_same (e : ι ≃ ι') (eps : ℝ) :
    SameMethod e (NonlinearCG.polakRibiere (ι := ι) eps) (NonlinearCG.polakRibiere eps) := fun a b c => by
  simp only [NonlinearCG.polakRibiere, sub_vec, treeDot_vec, sumSquares_vec]

theorem fletcherReeves_same (e : ι ≃ ι') (eps : ℝ) :
    SameMethod e (NonlinearCG.fletcherReeves (ι := ι) eps) (NonlinearCG.fletcherReeves eps) := fun a b c => by
  simp only [NonlinearCG.fletcherReeves, sumSquares_vec]

theorem hestenesStiefel_same (e : ι ≃ ι') (eps : ℝ) :
    SameMethod e (NonlinearCG.hestenesStiefel (ι := ι) eps) (NonlinearCG.hestenesStiefel eps) := fun a b c => by
  simp only [NonlinearCG.hestenesStiefel, sub_vec, treeDot_vec]

theorem daiYuan_same (e : ι ≃ ι') (eps : ℝ) :
    SameMethod e (NonlinearCG.daiYuan (ι := ι) eps) (NonlinearCG.daiYuan eps) := fun a b c => by
  simp only [NonlinearCG.daiYuan, sub_vec, treeDot_vec, sumSquares_vec]

theorem cg_same (e : ι ≃ ι') (k : κ ≃ κ') {m : (ι → ℝ) → (ι → ℝ) → (ι → ℝ) → ℝ}
    {m' : (ι' → ℝ) → (ι' → ℝ) → (ι' → ℝ) → ℝ} (hm : SameMethod e m m') :
    SameDescent e k (NonlinearCG.descent (κ := κ) m) (NonlinearCG.descent m') (cgState e) where
  accepts i := by simp [NonlinearCG.descent, grad?_info]
  init _ _ := rfl
  query y i s := by
    have hg : (info e k i).grad?.getD (vec e s.grad) = vec e (i.grad?.getD s.grad) := by
      rw [grad?_info]; cases i.grad? <;> rfl
    simp only [NonlinearCG.descent, cgState, hg, hm _ _ _]
    generalize i.grad?.getD s.grad = g
    have hd : (fun j => -vec e g j + m g s.grad s.yDiff * vec e s.yDiff j) =
        vec e fun j => -g j + m g s.grad s.yDiff * s.yDiff j := rfl
    rw [hd, treeDot_vec]
    congr 1
    split <;> rfl
  step _ _ := rfl

end

/-- A pair of a vector and a result, repacked. -/
def pair (e : ι ≃ ι') (p : (ι → ℝ) × Result) : (ι' → ℝ) × Result := (vec e p.1, p.2)

theorem newtonStep_info [Fintype ι] [Fintype ι'] {e : ι ≃ ι'} {k : κ ≃ κ'} {ls : LinSolve ι κ} {ls' : LinSolve ι' κ'}
    (h : SameSolve e k ls ls') (i : FnInfo ι κ) : newtonStep ls' (info e k i) = pair e (newtonStep ls i) := by
  cases i <;> simp only [info, newtonStep, pair, mulVec_mat, h.rect, h.square] <;> rfl

theorem newton_same [Fintype ι] [Fintype ι'] {e : ι ≃ ι'} {k : κ ≃ κ'} {ls : LinSolve ι κ} {ls' : LinSolve ι' κ'}
    (h : SameSolve e k ls ls') : SameDescent e k (newtonDescent ls none) (newtonDescent ls' none) (pair e) where
  accepts i := by cases i <;> rfl
  init _ _ := rfl
  query y i s := by simp only [newtonDescent, newtonStep_info h]
  step _ _ := rfl

theorem newton_norm_same [Fintype ι] [Fintype ι'] {e : ι ≃ ι'} {k : κ ≃ κ'} {ls : LinSolve ι κ} {ls' : LinSolve ι' κ'}
    (h : SameSolve e k ls ls') {n : (ι → ℝ) → ℝ} {n' : (ι' → ℝ) → ℝ} (hn : SameNorm e n n') :
    SameDescent e k (newtonDescent ls (some n)) (newtonDescent ls' (some n')) (pair e) where
  accepts i := by cases i <;> rfl
  init _ _ := rfl
  query y i s := by simp only [newtonDescent, newtonStep_info h, pair, hn _]; rfl
  step _ _ := rfl

/-! ### Damped steps -/

theorem dampedOperator_mat [DecidableEq ι] [DecidableEq ι'] (e : ι ≃ ι') (k : κ ≃ κ') (j : Matrix κ ι ℝ) (d : ℝ) :
    dampedOperator (mat k e j) d = mat (k.sumCongr e) e (dampedOperator j d) := by
  ext s i
  cases s with
  | inl a => rfl
  | inr a => simp [dampedOperator, mat]

theorem dampedVector_vec (e : ι ≃ ι') (k : κ ≃ κ') (r : κ → ℝ) :
    dampedVector (ι := ι') (vec k r) = vec (k.sumCongr e) (dampedVector r) := by
  funext s; cases s <;> rfl

theorem dampedNewtonStep_info [DecidableEq ι] [DecidableEq ι'] {e : ι ≃ ι'} {k : κ ≃ κ'} {ls : LinSolve ι (κ ⊕ ι)}
    {ls' : LinSolve ι' (κ' ⊕ ι')} (h : SameSolve e (k.sumCongr e) ls ls') (eps fmax a : ℝ) (i : FnInfo ι κ) :
    dampedNewtonStep eps fmax ls' a (info e k i) = pair e (dampedNewtonStep eps fmax ls a i) := by
  cases i with
  | evalGradHessian f g hs =>
    simp only [info, dampedNewtonStep, pair]
    rw [← one_mat e, ← smul_mat, ← add_mat, h.square]
  | residualJac r j =>
    simp only [info, dampedNewtonStep, pair]
    rw [dampedOperator_mat, dampedVector_vec e, h.rect]
  | _ => rfl

theorem damped_same [DecidableEq ι] [DecidableEq ι'] {e : ι ≃ ι'} {k : κ ≃ κ'} {ls : LinSolve ι (κ ⊕ ι)}
    {ls' : LinSolve ι' (κ' ⊕ ι')} (h : SameSolve e (k.sumCongr e) ls ls') (eps fmax : ℝ) :
    SameDescent e k (dampedNewtonDescent eps fmax ls) (dampedNewtonDescent eps fmax ls') (info e k) where
  accepts i := by cases i <;> rfl
  init _ _ := rfl
  query _ _ _ := rfl
  step a s := by simp only [dampedNewtonDescent, dampedNewtonStep_info h]; rfl

/-- The state of the indirect damped descent, repacked. -/
def indirectState (e : ι ≃ ι') (k : κ ≃ κ') (s : IndirectState ι κ) : IndirectState ι' κ' :=
  { fInfo := info e k s.fInfo, newton := vec e s.newton, newtonNorm := s.newtonNorm, result := s.result }

theorem indirect_same [Fintype ι] [Fintype ι'] [DecidableEq ι] [DecidableEq ι'] {e : ι ≃ ι'} {k : κ ≃ κ'}
    {ls : LinSolve ι κ} {ls' : LinSolve ι' κ'} (h : SameSolve e k ls ls') {lsD : LinSolve ι (κ ⊕ ι)}
    {lsD' : LinSolve ι' (κ' ⊕ ι')} (hD : SameSolve e (k.sumCongr e) lsD lsD') {n : (ι → ℝ) → ℝ} {n' : (ι' → ℝ) → ℝ}
    (hn : SameNorm e n n') (eps fmax : ℝ) (find : (ℝ → ℝ) → ℝ × Result) :
    SameDescent e k (indirectDescent eps fmax ls lsD n find) (indirectDescent eps fmax ls' lsD' n' find)
      (indirectState e k) where
  accepts i := by cases i <;> rfl
  init _ _ := rfl
  query y i s := by simp only [indirectDescent, newtonStep_info h, pair, hn _, indirectState]
  step a s := by
    simp only [indirectDescent, indirectState, dampedNewtonStep_info hD, pair, hn _]
    split <;> rfl

/-! ### Dogleg -/

/-- The state of the dogleg descent, repacked. -/
def doglegState (e : ι ≃ ι') (s : Dogleg.State ι) : Dogleg.State ι' :=
  { newton := vec e s.newton, cauchy := vec e s.cauchy, newtonNorm := s.newtonNorm, cauchyNorm := s.cauchyNorm,
    result := s.result }

/-- The same trust-region shape on the repacked unknowns. -/
inductive SameShape (e : ι ≃ ι') : Dogleg.Shape ι → Dogleg.Shape ι' → Prop
  | twoNorm : SameShape e .twoNorm .twoNorm
  | other {n n'} (h : SameNorm e n n') (find) : SameShape e (.other n find) (.other n' find)

theorem SameShape.norm [Fintype ι] [Fintype ι'] {e : ι ≃ ι'} {s : Dogleg.Shape ι} {s' : Dogleg.Shape ι'}
    (h : SameShape e s s') : SameNorm e s.norm s'.norm := by
  cases h with
  | twoNorm => exact twoNorm_same e
  | other h find => exact h

theorem dogleg_same [Fintype ι] [Fintype ι'] [Fintype κ] [Fintype κ'] {e : ι ≃ ι'} {k : κ ≃ κ'}
    {ls : LinSolve ι κ} {ls' : LinSolve ι' κ'} (h : SameSolve e k ls ls') {s : Dogleg.Shape ι} {s' : Dogleg.Shape ι'}
    (hs : SameShape e s s') (eps : ℝ) :
    SameDescent e k (Dogleg.descent eps ls s) (Dogleg.descent eps ls' s') (doglegState e) where
  accepts i := by cases i <;> rfl
  init _ _ := rfl
  query y i st := by
    have hg : Dogleg.gradAndCurvature (info e k i) =
        (vec e (Dogleg.gradAndCurvature i).1, (Dogleg.gradAndCurvature i).2) := by
      cases i with
      | evalGradHessian f g hh => simp only [info, Dogleg.gradAndCurvature, mulVec_mat, treeDot_vec]
      | residualJac r j =>
        simp only [info, Dogleg.gradAndCurvature, transpose_mat, mulVec_mat]
        refine Prod.ext rfl ?_
        exact sum_symm k fun a => j.mulVec (j.transpose.mulVec r) a * j.mulVec (j.transpose.mulVec r) a
      | _ => rfl
    simp only [Dogleg.descent, Dogleg.query, hg, newtonStep_info h, sumSquares_vec, pair, hs.norm _, doglegState]
    have hc : ∀ c : ℝ, (fun i => -c * vec e (Dogleg.gradAndCurvature ‹FnInfo ι κ›).1 i) =
      vec e fun i => -c * (Dogleg.gradAndCurvature ‹FnInfo ι κ›).1 i := fun c => rfl
    rw [hc, hs.norm]
    rfl
  step a st := by
    have hi : ∀ t, Dogleg.interpolate (vec e st.cauchy) (vec e st.newton) t =
      vec e (Dogleg.interpolate st.cauchy st.newton t) := fun t => rfl
    have hco : ∀ r, Dogleg.coefficients (doglegState e st) r = Dogleg.coefficients st r := by
      intro r
      have h1 : (∑ j, (vec e st.newton j - vec e st.cauchy j) * (vec e st.newton j - vec e st.cauchy j)) =
        ∑ i, (st.newton i - st.cauchy i) * (st.newton i - st.cauchy i) :=
        sum_symm e fun i => (st.newton i - st.cauchy i) * (st.newton i - st.cauchy i)
      simp only [Dogleg.coefficients, doglegState, sub_vec, treeDot_vec, h1]
    have hsc : ∀ r, Dogleg.scaledCauchy eps (doglegState e st) r = vec e (Dogleg.scaledCauchy eps st r) := by
      intro r
      by_cases hx : eps < st.cauchyNorm
      · have hx' : eps < (doglegState e st).cauchyNorm := hx
        simp only [Dogleg.scaledCauchy, if_pos hx, if_pos hx']; rfl
      · have hx' : ¬eps < (doglegState e st).cauchyNorm := hx
        simp only [Dogleg.scaledCauchy, if_neg hx, if_neg hx']; rfl
    simp only [Dogleg.descent, Dogleg.step, hco, hsc]
    by_cases h1 : st.newtonNorm * a < st.cauchyNorm
    · have h1' : (doglegState e st).newtonNorm * a < (doglegState e st).cauchyNorm := h1
      simp only [if_pos h1, if_pos h1']; rfl
    · have h1' : ¬(doglegState e st).newtonNorm * a < (doglegState e st).cauchyNorm := h1
      simp only [if_neg h1, if_neg h1']
      by_cases h2 : a < 1
      · simp only [if_pos h2]
        cases hs with
        | twoNorm => rfl
        | other hn find =>
          simp only [doglegState, hi, hn _]
      · simp only [if_neg h2]; rfl

/-! ### Hessian updates -/

/-- The Hessian update does to the repacked problem what it does to the original one. -/
structure SameHessian {HS HS' : Type} (e : ι ≃ ι') (H : QuasiNewton.HessianUpdate ι HS) (H' : QuasiNewton.HessianUpdate ι' HS')
    (m : HS → HS') : Prop where
  init : ∀ y f g, H'.initHessian (vec e y) f (vec e g) =
    (info e (Equiv.refl Unit) (H.initHessian y f g).1, m (H.initHessian y f g).2)
  update : ∀ y y' i f g s, H'.updateHessian (vec e y) (vec e y') (info e (Equiv.refl Unit) i) f (vec e g) (m s) =
    (info e (Equiv.refl Unit) (H.updateHessian y y' i f g s).1, m (H.updateHessian y y' i f g s).2)

theorem gradOf_info (e : ι ≃ ι') (i : FnInfo ι Unit) :
    QuasiNewton.gradOf (info e (Equiv.refl Unit) i) = vec e (QuasiNewton.gradOf i) := by
  cases i <;> rfl

section
variable [Fintype ι] [Fintype ι']

/-- A matrix update that commutes with repacking. -/
def SameUpdate (e : ι ≃ ι') (u : Matrix ι ι ℝ → (ι → ℝ) → (ι → ℝ) → ℝ → Matrix ι ι ℝ)
    (u' : Matrix ι' ι' ℝ → (ι' → ℝ) → (ι' → ℝ) → ℝ → Matrix ι' ι' ℝ) : Prop :=
  ∀ M a b c, u' (mat e e M) (vec e a) (vec e b) c = mat e e (u M a b c)

theorem guarded_same (e : ι ≃ ι') (eps : ℝ) {ui ud ui' ud'} (hi : SameUpdate e ui ui') (hd : SameUpdate e ud ud')
    (y y' : ι → ℝ) (i : FnInfo ι Unit) (f : ℝ) (g : ι → ℝ) :
    QuasiNewton.guarded eps ui' ud' (vec e y) (vec e y') (info e (Equiv.refl Unit) i) f (vec e g) () =
      (info e (Equiv.refl Unit) (QuasiNewton.guarded eps ui ud y y' i f g ()).1, ()) := by
  simp only [QuasiNewton.guarded, gradOf_info, sub_vec, treeDot_vec]
  cases i with
  | evalGradHessian f0 g0 h0 =>
    simp only [info, hd _ _ _ _]
    split <;> rfl
  | evalGradHessianInv f0 g0 h0 =>
    simp only [info, hi _ _ _ _]
    split <;> rfl
  | _ => rfl

theorem bfgsInv_same (e : ι ≃ ι') : SameUpdate e (QuasiNewton.bfgsInv (ι := ι)) QuasiNewton.bfgsInv := by
  intro M a b c
  simp only [QuasiNewton.bfgsInv, mulVec_mat, treeDot_vec]; rfl

theorem bfgsDirect_same (e : ι ≃ ι') : SameUpdate e (QuasiNewton.bfgsDirect (ι := ι)) QuasiNewton.bfgsDirect := by
  intro M a b c
  simp only [QuasiNewton.bfgsDirect, mulVec_mat, treeDot_vec]; rfl

theorem dfpInv_same (e : ι ≃ ι') : SameUpdate e (QuasiNewton.dfpInv (ι := ι)) QuasiNewton.dfpInv := by
  intro M a b c
  simp only [QuasiNewton.dfpInv, mulVec_mat, treeDot_vec]; rfl

theorem dfpDirect_same (e : ι ≃ ι') : SameUpdate e (QuasiNewton.dfpDirect (ι := ι)) QuasiNewton.dfpDirect := by
  intro M a b c
  simp only [QuasiNewton.dfpDirect, mulVec_mat, treeDot_vec]; rfl

variable [DecidableEq ι] [DecidableEq ι']

omit [Fintype ι] [Fintype ι'] in
theorem initIdentity_same (e : ι ≃ ι') (b : Bool) (y : ι → ℝ) (f : ℝ) (g : ι → ℝ) :
    QuasiNewton.initIdentity b (vec e y) f (vec e g) =
      (info e (Equiv.refl Unit) (QuasiNewton.initIdentity b y f g).1, ()) := by
  cases b <;> simp [QuasiNewton.initIdentity, info, one_mat]

theorem bfgs_same (e : ι ≃ ι') (eps : ℝ) (b : Bool) :
    SameHessian e (QuasiNewton.bfgs (ι := ι) eps b) (QuasiNewton.bfgs eps b) id where
  init y f g := initIdentity_same e b y f g
  update y y' i f g _ := guarded_same e eps (bfgsInv_same e) (bfgsDirect_same e) y y' i f g

theorem dfp_same (e : ι ≃ ι') (eps : ℝ) (b : Bool) :
    SameHessian e (QuasiNewton.dfp (ι := ι) eps b) (QuasiNewton.dfp eps b) id where
  init y f g := initIdentity_same e b y f g
  update y y' i f g _ := guarded_same e eps (dfpInv_same e) (dfpDirect_same e) y y' i f g

omit [Fintype ι] [Fintype ι'] in
theorem operatorMatrix_mat (e : ι ≃ ι') {op : (ι → ℝ) → ι → ℝ} {op' : (ι' → ℝ) → ι' → ℝ}
    (h : ∀ v, op' (vec e v) = vec e (op v)) : LBFGS.operatorMatrix op' = mat e e (LBFGS.operatorMatrix op) := by
  ext a b
  have hb : (fun c => if c = b then (1 : ℝ) else 0) = vec e fun c => if c = e.symm b then 1 else 0 := by
    funext c
    simp [vec]
  simp only [LBFGS.operatorMatrix, mat, Matrix.of_apply, hb, h, vec]

variable {h : ℕ} [NeZero h]

/-- The history of limited-memory BFGS, repacked. -/
def invState (e : ι ≃ ι') (s : LBFGS.InvState ι h) : LBFGS.InvState ι' h :=
  { indexStart := s.indexStart, yDiff := fun j => vec e (s.yDiff j), gradDiff := fun j => vec e (s.gradDiff j),
    inner := s.inner }

omit [DecidableEq ι] [DecidableEq ι'] [NeZero h] in
theorem backward_vec (e : ι ≃ ι') (s : LBFGS.InvState ι h) (l : List (Fin h)) (d : ι → ℝ) :
    LBFGS.backward (invState e s) l (vec e d) = (vec e (LBFGS.backward s l d).1, (LBFGS.backward s l d).2) := by
  induction l with
  | nil => rfl
  | cons i is ih =>
    simp only [LBFGS.backward, ih]
    simp only [invState, treeDot_vec]
    rfl

omit [DecidableEq ι] [DecidableEq ι'] [NeZero h] in
theorem forward_vec (e : ι ≃ ι') (s : LBFGS.InvState ι h) (l : List (Fin h × ℝ)) (d : ι → ℝ) :
    LBFGS.forward (invState e s) l (vec e d) = vec e (LBFGS.forward s l d) := by
  induction l generalizing d with
  | nil => rfl
  | cons p is ih =>
    obtain ⟨i, a⟩ := p
    simp only [LBFGS.forward]
    rw [← ih]
    simp only [invState, treeDot_vec]
    rfl

omit [DecidableEq ι] [DecidableEq ι'] in
theorem invOperator_vec (e : ι ≃ ι') (s : LBFGS.InvState ι h) (v : ι → ℝ) :
    LBFGS.invOperator (invState e s) (vec e v) = vec e (LBFGS.invOperator s v) := by
  have hg : LBFGS.gammaInv (invState e s) = LBFGS.gammaInv s := by
    simp only [LBFGS.gammaInv, invState, treeDot_vec]
  simp only [LBFGS.invOperator, backward_vec, hg]
  rw [← forward_vec]
  rfl

omit [Fintype ι] [Fintype ι'] [DecidableEq ι] [DecidableEq ι'] [NeZero h] in
theorem update_vec (e : ι ≃ ι') (s : Fin h → ι → ℝ) (p : Fin h) (v : ι → ℝ) :
    (fun j => vec e (Function.update s p v j)) = Function.update (fun j => vec e (s j)) p (vec e v) := by
  funext j
  by_cases hj : j = p
  · subst hj; simp
  · simp [Function.update_of_ne hj]

theorem lbfgs_inverse_same (e : ι ≃ ι') (eps : ℝ) :
    SameHessian e (LBFGS.inverse (ι := ι) eps h) (LBFGS.inverse eps h) (invState e) where
  init y f g := by
    simp only [LBFGS.inverse, info]
    rw [← operatorMatrix_mat e (invOperator_vec e _)]
    rfl
  update y y' i f g s := by
    simp only [LBFGS.inverse, gradOf_info, sub_vec, treeDot_vec]
    cases i with
    | evalGradHessianInv f0 g0 h0 =>
      simp only [info]
      split
      · simp only []
        rw [← operatorMatrix_mat e (invOperator_vec e _)]
        have hr : ∀ a b c, LBFGS.recordInv eps (invState e s) (vec e a) (vec e b) c =
            invState e (LBFGS.recordInv eps s a b c) := by
          intro a b c
          simp only [LBFGS.recordInv, invState, update_vec]
        rw [hr]
      · rfl
    | _ => rfl

/-- The history of limited-memory BFGS (compact form), repacked. -/
def dirState (e : ι ≃ ι') (s : LBFGS.DirState ι h) : LBFGS.DirState ι' h :=
  { indexStart := s.indexStart, yDiff := fun j => vec e (s.yDiff j), gradDiff := fun j => vec e (s.gradDiff j),
    cross := s.cross, inner := s.inner, yCross := s.yCross }

omit [DecidableEq ι] [DecidableEq ι'] in
theorem dirOperator_vec (e : ι ≃ ι') (la : LBFGS.DenseLA h) (s : LBFGS.DirState ι h) (v : ι → ℝ) :
    LBFGS.dirOperator la (dirState e s) (vec e v) = vec e (LBFGS.dirOperator la s v) := by
  have hg : LBFGS.gammaDir (dirState e s) = LBFGS.gammaDir s := by
    simp only [LBFGS.gammaDir, dirState, treeDot_vec]
  have hj : LBFGS.jSquare (dirState e s) = LBFGS.jSquare s := by
    simp only [LBFGS.jSquare, hg]; rfl
  have hl : ∀ J, LBFGS.lowTri (dirState e s) J = LBFGS.lowTri s J := fun J => rfl
  simp only [LBFGS.dirOperator, hg, hj, hl]
  simp only [dirState, treeDot_vec]
  rfl

theorem lbfgs_direct_same (e : ι ≃ ι') (eps : ℝ) (la : LBFGS.DenseLA h) :
    SameHessian e (LBFGS.direct (ι := ι) eps h la) (LBFGS.direct eps h la) (dirState e) where
  init y f g := by
    simp only [LBFGS.direct, info]
    rw [← operatorMatrix_mat e (dirOperator_vec e la _)]
    rfl
  update y y' i f g s := by
    simp only [LBFGS.direct, gradOf_info, sub_vec, treeDot_vec]
    cases i with
    | evalGradHessian f0 g0 h0 =>
      simp only [info]
      split
      · simp only []
        rw [← operatorMatrix_mat e (dirOperator_vec e la _)]
        have hr : ∀ a b, LBFGS.recordDir (dirState e s) (vec e a) (vec e b) = dirState e (LBFGS.recordDir s a b) := by
          intro a b
          simp only [LBFGS.recordDir, dirState, ← update_vec, treeDot_vec]
        rw [hr]
      · rfl
    | _ => rfl

end

end Verif.Relabel
