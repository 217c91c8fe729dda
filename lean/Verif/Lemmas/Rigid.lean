import Verif.Spec.Rigid
import Verif.Lemmas.SimulateRel
import Verif.Props.QuasiNewton
import Verif.Model.LevenbergMarquardt
import Verif.Model.Dogleg

/-!
The parts of the solvers, in new Cartesian coordinates (C78).
-/

namespace Verif.Rigid

open Verif.Spec Verif.Rank Matrix

variable {ι ι' κ κ' A SS DS DS' HS HS' : Type} [Fintype ι] [Fintype ι'] [Fintype κ] [Fintype κ'] [DecidableEq ι] [DecidableEq κ]

omit [DecidableEq ι] in
theorem treeDot_eq (a b : ι → ℝ) : treeDot a b = a ⬝ᵥ b := rfl

omit [DecidableEq ι] in
theorem sumSquares_eq (a : ι → ℝ) : sumSquares a = treeDot a a := rfl

section basics
variable (m : Coordinates ι ι')

theorem dir_sub (x y : ι → ℝ) : (fun i => m.Q.mulVec x i - m.Q.mulVec y i) = m.Q.mulVec fun i => x i - y i :=
  (mulVec_sub m.Q x y).symm

theorem dir_add (x y : ι → ℝ) : (fun i => m.Q.mulVec x i + m.Q.mulVec y i) = m.Q.mulVec fun i => x i + y i :=
  (mulVec_add m.Q x y).symm

theorem dir_smul (c : ℝ) (x : ι → ℝ) : (fun i => c * m.Q.mulVec x i) = m.Q.mulVec fun i => c * x i :=
  (mulVec_smul m.Q c x).symm

theorem dir_neg (x : ι → ℝ) : (fun i => -m.Q.mulVec x i) = m.Q.mulVec fun i => -x i :=
  (mulVec_neg x m.Q).symm

theorem dir_zero : (fun _ => 0) = m.Q.mulVec fun _ => 0 := (mulVec_zero m.Q).symm

theorem point_sub (x y : ι → ℝ) : (fun i => m.point x i - m.point y i) = m.Q.mulVec fun i => x i - y i := by
  rw [← dir_sub]; funext i; simp only [Coordinates.point]; ring

theorem point_add (x d : ι → ℝ) : (fun i => m.point x i + m.Q.mulVec d i) = m.point fun i => x i + d i := by
  funext i
  have := congrFun (dir_add m x d) i
  simp only [Coordinates.point] at this ⊢
  rw [← this]; ring

theorem transpose_dir (v : ι → ℝ) : m.Q.transpose.mulVec (m.Q.mulVec v) = v := by
  rw [mulVec_mulVec, m.orthonormal, one_mulVec]

theorem dir_inj {u v : ι → ℝ} (h : m.Q.mulVec u = m.Q.mulVec v) : u = v := by
  rw [← transpose_dir m u, h, transpose_dir]

theorem back_point (y : ι → ℝ) : m.back (m.point y) = y := by
  have : (fun i => m.point y i - m.shift i) = m.Q.mulVec y := by funext i; simp [Coordinates.point]
  rw [Coordinates.back, this, transpose_dir]

theorem dot_dir (a b : ι → ℝ) : treeDot (m.Q.mulVec a) (m.Q.mulVec b) = treeDot a b := by
  rw [treeDot_eq, treeDot_eq, dotProduct_mulVec, vecMul_mulVec, ← mulVec_transpose, m.orthonormal, transpose_one,
    one_mulVec]

theorem sumSquares_dir (a : ι → ℝ) : sumSquares (m.Q.mulVec a) = sumSquares a := dot_dir m a a

theorem twoNorm_dir (a : ι → ℝ) : twoNorm (m.Q.mulVec a) = twoNorm a := by simp only [twoNorm, sumSquares_dir]

end basics

variable (m : Coordinates ι ι') (k : Coordinates κ κ')

/-- The Jacobian in the new coordinates. -/
def jacMap (J : Matrix κ ι ℝ) : Matrix κ' ι' ℝ := k.Q * J * m.Q.transpose

theorem jac_dir (J : Matrix κ ι ℝ) (v : ι → ℝ) :
    (jacMap m k J).mulVec (m.Q.mulVec v) = k.Q.mulVec (J.mulVec v) := by
  rw [jacMap, ← mulVec_mulVec, transpose_dir, ← mulVec_mulVec]

theorem jac_transpose_dir (J : Matrix κ ι ℝ) (r : κ → ℝ) :
    (jacMap m k J).transpose.mulVec (k.Q.mulVec r) = m.Q.mulVec (J.transpose.mulVec r) := by
  rw [jacMap, transpose_mul, transpose_mul, transpose_transpose, ← mulVec_mulVec, ← mulVec_mulVec, transpose_dir]

theorem jacMap_zero : jacMap m k (0 : Matrix κ ι ℝ) = 0 := by simp [jacMap]

/-- `M'` acts on the moved directions as `M` does on the original ones. -/
def Commutes (M : Matrix ι ι ℝ) (M' : Matrix ι' ι' ℝ) : Prop := ∀ v, M'.mulVec (m.Q.mulVec v) = m.Q.mulVec (M.mulVec v)

/-- The two pieces of function information are of the same kind. -/
def SameKind : FnInfo ι κ → FnInfo ι' κ' → Prop
  | .eval _, .eval _ => True
  | .evalGrad .., .evalGrad .. => True
  | .evalGradHessian .., .evalGradHessian .. => True
  | .evalGradHessianInv .., .evalGradHessianInv .. => True
  | .residual _, .residual _ => True
  | .residualJac .., .residualJac .. => True
  | _, _ => False

/-- Related function information. -/
inductive InfoRel : FnInfo ι κ → FnInfo ι' κ' → Prop
  | eval (f : ℝ) : InfoRel (.eval f) (.eval f)
  | evalGrad (f : ℝ) (g : ι → ℝ) : InfoRel (.evalGrad f g) (.evalGrad f (m.Q.mulVec g))
  | evalGradHessian (f : ℝ) (g : ι → ℝ) {H H'} (h : Commutes m H H') (p : SPD H) (p' : SPD H') :
      InfoRel (.evalGradHessian f g H) (.evalGradHessian f (m.Q.mulVec g) H')
  | evalGradHessianInv (f : ℝ) (g : ι → ℝ) {H H'} (h : Commutes m H H') :
      InfoRel (.evalGradHessianInv f g H) (.evalGradHessianInv f (m.Q.mulVec g) H')
  | residualJac (r : κ → ℝ) (J : Matrix κ ι ℝ) : InfoRel (.residualJac r J) (.residualJac (k.Q.mulVec r) (jacMap m k J))

variable {m k}

theorem InfoRel.sameKind {i : FnInfo ι κ} {i' : FnInfo ι' κ'} (h : InfoRel m k i i') : SameKind i i' := by
  cases h <;> trivial

theorem InfoRel.asMin {i : FnInfo ι κ} {i' : FnInfo ι' κ'} (h : InfoRel m k i i') : i'.asMin = i.asMin := by
  cases h <;> simp [FnInfo.asMin, sumSquares_dir]

theorem InfoRel.grad? {i : FnInfo ι κ} {i' : FnInfo ι' κ'} (h : InfoRel m k i i') : i'.grad? = i.grad?.map m.Q.mulVec := by
  cases h <;> simp only [FnInfo.grad?, jac_transpose_dir, Option.map_some, Option.map_none]

theorem InfoRel.gradDot? {i : FnInfo ι κ} {i' : FnInfo ι' κ'} (h : InfoRel m k i i') (v : ι → ℝ) :
    i'.gradDot? (m.Q.mulVec v) = i.gradDot? v := by
  cases h <;> simp only [FnInfo.gradDot?, jac_dir, dot_dir]

theorem InfoRel.classicalPredict {i : FnInfo ι κ} {i' : FnInfo ι' κ'} (h : InfoRel m k i i') (v : ι → ℝ) :
    TrustRegion.classicalPredict (m.Q.mulVec v) i' = TrustRegion.classicalPredict v i := by
  cases h with
  | evalGradHessian f g h p p' =>
    simp only [TrustRegion.classicalPredict, h v]
    rw [← dot_dir m v, ← dir_add, ← dir_smul]
  | residualJac r J =>
    simp only [TrustRegion.classicalPredict, jac_dir, dir_add, sumSquares_dir]
  | _ => rfl

/-- A search that decides alike in both coordinates, and always accepts the first step. -/
structure SearchSame (m : Coordinates ι ι') (k : Coordinates κ κ') (S : Search ι κ SS) (S' : Search ι' κ' SS) : Prop where
  accepts : ∀ i i', SameKind i i' → S'.accepts i' = S.accepts i
  init : S'.init = S.init
  first : ∀ y z i j y' z' i' j' s, S'.step true y' z' i' j' s = S.step true y z i j s ∧ (S.step true y z i j s).2.1 = true
  step : ∀ y z i j i' j' s, InfoRel m k i i' → InfoRel m k j j' →
    S'.step false (m.point y) (m.point z) i' j' s = S.step false y z i j s

theorem grad_kind {i : FnInfo ι κ} {i' : FnInfo ι' κ'} (h : SameKind i i') : i'.grad?.isSome = i.grad?.isSome := by
  cases i <;> cases i' <;> simp_all [SameKind, FnInfo.grad?]

theorem learningRate_same (rate : ℝ) : SearchSame m k (learningRate rate) (learningRate rate) where
  accepts _ _ _ := rfl
  init := rfl
  first _ _ _ _ _ _ _ _ _ := ⟨rfl, rfl⟩
  step _ _ _ _ _ _ _ _ _ := rfl

theorem armijo_same (c : Armijo.Cfg ℝ) : SearchSame m k (Armijo.search c) (Armijo.search c) where
  accepts i i' h := grad_kind h
  init := rfl
  first _ _ _ _ _ _ _ _ _ := by simp [Armijo.search, Armijo.decide']
  step y z i j i' j' s h h' := by
    simp only [Armijo.search, point_sub, h.gradDot?, h.asMin, h'.asMin]

theorem classical_same (c : TrustRegion.Cfg ℝ) : SearchSame m k (TrustRegion.classical c) (TrustRegion.classical c) where
  accepts i i' h := by cases i <;> cases i' <;> simp_all [SameKind, TrustRegion.classical, TrustRegion.search]
  init := rfl
  first _ _ _ _ _ _ _ _ _ := by simp [TrustRegion.classical, TrustRegion.search, TrustRegion.decide']
  step y z i j i' j' s h h' := by
    simp only [TrustRegion.classical, TrustRegion.search, point_sub, h.classicalPredict, h.asMin, h'.asMin]

/-- A descent whose states correspond (`R`) once they have been computed from function information related by `I`; initially
they are related by `R0`. -/
structure DescentSame (m : Coordinates ι ι') (I : FnInfo ι κ → FnInfo ι' κ' → Prop) (D : Descent ι κ DS)
    (D' : Descent ι' κ' DS') (R0 R : DS → DS' → Prop) : Prop where
  accepts : ∀ i i', SameKind i i' → D'.accepts i' = D.accepts i
  init : ∀ y y' i i', R0 (D.init y i) (D'.init y' i')
  first : ∀ y i i' s s', I i i' → R0 s s' → R (D.query y i s) (D'.query (m.point y) i' s')
  query : ∀ y i i' s s', I i i' → R s s' → R (D.query y i s) (D'.query (m.point y) i' s')
  step : ∀ a s s', R s s' → D'.step a s' = (m.Q.mulVec (D.step a s).1, (D.step a s).2)

/-- Related gradients. -/
inductive GradRel (m : Coordinates ι ι') : FnInfo ι κ → FnInfo ι' κ' → Prop
  | mk (f : ℝ) (g : ι → ℝ) : GradRel m (.evalGrad f g) (.evalGrad f (m.Q.mulVec g))

/-- Related residuals. -/
inductive JacRel (m : Coordinates ι ι') (k : Coordinates κ κ') : FnInfo ι κ → FnInfo ι' κ' → Prop
  | mk (r : κ → ℝ) (J : Matrix κ ι ℝ) : JacRel m k (.residualJac r J) (.residualJac (k.Q.mulVec r) (jacMap m k J))

theorem steepest_same : DescentSame m (GradRel (κ := κ) (κ' := κ') m) (steepestDescent none) (steepestDescent none)
    (fun _ _ => True) (fun s s' => s' = m.Q.mulVec s) where
  accepts i i' h := grad_kind h
  init _ _ _ _ := trivial
  first y i i' s s' h _ := by cases h; rfl
  query y i i' s s' h _ := by cases h; rfl
  step a s s' h := by
    subst h
    simp only [steepestDescent, dir_smul]

/-- A formula for `beta` made of inner products. -/
def SameFormula (m : Coordinates ι ι') (b : (ι → ℝ) → (ι → ℝ) → (ι → ℝ) → ℝ) (b' : (ι' → ℝ) → (ι' → ℝ) → (ι' → ℝ) → ℝ) : Prop :=
  ∀ x y z, b' (m.Q.mulVec x) (m.Q.mulVec y) (m.Q.mulVec z) = b x y z

/-- Related states of the conjugate gradient descent. -/
def CGRel (m : Coordinates ι ι') (s : NonlinearCG.DState ι) (s' : NonlinearCG.DState ι') : Prop :=
  s'.yDiff = m.Q.mulVec s.yDiff ∧ s'.grad = m.Q.mulVec s.grad

theorem cg_query {b : (ι → ℝ) → (ι → ℝ) → (ι → ℝ) → ℝ} {b' : (ι' → ℝ) → (ι' → ℝ) → (ι' → ℝ) → ℝ} (hb : SameFormula m b b')
    (y : ι → ℝ) (i : FnInfo ι κ) (i' : FnInfo ι' κ') (s : NonlinearCG.DState ι) (s' : NonlinearCG.DState ι')
    (h : GradRel m i i') (hs : CGRel m s s') :
    CGRel m ((NonlinearCG.descent b).query y i s) ((NonlinearCG.descent b').query (m.point y) i' s') := by
  cases h with
  | mk f g =>
    obtain ⟨h1, h2⟩ := hs
    refine ⟨?_, rfl⟩
    have e : (fun j => -m.Q.mulVec g j + b g s.grad s.yDiff * m.Q.mulVec s.yDiff j) =
        m.Q.mulVec fun j => -g j + b g s.grad s.yDiff * s.yDiff j := by
      rw [← dir_add, ← dir_neg, ← dir_smul]
    simp only [NonlinearCG.descent, FnInfo.grad?, Option.getD_some, h1, h2, hb g s.grad s.yDiff, e, dot_dir]
    split
    · rename_i hx; exact congrArg m.Q.mulVec (if_pos hx).symm
    · rename_i hx; exact (dir_neg m g).trans (congrArg m.Q.mulVec (if_neg hx).symm)

theorem cg_same {b : (ι → ℝ) → (ι → ℝ) → (ι → ℝ) → ℝ} {b' : (ι' → ℝ) → (ι' → ℝ) → (ι' → ℝ) → ℝ} (hb : SameFormula m b b') :
    DescentSame m (GradRel (κ := κ) (κ' := κ') m) (NonlinearCG.descent b) (NonlinearCG.descent b') (CGRel m) (CGRel m) where
  accepts i i' h := grad_kind h
  init _ _ _ _ := ⟨dir_zero m, dir_zero m⟩
  first := cg_query hb
  query := cg_query hb
  step a s s' h := by simp only [NonlinearCG.descent, h.1, dir_smul]

/-- Related pairs of a direction and a result. -/
def PairRel (m : Coordinates ι ι') (s : (ι → ℝ) × Result) (s' : (ι' → ℝ) × Result) : Prop := s' = (m.Q.mulVec s.1, s.2)

omit [Fintype κ] [Fintype κ'] [DecidableEq κ] in
theorem newton_same {ls : LinSolve ι κ} {ls' : LinSolve ι' κ'} {I : FnInfo ι κ → FnInfo ι' κ' → Prop}
    (h : ∀ i i', I i i' → PairRel m (newtonStep ls i) (newtonStep ls' i')) :
    DescentSame m I (newtonDescent ls none) (newtonDescent ls' none) (fun _ _ => True) (PairRel m) where
  accepts i i' h := by cases i <;> cases i' <;> simp_all [SameKind, newtonDescent, newtonAccepts]
  init _ _ _ _ := trivial
  first y i i' s s' hi _ := h i i' hi
  query y i i' s s' hi _ := h i i' hi
  step a s s' h := by
    cases h
    simp only [newtonDescent, dir_smul]

theorem damped_same [DecidableEq ι'] {eps fmax : ℝ} {ls : LinSolve ι (κ ⊕ ι)} {ls' : LinSolve ι' (κ' ⊕ ι')}
    (h : ∀ a i i', JacRel m k i i' → PairRel m (dampedNewtonStep eps fmax ls a i) (dampedNewtonStep eps fmax ls' a i')) :
    DescentSame m (JacRel m k) (dampedNewtonDescent eps fmax ls) (dampedNewtonDescent eps fmax ls') (fun _ _ => True)
      (JacRel m k) where
  accepts i i' h := by cases i <;> cases i' <;> simp_all [SameKind, dampedNewtonDescent, dampedAccepts]
  init _ _ _ _ := trivial
  first y i i' s s' hi _ := hi
  query y i i' s s' hi _ := hi
  step a s s' hs := by
    have := h a s s' hs
    simp only [PairRel] at this
    simp only [dampedNewtonDescent, this, dir_neg]

/-- Related states of the indirect damped descent. -/
structure IndirectRel (m : Coordinates ι ι') (k : Coordinates κ κ') (s : IndirectState ι κ) (s' : IndirectState ι' κ') : Prop where
  fInfo : JacRel m k s.fInfo s'.fInfo
  newton : s'.newton = m.Q.mulVec s.newton
  newtonNorm : s'.newtonNorm = s.newtonNorm
  result : s'.result = s.result

theorem indirect_same [DecidableEq ι'] {eps fmax : ℝ} {ls : LinSolve ι κ} {ls' : LinSolve ι' κ'} {lsD : LinSolve ι (κ ⊕ ι)}
    {lsD' : LinSolve ι' (κ' ⊕ ι')} (hN : ∀ i i', JacRel m k i i' → PairRel m (newtonStep ls i) (newtonStep ls' i'))
    (h : ∀ a i i', JacRel m k i i' → PairRel m (dampedNewtonStep eps fmax lsD a i) (dampedNewtonStep eps fmax lsD' a i'))
    (find : (ℝ → ℝ) → ℝ × Result) :
    DescentSame m (JacRel m k) (indirectDescent eps fmax ls lsD twoNorm find) (indirectDescent eps fmax ls' lsD' twoNorm find)
      (fun _ _ => True) (IndirectRel m k) := by
  have hq : ∀ i i', JacRel m k i i' → IndirectRel m k
      { fInfo := i, newton := (newtonStep ls i).1, newtonNorm := twoNorm (newtonStep ls i).1, result := (newtonStep ls i).2 }
      { fInfo := i', newton := (newtonStep ls' i').1, newtonNorm := twoNorm (newtonStep ls' i').1,
        result := (newtonStep ls' i').2 } := by
    intro i i' hi
    have := hN i i' hi
    simp only [PairRel] at this
    refine ⟨hi, ?_, ?_, ?_⟩ <;> simp only [this, twoNorm_dir]
  refine ⟨fun i i' h => ?_, fun _ _ _ _ => trivial, fun y i i' s s' hi _ => hq i i' hi, fun y i i' s s' hi _ => hq i i' hi,
    fun a s s' hs => ?_⟩
  · cases i <;> cases i' <;> simp_all [SameKind, indirectDescent, dampedAccepts]
  · have hd : ∀ l, dampedNewtonStep eps fmax lsD' l s'.fInfo = (m.Q.mulVec (dampedNewtonStep eps fmax lsD l s.fInfo).1,
      (dampedNewtonStep eps fmax lsD l s.fInfo).2) := fun l => h l _ _ hs.fInfo
    simp only [indirectDescent, hd, twoNorm_dir, hs.newton, hs.newtonNorm, hs.result]
    split
    · simp only [dir_neg]
    · simp only [dir_neg]

/-- Related states of the dogleg descent. -/
structure DoglegRel (m : Coordinates ι ι') (s : Dogleg.State ι) (s' : Dogleg.State ι') : Prop where
  newton : s'.newton = m.Q.mulVec s.newton
  cauchy : s'.cauchy = m.Q.mulVec s.cauchy
  newtonNorm : s'.newtonNorm = s.newtonNorm
  cauchyNorm : s'.cauchyNorm = s.cauchyNorm
  result : s'.result = s.result

theorem interpolate_dir (c n : ι → ℝ) (t : ℝ) :
    Dogleg.interpolate (m.Q.mulVec c) (m.Q.mulVec n) t = m.Q.mulVec (Dogleg.interpolate c n t) := by
  have h : Dogleg.interpolate c n t = fun i => c i + (t - 1) * (n i - c i) := rfl
  rw [h, ← dir_add, ← dir_smul, ← dir_sub]; rfl

theorem dogleg_same {eps : ℝ} {ls : LinSolve ι κ} {ls' : LinSolve ι' κ'}
    (hN : ∀ i i', JacRel m k i i' → PairRel m (newtonStep ls i) (newtonStep ls' i')) :
    DescentSame m (JacRel m k) (Dogleg.descent eps ls .twoNorm) (Dogleg.descent eps ls' .twoNorm) (fun _ _ => True)
      (DoglegRel m) := by
  have hq : ∀ i i', JacRel m k i i' → DoglegRel m (Dogleg.query eps ls .twoNorm i) (Dogleg.query eps ls' .twoNorm i') := by
    intro i i' hi
    have hn := hN i i' hi
    simp only [PairRel] at hn
    have hg : Dogleg.gradAndCurvature i' = (m.Q.mulVec (Dogleg.gradAndCurvature i).1, (Dogleg.gradAndCurvature i).2) := by
      cases hi with
      | mk r J =>
        simp only [Dogleg.gradAndCurvature, jac_transpose_dir, jac_dir]
        exact Prod.ext rfl (sumSquares_dir k _)
    refine ⟨?_, ?_, ?_, ?_, ?_⟩ <;>
      simp only [Dogleg.query, Dogleg.Shape.norm, hn, hg, twoNorm_dir, dir_neg, dir_smul, sumSquares_dir]
  refine ⟨fun i i' h => ?_, fun _ _ _ _ => trivial, fun y i i' s s' hi _ => hq i i' hi, fun y i i' s s' hi _ => hq i i' hi,
    fun a s s' hs => ?_⟩
  · cases i <;> cases i' <;> simp_all [SameKind, Dogleg.descent]
  · have hco : ∀ r, Dogleg.coefficients s' r = Dogleg.coefficients s r := by
      intro r
      have h1 := sumSquares_dir m fun i => s.newton i - s.cauchy i
      rw [← dir_sub] at h1
      simp only [sumSquares] at h1
      simp only [Dogleg.coefficients, hs.newton, hs.cauchy, hs.cauchyNorm, h1, dir_sub, dot_dir]
    have hsc : ∀ r, Dogleg.scaledCauchy eps s' r = m.Q.mulVec (Dogleg.scaledCauchy eps s r) := by
      intro r
      simp only [Dogleg.scaledCauchy, hs.cauchyNorm]
      split
      · rw [hs.cauchy]
        have e : (fun i => s.cauchy i / s.cauchyNorm * r) = fun i => (r / s.cauchyNorm) * s.cauchy i := by funext i; ring
        rw [e, ← dir_smul]; funext i; ring
      · exact dir_zero m
    simp only [Dogleg.descent, Dogleg.step, hco, hsc, hs.newtonNorm, hs.cauchyNorm, hs.result]
    by_cases h1 : s.newtonNorm * a < s.cauchyNorm
    · simp only [if_pos h1]
    · simp only [if_neg h1]
      by_cases h2 : a < 1
      · simp only [if_pos h2, hs.newton, hs.cauchy, interpolate_dir]
      · simp only [if_neg h2, hs.newton]

end Verif.Rigid
