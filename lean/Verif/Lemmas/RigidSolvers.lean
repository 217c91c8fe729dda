import Verif.Lemmas.Rigid

/-!
The search-based solvers in new Cartesian coordinates follow the solvers in the old ones (C78).
-/

namespace Verif.Rigid

open Verif.Spec Verif.Rank Matrix Driver

variable {ι ι' κ κ' A SS DS DS' HS HS' : Type} [Fintype ι] [Fintype ι'] [Fintype κ] [Fintype κ'] [DecidableEq ι] [DecidableEq κ]
  {m : Coordinates ι ι'} {k : Coordinates κ κ'}

theorem cauchy_same {rtol atol : ℝ} {nY : (ι → ℝ) → ℝ} {nY' : (ι' → ℝ) → ℝ} (hY : SameTest m rtol atol nY nY')
    {nF : (κ → ℝ) → ℝ} {nF' : (κ' → ℝ) → ℝ} (hF : SameResidualTest k rtol atol nF nF') (y d : ι → ℝ) (r e : κ → ℝ) :
    cauchyTermination rtol atol nY' nF' (m.point y) (m.Q.mulVec d) (k.Q.mulVec r) (k.Q.mulVec e) =
      cauchyTermination rtol atol nY nF y d r e := by
  simp only [cauchyTermination, hY y d, hF r e]

omit [Fintype κ] [Fintype κ'] [DecidableEq κ] in
theorem cauchy_same_scalar {rtol atol : ℝ} {nY : (ι → ℝ) → ℝ} {nY' : (ι' → ℝ) → ℝ} (hY : SameTest m rtol atol nY nY')
    (nF : (κ → ℝ) → ℝ) (y d : ι → ℝ) (r e : κ → ℝ) :
    cauchyTermination rtol atol nY' nF (m.point y) (m.Q.mulVec d) r e = cauchyTermination rtol atol nY nF y d r e := by
  simp only [cauchyTermination, hY y d]

/-! ### Gauss-Newton methods -/

/-- Related states of a Gauss-Newton method. -/
structure GNRel (m : Coordinates ι ι') (k : Coordinates κ κ') (R0 R : DS → DS' → Prop) (s : GaussNewton.State ι κ A SS DS)
    (s' : GaussNewton.State ι' κ' A SS DS') : Prop where
  firstStep : s'.firstStep = s.firstStep
  yEval : s'.yEval = m.point s.yEval
  searchState : s'.searchState = s.searchState
  residual : s'.residual = k.Q.mulVec s.residual
  jac : s'.jac = jacMap m k s.jac
  aux : s'.aux = s.aux
  early : s.firstStep = true → R0 s.descentState s'.descentState
  late : s.firstStep = false → R s.descentState s'.descentState
  terminate : s'.terminate = s.terminate
  result : s'.result = s.result

theorem gn_follows {R0 R : DS → DS' → Prop} {c : GaussNewton.Cfg ι κ SS DS} {c' : GaussNewton.Cfg ι' κ' SS DS'}
    (hr : c'.rtol = c.rtol) (ha : c'.atol = c.atol) (hY : SameTest m c.rtol c.atol c.normY c'.normY)
    (hF : SameResidualTest k c.rtol c.atol c.normF c'.normF) (hD : DescentSame m (JacRel m k) c.descent c'.descent R0 R)
    (hS : SearchSame m k c.search c'.search) (hj : ∀ y, c'.jac (m.point y) = jacMap m k (c.jac y))
    {f : (ι → ℝ) → (κ → ℝ) × A} {f' : (ι' → ℝ) → (κ' → ℝ) × A}
    (hf : ∀ y, f' (m.point y) = (k.Q.mulVec (f y).1, (f y).2)) (aux0 : A) :
    Follows (GaussNewton.solver c aux0) f (GaussNewton.solver c' aux0) f' m.point (GNRel m k R0 R) where
  init y := by
    have h1 := hS.accepts (.residualJac (fun _ => 0) 0) (.residualJac (fun _ => 0) 0) trivial
    have h2 := hD.accepts (.residualJac (fun _ => 0) 0) (.residualJac (fun _ => 0) 0) trivial
    simp only [GaussNewton.solver, GaussNewton.init, h1, h2]
    split
    · exact .inl ⟨_, rfl, rfl⟩
    · exact .inr ⟨_, _, rfl, rfl, rfl, rfl, hS.init, dir_zero k, (jacMap_zero m k).symm, rfl, fun _ => hD.init _ _ _ _,
        fun h => by simp at h, rfl, rfl⟩
  step y st st' h := by
    have hI := InfoRel.residualJac (m := m) (k := k) st.residual st.jac
    have hJ := InfoRel.residualJac (m := m) (k := k) (f st.yEval).1 (c.jac st.yEval)
    have hs : c'.search.step st'.firstStep (m.point y) st'.yEval (.residualJac st'.residual st'.jac)
        (.residualJac (f' st'.yEval).1 (c'.jac st'.yEval)) st'.searchState =
        c.search.step st.firstStep y st.yEval (.residualJac st.residual st.jac)
          (.residualJac (f st.yEval).1 (c.jac st.yEval)) st.searchState := by
      rw [h.firstStep, h.yEval, h.residual, h.jac, hf, hj, h.searchState]
      cases st.firstStep
      · exact hS.step _ _ _ _ _ _ _ hI hJ
      · exact (hS.first _ _ _ _ _ _ _ _ _).1
    have hacc : st.firstStep = true → (c.search.step st.firstStep y st.yEval (.residualJac st.residual st.jac)
          (.residualJac (f st.yEval).1 (c.jac st.yEval)) st.searchState).2.1 = true := by
      intro e; rw [e]; exact (hS.first _ _ _ _ (m.point y) (m.point y) (.residualJac 0 0) (.residualJac 0 0) _).2
    simp only [GaussNewton.solver, GaussNewton.step, hs]
    generalize c.search.step st.firstStep y st.yEval (.residualJac st.residual st.jac)
      (.residualJac (f st.yEval).1 (c.jac st.yEval)) st.searchState = s at hacc ⊢
    obtain ⟨a, acc, res, ss⟩ := s
    simp only at hacc
    cases acc with
    | true =>
      have hq : R (c.descent.query st.yEval (.residualJac (f st.yEval).1 (c.jac st.yEval)) st.descentState)
          (c'.descent.query st'.yEval (.residualJac (f' st'.yEval).1 (c'.jac st'.yEval)) st'.descentState) := by
        rw [h.yEval, hf, hj]
        cases e : st.firstStep
        · exact hD.query _ _ _ _ _ (.mk _ _) (h.late e)
        · exact hD.first _ _ _ _ _ (.mk _ _) (h.early e)
      have hst := hD.step a _ _ hq
      simp only [if_true, hst]
      refine ⟨h.yEval, ⟨rfl, ?_, rfl, ?_, ?_, ?_, fun e => by simp at e, fun _ => hq, ?_, rfl⟩, ?_⟩
      · rw [h.yEval]; exact point_add m _ _
      · rw [h.yEval, hf]
      · rw [h.yEval, hj]
      · rw [h.yEval, hf]
      · simp only [h.yEval, hf, h.residual, hr, ha, point_sub]
        exact (congrArg _ (dir_sub k _ _)).trans (cauchy_same hY hF _ _ _ _)
      · rw [h.firstStep, h.yEval, hf, h.aux]
    | false =>
      have e : st.firstStep = false := by
        by_contra e; exact absurd (hacc (by simpa using e)) (by simp)
      have hst := hD.step a _ _ (h.late e)
      simp only [Bool.false_eq_true, if_false, hst]
      refine ⟨by simp, ⟨rfl, point_add m _ _, rfl, h.residual, h.jac, h.aux, fun e => by simp at e, fun _ => h.late e, rfl,
        rfl⟩, ?_⟩
      rw [h.firstStep, h.aux]
  terminate y st st' h := by simp only [GaussNewton.solver, h.terminate, h.result]
  postY _ _ _ _ _ _ := rfl
  postA _ _ _ _ _ _ := rfl

/-! ### Gradient methods -/

/-- The residual space of minimisers, unused. -/
def unitCoordinates : Coordinates Unit Unit := { Q := 1, orthonormal := by simp, shift := 0 }

/-- Related states of a gradient method. -/
structure GDRel (m : Coordinates ι ι') (R0 R : DS → DS' → Prop) (s : GradientDescent.State ι A SS DS)
    (s' : GradientDescent.State ι' A SS DS') : Prop where
  firstStep : s'.firstStep = s.firstStep
  yEval : s'.yEval = m.point s.yEval
  searchState : s'.searchState = s.searchState
  aux : s'.aux = s.aux
  early : s.firstStep = true → R0 s.descentState s'.descentState
  late : s.firstStep = false → GradRel m s.fInfo s'.fInfo ∧ R s.descentState s'.descentState
  terminate : s'.terminate = s.terminate
  result : s'.result = s.result

theorem GradRel.infoRel {i : FnInfo ι κ} {i' : FnInfo ι' κ'} (h : GradRel m i i') : InfoRel m k i i' := by
  cases h; exact .evalGrad _ _

theorem gd_follows {R0 R : DS → DS' → Prop} {c : GradientDescent.Cfg ι SS DS} {c' : GradientDescent.Cfg ι' SS DS'}
    (hr : c'.rtol = c.rtol) (ha : c'.atol = c.atol) (hY : SameTest m c.rtol c.atol c.normY c'.normY)
    (hF : c'.normF = c.normF) (hD : DescentSame m (GradRel m) c.descent c'.descent R0 R)
    (hS : SearchSame m unitCoordinates c.search c'.search) (hg : ∀ y, c'.grad (m.point y) = m.Q.mulVec (c.grad y))
    {f : (ι → ℝ) → ℝ × A} {f' : (ι' → ℝ) → ℝ × A} (hf : ∀ y, f' (m.point y) = f y) (aux0 : A) :
    Follows (GradientDescent.solver c aux0) f (GradientDescent.solver c' aux0) f' m.point (GDRel m R0 R) where
  init y := by
    have h1 := hS.accepts (.evalGrad 0 y) (.evalGrad 0 (m.point y)) trivial
    have h2 := hD.accepts (.evalGrad 0 y) (.evalGrad 0 (m.point y)) trivial
    simp only [GradientDescent.solver, GradientDescent.init, h1, h2]
    split
    · exact .inl ⟨_, rfl, rfl⟩
    · exact .inr ⟨_, _, rfl, rfl, rfl, rfl, hS.init, rfl, fun _ => hD.init _ _ _ _, fun h => by simp at h, rfl, rfl⟩
  step y st st' h := by
    have hs : c'.search.step st'.firstStep (m.point y) st'.yEval st'.fInfo (.eval (f' st'.yEval).1) st'.searchState =
        c.search.step st.firstStep y st.yEval st.fInfo (.eval (f st.yEval).1) st.searchState := by
      rw [h.firstStep, h.yEval, hf, h.searchState]
      cases e : st.firstStep
      · exact hS.step _ _ _ _ _ _ _ (h.late e).1.infoRel (.eval _)
      · exact (hS.first _ _ _ _ _ _ _ _ _).1
    have hacc : st.firstStep = true →
        (c.search.step st.firstStep y st.yEval st.fInfo (.eval (f st.yEval).1) st.searchState).2.1 = true := by
      intro e; rw [e]; exact (hS.first _ _ _ _ (m.point y) (m.point y) (.eval 0) (.eval 0) _).2
    simp only [GradientDescent.solver, GradientDescent.step, hs]
    generalize c.search.step st.firstStep y st.yEval st.fInfo (.eval (f st.yEval).1) st.searchState = s at hacc ⊢
    obtain ⟨a, acc, res, ss⟩ := s
    simp only at hacc
    cases acc with
    | true =>
      have hq : R (c.descent.query st.yEval (.evalGrad (f st.yEval).1 (c.grad st.yEval)) st.descentState)
          (c'.descent.query st'.yEval (.evalGrad (f' st'.yEval).1 (c'.grad st'.yEval)) st'.descentState) := by
        rw [h.yEval, hf, hg]
        cases e : st.firstStep
        · exact hD.query _ _ _ _ _ (.mk _ _) (h.late e).2
        · exact hD.first _ _ _ _ _ (.mk _ _) (h.early e)
      have hst := hD.step a _ _ hq
      simp only [if_true, hst]
      refine ⟨h.yEval, ⟨rfl, ?_, rfl, ?_, fun e => by simp at e, fun _ => ⟨?_, hq⟩, ?_, rfl⟩, ?_⟩
      · rw [h.yEval]; exact point_add m _ _
      · rw [h.yEval, hf]
      · rw [h.yEval, hf, hg]; exact .mk _ _
      · simp only [h.firstStep]
        cases e : st.firstStep
        · have hfo : GradientDescent.fOf st'.fInfo = GradientDescent.fOf st.fInfo := by
            have := (h.late e).1
            generalize st.fInfo = i at this
            generalize st'.fInfo = i' at this
            cases this; rfl
          simp only [h.yEval, hf, hr, ha, hF, hfo, point_sub, Bool.false_eq_true, if_false]
          exact cauchy_same_scalar hY _ _ _ _ _
        · rfl
      · rw [h.firstStep, h.yEval, hf, h.aux]
    | false =>
      have e : st.firstStep = false := by
        by_contra e; exact absurd (hacc (by simpa using e)) (by simp)
      have hst := hD.step a _ _ (h.late e).2
      simp only [Bool.false_eq_true, if_false, hst]
      refine ⟨by simp, ⟨rfl, point_add m _ _, rfl, h.aux, fun e => by simp at e, fun _ => h.late e, rfl, rfl⟩, ?_⟩
      rw [h.firstStep, h.aux]
  terminate y st st' h := by simp only [GradientDescent.solver, h.terminate, h.result]
  postY _ _ _ _ _ _ := rfl
  postA _ _ _ _ _ _ := rfl

/-! ### Quasi-Newton methods -/

/-- Related information with (inverse) Hessians. -/
inductive HessRel (m : Coordinates ι ι') : FnInfo ι κ → FnInfo ι' κ' → Prop
  | direct (f : ℝ) (g : ι → ℝ) {H H'} (h : Commutes m H H') (p : SPD H) (p' : SPD H') :
      HessRel m (.evalGradHessian f g H) (.evalGradHessian f (m.Q.mulVec g) H')
  | inverse (f : ℝ) (g : ι → ℝ) {H H'} (h : Commutes m H H') :
      HessRel m (.evalGradHessianInv f g H) (.evalGradHessianInv f (m.Q.mulVec g) H')

theorem HessRel.infoRel {i : FnInfo ι κ} {i' : FnInfo ι' κ'} (h : HessRel m i i') : InfoRel m k i i' := by
  cases h with
  | direct f g h p p' => exact .evalGradHessian _ _ h p p'
  | inverse f g h => exact .evalGradHessianInv _ _ h

theorem HessRel.fOf {i : FnInfo ι Unit} {i' : FnInfo ι' Unit} (h : HessRel m i i') :
    GradientDescent.fOf i' = GradientDescent.fOf i := by cases h <;> rfl

theorem HessRel.gradOf {i : FnInfo ι Unit} {i' : FnInfo ι' Unit} (h : HessRel m i i') :
    QuasiNewton.gradOf i' = m.Q.mulVec (QuasiNewton.gradOf i) := by cases h <;> rfl

/-- A Hessian update that does the same in both coordinates; `P` relates what it computes. -/
structure HessianSame (m : Coordinates ι ι') (H : QuasiNewton.HessianUpdate ι HS) (H' : QuasiNewton.HessianUpdate ι' HS')
    (P : FnInfo ι Unit × HS → FnInfo ι' Unit × HS' → Prop) : Prop where
  rel : ∀ i i', P i i' → HessRel m i.1 i'.1
  init : ∀ y y' f, P (H.initHessian y f fun _ => 0) (H'.initHessian y' f fun _ => 0)
  update : ∀ y z i i' f g, P i i' → P (H.updateHessian y z i.1 f g i.2)
    (H'.updateHessian (m.point y) (m.point z) i'.1 f (m.Q.mulVec g) i'.2)

/-- Related states of a quasi-Newton method. -/
structure QNRel (m : Coordinates ι ι') (P : FnInfo ι Unit × HS → FnInfo ι' Unit × HS' → Prop) (R0 R : DS → DS' → Prop)
    (s : QuasiNewton.State ι A SS DS HS) (s' : QuasiNewton.State ι' A SS DS' HS') : Prop where
  firstStep : s'.firstStep = s.firstStep
  yEval : s'.yEval = m.point s.yEval
  searchState : s'.searchState = s.searchState
  aux : s'.aux = s.aux
  early : s.firstStep = true → R0 s.descentState s'.descentState
  late : s.firstStep = false → R s.descentState s'.descentState
  hess : P (s.fInfo, s.hessianUpdateState) (s'.fInfo, s'.hessianUpdateState)
  terminate : s'.terminate = s.terminate
  result : s'.result = s.result

theorem qn_follows {P : FnInfo ι Unit × HS → FnInfo ι' Unit × HS' → Prop} {R0 R : DS → DS' → Prop}
    {c : QuasiNewton.Cfg ι SS DS HS} {c' : QuasiNewton.Cfg ι' SS DS' HS'}
    (hr : c'.rtol = c.rtol) (ha : c'.atol = c.atol) (hY : SameTest m c.rtol c.atol c.normY c'.normY)
    (hF : c'.normF = c.normF) (hD : DescentSame m (HessRel m) c.descent c'.descent R0 R)
    (hS : SearchSame m unitCoordinates c.search c'.search) (hH : HessianSame m c.hess c'.hess P)
    (hg : ∀ y, c'.grad (m.point y) = m.Q.mulVec (c.grad y))
    {f : (ι → ℝ) → ℝ × A} {f' : (ι' → ℝ) → ℝ × A} (hf : ∀ y, f' (m.point y) = f y) (aux0 : A) :
    Follows (QuasiNewton.solver c aux0) f (QuasiNewton.solver c' aux0) f' m.point (QNRel m P R0 R) where
  init y := by
    have h0 := hH.init y (m.point y) 0
    have hk := ((hH.rel _ _ h0).infoRel (k := unitCoordinates)).sameKind
    have h1 := hS.accepts _ _ hk
    have h2 := hD.accepts _ _ hk
    simp only [QuasiNewton.solver, QuasiNewton.init, h1, h2]
    split
    · exact .inl ⟨_, rfl, rfl⟩
    · exact .inr ⟨_, _, rfl, rfl, rfl, rfl, hS.init, rfl, fun _ => hD.init _ _ _ _, fun h => by simp at h, h0, rfl, rfl⟩
  step y st st' h := by
    have hrel := hH.rel _ _ h.hess
    have hs : c'.search.step st'.firstStep (m.point y) st'.yEval st'.fInfo (.eval (f' st'.yEval).1) st'.searchState =
        c.search.step st.firstStep y st.yEval st.fInfo (.eval (f st.yEval).1) st.searchState := by
      rw [h.firstStep, h.yEval, hf, h.searchState]
      cases e : st.firstStep
      · exact hS.step _ _ _ _ _ _ _ hrel.infoRel (.eval _)
      · exact (hS.first _ _ _ _ _ _ _ _ _).1
    have hacc : st.firstStep = true →
        (c.search.step st.firstStep y st.yEval st.fInfo (.eval (f st.yEval).1) st.searchState).2.1 = true := by
      intro e; rw [e]; exact (hS.first _ _ _ _ (m.point y) (m.point y) (.eval 0) (.eval 0) _).2
    simp only [QuasiNewton.solver, QuasiNewton.step, hs]
    generalize c.search.step st.firstStep y st.yEval st.fInfo (.eval (f st.yEval).1) st.searchState = s at hacc ⊢
    obtain ⟨a, acc, res, ss⟩ := s
    simp only at hacc
    cases acc with
    | true =>
      have hu := hH.update y st.yEval _ _ (f st.yEval).1 (c.grad st.yEval) h.hess
      simp only at hu
      rw [← hg, ← h.yEval, ← (show f' st'.yEval = f st.yEval by rw [h.yEval, hf])] at hu
      have hu' : c.hess.updateHessian y st.yEval st.fInfo (f' st'.yEval).1 (c.grad st.yEval) st.hessianUpdateState =
        c.hess.updateHessian y st.yEval st.fInfo (f st.yEval).1 (c.grad st.yEval) st.hessianUpdateState := by
        rw [h.yEval, hf]
      rw [hu'] at hu
      have hq : R (c.descent.query st.yEval (c.hess.updateHessian y st.yEval st.fInfo (f st.yEval).1 (c.grad st.yEval)
            st.hessianUpdateState).1 st.descentState)
          (c'.descent.query st'.yEval (c'.hess.updateHessian (m.point y) st'.yEval st'.fInfo (f' st'.yEval).1
            (c'.grad st'.yEval) st'.hessianUpdateState).1 st'.descentState) := by
        have hi := hH.rel _ _ hu
        generalize (c'.hess.updateHessian (m.point y) st'.yEval st'.fInfo (f' st'.yEval).1
            (c'.grad st'.yEval) st'.hessianUpdateState).1 = i' at hi ⊢
        rw [h.yEval]
        cases e : st.firstStep
        · exact hD.query _ _ _ _ _ hi (h.late e)
        · exact hD.first _ _ _ _ _ hi (h.early e)
      have hst := hD.step a _ _ hq
      simp only [if_true, hst]
      refine ⟨h.yEval, ⟨rfl, ?_, rfl, ?_, fun e => by simp at e, fun _ => hq, hu, ?_, rfl⟩, ?_⟩
      · rw [h.yEval]; exact point_add m _ _
      · rw [h.yEval, hf]
      · simp only [h.firstStep]
        cases e : st.firstStep
        · simp only [h.yEval, hf, hr, ha, hF, hrel.fOf, point_sub, Bool.false_eq_true, if_false]
          exact cauchy_same_scalar hY _ _ _ _ _
        · rfl
      · rw [h.firstStep, h.yEval, hf, h.aux]
    | false =>
      have e : st.firstStep = false := by
        by_contra e; exact absurd (hacc (by simpa using e)) (by simp)
      have hst := hD.step a _ _ (h.late e)
      simp only [Bool.false_eq_true, if_false, hst]
      refine ⟨by simp, ⟨rfl, point_add m _ _, rfl, h.aux, fun e => by simp at e, fun _ => h.late e, h.hess, rfl, rfl⟩, ?_⟩
      rw [h.firstStep, h.aux]
  terminate y st st' h := by simp only [QuasiNewton.solver, h.terminate, h.result]
  postY _ _ _ _ _ _ := rfl
  postA _ _ _ _ _ _ := rfl

end Verif.Rigid
