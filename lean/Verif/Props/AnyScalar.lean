import Verif.Props.FiniteAnswers
import Verif.Lemmas.XRSpec
import Verif.Model.NelderMead

/-!
The models over any scalars (`Model/AnyScalar.lean`) agree with the models over the reals: the initial states of
golden-section search and of the Optax wrapper, and the stopping test of Nelder-Mead.
-/

namespace Verif.Props

open Verif

variable {ι A : Type}

/-- Over the reals the start of golden-section search is the one of the model of `golden.py`, with its middle point. -/
theorem golden_start (cfg : Golden.Cfg) (fn : ℝ → ℝ × A) (y : ℝ) (st : Golden.State)
    (h : Golden.init cfg fn y = .ok st) :
    (GoldenAny.solver cfg.rtol cfg.atol cfg.lower cfg.upper st.middle : Solver ℝ ℝ A _ _).init fn y =
      .ok (ofGoldenState st) := by
  unfold Golden.init at h
  split_ifs at h
  split at h
  · cases h; rfl
  · cases h

/-- Over the reals the start of the Optax wrapper is the one of the model of `optax.py`. -/
theorem optax_start {OS : Type} (cfg : Optax.Cfg ι OS) (fn : (ι → ℝ) → ℝ × A) (y : ι → ℝ) :
    (OptaxAny.solver cfg.rtol cfg.atol cfg.fmax cfg.normY cfg.normF cfg.optim.init
      (fun y f os => cfg.optim.update (cfg.grad y) os y f fun y => (fn y).1) : Solver (ι → ℝ) ℝ A _ _).init fn y =
      .ok (ofOptaxState (Optax.init cfg y)) := rfl

/-- Values of the objective as floating point values. -/
noncomputable def valToXR : NelderMead.Val → XR
  | ⊤ => .pinf
  | some r => .fin r

/-- The part of the state of Nelder-Mead read by the stopping test. -/
noncomputable def ofNelderMeadState {n : Nat} (st : NelderMead.State n ι A) : NelderMeadAny.State n ι XR Unit where
  simplex i c := .fin (st.simplex i c)
  fSimplex i := valToXR (st.fSimplex i)
  fBest := valToXR st.fBest
  best c := .fin (st.best c)
  rest := ()

/-- The stopping test of Nelder-Mead is the same in both models (the scales are those of positive tolerances). -/
theorem nelder_mead_test {n : Nat} (cfg : NelderMead.Cfg n ι) (hr : 0 ≤ cfg.rtol) (ha : 0 < cfg.atol)
    (st : NelderMead.State n ι A) :
    NelderMeadAny.terminate (.fin cfg.rtol) (.fin cfg.atol) (liftNorm cfg.normX) (liftNorm cfg.normF)
      (ofNelderMeadState st) = NelderMead.terminate cfg st := by
  classical
  have scale : ∀ r : ℝ, cfg.atol + cfg.rtol * |r| ≠ 0 := fun r => by positivity
  have hx : ∀ p : Fin n × ι, HasAbs.abs (XR.fin (st.simplex p.1 p.2) - XR.fin (st.best p.2)) /
      (XR.fin cfg.atol + XR.fin cfg.rtol * HasAbs.abs (XR.fin (st.best p.2))) =
      XR.fin (|st.simplex p.1 p.2 - st.best p.2| / (cfg.atol + cfg.rtol * |st.best p.2|)) := by
    intro p
    simp only [XR.sub_fin, XR.abs_fin, XR.mul_fin, XR.add_fin]
    exact XR.div_fin _ _ (scale _)
  unfold NelderMeadAny.terminate NelderMead.terminate ofNelderMeadState
  simp only [hx, liftNorm_fin]
  cases hb : st.fBest using WithTop.recTopCoe with
  | top => simp [valToXR, XR.isFinite]
  | coe b =>
    have hv : valToXR (b : NelderMead.Val) = .fin b := rfl
    have h1 : decide ((b : NelderMead.Val) = ⊤) = false := decide_eq_false WithTop.coe_ne_top
    have h2 : decide ((b : NelderMead.Val) ≠ ⊤) = true := decide_eq_true WithTop.coe_ne_top
    have key : decide (liftNorm cfg.normF (fun i => HasAbs.abs (valToXR (st.fSimplex i) - XR.fin b) /
          XR.fin (cfg.atol + cfg.rtol * |b|)) < 1) = (decide (∀ i, st.fSimplex i ≠ ⊤) &&
        decide (cfg.normF (fun i => |(st.fSimplex i).untopD 0 - b| / (cfg.atol + cfg.rtol * |b|)) < 1)) := by
      by_cases hall : ∀ i, st.fSimplex i ≠ ⊤
      · choose! v hvs using fun i => WithTop.ne_top_iff_exists.1 (hall i)
        have : (fun i => HasAbs.abs (valToXR (st.fSimplex i) - XR.fin b) / XR.fin (cfg.atol + cfg.rtol * |b|)) =
            fun i => XR.fin (|(st.fSimplex i).untopD 0 - b| / (cfg.atol + cfg.rtol * |b|)) := by
          funext i
          rw [← hvs i]
          show HasAbs.abs (XR.fin (v i) - XR.fin b) / _ = _
          simp only [XR.sub_fin, XR.abs_fin]
          exact XR.div_fin _ _ (scale _)
        rw [this, liftNorm_fin, decide_eq_true hall, Bool.true_and]
        rfl
      · have : ¬ liftNorm cfg.normF (fun i => HasAbs.abs (valToXR (st.fSimplex i) - XR.fin b) /
            XR.fin (cfg.atol + cfg.rtol * |b|)) < 1 := by
          simp only [ne_eq, not_forall, not_not] at hall
          obtain ⟨i, hi⟩ := hall
          have hval : HasAbs.abs (valToXR (st.fSimplex i) - XR.fin b) / XR.fin (cfg.atol + cfg.rtol * |b|) = .pinf := by
            rw [hi]
            show HasAbs.abs (XR.pinf - XR.fin b) / _ = _
            rw [XR.pinf_sub_fin]
            exact XR.pinf_div_fin _ (by positivity)
          unfold liftNorm
          split_ifs with h1 h2
          · exact XR.not_nan_lt _
          · exact XR.not_pinf_lt _
          · exact absurd ⟨i, (congrArg XR.isFinite hval).trans rfl⟩ h2
        rw [decide_eq_false this, decide_eq_false hall, Bool.false_and]
    simp only [hv, XR.isFinite_fin, Bool.not_true, Bool.or_false, Bool.false_eq_true, if_false, XR.abs_fin,
      XR.mul_fin, XR.add_fin, key, h1, h2, Bool.and_true, WithTop.untopD_coe]
    rfl

end Verif.Props
