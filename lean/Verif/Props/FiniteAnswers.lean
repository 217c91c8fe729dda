import Verif.Model.AnyScalar
import Verif.Model.FixedPoint
import Verif.Model.NewtonChord
import Verif.Model.Bisection
import Verif.Model.BestSoFar
import Verif.Lemmas.XR
import Verif.Lemmas.Norms
import Verif.Props.Driver

/-!
C65: with NaN and infinities in play, a solve by one of the built-in solvers that reports success returns a finite value.

`C07` shows that the driver alone does not guarantee this (it tests the iterate *before* the step); here the stopping tests
of the solvers are shown to make up for it.
-/

namespace Verif.Props

open Verif Verif.Spec Verif.Driver

/-! ### From one step to the whole solve -/

theorem allfinite_iff {ι : Type} (y : ι → XR) : treeAllfinite y = true ↔ ∀ i, (y i).isFinite = true := by
  classical
  unfold treeAllfinite
  exact decide_eq_true_iff

/-- If a successful stop can only happen where the post-processed value is good, then a successful solve returns a good
value.  `Inv` is an invariant of the reachable pairs of iterate and state, as long as the iterates are finite. -/
theorem success_good {Y Out A St Stats : Type} (S : Solver Y Out A St Stats) (af good : Y → Bool) (fn : Y → Out × A)
    (aux0 : A) (y0 : Y) (ms : Option Nat) (throw : Bool) (sol : Solution Y A St Stats)
    (h : iterativeSolve S af fn aux0 y0 ms throw = some (.ok sol)) (hs : sol.result = .successful)
    (Inv : Y → St → Prop) (hinit : ∀ st0, S.init fn y0 = .ok st0 → Inv y0 st0)
    (hstep : ∀ y st, Inv y st → af y = true → Inv (S.step fn y st).1 (S.step fn y st).2.1)
    (hstart : ∀ st0 a, S.init fn y0 = .ok st0 → af y0 = true → S.terminate fn y0 st0 = (true, .successful) →
      good (S.postprocess fn y0 a st0 .successful).1 = true)
    (hend : ∀ y st a, Inv y st → af y = true → S.terminate fn y (S.step fn y st).2.1 = (true, .successful) →
      good (S.postprocess fn (S.step fn y st).1 a (S.step fn y st).2.1 .successful).1 = true) :
    good sol.value = true := by
  obtain ⟨st0, hi, ht, _, hfin, hy0⟩ := C02_success_is_certificate _ _ _ _ _ _ _ _ h hs
  obtain ⟨_, _, st0', hi', hstate, hp⟩ := C01_step_budget _ _ _ _ _ _ _ _ h
  rw [hi] at hi'; cases hi'
  have hinv : ∀ k, k ≤ sol.numSteps → Inv (iterateAt S fn aux0 y0 st0 k) (stateAt S fn aux0 y0 st0 k) := by
    intro k
    induction k with
    | zero => intro _; exact hinit st0 hi
    | succ k ih => intro hk; exact hstep _ _ (ih (by omega)) (hfin k (by omega))
  have hv : sol.value = (S.postprocess fn (iterateAt S fn aux0 y0 st0 sol.numSteps)
      (auxAt S fn aux0 y0 st0 sol.numSteps) sol.state sol.result).1 := congrArg Prod.fst hp
  rw [hv, hs]
  cases hn : sol.numSteps with
  | zero =>
    rw [hn] at hstate ht
    rw [hstate]
    rw [hstate] at ht
    exact hstart _ _ hi hy0 ht
  | succ k =>
    rw [hstate, hn] at ht
    rw [hstate, hn]
    exact hend _ _ _ (hinv k (by omega)) (hfin k (by omega)) ht

variable {ι κ A : Type}

/-! ### The models over the reals are instances -/

/-- The gradient family (`GradientDescent`, `NonlinearCG`, …) in the common form. -/
noncomputable def ofGradient {SS DS : Type} (cfg : GradientDescent.Cfg ι SS DS) :
    SearchBased.Cfg ι Unit ℝ ℝ (FnInfo ι Unit) (FnInfo ι Unit) SS DS Unit where
  rtol := cfg.rtol
  atol := cfg.atol
  normY := cfg.normY
  normF := cfg.normF
  flat f := fun _ => f
  stored i := fun _ => GradientDescent.fOf i
  makeEval _ f := .eval f
  makeInfo _ yEval _ f _ := (.evalGrad f (cfg.grad yEval), ())
  search := cfg.search.step
  query := cfg.descent.query
  descend := cfg.descent.step
  skipFirst := true

/-- The state of the gradient family in the common form. -/
def ofGradientState {SS DS : Type} (st : GradientDescent.State ι A SS DS) :
    SearchBased.State ι ℝ (FnInfo ι Unit) A SS DS Unit :=
  { firstStep := st.firstStep, yEval := st.yEval, searchState := st.searchState, fInfo := st.fInfo, aux := st.aux,
    descentState := st.descentState, terminate := st.terminate, result := st.result, hess := () }

/-- Over the reals the common form is the model of `gradient_methods.py`. -/
theorem gradient_is_search {SS DS : Type} (cfg : GradientDescent.Cfg ι SS DS) (fn : (ι → ℝ) → ℝ × A) (y : ι → ℝ)
    (st : GradientDescent.State ι A SS DS) :
    SearchBased.step (ofGradient cfg) fn y (ofGradientState st) =
      ((GradientDescent.step cfg fn y st).1, ofGradientState (GradientDescent.step cfg fn y st).2.1,
        (GradientDescent.step cfg fn y st).2.2) := by
  rcases st with ⟨first, yEval, ss, fInfo, aux, ds, t, r⟩
  rcases hacc : (cfg.search.step first y yEval fInfo (.eval (fn yEval).1) ss).2.1 with _ | _ <;>
    rcases first with _ | _ <;>
    simp [SearchBased.step, GradientDescent.step, ofGradient, ofGradientState, hacc]

/-- The quasi-Newton family in the common form. -/
noncomputable def ofQuasiNewton {SS DS HS : Type} (cfg : QuasiNewton.Cfg ι SS DS HS) :
    SearchBased.Cfg ι Unit ℝ ℝ (FnInfo ι Unit) (FnInfo ι Unit) SS DS HS where
  rtol := cfg.rtol
  atol := cfg.atol
  normY := cfg.normY
  normF := cfg.normF
  flat f := fun _ => f
  stored i := fun _ => GradientDescent.fOf i
  makeEval _ f := .eval f
  makeInfo y yEval i f h := cfg.hess.updateHessian y yEval i f (cfg.grad yEval) h
  search := cfg.search.step
  query := cfg.descent.query
  descend := cfg.descent.step
  skipFirst := true

/-- The state of the quasi-Newton family in the common form. -/
def ofQuasiNewtonState {SS DS HS : Type} (st : QuasiNewton.State ι A SS DS HS) :
    SearchBased.State ι ℝ (FnInfo ι Unit) A SS DS HS :=
  { firstStep := st.firstStep, yEval := st.yEval, searchState := st.searchState, fInfo := st.fInfo, aux := st.aux,
    descentState := st.descentState, terminate := st.terminate, result := st.result, hess := st.hessianUpdateState }

/-- Over the reals the common form is the model of `quasi_newton.py`. -/
theorem quasi_newton_is_search {SS DS HS : Type} (cfg : QuasiNewton.Cfg ι SS DS HS) (fn : (ι → ℝ) → ℝ × A) (y : ι → ℝ)
    (st : QuasiNewton.State ι A SS DS HS) :
    SearchBased.step (ofQuasiNewton cfg) fn y (ofQuasiNewtonState st) =
      ((QuasiNewton.step cfg fn y st).1, ofQuasiNewtonState (QuasiNewton.step cfg fn y st).2.1,
        (QuasiNewton.step cfg fn y st).2.2) := by
  rcases st with ⟨first, yEval, ss, fInfo, aux, ds, t, r, n, hs⟩
  rcases hacc : (cfg.search.step first y yEval fInfo (.eval (fn yEval).1) ss).2.1 with _ | _ <;>
    rcases first with _ | _ <;>
    simp [SearchBased.step, QuasiNewton.step, ofQuasiNewton, ofQuasiNewtonState, hacc]

/-- The Gauss-Newton family (`GaussNewton`, `LevenbergMarquardt`, `Dogleg`, …) in the common form. -/
noncomputable def ofGaussNewton {SS DS : Type} (cfg : GaussNewton.Cfg ι κ SS DS) :
    SearchBased.Cfg ι κ ℝ (κ → ℝ) ((κ → ℝ) × Matrix κ ι ℝ) (FnInfo ι κ) SS DS Unit where
  rtol := cfg.rtol
  atol := cfg.atol
  normY := cfg.normY
  normF := cfg.normF
  flat f := f
  stored i := i.1
  makeEval yEval f := .residualJac f (cfg.jac yEval)
  makeInfo _ yEval _ f _ := ((f, cfg.jac yEval), ())
  search first y yEval i e ss := cfg.search.step first y yEval (.residualJac i.1 i.2) e ss
  query yEval i ds := cfg.descent.query yEval (.residualJac i.1 i.2) ds
  descend := cfg.descent.step
  skipFirst := false

/-- The state of the Gauss-Newton family in the common form. -/
def ofGaussNewtonState {SS DS : Type} (st : GaussNewton.State ι κ A SS DS) :
    SearchBased.State ι ℝ ((κ → ℝ) × Matrix κ ι ℝ) A SS DS Unit :=
  { firstStep := st.firstStep, yEval := st.yEval, searchState := st.searchState, fInfo := (st.residual, st.jac),
    aux := st.aux, descentState := st.descentState, terminate := st.terminate, result := st.result, hess := () }

/-- Over the reals the common form is the model of `gauss_newton.py`. -/
theorem gauss_newton_is_search {SS DS : Type} (cfg : GaussNewton.Cfg ι κ SS DS) (fn : (ι → ℝ) → (κ → ℝ) × A) (y : ι → ℝ)
    (st : GaussNewton.State ι κ A SS DS) :
    SearchBased.step (ofGaussNewton cfg) fn y (ofGaussNewtonState st) =
      ((GaussNewton.step cfg fn y st).1, ofGaussNewtonState (GaussNewton.step cfg fn y st).2.1,
        (GaussNewton.step cfg fn y st).2.2) := by
  rcases st with ⟨first, yEval, ss, res, jac, aux, ds, t, r, n1, n2, n3⟩
  rcases hacc : (cfg.search.step first y yEval (.residualJac res jac) (.residualJac (fn yEval).1 (cfg.jac yEval)) ss).2.1
    with _ | _ <;>
    simp [SearchBased.step, GaussNewton.step, ofGaussNewton, ofGaussNewtonState, hacc]

/-- The state of `golden.py` over any scalars. -/
def ofGoldenState (st : Golden.State) : GoldenAny.State ℝ :=
  { lower := st.lower, middle := st.middle, upper := st.upper, fMiddle := st.fMiddle, first := st.first,
    terminate := st.terminate }

/-- Over the reals this is the model of `golden.py`. -/
theorem golden_is_golden (cfg : Golden.Cfg) (fn : ℝ → ℝ × A) (y : ℝ) (st : Golden.State) :
    GoldenAny.step cfg.rtol cfg.atol fn y (ofGoldenState st) =
      ((Golden.step cfg fn y st).1, ofGoldenState (Golden.step cfg fn y st).2.1, (Golden.step cfg fn y st).2.2) := by
  rcases st with ⟨l, m, u, f, first, t⟩
  rcases first with _ | _ <;> simp only [GoldenAny.step, Golden.step, ofGoldenState] <;> split_ifs <;> rfl

/-- The state of `optax.py` over any scalars. -/
def ofOptaxState {OS : Type} (st : Optax.State OS) : OptaxAny.State ℝ OS :=
  { step := st.step, f := st.f, optState := st.optState, terminate := st.terminate }

/-- Over the reals this is the model of `optax.py`. -/
theorem optax_is_optax {OS : Type} (cfg : Optax.Cfg ι OS) (fn : (ι → ℝ) → ℝ × A) (y : ι → ℝ) (st : Optax.State OS) :
    OptaxAny.step cfg.rtol cfg.atol cfg.normY cfg.normF
      (fun y f os => cfg.optim.update (cfg.grad y) os y f fun y => (fn y).1) fn y (ofOptaxState st) =
      ((Optax.step cfg fn y st).1, ofOptaxState (Optax.step cfg fn y st).2.1, (Optax.step cfg fn y st).2.2) := rfl

/-! ### C65 -/

/-- **C65, search-based solvers** (gradient descent, nonlinear CG, quasi-Newton, Gauss-Newton, Levenberg-Marquardt,
dogleg, with any search and any descent): whatever NaNs or infinities the user's function, the gradients, the descent or
the search produce, a solve that reports success returns a finite value, and the outputs of the function compared by the
stopping test are finite. -/
theorem C65_search_based {Out I E SS DS HS : Type} (cfg : SearchBased.Cfg ι κ XR Out I E SS DS HS)
    (hY : HonestNorm cfg.normY) (hF : HonestNorm cfg.normF)
    (init0 : (ι → XR) → Except Err (SearchBased.State ι XR I A SS DS HS)) (fn : (ι → XR) → Out × A) (aux0 : A)
    (y0 : ι → XR) (ms : Option Nat) (throw : Bool) (sol)
    (h : iterativeSolve (SearchBased.solver cfg init0) treeAllfinite fn aux0 y0 ms throw = some (.ok sol))
    (hs : sol.result = .successful) :
    (∀ i, (sol.value i).isFinite = true) ∧ ∀ j, (cfg.flat (fn sol.value).1 j).isFinite = true := by
  classical
  have key : ∀ (y : ι → XR) (st : SearchBased.State ι XR I A SS DS HS), treeAllfinite y = true →
      (SearchBased.step cfg fn y st).2.1.terminate = true →
      (∀ i, ((SearchBased.step cfg fn y st).1 i).isFinite = true) ∧
        ∀ j, (cfg.flat (fn (SearchBased.step cfg fn y st).1).1 j).isFinite = true := by
    intro y st hy ht
    rcases hacc : (cfg.search st.firstStep y st.yEval st.fInfo (cfg.makeEval st.yEval (fn st.yEval).1)
      st.searchState).2.1 with _ | _
    · simp [SearchBased.step, hacc] at ht
    · rw [show (SearchBased.step cfg fn y st).1 = st.yEval by simp [SearchBased.step, hacc]]
      have hc : cauchyTermination cfg.rtol cfg.atol cfg.normY cfg.normF st.yEval (fun i => st.yEval i - y i)
          (cfg.flat (fn st.yEval).1) (fun j => cfg.flat (fn st.yEval).1 j - cfg.stored st.fInfo j) = true := by
        simp only [SearchBased.step, hacc, if_true] at ht
        split_ifs at ht
        exact ht
      obtain ⟨h1, h2⟩ := cauchy_finite hY hF hc
      exact ⟨fun i => (XR.finite_sub (h1 i)).1, fun j => (XR.finite_sub (h2 j)).1⟩
  have := success_good (SearchBased.solver cfg init0) treeAllfinite
    (fun y => decide ((∀ i, (y i).isFinite = true) ∧ ∀ j, (cfg.flat (fn y).1 j).isFinite = true)) fn aux0 y0 ms throw sol h hs
    (fun _ _ => True) (fun _ _ => trivial) (fun _ _ _ _ => trivial) ?_ ?_
  · exact of_decide_eq_true this
  · intro st0 a hi _ ht
    have h0 : st0.terminate = false := by
      have hi' : (init0 y0).map (fun st => { st with terminate := false }) = .ok st0 := hi
      rcases h1 : init0 y0 with e | st
      · rw [h1] at hi'; cases hi'
      · rw [h1] at hi'; cases hi'; rfl
    rw [show st0.terminate = true from congrArg Prod.fst ht] at h0
    cases h0
  · intro y st a _ hy ht
    exact decide_eq_true (key y st hy (congrArg Prod.fst ht))

/-- **C65, FixedPointIteration.** -/
theorem C65_fixed_point (cfg : FixedPointIter.Cfg ι XR) (hn : HonestNorm cfg.norm) (fn : (ι → XR) → (ι → XR) × A)
    (aux0 : A) (y0 : ι → XR) (ms : Option Nat) (throw : Bool) (sol)
    (h : iterativeSolve (FixedPointIter.solver cfg) treeAllfinite fn aux0 y0 ms throw = some (.ok sol))
    (hs : sol.result = .successful) : ∀ i, (sol.value i).isFinite = true := by
  rw [← allfinite_iff]
  refine success_good (FixedPointIter.solver cfg) treeAllfinite treeAllfinite fn aux0 y0 ms throw sol h hs
    (fun _ _ => True) (fun _ _ => trivial) (fun _ _ _ _ => trivial) ?_ ?_
  · intro st0 a _ hy _
    exact hy
  · intro y st a _ _ ht
    have ht' : decide (cfg.norm (fun i => (y i - (FixedPointIter.step cfg fn y st).1 i) /
        (cfg.atol + cfg.rtol * HasAbs.abs ((FixedPointIter.step cfg fn y st).1 i))) < 1) = true := congrArg Prod.fst ht
    rw [decide_eq_true_eq] at ht'
    exact (allfinite_iff _).2 fun i => (XR.finite_sub (XR.finite_div (hn.small _ 1 ht' i))).2

/-- **C65, Bisection** (any option): with finite tolerances, success means that the value is finite. -/
theorem C65_bisection (cfg : Bisection.Cfg XR) (hr : cfg.rtol.isFinite = true) (ha : cfg.atol.isFinite = true)
    (fn : XR → XR × A) (aux0 : A) (y0 : XR) (ms : Option Nat) (throw : Bool) (sol)
    (h : iterativeSolve (Bisection.solver cfg) XR.isFinite fn aux0 y0 ms throw = some (.ok sol))
    (hs : sol.result = .successful) : sol.value.isFinite = true := by
  refine success_good (Bisection.solver cfg) XR.isFinite XR.isFinite fn aux0 y0 ms throw sol h hs
    (fun _ _ => True) (fun _ _ => trivial) (fun _ _ _ _ => trivial) ?_ ?_
  · intro st0 a _ hy _
    exact hy
  · intro y st a _ hy ht
    have ht' : (Bisection.terminate cfg y (Bisection.step fn y st).2.1).1 = true := congrArg Prod.fst ht
    unfold Bisection.terminate at ht'
    rw [Bool.and_eq_true, decide_eq_true_eq] at ht'
    have hlt := ht'.1
    have hsc : (cfg.atol + cfg.rtol * HasAbs.abs y).isFinite = true :=
      XR.finite_add' ha (XR.finite_mul' hr (XR.finite_abs.trans hy))
    have hd : (HasAbs.abs ((Bisection.step fn y st).2.1.lower - (Bisection.step fn y st).2.1.upper) : XR).isFinite = true := by
      generalize (Bisection.step fn y st).2.1.lower - (Bisection.step fn y st).2.1.upper = d at hlt
      cases d with
      | fin r => rfl
      | nan => exact absurd hlt (XR.not_nan_lt _)
      | pinf => exact absurd hlt (XR.not_pinf_lt _)
      | ninf => exact absurd hlt (XR.not_pinf_lt _)
    rw [XR.finite_abs] at hd
    obtain ⟨hl, hu⟩ := XR.finite_sub hd
    exact XR.finite_add' hl (XR.finite_mul' rfl (XR.finite_sub' hu hl))

/-- **C65, Newton and Chord** (both kinds of stopping test, with or without bounds, any Jacobian and linear solver).  `inf` and
`isfinite` are those of `jnp`. -/
theorem C65_newton_chord {J : Type} (cfg : NewtonChord.Cfg ι κ XR J) (hY : HonestNorm cfg.normY)
    (hF : HonestNorm cfg.normF) (hres : ∃ b, cfg.resolution = .fin b) (hfin : cfg.isfinite = XR.isFinite)
    (fn : (ι → XR) → (κ → XR) × A) (aux0 : A) (y0 : ι → XR) (ms : Option Nat) (throw : Bool) (sol)
    (h : iterativeSolve (NewtonChord.solver cfg) treeAllfinite fn aux0 y0 ms throw = some (.ok sol))
    (hs : sol.result = .successful) : ∀ i, (sol.value i).isFinite = true := by
  rw [← allfinite_iff]
  obtain ⟨b, hb⟩ := hres
  refine success_good (NewtonChord.solver cfg) treeAllfinite treeAllfinite fn aux0 y0 ms throw sol h hs
    (fun _ _ => True) (fun _ _ => trivial) (fun _ _ _ _ => trivial) ?_ ?_
  · intro st0 a _ hy _
    exact hy
  · intro y st a _ hy ht
    rw [allfinite_iff] at hy
    -- a finite difference gives a finite new iterate
    have hnew : (∀ i, ((NewtonChord.step cfg fn y st).2.1.diff i).isFinite = true) →
        treeAllfinite (NewtonChord.step cfg fn y st).1 = true := by
      intro hd
      rw [allfinite_iff]
      intro i
      have hdi := hd i
      simp only [NewtonChord.step] at hdi ⊢
      by_cases hbounds : (cfg.lower.isSome || cfg.upper.isSome) = true
      · rw [if_pos hbounds] at hdi
        exact (XR.finite_sub hdi).2
      · rw [if_neg hbounds] at hdi
        have h1 : cfg.lower = none := by
          cases hl : cfg.lower with
          | none => rfl
          | some l => rw [hl] at hbounds; exact absurd rfl hbounds
        have h2 : cfg.upper = none := by
          cases hl : cfg.upper with
          | none => rfl
          | some l => rw [hl] at hbounds; simp at hbounds
        rw [h1, h2]
        exact XR.finite_sub' (hy i) hdi
    -- a finite size gives a finite difference
    have hsize : ((NewtonChord.step cfg fn y st).2.1.diffsize).isFinite = true →
        treeAllfinite (NewtonChord.step cfg fn y st).1 = true := by
      intro hd
      exact hnew fun i => XR.finite_div (hY.finite _ hd i)
    have ht' : NewtonChord.terminate cfg y (NewtonChord.step cfg fn y st).2.1 = (true, .successful) := ht
    show treeAllfinite (NewtonChord.step cfg fn y st).1 = true
    unfold NewtonChord.terminate at ht'
    have hlin : (NewtonChord.step cfg fn y st).2.1.result = .successful := by
      by_contra hne
      have := congrArg Prod.snd ht'
      simp only [hne, ne_eq, not_false_eq_true, decide_true, if_true] at this
    simp only [hlin, ne_eq, not_true_eq_false, decide_false, Bool.false_or, Bool.false_eq_true, if_false] at ht'
    cases hca : cfg.cauchy with
    | true =>
      rw [hca, show (NewtonChord.step cfg fn y st).2.1.f = some (fn y).1 by simp [NewtonChord.step, hca]] at ht'
      have hc := congrArg Prod.fst ht'
      exact hnew (cauchy_finite hY hF hc).1
    | false =>
      rw [hca] at ht'
      simp only [Prod.mk.injEq] at ht'
      obtain ⟨h1, h2⟩ := ht'
      generalize hds : (NewtonChord.step cfg fn y st).2.1.diffsize = ds at h1 h2 hsize
      have htwo : decide (2 ≤ (NewtonChord.step cfg fn y st).2.1.step) = true := (Bool.and_eq_true _ _ ▸ h1).1
      rw [htwo] at h1 h2
      by_cases hsm : NewtonChord.small cfg ds = true
      · apply hsize
        unfold NewtonChord.small at hsm
        rw [decide_eq_true_eq, hb] at hsm
        cases hds' : ds with
        | fin r => rfl
        | nan => rw [hds'] at hsm; exact absurd hsm (XR.not_nan_lt _)
        | pinf => rw [hds'] at hsm; exact absurd hsm (XR.not_pinf_lt _)
        | ninf => rw [hds'] at hds; exact absurd hds (hY.notNinf _)
      · rw [Bool.not_eq_true] at hsm
        rw [hsm] at h1 h2
        apply hsize
        have hdv : NewtonChord.diverged cfg (ds / (NewtonChord.step cfg fn y st).2.1.diffsizePrev) = false := by
          by_contra hne
          rw [Bool.not_eq_false] at hne
          rw [hne] at h2
          simp at h2
        unfold NewtonChord.diverged at hdv
        rw [Bool.or_eq_false_iff, hfin, Bool.not_eq_false'] at hdv
        exact XR.finite_div hdv.1

/-- **C65, OptaxMinimiser** (any optimiser). -/
theorem C65_optax {OS : Type} (rtol atol fmax : XR) (normY : (ι → XR) → XR) (normF : (Unit → XR) → XR)
    (hY : HonestNorm normY) (hF : HonestNorm normF) (initOpt : (ι → XR) → OS)
    (update : (ι → XR) → XR → OS → (ι → XR) × OS) (fn : (ι → XR) → XR × A) (aux0 : A) (y0 : ι → XR) (ms : Option Nat)
    (throw : Bool) (sol)
    (h : iterativeSolve (OptaxAny.solver rtol atol fmax normY normF initOpt update) treeAllfinite fn aux0 y0 ms throw =
      some (.ok sol)) (hs : sol.result = .successful) : ∀ i, (sol.value i).isFinite = true := by
  rw [← allfinite_iff]
  refine success_good (OptaxAny.solver rtol atol fmax normY normF initOpt update) treeAllfinite treeAllfinite fn aux0 y0 ms
    throw sol h hs (fun _ _ => True) (fun _ _ => trivial) (fun _ _ _ _ => trivial) ?_ ?_
  · intro st0 a _ hy _
    exact hy
  · intro y st a _ hy ht
    rw [allfinite_iff] at hy
    have hc : cauchyTermination rtol atol normY normF y (update y (fn y).1 st.optState).1 (fun _ => (fn y).1)
      (fun _ => (fn y).1 - st.f) = true := congrArg Prod.fst ht
    exact (allfinite_iff _).2 fun i => XR.finite_add' (hy i) ((cauchy_finite hY hF hc).1 i)

/-- **C65, GoldenSearch** (any bounds, also infinite ones, and any middle point). -/
theorem C65_golden (rtol atol lower upper middle : XR) (fn : XR → XR × A) (aux0 : A) (y0 : XR) (ms : Option Nat)
    (throw : Bool) (sol)
    (h : iterativeSolve (GoldenAny.solver rtol atol lower upper middle) XR.isFinite fn aux0 y0 ms throw = some (.ok sol))
    (hs : sol.result = .successful) : sol.value.isFinite = true := by
  have habs : HonestNorm (fun v : Unit → XR => HasAbs.abs (v ())) := by
    refine ⟨fun x h i => XR.finite_abs ▸ h, fun x => ?_⟩
    cases x () <;> (intro h; cases h)
  refine success_good (GoldenAny.solver rtol atol lower upper middle) XR.isFinite XR.isFinite fn aux0 y0 ms throw sol h hs
    (fun y st => st.first = false → y = st.lower + (st.upper - st.middle)) ?_ ?_ ?_ ?_
  · rintro st0 hi
    cases hi
    intro hf; cases hf
  · intro y st _ _ _
    rfl
  · intro st0 a _ hy _
    exact hy
  · intro y st a hinv hy ht
    have hy_ : (if st.first then st.lower + (st.upper - st.middle) else y) = st.lower + (st.upper - st.middle) := by
      cases hf : st.first with
      | true => rfl
      | false => exact hinv hf
    have hterm : (GoldenAny.step rtol atol fn y st).2.1.terminate = true := congrArg Prod.fst ht
    show (GoldenAny.step rtol atol fn y st).1.isFinite = true
    unfold GoldenAny.step at hterm ⊢
    simp only [hy_] at hterm ⊢
    generalize hp : st.lower + (st.upper - st.middle) = p at hterm ⊢
    have hc : cauchyTermination (ι := Unit) (κ := Unit) rtol atol (fun v => HasAbs.abs (v ())) (fun v => HasAbs.abs (v ()))
        (fun _ => st.middle) (fun _ => st.middle - p) (fun _ => st.fMiddle) (fun _ => st.fMiddle - (fn p).1) = true := by
      split_ifs at hterm <;> exact hterm
    have h1 := XR.finite_sub ((cauchy_finite habs habs hc).1 ())
    have h2 : p.isFinite = true := h1.2
    rw [← hp] at h2
    obtain ⟨hl, hum⟩ := XR.finite_add h2
    obtain ⟨hu, hm⟩ := XR.finite_sub hum
    split_ifs <;> exact XR.finite_add' (by first | assumption | exact h1.2) (XR.finite_sub' (by first | assumption | exact h1.2) (by first | assumption | exact h1.2))

/-- **C65, NelderMead** (whatever the moves of the simplex do): a successful stop after at least one step returns a finite
vertex with a finite value recorded for it. -/
theorem C65_nelder_mead {n : Nat} [NeZero n] {R : Type} (rtol atol : XR) (normX : (Fin n × ι → XR) → XR)
    (normF : (Fin n → XR) → XR) (hX : HonestNorm normX) (init0 : (ι → XR) → NelderMeadAny.State n ι XR R)
    (move : ((ι → XR) → XR × A) → NelderMeadAny.State n ι XR R → NelderMeadAny.State n ι XR R × A)
    (fn : (ι → XR) → XR × A) (aux0 : A) (y0 : ι → XR) (ms : Option Nat) (throw : Bool) (sol)
    (h : iterativeSolve (NelderMeadAny.solver rtol atol normX normF init0 move) treeAllfinite fn aux0 y0 ms throw =
      some (.ok sol)) (hs : sol.result = .successful) :
    (∀ i, (sol.value i).isFinite = true) ∧ sol.state.fBest.isFinite = true := by
  constructor
  · rw [← allfinite_iff]
    refine success_good (NelderMeadAny.solver rtol atol normX normF init0 move) treeAllfinite treeAllfinite fn aux0 y0 ms
      throw sol h hs (fun _ _ => True) (fun _ _ => trivial) (fun _ _ _ _ => trivial) ?_ ?_
    · intro st0 a _ hy _
      exact hy
    · intro y st a _ _ ht
      have ht' : NelderMeadAny.terminate rtol atol normX normF (move fn st).1 = (true, .successful) := ht
      unfold NelderMeadAny.terminate at ht'
      simp only [Prod.mk.injEq] at ht'
      obtain ⟨h1, h2⟩ := ht'
      split_ifs at h2 with hd
      simp only [Bool.not_eq_true] at hd
      rw [hd, Bool.or_false, Bool.and_eq_true, decide_eq_true_eq] at h1
      refine (allfinite_iff _).2 fun c => ?_
      have := hX.small _ 1 h1.1 ((0 : Fin n), c)
      exact (XR.finite_sub (XR.finite_abs ▸ XR.finite_div this)).2
  · obtain ⟨st0, hi, ht, _⟩ := C02_success_is_certificate _ _ _ _ _ _ _ _ h hs
    have ht' : NelderMeadAny.terminate rtol atol normX normF sol.state = (true, .successful) := ht
    unfold NelderMeadAny.terminate at ht'
    have h2 := congrArg Prod.snd ht'
    by_contra hne
    rw [Bool.not_eq_true] at hne
    simp [hne] at h2

/-- **C65, BestSoFar wrappers** around any solver whatsoever: the value returned by a successful solve is finite. -/
theorem C65_best_so_far {Y Out St Stats L : Type} [LT L] [DecidableLT L] (S : Solver Y Out (Out × A) St Stats)
    (toLoss : Y → Out → L) (inf : L) (auxZero : A) (af : Y → Bool) (fn : Y → Out × A) (aux0 : A) (y0 : Y)
    (ms : Option Nat) (throw : Bool) (sol)
    (h : iterativeSolve (BestSoFar.solver S toLoss inf auxZero) af fn aux0 y0 ms throw = some (.ok sol))
    (hs : sol.result = .successful) : af sol.value = true := by
  have hy0 : af y0 = true := (C02_success_is_certificate _ _ _ _ _ _ _ _ h hs).choose_spec.2.2.2.2
  refine success_good (BestSoFar.solver S toLoss inf auxZero) af af fn aux0 y0 ms throw sol h hs
    (fun _ st => af st.bestY = true) ?_ ?_ ?_ ?_
  · intro st0 hi
    have hi' : BestSoFar.init S inf auxZero fn y0 = .ok st0 := hi
    unfold BestSoFar.init at hi'
    split at hi'
    · cases hi'
    · cases hi'; exact hy0
  · intro y st hb hy
    show af (if _ then y else st.bestY) = true
    split_ifs
    · exact hy
    · exact hb
  · intro st0 a hi hy _
    have hi' : BestSoFar.init S inf auxZero fn y0 = .ok st0 := hi
    unfold BestSoFar.init at hi'
    split at hi'
    · cases hi'
    · cases hi'; exact hy
  · intro y st a hb hy _
    show af (if _ then y else st.bestY) = true
    split_ifs
    · exact hy
    · exact hb

/-! ### The hypotheses are met -/

theorem liftNorm_fin (norm : (ι → ℝ) → ℝ) (x : ι → ℝ) : liftNorm norm (fun i => XR.fin (x i)) = .fin (norm x) := by
  unfold liftNorm
  rw [if_neg (by rintro ⟨i, hi⟩; cases hi), if_neg (by rintro ⟨i, hi⟩; cases hi)]
  rfl

/-- `y - y` is `0` for numbers and NaN otherwise: a function with special values. -/
noncomputable def selfDifference (y : Unit → XR) : (Unit → XR) × Unit := (fun i => y i - y i, ())

/-- A successful fixed-point solve on `XR`. -/
example : ∃ sol, iterativeSolve (FixedPointIter.solver
    { rtol := .fin 0, atol := .fin 1, norm := liftNorm maxNorm, damp := .fin 0 }) treeAllfinite selfDifference ()
    (fun _ => .fin 7) none true = some (.ok sol) ∧ sol.result = .successful := by
  set cfg : FixedPointIter.Cfg Unit XR := { rtol := .fin 0, atol := .fin 1, norm := liftNorm maxNorm, damp := .fin 0 }
  have hstep : ∀ (r : ℝ) (st : Option XR), FixedPointIter.step cfg selfDifference (fun _ => .fin r) st =
      (fun _ => .fin 0, some (.fin (maxNorm fun _ : Unit => r)), ()) := by
    intro r st
    have h1 : (fun i : Unit => (1 - cfg.damp) * (selfDifference fun _ => XR.fin r).1 i + cfg.damp * XR.fin r) =
        fun _ => XR.fin 0 := by
      funext i
      simp [cfg, selfDifference]
    show (_, some (liftNorm maxNorm _), ()) = _
    rw [h1]
    refine Prod.ext rfl (Prod.ext ?_ rfl)
    show some _ = some _
    rw [← liftNorm_fin]
    congr 2
    funext i
    show (XR.fin r - XR.fin 0) / (XR.fin 1 + XR.fin 0 * HasAbs.abs (XR.fin 0)) = _
    rw [XR.abs_fin, XR.mul_fin, XR.add_fin, XR.sub_fin, XR.div_fin _ _ (by norm_num)]
    norm_num
  have h1 := hstep 7 none
  have h2 : FixedPointIter.step cfg selfDifference (FixedPointIter.step cfg selfDifference (fun _ => .fin 7) none).1
      (FixedPointIter.step cfg selfDifference (fun _ => .fin 7) none).2.1 =
      (fun _ => .fin 0, some (.fin (maxNorm fun _ : Unit => 0)), ()) := by
    rw [h1]; exact hstep 0 _
  have hfin : ∀ r : ℝ, treeAllfinite (fun _ : Unit => XR.fin r) = true := fun r => (allfinite_iff _).2 fun _ => rfl
  obtain ⟨sol, h, hs, _⟩ := solve_succeeds_by (FixedPointIter.solver cfg) treeAllfinite selfDifference () (fun _ => .fin 7) none
    rfl none true 2 (by
      intro j hj
      rcases (by omega : j - 1 = 0 ∨ j - 1 = 1) with h | h <;> rw [h]
      · exact hfin 7
      · show treeAllfinite (FixedPointIter.step cfg selfDifference (fun _ => .fin 7) none).1 = true
        rw [h1]; exact hfin 0) (fun _ _ => rfl) (by
      show (FixedPointIter.terminate (FixedPointIter.step cfg selfDifference
        (FixedPointIter.step cfg selfDifference (fun _ => .fin 7) none).1
        (FixedPointIter.step cfg selfDifference (fun _ => .fin 7) none).2.1).2.1).1 = true
      rw [h2]
      show decide (XR.fin (maxNorm fun _ : Unit => (0 : ℝ)) < 1) = true
      rw [decide_eq_true_eq]
      show maxNorm (fun _ : Unit => (0 : ℝ)) < 1
      exact (maxNorm_lt_iff _ _).2 ⟨one_pos, by simp⟩) (by simp)
  exact ⟨sol, h, hs⟩

/-- A solver in the common form on `XR`: every trial is accepted, and the descent goes to the origin. -/
noncomputable def towardsOrigin : SearchBased.Cfg Unit Unit XR XR XR Unit Unit (Unit → XR) Unit where
  rtol := .fin 0
  atol := .fin 1
  normY := liftNorm maxNorm
  normF := liftNorm maxNorm
  flat f := fun _ => f
  stored f := fun _ => f
  makeEval _ _ := ()
  makeInfo _ _ _ f _ := (f, ())
  search _ _ _ _ _ _ := (.fin 1, true, .successful, ())
  query y _ _ := y
  descend s d := (fun i => -(s * d i), .successful)
  skipFirst := true

/-- A successful search-based solve on `XR`, of the function `y ↦ y - y` (NaN at infinities). -/
example : ∃ sol, iterativeSolve (SearchBased.solver towardsOrigin fun y => .ok
      { firstStep := true, yEval := y, searchState := (), fInfo := 0, aux := (), descentState := y, terminate := false,
        result := .successful, hess := () }) treeAllfinite (fun y => (y () - y (), ())) () (fun _ => .fin 7) none true =
      some (.ok sol) ∧ sol.result = .successful := by
  set init0 : (Unit → XR) → Except Err (SearchBased.State Unit XR XR Unit Unit (Unit → XR) Unit) := fun y => .ok
    { firstStep := true, yEval := y, searchState := (), fInfo := 0, aux := (), descentState := y, terminate := false,
      result := .successful, hess := () } with hinit0
  set fn : (Unit → XR) → XR × Unit := fun y => (y () - y (), ()) with hfn
  have hpair : ∀ (first t : Bool) (y r : ℝ) (d : Unit → XR),
      ∃ t', SearchBased.step towardsOrigin fn (fun _ => .fin y)
        { firstStep := first, yEval := fun _ => .fin r, searchState := (), fInfo := .fin 0, aux := (), descentState := d,
          terminate := t, result := .successful, hess := () } =
        (fun _ => .fin r,
          { firstStep := false, yEval := fun _ => .fin 0, searchState := (), fInfo := .fin 0, aux := (), descentState := fun _ => .fin r,
            terminate := t', result := .successful, hess := () }, ()) ∧
        (first = false → y = r → t' = true) := by
    intro first t y r d
    have hf : (fn fun _ => XR.fin r).1 = .fin 0 := by simp [hfn]
    refine ⟨_, Prod.ext rfl (Prod.ext (SearchBased.State.mk.injEq .. |>.mpr ⟨rfl, ?_, rfl, ?_, rfl, rfl, rfl, rfl, rfl⟩) rfl), ?_⟩
    · funext i
      show XR.fin r + -(XR.fin 1 * XR.fin r) = XR.fin 0
      simp
    · exact hf
    · rintro rfl rfl
      show (if (true && false) = true then false else cauchyTermination (XR.fin 0) (XR.fin 1) (liftNorm maxNorm) (liftNorm maxNorm)
        (fun _ => XR.fin y) (fun _ => XR.fin y - XR.fin y) (fun _ => (fn fun _ => XR.fin y).1)
        (fun _ => (fn fun _ => XR.fin y).1 - XR.fin 0)) = true
      have hz : ∀ a : ℝ, scaledDiff (XR.fin 0) (XR.fin 1) (fun _ : Unit => XR.fin a) (fun _ => XR.fin 0) =
          fun _ => XR.fin 0 := by
        intro a
        funext i
        show HasAbs.abs (XR.fin 0) / (XR.fin 1 + XR.fin 0 * HasAbs.abs (XR.fin a)) = XR.fin 0
        rw [XR.abs_fin, XR.abs_fin, XR.mul_fin, XR.add_fin, XR.div_fin _ _ (by norm_num)]
        norm_num
      rw [hf, XR.sub_fin, sub_self, XR.sub_fin, sub_self]
      unfold cauchyTermination
      rw [hz, hz, liftNorm_fin]
      have : maxNorm (fun _ : Unit => (0 : ℝ)) < 1 := (maxNorm_lt_iff _ _).2 ⟨one_pos, by simp⟩
      simp [this]
  have hfin : ∀ r : ℝ, treeAllfinite (fun _ : Unit => XR.fin r) = true := fun r => (allfinite_iff _).2 fun _ => rfl
  let st0 : SearchBased.State Unit XR XR Unit Unit (Unit → XR) Unit :=
    { firstStep := true, yEval := fun _ => .fin 7, searchState := (), fInfo := .fin 0, aux := (), descentState := fun _ => .fin 7,
      terminate := false, result := .successful, hess := () }
  let S := SearchBased.solver towardsOrigin init0
  have hrun : ∀ k, ∃ y d t, iterateAt S fn () (fun _ => .fin 7) st0 (k + 1) = (fun _ => .fin y) ∧
      stateAt S fn () (fun _ => .fin 7) st0 (k + 1) =
      { firstStep := false, yEval := fun _ => .fin 0, searchState := (), fInfo := .fin 0, aux := (), descentState := d, terminate := t, result := .successful, hess := () } ∧
        (0 < k → y = 0) ∧ (1 < k → t = true) := by
    intro k
    induction k with
    | zero =>
      obtain ⟨t, h, _⟩ := hpair true false 7 7 (fun _ => .fin 7)
      exact ⟨7, fun _ => .fin 7, t, congrArg (fun o => o.1) h, congrArg (fun o => o.2.1) h, by omega, by omega⟩
    | succ k ih =>
      obtain ⟨y, d, t, h1, h2, h3, _⟩ := ih
      obtain ⟨t', h, ht'⟩ := hpair false t y 0 d
      rw [← h1, ← h2] at h
      exact ⟨0, _, t', congrArg (fun o => o.1) h, congrArg (fun o => o.2.1) h, fun _ => rfl,
        fun hk => ht' rfl (h3 (by omega))⟩
  obtain ⟨sol, h, hs, _⟩ := solve_succeeds_by S treeAllfinite fn () (fun _ => .fin 7) st0 rfl none true 3 (by
      intro j _
      cases j - 1 with
      | zero => exact hfin 7
      | succ k => obtain ⟨y, d, t, h1, _⟩ := hrun k; rw [h1]; exact hfin y) (by
      intro j _
      cases j with
      | zero => rfl
      | succ k => obtain ⟨y, d, t, _, h2, _⟩ := hrun k; rw [h2]; rfl) (by
      obtain ⟨y, d, t, _, h2, _, h4⟩ := hrun 2
      rw [h2]
      exact h4 (by omega)) (by simp)
  exact ⟨sol, h, hs⟩

end Verif.Props
