import Verif.Spec.AtSolution
import Verif.Props.Driver
import Verif.Props.NewtonChord
import Verif.Props.LevenbergMarquardt
import Verif.Props.LBFGSCompact
import Verif.Model.Optax
import Verif.Model.Dogleg
import Verif.Model.FixedPoint

/-!
C91: a solve that starts at a solution returns it.
-/

namespace Verif.Props

open Driver Spec

section generic
variable {Y Out Aux St Stats : Type} {S : Solver Y Out Aux St Stats} {fn : Y → Out × Aux} {aux0 : Aux} {y0 : Y}

theorem returns_start {n : ℕ} {st0 : St} (hi : S.init fn y0 = .ok st0) (h0 : S.terminate fn y0 st0 = (false, .successful))
    (hp : ∀ y a st r, (S.postprocess fn y a st r).1 = y ∧ (S.postprocess fn y a st r).2.1 = a)
    (hstep : ∀ j, j < n → iterateAt S fn aux0 y0 st0 (j + 1) = y0 ∧ auxAt S fn aux0 y0 st0 (j + 1) = (fn y0).2 ∧
      (S.terminate fn y0 (stateAt S fn aux0 y0 st0 (j + 1))).2 = .successful)
    (hn : (S.terminate fn y0 (stateAt S fn aux0 y0 st0 n)).1 = true) : ReturnsStart S fn aux0 y0 n := by
  intro af ms throw haf hms
  have hit : ∀ j, j ≤ n → iterateAt S fn aux0 y0 st0 j = y0 := by
    intro j hj
    cases j with
    | zero => rfl
    | succ j => exact (hstep j hj).1
  have hit' : ∀ j, j ≤ n → iterateAt S fn aux0 y0 st0 (j - 1) = y0 := fun j hj => hit _ (by omega)
  obtain ⟨sol, h1, h2, h3, _⟩ := solve_succeeds_by S af fn aux0 y0 st0 hi ms throw n
    (fun j hj => by rw [hit' j hj]; exact haf)
    (fun j hj => by
      rw [hit' j hj]
      cases j with
      | zero => exact congrArg Prod.snd h0
      | succ j => exact (hstep j hj).2.2) (by rw [hit' n le_rfl]; exact hn) hms
  refine ⟨sol, h1, h2, ?_⟩
  obtain ⟨st1, e0, hc, hstop, e1, e2, e3, e4⟩ := solve_spec _ _ _ _ _ _ _ _ h1
  obtain rfl : st1 = st0 := by rw [e0] at hi; injection hi
  have hv : sol.value = iterateAt S fn aux0 y0 st1 sol.numSteps := by
    have := congrArg Prod.fst e3
    exact this.trans (hp _ _ _ _).1
  have ha : sol.aux = auxAt S fn aux0 y0 st1 sol.numSteps := by
    have := congrArg (fun p => p.2.1) e3
    exact this.trans (hp _ _ _ _).2
  refine ⟨hv.trans (hit _ h3), ?_, h3⟩
  rw [ha]
  obtain h | ⟨j, hj⟩ : sol.numSteps = 0 ∨ ∃ j, sol.numSteps = j + 1 := by
    cases sol.numSteps with
    | zero => exact .inl rfl
    | succ j => exact .inr ⟨j, rfl⟩
  · exfalso
    rw [h] at e4
    have hC : Continues S af fn aux0 y0 st1 0 := ⟨haf, h0⟩
    rw [h2, if_pos hC] at e4
    cases e4
  · rw [hj]; exact (hstep j (by omega)).2.1

/-- Two steps from `y0` lead nowhere, and the solver wants to stop, successfully, after the second at the latest. -/
def AtRest (S : Solver Y Out Aux St Stats) (fn : Y → Out × Aux) (y0 : Y) : Prop :=
  ∃ st0 st1 st2, S.init fn y0 = .ok st0 ∧ S.terminate fn y0 st0 = (false, .successful) ∧
    (∀ y a st r, (S.postprocess fn y a st r).1 = y ∧ (S.postprocess fn y a st r).2.1 = a) ∧
    S.step fn y0 st0 = (y0, st1, (fn y0).2) ∧ S.step fn y0 st1 = (y0, st2, (fn y0).2) ∧
    (S.terminate fn y0 st1).2 = .successful ∧ S.terminate fn y0 st2 = (true, .successful)

theorem AtRest.returns (h : AtRest S fn y0) : ReturnsStart S fn aux0 y0 2 := by
  obtain ⟨st0, st1, st2, hi, h0, hp, s1, s2, r1, r2⟩ := h
  have t1 : trace S fn aux0 y0 st0 1 = (y0, st1, (fn y0).2) := s1
  have t2 : trace S fn aux0 y0 st0 2 = (y0, st2, (fn y0).2) := by rw [trace, t1]; exact s2
  refine returns_start hi h0 hp (fun j hj => ?_) ?_
  · obtain rfl | rfl : j = 0 ∨ j = 1 := by omega
    · simp only [iterateAt, auxAt, stateAt, Nat.zero_add, t1]; exact ⟨trivial, trivial, r1⟩
    · simp only [iterateAt, auxAt, stateAt, t2, r2]; exact ⟨trivial, trivial, trivial⟩
  · simp only [stateAt, t2, r2]

/-- Solvers that are at rest at a root remain so when they are used by `root_find`. -/
theorem AtRest.toRoot {O K : Type} [LT K] [DecidableLT K] {rootFn : Y → Out × Aux} {S : Solver Y O (Out × Aux) St Stats}
    {f : Y → O × (Out × Aux)} (hf : (f y0).2 = rootFn y0) (h : AtRest S f y0) (norm : Out → K) (atol : K) (fInf : Out)
    (hn : norm (rootFn y0).1 < atol) : AtRest (Verif.toRoot norm atol fInf S) f y0 := by
  obtain ⟨st0, st1, st2, hi, h0, hp, s1, s2, r1, r2⟩ := h
  refine ⟨(st0, fInf), (st1, (f y0).2.1), (st2, (f y0).2.1), ?_, ?_, fun _ _ _ _ => hp _ _ _ _, ?_, ?_, ?_, ?_⟩
  · simp only [Verif.toRoot, hi]
  · simp only [Verif.toRoot, h0, Bool.false_and]
  · simp only [Verif.toRoot, s1]
  · simp only [Verif.toRoot, s2]
  · simp only [Verif.toRoot, r1]
  · simp only [Verif.toRoot, r2, hf, hn, decide_true, Bool.and_self]

end generic

/-! ### Searches and descents at a stationary point -/

variable {ι κ A SS DS HS : Type}

/-- A proposed point that is the current one, with the current value of the objective, is accepted, and the search proposes the step
size `s` again. -/
structure Calm [Fintype κ] (search : Search ι κ SS) (s : ℝ) : Prop where
  step : ∀ first y i j, (first = true ∨ j.asMin = i.asMin) → search.step first y y i j search.init = (s, true, .successful, search.init)

/-- From the function information `i` the descent goes nowhere. -/
def Rests (descent : Descent ι κ DS) (s : ℝ) (i : FnInfo ι κ) : Prop :=
  ∀ y st, descent.step s (descent.query y i st) = (fun _ => 0, .successful)

theorem learningRate_calm [Fintype κ] (rate : ℝ) : Calm (learningRate (ι := ι) (κ := κ) rate) rate := ⟨fun _ _ _ _ _ => rfl⟩

section
variable [Fintype ι] [Fintype κ]

theorem mulVec_at_zero (M : Matrix κ ι ℝ) : M.mulVec (fun _ => 0) = fun _ => 0 := Matrix.mulVec_zero M

theorem gradDot_zero (i : FnInfo ι κ) : (i.gradDot? fun _ => 0).getD 0 = 0 := by
  cases i <;> simp [FnInfo.gradDot?, treeDot, mulVec_at_zero]

theorem classicalPredict_zero (i : FnInfo ι κ) : (TrustRegion.classicalPredict (fun _ => 0) i).getD 0 = 0 := by
  cases i <;> simp [TrustRegion.classicalPredict, treeDot, sumSquares, mulVec_at_zero]

theorem armijo_calm (c : Armijo.Cfg ℝ) : Calm (Armijo.search (ι := ι) (κ := κ) c) c.stepInit := by
  refine ⟨fun first y i j h => ?_⟩
  simp only [Armijo.search, sub_self, gradDot_zero, Armijo.decide', mul_zero, le_refl, decide_true, Bool.and_true]
  have : (first || decide (j.asMin - i.asMin ≤ 0)) = true := by
    rcases h with h | h <;> simp [h]
  simp only [this, if_true, one_mul]

theorem trust_calm (c : TrustRegion.Cfg ℝ) (acc : FnInfo ι κ → Bool) (p : (ι → ℝ) → FnInfo ι κ → ℝ) (hp : ∀ i, p (fun _ => 0) i = 0) :
    Calm (TrustRegion.search c acc p) 1 := by
  refine ⟨fun first y i j h => ?_⟩
  simp only [TrustRegion.search, sub_self, hp, TrustRegion.decide', mul_zero, lt_irrefl, decide_false, Bool.and_false,
    Bool.false_and, Bool.false_eq_true, if_false]
  have : (decide (j.asMin - i.asMin ≤ 0) || first) = true := by
    rcases h with h | h <;> simp [h]
  simp only [this, if_true, one_mul]

theorem classical_calm (c : TrustRegion.Cfg ℝ) : Calm (TrustRegion.classical (ι := ι) (κ := κ) c) 1 :=
  trust_calm c _ _ classicalPredict_zero

theorem linear_calm (c : TrustRegion.Cfg ℝ) : Calm (TrustRegion.linear (ι := ι) (κ := κ) c) 1 := trust_calm c _ _ gradDot_zero

end

theorem test_at_rest [Fintype ι] [Fintype κ] {nY : (ι → ℝ) → ℝ} {nF : (κ → ℝ) → ℝ} (hY : GoodNorm nY) (hF : GoodNorm nF)
    (rtol atol : ℝ) (y : ι → ℝ) (f : κ → ℝ) : cauchyTermination rtol atol nY nF y (fun _ => 0) f (fun _ => 0) = true := by
  have e : ∀ {τ : Type} (v : τ → ℝ), scaledDiff rtol atol v (fun _ => 0) = fun _ => 0 := by
    intro τ v; funext i; simp [scaledDiff, HasAbs.abs]
  simp [cauchyTermination, e, hY.zero, hF.zero]

/-! ### Minimisers -/

section minimisers
variable [Fintype ι]

/-- Gradient methods whose search and descent behave as those of the library at points where the gradient vanishes. -/
theorem gradient_methods_rest (c : GradientDescent.Cfg ι SS DS) (s : ℝ) (hs : Calm c.search s)
    (ha : ∀ f g, c.search.accepts (.evalGrad f g) = true ∧ c.descent.accepts (.evalGrad f g) = true)
    (hd : ∀ f, Rests c.descent s (.evalGrad f fun _ => 0)) (hY : GoodNorm c.normY) (hF : GoodNorm c.normF)
    (fn : (ι → ℝ) → ℝ × A) (aux0 : A) (y0 : ι → ℝ) (hg : c.grad y0 = fun _ => 0) :
    AtRest (GradientDescent.solver c aux0) fn y0 := by
  let st0 : GradientDescent.State ι A SS DS :=
    { firstStep := true, yEval := y0, searchState := c.search.init, fInfo := .evalGrad 0 y0, aux := aux0,
      descentState := c.descent.init y0 (.evalGrad 0 y0), terminate := false, result := .successful }
  have hi : (GradientDescent.solver c aux0).init fn y0 = .ok st0 := by
    simp [GradientDescent.solver, GradientDescent.init, ha, st0]
  have q1 : ∀ f g, GradientDescent.fOf (.evalGrad f g : FnInfo ι Unit) = f := fun _ _ => rfl
  have q2 : ∀ f g, (.evalGrad f g : FnInfo ι Unit).asMin = f := fun _ _ => rfl
  -- a step from a state that proposes the start
  have key : ∀ st : GradientDescent.State ι A SS DS, st.yEval = y0 → st.searchState = c.search.init →
      (st.firstStep = true ∨ GradientDescent.fOf st.fInfo = (fn y0).1 ∧ st.fInfo.asMin = (fn y0).1 ∧ st.aux = (fn y0).2) →
      ∃ st', GradientDescent.step c fn y0 st = (y0, st', (fn y0).2) ∧ st'.yEval = y0 ∧ st'.searchState = c.search.init ∧
        (GradientDescent.fOf st'.fInfo = (fn y0).1 ∧ st'.fInfo.asMin = (fn y0).1 ∧ st'.aux = (fn y0).2) ∧
        st'.terminate = !st.firstStep ∧ st'.result = .successful ∧ st'.firstStep = false := by
    intro st h1 h2 h3
    have hc := hs.step st.firstStep y0 st.fInfo (.eval (fn y0).1) (by
      rcases h3 with h3 | ⟨_, h3, _⟩
      · exact .inl h3
      · right; rw [h3]; rfl)
    refine ⟨(GradientDescent.step c fn y0 st).2.1, ?_, ?_⟩
    · simp only [GradientDescent.step, h1, h2, hc, if_true]
      rcases h3 with h3 | ⟨h3, _, h4⟩
      · simp [h3]
      · cases hf : st.firstStep <;> simp [h4]
    · simp only [GradientDescent.step, h1, h2, hc, if_true, hg, hd _ y0 _, add_zero, sub_self, q1, q2, and_true, true_and]
      rcases h3 with h3 | ⟨h3, _, h4⟩
      · simp [h3]
      · cases hf : st.firstStep with
        | true => simp
        | false => simp [h3, test_at_rest hY hF]
  obtain ⟨st1, k1, a1, b1, c1, e1, r1, f1⟩ := key st0 rfl rfl (.inl rfl)
  obtain ⟨st2, k2, a2, b2, c2, e2, r2, f2⟩ := key st1 a1 b1 (.inr c1)
  exact ⟨st0, st1, st2, hi, rfl, fun _ _ _ _ => ⟨rfl, rfl⟩, k1, k2, r1, Prod.ext (e2.trans (by rw [f1]; rfl)) r2⟩

/-- **C91** for `GradientDescent`. -/
theorem C91_gradient_descent (rate rtol atol : ℝ) (nY : (ι → ℝ) → ℝ) (nF : (Unit → ℝ) → ℝ) (hY : GoodNorm nY) (hF : GoodNorm nF)
    (grad : (ι → ℝ) → ι → ℝ) (fn : (ι → ℝ) → ℝ × A) (aux0 : A) (y0 : ι → ℝ) (hg : grad y0 = fun _ => 0) :
    ReturnsStart (GradientDescent.solver (GradientDescent.gradientDescent rate rtol atol nY nF grad) aux0) fn aux0 y0 2 :=
  (gradient_methods_rest _ rate (learningRate_calm rate) (fun _ _ => ⟨rfl, rfl⟩)
    (fun f y st => by simp [GradientDescent.gradientDescent, steepestDescent, FnInfo.grad?]) hY hF fn aux0 y0 hg).returns

/-- **C91** for `NonlinearCG`, with every formula for `β` and every search of the library. -/
theorem C91_nonlinear_cg (rtol atol : ℝ) (nY : (ι → ℝ) → ℝ) (nF : (Unit → ℝ) → ℝ) (hY : GoodNorm nY) (hF : GoodNorm nF)
    (method : (ι → ℝ) → (ι → ℝ) → (ι → ℝ) → ℝ) (search : Search ι Unit SS) (s : ℝ) (hs : Calm search s)
    (ha : ∀ f g, search.accepts (.evalGrad f g) = true)
    (grad : (ι → ℝ) → ι → ℝ) (fn : (ι → ℝ) → ℝ × A) (aux0 : A) (y0 : ι → ℝ) (hg : grad y0 = fun _ => 0) :
    ReturnsStart (GradientDescent.solver (NonlinearCG.cfg rtol atol nY nF method search grad) aux0) fn aux0 y0 2 :=
  (gradient_methods_rest _ s hs (fun f g => ⟨ha f g, rfl⟩)
    (fun f y st => by simp [NonlinearCG.cfg, NonlinearCG.descent, FnInfo.grad?, treeDot]) hY hF fn aux0 y0 hg).returns

/-- Quasi-Newton methods; `P` are the function informations met. -/
theorem quasi_newton_methods_rest (c : QuasiNewton.Cfg ι SS DS HS) (s : ℝ) (hs : Calm c.search s)
    (P : FnInfo ι Unit → Prop) (h0 : P (c.hess.initHessian y0 0 fun _ => 0).1)
    (ha : ∀ i, P i → c.search.accepts i = true ∧ c.descent.accepts i = true)
    (hu : ∀ i f hs, P i → P (c.hess.updateHessian y0 y0 i f (fun _ => 0) hs).1 ∧
      GradientDescent.fOf (c.hess.updateHessian y0 y0 i f (fun _ => 0) hs).1 = f)
    (hf : ∀ i, P i → i.asMin = GradientDescent.fOf i)
    (hd : ∀ i, P i → Rests c.descent s i) (hY : GoodNorm c.normY) (hF : GoodNorm c.normF)
    (fn : (ι → ℝ) → ℝ × A) (aux0 : A) (hg : c.grad y0 = fun _ => 0) :
    AtRest (QuasiNewton.solver c aux0) fn y0 := by
  let h := c.hess.initHessian y0 0 fun _ => 0
  let st0 : QuasiNewton.State ι A SS DS HS :=
    { firstStep := true, yEval := y0, searchState := c.search.init, fInfo := h.1, aux := aux0,
      descentState := c.descent.init y0 h.1, terminate := false, result := .successful, numAcceptedSteps := 0,
      hessianUpdateState := h.2 }
  have hi : (QuasiNewton.solver c aux0).init fn y0 = .ok st0 := by
    simp [QuasiNewton.solver, QuasiNewton.init, ha _ h0, st0, h]
  have key : ∀ st : QuasiNewton.State ι A SS DS HS, st.yEval = y0 → st.searchState = c.search.init → P st.fInfo →
      (st.firstStep = true ∨ GradientDescent.fOf st.fInfo = (fn y0).1 ∧ st.aux = (fn y0).2) →
      ∃ st', QuasiNewton.step c fn y0 st = (y0, st', (fn y0).2) ∧ st'.yEval = y0 ∧ st'.searchState = c.search.init ∧ P st'.fInfo ∧
        (GradientDescent.fOf st'.fInfo = (fn y0).1 ∧ st'.aux = (fn y0).2) ∧
        st'.terminate = !st.firstStep ∧ st'.result = .successful ∧ st'.firstStep = false := by
    intro st h1 h2 hP h3
    have hc := hs.step st.firstStep y0 st.fInfo (.eval (fn y0).1) (by
      rcases h3 with h3 | ⟨h3, _⟩
      · exact .inl h3
      · right; rw [hf _ hP, h3]; rfl)
    obtain ⟨u1, u2⟩ := hu st.fInfo (fn y0).1 st.hessianUpdateState hP
    refine ⟨(QuasiNewton.step c fn y0 st).2.1, ?_, ?_⟩
    · simp only [QuasiNewton.step, h1, h2, hc, if_true]
      rcases h3 with h3 | ⟨h3, h4⟩
      · simp [h3]
      · cases hf : st.firstStep <;> simp [h4]
    · simp only [QuasiNewton.step, h1, h2, hc, if_true, hg, hd _ u1 y0 _, add_zero, sub_self, and_true, true_and, u2]
      refine ⟨u1, ?_⟩
      rcases h3 with h3 | ⟨h3, h4⟩
      · simp [h3]
      · cases hf : st.firstStep with
        | true => simp
        | false => simp [h3, test_at_rest hY hF]
  obtain ⟨st1, k1, a1, b1, p1, c1, e1, r1, f1⟩ := key st0 rfl rfl h0 (.inl rfl)
  obtain ⟨st2, k2, a2, b2, p2, c2, e2, r2, f2⟩ := key st1 a1 b1 p1 (.inr c1)
  exact ⟨st0, st1, st2, hi, rfl, fun _ _ _ _ => ⟨rfl, rfl⟩, k1, k2, r1, Prod.ext (e2.trans (by rw [f1]; rfl)) r2⟩

theorem spd_zero {M : Matrix ι ι ℝ} (hM : SPD M) {x : ι → ℝ} (hx : M.mulVec x = fun _ => 0) : x = fun _ => 0 := by
  by_contra hne
  have : ∃ i, x i ≠ 0 := by
    by_contra hall
    exact hne (funext fun i => by_contra fun h => hall ⟨i, h⟩)
  have hpos := hM.2 x this
  have : ∑ i, ∑ j, x i * M i j * x j = ∑ i, x i * M.mulVec x i :=
    Finset.sum_congr rfl fun i _ => by
      simp only [Matrix.mulVec, dotProduct, Finset.mul_sum]
      exact Finset.sum_congr rfl fun j _ => by ring
  rw [this, hx] at hpos
  simp at hpos

/-- Function informations without gradient, with a matrix the Newton step can be computed from. -/
def Flat (useInverse : Bool) (i : FnInfo ι Unit) : Prop :=
  match useInverse with
  | true => ∃ f M, i = .evalGradHessianInv f (fun _ => 0) M
  | false => ∃ f M, SPD M ∧ i = .evalGradHessian f (fun _ => 0) M

/-- Quasi-Newton methods with a Newton descent and a Hessian approximation that is not spoilt without movement. -/
theorem newton_methods_rest (useInverse : Bool) (c : QuasiNewton.Cfg ι SS ((ι → ℝ) × Result) HS) (s : ℝ) (hs : Calm c.search s)
    (ha : ∀ i, Flat useInverse i → c.search.accepts i = true) (ls : LinSolve ι Unit) (hls : useInverse = false → SolvesSPD ls)
    (hd : c.descent = newtonDescent ls none) (y0 : ι → ℝ) (h0 : Flat useInverse (c.hess.initHessian y0 0 fun _ => 0).1)
    (hu : ∀ i f hst, Flat useInverse i → Flat useInverse (c.hess.updateHessian y0 y0 i f (fun _ => 0) hst).1 ∧
      GradientDescent.fOf (c.hess.updateHessian y0 y0 i f (fun _ => 0) hst).1 = f)
    (hY : GoodNorm c.normY) (hF : GoodNorm c.normF) (fn : (ι → ℝ) → ℝ × A) (aux0 : A) (hg : c.grad y0 = fun _ => 0) :
    AtRest (QuasiNewton.solver c aux0) fn y0 := by
  refine quasi_newton_methods_rest c s hs (Flat useInverse) h0 (fun i hi => ⟨ha i hi, ?_⟩) hu (fun i hi => ?_)
    (fun i hi y st => ?_) hY hF fn aux0 hg
  · rw [hd]
    cases useInverse with
    | true => obtain ⟨f, M, rfl⟩ := hi; rfl
    | false => obtain ⟨f, M, _, rfl⟩ := hi; rfl
  · cases useInverse with
    | true => obtain ⟨f, M, rfl⟩ := hi; rfl
    | false => obtain ⟨f, M, _, rfl⟩ := hi; rfl
  · rw [hd]
    cases useInverse with
    | true => obtain ⟨f, M, rfl⟩ := hi; simp [newtonDescent, newtonStep, mulVec_at_zero]
    | false =>
      obtain ⟨f, M, hM, rfl⟩ := hi
      obtain ⟨h1, h2⟩ := hls rfl M (fun _ => 0) hM
      simp [newtonDescent, newtonStep, h1, spd_zero hM h2]

theorem one_spd [DecidableEq ι] : SPD (1 : Matrix ι ι ℝ) := by
  refine ⟨fun i j => by simp [Matrix.one_apply, eq_comm], fun x ⟨i, hi⟩ => ?_⟩
  have : ∑ i, ∑ j, x i * (1 : Matrix ι ι ℝ) i j * x j = ∑ i, x i ^ 2 :=
    Finset.sum_congr rfl fun i _ => by simp [Matrix.one_apply, sq]
  rw [this]
  exact lt_of_lt_of_le (by positivity) (Finset.single_le_sum (f := fun i => x i ^ 2) (fun i _ => sq_nonneg _) (Finset.mem_univ i))

theorem guarded_still (eps : ℝ) (he : 0 ≤ eps) (inv direct : Matrix ι ι ℝ → (ι → ℝ) → (ι → ℝ) → ℝ → Matrix ι ι ℝ)
    (useInverse : Bool) (y0 : ι → ℝ) (i : FnInfo ι Unit) (f : ℝ) (hst : Unit) (hi : Flat useInverse i) :
    Flat useInverse (QuasiNewton.guarded eps inv direct y0 y0 i f (fun _ => 0) hst).1 ∧
      GradientDescent.fOf (QuasiNewton.guarded eps inv direct y0 y0 i f (fun _ => 0) hst).1 = f := by
  have h0 : ∀ g : ι → ℝ, treeDot g (fun _ => 0) = 0 := fun g => by simp [treeDot]
  cases useInverse with
  | true =>
    obtain ⟨g, M, rfl⟩ := hi
    simp only [QuasiNewton.guarded, sub_self, h0, he.not_gt, if_false]
    exact ⟨⟨f, M, rfl⟩, rfl⟩
  | false =>
    obtain ⟨g, M, hM, rfl⟩ := hi
    simp only [QuasiNewton.guarded, sub_self, h0, he.not_gt, if_false]
    exact ⟨⟨f, M, hM, rfl⟩, rfl⟩

theorem flat_armijo (armijo : Armijo.Cfg ℝ) (useInverse : Bool) (i : FnInfo ι Unit) (hi : Flat useInverse i) :
    (Armijo.search (κ := Unit) armijo).accepts i = true := by
  cases useInverse with
  | true => obtain ⟨f, M, rfl⟩ := hi; rfl
  | false => obtain ⟨f, M, _, rfl⟩ := hi; rfl

theorem flat_identity [DecidableEq ι] (y0 : ι → ℝ) (useInverse : Bool) :
    Flat useInverse (QuasiNewton.initIdentity useInverse y0 0 fun _ => 0).1 := by
  cases useInverse with
  | true => exact ⟨0, 1, rfl⟩
  | false => exact ⟨0, 1, one_spd, rfl⟩

section quasi
variable [DecidableEq ι] (rtol atol : ℝ) (nY : (ι → ℝ) → ℝ) (nF : (Unit → ℝ) → ℝ) (hY : GoodNorm nY) (hF : GoodNorm nF)
  (ls : LinSolve ι Unit) (armijo : Armijo.Cfg ℝ) (eps : ℝ) (he : 0 ≤ eps) (grad : (ι → ℝ) → ι → ℝ)
  (fn : (ι → ℝ) → ℝ × A) (aux0 : A) (y0 : ι → ℝ) (hg : grad y0 = fun _ => 0)
include hY hF he hg

/-- **C91** for `BFGS`, in both representations. -/
theorem C91_bfgs (useInverse : Bool) (hls : useInverse = false → SolvesSPD ls) :
    ReturnsStart (QuasiNewton.solver (QuasiNewton.withArmijo rtol atol nY nF ls armijo (QuasiNewton.bfgs eps useInverse) grad) aux0)
      fn aux0 y0 2 :=
  (newton_methods_rest useInverse _ _ (armijo_calm armijo) (flat_armijo armijo useInverse) ls hls rfl y0 (flat_identity y0 useInverse)
    (guarded_still eps he _ _ useInverse y0) hY hF fn aux0 hg).returns

/-- **C91** for `DFP`, in both representations. -/
theorem C91_dfp (useInverse : Bool) (hls : useInverse = false → SolvesSPD ls) :
    ReturnsStart (QuasiNewton.solver (QuasiNewton.withArmijo rtol atol nY nF ls armijo (QuasiNewton.dfp eps useInverse) grad) aux0)
      fn aux0 y0 2 :=
  (newton_methods_rest useInverse _ _ (armijo_calm armijo) (flat_armijo armijo useInverse) ls hls rfl y0 (flat_identity y0 useInverse)
    (guarded_still eps he _ _ useInverse y0) hY hF fn aux0 hg).returns

/-- **C91** for `LBFGS(use_inverse=True)`, with every history length. -/
theorem C91_lbfgs_inverse (h : ℕ) [NeZero h] :
    ReturnsStart (QuasiNewton.solver (QuasiNewton.withArmijo rtol atol nY nF ls armijo (LBFGS.inverse eps h) grad) aux0)
      fn aux0 y0 2 := by
  have h0 : ∀ g : ι → ℝ, treeDot (fun _ => 0) g = 0 := fun g => by simp [treeDot]
  refine (newton_methods_rest true _ _ (armijo_calm armijo) (flat_armijo armijo true) ls (fun h => nomatch h) rfl y0 ⟨0, _, rfl⟩
    (fun i f hst hi => ?_) hY hF fn aux0 hg).returns
  obtain ⟨g, M, rfl⟩ := hi
  simp only [QuasiNewton.withArmijo, LBFGS.inverse, sub_self, h0, he.not_gt, if_false]
  exact ⟨⟨f, M, rfl⟩, rfl⟩

/-- **C91** for `LBFGS(use_inverse=False)`, with every history length. -/
theorem C91_lbfgs_direct (hls : SolvesSPD ls) (h : ℕ) [NeZero h] (la : LBFGS.DenseLA h) (hla : ExactLA la) :
    ReturnsStart (QuasiNewton.solver (QuasiNewton.withArmijo rtol atol nY nF ls armijo (LBFGS.direct eps h la) grad) aux0)
      fn aux0 y0 2 := by
  have h0 : ∀ g : ι → ℝ, treeDot (fun _ => 0) g = 0 := fun g => by simp [treeDot]
  have hM : SPD (LBFGS.operatorMatrix (LBFGS.dirOperator la (LBFGS.initDir ι h))) := by
    rw [show LBFGS.dirOperator la (LBFGS.initDir ι h) = fun x => (denseHessian (lastN h [])).mulVec x from
      funext (dirOperator_eq la hla (LBFGS.initDir ι h) [] dirInv_init), operatorMatrix_mulVec]
    exact denseHessian_spd _ (dirInv_init (h := h).positive.lastN h)
  refine (newton_methods_rest false _ _ (armijo_calm armijo) (flat_armijo armijo false) ls (fun _ => hls) rfl y0 ⟨0, _, hM, rfl⟩
    (fun i f hst hi => ?_) hY hF fn aux0 hg).returns
  obtain ⟨g, M, hM, rfl⟩ := hi
  simp only [QuasiNewton.withArmijo, LBFGS.direct, sub_self, h0, he.not_gt, if_false]
  exact ⟨⟨f, M, hM, rfl⟩, rfl⟩

end quasi

/-- **C91** for `OptaxMinimiser`, with every optimiser that does not move when it has seen no gradient but zero (`Q` are the states it
is in then). -/
theorem C91_optax {OS : Type} (c : Optax.Cfg ι OS) (hY : GoodNorm c.normY) (hF : GoodNorm c.normF) (fn : (ι → ℝ) → ℝ × A) (aux0 : A)
    (y0 : ι → ℝ) (hg : c.grad y0 = fun _ => 0) (Q : OS → Prop) (h0 : Q (c.optim.init y0))
    (hQ : ∀ st v F, Q st → (c.optim.update (fun _ => 0) st y0 v F).1 = (fun _ => 0) ∧ Q (c.optim.update (fun _ => 0) st y0 v F).2) :
    ReturnsStart (Optax.solver c) fn aux0 y0 2 := by
  have key : ∀ st : Optax.State OS, Q st.optState → ∃ st', Optax.step c fn y0 st = (y0, st', (fn y0).2) ∧ Q st'.optState ∧
      st'.f = (fn y0).1 ∧ (st.f = (fn y0).1 → st'.terminate = true) := by
    intro st hst
    obtain ⟨q1, q2⟩ := hQ st.optState (fn y0).1 (fun y => (fn y).1) hst
    refine ⟨(Optax.step c fn y0 st).2.1, ?_, ?_, ?_, fun hf => ?_⟩
    · have : Optax.applyUpdates y0 (fun _ => 0) = y0 := by funext i; simp [Optax.applyUpdates]
      simp only [Optax.step, hg, q1, this]
    · simp only [Optax.step, hg]; exact q2
    · rfl
    · simp only [Optax.step, hg, q1, hf, sub_self, test_at_rest hY hF]
  obtain ⟨st1, k1, a1, f1, _⟩ := key (Optax.init c y0) h0
  obtain ⟨st2, k2, _, _, t2⟩ := key st1 a1
  exact AtRest.returns ⟨_, st1, st2, rfl, rfl, fun _ _ _ _ => ⟨rfl, rfl⟩, k1, k2, rfl, Prod.ext (t2 f1) rfl⟩

end minimisers

/-! ### Least squares -/

section least_squares
variable [Fintype ι] [Fintype κ]

/-- Least-squares methods whose search and descent behave as those of the library at points where the gradient vanishes. -/
theorem least_squares_methods_rest (c : GaussNewton.Cfg ι κ SS DS) (s : ℝ) (hs : Calm c.search s)
    (ha : ∀ r J, c.search.accepts (.residualJac r J) = true ∧ c.descent.accepts (.residualJac r J) = true)
    (hY : GoodNorm c.normY) (hF : GoodNorm c.normF) (fn : (ι → ℝ) → (κ → ℝ) × A) (aux0 : A) (y0 : ι → ℝ)
    (hd : Rests c.descent s (.residualJac (fn y0).1 (c.jac y0))) : AtRest (GaussNewton.solver c aux0) fn y0 := by
  let st0 : GaussNewton.State ι κ A SS DS :=
    { firstStep := true, yEval := y0, searchState := c.search.init, residual := fun _ => 0, jac := 0, aux := aux0,
      descentState := c.descent.init y0 (.residualJac (fun _ => 0) 0), terminate := false, result := .successful,
      numSteps := 0, numAcceptedSteps := 0, numStepsSinceAcceptance := 0 }
  have hi : (GaussNewton.solver c aux0).init fn y0 = .ok st0 := by
    simp [GaussNewton.solver, GaussNewton.init, ha, st0]
  have key : ∀ st : GaussNewton.State ι κ A SS DS, st.yEval = y0 → st.searchState = c.search.init →
      (st.firstStep = true ∨ st.residual = (fn y0).1 ∧ st.aux = (fn y0).2) →
      ∃ st', GaussNewton.step c fn y0 st = (y0, st', (fn y0).2) ∧ st'.yEval = y0 ∧ st'.searchState = c.search.init ∧
        (st'.residual = (fn y0).1 ∧ st'.aux = (fn y0).2) ∧ (st.residual = (fn y0).1 → st'.terminate = true) ∧
        st'.result = .successful := by
    intro st h1 h2 h3
    have hc := hs.step st.firstStep y0 (.residualJac st.residual st.jac) (.residualJac (fn y0).1 (c.jac y0)) (by
      rcases h3 with h3 | ⟨h3, _⟩
      · exact .inl h3
      · right; rw [h3]; rfl)
    refine ⟨(GaussNewton.step c fn y0 st).2.1, ?_, ?_⟩
    · simp only [GaussNewton.step, h1, h2, hc, if_true]
      rcases h3 with h3 | ⟨_, h4⟩
      · simp [h3]
      · cases hf : st.firstStep <;> simp [h4]
    · simp only [GaussNewton.step, h1, h2, hc, if_true, hd y0 _, add_zero, sub_self, and_true, true_and]
      intro h
      simp only [h, sub_self, test_at_rest hY hF]
  obtain ⟨st1, k1, a1, b1, c1, _, r1⟩ := key st0 rfl rfl (.inl rfl)
  obtain ⟨st2, k2, _, _, _, e2, r2⟩ := key st1 a1 b1 (.inr c1)
  exact ⟨st0, st1, st2, hi, rfl, fun _ _ _ _ => ⟨rfl, rfl⟩, k1, k2, r1, Prod.ext (e2 c1.1) r2⟩

/-- The Newton step of a least-squares problem without gradient vanishes if the Jacobian has full column rank. -/
theorem newton_step_zero (ls : LinSolve ι κ) (hls : SolvesLeastSquares ls) (J : Matrix κ ι ℝ) (r : κ → ℝ)
    (hinj : ∀ x, J.mulVec x = 0 → x = 0) (hg : ∀ i, ∑ k, J k i * r k = 0) : (ls.rect J r).1 = fun _ => 0 := by
  have h := normal_equations J r _ (hls J r)
  set d := (ls.rect J r).1
  have h1 : ∀ i, ∑ j, J j i * J.mulVec d j = 0 := by
    intro i
    have := h i
    simp only [mul_sub, Finset.sum_sub_distrib, hg i, sub_zero] at this
    exact this
  have h2 : ∑ j, J.mulVec d j ^ 2 = 0 := by
    have : ∑ j, J.mulVec d j ^ 2 = ∑ i, d i * ∑ j, J j i * J.mulVec d j := by
      simp only [Finset.mul_sum]
      rw [Finset.sum_comm]
      refine Finset.sum_congr rfl fun j _ => ?_
      have : J.mulVec d j = ∑ i, J j i * d i := rfl
      rw [sq]
      nth_rewrite 1 [this]
      rw [Finset.sum_mul]
      exact Finset.sum_congr rfl fun i _ => by ring
    rw [this]; simp [h1]
  have h3 : J.mulVec d = 0 := by
    funext j
    have := (Finset.sum_eq_zero_iff_of_nonneg fun j _ => sq_nonneg _).1 h2 j (Finset.mem_univ j)
    simpa using this
  exact hinj d h3

section
variable (rtol atol : ℝ) (nY : (ι → ℝ) → ℝ) (nF : (κ → ℝ) → ℝ) (hY : GoodNorm nY) (hF : GoodNorm nF)
  (jac : (ι → ℝ) → Matrix κ ι ℝ) (fn : (ι → ℝ) → (κ → ℝ) × A) (aux0 : A) (y0 : ι → ℝ)
  (hg : ∀ i, ∑ k, jac y0 k i * (fn y0).1 k = 0)
include hY hF hg

theorem levenberg_marquardt_rest [DecidableEq ι] (eps fmax : ℝ) (he : 0 ≤ eps) (hf : 0 < fmax) (ls : LinSolve ι (κ ⊕ ι))
    (hls : SolvesLeastSquares ls) (hok : ∀ M b, (ls.rect M b).2 = .successful) :
    AtRest (GaussNewton.solver (GaussNewton.levenbergMarquardt eps fmax rtol atol nY nF ls jac) aux0) fn y0 :=
  least_squares_methods_rest _ 1 (classical_calm _) (fun _ _ => ⟨rfl, rfl⟩) hY hF fn aux0 y0 fun _ _ =>
    Prod.ext ((C40_damped_step eps fmax 1 he hf ls hls (jac y0) (fn y0).1).2.2.2.2.2.2 hg) (hok _ _)

/-- **C91** for `LevenbergMarquardt`: no assumption about the rank of the Jacobian is needed. -/
theorem C91_levenberg_marquardt [DecidableEq ι] (eps fmax : ℝ) (he : 0 ≤ eps) (hf : 0 < fmax) (ls : LinSolve ι (κ ⊕ ι))
    (hls : SolvesLeastSquares ls) (hok : ∀ M b, (ls.rect M b).2 = .successful) :
    ReturnsStart (GaussNewton.solver (GaussNewton.levenbergMarquardt eps fmax rtol atol nY nF ls jac) aux0) fn aux0 y0 2 :=
  (levenberg_marquardt_rest rtol atol nY nF hY hF jac fn aux0 y0 hg eps fmax he hf ls hls hok).returns

variable (hinj : ∀ x, (jac y0).mulVec x = 0 → x = 0) (ls : LinSolve ι κ) (hls : SolvesLeastSquares ls)
  (hok : ∀ M b, (ls.rect M b).2 = .successful)
include hinj hls hok

/-- **C91** for `GaussNewton`. -/
theorem C91_gauss_newton :
    ReturnsStart (GaussNewton.solver (GaussNewton.gaussNewton rtol atol nY nF ls jac) aux0) fn aux0 y0 2 := by
  refine (least_squares_methods_rest _ 1 (learningRate_calm 1) (fun _ _ => ⟨rfl, rfl⟩) hY hF fn aux0 y0 fun y st => ?_).returns
  have := newton_step_zero ls hls (jac y0) (fn y0).1 hinj hg
  simp [GaussNewton.gaussNewton, newtonDescent, newtonStep, this, hok]

/-- **C91** for `IndirectLevenbergMarquardt`, whatever its inner root find does. -/
theorem C91_indirect [DecidableEq ι] (eps fmax : ℝ) (lsD : LinSolve ι (κ ⊕ ι)) (findLambda : (ℝ → ℝ) → ℝ × Result) :
    ReturnsStart (GaussNewton.solver (GaussNewton.indirectLevenbergMarquardt eps fmax rtol atol nY nF ls lsD findLambda jac) aux0)
      fn aux0 y0 2 := by
  refine (least_squares_methods_rest _ 1 (classical_calm _) (fun _ _ => ⟨rfl, rfl⟩) hY hF fn aux0 y0 fun y st => ?_).returns
  have := newton_step_zero ls hls (jac y0) (fn y0).1 hinj hg
  simp [GaussNewton.indirectLevenbergMarquardt, indirectDescent, newtonStep, this, hok]

/-- **C91** for `Dogleg`. -/
theorem C91_dogleg (eps : ℝ) :
    ReturnsStart (GaussNewton.solver (GaussNewton.dogleg eps rtol atol nY nF ls jac) aux0) fn aux0 y0 2 := by
  refine (least_squares_methods_rest _ 1 (classical_calm _) (fun _ _ => ⟨rfl, rfl⟩) hY hF fn aux0 y0 fun y st => ?_).returns
  have h1 := newton_step_zero ls hls (jac y0) (fn y0).1 hinj hg
  have h2 : (jac y0).transpose.mulVec (fn y0).1 = fun _ => 0 := by
    funext i; exact hg i
  have h3 : twoNorm (fun _ : ι => (0 : ℝ)) = 0 := goodNorm_twoNorm.zero
  simp [GaussNewton.dogleg, Dogleg.descent, Dogleg.query, Dogleg.gradAndCurvature, Dogleg.step, newtonStep, h1, h2, h3, hok,
    Dogleg.Shape.norm]

end

end least_squares

/-! ### Root finding and fixed points -/

/-- **C91** for `FixedPointIteration`, with every damping: one step is enough. -/
theorem C91_fixed_point [Fintype ι] (c : FixedPointIter.Cfg ι ℝ) (hn : GoodNorm c.norm) (fn : (ι → ℝ) → (ι → ℝ) × A) (aux0 : A)
    (y0 : ι → ℝ) (hfix : (fn y0).1 = y0) : ReturnsStart (FixedPointIter.solver c) fn aux0 y0 1 := by
  have hs : ∀ st, FixedPointIter.step c fn y0 st = (y0, some 0, (fn y0).2) := by
    intro st
    have : ∀ i, (1 - c.damp) * y0 i + c.damp * y0 i = y0 i := fun i => by ring
    simp only [FixedPointIter.step, hfix, this, sub_self, zero_div, hn.zero]
  refine returns_start (st0 := none) rfl rfl (fun _ _ _ _ => ⟨rfl, rfl⟩) (fun j hj => ?_) ?_
  · obtain rfl : j = 0 := by omega
    have t : trace (FixedPointIter.solver c) fn aux0 y0 none 1 = (y0, some 0, (fn y0).2) := hs none
    simp only [iterateAt, auxAt, stateAt, Nat.zero_add, t]
    exact ⟨trivial, trivial, rfl⟩
  · have t : trace (FixedPointIter.solver c) fn aux0 y0 none 1 = (y0, some 0, (fn y0).2) := hs none
    rw [stateAt, t]
    show decide ((0 : ℝ) < 1) = true
    simp

/-- **C91** for `Newton` and `Chord` with both tests: from a root within the bounds at which the Jacobian is invertible, unless the
test is already passed before the first step (`C23_initial_test_fails`). -/
theorem C91_newton_chord [Fintype ι] [Fintype κ] (c : NewtonChord.Cfg ι κ ℝ (Matrix κ ι ℝ)) (hY : GoodNorm c.normY) (hF : GoodNorm c.normF)
    (hres : 0 < c.resolution) (fn : (ι → ℝ) → (κ → ℝ) × A) (aux0 : A) (y0 : ι → ℝ) (hroot : (fn y0).1 = fun _ => 0)
    (hinj : ∀ x, (c.jac y0).mulVec x = 0 → x = 0) (hex : ExactFor c.linearSolve (c.jac y0))
    (hl : ∀ l, c.lower = some l → ∀ i, l i ≤ y0 i) (hu : ∀ u, c.upper = some u → ∀ i, y0 i ≤ u i)
    (hinit : (NewtonChord.terminate c y0 (NewtonChord.init c y0)).1 = false) :
    ReturnsStart (NewtonChord.solver c) fn aux0 y0 2 := by
  have hsolve : c.linearSolve (c.jac y0) (fun _ => 0) = (fun _ => 0, .successful) := by
    obtain ⟨h1, h2⟩ := hex (fun _ => 0) (fun _ => 0) (Matrix.mulVec_zero _)
    exact Prod.ext (hinj _ h1) h2
  have hclip : NewtonChord.clipBounds c.lower c.upper y0 = y0 := clip_id _ _ _ hl hu
  have key : ∀ st : NewtonChord.State ι κ ℝ (Matrix κ ι ℝ), (∀ j, st.linearState = some j → j = c.jac y0) →
      ∃ st', NewtonChord.step c fn y0 st = (y0, st', (fn y0).2) ∧ (∀ j, st'.linearState = some j → j = c.jac y0) ∧
        st'.diff = (fun _ => 0) ∧ st'.diffsize = 0 ∧ st'.result = .successful ∧ st'.step = st.step + 1 ∧
        st'.f = if c.cauchy then some (fun _ => 0) else none := by
    intro st hst
    have h1 : NewtonChord.linSol c y0 (fn y0).1 st = (fun _ => 0, .successful) := by
      unfold NewtonChord.linSol
      rw [hroot]
      split
      · next j _ hj => rw [hst j hj]; exact hsolve
      · exact hsolve
    refine ⟨(NewtonChord.step c fn y0 st).2.1, ?_, hst, ?_, ?_, ?_, rfl, ?_⟩
    · simp only [NewtonChord.step, h1, sub_zero, hclip]
    · simp only [NewtonChord.step, h1, sub_zero, hclip, sub_self]; split <;> rfl
    · simp only [NewtonChord.step, h1, sub_zero, hclip, sub_self]
      have : (if c.lower.isSome || c.upper.isSome then (fun _ : ι => (0 : ℝ)) else fun _ => 0) = fun _ => 0 := by split <;> rfl
      simp only [this, zero_div, hY.zero]
    · simp only [NewtonChord.step, h1]
    · simp only [NewtonChord.step, hroot]
  have hls : ∀ j, (NewtonChord.init c y0).linearState = some j → j = c.jac y0 := by
    intro j hj
    have h' : (if c.isNewton then none else some (c.jac y0)) = some j := hj
    cases hN : c.isNewton with
    | true => rw [hN] at h'; cases h'
    | false => rw [hN] at h'; exact (Option.some.inj h').symm
  obtain ⟨st1, k1, a1, d1, s1, r1, n1, f1⟩ := key (NewtonChord.init c y0) hls
  obtain ⟨st2, k2, a2, d2, s2, r2, n2, f2⟩ := key st1 a1
  have n1' : st1.step = 1 := n1
  have n2' : st2.step = 2 := by rw [n2, n1']
  have ht0 : (NewtonChord.terminate c y0 (NewtonChord.init c y0)).2 = .successful := by
    cases hC : c.cauchy <;> simp [NewtonChord.terminate, NewtonChord.init, hC]
  refine AtRest.returns ⟨NewtonChord.init c y0, st1, st2, rfl, Prod.ext hinit ht0, fun _ _ _ _ => ⟨rfl, rfl⟩, k1, k2, ?_, ?_⟩
  · show (NewtonChord.terminate c y0 st1).2 = _
    cases hC : c.cauchy
    · simp [NewtonChord.terminate, hC, r1, n1']
    · simp [NewtonChord.terminate, hC, f1, r1]
  · show NewtonChord.terminate c y0 st2 = _
    cases hC : c.cauchy
    · simp [NewtonChord.terminate, hC, r2, n2', NewtonChord.small, s2, hres]
    · simp [NewtonChord.terminate, hC, f2, r2, d2, test_at_rest hY hF]

/-- Root finding with a least-squares solver that is at rest at the root. -/
theorem AtRest.root_find {Y Out Aux St Stats K : Type} [LT K] [DecidableLT K] {S : Solver Y Out (Out × Aux) St Stats} {fn : Y → Out × Aux}
    {y0 : Y} (h : AtRest S (toLstsqFn fn) y0) (norm : Out → K) (atol : K) (fInf : Out) (hn : norm (fn y0).1 < atol)
    (aux0 : Out × Aux) (allfinite : Y → Bool) (maxSteps : Option ℕ) (throw : Bool) (haf : allfinite y0 = true)
    (hms : ∀ m, maxSteps = some m → 2 ≤ m) :
    ∃ sol, rootFindViaLeastSquares S norm atol fInf allfinite fn aux0 y0 maxSteps throw = some (.ok sol) ∧
      sol.result = .successful ∧ sol.value = y0 ∧ sol.aux = (fn y0).2 ∧ sol.numSteps ≤ 2 := by
  have h' : AtRest (Verif.toRoot norm atol fInf S) (toLstsqFn fn) y0 := AtRest.toRoot (rootFn := fn) rfl h norm atol fInf hn
  obtain ⟨sol, h1, h2, h3, h4, h5⟩ := (h'.returns (aux0 := aux0)) allfinite maxSteps throw haf hms
  refine ⟨sol.dropF, ?_, h2, h3, ?_, h5⟩
  · rw [rootFindViaLeastSquares, h1]; rfl
  · exact congrArg Prod.snd h4

/-- **C91** for `root_find` with `LevenbergMarquardt`, from a root; the Jacobian may be singular there. -/
theorem C91_root_find_levenberg_marquardt [Fintype ι] [DecidableEq ι] [Fintype κ] (rtol atol : ℝ) (hatol : 0 < atol) (nY : (ι → ℝ) → ℝ)
    (nF : (κ → ℝ) → ℝ) (hY : GoodNorm nY) (hF : GoodNorm nF) (jac : (ι → ℝ) → Matrix κ ι ℝ) (fn : (ι → ℝ) → (κ → ℝ) × A) (y0 : ι → ℝ)
    (hroot : (fn y0).1 = fun _ => 0) (eps fmax : ℝ) (he : 0 ≤ eps) (hf : 0 < fmax) (ls : LinSolve ι (κ ⊕ ι))
    (hls : SolvesLeastSquares ls) (hok : ∀ M b, (ls.rect M b).2 = .successful) (fInf : κ → ℝ) (aux0 : (κ → ℝ) × A)
    (allfinite : (ι → ℝ) → Bool) (maxSteps : Option ℕ) (throw : Bool) (haf : allfinite y0 = true)
    (hms : ∀ m, maxSteps = some m → 2 ≤ m) :
    ∃ sol, rootFindViaLeastSquares (GaussNewton.solver (GaussNewton.levenbergMarquardt eps fmax rtol atol nY nF ls jac) aux0)
        nF atol fInf allfinite fn aux0 y0 maxSteps throw = some (.ok sol) ∧
      sol.result = .successful ∧ sol.value = y0 ∧ sol.aux = (fn y0).2 ∧ sol.numSteps ≤ 2 := by
  refine AtRest.root_find (levenberg_marquardt_rest rtol atol nY nF hY hF jac (toLstsqFn fn) aux0 y0 (fun i => ?_) eps fmax he hf ls
    hls hok) nF atol fInf ?_ aux0 allfinite maxSteps throw haf hms
  · have : ((toLstsqFn fn) y0).1 = fun _ => 0 := hroot
    simp [this]
  · rw [hroot, hF.zero]; exact hatol

/-! ### Cases that meet the hypotheses -/

/-- A saddle: `y₀² - y₁²` at the origin. -/
example : (fun y : Fin 2 → ℝ => ![2 * y 0, -2 * y 1]) (fun _ => 0) = fun _ => 0 := by
  funext i; fin_cases i <;> simp

/-- A least-squares problem with residuals that do not vanish at the solution: the mean of `1` and `3`. -/
example : (∀ i : Unit, ∑ k : Fin 2, (Matrix.of fun _ _ => (1 : ℝ)) k i * (![1, -1] : Fin 2 → ℝ) k = 0) ∧
    (∀ x, (Matrix.of fun _ _ => (1 : ℝ) : Matrix (Fin 2) Unit ℝ).mulVec x = 0 → x = 0) ∧
    ∃ ls : LinSolve Unit (Fin 2), SolvesLeastSquares ls ∧ ∀ M b, (ls.rect M b).2 = .successful := by
  refine ⟨fun i => by simp [Fin.sum_univ_two], fun x hx => ?_, ?_⟩
  · have := congrFun hx 0
    simp only [Matrix.mulVec, dotProduct, Matrix.of_apply, one_mul, Finset.univ_unique, Finset.sum_singleton] at this
    funext i; exact this
  · obtain ⟨ls, h⟩ := exact_least_squares_exists (ι := Unit) (κ := Fin 2)
    exact ⟨{ ls with rect := fun M b => ((ls.rect M b).1, .successful) }, h, fun _ _ => rfl⟩

/-- An affine fixed point: `y = y / 2 + 1` at `2`. -/
example : ((fun y : Unit → ℝ => ((fun i => y i / 2 + 1 : Unit → ℝ), ())) fun _ => 2).1 = fun _ => 2 := by
  funext i; norm_num

/-- Newton's method for `y² = 4` from `2`, with a lower bound: the solve returns `2`. -/
example : let c : NewtonChord.Cfg Unit Unit ℝ (Matrix Unit Unit ℝ) :=
      { rtol := 0.001, atol := 0.001, normY := maxNorm, normF := maxNorm, kappa := 0.01, cauchy := false, isNewton := true,
        lower := some fun _ => 0, upper := none, jac := fun y => Matrix.of fun _ _ => 2 * y (),
        linearSolve := fun M b => ((fun _ => b () / M () ()), .successful), inf := 10 ^ 9, isfinite := fun _ => true,
        resolution := 0.0001 }
    ReturnsStart (NewtonChord.solver c) (fun y => ((fun _ => y () ^ 2 - 4), ())) () (fun _ => 2) 2 := by
  intro c
  have hN : GoodNorm (maxNorm : (Unit → ℝ) → ℝ) := goodNorm_maxNorm
  refine C91_newton_chord c hN hN (by norm_num [c]) _ () _ ?_ ?_ ?_ ?_ (fun u h => by simp [c] at h) ?_
  · funext i; norm_num
  · intro x hx
    have := congrFun hx ()
    simp only [c, Matrix.mulVec, dotProduct, Matrix.of_apply, Finset.univ_unique, Finset.sum_singleton] at this
    funext i
    have h2 : (2 * 2 : ℝ) * x () = 0 := this
    have : x () = 0 := by linarith
    exact this
  · intro b x hx
    refine ⟨?_, rfl⟩
    funext i
    simp only [c, Matrix.mulVec, dotProduct, Matrix.of_apply, Finset.univ_unique, Finset.sum_singleton]
    show (2 * 2 : ℝ) * (b () / (2 * 2)) = b ()
    ring
  · intro l h
    simp only [c, Option.some.injEq] at h
    subst h
    intro i; norm_num
  · simp [NewtonChord.terminate, NewtonChord.init, c]

/-- Gradient descent as an optimiser for `OptaxMinimiser` does not move without a gradient. -/
example : ∀ st : Unit, ((fun (g : Fin 2 → ℝ) (_ : Unit) => (fun i => -(0.1 : ℝ) * g i, ())) (fun _ => 0) st).1 = fun _ => 0 := by
  intro st; funext i; simp

end Verif.Props
