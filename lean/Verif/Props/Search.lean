import Verif.Lemmas.SearchLoop
import Verif.Props.Misc
import Mathlib.Algebra.BigOperators.Field
import Mathlib.Analysis.Calculus.Deriv.Mul
import Mathlib.Analysis.Calculus.Deriv.Pow

/-!
Properties of the searches, and of the three families of solvers built on them: `AbstractGradientDescent` (GD,
NonlinearCG), `AbstractQuasiNewton` (BFGS, DFP, L-BFGS) and `AbstractGaussNewton` (GaussNewton, LM, Dogleg).
C27-C30, C51, C54, C55, C58.
-/

namespace Verif.Props

open Verif Verif.Spec Verif.Driver Verif.SearchLoop

variable {ι κ A SS DS HS : Type}

/-- A Hessian update that records the value and gradient it is given (BFGS, DFP and L-BFGS do). -/
def RecordsPoint (h : QuasiNewton.HessianUpdate ι HS) : Prop :=
  ∀ y yEval i f g hs, (h.updateHessian y yEval i f g hs).1.asMin = f ∧
    (h.updateHessian y yEval i f g hs).1.grad? = some g

theorem bfgs_records [Fintype ι] [DecidableEq ι] (eps : ℝ) (b : Bool) :
    RecordsPoint (QuasiNewton.bfgs (ι := ι) eps b) := by
  intro y yEval i f g hs
  cases i <;> exact ⟨rfl, rfl⟩

theorem dfp_records [Fintype ι] [DecidableEq ι] (eps : ℝ) (b : Bool) :
    RecordsPoint (QuasiNewton.dfp (ι := ι) eps b) := by
  intro y yEval i f g hs
  cases i <;> exact ⟨rfl, rfl⟩

/-! ### C51: conversions of function information -/

/-- **C51.** For residual information: `as_min` is `½ Σ r²`, the gradient is `Jᵀ r` and `compute_grad_dot(y)` is
`(Jᵀ r)·y`, for every residual, Jacobian and direction. -/
theorem C51_residual_conversions [Fintype ι] [Fintype κ] (r : κ → ℝ) (jac : Matrix κ ι ℝ) (d : ι → ℝ) :
    (FnInfo.residualJac r jac).asMin = (∑ k, r k ^ 2) / 2 ∧
    (FnInfo.residualJac r jac).grad? = some (fun i => ∑ k, jac k i * r k) ∧
    (FnInfo.residualJac r jac).gradDot? d = some (∑ i, (∑ k, jac k i * r k) * d i) := by
  have hg : (FnInfo.residualJac r jac).grad? = some (fun i => ∑ k, jac k i * r k) := rfl
  refine ⟨?_, hg, grad_gradDot _ _ _ hg⟩
  simp only [FnInfo.asMin, sumSquares]
  rw [Finset.sum_congr rfl fun k _ => (pow_two (r k)).symm]
  ring

/-- **C51.** For every variant that has a gradient, `compute_grad_dot` is the inner product with it. -/
theorem C51_grad_dot_consistent [Fintype ι] [Fintype κ] (i : FnInfo ι κ) (g d : ι → ℝ) (h : i.grad? = some g) :
    i.gradDot? d = some (∑ k, g k * d k) := grad_gradDot i g d h

/-- **C51.** The gradient `Jᵀ r` is the derivative of `½ Σ r²` for an affine residual `y ↦ r + J y`: the difference
of objectives is `(Jᵀ r)·d` plus the second-order term `½ |J d|²`. -/
theorem C51_gradient_is_derivative [Fintype ι] [Fintype κ] (r : κ → ℝ) (jac : Matrix κ ι ℝ) (g d : ι → ℝ)
    (hg : (FnInfo.residualJac r jac).grad? = some g) :
    (FnInfo.residual (ι := ι) fun k => r k + ∑ i, jac k i * d i).asMin =
      (FnInfo.residual (ι := ι) r).asMin + ∑ i, g i * d i + (∑ k, (∑ i, jac k i * d i) ^ 2) / 2 := by
  have h := grad_gradDot _ g d hg
  simp only [FnInfo.gradDot?, Option.some.injEq] at h
  have h' : ∑ i, g i * d i = treeDot (jac.mulVec d) r := h.symm
  rw [h']
  simp only [FnInfo.asMin, sumSquares, treeDot, Matrix.mulVec, dotProduct]
  rw [Finset.mul_sum, Finset.mul_sum, Finset.sum_div, ← Finset.sum_add_distrib, ← Finset.sum_add_distrib]
  exact Finset.sum_congr rfl fun k _ => by ring

/-! ### C54: predicted reductions -/

/-- The quadratic model of a function around a point. -/
noncomputable def quadModel [Fintype ι] (f : ℝ) (g : ι → ℝ) (h : Matrix ι ι ℝ) (d : ι → ℝ) : ℝ :=
  f + ∑ i, g i * d i + (∑ i, ∑ j, d i * h i j * d j) / 2

/-- **C54.** `ClassicalTrustRegion` predicts the change of the quadratic model, in Hessian form. -/
theorem C54_classical_hessian [Fintype ι] [Fintype κ] (f : ℝ) (g : ι → ℝ) (h : Matrix ι ι ℝ) (d : ι → ℝ) :
    TrustRegion.classicalPredict (κ := κ) d (.evalGradHessian f g h) =
      some (quadModel f g h d - quadModel f g h fun _ => 0) := by
  simp only [TrustRegion.classicalPredict, quadModel, treeDot, Matrix.mulVec, dotProduct, Option.some.injEq]
  simp only [mul_zero, zero_mul, Finset.sum_const_zero, add_zero, zero_div]
  rw [add_sub_right_comm, add_sub_cancel_left, Finset.sum_div, ← Finset.sum_add_distrib]
  refine Finset.sum_congr rfl fun i _ => ?_
  rw [mul_add, Finset.mul_sum, Finset.mul_sum, Finset.sum_div]
  congr 1
  · ring
  · exact Finset.sum_congr rfl fun j _ => by ring

/-- **C54.** `ClassicalTrustRegion` predicts the change of half the sum of squares of the linearised residual, in Jacobian
form. -/
theorem C54_classical_residual [Fintype ι] [Fintype κ] (r : κ → ℝ) (jac : Matrix κ ι ℝ) (d : ι → ℝ) :
    TrustRegion.classicalPredict d (.residualJac r jac) =
      some ((∑ k, (r k + ∑ i, jac k i * d i) ^ 2) / 2 - (∑ k, r k ^ 2) / 2) := by
  simp only [TrustRegion.classicalPredict, sumSquares, Matrix.mulVec, dotProduct, Option.some.injEq]
  rw [mul_sub, Finset.mul_sum, Finset.mul_sum, Finset.sum_div, Finset.sum_div]
  congr 1 <;> exact Finset.sum_congr rfl fun j _ => by ring

/-- **C54.** The two forms agree: a least-squares problem seen as a minimisation problem with `g = Jᵀ r`, `H = Jᵀ J`. -/
theorem C54_forms_agree [Fintype ι] [Fintype κ] (r : κ → ℝ) (jac : Matrix κ ι ℝ) (d : ι → ℝ) (f : ℝ) :
    TrustRegion.classicalPredict d (.residualJac r jac) =
      TrustRegion.classicalPredict (κ := κ) d
        (.evalGradHessian f (fun i => ∑ k, jac k i * r k) (jac.transpose * jac)) := by
  rw [C54_classical_residual, C54_classical_hessian]
  simp only [quadModel, Option.some.injEq]
  simp only [mul_zero, zero_mul, Finset.sum_const_zero, add_zero, zero_div]
  rw [add_sub_right_comm, add_sub_cancel_left]
  have h1 : ∑ i, (∑ k, jac k i * r k) * d i = ∑ k, r k * ∑ i, jac k i * d i := by
    simp only [Finset.sum_mul, Finset.mul_sum]
    rw [Finset.sum_comm]
    exact Finset.sum_congr rfl fun k _ => Finset.sum_congr rfl fun i _ => by ring
  have h2 : ∑ i, ∑ j, d i * (jac.transpose * jac) i j * d j = ∑ k, (∑ i, jac k i * d i) ^ 2 := by
    simp only [Matrix.mul_apply, Matrix.transpose_apply, pow_two, Finset.sum_mul, Finset.mul_sum]
    rw [Finset.sum_congr rfl fun i _ => Finset.sum_comm, Finset.sum_comm]
    refine Finset.sum_congr rfl fun k _ => ?_
    rw [Finset.sum_comm]
    exact Finset.sum_congr rfl fun i _ => Finset.sum_congr rfl fun j _ => by ring
  rw [h1, h2, Finset.sum_div, Finset.sum_div, Finset.sum_div, ← Finset.sum_sub_distrib, ← Finset.sum_add_distrib]
  exact Finset.sum_congr rfl fun k _ => by ring

/-- **C54.** `LinearTrustRegion` and `BacktrackingArmijo` predict the change `g·d` of the linear model, for every
variant with a gradient; the variants they support are exactly those with a gradient. -/
theorem C54_linear [Fintype ι] [Fintype κ] (i : FnInfo ι κ) (d : ι → ℝ) :
    TrustRegion.linearPredict d i = i.grad?.map fun g => ∑ k, g k * d k := by
  cases h : i.grad? with
  | some g => exact grad_gradDot i g d h
  | none => cases i <;> first | rfl | cases h

/-- **C54.** Searches raise for exactly the variants they cannot predict for. -/
theorem C54_supported [Fintype ι] [Fintype κ] (c : TrustRegion.Cfg ℝ) (a : Armijo.Cfg ℝ) (i : FnInfo ι κ)
    (d : ι → ℝ) :
    ((TrustRegion.classical c).accepts i = true ↔ (TrustRegion.classicalPredict d i).isSome = true) ∧
    ((TrustRegion.linear c).accepts i = true ↔ (TrustRegion.linearPredict d i).isSome = true) ∧
    ((Armijo.search a).accepts i = true ↔ (TrustRegion.linearPredict d i).isSome = true) := by
  cases i <;> exact ⟨Iff.rfl, Iff.rfl, Iff.rfl⟩

/-! ### C55: constructor validation -/

/-- **C55.** `BacktrackingArmijo(decrease_factor, slope, step_init)` is accepted exactly for `0 < decrease_factor < 1`,
`0 < slope < 1`, `step_init > 0`, and then it holds these values; otherwise a `ValueError` is raised. -/
theorem C55_armijo_valid_iff (d s i : ℝ) :
    ((∃ a, Armijo.new d s i = .ok a) ↔ 0 < d ∧ d < 1 ∧ 0 < s ∧ s < 1 ∧ 0 < i) ∧
    (∀ a, Armijo.new d s i = .ok a → a = ⟨d, s, i⟩) ∧
    (∀ e, Armijo.new d s i = .error e → ∃ m, e = .valueError m) := by
  refine ⟨⟨?_, ?_⟩, fun a h => (armijo_new d s i a h).1, ?_⟩
  · rintro ⟨a, h⟩
    exact (armijo_new d s i a h).2
  · rintro ⟨h1, h2, h3, h4, h5⟩
    refine ⟨⟨d, s, i⟩, ?_⟩
    unfold Armijo.new
    rw [if_neg (by rw [not_or, not_le, not_le]; exact ⟨h1, h2⟩),
      if_neg (by rw [not_or, not_le, not_le]; exact ⟨h3, h4⟩), if_neg (not_le.2 h5)]
  · intro e h
    unfold Armijo.new at h
    split at h
    · cases h; exact ⟨_, rfl⟩
    · split at h
      · cases h; exact ⟨_, rfl⟩
      · split at h
        · cases h; exact ⟨_, rfl⟩
        · cases h

/-- **C55.** The trust-region constructors accept exactly `low_cutoff ≤ high_cutoff`, `low_constant ≥ 0`,
`high_constant ≥ 0`. -/
theorem C55_trust_region_valid_iff (hc lc hk lk : ℝ) :
    ((∃ c, TrustRegion.new hc lc hk lk = .ok c) ↔ lc ≤ hc ∧ 0 ≤ lk ∧ 0 ≤ hk) ∧
    (∀ c, TrustRegion.new hc lc hk lk = .ok c → c = ⟨hc, lc, hk, lk⟩) ∧
    (∀ e, TrustRegion.new hc lc hk lk = .error e → ∃ m, e = .valueError m) := by
  unfold TrustRegion.new
  refine ⟨?_, ?_, ?_⟩
  · constructor
    · rintro ⟨c, h⟩
      split at h
      · cases h
      · split at h
        · cases h
        · split at h
          · cases h
          · rename_i h1 h2 h3
            exact ⟨not_lt.1 h1, not_lt.1 h2, not_lt.1 h3⟩
    · rintro ⟨h1, h2, h3⟩
      refine ⟨⟨hc, lc, hk, lk⟩, ?_⟩
      rw [if_neg (not_lt.2 h1), if_neg (not_lt.2 h2), if_neg (not_lt.2 h3)]
  · intro c h
    split at h
    · cases h
    · split at h
      · cases h
      · split at h
        · cases h
        · cases h; rfl
  · intro e h
    split at h
    · cases h; exact ⟨_, rfl⟩
    · split at h
      · cases h; exact ⟨_, rfl⟩
      · split at h
        · cases h; exact ⟨_, rfl⟩
        · cases h

/-- **C55, negation.**  The documented requirement "`low_constant` must be greater than 0" is not enforced at `0`, and
then the claim "the step size stays positive" fails: one rejected step makes it zero. -/
theorem C55_zero_constant_accepted :
    ∃ c : TrustRegion.Cfg ℝ, TrustRegion.new 0.99 0.01 3.5 0 = .ok c ∧
      TrustRegion.decide' c false (-1) 0 1 1 = (0, false) := by
  refine ⟨⟨0.99, 0.01, 3.5, 0⟩, ?_, ?_⟩
  · unfold TrustRegion.new
    rw [if_neg (by norm_num), if_neg (by norm_num), if_neg (by norm_num)]
  · unfold TrustRegion.decide'
    norm_num

/-- **C55, negation.**  NaN hyper-parameters pass every check (all comparisons with NaN are false). -/
theorem C55_nan_accepted :
    (∃ a, Armijo.new XR.nan XR.nan XR.nan = .ok a) ∧ ∃ c, TrustRegion.new XR.nan XR.nan XR.nan XR.nan = .ok c := by
  constructor
  · exact ⟨⟨XR.nan, XR.nan, XR.nan⟩, by simp [Armijo.new, -XR.one_def, -XR.zero_def]⟩
  · exact ⟨⟨XR.nan, XR.nan, XR.nan, XR.nan⟩, by simp [TrustRegion.new, -XR.zero_def]⟩

/-- **C55** (what holds of positivity): one decision keeps a positive step size positive, for every accepted Armijo
parameter set and every trust region with strictly positive constants.
Missing for the full claim: trust-region constants `0`, see `C55_zero_constant_accepted`. -/
theorem C55_step_size_positive_partial (first : Bool) (p f g t : ℝ) (ht : 0 < t) :
    (∀ d s i a, Armijo.new d s i = .ok a → 0 < (Armijo.decide' a first p f g t).1) ∧
    (∀ hc lc hk lk c, TrustRegion.new hc lc hk lk = .ok c → 0 < hk → 0 < lk →
      0 < (TrustRegion.decide' c first p f g t).1) := by
  constructor
  · intro d s i a h
    obtain ⟨rfl, h1, _, _, _, h5⟩ := armijo_new d s i a h
    simp only [Armijo.decide']
    split
    · exact h5
    · exact mul_pos h1 ht
  · intro hc lc hk lk c h hhk hlk
    have := (C55_trust_region_valid_iff hc lc hk lk).2.1 c h
    subst this
    simp only [TrustRegion.decide']
    refine mul_pos ?_ ht
    split
    · split
      · exact hhk
      · exact one_pos
    · exact hlk

/-! ### C27: monotonicity under Armijo backtracking -/

theorem armijo_accept_le [Fintype ι] [Fintype κ] (a : Armijo.Cfg ℝ) (ha : 0 < a.slope) (y z : ι → ℝ)
    (i j : FnInfo ι κ) (s : ℝ) (h : ((Armijo.search a).step false y z i j s).2.1 = true) : j.asMin ≤ i.asMin := by
  simp only [Armijo.search, Armijo.decide', Bool.false_or, Bool.and_eq_true, decide_eq_true_eq] at h
  have : a.slope * (FnInfo.gradDot? (fun c => z c - y c) i).getD 0 ≤ 0 := mul_nonpos_of_nonneg_of_nonpos ha.le h.2
  linarith [h.1]

/-- **C27**, gradient family (`NonlinearCG`, gradient descent with backtracking, …): for every descent, gradient oracle,
objective and start, the objective never increases from step to step, and the solution is no worse than `y0`. -/
theorem C27_gradient_family [Fintype ι] (d s i : ℝ) (a : Armijo.Cfg ℝ) (ha : Armijo.new d s i = .ok a)
    (cfg : GradientDescent.Cfg ι ℝ DS) (hs : cfg.search = Armijo.search a) (aux0 : A) (fn : (ι → ℝ) → ℝ × A)
    (af : (ι → ℝ) → Bool) (y0 : ι → ℝ) (ms : Option Nat) (throw : Bool)
    (sol : Solution (ι → ℝ) A (GradientDescent.State ι A ℝ DS) Unit)
    (h : iterativeSolve (GradientDescent.solver cfg aux0) af fn aux0 y0 ms throw = some (.ok sol)) :
    (fn sol.value).1 ≤ (fn y0).1 ∧ ∃ st0, (GradientDescent.solver cfg aux0).init fn y0 = .ok st0 ∧
      sol.value = iterateAt (GradientDescent.solver cfg aux0) fn aux0 y0 st0 sol.numSteps ∧
      ∀ k, (fn (iterateAt (GradientDescent.solver cfg aux0) fn aux0 y0 st0 (k + 1))).1 ≤
        (fn (iterateAt (GradientDescent.solver cfg aux0) fn aux0 y0 st0 k)).1 := by
  obtain ⟨rfl, _, _, hpos, _, _⟩ := armijo_new d s i a ha
  have L := gd_laws cfg aux0 fn
  rw [hs] at L
  obtain ⟨_, _, st0, hi, _, hp⟩ := C01_step_budget _ _ _ _ _ _ _ _ h
  have hm := monotone_le L (armijo_first _) aux0 y0 st0 hi
    (fun k => armijo_accept_le _ hpos _ _ _ _ _)
  have hv : sol.value = iterateAt (GradientDescent.solver cfg aux0) fn aux0 y0 st0 sol.numSteps :=
    congrArg Prod.fst hp
  refine ⟨?_, st0, hi, hv, fun k => hm k (k + 1) (Nat.le_succ k)⟩
  rw [hv]
  exact hm 0 _ (Nat.zero_le _)

/-- **C27**, quasi-Newton family (`BFGS`, `DFP`, `LBFGS` and custom combinations): for every descent, Hessian
approximation that records the point, gradient oracle, objective and start. -/
theorem C27_quasi_newton_family [Fintype ι] (d s i : ℝ) (a : Armijo.Cfg ℝ) (ha : Armijo.new d s i = .ok a)
    (cfg : QuasiNewton.Cfg ι ℝ DS HS) (hs : cfg.search = Armijo.search a) (hr : RecordsPoint cfg.hess) (aux0 : A)
    (fn : (ι → ℝ) → ℝ × A) (af : (ι → ℝ) → Bool) (y0 : ι → ℝ) (ms : Option Nat) (throw : Bool)
    (sol : Solution (ι → ℝ) A (QuasiNewton.State ι A ℝ DS HS) Unit)
    (h : iterativeSolve (QuasiNewton.solver cfg aux0) af fn aux0 y0 ms throw = some (.ok sol)) :
    (fn sol.value).1 ≤ (fn y0).1 ∧ ∃ st0, (QuasiNewton.solver cfg aux0).init fn y0 = .ok st0 ∧
      sol.value = iterateAt (QuasiNewton.solver cfg aux0) fn aux0 y0 st0 sol.numSteps ∧
      ∀ k, (fn (iterateAt (QuasiNewton.solver cfg aux0) fn aux0 y0 st0 (k + 1))).1 ≤
        (fn (iterateAt (QuasiNewton.solver cfg aux0) fn aux0 y0 st0 k)).1 := by
  obtain ⟨rfl, _, _, hpos, _, _⟩ := armijo_new d s i a ha
  have L := qn_laws cfg aux0 fn hr
  rw [hs] at L
  obtain ⟨_, _, st0, hi, _, hp⟩ := C01_step_budget _ _ _ _ _ _ _ _ h
  have hm := monotone_le L (armijo_first _) aux0 y0 st0 hi
    (fun k => armijo_accept_le _ hpos _ _ _ _ _)
  have hv : sol.value = iterateAt (QuasiNewton.solver cfg aux0) fn aux0 y0 st0 sol.numSteps :=
    congrArg Prod.fst hp
  refine ⟨?_, st0, hi, hv, fun k => hm k (k + 1) (Nat.le_succ k)⟩
  rw [hv]
  exact hm 0 _ (Nat.zero_le _)

/-- **C27**, least-squares family with backtracking: the sum of squares never increases. -/
theorem C27_gauss_newton_family [Fintype ι] [Fintype κ] (d s i : ℝ) (a : Armijo.Cfg ℝ)
    (ha : Armijo.new d s i = .ok a) (cfg : GaussNewton.Cfg ι κ ℝ DS) (hs : cfg.search = Armijo.search a) (aux0 : A)
    (fn : (ι → ℝ) → (κ → ℝ) × A) (af : (ι → ℝ) → Bool) (y0 : ι → ℝ) (ms : Option Nat) (throw : Bool)
    (sol : Solution (ι → ℝ) A (GaussNewton.State ι κ A ℝ DS) Unit)
    (h : iterativeSolve (GaussNewton.solver cfg aux0) af fn aux0 y0 ms throw = some (.ok sol)) :
    sumSquares (fn sol.value).1 ≤ sumSquares (fn y0).1 ∧
    ∃ st0, (GaussNewton.solver cfg aux0).init fn y0 = .ok st0 ∧
      sol.value = iterateAt (GaussNewton.solver cfg aux0) fn aux0 y0 st0 sol.numSteps ∧
      ∀ k, sumSquares (fn (iterateAt (GaussNewton.solver cfg aux0) fn aux0 y0 st0 (k + 1))).1 ≤
        sumSquares (fn (iterateAt (GaussNewton.solver cfg aux0) fn aux0 y0 st0 k)).1 := by
  obtain ⟨rfl, _, _, hpos, _, _⟩ := armijo_new d s i a ha
  have L := gn_laws cfg aux0 fn
  rw [hs] at L
  obtain ⟨_, _, st0, hi, _, hp⟩ := C01_step_budget _ _ _ _ _ _ _ _ h
  have hm := monotone_le L (armijo_first _) aux0 y0 st0 hi
    (fun k => armijo_accept_le _ hpos _ _ _ _ _)
  have hv : sol.value = iterateAt (GaussNewton.solver cfg aux0) fn aux0 y0 st0 sol.numSteps :=
    congrArg Prod.fst hp
  have half : ∀ a b : ℝ, 0.5 * a ≤ 0.5 * b → a ≤ b := fun a b h => by norm_num at h; linarith
  refine ⟨?_, st0, hi, hv, fun k => half _ _ (hm k (k + 1) (Nat.le_succ k))⟩
  rw [hv]
  exact half _ _ (hm 0 _ (Nat.zero_le _))

/-! ### C28: backtracking -/

/-- **C28**, gradient family.  The transition rule of a run with `BacktrackingArmijo`: the first trial point uses
`step_init`; afterwards a trial point is moved to exactly if Armijo's condition holds there, in which case the next trial
step size is `step_init`, and otherwise the next trial step size is `decrease_factor` times the last one; the trial point is
always the current iterate plus the descent's step for the current step size. -/
theorem C28_rule_gradient [Fintype ι] (a : Armijo.Cfg ℝ) (cfg : GradientDescent.Cfg ι ℝ DS)
    (hs : cfg.search = Armijo.search a) (aux0 : A) (fn : (ι → ℝ) → ℝ × A) (y0 : ι → ℝ)
    (st0 : GradientDescent.State ι A ℝ DS) (hi : (GradientDescent.solver cfg aux0).init fn y0 = .ok st0) :
    let Y := iterateAt (GradientDescent.solver cfg aux0) fn aux0 y0 st0
    let St := stateAt (GradientDescent.solver cfg aux0) fn aux0 y0 st0
    let trial := fun k => (St k).yEval
    let stepSize := fun k => (St k).searchState
    let f := fun y => (fn y).1
    (Y 1 = y0 ∧ stepSize 1 = a.stepInit) ∧
    (∀ k, 1 ≤ k → trial k = fun i => Y k i + (cfg.descent.step (stepSize k) (St k).descentState).1 i) ∧
    (∀ k, 1 ≤ k →
      (ArmijoHolds a.slope f (cfg.grad (Y k)) (Y k) (trial k) →
        Y (k + 1) = trial k ∧ stepSize (k + 1) = a.stepInit) ∧
      (¬ ArmijoHolds a.slope f (cfg.grad (Y k)) (Y k) (trial k) →
        Y (k + 1) = Y k ∧ stepSize (k + 1) = a.decreaseFactor * stepSize k ∧
          (St (k + 1)).descentState = (St k).descentState)) := by
  intro Y St trial stepSize f
  have L := gd_laws cfg aux0 fn
  rw [hs] at L
  have hstart := armijo_start L aux0 y0 st0 hi
  have hrun := armijo_run (G := cfg.grad) L (by rintro y i rfl; rfl) aux0 y0 st0 hi
  refine ⟨⟨hstart.1, hstart.2.1⟩, ?_, ?_⟩
  · intro k hk
    obtain _ | _ | k := k
    · omega
    · have e1 : Y 1 = y0 := hstart.1
      have e2 : stepSize 1 = a.stepInit := hstart.2.1
      show trial 1 = fun i => Y 1 i + (cfg.descent.step (stepSize 1) (St 1).descentState).1 i
      rw [e1, e2]
      exact hstart.2.2
    · exact (hrun k).1
  · intro k hk
    obtain _ | k := k
    · omega
    · rcases (hrun k).2 with ⟨h1, h2, h3⟩ | ⟨h1, h2, h3, h4⟩
      · exact ⟨fun _ => ⟨h2, h3⟩, fun h => absurd h1 h⟩
      · exact ⟨fun h => absurd h h1, fun _ => ⟨h2, h3, h4⟩⟩

/-- **C28**, quasi-Newton family: the same rule. -/
theorem C28_rule_quasi_newton [Fintype ι] (a : Armijo.Cfg ℝ) (cfg : QuasiNewton.Cfg ι ℝ DS HS)
    (hs : cfg.search = Armijo.search a) (hr : RecordsPoint cfg.hess) (aux0 : A) (fn : (ι → ℝ) → ℝ × A) (y0 : ι → ℝ)
    (st0 : QuasiNewton.State ι A ℝ DS HS) (hi : (QuasiNewton.solver cfg aux0).init fn y0 = .ok st0) :
    let Y := iterateAt (QuasiNewton.solver cfg aux0) fn aux0 y0 st0
    let St := stateAt (QuasiNewton.solver cfg aux0) fn aux0 y0 st0
    let trial := fun k => (St k).yEval
    let stepSize := fun k => (St k).searchState
    let f := fun y => (fn y).1
    (Y 1 = y0 ∧ stepSize 1 = a.stepInit) ∧
    (∀ k, 1 ≤ k → trial k = fun i => Y k i + (cfg.descent.step (stepSize k) (St k).descentState).1 i) ∧
    (∀ k, 1 ≤ k →
      (ArmijoHolds a.slope f (cfg.grad (Y k)) (Y k) (trial k) →
        Y (k + 1) = trial k ∧ stepSize (k + 1) = a.stepInit) ∧
      (¬ ArmijoHolds a.slope f (cfg.grad (Y k)) (Y k) (trial k) →
        Y (k + 1) = Y k ∧ stepSize (k + 1) = a.decreaseFactor * stepSize k ∧
          (St (k + 1)).descentState = (St k).descentState)) := by
  intro Y St trial stepSize f
  have L := qn_laws cfg aux0 fn hr
  rw [hs] at L
  have hstart := armijo_start L aux0 y0 st0 hi
  have hrun := armijo_run (G := cfg.grad) L (fun y i h => h.2) aux0 y0 st0 hi
  refine ⟨⟨hstart.1, hstart.2.1⟩, ?_, ?_⟩
  · intro k hk
    obtain _ | _ | k := k
    · omega
    · have e1 : Y 1 = y0 := hstart.1
      have e2 : stepSize 1 = a.stepInit := hstart.2.1
      show trial 1 = fun i => Y 1 i + (cfg.descent.step (stepSize 1) (St 1).descentState).1 i
      rw [e1, e2]
      exact hstart.2.2
    · exact (hrun k).1
  · intro k hk
    obtain _ | k := k
    · omega
    · rcases (hrun k).2 with ⟨h1, h2, h3⟩ | ⟨h1, h2, h3, h4⟩
      · exact ⟨fun _ => ⟨h2, h3⟩, fun h => absurd h1 h⟩
      · exact ⟨fun h => absurd h h1, fun _ => ⟨h2, h3, h4⟩⟩

/-- **C28**, gradient family, liveness.  When a fresh backtracking starts at step `k ≥ 1` (the step size is
`step_init`) along a direction `p` (the descent steps are `t ↦ t p`) in which the objective has the negative derivative
`grad · p`, then after finitely many rejections `j` a step is accepted, the trial step sizes before it being exactly
`step_init * decrease_factor ^ i`, and the iterate moves to `y + step_init * decrease_factor ^ j * p`. -/
theorem C28_accepts_gradient [Fintype ι] (d s i : ℝ) (a : Armijo.Cfg ℝ) (ha : Armijo.new d s i = .ok a)
    (cfg : GradientDescent.Cfg ι ℝ DS) (hs : cfg.search = Armijo.search a) (aux0 : A) (fn : (ι → ℝ) → ℝ × A)
    (y0 : ι → ℝ) (st0 : GradientDescent.State ι A ℝ DS)
    (hi : (GradientDescent.solver cfg aux0).init fn y0 = .ok st0) (k : Nat) (p : ι → ℝ) :
    let Y := iterateAt (GradientDescent.solver cfg aux0) fn aux0 y0 st0
    let St := stateAt (GradientDescent.solver cfg aux0) fn aux0 y0 st0
    (St (k + 1)).searchState = i →
    (∀ t, (cfg.descent.step t (St (k + 1)).descentState).1 = fun c => t * p c) →
    treeDot (cfg.grad (Y (k + 1))) p < 0 →
    HasDerivAt (fun t : ℝ => (fn fun c => Y (k + 1) c + t * p c).1) (treeDot (cfg.grad (Y (k + 1))) p) 0 →
    ∃ j, (∀ m, m ≤ j → Y (k + 1 + m) = Y (k + 1) ∧ (St (k + 1 + m)).searchState = i * d ^ m) ∧
      Y (k + 1 + j + 1) = (fun c => Y (k + 1) c + i * d ^ j * p c) ∧
      (St (k + 1 + j + 1)).searchState = i ∧
      (fn (Y (k + 1 + j + 1))).1 ≤ (fn (Y (k + 1))).1 + s * (i * d ^ j) * treeDot (cfg.grad (Y (k + 1))) p := by
  obtain ⟨rfl, hd0, hd1, _, hs1, hi0⟩ := armijo_new d s i a ha
  intro Y St hfresh hlin hneg hder
  have L := gd_laws cfg aux0 fn
  rw [hs] at L
  have hG : ∀ y (i : FnInfo ι Unit), i = .evalGrad (fn y).1 (cfg.grad y) → i.grad? = some (cfg.grad y) := by
    rintro y i rfl; rfl
  classical
  have hex := armijo_eventually s d i hs1 hd0 hd1 hi0 (fun y => (fn y).1) (cfg.grad (Y (k + 1))) (Y (k + 1)) p hneg hder
  have hrej : ∀ m, m ≤ Nat.find hex → ∀ n, n < m → ¬ ArmijoHolds s (fun y => (fn y).1) (cfg.grad (Y (k + 1)))
      (Y (k + 1)) fun c => Y (k + 1) c + (cfg.descent.step (i * d ^ n) (St (k + 1)).descentState).1 c := by
    intro m hm n hn hh
    rw [hlin] at hh
    exact Nat.find_min hex (lt_of_lt_of_le hn hm) hh
  have R := fun m hm => armijo_rejections (G := cfg.grad) L hG aux0 y0 st0 hi k hfresh m (hrej m hm)
  have hj := Nat.find_spec hex
  generalize Nat.find hex = j at *
  refine ⟨j, fun m hm => ⟨(R m hm).1, (R m hm).2.2.1⟩, ?_⟩
  have run := armijo_run (G := cfg.grad) L hG aux0 y0 st0 hi (k + j)
  have e1 : k + j + 1 = k + 1 + j := by omega
  have e2 : k + j + 2 = k + 1 + j + 1 := by omega
  rw [e1, e2] at run
  obtain ⟨_, run⟩ := run
  have r1 := (R j le_rfl).1
  have r4 := (R j le_rfl).2.2.2
  rw [r1, r4] at run
  have hlin' := hlin (i * d ^ j)
  have hst : (gdView (SS := ℝ) (DS := DS) fn).ds (St (k + 1)) = (St (k + 1)).descentState := rfl
  have htr : (fun c => Y (k + 1) c + (cfg.descent.step (i * d ^ j) (St (k + 1)).descentState).1 c) =
      fun c => Y (k + 1) c + i * d ^ j * p c := by rw [hlin']
  rcases run with ⟨h1, h2, h3⟩ | ⟨h1, _⟩
  · have h2' : Y (k + 1 + j + 1) = fun c => Y (k + 1) c + i * d ^ j * p c := h2.trans htr
    refine ⟨h2', h3, ?_⟩
    rw [h2']
    refine hj.1.trans (le_of_eq ?_)
    have hdot : treeDot (cfg.grad (Y (k + 1))) (fun c => (Y (k + 1) c + i * d ^ j * p c) - Y (k + 1) c) =
        (i * d ^ j) * treeDot (cfg.grad (Y (k + 1))) p := by
      unfold treeDot
      rw [Finset.mul_sum]
      exact Finset.sum_congr rfl fun c _ => by ring
    rw [hdot]; ring
  · exact absurd (by have := hj; rw [← htr] at this; exact this) h1

/-- **C28**, quasi-Newton family, liveness: the same statement. -/
theorem C28_accepts_quasi_newton [Fintype ι] (d s i : ℝ) (a : Armijo.Cfg ℝ) (ha : Armijo.new d s i = .ok a)
    (cfg : QuasiNewton.Cfg ι ℝ DS HS) (hs : cfg.search = Armijo.search a) (hr : RecordsPoint cfg.hess) (aux0 : A)
    (fn : (ι → ℝ) → ℝ × A) (y0 : ι → ℝ) (st0 : QuasiNewton.State ι A ℝ DS HS)
    (hi : (QuasiNewton.solver cfg aux0).init fn y0 = .ok st0) (k : Nat) (p : ι → ℝ) :
    let Y := iterateAt (QuasiNewton.solver cfg aux0) fn aux0 y0 st0
    let St := stateAt (QuasiNewton.solver cfg aux0) fn aux0 y0 st0
    (St (k + 1)).searchState = i →
    (∀ t, (cfg.descent.step t (St (k + 1)).descentState).1 = fun c => t * p c) →
    treeDot (cfg.grad (Y (k + 1))) p < 0 →
    HasDerivAt (fun t : ℝ => (fn fun c => Y (k + 1) c + t * p c).1) (treeDot (cfg.grad (Y (k + 1))) p) 0 →
    ∃ j, (∀ m, m ≤ j → Y (k + 1 + m) = Y (k + 1) ∧ (St (k + 1 + m)).searchState = i * d ^ m) ∧
      Y (k + 1 + j + 1) = (fun c => Y (k + 1) c + i * d ^ j * p c) ∧
      (St (k + 1 + j + 1)).searchState = i ∧
      (fn (Y (k + 1 + j + 1))).1 ≤ (fn (Y (k + 1))).1 + s * (i * d ^ j) * treeDot (cfg.grad (Y (k + 1))) p := by
  obtain ⟨rfl, hd0, hd1, _, hs1, hi0⟩ := armijo_new d s i a ha
  intro Y St hfresh hlin hneg hder
  have L := qn_laws cfg aux0 fn hr
  rw [hs] at L
  have hG : ∀ y (i : FnInfo ι Unit), (i.asMin = (fn y).1 ∧ i.grad? = some (cfg.grad y)) →
      i.grad? = some (cfg.grad y) := fun y i h => h.2
  classical
  have hex := armijo_eventually s d i hs1 hd0 hd1 hi0 (fun y => (fn y).1) (cfg.grad (Y (k + 1))) (Y (k + 1)) p hneg hder
  have hrej : ∀ m, m ≤ Nat.find hex → ∀ n, n < m → ¬ ArmijoHolds s (fun y => (fn y).1) (cfg.grad (Y (k + 1)))
      (Y (k + 1)) fun c => Y (k + 1) c + (cfg.descent.step (i * d ^ n) (St (k + 1)).descentState).1 c := by
    intro m hm n hn hh
    rw [hlin] at hh
    exact Nat.find_min hex (lt_of_lt_of_le hn hm) hh
  have R := fun m hm => armijo_rejections (G := cfg.grad) L hG aux0 y0 st0 hi k hfresh m (hrej m hm)
  have hj := Nat.find_spec hex
  generalize Nat.find hex = j at *
  refine ⟨j, fun m hm => ⟨(R m hm).1, (R m hm).2.2.1⟩, ?_⟩
  have run := armijo_run (G := cfg.grad) L hG aux0 y0 st0 hi (k + j)
  have e1 : k + j + 1 = k + 1 + j := by omega
  have e2 : k + j + 2 = k + 1 + j + 1 := by omega
  rw [e1, e2] at run
  obtain ⟨_, run⟩ := run
  have r1 := (R j le_rfl).1
  have r4 := (R j le_rfl).2.2.2
  rw [r1, r4] at run
  have hlin' := hlin (i * d ^ j)
  have htr : (fun c => Y (k + 1) c + (cfg.descent.step (i * d ^ j) (St (k + 1)).descentState).1 c) =
      fun c => Y (k + 1) c + i * d ^ j * p c := by rw [hlin']
  rcases run with ⟨h1, h2, h3⟩ | ⟨h1, _⟩
  · have h2' : Y (k + 1 + j + 1) = fun c => Y (k + 1) c + i * d ^ j * p c := h2.trans htr
    refine ⟨h2', h3, ?_⟩
    rw [h2']
    refine hj.1.trans (le_of_eq ?_)
    have hdot : treeDot (cfg.grad (Y (k + 1))) (fun c => (Y (k + 1) c + i * d ^ j * p c) - Y (k + 1) c) =
        (i * d ^ j) * treeDot (cfg.grad (Y (k + 1))) p := by
      unfold treeDot
      rw [Finset.mul_sum]
      exact Finset.sum_congr rfl fun c _ => by ring
    rw [hdot]; ring
  · exact absurd (by have := hj; rw [← htr] at this; exact this) h1

/-- **C28.** A NaN at the trial point is rejected (never accepted as an improvement), whatever the prediction. -/
theorem C28_nan_trial_rejected (a : Armijo.Cfg XR) (p f t : XR) :
    Armijo.decide' a false p f .nan t = (a.decreaseFactor * t, false) := by
  simp [Armijo.decide']

/-! ### C29: the trust-region rule -/

/-- **C29.** The decision as published: accept iff (first step or) actual change `≤ low_cutoff *` predicted change;
the radius is multiplied by `high_constant` if the step is accepted, not the first, predicted to be an improvement, and
better than `high_cutoff *` predicted; by `low_constant` if rejected; and otherwise unchanged. -/
theorem C29_rule (c : TrustRegion.Cfg ℝ) (first : Bool) (pred f fEval radius : ℝ) :
    let d := TrustRegion.decide' c first pred f fEval radius
    (d.2 = true ↔ first = true ∨ fEval - f ≤ c.lowCutoff * pred) ∧
    (d.2 = false → d.1 = c.lowConstant * radius) ∧
    (d.2 = true → first = false → pred < 0 → fEval - f < c.highCutoff * pred → d.1 = c.highConstant * radius) ∧
    (d.2 = true → (first = true ∨ ¬ pred < 0 ∨ ¬ fEval - f < c.highCutoff * pred) → d.1 = radius) ∧
    (d.2 = true → first = false → pred ≤ 0 → 0 ≤ c.lowCutoff → fEval ≤ f) := by
  intro d
  have hd : d = TrustRegion.decide' c first pred f fEval radius := rfl
  have h2 : d.2 = (decide (fEval - f ≤ c.lowCutoff * pred) || first) := rfl
  have h1 : d.1 = (if d.2 then (if (decide (fEval - f < c.highCutoff * pred) && decide (pred < 0) && !first) then
      c.highConstant else 1) else c.lowConstant) * radius := rfl
  have hiff : d.2 = true ↔ first = true ∨ fEval - f ≤ c.lowCutoff * pred := by
    rw [h2, Bool.or_eq_true, decide_eq_true_eq, or_comm]
  refine ⟨hiff, ?_, ?_, ?_, ?_⟩
  · intro h; rw [h1, h]; simp
  · intro h hf hp hg
    rw [h1, h, hf]
    simp [hp, hg]
  · intro h hor
    rw [h1, h, if_pos rfl, if_neg, one_mul]
    rw [Bool.and_eq_true, Bool.and_eq_true, decide_eq_true_eq, decide_eq_true_eq]
    rintro ⟨⟨a1, a2⟩, a3⟩
    rcases hor with h' | h' | h'
    · rw [h'] at a3; cases a3
    · exact h' a2
    · exact h' a1
  · intro h hf hp hl
    rcases hiff.1 h with h' | h'
    · rw [hf] at h'; cases h'
    · have := mul_nonpos_of_nonneg_of_nonpos hl hp
      linarith

/-- **C29.** A NaN at the trial point is rejected and shrinks the region. -/
theorem C29_nan_trial_rejected (c : TrustRegion.Cfg XR) (pred f radius : XR) :
    TrustRegion.decide' c false pred f .nan radius = (c.lowConstant * radius, false) := by
  simp [TrustRegion.decide']

/-- **C29**, least-squares family, whole runs (`LevenbergMarquardt`, `Dogleg`, …): with positive constants the radius
is positive at every step; it starts at `1`; from the first step on a step moves to the trial point iff the actual change
of `½Σr²` is at most `low_cutoff` times the predicted change of the linearised problem. -/
theorem C29_run_gauss_newton [Fintype ι] [Fintype κ] (c : TrustRegion.Cfg ℝ) (hl : 0 < c.lowConstant)
    (hh : 0 < c.highConstant) (cfg : GaussNewton.Cfg ι κ ℝ DS) (hs : cfg.search = TrustRegion.classical c) (aux0 : A)
    (fn : (ι → ℝ) → (κ → ℝ) × A) (y0 : ι → ℝ) (st0 : GaussNewton.State ι κ A ℝ DS)
    (hi : (GaussNewton.solver cfg aux0).init fn y0 = .ok st0) :
    let Y := iterateAt (GaussNewton.solver cfg aux0) fn aux0 y0 st0
    let St := stateAt (GaussNewton.solver cfg aux0) fn aux0 y0 st0
    let obj := fun y => sumSquares (fn y).1 / 2
    let actual := fun k => obj (St k).yEval - obj (Y k)
    let predicted := fun k => (∑ m, ((fn (Y k)).1 m + ∑ i, cfg.jac (Y k) m i * ((St k).yEval i - Y k i)) ^ 2) / 2 -
      (∑ m, (fn (Y k)).1 m ^ 2) / 2
    (∀ k, 0 < (St k).searchState) ∧ (St 0).searchState = 1 ∧ (St 1).searchState = 1 ∧
    ∀ k, 1 ≤ k →
      (actual k ≤ c.lowCutoff * predicted k → Y (k + 1) = (St k).yEval ∧
        (St (k + 1)).searchState = (if actual k < c.highCutoff * predicted k ∧ predicted k < 0 then
          c.highConstant * (St k).searchState else (St k).searchState)) ∧
      (¬ actual k ≤ c.lowCutoff * predicted k → Y (k + 1) = Y k ∧
        (St (k + 1)).searchState = c.lowConstant * (St k).searchState) := by
  intro Y St obj actual predicted
  have L := gn_laws cfg aux0 fn
  rw [hs] at L
  have hpos := tr_pos L hl hh aux0 y0 st0 hi
  have hstart := tr_start L aux0 y0 st0 hi
  refine ⟨hpos, hstart.1, hstart.2.1, ?_⟩
  intro k hk
  obtain _ | k := k
  · omega
  have run := (tr_run L aux0 y0 st0 hi k).2
  have hinfo := (stored L (tr_first _ _ _) aux0 y0 st0 hi k).1
  have hP : (TrustRegion.classicalPredict (fun i => (St (k + 1)).yEval i - Y (k + 1) i)
      ((gnView (A := A) cfg fn).fInfo (St (k + 1)))).getD 0 = predicted (k + 1) := by
    rw [hinfo, C54_classical_residual]; rfl
  have hD : 0.5 * sumSquares (fn (St (k + 1)).yEval).1 - 0.5 * sumSquares (fn (Y (k + 1))).1 = actual (k + 1) := by
    show _ = sumSquares (fn (St (k + 1)).yEval).1 / 2 - sumSquares (fn (Y (k + 1))).1 / 2
    norm_num; ring
  change (0.5 * sumSquares (fn (St (k + 1)).yEval).1 - 0.5 * sumSquares (fn (Y (k + 1))).1 ≤ c.lowCutoff *
    (TrustRegion.classicalPredict (fun i => (St (k + 1)).yEval i - Y (k + 1) i)
      ((gnView (A := A) cfg fn).fInfo (St (k + 1)))).getD 0 ∧ 
    0.5 * sumSquares (fn (St (k + 1)).yEval).1 - 0.5 * sumSquares (fn (Y (k + 1))).1 < c.highCutoff *
    (TrustRegion.classicalPredict (fun i => (St (k + 1)).yEval i - Y (k + 1) i)
      ((gnView (A := A) cfg fn).fInfo (St (k + 1)))).getD 0 ∧
    (TrustRegion.classicalPredict (fun i => (St (k + 1)).yEval i - Y (k + 1) i)
      ((gnView (A := A) cfg fn).fInfo (St (k + 1)))).getD 0 < 0 ∧ 
    Y (k + 2) = (St (k + 1)).yEval ∧ (St (k + 2)).searchState = c.highConstant * (St (k + 1)).searchState) ∨
    (0.5 * sumSquares (fn (St (k + 1)).yEval).1 - 0.5 * sumSquares (fn (Y (k + 1))).1 ≤ c.lowCutoff *
    (TrustRegion.classicalPredict (fun i => (St (k + 1)).yEval i - Y (k + 1) i)
      ((gnView (A := A) cfg fn).fInfo (St (k + 1)))).getD 0 ∧ 
    ¬ (0.5 * sumSquares (fn (St (k + 1)).yEval).1 - 0.5 * sumSquares (fn (Y (k + 1))).1 < c.highCutoff *
    (TrustRegion.classicalPredict (fun i => (St (k + 1)).yEval i - Y (k + 1) i)
      ((gnView (A := A) cfg fn).fInfo (St (k + 1)))).getD 0 ∧
    (TrustRegion.classicalPredict (fun i => (St (k + 1)).yEval i - Y (k + 1) i)
      ((gnView (A := A) cfg fn).fInfo (St (k + 1)))).getD 0 < 0) ∧ 
    Y (k + 2) = (St (k + 1)).yEval ∧ (St (k + 2)).searchState = (St (k + 1)).searchState) ∨
    (¬ 0.5 * sumSquares (fn (St (k + 1)).yEval).1 - 0.5 * sumSquares (fn (Y (k + 1))).1 ≤ c.lowCutoff *
    (TrustRegion.classicalPredict (fun i => (St (k + 1)).yEval i - Y (k + 1) i)
      ((gnView (A := A) cfg fn).fInfo (St (k + 1)))).getD 0 ∧ Y (k + 2) = Y (k + 1) ∧
      (St (k + 2)).searchState = c.lowConstant * (St (k + 1)).searchState ∧ _) at run
  rw [hP, hD] at run
  rcases run with ⟨r1, r2, r3, r4, r5⟩ | ⟨r1, r2, r3, r4⟩ | ⟨r1, r2, r3, _⟩
  · exact ⟨fun _ => ⟨r4, by rw [if_pos ⟨r2, r3⟩]; exact r5⟩, fun h => absurd r1 h⟩
  · exact ⟨fun _ => ⟨r3, by rw [if_neg r2]; exact r4⟩, fun h => absurd r1 h⟩
  · exact ⟨fun h => absurd h r1, fun _ => ⟨r2, r3⟩⟩

/-! ### C30 and C58: what a step does, and what success means -/

/-- **C30**, gradient family: for every search that accepts on the first step, every descent, gradient oracle and
history.  (a) From the first step on, the stored information is the value and the gradient at the current iterate, the
stored aux its aux.  (b) Each step either moves to exactly the point that was evaluated, or leaves iterate, function
information, aux and descent state unchanged and does not terminate; which of the two is the search's answer. -/
theorem C30_gradient_family (cfg : GradientDescent.Cfg ι SS DS)
    (hf : ∀ y z i j s, (cfg.search.step true y z i j s).2.1 = true) (aux0 : A) (fn : (ι → ℝ) → ℝ × A) (y0 : ι → ℝ)
    (st0 : GradientDescent.State ι A SS DS) (hi : (GradientDescent.solver cfg aux0).init fn y0 = .ok st0) (k : Nat) :
    let Y := iterateAt (GradientDescent.solver cfg aux0) fn aux0 y0 st0
    let St := stateAt (GradientDescent.solver cfg aux0) fn aux0 y0 st0
    let accepted := (cfg.search.step (St k).firstStep (Y k) (St k).yEval (St k).fInfo
      (.eval (fn (St k).yEval).1) (St k).searchState).2.1
    (1 ≤ k → (St k).fInfo = .evalGrad (fn (Y k)).1 (cfg.grad (Y k)) ∧ (St k).aux = (fn (Y k)).2) ∧
    (accepted = true → Y (k + 1) = (St k).yEval) ∧
    (accepted = false → Y (k + 1) = Y k ∧ (St (k + 1)).fInfo = (St k).fInfo ∧ (St (k + 1)).aux = (St k).aux ∧
      (St (k + 1)).descentState = (St k).descentState ∧ (St (k + 1)).terminate = false) := by
  intro Y St accepted
  have L := gd_laws cfg aux0 fn
  refine ⟨?_, fun h => (L.accept _ _ h).1, fun h => ?_⟩
  · intro hk
    obtain _ | k := k
    · omega
    · exact stored L hf aux0 y0 st0 hi k
  · exact L.reject (Y k) (St k) h

/-- **C30**, quasi-Newton family; here a rejected step also keeps the Hessian approximation's state. -/
theorem C30_quasi_newton_family (cfg : QuasiNewton.Cfg ι SS DS HS) (hr : RecordsPoint cfg.hess)
    (hf : ∀ y z i j s, (cfg.search.step true y z i j s).2.1 = true) (aux0 : A) (fn : (ι → ℝ) → ℝ × A) (y0 : ι → ℝ)
    (st0 : QuasiNewton.State ι A SS DS HS) (hi : (QuasiNewton.solver cfg aux0).init fn y0 = .ok st0) (k : Nat) :
    let Y := iterateAt (QuasiNewton.solver cfg aux0) fn aux0 y0 st0
    let St := stateAt (QuasiNewton.solver cfg aux0) fn aux0 y0 st0
    let accepted := (cfg.search.step (St k).firstStep (Y k) (St k).yEval (St k).fInfo
      (.eval (fn (St k).yEval).1) (St k).searchState).2.1
    (1 ≤ k → (St k).fInfo.asMin = (fn (Y k)).1 ∧ (St k).fInfo.grad? = some (cfg.grad (Y k)) ∧
      (St k).aux = (fn (Y k)).2) ∧
    (accepted = true → Y (k + 1) = (St k).yEval ∧ (St (k + 1)).numAcceptedSteps = (St k).numAcceptedSteps + 1 ∧
      ((St (k + 1)).fInfo, (St (k + 1)).hessianUpdateState) = cfg.hess.updateHessian (Y k) (St k).yEval (St k).fInfo
        (fn (St k).yEval).1 (cfg.grad (St k).yEval) (St k).hessianUpdateState) ∧
    (accepted = false → Y (k + 1) = Y k ∧ (St (k + 1)).fInfo = (St k).fInfo ∧ (St (k + 1)).aux = (St k).aux ∧
      (St (k + 1)).descentState = (St k).descentState ∧ (St (k + 1)).terminate = false ∧
      (St (k + 1)).hessianUpdateState = (St k).hessianUpdateState ∧
      (St (k + 1)).numAcceptedSteps = (St k).numAcceptedSteps) := by
  intro Y St accepted
  have L := qn_laws cfg aux0 fn hr
  have hst : St (k + 1) = (QuasiNewton.step cfg fn (Y k) (St k)).2.1 := rfl
  refine ⟨?_, fun h => ⟨(L.accept _ _ h).1, ?_, ?_⟩, fun h => ?_⟩
  · intro hk
    obtain _ | k := k
    · omega
    · have := stored L hf aux0 y0 st0 hi k
      exact ⟨this.1.1, this.1.2, this.2⟩
  · have h' : (cfg.search.step (St k).firstStep (Y k) (St k).yEval (St k).fInfo
      (.eval (fn (St k).yEval).1) (St k).searchState).2.1 = true := h
    rw [hst]; simp only [QuasiNewton.step, h', if_true]
  · have h' : (cfg.search.step (St k).firstStep (Y k) (St k).yEval (St k).fInfo
      (.eval (fn (St k).yEval).1) (St k).searchState).2.1 = true := h
    rw [hst]; simp only [QuasiNewton.step, h', if_true]
  · have h' : (cfg.search.step (St k).firstStep (Y k) (St k).yEval (St k).fInfo
      (.eval (fn (St k).yEval).1) (St k).searchState).2.1 = false := h
    have R := L.reject (Y k) (St k) h
    refine ⟨R.1, R.2.1, R.2.2.1, R.2.2.2.1, R.2.2.2.2, ?_, ?_⟩ <;>
    · rw [hst]; simp only [QuasiNewton.step, h', Bool.false_eq_true, if_false, Nat.add_zero]

/-- **C30**, least-squares family; also the three counters are what their names say. -/
theorem C30_gauss_newton_family [Fintype κ] (cfg : GaussNewton.Cfg ι κ SS DS)
    (hf : ∀ y z i j s, (cfg.search.step true y z i j s).2.1 = true) (aux0 : A) (fn : (ι → ℝ) → (κ → ℝ) × A)
    (y0 : ι → ℝ) (st0 : GaussNewton.State ι κ A SS DS)
    (hi : (GaussNewton.solver cfg aux0).init fn y0 = .ok st0) (k : Nat) :
    let Y := iterateAt (GaussNewton.solver cfg aux0) fn aux0 y0 st0
    let St := stateAt (GaussNewton.solver cfg aux0) fn aux0 y0 st0
    let accepted := (cfg.search.step (St k).firstStep (Y k) (St k).yEval (.residualJac (St k).residual (St k).jac)
      (.residualJac (fn (St k).yEval).1 (cfg.jac (St k).yEval)) (St k).searchState).2.1
    (1 ≤ k → (St k).residual = (fn (Y k)).1 ∧ (St k).jac = cfg.jac (Y k) ∧ (St k).aux = (fn (Y k)).2) ∧
    (accepted = true → Y (k + 1) = (St k).yEval ∧ (St (k + 1)).numAcceptedSteps = (St k).numAcceptedSteps + 1 ∧
      (St (k + 1)).numStepsSinceAcceptance = 0) ∧
    (accepted = false → Y (k + 1) = Y k ∧ (St (k + 1)).residual = (St k).residual ∧ (St (k + 1)).jac = (St k).jac ∧
      (St (k + 1)).aux = (St k).aux ∧ (St (k + 1)).descentState = (St k).descentState ∧
      (St (k + 1)).terminate = false ∧ (St (k + 1)).numAcceptedSteps = (St k).numAcceptedSteps ∧
      (St (k + 1)).numStepsSinceAcceptance = (St k).numStepsSinceAcceptance + 1) ∧
    (St k).numSteps = k := by
  intro Y St accepted
  have L := gn_laws cfg aux0 fn
  have hst : ∀ k, St (k + 1) = (GaussNewton.step cfg fn (Y k) (St k)).2.1 := fun _ => rfl
  refine ⟨?_, fun h => ⟨(L.accept _ _ h).1, ?_, ?_⟩, fun h => ?_, ?_⟩
  · intro hk
    obtain _ | k := k
    · omega
    · have := stored L hf aux0 y0 st0 hi k
      have h1 := this.1
      simp only [gnView, FnInfo.residualJac.injEq] at h1
      exact ⟨h1.1, h1.2, this.2⟩
  · have h' : (cfg.search.step (St k).firstStep (Y k) (St k).yEval (.residualJac (St k).residual (St k).jac)
      (.residualJac (fn (St k).yEval).1 (cfg.jac (St k).yEval)) (St k).searchState).2.1 = true := h
    rw [hst]; simp only [GaussNewton.step, h', if_true]
  · have h' : (cfg.search.step (St k).firstStep (Y k) (St k).yEval (.residualJac (St k).residual (St k).jac)
      (.residualJac (fn (St k).yEval).1 (cfg.jac (St k).yEval)) (St k).searchState).2.1 = true := h
    rw [hst]; simp only [GaussNewton.step, h', if_true]
  · have h' : (cfg.search.step (St k).firstStep (Y k) (St k).yEval (.residualJac (St k).residual (St k).jac)
      (.residualJac (fn (St k).yEval).1 (cfg.jac (St k).yEval)) (St k).searchState).2.1 = false := h
    have R := L.reject (Y k) (St k) h
    refine ⟨R.1, ?_, ?_, R.2.2.1, R.2.2.2.1, R.2.2.2.2, ?_, ?_⟩ <;>
    · rw [hst]; simp only [GaussNewton.step, h', Bool.false_eq_true, if_false, Nat.add_zero]
  · induction k with
    | zero =>
      simp only [GaussNewton.solver, GaussNewton.init] at hi
      split at hi
      · cases hi
      · cases hi; rfl
    | succ k ih =>
      rw [hst]
      show (St k).numSteps + 1 = k + 1
      rw [ih]

/-- **C30**: these solvers report the user's aux at the point the step started from (cf. C09), for all three families. -/
theorem C30_aux_gradient_family (cfg : GradientDescent.Cfg ι SS DS)
    (hf : ∀ y z i j s, (cfg.search.step true y z i j s).2.1 = true) (aux0 : A) (fn : (ι → ℝ) → ℝ × A) (y0 : ι → ℝ)
    (st0 : GradientDescent.State ι A SS DS) (hi : (GradientDescent.solver cfg aux0).init fn y0 = .ok st0) :
    ReportsAux (GradientDescent.solver cfg aux0) fn aux0 y0 st0 :=
  reports_aux (gd_laws cfg aux0 fn) hf aux0 y0 st0 hi

theorem C30_aux_quasi_newton_family (cfg : QuasiNewton.Cfg ι SS DS HS) (hr : RecordsPoint cfg.hess)
    (hf : ∀ y z i j s, (cfg.search.step true y z i j s).2.1 = true) (aux0 : A) (fn : (ι → ℝ) → ℝ × A) (y0 : ι → ℝ)
    (st0 : QuasiNewton.State ι A SS DS HS) (hi : (QuasiNewton.solver cfg aux0).init fn y0 = .ok st0) :
    ReportsAux (QuasiNewton.solver cfg aux0) fn aux0 y0 st0 :=
  reports_aux (qn_laws cfg aux0 fn hr) hf aux0 y0 st0 hi

theorem C30_aux_gauss_newton_family [Fintype κ] (cfg : GaussNewton.Cfg ι κ SS DS)
    (hf : ∀ y z i j s, (cfg.search.step true y z i j s).2.1 = true) (aux0 : A) (fn : (ι → ℝ) → (κ → ℝ) × A)
    (y0 : ι → ℝ) (st0 : GaussNewton.State ι κ A SS DS) (hi : (GaussNewton.solver cfg aux0).init fn y0 = .ok st0) :
    ReportsAux (GaussNewton.solver cfg aux0) fn aux0 y0 st0 :=
  reports_aux (gn_laws cfg aux0 fn) hf aux0 y0 st0 hi

/-- All built-in searches accept on the first step (the hypothesis of C30 and C58). -/
theorem searches_accept_first [Fintype ι] [Fintype κ] (a : Armijo.Cfg ℝ) (c : TrustRegion.Cfg ℝ) (rate : ℝ)
    (y z : ι → ℝ) (i j : FnInfo ι κ) (s : ℝ) :
    ((Armijo.search a).step true y z i j s).2.1 = true ∧ ((TrustRegion.classical c).step true y z i j s).2.1 = true ∧
    ((TrustRegion.linear c).step true y z i j s).2.1 = true ∧
    ((learningRate (ι := ι) (κ := κ) rate).step true y z i j ()).2.1 = true :=
  ⟨armijo_first .., tr_first .., tr_first .., rfl⟩

theorem fOf_eq (i : FnInfo ι Unit) : GradientDescent.fOf i = i.asMin := by cases i <;> rfl

theorem cauchy_close (rtol atol : ℝ) (nY : (ι → ℝ) → ℝ) (nF : (κ → ℝ) → ℝ) (z y : ι → ℝ) (fz fy : κ → ℝ)
    (h : cauchyTermination rtol atol nY nF z (fun i => z i - y i) fz (fun j => fz j - fy j) = true) :
    CloseWithin rtol atol nY nF z y fz fy := by
  simp only [cauchyTermination, Bool.and_eq_true, decide_eq_true_eq] at h
  exact h

/-- **C58**, gradient family.  A successful solve made at least two steps; its value is the trial point evaluated by the last
step, and agrees, together with its objective value, with the previous iterate within the tolerances. -/
theorem C58_gradient_family (cfg : GradientDescent.Cfg ι SS DS)
    (hf : ∀ y z i j s, (cfg.search.step true y z i j s).2.1 = true) (aux0 : A) (fn : (ι → ℝ) → ℝ × A)
    (af : (ι → ℝ) → Bool) (y0 : ι → ℝ) (ms : Option Nat) (throw : Bool)
    (sol : Solution (ι → ℝ) A (GradientDescent.State ι A SS DS) Unit)
    (h : iterativeSolve (GradientDescent.solver cfg aux0) af fn aux0 y0 ms throw = some (.ok sol))
    (hs : sol.result = .successful) :
    ∃ st0 k, (GradientDescent.solver cfg aux0).init fn y0 = .ok st0 ∧ 1 ≤ k ∧ sol.numSteps = k + 1 ∧
      sol.value = (stateAt (GradientDescent.solver cfg aux0) fn aux0 y0 st0 k).yEval ∧
      CloseWithin cfg.rtol cfg.atol cfg.normY cfg.normF sol.value
        (iterateAt (GradientDescent.solver cfg aux0) fn aux0 y0 st0 k) (fun _ => (fn sol.value).1)
        (fun _ => (fn (iterateAt (GradientDescent.solver cfg aux0) fn aux0 y0 st0 k)).1) := by
  have L := gd_laws cfg aux0 fn
  obtain ⟨_, _, st0, hi, hst, hp⟩ := C01_step_budget _ _ _ _ _ _ _ _ h
  obtain ⟨st0', hi', hterm, _⟩ := C02_success_is_certificate _ _ _ _ _ _ _ _ h hs
  rw [hi] at hi'; cases hi'
  have ht : sol.state.terminate = true := congrArg Prod.fst hterm
  have hv : sol.value = iterateAt (GradientDescent.solver cfg aux0) fn aux0 y0 st0 sol.numSteps := congrArg Prod.fst hp
  have hinit := L.init y0 st0 hi
  rcases hn : sol.numSteps with _ | k
  · rw [hst, hn] at ht
    have : st0.terminate = false := hinit.2.2.2
    have ht' : st0.terminate = true := ht
    rw [this] at ht'; cases ht'
  rw [hn] at hst hv
  generalize hyk : iterateAt (GradientDescent.solver cfg aux0) fn aux0 y0 st0 k = yk at *
  generalize hsk : stateAt (GradientDescent.solver cfg aux0) fn aux0 y0 st0 k = sk at *
  have hst' : sol.state = (GradientDescent.step cfg fn yk sk).2.1 := by
    rw [hst, ← hyk, ← hsk]; rfl
  have hv' : sol.value = (GradientDescent.step cfg fn yk sk).1 := by
    rw [hv, ← hyk, ← hsk]; rfl
  cases hacc : (cfg.search.step sk.firstStep yk sk.yEval sk.fInfo (.eval (fn sk.yEval).1) sk.searchState).2.1 with
  | false =>
    rw [hst'] at ht
    simp only [GradientDescent.step, hacc, Bool.false_eq_true, if_false] at ht
  | true =>
    have hvy : sol.value = sk.yEval := by
      rw [hv']; simp only [GradientDescent.step, hacc, if_true]
    rw [hst'] at ht
    simp only [GradientDescent.step, hacc, if_true] at ht
    obtain _ | k := k
    · exfalso
      have h0 : sk.firstStep = true := by rw [← hsk]; exact hinit.1
      rw [h0] at ht; simp at ht
    · have h0 : sk.firstStep = false := by rw [← hsk]; exact first_at L aux0 y0 st0 k
      have hinfo := L.good _ _ (stored L hf aux0 y0 st0 hi k).1
      rw [hyk, hsk] at hinfo
      have hinfo' : GradientDescent.fOf sk.fInfo = (fn yk).1 := by rw [fOf_eq]; exact hinfo
      rw [h0, hinfo'] at ht
      simp only [Bool.false_eq_true, if_false] at ht
      refine ⟨st0, k + 1, hi, Nat.succ_pos k, rfl, ?_, ?_⟩
      · rw [hsk]; exact hvy
      · rw [hyk, hvy]; exact cauchy_close _ _ _ _ _ _ _ _ ht

/-- **C58**, quasi-Newton family.  A successful solve made at least two steps; its value is the trial point evaluated by the last
step, and agrees, together with its objective value, with the previous iterate within the tolerances. -/
theorem C58_quasi_newton_family (cfg : QuasiNewton.Cfg ι SS DS HS) (hr : RecordsPoint cfg.hess)
    (hf : ∀ y z i j s, (cfg.search.step true y z i j s).2.1 = true) (aux0 : A) (fn : (ι → ℝ) → ℝ × A)
    (af : (ι → ℝ) → Bool) (y0 : ι → ℝ) (ms : Option Nat) (throw : Bool)
    (sol : Solution (ι → ℝ) A (QuasiNewton.State ι A SS DS HS) Unit)
    (h : iterativeSolve (QuasiNewton.solver cfg aux0) af fn aux0 y0 ms throw = some (.ok sol))
    (hs : sol.result = .successful) :
    ∃ st0 k, (QuasiNewton.solver cfg aux0).init fn y0 = .ok st0 ∧ 1 ≤ k ∧ sol.numSteps = k + 1 ∧
      sol.value = (stateAt (QuasiNewton.solver cfg aux0) fn aux0 y0 st0 k).yEval ∧
      CloseWithin cfg.rtol cfg.atol cfg.normY cfg.normF sol.value
        (iterateAt (QuasiNewton.solver cfg aux0) fn aux0 y0 st0 k) (fun _ => (fn sol.value).1)
        (fun _ => (fn (iterateAt (QuasiNewton.solver cfg aux0) fn aux0 y0 st0 k)).1) := by
  have L := qn_laws cfg aux0 fn hr
  obtain ⟨_, _, st0, hi, hst, hp⟩ := C01_step_budget _ _ _ _ _ _ _ _ h
  obtain ⟨st0', hi', hterm, _⟩ := C02_success_is_certificate _ _ _ _ _ _ _ _ h hs
  rw [hi] at hi'; cases hi'
  have ht : sol.state.terminate = true := congrArg Prod.fst hterm
  have hv : sol.value = iterateAt (QuasiNewton.solver cfg aux0) fn aux0 y0 st0 sol.numSteps := congrArg Prod.fst hp
  have hinit := L.init y0 st0 hi
  rcases hn : sol.numSteps with _ | k
  · rw [hst, hn] at ht
    have : st0.terminate = false := hinit.2.2.2
    have ht' : st0.terminate = true := ht
    rw [this] at ht'; cases ht'
  rw [hn] at hst hv
  generalize hyk : iterateAt (QuasiNewton.solver cfg aux0) fn aux0 y0 st0 k = yk at *
  generalize hsk : stateAt (QuasiNewton.solver cfg aux0) fn aux0 y0 st0 k = sk at *
  have hst' : sol.state = (QuasiNewton.step cfg fn yk sk).2.1 := by
    rw [hst, ← hyk, ← hsk]; rfl
  have hv' : sol.value = (QuasiNewton.step cfg fn yk sk).1 := by
    rw [hv, ← hyk, ← hsk]; rfl
  cases hacc : (cfg.search.step sk.firstStep yk sk.yEval sk.fInfo (.eval (fn sk.yEval).1) sk.searchState).2.1 with
  | false =>
    rw [hst'] at ht
    simp only [QuasiNewton.step, hacc, Bool.false_eq_true, if_false] at ht
  | true =>
    have hvy : sol.value = sk.yEval := by
      rw [hv']; simp only [QuasiNewton.step, hacc, if_true]
    rw [hst'] at ht
    simp only [QuasiNewton.step, hacc, if_true] at ht
    obtain _ | k := k
    · exfalso
      have h0 : sk.firstStep = true := by rw [← hsk]; exact hinit.1
      rw [h0] at ht; simp at ht
    · have h0 : sk.firstStep = false := by rw [← hsk]; exact first_at L aux0 y0 st0 k
      have hinfo := L.good _ _ (stored L hf aux0 y0 st0 hi k).1
      rw [hyk, hsk] at hinfo
      have hinfo' : GradientDescent.fOf sk.fInfo = (fn yk).1 := by rw [fOf_eq]; exact hinfo
      rw [h0, hinfo'] at ht
      simp only [Bool.false_eq_true, if_false] at ht
      refine ⟨st0, k + 1, hi, Nat.succ_pos k, rfl, ?_, ?_⟩
      · rw [hsk]; exact hvy
      · rw [hyk, hvy]; exact cauchy_close _ _ _ _ _ _ _ _ ht

/-- **C58**, least-squares family, for solves that made at least two steps: the value is the trial point evaluated by
the last step, and agrees, together with its residuals, with the previous iterate within the tolerances.
Missing for the full claim: solves that stop after one step, see `C58_gauss_newton_stops_at_start`. -/
theorem C58_gauss_newton_family_partial [Fintype κ] (cfg : GaussNewton.Cfg ι κ SS DS)
    (hf : ∀ y z i j s, (cfg.search.step true y z i j s).2.1 = true) (aux0 : A) (fn : (ι → ℝ) → (κ → ℝ) × A)
    (af : (ι → ℝ) → Bool) (y0 : ι → ℝ) (ms : Option Nat) (throw : Bool)
    (sol : Solution (ι → ℝ) A (GaussNewton.State ι κ A SS DS) Unit)
    (h : iterativeSolve (GaussNewton.solver cfg aux0) af fn aux0 y0 ms throw = some (.ok sol))
    (hs : sol.result = .successful) (htwo : sol.numSteps ≠ 1) :
    ∃ st0 k, (GaussNewton.solver cfg aux0).init fn y0 = .ok st0 ∧ 1 ≤ k ∧ sol.numSteps = k + 1 ∧
      sol.value = (stateAt (GaussNewton.solver cfg aux0) fn aux0 y0 st0 k).yEval ∧
      CloseWithin cfg.rtol cfg.atol cfg.normY cfg.normF sol.value
        (iterateAt (GaussNewton.solver cfg aux0) fn aux0 y0 st0 k) (fn sol.value).1
        (fn (iterateAt (GaussNewton.solver cfg aux0) fn aux0 y0 st0 k)).1 := by
  have L := gn_laws cfg aux0 fn
  obtain ⟨_, _, st0, hi, hst, hp⟩ := C01_step_budget _ _ _ _ _ _ _ _ h
  obtain ⟨st0', hi', hterm, _⟩ := C02_success_is_certificate _ _ _ _ _ _ _ _ h hs
  rw [hi] at hi'; cases hi'
  have ht : sol.state.terminate = true := congrArg Prod.fst hterm
  have hv : sol.value = iterateAt (GaussNewton.solver cfg aux0) fn aux0 y0 st0 sol.numSteps := congrArg Prod.fst hp
  have hinit := L.init y0 st0 hi
  rcases hn : sol.numSteps with _ | _ | k
  · rw [hst, hn] at ht
    have : st0.terminate = false := hinit.2.2.2
    have ht' : st0.terminate = true := ht
    rw [this] at ht'; cases ht'
  · exact absurd hn htwo
  rw [hn] at hst hv
  have hinfo := (stored L hf aux0 y0 st0 hi k).1
  generalize hyk : iterateAt (GaussNewton.solver cfg aux0) fn aux0 y0 st0 (k + 1) = yk at *
  generalize hsk : stateAt (GaussNewton.solver cfg aux0) fn aux0 y0 st0 (k + 1) = sk at *
  have hst' : sol.state = (GaussNewton.step cfg fn yk sk).2.1 := by
    rw [hst, ← hyk, ← hsk]; rfl
  have hv' : sol.value = (GaussNewton.step cfg fn yk sk).1 := by
    rw [hv, ← hyk, ← hsk]; rfl
  cases hacc : (cfg.search.step sk.firstStep yk sk.yEval (.residualJac sk.residual sk.jac)
      (.residualJac (fn sk.yEval).1 (cfg.jac sk.yEval)) sk.searchState).2.1 with
  | false =>
    rw [hst'] at ht
    simp only [GaussNewton.step, hacc, Bool.false_eq_true, if_false] at ht
  | true =>
    have hvy : sol.value = sk.yEval := by
      rw [hv']; simp only [GaussNewton.step, hacc, if_true]
    rw [hst'] at ht
    simp only [GaussNewton.step, hacc, if_true] at ht
    simp only [gnView, FnInfo.residualJac.injEq] at hinfo
    rw [hinfo.1] at ht
    refine ⟨st0, k + 1, hi, Nat.succ_pos k, rfl, ?_, ?_⟩
    · rw [hsk]; exact hvy
    · rw [hyk, hvy]; exact cauchy_close _ _ _ _ _ _ _ _ ht

/-- **C58, negation for least squares.**  `GaussNewton` does not skip its convergence test on the first step, where
"the previous residual" is the placeholder `0`: with `rtol = atol = 0.1`, residual `0.05 + y` and start `y0 = 0` (not a
minimiser: the residual can be made `0`, the gradient is `0.05`), the solve is declared successful after one step at `y0`,
without ever having moved, although the full Gauss-Newton step would have been `-0.05`.  The same happens for every residual
function, start and linear solver for which every entry of the first residual is below the tolerance. -/
theorem C58_gauss_newton_stops_at_start [Fintype ι] [Fintype κ] (rtol atol : ℝ) (ha : 0 < atol) (hr : 0 ≤ rtol)
    (ls : LinSolve ι κ) (jac : (ι → ℝ) → Matrix κ ι ℝ) (aux0 : A) (fn : (ι → ℝ) → (κ → ℝ) × A) (y0 : ι → ℝ)
    (hres : ∀ j, |(fn y0).1 j| < atol + rtol * |(fn y0).1 j|)
    (hlin : (ls.rect (jac y0) (fn y0).1).2 = .successful) :
    ∃ sol, iterativeSolve (GaussNewton.solver (GaussNewton.gaussNewton rtol atol maxNorm maxNorm ls jac) aux0)
        (fun _ => true) fn aux0 y0 (some 256) true = some (.ok sol) ∧
      sol.result = .successful ∧ sol.numSteps = 1 ∧ sol.value = y0 := by
  set cfg := GaussNewton.gaussNewton rtol atol maxNorm maxNorm ls jac with hcfg
  have hL := gn_laws cfg aux0 fn
  obtain ⟨st0, hi⟩ : ∃ st0, (GaussNewton.solver cfg aux0).init fn y0 = .ok st0 := ⟨_, rfl⟩
  have hst0 : st0 = ⟨true, y0, (), fun _ => 0, 0, aux0, (y0, .successful), false, .successful, 0, 0, 0⟩ := by
    cases hi; rfl
  have hterm : (stateAt (GaussNewton.solver cfg aux0) fn aux0 y0 st0 1).terminate = true := by
    have : cauchyTermination rtol atol maxNorm maxNorm y0 (fun i => y0 i - y0 i) (fn y0).1
        (fun j => (fn y0).1 j - 0) = true := by
      rw [C46_cauchy_iff_all_entries rtol atol ha hr]
      refine ⟨fun i => ?_, fun j => by rw [sub_zero]; exact hres j⟩
      rw [sub_self, abs_zero]; positivity
    rw [hst0]
    exact this
  have hres1 : (stateAt (GaussNewton.solver cfg aux0) fn aux0 y0 st0 1).result = .successful := by
    rw [hst0]; exact hlin
  obtain ⟨sol, h1, h2, h3⟩ := C02_success_complete (GaussNewton.solver cfg aux0) (fun _ => true) fn aux0 y0 st0 hi
    (some 256) true 1
    (by
      intro j hj
      have : j = 0 := by omega
      subst this
      refine ⟨rfl, ?_⟩
      rw [hst0]; rfl)
    rfl (Prod.ext hterm hres1) (by rintro n ⟨⟩; norm_num)
  refine ⟨sol, h1, h2, h3, ?_⟩
  obtain ⟨_, _, st0', hi', _, hp⟩ := C01_step_budget _ _ _ _ _ _ _ _ h1
  rw [hi] at hi'; cases hi'
  have hv : sol.value = iterateAt (GaussNewton.solver cfg aux0) fn aux0 y0 st0 sol.numSteps := congrArg Prod.fst hp
  rw [hv, h3]
  exact (first_iterate hL (fun _ _ _ _ _ => rfl) aux0 y0 st0 hi).1

/-! ### Non-vacuity -/

/-- The concrete instance announced in `C58_gauss_newton_stops_at_start`. -/
example : ∃ sol, iterativeSolve (GaussNewton.solver (GaussNewton.gaussNewton (ι := Unit) (κ := Unit) 0.1 0.1 maxNorm
    maxNorm ⟨fun j r => (fun _ => r () / j () (), .successful), fun _ g => (g, .successful)⟩ (fun _ => 1)) ())
      (fun _ => true) (fun y => ((fun _ => 0.05 + y ()), ())) () (fun _ => 0) (some 256) true = some (.ok sol) ∧
      sol.result = .successful ∧ sol.numSteps = 1 ∧ sol.value = (fun _ => 0) :=
  C58_gauss_newton_stops_at_start 0.1 0.1 (by norm_num) (by norm_num) _ _ _ _ _
    (by intro j; norm_num [abs_of_pos]) rfl

/-- An instance for the examples: steepest descent with the default `BacktrackingArmijo()` in one dimension. -/
noncomputable def exGD : GradientDescent.Cfg Unit ℝ (Unit → ℝ) :=
  ⟨0.1, 0.1, maxNorm, maxNorm, steepestDescent none, Armijo.search ⟨0.5, 0.1, 1⟩, fun y i => 2 * y i⟩

/-- The default `BacktrackingArmijo()` is accepted, and a run of gradient descent with it on `y ↦ y²` exists (the
hypotheses of C27, C28 and C30 are met). -/
example : Armijo.new (K := ℝ) 0.5 0.1 1 = .ok ⟨0.5, 0.1, 1⟩ ∧ ∃ sol, iterativeSolve (GradientDescent.solver exGD ())
    (fun _ => true) (fun y => (y () ^ 2, ())) () (fun _ => 1) (some 7) false = some (.ok sol) := by
  obtain ⟨a, ha⟩ := (C55_armijo_valid_iff 0.5 0.1 1).1.2 (by norm_num)
  obtain ⟨rfl, _⟩ := armijo_new _ _ _ _ ha
  exact ⟨ha, C05_bounded_returns _ _ _ _ _ _ rfl 7⟩

/-- In `C28_accepts_gradient`, all hypotheses on step `1` hold for steepest descent on `y ↦ y²` from `1`, with direction
`p = -2`. -/
example : ∃ j st0, (GradientDescent.solver exGD ()).init (fun y => (y () ^ 2, ())) (fun _ => (1 : ℝ)) = .ok st0 ∧
      iterateAt (GradientDescent.solver exGD ()) (fun y => (y () ^ 2, ())) () (fun _ => 1) st0 (0 + 1 + j + 1) =
        fun _ => 1 + 1 * 0.5 ^ j * (-2) := by
  obtain ⟨a, ha⟩ := (C55_armijo_valid_iff 0.5 0.1 1).1.2 (by norm_num)
  obtain ⟨rfl, _⟩ := armijo_new _ _ _ _ ha
  have L := gd_laws exGD () (fun y : Unit → ℝ => (y () ^ 2, ()))
  have hstart := armijo_start (a := ⟨0.5, 0.1, 1⟩) L () (fun _ => 1) _ rfl
  obtain ⟨j, hj⟩ := C28_accepts_gradient 0.5 0.1 1 _ ha exGD rfl () (fun y : Unit → ℝ => (y () ^ 2, ()))
      (fun _ => 1) _ rfl 0 (fun _ => -2) hstart.2.1
      (by
        intro t
        show (fun i => -t * (2 * (1:ℝ))) = _
        funext c; ring)
      (by
        show treeDot (exGD.grad (iterateAt _ _ () (fun _ => 1) _ 1)) (fun _ => -2) < 0
        rw [hstart.1]
        norm_num [exGD, treeDot])
      (by
        show HasDerivAt _ (treeDot (exGD.grad (iterateAt _ _ () (fun _ => 1) _ 1)) (fun _ => -2)) 0
        have e : iterateAt (GradientDescent.solver exGD ()) (fun y : Unit → ℝ => (y () ^ 2, ())) () (fun _ => 1) _ (0 + 1) =
          _ := hstart.1
        rw [e]
        have h1 : HasDerivAt (fun t : ℝ => (1 + t * (-2)) ^ 2) (2 * (1 + 0 * (-2)) ^ 1 * (1 * (-2))) 0 :=
          by
          have := ((hasDerivAt_mul_const (x := (0:ℝ)) (-2)).const_add 1).pow 2
          have e : (2 * (1 + 0 * (-2)) ^ 1 * (1 * (-2)) : ℝ) = ((2:ℕ):ℝ) * (1 + 0 * (-2)) ^ (2 - 1) * (-2) := by norm_num
          rw [e]; exact this
        have h2 : treeDot (exGD.grad fun _ => 1) (fun _ => -2) = 2 * (1 + 0 * (-2)) ^ 1 * (1 * (-2)) := by
          norm_num [exGD, treeDot]
        rw [h2]; exact h1)
  exact ⟨j, _, rfl, hj.2.1⟩

end Verif.Props
