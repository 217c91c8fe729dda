import Verif.Model.Problems
import Verif.Props.GradientDominated
import Verif.Props.StronglyConvex
import Verif.Props.LBFGSAgree
import Verif.Props.TrustConvergence
import Verif.Spec.FitByMinimiser

/-!
Property C135: least squares with a minimiser.  `least_squares` accepts minimisers; it then hands them half the sum of the squared residuals.
-/

namespace Verif.Props

open Verif Verif.Spec Verif.Driver Verif.SearchLoop Verif.Rank Verif.QuasiNewton Verif.LBFGS Filter Topology

variable {ι κ A : Type} [Fintype ι] [Fintype κ]

/-- The objective that the minimiser sees. -/
theorem half_squares (fn : (ι → ℝ) → (κ → ℝ) × A) (y : ι → ℝ) : (lsqToMinimiseFn fn y).1 = (∑ m, (fn y).1 m ^ 2) / 2 := by
  show 1 / 2 * sumSquares (fn y).1 = _
  rw [show sumSquares (fn y).1 = ∑ m, (fn y).1 m ^ 2 from Finset.sum_congr rfl fun m _ => by ring]
  ring

/-- Its gradient `Jᵀr`. -/
def fitGrad (fn : (ι → ℝ) → (κ → ℝ) × A) (jac : (ι → ℝ) → Matrix κ ι ℝ) (y : ι → ℝ) (i : ι) : ℝ := ∑ m, jac y m i * (fn y).1 m

theorem fit_lipschitz (fn : (ι → ℝ) → (κ → ℝ) × A) (jac : (ι → ℝ) → Matrix κ ι ℝ) (L B : ℝ)
    (h : SmoothResiduals (fun y => (fn y).1) jac L B) :
    LipschitzGradient (fun y => (lsqToMinimiseFn fn y).1) (fitGrad fn jac) L := by
  simp only [half_squares]
  exact h.gradient

theorem fit_dominated (fn : (ι → ℝ) → (κ → ℝ) × A) (jac : (ι → ℝ) → Matrix κ ι ℝ) (μ : ℝ) (h : IndependentResiduals jac μ) :
    GradientDominated (fun y => (lsqToMinimiseFn fn y).1) (fitGrad fn jac) μ 0 where
  pos := h.pos
  lower y := by rw [half_squares]; exact div_nonneg (Finset.sum_nonneg fun _ _ => sq_nonneg _) two_pos.le
  slope y := by
    rw [half_squares]
    have := h.rows y (fn y).1
    show _ ≤ ∑ i, (∑ m, jac y m i * (fn y).1 m) ^ 2
    linarith

/-- Linear residuals are smooth. -/
theorem linear_smooth {r : (ι → ℝ) → κ → ℝ} {M : Matrix κ ι ℝ} {b : κ → ℝ} (h : ∀ y m, r y m = ∑ i, M m i * y i - b m) (B : ℝ) (hB : 0 ≤ B)
    (hM : ∀ p : ι → ℝ, ∑ m, (∑ i, M m i * p i) ^ 2 ≤ B * ∑ i, p i ^ 2) : SmoothResiduals r (fun _ => M) B B where
  deriv y p m := by
    simp only [h]
    have h1 : ∀ i ∈ (Finset.univ : Finset ι), HasDerivAt (fun t : ℝ => M m i * (y i + t * p i)) (M m i * p i) 0 := fun i _ => by
      simpa using (((hasDerivAt_id (0 : ℝ)).mul_const (p i)).const_add (y i)).const_mul (M m i)
    exact (HasDerivAt.fun_sum h1).sub_const (b m)
  lipschitz y z := by
    have e : ∀ i, ∑ m, M m i * r y m - ∑ m, M m i * r z m = ∑ m, M m i * ∑ j, M m j * (y j - z j) := by
      intro i
      rw [← Finset.sum_sub_distrib]
      refine Finset.sum_congr rfl fun m _ => ?_
      rw [← mul_sub, h, h]
      simp only [mul_sub, Finset.sum_sub_distrib]
      ring
    simp only [e]
    refine (transpose_bound M B hB hM _).trans ?_
    rw [sq, mul_assoc]
    exact mul_le_mul_of_nonneg_left (hM fun j => y j - z j) hB
  bounded _ p := hM p
  nonneg := ⟨hB, hB⟩

/-- Every matrix has a bound. -/
theorem matrix_bound (M : Matrix κ ι ℝ) : ∃ B, 0 ≤ B ∧ ∀ p : ι → ℝ, ∑ m, (∑ i, M m i * p i) ^ 2 ≤ B * ∑ i, p i ^ 2 := by
  refine ⟨∑ m, ∑ i, M m i ^ 2, Finset.sum_nonneg fun _ _ => Finset.sum_nonneg fun _ _ => sq_nonneg _, fun p => ?_⟩
  rw [Finset.sum_mul]
  exact Finset.sum_le_sum fun m _ => Finset.sum_mul_sq_le_sq_mul_sq Finset.univ (fun i => M m i) p

/-- The objective of a linear fit is strongly convex. -/
theorem linear_convex {fn : (ι → ℝ) → (κ → ℝ) × A} {M : Matrix κ ι ℝ} {b : κ → ℝ} {μ : ℝ} (h : LinearFit (fun y => (fn y).1) M b μ) :
    StronglyConvex (fun y => (lsqToMinimiseFn fn y).1) (fitGrad fn fun _ => M) μ where
  pos := h.pos
  lower y z := by
    simp only [half_squares, fitGrad]
    have h1 := h.columns fun i => z i - y i
    have e1 : ∑ i, (∑ m, M m i * (fn y).1 m) * (z i - y i) = ∑ m, (fn y).1 m * ∑ i, M m i * (z i - y i) := by
      simp only [Finset.sum_mul, Finset.mul_sum]
      rw [Finset.sum_comm]
      exact Finset.sum_congr rfl fun m _ => Finset.sum_congr rfl fun i _ => by ring
    have e2 : ∀ m, (fn z).1 m = (fn y).1 m + ∑ i, M m i * (z i - y i) := by
      intro m
      have a := h.linear z m
      have b := h.linear y m
      rw [show (fn z).1 m = _ from a, show (fn y).1 m = _ from b]
      simp only [mul_sub, Finset.sum_sub_distrib]
      ring
    have e3 : ∑ m, (fn z).1 m ^ 2 = ∑ m, (fn y).1 m ^ 2 + 2 * ∑ m, (fn y).1 m * (∑ i, M m i * (z i - y i)) +
        ∑ m, (∑ i, M m i * (z i - y i)) ^ 2 := by
      rw [Finset.mul_sum, ← Finset.sum_add_distrib, ← Finset.sum_add_distrib]
      exact Finset.sum_congr rfl fun m _ => by rw [e2]; ring
    rw [e1, e3]
    linarith

theorem exact_fit {fn : (ι → ℝ) → (κ → ℝ) × A} {Y : ℕ → ι → ℝ} {C : ℝ}
    (h : ReachesMinimum (fun y => (lsqToMinimiseFn fn y).1) Y 0 C) : ReachesExactFit (fun y => (fn y).1) Y (C / 2) := by
  obtain ⟨x, h0, _, hY, hk⟩ := h
  refine ⟨x, fun m => ?_, hY, fun k => ?_⟩
  · simp only [half_squares] at h0
    have h1 : ∑ m, (fn x).1 m ^ 2 = 0 := by linarith
    exact pow_eq_zero_iff two_ne_zero |>.1 ((Finset.sum_eq_zero_iff_of_nonneg fun _ _ => sq_nonneg _).1 h1 m (Finset.mem_univ m))
  · have := hk k
    simp only [half_squares] at this
    linarith

/-- **C135** for `GradientDescent`. -/
theorem C135_gradient_descent (rate rtol atol L B μ : ℝ) (hr0 : 0 < rate) (hrL : rate * L ≤ 1) (nY : (ι → ℝ) → ℝ)
    (nF : (Unit → ℝ) → ℝ) (jac : (ι → ℝ) → Matrix κ ι ℝ) (aux0 : A) (fn : (ι → ℝ) → (κ → ℝ) × A) (y0 : ι → ℝ)
    (hs : SmoothResiduals (fun y => (fn y).1) jac L B) (hi : IndependentResiduals jac μ) :
    let S := GradientDescent.solver (GradientDescent.gradientDescent rate rtol atol nY nF (fitGrad fn jac)) aux0
    (∀ af ms throw sol, leastSquaresViaMinimiser S af fn aux0 y0 ms throw = some (.ok sol) →
      ∑ m, (fn sol.value).1 m ^ 2 ≤ (1 - rate * μ) ^ (sol.numSteps - 1) * ∑ m, (fn y0).1 m ^ 2 ∧
      (sol.result = .successful → 0 < atol → 0 ≤ rtol → (∀ (x : ι → ℝ) i, |x i| ≤ nY x) →
        ∑ m, (fn sol.value).1 m ^ 2 ≤ (1 / rate + L) ^ 2 * (∑ i, (atol + rtol * |sol.value i|) ^ 2) / μ)) ∧
    ∃ st0, S.init (lsqToMinimiseFn fn) y0 = .ok st0 ∧
      ReachesExactFit (fun y => (fn y).1) (iterateAt S (lsqToMinimiseFn fn) aux0 y0 st0) (4 / μ) := by
  intro S
  obtain ⟨h1, st0, h2, h3⟩ := C115_gradient_descent rate rtol atol L μ 0 hr0 hrL nY nF (fitGrad fn jac) aux0 (lsqToMinimiseFn fn) y0
    (fit_lipschitz fn jac L B hs) (fit_dominated fn jac μ hi)
  refine ⟨fun af ms throw sol h => ?_, st0, h2, ?_⟩
  · simp only [leastSquaresViaMinimiser, minimise, if_true] at h
    obtain ⟨a, b⟩ := h1 af ms throw sol h
    simp only [half_squares, sub_zero] at a b
    refine ⟨by linarith, fun c d e f => ?_⟩
    have := b c d e f
    have e2 : (1 / rate + L) ^ 2 * (∑ i, (atol + rtol * |sol.value i|) ^ 2) / μ =
      2 * ((1 / rate + L) ^ 2 * (∑ i, (atol + rtol * |sol.value i|) ^ 2) / (2 * μ)) := by
      field_simp
    rw [e2]
    linarith
  · have := exact_fit h3
    rwa [show (8 : ℝ) / μ / 2 = 4 / μ by ring] at this

/-- **C135** for steepest descent with backtracking. -/
theorem C135_backtracking (d s i : ℝ) (a : Armijo.Cfg ℝ) (ha : Armijo.new d s i = .ok a)
    (rtol atol : ℝ) (nY : (ι → ℝ) → ℝ) (nF : (Unit → ℝ) → ℝ) (jac : (ι → ℝ) → Matrix κ ι ℝ) (aux0 : A)
    (fn : (ι → ℝ) → (κ → ℝ) × A) (y0 : ι → ℝ) (L B μ : ℝ) (hL0 : 0 < L)
    (hs : SmoothResiduals (fun y => (fn y).1) jac L B) (hi : IndependentResiduals jac μ)
    (hat : 0 < atol) (hrt : 0 ≤ rtol) (hY : GoodNorm nY) (hF : GoodNorm nF)
    (q : ℕ) (hq : a.stepInit * a.decreaseFactor ^ q < smallestStep a L) :
    let S := GradientDescent.solver (backtrackingDescent a rtol atol nY nF (fitGrad fn jac)) aux0
    ∃ st0, S.init (lsqToMinimiseFn fn) y0 = .ok st0 ∧
      let Y := iterateAt S (lsqToMinimiseFn fn) aux0 y0 st0
      (∀ n k, q * n ≤ k → ∑ m, (fn (Y (k + 1))).1 m ^ 2 ≤ descentFactor a L μ ^ n * ∑ m, (fn y0).1 m ^ 2) ∧
      ReachesExactFit (fun y => (fn y).1) Y (1 / (a.slope ^ 2 * μ)) ∧
      (∃ N, ∀ ms throw, (∀ n, ms = some n → N ≤ n) →
        ∃ sol, leastSquaresViaMinimiser S (fun _ => true) fn aux0 y0 ms throw = some (.ok sol) ∧ sol.result = .successful ∧
          sol.numSteps ≤ N) ∧
      ∀ af ms throw sol, leastSquaresViaMinimiser S af fn aux0 y0 ms throw = some (.ok sol) → sol.result = .successful →
        (∀ (x : ι → ℝ) i, |x i| ≤ nY x) →
        ∑ m, (fn sol.value).1 m ^ 2 ≤ (1 / smallestStep a L + L) ^ 2 * (∑ i, (atol + rtol * |sol.value i|) ^ 2) / μ := by
  intro S
  have hμ := hi.pos
  obtain ⟨st0, h1, h2, h3, h4, h5⟩ := C115_backtracking d s i a ha rtol atol nY nF (fitGrad fn jac) aux0 (lsqToMinimiseFn fn) y0 L μ 0 hL0
    (fit_lipschitz fn jac L B hs) (fit_dominated fn jac μ hi) hat hrt hY hF q hq
  refine ⟨st0, h1, fun n k hk => ?_, ?_, ?_, fun af ms throw sol h hr hN => ?_⟩
  · have := h2 n k hk
    simp only [half_squares, sub_zero] at this
    linarith
  · have := exact_fit h3
    rwa [show (2 : ℝ) / (a.slope ^ 2 * μ) / 2 = 1 / (a.slope ^ 2 * μ) by ring] at this
  · simp only [leastSquaresViaMinimiser, minimise, if_true]
    exact h4
  · simp only [leastSquaresViaMinimiser, minimise, if_true] at h
    have := h5 af ms throw sol h hr hN
    simp only [half_squares, sub_zero] at this
    have e2 : (1 / smallestStep a L + L) ^ 2 * (∑ i, (atol + rtol * |sol.value i|) ^ 2) / μ =
      2 * ((1 / smallestStep a L + L) ^ 2 * (∑ i, (atol + rtol * |sol.value i|) ^ 2) / (2 * μ)) := by
      generalize (1 / smallestStep a L + L) ^ 2 * (∑ i, (atol + rtol * |sol.value i|) ^ 2) = Q
      field_simp
    rw [e2]
    linarith

/-- **C135** for steepest descent with the linear trust region. -/
theorem C135_trust_region (c : TrustRegion.Cfg ℝ) (hc0 : 0 < c.lowCutoff) (hc1 : c.lowCutoff < 1) (hl0 : 0 < c.lowConstant)
    (hl1 : c.lowConstant < 1) (hh : 1 ≤ c.highConstant) (jac : (ι → ℝ) → Matrix κ ι ℝ) (aux0 : A) (fn : (ι → ℝ) → (κ → ℝ) × A)
    (cfg : GradientDescent.Cfg ι ℝ (ι → ℝ)) (hg : cfg.grad = fitGrad fn jac)
    (hsr : cfg.search = TrustRegion.linear c) (hdesc : cfg.descent = steepestDescent none)
    (y0 : ι → ℝ) (L B μ : ℝ) (hL0 : 0 < L) (hs : SmoothResiduals (fun y => (fn y).1) jac L B) (hi : IndependentResiduals jac μ)
    (hat : 0 < cfg.atol) (hrt : 0 ≤ cfg.rtol) (hY : GoodNorm cfg.normY) (hF : GoodNorm cfg.normF) :
    let S := GradientDescent.solver cfg aux0
    let tmin := min 1 (c.lowConstant * (2 * (1 - c.lowCutoff) / L))
    ∃ st0, S.init (lsqToMinimiseFn fn) y0 = .ok st0 ∧
      ReachesExactFit (fun y => (fn y).1) (iterateAt S (lsqToMinimiseFn fn) aux0 y0 st0) (1 / (c.lowCutoff ^ 2 * μ)) ∧
      (∃ N, ∀ ms throw, (∀ n, ms = some n → N ≤ n) →
        ∃ sol, leastSquaresViaMinimiser S (fun _ => true) fn aux0 y0 ms throw = some (.ok sol) ∧ sol.result = .successful ∧
          sol.numSteps ≤ N) ∧
      ∀ af ms throw sol, leastSquaresViaMinimiser S af fn aux0 y0 ms throw = some (.ok sol) → sol.result = .successful →
        (∀ (x : ι → ℝ) i, |x i| ≤ cfg.normY x) →
        ∑ m, (fn sol.value).1 m ^ 2 ≤ (1 / tmin + L) ^ 2 * (∑ i, (cfg.atol + cfg.rtol * |sol.value i|) ^ 2) / μ := by
  intro S tmin
  have hμ := hi.pos
  obtain ⟨st0, h1⟩ : ∃ st0, (GradientDescent.solver cfg aux0).init (lsqToMinimiseFn fn) y0 = .ok st0 := by
    cases cfg
    subst hdesc hsr
    exact ⟨_, rfl⟩
  have htm : 0 < tmin := lt_min one_pos (mul_pos hl0 (div_pos (mul_pos two_pos (sub_pos.2 hc1)) hL0))
  obtain ⟨q, hq⟩ := exists_pow_lt_of_lt_one htm hl1
  obtain ⟨r, hr⟩ := exists_pow_lt_of_lt_one (inv_pos.2 (one_pos.trans_le hh)) hl1
  have hr' : c.lowConstant ^ r * c.highConstant ≤ 1 := by
    have := mul_le_mul_of_nonneg_right hr.le (one_pos.trans_le hh).le
    rwa [inv_mul_cancel₀ (one_pos.trans_le hh).ne'] at this
  obtain ⟨_, h3, h4, h5⟩ := C115_trust_region c hc0 hc1 hl0 hl1 hh cfg hsr hdesc aux0 (lsqToMinimiseFn fn) y0 L μ 0
    (by rw [hg]; exact fit_lipschitz fn jac L B hs) hL0 (by rw [hg]; exact fit_dominated fn jac μ hi) hat hrt hY hF st0 h1 r q hr' hq
  refine ⟨st0, h1, ?_, ?_, fun af ms throw sol h hr hN => ?_⟩
  · have := exact_fit h3
    rwa [show (2 : ℝ) / (c.lowCutoff ^ 2 * μ) / 2 = 1 / (c.lowCutoff ^ 2 * μ) by ring] at this
  · simp only [leastSquaresViaMinimiser, minimise, if_true]
    exact h4
  · simp only [leastSquaresViaMinimiser, minimise, if_true] at h
    have := h5 af ms throw sol h hr hN
    simp only [half_squares, sub_zero] at this
    have e2 : (1 / tmin + L) ^ 2 * (∑ i, (cfg.atol + cfg.rtol * |sol.value i|) ^ 2) / μ =
      2 * ((1 / tmin + L) ^ 2 * (∑ i, (cfg.atol + cfg.rtol * |sol.value i|) ^ 2) / (2 * μ)) := by
      generalize (1 / tmin + L) ^ 2 * (∑ i, (cfg.atol + cfg.rtol * |sol.value i|) ^ 2) = Q
      field_simp
    rw [e2]
    linarith

/-! ### Linear fits -/

/-- `least_squares` with the minimiser `S` solves the fit: the iterates converge to the best fit, and the solve reports success after finitely
many steps. -/
def FitSolved {St Stats : Type} (S : Solver (ι → ℝ) ℝ A St Stats) (fn : (ι → ℝ) → (κ → ℝ) × A) (aux0 : A) (y0 : ι → ℝ) : Prop :=
  ∃ st0, S.init (lsqToMinimiseFn fn) y0 = .ok st0 ∧
    ReachesBestFit (fun y => (fn y).1) (iterateAt S (lsqToMinimiseFn fn) aux0 y0 st0) ∧
    ∃ N, ∀ ms throw, (∀ n, ms = some n → N ≤ n) →
      ∃ sol, leastSquaresViaMinimiser S (fun _ => true) fn aux0 y0 ms throw = some (.ok sol) ∧
        sol.result = .successful ∧ sol.numSteps ≤ N

theorem fit_solved {St Stats : Type} {S : Solver (ι → ℝ) ℝ A St Stats} {fn : (ι → ℝ) → (κ → ℝ) × A} {aux0 : A} {y0 : ι → ℝ}
    (h : Solves S (lsqToMinimiseFn fn) aux0 y0) : FitSolved S fn aux0 y0 := by
  obtain ⟨st0, h1, ⟨x, h2, h3⟩, h4⟩ := h
  refine ⟨st0, h1, ⟨x, fun y hy => ?_, h3⟩, ?_⟩
  · have := h2 y hy
    simp only [half_squares] at this
    linarith
  · simp only [leastSquaresViaMinimiser, minimise, if_true]
    exact h4

/-- **C135** for linear fits with `BFGS`, `DFP`, `LBFGS` (either variant) and steepest descent, with backtracking. -/
theorem C135_linear [DecidableEq ι] (b : Bool) (h : Nat) [NeZero h] (la : DenseLA h) (hla : ExactLA la)
    (ls : LinSolve ι Unit) (hls : SolvesSPD ls) (d s i : ℝ) (a : Armijo.Cfg ℝ) (ha : Armijo.new d s i = .ok a)
    (eps rtol atol : ℝ) (heps : 0 < eps) (hat : 0 < atol) (hrt : 0 ≤ rtol) (nY : (ι → ℝ) → ℝ) (nF : (Unit → ℝ) → ℝ)
    (hY : GoodNorm nY) (hF : GoodNorm nF) (aux0 : A) (fn : (ι → ℝ) → (κ → ℝ) × A) (y0 : ι → ℝ)
    (M : Matrix κ ι ℝ) (v : κ → ℝ) (μ : ℝ) (hfit : LinearFit (fun y => (fn y).1) M v μ) :
    let grad := fitGrad fn fun _ => M
    FitSolved (QuasiNewton.solver (withArmijo rtol atol nY nF ls a (bfgs eps b) grad) aux0) fn aux0 y0 ∧
    FitSolved (QuasiNewton.solver (withArmijo rtol atol nY nF ls a (dfp eps b) grad) aux0) fn aux0 y0 ∧
    FitSolved (QuasiNewton.solver (withArmijo rtol atol nY nF ls a (LBFGS.inverse eps h) grad) aux0) fn aux0 y0 ∧
    FitSolved (QuasiNewton.solver (withArmijo rtol atol nY nF ls a (LBFGS.direct eps h la) grad) aux0) fn aux0 y0 ∧
    FitSolved (GradientDescent.solver (backtrackingDescent a rtol atol nY nF grad) aux0) fn aux0 y0 := by
  intro grad
  obtain ⟨B, hB, hM⟩ := matrix_bound M
  have hL := fit_lipschitz fn _ B B (linear_smooth hfit.linear B hB hM)
  have hc := linear_convex hfit
  exact ⟨fit_solved (C63_bfgs b ls (fun _ => hls) d s i a ha eps rtol atol heps hat hrt nY nF hY hF grad aux0 _ y0 B μ hL hc),
    fit_solved (C63_dfp b ls (fun _ => hls) d s i a ha eps rtol atol heps hat hrt nY nF hY hF grad aux0 _ y0 B μ hL hc),
    fit_solved (C63_lbfgs_inverse h ls d s i a ha eps rtol atol heps hat hrt nY nF hY hF grad aux0 _ y0 B μ hL hc),
    fit_solved (C63_lbfgs_direct h la hla ls hls d s i a ha eps rtol atol heps hat hrt nY nF hY hF grad aux0 _ y0 B μ hL hc),
    fit_solved (C63_steepest_descent d s i a ha rtol atol nY nF grad aux0 _ y0 B μ hL hc hat hrt hY hF)⟩

/-! ### The hypotheses are met -/

/-- One measurement of two unknowns: `y₀ + y₁ = 3`. -/
def oneMeasurement (y : Fin 2 → ℝ) : (Unit → ℝ) × Unit := (fun _ => y 0 + y 1 - 3, ())

/-- Its Jacobian. -/
def onesRow : Matrix Unit (Fin 2) ℝ := fun _ _ => 1

theorem oneMeasurement_smooth : SmoothResiduals (fun y => (oneMeasurement y).1) (fun _ => onesRow) 2 2 :=
  linear_smooth (M := onesRow) (b := fun _ => 3) (fun y _ => by simp [oneMeasurement, onesRow, Fin.sum_univ_two]) 2 two_pos.le fun p => by
    simp only [onesRow, Fin.sum_univ_two, Finset.univ_unique, Finset.sum_singleton, one_mul]
    nlinarith [sq_nonneg (p 0 - p 1)]

theorem oneMeasurement_independent : IndependentResiduals (fun _ : Fin 2 → ℝ => onesRow) 2 where
  pos := two_pos
  rows _ u := by
    simp only [onesRow, Fin.sum_univ_two, Finset.univ_unique, Finset.sum_singleton, one_mul]
    linarith

/-- The iterates of gradient descent converge to a point that fits the measurement. -/
example (y0 : Fin 2 → ℝ) : ∃ x : Fin 2 → ℝ, x 0 + x 1 = 3 ∧
    let S := GradientDescent.solver (GradientDescent.gradientDescent (1/2) 0 (1/100) maxNorm maxNorm
      (fitGrad oneMeasurement fun _ => onesRow)) ()
    ∃ st0, Tendsto (iterateAt S (lsqToMinimiseFn oneMeasurement) () y0 st0) atTop (𝓝 x) := by
  obtain ⟨_, st0, _, x, h, hx, _⟩ := C135_gradient_descent (1/2) 0 (1/100) 2 2 2 (by norm_num) (by norm_num) maxNorm maxNorm _ () oneMeasurement y0
    oneMeasurement_smooth oneMeasurement_independent
  exact ⟨x, by have := h (); simp only [oneMeasurement] at this; linarith, st0, hx⟩

/-- Three measurements `y = 1`, `y = 2`, `y = 6` of one unknown: the best fit is `3`, with residuals that are not zero. -/
def threeMeasurements (y : Unit → ℝ) : (Fin 3 → ℝ) × Unit := (fun m => y () - ![1, 2, 6] m, ())

theorem threeMeasurements_linear :
    LinearFit (fun y => (threeMeasurements y).1) (fun _ _ => 1) ![1, 2, 6] 3 where
  linear y m := by simp [threeMeasurements]
  pos := by norm_num
  columns p := by simp

example (b : Bool) (y0 : Unit → ℝ) :
    FitSolved (QuasiNewton.solver (withArmijo (1/10) (1/10) maxNorm maxNorm
      { rect := fun _ _ => (fun _ => 0, .successful), square := fun B g => (B⁻¹.mulVec g, .successful) }
      ⟨1/2, 1/10, 1⟩ (bfgs (1/100) b) (fitGrad threeMeasurements fun _ _ _ => 1)) ()) threeMeasurements () y0 :=
  (C135_linear b 3 (exactLA 3) (exactLA_exact 3) _ exact_solver_exists (1/2) (1/10) 1 _ (by norm_num [Armijo.new]) _ _ _ (by norm_num)
      (by norm_num) (by norm_num) _ _ goodNorm_maxNorm goodNorm_maxNorm () threeMeasurements y0 _ _ 3 threeMeasurements_linear).1

end Verif.Props
