import Verif.Props.ConvexRates
import Verif.Props.Damping
import Verif.Lemmas.Euclid
import Verif.Spec.Noisy

/-!
**C124.** `GradientDescent` on an objective that is only computed approximately: how close it gets, what success means and when it is
reported. The errors may be anything bounded (rounding of the objective, of its gradient and, divided by the learning rate, of the update
`y - rate * grad` itself) and need not be consistent with one another.
-/

namespace Verif.Props

open Verif Verif.Spec Verif.Driver

section

variable {ι A : Type} [Fintype ι] (rate rtol atol L μ ε εf : ℝ) (nY : (ι → ℝ) → ℝ) (nF : (Unit → ℝ) → ℝ)
  (F : (ι → ℝ) → ℝ) (G grad : (ι → ℝ) → (ι → ℝ)) (aux0 : A) (fn : (ι → ℝ) → ℝ × A) (y0 xs : ι → ℝ) (af : (ι → ℝ) → Bool)

omit [Fintype ι] in
theorem gdMap_error (x : ι → ℝ) (i : ι) : gdMap rate grad x i = gdMap rate G x i - rate * (grad x i - G x i) := by
  simp only [gdMap]; ring

/-- The minimiser of a strongly convex function. -/
theorem _root_.Verif.Spec.StronglyConvex.min {F : (ι → ℝ) → ℝ} {G : (ι → ℝ) → ι → ℝ} {L μ : ℝ} {xs : ι → ℝ}
    (hF : StronglyConvex F G L μ xs) (y : ι → ℝ) : F xs ≤ F y := by
  have := hF.convex xs y
  simp only [hF.stationary, zero_mul, Finset.sum_const_zero, add_zero] at this
  have h0 : 0 ≤ ∑ i, (y i - xs i) ^ 2 := Finset.sum_nonneg fun i _ => sq_nonneg _
  nlinarith [hF.mu_pos, mul_nonneg hF.mu_pos.le h0]

/-- The value near the minimiser. -/
theorem _root_.Verif.Spec.StronglyConvex.upper {F : (ι → ℝ) → ℝ} {G : (ι → ℝ) → ι → ℝ} {L μ : ℝ} {xs : ι → ℝ}
    (hF : StronglyConvex F G L μ xs) (y : ι → ℝ) : F y ≤ F xs + L / 2 * ∑ i, (y i - xs i) ^ 2 := by
  have := hF.smooth xs y
  simpa only [hF.stationary, zero_mul, Finset.sum_const_zero, add_zero] using this

/-- An exact step of length `rate |G|` is no longer than the distance to the minimiser. -/
theorem exact_step_le (hr0 : 0 < rate) (hrL : rate * L ≤ 1) (hF : StronglyConvex F G L μ xs) (x : ι → ℝ) :
    rate * euclid (G x) ≤ euclid (fun i => x i - xs i) := by
  have h1 := gd_decrease (A := Unit) rate L G (fun y => (F y, ())) hr0 hrL hF.smooth x
  have h2 := hF.min (gdMap rate G x)
  have h3 := hF.upper x
  rw [← euclid_sq] at h1
  rw [← euclid_sq (fun i => x i - xs i)] at h3
  dsimp only at h1
  have h4 : rate * euclid (G x) ^ 2 ≤ L * euclid (fun i => x i - xs i) ^ 2 := by linarith
  have h5 : (rate * euclid (G x)) ^ 2 ≤ euclid (fun i => x i - xs i) ^ 2 := by
    have := mul_le_mul_of_nonneg_left h4 hr0.le
    have h6 := mul_le_mul_of_nonneg_right hrL (sq_nonneg (euclid (fun i => x i - xs i)))
    nlinarith
  exact le_of_sq_le_sq h5 (euclid_nonneg _)

/-- One step of gradient descent with an error of at most `ε` in the gradient. -/
theorem noisy_step (hr0 : 0 < rate) (hrL : rate * L ≤ 1) (hF : StronglyConvex F G L μ xs) (x : ι → ℝ)
    (hg : euclid (fun i => grad x i - G x i) ≤ ε) :
    euclid (fun i => gdMap rate grad x i - xs i) ≤ (1 - rate * μ / 2) * euclid (fun i => x i - xs i) + rate * ε := by
  have hmu : rate * μ ≤ 1 := (mul_le_mul_of_nonneg_left hF.mu_le hr0.le).trans hrL
  have h1 := gd_distance (A := Unit) rate L G (fun y => (F y, ())) hr0 hrL μ hF.smooth hF.convex x xs
  have h2 := mul_nonneg hr0.le (sub_nonneg.2 (hF.min (gdMap rate G x)))
  rw [← euclid_sq, ← euclid_sq (fun i => x i - xs i)] at h1
  dsimp only at h1
  have h3 : euclid (fun i => gdMap rate G x i - xs i) ≤ (1 - rate * μ / 2) * euclid (fun i => x i - xs i) := by
    refine le_of_sq_le_sq ?_ (mul_nonneg (by linarith) (euclid_nonneg _))
    have h4 : 0 ≤ (rate * μ / 2) ^ 2 * euclid (fun i => x i - xs i) ^ 2 := by positivity
    nlinarith
  have h5 := euclid_sub (fun i => gdMap rate G x i - xs i) (fun i => rate * (grad x i - G x i))
  have h6 : euclid (fun i => rate * (grad x i - G x i)) ≤ rate * ε := by
    have : euclid (fun i => rate * (grad x i - G x i)) = rate * euclid (fun i => grad x i - G x i) := by
      unfold euclid
      rw [show ∑ i, (rate * (grad x i - G x i)) ^ 2 = rate ^ 2 * ∑ i, (grad x i - G x i) ^ 2 by
        rw [Finset.mul_sum]; exact Finset.sum_congr rfl fun i _ => by ring, Real.sqrt_mul (sq_nonneg _), Real.sqrt_sq hr0.le]
    rw [this]
    exact mul_le_mul_of_nonneg_left hg hr0.le
  have e : (fun i => gdMap rate grad x i - xs i) = fun i => (gdMap rate G x i - xs i) - rate * (grad x i - G x i) := by
    funext i; rw [gdMap_error rate G grad]; ring
  rw [e]
  linarith

/-- The iterates of gradient descent with errors in the gradient. -/
theorem noisy_iterates (hr0 : 0 < rate) (hrL : rate * L ≤ 1) (hF : StronglyConvex F G L μ xs)
    (hg : ∀ y, euclid (fun i => grad y i - G y i) ≤ ε) (k : ℕ) :
    euclid (fun i => (gdMap rate grad)^[k] y0 i - xs i) ≤
      (1 - rate * μ / 2) ^ k * euclid (fun i => y0 i - xs i) + 2 * ε / μ := by
  have hmu : rate * μ ≤ 1 := (mul_le_mul_of_nonneg_left hF.mu_le hr0.le).trans hrL
  have hε : 0 ≤ ε := (euclid_nonneg _).trans (hg y0)
  have hμ := hF.mu_pos
  induction k with
  | zero => simp only [Function.iterate_zero, id, pow_zero, one_mul]; linarith [show 0 ≤ 2 * ε / μ by positivity]
  | succ k ih =>
    rw [Function.iterate_succ_apply', pow_succ']
    have h1 := noisy_step rate L μ ε F G grad xs hr0 hrL hF ((gdMap rate grad)^[k] y0) (hg _)
    have h2 := mul_le_mul_of_nonneg_left ih (show 0 ≤ 1 - rate * μ / 2 by linarith)
    have h3 : rate * μ / 2 * (2 * ε / μ) = rate * ε := by field_simp
    nlinarith

/-- **C124.** How close gradient descent gets, whatever the outcome of the solve: the distance of the returned value to the true minimiser is
a geometrically shrinking multiple of the initial distance plus `2 ε / μ`. -/
theorem C124_rate (hr0 : 0 < rate) (hrL : rate * L ≤ 1) (hF : StronglyConvex F G L μ xs)
    (hc : ComputedWithin F G (fun y => (fn y).1) grad εf ε) (ms : Option Nat) (throw : Bool)
    (sol : Solution (ι → ℝ) A (GradientDescent.State ι A Unit (ι → ℝ)) Unit)
    (h : iterativeSolve (gdSolver rate rtol atol nY nF grad aux0) af fn aux0 y0 ms throw = some (.ok sol)) :
    Real.sqrt (∑ i, (sol.value i - xs i) ^ 2) ≤
      (1 - rate * μ / 2) ^ (sol.numSteps - 1) * Real.sqrt (∑ i, (y0 i - xs i) ^ 2) + 2 * ε / μ := by
  rw [C31_value rate rtol atol nY nF grad aux0 fn y0 af ms throw sol h]
  exact noisy_iterates rate L μ ε F G grad y0 xs hr0 hrL hF hc.gradient _

/-- **C124.** What success means: the true minimiser is within the tolerance divided by the learning rate, plus the error of the gradient, both
divided by `μ`, plus one step's worth of error. -/
theorem C124_success (hr0 : 0 < rate) (hrL : rate * L ≤ 1) (ha : 0 < atol) (hr : 0 ≤ rtol) (hF : StronglyConvex F G L μ xs)
    (hc : ComputedWithin F G (fun y => (fn y).1) grad εf ε) (ms : Option Nat) (throw : Bool)
    (sol : Solution (ι → ℝ) A (GradientDescent.State ι A Unit (ι → ℝ)) Unit)
    (h : iterativeSolve (gdSolver rate rtol atol maxNorm maxNorm grad aux0) af fn aux0 y0 ms throw = some (.ok sol))
    (hs : sol.result = .successful) :
    Real.sqrt (∑ i, (sol.value i - xs i) ^ 2) ≤
      (Real.sqrt (∑ i, (atol + rtol * |sol.value i|) ^ 2) / rate + ε) / μ + rate * ε := by
  obtain ⟨x, hx, hsmall, -⟩ := C31_success_small_gradient rate rtol atol grad aux0 fn y0 ha hr af ms throw sol h hs
  have hμ := hF.mu_pos
  have hmu : rate * μ ≤ 1 := (mul_le_mul_of_nonneg_left hF.mu_le hr0.le).trans hrL
  have hgx := hc.gradient x
  change euclid (fun i => grad x i - G x i) ≤ ε at hgx
  change euclid (fun i => sol.value i - xs i) ≤ (euclid (fun i => atol + rtol * |sol.value i|) / rate + ε) / μ + rate * ε
  -- the gradient that was computed is small
  have h1 : rate * euclid (grad x) ≤ euclid (fun i => atol + rtol * |sol.value i|) := by
    have e : rate * euclid (grad x) = euclid (fun i => rate * grad x i) := by
      unfold euclid
      rw [show ∑ i, (rate * grad x i) ^ 2 = rate ^ 2 * ∑ i, grad x i ^ 2 by
        rw [Finset.mul_sum]; exact Finset.sum_congr rfl fun i _ => by ring, Real.sqrt_mul (sq_nonneg _), Real.sqrt_sq hr0.le]
    rw [e]
    refine Real.sqrt_le_sqrt (Finset.sum_le_sum fun i _ => ?_)
    rw [← sq_abs (rate * grad x i)]
    exact pow_le_pow_left₀ (abs_nonneg _) (hsmall i).le 2
  -- and so is the true one
  have h2 : euclid (G x) ≤ euclid (grad x) + ε := by
    have := euclid_sub (grad x) (fun i => grad x i - G x i)
    have e : (fun i => grad x i - (grad x i - G x i)) = G x := by funext i; ring
    rw [e] at this
    linarith
  -- strong convexity turns that into a distance
  have h3 : μ * euclid (fun i => x i - xs i) ≤ euclid (G x) := by
    have a1 := hF.convex x xs
    have a2 := hF.convex xs x
    simp only [hF.stationary, zero_mul, Finset.sum_const_zero, add_zero] at a2
    have e2 : ∑ i, (xs i - x i) ^ 2 = ∑ i, (x i - xs i) ^ 2 := Finset.sum_congr rfl fun i _ => by ring
    have e3 : ∑ i, G x i * (xs i - x i) = -∑ i, G x i * (x i - xs i) := by
      rw [← Finset.sum_neg_distrib]; exact Finset.sum_congr rfl fun i _ => by ring
    rw [e2, e3] at a1
    have a3 := euclid_dot (G x) (fun i => x i - xs i)
    have a4 : μ * euclid (fun i => x i - xs i) ^ 2 ≤ euclid (G x) * euclid (fun i => x i - xs i) := by
      rw [euclid_sq]; linarith
    rcases (euclid_nonneg (fun i => x i - xs i)).eq_or_lt with h0 | h0
    · rw [← h0, mul_zero]; exact euclid_nonneg _
    · refine le_of_mul_le_mul_right ?_ h0
      calc _ = μ * euclid (fun i => x i - xs i) ^ 2 := by ring
        _ ≤ _ := a4
  have h4 := noisy_step rate L μ ε F G grad xs hr0 hrL hF x hgx
  have hv : sol.value = gdMap rate grad x := hx
  have h5 : euclid (fun i => x i - xs i) ≤ (euclid (fun i => atol + rtol * |sol.value i|) / rate + ε) / μ := by
    rw [le_div_iff₀ hμ]
    have : euclid (grad x) ≤ euclid (fun i => atol + rtol * |sol.value i|) / rate := by
      rw [le_div_iff₀ hr0]; linarith
    linarith
  have h6 : 0 ≤ rate * μ / 2 * euclid (fun i => x i - xs i) := mul_nonneg (by positivity) (euclid_nonneg _)
  have e : euclid (fun i => sol.value i - xs i) = euclid (fun i => gdMap rate grad x i - xs i) := by rw [hv]
  rw [e]
  linarith

/-- If two consecutive points of the recursion are within the absolute tolerance, in the point and in the computed value, then the solve has
succeeded by then. -/
theorem gd_stops_by (ha : 0 < atol) (hr : 0 ≤ rtol) (haf : ∀ y, af y = true) (k : ℕ)
    (hg : ∀ i, |(gdMap rate grad)^[k + 1] y0 i - (gdMap rate grad)^[k] y0 i| < atol)
    (hfd : |(fn ((gdMap rate grad)^[k + 1] y0)).1 - (fn ((gdMap rate grad)^[k] y0)).1| < atol) (ms : Option Nat) (throw : Bool)
    (hb : ∀ n, ms = some n → k + 2 ≤ n) :
    ∃ sol, iterativeSolve (gdSolver rate rtol atol maxNorm maxNorm grad aux0) af fn aux0 y0 ms throw = some (.ok sol) ∧
      sol.result = .successful ∧ sol.numSteps ≤ k + 2 := by
  have hden : ∀ v : ℝ, 0 < atol + rtol * |v| := fun v => by positivity
  have hbase : ∀ a v : ℝ, |a| < atol → |(|a| / (atol + rtol * |v|))| < 1 := fun a v h => by
    rw [abs_div, abs_abs, abs_of_pos (hden v), div_lt_one (hden v)]
    have := mul_nonneg hr (abs_nonneg v)
    linarith
  obtain ⟨st0, hi⟩ : ∃ st0, (gdSolver rate rtol atol maxNorm maxNorm grad aux0).init fn y0 = .ok st0 := ⟨_, rfl⟩
  have hst := gd_state rate rtol atol maxNorm maxNorm grad aux0 fn y0 st0 hi
  obtain ⟨sol, h1, h2, h3, _⟩ := solve_succeeds_by (gdSolver rate rtol atol maxNorm maxNorm grad aux0) af fn aux0 y0 st0 hi ms throw
    (k + 2) (fun j _ => haf _)
    (by
      intro j _
      obtain _ | j := j
      · cases hi; rfl
      · exact (hst j).2.2.2.1)
    (by
      show (stateAt (gdSolver rate rtol atol maxNorm maxNorm grad aux0) fn aux0 y0 st0 (k + 2)).terminate = true
      obtain ⟨s1, s2, s3, s4, s5⟩ := hst k
      generalize hS : stateAt (gdSolver rate rtol atol maxNorm maxNorm grad aux0) fn aux0 y0 st0 (k + 1) = S at *
      generalize hYk : iterateAt (gdSolver rate rtol atol maxNorm maxNorm grad aux0) fn aux0 y0 st0 (k + 1) = Yk at *
      have hS2 : stateAt (gdSolver rate rtol atol maxNorm maxNorm grad aux0) fn aux0 y0 st0 (k + 2) =
        (GradientDescent.step (GradientDescent.gradientDescent rate rtol atol maxNorm maxNorm grad) fn Yk S).2.1 := by
        rw [← hS, ← hYk]; rfl
      rw [hS2]
      have hgoal : cauchyTermination rtol atol maxNorm maxNorm S.yEval (fun i => S.yEval i - Yk i)
          (fun _ : Unit => (fn S.yEval).1) (fun _ => (fn S.yEval).1 - GradientDescent.fOf S.fInfo) = true := by
        rw [s2, s1, s3]
        simp only [cauchyTermination, Bool.and_eq_true, decide_eq_true_eq]
        exact ⟨(maxNorm_lt_iff _ _).2 ⟨one_pos, fun i => hbase _ _ (hg i)⟩,
          (maxNorm_lt_iff _ _).2 ⟨one_pos, fun i => hbase _ _ hfd⟩⟩
      simp only [GradientDescent.step, GradientDescent.gradientDescent, learningRate, if_true, s5, Bool.false_eq_true,
        if_false]
      exact hgoal)
    hb
  exact ⟨sol, h1, h2, h3⟩

/-- **C124.** Success is reported if the tolerance exceeds the noise: let `d` be any distance the iterates are sure to reach after `N` steps,
`(1 - rate μ / 2)^N ‖y0 - xs‖ + 2 ε / μ ≤ d`. If steps of length `d + rate ε` and changes of value `2 εf + L (d + rate ε)² / 2` pass the test on
`atol`, then `N + 2` steps are enough. -/
theorem C124_succeeds (hr0 : 0 < rate) (hrL : rate * L ≤ 1) (ha : 0 < atol) (hr : 0 ≤ rtol) (hF : StronglyConvex F G L μ xs)
    (hc : ComputedWithin F G (fun y => (fn y).1) grad εf ε) (haf : ∀ y, af y = true) (d : ℝ) (N : ℕ)
    (hN : (1 - rate * μ / 2) ^ N * Real.sqrt (∑ i, (y0 i - xs i) ^ 2) + 2 * ε / μ ≤ d) (h1 : d + rate * ε < atol)
    (h2 : 2 * εf + L / 2 * (d + rate * ε) ^ 2 < atol) (ms : Option Nat) (throw : Bool) (hb : ∀ n, ms = some n → N + 2 ≤ n) :
    ∃ sol, iterativeSolve (gdSolver rate rtol atol maxNorm maxNorm grad aux0) af fn aux0 y0 ms throw = some (.ok sol) ∧
      sol.result = .successful ∧ sol.numSteps ≤ N + 2 := by
  have hμ := hF.mu_pos
  have hL : 0 < L := hμ.trans_le hF.mu_le
  have hε : 0 ≤ ε := (Real.sqrt_nonneg _).trans (hc.gradient y0)
  have hmu : rate * μ ≤ 1 := (mul_le_mul_of_nonneg_left hF.mu_le hr0.le).trans hrL
  set x := (gdMap rate grad)^[N] y0 with hxdef
  have hxd : euclid (fun i => x i - xs i) ≤ d := (noisy_iterates rate L μ ε F G grad y0 xs hr0 hrL hF hc.gradient N).trans hN
  have hd0 : 0 ≤ d := (euclid_nonneg _).trans hxd
  have hx1 : (gdMap rate grad)^[N + 1] y0 = gdMap rate grad x := Function.iterate_succ_apply' _ _ _
  have hxd1 : euclid (fun i => gdMap rate grad x i - xs i) ≤ d + rate * ε := by
    have := noisy_step rate L μ ε F G grad xs hr0 hrL hF x (hc.gradient x)
    have h6 : 0 ≤ rate * μ / 2 * euclid (fun i => x i - xs i) := mul_nonneg (by positivity) (euclid_nonneg _)
    linarith
  have hre : 0 ≤ rate * ε := by positivity
  -- the value of the true objective at both points
  have hup : ∀ z : ι → ℝ, euclid (fun i => z i - xs i) ≤ d + rate * ε → F z ≤ F xs + L / 2 * (d + rate * ε) ^ 2 := fun z hz => by
    have := hF.upper z
    rw [← euclid_sq (fun i => z i - xs i)] at this
    have h7 := pow_le_pow_left₀ (euclid_nonneg (fun i => z i - xs i)) hz 2
    nlinarith
  refine gd_stops_by rate rtol atol grad aux0 fn y0 af ha hr haf N ?_ ?_ ms throw hb
  · intro i
    rw [hx1]
    have e : gdMap rate grad x i - x i = -(rate * grad x i) := by simp only [gdMap]; ring
    rw [e, abs_neg, abs_mul, abs_of_pos hr0]
    have h3 := exact_step_le rate L μ F G xs hr0 hrL hF x
    have h4 : euclid (grad x) ≤ euclid (G x) + ε := by
      have := euclid_add (G x) (fun i => grad x i - G x i)
      have e : (fun i => G x i + (grad x i - G x i)) = grad x := by funext i; ring
      rw [e] at this
      have := hc.gradient x
      change euclid (fun i => grad x i - G x i) ≤ ε at this
      linarith
    have h5 := mul_le_mul_of_nonneg_left ((abs_le_euclid (grad x) i).trans h4) hr0.le
    linarith
  · rw [hx1]
    have a1 := abs_le.1 (hc.value x)
    have a2 := abs_le.1 (hc.value (gdMap rate grad x))
    have b1 := hup x (by linarith)
    have b2 := hup _ hxd1
    have c1 := hF.min x
    have c2 := hF.min (gdMap rate grad x)
    rw [abs_lt]
    constructor <;> linarith [a1.1, a1.2, a2.1, a2.2]

/-- **C124.** Without a bound on the number of steps in view: there is always a distance above `2 ε / μ` that works when the tolerance exceeds the
noise, so the solve succeeds when it is given enough steps. -/
theorem C124_enough_steps (hr0 : 0 < rate) (hrL : rate * L ≤ 1) (ha : 0 < atol) (hr : 0 ≤ rtol) (hF : StronglyConvex F G L μ xs)
    (hc : ComputedWithin F G (fun y => (fn y).1) grad εf ε) (haf : ∀ y, af y = true) (d : ℝ) (hd : 2 * ε / μ < d)
    (h1 : d + rate * ε < atol) (h2 : 2 * εf + L / 2 * (d + rate * ε) ^ 2 < atol) :
    ∃ N, ∀ (ms : Option Nat) (throw : Bool), (∀ n, ms = some n → N ≤ n) →
    ∃ sol, iterativeSolve (gdSolver rate rtol atol maxNorm maxNorm grad aux0) af fn aux0 y0 ms throw = some (.ok sol) ∧
      sol.result = .successful ∧ sol.numSteps ≤ N := by
  have hμ := hF.mu_pos
  have hmu : rate * μ ≤ 1 := (mul_le_mul_of_nonneg_left hF.mu_le hr0.le).trans hrL
  have hpos : 0 < rate * μ := by positivity
  have hlim : Filter.Tendsto (fun N : ℕ => (1 - rate * μ / 2) ^ N * Real.sqrt (∑ i, (y0 i - xs i) ^ 2)) Filter.atTop (nhds 0) := by
    have := (tendsto_pow_atTop_nhds_zero_of_lt_one (show 0 ≤ 1 - rate * μ / 2 by linarith)
      (show 1 - rate * μ / 2 < 1 by linarith)).mul_const (Real.sqrt (∑ i, (y0 i - xs i) ^ 2))
    simpa using this
  obtain ⟨N, hN⟩ := (hlim.eventually (gt_mem_nhds (sub_pos.2 hd))).exists
  exact ⟨N + 2, fun ms throw hb => C124_succeeds rate rtol atol L μ ε εf F G grad aux0 fn y0 xs af hr0 hrL ha hr hF hc haf d N
    (by linarith) h1 h2 ms throw hb⟩

end

/-- **C124.** A tolerance below the noise is a different matter: for every `ε > 0` and every absolute tolerance up to `2 ε` there is an objective
(`y²/2`, `L = μ = 1`), computed exactly, with a gradient computed within `ε`, and a start, only `ε` from the minimiser, from which gradient descent
with learning rate `1 = 1/L` never stops: it steps from `ε` to `-ε` and back, and with a budget it always runs out of it. -/
theorem C124_below_the_noise (ε atol : ℝ) (hε : 0 < ε) (ha : 0 < atol) (hle : atol ≤ 2 * ε) :
    ∃ (F : (Unit → ℝ) → ℝ) (G grad : (Unit → ℝ) → Unit → ℝ), StronglyConvex F G 1 1 (fun _ => 0) ∧ ComputedWithin F G F grad 0 ε ∧
      iterativeSolve (gdSolver 1 0 atol maxNorm maxNorm grad ()) (fun _ => true) (fun y => (F y, ())) () (fun _ => ε) none false = none ∧
      ∀ m, ∃ sol, iterativeSolve (gdSolver 1 0 atol maxNorm maxNorm grad ()) (fun _ => true) (fun y => (F y, ())) () (fun _ => ε)
          (some m) false = some (.ok sol) ∧ sol.result = .nonlinearMaxStepsReached ∧ sol.numSteps = m := by
  set F : (Unit → ℝ) → ℝ := fun y => y () ^ 2 / 2 with hF
  set G : (Unit → ℝ) → Unit → ℝ := fun y => y with hG
  set grad : (Unit → ℝ) → Unit → ℝ := fun y i => y i + max (-ε) (min ε (y i)) with hgrad
  refine ⟨F, G, grad, ⟨one_pos, le_rfl, fun y z => ?_, fun y z => ?_, fun i => rfl⟩, ⟨fun y => by simp, fun y => ?_⟩, ?_⟩
  · simp only [hF, hG, Finset.univ_unique, Finset.sum_singleton]
    change z () ^ 2 / 2 ≤ y () ^ 2 / 2 + y () * (z () - y ()) + 1 / 2 * (z () - y ()) ^ 2
    nlinarith
  · simp only [hF, hG, Finset.univ_unique, Finset.sum_singleton]
    change y () ^ 2 / 2 + y () * (z () - y ()) + 1 / 2 * (z () - y ()) ^ 2 ≤ z () ^ 2 / 2
    nlinarith
  · simp only [hgrad, hG, Finset.univ_unique, Finset.sum_singleton, add_sub_cancel_left]
    rw [Real.sqrt_sq_eq_abs, abs_le]
    exact ⟨le_max_left _ _, max_le (by linarith) (min_le_left _ _)⟩
  obtain ⟨st0, hi⟩ : ∃ st0, (gdSolver 1 0 atol maxNorm maxNorm grad ()).init (fun y => (F y, ())) (fun _ => ε) = .ok st0 := ⟨_, rfl⟩
  have hst := gd_state 1 0 atol maxNorm maxNorm grad () (fun y => (F y, ())) (fun _ => ε) st0 hi
  have hit : ∀ k : ℕ, (gdMap 1 grad)^[k] (fun _ => ε) = fun _ => (-1) ^ k * ε := by
    intro k
    induction k with
    | zero => simp
    | succ k ih =>
      rw [Function.iterate_succ_apply', ih]
      funext i
      simp only [gdMap, hgrad]
      rcases neg_one_pow_eq_or ℝ k with e | e <;> rw [pow_succ, e]
      · rw [one_mul, min_self, max_eq_right (by linarith)]; ring
      · rw [min_eq_right (by linarith), max_eq_right (by linarith)]; ring
  refine never_stops _ _ _ _ _ st0 hi fun k => ⟨rfl, ?_⟩
  obtain _ | _ | k := k
  · cases hi; rfl
  · have h0 : (verdictAt (gdSolver 1 0 atol maxNorm maxNorm grad ()) (fun y => (F y, ())) () (fun _ => ε) st0 1) =
      ((GradientDescent.step (GradientDescent.gradientDescent 1 0 atol maxNorm maxNorm grad) (fun y => (F y, ())) (fun _ => ε) st0).2.1.terminate,
        (stateAt (gdSolver 1 0 atol maxNorm maxNorm grad ()) (fun y => (F y, ())) () (fun _ => ε) st0 1).result) := rfl
    rw [h0, (hst 0).2.2.2.1]
    cases hi; rfl
  · obtain ⟨s1, s2, s3, s4, s5⟩ := hst k
    have hres := (hst (k + 1)).2.2.2.1
    show ((stateAt (gdSolver 1 0 atol maxNorm maxNorm grad ()) (fun y => (F y, ())) () (fun _ => ε) st0 (k + 2)).terminate,
      (stateAt (gdSolver 1 0 atol maxNorm maxNorm grad ()) (fun y => (F y, ())) () (fun _ => ε) st0 (k + 2)).result) = _
    rw [hres]
    congr 1
    generalize hS : stateAt (gdSolver 1 0 atol maxNorm maxNorm grad ()) (fun y => (F y, ())) () (fun _ => ε) st0 (k + 1) = S at *
    generalize hYk : iterateAt (gdSolver 1 0 atol maxNorm maxNorm grad ()) (fun y => (F y, ())) () (fun _ => ε) st0 (k + 1) = Yk at *
    have hS2 : stateAt (gdSolver 1 0 atol maxNorm maxNorm grad ()) (fun y => (F y, ())) () (fun _ => ε) st0 (k + 2) =
      (GradientDescent.step (GradientDescent.gradientDescent 1 0 atol maxNorm maxNorm grad) (fun y => (F y, ())) Yk S).2.1 := by
      rw [← hS, ← hYk]; rfl
    rw [hS2]
    have hgoal : cauchyTermination 0 atol maxNorm maxNorm S.yEval (fun i => S.yEval i - Yk i)
        (fun _ : Unit => F S.yEval) (fun _ => F S.yEval - GradientDescent.fOf S.fInfo) = false := by
      rw [s2, s1, hit, hit]
      simp only [cauchyTermination, Bool.and_eq_false_iff, decide_eq_false_iff_not]
      refine Or.inl fun hlt => ?_
      have h1 := ((maxNorm_lt_iff _ _).1 hlt).2 ()
      change |(|(-1 : ℝ) ^ (k + 1) * ε - (-1) ^ k * ε| / (atol + 0 * |(-1 : ℝ) ^ (k + 1) * ε|))| < 1 at h1
      have e : (-1 : ℝ) ^ (k + 1) * ε - (-1) ^ k * ε = (-1) ^ (k + 1) * (2 * ε) := by ring
      rw [zero_mul, add_zero, e, abs_mul, abs_pow, abs_neg, abs_one, one_pow, one_mul, abs_of_pos (show 0 < 2 * ε by linarith),
        abs_of_pos (by positivity), div_lt_one ha] at h1
      linarith
    simp only [GradientDescent.step, GradientDescent.gradientDescent, learningRate, if_true, s5, Bool.false_eq_true,
      if_false]
    exact hgoal

/-- The hypotheses of `C124_success` and `C124_enough_steps` are met with errors that are not zero: `y²/2` computed within `1/100` (rounded down to a
multiple of `1/100`) and a gradient that is off by `1/100` everywhere, rate `1`, tolerance `1/10`, started at `5`. -/
example : ∃ N, ∃ sol, iterativeSolve (gdSolver (ι := Unit) 1 0 (1/10) maxNorm maxNorm (fun y i => y i + 1/100) ()) (fun _ => true)
      (fun y => ((⌊100 * (y () ^ 2 / 2)⌋ : ℝ) / 100, ())) () (fun _ => 5) (some N) true = some (.ok sol) ∧
      sol.result = .successful ∧ |sol.value ()| ≤ 12 / 100 := by
  have hF : StronglyConvex (ι := Unit) (fun y => y () ^ 2 / 2) (fun y => y) 1 1 (fun _ => 0) :=
    ⟨one_pos, le_rfl, fun y z => by simp; nlinarith, fun y z => by simp; nlinarith, fun i => rfl⟩
  have hc : ComputedWithin (ι := Unit) (fun y => y () ^ 2 / 2) (fun y => y) (fun y => (⌊100 * (y () ^ 2 / 2)⌋ : ℝ) / 100)
      (fun y i => y i + 1/100) (1/100) (1/100) := by
    refine ⟨fun y => ?_, fun y => ?_⟩
    · have h1 := Int.floor_le (100 * (y () ^ 2 / 2))
      have h2 := Int.lt_floor_add_one (100 * (y () ^ 2 / 2))
      rw [abs_le]
      constructor <;> linarith
    · simp only [Finset.univ_unique, Finset.sum_singleton, add_sub_cancel_left]
      rw [Real.sqrt_sq (by norm_num)]
  obtain ⟨N, hN⟩ := C124_enough_steps (A := Unit) 1 0 (1/10) 1 1 (1/100) (1/100) _ _ (fun y i => y i + 1/100) ()
    (fun y => ((⌊100 * (y () ^ 2 / 2)⌋ : ℝ) / 100, ())) (fun _ => 5) _ (fun _ => true) one_pos (by norm_num) (by norm_num) le_rfl hF hc
    (fun _ => rfl) (3/100) (by norm_num) (by norm_num) (by norm_num)
  obtain ⟨sol, h1, h2, -⟩ := hN (some N) true (fun n h => by cases h; exact le_rfl)
  refine ⟨N, sol, h1, h2, ?_⟩
  have h3 := C124_success (A := Unit) 1 0 (1/10) 1 1 (1/100) (1/100) _ _ (fun y i => y i + 1/100) ()
    (fun y => ((⌊100 * (y () ^ 2 / 2)⌋ : ℝ) / 100, ())) (fun _ => 5) _ (fun _ => true) one_pos (by norm_num) (by norm_num) le_rfl hF hc
    (some N) true sol h1 h2
  simp only [Finset.univ_unique, Finset.sum_singleton, sub_zero, zero_mul, add_zero] at h3
  rw [Real.sqrt_sq_eq_abs, Real.sqrt_sq (by norm_num)] at h3
  exact h3.trans (by norm_num)

end Verif.Props
