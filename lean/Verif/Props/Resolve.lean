import Verif.Props.Ordered
import Verif.Props.ConvexRates

/-!
Property C148: solving again from the answer of a successful solve.  `FixedPointIteration` and `GradientDescent` stop at once; `Bisection` does not
profit from a good starting guess.
-/

namespace Verif.Props
open Verif Verif.Spec Verif.Driver

variable {ι A : Type}

/-- **C148**, `FixedPointIteration` with `rtol = 0` on a function that does not increase distances in the norm of the solver (in particular, on a
contraction): a second solve, started at a successful answer, succeeds after one step and moves by no more than the last step of the first solve. -/
theorem C148_fixed_point (cfg : FixedPointIter.Cfg ι ℝ) (hN : GoodNorm cfg.norm) (htri : ∀ x y, cfg.norm (fun i => x i + y i) ≤ cfg.norm x + cfg.norm y)
    (hd0 : 0 ≤ cfg.damp) (hd1 : cfg.damp ≤ 1) (hat : 0 < cfg.atol) (hrt : cfg.rtol = 0) (fn : (ι → ℝ) → (ι → ℝ) × A)
    (hfn : ∀ x y, cfg.norm (fun i => (fn x).1 i - (fn y).1 i) ≤ cfg.norm fun i => x i - y i) (aux0 : A) (y0 : ι → ℝ) (af : (ι → ℝ) → Bool)
    (ms : Option ℕ) (throw : Bool) (sol)
    (h : iterativeSolve (FixedPointIter.solver cfg) af fn aux0 y0 ms throw = some (.ok sol)) (hs : sol.result = .successful)
    (ms' : Option ℕ) (hms : ∀ n, ms' = some n → 1 ≤ n) (throw' : Bool) :
    ∃ sol', iterativeSolve (FixedPointIter.solver cfg) (fun _ => true) fn aux0 sol.value ms' throw' = some (.ok sol') ∧ sol'.result = .successful ∧
      sol'.numSteps = 1 ∧ cfg.norm (fun i => sol.value i - sol'.value i) < cfg.atol := by
  obtain ⟨k, -, hv, -, hlt⟩ := C20_success_certificate cfg fn aux0 y0 af ms throw sol h hs
  set y := (dampedMap cfg.damp fun z => (fn z).1)^[k] y0 with hy
  have hscale : ∀ d v : ι → ℝ, cfg.norm (fun i => d i / (cfg.atol + cfg.rtol * |v i|)) = cfg.norm d / cfg.atol := fun d v => by
    have e : (fun i => d i / (cfg.atol + cfg.rtol * |v i|)) = fun i => cfg.atol⁻¹ * d i := by
      funext i; rw [hrt]; field_simp; ring
    rw [e, hN.smul, abs_of_pos (by positivity)]
    field_simp
  have hfirst : cfg.norm (fun i => y i - sol.value i) < cfg.atol := by
    rwa [hscale (fun i => y i - sol.value i) sol.value, div_lt_one hat] at hlt
  have hcon : cfg.norm (fun i => sol.value i - dampedMap cfg.damp (fun z => (fn z).1) sol.value i) < cfg.atol := by
    refine lt_of_le_of_lt ?_ hfirst
    have e : (fun i => sol.value i - dampedMap cfg.damp (fun z => (fn z).1) sol.value i) =
        fun i => (1 - cfg.damp) * ((fn y).1 i - (fn sol.value).1 i) + cfg.damp * (y i - sol.value i) := by
      funext i
      have := congrFun hv i
      simp only [dampedMap]
      linarith
    rw [e]
    refine (htri _ _).trans ?_
    rw [hN.smul, hN.smul, abs_of_nonneg (by linarith : 0 ≤ 1 - cfg.damp), abs_of_nonneg hd0]
    have := mul_le_mul_of_nonneg_left (hfn y sol.value) (by linarith : 0 ≤ 1 - cfg.damp)
    linarith
  obtain ⟨sol', h1, h2, h3⟩ := fp_succeeds cfg fn aux0 sol.value ms' throw' 0 (by
    rw [hscale (fun i => iterateAt (FixedPointIter.solver cfg) fn aux0 sol.value none 0 i -
      iterateAt (FixedPointIter.solver cfg) fn aux0 sol.value none (0 + 1) i), div_lt_one hat]
    exact hcon) hms
  have hv' := fp_value cfg _ fn aux0 sol.value ms' throw' sol' h1
  obtain ⟨k', hk', -⟩ := C20_success_certificate cfg fn aux0 sol.value _ ms' throw' sol' h1 h2
  have hn : sol'.numSteps = 1 := by omega
  refine ⟨sol', h1, h2, hn, ?_⟩
  rw [hv', hn]
  exact hcon

/-! ### Gradient descent -/

section descent
variable [Fintype ι] (rate atol L : ℝ) (nF : (Unit → ℝ) → ℝ) (grad : (ι → ℝ) → (ι → ℝ)) (aux0 : A) (fn : (ι → ℝ) → ℝ × A)

/-- On a convex `L`-smooth objective with learning rate at most `1/L`, neither the gradient nor the decrease of the objective grow from step to step. -/
theorem gd_slows (hr0 : 0 < rate) (hrL : rate * L ≤ 1)
    (hsmooth : ∀ y z, (fn z).1 ≤ (fn y).1 + (∑ i, grad y i * (z i - y i)) + L / 2 * ∑ i, (z i - y i) ^ 2)
    (hconv : ∀ y z, (fn y).1 + ∑ i, grad y i * (z i - y i) ≤ (fn z).1) (x : ι → ℝ) :
    ∑ i, grad (gdMap rate grad x) i ^ 2 ≤ ∑ i, grad x i ^ 2 ∧
    (fn (gdMap rate grad x)).1 - (fn (gdMap rate grad (gdMap rate grad x))).1 ≤ (fn x).1 - (fn (gdMap rate grad x)).1 := by
  set z := gdMap rate grad x with hz
  have hzi : ∀ i, z i = x i - rate * grad x i := fun i => rfl
  have hco : ∀ a b : ι → ℝ, (fn a).1 + ∑ i, grad a i * (b i - a i) + rate / 2 * ∑ i, (grad b i - grad a i) ^ 2 ≤ (fn b).1 := fun a b => by
    set w : ι → ℝ := fun i => b i - rate * (grad b i - grad a i) with hw
    have h1 := hconv a w
    have h2 := hsmooth b w
    have e1 : ∑ i, grad a i * (w i - a i) = ∑ i, grad a i * (b i - a i) - rate * ∑ i, grad a i * (grad b i - grad a i) := by
      rw [Finset.mul_sum, ← Finset.sum_sub_distrib]; exact Finset.sum_congr rfl fun i _ => by simp only [hw]; ring
    have e2 : ∑ i, grad b i * (w i - b i) = -(rate * ∑ i, grad b i * (grad b i - grad a i)) := by
      rw [Finset.mul_sum, ← Finset.sum_neg_distrib]; exact Finset.sum_congr rfl fun i _ => by simp only [hw]; ring
    have e3 : ∑ i, (w i - b i) ^ 2 = rate ^ 2 * ∑ i, (grad b i - grad a i) ^ 2 := by
      rw [Finset.mul_sum]; exact Finset.sum_congr rfl fun i _ => by simp only [hw]; ring
    have e4 : ∑ i, (grad b i - grad a i) ^ 2 = ∑ i, grad b i * (grad b i - grad a i) - ∑ i, grad a i * (grad b i - grad a i) := by
      rw [← Finset.sum_sub_distrib]; exact Finset.sum_congr rfl fun i _ => by ring
    have h0 : 0 ≤ ∑ i, (grad b i - grad a i) ^ 2 := Finset.sum_nonneg fun i _ => sq_nonneg _
    rw [e1] at h1
    rw [e2, e3] at h2
    nlinarith [mul_nonneg (mul_nonneg hr0.le (sub_nonneg.2 hrL)) h0]
  set P := ∑ i, grad x i ^ 2
  set Q := ∑ i, grad x i * grad z i
  set R := ∑ i, grad z i ^ 2
  have hd1 : ∑ i, (grad x i - grad z i) ^ 2 = P - 2 * Q + R := by
    simp only [P, Q, R, Finset.mul_sum, ← Finset.sum_sub_distrib, ← Finset.sum_add_distrib]
    exact Finset.sum_congr rfl fun i _ => by ring
  have hd2 : ∑ i, (grad z i - grad x i) ^ 2 = P - 2 * Q + R := by
    rw [← hd1]; exact Finset.sum_congr rfl fun i _ => by ring
  have e1 : ∑ i, grad z i * (x i - z i) = rate * Q := by
    rw [Finset.mul_sum]; exact Finset.sum_congr rfl fun i _ => by rw [hzi]; ring
  have e2 : ∑ i, grad x i * (z i - x i) = -(rate * P) := by
    rw [Finset.mul_sum, ← Finset.sum_neg_distrib]; exact Finset.sum_congr rfl fun i _ => by rw [hzi]; ring
  have h1 := hco z x
  have h2 := hco x z
  rw [e1, hd1] at h1
  rw [e2, hd2] at h2
  have h3 : R ≤ Q := by
    have : rate * R ≤ rate * Q := by linarith
    exact le_of_mul_le_mul_left this hr0
  have h0 : 0 ≤ P - 2 * Q + R := hd1 ▸ Finset.sum_nonneg fun i _ => sq_nonneg _
  refine ⟨by linarith, ?_⟩
  have h4 := hconv z (gdMap rate grad z)
  have e4 : ∑ i, grad z i * (gdMap rate grad z i - z i) = -(rate * R) := by
    rw [Finset.mul_sum, ← Finset.sum_neg_distrib]; exact Finset.sum_congr rfl fun i _ => by simp only [gdMap]; ring
  have h5 := hconv z x
  rw [e1] at h5
  rw [e4] at h4
  have := mul_le_mul_of_nonneg_left h3 hr0.le
  linarith

/-- **C148**, `GradientDescent` with `rtol = 0` and the Euclidean norm on a convex `L`-smooth objective with learning rate at most `1/L`: a second
solve, started at a successful answer, succeeds after two steps, the first of which does not move. -/
theorem C148_gradient_descent (hr0 : 0 < rate) (hrL : rate * L ≤ 1) (hat : 0 < atol) (hF : GoodNorm nF)
    (hsmooth : ∀ y z, (fn z).1 ≤ (fn y).1 + (∑ i, grad y i * (z i - y i)) + L / 2 * ∑ i, (z i - y i) ^ 2)
    (hconv : ∀ y z, (fn y).1 + ∑ i, grad y i * (z i - y i) ≤ (fn z).1) (y0 : ι → ℝ) (af : (ι → ℝ) → Bool) (ms : Option ℕ) (throw : Bool)
    (sol : Solution (ι → ℝ) A (GradientDescent.State ι A Unit (ι → ℝ)) Unit)
    (h : iterativeSolve (gdSolver rate 0 atol twoNorm nF grad aux0) af fn aux0 y0 ms throw = some (.ok sol)) (hs : sol.result = .successful)
    (ms' : Option ℕ) (hms : ∀ n, ms' = some n → 2 ≤ n) (throw' : Bool) :
    ∃ sol', iterativeSolve (gdSolver rate 0 atol twoNorm nF grad aux0) (fun _ => true) fn aux0 sol.value ms' throw' = some (.ok sol') ∧
      sol'.result = .successful ∧ sol'.numSteps ≤ 2 := by
  obtain ⟨st0, k, hi, hk, hn, hv, hc1, hc2⟩ := C58_gradient_family _ (fun _ _ _ _ _ => rfl) aux0 fn af y0 ms throw sol h hs
  obtain _ | k := k
  · omega
  have hst := gd_state rate 0 atol twoNorm nF grad aux0 fn y0 st0 hi k
  set x := (gdMap rate grad)^[k] y0 with hx
  have hval : sol.value = gdMap rate grad x := by rw [hv, hst.2.1, Function.iterate_succ_apply']
  have hY : iterateAt (gdSolver rate 0 atol twoNorm nF grad aux0) fn aux0 y0 st0 (k + 1) = x := hst.1
  change twoNorm (fun i => |sol.value i - iterateAt (gdSolver rate 0 atol twoNorm nF grad aux0) fn aux0 y0 st0 (k + 1) i| /
    (atol + 0 * |sol.value i|)) < 1 at hc1
  change nF (fun _ => |(fn sol.value).1 - (fn (iterateAt (gdSolver rate 0 atol twoNorm nF grad aux0) fn aux0 y0 st0 (k + 1))).1| /
    (atol + 0 * |(fn sol.value).1|)) < 1 at hc2
  rw [hY] at hc1 hc2
  obtain ⟨hg, hf⟩ := gd_slows rate L grad fn hr0 hrL hsmooth hconv x
  rw [← hval] at hg hf
  have hdec : (fn (gdMap rate grad sol.value)).1 ≤ (fn sol.value).1 := by
    have h1 := gd_decrease rate L grad fn hr0 hrL hsmooth sol.value
    have h2 : 0 ≤ ∑ i, grad sol.value i ^ 2 := Finset.sum_nonneg fun i _ => sq_nonneg _
    nlinarith
  have hfd : |(fn (gdMap rate grad sol.value)).1 - (fn sol.value).1| ≤ |(fn sol.value).1 - (fn x).1| := by
    rw [abs_sub_comm, abs_of_nonneg (by linarith), abs_sub_comm]
    exact hf.trans (le_abs_self _)
  have hstep : ∀ w v : ι → ℝ, twoNorm (fun i => |gdMap rate grad w i - w i| / (atol + 0 * |v i|)) =
      Real.sqrt ((rate / atol) ^ 2 * ∑ i, grad w i ^ 2) := fun w v => by
    unfold twoNorm sumSquares
    congr 1
    rw [Finset.mul_sum]
    refine Finset.sum_congr rfl fun i _ => ?_
    dsimp only
    rw [zero_mul, add_zero, div_mul_div_comm, abs_mul_abs_self]
    simp only [gdMap]
    field_simp
    ring
  have hb1 : twoNorm (fun i => |gdMap rate grad sol.value i - sol.value i| / (atol + 0 * |gdMap rate grad sol.value i|)) < 1 := by
    have h1 := hstep x sol.value
    rw [← hval] at h1
    rw [h1] at hc1
    rw [hstep]
    refine lt_of_le_of_lt (Real.sqrt_le_sqrt ?_) hc1
    gcongr
  have hb2 : nF (fun _ => |(fn (gdMap rate grad sol.value)).1 - (fn sol.value).1| / (atol + 0 * |(fn (gdMap rate grad sol.value)).1|)) < 1 := by
    refine lt_of_le_of_lt (hF.mono _ _ fun _ => ?_) hc2
    rw [zero_mul, zero_mul, add_zero, abs_div, abs_div, abs_abs, abs_abs]
    gcongr
  obtain ⟨st1, hi1⟩ : ∃ st1, (gdSolver rate 0 atol twoNorm nF grad aux0).init fn sol.value = .ok st1 := ⟨_, rfl⟩
  have hst1 := gd_state rate 0 atol twoNorm nF grad aux0 fn sol.value st1 hi1
  obtain ⟨sol', h1, h2, h3, -⟩ := solve_succeeds_by (gdSolver rate 0 atol twoNorm nF grad aux0) (fun _ => true) fn aux0 sol.value st1 hi1 ms' throw'
    2 (fun _ _ => rfl)
    (by
      intro j _
      obtain _ | j := j
      · cases hi1; rfl
      · exact (hst1 j).2.2.2.1)
    (by
      show (stateAt (gdSolver rate 0 atol twoNorm nF grad aux0) fn aux0 sol.value st1 2).terminate = true
      obtain ⟨s1, s2, s3, s4, s5⟩ := hst1 0
      generalize hS : stateAt (gdSolver rate 0 atol twoNorm nF grad aux0) fn aux0 sol.value st1 (0 + 1) = S at *
      generalize hYk : iterateAt (gdSolver rate 0 atol twoNorm nF grad aux0) fn aux0 sol.value st1 (0 + 1) = Yk at *
      have hS2 : stateAt (gdSolver rate 0 atol twoNorm nF grad aux0) fn aux0 sol.value st1 2 =
        (GradientDescent.step (GradientDescent.gradientDescent rate 0 atol twoNorm nF grad) fn Yk S).2.1 := by
        rw [← hS, ← hYk]; rfl
      rw [hS2]
      have hgoal : cauchyTermination 0 atol twoNorm nF S.yEval (fun i => S.yEval i - Yk i)
          (fun _ : Unit => (fn S.yEval).1) (fun _ => (fn S.yEval).1 - GradientDescent.fOf S.fInfo) = true := by
        rw [s2, s1, s3]
        simp only [cauchyTermination, Bool.and_eq_true, decide_eq_true_eq]
        exact ⟨hb1, hb2⟩
      simp only [GradientDescent.step, GradientDescent.gradientDescent, learningRate, if_true, s5, Bool.false_eq_true,
        if_false]
      exact hgoal)
    hms
  exact ⟨sol', h1, h2, h3⟩

end descent

/-! ### Bisection -/

/-- **C148**, `Bisection` (without `expand_if_necessary`): whatever the function, a successful solve takes about as many steps as it takes to halve
the distance from the starting point to the nearer end of the interval down to the tolerance.  So starting at the answer of another solve, or at the
root itself, saves nothing. -/
theorem C148_bisection (cfg : Bisection.Cfg ℝ) (he : cfg.expand = false) (hr : 0 ≤ cfg.rtol) (fn : ℝ → ℝ × A) (aux0 : A) (y0 : ℝ)
    (h1 : cfg.lower ≤ y0) (h2 : y0 ≤ cfg.upper) (af : ℝ → Bool) (ms : Option ℕ) (throw : Bool) (sol)
    (h : iterativeSolve (Bisection.solver cfg) af fn aux0 y0 ms throw = some (.ok sol)) (hs : sol.result = .successful) :
    1 ≤ sol.numSteps ∧
    min (y0 - cfg.lower) (cfg.upper - y0) < 2 ^ (sol.numSteps - 1) * (cfg.atol + cfg.rtol * max |cfg.lower| |cfg.upper|) := by
  obtain ⟨st0, hi, ht, -⟩ := C02_success_is_certificate _ _ _ _ _ _ _ _ h hs
  obtain ⟨-, -, st0', hi', hst, -⟩ := C01_step_budget _ _ _ _ _ _ _ _ h
  rw [hi] at hi'; cases hi'
  obtain ⟨hl, hu, -⟩ := bisection_start cfg he fn y0 st0 hi
  rcases hn : sol.numSteps with _ | k
  · rw [hst, hn] at ht
    have h3 : st0.error = none := by
      have hi2 : Bisection.init cfg fn y0 = .ok st0 := hi
      unfold Bisection.init at hi2
      rw [he] at hi2
      split at hi2
      · cases hi2
      split at hi2
      · split at hi2
        · cases hi2; rfl
        · dsimp only at hi2
          rw [if_neg (by decide)] at hi2
          split at hi2
          · cases hi2
          · cases hi2; rfl
        · cases hi2
      · cases hi2
    have h4 := congrArg Prod.fst ht
    simp [Bisection.solver, Bisection.terminate, stateAt, trace, h3] at h4
  · refine ⟨by omega, ?_⟩
    rw [Nat.add_sub_cancel]
    rw [hst, hn, Nat.add_sub_cancel] at ht
    have h4 := congrArg Prod.fst ht
    simp only [Bisection.solver, Bisection.terminate, Bool.and_eq_true, decide_eq_true_eq] at h4
    have h5 : |(stateAt (Bisection.solver cfg) fn aux0 y0 st0 (k + 1)).lower - (stateAt (Bisection.solver cfg) fn aux0 y0 st0 (k + 1)).upper| <
        cfg.atol + cfg.rtol * |iterateAt (Bisection.solver cfg) fn aux0 y0 st0 k| := h4.1
    rw [abs_sub_comm, bisection_width, div_lt_iff₀ (by positivity)] at h5
    have h6 := (C13_stays_in_interval cfg he fn aux0 y0 st0 hi h1 h2 k).2.2
    have h7 : |iterateAt (Bisection.solver cfg) fn aux0 y0 st0 k| ≤ max |cfg.lower| |cfg.upper| := abs_le_max_abs_abs h6.1 h6.2
    have h8 : min (y0 - cfg.lower) (cfg.upper - y0) ≤
        |(stateAt (Bisection.solver cfg) fn aux0 y0 st0 1).upper - (stateAt (Bisection.solver cfg) fn aux0 y0 st0 1).lower| := by
      refine le_trans ?_ (le_abs_self _)
      show _ ≤ (Bisection.step fn y0 st0).2.1.upper - (Bisection.step fn y0 st0).2.1.lower
      unfold Bisection.step
      dsimp only
      rw [hl, hu]
      split
      · exact min_le_right _ _
      · exact min_le_left _ _
    refine h8.trans_lt (h5.trans_le ?_)
    rw [mul_comm]
    have := mul_le_mul_of_nonneg_left h7 hr
    gcongr

/-! ### The hypotheses are met -/

/-- The function `y ↦ y / 2 + 1` does not increase distances in the default norm. -/
example (y0 : Fin 2 → ℝ) (sol) (h : iterativeSolve (FixedPointIter.solver ⟨0, 1/100, maxNorm, 1/4⟩) (fun _ => true)
      (fun y : Fin 2 → ℝ => ((fun i => y i / 2 + 1), ())) () y0 (some 256) false = some (.ok sol)) (hs : sol.result = .successful) :
    ∃ sol', iterativeSolve (FixedPointIter.solver ⟨0, 1/100, maxNorm, 1/4⟩) (fun _ => true) (fun y : Fin 2 → ℝ => ((fun i => y i / 2 + 1), ())) ()
      sol.value (some 1) false = some (.ok sol') ∧ sol'.result = .successful ∧ sol'.numSteps = 1 ∧
      maxNorm (fun i => sol.value i - sol'.value i) < 1/100 :=
  C148_fixed_point ⟨0, 1/100, maxNorm, 1/4⟩ goodNorm_maxNorm maxNorm_add (by norm_num) (by norm_num) (by norm_num) rfl _
    (fun x y => goodNorm_maxNorm.mono _ _ fun i => by
      show |x i / 2 + 1 - (y i / 2 + 1)| ≤ |x i - y i|
      rw [show x i / 2 + 1 - (y i / 2 + 1) = (x i - y i) / 2 by ring, abs_div, abs_two]
      linarith [abs_nonneg (x i - y i)]) () y0 _ _ _ sol h hs (some 1) (fun n hn => by cases hn; exact le_rfl) false

/-- `f(y) = y²` (`L = 2`) with learning rate `1/4`. -/
example (y0 : Fin 3 → ℝ) (sol : Solution (Fin 3 → ℝ) Unit (GradientDescent.State (Fin 3) Unit Unit (Fin 3 → ℝ)) Unit)
    (h : iterativeSolve (gdSolver (1/4) 0 (1/100) twoNorm maxNorm (fun (y : Fin 3 → ℝ) i => 2 * y i) ()) (fun _ => true)
      (fun y : Fin 3 → ℝ => (∑ i, y i ^ 2, ())) () y0 (some 256) false = some (.ok sol)) (hs : sol.result = .successful) :
    ∃ sol', iterativeSolve (gdSolver (1/4) 0 (1/100) twoNorm maxNorm (fun (y : Fin 3 → ℝ) i => 2 * y i) ()) (fun _ => true)
      (fun y : Fin 3 → ℝ => (∑ i, y i ^ 2, ())) () sol.value (some 2) false = some (.ok sol') ∧ sol'.result = .successful ∧ sol'.numSteps ≤ 2 := by
  have e : ∀ y z : Fin 3 → ℝ, ∑ i, z i ^ 2 = ∑ i, y i ^ 2 + ∑ i, 2 * y i * (z i - y i) + ∑ i, (z i - y i) ^ 2 := fun y z => by
    rw [← Finset.sum_add_distrib, ← Finset.sum_add_distrib]
    exact Finset.sum_congr rfl fun i _ => by ring
  refine C148_gradient_descent (1/4) (1/100) 2 maxNorm _ () _ (by norm_num) (by norm_num) (by norm_num) goodNorm_maxNorm (fun y z => ?_) (fun y z => ?_)
    y0 _ _ _ sol h hs (some 2) (fun n hn => by cases hn; exact le_rfl) false
  · have := e y z
    dsimp only
    linarith
  · have := e y z
    have h0 : 0 ≤ ∑ i, (z i - y i) ^ 2 := Finset.sum_nonneg fun i _ => sq_nonneg _
    dsimp only
    linarith

/-- Started at its root `0`, `y ↦ y` on `[-1, 1]` with tolerance `1/100` takes at least 7 steps. -/
example (sol) (h : iterativeSolve (Bisection.solver ⟨0, 1/100, .detect, false, -1, 1, true, .leaf [] true⟩) (fun _ => true)
      (fun y : ℝ => (y, ())) () 0 (some 20) false = some (.ok sol)) (hs : sol.result = .successful) : 7 ≤ sol.numSteps := by
  have h1 := C148_bisection ⟨0, 1/100, .detect, false, -1, 1, true, .leaf [] true⟩ rfl le_rfl _ () 0 (by norm_num) (by norm_num) _ _ _ sol h hs
  by_contra hlt
  have h2 : sol.numSteps - 1 ≤ 5 := by omega
  have h3 : (2 : ℝ) ^ (sol.numSteps - 1) ≤ 2 ^ 5 := pow_le_pow_right₀ (by norm_num) h2
  have h4 := h1.2
  norm_num at h4
  linarith

end Verif.Props
