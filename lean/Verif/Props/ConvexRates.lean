import Verif.Props.GradientMethods

/-!
**C95.** How fast `GradientDescent` converges, how many steps it needs and how far from the minimum it stops.
-/

namespace Verif.Props

open Verif Verif.Spec Verif.Driver

section

variable {ι A : Type} [Fintype ι] (rate rtol atol L : ℝ) (nY : (ι → ℝ) → ℝ) (nF : (Unit → ℝ) → ℝ) (grad : (ι → ℝ) → (ι → ℝ))
  (aux0 : A) (fn : (ι → ℝ) → ℝ × A) (y0 : ι → ℝ) (af : (ι → ℝ) → Bool)

/-- One step decreases an `L`-smooth objective by half the rate times the squared gradient. -/
theorem gd_decrease (hr0 : 0 < rate) (hrL : rate * L ≤ 1)
    (hsmooth : ∀ y z, (fn z).1 ≤ (fn y).1 + (∑ i, grad y i * (z i - y i)) + L / 2 * ∑ i, (z i - y i) ^ 2) (x : ι → ℝ) :
    (fn (gdMap rate grad x)).1 ≤ (fn x).1 - rate / 2 * ∑ i, grad x i ^ 2 := by
  have h := hsmooth x (gdMap rate grad x)
  have e1 : ∑ i, grad x i * (gdMap rate grad x i - x i) = -rate * ∑ i, grad x i ^ 2 := by
    rw [Finset.mul_sum]; exact Finset.sum_congr rfl fun i _ => by simp only [gdMap]; ring
  have e2 : ∑ i, (gdMap rate grad x i - x i) ^ 2 = rate ^ 2 * ∑ i, grad x i ^ 2 := by
    rw [Finset.mul_sum]; exact Finset.sum_congr rfl fun i _ => by simp only [gdMap]; ring
  rw [e1, e2] at h
  have hg : 0 ≤ ∑ i, grad x i ^ 2 := Finset.sum_nonneg fun i _ => sq_nonneg _
  nlinarith [mul_nonneg hr0.le hg, mul_nonneg (mul_nonneg hr0.le (sub_nonneg.2 hrL)) hg]

/-- The squared distance to any point, after one step. -/
theorem gd_distance (hr0 : 0 < rate) (hrL : rate * L ≤ 1) (μ : ℝ)
    (hsmooth : ∀ y z, (fn z).1 ≤ (fn y).1 + (∑ i, grad y i * (z i - y i)) + L / 2 * ∑ i, (z i - y i) ^ 2)
    (hconv : ∀ y z, (fn y).1 + (∑ i, grad y i * (z i - y i)) + μ / 2 * ∑ i, (z i - y i) ^ 2 ≤ (fn z).1) (x xs : ι → ℝ) :
    ∑ i, (gdMap rate grad x i - xs i) ^ 2 + 2 * rate * ((fn (gdMap rate grad x)).1 - (fn xs).1) ≤
      (1 - rate * μ) * ∑ i, (x i - xs i) ^ 2 := by
  have h1 := gd_decrease rate L grad fn hr0 hrL hsmooth x
  have h2 := hconv x xs
  have e : ∑ i, (gdMap rate grad x i - xs i) ^ 2 = ∑ i, (x i - xs i) ^ 2 + 2 * rate * (∑ i, grad x i * (xs i - x i)) +
      rate ^ 2 * ∑ i, grad x i ^ 2 := by
    rw [Finset.mul_sum, Finset.mul_sum, ← Finset.sum_add_distrib, ← Finset.sum_add_distrib]
    exact Finset.sum_congr rfl fun i _ => by simp only [gdMap]; ring
  have e2 : ∑ i, (xs i - x i) ^ 2 = ∑ i, (x i - xs i) ^ 2 := Finset.sum_congr rfl fun i _ => by ring
  rw [e2] at h2
  rw [e]
  nlinarith [mul_le_mul_of_nonneg_left h1 hr0.le, mul_le_mul_of_nonneg_left h2 hr0.le]

/-- **C95.** On a convex `L`-smooth objective with learning rate at most `1/L`, whatever the outcome of the solve (also when the
budget runs out): after `n` steps the objective at the returned value is at most `‖y0 - x‖² / (2 rate (n - 1))` above the objective
at any `x`. -/
theorem C95_convex_rate (hr0 : 0 < rate) (hrL : rate * L ≤ 1)
    (hsmooth : ∀ y z, (fn z).1 ≤ (fn y).1 + (∑ i, grad y i * (z i - y i)) + L / 2 * ∑ i, (z i - y i) ^ 2)
    (hconv : ∀ y z, (fn y).1 + ∑ i, grad y i * (z i - y i) ≤ (fn z).1) (ms : Option Nat) (throw : Bool)
    (sol : Solution (ι → ℝ) A (GradientDescent.State ι A Unit (ι → ℝ)) Unit)
    (h : iterativeSolve (gdSolver rate rtol atol nY nF grad aux0) af fn aux0 y0 ms throw = some (.ok sol)) (hn : 2 ≤ sol.numSteps)
    (x : ι → ℝ) :
    (fn sol.value).1 - (fn x).1 ≤ (∑ i, (y0 i - x i) ^ 2) / (2 * rate * ((sol.numSteps : ℝ) - 1)) := by
  have key : ∀ k : ℕ, 2 * rate * k * ((fn ((gdMap rate grad)^[k] y0)).1 - (fn x).1) + ∑ i, ((gdMap rate grad)^[k] y0 i - x i) ^ 2 ≤
      ∑ i, (y0 i - x i) ^ 2 := by
    intro k
    induction k with
    | zero => simp
    | succ k ih =>
      rw [Function.iterate_succ_apply']
      have h1 := gd_distance rate L grad fn hr0 hrL 0 hsmooth (fun y z => by simpa using hconv y z) ((gdMap rate grad)^[k] y0) x
      have h2 := gd_decrease rate L grad fn hr0 hrL hsmooth ((gdMap rate grad)^[k] y0)
      have hg : 0 ≤ ∑ i, grad ((gdMap rate grad)^[k] y0) i ^ 2 := Finset.sum_nonneg fun i _ => sq_nonneg _
      have h3 : (fn (gdMap rate grad ((gdMap rate grad)^[k] y0))).1 ≤ (fn ((gdMap rate grad)^[k] y0)).1 := by nlinarith
      have h4 : 0 ≤ 2 * rate * (k : ℝ) := by positivity
      push_cast
      nlinarith [mul_le_mul_of_nonneg_left h3 h4]
  have hv := C31_value rate rtol atol nY nF grad aux0 fn y0 af ms throw sol h
  have hpos : (0 : ℝ) < (sol.numSteps : ℝ) - 1 := by
    have : (2 : ℝ) ≤ sol.numSteps := by exact_mod_cast hn
    linarith
  rw [le_div_iff₀ (by positivity)]
  have h1 := key (sol.numSteps - 1)
  rw [show (gdMap rate grad)^[sol.numSteps - 1] y0 = sol.value from hv.symm] at h1
  rw [Nat.cast_sub (by omega), Nat.cast_one] at h1
  have : 0 ≤ ∑ i, (sol.value i - x i) ^ 2 := Finset.sum_nonneg fun i _ => sq_nonneg _
  linarith

/-- **C95.** On a `μ`-strongly convex `L`-smooth objective with learning rate at most `1/L`, whatever the outcome of the solve: each step
after the first multiplies the squared distance to the minimiser by at most `1 - rate μ`. -/
theorem C95_strongly_convex_rate (hr0 : 0 < rate) (hrL : rate * L ≤ 1) (μ : ℝ) (hμ : rate * μ ≤ 1)
    (hsmooth : ∀ y z, (fn z).1 ≤ (fn y).1 + (∑ i, grad y i * (z i - y i)) + L / 2 * ∑ i, (z i - y i) ^ 2)
    (hconv : ∀ y z, (fn y).1 + (∑ i, grad y i * (z i - y i)) + μ / 2 * ∑ i, (z i - y i) ^ 2 ≤ (fn z).1) (xs : ι → ℝ)
    (hmin : ∀ y, (fn xs).1 ≤ (fn y).1) (ms : Option Nat) (throw : Bool)
    (sol : Solution (ι → ℝ) A (GradientDescent.State ι A Unit (ι → ℝ)) Unit)
    (h : iterativeSolve (gdSolver rate rtol atol nY nF grad aux0) af fn aux0 y0 ms throw = some (.ok sol)) :
    ∑ i, (sol.value i - xs i) ^ 2 ≤ (1 - rate * μ) ^ (sol.numSteps - 1) * ∑ i, (y0 i - xs i) ^ 2 := by
  rw [C31_value rate rtol atol nY nF grad aux0 fn y0 af ms throw sol h]
  generalize sol.numSteps - 1 = k
  show ∑ i, ((gdMap rate grad)^[k] y0 i - xs i) ^ 2 ≤ _
  induction k with
  | zero => simp
  | succ k ih =>
    rw [Function.iterate_succ_apply', pow_succ']
    have h1 := gd_distance rate L grad fn hr0 hrL μ hsmooth hconv ((gdMap rate grad)^[k] y0) xs
    have h2 := mul_nonneg hr0.le (sub_nonneg.2 (hmin (gdMap rate grad ((gdMap rate grad)^[k] y0))))
    have h3 := mul_le_mul_of_nonneg_left ih (sub_nonneg.2 hμ)
    linarith

/-- **C95.** On a `μ`-strongly convex `L`-smooth objective, a success (in the default norm) means that the answer is within the tolerance
divided by `rate μ` of the minimiser. -/
theorem C95_success_distance (hr0 : 0 < rate) (hrL : rate * L ≤ 1) (μ : ℝ) (hμ0 : 0 < μ) (ha : 0 < atol) (hr : 0 ≤ rtol)
    (hsmooth : ∀ y z, (fn z).1 ≤ (fn y).1 + (∑ i, grad y i * (z i - y i)) + L / 2 * ∑ i, (z i - y i) ^ 2)
    (hconv : ∀ y z, (fn y).1 + (∑ i, grad y i * (z i - y i)) + μ / 2 * ∑ i, (z i - y i) ^ 2 ≤ (fn z).1) (xs : ι → ℝ)
    (hmin : ∀ i, grad xs i = 0) (ms : Option Nat) (throw : Bool)
    (sol : Solution (ι → ℝ) A (GradientDescent.State ι A Unit (ι → ℝ)) Unit)
    (h : iterativeSolve (gdSolver rate rtol atol maxNorm maxNorm grad aux0) af fn aux0 y0 ms throw = some (.ok sol))
    (hs : sol.result = .successful) :
    (rate * μ) ^ 2 * ∑ i, (sol.value i - xs i) ^ 2 ≤ ∑ i, (atol + rtol * |sol.value i|) ^ 2 := by
  obtain ⟨x, hx, hsmall, -⟩ := C31_success_small_gradient rate rtol atol grad aux0 fn y0 ha hr af ms throw sol h hs
  have hd : 0 ≤ ∑ i, (x i - xs i) ^ 2 := Finset.sum_nonneg fun i _ => sq_nonneg _
  have hmin' : ∀ y, (fn xs).1 ≤ (fn y).1 := fun y => by
    have := hconv xs y
    simp only [hmin, zero_mul, Finset.sum_const_zero, add_zero] at this
    have h0 : 0 ≤ ∑ i, (y i - xs i) ^ 2 := Finset.sum_nonneg fun i _ => sq_nonneg _
    nlinarith
  have h1 : ∑ i, (sol.value i - xs i) ^ 2 ≤ ∑ i, (x i - xs i) ^ 2 := by
    have e : sol.value = gdMap rate grad x := hx
    rw [e]
    have h1 := gd_distance rate L grad fn hr0 hrL μ hsmooth hconv x xs
    have h2 := mul_nonneg hr0.le (sub_nonneg.2 (hmin' (gdMap rate grad x)))
    nlinarith [mul_nonneg (mul_pos hr0 hμ0).le hd]
  have h2 : μ * ∑ i, (x i - xs i) ^ 2 ≤ ∑ i, grad x i * (x i - xs i) := by
    have a1 := hconv x xs
    have a2 := hconv xs x
    simp only [hmin, zero_mul, Finset.sum_const_zero, add_zero] at a2
    have e2 : ∑ i, (xs i - x i) ^ 2 = ∑ i, (x i - xs i) ^ 2 := Finset.sum_congr rfl fun i _ => by ring
    have e3 : ∑ i, grad x i * (xs i - x i) = -∑ i, grad x i * (x i - xs i) := by
      rw [← Finset.sum_neg_distrib]; exact Finset.sum_congr rfl fun i _ => by ring
    rw [e2, e3] at a1
    linarith
  have h3 : (μ * ∑ i, (x i - xs i) ^ 2) ^ 2 ≤ (∑ i, grad x i ^ 2) * ∑ i, (x i - xs i) ^ 2 :=
    (pow_le_pow_left₀ (by positivity) h2 2).trans (Finset.sum_mul_sq_le_sq_mul_sq _ _ _)
  have h4 : μ ^ 2 * ∑ i, (x i - xs i) ^ 2 ≤ ∑ i, grad x i ^ 2 := by
    rcases hd.eq_or_lt with h0 | h0
    · rw [← h0, mul_zero]; exact Finset.sum_nonneg fun i _ => sq_nonneg _
    · have : (μ ^ 2 * ∑ i, (x i - xs i) ^ 2) * ∑ i, (x i - xs i) ^ 2 ≤ (∑ i, grad x i ^ 2) * ∑ i, (x i - xs i) ^ 2 := by
        calc _ = (μ * ∑ i, (x i - xs i) ^ 2) ^ 2 := by ring
          _ ≤ _ := h3
      exact le_of_mul_le_mul_right this h0
  calc (rate * μ) ^ 2 * ∑ i, (sol.value i - xs i) ^ 2 ≤ (rate * μ) ^ 2 * ∑ i, (x i - xs i) ^ 2 :=
        mul_le_mul_of_nonneg_left h1 (sq_nonneg _)
    _ = rate ^ 2 * (μ ^ 2 * ∑ i, (x i - xs i) ^ 2) := by ring
    _ ≤ rate ^ 2 * ∑ i, grad x i ^ 2 := mul_le_mul_of_nonneg_left h4 (sq_nonneg _)
    _ = ∑ i, (rate * grad x i) ^ 2 := by rw [Finset.mul_sum]; exact Finset.sum_congr rfl fun i _ => by ring
    _ ≤ _ := Finset.sum_le_sum fun i _ => by
      rw [← sq_abs (rate * grad x i)]
      exact pow_le_pow_left₀ (abs_nonneg _) (hsmall i).le 2

/-- **C95.** An explicit number of steps: on an `L`-smooth objective bounded below by `m`, with learning rate at most `1/L` and the default
norm, `N + 2` steps are enough if `f(y0) - m < N min(atol²/(2 rate), atol)`. -/
theorem C95_step_bound (m : ℝ) (hr0 : 0 < rate) (hrL : rate * L ≤ 1) (ha : 0 < atol) (hr : 0 ≤ rtol)
    (hsmooth : ∀ y z, (fn z).1 ≤ (fn y).1 + (∑ i, grad y i * (z i - y i)) + L / 2 * ∑ i, (z i - y i) ^ 2)
    (hlow : ∀ y, m ≤ (fn y).1) (haf : ∀ y, af y = true) (N : ℕ) (h1 : (fn y0).1 - m < N * (atol ^ 2 / (2 * rate)))
    (h2 : (fn y0).1 - m < N * atol) (ms : Option Nat) (throw : Bool) (hb : ∀ n, ms = some n → N + 2 ≤ n) :
    ∃ sol, iterativeSolve (gdSolver rate rtol atol maxNorm maxNorm grad aux0) af fn aux0 y0 ms throw = some (.ok sol) ∧
      sol.result = .successful ∧ sol.numSteps ≤ N + 2 := by
  set x : Nat → ι → ℝ := fun k => (gdMap rate grad)^[k] y0 with hx
  have hsucc : ∀ k, x (k + 1) = gdMap rate grad (x k) := fun k => Function.iterate_succ_apply' _ _ _
  have hdec : ∀ k, rate / 2 * ∑ i, grad (x k) i ^ 2 ≤ (fn (x k)).1 - (fn (x (k + 1))).1 := fun k => by
    rw [hsucc]
    linarith [gd_decrease rate L grad fn hr0 hrL hsmooth (x k)]
  have hsq : ∀ k, 0 ≤ ∑ i, grad (x k) i ^ 2 := fun k => Finset.sum_nonneg fun i _ => sq_nonneg _
  obtain ⟨k, hkN, hk⟩ : ∃ k < N, (fn (x k)).1 - (fn (x (k + 1))).1 < min atol (atol ^ 2 / (2 * rate)) := by
    by_contra hno
    simp only [not_exists, not_and, not_lt] at hno
    have htel : ∀ n : Nat, n ≤ N → (n : ℝ) * min atol (atol ^ 2 / (2 * rate)) ≤ (fn (x 0)).1 - (fn (x n)).1 := by
      intro n
      induction n with
      | zero => simp
      | succ n ih => intro hn; have := hno n hn; have := ih (by omega); push_cast; linarith
    have h3 := htel N le_rfl
    have h4 := hlow (x N)
    have h5 : (fn (x 0)).1 = (fn y0).1 := rfl
    rcases min_choice atol (atol ^ 2 / (2 * rate)) with e | e <;> rw [e] at h3 <;> linarith
  have hk1 := lt_of_lt_of_le hk (min_le_left _ _)
  have hk2 := lt_of_lt_of_le hk (min_le_right _ _)
  have hfd : |(fn (x (k + 1))).1 - (fn (x k)).1| < atol := by
    rw [abs_sub_comm, abs_of_nonneg]
    · exact hk1
    · exact (mul_nonneg (by positivity) (hsq k)).trans (hdec k)
  have hg : ∀ i, |x (k + 1) i - x k i| < atol := by
    intro i
    have e : x (k + 1) i - x k i = -(rate * grad (x k) i) := by
      rw [hsucc]; simp only [gdMap]; ring
    rw [e, abs_neg]
    have h1 : grad (x k) i ^ 2 ≤ ∑ i, grad (x k) i ^ 2 :=
      Finset.single_le_sum (f := fun i => grad (x k) i ^ 2) (fun i _ => sq_nonneg _) (Finset.mem_univ i)
    have h2 : rate / 2 * grad (x k) i ^ 2 < atol ^ 2 / (2 * rate) :=
      ((mul_le_mul_of_nonneg_left h1 (by positivity)).trans (hdec k)).trans_lt hk2
    rw [lt_div_iff₀ (by positivity)] at h2
    exact abs_lt_of_sq_lt_sq (by nlinarith) ha.le
  have hden : ∀ v : ℝ, 0 < atol + rtol * |v| := fun v => by positivity
  have hbase : ∀ a v : ℝ, |a| < atol → |(|a| / (atol + rtol * |v|))| < 1 := fun a v h => by
    rw [abs_div, abs_abs, abs_of_pos (hden v), div_lt_one (hden v)]
    have := mul_nonneg hr (abs_nonneg v)
    linarith
  obtain ⟨st0, hi⟩ : ∃ st0, (gdSolver rate rtol atol maxNorm maxNorm grad aux0).init fn y0 = .ok st0 := ⟨_, rfl⟩
  have hst := gd_state rate rtol atol maxNorm maxNorm grad aux0 fn y0 st0 hi
  obtain ⟨sol, h1, h2, h3, _⟩ := solve_succeeds_by (gdSolver rate rtol atol maxNorm maxNorm grad aux0) af fn aux0 y0 st0 hi ms throw
    (k + 2) (fun j _ => haf _)
    (by
      intro j _
      obtain _ | j := j
      · cases hi; rfl
      · exact (hst j).2.2.2.1)
    (by
      show (stateAt (gdSolver rate rtol atol maxNorm maxNorm grad aux0) fn aux0 y0 st0 (k + 2)).terminate = true
      obtain ⟨s1, s2, s3, s4, s5⟩ := hst k
      generalize hS : stateAt (gdSolver rate rtol atol maxNorm maxNorm grad aux0) fn aux0 y0 st0 (k + 1) = S at *
      generalize hYk : iterateAt (gdSolver rate rtol atol maxNorm maxNorm grad aux0) fn aux0 y0 st0 (k + 1) = Yk at *
      have hS2 : stateAt (gdSolver rate rtol atol maxNorm maxNorm grad aux0) fn aux0 y0 st0 (k + 2) =
        (GradientDescent.step (GradientDescent.gradientDescent rate rtol atol maxNorm maxNorm grad) fn Yk S).2.1 := by
        rw [← hS, ← hYk]; rfl
      rw [hS2]
      have hgoal : cauchyTermination rtol atol maxNorm maxNorm S.yEval (fun i => S.yEval i - Yk i)
          (fun _ : Unit => (fn S.yEval).1) (fun _ => (fn S.yEval).1 - GradientDescent.fOf S.fInfo) = true := by
        rw [s2, s1, s3]
        simp only [cauchyTermination, Bool.and_eq_true, decide_eq_true_eq]
        exact ⟨(maxNorm_lt_iff _ _).2 ⟨one_pos, fun i => hbase _ _ (hg i)⟩,
          (maxNorm_lt_iff _ _).2 ⟨one_pos, fun i => hbase _ _ hfd⟩⟩
      simp only [GradientDescent.step, GradientDescent.gradientDescent, learningRate, if_true, s5, Bool.false_eq_true,
        if_false]
      exact hgoal)
    (fun n hn => (by omega : k + 2 ≤ N + 2).trans (hb n hn))
  exact ⟨sol, h1, h2, h3.trans (by omega)⟩

end

/-- The hypotheses of all four theorems are met by `f(y) = y²` (`L = μ = 2`, minimum at `0`) with rate `1/4` started at `1`: the solve
succeeds within `53` steps and its answer is within twice the tolerance of the minimum. -/
example : ∃ sol, iterativeSolve (gdSolver (ι := Unit) (1/4) 0 (1/10) maxNorm maxNorm (fun y i => 2 * y i) ()) (fun _ => true)
      (fun y => (y () ^ 2, ())) () (fun _ => 1) (some 53) true = some (.ok sol) ∧ sol.result = .successful ∧
      sol.value () ^ 2 ≤ (1 / 2) ^ (sol.numSteps - 1) ∧ |sol.value ()| ≤ 2 * (1 / 10) ∧
      2 ≤ sol.numSteps ∧ sol.value () ^ 2 ≤ 2 / ((sol.numSteps : ℝ) - 1) := by
  have hs : ∀ y z : Unit → ℝ, z () ^ 2 ≤ y () ^ 2 + (∑ i : Unit, 2 * y i * (z i - y i)) + 2 / 2 * ∑ i : Unit, (z i - y i) ^ 2 := by
    intro y z; simp; nlinarith
  have hc : ∀ y z : Unit → ℝ, y () ^ 2 + (∑ i : Unit, 2 * y i * (z i - y i)) + 2 / 2 * ∑ i : Unit, (z i - y i) ^ 2 ≤ z () ^ 2 := by
    intro y z; simp; nlinarith
  obtain ⟨sol, h1, h2, -⟩ := C95_step_bound (ι := Unit) (1/4) 0 (1/10) 2 (fun y i => 2 * y i) () (fun y => (y () ^ 2, ())) (fun _ => 1)
    (fun _ => true) 0 (by norm_num) (by norm_num) (by norm_num) le_rfl hs (fun y => sq_nonneg _) (fun _ => rfl) 51 (by norm_num)
    (by norm_num) (some 53) true (fun n h => by cases h; norm_num)
  have hd : |sol.value ()| ≤ 2 * (1 / 10) := by
    have := C95_success_distance (ι := Unit) (1/4) 0 (1/10) 2 (fun y i => 2 * y i) () (fun y => (y () ^ 2, ()))
      (fun _ => 1) (fun _ => true) (by norm_num) (by norm_num) 2 (by norm_num) (by norm_num) le_rfl hs hc (fun _ => 0)
      (fun i => by simp) (some 53) true sol h1 h2
    norm_num at this
    exact abs_le_of_sq_le_sq (by norm_num; linarith) (by norm_num)
  have hn : 2 ≤ sol.numSteps := by
    by_contra hlt
    have := C31_value (1/4) 0 (1/10) maxNorm maxNorm (fun y i => 2 * y i) () (fun y => (y () ^ 2, ())) (fun _ => 1) (fun _ => true)
      (some 53) true sol h1
    rw [show sol.numSteps - 1 = 0 by omega] at this
    rw [this] at hd
    norm_num at hd
  refine ⟨sol, h1, h2, ?_, hd, hn, ?_⟩
  · have := C95_strongly_convex_rate (ι := Unit) (1/4) 0 (1/10) 2 maxNorm maxNorm (fun y i => 2 * y i) () (fun y => (y () ^ 2, ()))
      (fun _ => 1) (fun _ => true) (by norm_num) (by norm_num) 2 (by norm_num) hs hc (fun _ => 0) (fun y => by simpa using sq_nonneg (y ()))
      (some 53) true sol h1
    norm_num at this ⊢
    simpa using this
  · have := C95_convex_rate (ι := Unit) (1/4) 0 (1/10) 2 maxNorm maxNorm (fun y i => 2 * y i) () (fun y => (y () ^ 2, ()))
      (fun _ => 1) (fun _ => true) (by norm_num) (by norm_num) hs (fun y z => (hc y z).trans' (by simp; positivity)) (some 53) true sol h1
      hn (fun _ => 0)
    have hp : (0 : ℝ) < (sol.numSteps : ℝ) - 1 := by
      have : (2 : ℝ) ≤ sol.numSteps := by exact_mod_cast hn
      linarith
    rw [le_div_iff₀ (by positivity)] at this ⊢
    norm_num at this
    linarith

end Verif.Props
