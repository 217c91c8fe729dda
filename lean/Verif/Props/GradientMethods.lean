import Verif.Props.Search

/-! Properties of `GradientDescent` (C31) and `NonlinearCG` (C32, C33). -/

namespace Verif.Props

open Verif Verif.Spec Verif.Driver Verif.SearchLoop

variable {ι A : Type}

/-! ### C31 -/

/-- One step of textbook gradient descent. -/
def gdMap (rate : ℝ) (grad : (ι → ℝ) → (ι → ℝ)) (y : ι → ℝ) : ι → ℝ := fun i => y i - rate * grad y i

section
variable (rate rtol atol : ℝ) (nY : (ι → ℝ) → ℝ) (nF : (Unit → ℝ) → ℝ) (grad : (ι → ℝ) → (ι → ℝ)) (aux0 : A)
  (fn : (ι → ℝ) → ℝ × A) (y0 : ι → ℝ)

/-- The solver under study. -/
noncomputable abbrev gdSolver : Solver (ι → ℝ) ℝ A (GradientDescent.State ι A Unit (ι → ℝ)) Unit :=
  GradientDescent.solver (GradientDescent.gradientDescent rate rtol atol nY nF grad) aux0

theorem gd_state (st0 : GradientDescent.State ι A Unit (ι → ℝ))
    (hi : (gdSolver rate rtol atol nY nF grad aux0).init fn y0 = .ok st0) (k : Nat) :
    iterateAt (gdSolver rate rtol atol nY nF grad aux0) fn aux0 y0 st0 (k + 1) = (gdMap rate grad)^[k] y0 ∧
    (stateAt (gdSolver rate rtol atol nY nF grad aux0) fn aux0 y0 st0 (k + 1)).yEval = (gdMap rate grad)^[k + 1] y0 ∧
    (stateAt (gdSolver rate rtol atol nY nF grad aux0) fn aux0 y0 st0 (k + 1)).fInfo =
      .evalGrad (fn ((gdMap rate grad)^[k] y0)).1 (grad ((gdMap rate grad)^[k] y0)) ∧
    (stateAt (gdSolver rate rtol atol nY nF grad aux0) fn aux0 y0 st0 (k + 1)).result = .successful ∧
    (stateAt (gdSolver rate rtol atol nY nF grad aux0) fn aux0 y0 st0 (k + 1)).firstStep = false := by
  have hstep : ∀ y (z : ι → ℝ) st, st.yEval = z →
      (GradientDescent.step (GradientDescent.gradientDescent rate rtol atol nY nF grad) fn y st).1 = z ∧
      (GradientDescent.step (GradientDescent.gradientDescent rate rtol atol nY nF grad) fn y st).2.1.yEval =
        gdMap rate grad z ∧
      (GradientDescent.step (GradientDescent.gradientDescent rate rtol atol nY nF grad) fn y st).2.1.fInfo =
        .evalGrad (fn z).1 (grad z) ∧
      (GradientDescent.step (GradientDescent.gradientDescent rate rtol atol nY nF grad) fn y st).2.1.result =
        .successful ∧
      (GradientDescent.step (GradientDescent.gradientDescent rate rtol atol nY nF grad) fn y st).2.1.firstStep =
        false := by
    rintro y z st rfl
    refine ⟨rfl, ?_, rfl, rfl, rfl⟩
    funext i
    show st.yEval i + -rate * grad st.yEval i = st.yEval i - rate * grad st.yEval i
    ring
  induction k with
  | zero =>
    have h0 : st0.yEval = y0 := ((gd_laws _ aux0 fn).init y0 st0 hi).2.1
    exact hstep y0 y0 st0 h0
  | succ k ih =>
    rw [Function.iterate_succ_apply' _ (k + 1)]
    exact hstep _ _ _ ih.2.1

/-- **C31.** `minimise` with `GradientDescent(learning_rate)`: after the first step, which only evaluates the function
at `y0`, the iterates are exactly those of `y ← y - learning_rate * grad(y)`, whatever objective, rate and number of
steps. -/
theorem C31_textbook_recursion (st0 : GradientDescent.State ι A Unit (ι → ℝ))
    (hi : (gdSolver rate rtol atol nY nF grad aux0).init fn y0 = .ok st0) :
    let Y := iterateAt (gdSolver rate rtol atol nY nF grad aux0) fn aux0 y0 st0
    Y 0 = y0 ∧ Y 1 = y0 ∧ ∀ k, 1 ≤ k → Y (k + 1) = fun i => Y k i - rate * grad (Y k) i := by
  intro Y
  have h := gd_state rate rtol atol nY nF grad aux0 fn y0 st0 hi
  refine ⟨rfl, (h 0).1, fun k hk => ?_⟩
  obtain _ | k := k
  · omega
  · show Y (k + 1 + 1) = gdMap rate grad (Y (k + 1))
    rw [show Y (k + 1 + 1) = _ from (h (k + 1)).1, show Y (k + 1) = _ from (h k).1, Function.iterate_succ_apply']

/-- **C31.** The value returned by any solve that made `n ≥ 1` steps is `n - 1` gradient steps from `y0`. -/
theorem C31_value (af : (ι → ℝ) → Bool) (ms : Option Nat) (throw : Bool)
    (sol : Solution (ι → ℝ) A (GradientDescent.State ι A Unit (ι → ℝ)) Unit)
    (h : iterativeSolve (gdSolver rate rtol atol nY nF grad aux0) af fn aux0 y0 ms throw = some (.ok sol)) :
    sol.value = (fun y i => y i - rate * grad y i)^[sol.numSteps - 1] y0 := by
  obtain ⟨_, _, st0, hi, _, hp⟩ := C01_step_budget _ _ _ _ _ _ _ _ h
  have hv : sol.value = iterateAt (gdSolver rate rtol atol nY nF grad aux0) fn aux0 y0 st0 sol.numSteps :=
    congrArg Prod.fst hp
  rw [hv]
  rcases sol.numSteps with _ | k
  · rfl
  · exact (gd_state rate rtol atol nY nF grad aux0 fn y0 st0 hi k).1

/-- **C31.** What success means for `GradientDescent` (default norm): the last gradient step was small, entry by entry:
`|rate * grad_i| < atol + rtol |value_i|` at the point `x` with `value = x - rate * grad(x)`, and so was the change of
the objective. -/
theorem C31_success_small_gradient [Fintype ι] (ha : 0 < atol) (hr : 0 ≤ rtol) (af : (ι → ℝ) → Bool)
    (ms : Option Nat) (throw : Bool) (sol : Solution (ι → ℝ) A (GradientDescent.State ι A Unit (ι → ℝ)) Unit)
    (h : iterativeSolve (gdSolver rate rtol atol maxNorm maxNorm grad aux0) af fn aux0 y0 ms throw = some (.ok sol))
    (hs : sol.result = .successful) :
    ∃ x, sol.value = (fun i => x i - rate * grad x i) ∧
      (∀ i, |rate * grad x i| < atol + rtol * |sol.value i|) ∧
      |(fn sol.value).1 - (fn x).1| < atol + rtol * |(fn sol.value).1| := by
  obtain ⟨st0, k, hi, hk, hn, hv, hc⟩ := C58_gradient_family _ (fun _ _ _ _ _ => rfl) aux0 fn af y0 ms throw sol h hs
  obtain _ | k := k
  · omega
  have hst := gd_state rate rtol atol maxNorm maxNorm grad aux0 fn y0 st0 hi k
  refine ⟨(gdMap rate grad)^[k] y0, ?_, ?_⟩
  · rw [hv, hst.2.1, Function.iterate_succ_apply']; rfl
  · have hc' : cauchyTermination rtol atol maxNorm maxNorm sol.value
      (fun i => sol.value i - iterateAt (gdSolver rate rtol atol maxNorm maxNorm grad aux0) fn aux0 y0 st0 (k + 1) i)
      (fun _ : Unit => (fn sol.value).1) (fun _ : Unit => (fn sol.value).1 -
        (fn (iterateAt (gdSolver rate rtol atol maxNorm maxNorm grad aux0) fn aux0 y0 st0 (k + 1))).1) = true := by
      simp only [cauchyTermination, Bool.and_eq_true, decide_eq_true_eq]
      exact hc
    rw [C46_cauchy_iff_all_entries rtol atol ha hr, hst.1] at hc'
    refine ⟨fun i => ?_, hc'.2 ()⟩
    have := hc'.1 i
    have e : sol.value i - (gdMap rate grad)^[k] y0 i = -(rate * grad ((gdMap rate grad)^[k] y0) i) := by
      rw [hv, hst.2.1, Function.iterate_succ_apply']
      show (_ - rate * _) - _ = _
      ring
    rwa [e, abs_neg] at this

end

theorem norm_small [Fintype ι] {N : (ι → ℝ) → ℝ} (hN : GoodNorm N) (rtol atol ε : ℝ) (ha : 0 < atol) (hr : 0 ≤ rtol)
    (x d : ι → ℝ) (hd : ∀ i, |d i| ≤ ε) (h : ε * N (fun _ => 1) < atol) :
    N (fun i => |d i| / (atol + rtol * |x i|)) < 1 := by
  by_cases hne : Nonempty ι
  · have hε : 0 ≤ ε := (abs_nonneg _).trans (hd (Classical.choice hne))
    have h1 : N (fun i => |d i| / (atol + rtol * |x i|)) ≤ N (fun i => (ε / atol) * (fun _ => (1:ℝ)) i) := by
      refine hN.mono _ _ fun i => ?_
      have hp : atol ≤ atol + rtol * |x i| := le_add_of_nonneg_right (by positivity)
      rw [mul_one, abs_of_nonneg (a := |d i| / _) (by positivity), abs_of_nonneg (a := ε / atol) (by positivity)]
      exact div_le_div₀ hε (hd i) ha hp
    rw [hN.smul, abs_of_nonneg (by positivity)] at h1
    refine lt_of_le_of_lt h1 ?_
    rw [div_mul_eq_mul_div, div_lt_one ha]; exact h
  · have : (fun i => |d i| / (atol + rtol * |x i|)) = fun i => (0:ℝ) * (fun _ => (1:ℝ)) i := by
      funext i; exact absurd ⟨i⟩ hne
    rw [this, hN.smul, abs_zero, zero_mul]
    exact one_pos

/-- **C31** (convergence).  For an `L`-smooth objective that is bounded below and a learning rate in `(0, 2/L)`,
`GradientDescent` with `atol > 0` always reports success after finitely many steps, from every start; any budget at least
that large is enough. -/
theorem C31_converges [Fintype ι] (rate rtol atol L m : ℝ) (ha : 0 < atol) (hr : 0 ≤ rtol)
    (nY : (ι → ℝ) → ℝ) (nF : (Unit → ℝ) → ℝ) (hY : GoodNorm nY) (hF : GoodNorm nF)
    (grad : (ι → ℝ) → (ι → ℝ)) (aux0 : A) (fn : (ι → ℝ) → ℝ × A) (y0 : ι → ℝ)
    (hsmooth : ∀ y z, (fn z).1 ≤ (fn y).1 + (∑ i, grad y i * (z i - y i)) + L / 2 * ∑ i, (z i - y i) ^ 2)
    (hlow : ∀ y, m ≤ (fn y).1) (hr0 : 0 < rate) (hr2 : rate * L < 2) (af : (ι → ℝ) → Bool) (haf : ∀ y, af y = true) :
    ∃ N, ∀ ms throw, (∀ n, ms = some n → N ≤ n) →
      ∃ sol, iterativeSolve (gdSolver rate rtol atol nY nF grad aux0) af fn aux0 y0 ms throw = some (.ok sol) ∧
        sol.result = .successful ∧ sol.numSteps ≤ N := by
  set x : Nat → ι → ℝ := fun k => (gdMap rate grad)^[k] y0 with hx
  set c := rate * (1 - rate * L / 2) with hc
  have hcpos : 0 < c := mul_pos hr0 (by linarith)
  have hdec : ∀ k, c * ∑ i, grad (x k) i ^ 2 ≤ (fn (x k)).1 - (fn (x (k + 1))).1 := by
    intro k
    have h := hsmooth (x k) (x (k + 1))
    have e : ∀ i, x (k + 1) i - x k i = -rate * grad (x k) i := by
      intro i
      simp only [hx]
      rw [Function.iterate_succ_apply']
      show (_ - rate * _) - _ = _
      ring
    simp only [e] at h
    have e1 : ∑ i, grad (x k) i * (-rate * grad (x k) i) = -rate * ∑ i, grad (x k) i ^ 2 := by
      rw [Finset.mul_sum]; exact Finset.sum_congr rfl fun i _ => by ring
    have e2 : ∑ i, (-rate * grad (x k) i) ^ 2 = rate ^ 2 * ∑ i, grad (x k) i ^ 2 := by
      rw [Finset.mul_sum]; exact Finset.sum_congr rfl fun i _ => by ring
    rw [e1, e2] at h
    rw [hc]
    nlinarith
  have hsq : ∀ k, 0 ≤ ∑ i, grad (x k) i ^ 2 := fun k => Finset.sum_nonneg fun i _ => sq_nonneg _
  -- small drops exist
  have hdrop : ∀ ε, 0 < ε → ∃ k, (fn (x k)).1 - (fn (x (k + 1))).1 < ε := by
    intro ε hε
    by_contra hno
    simp only [not_exists, not_lt] at hno
    have htel : ∀ n : Nat, (n : ℝ) * ε ≤ (fn (x 0)).1 - (fn (x n)).1 := by
      intro n
      induction n with
      | zero => simp
      | succ n ih => have := hno n; push_cast; linarith
    obtain ⟨n, hn⟩ := exists_nat_gt (((fn (x 0)).1 - m) / ε)
    rw [div_lt_iff₀ hε] at hn
    have := htel n
    have := hlow (x n)
    linarith
  -- choose tolerances
  obtain ⟨δ, hδ, hδY, hδF⟩ : ∃ δ, 0 < δ ∧ δ * nY (fun _ => 1) < atol ∧ δ * nF (fun _ => 1) < atol := by
    have h1 := hY.nonneg fun _ => 1
    have h2 := hF.nonneg fun _ => 1
    refine ⟨atol / (nY (fun _ => 1) + nF (fun _ => 1) + 1), by positivity, ?_, ?_⟩
    · rw [div_mul_eq_mul_div, div_lt_iff₀ (by positivity)]
      exact mul_lt_mul_of_pos_left (by linarith) ha
    · rw [div_mul_eq_mul_div, div_lt_iff₀ (by positivity)]
      exact mul_lt_mul_of_pos_left (by linarith) ha
  obtain ⟨k, hk⟩ := hdrop (min δ (c * (δ / rate) ^ 2)) (lt_min hδ (by positivity))
  have hk1 := lt_of_lt_of_le hk (min_le_left _ _)
  have hk2 := lt_of_lt_of_le hk (min_le_right _ _)
  have hfd : |(fn (x (k + 1))).1 - (fn (x k)).1| ≤ δ := by
    rw [abs_sub_comm, abs_of_nonneg]
    · exact hk1.le
    · exact (mul_nonneg hcpos.le (hsq k)).trans (hdec k)
  have hg : ∀ i, |x (k + 1) i - x k i| ≤ δ := by
    intro i
    have e : x (k + 1) i - x k i = -(rate * grad (x k) i) := by
      simp only [hx]
      rw [Function.iterate_succ_apply']
      show (_ - rate * _) - _ = _
      ring
    rw [e, abs_neg, abs_mul, abs_of_pos hr0]
    have h1 : grad (x k) i ^ 2 ≤ ∑ i, grad (x k) i ^ 2 :=
      Finset.single_le_sum (f := fun i => grad (x k) i ^ 2) (fun i _ => sq_nonneg _) (Finset.mem_univ i)
    have h2 : ∑ i, grad (x k) i ^ 2 < (δ / rate) ^ 2 :=
      lt_of_mul_lt_mul_left ((hdec k).trans_lt hk2) hcpos.le
    have h3 : |grad (x k) i| < δ / rate := abs_lt_of_sq_lt_sq (h1.trans_lt h2) (by positivity)
    rw [lt_div_iff₀ hr0, mul_comm] at h3
    exact h3.le
  obtain ⟨st0, hi⟩ : ∃ st0, (gdSolver rate rtol atol nY nF grad aux0).init fn y0 = .ok st0 := ⟨_, rfl⟩
  have hst := gd_state rate rtol atol nY nF grad aux0 fn y0 st0 hi
  refine ⟨k + 2, fun ms throw hb => ?_⟩
  obtain ⟨sol, h1, h2, h3, _⟩ := solve_succeeds_by (gdSolver rate rtol atol nY nF grad aux0) af fn aux0 y0 st0 hi ms throw
    (k + 2) (fun j _ => haf _)
    (by
      intro j _
      obtain _ | j := j
      · cases hi; rfl
      · exact (hst j).2.2.2.1)
    (by
      show (stateAt (gdSolver rate rtol atol nY nF grad aux0) fn aux0 y0 st0 (k + 2)).terminate = true
      obtain ⟨s1, s2, s3, s4, s5⟩ := hst k
      generalize hS : stateAt (gdSolver rate rtol atol nY nF grad aux0) fn aux0 y0 st0 (k + 1) = S at *
      generalize hYk : iterateAt (gdSolver rate rtol atol nY nF grad aux0) fn aux0 y0 st0 (k + 1) = Yk at *
      have hS2 : stateAt (gdSolver rate rtol atol nY nF grad aux0) fn aux0 y0 st0 (k + 2) =
        (GradientDescent.step (GradientDescent.gradientDescent rate rtol atol nY nF grad) fn Yk S).2.1 := by
        rw [← hS, ← hYk]; rfl
      rw [hS2]
      have hgoal : cauchyTermination rtol atol nY nF S.yEval (fun i => S.yEval i - Yk i)
          (fun _ => (fn S.yEval).1) (fun _ => (fn S.yEval).1 - GradientDescent.fOf S.fInfo) = true := by
        rw [s2, s1, s3]
        simp only [cauchyTermination, Bool.and_eq_true, decide_eq_true_eq]
        exact ⟨norm_small hY rtol atol δ ha hr _ _ hg hδY, norm_small hF rtol atol δ ha hr _ _ (fun _ => hfd) hδF⟩
      simp only [GradientDescent.step, GradientDescent.gradientDescent, learningRate, if_true, s5, Bool.false_eq_true,
        if_false]
      exact hgoal)
    hb
  exact ⟨sol, h1, h2, h3⟩

/-- The hypotheses of `C31_converges` are met by `f(y) = y²` with `L = 2`, rate `1/4`. -/
example : ∃ N, ∀ ms throw, (∀ n, ms = some n → N ≤ n) →
    ∃ sol, iterativeSolve (gdSolver (ι := Unit) (1/4) 0 (1/10) maxNorm maxNorm (fun y i => 2 * y i) ()) (fun _ => true)
      (fun y => (y () ^ 2, ())) () (fun _ => 1) ms throw = some (.ok sol) ∧ sol.result = .successful ∧
      sol.numSteps ≤ N :=
  C31_converges (1/4) 0 (1/10) 2 0 (by norm_num) le_rfl maxNorm maxNorm goodNorm_maxNorm goodNorm_maxNorm _ ()
    (fun y => (y () ^ 2, ())) _ (by intro y z; simp; nlinarith) (by intro y; positivity) (by norm_num) (by norm_num) _
    (fun _ => rfl)

/-! ### C32 -/

section
variable [Fintype ι] {SS : Type}

theorem sumSquares_pos_of_ne (g : ι → ℝ) (h : ∃ i, g i ≠ 0) : 0 < sumSquares g :=
  lt_of_le_of_ne (sumSquares_nonneg g) fun h' => by
    obtain ⟨i, hi⟩ := h
    exact hi ((sumSquares_eq_zero g).1 h'.symm i)

/-- **C32** (one query).  For every beta formula, gradient and previous state, the direction chosen satisfies
`grad · d < 0` unless the gradient vanishes, in which case the direction is zero; and from the initial state it is the
steepest-descent direction. -/
theorem C32_query_descent {κ : Type} [Fintype κ] (method : (ι → ℝ) → (ι → ℝ) → (ι → ℝ) → ℝ) (y g : ι → ℝ)
    (info : FnInfo ι κ) (hg : info.grad? = some g) (st : NonlinearCG.DState ι) :
    let d := ((NonlinearCG.descent method).query y info st).yDiff
    ((∃ i, g i ≠ 0) → treeDot g d < 0) ∧ ((∀ i, g i = 0) → ∀ i, d i = 0) ∧
    ((∀ i, st.yDiff i = 0) → d = fun i => -g i) := by
  intro d
  have hd : d = if treeDot g (fun i => -g i + method g st.grad st.yDiff * st.yDiff i) < 0 then
      (fun i => -g i + method g st.grad st.yDiff * st.yDiff i) else (fun i => -g i) := by
    show ((NonlinearCG.descent method).query y info st).yDiff = _
    simp only [NonlinearCG.descent, hg, Option.getD_some]
  have hneg : treeDot g (fun i => -g i) = -sumSquares g := by
    unfold treeDot sumSquares
    rw [← Finset.sum_neg_distrib]
    exact Finset.sum_congr rfl fun i _ => by ring
  refine ⟨fun hne => ?_, fun h0 => ?_, fun h0 => ?_⟩
  · rw [hd]
    split
    · assumption
    · rw [hneg]; linarith [sumSquares_pos_of_ne g hne]
  · rw [hd]
    have : treeDot g (fun i => -g i + method g st.grad st.yDiff * st.yDiff i) = 0 := by
      unfold treeDot; exact Finset.sum_eq_zero fun i _ => by rw [h0 i, zero_mul]
    rw [this, if_neg (lt_irrefl 0)]
    intro i; rw [h0 i, neg_zero]
  · rw [hd]
    simp only [h0, mul_zero, add_zero, ite_self]

/-- **C32** (whole runs).  In every run of `NonlinearCG`, with every beta formula, search (accepting on the first step),
objective and gradient oracle, after every step `k ≥ 1` the current search direction `d` has `grad(y_k) · d < 0`, or the
gradient at `y_k` is zero and so is `d`; after the first step it is `-grad(y0)`; and the points tried are
`y_k + step_size * d`. -/
theorem C32_run_descent (rtol atol : ℝ) (nY : (ι → ℝ) → ℝ) (nF : (Unit → ℝ) → ℝ)
    (method : (ι → ℝ) → (ι → ℝ) → (ι → ℝ) → ℝ) (search : Search ι Unit SS) (grad : (ι → ℝ) → (ι → ℝ))
    (hf : ∀ y z i j s, (search.step true y z i j s).2.1 = true) (aux0 : A) (fn : (ι → ℝ) → ℝ × A) (y0 : ι → ℝ)
    (st0 : GradientDescent.State ι A SS (NonlinearCG.DState ι))
    (hi : (GradientDescent.solver (NonlinearCG.cfg rtol atol nY nF method search grad) aux0).init fn y0 = .ok st0) :
    let S := GradientDescent.solver (NonlinearCG.cfg rtol atol nY nF method search grad) aux0
    let Y := iterateAt S fn aux0 y0 st0
    let d := fun k => (stateAt S fn aux0 y0 st0 k).descentState.yDiff
    (d 1 = fun i => -grad y0 i) ∧
    ∀ k, 1 ≤ k → (treeDot (grad (Y k)) (d k) < 0 ∨ ((∀ i, grad (Y k) i = 0) ∧ ∀ i, d k i = 0)) ∧
      ∃ t, (stateAt S fn aux0 y0 st0 k).yEval = fun i => Y k i + t * d k i := by
  intro S Y d
  have L := gd_laws (NonlinearCG.cfg rtol atol nY nF method search grad) aux0 fn
  have h0 : st0.descentState.yDiff = fun _ => 0 := by
    simp only [GradientDescent.solver, GradientDescent.init] at hi
    split at hi
    · cases hi
    · cases hi; rfl
  obtain ⟨hf0, hy0, _, _⟩ := L.init y0 st0 hi
  have hacc0 : ((gdView fn).ask search y0 st0).2.1 = true := by
    show (search.step st0.firstStep _ _ _ _ _).2.1 = true
    rw [show st0.firstStep = true from hf0]; exact hf _ _ _ _ _
  constructor
  · have A0 := L.accept y0 st0 hacc0
    have hinfo : (S.step fn y0 st0).2.1.fInfo = .evalGrad (fn st0.yEval).1 (grad st0.yEval) := A0.2.1
    have hds : (stateAt S fn aux0 y0 st0 1).descentState =
      (NonlinearCG.descent method).query st0.yEval (S.step fn y0 st0).2.1.fInfo st0.descentState := A0.2.2.2
    show (stateAt S fn aux0 y0 st0 1).descentState.yDiff = _
    rw [hds, hinfo, show (fun i => -grad y0 i) = fun i => -grad st0.yEval i by rw [show st0.yEval = y0 from hy0]]
    exact (C32_query_descent (κ := Unit) method st0.yEval (grad st0.yEval) _ rfl st0.descentState).2.2
      (fun i => by rw [h0])
  · intro k hk
    obtain _ | k := k
    · omega
    constructor
    · clear hk
      induction k with
      | zero =>
        have A0 := L.accept y0 st0 hacc0
        have hinfo : (S.step fn y0 st0).2.1.fInfo = .evalGrad (fn st0.yEval).1 (grad st0.yEval) := A0.2.1
        have hds : (stateAt S fn aux0 y0 st0 1).descentState =
          (NonlinearCG.descent method).query st0.yEval (S.step fn y0 st0).2.1.fInfo st0.descentState := A0.2.2.2
        have hY : Y 1 = st0.yEval := A0.1
        have Q := C32_query_descent (κ := Unit) method st0.yEval (grad st0.yEval) (.evalGrad (fn st0.yEval).1
          (grad st0.yEval)) rfl st0.descentState
        rw [hinfo] at hds
        show treeDot (grad (Y 1)) (stateAt S fn aux0 y0 st0 1).descentState.yDiff < 0 ∨ _ ∧
          ∀ i, (stateAt S fn aux0 y0 st0 1).descentState.yDiff i = 0
        rw [hds, hY]
        by_cases hg : ∃ i, grad st0.yEval i ≠ 0
        · exact .inl (Q.1 hg)
        · simp only [not_exists, not_not] at hg
          exact .inr ⟨hg, Q.2.1 hg⟩
      | succ k ih =>
        cases hacc : ((gdView fn).ask search (Y (k + 1)) (stateAt S fn aux0 y0 st0 (k + 1))).2.1 with
        | false =>
          have R := L.reject _ _ hacc
          have hY : Y (k + 1 + 1) = Y (k + 1) := R.1
          have hds : (stateAt S fn aux0 y0 st0 (k + 1 + 1)).descentState =
            (stateAt S fn aux0 y0 st0 (k + 1)).descentState := R.2.2.2.1
          show treeDot (grad (Y (k + 1 + 1))) (stateAt S fn aux0 y0 st0 (k + 1 + 1)).descentState.yDiff < 0 ∨ _ ∧
            ∀ i, (stateAt S fn aux0 y0 st0 (k + 1 + 1)).descentState.yDiff i = 0
          rw [hds, hY]; exact ih
        | true =>
          generalize hsk : stateAt S fn aux0 y0 st0 (k + 1) = sk at *
          generalize hyk : Y (k + 1) = yk at *
          have A0 := L.accept yk sk hacc
          have hinfo : (S.step fn yk sk).2.1.fInfo = .evalGrad (fn sk.yEval).1 (grad sk.yEval) := A0.2.1
          have e1 : stateAt S fn aux0 y0 st0 (k + 1 + 1) = (S.step fn yk sk).2.1 := by rw [← hsk, ← hyk]; rfl
          have e2 : Y (k + 1 + 1) = (S.step fn yk sk).1 := by rw [← hsk, ← hyk]; rfl
          have hds : (S.step fn yk sk).2.1.descentState =
            (NonlinearCG.descent method).query sk.yEval (S.step fn yk sk).2.1.fInfo sk.descentState := A0.2.2.2
          have hY : (S.step fn yk sk).1 = sk.yEval := A0.1
          have Q := C32_query_descent (κ := Unit) method sk.yEval (grad sk.yEval) (.evalGrad (fn sk.yEval).1
            (grad sk.yEval)) rfl sk.descentState
          rw [hinfo] at hds
          show treeDot (grad (Y (k + 1 + 1))) (stateAt S fn aux0 y0 st0 (k + 1 + 1)).descentState.yDiff < 0 ∨ _ ∧
            ∀ i, (stateAt S fn aux0 y0 st0 (k + 1 + 1)).descentState.yDiff i = 0
          rw [e1, e2, hds, hY]
          by_cases hg : ∃ i, grad sk.yEval i ≠ 0
          · exact .inl (Q.1 hg)
          · simp only [not_exists, not_not] at hg
            exact .inr ⟨hg, Q.2.1 hg⟩
    · exact ⟨_, L.yEval _ _⟩

/-- **C32** (progress).  `NonlinearCG` with `BacktrackingArmijo` (the default) and the true gradient of a differentiable
objective: whenever a fresh line search starts at a point with non-zero gradient, it ends after finitely many trials, at a
point with strictly smaller objective. -/
theorem C32_progress (dec slope init rtol atol : ℝ) (a : Armijo.Cfg ℝ) (ha : Armijo.new dec slope init = .ok a)
    (nY : (ι → ℝ) → ℝ) (nF : (Unit → ℝ) → ℝ) (method : (ι → ℝ) → (ι → ℝ) → (ι → ℝ) → ℝ)
    (grad : (ι → ℝ) → (ι → ℝ)) (aux0 : A) (fn : (ι → ℝ) → ℝ × A)
    (hgrad : ∀ y p : ι → ℝ, HasDerivAt (fun t : ℝ => (fn fun c => y c + t * p c).1) (treeDot (grad y) p) 0)
    (y0 : ι → ℝ) (st0 : GradientDescent.State ι A ℝ (NonlinearCG.DState ι))
    (hi : (GradientDescent.solver (NonlinearCG.cfg rtol atol nY nF method (Armijo.search a) grad) aux0).init fn y0 =
      .ok st0) (k : Nat) :
    let S := GradientDescent.solver (NonlinearCG.cfg rtol atol nY nF method (Armijo.search a) grad) aux0
    let Y := iterateAt S fn aux0 y0 st0
    (stateAt S fn aux0 y0 st0 (k + 1)).searchState = init → (∃ i, grad (Y (k + 1)) i ≠ 0) →
    ∃ j, (∀ m, m ≤ j → Y (k + 1 + m) = Y (k + 1)) ∧ (fn (Y (k + 1 + j + 1))).1 < (fn (Y (k + 1))).1 ∧
      (stateAt S fn aux0 y0 st0 (k + 1 + j + 1)).searchState = init := by
  intro S Y hfresh hne
  obtain ⟨rfl, hd0, _, hs0, _, hi0⟩ := armijo_new dec slope init a ha
  obtain ⟨hdir, _⟩ := (C32_run_descent rtol atol nY nF method (Armijo.search ⟨dec, slope, init⟩) grad
    (armijo_first _) aux0 fn y0 st0 hi).2 (k + 1) (Nat.succ_pos k)
  have hneg : treeDot (grad (Y (k + 1))) (stateAt S fn aux0 y0 st0 (k + 1)).descentState.yDiff < 0 := by
    rcases hdir with h | ⟨h, _⟩
    · exact h
    · obtain ⟨i, hi'⟩ := hne; exact absurd (h i) hi'
  obtain ⟨j, h1, h2, h3, h4⟩ := C28_accepts_gradient dec slope init _ ha
    (NonlinearCG.cfg rtol atol nY nF method (Armijo.search ⟨dec, slope, init⟩) grad) rfl aux0 fn y0 st0 hi k
    (stateAt S fn aux0 y0 st0 (k + 1)).descentState.yDiff hfresh (fun _ => rfl) hneg (hgrad _ _)
  refine ⟨j, fun m hm => (h1 m hm).1, lt_of_le_of_lt h4 ?_, h3⟩
  have : slope * (init * dec ^ j) * treeDot (grad (Y (k + 1))) (stateAt S fn aux0 y0 st0 (k + 1)).descentState.yDiff < 0 :=
    mul_neg_of_pos_of_neg (by positivity) hneg
  exact add_lt_of_neg_right _ this

/-! ### C33 -/

/-- **C33.** `fletcher_reeves` is `|g|² / |g_prev|²` and `polak_ribiere` is `max(0, g·(g - g_prev) / |g_prev|²)`, whenever the
denominator is above the machine epsilon (otherwise both are `0`).
Missing for the full claim: `hestenes_stiefel` and `dai_yuan`, which have the wrong sign, see
`C33_hs_dy_sign_flipped`. -/
theorem C33_fr_pr_published_partial (eps : ℝ) (g g' d : ι → ℝ) :
    (eps < ∑ i, g' i ^ 2 →
      NonlinearCG.fletcherReeves eps g g' d = (∑ i, g i ^ 2) / (∑ i, g' i ^ 2) ∧
      NonlinearCG.polakRibiere eps g g' d = max 0 ((∑ i, g i * (g i - g' i)) / (∑ i, g' i ^ 2))) ∧
    (¬ eps < ∑ i, g' i ^ 2 →
      NonlinearCG.fletcherReeves eps g g' d = 0 ∧ NonlinearCG.polakRibiere eps g g' d = 0) := by
  have hs : ∀ x : ι → ℝ, sumSquares x = ∑ i, x i ^ 2 := fun x =>
    Finset.sum_congr rfl fun i _ => (pow_two _).symm
  simp only [NonlinearCG.fletcherReeves, NonlinearCG.polakRibiere, hs]
  refine ⟨fun h => ?_, fun h => ?_⟩
  · rw [if_pos h, if_pos h]
    refine ⟨rfl, ?_⟩
    show _ = max 0 (treeDot g (fun i => g i - g' i) / _)
    split
    · rename_i h'; rw [max_eq_left h'.le]
    · rename_i h'; rw [max_eq_right (not_lt.1 h')]
  · rw [if_neg h, if_neg h]; exact ⟨rfl, rfl⟩

/-- **C33, negation.**  `hestenes_stiefel` and `dai_yuan` compute the *negative* of the published coefficients
`g·Δg / (d·Δg)` and `|g|² / (d·Δg)` (`Δg = g - g_prev`, `d` the previous direction), for all arguments with
`|d·Δg| > eps`. -/
theorem C33_hs_dy_sign_flipped (eps : ℝ) (g g' d : ι → ℝ) (h : eps < |∑ i, d i * (g i - g' i)|) :
    NonlinearCG.hestenesStiefel eps g g' d = -((∑ i, g i * (g i - g' i)) / ∑ i, d i * (g i - g' i)) ∧
    NonlinearCG.daiYuan eps g g' d = -((∑ i, g i ^ 2) / ∑ i, d i * (g i - g' i)) := by
  have hs : ∀ x : ι → ℝ, sumSquares x = ∑ i, x i ^ 2 := fun x =>
    Finset.sum_congr rfl fun i _ => (pow_two _).symm
  have h' : eps < |-treeDot d fun i => g i - g' i| := by rw [abs_neg]; exact h
  simp only [NonlinearCG.hestenesStiefel, NonlinearCG.daiYuan, hs]
  rw [if_pos h', if_pos h']
  exact ⟨div_neg _, div_neg _⟩

/-- **C33, negation.**  Consequently the direction `-g + β d` built with the library's `hestenes_stiefel` is conjugate to
the previous direction (`Δg · (−g + β d) = 0`, the defining property of the Hestenes-Stiefel choice) only if `g·Δg = 0`; in
general `Δg · (−g + β d) = −2 g·Δg`. -/
theorem C33_hs_not_conjugate (eps : ℝ) (heps : 0 ≤ eps) (g g' d : ι → ℝ) (h : eps < |∑ i, d i * (g i - g' i)|) :
    (∑ i, (g i - g' i) * (-g i + NonlinearCG.hestenesStiefel eps g g' d * d i)) =
      -2 * ∑ i, g i * (g i - g' i) := by
  rw [(C33_hs_dy_sign_flipped eps g g' d h).1]
  have hne : (∑ i, d i * (g i - g' i)) ≠ 0 := by
    intro h0; rw [h0, abs_zero] at h; linarith
  set b := (∑ i, g i * (g i - g' i)) / ∑ i, d i * (g i - g' i) with hb
  have e : ∑ i, (g i - g' i) * (-g i + -b * d i) =
      -(∑ i, g i * (g i - g' i)) - b * ∑ i, d i * (g i - g' i) := by
    rw [Finset.mul_sum, ← Finset.sum_neg_distrib, ← Finset.sum_sub_distrib]
    exact Finset.sum_congr rfl fun i _ => by ring
  rw [e, hb, div_mul_cancel₀ _ hne]
  ring

end

/-- A concrete instance of the sign error: `g = 1`, `g_prev = 2`, previous direction `d = -2` (steepest descent):
the published coefficient is `-1/2`, the library's `1/2`. -/
example : NonlinearCG.hestenesStiefel (ι := Unit) (1/1000) (fun _ => 1) (fun _ => 2) (fun _ => -2) = 1/2 := by
  rw [(C33_hs_dy_sign_flipped _ _ _ _ (by norm_num)).1]; norm_num

end Verif.Props
