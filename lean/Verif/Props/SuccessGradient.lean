import Verif.Props.TrustComplexity
import Verif.Props.Complexity
import Verif.Props.Outcomes
import Verif.Props.Agreement
import Verif.Props.Tolerances

/-!
Property C114: what a successful result says about the gradient.

The convergence test compares the last two points, not the gradient.  With a bound on how fast the gradient changes, the test
still bounds the gradient at the returned point by a multiple of the tolerances; the multiple is given for each solver.  Without
such a bound it says nothing: the last two theorems.
-/

namespace Verif.Props

open Verif Verif.Spec Verif.Driver Verif.SearchLoop

variable {ι κ A : Type} [Fintype ι] [Fintype κ]

/-- If squared lengths are at most `a² s` and `b² s`, that of the sum is at most `(a + b)² s`. -/
theorem sum_sq_add_le (u w : ι → ℝ) (a b s : ℝ) (ha : 0 ≤ a) (hb : 0 ≤ b) (hs : 0 ≤ s) (hu : ∑ i, u i ^ 2 ≤ a ^ 2 * s)
    (hw : ∑ i, w i ^ 2 ≤ b ^ 2 * s) : ∑ i, (u i + w i) ^ 2 ≤ (a + b) ^ 2 * s := by
  have cs := Finset.sum_mul_sq_le_sq_mul_sq Finset.univ u w
  have h1 : (∑ i, u i * w i) ^ 2 ≤ (a * b * s) ^ 2 := by
    refine cs.trans ?_
    calc (∑ i, u i ^ 2) * ∑ i, w i ^ 2 ≤ (a ^ 2 * s) * (b ^ 2 * s) :=
          mul_le_mul hu hw (Finset.sum_nonneg fun _ _ => sq_nonneg _) (by positivity)
      _ = _ := by ring
  have h2 : ∑ i, u i * w i ≤ a * b * s := (abs_le_of_sq_le_sq' h1 (by positivity)).2
  have e : ∑ i, (u i + w i) ^ 2 = ∑ i, u i ^ 2 + ∑ i, w i ^ 2 + 2 * ∑ i, u i * w i := by
    rw [Finset.mul_sum, ← Finset.sum_add_distrib, ← Finset.sum_add_distrib]
    exact Finset.sum_congr rfl fun i _ => by ring
  rw [e]
  nlinarith

/-- Entry by entry, two close points differ by less than the tolerance. -/
theorem close_entries {rtol atol : ℝ} {nY : (ι → ℝ) → ℝ} {nF : (κ → ℝ) → ℝ} (ha : 0 < atol) (hr : 0 ≤ rtol)
    (hN : ∀ (x : ι → ℝ) i, |x i| ≤ nY x) {z y : ι → ℝ} {fz fy : κ → ℝ} (h : CloseWithin rtol atol nY nF z y fz fy) (i : ι) :
    |z i - y i| < atol + rtol * |z i| := by
  have hp : 0 < atol + rtol * |z i| := add_pos_of_pos_of_nonneg ha (mul_nonneg hr (abs_nonneg _))
  have h1 := (hN (fun i => |z i - y i| / (atol + rtol * |z i|)) i).trans_lt h.1
  rw [abs_div, abs_abs, abs_of_pos hp, div_lt_one hp] at h1
  exact h1

/-- A gradient that is at most `C` times as long as the last step, at the point before it, is small at the point after it. -/
theorem small_at_end (G : (ι → ℝ) → ι → ℝ) (C L rtol atol : ℝ) (hC : 0 ≤ C) (hL : 0 ≤ L) (z y : ι → ℝ)
    (hlip : ∑ i, (G z i - G y i) ^ 2 ≤ L ^ 2 * ∑ i, (z i - y i) ^ 2) (hy : ∑ i, G y i ^ 2 ≤ C ^ 2 * ∑ i, (z i - y i) ^ 2)
    (hclose : ∀ i, |z i - y i| < atol + rtol * |z i|) :
    ∑ i, G z i ^ 2 ≤ (C + L) ^ 2 * ∑ i, (atol + rtol * |z i|) ^ 2 := by
  have h1 := sum_sq_add_le (fun i => G y i) (fun i => G z i - G y i) C L _ hC hL
    (Finset.sum_nonneg fun i _ => sq_nonneg (z i - y i)) hy hlip
  have e : ∑ i, (G y i + (G z i - G y i)) ^ 2 = ∑ i, G z i ^ 2 := Finset.sum_congr rfl fun i _ => by ring
  rw [e] at h1
  refine h1.trans (mul_le_mul_of_nonneg_left (Finset.sum_le_sum fun i _ => ?_) (sq_nonneg _))
  rw [← sq_abs (z i - y i)]
  exact pow_le_pow_left₀ (abs_nonneg _) (hclose i).le 2

/-- Least squares: a solve that succeeds after a single step has only compared the residuals at the start with the tolerance. -/
theorem one_step_residuals {SS DS : Type} (cfg : GaussNewton.Cfg ι κ SS DS)
    (hf : ∀ y z i j s, (cfg.search.step true y z i j s).2.1 = true) (ha : 0 < cfg.atol) (hr : 0 ≤ cfg.rtol)
    (hN : ∀ (x : κ → ℝ) i, |x i| ≤ cfg.normF x) (aux0 : A) (fn : (ι → ℝ) → (κ → ℝ) × A)
    (af : (ι → ℝ) → Bool) (y0 : ι → ℝ) (ms : Option Nat) (throw : Bool)
    (sol : Solution (ι → ℝ) A (GaussNewton.State ι κ A SS DS) Unit)
    (h : iterativeSolve (GaussNewton.solver cfg aux0) af fn aux0 y0 ms throw = some (.ok sol))
    (hs : sol.result = .successful) (hone : sol.numSteps = 1) (j : κ) :
    |(fn y0).1 j| < cfg.atol + cfg.rtol * |(fn y0).1 j| := by
  obtain ⟨_, _, st0, hi, hst, hp⟩ := C01_step_budget _ _ _ _ _ _ _ _ h
  obtain ⟨st0', hi', hterm, _⟩ := C02_success_is_certificate _ _ _ _ _ _ _ _ h hs
  rw [hi] at hi'; cases hi'
  have ht : sol.state.terminate = true := congrArg Prod.fst hterm
  rw [hst, hone] at ht
  have h0 : st0.firstStep = true ∧ st0.yEval = y0 ∧ st0.residual = fun _ => 0 := by
    simp only [GaussNewton.solver, GaussNewton.init] at hi
    split at hi
    · cases hi
    · cases hi; exact ⟨rfl, rfl, rfl⟩
  have ht' : (GaussNewton.step cfg fn y0 st0).2.1.terminate = true := ht
  simp only [GaussNewton.step, h0.1, h0.2.1, h0.2.2, hf, if_true] at ht'
  have h2 := (cauchy_close _ _ _ _ _ _ (fn y0).1 (fun _ => 0) ht').2
  have hp' : 0 < cfg.atol + cfg.rtol * |(fn y0).1 j| := add_pos_of_pos_of_nonneg ha (mul_nonneg hr (abs_nonneg _))
  have h1 := (hN _ j).trans_lt h2
  simp only [sub_zero] at h1
  rw [abs_div, abs_abs, abs_of_pos hp', div_lt_one hp'] at h1
  exact h1

section
variable (rtol atol : ℝ) (ha : 0 < atol) (hr : 0 ≤ rtol) (nY : (ι → ℝ) → ℝ) (hN : ∀ (x : ι → ℝ) i, |x i| ≤ nY x)
include ha hr hN

/-- **C114**, `GradientDescent`: at the point returned by a successful solve the gradient is at most `1/learning_rate + L` times
as long as the vector of tolerances. -/
theorem C114_gradient_descent (nF : (Unit → ℝ) → ℝ) (rate L : ℝ) (hrate : 0 < rate) (grad : (ι → ℝ) → (ι → ℝ)) (aux0 : A)
    (fn : (ι → ℝ) → ℝ × A) (y0 : ι → ℝ) (hL : LipschitzGradient (fun y => (fn y).1) grad L) (af : (ι → ℝ) → Bool)
    (ms : Option Nat) (throw : Bool) (sol : Solution (ι → ℝ) A (GradientDescent.State ι A Unit (ι → ℝ)) Unit)
    (h : iterativeSolve (GradientDescent.solver (GradientDescent.gradientDescent rate rtol atol nY nF grad) aux0) af fn aux0 y0 ms
      throw = some (.ok sol)) (hs : sol.result = .successful) :
    ∑ i, grad sol.value i ^ 2 ≤ (1 / rate + L) ^ 2 * ∑ i, (atol + rtol * |sol.value i|) ^ 2 := by
  obtain ⟨st0, k, hi, hk, hn, hv, hc⟩ := C58_gradient_family _ (fun _ _ _ _ _ => rfl) aux0 fn af y0 ms throw sol h hs
  obtain _ | k := k
  · omega
  have hst := gd_state rate rtol atol nY nF grad aux0 fn y0 st0 hi k
  set y := iterateAt (GradientDescent.solver (GradientDescent.gradientDescent rate rtol atol nY nF grad) aux0) fn aux0 y0 st0 (k + 1)
    with hy
  have e : ∀ i, sol.value i - y i = -(rate * grad y i) := by
    intro i
    have e1 : y = (gdMap rate grad)^[k] y0 := hst.1
    have e2 : sol.value = gdMap rate grad y := by
      rw [hv, show (stateAt _ fn aux0 y0 st0 (k + 1)).yEval = _ from hst.2.1, Function.iterate_succ_apply', e1]
    rw [e2]; simp [gdMap]
  refine small_at_end grad (1 / rate) L rtol atol (by positivity) hL.nonneg sol.value y (hL.lipschitz _ _) ?_
    (close_entries ha hr hN hc)
  rw [Finset.mul_sum]
  refine Finset.sum_le_sum fun i _ => ?_
  rw [e i]
  have : (1 / rate) ^ 2 * (-(rate * grad y i)) ^ 2 = grad y i ^ 2 := by field_simp
  rw [this]

/-- **C114**, steepest descent with backtracking: the same with the smallest step the search can be forced to. -/
theorem C114_backtracking (nF : (Unit → ℝ) → ℝ) (d s i : ℝ) (a : Armijo.Cfg ℝ) (hnew : Armijo.new d s i = .ok a) (L : ℝ)
    (hL0 : 0 < L) (grad : (ι → ℝ) → (ι → ℝ)) (aux0 : A) (fn : (ι → ℝ) → ℝ × A) (y0 : ι → ℝ)
    (hL : LipschitzGradient (fun y => (fn y).1) grad L) (af : (ι → ℝ) → Bool)
    (ms : Option Nat) (throw : Bool) (sol : Solution (ι → ℝ) A (GradientDescent.State ι A ℝ (ι → ℝ)) Unit)
    (h : iterativeSolve (GradientDescent.solver (backtrackingDescent a rtol atol nY nF grad) aux0) af fn aux0 y0 ms
      throw = some (.ok sol)) (hs : sol.result = .successful) :
    ∑ i, grad sol.value i ^ 2 ≤ (1 / smallestStep a L + L) ^ 2 * ∑ i, (atol + rtol * |sol.value i|) ^ 2 := by
  obtain ⟨rfl, hd0, hd1, hs0, hs1, hi0⟩ := armijo_new d s i a hnew
  set cfg := backtrackingDescent ⟨d, s, i⟩ rtol atol nY nF grad with hcfg
  set S := GradientDescent.solver cfg aux0 with hS
  obtain ⟨st0, k, hi, hk, hn, hv, hc⟩ := C58_gradient_family cfg (fun y z i j s => armijo_first _ y z i j s) aux0 fn af y0 ms throw
    sol h hs
  obtain _ | k := k
  · omega
  have LL : Laws S fn (fun y => (fn y).1) (Armijo.search ⟨d, s, i⟩) cfg.descent (gdView fn) _ := gd_laws cfg aux0 fn
  have hG : ∀ y (i : FnInfo ι Unit), i = .evalGrad (fn y).1 (cfg.grad y) → i.grad? = some (cfg.grad y) := by
    rintro y i rfl; rfl
  have hrel := steepest_related ⟨d, s, i⟩ rtol atol nY nF grad aux0 fn y0 st0 hi
  set Y := iterateAt S fn aux0 y0 st0 with hY
  set T := fun k => (stateAt S fn aux0 y0 st0 (k + 1)).searchState with hT
  have htrial : ∀ k, (stateAt S fn aux0 y0 st0 (k + 1)).yEval = fun c => Y (k + 1) c + T k * -grad (Y (k + 1)) c := by
    intro k
    have h1 := armijo_trial LL hG aux0 y0 st0 hi k
    have h2 : (cfg.descent.step (T k) (stateAt S fn aux0 y0 st0 (k + 1)).descentState) = _ := hrel (k + 1) (by omega) (T k)
    refine h1.trans ?_
    show (fun c => Y (k + 1) c + (cfg.descent.step (T k) (stateAt S fn aux0 y0 st0 (k + 1)).descentState).1 c) = _
    rw [h2]
  have hone : 0 < 1 - s := by linarith
  have htm0 : 0 < smallestStep ⟨d, s, i⟩ L := by
    unfold smallestStep
    refine lt_min hi0 ?_
    show 0 < d * (2 * (1 - s) / L)
    positivity
  have hrange : ∀ k, smallestStep ⟨d, s, i⟩ L ≤ T k := by
    intro k
    induction k with
    | zero =>
      have : T 0 = i := (armijo_start LL aux0 y0 st0 hi).2.1
      rw [this]; exact min_le_left _ _
    | succ k ih =>
      rcases (armijo_run LL hG aux0 y0 st0 hi k).2 with ⟨_, _, h⟩ | ⟨hn, _, h, _⟩
      · have : T (k + 1) = i := h
        rw [this]; exact min_le_left _ _
      · have : T (k + 1) = d * T k := h
        rw [this]
        have hlt : 2 * (1 - s) / L < T k := by
          by_contra hle
          rw [not_lt, le_div_iff₀ hL0] at hle
          refine hn ?_
          show ArmijoHolds s (fun y => (fn y).1) (grad (Y (k + 1))) (Y (k + 1)) (stateAt S fn aux0 y0 st0 (k + 1)).yEval
          rw [htrial, ArmijoHolds]
          have h0 : 0 ≤ T k := htm0.le.trans ih
          set N := ∑ c, grad (Y (k + 1)) c ^ 2 with hNdef
          have hN0 : 0 ≤ N := Finset.sum_nonneg fun _ _ => sq_nonneg _
          have e1 : treeDot (grad (Y (k + 1))) (fun c => Y (k + 1) c + T k * -grad (Y (k + 1)) c - Y (k + 1) c) = -(T k * N) := by
            unfold treeDot
            rw [hNdef, Finset.mul_sum, ← Finset.sum_neg_distrib]
            exact Finset.sum_congr rfl fun c _ => by ring
          have e2 : sumSquares (fun c => Y (k + 1) c + T k * -grad (Y (k + 1)) c - Y (k + 1) c) = T k ^ 2 * N := by
            unfold sumSquares
            rw [hNdef, Finset.mul_sum]
            exact Finset.sum_congr rfl fun c _ => by ring
          have h2 := hL.bound (Y (k + 1)) (fun c => Y (k + 1) c + T k * -grad (Y (k + 1)) c)
          rw [e1, e2] at h2
          rw [e1]
          have h3 : 0 ≤ T k * N := mul_nonneg h0 hN0
          refine ⟨h2.trans ?_, by linarith⟩
          nlinarith [mul_le_mul_of_nonneg_left hle h3]
        refine (min_le_right _ _).trans ?_
        exact mul_le_mul_of_nonneg_left hlt.le hd0.le
  have e : ∀ c, sol.value c - Y (k + 1) c = -(T k * grad (Y (k + 1)) c) := by
    intro c
    have : sol.value = _ := hv.trans (htrial k)
    rw [this]; ring
  refine small_at_end grad _ L rtol atol (by positivity) hL.nonneg sol.value (Y (k + 1)) (hL.lipschitz _ _) ?_
    (close_entries ha hr hN hc)
  rw [Finset.mul_sum]
  refine Finset.sum_le_sum fun c _ => ?_
  rw [e c, neg_sq, mul_pow, ← mul_assoc, ← mul_pow]
  refine le_mul_of_one_le_left (sq_nonneg _) (one_le_pow₀ ?_)
  rw [one_div, ← div_eq_inv_mul, one_le_div htm0]
  exact hrange k

/-- **C114**, steepest descent with `LinearTrustRegion`. -/
theorem C114_trust_region (c : TrustRegion.Cfg ℝ) (hc0 : 0 < c.lowCutoff) (hc1 : c.lowCutoff < 1) (hl0 : 0 < c.lowConstant)
    (hh : 1 ≤ c.highConstant) (cfg : GradientDescent.Cfg ι ℝ (ι → ℝ)) (hcr : cfg.rtol = rtol) (hca : cfg.atol = atol)
    (hcn : cfg.normY = nY) (hs' : cfg.search = TrustRegion.linear c) (hd : cfg.descent = steepestDescent none) (aux0 : A)
    (fn : (ι → ℝ) → ℝ × A) (y0 : ι → ℝ) (L : ℝ) (hL : LipschitzGradient (fun y => (fn y).1) cfg.grad L) (hL0 : 0 < L)
    (af : (ι → ℝ) → Bool) (ms : Option Nat) (throw : Bool) (sol : Solution (ι → ℝ) A (GradientDescent.State ι A ℝ (ι → ℝ)) Unit)
    (h : iterativeSolve (GradientDescent.solver cfg aux0) af fn aux0 y0 ms throw = some (.ok sol)) (hs : sol.result = .successful) :
    ∑ i, cfg.grad sol.value i ^ 2 ≤
      (1 / min 1 (c.lowConstant * (2 * (1 - c.lowCutoff) / L)) + L) ^ 2 * ∑ i, (atol + rtol * |sol.value i|) ^ 2 := by
  obtain ⟨st0, k, hi, hk, hn, hv, hcl⟩ := C58_gradient_family cfg (fun y z i j s => by rw [hs']; exact tr_first _ _ _ y z i j s) aux0
    fn af y0 ms throw sol h hs
  rw [hcr, hca, hcn] at hcl
  obtain _ | k := k
  · omega
  obtain ⟨R, _, h1, htr⟩ := gd_trust_run c hl0 (by linarith) cfg hs' hd aux0 fn y0 st0 hi
  set Y := iterateAt (GradientDescent.solver cfg aux0) fn aux0 y0 st0
  set St := stateAt (GradientDescent.solver cfg aux0) fn aux0 y0 st0
  set T := fun k => (St (k + 1)).searchState with hT
  have hone : 0 < 1 - c.lowCutoff := by linarith
  have hrad := R.radius hl0 hh (2 * (1 - c.lowCutoff) / L)
    (fun k s h0 h1 => gd_trial_taken c cfg.grad fn L hL hL0 (Y (k + 1)) s h0 h1) k
  rw [show T 0 = 1 from h1] at hrad
  have hm : 0 < min 1 (c.lowConstant * (2 * (1 - c.lowCutoff) / L)) := lt_min one_pos (by positivity)
  have e : ∀ i, sol.value i - Y (k + 1) i = -(T k * cfg.grad (Y (k + 1)) i) := by
    intro i
    have : sol.value = _ := hv.trans (htr k)
    rw [this]; ring
  refine small_at_end cfg.grad _ L rtol atol (by positivity) hL.nonneg sol.value (Y (k + 1)) (hL.lipschitz _ _) ?_
    (close_entries ha hr hN hcl)
  rw [Finset.mul_sum]
  refine Finset.sum_le_sum fun i _ => ?_
  rw [e i, neg_sq, mul_pow, ← mul_assoc, ← mul_pow]
  refine le_mul_of_one_le_left (sq_nonneg _) (one_le_pow₀ ?_)
  rw [one_div, ← div_eq_inv_mul, one_le_div hm]
  exact hrad

omit ha hr hN in
theorem gram_sq_bound (J : Matrix κ ι ℝ) (B : ℝ) (hB : 0 ≤ B) (h : ∀ p : ι → ℝ, ∑ m, (∑ i, J m i * p i) ^ 2 ≤ B * ∑ i, p i ^ 2)
    (p : ι → ℝ) : ∑ i, (∑ m, J m i * J.mulVec p m) ^ 2 ≤ B ^ 2 * ∑ i, p i ^ 2 := by
  refine (transpose_bound J B hB h _).trans ?_
  rw [sq, mul_assoc]
  exact mul_le_mul_of_nonneg_left (h p) hB

/-- **C114**, `GaussNewton` (after at least two steps; after one step nothing has been compared, see
`C58_gauss_newton_stops_at_start`): the gradient `Jᵀ r` is at most `B + L` times as long as the vector of tolerances, where `B`
bounds `JᵀJ`. -/
theorem C114_gauss_newton (nF : (κ → ℝ) → ℝ) (ls : LinSolve ι κ) (hls : SolvesLeastSquares ls) (jac : (ι → ℝ) → Matrix κ ι ℝ)
    (aux0 : A) (fn : (ι → ℝ) → (κ → ℝ) × A) (y0 : ι → ℝ) (L B : ℝ) (hS : SmoothResiduals (fun y => (fn y).1) jac L B)
    (af : (ι → ℝ) → Bool) (ms : Option Nat) (throw : Bool)
    (sol : Solution (ι → ℝ) A (GaussNewton.State ι κ A Unit ((ι → ℝ) × Result)) Unit)
    (h : iterativeSolve (GaussNewton.solver (GaussNewton.gaussNewton rtol atol nY nF ls jac) aux0) af fn aux0 y0 ms throw =
      some (.ok sol)) (hs : sol.result = .successful) (htwo : sol.numSteps ≠ 1) :
    ∑ i, (∑ m, jac sol.value m i * (fn sol.value).1 m) ^ 2 ≤ (B + L) ^ 2 * ∑ i, (atol + rtol * |sol.value i|) ^ 2 := by
  set cfg := GaussNewton.gaussNewton rtol atol nY nF ls jac with hcfg
  obtain ⟨st0, k, hi, hk, hn, hv, hcl⟩ := C58_gauss_newton_family_partial cfg (fun _ _ _ _ _ => rfl) aux0 fn af y0 ms throw sol h hs
    htwo
  obtain _ | k := k
  · omega
  have LL := gn_laws cfg aux0 fn
  set Y := iterateAt (GaussNewton.solver cfg aux0) fn aux0 y0 st0 with hYd
  set St := stateAt (GaussNewton.solver cfg aux0) fn aux0 y0 st0 with hSt
  obtain ⟨⟨y', d', hq⟩, t, ht, hye⟩ := queried LL (fun _ _ _ _ _ => rfl) aux0 y0 st0 hi k
  have hinfo := (stored LL (fun _ _ _ _ _ => rfl) aux0 y0 st0 hi k).1
  rw [hinfo] at hq
  have ht1 : t = 1 := ht
  subst ht1
  set y := Y (k + 1) with hy
  set d := (ls.rect (jac y) (fn y).1).1 with hd
  have hv' : sol.value = fun i => y i + (cfg.descent.step 1 (cfg.descent.query y' (.residualJac (fn y).1 (jac y)) d')).1 i := by
    rw [hv]
    have h2 := hye
    rw [hq] at h2
    exact h2
  have e : ∀ i, sol.value i - y i = -d i := by
    intro i
    rw [hv', add_sub_cancel_left]
    show -1 * d i = _
    ring
  obtain ⟨hL0, hB0⟩ := hS.nonneg
  refine small_at_end (fun y i => ∑ m, jac y m i * (fn y).1 m) _ L rtol atol hB0 hL0 sol.value y (hS.lipschitz _ _) ?_
    (close_entries ha hr hN hcl)
  have hsum : ∑ i, (sol.value i - y i) ^ 2 = ∑ i, d i ^ 2 := Finset.sum_congr rfl fun i _ => by rw [e i, neg_sq]
  rw [hsum]
  refine le_trans (le_of_eq (Finset.sum_congr rfl fun i _ => ?_)) (gram_sq_bound (jac y) B hB0 (hS.bounded y) d)
  have hne := normal_equations _ _ _ (hls (jac y) (fn y).1) i
  simp only [mul_sub, Finset.sum_sub_distrib] at hne
  show (∑ m, jac y m i * (fn y).1 m) ^ 2 = _
  rw [← sub_eq_zero.1 hne]

/-- **C114**, `LevenbergMarquardt` with its default search. -/
theorem C114_levenberg_marquardt [DecidableEq ι] (nF : (κ → ℝ) → ℝ) (eps fmax : ℝ) (he : 0 ≤ eps) (hf : 0 < fmax)
    (ls : LinSolve ι (κ ⊕ ι)) (hls : SolvesLeastSquares ls) (jac : (ι → ℝ) → Matrix κ ι ℝ)
    (aux0 : A) (fn : (ι → ℝ) → (κ → ℝ) × A) (y0 : ι → ℝ) (L B : ℝ) (hS : SmoothResiduals (fun y => (fn y).1) jac L B)
    (hfL : L ≤ fmax) (heps : eps * (4 * (L + 1)) < 1)
    (af : (ι → ℝ) → Bool) (ms : Option Nat) (throw : Bool)
    (sol : Solution (ι → ℝ) A (GaussNewton.State ι κ A ℝ (FnInfo ι κ)) Unit)
    (h : iterativeSolve (GaussNewton.solver (GaussNewton.levenbergMarquardt eps fmax rtol atol nY nF ls jac) aux0) af fn aux0 y0 ms
      throw = some (.ok sol)) (hs : sol.result = .successful) (htwo : sol.numSteps ≠ 1) :
    ∑ i, (∑ m, jac sol.value m i * (fn sol.value).1 m) ^ 2 ≤
      (B + 4 * (L + 1) + L) ^ 2 * ∑ i, (atol + rtol * |sol.value i|) ^ 2 := by
  set cfg := GaussNewton.levenbergMarquardt eps fmax rtol atol nY nF ls jac with hcfg
  obtain ⟨st0, k, hi, hk, hn, hv, hcl⟩ := C58_gauss_newton_family_partial cfg (fun y z i j s => by
    simp [hcfg, GaussNewton.levenbergMarquardt, TrustRegion.classical, TrustRegion.search, TrustRegion.decide']) aux0 fn af y0
    ms throw sol h hs htwo
  obtain _ | k := k
  · omega
  set c : TrustRegion.Cfg ℝ := TrustRegion.defaults with hc
  have c1 : c.lowCutoff = 1 / 100 := by norm_num [hc, TrustRegion.defaults]
  have c2 : c.lowConstant = 1 / 4 := by norm_num [hc, TrustRegion.defaults]
  have c3 : c.highConstant = 7 / 2 := by norm_num [hc, TrustRegion.defaults]
  obtain ⟨R, hY1, ht1, htr⟩ := gn_trust_run c (by rw [c2]; norm_num) (by rw [c3]; norm_num)
    cfg rfl _ (damped_memoryless eps fmax ls) aux0 fn y0 st0 hi
  set Y := iterateAt (GaussNewton.solver cfg aux0) fn aux0 y0 st0 with hYd
  set St := stateAt (GaussNewton.solver cfg aux0) fn aux0 y0 st0 with hSt
  obtain ⟨hL0, hB0⟩ := hS.nonneg
  have hrad := R.radius (by rw [c2]; norm_num) (by rw [c3]; norm_num) (1 / (L + 1))
    (fun k s h0 h1 => by rw [c1]; exact lm_trial_taken eps fmax he hf ls hls jac fn L B hS hfL (Y (k + 1)) s h0 h1) k
  have htmin : min ((fun k => (St (k + 1)).searchState) 0) (c.lowConstant * (1 / (L + 1))) = 1 / (4 * (L + 1)) := by
    show min (St 1).searchState _ = _
    rw [ht1, c2, min_eq_right]
    · field_simp
    · rw [mul_one_div, div_le_one (by linarith)]; linarith
  rw [htmin] at hrad
  set t := (St (k + 1)).searchState with ht
  have hrad' : 1 / (4 * (L + 1)) ≤ t := hrad
  have hlM : lmParam eps fmax t ≤ 4 * (L + 1) := by
    have hs' : eps < t := lt_of_lt_of_le (by rw [lt_div_iff₀ (by linarith)]; exact heps) hrad'
    unfold lmParam
    rw [if_pos hs', div_le_iff₀ (lt_of_le_of_lt he hs')]
    rw [div_le_iff₀ (by linarith)] at hrad'
    linarith
  set y := Y (k + 1) with hy
  obtain ⟨hl, _, heq, _⟩ := C40_damped_step eps fmax t he hf ls hls (jac y) (fn y).1
  set p := ((dampedNewtonDescent eps fmax ls).step t (.residualJac (fn y).1 (jac y))).1 with hp
  have e : ∀ i, sol.value i - y i = p i := by
    intro i
    have : sol.value = _ := hv.trans (htr k)
    rw [this, add_sub_cancel_left]; rfl
  refine small_at_end (fun y i => ∑ m, jac y m i * (fn y).1 m) _ L rtol atol (by positivity) hL0 sol.value y (hS.lipschitz _ _) ?_
    (close_entries ha hr hN hcl)
  have hsum : ∑ i, (sol.value i - y i) ^ 2 = ∑ i, p i ^ 2 := Finset.sum_congr rfl fun i _ => by rw [e i]
  rw [hsum]
  have hl' : 0 < lmParam eps fmax t := hl
  have h1 := sum_sq_add_le (fun i => ∑ m, jac y m i * (jac y).mulVec p m) (fun i => lmParam eps fmax t * p i) B (4 * (L + 1)) _ hB0
    (by linarith) (Finset.sum_nonneg fun i _ => sq_nonneg (p i)) (gram_sq_bound (jac y) B hB0 (hS.bounded y) p) (by
      simp only [mul_pow, ← Finset.mul_sum]
      have := pow_le_pow_left₀ hl'.le hlM 2
      rw [mul_pow] at this
      exact mul_le_mul_of_nonneg_right this (Finset.sum_nonneg fun i _ => sq_nonneg _))
  refine le_trans (le_of_eq (Finset.sum_congr rfl fun i _ => ?_)) h1
  have := heq i
  show (∑ m, jac y m i * (fn y).1 m) ^ 2 = (∑ m, jac y m i * (jac y).mulVec p m + lmParam eps fmax t * p i) ^ 2
  have e3 : ∑ m, jac y m i * (jac y).mulVec p m + lmParam eps fmax t * p i = -∑ m, jac y m i * (fn y).1 m := this
  rw [e3, neg_sq]

end


/-- **C114**, consequence for strongly convex objectives: a bound `E` on the squared gradient bounds the squared distance to the
minimiser by `E/μ²` and the height above the minimum by `E/(2μ)`.  Together with the theorems above this turns the tolerances into
an error bound. -/
theorem C114_distance (f : (ι → ℝ) → ℝ) (grad : (ι → ℝ) → (ι → ℝ)) (μ L E : ℝ) (hμ : StronglyConvex f grad μ)
    (hL : LipschitzGradient f grad L) (x : ι → ℝ) (hx : ∀ y, f x ≤ f y) (y : ι → ℝ) (hE : ∑ i, grad y i ^ 2 ≤ E) :
    ∑ i, (y i - x i) ^ 2 ≤ E / μ ^ 2 ∧ f y - f x ≤ E / (2 * μ) := by
  have hp := hμ.pos
  constructor
  · have h1 := hμ.monotone x y
    simp only [hL.stationary hx, sub_zero] at h1
    rw [le_div_iff₀ (by positivity)]
    linarith
  · have h1 := hμ.bounded y x
    rw [le_div_iff₀ (by positivity)]
    have h2 : 1 / (2 * μ) * ∑ i, grad y i ^ 2 * (2 * μ) = ∑ i, grad y i ^ 2 := by
      rw [← Finset.sum_mul]; field_simp
    have h3 : 1 / (2 * μ) * ∑ i, grad y i ^ 2 ≤ 1 / (2 * μ) * E := mul_le_mul_of_nonneg_left hE (by positivity)
    have h4 : 1 / (2 * μ) * E * (2 * μ) = E := by field_simp
    nlinarith

/-! ### The dependence on `L` cannot be avoided -/

/-- The objective `K/2 x² + ½ y²`: a strongly convex quadratic with minimiser `0`. -/
noncomputable def narrowValley (K : ℝ) (y : Fin 2 → ℝ) : ℝ := K / 2 * y 0 ^ 2 + y 1 ^ 2 / 2

/-- Its gradient. -/
def narrowValleyGrad (K : ℝ) (y : Fin 2 → ℝ) : Fin 2 → ℝ := ![K * y 0, y 1]

/-- A starting point next to the bottom of the valley. -/
noncomputable def narrowValleyStart (K : ℝ) : Fin 2 → ℝ := ![4 / K, 1]

theorem narrowValley_lipschitz (K : ℝ) (hK : 1 ≤ K) : LipschitzGradient (narrowValley K) (narrowValleyGrad K) K := by
  refine ⟨fun y p => ?_, fun y z => ?_, by linarith⟩
  · have h0 := (((hasDerivAt_mul_const (p 0) (x := (0:ℝ))).const_add (y 0)).fun_pow 2).const_mul (K / 2)
    have h1 := (((hasDerivAt_mul_const (p 1) (x := (0:ℝ))).const_add (y 1)).fun_pow 2).div_const 2
    have h := h0.add h1
    simp only [narrowValley, narrowValleyGrad, Fin.sum_univ_two, Matrix.cons_val_zero, Matrix.cons_val_one]
    refine h.congr_deriv ?_
    simp
    ring
  · simp only [narrowValleyGrad, Fin.sum_univ_two, Matrix.cons_val_zero, Matrix.cons_val_one]
    have : 0 ≤ (K ^ 2 - 1) * (y 1 - z 1) ^ 2 := mul_nonneg (by nlinarith) (sq_nonneg _)
    nlinarith

theorem narrowValley_convex (K : ℝ) (hK : 1 ≤ K) : StronglyConvex (narrowValley K) (narrowValleyGrad K) 1 := by
  refine ⟨one_pos, fun y z => ?_⟩
  simp only [narrowValley, narrowValleyGrad, Fin.sum_univ_two, Matrix.cons_val_zero, Matrix.cons_val_one]
  have : 0 ≤ (K - 1) * (z 0 - y 0) ^ 2 := mul_nonneg (by linarith) (sq_nonneg _)
  nlinarith

/-- Along the negative gradient from the start, Armijo's condition fails for all steps `t ≥ 2/K` and holds for `1/K`. -/
theorem narrowValley_armijo (K t : ℝ) (hK : 4 ≤ K) (ht1 : t ≤ 1) :
    (2 / K ≤ t → ¬ ArmijoHolds (1 / 10) (narrowValley K) (narrowValleyGrad K (narrowValleyStart K)) (narrowValleyStart K)
      (fun i => narrowValleyStart K i + -t * narrowValleyGrad K (narrowValleyStart K) i)) ∧
    (t = 1 / K → ArmijoHolds (1 / 10) (narrowValley K) (narrowValleyGrad K (narrowValleyStart K)) (narrowValleyStart K)
      (fun i => narrowValleyStart K i + -t * narrowValleyGrad K (narrowValleyStart K) i)) := by
  have hK0 : 0 < K := by linarith
  have e1 : narrowValley K (fun i => narrowValleyStart K i + -t * narrowValleyGrad K (narrowValleyStart K) i) -
      narrowValley K (narrowValleyStart K) = t * (8 * (K * t) - 17 + t / 2) := by
    simp only [narrowValley, narrowValleyGrad, narrowValleyStart, Matrix.cons_val_zero, Matrix.cons_val_one]
    field_simp
    ring
  have e2 : treeDot (narrowValleyGrad K (narrowValleyStart K)) (fun i => (narrowValleyStart K i +
      -t * narrowValleyGrad K (narrowValleyStart K) i) - narrowValleyStart K i) = -(17 * t) := by
    simp only [treeDot, narrowValleyGrad, narrowValleyStart, Fin.sum_univ_two, Matrix.cons_val_zero, Matrix.cons_val_one]
    field_simp
    ring
  unfold ArmijoHolds
  rw [e2]
  refine ⟨fun h => ?_, fun h => ?_⟩
  · have h2 : 2 ≤ K * t := by rw [div_le_iff₀ hK0] at h; linarith
    have ht0 : 0 < t := lt_of_lt_of_le (by positivity) h
    rintro ⟨h3, _⟩
    have : t * (8 * (K * t) - 17 + t / 2) ≤ 1 / 10 * -(17 * t) := by linarith
    nlinarith
  · subst h
    have e3 : K * (1 / K) = 1 := by field_simp
    rw [e3] at e1
    have h4 : 1 / K ≤ 1 / 4 := one_div_le_one_div_of_le (by norm_num) hK
    have h5 : 0 < 1 / K := by positivity
    refine ⟨?_, by linarith⟩
    nlinarith

section
variable {DS St : Type} {S : Solver (Fin 2 → ℝ) ℝ A St Unit} {fn : (Fin 2 → ℝ) → ℝ × A}
  {desc : Descent (Fin 2) Unit DS} {v : View (Fin 2) Unit A ℝ DS St} {Good : (Fin 2 → ℝ) → FnInfo (Fin 2) Unit → Prop}

/-- Every search loop that starts along the negative gradient: `m` rejections, then a step to the bottom of the valley. -/
theorem narrowValley_run (m : Nat) (hm : 2 ≤ m)
    (L : Laws S fn (narrowValley (2 ^ m)) (Armijo.search ⟨1 / 2, 1 / 10, 1⟩) desc v Good)
    (hG : ∀ y i, Good y i → i.grad? = some (narrowValleyGrad (2 ^ m) y)) (aux0 : A) (st0 : St)
    (hi : S.init fn (narrowValleyStart (2 ^ m)) = .ok st0)
    (hdir : ∀ t, (desc.step t (v.ds (stateAt S fn aux0 (narrowValleyStart (2 ^ m)) st0 1))).1 =
      fun i => -t * narrowValleyGrad (2 ^ m) (narrowValleyStart (2 ^ m)) i) :
    (∀ j ≤ m + 1, iterateAt S fn aux0 (narrowValleyStart (2 ^ m)) st0 j = narrowValleyStart (2 ^ m)) ∧
    v.yEval (stateAt S fn aux0 (narrowValleyStart (2 ^ m)) st0 (m + 1)) = ![0, 1 - 1 / 2 ^ m] ∧
    iterateAt S fn aux0 (narrowValleyStart (2 ^ m)) st0 (m + 2) = ![0, 1 - 1 / 2 ^ m] ∧
    (v.ask (Armijo.search ⟨1 / 2, 1 / 10, 1⟩) (narrowValleyStart (2 ^ m))
      (stateAt S fn aux0 (narrowValleyStart (2 ^ m)) st0 (m + 1))).2.1 = true := by
  set K : ℝ := 2 ^ m with hKd
  have hK : 4 ≤ K := by
    calc (4:ℝ) = 2 ^ 2 := by norm_num
      _ ≤ 2 ^ m := pow_le_pow_right₀ (by norm_num) hm
  have hK0 : 0 < K := by linarith
  set y0 := narrowValleyStart K with hy0
  obtain ⟨h1, h2, _⟩ := armijo_start L aux0 y0 st0 hi
  have rej := fun j hj => armijo_rejections L hG aux0 y0 st0 hi 0 h2 j hj
  simp only [zero_add, h1, hdir] at rej
  have hno : ∀ i, i < m → ¬ ArmijoHolds (1 / 10) (narrowValley K) (narrowValleyGrad K y0) y0
      (fun c => y0 c + -(1 * (1 / 2) ^ i) * narrowValleyGrad K y0 c) := by
    intro i him
    refine (narrowValley_armijo K (1 * (1 / 2) ^ i) hK ?_).1 ?_
    · rw [one_mul]; exact pow_le_one₀ (by norm_num) (by norm_num)
    · rw [one_mul, one_div, inv_pow, div_le_iff₀ hK0, ← div_eq_inv_mul, le_div_iff₀ (by positivity), hKd, ← pow_succ']
      exact pow_le_pow_right₀ (by norm_num) him
  have hend : (fun c => y0 c + -(1 * (1 / 2) ^ m) * narrowValleyGrad K y0 c) = ![0, 1 - 1 / K] := by
    have e : (1 * (1 / 2) ^ m : ℝ) = 1 / K := by rw [one_mul, one_div, inv_pow, one_div]
    rw [e]
    funext c
    fin_cases c
    · simp [hy0, narrowValleyStart, narrowValleyGrad]; field_simp; ring
    · simp [hy0, narrowValleyStart, narrowValleyGrad]; ring
  have hend2 : v.yEval (stateAt S fn aux0 y0 st0 (m + 1)) = ![0, 1 - 1 / K] := by
    rw [add_comm, (rej m hno).2.2.2, hend]
  have hfix : ∀ j ≤ m + 1, iterateAt S fn aux0 y0 st0 j = y0 := by
    intro j hj
    obtain _ | j := j
    · rfl
    · rw [add_comm]
      exact (rej j fun i hi' => hno i (by omega)).1
  have hyes : ArmijoHolds (1 / 10) (narrowValley K) (narrowValleyGrad K y0) y0 ![0, 1 - 1 / K] := by
    rw [← hend]
    refine (narrowValley_armijo K (1 * (1 / 2) ^ m) hK ?_).2 ?_
    · rw [one_mul]; exact pow_le_one₀ (by norm_num) (by norm_num)
    · rw [one_mul, one_div, inv_pow, one_div]
  have hstored := stored L (armijo_first _) aux0 y0 st0 hi m
  have hf := first_at L aux0 y0 st0 m
  rw [hfix (m + 1) le_rfl] at hstored
  have hask : (v.ask (Armijo.search ⟨1 / 2, 1 / 10, 1⟩) y0 (stateAt S fn aux0 y0 st0 (m + 1))).2.1 = true := by
    unfold View.ask
    rw [show v.first _ = false from hf]
    refine (armijo_step _ y0 _ _ _ _ (narrowValley K) (narrowValleyGrad K y0) (L.good _ _ hstored.1) (L.trial _)
      (hG _ _ hstored.1)).1.2 ?_
    rw [hend2]; exact hyes
  refine ⟨hfix, hend2, ?_, hask⟩
  have := (L.accept (iterateAt S fn aux0 y0 st0 (m + 1)) (stateAt S fn aux0 y0 st0 (m + 1)) (by
    rw [hfix (m + 1) le_rfl]; exact hask)).1
  rw [hend2] at this
  exact this

/-- The accepted step changes the point and the objective by less than `9/K`. -/
theorem narrowValley_close (K rtol atol : ℝ) (hK : 4 ≤ K) (ha : 9 / K < atol) (hr : 0 ≤ rtol) :
    cauchyTermination rtol atol maxNorm (maxNorm (ι := Unit)) ![0, 1 - 1 / K]
      (fun i => ![0, 1 - 1 / K] i - narrowValleyStart K i) (fun _ => narrowValley K ![0, 1 - 1 / K])
      (fun _ => narrowValley K ![0, 1 - 1 / K] - narrowValley K (narrowValleyStart K)) = true := by
  have hK0 : 0 < K := by linarith
  have ha0 : 0 < atol := lt_trans (by positivity) ha
  have h5 : 0 < 1 / K := by positivity
  have h4 : 1 / K ≤ 1 / 4 := one_div_le_one_div_of_le (by norm_num) hK
  rw [C46_cauchy_iff_all_entries _ _ ha0 hr]
  have h9 : 9 * (1 / K) < atol := by rwa [mul_one_div]
  have e1 : narrowValley K ![0, 1 - 1 / K] - narrowValley K (narrowValleyStart K) = -(9 * (1 / K)) + (1 / K) ^ 2 / 2 := by
    simp only [narrowValley, narrowValleyStart, Matrix.cons_val_zero, Matrix.cons_val_one]
    field_simp
    ring
  refine ⟨fun i => lt_of_lt_of_le ?_ (le_add_of_nonneg_right (mul_nonneg hr (abs_nonneg _))),
    fun _ => lt_of_lt_of_le ?_ (le_add_of_nonneg_right (mul_nonneg hr (abs_nonneg _)))⟩
  · fin_cases i
    · have e : (4:ℝ) / K = 4 * (1 / K) := by ring
      simp only [narrowValleyStart, Fin.zero_eta, Matrix.cons_val_zero, zero_sub, abs_neg, e]
      rw [abs_of_pos (by positivity)]
      linarith
    · show |1 - 1 / K - 1| < atol
      rw [sub_sub_cancel_left, abs_neg, abs_of_pos h5]
      linarith
  · rw [e1, abs_lt]
    constructor <;> nlinarith
end

/-- Where a run of `m + 2` steps in the valley can end. -/
theorem narrowValley_far {K : ℝ} (hK : 4 ≤ K) {y : Fin 2 → ℝ} (h : y = narrowValleyStart K ∨ y = ![0, 1 - 1 / K]) :
    3 / 4 ≤ y 1 ∧ 3 / 4 ≤ narrowValleyGrad K y 1 := by
  have h4 : 1 / K ≤ 1 / 4 := one_div_le_one_div_of_le (by norm_num) hK
  rcases h with rfl | rfl
  · simp [narrowValleyGrad, narrowValleyStart]; norm_num
  · simp [narrowValleyGrad] at h4 ⊢; linarith

theorem narrow_enough (atol : ℝ) (ha : 0 < atol) : ∃ m : Nat, 2 ≤ m ∧ 9 / (2:ℝ) ^ m < atol := by
  obtain ⟨m, hm⟩ := pow_unbounded_of_one_lt (9 / atol) (one_lt_two (α := ℝ))
  refine ⟨m + 2, by omega, ?_⟩
  rw [div_lt_iff₀ ha] at hm
  rw [div_lt_iff₀ (by positivity), pow_add]
  have : 0 < (2:ℝ) ^ m * atol := by positivity
  nlinarith

/-- **C114**: the factor in front of the tolerances has to depend on `L`.  For all tolerances, however small, there is a strongly
convex quadratic on which steepest descent with the default backtracking search, started at distance about `1` from the minimiser
`0`, reports success at a point whose distance to the minimiser and whose gradient are still at least `3/4`. -/
theorem C114_backtracking_far_from_minimum (rtol atol : ℝ) (ha : 0 < atol) (hr : 0 ≤ rtol) (aux0 : A) :
    ∃ m : Nat, 2 ≤ m ∧ ∀ ms throw, (∀ n, ms = some n → m + 2 ≤ n) →
      ∃ sol, iterativeSolve (GradientDescent.solver (backtrackingDescent ⟨1 / 2, 1 / 10, 1⟩ rtol atol maxNorm maxNorm
          (narrowValleyGrad (2 ^ m))) aux0) (fun _ => true) (fun y => (narrowValley (2 ^ m) y, aux0)) aux0
          (narrowValleyStart (2 ^ m)) ms throw = some (.ok sol) ∧
        sol.result = .successful ∧ 3 / 4 ≤ sol.value 1 ∧ 3 / 4 ≤ narrowValleyGrad (2 ^ m) sol.value 1 := by
  obtain ⟨m, hm, hat⟩ := narrow_enough atol ha
  have hK : 4 ≤ (2:ℝ) ^ m := by
    calc (4:ℝ) = 2 ^ 2 := by norm_num
      _ ≤ 2 ^ m := pow_le_pow_right₀ (by norm_num) hm
  refine ⟨m, hm, fun ms throw hb => ?_⟩
  set fn : (Fin 2 → ℝ) → ℝ × A := fun y => (narrowValley (2 ^ m) y, aux0) with hfn
  set cfg := backtrackingDescent ⟨1 / 2, 1 / 10, 1⟩ rtol atol maxNorm maxNorm (narrowValleyGrad (2 ^ m)) with hcfg
  set y0 := narrowValleyStart (2 ^ m) with hy0
  obtain ⟨st0, hi⟩ : ∃ st0, (GradientDescent.solver cfg aux0).init fn y0 = .ok st0 := ⟨_, rfl⟩
  have LL := gd_laws cfg aux0 fn
  obtain ⟨⟨y', d', hq⟩, _⟩ := queried LL (armijo_first _) aux0 y0 st0 hi 0
  have hinfo := (stored LL (armijo_first _) aux0 y0 st0 hi 0).1
  have hone : iterateAt (GradientDescent.solver cfg aux0) fn aux0 y0 st0 1 = y0 := (armijo_start LL aux0 y0 st0 hi).1
  rw [hinfo, hone] at hq
  have hq' : (stateAt (GradientDescent.solver cfg aux0) fn aux0 y0 st0 1).descentState = narrowValleyGrad (2 ^ m) y0 := hq
  obtain ⟨r1, r2, r3, r4⟩ := narrowValley_run m hm LL (by rintro y i rfl; rfl) aux0 st0 hi (fun t => by
    show ((steepestDescent none).step t (stateAt (GradientDescent.solver cfg aux0) fn aux0 y0 st0 1).descentState).1 = _
    rw [hq']; rfl)
  set Y := iterateAt (GradientDescent.solver cfg aux0) fn aux0 y0 st0 with hYd
  set St := stateAt (GradientDescent.solver cfg aux0) fn aux0 y0 st0 with hSt
  obtain ⟨sol, s1, s2, s3, _⟩ := solve_succeeds_by (GradientDescent.solver cfg aux0) (fun _ => true) fn aux0 y0 st0 hi ms
    throw (m + 2) (fun _ _ => rfl) (by
      intro j _
      show (St j).result = .successful
      obtain _ | j := j
      · show st0.result = .successful
        cases hi; rfl
      · rfl) (by
      show (St (m + 1 + 1)).terminate = true
      have hst : St (m + 1 + 1) = (GradientDescent.step cfg fn (Y (m + 1)) (St (m + 1))).2.1 := rfl
      have hacc' : (cfg.search.step (St (m + 1)).firstStep y0 (St (m + 1)).yEval (St (m + 1)).fInfo
        (.eval (fn (St (m + 1)).yEval).1) (St (m + 1)).searchState).2.1 = true := r4
      have hfirst : (St (m + 1)).firstStep = false := first_at LL aux0 y0 st0 m
      have hf : GradientDescent.fOf (St (m + 1)).fInfo = (fn (Y (m + 1))).1 := by
        rw [show (St (m + 1)).fInfo = _ from (stored LL (armijo_first _) aux0 y0 st0 hi m).1]; rfl
      rw [hfirst] at hacc'
      rw [hst, r1 (m + 1) le_rfl]
      rw [r1 (m + 1) le_rfl] at hf
      have r2' : (St (m + 1)).yEval = _ := r2
      rw [r2'] at hacc'
      simp only [GradientDescent.step, hfirst, Bool.false_eq_true, if_false, hf, r2']
      rw [if_pos hacc']
      exact narrowValley_close (2 ^ m) rtol atol hK hat hr) hb
  refine ⟨sol, s1, s2, ?_⟩
  obtain ⟨_, _, st0', hi', hst, hp⟩ := C01_step_budget _ _ _ _ _ _ _ _ s1
  rw [hi] at hi'; cases hi'
  have hv : sol.value = Y sol.numSteps := congrArg Prod.fst hp
  refine narrowValley_far hK ?_
  rw [hv]
  rcases Nat.lt_or_ge sol.numSteps (m + 2) with h | h
  · exact .inl (r1 _ (by omega))
  · exact .inr (by rw [le_antisymm s3 h]; exact r3)

/-- **C114**: the same run, step by step, is made by `BFGS` and `DFP` (in their default form, `use_inverse=True`): their first
direction is the negative gradient, and they too report success there. -/
theorem C114_bfgs_far_from_minimum (rtol atol eps : ℝ) (ha : 0 < atol) (hr : 0 ≤ rtol) (heps : 0 ≤ eps) (ls : LinSolve (Fin 2) Unit)
    (hess : QuasiNewton.HessianUpdate (Fin 2) Unit) (hh : hess = QuasiNewton.bfgs eps true ∨ hess = QuasiNewton.dfp eps true)
    (aux0 : A) :
    ∃ m : Nat, 2 ≤ m ∧ ∀ ms throw, (∀ n, ms = some n → m + 2 ≤ n) →
      ∃ sol, iterativeSolve (QuasiNewton.solver (QuasiNewton.withArmijo rtol atol maxNorm maxNorm ls ⟨1 / 2, 1 / 10, 1⟩ hess
          (narrowValleyGrad (2 ^ m))) aux0) (fun _ => true) (fun y => (narrowValley (2 ^ m) y, aux0)) aux0
          (narrowValleyStart (2 ^ m)) ms throw = some (.ok sol) ∧
        sol.result = .successful ∧ 3 / 4 ≤ sol.value 1 ∧ 3 / 4 ≤ narrowValleyGrad (2 ^ m) sol.value 1 := by
  obtain ⟨m, hm, hat⟩ := narrow_enough atol ha
  have hK : 4 ≤ (2:ℝ) ^ m := by
    calc (4:ℝ) = 2 ^ 2 := by norm_num
      _ ≤ 2 ^ m := pow_le_pow_right₀ (by norm_num) hm
  refine ⟨m, hm, fun ms throw hb => ?_⟩
  set fn : (Fin 2 → ℝ) → ℝ × A := fun y => (narrowValley (2 ^ m) y, aux0) with hfn
  set cfg := QuasiNewton.withArmijo rtol atol maxNorm maxNorm ls ⟨1 / 2, 1 / 10, 1⟩ hess (narrowValleyGrad (2 ^ m)) with hcfg
  set y0 := narrowValleyStart (2 ^ m) with hy0
  have hrec : RecordsPoint cfg.hess := by
    show RecordsPoint hess
    rcases hh with rfl | rfl
    · exact bfgs_records eps true
    · exact dfp_records eps true
  have hinv : GivesInverse cfg.hess := by
    show GivesInverse hess
    rcases hh with rfl | rfl
    · exact (inverse_updates eps).1
    · exact (inverse_updates eps).2.1
  obtain ⟨st0, hi⟩ : ∃ st0, (QuasiNewton.solver cfg aux0).init fn y0 = .ok st0 := by
    rcases hh with rfl | rfl <;> exact ⟨_, rfl⟩
  have LL := qn_laws cfg aux0 fn hrec
  have hds := newton_state ls _ cfg rfl hrec (armijo_first _) aux0 fn y0 st0 hi
  have hform := qn_form (aux0 := aux0) (fn := fn) (y0 := y0) cfg (fun i => ∃ f g M, i = .evalGradHessianInv f g M)
    (fun y f g => ⟨f, g, hinv.1 y f g⟩)
    (by rintro y z _ f' g' hs ⟨f, g, M, rfl⟩; exact ⟨f', g', hinv.2 y z f g M f' g' hs⟩) st0 hi
  have hfd := C83_first_direction_quasi_newton cfg eps heps true hh ls (fun h => by cases h) rfl (armijo_first _) aux0 fn y0 st0 hi
  obtain ⟨hone, hss, hye⟩ := armijo_start LL aux0 y0 st0 hi
  obtain ⟨r1, r2, r3, r4⟩ := narrowValley_run m hm LL (fun y i h => h.2) aux0 st0 hi (fun t => by
    show ((newtonDescent ls none).step t (stateAt (QuasiNewton.solver cfg aux0) fn aux0 y0 st0 1).descentState).1 = _
    set D := (stateAt (QuasiNewton.solver cfg aux0) fn aux0 y0 st0 1).descentState with hD
    have h1 : (fun i => y0 i + -1 * D.1 i) = fun i => y0 i - 1 * narrowValleyGrad (2 ^ m) y0 i := by

      exact hye.symm.trans hfd
    funext i
    have h2 := congrFun h1 i
    have h3 : D.1 i = narrowValleyGrad (2 ^ m) y0 i := by linarith
    show -t * D.1 i = _
    rw [h3])
  set Y := iterateAt (QuasiNewton.solver cfg aux0) fn aux0 y0 st0 with hYd
  set St := stateAt (QuasiNewton.solver cfg aux0) fn aux0 y0 st0 with hSt
  obtain ⟨sol, s1, s2, s3, _⟩ := solve_succeeds_by (QuasiNewton.solver cfg aux0) (fun _ => true) fn aux0 y0 st0 hi ms
    throw (m + 2) (fun _ _ => rfl) (by
      intro j _
      show (St j).result = .successful
      obtain _ | j := j
      · show st0.result = .successful
        simp only [QuasiNewton.solver, QuasiNewton.init] at hi
        split at hi
        · cases hi
        · cases hi; rfl
      · show (St (j + 1)).descentState.2 = .successful
        rw [hds j]
        obtain ⟨f, g, M, h⟩ := hform (j + 1)
        rw [h]; rfl) (by
      show (St (m + 1 + 1)).terminate = true
      have hst : St (m + 1 + 1) = (QuasiNewton.step cfg fn (Y (m + 1)) (St (m + 1))).2.1 := rfl
      have hacc' : (cfg.search.step (St (m + 1)).firstStep y0 (St (m + 1)).yEval (St (m + 1)).fInfo
        (.eval (fn (St (m + 1)).yEval).1) (St (m + 1)).searchState).2.1 = true := r4
      have hfirst : (St (m + 1)).firstStep = false := first_at LL aux0 y0 st0 m
      have hf : GradientDescent.fOf (St (m + 1)).fInfo = (fn (Y (m + 1))).1 := by
        rw [fOf_eq]; exact (stored LL (armijo_first _) aux0 y0 st0 hi m).1.1
      rw [hfirst] at hacc'
      rw [hst, r1 (m + 1) le_rfl]
      rw [r1 (m + 1) le_rfl] at hf
      have r2' : (St (m + 1)).yEval = _ := r2
      rw [r2'] at hacc'
      simp only [QuasiNewton.step, hfirst, Bool.false_eq_true, if_false, hf, r2']
      rw [if_pos hacc']
      exact narrowValley_close (2 ^ m) rtol atol hK hat hr) hb
  refine ⟨sol, s1, s2, ?_⟩
  obtain ⟨_, _, st0', hi', hst, hp⟩ := C01_step_budget _ _ _ _ _ _ _ _ s1
  rw [hi] at hi'; cases hi'
  have hv : sol.value = Y sol.numSteps := congrArg Prod.fst hp
  refine narrowValley_far hK ?_
  rw [hv]
  rcases Nat.lt_or_ge sol.numSteps (m + 2) with h | h
  · exact .inl (r1 _ (by omega))
  · exact .inr (by rw [le_antisymm s3 h]; exact r3)

/-! ### The hypotheses are met -/

/-- Backtracking and trust regions on `Σ yᵢ²`, from every starting point. -/
example (y0 : ι → ℝ) : ∃ sol, iterativeSolve (GradientDescent.solver (backtrackingDescent ⟨1/2, 1/10, 1⟩ (1/10) (1/10) maxNorm maxNorm
      fun y i => 2 * y i) ()) (fun _ => true) (fun y : ι → ℝ => (∑ i, y i ^ 2, ())) () y0 none true = some (.ok sol) ∧
      ∑ i, (2 * sol.value i) ^ 2 ≤ (1 / smallestStep ⟨1/2, 1/10, 1⟩ 2 + 2) ^ 2 * ∑ i, (1/10 + 1/10 * |sol.value i|) ^ 2 := by
  obtain ⟨_, _, _, N, hN⟩ := C62_steepest_descent (ι := ι) (1/2) (1/10) 1 ⟨1/2, 1/10, 1⟩ (by norm_num [Armijo.new])
    (1/10) (1/10) maxNorm maxNorm (fun y i => 2 * y i) () (fun y => (∑ i, y i ^ 2, ())) y0 2 0 square_lipschitz
    (fun y => Finset.sum_nonneg fun i _ => sq_nonneg _) (by norm_num) (by norm_num) goodNorm_maxNorm goodNorm_maxNorm
  obtain ⟨sol, h1, h2, _⟩ := hN none true (fun n h => by cases h)
  have key := C114_backtracking (1/10) (1/10) (by norm_num) (by norm_num) (maxNorm (ι := ι)) abs_le_maxNorm maxNorm (1/2) (1/10) 1
    ⟨1/2, 1/10, 1⟩ (by norm_num [Armijo.new]) 2 (by norm_num) (fun y i => 2 * y i) () (fun y : ι → ℝ => (∑ i, y i ^ 2, ())) y0
    square_lipschitz (fun _ => true) none true sol h1 h2
  exact ⟨sol, h1, key⟩

/-- `LevenbergMarquardt` on the residuals `(y, sin y)`, from the start `y = 1`. -/
example (ls : LinSolve Unit (Bool ⊕ Unit)) (hls : SolvesLeastSquares ls) (hok : ∀ M v, (ls.rect M v).2 = .successful)
    (eps fmax : ℝ) (he : 0 ≤ eps) (he1 : eps < 1 / 100) (hf : 2 ≤ fmax) :
    ∃ sol, iterativeSolve (GaussNewton.solver (GaussNewton.levenbergMarquardt eps fmax (1/10) (1/10) maxNorm maxNorm
      ls waveJac) ()) (fun _ => true) (fun y => (waveResiduals y, ())) () (fun _ => 1) none true = some (.ok sol) ∧
      ∑ i, (∑ m, waveJac sol.value m i * waveResiduals sol.value m) ^ 2 ≤
        (2 + 4 * (2 + 1) + 2) ^ 2 * ∑ i, (1/10 + 1/10 * |sol.value i|) ^ 2 := by
  obtain ⟨_, _, _, h⟩ := C64_converges eps fmax (1/10) (1/10) he (by linarith) maxNorm maxNorm ls hls
    waveJac () (fun y => (waveResiduals y, ())) (fun _ => 1) 2 2 wave_smooth hf
  obtain ⟨N, hN⟩ := h 1 one_pos (fun y p => by
    simp only [waveJac, Matrix.of_apply, Fintype.sum_bool, if_true, Bool.false_eq_true, if_false,
      Finset.univ_unique, Finset.sum_singleton, PUnit.default_eq_unit, one_mul]
    nlinarith [sq_nonneg (Real.cos (y ()) * p ())]) hok (by norm_num) (by norm_num) goodNorm_maxNorm goodNorm_maxNorm
  obtain ⟨sol, h1, h2, _⟩ := hN none true (fun n h => by cases h)
  have key := C114_levenberg_marquardt (1/10) (1/10) (by norm_num) (by norm_num) (maxNorm (ι := Unit)) abs_le_maxNorm maxNorm eps fmax he
    (by linarith) ls hls waveJac () _ _ 2 2 wave_smooth hf (by linarith) _ _ _ sol h1 h2 (by
  intro hone
  have := one_step_residuals _ (fun y z i j s => by
    simp [GaussNewton.levenbergMarquardt, TrustRegion.classical, TrustRegion.search, TrustRegion.decide'])
    (by norm_num [GaussNewton.levenbergMarquardt]) (by norm_num [GaussNewton.levenbergMarquardt]) (abs_le_maxNorm (ι := Bool)) () _ _ _ _ _ sol h1 h2
    hone true
  norm_num [GaussNewton.levenbergMarquardt, waveResiduals] at this)
  exact ⟨sol, h1, key⟩

/-- `GaussNewton` on the residual `y`, from every start with `|y| ≥ 1`: three steps. -/
example (ls : LinSolve Unit Unit) (hls : SolvesLeastSquares ls) (hok : ∀ M v, (ls.rect M v).2 = .successful) (y0 : Unit → ℝ)
    (hy : 1 ≤ |y0 ()|) :
    ∃ sol, iterativeSolve (GaussNewton.solver (GaussNewton.gaussNewton (1/10) (1/10) maxNorm maxNorm
      ls fun _ => 1) ()) (fun _ => true) (fun y => (y, ())) () y0 none true = some (.ok sol) ∧ sol.numSteps ≠ 1 ∧
      ∑ i, (∑ m, (1 : Matrix Unit Unit ℝ) m i * sol.value m) ^ 2 ≤ (1 + 1) ^ 2 * ∑ i, (1/10 + 1/10 * |sol.value i|) ^ 2 := by
  set fn : (Unit → ℝ) → (Unit → ℝ) × Unit := fun y => (y, ()) with hfn
  set cfg := GaussNewton.gaussNewton (ι := Unit) (κ := Unit) (1/10) (1/10) maxNorm maxNorm ls fun _ => 1 with hcfg
  have hd : ∀ y : Unit → ℝ, (ls.rect 1 y).1 = y := by
    intro y
    have h := normal_equations _ _ _ (hls 1 y) ()
    funext u
    simp [Matrix.one_apply] at h
    linarith
  obtain ⟨st0, hi⟩ : ∃ st0, (GaussNewton.solver cfg ()).init fn y0 = .ok st0 := ⟨_, rfl⟩
  have LL := gn_laws cfg () fn
  set Y := iterateAt (GaussNewton.solver cfg ()) fn () y0 st0 with hYd
  set St := stateAt (GaussNewton.solver cfg ()) fn () y0 st0 with hSt
  have hz : ∀ k, (St (k + 1)).yEval = fun _ => 0 := by
    intro k
    obtain ⟨⟨y', d', hq⟩, t, ht, hye⟩ := queried LL (fun _ _ _ _ _ => rfl) () y0 st0 hi k
    have hinfo := (stored LL (fun _ _ _ _ _ => rfl) () y0 st0 hi k).1
    rw [hinfo] at hq
    have ht1 : t = 1 := ht
    subst ht1
    rw [hq] at hye
    have : (St (k + 1)).yEval = fun i => Y (k + 1) i + -1 * (ls.rect 1 (Y (k + 1))).1 i := hye
    rw [this, hd]
    funext i; ring
  have hY2 : Y 2 = fun _ => 0 := hz 0
  obtain ⟨sol, s1, s2, s3, _⟩ := solve_succeeds_by (GaussNewton.solver cfg ()) (fun _ => true) fn () y0 st0 hi none true 3
    (fun _ _ => rfl) (by
      intro j _
      show (St j).result = .successful
      obtain _ | j := j
      · cases hi; rfl
      · exact hok _ _) (by
      show (St (2 + 1)).terminate = true
      have hres : (St 2).residual = Y 2 := by
        have := (stored LL (fun _ _ _ _ _ => rfl) () y0 st0 hi 1).1
        simp only [gnView, FnInfo.residualJac.injEq] at this
        exact this.1
      have hgoal : cauchyTermination (1/10) (1/10) maxNorm maxNorm (St 2).yEval (fun i => (St 2).yEval i - Y 2 i) (St 2).yEval
          (fun i => (St 2).yEval i - (St 2).residual i) = true := by
        rw [C46_cauchy_iff_all_entries _ _ (by norm_num) (by norm_num), hres, hz 1, hY2]
        norm_num
      exact hgoal) (fun n h => by cases h)
  have hne : sol.numSteps ≠ 1 := by
    intro hone
    have := one_step_residuals cfg (fun _ _ _ _ _ => rfl)
      (by norm_num [hcfg, GaussNewton.gaussNewton]) (by norm_num [hcfg, GaussNewton.gaussNewton]) (fun x i => abs_le_maxNorm (ι := Unit) x i) () _ _ _ _ _ sol s1 s2
      hone ()
    norm_num [hcfg, hfn, GaussNewton.gaussNewton] at this
    linarith
  refine ⟨sol, s1, hne, ?_⟩
  have := C114_gauss_newton (1/10) (1/10) (by norm_num) (by norm_num) (maxNorm (ι := Unit)) abs_le_maxNorm maxNorm ls hls (fun _ => 1) () fn y0 1 1
    ⟨fun y p m => ?_, fun y z => ?_, fun y p => ?_, ?_⟩ _ _ _ sol s1 s2 hne
  · exact this
  · have h := (hasDerivAt_mul_const (p ()) (x := (0:ℝ))).const_add (y ())
    cases m
    simpa [hfn, Matrix.one_apply] using h
  · simp [hfn, Matrix.one_apply]
  · simp [Matrix.one_apply]
  · norm_num

end Verif.Props
