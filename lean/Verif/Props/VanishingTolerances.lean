import Verif.Props.GaussNewton
import Verif.Props.SuccessGradient
import Verif.Props.Apart
import Verif.Props.NewtonLocal

/-!
**C156.** Whatever the reason for which the iterates of a fixed-point iteration, of gradient descent or of the Gauss-Newton method
converge: the successful answers tend to the limit as the tolerances tend to zero.

This is not clear a priori: a small step does not mean that the limit is near, and which step is the last one depends on the tolerances.
-/

namespace Verif.Props

open Verif Verif.Spec Verif.Driver Filter Topology

variable {ι κ A : Type} [Fintype ι]

/-- In a convergent sequence of iterates of a map, small updates only happen near the limit. -/
theorem small_update_near {T : (ι → ℝ) → ι → ℝ} {y0 q : ι → ℝ} (h : Tendsto (fun k => T^[k] y0) atTop (𝓝 q)) {ε : ℝ} (hε : 0 < ε) :
    ∃ δ, 0 < δ ∧ ∀ k, (∀ i, |T^[k + 1] y0 i - T^[k] y0 i| < δ) → ∀ i, |T^[k + 1] y0 i - q i| < ε := by
  have hev : ∀ᶠ k in atTop, ∀ i, |T^[k] y0 i - q i| < ε := by
    refine eventually_all.2 fun i => ?_
    filter_upwards [(tendsto_pi_nhds.1 h i) (Metric.ball_mem_nhds _ hε)] with k hk
    simpa [Real.dist_eq] using hk
  obtain ⟨N, hN⟩ := eventually_atTop.1 hev
  -- the finitely many steps before
  have hfin : ∀ n, ∃ δ, 0 < δ ∧ ∀ k, k < n → (∀ i, |T^[k + 1] y0 i - T^[k] y0 i| < δ) → ∀ i, |T^[k + 1] y0 i - q i| < ε := by
    intro n
    induction n with
    | zero => exact ⟨1, one_pos, fun k hk => absurd hk (Nat.not_lt_zero k)⟩
    | succ n ih =>
      obtain ⟨δ, hδ, hall⟩ := ih
      by_cases hz : ∀ i, T^[n + 1] y0 i = T^[n] y0 i
      · -- the iteration has come to rest, so that this is the limit
        have hrest : ∀ m, T^[m] (T^[n] y0) = T^[n] y0 := fun m =>
          Function.iterate_fixed (by rw [← Function.iterate_succ_apply' T n y0]; exact funext hz) m
        have hlim : Tendsto (fun m => T^[m + n] y0) atTop (𝓝 q) := (tendsto_add_atTop_iff_nat n).2 h
        have hconst : (fun m => T^[m + n] y0) = fun _ => T^[n] y0 := by
          funext m; rw [Function.iterate_add_apply, hrest]
        rw [hconst] at hlim
        have hq : T^[n] y0 = q := tendsto_nhds_unique tendsto_const_nhds hlim
        refine ⟨δ, hδ, fun k hk hs i => ?_⟩
        rcases Nat.lt_succ_iff_lt_or_eq.1 hk with hlt | rfl
        · exact hall k hlt hs i
        · rw [hz i, hq, sub_self, abs_zero]; exact hε
      · push Not at hz
        obtain ⟨j, hj⟩ := hz
        refine ⟨min δ |T^[n + 1] y0 j - T^[n] y0 j|, lt_min hδ (abs_pos.2 (sub_ne_zero.2 hj)), fun k hk hs i => ?_⟩
        rcases Nat.lt_succ_iff_lt_or_eq.1 hk with hlt | rfl
        · exact hall k hlt (fun i => (hs i).trans_le (min_le_left _ _)) i
        · exact absurd ((hs j).trans_le (min_le_right _ _)) (lt_irrefl _)
  obtain ⟨δ, hδ, hall⟩ := hfin N
  refine ⟨δ, hδ, fun k hs i => ?_⟩
  rcases lt_or_ge k N with hk | hk
  · exact hall k hk hs i
  · exact hN (k + 1) (by omega) i

/-- The same with tolerances, relative to the new point or to the old one. -/
theorem small_tolerance_near {T : (ι → ℝ) → ι → ℝ} {y0 q : ι → ℝ} (h : Tendsto (fun k => T^[k] y0) atTop (𝓝 q)) {ε : ℝ}
    (hε : 0 < ε) : ∃ δ, 0 < δ ∧ ∀ rtol atol, 0 ≤ rtol → rtol < δ → atol < δ → ∀ k,
      ((∀ i, |T^[k + 1] y0 i - T^[k] y0 i| < atol + rtol * |T^[k + 1] y0 i|) ∨
        ∀ i, |T^[k + 1] y0 i - T^[k] y0 i| < atol + rtol * |T^[k] y0 i|) → ∀ i, |T^[k + 1] y0 i - q i| < ε := by
  obtain ⟨δ, hδ, hall⟩ := small_update_near h hε
  -- the iterates are bounded
  obtain ⟨B, hB0, hB⟩ : ∃ B, 0 < B ∧ ∀ k i, |T^[k] y0 i| ≤ B := by
    have hb := h.norm.isBoundedUnder_le
    obtain ⟨B, hB⟩ := (Metric.isBounded_range_of_tendsto _ h).exists_norm_le
    refine ⟨|B| + 1, by positivity, fun k i => ?_⟩
    have h1 := hB _ ⟨k, rfl⟩
    have h2 := norm_le_pi_norm (T^[k] y0) i
    rw [Real.norm_eq_abs] at h2
    linarith [le_abs_self B]
  refine ⟨δ / (1 + B), by positivity, fun rtol atol hr hrδ haδ k hs => hall k fun i => ?_⟩
  have h2 : δ / (1 + B) + δ / (1 + B) * B = δ := by field_simp
  have h3 : ∀ j, atol + rtol * |T^[j] y0 i| ≤ δ := fun j => by
    have h1 : rtol * |T^[j] y0 i| ≤ δ / (1 + B) * B := mul_le_mul hrδ.le (hB _ _) (abs_nonneg _) (by positivity)
    linarith
  rcases hs with hs | hs
  · exact (hs i).trans_le (h3 _)
  · exact (hs i).trans_le (h3 _)

/-- **C156** for `FixedPointIteration` (default norm): if the iterates converge to `q`, with any damping and for whatever reason, then
the successful answers tend to `q` as the tolerances tend to zero. -/
theorem C156_fixed_point (damp : ℝ) (fn : (ι → ℝ) → (ι → ℝ) × A) (y0 q : ι → ℝ)
    (hlim : Tendsto (fun k => (fun y i => (1 - damp) * (fn y).1 i + damp * y i)^[k] y0) atTop (𝓝 q)) (ε : ℝ) (hε : 0 < ε) :
    ∃ δ, 0 < δ ∧ ∀ rtol atol, 0 ≤ rtol → rtol < δ → 0 < atol → atol < δ → ∀ (aux0 : A) af ms throw sol,
      iterativeSolve (FixedPointIter.solver { rtol, atol, norm := maxNorm, damp }) af fn aux0 y0 ms throw = some (.ok sol) →
      sol.result = .successful → ∀ i, |sol.value i - q i| < ε := by
  have hlim' : Tendsto (fun k => (dampedMap damp fun z => (fn z).1)^[k] y0) atTop (𝓝 q) := hlim
  obtain ⟨δ, hδ, hall⟩ := small_tolerance_near hlim' hε
  refine ⟨δ, hδ, fun rtol atol hr hrδ ha haδ aux0 af ms throw sol h hs => ?_⟩
  obtain ⟨k, _, hv, _, hc⟩ := C20_success_certificate _ fn aux0 y0 af ms throw sol h hs
  have hv' : sol.value = (dampedMap damp fun z => (fn z).1)^[k + 1] y0 := by
    rw [hv, Function.iterate_succ_apply']; rfl
  rw [hv'] at hc ⊢
  refine hall rtol atol hr hrδ haδ k (Or.inl fun i => ?_)
  have hc' : maxNorm (fun i => ((dampedMap damp fun z => (fn z).1)^[k] y0 i - (dampedMap damp fun z => (fn z).1)^[k + 1] y0 i) /
      (atol + rtol * |(dampedMap damp fun z => (fn z).1)^[k + 1] y0 i|)) < 1 := hc
  have h1 := ((maxNorm_lt_iff _ _).1 hc').2 i
  have hpos : 0 < atol + rtol * |(dampedMap damp fun z => (fn z).1)^[k + 1] y0 i| := by positivity
  rw [abs_div, abs_of_pos hpos, div_lt_one hpos, abs_sub_comm] at h1
  exact h1

/-- **C156** for `GradientDescent` (default norm). -/
theorem C156_gradient_descent (rate : ℝ) (grad : (ι → ℝ) → ι → ℝ) (fn : (ι → ℝ) → ℝ × A) (y0 q : ι → ℝ)
    (hlim : Tendsto (fun k => (fun y i => y i - rate * grad y i)^[k] y0) atTop (𝓝 q)) (ε : ℝ) (hε : 0 < ε) :
    ∃ δ, 0 < δ ∧ ∀ rtol atol, 0 ≤ rtol → rtol < δ → 0 < atol → atol < δ → ∀ (aux0 : A) af ms throw sol,
      iterativeSolve (gdSolver rate rtol atol maxNorm maxNorm grad aux0) af fn aux0 y0 ms throw = some (.ok sol) →
      sol.result = .successful → ∀ i, |sol.value i - q i| < ε := by
  obtain ⟨δ, hδ, hall⟩ := small_tolerance_near hlim hε
  refine ⟨δ, hδ, fun rtol atol hr hrδ ha haδ aux0 af ms throw sol h hs => ?_⟩
  obtain ⟨st0, k, hi, hk, _, hv, hc⟩ := C58_gradient_family _ (fun _ _ _ _ _ => rfl) aux0 fn af y0 ms throw sol h hs
  obtain ⟨k, rfl⟩ : ∃ j, k = j + 1 := ⟨k - 1, by omega⟩
  have hst := gd_state rate rtol atol maxNorm maxNorm grad aux0 fn y0 st0 hi k
  have hc' : cauchyTermination rtol atol maxNorm maxNorm sol.value
      (fun i => sol.value i - iterateAt (gdSolver rate rtol atol maxNorm maxNorm grad aux0) fn aux0 y0 st0 (k + 1) i)
      (fun _ : Unit => (fn sol.value).1) (fun _ : Unit => (fn sol.value).1 -
        (fn (iterateAt (gdSolver rate rtol atol maxNorm maxNorm grad aux0) fn aux0 y0 st0 (k + 1))).1) = true := by
    simp only [cauchyTermination, Bool.and_eq_true, decide_eq_true_eq]
    exact hc
  rw [C46_cauchy_iff_all_entries rtol atol ha hr, hst.1] at hc'
  have hv' : sol.value = (gdMap rate grad)^[k + 1] y0 := by rw [hv]; exact hst.2.1
  rw [hv'] at hc' ⊢
  exact hall rtol atol hr hrδ haδ k (Or.inl hc'.1)

/-- **C156** for `GradientDescent` on convex problems, whatever the set of minimisers: the successful answers tend to one minimiser
as the tolerances tend to zero. -/
theorem C156_convex {rate L : ℝ} {grad : (ι → ℝ) → ι → ℝ} {fn : (ι → ℝ) → ℝ × A} (hr0 : 0 < rate) (hL : 0 < L) (hrL : rate * L < 2)
    (hsmooth : ∀ y z, (fn z).1 ≤ (fn y).1 + (∑ i, grad y i * (z i - y i)) + L / 2 * ∑ i, (z i - y i) ^ 2)
    (hconv : ∀ y z, (fn y).1 + ∑ i, grad y i * (z i - y i) ≤ (fn z).1) (hmin : ∃ xs, ∀ y, (fn xs).1 ≤ (fn y).1) (y0 : ι → ℝ) :
    ∃ q, (∀ y, (fn q).1 ≤ (fn y).1) ∧ ∀ ε, 0 < ε → ∃ δ, 0 < δ ∧ ∀ rtol atol, 0 ≤ rtol → rtol < δ → 0 < atol → atol < δ →
      ∀ (aux0 : A) af ms throw sol,
      iterativeSolve (gdSolver rate rtol atol maxNorm maxNorm grad aux0) af fn aux0 y0 ms throw = some (.ok sol) →
      sol.result = .successful → ∀ i, |sol.value i - q i| < ε := by
  obtain ⟨q, hq, hlim⟩ := gd_limit hr0 hL hrL hsmooth hconv hmin y0
  exact ⟨q, hq, fun ε hε => C156_gradient_descent rate grad fn y0 q hlim ε hε⟩

/-- **C156** for `GaussNewton` (default norms), with a linear solver that answers zero with zero. (A solve that succeeds after a
single step has compared the residuals at the start with the tolerances, see C58; for small tolerances this cannot happen, unless
the starting point solves the problem.) -/
theorem C156_gauss_newton [Fintype κ] (ls : LinSolve ι κ) (jac : (ι → ℝ) → Matrix κ ι ℝ) (fn : (ι → ℝ) → (κ → ℝ) × A) (y0 q : ι → ℝ)
    (hls : ∀ M i, (ls.rect M fun _ => 0).1 i = 0)
    (hlim : Tendsto (fun k => (fun y i => y i - (ls.rect (jac y) (fn y).1).1 i)^[k] y0) atTop (𝓝 q)) (ε : ℝ) (hε : 0 < ε) :
    ∃ δ, 0 < δ ∧ ∀ rtol atol, 0 ≤ rtol → rtol < δ → 0 < atol → atol < δ → ∀ (aux0 : A) af ms throw sol,
      iterativeSolve (GaussNewton.solver (GaussNewton.gaussNewton rtol atol maxNorm maxNorm ls jac) aux0) af fn aux0 y0 ms throw =
        some (.ok sol) →
      sol.result = .successful → ∀ i, |sol.value i - q i| < ε := by
  have hlim' : Tendsto (fun k => (gnMap ls jac fun y => (fn y).1)^[k] y0) atTop (𝓝 q) := hlim
  obtain ⟨δ, hδ, hall⟩ := small_tolerance_near hlim' hε
  -- solves of a single step
  obtain ⟨δ', hδ', hone⟩ : ∃ δ', 0 < δ' ∧ ∀ rtol atol, 0 ≤ rtol → rtol < δ' → 0 < atol → atol < δ' → ∀ (aux0 : A) af ms throw sol,
      iterativeSolve (GaussNewton.solver (GaussNewton.gaussNewton rtol atol maxNorm maxNorm ls jac) aux0) af fn aux0 y0 ms throw =
        some (.ok sol) →
      sol.result = .successful → sol.numSteps = 1 → ∀ i, |sol.value i - q i| < ε := by
    by_cases hz : ∀ j, (fn y0).1 j = 0
    · refine ⟨1, one_pos, fun rtol atol _ _ _ _ aux0 af ms throw sol h _ hn i => ?_⟩
      have hfix : gnMap ls jac (fun y => (fn y).1) y0 = y0 := by
        funext i
        have e : (fn y0).1 = fun _ => 0 := funext hz
        simp only [gnMap, e, hls, sub_zero]
      have hq : y0 = q := by
        refine tendsto_nhds_unique tendsto_const_nhds (hlim'.congr fun k => ?_)
        exact Function.iterate_fixed hfix k
      obtain ⟨_, _, st0, hi, _, hp⟩ := C01_step_budget _ _ _ _ _ _ _ _ h
      have hv : sol.value = iterateAt (gnSolver rtol atol maxNorm maxNorm ls jac aux0) fn aux0 y0 st0 sol.numSteps :=
        congrArg Prod.fst hp
      have hst := (gn_state rtol atol maxNorm maxNorm ls jac aux0 fn y0 st0 hi 0).1
      rw [hv, hn, hst, Function.iterate_zero, id, hq, sub_self, abs_zero]
      exact hε
    · push Not at hz
      obtain ⟨j, hj⟩ := hz
      have hp := abs_pos.2 hj
      refine ⟨|(fn y0).1 j| / (1 + |(fn y0).1 j|), by positivity, fun rtol atol hr hrδ ha haδ aux0 af ms throw sol h hs hn => ?_⟩
      have h1 := one_step_residuals (GaussNewton.gaussNewton rtol atol maxNorm maxNorm ls jac) (fun _ _ _ _ _ => rfl) ha hr
        (fun x i => abs_le_maxNorm x i) aux0 fn af y0 ms throw sol h hs hn j
      have h1' : |(fn y0).1 j| < atol + rtol * |(fn y0).1 j| := h1
      have h2 : |(fn y0).1 j| / (1 + |(fn y0).1 j|) + |(fn y0).1 j| / (1 + |(fn y0).1 j|) * |(fn y0).1 j| = |(fn y0).1 j| := by
        field_simp
      have h3 := mul_le_mul_of_nonneg_right hrδ.le hp.le
      linarith
  refine ⟨min δ δ', lt_min hδ hδ', fun rtol atol hr hrδ ha haδ aux0 af ms throw sol h hs => ?_⟩
  by_cases hn : sol.numSteps = 1
  · exact hone rtol atol hr (hrδ.trans_le (min_le_right _ _)) ha (haδ.trans_le (min_le_right _ _)) aux0 af ms throw sol h hs hn
  obtain ⟨st0, k, hi, hk, _, hv, hc⟩ := C58_gauss_newton_family_partial _ (fun _ _ _ _ _ => rfl) aux0 fn af y0 ms throw sol h hs hn
  obtain ⟨k, rfl⟩ : ∃ j, k = j + 1 := ⟨k - 1, by omega⟩
  have hst := gn_state rtol atol maxNorm maxNorm ls jac aux0 fn y0 st0 hi k
  have hc' : cauchyTermination rtol atol maxNorm maxNorm sol.value
      (fun i => sol.value i - iterateAt (gnSolver rtol atol maxNorm maxNorm ls jac aux0) fn aux0 y0 st0 (k + 1) i)
      (fn sol.value).1 (fun m => (fn sol.value).1 m -
        (fn (iterateAt (gnSolver rtol atol maxNorm maxNorm ls jac aux0) fn aux0 y0 st0 (k + 1))).1 m) = true := by
    simp only [cauchyTermination, Bool.and_eq_true, decide_eq_true_eq]
    exact hc
  rw [C46_cauchy_iff_all_entries rtol atol ha hr, hst.1] at hc'
  have hv' : sol.value = (gnMap ls jac fun y => (fn y).1)^[k + 1] y0 := by rw [hv]; exact hst.2.1
  rw [hv'] at hc' ⊢
  exact hall rtol atol hr (hrδ.trans_le (min_le_left _ _)) (haδ.trans_le (min_le_left _ _)) k (Or.inl hc'.1)

/-- **C156** for `Newton` and `Chord` (default norm and Cauchy termination), with or without bounds. (`hinit` says that the test is not
met before the first step, see C23.) -/
theorem C156_newton (cfg : NewtonChord.Cfg ι ι ℝ (Op ι)) (hcauchy : cfg.cauchy = true) (hnorm : cfg.normY = maxNorm)
    (fn : (ι → ℝ) → (ι → ℝ) × A) (y0 q : ι → ℝ)
    (hlim : Tendsto (fun k => (fun y => NewtonChord.clipBounds cfg.lower cfg.upper fun i =>
      y i - (cfg.linearSolve (cfg.jac (if cfg.isNewton then y else y0)) (fn y).1).1 i)^[k] y0) atTop (𝓝 q)) (ε : ℝ) (hε : 0 < ε) :
    ∃ δ, 0 < δ ∧ ∀ rtol atol, 0 ≤ rtol → rtol < δ → 0 < atol → atol < δ →
      ∀ (_ : (NewtonChord.terminate { cfg with rtol, atol } y0 (NewtonChord.init { cfg with rtol, atol } y0)).1 = false)
        (aux0 : A) af ms throw sol,
      iterativeSolve (NewtonChord.solver { cfg with rtol, atol }) af fn aux0 y0 ms throw = some (.ok sol) →
      sol.result = .successful → ∀ i, |sol.value i - q i| < ε := by
  set T : (ι → ℝ) → ι → ℝ := fun y => NewtonChord.clipBounds cfg.lower cfg.upper fun i =>
      y i - (cfg.linearSolve (cfg.jac (if cfg.isNewton then y else y0)) (fn y).1).1 i with hT
  obtain ⟨δ, hδ, hall⟩ := small_tolerance_near hlim hε
  refine ⟨δ, hδ, fun rtol atol hr hrδ ha haδ hinit aux0 af ms throw sol h hs => ?_⟩
  set c : NewtonChord.Cfg ι ι ℝ (Op ι) := { cfg with rtol, atol } with hc
  have hY : ∀ k, iterateAt (NewtonChord.solver c) fn aux0 y0 (NewtonChord.init c y0) k = T^[k] y0 := by
    intro k
    induction k with
    | zero => rfl
    | succ k ih =>
      rw [newton_iterate, Function.iterate_succ_apply', ← ih]
      rfl
  obtain ⟨y, hy, _, hn, _⟩ := C57_cauchy_success_small_residual_partial c fn aux0 y0 hcauchy hinit af ms throw sol h hs
  obtain ⟨st0, hi, ht, _⟩ := C02_success_is_certificate _ _ _ _ _ _ _ _ h hs
  obtain ⟨_, _, st0', hi', hst, hp⟩ := C01_step_budget _ _ _ _ _ _ _ _ h
  cases hi; cases hi'
  have hn0 : sol.numSteps ≠ 0 := by
    intro h0
    rw [hst, h0] at ht
    have : (NewtonChord.terminate c y0 (NewtonChord.init c y0)).1 = true := congrArg Prod.fst ht
    rw [hinit] at this; cases this
  obtain ⟨k, hk⟩ : ∃ k, sol.numSteps = k + 1 := ⟨sol.numSteps - 1, by omega⟩
  have hv : sol.value = T^[k + 1] y0 := by rw [← hY, ← hk]; exact congrArg Prod.fst hp
  rw [hk, Nat.add_sub_cancel, hY] at hy
  have hn' : maxNorm (fun i => |y i - sol.value i| / (atol + rtol * |y i|)) < 1 := by rw [← hnorm]; exact hn
  rw [hv] at hn' ⊢
  rw [hy] at hn'
  refine hall rtol atol hr hrδ haδ k (Or.inr fun i => ?_)
  have h1 := ((maxNorm_lt_iff _ _).1 hn').2 i
  have hpos : 0 < atol + rtol * |T^[k] y0 i| := by positivity
  rw [abs_div, abs_abs, abs_of_pos hpos, div_lt_one hpos, abs_sub_comm] at h1
  exact h1

/-! ### The hypotheses are met -/

/-- Halving the unknown: the iterates converge to zero. -/
example (y0 : Unit → ℝ) :
    Tendsto (fun k => (fun (y : Unit → ℝ) i => (1 - 1 / 2) * (fun _ : Unit => (0 : ℝ)) i + 1 / 2 * y i)^[k] y0) atTop (𝓝 fun _ => 0) := by
  have h : ∀ k, (fun (y : Unit → ℝ) i => (1 - 1 / 2) * (fun _ : Unit => (0 : ℝ)) i + 1 / 2 * y i)^[k] y0 =
      fun i => (1 / 2 : ℝ) ^ k * y0 i := by
    intro k
    induction k with
    | zero => funext i; simp
    | succ k ih => rw [Function.iterate_succ_apply', ih]; funext i; simp only [pow_succ]; ring
  refine tendsto_pi_nhds.2 fun i => ?_
  simp only [h]
  have := (tendsto_pow_atTop_nhds_zero_of_lt_one (r := (1 / 2 : ℝ)) (by norm_num) (by norm_num)).mul_const (y0 i)
  simpa using this

end Verif.Props
