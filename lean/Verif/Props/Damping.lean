import Verif.Props.FixedPoint
import Verif.Props.GlobalConvergence

/-!
Property C102: what the damping of `FixedPointIteration` is good for.

With damping the iteration converges for every map that does not increase Euclidean distances and has a fixed point
(Krasnosel'skii and Mann), and for steep decreasing maps; without damping it need not.
-/

namespace Verif.Props

open Verif.Spec Verif.Driver Verif.FixedPointIter Filter Topology

variable {ι A : Type} [Fintype ι]

/-- `g` does not increase Euclidean distances. -/
def NonExpansive (g : (ι → ℝ) → ι → ℝ) : Prop := ∀ x y, ∑ i, (g x i - g y i) ^ 2 ≤ ∑ i, (x i - y i) ^ 2

theorem damped_distance (d : ℝ) (a b : ι → ℝ) : ∑ i, ((1 - d) * b i + d * a i) ^ 2 =
    d * ∑ i, a i ^ 2 + (1 - d) * ∑ i, b i ^ 2 - d * (1 - d) * ∑ i, (b i - a i) ^ 2 := by
  rw [Finset.mul_sum, Finset.mul_sum, Finset.mul_sum, ← Finset.sum_add_distrib, ← Finset.sum_sub_distrib]
  exact Finset.sum_congr rfl fun i _ => by ring

theorem damped_nonexpansive (d : ℝ) (h0 : 0 ≤ d) (h1 : d ≤ 1) (g : (ι → ℝ) → ι → ℝ) (hg : NonExpansive g) :
    NonExpansive (dampedMap d g) := by
  intro x y
  have e : ∑ i, (dampedMap d g x i - dampedMap d g y i) ^ 2 = ∑ i, ((1 - d) * (g x i - g y i) + d * (x i - y i)) ^ 2 :=
    Finset.sum_congr rfl fun i _ => by simp only [dampedMap]; ring
  rw [e, damped_distance]
  have h2 := hg x y
  have h3 : 0 ≤ d * (1 - d) * ∑ i, (g x i - g y i - (x i - y i)) ^ 2 :=
    mul_nonneg (mul_nonneg h0 (by linarith)) (Finset.sum_nonneg fun i _ => sq_nonneg _)
  nlinarith [mul_le_mul_of_nonneg_left h2 (by linarith : 0 ≤ 1 - d)]

/-- One step brings the iterate closer to every fixed point, by at least a multiple of the step. -/
theorem damped_closer (d : ℝ) (h1 : d < 1) (g : (ι → ℝ) → ι → ℝ) (hg : NonExpansive g) (p : ι → ℝ)
    (hp : g p = p) (y : ι → ℝ) : d / (1 - d) * ∑ i, (dampedMap d g y i - y i) ^ 2 ≤
      ∑ i, (y i - p i) ^ 2 - ∑ i, (dampedMap d g y i - p i) ^ 2 := by
  have e : ∑ i, (dampedMap d g y i - p i) ^ 2 = ∑ i, ((1 - d) * (g y i - p i) + d * (y i - p i)) ^ 2 :=
    Finset.sum_congr rfl fun i _ => by simp only [dampedMap]; ring
  have e2 : ∑ i, (dampedMap d g y i - y i) ^ 2 = (1 - d) ^ 2 * ∑ i, (g y i - p i - (y i - p i)) ^ 2 := by
    rw [Finset.mul_sum]; exact Finset.sum_congr rfl fun i _ => by simp only [dampedMap]; ring
  rw [e, damped_distance, e2]
  have h2 := hg y p
  rw [hp] at h2
  have h3 : d / (1 - d) * ((1 - d) ^ 2 * ∑ i, (g y i - p i - (y i - p i)) ^ 2) =
      d * (1 - d) * ∑ i, (g y i - p i - (y i - p i)) ^ 2 := by
    have : 1 - d ≠ 0 := by linarith
    field_simp
  rw [h3]
  nlinarith [mul_le_mul_of_nonneg_left h2 (by linarith : 0 ≤ 1 - d)]

/-- The updates of the damped iteration. -/
theorem damped_updates (d : ℝ) (h0 : 0 ≤ d) (h1 : d < 1) (g : (ι → ℝ) → ι → ℝ) (hg : NonExpansive g) (p : ι → ℝ)
    (hp : g p = p) (y0 : ι → ℝ) (k : ℕ) :
    ((k : ℝ) + 1) * (d / (1 - d)) * ∑ i, ((dampedMap d g)^[k + 1] y0 i - (dampedMap d g)^[k] y0 i) ^ 2 ≤
      ∑ i, (y0 i - p i) ^ 2 - ∑ i, ((dampedMap d g)^[k + 1] y0 i - p i) ^ 2 := by
  have hd : 0 ≤ d / (1 - d) := div_nonneg h0 (by linarith)
  induction k with
  | zero =>
    have := damped_closer d h1 g hg p hp y0
    simpa using this
  | succ k ih =>
    have h2 := damped_closer d h1 g hg p hp ((dampedMap d g)^[k + 1] y0)
    have h3 := damped_nonexpansive d h0 h1.le g hg ((dampedMap d g)^[k + 1] y0) ((dampedMap d g)^[k] y0)
    rw [← Function.iterate_succ_apply' (dampedMap d g)] at h2
    rw [← Function.iterate_succ_apply' (dampedMap d g), ← Function.iterate_succ_apply' (dampedMap d g)] at h3
    have h4 := mul_le_mul_of_nonneg_left h3 (by positivity : 0 ≤ ((k : ℝ) + 1) * (d / (1 - d)))
    push_cast
    nlinarith

/-- The solve succeeds no later than the first small update. -/
theorem fp_succeeds_small (cfg : Cfg ι ℝ) (hN : GoodNorm cfg.norm) (ha : 0 < cfg.atol) (hr : 0 ≤ cfg.rtol)
    (fn : (ι → ℝ) → (ι → ℝ) × A) (aux0 : A) (y0 : ι → ℝ) (ε : ℝ) (hε : 0 < ε) (hεN : ε * cfg.norm (fun _ => 1) < cfg.atol) (k : ℕ)
    (hk : ∑ i, ((dampedMap cfg.damp fun z => (fn z).1)^[k + 1] y0 i - (dampedMap cfg.damp fun z => (fn z).1)^[k] y0 i) ^ 2 ≤ ε ^ 2)
    (ms : Option ℕ) (throw : Bool) (hb : ∀ n, ms = some n → k + 1 ≤ n) :
    ∃ sol, iterativeSolve (solver cfg) (fun _ => true) fn aux0 y0 ms throw = some (.ok sol) ∧
      sol.result = .successful ∧ sol.numSteps ≤ k + 1 := by
  refine fp_succeeds cfg fn aux0 y0 ms throw k ?_ hb
  rw [fp_iterate_eq, fp_iterate_eq]
  set T := dampedMap cfg.damp fun z => (fn z).1
  have h1 : ∀ i, |T^[k] y0 i - T^[k + 1] y0 i| ≤ ε := by
    intro i
    refine abs_le_of_sq_le_sq ?_ hε.le
    refine le_trans ?_ hk
    rw [show (T^[k] y0 i - T^[k + 1] y0 i) ^ 2 = (T^[k + 1] y0 i - T^[k] y0 i) ^ 2 by ring]
    exact Finset.single_le_sum (f := fun i => (T^[k + 1] y0 i - T^[k] y0 i) ^ 2) (fun i _ => sq_nonneg _) (Finset.mem_univ i)
  refine lt_of_le_of_lt (hN.mono _ _ fun i => ?_) (norm_small hN cfg.rtol cfg.atol ε ha hr (T^[k + 1] y0)
    (fun i => T^[k] y0 i - T^[k + 1] y0 i) h1 hεN)
  rw [abs_div, abs_div, abs_abs]

/-- **C102**, damping.  If `fn` does not increase Euclidean distances and has a fixed point `p`, then with `0 < damp < 1`, from
every starting point: the iterates never get further from `p`; the squared update in step `k+1` is at most
`(1-damp)/damp · |y0-p|² / (k+1)`; the iterates converge to a fixed point of `fn`; and the solve stops and reports success within
every number of steps for which this bound is within the tolerance. -/
theorem C102_damping (cfg : Cfg ι ℝ) (hN : GoodNorm cfg.norm) (ha : 0 < cfg.atol) (hr : 0 ≤ cfg.rtol)
    (hd0 : 0 < cfg.damp) (hd1 : cfg.damp < 1) (fn : (ι → ℝ) → (ι → ℝ) × A) (hg : NonExpansive fun z => (fn z).1) (p : ι → ℝ)
    (hp : (fn p).1 = p) (aux0 : A) (y0 : ι → ℝ) :
    let Y := iterateAt (solver cfg) fn aux0 y0 none
    (∀ k, ∑ i, (Y (k + 1) i - p i) ^ 2 ≤ ∑ i, (Y k i - p i) ^ 2) ∧
    (∀ k, ∑ i, (Y (k + 1) i - Y k i) ^ 2 ≤ (1 - cfg.damp) / cfg.damp * (∑ i, (y0 i - p i) ^ 2) / ((k : ℝ) + 1)) ∧
    (∃ q, (fn q).1 = q ∧ ∀ i, Tendsto (fun k => Y k i) atTop (𝓝 (q i))) ∧
    ∀ ε, 0 < ε → ε * cfg.norm (fun _ => 1) < cfg.atol → ∀ k : ℕ,
      (1 - cfg.damp) / cfg.damp * (∑ i, (y0 i - p i) ^ 2) ≤ ε ^ 2 * ((k : ℝ) + 1) →
      ∀ (ms : Option ℕ) (throw : Bool), (∀ n, ms = some n → k + 1 ≤ n) →
        ∃ sol, iterativeSolve (solver cfg) (fun _ => true) fn aux0 y0 ms throw = some (.ok sol) ∧
          sol.result = .successful ∧ sol.numSteps ≤ k + 1 := by
  intro Y
  set g : (ι → ℝ) → ι → ℝ := fun z => (fn z).1 with hgd
  set d := cfg.damp
  have hdd : 0 < d / (1 - d) := div_pos hd0 (by linarith)
  have hY : ∀ k, Y k = (dampedMap d g)^[k] y0 := fun k => fp_iterate_eq cfg fn aux0 y0 k
  have hfejer : ∀ q, g q = q → ∀ k, ∑ i, (Y (k + 1) i - q i) ^ 2 ≤ ∑ i, (Y k i - q i) ^ 2 := by
    intro q hq k
    have h1 := damped_closer d hd1 g hg q hq (Y k)
    have e : dampedMap d g (Y k) = Y (k + 1) := rfl
    rw [e] at h1
    have : 0 ≤ d / (1 - d) * ∑ i, (Y (k + 1) i - Y k i) ^ 2 := mul_nonneg hdd.le (Finset.sum_nonneg fun i _ => sq_nonneg _)
    linarith
  have hup : ∀ k : ℕ, ∑ i, (Y (k + 1) i - Y k i) ^ 2 ≤ (1 - d) / d * (∑ i, (y0 i - p i) ^ 2) / ((k : ℝ) + 1) := by
    intro k
    have h1 := damped_updates d hd0.le hd1 g hg p hp y0 k
    rw [← hY, ← hY] at h1
    have h2 : 0 ≤ ∑ i, (Y (k + 1) i - p i) ^ 2 := Finset.sum_nonneg fun i _ => sq_nonneg _
    have h3 : ((k : ℝ) + 1) * (d / (1 - d)) * ∑ i, (Y (k + 1) i - Y k i) ^ 2 ≤ ∑ i, (y0 i - p i) ^ 2 := by linarith
    rw [le_div_iff₀ (by positivity)]
    have hd1' : 0 < 1 - d := by linarith
    have h4 := mul_le_mul_of_nonneg_left h3 (by positivity : 0 ≤ (1 - d) / d)
    refine le_trans (le_of_eq ?_) h4
    field_simp
  refine ⟨hfejer p hp, hup, ?_, ?_⟩
  · -- the updates tend to zero
    have hup0 : Tendsto (fun k => ∑ i, (Y (k + 1) i - Y k i) ^ 2) atTop (𝓝 0) := by
      refine squeeze_zero (fun k => Finset.sum_nonneg fun i _ => sq_nonneg _) hup ?_
      exact (tendsto_const_nhds (x := (1 - d) / d * ∑ i, (y0 i - p i) ^ 2)).div_atTop
        (tendsto_atTop_add_const_right _ _ tendsto_natCast_atTop_atTop)
    have hres : ∀ i, Tendsto (fun k => g (Y k) i - Y k i) atTop (𝓝 0) := by
      intro i
      have h1 : Tendsto (fun k => (Y (k + 1) i - Y k i) ^ 2) atTop (𝓝 0) := by
        refine squeeze_zero (fun k => sq_nonneg _) (fun k => ?_) hup0
        exact Finset.single_le_sum (f := fun i => (Y (k + 1) i - Y k i) ^ 2) (fun i _ => sq_nonneg _) (Finset.mem_univ i)
      have h2 : Tendsto (fun k => Y (k + 1) i - Y k i) atTop (𝓝 0) := by
        have := (Real.continuous_sqrt.tendsto 0).comp h1
        rw [Real.sqrt_zero] at this
        refine (tendsto_zero_iff_abs_tendsto_zero _).2 (this.congr fun k => ?_)
        exact Real.sqrt_sq_eq_abs _
      have h3 := h2.const_mul (1 / (1 - d))
      rw [mul_zero] at h3
      refine h3.congr fun k => ?_
      have e : Y (k + 1) i = (1 - d) * g (Y k) i + d * Y k i := rfl
      rw [e]
      have : 1 - d ≠ 0 := by linarith
      field_simp
      ring
    -- a limit point
    have hbound : ∀ k, ∑ i, (Y k i - p i) ^ 2 ≤ ∑ i, (y0 i - p i) ^ 2 := by
      intro k
      induction k with
      | zero => exact le_rfl
      | succ k ih => exact (hfejer p hp k).trans ih
    have hmem : ∀ k, Y k ∈ Metric.closedBall p (√(∑ i, (y0 i - p i) ^ 2)) := by
      intro k
      rw [Metric.mem_closedBall, dist_pi_le_iff (Real.sqrt_nonneg _)]
      intro i
      rw [Real.dist_eq]
      refine Real.abs_le_sqrt (le_trans ?_ (hbound k))
      exact Finset.single_le_sum (f := fun i => (Y k i - p i) ^ 2) (fun i _ => sq_nonneg _) (Finset.mem_univ i)
    obtain ⟨q, -, φ, hφ, hq⟩ := (isCompact_closedBall p (√(∑ i, (y0 i - p i) ^ 2))).tendsto_subseq hmem
    have hqi : ∀ i, Tendsto (fun k => Y (φ k) i) atTop (𝓝 (q i)) := fun i => (tendsto_pi_nhds.1 hq) i
    have hdist : Tendsto (fun k => ∑ i, (Y (φ k) i - q i) ^ 2) atTop (𝓝 0) := by
      have := tendsto_finset_sum Finset.univ fun i (_ : i ∈ Finset.univ) => ((hqi i).sub_const (q i)).pow 2
      simpa using this
    have hfix : g q = q := by
      funext i
      have h1 : Tendsto (fun k => (g (Y (φ k)) i - g q i) ^ 2) atTop (𝓝 0) := by
        refine squeeze_zero (fun k => sq_nonneg _) (fun k => ?_) hdist
        refine le_trans ?_ (hg (Y (φ k)) q)
        exact Finset.single_le_sum (f := fun i => (g (Y (φ k)) i - g q i) ^ 2) (fun i _ => sq_nonneg _) (Finset.mem_univ i)
      have h2 : Tendsto (fun k => g (Y (φ k)) i - g q i) atTop (𝓝 0) := by
        have := (Real.continuous_sqrt.tendsto 0).comp h1
        rw [Real.sqrt_zero] at this
        refine (tendsto_zero_iff_abs_tendsto_zero _).2 (this.congr fun k => ?_)
        exact Real.sqrt_sq_eq_abs _
      have h3 := (((hres i).comp hφ.tendsto_atTop).add (hqi i)).sub h2
      have h4 : Tendsto (fun _ : ℕ => g q i) atTop (𝓝 (0 + q i - 0)) := by
        refine h3.congr fun k => ?_
        simp only [Function.comp]
        ring
      have := tendsto_nhds_unique h4 tendsto_const_nhds
      linarith
    refine ⟨q, hfix, fun i => ?_⟩
    have hanti : Antitone fun k => ∑ i, (Y k i - q i) ^ 2 := antitone_nat_of_succ_le (hfejer q hfix)
    have hall : Tendsto (fun k => ∑ i, (Y k i - q i) ^ 2) atTop (𝓝 0) := by
      rw [Metric.tendsto_atTop]
      intro ε hε
      obtain ⟨N, hNε⟩ := Metric.tendsto_atTop.1 hdist ε hε
      refine ⟨φ N, fun k hk => ?_⟩
      have h1 := hNε N le_rfl
      rw [Real.dist_eq, sub_zero, abs_of_nonneg (Finset.sum_nonneg fun i _ => sq_nonneg _)] at h1 ⊢
      exact lt_of_le_of_lt (hanti hk) h1
    have h1 : Tendsto (fun k => (Y k i - q i) ^ 2) atTop (𝓝 0) := by
      refine squeeze_zero (fun k => sq_nonneg _) (fun k => ?_) hall
      exact Finset.single_le_sum (f := fun i => (Y k i - q i) ^ 2) (fun i _ => sq_nonneg _) (Finset.mem_univ i)
    have h2 : Tendsto (fun k => Y k i - q i) atTop (𝓝 0) := by
      have := (Real.continuous_sqrt.tendsto 0).comp h1
      rw [Real.sqrt_zero] at this
      refine (tendsto_zero_iff_abs_tendsto_zero _).2 (this.congr fun k => ?_)
      exact Real.sqrt_sq_eq_abs _
    simpa using h2.add_const (q i)
  · intro ε hε hεN k hk ms throw hb
    refine fp_succeeds_small cfg hN ha hr fn aux0 y0 ε hε hεN k ?_ ms throw hb
    have h1 := hup k
    rw [hY, hY] at h1
    refine h1.trans ?_
    rw [div_le_iff₀ (by positivity)]
    exact hk

omit [Fintype ι] in
/-- If every stopping test says "carry on", a solve uses up its budget, and one without budget never returns. -/
theorem never_stops {Y Out Aux St Stats : Type} (S : Solver Y Out Aux St Stats) (af : Y → Bool) (fn : Y → Out × Aux) (aux0 : Aux)
    (y0 : Y) (st0 : St) (hi : S.init fn y0 = .ok st0) (hc : ∀ k, Continues S af fn aux0 y0 st0 k) :
    iterativeSolve S af fn aux0 y0 none false = none ∧
    ∀ m, ∃ sol, iterativeSolve S af fn aux0 y0 (some m) false = some (.ok sol) ∧ sol.result = .nonlinearMaxStepsReached ∧
      sol.numSteps = m := by
  constructor
  · unfold iterativeSolve
    rw [Option.map_eq_none_iff, iterate_none S af fn aux0 y0 st0 hi]
    exact ⟨rfl, hc⟩
  · intro m
    obtain ⟨sol, hs, hk⟩ := solve_exists S af fn aux0 y0 st0 hi (some m) m (fun j _ => hc j) (Or.inr rfl)
    obtain ⟨st0', hi', -, -, -, -, -, hr⟩ := solve_spec _ _ _ _ _ _ _ _ hs
    rw [hi] at hi'; cases hi'
    refine ⟨sol, hs, ?_, hk⟩
    rw [hr, if_pos (hc _)]

/-- **C102**, without damping.  `fn(y) = -y` does not increase distances and has the fixed point 0; but with `damp = 0`, unless `2 |y0|`
is within the tolerance, the iteration alternates between `y0` and `-y0`: whatever the budget it runs out, and without budget
the solve does not return. -/
theorem C102_undamped_cycles (rtol atol : ℝ) (y0 : Unit → ℝ) (hy : atol + rtol * |y0 ()| ≤ 2 * |y0 ()|)
    (hs : 0 < atol + rtol * |y0 ()|) :
    let cfg : Cfg Unit ℝ := { rtol := rtol, atol := atol, norm := maxNorm, damp := 0 }
    let fn : (Unit → ℝ) → (Unit → ℝ) × Unit := fun y => (fun i => -y i, ())
    NonExpansive (fun z => (fn z).1) ∧ iterativeSolve (solver cfg) (fun _ => true) fn () y0 none false = none ∧
    ∀ m : ℕ, ∃ sol, iterativeSolve (solver cfg) (fun _ => true) fn () y0 (some m) false = some (.ok sol) ∧
      sol.result = .nonlinearMaxStepsReached ∧ sol.numSteps = m := by
  intro cfg fn
  refine ⟨fun x y => le_of_eq (Finset.sum_congr rfl fun i _ => by simp only [fn]; ring), ?_⟩
  have hY : ∀ k, |iterateAt (solver cfg) fn () y0 none k ()| = |y0 ()| ∧
      iterateAt (solver cfg) fn () y0 none (k + 1) () = -iterateAt (solver cfg) fn () y0 none k () := by
    have hstep : ∀ k, iterateAt (solver cfg) fn () y0 none (k + 1) () = -iterateAt (solver cfg) fn () y0 none k () := by
      intro k
      rw [fp_iterate_succ]
      simp [dampedMap, cfg, fn]
    intro k
    refine ⟨?_, hstep k⟩
    induction k with
    | zero => rfl
    | succ k ih => rw [hstep, abs_neg, ih]
  have hno : ∀ k, ((solver (A := Unit) cfg).terminate fn (iterateAt (solver cfg) fn () y0 none (k - 1))
      (stateAt (solver cfg) fn () y0 none k)) = (false, .successful) := by
    intro k
    cases k with
    | zero => rfl
    | succ k =>
      have h1 := (fp_terminate_succ cfg fn () y0 k).not
      have h2 : ((solver (A := Unit) cfg).terminate fn (iterateAt (solver cfg) fn () y0 none k)
          (stateAt (solver cfg) fn () y0 none (k + 1))) =
          (((solver (A := Unit) cfg).terminate fn (iterateAt (solver cfg) fn () y0 none k)
            (stateAt (solver cfg) fn () y0 none (k + 1))).1, .successful) := rfl
      rw [Nat.add_sub_cancel]
      rw [h2] at h1 ⊢
      have h3 : ¬ cfg.norm (fun i => (iterateAt (solver cfg) fn () y0 none k i -
          iterateAt (solver cfg) fn () y0 none (k + 1) i) /
          (cfg.atol + cfg.rtol * |iterateAt (solver cfg) fn () y0 none (k + 1) i|)) < 1 := by
        intro hlt
        have h4 := ((maxNorm_lt_iff _ _).1 hlt).2 ()
        rw [(hY k).2, abs_neg, (hY k).1, sub_neg_eq_add, ← two_mul, abs_div, abs_mul, (hY k).1, abs_of_pos hs,
          div_lt_one hs, abs_of_pos (by norm_num : (0:ℝ) < 2)] at h4
        linarith
      have h5 := h1.2 h3
      generalize ((solver (A := Unit) cfg).terminate fn (iterateAt (solver cfg) fn () y0 none k)
            (stateAt (solver cfg) fn () y0 none (k + 1))).1 = b at h5 ⊢
      cases b with
      | true => exact absurd rfl h5
      | false => rfl
  exact never_stops (solver cfg) (fun _ => true) fn () y0 none rfl fun k => ⟨rfl, hno k⟩

/-- The contraction factor (for squared distances) that damping gives to a map with Lipschitz constant `L` and one-sided Lipschitz
constant `m`. -/
noncomputable def steepFactor (damp L m : ℝ) : ℝ := 1 - 2 * (1 - damp) * (1 - m) + (1 - damp) ^ 2 * (L ^ 2 - 2 * m + 1)

/-- **C102**, steep maps.  Suppose `(fn(x) - fn(y))·(x - y) ≤ m |x - y|²` for some `m < 1` (for instance `m = 0` for decreasing
functions), and `fn` has any Lipschitz constant `L`, however large.  With damping so strong that
`(1-damp) (L² - 2m + 1) < 2 (1-m)` the squared distance to a fixed point `p` is multiplied in each step by at most the factor
`steepFactor damp L m`, which is less than one, and the solve stops and reports success. -/
theorem C102_steep (cfg : Cfg ι ℝ) (hN : GoodNorm cfg.norm) (ha : 0 < cfg.atol) (hr : 0 ≤ cfg.rtol)
    (hd0 : 0 ≤ cfg.damp) (hd1 : cfg.damp < 1) (fn : (ι → ℝ) → (ι → ℝ) × A) (L m : ℝ)
    (hL : ∀ x y, ∑ i, ((fn x).1 i - (fn y).1 i) ^ 2 ≤ L ^ 2 * ∑ i, (x i - y i) ^ 2)
    (hm : ∀ x y, ∑ i, ((fn x).1 i - (fn y).1 i) * (x i - y i) ≤ m * ∑ i, (x i - y i) ^ 2)
    (hd : (1 - cfg.damp) * (L ^ 2 - 2 * m + 1) < 2 * (1 - m)) (p : ι → ℝ) (hp : (fn p).1 = p) (aux0 : A) (y0 : ι → ℝ) :
    let Y := iterateAt (solver cfg) fn aux0 y0 none
    steepFactor cfg.damp L m < 1 ∧
    (∀ k, ∑ i, (Y (k + 1) i - p i) ^ 2 ≤ steepFactor cfg.damp L m * ∑ i, (Y k i - p i) ^ 2) ∧
    ∃ N, ∀ (ms : Option ℕ) (throw : Bool), (∀ n, ms = some n → N ≤ n) →
      ∃ sol, iterativeSolve (solver cfg) (fun _ => true) fn aux0 y0 ms throw = some (.ok sol) ∧ sol.result = .successful := by
  intro Y
  set d := cfg.damp with hdd
  have hq1 : steepFactor d L m < 1 := by
    unfold steepFactor
    have := mul_lt_mul_of_pos_left hd (by linarith : 0 < 1 - d)
    nlinarith
  have hstep : ∀ k, ∑ i, (Y (k + 1) i - p i) ^ 2 ≤ steepFactor d L m * ∑ i, (Y k i - p i) ^ 2 := by
    intro k
    have h1 := hL (Y k) p
    have h2 := hm (Y k) p
    rw [hp] at h1 h2
    have e : ∑ i, (Y (k + 1) i - p i) ^ 2 = (1 - d) ^ 2 * ∑ i, ((fn (Y k)).1 i - p i) ^ 2 +
        2 * d * (1 - d) * ∑ i, ((fn (Y k)).1 i - p i) * (Y k i - p i) + d ^ 2 * ∑ i, (Y k i - p i) ^ 2 := by
      rw [Finset.mul_sum, Finset.mul_sum, Finset.mul_sum, ← Finset.sum_add_distrib, ← Finset.sum_add_distrib]
      refine Finset.sum_congr rfl fun i _ => ?_
      have : Y (k + 1) i = (1 - d) * (fn (Y k)).1 i + d * Y k i := rfl
      rw [this]; ring
    rw [e]
    have h3 := mul_le_mul_of_nonneg_left h1 (sq_nonneg (1 - d))
    have h4 := mul_le_mul_of_nonneg_left h2 (by nlinarith : 0 ≤ 2 * d * (1 - d))
    calc _ ≤ (1 - d) ^ 2 * (L ^ 2 * ∑ i, (Y k i - p i) ^ 2) + 2 * d * (1 - d) * (m * ∑ i, (Y k i - p i) ^ 2) +
          d ^ 2 * ∑ i, (Y k i - p i) ^ 2 := by linarith
      _ = _ := by unfold steepFactor; ring
  refine ⟨hq1, hstep, ?_⟩
  set q := max (steepFactor d L m) 0 with hq
  have hq0 : 0 ≤ q := le_max_right _ _
  have hq1' : q < 1 := max_lt hq1 one_pos
  have hgeo : ∀ k, ∑ i, (Y k i - p i) ^ 2 ≤ q ^ k * ∑ i, (y0 i - p i) ^ 2 := by
    intro k
    induction k with
    | zero => rw [pow_zero, one_mul]; exact le_rfl
    | succ k ih =>
      have h0 : 0 ≤ ∑ i, (Y k i - p i) ^ 2 := Finset.sum_nonneg fun i _ => sq_nonneg _
      calc _ ≤ steepFactor d L m * ∑ i, (Y k i - p i) ^ 2 := hstep k
        _ ≤ q * ∑ i, (Y k i - p i) ^ 2 := mul_le_mul_of_nonneg_right (le_max_left _ _) h0
        _ ≤ q * (q ^ k * ∑ i, (y0 i - p i) ^ 2) := mul_le_mul_of_nonneg_left ih hq0
        _ = _ := by rw [pow_succ]; ring
  have hup : Tendsto (fun k : ℕ => 4 * (q ^ k * ∑ i, (y0 i - p i) ^ 2)) atTop (𝓝 0) := by
    have := ((tendsto_pow_atTop_nhds_zero_of_lt_one hq0 hq1').mul_const (∑ i, (y0 i - p i) ^ 2)).const_mul 4
    simpa using this
  obtain ⟨ε, hε, hεN, -⟩ := small_enough hN hN cfg.atol ha
  obtain ⟨K, hK⟩ := (hup.eventually (gt_mem_nhds (by positivity : 0 < ε ^ 2))).exists
  refine ⟨K + 1, fun ms throw hb => ?_⟩
  obtain ⟨sol, h1, h2, -⟩ := fp_succeeds_small cfg hN ha hr fn aux0 y0 ε hε hεN K (by
    rw [← fp_iterate_eq cfg fn aux0 y0, ← fp_iterate_eq cfg fn aux0 y0]
    refine le_trans ?_ hK.le
    have h0 : 0 ≤ ∑ i, (y0 i - p i) ^ 2 := Finset.sum_nonneg fun i _ => sq_nonneg _
    have h3 : ∑ i, (Y (K + 1) i - Y K i) ^ 2 ≤ 2 * ∑ i, (Y (K + 1) i - p i) ^ 2 + 2 * ∑ i, (Y K i - p i) ^ 2 := by
      rw [Finset.mul_sum, Finset.mul_sum, ← Finset.sum_add_distrib]
      exact Finset.sum_le_sum fun i _ => by nlinarith [sq_nonneg (Y (K + 1) i - p i + (Y K i - p i))]
    have h4 := hgeo K
    have h5 := hgeo (K + 1)
    have h6 : q ^ (K + 1) * ∑ i, (y0 i - p i) ^ 2 ≤ q ^ K * ∑ i, (y0 i - p i) ^ 2 :=
      mul_le_mul_of_nonneg_right (pow_le_pow_of_le_one hq0 hq1'.le (Nat.le_succ K)) h0
    linarith) ms throw hb
  exact ⟨sol, h1, h2⟩

/-- The hypotheses of `C102_damping` are met by a rotation of the plane, on which the undamped iteration never stops. -/
example (y0 : Fin 2 → ℝ) :
    let cfg : Cfg (Fin 2) ℝ := { rtol := 0, atol := 1 / 1000, norm := maxNorm, damp := 1 / 2 }
    let fn : (Fin 2 → ℝ) → (Fin 2 → ℝ) × Unit := fun y => (![-y 1, y 0], ())
    ∀ i, Tendsto (fun k => iterateAt (solver cfg) fn () y0 none k i) atTop (𝓝 0) := by
  intro cfg fn i
  obtain ⟨-, -, ⟨q, hq, hlim⟩, -⟩ := C102_damping cfg (goodNorm_maxNorm (ι := Fin 2)) (by norm_num [cfg]) (by norm_num [cfg])
    (by norm_num [cfg]) (by norm_num [cfg]) fn (fun x y => by simp [fn, Fin.sum_univ_two]; nlinarith) 0
    (by funext i; fin_cases i <;> simp [fn]) () y0
  have h0 : -q 1 = q 0 := congrFun hq 0
  have h1 : q 0 = q 1 := congrFun hq 1
  have hq0 : ∀ i, q i = 0 := by
    intro i
    fin_cases i
    · show q 0 = 0; linarith
    · show q 1 = 0; linarith
  have := hlim i
  rwa [hq0] at this

/-- The hypotheses of `C102_steep` are met by `fn(y) = 6 - 5 y`, whose undamped iteration diverges, with `damp = 0.8`. -/
example (y0 : Unit → ℝ) :
    let cfg : Cfg Unit ℝ := { rtol := 0, atol := 1 / 1000, norm := maxNorm, damp := 8 / 10 }
    let fn : (Unit → ℝ) → (Unit → ℝ) × Unit := fun y => (fun i => 6 - 5 * y i, ())
    ∃ N, ∀ (ms : Option ℕ) (throw : Bool), (∀ n, ms = some n → N ≤ n) →
      ∃ sol, iterativeSolve (solver cfg) (fun _ => true) fn () y0 ms throw = some (.ok sol) ∧ sol.result = .successful := by
  intro cfg fn
  exact (C102_steep cfg (goodNorm_maxNorm (ι := Unit)) (by norm_num [cfg]) (by norm_num [cfg]) (by norm_num [cfg]) (by norm_num [cfg])
    fn 5 (-5) (fun x y => by simp [fn]; nlinarith) (fun x y => by simp [fn]; nlinarith) (by norm_num [cfg]) (fun _ => 1)
    (by funext i; norm_num [fn]) () y0).2.2

end Verif.Props
