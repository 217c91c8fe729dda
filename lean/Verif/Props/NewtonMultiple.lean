import Verif.Props.NewtonBounds

/-!
**C158.** Newton's method at multiple roots.

At a root of multiplicity `m ≥ 2` the derivative vanishes, and the theorems about simple roots do not apply.  `Newton` still converges,
from one side, with the factor `1 - 1/m`, never meets a singular derivative, and the error of a successful answer is at most about `m - 1`
times the tolerance.
-/

namespace Verif.Props

open Verif Verif.Spec Verif.Driver Verif.NewtonChord Filter Topology

variable {A : Type}

/-- Newton's correction near a root of multiplicity `m`. -/
theorem multiple_root_step (g g' : ℝ → ℝ) (r : ℝ) (m : ℕ) (hm : 2 ≤ m) (hg : ∀ x, HasDerivAt g (g' x) x) (hg' : ContinuousAt g' r)
    (hgr : g r ≠ 0) (ε : ℝ) (hε : 0 < ε) (hε1 : ε < 1) :
    ∃ δ, 0 < δ ∧ ∀ x, x ≠ r → |x - r| ≤ δ →
      m * (x - r) ^ (m - 1) * g x + (x - r) ^ m * g' x ≠ 0 ∧
      ∀ d, (m * (x - r) ^ (m - 1) * g x + (x - r) ^ m * g' x) * d = (x - r) ^ m * g x →
        ∃ s, (m:ℝ) - ε ≤ s ∧ s ≤ m + ε ∧ s * d = x - r := by
  have hcont : ContinuousAt (fun x => (x - r) * g' x / g x) r :=
    ((continuousAt_id.sub continuousAt_const).mul hg').div (hg r).continuousAt hgr
  have hev : ∀ᶠ x in 𝓝 r, |(x - r) * g' x / g x| < ε ∧ g x ≠ 0 := by
    refine Filter.Eventually.and ?_ ((hg r).continuousAt.eventually_ne hgr)
    have := hcont.eventually (Metric.ball_mem_nhds _ hε)
    filter_upwards [this] with x hx
    simp only [sub_self, zero_mul, zero_div, Real.dist_eq, sub_zero] at hx
    exact hx
  obtain ⟨δ, hδ, hball⟩ := Metric.eventually_nhds_iff.1 hev
  refine ⟨δ / 2, by positivity, fun x hx hxδ => ?_⟩
  obtain ⟨ht, hgx⟩ := hball (show dist x r < δ by rw [Real.dist_eq]; linarith)
  set t := (x - r) * g' x / g x with htd
  have he : x - r ≠ 0 := sub_ne_zero.2 hx
  have htg : t * g x = (x - r) * g' x := by rw [htd]; field_simp
  have hpow : (x - r) ^ m = (x - r) ^ (m - 1) * (x - r) := by rw [← pow_succ, Nat.sub_add_cancel (by omega)]
  have hfac : m * (x - r) ^ (m - 1) * g x + (x - r) ^ m * g' x = (x - r) ^ (m - 1) * g x * (m + t) := by
    rw [hpow]; linear_combination (-(x - r) ^ (m - 1)) * htg
  have hm' : (2:ℝ) ≤ m := by exact_mod_cast hm
  have habs := abs_lt.1 ht
  have hs : (m:ℝ) + t ≠ 0 := by have := habs.1; intro h; linarith
  rw [hfac]
  have hne : (x - r) ^ (m - 1) * g x ≠ 0 := mul_ne_zero (pow_ne_zero _ he) hgx
  refine ⟨mul_ne_zero hne hs, fun d hd => ⟨m + t, by linarith [habs.1], by linarith [habs.2], ?_⟩⟩
  refine mul_left_cancel₀ hne ?_
  rw [← mul_assoc, hd, hpow]
  ring

section
variable (cfg : Cfg Unit Unit ℝ (Op Unit)) (hnewton : cfg.isNewton = true) (hlo : cfg.lower = none) (hup : cfg.upper = none)
  (hls : SolvesInvertible cfg.linearSolve) (g g' : ℝ → ℝ) (r : ℝ) (m : ℕ) (hm : 2 ≤ m) (hg : ∀ x, HasDerivAt g (g' x) x)
  (hg' : ContinuousAt g' r) (hgr : g r ≠ 0) (fn : (Unit → ℝ) → (Unit → ℝ) × A)
  (hfn : ∀ y, (fn y).1 = fun _ => (y () - r) ^ m * g (y ())) (hjac : ∀ y, cfg.jac y = fderiv ℝ (fun y => (fn y).1) y) (aux0 : A)
include hnewton hlo hup hls hm hg hg' hgr hfn hjac

/-- One run. -/
theorem multiple_root_run (ε : ℝ) (hε : 0 < ε) (hε1 : ε < 1) : ∃ δ, 0 < δ ∧ ∀ y0 : Unit → ℝ, y0 () ≠ r → |y0 () - r| ≤ δ →
    let Y := iterateAt (solver cfg) fn aux0 y0 (init cfg y0)
    ∀ k, (Y k () ≠ r ∧ |Y k () - r| ≤ δ) ∧ (cfg.linearSolve (cfg.jac (Y k)) (fn (Y k)).1).2 = .successful ∧
      ∃ s, (m:ℝ) - ε ≤ s ∧ s ≤ m + ε ∧ s * (Y k () - Y (k + 1) ()) = Y k () - r := by
  obtain ⟨δ, hδ, hstep⟩ := multiple_root_step g g' r m hm hg hg' hgr ε hε hε1
  refine ⟨δ, hδ, fun y0 hne0 hclose0 => ?_⟩
  intro Y
  have hm' : (2:ℝ) ≤ m := by exact_mod_cast hm
  have hder : ∀ x, HasDerivAt (fun x => (x - r) ^ m * g x) (m * (x - r) ^ (m - 1) * g x + (x - r) ^ m * g' x) x := by
    intro x
    have h1 := (((hasDerivAt_id x).sub_const r).pow m).mul (hg x)
    refine h1.congr_deriv ?_
    simp
  have hjac' : ∀ y, cfg.jac y =
      (m * (y () - r) ^ (m - 1) * g (y ()) + (y () - r) ^ m * g' (y ())) • ContinuousLinearMap.id ℝ (Unit → ℝ) := by
    intro y
    rw [hjac y, show (fun y => (fn y).1) = fun (y : Unit → ℝ) (_ : Unit) => (y () - r) ^ m * g (y ()) from funext hfn]
    exact (scalar_derivative (fun x => (x - r) ^ m * g x) _ hder y).fderiv
  have one : ∀ k, Y k () ≠ r → |Y k () - r| ≤ δ → (cfg.linearSolve (cfg.jac (Y k)) (fn (Y k)).1).2 = .successful ∧
      ∃ s, (m:ℝ) - ε ≤ s ∧ s ≤ m + ε ∧ s * (Y k () - Y (k + 1) ()) = Y k () - r := by
    intro k hne hclose
    obtain ⟨hJne, hd⟩ := hstep (Y k ()) hne hclose
    have hinv : (cfg.jac (Y k)).IsInvertible := by
      rw [hjac']
      refine ⟨ContinuousLinearEquiv.smulLeft (Units.mk0 _ hJne), ?_⟩
      ext v i
      rfl
    obtain ⟨h1, h2⟩ := hls _ hinv (fn (Y k)).1
    have hit := congrFun (newton_iterate cfg fn aux0 y0 k) ()
    have hj : jacPoint cfg fn aux0 y0 k = Y k := by simp only [jacPoint, hnewton, if_true]; rfl
    rw [hj, hlo, hup] at hit
    have hit' : Y (k + 1) () = Y k () - (cfg.linearSolve (cfg.jac (Y k)) (fn (Y k)).1).1 () := hit
    generalize cfg.linearSolve (cfg.jac (Y k)) (fn (Y k)).1 = S at h1 h2 hit' ⊢
    refine ⟨h2, ?_⟩
    have h3 := congrFun h1 ()
    rw [hjac', hfn] at h3
    obtain ⟨s, hs1, hs2, hs3⟩ := hd _ h3
    exact ⟨s, hs1, hs2, by rw [hit', sub_sub_cancel]; exact hs3⟩
  have all : ∀ k, Y k () ≠ r ∧ |Y k () - r| ≤ δ := by
    intro k
    induction k with
    | zero => exact ⟨hne0, hclose0⟩
    | succ k ih =>
      obtain ⟨_, s, hs1, hs2, hs3⟩ := one k ih.1 ih.2
      have hs0 : 0 < s := by linarith
      have e : Y (k + 1) () - r = (1 - 1 / s) * (Y k () - r) := by
        field_simp; linear_combination -hs3
      have h1 : 0 < 1 - 1 / s := by rw [sub_pos, div_lt_one hs0]; linarith
      have h2 : 1 - 1 / s ≤ 1 := by have : 0 < 1 / s := by positivity
                                    linarith
      constructor
      · intro h
        have h3 : (1 - 1 / s) * (Y k () - r) = 0 := by rw [← e, h, sub_self]
        rcases mul_eq_zero.1 h3 with h4 | h4
        · linarith
        · exact ih.1 (sub_eq_zero.1 h4)
      · rw [e, abs_mul, abs_of_pos h1]
        exact (mul_le_of_le_one_left (abs_nonneg _) h2).trans ih.2
  exact fun k => ⟨all k, one k (all k).1 (all k).2⟩

/-- **C158.** `Newton` (in one unknown, without bounds) at a root `r` of multiplicity `m ≥ 2`, `f(y) = (y - r)^m g(y)` with `g(r) ≠ 0`.
For every `ε < 1` there is a neighbourhood such that, from every starting point in it except `r` itself,
* the iterates stay in it, on the same side of the root, and the distance from the root shrinks in every step by a factor between
  `1 - 1/(m - ε)` and `1 - 1/(m + ε)`; they converge to the root, and no linear solve fails;
* with Cauchy termination (the default) the solve stops with success, given a sufficient budget;
* and a successful answer is off by at most `m - 1 + ε` tolerances. -/
theorem C158_multiple_root (ε : ℝ) (hε : 0 < ε) (hε1 : ε < 1) : ∃ δ, 0 < δ ∧ ∀ y0 : Unit → ℝ, y0 () ≠ r → |y0 () - r| ≤ δ →
    (let Y := iterateAt (solver cfg) fn aux0 y0 (init cfg y0)
     (∀ k, Y k () ≠ r ∧ 1 - 1 / (m - ε) ≤ (Y (k + 1) () - r) / (Y k () - r) ∧ (Y (k + 1) () - r) / (Y k () - r) ≤ 1 - 1 / (m + ε)) ∧
     (∀ k, (stateAt (solver cfg) fn aux0 y0 (init cfg y0) k).result = .successful) ∧ Tendsto (fun k => Y k ()) atTop (𝓝 r)) ∧
    ∀ (_ : cfg.cauchy = true) (_ : 0 < cfg.atol) (_ : 0 ≤ cfg.rtol),
      (GoodNorm cfg.normY → GoodNorm cfg.normF → ∃ N, ∀ (ms : Option ℕ) (throw : Bool), (∀ n, ms = some n → N ≤ n) →
        ∃ sol, iterativeSolve (solver cfg) (fun _ => true) fn aux0 y0 ms throw = some (.ok sol) ∧ sol.result = .successful) ∧
      ((∀ x i, |x i| ≤ cfg.normY x) → (terminate cfg y0 (init cfg y0)).1 = false → ∀ af ms throw sol,
        iterativeSolve (solver cfg) af fn aux0 y0 ms throw = some (.ok sol) → sol.result = .successful →
        ∃ y, |y - r| ≤ δ ∧ |sol.value () - r| ≤ (m - 1 + ε) * (cfg.atol + cfg.rtol * |y|)) := by
  obtain ⟨δ, hδ, hrun⟩ := multiple_root_run cfg hnewton hlo hup hls g g' r m hm hg hg' hgr fn hfn hjac aux0 ε hε hε1
  refine ⟨δ, hδ, fun y0 hne hclose => ?_⟩
  have hR := hrun y0 hne hclose
  set Y := iterateAt (solver cfg) fn aux0 y0 (init cfg y0) with hYd
  have hm' : (2:ℝ) ≤ m := by exact_mod_cast hm
  have hratio : ∀ k, ∃ q, Y (k + 1) () - r = q * (Y k () - r) ∧ 1 - 1 / (m - ε) ≤ q ∧ q ≤ 1 - 1 / (m + ε) := by
    intro k
    obtain ⟨_, _, s, hs1, hs2, hs3⟩ := hR k
    have hs0 : 0 < s := by linarith
    refine ⟨1 - 1 / s, by field_simp; linear_combination -hs3, ?_, ?_⟩
    · have := one_div_le_one_div_of_le (show 0 < m - ε by linarith) hs1
      linarith
    · have := one_div_le_one_div_of_le hs0 hs2
      linarith
  have hok : ∀ k, (stateAt (solver cfg) fn aux0 y0 (init cfg y0) k).result = .successful := by
    intro k
    cases k with
    | zero => rfl
    | succ k =>
      have h1 : (stateAt (solver cfg) fn aux0 y0 (init cfg y0) (k + 1)).result =
          (linSol cfg (Y k) (fn (Y k)).1 (stateAt (solver cfg) fn aux0 y0 (init cfg y0) k)).2 := rfl
      rw [h1, newton_linSol]
      have hj : jacPoint cfg fn aux0 y0 k = Y k := by simp only [jacPoint, hnewton, if_true]; rfl
      rw [hj]
      exact (hR k).2.1
  have hgeo : ∀ k, |Y k () - r| ≤ (1 - 1 / (m + ε)) ^ k * |y0 () - r| := by
    intro k
    induction k with
    | zero => simp; exact le_rfl
    | succ k ih =>
      obtain ⟨q, hq, hq1, hq2⟩ := hratio k
      have hq0 : 0 ≤ q := by
        have : 1 / (m - ε) ≤ 1 := by rw [div_le_one (by linarith)]; linarith
        linarith
      rw [hq, abs_mul, abs_of_nonneg hq0, pow_succ]
      calc q * |Y k () - r| ≤ (1 - 1 / (m + ε)) * ((1 - 1 / (m + ε)) ^ k * |y0 () - r|) :=
            mul_le_mul hq2 ih (abs_nonneg _) (hq0.trans hq2)
        _ = _ := by ring
  have hlim : Tendsto (fun k => Y k ()) atTop (𝓝 r) := by
    have hp : 0 < 1 / (m + ε) := by positivity
    have hp1 : 1 / (m + ε) ≤ 1 := by rw [div_le_one (by linarith)]; linarith
    have h1 := (tendsto_pow_atTop_nhds_zero_of_lt_one (r := 1 - 1 / (m + ε)) (by linarith) (by linarith)).mul_const |y0 () - r|
    rw [zero_mul] at h1
    rw [tendsto_iff_norm_sub_tendsto_zero]
    exact squeeze_zero (fun k => norm_nonneg _) (fun k => hgeo k) h1
  refine ⟨⟨fun k => ?_, hok, hlim⟩, fun hc ha hr => ⟨fun hNY hNF => ?_, fun hN hinit af ms throw sol h hs => ?_⟩⟩
  · obtain ⟨q, hq, hq1, hq2⟩ := hratio k
    have he : Y k () - r ≠ 0 := sub_ne_zero.2 (hR k).1.1
    rw [hq, mul_div_assoc, div_self he, mul_one]
    exact ⟨(hR k).1.1, hq1, hq2⟩
  · refine newton_stops cfg fn aux0 y0 (fun _ => r) ?_ ?_ (tendsto_pi_nhds.2 fun _ => hlim) hok hc hNY hNF ha hr
    · have hgc : Continuous g := continuous_iff_continuousAt.2 fun x => (hg x).continuousAt
      rw [show (fun y => (fn y).1) = fun (y : Unit → ℝ) (_ : Unit) => (y () - r) ^ m * g (y ()) from funext hfn]
      exact continuous_pi fun _ => (((continuous_apply ()).sub continuous_const).pow m).mul (hgc.comp (continuous_apply ()))
    · rw [hfn]
      funext _
      simp only [sub_self, Pi.zero_apply]
      rw [zero_pow (by omega), zero_mul]
  · obtain ⟨y, hy, _, hn, _⟩ := C57_cauchy_success_small_residual_partial cfg fn aux0 y0 hc hinit af ms throw sol h hs
    obtain ⟨_, _, st0, hi, _, hp⟩ := C01_step_budget _ _ _ _ _ _ _ _ h
    cases hi
    have hv : sol.value = Y sol.numSteps := congrArg Prod.fst hp
    have hn0 : sol.numSteps ≠ 0 := by
      intro h0
      obtain ⟨st0, hi, ht, _⟩ := C02_success_is_certificate _ _ _ _ _ _ _ _ h hs
      obtain ⟨_, _, st0', hi', hst, _⟩ := C01_step_budget _ _ _ _ _ _ _ _ h
      cases hi; cases hi'
      rw [hst, h0] at ht
      have : (terminate cfg y0 (init cfg y0)).1 = true := congrArg Prod.fst ht
      rw [hinit] at this; cases this
    obtain ⟨k, hk⟩ : ∃ k, sol.numSteps = k + 1 := ⟨sol.numSteps - 1, by omega⟩
    rw [hk, Nat.add_sub_cancel] at hy
    have hy' : y = Y k := hy
    have hv' : sol.value = Y (k + 1) := by rw [hv, hk]
    have hpos : 0 < cfg.atol + cfg.rtol * |y ()| := add_pos_of_pos_of_nonneg ha (mul_nonneg hr (abs_nonneg _))
    have h1 := (hN _ ()).trans_lt hn
    rw [abs_div, abs_abs, abs_of_pos hpos, div_lt_one hpos] at h1
    obtain ⟨_, _, s, hs1, hs2, hs3⟩ := hR k
    refine ⟨y (), by rw [hy']; exact (hR k).1.2, ?_⟩
    have e : sol.value () - r = (s - 1) * (y () - sol.value ()) := by
      rw [hv', hy']; linear_combination -hs3
    rw [e, abs_mul, abs_of_pos (by linarith)]
    exact mul_le_mul (by linarith) h1.le (abs_nonneg _) (by linarith)

/-- **C158.** The other stopping test (`cauchy_termination=False`, with an absolute tolerance and the default norm) sees at a multiple
root how slow the convergence is, and estimates the error correctly: it never reports divergence, and the answer of a successful solve
is within about `kappa * atol` of the root, up to a factor close to one, whatever the multiplicity (or the last update was at the limit
of resolution). Given a sufficient budget the solve does succeed. -/
theorem C158_rate_estimate (hcauchy : cfg.cauchy = false) (hnorm : cfg.normY = maxNorm) (hfin : ∀ x, cfg.isfinite x = true)
    (hrtol : cfg.rtol = 0) (hatol : 0 < cfg.atol) (ε : ℝ) (hε : 0 < ε) (hε1 : ε < 1 / 2) :
    ∃ δ, 0 < δ ∧ ∀ y0 : Unit → ℝ, y0 () ≠ r → |y0 () - r| ≤ δ →
      (∀ k, (terminate cfg (iterateAt (solver cfg) fn aux0 y0 (init cfg y0) (k - 1))
        (stateAt (solver cfg) fn aux0 y0 (init cfg y0) k)).2 = .successful) ∧
      (0 < cfg.resolution → ∃ N, ∀ (ms : Option ℕ) (throw : Bool), (∀ n, ms = some n → N ≤ n) →
        ∃ sol, iterativeSolve (solver cfg) (fun _ => true) fn aux0 y0 ms throw = some (.ok sol) ∧ sol.result = .successful) ∧
      ∀ af ms throw sol, iterativeSolve (solver cfg) af fn aux0 y0 ms throw = some (.ok sol) → sol.result = .successful →
        (m - 1 - ε) * |sol.value () - r| ≤ (m - 1 + ε) * (1 + 2 * ε) * (cfg.kappa * cfg.atol) ∨
        |sol.value () - r| ≤ (m - 1 + ε) * (cfg.resolution * cfg.atol) := by
  obtain ⟨δ₁, hδ₁, hrun⟩ := multiple_root_run cfg hnewton hlo hup hls g g' r m hm hg hg' hgr fn hfn hjac aux0 ε hε (by linarith)
  obtain ⟨δ₂, hδ₂, hmul⟩ := C158_multiple_root cfg hnewton hlo hup hls g g' r m hm hg hg' hgr fn hfn hjac aux0 ε hε (by linarith)
  refine ⟨min δ₁ δ₂, lt_min hδ₁ hδ₂, fun y0 hne hclose => ?_⟩
  have hR := hrun y0 hne (hclose.trans (min_le_left _ _))
  have hlim := (hmul y0 hne (hclose.trans (min_le_right _ _))).1.2.2
  set Y := iterateAt (solver cfg) fn aux0 y0 (init cfg y0) with hYd
  set S := stateAt (solver cfg) fn aux0 y0 (init cfg y0) with hSd
  have hm' : (2:ℝ) ≤ m := by exact_mod_cast hm
  have hok : ∀ k, (S k).result = .successful := by
    intro k
    cases k with
    | zero => rfl
    | succ k =>
      have h1 : (S (k + 1)).result = (linSol cfg (Y k) (fn (Y k)).1 (S k)).2 := rfl
      rw [h1, newton_linSol]
      have hj : jacPoint cfg fn aux0 y0 k = Y k := by simp only [jacPoint, hnewton, if_true]; rfl
      rw [hj]
      exact (hR k).2.1
  -- the last two updates
  have hsizes : ∀ k, (S (k + 2)).step = k + 2 ∧ (S (k + 2)).diffsize = |Y (k + 1) () - Y (k + 2) ()| / cfg.atol ∧
      (S (k + 2)).diffsizePrev = |Y k () - Y (k + 1) ()| / cfg.atol := by
    intro k
    obtain ⟨h1, h2, h3⟩ := C24_sizes_compared cfg fn aux0 y0 k
    have hn : ∀ u v : Unit → ℝ, cfg.normY (fun i => (u i - v i) / (cfg.atol + cfg.rtol * |v i|)) = |u () - v ()| / cfg.atol := by
      intro u v
      rw [hnorm, maxNorm_eq_norm, hrtol]
      simp only [zero_mul, add_zero]
      refine le_antisymm ((pi_norm_le_iff_of_nonneg (by positivity)).2 fun i => ?_) ?_
      · rw [Real.norm_eq_abs, abs_div, abs_of_pos hatol]
      · have := norm_le_pi_norm (fun i : Unit => (u i - v i) / cfg.atol) ()
        rwa [Real.norm_eq_abs, abs_div, abs_of_pos hatol] at this
    exact ⟨h1, h2.trans (hn _ _), h3.trans (hn _ _)⟩
  have hpair : ∀ k, ∃ s₁ s₂, (m - ε ≤ s₁ ∧ s₁ ≤ m + ε) ∧ (m - ε ≤ s₂ ∧ s₂ ≤ m + ε) ∧ 0 < |Y k () - Y (k + 1) ()| ∧
      s₂ * |Y (k + 1) () - Y (k + 2) ()| = (s₁ - 1) * |Y k () - Y (k + 1) ()| ∧
      |Y (k + 2) () - r| = (s₂ - 1) * |Y (k + 1) () - Y (k + 2) ()| := by
    intro k
    obtain ⟨⟨hk, _⟩, _, s₁, a1, a2, a3⟩ := hR k
    obtain ⟨_, _, s₂, b1, b2, b3⟩ := hR (k + 1)
    refine ⟨s₁, s₂, ⟨a1, a2⟩, ⟨b1, b2⟩, ?_, ?_, ?_⟩
    · rw [abs_pos]
      intro h0
      rw [h0, mul_zero] at a3
      exact hk (sub_eq_zero.1 a3.symm)
    · have e : s₂ * (Y (k + 1) () - Y (k + 2) ()) = (s₁ - 1) * (Y k () - Y (k + 1) ()) := by
        linear_combination b3 - a3
      have h2 := congrArg abs e
      rw [abs_mul, abs_mul, abs_of_pos (show 0 < s₂ by linarith), abs_of_pos (show 0 < s₁ - 1 by linarith)] at h2
      exact h2
    · have e : Y (k + 2) () - r = (s₂ - 1) * (Y (k + 1) () - Y (k + 2) ()) := by linear_combination -b3
      rw [e, abs_mul, abs_of_pos (show 0 < s₂ - 1 by linarith)]
  have hrate : ∀ k s₁ s₂ D₁ D₂ : ℝ, 0 < D₁ → 0 < s₂ → s₂ * D₂ = (s₁ - 1) * D₁ → D₂ / cfg.atol / (D₁ / cfg.atol) = (s₁ - 1) / s₂ := by
    intro k s₁ s₂ D₁ D₂ h1 h2 h3
    rw [div_div_div_cancel_right₀ hatol.ne', div_eq_div_iff h1.ne' h2.ne']
    linear_combination h3
  have hterm : ∀ k, terminate cfg (Y (k + 1)) (S (k + 2)) =
      (small cfg (S (k + 2)).diffsize || converged ((S (k + 2)).diffsize * ((S (k + 2)).diffsize / (S (k + 2)).diffsizePrev) /
        (1 - (S (k + 2)).diffsize / (S (k + 2)).diffsizePrev)) cfg.kappa, .successful) := by
    intro k
    obtain ⟨s₁, s₂, ⟨a1, a2⟩, ⟨b1, b2⟩, hD, h1, _⟩ := hpair k
    have hdv : diverged cfg ((S (k + 2)).diffsize / (S (k + 2)).diffsizePrev) = false := by
      rw [(hsizes k).2.1, (hsizes k).2.2, hrate 0 s₁ s₂ _ _ hD (by linarith) h1]
      unfold diverged
      rw [hfin]
      simp only [Bool.not_true, Bool.false_or, decide_eq_false_iff_not, not_lt, gt_iff_lt]
      rw [div_le_iff₀ (by linarith)]
      linarith
    have hf : (S (k + 2)).step = k + 2 := (hsizes k).1
    unfold terminate
    simp only [hcauchy, hok, hdv, hf]
    simp
  have hall : ∀ k, (terminate cfg (Y (k - 1)) (S k)).2 = .successful := by
    intro k
    rcases k with _ | _ | k
    · unfold terminate
      simp only [hcauchy, hok]
      have : (S 0).step = 0 := rfl
      simp [this]
    · unfold terminate
      simp only [hcauchy, hok]
      have : (S (0 + 1)).step = 1 := rfl
      simp [this]
    · exact congrArg Prod.snd (hterm k)
  refine ⟨hall, fun hres => ?_, fun af ms throw sol h hs => ?_⟩
  · have hd : Tendsto (fun k => |Y (k + 1) () - Y (k + 2) ()| / cfg.atol) atTop (𝓝 0) := by
      have h1 := (((tendsto_add_atTop_iff_nat 1).2 hlim).sub ((tendsto_add_atTop_iff_nat 2).2 hlim)).abs.div_const cfg.atol
      rwa [sub_self, abs_zero, zero_div] at h1
    obtain ⟨k, hk⟩ := (hd.eventually (gt_mem_nhds hres)).exists
    have hstop : (terminate cfg (Y (k + 1)) (S (k + 2))).1 = true := by
      rw [hterm, Bool.or_eq_true]
      left
      unfold small
      rw [decide_eq_true_eq, (hsizes k).2.1]
      exact hk
    refine ⟨k + 2, fun ms throw hms => ?_⟩
    obtain ⟨sol, h1, h2, _⟩ :=
      succeeds_by (solver cfg) fn aux0 y0 (init cfg y0) rfl (k + 2) (fun j _ => hall j) hstop ms throw hms
    exact ⟨sol, h1, h2⟩
  · obtain ⟨st0, hi, ht, _⟩ := C02_success_is_certificate _ _ _ _ _ _ _ _ h hs
    obtain ⟨_, _, st0', hi', hst, hp⟩ := C01_step_budget _ _ _ _ _ _ _ _ h
    cases hi; cases hi'
    rw [hst] at ht
    have ht' : terminate cfg (Y (sol.numSteps - 1)) (S sol.numSteps) = (true, .successful) := ht
    have hv : sol.value = Y sol.numSteps := congrArg Prod.fst hp
    rcases hn : sol.numSteps with _ | _ | k
    · rw [hn] at ht'
      have hstep : (S 0).step = 0 := rfl
      have := congrArg Prod.fst ht'
      unfold terminate at this
      simp [hcauchy, hok, hstep] at this
    · rw [hn] at ht'
      have hstep : (S (0 + 1)).step = 1 := rfl
      have := congrArg Prod.fst ht'
      unfold terminate at this
      simp [hcauchy, hok, hstep] at this
    · rw [hn] at ht' hv
      have ht2 : terminate cfg (Y (k + 1)) (S (k + 2)) = (true, .successful) := ht'
      rw [hterm] at ht2
      have ht3 := congrArg Prod.fst ht2
      simp only [Bool.or_eq_true] at ht3
      obtain ⟨s₁, s₂, ⟨a1, a2⟩, ⟨b1, b2⟩, hD, h1, h2⟩ := hpair k
      rw [(hsizes k).2.1, (hsizes k).2.2, hrate 0 s₁ s₂ _ _ hD (by linarith) h1] at ht3
      have hv' : |sol.value () - r| = (s₂ - 1) * |Y (k + 1) () - Y (k + 2) ()| := by rw [hv]; exact h2
      rw [hv']
      set D := |Y (k + 1) () - Y (k + 2) ()|
      have hD0 : 0 ≤ D := abs_nonneg _
      rcases ht3 with ht3 | ht3
      · right
        unfold small at ht3
        rw [decide_eq_true_eq, div_lt_iff₀ hatol] at ht3
        exact mul_le_mul (by linarith) ht3.le hD0 (by linarith)
      · left
        unfold converged at ht3
        rw [Bool.and_eq_true, decide_eq_true_eq, decide_eq_true_eq] at ht3
        obtain ⟨hf0, hf1⟩ := ht3
        have hk : 0 < cfg.kappa := lt_trans hf0 hf1
        have hs₂ : 0 < s₂ := by linarith
        have hq : 0 < s₂ - s₁ + 1 := by linarith
        have e : D / cfg.atol * ((s₁ - 1) / s₂) / (1 - (s₁ - 1) / s₂) = D * (s₁ - 1) / (cfg.atol * (s₂ - s₁ + 1)) := by
          have : 1 - (s₁ - 1) / s₂ = (s₂ - s₁ + 1) / s₂ := by field_simp; ring
          rw [this]
          field_simp
        rw [e, div_lt_iff₀ (by positivity)] at hf1
        have c1 : (m - 1 - ε) * ((s₂ - 1) * D) ≤ (s₁ - 1) * ((s₂ - 1) * D) :=
          mul_le_mul_of_nonneg_right (by linarith) (mul_nonneg (by linarith) hD0)
        have c2 : (s₂ - 1) * (D * (s₁ - 1)) ≤ (s₂ - 1) * (cfg.kappa * (cfg.atol * (s₂ - s₁ + 1))) :=
          mul_le_mul_of_nonneg_left hf1.le (by linarith)
        have c3 : (s₂ - 1) * (s₂ - s₁ + 1) ≤ (m - 1 + ε) * (1 + 2 * ε) :=
          mul_le_mul (by linarith) (by linarith) hq.le (by linarith)
        have c4 := mul_le_mul_of_nonneg_right c3 (mul_pos hk hatol).le
        calc (m - 1 - ε) * ((s₂ - 1) * D) ≤ (s₁ - 1) * ((s₂ - 1) * D) := c1
          _ = (s₂ - 1) * (D * (s₁ - 1)) := by ring
          _ ≤ _ := c2
          _ = (s₂ - 1) * (s₂ - s₁ + 1) * (cfg.kappa * cfg.atol) := by ring
          _ ≤ _ := c4

end

/-! ### The hypotheses are met -/

/-- The double root of `f(y) = y² e^y`. -/
example : (∀ x, HasDerivAt Real.exp (Real.exp x) x) ∧ ContinuousAt Real.exp 0 ∧ Real.exp 0 ≠ 0 ∧
    SolvesInvertible (newtonFor (fun (y : Unit → ℝ) (_ : Unit) => (y () - 0) ^ 2 * Real.exp (y ())) true).linearSolve :=
  ⟨Real.hasDerivAt_exp, Real.continuous_exp.continuousAt, (Real.exp_pos 0).ne', invertSolve_solves⟩

/-- Its solves, for the solver object with default termination and tolerances `1/100`. -/
example : ∃ δ : ℝ, 0 < δ ∧ ∀ y0 : Unit → ℝ, y0 () ≠ 0 → |y0 () - 0| ≤ δ →
    ∃ N, ∀ (ms : Option ℕ) (throw : Bool), (∀ n, ms = some n → N ≤ n) →
        ∃ sol, iterativeSolve (solver (newtonFor (fun (y : Unit → ℝ) (_ : Unit) => (y () - 0) ^ 2 * Real.exp (y ())) true)) (fun _ => true)
          (fun y => ((fun _ => (y () - 0) ^ 2 * Real.exp (y ())), ())) () y0 ms throw = some (.ok sol) ∧ sol.result = .successful := by
  obtain ⟨δ, hδ, h⟩ := C158_multiple_root (newtonFor (fun (y : Unit → ℝ) (_ : Unit) => (y () - 0) ^ 2 * Real.exp (y ())) true) rfl rfl rfl
    invertSolve_solves Real.exp Real.exp 0 2 le_rfl Real.hasDerivAt_exp Real.continuous_exp.continuousAt (Real.exp_pos 0).ne'
    (fun y => ((fun _ => (y () - 0) ^ 2 * Real.exp (y ())), ())) (fun _ => rfl) (fun _ => rfl) () (1 / 2) (by norm_num) (by norm_num)
  refine ⟨δ, hδ, fun y0 h1 h2 => ?_⟩
  exact ((h y0 h1 h2).2 rfl (by norm_num [newtonFor]) (by norm_num [newtonFor])).1
    (goodNorm_maxNorm (ι := Unit)) (goodNorm_maxNorm (ι := Unit))

/-- And for the solver object with the other stopping test, `atol = 1/100` and `rtol = 0`. -/
example : ∃ δ : ℝ, 0 < δ ∧ ∀ y0 : Unit → ℝ, y0 () ≠ 0 → |y0 () - 0| ≤ δ →
    ∃ sol, iterativeSolve (solver { newtonFor (fun (y : Unit → ℝ) (_ : Unit) => (y () - 0) ^ 2 * Real.exp (y ())) true with
        cauchy := false, rtol := 0 }) (fun _ => true) (fun y => ((fun _ => (y () - 0) ^ 2 * Real.exp (y ())), ())) () y0 none true =
          some (.ok sol) ∧ sol.result = .successful ∧ |sol.value () - 0| ≤ 1 / 50 := by
  obtain ⟨δ, hδ, h⟩ := C158_rate_estimate { newtonFor (fun (y : Unit → ℝ) (_ : Unit) => (y () - 0) ^ 2 * Real.exp (y ())) true with
      cauchy := false, rtol := 0 } rfl rfl rfl
    invertSolve_solves Real.exp Real.exp 0 2 le_rfl Real.hasDerivAt_exp Real.continuous_exp.continuousAt (Real.exp_pos 0).ne'
    (fun y => ((fun _ => (y () - 0) ^ 2 * Real.exp (y ())), ())) (fun _ => rfl) (fun _ => rfl) () rfl rfl (fun _ => rfl) rfl
    (by norm_num [newtonFor]) (1 / 10) (by norm_num) (by norm_num)
  refine ⟨δ, hδ, fun y0 h1 h2 => ?_⟩
  obtain ⟨_, h3, h4⟩ := h y0 h1 h2
  obtain ⟨N, hN⟩ := h3 (by norm_num [newtonFor])
  obtain ⟨sol, hsol, hs⟩ := hN none true (fun n hn => by cases hn)
  refine ⟨sol, hsol, hs, ?_⟩
  rcases h4 _ _ _ _ hsol hs with h5 | h5
  · simp only [newtonFor] at h5
    norm_num at h5 ⊢
    linarith
  · simp only [newtonFor] at h5
    norm_num at h5 ⊢
    linarith

end Verif.Props
