import Verif.Props.NewtonMultiple

/-!
**C158.** The chord method at multiple roots.

`Chord` keeps the derivative of the starting point.  At a root of multiplicity `m ≥ 2` its corrections shrink like the `m`-th power of
the distance from the root: it converges, from one side, but more slowly than every geometric sequence, and the `m`-th power of the
error of an answer, not the error, is of the order of the tolerance.
-/

namespace Verif.Props

open Verif Verif.Spec Verif.Driver Verif.NewtonChord Filter Topology

variable {A : Type}

/-- The correction of the chord method near a root of multiplicity `m`. -/
theorem multiple_root_chord (g g' : ℝ → ℝ) (r : ℝ) (m : ℕ) (hm : 2 ≤ m) (hg : ∀ x, HasDerivAt g (g' x) x) (hg' : ContinuousAt g' r)
    (hgr : g r ≠ 0) (ε : ℝ) (hε : 0 < ε) :
    ∃ δ, 0 < δ ∧ ∀ x x0, |x - r| ≤ δ → |x0 - r| ≤ δ → x0 ≠ r →
      m * (x0 - r) ^ (m - 1) * g x0 + (x0 - r) ^ m * g' x0 ≠ 0 ∧
      ∀ d, (m * (x0 - r) ^ (m - 1) * g x0 + (x0 - r) ^ m * g' x0) * d = (x - r) ^ m * g x →
        ∃ c : ℝ, |m * c - 1| ≤ ε ∧ d * (x0 - r) ^ (m - 1) = c * (x - r) ^ m := by
  have hm0 : (0:ℝ) < m := by exact_mod_cast (by omega : 0 < m)
  have hgc : ContinuousAt g r := (hg r).continuousAt
  have hD : ContinuousAt (fun x => m * g x + (x - r) * g' x) r :=
    (continuousAt_const.mul hgc).add ((continuousAt_id.sub continuousAt_const).mul hg')
  have hDr : m * g r + (r - r) * g' r ≠ 0 := by rw [sub_self, zero_mul, add_zero]; exact mul_ne_zero hm0.ne' hgr
  have hq : ContinuousAt (fun p : ℝ × ℝ => m * g p.1 / (m * g p.2 + (p.2 - r) * g' p.2)) (r, r) := by
    refine ContinuousAt.div ?_ ?_ hDr
    · exact continuousAt_const.mul (ContinuousAt.comp (f := Prod.fst) (x := (r, r)) hgc continuousAt_fst)
    · exact ContinuousAt.comp (f := Prod.snd) (x := (r, r)) hD continuousAt_snd
  have hev : ∀ᶠ p : ℝ × ℝ in 𝓝 (r, r), |m * g p.1 / (m * g p.2 + (p.2 - r) * g' p.2) - 1| < ε ∧
      m * g p.2 + (p.2 - r) * g' p.2 ≠ 0 := by
    refine Filter.Eventually.and ?_ ?_
    · have := hq.eventually (Metric.ball_mem_nhds _ hε)
      filter_upwards [this] with p hp
      change dist _ _ < ε at hp
      have e : m * g r / (m * g r + (r - r) * g' r) = 1 := by
        rw [sub_self, zero_mul, add_zero]; exact div_self (mul_ne_zero hm0.ne' hgr)
      rw [Real.dist_eq] at hp
      simp only [e] at hp
      exact hp
    · exact (ContinuousAt.comp (f := Prod.snd) (x := (r, r)) hD continuousAt_snd).eventually_ne hDr
  obtain ⟨δ, hδ, hball⟩ := Metric.eventually_nhds_iff.1 hev
  refine ⟨δ / 2, by positivity, fun x x0 hx hx0 hne => ?_⟩
  obtain ⟨h1, h2⟩ := hball (y := (x, x0)) (by
    rw [Prod.dist_eq, Real.dist_eq, Real.dist_eq]
    exact max_lt (by linarith) (by linarith))
  have he : x0 - r ≠ 0 := sub_ne_zero.2 hne
  have hpow : (x0 - r) ^ m = (x0 - r) ^ (m - 1) * (x0 - r) := by rw [← pow_succ, Nat.sub_add_cancel (by omega)]
  have hfac : m * (x0 - r) ^ (m - 1) * g x0 + (x0 - r) ^ m * g' x0 = (x0 - r) ^ (m - 1) * (m * g x0 + (x0 - r) * g' x0) := by
    rw [hpow]; ring
  rw [hfac]
  simp only at h1 h2
  set D := m * g x0 + (x0 - r) * g' x0
  refine ⟨mul_ne_zero (pow_ne_zero _ he) h2, fun d hd => ⟨g x / D, ?_, ?_⟩⟩
  · rw [← mul_div_assoc]; exact h1.le
  · rw [div_mul_eq_mul_div, eq_div_iff h2]
    linear_combination hd

/-- **C158.** `Chord` (in one unknown, without bounds) at a root `r` of multiplicity `m ≥ 2`, `f(y) = (y - r)^m g(y)` with `g(r) ≠ 0`.
For every `ε < 1/2` there is a neighbourhood such that, from every starting point `y0` in it except `r` itself,
* no linear solve fails, the iterates stay on the same side of the root and approach it; in every step the distance is multiplied by
  `1 - c ((y - r)/(y0 - r))^(m-1)`, where `c` is nearly `1/m`;
* they converge to the root, but the factors tend to one;
* with Cauchy termination (the default) the solve stops with success, given a sufficient budget;
* and the `m`-th power of the error of a successful answer is at most about `m |y0 - r|^(m-1)` tolerances. -/
theorem C158_chord (cfg : Cfg Unit Unit ℝ (Op Unit)) (hchord : cfg.isNewton = false) (hlo : cfg.lower = none) (hup : cfg.upper = none)
    (hls : SolvesInvertible cfg.linearSolve) (g g' : ℝ → ℝ) (r : ℝ) (m : ℕ) (hm : 2 ≤ m) (hg : ∀ x, HasDerivAt g (g' x) x)
    (hg' : ContinuousAt g' r) (hgr : g r ≠ 0) (fn : (Unit → ℝ) → (Unit → ℝ) × A)
    (hfn : ∀ y, (fn y).1 = fun _ => (y () - r) ^ m * g (y ())) (hjac : ∀ y, cfg.jac y = fderiv ℝ (fun y => (fn y).1) y) (aux0 : A)
    (ε : ℝ) (hε : 0 < ε) (hε1 : ε < 1 / 2) : ∃ δ, 0 < δ ∧ ∀ y0 : Unit → ℝ, y0 () ≠ r → |y0 () - r| ≤ δ →
    (let Y := iterateAt (solver cfg) fn aux0 y0 (init cfg y0)
     (∀ k, (stateAt (solver cfg) fn aux0 y0 (init cfg y0) k).result = .successful) ∧
     (∀ k, 0 < (Y k () - r) / (y0 () - r) ∧ (Y k () - r) / (y0 () - r) ≤ 1 ∧ ∃ c : ℝ, |m * c - 1| ≤ ε ∧
       Y (k + 1) () - r = (1 - c * ((Y k () - r) / (y0 () - r)) ^ (m - 1)) * (Y k () - r)) ∧
     Tendsto (fun k => Y k ()) atTop (𝓝 r) ∧ Tendsto (fun k => (Y (k + 1) () - r) / (Y k () - r)) atTop (𝓝 1)) ∧
    ∀ (_ : cfg.cauchy = true) (_ : 0 < cfg.atol) (_ : 0 ≤ cfg.rtol),
      (GoodNorm cfg.normY → GoodNorm cfg.normF → ∃ N, ∀ (ms : Option ℕ) (throw : Bool), (∀ n, ms = some n → N ≤ n) →
        ∃ sol, iterativeSolve (solver cfg) (fun _ => true) fn aux0 y0 ms throw = some (.ok sol) ∧ sol.result = .successful) ∧
      ((∀ x i, |x i| ≤ cfg.normY x) → (terminate cfg y0 (init cfg y0)).1 = false → ∀ af ms throw sol,
        iterativeSolve (solver cfg) af fn aux0 y0 ms throw = some (.ok sol) → sol.result = .successful →
        ∃ y, |y - r| ≤ δ ∧ (1 - ε) * |sol.value () - r| ^ m ≤ m * |y0 () - r| ^ (m - 1) * (cfg.atol + cfg.rtol * |y|)) := by
  obtain ⟨δ, hδ, hstep⟩ := multiple_root_chord g g' r m hm hg hg' hgr ε hε
  refine ⟨δ, hδ, fun y0 hne0 hclose0 => ?_⟩
  set Y := iterateAt (solver cfg) fn aux0 y0 (init cfg y0) with hYd
  have hm' : (2:ℝ) ≤ m := by exact_mod_cast hm
  have he0 : y0 () - r ≠ 0 := sub_ne_zero.2 hne0
  have hjp : ∀ k, jacPoint cfg fn aux0 y0 k = y0 := fun k => by simp [jacPoint, hchord]
  have hder : ∀ x, HasDerivAt (fun x => (x - r) ^ m * g x) (m * (x - r) ^ (m - 1) * g x + (x - r) ^ m * g' x) x := by
    intro x
    have h1 := (((hasDerivAt_id x).sub_const r).pow m).mul (hg x)
    refine h1.congr_deriv ?_
    simp
  have hjac' : cfg.jac y0 =
      (m * (y0 () - r) ^ (m - 1) * g (y0 ()) + (y0 () - r) ^ m * g' (y0 ())) • ContinuousLinearMap.id ℝ (Unit → ℝ) := by
    rw [hjac y0, show (fun y => (fn y).1) = fun (y : Unit → ℝ) (_ : Unit) => (y () - r) ^ m * g (y ()) from funext hfn]
    exact (scalar_derivative (fun x => (x - r) ^ m * g x) _ hder y0).fderiv
  have hinv : (cfg.jac y0).IsInvertible := by
    rw [hjac']
    refine ⟨ContinuousLinearEquiv.smulLeft (Units.mk0 _ (hstep _ _ hclose0 hclose0 hne0).1), ?_⟩
    ext v i
    rfl
  have hok : ∀ k, (stateAt (solver cfg) fn aux0 y0 (init cfg y0) k).result = .successful := by
    intro k
    cases k with
    | zero => rfl
    | succ k =>
      have h1 : (stateAt (solver cfg) fn aux0 y0 (init cfg y0) (k + 1)).result =
          (linSol cfg (Y k) (fn (Y k)).1 (stateAt (solver cfg) fn aux0 y0 (init cfg y0) k)).2 := rfl
      rw [h1, newton_linSol, hjp]
      exact (hls _ hinv _).2
  set p := fun k => (Y k () - r) / (y0 () - r) with hp
  have hYp : ∀ k, Y k () - r = p k * (y0 () - r) := fun k => by rw [hp]; simp only; rw [div_mul_cancel₀ _ he0]
  have hcb : ∀ c : ℝ, |m * c - 1| ≤ ε → 0 < c ∧ c ≤ 3 / 4 ∧ 1 - ε ≤ m * c := by
    intro c hc
    obtain ⟨h1, h2⟩ := abs_le.1 hc
    refine ⟨?_, ?_, by linarith⟩
    · by_contra h
      have := mul_nonneg_of_nonpos_of_nonpos (show -(m:ℝ) ≤ 0 by linarith) (not_lt.1 h)
      linarith
    · by_contra h
      have := mul_le_mul hm' (not_le.1 h).le (by norm_num) (by linarith)
      linarith
  -- one step
  have one : ∀ k, |Y k () - r| ≤ δ → ∃ c : ℝ, |m * c - 1| ≤ ε ∧ (Y k () - Y (k + 1) ()) * (y0 () - r) ^ (m - 1) = c * (Y k () - r) ^ m := by
    intro k hk
    obtain ⟨h1, _⟩ := hls _ hinv (fn (Y k)).1
    have hit := congrFun (newton_iterate cfg fn aux0 y0 k) ()
    rw [hjp, hlo, hup] at hit
    have hit' : Y (k + 1) () = Y k () - (cfg.linearSolve (cfg.jac y0) (fn (Y k)).1).1 () := hit
    generalize cfg.linearSolve (cfg.jac y0) (fn (Y k)).1 = S at h1 hit'
    have h3 := congrFun h1 ()
    rw [hjac', hfn] at h3
    obtain ⟨c, hc1, hc2⟩ := (hstep _ _ hk hclose0 hne0).2 _ h3
    exact ⟨c, hc1, by rw [hit', sub_sub_cancel]; exact hc2⟩
  have rel : ∀ k, |Y k () - r| ≤ δ → ∃ c : ℝ, |m * c - 1| ≤ ε ∧ p (k + 1) = (1 - c * p k ^ (m - 1)) * p k ∧
      (Y k () - Y (k + 1) ()) * (y0 () - r) ^ (m - 1) = c * (Y k () - r) ^ m := by
    intro k hk
    obtain ⟨c, hc1, hc2⟩ := one k hk
    refine ⟨c, hc1, ?_, hc2⟩
    have e0 : (y0 () - r) ^ m = (y0 () - r) ^ (m - 1) * (y0 () - r) := by rw [← pow_succ, Nat.sub_add_cancel (by omega)]
    have ep : p k ^ m = p k ^ (m - 1) * p k := by rw [← pow_succ, Nat.sub_add_cancel (by omega)]
    have e1 : Y k () - Y (k + 1) () = (p k - p (k + 1)) * (y0 () - r) := by linear_combination hYp k - hYp (k + 1)
    rw [e1, hYp k, mul_pow, e0, ep] at hc2
    have hne : (y0 () - r) ^ (m - 1) * (y0 () - r) ≠ 0 := mul_ne_zero (pow_ne_zero _ he0) he0
    have := mul_right_cancel₀ (a := p k - p (k + 1)) (c := c * (p k ^ (m - 1) * p k)) hne (by linear_combination hc2)
    linear_combination -this
  have all : ∀ k, 0 < p k ∧ p k ≤ 1 := by
    intro k
    induction k with
    | zero =>
      have : p 0 = 1 := div_self he0
      rw [this]; exact ⟨one_pos, le_rfl⟩
    | succ k ih =>
      have hk : |Y k () - r| ≤ δ := by
        rw [hYp, abs_mul, abs_of_pos ih.1]
        exact (mul_le_of_le_one_left (abs_nonneg _) ih.2).trans hclose0
      obtain ⟨c, hc, h1, _⟩ := rel k hk
      obtain ⟨c0, c1, _⟩ := hcb c hc
      have hq0 : 0 ≤ p k ^ (m - 1) := pow_nonneg ih.1.le _
      have hq1 : p k ^ (m - 1) ≤ 1 := pow_le_one₀ ih.1.le ih.2
      have h2 : c * p k ^ (m - 1) ≤ 3 / 4 := by
        have := mul_le_mul c1 hq1 hq0 (by norm_num)
        linarith
      have h3 : 0 ≤ c * p k ^ (m - 1) := mul_nonneg c0.le hq0
      rw [h1]
      exact ⟨mul_pos (by linarith) ih.1, (mul_le_of_le_one_left ih.1.le (by linarith)).trans ih.2⟩
  have hclose : ∀ k, |Y k () - r| ≤ δ := by
    intro k
    rw [hYp, abs_mul, abs_of_pos (all k).1]
    exact (mul_le_of_le_one_left (abs_nonneg _) (all k).2).trans hclose0
  have hdec : ∀ k, p (k + 1) ≤ p k := by
    intro k
    obtain ⟨c, hc, h1, _⟩ := rel k (hclose k)
    rw [h1]
    refine mul_le_of_le_one_left (all k).1.le ?_
    have := mul_nonneg (hcb c hc).1.le (pow_nonneg (all k).1.le (m - 1))
    linarith
  have hp0 : Tendsto p atTop (𝓝 0) := by
    have hanti : Antitone p := antitone_nat_of_succ_le hdec
    have hbdd : BddBelow (Set.range p) := ⟨0, by rintro _ ⟨k, rfl⟩; exact (all k).1.le⟩
    have hL := tendsto_atTop_ciInf hanti hbdd
    set L := ⨅ k, p k
    have hLk : ∀ k, L ≤ p k := fun k => ciInf_le hbdd k
    rcases (le_ciInf fun k => (all k).1.le : (0:ℝ) ≤ L).eq_or_lt with h0 | h0
    · rw [h0]; exact hL
    · exfalso
      have hL1 : L ^ (m - 1) ≤ 1 := pow_le_one₀ h0.le ((hLk 0).trans (all 0).2)
      have hLp : 0 < L ^ (m - 1) := pow_pos h0 _
      have hm0 : (0:ℝ) < m := by linarith
      set q := 1 - 1 / (2 * m) * L ^ (m - 1) with hqd
      have hi : 0 < 1 / (2 * (m:ℝ)) := by positivity
      have hi1 : 1 / (2 * (m:ℝ)) ≤ 1 := by rw [div_le_one (by positivity)]; linarith
      have hq1 : q < 1 := by have := mul_pos hi hLp; linarith
      have hq0 : 0 ≤ q := by
        have := mul_le_mul hi1 hL1 hLp.le zero_le_one
        linarith
      have hgeo : ∀ k, p k ≤ q ^ k := by
        intro k
        induction k with
        | zero => rw [pow_zero]; exact (all 0).2
        | succ k ih =>
          obtain ⟨c, hc, h1, _⟩ := rel k (hclose k)
          obtain ⟨c0, _, c2⟩ := hcb c hc
          have hci : 1 / (2 * (m:ℝ)) ≤ c := by rw [div_le_iff₀ (by positivity)]; linarith
          have h2 := mul_le_mul hci (pow_le_pow_left₀ h0.le (hLk k) (m - 1)) hLp.le c0.le
          rw [h1, pow_succ, mul_comm (q ^ k)]
          exact mul_le_mul (by linarith) ih (all k).1.le hq0
      have := le_of_tendsto_of_tendsto' tendsto_const_nhds (tendsto_pow_atTop_nhds_zero_of_lt_one hq0 hq1)
        (fun k => (hLk k).trans (hgeo k))
      linarith
  have hlim : Tendsto (fun k => Y k ()) atTop (𝓝 r) := by
    have h1 := (hp0.mul_const (y0 () - r)).add_const r
    rw [zero_mul, zero_add] at h1
    refine h1.congr fun k => ?_
    linear_combination -(hYp k)
  have hnek : ∀ k, Y k () - r ≠ 0 := fun k => by rw [hYp]; exact mul_ne_zero (all k).1.ne' he0
  have hfac : ∀ k, ∃ c : ℝ, |m * c - 1| ≤ ε ∧ Y (k + 1) () - r = (1 - c * p k ^ (m - 1)) * (Y k () - r) := by
    intro k
    obtain ⟨c, hc, h1, _⟩ := rel k (hclose k)
    exact ⟨c, hc, by rw [hYp (k + 1), h1, hYp k]; ring⟩
  refine ⟨⟨hok, fun k => ⟨(all k).1, (all k).2, hfac k⟩, hlim, ?_⟩, fun hc ha hr => ⟨fun hNY hNF => ?_, fun hN hinit af ms throw sol h hs => ?_⟩⟩
  · have hpm : Tendsto (fun k => 1 - p k ^ (m - 1)) atTop (𝓝 1) := by
      have h1 := (hp0.pow (m - 1)).const_sub 1
      rwa [zero_pow (by omega), sub_zero] at h1
    refine tendsto_of_tendsto_of_tendsto_of_le_of_le hpm tendsto_const_nhds (fun k => ?_) (fun k => ?_) <;>
    · obtain ⟨c, hc, h1⟩ := hfac k
      obtain ⟨c0, c1, _⟩ := hcb c hc
      have hq0 : 0 ≤ p k ^ (m - 1) := pow_nonneg (all k).1.le _
      simp only
      rw [h1, mul_div_assoc, div_self (hnek k), mul_one]
      have := mul_nonneg c0.le hq0
      have := mul_le_mul_of_nonneg_right (show c ≤ 1 by linarith) hq0
      linarith
  · refine newton_stops cfg fn aux0 y0 (fun _ => r) ?_ ?_ (tendsto_pi_nhds.2 fun _ => hlim) hok hc hNY hNF ha hr
    · have hgc : Continuous g := continuous_iff_continuousAt.2 fun x => (hg x).continuousAt
      rw [show (fun y => (fn y).1) = fun (y : Unit → ℝ) (_ : Unit) => (y () - r) ^ m * g (y ()) from funext hfn]
      exact continuous_pi fun _ => (((continuous_apply ()).sub continuous_const).pow m).mul (hgc.comp (continuous_apply ()))
    · rw [hfn]
      funext _
      simp only [sub_self, Pi.zero_apply]
      rw [zero_pow (by omega), zero_mul]
  · obtain ⟨y, hy, _, hn, _⟩ := C57_cauchy_success_small_residual_partial cfg fn aux0 y0 hc hinit af ms throw sol h hs
    obtain ⟨_, _, st0, hi, _, hpp⟩ := C01_step_budget _ _ _ _ _ _ _ _ h
    cases hi
    have hv : sol.value = Y sol.numSteps := congrArg Prod.fst hpp
    have hn0 : sol.numSteps ≠ 0 := by
      intro h0
      obtain ⟨st0, hi, ht, _⟩ := C02_success_is_certificate _ _ _ _ _ _ _ _ h hs
      obtain ⟨_, _, st0', hi', hst, _⟩ := C01_step_budget _ _ _ _ _ _ _ _ h
      cases hi; cases hi'
      rw [hst, h0] at ht
      have : (terminate cfg y0 (init cfg y0)).1 = true := congrArg Prod.fst ht
      rw [hinit] at this; cases this
    obtain ⟨k, hk⟩ : ∃ k, sol.numSteps = k + 1 := ⟨sol.numSteps - 1, by omega⟩
    rw [hk, Nat.add_sub_cancel] at hy
    have hy' : y = Y k := hy
    have hv' : sol.value = Y (k + 1) := by rw [hv, hk]
    have hpos : 0 < cfg.atol + cfg.rtol * |y ()| := add_pos_of_pos_of_nonneg ha (mul_nonneg hr (abs_nonneg _))
    have h1 := (hN _ ()).trans_lt hn
    rw [abs_div, abs_abs, abs_of_pos hpos, div_lt_one hpos] at h1
    refine ⟨y (), by rw [hy']; exact hclose k, ?_⟩
    obtain ⟨c, hc, _, h2⟩ := rel k (hclose k)
    obtain ⟨c0, _, c2⟩ := hcb c hc
    have h3 := congrArg abs h2
    rw [abs_mul, abs_mul, abs_pow, abs_pow, abs_of_pos c0] at h3
    rw [hy', hv'] at h1
    rw [hv', hy']
    have hle : |Y (k + 1) () - r| ≤ |Y k () - r| := by
      rw [hYp, hYp k, abs_mul, abs_mul, abs_of_pos (all k).1, abs_of_pos (all (k + 1)).1]
      exact mul_le_mul_of_nonneg_right (hdec k) (abs_nonneg _)
    have hE : 0 ≤ |Y k () - r| ^ m := pow_nonneg (abs_nonneg _) _
    calc (1 - ε) * |Y (k + 1) () - r| ^ m ≤ (m * c) * |Y k () - r| ^ m :=
          mul_le_mul c2 (pow_le_pow_left₀ (abs_nonneg _) hle m) (pow_nonneg (abs_nonneg _) _) (by have := mul_pos (show (0:ℝ) < m by linarith) c0; linarith)
      _ = m * (|Y k () - Y (k + 1) ()| * |y0 () - r| ^ (m - 1)) := by rw [h3]; ring
      _ = m * |y0 () - r| ^ (m - 1) * |Y k () - Y (k + 1) ()| := by ring
      _ ≤ _ := mul_le_mul_of_nonneg_left h1.le (mul_nonneg (by linarith) (pow_nonneg (abs_nonneg _) _))

/-! ### The hypotheses are met -/

/-- The double root of `f(y) = y² e^y`, for the solver object with default termination and tolerances `1/100`. -/
example : ∃ δ : ℝ, 0 < δ ∧ ∀ y0 : Unit → ℝ, y0 () ≠ 0 → |y0 () - 0| ≤ δ →
    ∃ N, ∀ (ms : Option ℕ) (throw : Bool), (∀ n, ms = some n → N ≤ n) →
        ∃ sol, iterativeSolve (solver (newtonFor (fun (y : Unit → ℝ) (_ : Unit) => (y () - 0) ^ 2 * Real.exp (y ())) false)) (fun _ => true)
          (fun y => ((fun _ => (y () - 0) ^ 2 * Real.exp (y ())), ())) () y0 ms throw = some (.ok sol) ∧ sol.result = .successful := by
  obtain ⟨δ, hδ, h⟩ := C158_chord (newtonFor (fun (y : Unit → ℝ) (_ : Unit) => (y () - 0) ^ 2 * Real.exp (y ())) false) rfl rfl rfl
    invertSolve_solves Real.exp Real.exp 0 2 le_rfl Real.hasDerivAt_exp Real.continuous_exp.continuousAt (Real.exp_pos 0).ne'
    (fun y => ((fun _ => (y () - 0) ^ 2 * Real.exp (y ())), ())) (fun _ => rfl) (fun _ => rfl) () (1 / 4) (by norm_num) (by norm_num)
  refine ⟨δ, hδ, fun y0 h1 h2 => ?_⟩
  exact ((h y0 h1 h2).2 rfl (by norm_num [newtonFor]) (by norm_num [newtonFor])).1
    (goodNorm_maxNorm (ι := Unit)) (goodNorm_maxNorm (ι := Unit))

end Verif.Props
