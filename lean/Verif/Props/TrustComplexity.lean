import Verif.Props.TrustMinimise

/-!
Property C111: how many steps the trust-region solvers take, at most, before they see a small gradient.
-/

namespace Verif.Props

open Verif Verif.Spec Verif.Driver Verif.SearchLoop Filter Topology

variable {ι κ A : Type} [Fintype ι] [Fintype κ]

/-- Counting accepted and rejected trials: every accepted one lowers the objective by a fixed amount, and pays for `r` rejected
ones, where `low_constant ^ r * high_constant ≤ 1`; beyond these there are fewer than `q` rejected ones, where
`low_constant ^ q` times the first radius is below the smallest radius. -/
theorem trust_run_count {X : Type} {f : X → ℝ} {trial : X → ℝ → X} {pred : X → ℝ → ℝ} {c l h : ℝ} {y : Nat → X} {t : Nat → ℝ}
    (R : TrustRun f trial pred c l h y t) (hc : 0 < c) (hl0 : 0 < l) (hl1 : l < 1) (hh : 1 ≤ h) (tmin : ℝ)
    (hrad : ∀ k, tmin ≤ t k) (m : ℝ) (hm : ∀ x, m ≤ f x) (G : X → ℝ) (γ : ℝ) (hγ : 0 < γ)
    (hpred : ∀ x s, tmin ≤ s → pred x s ≤ -(γ * G x))
    (r q : Nat) (hr : l ^ r * h ≤ 1) (hq : l ^ q * t 0 < tmin)
    (e : ℝ) (he : 0 < e) (N : Nat) (hN : ∀ k, k < N → e < G (y k)) :
    (N : ℝ) ≤ (1 + r) * ((f (y 0) - m) / (c * γ * e)) + q := by
  have key : ∀ k, k ≤ N → ∃ a b : Nat, a + b = k ∧ a * (c * γ * e) ≤ f (y 0) - f (y k) ∧ t k * l ^ (r * a) ≤ t 0 * l ^ b := by
    intro k
    induction k with
    | zero => intro _; exact ⟨0, 0, rfl, by simp, by simp⟩
    | succ k ih =>
      intro hk
      obtain ⟨a, b, hab, h1, h2⟩ := ih (by omega)
      have ht := R.pos k
      rcases R.rule k with ⟨a1, a2, a3⟩ | ⟨_, b2, b3⟩
      · refine ⟨a + 1, b, by omega, ?_, ?_⟩
        · have hp := mul_le_mul_of_nonneg_left (hpred (y k) (t k) (hrad k)) hc.le
          have hg := mul_lt_mul_of_pos_left (hN k (by omega)) (mul_pos hc hγ)
          rw [a2]; push_cast
          nlinarith
        · have h3 : t (k + 1) ≤ h * t k := by
            rcases a3 with a3 | a3
            · exact a3.le
            · rw [a3]; nlinarith
          have h4 : (0:ℝ) < l ^ (r * a) := pow_pos hl0 _
          have h5 : (0:ℝ) < l ^ r := pow_pos hl0 _
          calc t (k + 1) * l ^ (r * (a + 1)) = t (k + 1) * (l ^ r * l ^ (r * a)) := by rw [mul_add, mul_one, pow_add]; ring
            _ ≤ h * t k * (l ^ r * l ^ (r * a)) := mul_le_mul_of_nonneg_right h3 (by positivity)
            _ = (l ^ r * h) * (t k * l ^ (r * a)) := by ring
            _ ≤ 1 * (t k * l ^ (r * a)) := mul_le_mul_of_nonneg_right hr (by positivity)
            _ ≤ t 0 * l ^ b := by linarith
      · refine ⟨a, b + 1, by omega, by rw [b2]; exact h1, ?_⟩
        rw [b3, pow_succ]
        have := mul_le_mul_of_nonneg_left h2 hl0.le
        calc l * t k * l ^ (r * a) = l * (t k * l ^ (r * a)) := by ring
          _ ≤ l * (t 0 * l ^ b) := this
          _ = t 0 * (l ^ b * l) := by ring
  obtain ⟨a, b, hab, h1, h2⟩ := key N le_rfl
  have hb : b ≤ r * a + q := by
    by_contra hlt
    push Not at hlt
    have h3 : l ^ b ≤ l ^ (r * a + q) := pow_le_pow_of_le_one hl0.le hl1.le hlt.le
    have h4 : (0:ℝ) < l ^ (r * a) := pow_pos hl0 _
    have h5 := mul_le_mul_of_nonneg_right (hrad N) h4.le
    have h6 := mul_lt_mul_of_pos_right hq h4
    have h7 := mul_le_mul_of_nonneg_left h3 (R.pos 0).le
    rw [pow_add] at h7
    nlinarith
  have ha : (a : ℝ) ≤ (f (y 0) - m) / (c * γ * e) := by
    rw [le_div_iff₀ (by positivity)]
    linarith [hm (y N)]
  have hbr : (b : ℝ) ≤ r * a + q := by exact_mod_cast hb
  have hNr : (N : ℝ) = a + b := by rw [← hab]; push_cast; ring
  rw [hNr]
  have : (r : ℝ) * a ≤ r * ((f (y 0) - m) / (c * γ * e)) := mul_le_mul_of_nonneg_left ha (Nat.cast_nonneg r)
  linarith

theorem trust_run_steps {X : Type} {f : X → ℝ} {trial : X → ℝ → X} {pred : X → ℝ → ℝ} {c l h : ℝ} {y : Nat → X} {t : Nat → ℝ}
    (R : TrustRun f trial pred c l h y t) (hc : 0 < c) (hl0 : 0 < l) (hl1 : l < 1) (hh : 1 ≤ h) (τ : ℝ)
    (hacc : ∀ k s, 0 < s → s ≤ τ → f (trial (y k) s) - f (y k) ≤ c * pred (y k) s)
    (m : ℝ) (hm : ∀ x, m ≤ f x) (G : X → ℝ) (γ : ℝ) (hγ : 0 < γ)
    (hpred : ∀ x s, min (t 0) (l * τ) ≤ s → pred x s ≤ -(γ * G x))
    (r q : Nat) (hr : l ^ r * h ≤ 1) (hq : l ^ q * t 0 < min (t 0) (l * τ))
    (e : ℝ) (he : 0 < e) (N : Nat) (hN : ∀ k, k < N → e < G (y k)) :
    (N : ℝ) ≤ (1 + r) * ((f (y 0) - m) / (c * γ * e)) + q :=
  trust_run_count R hc hl0 hl1 hh _ (R.radius hl0 hh τ hacc) m hm G γ hγ hpred r q hr hq e he N hN

/-- Gradient steps of length at most `2 (1 - low_cutoff) / L` pass the test of `LinearTrustRegion`. -/
theorem gd_trial_taken (c : TrustRegion.Cfg ℝ) (grad : (ι → ℝ) → (ι → ℝ)) (fn : (ι → ℝ) → ℝ × A) (L : ℝ)
    (hL : LipschitzGradient (fun y => (fn y).1) grad L) (hL0 : 0 < L) (y : ι → ℝ) (s : ℝ) (h0 : 0 < s)
    (h1 : s ≤ 2 * (1 - c.lowCutoff) / L) :
    (fn fun i => y i - s * grad y i).1 - (fn y).1 ≤ c.lowCutoff * -(s * ∑ i, grad y i ^ 2) := by
  have hb := hL.bound y fun i => y i - s * grad y i
  have e1 : treeDot (grad y) (fun i => (y i - s * grad y i) - y i) = -(s * ∑ i, grad y i ^ 2) := by
    unfold treeDot
    rw [Finset.mul_sum, ← Finset.sum_neg_distrib]
    exact Finset.sum_congr rfl fun i _ => by ring
  have e2 : sumSquares (fun i => (y i - s * grad y i) - y i) = s ^ 2 * ∑ i, grad y i ^ 2 := by
    unfold sumSquares
    rw [Finset.mul_sum]
    exact Finset.sum_congr rfl fun i _ => by ring
  rw [e1, e2] at hb
  have hG : 0 ≤ ∑ i, grad y i ^ 2 := Finset.sum_nonneg fun i _ => sq_nonneg _
  set G := ∑ i, grad y i ^ 2
  have h2 : L * s ≤ 2 * (1 - c.lowCutoff) := by
    rw [le_div_iff₀ hL0] at h1
    linarith
  have h3 : L / 2 * (s ^ 2 * G) ≤ (1 - c.lowCutoff) * (s * G) := by
    have := mul_le_mul_of_nonneg_right h2 (mul_nonneg h0.le hG)
    nlinarith
  nlinarith

/-- Levenberg-Marquardt steps from radius at most `1 / (L + 1)` pass the test of the default search. -/
theorem lm_trial_taken [DecidableEq ι] (eps fmax : ℝ) (he : 0 ≤ eps) (hf : 0 < fmax) (ls : LinSolve ι (κ ⊕ ι))
    (hls : SolvesLeastSquares ls) (jac : (ι → ℝ) → Matrix κ ι ℝ) (fn : (ι → ℝ) → (κ → ℝ) × A) (L B : ℝ)
    (hS : SmoothResiduals (fun y => (fn y).1) jac L B) (hfL : L ≤ fmax) (y : ι → ℝ) (s : ℝ) (hs0 : 0 < s)
    (hs : s ≤ 1 / (L + 1)) :
    (∑ m, (fn fun i => y i + ((dampedNewtonDescent (κ := κ) eps fmax ls).step s (.residualJac (fn y).1 (jac y))).1 i).1 m ^ 2) / 2 -
      (∑ m, (fn y).1 m ^ 2) / 2 ≤
      1 / 100 * linearisedChange (jac y) (fn y).1
        ((dampedNewtonDescent (κ := κ) eps fmax ls).step s (.residualJac (fn y).1 (jac y))).1 := by
  obtain ⟨hL0, hB0⟩ := hS.nonneg
  obtain ⟨hl, hN, hQ, hgp, hlin, _⟩ := damped_facts eps fmax s he hf ls hls (jac y) (fn y).1
  have hlam : L ≤ lmParam eps fmax s := by
    refine lmParam_ge eps fmax s L hs0 ?_ hfL
    calc L * s ≤ L * (1 / (L + 1)) := mul_le_mul_of_nonneg_left hs hL0
      _ ≤ 1 := by rw [mul_one_div, div_le_one (by linarith)]; linarith
  set p := ((dampedNewtonDescent (κ := κ) eps fmax ls).step s (.residualJac (fn y).1 (jac y))).1
  have hb := hS.gradient.bound y fun i => y i + p i
  simp only [add_sub_cancel_left] at hb
  have e1 : treeDot (fun i => ∑ m, jac y m i * (fn y).1 m) (fun i => p i) =
    ∑ i, (∑ m, jac y m i * (fn y).1 m) * p i := rfl
  have e2 : sumSquares (fun i => p i) = ∑ i, p i ^ 2 := by
    unfold sumSquares; exact Finset.sum_congr rfl fun _ _ => by ring
  rw [e1, e2] at hb
  rw [show ∑ i, (∑ m, jac y m i * (fn y).1 m) * p i = _ from hgp] at hb
  rw [show linearisedChange (jac y) (fn y).1 p = _ from hlin]
  have h1 := mul_le_mul_of_nonneg_right hlam hQ
  have h2 := mul_nonneg hl.le hQ
  nlinarith

/-- **C111**, gradient descent with `LinearTrustRegion`: an objective bounded below by `m` whose gradient is `L`-Lipschitz.  As
long as all gradients seen are larger than `√e`, the number of steps is at most the right-hand side: it grows like `1/e`. -/
theorem C111_gradient_descent (c : TrustRegion.Cfg ℝ) (hc0 : 0 < c.lowCutoff) (hc1 : c.lowCutoff < 1) (hl0 : 0 < c.lowConstant)
    (hl1 : c.lowConstant < 1) (hh : 1 ≤ c.highConstant) (cfg : GradientDescent.Cfg ι ℝ (ι → ℝ))
    (hs : cfg.search = TrustRegion.linear c) (hd : cfg.descent = steepestDescent none) (aux0 : A) (fn : (ι → ℝ) → ℝ × A)
    (y0 : ι → ℝ) (L m : ℝ) (hL : LipschitzGradient (fun y => (fn y).1) cfg.grad L) (hL0 : 0 < L) (hlow : ∀ y, m ≤ (fn y).1)
    (st0 : GradientDescent.State ι A ℝ (ι → ℝ)) (hi : (GradientDescent.solver cfg aux0).init fn y0 = .ok st0)
    (r q : Nat) (hr : c.lowConstant ^ r * c.highConstant ≤ 1)
    (hq : c.lowConstant ^ q < min 1 (c.lowConstant * (2 * (1 - c.lowCutoff) / L))) (e : ℝ) (he : 0 < e) (N : Nat)
    (hN : ∀ k, 1 ≤ k → k ≤ N → e < ∑ i, cfg.grad (iterateAt (GradientDescent.solver cfg aux0) fn aux0 y0 st0 k) i ^ 2) :
    (N : ℝ) ≤ (1 + r) * (((fn y0).1 - m) /
      (c.lowCutoff * min 1 (c.lowConstant * (2 * (1 - c.lowCutoff) / L)) * e)) + q := by
  obtain ⟨R, hY1, hr1, hy⟩ := gd_trust_run c hl0 (by linarith) cfg hs hd aux0 fn y0 st0 hi
  set Y := iterateAt (GradientDescent.solver cfg aux0) fn aux0 y0 st0
  set St := stateAt (GradientDescent.solver cfg aux0) fn aux0 y0 st0
  set τ := 2 * (1 - c.lowCutoff) / L with hτ
  have hτ0 : 0 < τ := by have := sub_pos.2 hc1; positivity
  have h := trust_run_steps R hc0 hl0 hl1 hh τ (fun k s h0 h1 => gd_trial_taken c cfg.grad fn L hL hL0 (Y (k + 1)) s h0 h1)
    m hlow (fun y => ∑ i, cfg.grad y i ^ 2) (min 1 (c.lowConstant * τ)) (lt_min one_pos (mul_pos hl0 hτ0)) (by
      intro y s hs'
      simp only [zero_add] at hs'
      rw [hr1] at hs'
      have hG : 0 ≤ ∑ i, cfg.grad y i ^ 2 := Finset.sum_nonneg fun i _ => sq_nonneg _
      exact neg_le_neg (mul_le_mul_of_nonneg_right hs' hG)) r q hr (by
      simp only [zero_add]
      rw [hr1, mul_one]; exact hq) e he N (fun k hk => hN (k + 1) (by omega) (by omega))
  simp only [zero_add] at h
  rw [hY1] at h
  exact h

/-- **C111**, `LevenbergMarquardt` with its default search: residuals with Jacobian bounded by `√B` and `L`-Lipschitz gradient
`Jᵀr`.  As long as `|Jᵀr|² > e` at all iterates seen, the number of steps is at most the right-hand side. -/
theorem C111_levenberg_marquardt [DecidableEq ι] (eps fmax rtol atol : ℝ) (he : 0 ≤ eps) (hf : 0 < fmax)
    (nY : (ι → ℝ) → ℝ) (nF : (κ → ℝ) → ℝ) (ls : LinSolve ι (κ ⊕ ι)) (hls : SolvesLeastSquares ls)
    (jac : (ι → ℝ) → Matrix κ ι ℝ) (aux0 : A) (fn : (ι → ℝ) → (κ → ℝ) × A) (y0 : ι → ℝ) (L B : ℝ)
    (hS : SmoothResiduals (fun y => (fn y).1) jac L B) (hfL : L ≤ fmax) (heps : eps * (4 * (L + 1)) < 1) :
    let S := GaussNewton.solver (GaussNewton.levenbergMarquardt eps fmax rtol atol nY nF ls jac) aux0
    ∃ st0, S.init fn y0 = .ok st0 ∧ ∀ (q : Nat) (e : ℝ) (N : Nat), L + 1 < 4 ^ q → 0 < e →
      (∀ k, 1 ≤ k → k ≤ N →
        e < ∑ i, (∑ m, jac (iterateAt S fn aux0 y0 st0 k) m i * (fn (iterateAt S fn aux0 y0 st0 k)).1 m) ^ 2) →
      (N : ℝ) ≤ 400 * (B + 4 * (L + 1)) * (∑ m, (fn y0).1 m ^ 2) / e + (q + 1) := by
  intro S
  obtain ⟨st0, hi⟩ : ∃ st0, S.init fn y0 = .ok st0 := ⟨_, rfl⟩
  refine ⟨st0, hi, ?_⟩
  intro q e N hq he0 hN
  set c : TrustRegion.Cfg ℝ := TrustRegion.defaults with hc
  have c1 : c.lowCutoff = 1 / 100 := by norm_num [hc, TrustRegion.defaults]
  have c2 : c.lowConstant = 1 / 4 := by norm_num [hc, TrustRegion.defaults]
  have c3 : c.highConstant = 7 / 2 := by norm_num [hc, TrustRegion.defaults]
  obtain ⟨R, hY1, ht1, _⟩ := gn_trust_run c (by rw [c2]; norm_num) (by rw [c3]; norm_num)
    (GaussNewton.levenbergMarquardt eps fmax rtol atol nY nF ls jac) rfl _ (damped_memoryless eps fmax ls) aux0 fn y0 st0 hi
  set Y := iterateAt S fn aux0 y0 st0 with hYd
  set St := stateAt S fn aux0 y0 st0 with hSt
  obtain ⟨hL0, hB0⟩ := hS.nonneg
  set step := fun t r J => ((dampedNewtonDescent (κ := κ) eps fmax ls).step t (.residualJac r J)).1 with hstep
  have htmin : min ((fun k => (St (k + 1)).searchState) 0) (c.lowConstant * (1 / (L + 1))) = 1 / (4 * (L + 1)) := by
    show min (St 1).searchState _ = _
    rw [ht1, c2, min_eq_right]
    · field_simp
    · rw [mul_one_div, div_le_one (by linarith)]; linarith
  have hpred : ∀ y s, 1 / (4 * (L + 1)) ≤ s → linearisedChange (jac y) (fn y).1 (step s (fn y).1 (jac y)) ≤
      -(1 / (4 * (B + 4 * (L + 1))) * ∑ i, (∑ m, jac y m i * (fn y).1 m) ^ 2) := by
    intro y s hs
    obtain ⟨hl, hN', hQ, _, hlin, hgb⟩ := damped_facts eps fmax s he hf ls hls (jac y) (fn y).1
    have h1 := (hgb B hB0 (hS.bounded y)).1
    have hlM : lmParam eps fmax s ≤ 4 * (L + 1) := by
      have hs' : eps < s := lt_of_lt_of_le (by rw [lt_div_iff₀ (by linarith)]; exact heps) hs
      unfold lmParam
      rw [if_pos hs', div_le_iff₀ (lt_of_le_of_lt he hs')]
      rw [div_le_iff₀ (by linarith)] at hs
      linarith
    rw [show linearisedChange (jac y) (fn y).1 (step s (fn y).1 (jac y)) = _ from hlin]
    rw [one_div, ← div_eq_inv_mul, le_neg, div_le_iff₀ (by positivity)]
    refine le_trans h1 ?_
    have hQl := mul_nonneg hl.le hQ
    have h3 : 2 * (B + lmParam eps fmax s) * (_ + lmParam eps fmax s * _) ≤
        2 * (B + 4 * (L + 1)) * (_ + lmParam eps fmax s * _) :=
      mul_le_mul_of_nonneg_right (by linarith) (add_nonneg hN' hQl)
    refine h3.trans ?_
    have h4 : 0 ≤ (B + 4 * (L + 1)) * (lmParam eps fmax s *
      ∑ i, ((dampedNewtonDescent eps fmax ls).step s (.residualJac (fn y).1 (jac y))).1 i ^ 2) :=
      mul_nonneg (by positivity) hQl
    nlinarith
  have h := trust_run_steps R (by rw [c1]; norm_num) (by rw [c2]; norm_num) (by rw [c2]; norm_num) (by rw [c3]; norm_num)
    (1 / (L + 1)) (fun k s h0 h1 => by rw [c1]; exact lm_trial_taken eps fmax he hf ls hls jac fn L B hS hfL (Y (k + 1)) s h0 h1)
    0 (fun y => by positivity) (fun y => ∑ i, (∑ m, jac y m i * (fn y).1 m) ^ 2) (1 / (4 * (B + 4 * (L + 1)))) (by positivity)
    (fun y s hs => by rw [htmin] at hs; exact hpred y s hs) 1 (q + 1) (by rw [c2, c3]; norm_num) (by
      rw [htmin]
      show c.lowConstant ^ (q + 1) * (St 1).searchState < _
      rw [ht1, c2, mul_one, one_div, inv_pow, ← one_div, one_div_lt_one_div (by positivity) (by positivity), pow_succ]
      linarith) e he0 N (fun k hk => hN (k + 1) (by omega) (by omega))
  simp only [zero_add] at h
  rw [hY1, c1] at h
  refine h.trans (le_of_eq ?_)
  push_cast
  field_simp
  ring

/-- On `Σ yᵢ²`, with the default constants: gradients longer than `√e` are seen at most `809 Σ y0ᵢ² / e + 2` times in a row. -/
example (y0 : ι → ℝ) (e : ℝ) (he : 0 < e) :
    let cfg : GradientDescent.Cfg ι ℝ (ι → ℝ) :=
      { rtol := 0.1, atol := 0.1, normY := maxNorm, normF := maxNorm, descent := steepestDescent none,
        search := TrustRegion.linear TrustRegion.defaults, grad := fun y i => 2 * y i }
    ∃ st0, (GradientDescent.solver (A := Unit) cfg ()).init (fun y => (∑ i, y i ^ 2, ())) y0 = .ok st0 ∧ ∀ N : Nat,
      (∀ k, 1 ≤ k → k ≤ N → e < ∑ i, (2 * iterateAt (GradientDescent.solver (A := Unit) cfg ()) (fun y => (∑ i, y i ^ 2, ())) () y0
        st0 k i) ^ 2) → (N : ℝ) ≤ 809 * (∑ i, y0 i ^ 2) / e + 2 := by
  intro cfg
  have hi : ∃ st0, (GradientDescent.solver (A := Unit) cfg ()).init (fun y => (∑ i, y i ^ 2, ())) y0 = .ok st0 := by
    simp only [GradientDescent.solver, GradientDescent.init]
    rw [if_neg (by simp [cfg, TrustRegion.linear, TrustRegion.search, steepestDescent, FnInfo.grad?])]
    exact ⟨_, rfl⟩
  obtain ⟨st0, hi⟩ := hi
  refine ⟨st0, hi, fun N hN => ?_⟩
  have c1 : (TrustRegion.defaults : TrustRegion.Cfg ℝ).lowCutoff = 1 / 100 := by norm_num [TrustRegion.defaults]
  have c2 : (TrustRegion.defaults : TrustRegion.Cfg ℝ).lowConstant = 1 / 4 := by norm_num [TrustRegion.defaults]
  have c3 : (TrustRegion.defaults : TrustRegion.Cfg ℝ).highConstant = 7 / 2 := by norm_num [TrustRegion.defaults]
  have hmin : min 1 ((TrustRegion.defaults : TrustRegion.Cfg ℝ).lowConstant *
      (2 * (1 - (TrustRegion.defaults : TrustRegion.Cfg ℝ).lowCutoff) / 2)) = 99 / 400 := by
    rw [c1, c2]; norm_num
  have h := C111_gradient_descent TrustRegion.defaults (by rw [c1]; norm_num) (by rw [c1]; norm_num) (by rw [c2]; norm_num)
    (by rw [c2]; norm_num) (by rw [c3]; norm_num) cfg rfl rfl () (fun y : ι → ℝ => (∑ i, y i ^ 2, ())) y0 2 0 square_lipschitz
    (by norm_num) (fun y => Finset.sum_nonneg fun i _ => sq_nonneg _) st0 hi 1 2 (by rw [c2, c3]; norm_num)
    (by rw [hmin, c2]; norm_num) e he N hN
  rw [hmin, c1] at h
  have hS : 0 ≤ ∑ i, y0 i ^ 2 := Finset.sum_nonneg fun i _ => sq_nonneg _
  refine h.trans ?_
  push_cast
  have e1 : (1 + (1:ℝ)) * ((∑ i, y0 i ^ 2 - 0) / (1 / 100 * (99 / 400) * e)) = 80000 / 99 * (∑ i, y0 i ^ 2) / e := by
    field_simp; ring
  rw [e1]
  have : 80000 / 99 * (∑ i, y0 i ^ 2) / e ≤ 809 * (∑ i, y0 i ^ 2) / e :=
    div_le_div_of_nonneg_right (mul_le_mul_of_nonneg_right (by norm_num) hS) he.le
  linarith

/-- On the residuals `(y, sin y)`, in double precision: `LevenbergMarquardt` takes at most `5600 |r(y0)|² / e + 2` steps. -/
example (ls : LinSolve Unit (Bool ⊕ Unit)) (hls : SolvesLeastSquares ls) (y0 : Unit → ℝ) (e : ℝ) (he : 0 < e) :
    let S := GaussNewton.solver (GaussNewton.levenbergMarquardt (2⁻¹ ^ 52) (2 ^ 1023) (1/10) (1/10) maxNorm maxNorm ls waveJac) ()
    let fn := fun y => (waveResiduals y, ())
    ∃ st0, S.init fn y0 = .ok st0 ∧ ∀ N : Nat,
      (∀ k, 1 ≤ k → k ≤ N →
        e < ∑ i, (∑ m, waveJac (iterateAt S fn () y0 st0 k) m i * waveResiduals (iterateAt S fn () y0 st0 k) m) ^ 2) →
      (N : ℝ) ≤ 400 * (2 + 4 * (2 + 1)) * (∑ m, waveResiduals y0 m ^ 2) / e + ((1 : Nat) + 1) := by
  intro S fn
  obtain ⟨st0, hi, h⟩ := C111_levenberg_marquardt (2⁻¹ ^ 52) (2 ^ 1023) (1/10) (1/10) (by positivity) (by positivity) maxNorm maxNorm
    ls hls waveJac () fn y0 2 2 wave_smooth (by
      calc (2:ℝ) = 2 ^ 1 := by norm_num
        _ ≤ 2 ^ 1023 := pow_le_pow_right₀ (by norm_num) (by norm_num)) (by norm_num)
  exact ⟨st0, hi, fun N hN => h 1 e N (by norm_num) he hN⟩

end Verif.Props
