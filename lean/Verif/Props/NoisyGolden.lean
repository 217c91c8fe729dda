import Verif.Props.Golden
import Verif.Spec.Valley

/-!
Property C129 for `GoldenSearch`: with values that are wrong by up to `ε`, the minimiser may be lost from the bracket, but only when the bracket is
already smaller than a multiple of `√(ε/μ)`.
-/

namespace Verif.Props
open Verif Verif.Spec Verif.Driver

variable {A : Type}

/-- How far a wrong comparison can lead astray: `2 φ³ √(ε/μ)`. -/
noncomputable def goldenNoise (ε μ : ℝ) : ℝ := 2 * Real.goldenRatio ^ 3 * Real.sqrt (ε / μ)

theorem golden_lost (W d ε μ s : ℝ) (hμ : 0 < μ) (hd : d = Real.goldenRatio⁻¹ * (1 - Real.goldenRatio⁻¹) * W) (hd0 : 0 ≤ d) (hs : 0 ≤ s)
    (h : μ / 2 * ((d + s) ^ 2 - s ^ 2) ≤ 2 * ε) : W ≤ goldenNoise ε μ := by
  obtain ⟨q, hq0, hq1, hq2, hq3, -⟩ := golden_inv_props
  have hφ := Real.goldenRatio_pos
  have h1 : d ^ 2 ≤ 4 * (ε / μ) := by
    rw [mul_div_assoc', le_div_iff₀ hμ]
    nlinarith [mul_nonneg hd0 hs, mul_nonneg hμ.le (mul_nonneg hd0 hs)]
  have h2 : d ≤ 2 * Real.sqrt (ε / μ) := by
    have h3 : d ≤ Real.sqrt (4 * (ε / μ)) := Real.le_sqrt_of_sq_le h1
    rwa [Real.sqrt_mul (by norm_num), show Real.sqrt 4 = 2 by rw [show (4 : ℝ) = 2 ^ 2 by norm_num]; exact Real.sqrt_sq (by norm_num)] at h3
  have h4 : W = Real.goldenRatio ^ 3 * d := by
    rw [hd, ← hq0]
    have h5 : Real.goldenRatio * q = 1 := by rw [hq0]; exact mul_inv_cancel₀ hφ.ne'
    have h6 : 1 - q = q * q := hq1.symm
    rw [h6, show Real.goldenRatio ^ 3 * (q * (q * q) * W) = (Real.goldenRatio * q) ^ 3 * W by ring, h5]
    ring
  rw [h4, goldenNoise]
  nlinarith [pow_pos hφ 3]

/-- The minimiser is in the bracket, or the bracket is near the minimiser. -/
theorem golden_noisy_run (cfg : Golden.Cfg) (h0 : cfg.lower = 0) (hu : 0 < cfg.upper) (fn : ℝ → ℝ × A) (aux0 : A) (y0 : ℝ) (st0 : Golden.State)
    (hi : (Golden.solver cfg).init fn y0 = .ok st0) (F : ℝ → ℝ) (ε μ x : ℝ) (hμ : 0 < μ) (hF : Valley F μ cfg.lower cfg.upper x)
    (hε : ∀ t, |(fn t).1 - F t| ≤ ε) (k : Nat) :
    let st := stateAt (Golden.solver cfg) fn aux0 y0 st0 k
    (st.lower ≤ x ∧ x ≤ st.upper) ∨ (x - goldenNoise ε μ ≤ st.lower ∧ st.upper ≤ x + goldenNoise ε μ) := by
  obtain ⟨⟨hx1, hx2⟩, hleft, hright⟩ := hF
  induction k with
  | zero =>
    obtain ⟨h1, h2, _⟩ := golden_init cfg fn y0 st0 hi
    left
    show st0.lower ≤ x ∧ x ≤ st0.upper
    rw [h1, h2]; exact ⟨hx1, hx2⟩
  | succ k ih =>
    obtain ⟨ig, ifm, iy, iw, il, iu⟩ := golden_run cfg h0 hu fn aux0 y0 st0 hi k
    obtain ⟨c1, c2, c3, c4, c5, c6⟩ := golden_step_cases cfg fn _ _ ig iy ifm
    obtain ⟨p1, p2, p3, p4, _⟩ := golden_probe_inside ig
    obtain ⟨d1, d2, d3, d4, d5⟩ := golden_step_inv cfg fn _ _ ig iy ifm
    have hst : stateAt (Golden.solver cfg) fn aux0 y0 st0 (k + 1) =
      (Golden.step cfg fn (iterateAt (Golden.solver cfg) fn aux0 y0 st0 k)
        (stateAt (Golden.solver cfg) fn aux0 y0 st0 k)).2.1 := rfl
    dsimp only at ih ⊢
    rw [hst]
    generalize Golden.step cfg fn (iterateAt (Golden.solver cfg) fn aux0 y0 st0 k) (stateAt (Golden.solver cfg) fn aux0 y0 st0 k) = r at *
    generalize stateAt (Golden.solver cfg) fn aux0 y0 st0 k = st at *
    rcases ih with ⟨ih1, ih2⟩ | ⟨ih1, ih2⟩
    swap
    · exact .inr ⟨by linarith, by linarith⟩
    rw [h0] at hleft
    have hcmp : ∀ a b, (fn a).1 ≤ (fn b).1 → F a ≤ F b + 2 * ε := fun a b h => by
      have h1 := abs_le.1 (hε a)
      have h2 := abs_le.1 (hε b)
      linarith [h1.1, h2.2]
    have q3 : st.lower < probe st := p3
    have q4 : probe st < st.upper := p4
    -- two points to the left of the minimiser
    have hL : ∀ p q, 0 ≤ p → p < q → q < x → |p - q| = Real.goldenRatio⁻¹ * (1 - Real.goldenRatio⁻¹) * (st.upper - st.lower) →
        (fn p).1 ≤ (fn q).1 → st.upper - st.lower ≤ goldenNoise ε μ := by
      intro p q hp hpq hqx hd hf
      refine golden_lost _ (q - p) ε μ (x - q) hμ ?_ (by linarith) (by linarith) ?_
      · rw [← hd, abs_sub_comm, abs_of_pos (by linarith)]
      · have h1 := hleft p q hp hpq.le hqx.le
        have h2 := hcmp p q hf
        rw [show q - p + (x - q) = x - p by ring]
        linarith
    have hR : ∀ p q, x < p → p < q → q ≤ cfg.upper → |p - q| = Real.goldenRatio⁻¹ * (1 - Real.goldenRatio⁻¹) * (st.upper - st.lower) →
        (fn q).1 ≤ (fn p).1 → st.upper - st.lower ≤ goldenNoise ε μ := by
      intro p q hxp hpq hq hd hf
      refine golden_lost _ (q - p) ε μ (p - x) hμ ?_ (by linarith) (by linarith) ?_
      · rw [← hd, abs_sub_comm, abs_of_pos (by linarith)]
      · have h1 := hright p q hxp.le hpq.le hq
        have h2 := hcmp q p hf
        rw [show q - p + (p - x) = q - x by ring]
        linarith
    have hd5' : |probe st - st.middle| = Real.goldenRatio⁻¹ * (1 - Real.goldenRatio⁻¹) * (st.upper - st.lower) := by rw [abs_sub_comm]; exact d5
    have hout : st.upper - st.lower ≤ goldenNoise ε μ → x - goldenNoise ε μ ≤ r.2.1.lower ∧ r.2.1.upper ≤ x + goldenNoise ε μ := fun hw =>
      ⟨by linarith, by linarith⟩
    rcases c6 with ⟨h1, h2, e1, e2, e3⟩ | ⟨h1, h2, e1, e2, e3⟩ | ⟨h1, h2, e1, e2, e3⟩ | ⟨h1, h2, e1, e2, e3⟩
    · rcases le_or_gt st.middle x with hx | hx
      · exact .inl ⟨by rw [e1]; exact hx, by rw [e3]; exact ih2⟩
      · exact .inr (hout (hR _ _ hx h1 (by linarith) d5 h2.le))
    · rcases le_or_gt x st.middle with hx | hx
      · exact .inl ⟨by rw [e1]; exact ih1, by rw [e3]; exact hx⟩
      · exact .inr (hout (hL _ _ (by linarith) h1 hx hd5' h2.le))
    · rcases le_or_gt x (probe st) with hx | hx
      · exact .inl ⟨by rw [e1]; exact ih1, by rw [e3]; exact hx⟩
      · exact .inr (hout (hL _ _ (by linarith) h1 hx d5 h2))
    · rcases le_or_gt (probe st) x with hx | hx
      · exact .inl ⟨by rw [e1]; exact hx, by rw [e3]; exact ih2⟩
      · exact .inr (hout (hR _ _ hx h1 (by linarith) hd5' h2))

/-- **C129** for `GoldenSearch` on `[0, upper]` (see C19 for other intervals). The true objective rises from its minimiser at least like
`μ/2 (t - x)²`. Whatever the solve saw (values wrong by up to `ε`), on success the answer is within `φ² (atol + rtol |m|)` of the minimiser, as
without errors, or within `2 φ³ √(ε/μ)` of it. -/
theorem C129_golden (cfg : Golden.Cfg) (h0 : cfg.lower = 0) (hu : 0 < cfg.upper) (ha : 0 < cfg.atol) (hr : 0 ≤ cfg.rtol) (fn : ℝ → ℝ × A)
    (aux0 : A) (y0 : ℝ) (F : ℝ → ℝ) (ε μ x : ℝ) (hμ : 0 < μ) (hF : Valley F μ cfg.lower cfg.upper x) (hε : ∀ t, |(fn t).1 - F t| ≤ ε)
    (af : ℝ → Bool) (ms : Option Nat) (throw : Bool) (sol : Solution ℝ A Golden.State Unit)
    (h : minimise (Golden.solver cfg) cfg.fStruct af fn aux0 y0 ms throw = some (.ok sol)) (hs : sol.result = .successful) :
    ∃ st0 n, (Golden.solver cfg).init fn y0 = .ok st0 ∧ sol.numSteps = n + 1 ∧
      (|sol.value - x| < Real.goldenRatio ^ 2 * (cfg.atol + cfg.rtol * |(stateAt (Golden.solver cfg) fn aux0 y0 st0 n).middle|) ∨
        |sol.value - x| ≤ 2 * Real.goldenRatio ^ 3 * Real.sqrt (ε / μ)) := by
  unfold minimise at h
  split at h
  swap
  · cases h
  obtain ⟨st0, hi, ht, _, _, _⟩ := C02_success_is_certificate _ _ _ _ _ _ _ _ h hs
  obtain ⟨_, _, st0', hi', hstate, hp⟩ := C01_step_budget _ _ _ _ _ _ _ _ h
  rw [hi] at hi'; cases hi'
  replace ht : (sol.state.terminate, Result.successful) = _ := ht
  rw [Prod.mk.injEq] at ht
  have hval : sol.value = iterateAt (Golden.solver cfg) fn aux0 y0 st0 sol.numSteps := congrArg Prod.fst hp
  cases hn : sol.numSteps with
  | zero =>
    exfalso
    rw [hstate, hn] at ht
    have : st0.terminate = true := ht.1
    rw [(golden_init cfg fn y0 st0 hi).2.2.2.2.2] at this
    cases this
  | succ n =>
    refine ⟨st0, n, hi, rfl, ?_⟩
    obtain ⟨ig, ifm, iy, iw, il, iu⟩ := golden_run cfg h0 hu fn aux0 y0 st0 hi n
    obtain ⟨c1, c2, c3, c4, c5, c6⟩ := golden_step_cases cfg fn _ _ ig iy ifm
    obtain ⟨d1, d2, d3, d4, d5⟩ := golden_step_inv cfg fn _ _ ig iy ifm
    obtain ⟨ig', ifm', iy', iw', il', iu'⟩ := golden_run cfg h0 hu fn aux0 y0 st0 hi (n + 1)
    obtain ⟨_, _, p3', p4', _⟩ := golden_probe_inside ig'
    have hst : stateAt (Golden.solver cfg) fn aux0 y0 st0 (n + 1) =
      (Golden.step cfg fn (iterateAt (Golden.solver cfg) fn aux0 y0 st0 n)
        (stateAt (Golden.solver cfg) fn aux0 y0 st0 n)).2.1 := rfl
    have hv : sol.value = probe (stateAt (Golden.solver cfg) fn aux0 y0 st0 (n + 1)) := by
      rw [hval, hn]; exact c1
    rcases golden_noisy_run cfg h0 hu fn aux0 y0 st0 hi F ε μ x hμ hF hε (n + 1) with ⟨k1, k2⟩ | ⟨k1, k2⟩
    swap
    · right
      change _ ≤ goldenNoise ε μ
      rw [hv, abs_le]
      unfold probe
      constructor <;> linarith
    left
    have htt := ht.1
    rw [hstate, hn, hst, c4, golden_cauchy _ _ ha hr, d5] at htt
    have hlt := htt.1
    obtain ⟨q, hq0, hq1, hq2, hq3, _⟩ := golden_inv_props
    rw [← hst, ← hq0] at d2
    rw [← hq0] at hlt
    have hφ : Real.goldenRatio ^ 2 * (1 - q) = 1 := by
      have hsq := Real.goldenRatio_sq
      have hp0 := Real.goldenRatio_pos.ne'
      rw [hq0]
      generalize Real.goldenRatio = p at *
      field_simp
      linear_combination hsq
    have hφ0 : 0 < Real.goldenRatio ^ 2 := by have := Real.goldenRatio_pos; positivity
    have hw : (stateAt (Golden.solver cfg) fn aux0 y0 st0 (n + 1)).upper -
        (stateAt (Golden.solver cfg) fn aux0 y0 st0 (n + 1)).lower < Real.goldenRatio ^ 2 *
        (cfg.atol + cfg.rtol * |(stateAt (Golden.solver cfg) fn aux0 y0 st0 n).middle|) := by
      rw [d2]
      have := mul_lt_mul_of_pos_left hlt hφ0
      refine lt_of_eq_of_lt ?_ this
      linear_combination (-q * ((stateAt (Golden.solver cfg) fn aux0 y0 st0 n).upper -
        (stateAt (Golden.solver cfg) fn aux0 y0 st0 n).lower)) * hφ
    refine lt_of_le_of_lt ?_ hw
    rw [hv, abs_le]
    unfold probe
    constructor <;> linarith

/-- **C129.** If the errors are less than half the absolute tolerance, `GoldenSearch` on `[0, upper]` succeeds, for every continuous objective. -/
theorem C129_golden_terminates (cfg : Golden.Cfg) (h0 : cfg.lower = 0) (hu : 0 < cfg.upper)
    (ha : 0 < cfg.atol) (hr : 0 ≤ cfg.rtol) (hstr : cfg.fStruct = .leaf [] true) (hsc : cfg.scalarArgs = true)
    (fn : ℝ → ℝ × A) (F : ℝ → ℝ) (hc : ContinuousOn F (Set.Icc 0 cfg.upper)) (ε : ℝ) (hε : ∀ t, |(fn t).1 - F t| ≤ ε) (hlt : 2 * ε < cfg.atol)
    (aux0 : A) (y0 : ℝ) :
    ∃ N, ∀ (ms : Option Nat) (throw : Bool), (∀ n, ms = some n → N ≤ n) →
      ∃ sol, minimise (Golden.solver cfg) cfg.fStruct (fun _ => true) fn aux0 y0 ms throw = some (.ok sol) ∧
        sol.result = .successful ∧ sol.numSteps ≤ N := by
  classical
  obtain ⟨st0, hi⟩ : ∃ st0, (Golden.solver cfg).init fn y0 = .ok st0 := by
    show ∃ st0, Golden.init cfg fn y0 = .ok st0
    unfold Golden.init
    rw [hsc, hstr]
    exact ⟨_, rfl⟩
  have huc := isCompact_Icc.uniformContinuousOn_of_continuous hc
  rw [Metric.uniformContinuousOn_iff] at huc
  obtain ⟨δ, hδ0, hδ⟩ := huc (cfg.atol - 2 * ε) (by linarith)
  obtain ⟨q, hq0, hq1, hq2, hq3, _⟩ := golden_inv_props
  obtain ⟨k, hk⟩ : ∃ k : Nat, q ^ k * cfg.upper < min δ cfg.atol := by
    have hpos : 0 < min δ cfg.atol / cfg.upper := div_pos (lt_min hδ0 ha) hu
    obtain ⟨k, hk⟩ := exists_pow_lt_of_lt_one hpos hq3
    exact ⟨k, by rwa [lt_div_iff₀ hu] at hk⟩
  have hterm : (Golden.solver cfg).terminate fn (iterateAt (Golden.solver cfg) fn aux0 y0 st0 k)
      (stateAt (Golden.solver cfg) fn aux0 y0 st0 (k + 1)) = (true, .successful) := by
    obtain ⟨ig, ifm, iy, iw, il, iu⟩ := golden_run cfg h0 hu fn aux0 y0 st0 hi k
    obtain ⟨c1, c2, c3, c4, c5, c6⟩ := golden_step_cases cfg fn _ _ ig iy ifm
    obtain ⟨p1, p2, p3, p4, _⟩ := golden_probe_inside ig
    have hst : stateAt (Golden.solver cfg) fn aux0 y0 st0 (k + 1) =
      (Golden.step cfg fn (iterateAt (Golden.solver cfg) fn aux0 y0 st0 k)
        (stateAt (Golden.solver cfg) fn aux0 y0 st0 k)).2.1 := rfl
    refine Prod.ext ?_ rfl
    show (stateAt (Golden.solver cfg) fn aux0 y0 st0 (k + 1)).terminate = true
    rw [hst, c4, golden_cauchy _ _ ha hr]
    rw [← hq0] at iw
    have hw : (stateAt (Golden.solver cfg) fn aux0 y0 st0 k).upper - (stateAt (Golden.solver cfg) fn aux0 y0 st0 k).lower
      < min δ cfg.atol := by rw [iw]; exact hk
    have hwδ := hw.trans_le (min_le_left _ _)
    have hwa := hw.trans_le (min_le_right _ _)
    have hd : |(stateAt (Golden.solver cfg) fn aux0 y0 st0 k).middle - probe (stateAt (Golden.solver cfg) fn aux0 y0 st0 k)| ≤
      (stateAt (Golden.solver cfg) fn aux0 y0 st0 k).upper - (stateAt (Golden.solver cfg) fn aux0 y0 st0 k).lower := by
      rw [abs_le]; unfold probe; constructor <;> linarith
    have hn1 : 0 ≤ cfg.rtol * |(stateAt (Golden.solver cfg) fn aux0 y0 st0 k).middle| := by positivity
    have hn2 : 0 ≤ cfg.rtol * |(fn (stateAt (Golden.solver cfg) fn aux0 y0 st0 k).middle).1| := by positivity
    refine ⟨by linarith, ?_⟩
    have := hδ (stateAt (Golden.solver cfg) fn aux0 y0 st0 k).middle ⟨by linarith, by linarith⟩ (probe (stateAt (Golden.solver cfg) fn aux0 y0 st0 k))
      ⟨by unfold probe; linarith, by unfold probe; linarith⟩
      (lt_of_le_of_lt (by rw [Real.dist_eq]; exact hd) hwδ)
    rw [Real.dist_eq] at this
    have e1 := abs_le.1 (hε (stateAt (Golden.solver cfg) fn aux0 y0 st0 k).middle)
    have e2 := abs_le.1 (hε (probe (stateAt (Golden.solver cfg) fn aux0 y0 st0 k)))
    have e3 := abs_lt.1 this
    refine lt_of_lt_of_le ?_ (le_add_of_nonneg_right hn2)
    rw [abs_lt]
    constructor <;> linarith [e1.1, e1.2, e2.1, e2.2, e3.1, e3.2]
  refine ⟨k + 1, fun ms throw hms => ?_⟩
  let P : Nat → Prop := fun k => (Golden.solver cfg).terminate fn
    (iterateAt (Golden.solver cfg) fn aux0 y0 st0 (k - 1)) (stateAt (Golden.solver cfg) fn aux0 y0 st0 k) =
      (true, .successful)
  have hex : ∃ k, P k := ⟨k + 1, hterm⟩
  have hle : Nat.find hex ≤ k + 1 := Nat.find_min' hex hterm
  have hmin : ∀ j, j < Nat.find hex → (fun _ : ℝ => true)
      (iterateAt (Golden.solver cfg) fn aux0 y0 st0 (j - 1)) = true ∧
      (Golden.solver cfg).terminate fn (iterateAt (Golden.solver cfg) fn aux0 y0 st0 (j - 1))
      (stateAt (Golden.solver cfg) fn aux0 y0 st0 j) = (false, .successful) := by
    intro j hj
    refine ⟨rfl, ?_⟩
    have hnot := Nat.find_min hex hj
    refine Prod.ext ?_ rfl
    by_contra hne
    exact hnot (Prod.ext (by simpa using hne) rfl)
  obtain ⟨sol, h1, h2, h3⟩ := C02_success_complete (Golden.solver cfg) (fun _ => true) fn aux0 y0 st0 hi ms throw
    (Nat.find hex) hmin rfl (Nat.find_spec hex) (fun n hn => hle.trans (hms n hn))
  refine ⟨sol, ?_, h2, h3 ▸ hle⟩
  unfold minimise
  rw [if_pos hstr]; exact h1

/-- A differentiable, `μ`-strongly convex function with its stationary point in the interval is such a valley. -/
theorem valley_of_strongly_convex (F G : ℝ → ℝ) (μ a b x : ℝ) (hx : a ≤ x ∧ x ≤ b)
    (hc : ∀ y z, F y + G y * (z - y) + μ / 2 * (z - y) ^ 2 ≤ F z) (h0 : G x = 0) : Valley F μ a b x := by
  have h1 : ∀ q, G q * (x - q) + μ * (x - q) ^ 2 ≤ 0 := fun q => by
    have e1 := hc q x
    have e2 := hc x q
    rw [h0] at e2
    nlinarith
  refine ⟨hx, fun p q hp hpq hqx => ?_, fun p q hxp hpq hq => ?_⟩
  · have e1 := hc q p
    rcases hqx.eq_or_lt with rfl | hlt
    · rw [h0] at e1; nlinarith
    · have e2 : G q + μ * (x - q) ≤ 0 := by
        by_contra hcon
        nlinarith [h1 q, mul_pos (sub_pos.2 hlt) (not_le.1 hcon)]
      nlinarith [mul_nonneg (sub_nonneg.2 hpq) (neg_nonneg.2 e2)]
  · have e1 := hc p q
    rcases hxp.eq_or_lt with rfl | hlt
    · rw [h0] at e1; nlinarith
    · have e2 : 0 ≤ G p - μ * (p - x) := by
        by_contra hcon
        nlinarith [h1 p, mul_pos (sub_pos.2 hlt) (neg_pos.2 (not_le.1 hcon))]
      nlinarith [mul_nonneg (sub_nonneg.2 hpq) e2]

/-- The hypotheses are met by `(t - 1)²`, known up to `1/100`. -/
example : Valley (fun t : ℝ => (t - 1) ^ 2) 2 0 3 1 ∧ ∀ t : ℝ, |((t - 1) ^ 2 + Real.sin (1000 * t) / 100) - (t - 1) ^ 2| ≤ 1 / 100 := by
  refine ⟨valley_of_strongly_convex _ (fun t => 2 * (t - 1)) 2 0 3 1 (by norm_num) (fun y z => by nlinarith) (by norm_num), fun t => ?_⟩
  rw [show (t - 1) ^ 2 + Real.sin (1000 * t) / 100 - (t - 1) ^ 2 = Real.sin (1000 * t) / 100 by ring, abs_div, abs_of_pos (by norm_num : (0 : ℝ) < 100)]
  have := Real.abs_sin_le_one (1000 * t)
  linarith

end Verif.Props
