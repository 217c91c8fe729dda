import Verif.Props.SuccessGradient
import Verif.Props.TrustComplexity
import Verif.Props.ConvexRates
import Verif.Spec.GradientDominated
import Verif.Lemmas.Euclid
import Mathlib.Analysis.Real.Pi.Bounds

/-!
Property C115: problems without bad stationary points are solved globally.
-/

namespace Verif.Props

open Verif Verif.Spec Verif.Driver Verif.SearchLoop Filter Topology

variable {ι A : Type} [Fintype ι]

/-- A path whose steps are paid for by the fall of the square root of the height has finite length. -/
theorem path_converges (y : ℕ → ι → ℝ) (F : ℕ → ℝ) (σ : ℝ) (hσ : 0 < σ) (hF : ∀ k, 0 ≤ F k)
    (hstep : ∀ k, σ * Real.sqrt (F k) * euclid (fun i => y (k + 1) i - y k i) ≤ F k - F (k + 1))
    (hstat : ∀ k, F k = 0 → y (k + 1) = y k) (hlim : Tendsto F atTop (𝓝 0)) :
    ∃ x, Tendsto y atTop (𝓝 x) ∧ ∀ k, σ * euclid (fun i => y k i - x i) ≤ 2 * Real.sqrt (F k) := by
  set s := fun k => Real.sqrt (F k) with hs
  have hs0 : ∀ k, 0 ≤ s k := fun k => Real.sqrt_nonneg _
  have hsq : ∀ k, s k ^ 2 = F k := fun k => Real.sq_sqrt (hF k)
  have hone : ∀ k, σ * euclid (fun i => y (k + 1) i - y k i) ≤ 2 * (s k - s (k + 1)) := by
    intro k
    have h1 := hstep k
    rcases (hs0 k).eq_or_lt with h0 | h0
    · have hF0 : F k = 0 := by rw [← hsq, ← h0]; norm_num
      have e : (fun i => y (k + 1) i - y k i) = fun _ => 0 := by rw [hstat k hF0]; funext i; simp
      have e2 : euclid (fun _ : ι => (0:ℝ)) = 0 := by simp [euclid]
      rw [e, e2] at h1 ⊢
      have h3 : F (k + 1) = 0 := le_antisymm (by linarith) (hF _)
      have h4 : s (k + 1) = 0 := by simp only [hs]; rw [h3, Real.sqrt_zero]
      rw [h4, ← h0]; simp
    · have h2 : σ * s k * euclid (fun i => y (k + 1) i - y k i) ≤ s k ^ 2 - s (k + 1) ^ 2 := by
        rw [hsq, hsq]; exact h1
      have he := euclid_nonneg fun i => y (k + 1) i - y k i
      have h3 : s (k + 1) ≤ s k := by
        have : 0 ≤ σ * s k * euclid (fun i => y (k + 1) i - y k i) := by positivity
        nlinarith [hs0 (k + 1)]
      have h5 : s k * (σ * euclid (fun i => y (k + 1) i - y k i)) ≤ s k * (2 * (s k - s (k + 1))) := by nlinarith [hs0 (k + 1)]
      exact le_of_mul_le_mul_left h5 h0
  have hfar : ∀ n k, σ * euclid (fun i => y (n + k) i - y n i) ≤ 2 * (s n - s (n + k)) := by
    intro n k
    induction k with
    | zero => simp [euclid]
    | succ k ih =>
      have h1 := hone (n + k)
      have h2 := euclid_add (fun i => y (n + k + 1) i - y (n + k) i) (fun i => y (n + k) i - y n i)
      have e : (fun i => y (n + k + 1) i - y (n + k) i + (y (n + k) i - y n i)) = fun i => y (n + k + 1) i - y n i := by
        funext i; ring
      rw [e] at h2
      have := mul_le_mul_of_nonneg_left h2 hσ.le
      show σ * euclid (fun i => y (n + k + 1) i - y n i) ≤ 2 * (s n - s (n + k + 1))
      linarith
  have hsl : Tendsto s atTop (𝓝 0) := by
    have := (Real.continuous_sqrt.tendsto 0).comp hlim
    rw [Real.sqrt_zero] at this
    exact this
  have hdist : ∀ n k, dist (y (n + k)) (y n) ≤ 2 / σ * s n := by
    intro n k
    have h0 : 0 ≤ 2 / σ * s n := mul_nonneg (by positivity) (hs0 n)
    refine (dist_pi_le_iff h0).2 fun i => ?_
    rw [Real.dist_eq]
    have h1 := abs_le_euclid (fun i => y (n + k) i - y n i) i
    have h2 := hfar n k
    refine h1.trans ?_
    rw [div_mul_eq_mul_div, le_div_iff₀ hσ]
    nlinarith [hs0 (n + k)]
  have hcau : CauchySeq y := by
    refine cauchySeq_of_le_tendsto_0 (fun N => 2 * (2 / σ * s N)) (fun n m N hn hm => ?_) ?_
    · obtain ⟨a, rfl⟩ := Nat.exists_eq_add_of_le hn
      obtain ⟨b, rfl⟩ := Nat.exists_eq_add_of_le hm
      have h1 := hdist N a
      have h2 := hdist N b
      have h3 := dist_triangle_right (y (N + a)) (y (N + b)) (y N)
      linarith
    · have := (hsl.const_mul (2 / σ)).const_mul 2
      simpa using this
  obtain ⟨x, hx⟩ := cauchySeq_tendsto_of_complete hcau
  refine ⟨x, hx, fun n => ?_⟩
  have hx' : Tendsto (fun k => y (n + k)) atTop (𝓝 x) := by
    have := (tendsto_add_atTop_iff_nat n).2 hx
    simpa only [Nat.add_comm] using this
  have hc : Tendsto (fun k => σ * euclid (fun i => y n i - y (n + k) i)) atTop (𝓝 (σ * euclid (fun i => y n i - x i))) := by
    refine Tendsto.const_mul σ ?_
    unfold euclid
    refine (Real.continuous_sqrt.tendsto _).comp ?_
    refine tendsto_finsetSum _ fun i _ => ?_
    exact (tendsto_const_nhds.sub ((continuous_apply i).continuousAt.tendsto.comp hx')).pow 2
  refine le_of_tendsto' hc fun k => ?_
  have h1 := hfar n k
  have e : euclid (fun i => y n i - y (n + k) i) = euclid (fun i => y (n + k) i - y n i) := by
    unfold euclid; congr 1; exact Finset.sum_congr rfl fun i _ => by ring
  rw [e]
  linarith [hs0 (n + k)]

/-- Descent along the gradient, each step lowering the objective by `s` times the product of the lengths of the gradient and of the
step: if the values tend to the lower bound of a gradient-dominated objective, the points converge to a global minimiser. -/
theorem reaches_minimum {f : (ι → ℝ) → ℝ} {grad : (ι → ℝ) → (ι → ℝ)} {L μ m : ℝ} (hL : LipschitzGradient f grad L)
    (hd : GradientDominated f grad μ m) (s : ℝ) (hs : 0 < s) (y : ℕ → ι → ℝ)
    (hstep : ∀ k, s * euclid (grad (y k)) * euclid (fun i => y (k + 1) i - y k i) ≤ f (y k) - f (y (k + 1)))
    (hstat : ∀ k, (∀ i, grad (y k) i = 0) → y (k + 1) = y k) (hlim : Tendsto (fun k => f (y k)) atTop (𝓝 m)) :
    ReachesMinimum f y m (2 / (s ^ 2 * μ)) := by
  have hμ := hd.pos
  have h2μ : 0 < Real.sqrt (2 * μ) := Real.sqrt_pos.2 (by positivity)
  have hF : ∀ k, 0 ≤ f (y k) - m := fun k => sub_nonneg.2 (hd.lower _)
  have hlim' : Tendsto (fun k => f (y k) - m) atTop (𝓝 0) := by
    have := hlim.sub_const m
    rwa [sub_self] at this
  obtain ⟨x, hx, hdist⟩ := path_converges y (fun k => f (y k) - m) (s * Real.sqrt (2 * μ)) (mul_pos hs h2μ) hF (fun k => by
    have h1 : Real.sqrt (2 * μ) * Real.sqrt (f (y k) - m) ≤ euclid (grad (y k)) := by
      rw [← Real.sqrt_mul (by positivity)]
      exact Real.sqrt_le_sqrt (hd.slope _)
    have h2 := mul_le_mul_of_nonneg_right (mul_le_mul_of_nonneg_left h1 hs.le) (euclid_nonneg fun i => y (k + 1) i - y k i)
    have h3 := hstep k
    show _ ≤ f (y k) - m - (f (y (k + 1)) - m)
    rw [show s * Real.sqrt (2 * μ) * Real.sqrt (f (y k) - m) * euclid (fun i => y (k + 1) i - y k i) =
      s * (Real.sqrt (2 * μ) * Real.sqrt (f (y k) - m)) * euclid (fun i => y (k + 1) i - y k i) by ring]
    linarith) (fun k hk => hstat k fun i => hL.stationary (fun z => by
      have : f (y k) = m := by linarith
      rw [this]; exact hd.lower z) i) hlim'
  have hsqdist : ∀ k, ∑ i, (y k i - x i) ^ 2 ≤ 2 / (s ^ 2 * μ) * (f (y k) - m) := by
    intro k
    have h1 := hdist k
    have h0 : 0 ≤ s * Real.sqrt (2 * μ) * euclid (fun i => y k i - x i) := by
      have := euclid_nonneg fun i => y k i - x i
      positivity
    have h2 := pow_le_pow_left₀ h0 h1 2
    rw [mul_pow, mul_pow, mul_pow, Real.sq_sqrt (hF k), Real.sq_sqrt (by positivity : (0:ℝ) ≤ 2 * μ), euclid_sq] at h2
    rw [div_mul_eq_mul_div, le_div_iff₀ (by positivity)]
    linarith
  -- the value at the limit
  have hgz : Tendsto (fun k => ∑ i, (x i - y k i) ^ 2) atTop (𝓝 0) := by
    have h1 : Tendsto (fun k => ∑ i, (x i - y k i) ^ 2) atTop (𝓝 (∑ i, (x i - x i) ^ 2)) :=
      tendsto_finsetSum _ fun i _ => (tendsto_const_nhds.sub ((continuous_apply i).continuousAt.tendsto.comp hx)).pow 2
    simpa using h1
  have hgrad : ∀ k i, |grad (y k) i| ≤ L * Real.sqrt (∑ i, (x i - y k i) ^ 2) + |grad x i| := by
    intro k i
    have h1 := hL.lipschitz (y k) x
    have h2 : |grad (y k) i - grad x i| ≤ euclid (fun i => grad (y k) i - grad x i) := abs_le_euclid (fun i => grad (y k) i - grad x i) i
    have h3 : euclid (fun i => grad (y k) i - grad x i) ≤ L * Real.sqrt (∑ i, (x i - y k i) ^ 2) := by
      unfold euclid
      refine Real.sqrt_le_iff.2 ⟨mul_nonneg hL.nonneg (Real.sqrt_nonneg _), ?_⟩
      rw [mul_pow, Real.sq_sqrt (Finset.sum_nonneg fun i _ => sq_nonneg _)]
      refine h1.trans (le_of_eq ?_)
      congr 1
      exact Finset.sum_congr rfl fun i _ => by ring
    have h4 := abs_sub_abs_le_abs_sub (grad (y k) i) (grad x i)
    linarith
  have hval : f x ≤ m := by
    have hb : ∀ k, f x ≤ f (y k) + (∑ i, (L * Real.sqrt (∑ i, (x i - y k i) ^ 2) + |grad x i|) * |x i - y k i|) +
        L / 2 * ∑ i, (x i - y k i) ^ 2 := by
      intro k
      have h1 := hL.bound (y k) x
      have h2 : treeDot (grad (y k)) (fun i => x i - y k i) ≤
          ∑ i, (L * Real.sqrt (∑ i, (x i - y k i) ^ 2) + |grad x i|) * |x i - y k i| := by
        unfold treeDot
        refine Finset.sum_le_sum fun i _ => (le_abs_self _).trans ?_
        rw [abs_mul]
        exact mul_le_mul_of_nonneg_right (hgrad k i) (abs_nonneg _)
      rw [show sumSquares (fun i => x i - y k i) = ∑ i, (x i - y k i) ^ 2 from Finset.sum_congr rfl fun i _ => by ring] at h1
      linarith
    have ht : Tendsto (fun k => f (y k) + (∑ i, (L * Real.sqrt (∑ i, (x i - y k i) ^ 2) + |grad x i|) * |x i - y k i|) +
        L / 2 * ∑ i, (x i - y k i) ^ 2) atTop (𝓝 (m + (∑ i, (L * Real.sqrt 0 + |grad x i|) * |x i - x i|) + L / 2 * 0)) := by
      refine (hlim.add (tendsto_finsetSum _ fun i _ => ?_)).add (hgz.const_mul _)
      refine Tendsto.mul ((((Real.continuous_sqrt.tendsto _).comp hgz).const_mul L).add_const _) ?_
      exact (tendsto_const_nhds.sub ((continuous_apply i).continuousAt.tendsto.comp hx)).abs
    have := ge_of_tendsto' ht hb
    simpa using this
  have hxm : f x = m := le_antisymm hval (hd.lower x)
  exact ⟨x, hxm, fun z => by rw [hxm]; exact hd.lower z, hx, hsqdist⟩

/-- Where the gradients vanish, the values tend to the lower bound. -/
theorem _root_.Verif.Spec.GradientDominated.values {f : (ι → ℝ) → ℝ} {grad : (ι → ℝ) → (ι → ℝ)} {μ m : ℝ} (hd : GradientDominated f grad μ m)
    (y : ℕ → ι → ℝ) (hg : Tendsto (fun k => ∑ i, grad (y k) i ^ 2) atTop (𝓝 0)) : Tendsto (fun k => f (y k)) atTop (𝓝 m) := by
  have hμ := hd.pos
  have h1 : Tendsto (fun k => m + 1 / (2 * μ) * ∑ i, grad (y k) i ^ 2) atTop (𝓝 m) := by
    have := (hg.const_mul (1 / (2 * μ))).const_add m
    simpa using this
  refine tendsto_of_tendsto_of_tendsto_of_le_of_le tendsto_const_nhds h1 (fun k => hd.lower _) fun k => ?_
  have h2 := hd.slope (y k)
  have h3 : 1 / (2 * μ) * (2 * μ * (f (y k) - m)) ≤ 1 / (2 * μ) * ∑ i, grad (y k) i ^ 2 := mul_le_mul_of_nonneg_left h2 (by positivity)
  have h4 : 1 / (2 * μ) * (2 * μ * (f (y k) - m)) = f (y k) - m := by field_simp
  show f (y k) ≤ m + 1 / (2 * μ) * ∑ i, grad (y k) i ^ 2
  linarith

/-- A bound for the gradient bounds the height above the minimum. -/
theorem _root_.Verif.Spec.GradientDominated.height {f : (ι → ℝ) → ℝ} {grad : (ι → ℝ) → (ι → ℝ)} {μ m : ℝ} (hd : GradientDominated f grad μ m)
    (y : ι → ℝ) (E : ℝ) (h : ∑ i, grad y i ^ 2 ≤ E) : f y - m ≤ E / (2 * μ) := by
  have hμ := hd.pos
  rw [le_div_iff₀ (by positivity)]
  linarith [hd.slope y]

/-- The length of a multiple. -/
theorem euclid_smul_eq (a : ℝ) (x : ι → ℝ) : euclid (fun i => a * x i) = |a| * euclid x := by
  unfold euclid
  rw [← Real.sqrt_sq_eq_abs, ← Real.sqrt_mul (sq_nonneg a), Finset.mul_sum]
  congr 1
  exact Finset.sum_congr rfl fun i _ => by ring

/-- Contractions of the height by a factor that may have the wrong sign only if there is nothing to contract. -/
theorem contraction_pow (F : ℕ → ℝ) (ρ : ℝ) (hF : ∀ k, 0 ≤ F k) (h : ∀ k, F (k + 1) ≤ ρ * F k) (k : ℕ) : F k ≤ ρ ^ k * F 0 := by
  rcases (hF 0).eq_or_lt with h0 | h0
  · have : ∀ k, F k = 0 := by
      intro k
      induction k with
      | zero => exact h0.symm
      | succ k ih => exact le_antisymm (by have := h k; rw [ih, mul_zero] at this; exact this) (hF _)
    rw [this k, ← h0, mul_zero]
  · have hρ : 0 ≤ ρ := by
      by_contra hlt
      push Not at hlt
      have := mul_neg_of_neg_of_pos hlt h0
      linarith [h 0, hF 1]
    induction k with
    | zero => simp
    | succ k ih =>
      rw [pow_succ', mul_assoc]
      exact (h k).trans (mul_le_mul_of_nonneg_left ih hρ)

/-- **C115**, `GradientDescent` with learning rate at most `1/L`: the height above the minimum shrinks by the factor
`1 - learning_rate * μ` in every step, so the point returned after `n` steps is that good; the iterates converge to a global
minimiser. -/
theorem C115_gradient_descent (rate rtol atol L μ m : ℝ) (hr0 : 0 < rate) (hrL : rate * L ≤ 1) (nY : (ι → ℝ) → ℝ)
    (nF : (Unit → ℝ) → ℝ) (grad : (ι → ℝ) → (ι → ℝ)) (aux0 : A) (fn : (ι → ℝ) → ℝ × A) (y0 : ι → ℝ)
    (hL : LipschitzGradient (fun y => (fn y).1) grad L) (hd : GradientDominated (fun y => (fn y).1) grad μ m) :
    let S := GradientDescent.solver (GradientDescent.gradientDescent rate rtol atol nY nF grad) aux0
    (∀ af ms throw sol, iterativeSolve S af fn aux0 y0 ms throw = some (.ok sol) →
      (fn sol.value).1 - m ≤ (1 - rate * μ) ^ (sol.numSteps - 1) * ((fn y0).1 - m) ∧
      (sol.result = .successful → 0 < atol → 0 ≤ rtol → (∀ (x : ι → ℝ) i, |x i| ≤ nY x) →
        (fn sol.value).1 - m ≤ (1 / rate + L) ^ 2 * (∑ i, (atol + rtol * |sol.value i|) ^ 2) / (2 * μ))) ∧
    ∃ st0, S.init fn y0 = .ok st0 ∧ ReachesMinimum (fun y => (fn y).1) (iterateAt S fn aux0 y0 st0) m (8 / μ) := by
  intro S
  have hμ := hd.pos
  have hsm : ∀ y z, (fn z).1 ≤ (fn y).1 + (∑ i, grad y i * (z i - y i)) + L / 2 * ∑ i, (z i - y i) ^ 2 := by
    intro y z
    have := hL.bound y z
    rwa [show sumSquares (fun i => z i - y i) = ∑ i, (z i - y i) ^ 2 from Finset.sum_congr rfl fun i _ => by ring] at this
  have hdec := gd_decrease rate L grad fn hr0 hrL hsm
  have hpow : ∀ k, (fn ((gdMap rate grad)^[k] y0)).1 - m ≤ (1 - rate * μ) ^ k * ((fn y0).1 - m) := by
    refine contraction_pow (fun k => (fn ((gdMap rate grad)^[k] y0)).1 - m) _ (fun k => sub_nonneg.2 (hd.lower _)) fun k => ?_
    simp only [Function.iterate_succ_apply']
    have h1 := hdec ((gdMap rate grad)^[k] y0)
    have h2 := mul_le_mul_of_nonneg_left (hd.slope ((gdMap rate grad)^[k] y0)) hr0.le
    nlinarith
  refine ⟨fun af ms throw sol h => ⟨?_, fun hs ha hr hN => ?_⟩, ?_⟩
  · have hv : sol.value = (gdMap rate grad)^[sol.numSteps - 1] y0 := C31_value rate rtol atol nY nF grad aux0 fn y0 af ms throw sol h
    rw [hv]
    exact hpow _
  · exact hd.height sol.value _ (C114_gradient_descent rtol atol ha hr nY hN nF rate L hr0 grad aux0 fn y0 hL af ms throw sol h hs)
  · obtain ⟨st0, hi⟩ : ∃ st0, S.init fn y0 = .ok st0 := ⟨_, rfl⟩
    refine ⟨st0, hi, ?_⟩
    have hY : ∀ k, iterateAt S fn aux0 y0 st0 (k + 1) = (gdMap rate grad)^[k] y0 :=
      fun k => (gd_state rate rtol atol nY nF grad aux0 fn y0 st0 hi k).1
    have hmove : ∀ k, iterateAt S fn aux0 y0 st0 (k + 1) = iterateAt S fn aux0 y0 st0 k ∨
        iterateAt S fn aux0 y0 st0 (k + 1) = gdMap rate grad (iterateAt S fn aux0 y0 st0 k) := by
      intro k
      obtain _ | k := k
      · left; rw [hY 0]; rfl
      · right; rw [hY, hY, Function.iterate_succ_apply']
    have h := reaches_minimum hL hd (1 / 2) (by norm_num) (iterateAt S fn aux0 y0 st0) (fun k => ?_) (fun k hk => ?_) ?_
    · have e : 2 / ((1 / 2 : ℝ) ^ 2 * μ) = 8 / μ := by field_simp; norm_num
      rwa [e] at h
    · rcases hmove k with e | e
      · rw [e]; simp [euclid]
      · rw [e]
        have e2 : (fun i => gdMap rate grad (iterateAt S fn aux0 y0 st0 k) i - iterateAt S fn aux0 y0 st0 k i) =
            fun i => (-rate) * grad (iterateAt S fn aux0 y0 st0 k) i := by funext i; simp [gdMap]
        rw [e2, euclid_smul_eq, abs_neg, abs_of_pos hr0]
        have h1 := hdec (iterateAt S fn aux0 y0 st0 k)
        rw [← euclid_sq] at h1
        show _ ≤ (fn _).1 - (fn _).1
        nlinarith
    · rcases hmove k with e | e
      · exact e
      · rw [e]; funext i; simp [gdMap, hk i]
    · refine (tendsto_add_atTop_iff_nat 1).1 ?_
      rcases (sub_nonneg.2 (hd.lower y0)).eq_or_lt with h0 | h0
      · have : ∀ k, (fn ((gdMap rate grad)^[k] y0)).1 = m := by
          intro k
          have h1 := hpow k
          rw [← h0, mul_zero] at h1
          exact le_antisymm (by linarith) (hd.lower _)
        simp only [hY, this]
        exact tendsto_const_nhds
      · have hρ : 0 ≤ 1 - rate * μ := by
          by_contra hlt
          push Not at hlt
          have h1 := hpow 1
          have h2 := mul_neg_of_neg_of_pos hlt h0
          have h3 := hd.lower ((gdMap rate grad)^[1] y0)
          simp only [pow_one] at h1
          linarith
        have hρ1 : 1 - rate * μ < 1 := by have := mul_pos hr0 hμ; linarith
        have h1 : Tendsto (fun k : ℕ => m + (1 - rate * μ) ^ k * ((fn y0).1 - m)) atTop (𝓝 m) := by
          have := ((tendsto_pow_atTop_nhds_zero_of_lt_one hρ hρ1).mul_const ((fn y0).1 - m)).const_add m
          simpa using this
        simp only [hY]
        refine tendsto_of_tendsto_of_tendsto_of_le_of_le tendsto_const_nhds h1 (fun k => hd.lower _) fun k => ?_
        show (fn ((gdMap rate grad)^[k] y0)).1 ≤ _
        linarith [hpow k]

/-- **C115**, steepest descent with backtracking: the height shrinks by a fixed factor in every `q` trials (`q` being any number of
trials that brings the step size below the smallest one the search can be forced to); the iterates converge to a global minimiser; the
solve stops by itself and reports success, with every sufficiently large budget and with none; and the value returned is within the
tolerances' reach of the minimum. -/
theorem C115_backtracking (d s i : ℝ) (a : Armijo.Cfg ℝ) (ha : Armijo.new d s i = .ok a)
    (rtol atol : ℝ) (nY : (ι → ℝ) → ℝ) (nF : (Unit → ℝ) → ℝ) (grad : (ι → ℝ) → (ι → ℝ)) (aux0 : A)
    (fn : (ι → ℝ) → ℝ × A) (y0 : ι → ℝ) (L μ m : ℝ) (hL0 : 0 < L) (hL : LipschitzGradient (fun y => (fn y).1) grad L)
    (hd : GradientDominated (fun y => (fn y).1) grad μ m)
    (hat : 0 < atol) (hrt : 0 ≤ rtol) (hY : GoodNorm nY) (hF : GoodNorm nF)
    (q : ℕ) (hq : a.stepInit * a.decreaseFactor ^ q < smallestStep a L) :
    let S := GradientDescent.solver (backtrackingDescent a rtol atol nY nF grad) aux0
    ∃ st0, S.init fn y0 = .ok st0 ∧
      let Y := iterateAt S fn aux0 y0 st0
      (∀ n k, q * n ≤ k → (fn (Y (k + 1))).1 - m ≤ descentFactor a L μ ^ n * ((fn y0).1 - m)) ∧
      ReachesMinimum (fun y => (fn y).1) Y m (2 / (a.slope ^ 2 * μ)) ∧
      (∃ N, ∀ ms throw, (∀ n, ms = some n → N ≤ n) →
        ∃ sol, iterativeSolve S (fun _ => true) fn aux0 y0 ms throw = some (.ok sol) ∧ sol.result = .successful ∧
          sol.numSteps ≤ N) ∧
      ∀ af ms throw sol, iterativeSolve S af fn aux0 y0 ms throw = some (.ok sol) → sol.result = .successful →
        (∀ (x : ι → ℝ) i, |x i| ≤ nY x) →
        (fn sol.value).1 - m ≤ (1 / smallestStep a L + L) ^ 2 * (∑ i, (atol + rtol * |sol.value i|) ^ 2) / (2 * μ) := by
  intro S
  have ha' := ha
  obtain ⟨rfl, hd0, hd1, hs0, hs1, hi0⟩ := armijo_new d s i a ha
  have hμ0 := hd.pos
  obtain ⟨st0, hi, hgz, hstop⟩ := C62_steepest_descent d s i _ ha' rtol atol nY nF grad aux0 fn y0 L m hL hd.lower hat hrt hY hF
  refine ⟨st0, hi, ?_⟩
  intro Y
  set cfg := backtrackingDescent ⟨d, s, i⟩ rtol atol nY nF grad with hcfg
  have LL := gd_laws cfg aux0 fn
  have LA : Laws S fn (fun y => (fn y).1) (Armijo.search ⟨d, s, i⟩) cfg.descent (gdView fn) _ := LL
  have hG : ∀ y (i : FnInfo ι Unit), i = .evalGrad (fn y).1 (cfg.grad y) → i.grad? = some (cfg.grad y) := by
    rintro y i rfl; rfl
  have hrel := steepest_related ⟨d, s, i⟩ rtol atol nY nF grad aux0 fn y0 st0 hi
  have hY1 : Y 1 = y0 := (armijo_start LA aux0 y0 st0 hi).1
  have htm0 : 0 < smallestStep ⟨d, s, i⟩ L := by
    unfold smallestStep
    refine lt_min hi0 ?_
    have : 0 < 1 - s := by linarith
    show 0 < d * (2 * (1 - s) / L)
    positivity
  refine ⟨?_, ?_, hstop, fun af ms throw sol h hs hN =>
    hd.height sol.value _ (C114_backtracking rtol atol hat hrt nY hN nF d s i _ ha' L hL0 grad aux0 fn y0 hL af ms throw sol h hs)⟩
  · obtain ⟨p1, p2, p3⟩ := armijo_progress (G := grad) LA hG aux0 y0 st0 hi hd0 hd1 hs0 hs1 hi0 L L 1 1 one_pos hL0 hL0.le
      (by rw [mul_one]) hL.bound (fun k => ⟨fun c => -grad (Y (k + 1)) c, fun t => congrArg Prod.fst (hrel (k + 1) (by omega) t), by
        rw [one_mul]
        unfold treeDot sumSquares
        rw [← Finset.sum_neg_distrib]
        exact (Finset.sum_congr rfl fun c _ => by ring).le, by
        rw [one_mul]
        unfold sumSquares
        exact (Finset.sum_congr rfl fun c _ => by ring).le⟩) (smallestStep ⟨d, s, i⟩ L)
        (by unfold smallestStep; rw [mul_one]) q hq
    have hblock : ∀ k, (fn (Y (k + q + 1))).1 - m ≤ descentFactor ⟨d, s, i⟩ L μ * ((fn (Y (k + 1))).1 - m) := by
      intro k
      exact block_rate (fun k => (fn (Y (k + 1))).1) (fun k => sumSquares (grad (Y (k + 1)))) m μ
        (s * smallestStep ⟨d, s, i⟩ L) q p1 (by positivity) (fun k => by rw [sumSquares_pow]; exact hd.slope _) (fun k => by
          obtain ⟨j, hj, _, _, hg⟩ := p3 k
          refine ⟨j, hj, ?_⟩
          rw [mul_one] at hg
          exact hg) k
    have hanti : Antitone fun k => (fn (Y (k + 1))).1 := antitone_nat_of_succ_le p1
    intro n k hk
    have h1 := contraction_pow (fun n => (fn (Y (q * n + 1))).1 - m) _ (fun k => sub_nonneg.2 (hd.lower _)) (fun n => by
      have := hblock (q * n)
      rwa [show q * n + q + 1 = q * (n + 1) + 1 by ring] at this) n
    simp only [mul_zero, zero_add] at h1
    rw [hY1] at h1
    have h2 := hanti hk
    simp only at h2
    linarith
  · have hrun := armijo_run (G := grad) LA hG aux0 y0 st0 hi
    have hmove : ∀ k, Y (k + 1) = Y k ∨ ∃ T, Y (k + 1) = (fun c => Y k c + T * -grad (Y k) c) ∧
        ArmijoHolds s (fun y => (fn y).1) (grad (Y k)) (Y k) (Y (k + 1)) := by
      intro k
      obtain _ | k := k
      · left; rw [hY1]; rfl
      · rcases (hrun k).2 with ⟨h1, h2, _⟩ | ⟨_, h2, _⟩
        · right
          have h3 := armijo_trial (G := grad) LA hG aux0 y0 st0 hi k
          have h4 := congrArg Prod.fst (hrel (k + 1) (by omega) ((gdView fn).ss (stateAt S fn aux0 y0 st0 (k + 1))))
          refine ⟨(gdView fn).ss (stateAt S fn aux0 y0 st0 (k + 1)), ?_, ?_⟩
          · show Y (k + 2) = _
            rw [show Y (k + 2) = _ from h2, h3]
            funext c
            exact congrArg (fun x => Y (k + 1) c + x) (congrFun h4 c)
          · show ArmijoHolds s _ _ _ (Y (k + 2))
            rw [show Y (k + 2) = _ from h2]; exact h1
        · left; exact h2
    refine reaches_minimum hL hd s hs0 Y (fun k => ?_) (fun k hk => ?_) (hd.values Y hgz)
    · rcases hmove k with e | ⟨T, e, h1, h2⟩
      · rw [e]; simp [euclid]
      · have e2 : (fun c => Y (k + 1) c - Y k c) = fun c => (-T) * grad (Y k) c := by rw [e]; funext c; ring
        have e3 : treeDot (grad (Y k)) (fun c => Y (k + 1) c - Y k c) = -T * euclid (grad (Y k)) ^ 2 := by
          rw [e2, euclid_sq]
          unfold treeDot
          rw [Finset.mul_sum]
          exact Finset.sum_congr rfl fun c _ => by ring
        rw [e3] at h1 h2
        rw [e2, euclid_smul_eq, abs_neg]
        have hE := euclid_nonneg (grad (Y k))
        have h5 : |T| * euclid (grad (Y k)) ^ 2 = T * euclid (grad (Y k)) ^ 2 := by
          rcases hE.eq_or_lt with h0 | h0
          · rw [← h0]; simp
          · have : 0 ≤ T := by
              by_contra hlt
              push Not at hlt
              have : 0 < -T * euclid (grad (Y k)) ^ 2 := mul_pos (by linarith) (by positivity)
              linarith
            rw [abs_of_nonneg this]
        show _ ≤ (fn _).1 - (fn _).1
        have h6 : s * euclid (grad (Y k)) * (|T| * euclid (grad (Y k))) = s * (|T| * euclid (grad (Y k)) ^ 2) := by ring
        rw [h6, h5]
        simp only at h1
        linarith
    · rcases hmove k with e | ⟨T, e, _⟩
      · exact e
      · rw [e]; funext c; simp [hk c]

/-- Counting accepted and rejected trials on a gradient-dominated objective: of the first `N` steps, `a` were accepted, each of which
lowered the height by the factor `1 - θ`, and the number of rejected ones is at most `r a + q`. -/
theorem trust_run_rate {X : Type} {f : X → ℝ} {trial : X → ℝ → X} {pred : X → ℝ → ℝ} {c l h : ℝ} {y : Nat → X} {t : Nat → ℝ}
    (R : TrustRun f trial pred c l h y t) (hl0 : 0 < l) (hl1 : l < 1) (hh : 1 ≤ h) (tmin : ℝ)
    (hrad : ∀ k, tmin ≤ t k)
    (m : ℝ) (hm : ∀ k, m ≤ f (y k)) (θ : ℝ)
    (hpred : ∀ k, f (trial (y k) (t k)) - f (y k) ≤ c * pred (y k) (t k) →
      f (trial (y k) (t k)) - f (y k) ≤ -(θ * (f (y k) - m)))
    (r q : Nat) (hr : l ^ r * h ≤ 1) (hq : l ^ q * t 0 < tmin) (N : Nat) :
    ∃ a b : Nat, a + b = N ∧ b ≤ r * a + q ∧ f (y N) - m ≤ (1 - θ) ^ a * (f (y 0) - m) := by
  have key : ∀ k, ∃ a b : Nat, a + b = k ∧ (f (y k) - m ≤ (1 - θ) ^ a * (f (y 0) - m)) ∧ t k * l ^ (r * a) ≤ t 0 * l ^ b := by
    intro k
    induction k with
    | zero => exact ⟨0, 0, rfl, by simp, by simp⟩
    | succ k ih =>
      obtain ⟨a, b, hab, h1, h2⟩ := ih
      have ht := R.pos k
      rcases R.rule k with ⟨a1, a2, a3⟩ | ⟨_, b2, b3⟩
      · refine ⟨a + 1, b, by omega, ?_, ?_⟩
        · have hp := hpred k a1
          rw [← a2] at hp
          rcases (sub_nonneg.2 (hm k)).eq_or_lt with h0 | h0
          · -- nothing left: then the factor may be anything
            rcases (sub_nonneg.2 (hm 0)).eq_or_lt with h00 | h00
            · rw [← h00, mul_zero]; rw [← h0] at hp; linarith
            · by_cases hθ : 0 ≤ 1 - θ
              · have : 0 ≤ (1 - θ) ^ (a + 1) * (f (y 0) - m) := by positivity
                rw [← h0] at hp; linarith
              · exfalso
                push Not at hθ
                -- the first accepted trial would have gone below the bound
                have hneg : ∀ j, y j = y 0 ∨ False := by
                  intro j
                  induction j with
                  | zero => exact .inl rfl
                  | succ j ihj =>
                    rcases ihj with e | e
                    · rcases R.rule j with ⟨c1, c2, _⟩ | ⟨_, c2, _⟩
                      · have h3 := hpred j c1
                        rw [← c2] at h3
                        have h4 := hm (j + 1)
                        rw [e] at h3
                        have h5 := mul_pos_of_neg_of_neg hθ (by linarith : -(f (y 0) - m) < 0)
                        nlinarith
                      · exact .inl (c2.trans e)
                    · exact e.elim
                rcases hneg k with e | e
                · rw [e] at h0; linarith
                · exact e
          · have hθ : 0 ≤ 1 - θ := by
              by_contra hlt
              push Not at hlt
              have h3 := mul_neg_of_neg_of_pos hlt h0
              have h4 := hm (k + 1)
              nlinarith
            have h3 := mul_le_mul_of_nonneg_left h1 hθ
            rw [pow_succ', mul_assoc]
            nlinarith
        · have h3 : t (k + 1) ≤ h * t k := by
            rcases a3 with a3 | a3
            · exact a3.le
            · rw [a3]; nlinarith
          have h4 : (0:ℝ) < l ^ (r * a) := pow_pos hl0 _
          have h5 : (0:ℝ) < l ^ r := pow_pos hl0 _
          calc t (k + 1) * l ^ (r * (a + 1)) = t (k + 1) * (l ^ r * l ^ (r * a)) := by rw [mul_add, mul_one, pow_add]; ring
            _ ≤ h * t k * (l ^ r * l ^ (r * a)) := mul_le_mul_of_nonneg_right h3 (by positivity)
            _ = (l ^ r * h) * (t k * l ^ (r * a)) := by ring
            _ ≤ 1 * (t k * l ^ (r * a)) := mul_le_mul_of_nonneg_right hr (by positivity)
            _ ≤ t 0 * l ^ b := by linarith
      · refine ⟨a, b + 1, by omega, by rw [b2]; exact h1, ?_⟩
        rw [b3, pow_succ]
        have := mul_le_mul_of_nonneg_left h2 hl0.le
        calc l * t k * l ^ (r * a) = l * (t k * l ^ (r * a)) := by ring
          _ ≤ l * (t 0 * l ^ b) := this
          _ = t 0 * (l ^ b * l) := by ring
  obtain ⟨a, b, hab, h1, h2⟩ := key N
  refine ⟨a, b, hab, ?_, h1⟩
  by_contra hlt
  push Not at hlt
  have h3 : l ^ b ≤ l ^ (r * a + q) := pow_le_pow_of_le_one hl0.le hl1.le hlt.le
  have h4 : (0:ℝ) < l ^ (r * a) := pow_pos hl0 _
  have h5 := mul_le_mul_of_nonneg_right (hrad N) h4.le
  have h6 := mul_lt_mul_of_pos_right hq h4
  have h7 := mul_le_mul_of_nonneg_left h3 (R.pos 0).le
  rw [pow_add] at h7
  nlinarith

/-- **C115**, steepest descent with `LinearTrustRegion`: after `N` steps the height has shrunk by the factor
`1 - 2μ * low_cutoff * smallest radius` as often as a trial was accepted, and the number `b` of rejected trials is at most
`r a + q`; the iterates converge to a global minimiser; the solve stops by itself and reports success; and the value returned is
within the tolerances' reach of the minimum. -/
theorem C115_trust_region (c : TrustRegion.Cfg ℝ) (hc0 : 0 < c.lowCutoff) (hc1 : c.lowCutoff < 1) (hl0 : 0 < c.lowConstant)
    (hl1 : c.lowConstant < 1) (hh : 1 ≤ c.highConstant) (cfg : GradientDescent.Cfg ι ℝ (ι → ℝ))
    (hs : cfg.search = TrustRegion.linear c) (hdesc : cfg.descent = steepestDescent none) (aux0 : A) (fn : (ι → ℝ) → ℝ × A)
    (y0 : ι → ℝ) (L μ m : ℝ) (hL : LipschitzGradient (fun y => (fn y).1) cfg.grad L) (hL0 : 0 < L)
    (hd : GradientDominated (fun y => (fn y).1) cfg.grad μ m)
    (hat : 0 < cfg.atol) (hrt : 0 ≤ cfg.rtol) (hY : GoodNorm cfg.normY) (hF : GoodNorm cfg.normF)
    (st0 : GradientDescent.State ι A ℝ (ι → ℝ)) (hi : (GradientDescent.solver cfg aux0).init fn y0 = .ok st0)
    (r q : Nat) (hr : c.lowConstant ^ r * c.highConstant ≤ 1)
    (hq : c.lowConstant ^ q < min 1 (c.lowConstant * (2 * (1 - c.lowCutoff) / L))) :
    let S := GradientDescent.solver cfg aux0
    let Y := iterateAt S fn aux0 y0 st0
    let tmin := min 1 (c.lowConstant * (2 * (1 - c.lowCutoff) / L))
    (∀ N, ∃ a b : Nat, a + b = N ∧ b ≤ r * a + q ∧
      (fn (Y (N + 1))).1 - m ≤ (1 - 2 * μ * (c.lowCutoff * tmin)) ^ a * ((fn y0).1 - m)) ∧
    ReachesMinimum (fun y => (fn y).1) Y m (2 / (c.lowCutoff ^ 2 * μ)) ∧
    (∃ N, ∀ ms throw, (∀ n, ms = some n → N ≤ n) →
      ∃ sol, iterativeSolve S (fun _ => true) fn aux0 y0 ms throw = some (.ok sol) ∧ sol.result = .successful ∧
        sol.numSteps ≤ N) ∧
    ∀ af ms throw sol, iterativeSolve S af fn aux0 y0 ms throw = some (.ok sol) → sol.result = .successful →
      (∀ (x : ι → ℝ) i, |x i| ≤ cfg.normY x) →
      (fn sol.value).1 - m ≤ (1 / tmin + L) ^ 2 * (∑ i, (cfg.atol + cfg.rtol * |sol.value i|) ^ 2) / (2 * μ) := by
  intro S Y tmin
  have hμ := hd.pos
  obtain ⟨R, hY1, hr1, hy⟩ := gd_trust_run c hl0 (by linarith) cfg hs hdesc aux0 fn y0 st0 hi
  obtain ⟨hgz, hradA, _, _⟩ := C110_gradient_vanishes c hc0 hc1 hl0 hl1 hh cfg hs hdesc aux0 fn y0 L m hL hL0 hd.lower st0 hi
  set St := stateAt S fn aux0 y0 st0 with hSt
  have htm : 0 < tmin := lt_min one_pos (by have := sub_pos.2 hc1; positivity)
  refine ⟨fun N => ?_, ?_, C110_success c hc0 hc1 hl0 hl1 hh cfg hs hdesc aux0 fn y0 L m μ hL hL0 hd.lower hμ hd.slope hat hrt hY hF
    st0 hi, fun af ms throw sol h hsc hN => hd.height sol.value _
      (C114_trust_region cfg.rtol cfg.atol hat hrt cfg.normY hN c hc0 hc1 hl0 hh cfg rfl rfl rfl hs hdesc aux0 fn y0 L hL hL0 af ms
        throw sol h hsc)⟩
  · have h := trust_run_rate R hl0 hl1 hh tmin (fun k => hradA (k + 1)) m (fun k => hd.lower _) (2 * μ * (c.lowCutoff * tmin))
      (fun k h => h.trans (by
        have h1 := hd.slope (Y (k + 1))
        have h2 := hradA (k + 1)
        have hG : 0 ≤ ∑ i, cfg.grad (Y (k + 1)) i ^ 2 := Finset.sum_nonneg fun i _ => sq_nonneg _
        have h3 := mul_le_mul_of_nonneg_left (mul_le_mul_of_nonneg_right h2 hG) hc0.le
        have h4 := mul_le_mul_of_nonneg_left h1 (mul_pos hc0 htm).le
        show c.lowCutoff * -((St (k + 1)).searchState * ∑ i, cfg.grad (Y (k + 1)) i ^ 2) ≤
          -(2 * μ * (c.lowCutoff * tmin) * ((fn (Y (k + 1))).1 - m))
        have h5 : c.lowCutoff * (tmin * ∑ i, cfg.grad (Y (k + 1)) i ^ 2) ≤
          c.lowCutoff * ((St (k + 1)).searchState * ∑ i, cfg.grad (Y (k + 1)) i ^ 2) := h3
        nlinarith)) r q hr (by
        show c.lowConstant ^ q * (St 1).searchState < tmin
        rw [show (St 1).searchState = 1 from hr1, mul_one]; exact hq) N
    simp only [zero_add] at h
    rw [show iterateAt (GradientDescent.solver cfg aux0) fn aux0 y0 st0 1 = y0 from hY1] at h
    exact h
  · have hmove : ∀ k, Y (k + 1) = Y k ∨ ∃ T, 0 < T ∧ Y (k + 1) = (fun j => Y k j - T * cfg.grad (Y k) j) ∧
        (fn (Y (k + 1))).1 - (fn (Y k)).1 ≤ c.lowCutoff * -(T * ∑ j, cfg.grad (Y k) j ^ 2) := by
      intro k
      obtain _ | k := k
      · left; exact hY1
      · rcases R.rule k with ⟨a1, a2, _⟩ | ⟨_, b2, _⟩
        · right
          have a2' : Y (k + 2) = fun j => Y (k + 1) j - (St (k + 1)).searchState * cfg.grad (Y (k + 1)) j := a2
          refine ⟨(St (k + 1)).searchState, R.pos k, a2', ?_⟩
          show (fn (Y (k + 2))).1 - _ ≤ _
          rw [a2']; exact a1
        · left; exact b2
    refine reaches_minimum hL hd c.lowCutoff hc0 Y (fun k => ?_) (fun k hk => ?_) (hd.values Y hgz)
    · rcases hmove k with e | ⟨T, hT, e, h1⟩
      · rw [e]; simp [euclid]
      · have e2 : (fun j => Y (k + 1) j - Y k j) = fun j => (-T) * cfg.grad (Y k) j := by rw [e]; funext j; ring
        rw [e2, euclid_smul_eq, abs_neg, abs_of_pos hT]
        rw [← euclid_sq] at h1
        show _ ≤ (fn _).1 - (fn _).1
        nlinarith
    · rcases hmove k with e | ⟨T, _, e, _⟩
      · exact e
      · rw [e]; funext j; simp [hk j]

/-! ### The hypotheses are met -/

/-- `x² + 3 sin² x`: not convex, but its only stationary point is the minimiser. -/
noncomputable def wavyBowl (y : Unit → ℝ) : ℝ := y () ^ 2 + 3 * Real.sin (y ()) ^ 2
/-- Its gradient. -/
noncomputable def wavyBowlGrad (y : Unit → ℝ) : Unit → ℝ := fun _ => 2 * y () + 3 * Real.sin (2 * y ())

theorem wavyBowl_lipschitz : LipschitzGradient wavyBowl wavyBowlGrad 8 where
  deriv y p := by
    have h1 : HasDerivAt (fun t : ℝ => y () + t * p ()) (p ()) 0 := by
      simpa using ((hasDerivAt_id (0:ℝ)).mul_const (p ())).const_add (y ())
    have h2 := (h1.fun_pow 2).add ((h1.sin.fun_pow 2).const_mul 3)
    refine h2.congr_deriv ?_
    simp only [zero_mul, add_zero, Finset.univ_unique, Finset.sum_singleton, wavyBowlGrad]
    show _ = (2 * y () + 3 * Real.sin (2 * y ())) * p ()
    rw [Real.sin_two_mul]
    push_cast
    ring
  lipschitz y z := by
    simp only [Finset.univ_unique, Finset.sum_singleton, wavyBowlGrad]
    have hsin : |Real.sin (2 * y ()) - Real.sin (2 * z ())| ≤ 2 * |y () - z ()| := by
      have h := Real.lipschitzWith_sin.dist_le_mul (2 * y ()) (2 * z ())
      rw [Real.dist_eq, Real.dist_eq, ← mul_sub, abs_mul] at h
      simpa using h
    have h : |2 * y () + 3 * Real.sin (2 * y ()) - (2 * z () + 3 * Real.sin (2 * z ()))| ≤ 8 * |y () - z ()| := by
      have e : 2 * y () + 3 * Real.sin (2 * y ()) - (2 * z () + 3 * Real.sin (2 * z ())) =
        2 * (y () - z ()) + 3 * (Real.sin (2 * y ()) - Real.sin (2 * z ())) := by ring
      rw [e]
      refine (abs_add_le _ _).trans ?_
      rw [abs_mul, abs_mul, abs_two, abs_of_pos (by norm_num : (0:ℝ) < 3)]
      linarith
    show (2 * y () + 3 * Real.sin (2 * y ()) - (2 * z () + 3 * Real.sin (2 * z ()))) ^ 2 ≤ 8 ^ 2 * (y () - z ()) ^ 2
    rw [← sq_abs, ← sq_abs (y () - z ()), ← mul_pow]
    exact pow_le_pow_left₀ (abs_nonneg _) h 2
  nonneg := by norm_num

theorem wavyBowl_slope (x : ℝ) (hx : 0 ≤ x) : x / 25 ≤ x + 3 * Real.sin x := by
  rcases le_or_gt x Real.pi with h | h
  · have := Real.sin_nonneg_of_nonneg_of_le_pi hx h
    linarith
  · have h1 := Real.neg_one_le_sin x
    have h2 := Real.pi_gt_d2
    linarith

theorem wavyBowl_dominated : GradientDominated wavyBowl wavyBowlGrad (1 / 5000) 0 where
  pos := by norm_num
  lower y := by unfold wavyBowl; positivity
  slope y := by
    simp only [Finset.univ_unique, Finset.sum_singleton, wavyBowlGrad]
    show 2 * (1 / 5000) * (wavyBowl y - 0) ≤ (2 * y () + 3 * Real.sin (2 * y ())) ^ 2
    have h1 : |2 * y ()| / 25 ≤ |2 * y () + 3 * Real.sin (2 * y ())| := by
      rcases le_total 0 (y ()) with h | h
      · have := wavyBowl_slope (2 * y ()) (by linarith)
        rw [abs_of_nonneg (by linarith : (0:ℝ) ≤ 2 * y ())]
        exact this.trans (le_abs_self _)
      · have := wavyBowl_slope (-(2 * y ())) (by linarith)
        rw [Real.sin_neg] at this
        rw [abs_of_nonpos (by linarith : 2 * y () ≤ 0)]
        exact le_trans (by linarith) (neg_le_abs _)
    have h2 := pow_le_pow_left₀ (by positivity) h1 2
    rw [div_pow, sq_abs, sq_abs] at h2
    have h3 : Real.sin (y ()) ^ 2 ≤ y () ^ 2 := by
      rw [← sq_abs, ← sq_abs (y ())]
      exact pow_le_pow_left₀ (abs_nonneg _) Real.abs_sin_le_abs 2
    unfold wavyBowl
    nlinarith [sq_nonneg (y ())]

/-- It really is not convex: the value half-way between `0` and `π` exceeds the mean of the values there. -/
example : (wavyBowl (fun _ => 0) + wavyBowl fun _ => Real.pi) / 2 < wavyBowl fun _ => Real.pi / 2 := by
  simp only [wavyBowl, Real.sin_zero, Real.sin_pi, Real.sin_pi_div_two]
  nlinarith [Real.pi_lt_d2, Real.pi_pos]

/-- Gradient descent on it, from everywhere. -/
example (y0 : Unit → ℝ) (af : (Unit → ℝ) → Bool) (ms : Option Nat) (throw : Bool)
    (sol : Solution (Unit → ℝ) Unit (GradientDescent.State Unit Unit Unit (Unit → ℝ)) Unit)
    (h : iterativeSolve (GradientDescent.solver (GradientDescent.gradientDescent (1 / 8) (1 / 10) (1 / 10) (maxNorm (ι := Unit)) maxNorm
      wavyBowlGrad) ()) af (fun y => (wavyBowl y, ())) () y0 ms throw = some (.ok sol)) :
    wavyBowl sol.value ≤ (1 - 1 / 8 * (1 / 5000)) ^ (sol.numSteps - 1) * wavyBowl y0 := by
  have key := (C115_gradient_descent (1 / 8) (1 / 10) (1 / 10) 8 (1 / 5000) 0 (by norm_num) (by norm_num) (maxNorm (ι := Unit)) maxNorm
    wavyBowlGrad () (fun y => (wavyBowl y, ())) y0 wavyBowl_lipschitz wavyBowl_dominated).1 af ms throw sol h
  simpa only [sub_zero] using key.1

/-- Backtracking on it, from everywhere: the solve succeeds, and converges to a global minimiser. -/
example (y0 : Unit → ℝ) : ∃ sol, iterativeSolve (GradientDescent.solver (backtrackingDescent ⟨1/2, 1/10, 1⟩ (1/10) (1/10)
      (maxNorm (ι := Unit)) maxNorm wavyBowlGrad) ()) (fun _ => true) (fun y => (wavyBowl y, ())) () y0 none true = some (.ok sol) ∧
    sol.result = .successful := by
  have hnew : Armijo.new (1/2 : ℝ) (1/10) 1 = .ok ⟨1/2, 1/10, 1⟩ := by norm_num [Armijo.new]
  obtain ⟨st0, _, _, _, ⟨N, hN⟩, _⟩ := C115_backtracking (1/2) (1/10) 1 _ hnew (1/10) (1/10) (maxNorm (ι := Unit)) maxNorm
    wavyBowlGrad () (fun y => (wavyBowl y, ())) y0 8 (1 / 5000) 0 (by norm_num) wavyBowl_lipschitz wavyBowl_dominated (by norm_num)
    (by norm_num) goodNorm_maxNorm goodNorm_maxNorm 4 (by norm_num [smallestStep])
  obtain ⟨sol, h1, h2, _⟩ := hN none true (by simp)
  exact ⟨sol, h1, h2⟩

/-- `½ (x + z - 1)²`: its minimisers form a line. -/
noncomputable def trough (y : Fin 2 → ℝ) : ℝ := (y 0 + y 1 - 1) ^ 2 / 2
/-- Its gradient. -/
def troughGrad (y : Fin 2 → ℝ) : Fin 2 → ℝ := fun _ => y 0 + y 1 - 1

theorem trough_lipschitz : LipschitzGradient trough troughGrad 2 where
  deriv y p := by
    have h : ∀ j, HasDerivAt (fun t : ℝ => y j + t * p j) (p j) 0 := fun j => by
      simpa using ((hasDerivAt_id (0:ℝ)).mul_const (p j)).const_add (y j)
    have h2 := ((((h 0).add (h 1)).sub_const 1).fun_pow 2).div_const 2
    refine h2.congr_deriv ?_
    simp [Fin.sum_univ_two, troughGrad]
    ring
  lipschitz y z := by
    simp only [Fin.sum_univ_two, troughGrad]
    nlinarith [sq_nonneg ((y 0 - z 0) - (y 1 - z 1))]
  nonneg := by norm_num

theorem trough_dominated : GradientDominated trough troughGrad 2 0 where
  pos := by norm_num
  lower y := by unfold trough; positivity
  slope y := by
    simp only [Fin.sum_univ_two, troughGrad, trough]
    linarith

/-- The trust region on it. -/
example (y0 : Fin 2 → ℝ) : ∃ N, ∀ ms throw, (∀ n, ms = some n → N ≤ n) →
    ∃ sol, iterativeSolve (GradientDescent.solver { backtrackingDescent ⟨1/2, 1/10, 1⟩ (1/10) (1/10) (maxNorm (ι := Fin 2)) maxNorm
      troughGrad with search := TrustRegion.linear TrustRegion.defaults } ()) (fun _ => true) (fun y => (trough y, ())) () y0 ms throw =
        some (.ok sol) ∧ sol.result = .successful ∧ sol.numSteps ≤ N := by
  have key := C115_trust_region (TrustRegion.defaults : TrustRegion.Cfg ℝ) (by norm_num [TrustRegion.defaults])
    (by norm_num [TrustRegion.defaults]) (by norm_num [TrustRegion.defaults]) (by norm_num [TrustRegion.defaults])
    (by norm_num [TrustRegion.defaults]) { backtrackingDescent ⟨1/2, 1/10, 1⟩ (1/10) (1/10) (maxNorm (ι := Fin 2)) maxNorm
      troughGrad with search := TrustRegion.linear TrustRegion.defaults } rfl rfl () (fun y => (trough y, ())) y0 2 2 0
    trough_lipschitz (by norm_num) trough_dominated (by norm_num [backtrackingDescent]) (by norm_num [backtrackingDescent])
    (goodNorm_maxNorm (ι := Fin 2)) (goodNorm_maxNorm (ι := Unit)) _ rfl 1 2 (by norm_num [TrustRegion.defaults]) (by norm_num [TrustRegion.defaults])
  exact key.2.2.1

end Verif.Props
