import Verif.Props.GaussNewtonLocal
import Verif.Props.Search
import Verif.Spec.NoisyFit

/-!
**C133.** `GaussNewton` with errors: the residuals, their Jacobian and the linear least-squares problems are only approximately right.
-/

namespace Verif.Props

open Verif Verif.Spec Verif.Driver Verif.Rank Filter Topology

variable {ι κ A : Type} [Fintype ι] [Fintype κ]

theorem sum_mulVec (M : Matrix κ ι ℝ) (v : ι → ℝ) (w : κ → ℝ) : ∑ m, M.mulVec v m * w m = ∑ i, v i * ∑ m, M m i * w m := by
  simp only [Matrix.mulVec, dotProduct, Finset.sum_mul, Finset.mul_sum]
  rw [Finset.sum_comm]
  exact Finset.sum_congr rfl fun i _ => Finset.sum_congr rfl fun m _ => by ring

/-- A vector is no longer than its largest product with a vector of length one. -/
theorem euclid_le_of_dot (w : ι → ℝ) (K : ℝ) (hK : 0 ≤ K) (h : ∀ v : ι → ℝ, ∑ i, v i * w i ≤ K * euclid v) : euclid w ≤ K := by
  have h1 := h w
  have h2 : ∑ i, w i * w i = euclid w * euclid w := by
    rw [← sq, euclid_sq]; exact Finset.sum_congr rfl fun i _ => by ring
  rw [h2] at h1
  rcases (euclid_nonneg w).eq_or_lt with h0 | h0
  · rw [← h0]; exact hK
  · exact le_of_mul_le_mul_right h1 h0

theorem gn_noisy_scalar (σ c b γ ε β P T X E Mx Jr : ℝ) (hX : 0 ≤ X) (hE : 0 ≤ E) (hε : 0 ≤ ε) (hγ : 0 ≤ γ) (hb : ε + γ ≤ b)
    (hβ : 0 ≤ β) (hT : 0 ≤ T) (hc : 0 ≤ c) (hJr0 : 0 ≤ Jr) (hup : Mx ≤ b * X) (hlow : σ * X ^ 2 ≤ Jr ^ 2)
    (hJr : Jr ≤ Mx + (ε + γ) * X) (hmain : Mx ^ 2 ≤ Mx * ((ε + γ) * E + β) + X * (P * E + T))
    (hsmall : ε * (b + c * (3 * b)) ≤ c * (σ - 3 * b * γ) - (b * γ + P)) (hpos : 0 < σ - 3 * b * γ)
    (hhalf : 3 * b * ε ≤ (σ - 3 * b * γ) / 2) :
    X ≤ c * E + 2 * (b * β + T) / (σ - 3 * b * γ) := by
  have hb0 : 0 ≤ b := (add_nonneg hε hγ).trans hb
  set s := σ - 3 * b * γ with hs
  have hrhs : 0 ≤ c * E + 2 * (b * β + T) / s := by positivity
  rcases hX.eq_or_lt with h | hX
  · rw [← h]; exact hrhs
  set θ := ε + γ with hθ
  have hθ0 : 0 ≤ θ := add_nonneg hε hγ
  have h1 : (σ - 3 * b * θ) * X ^ 2 ≤ Mx ^ 2 := by
    have a1 : Jr ^ 2 ≤ (Mx + θ * X) ^ 2 := pow_le_pow_left₀ hJr0 hJr 2
    have a2 : θ * X * Mx ≤ θ * X * (b * X) := mul_le_mul_of_nonneg_left hup (by positivity)
    have a3 : θ * θ * X ^ 2 ≤ θ * b * X ^ 2 := by gcongr
    nlinarith
  have h2 : Mx * (θ * E + β) ≤ b * X * (θ * E + β) := mul_le_mul_of_nonneg_right hup (by positivity)
  have h3 : (s - 3 * b * ε) * X ≤ (b * θ + P) * E + (b * β + T) := by
    have : X * ((s - 3 * b * ε) * X) ≤ X * ((b * θ + P) * E + (b * β + T)) := by
      have e : s - 3 * b * ε = σ - 3 * b * θ := by rw [hs, hθ]; ring
      rw [e]; nlinarith
    exact le_of_mul_le_mul_left this hX
  have h4 : b * θ + P ≤ c * (s - 3 * b * ε) := by rw [hθ]; nlinarith
  have h5 := mul_le_mul_of_nonneg_right h4 hE
  have h6 : b * β + T ≤ (s - 3 * b * ε) * (2 * (b * β + T) / s) := by
    have e : b * β + T = s / 2 * (2 * (b * β + T) / s) := by field_simp
    calc b * β + T = s / 2 * (2 * (b * β + T) / s) := e
      _ ≤ _ := mul_le_mul_of_nonneg_right (by linarith) (by positivity)
  have h7 : (s - 3 * b * ε) * X ≤ (s - 3 * b * ε) * (c * E + 2 * (b * β + T) / s) := by nlinarith
  exact le_of_mul_le_mul_left h7 (by linarith)

/-- One step with errors. -/
theorem gauss_newton_noisy {F : (ι → ℝ) → κ → ℝ} {jac : (ι → ℝ) → Matrix κ ι ℝ} {r : ι → ℝ} {σ q : ℝ}
    (h : LocalFit F jac r σ q) (N γ η : ℝ) (hN : 0 ≤ N) (hq : 0 ≤ q) (hγ : 0 ≤ γ) (hη : 0 ≤ η)
    (hJN : ∀ v, euclid ((jac r).mulVec v) ≤ N * euclid v) (c : ℝ) (hc : 0 < c)
    (hs : 0 < σ - 3 * (N + 1 + γ) * γ)
    (hcq : (N + 1 + γ) * γ + (q + η * ((N + 1 + γ) ^ 2 + q)) < c * (σ - 3 * (N + 1 + γ) * γ)) :
    ∃ δ > 0, (∀ y, euclid (fun i => y i - r i) ≤ δ →
        euclid (fun m => F y m - F r m) ≤ (N + 1) * euclid (fun i => y i - r i)) ∧
      ∀ (y : ι → ℝ) (M : Matrix κ ι ℝ) (f : κ → ℝ) (β : ℝ), euclid (fun i => y i - r i) ≤ δ → 0 ≤ β →
        (∀ v, euclid (fun m => M.mulVec v m - (jac y).mulVec v m) ≤ γ * euclid v) → euclid (fun m => f m - F y m) ≤ β →
        (∀ v, M.mulVec v = 0 → v = 0) ∧
        ∀ d : ι → ℝ, euclid (fun i => ∑ m, M m i * (M.mulVec d m - f m)) ≤ η * euclid (fun i => ∑ m, M m i * f m) →
          euclid (fun i => y i - d i - r i) ≤ c * euclid (fun i => y i - r i) +
            2 * (1 + η) * ((N + 1 + γ) * β + γ * euclid (F r)) / (σ - 3 * (N + 1 + γ) * γ) := by
  obtain ⟨D, hD, hder⟩ := h.deriv
  set b := N + 1 + γ with hbdef
  have hb0 : 0 < b := by positivity
  set s := σ - 3 * b * γ with hsdef
  set P := q + η * (b ^ 2 + q) with hP
  -- the size of the perturbations we can afford
  obtain ⟨ε, hε0, hε1, hε2, hε3⟩ : ∃ ε : ℝ, 0 < ε ∧ ε ≤ 1 ∧ ε * (b + c * (3 * b)) ≤ c * s - (b * γ + P) ∧ 3 * b * ε ≤ s / 2 := by
    have hg : 0 < c * s - (b * γ + P) := by linarith
    refine ⟨min 1 (min ((c * s - (b * γ + P)) / (b + c * (3 * b))) (s / 2 / (3 * b))), by positivity, min_le_left _ _, ?_, ?_⟩
    · have : min 1 (min ((c * s - (b * γ + P)) / (b + c * (3 * b))) (s / 2 / (3 * b))) ≤
          (c * s - (b * γ + P)) / (b + c * (3 * b)) := (min_le_right _ _).trans (min_le_left _ _)
      rwa [le_div_iff₀ (by positivity)] at this
    · have : min 1 (min ((c * s - (b * γ + P)) / (b + c * (3 * b))) (s / 2 / (3 * b))) ≤ s / 2 / (3 * b) :=
        (min_le_right _ _).trans (min_le_right _ _)
      rw [le_div_iff₀ (by positivity)] at this
      linarith
  set nι : ℝ := (Fintype.card ι : ℝ) with hnι
  set nκ : ℝ := (Fintype.card κ : ℝ) with hnκ
  have hnι0 : 0 ≤ nι := Nat.cast_nonneg _
  have hnκ0 : 0 ≤ nκ := Nat.cast_nonneg _
  set ε1 : ℝ := ε / (2 * (nκ + 1)) with hε1d
  have hε10 : 0 < ε1 := by positivity
  have e1 : ∀ᶠ y in 𝓝 r, ‖F y - F r - D (y - r)‖ ≤ ε1 * ‖y - r‖ := hder.isLittleO.def hε10
  set ε2 : ℝ := ε / (2 * ((nκ + 1) * (nι + 1))) with hε2d
  have hε20 : 0 < ε2 := by positivity
  have e2 : ∀ᶠ y in 𝓝 r, ∀ m i, |jac y m i - jac r m i| ≤ ε2 := by
    refine eventually_all.2 fun m => eventually_all.2 fun i => ?_
    have := (h.cont m i) (Metric.closedBall_mem_nhds _ hε20)
    filter_upwards [this] with y hy
    simpa [Real.dist_eq] using hy
  obtain ⟨δ, hδ, hball⟩ := Metric.eventually_nhds_iff.1 (e1.and (e2.and h.curvature))
  have hlinr : ∀ y : ι → ℝ, euclid (fun i => y i - r i) ≤ δ / 2 →
      euclid (fun m => F y m - F r m - (jac r).mulVec (fun i => y i - r i) m) ≤ ε / 2 * euclid (fun i => y i - r i) ∧
      (∀ m i, |jac y m i - jac r m i| ≤ ε2) ∧
      ∀ v : ι → ℝ, |∑ m, ((jac y).mulVec v m - (jac r).mulVec v m) * F r m| ≤ q * euclid v * euclid fun i => y i - r i := by
    intro y hy
    have hdist : dist y r < δ := by
      rw [dist_eq_norm]
      refine lt_of_le_of_lt ?_ (by linarith : δ / 2 < δ)
      exact (pi_norm_le_iff_of_nonneg (by positivity)).2 fun i => (abs_le_euclid (fun i => y i - r i) i).trans hy
    obtain ⟨a1, a2, a3⟩ := hball hdist
    have hnorm : ‖y - r‖ ≤ euclid fun i => y i - r i :=
      (pi_norm_le_iff_of_nonneg (euclid_nonneg _)).2 fun i => abs_le_euclid (fun i => y i - r i) i
    refine ⟨?_, a2, a3⟩
    have hb : ∀ m, |F y m - F r m - (jac r).mulVec (fun i => y i - r i) m| ≤ ε1 * euclid (fun i => y i - r i) := by
      intro m
      have := norm_le_pi_norm (F y - F r - D (y - r)) m
      rw [hD] at this
      exact (this.trans (by rw [← hD]; exact a1)).trans (mul_le_mul_of_nonneg_left hnorm hε10.le)
    refine (euclid_le _ _ (mul_nonneg hε10.le (euclid_nonneg _)) hb).trans (le_of_eq ?_)
    rw [hε1d, hnκ]; field_simp
  have hvals : ∀ y : ι → ℝ, euclid (fun i => y i - r i) ≤ δ / 2 →
      euclid (fun m => F y m - F r m) ≤ (N + 1) * euclid (fun i => y i - r i) := by
    intro y hy
    have h1 := (hlinr y hy).1
    have h2 := euclid_add (fun m => F y m - F r m - (jac r).mulVec (fun i => y i - r i) m) ((jac r).mulVec fun i => y i - r i)
    simp only [sub_add_cancel] at h2
    have h3 := hJN fun i => y i - r i
    have := euclid_nonneg fun i => y i - r i
    nlinarith
  refine ⟨δ / 2, by positivity, hvals, fun y M f β hy hβ hM hf => ?_⟩
  obtain ⟨a1, a2, a3⟩ := hlinr y hy
  have hpertJ : ∀ v, euclid (fun m => (jac y).mulVec v m - (jac r).mulVec v m) ≤ ε / 2 * euclid v := by
    intro v
    have e : (fun m => (jac y).mulVec v m - (jac r).mulVec v m) = (jac y - jac r).mulVec v := by
      rw [Matrix.sub_mulVec]; rfl
    rw [e]
    refine (euclid_mulVec_le (jac y - jac r) ε2 hε20.le (fun m i => by simpa using a2 m i) v).trans ?_
    refine mul_le_mul_of_nonneg_right ?_ (euclid_nonneg _)
    have : (nκ + 1) * (nι + 1) * ε2 = ε / 2 := by rw [hε2d]; field_simp
    rw [← this]
    refine mul_le_mul_of_nonneg_right ?_ hε20.le
    exact mul_le_mul_of_nonneg_left (by linarith) (by positivity)
  have hpert : ∀ v, euclid (fun m => M.mulVec v m - (jac r).mulVec v m) ≤ (ε / 2 + γ) * euclid v := by
    intro v
    have h1 := euclid_add (fun m => M.mulVec v m - (jac y).mulVec v m) (fun m => (jac y).mulVec v m - (jac r).mulVec v m)
    simp only [sub_add_sub_cancel] at h1
    linarith [hM v, hpertJ v]
  have hup : ∀ v, euclid (M.mulVec v) ≤ b * euclid v := by
    intro v
    have h1 := euclid_add (fun m => M.mulVec v m - (jac r).mulVec v m) ((jac r).mulVec v)
    simp only [sub_add_cancel] at h1
    have h2 := hpert v
    have h3 := hJN v
    have := euclid_nonneg v
    rw [hbdef]
    nlinarith
  have hlow : ∀ v, euclid ((jac r).mulVec v) ≤ euclid (M.mulVec v) + (ε + γ) * euclid v := by
    intro v
    have h1 := euclid_sub (M.mulVec v) (fun m => M.mulVec v m - (jac r).mulVec v m)
    simp only [sub_sub_cancel] at h1
    have h2 := hpert v
    have := euclid_nonneg v
    nlinarith
  have hrank : ∀ v, σ * euclid v ^ 2 ≤ euclid ((jac r).mulVec v) ^ 2 := by
    intro v; rw [euclid_sq, euclid_sq]; exact h.rank v
  have hεb : ε + γ ≤ b := by rw [hbdef]; linarith
  have hP0 : 0 ≤ P := by positivity
  refine ⟨fun v hv => ?_, fun d hd => ?_⟩
  · have h1 := gn_noisy_scalar σ c b γ ε 0 P 0 (euclid v) 0 (euclid (M.mulVec v)) (euclid ((jac r).mulVec v)) (euclid_nonneg _)
      le_rfl hε0.le hγ hεb le_rfl le_rfl hc.le (euclid_nonneg _) (hup v) (hrank v) (hlow v)
      (by rw [hv]; simp [euclid]) hε2 hs hε3
    simp only [mul_zero, add_zero, zero_div] at h1
    funext i
    have := (abs_le_euclid v i).trans h1
    simpa using this
  · set e : ι → ℝ := fun i => y i - r i with he
    set x : ι → ℝ := fun i => y i - d i - r i with hx
    set R := euclid (F r) with hR
    have hR0 : 0 ≤ R := euclid_nonneg _
    have hxe : ∀ m, M.mulVec x m = M.mulVec e m - M.mulVec d m := by
      intro m
      have : x = e - d := by funext i; simp only [hx, he, Pi.sub_apply]; ring
      rw [this, Matrix.mulVec_sub]; rfl
    have hlin : euclid (fun m => M.mulVec e m - (F y m - F r m)) ≤ (ε + γ) * euclid e := by
      have h2 := hpert e
      have h3 := euclid_sub (fun m => M.mulVec e m - (jac r).mulVec e m) (fun m => F y m - F r m - (jac r).mulVec e m)
      have e3 : (fun m => M.mulVec e m - (jac r).mulVec e m - (F y m - F r m - (jac r).mulVec e m)) =
          fun m => M.mulVec e m - (F y m - F r m) := by funext m; ring
      rw [e3] at h3
      linarith
    -- what the errors contribute at the solution itself
    have hst : ∀ v : ι → ℝ, |∑ m, M.mulVec v m * F r m| ≤ (γ * R + q * euclid e) * euclid v := by
      intro v
      have h0 : ∑ m, (jac r).mulVec v m * F r m = 0 := by
        rw [sum_mulVec]
        exact Finset.sum_eq_zero fun i _ => by rw [h.stationary i, mul_zero]
      have hsplit : ∑ m, M.mulVec v m * F r m = ∑ m, (M.mulVec v m - (jac y).mulVec v m) * F r m +
          ∑ m, ((jac y).mulVec v m - (jac r).mulVec v m) * F r m := by
        rw [← add_zero (_ + _), ← h0, ← Finset.sum_add_distrib, ← Finset.sum_add_distrib]
        exact Finset.sum_congr rfl fun m _ => by ring
      have h1 : |∑ m, (M.mulVec v m - (jac y).mulVec v m) * F r m| ≤ γ * euclid v * R := by
        have p1 := euclid_dot (fun m => M.mulVec v m - (jac y).mulVec v m) (F r)
        have p2 := euclid_dot (fun m => -(M.mulVec v m - (jac y).mulVec v m)) (F r)
        have p3 : euclid (fun m => -(M.mulVec v m - (jac y).mulVec v m)) = euclid fun m => M.mulVec v m - (jac y).mulVec v m := by
          simp only [euclid, neg_sq]
        rw [p3] at p2
        simp only [neg_mul, Finset.sum_neg_distrib] at p2
        have p4 := mul_le_mul_of_nonneg_right (hM v) hR0
        exact abs_le.2 ⟨by linarith, by linarith⟩
      rw [hsplit]
      refine (abs_add_le _ _).trans ((add_le_add h1 (a3 v)).trans (le_of_eq (by ring)))
    have hgrad : euclid (fun i => ∑ m, M m i * f m) ≤ b * β + b ^ 2 * euclid e + (γ * R + q * euclid e) := by
      refine euclid_le_of_dot _ _ (by have := euclid_nonneg e; positivity) fun v => ?_
      rw [← sum_mulVec]
      have hsplit : ∑ m, M.mulVec v m * f m = ∑ m, M.mulVec v m * (f m - F y m) + ∑ m, M.mulVec v m * (F y m - F r m) +
          ∑ m, M.mulVec v m * F r m := by
        rw [← Finset.sum_add_distrib, ← Finset.sum_add_distrib]
        exact Finset.sum_congr rfl fun m _ => by ring
      have h1 := euclid_dot (M.mulVec v) (fun m => f m - F y m)
      have h2 := euclid_dot (M.mulVec v) (fun m => F y m - F r m)
      have h3 := (abs_le.1 (hst v)).2
      have h4 : euclid (M.mulVec v) * euclid (fun m => f m - F y m) ≤ b * euclid v * β :=
        mul_le_mul (hup v) hf (euclid_nonneg _) (mul_nonneg hb0.le (euclid_nonneg _))
      have h5 : euclid (M.mulVec v) * euclid (fun m => F y m - F r m) ≤ b * euclid v * (b * euclid e) := by
        refine mul_le_mul (hup v) ((hvals y hy).trans ?_) (euclid_nonneg _) (mul_nonneg hb0.le (euclid_nonneg _))
        exact mul_le_mul_of_nonneg_right (by rw [hbdef]; linarith) (euclid_nonneg _)
      rw [hsplit]
      linarith
    have hmain : euclid (M.mulVec x) ^ 2 ≤ euclid (M.mulVec x) * ((ε + γ) * euclid e + β) +
        euclid x * (P * euclid e + (η * (b * β + γ * R) + γ * R)) := by
      have id1 : euclid (M.mulVec x) ^ 2 =
          ∑ m, M.mulVec x m * (M.mulVec e m - (F y m - F r m)) + ∑ m, -M.mulVec x m * (f m - F y m) -
            ∑ m, M.mulVec x m * F r m + ∑ i, -x i * ∑ m, M m i * (M.mulVec d m - f m) := by
        have e4 : ∑ i, -x i * ∑ m, M m i * (M.mulVec d m - f m) = ∑ m, -M.mulVec x m * (M.mulVec d m - f m) := by
          simp only [neg_mul, Finset.sum_neg_distrib]
          rw [sum_mulVec]
        rw [e4, euclid_sq, ← Finset.sum_add_distrib, ← Finset.sum_sub_distrib, ← Finset.sum_add_distrib]
        refine Finset.sum_congr rfl fun m _ => ?_
        rw [hxe]; ring
      have hneg : ∀ {τ : Type} [Fintype τ] (w : τ → ℝ), euclid (fun m => -w m) = euclid w := fun w => by simp only [euclid, neg_sq]
      have h1 := euclid_dot (M.mulVec x) (fun m => M.mulVec e m - (F y m - F r m))
      have h2 := mul_le_mul_of_nonneg_left hlin (euclid_nonneg (M.mulVec x))
      have h3 := (abs_le.1 (hst x)).1
      have h4 := euclid_dot (fun m => -M.mulVec x m) (fun m => f m - F y m)
      rw [hneg] at h4
      have h5 := mul_le_mul_of_nonneg_left hf (euclid_nonneg (M.mulVec x))
      have h6 := euclid_dot (fun i => -x i) (fun i => ∑ m, M m i * (M.mulVec d m - f m))
      rw [hneg] at h6
      have h7 := mul_le_mul_of_nonneg_left (hd.trans (mul_le_mul_of_nonneg_left hgrad hη)) (euclid_nonneg x)
      rw [id1, hP]
      linarith
    have := gn_noisy_scalar σ c b γ ε β P (η * (b * β + γ * R) + γ * R) (euclid x) (euclid e) (euclid (M.mulVec x))
      (euclid ((jac r).mulVec x)) (euclid_nonneg _) (euclid_nonneg _) hε0.le hγ hεb hβ (by positivity) hc.le
      (euclid_nonneg _) (hup x) (hrank x) (hlow x) hmain hε2 hs hε3
    have e5 : 2 * (b * β + (η * (b * β + γ * R) + γ * R)) = 2 * (1 + η) * (b * β + γ * R) := by ring
    rwa [e5] at this

/-- The linear solver solves the least-squares problems of full column rank up to the accuracy `η`, and says so. -/
def SolvesRoughly (η : ℝ) (ls : LinSolve ι κ) : Prop :=
  ∀ M : Matrix κ ι ℝ, (∀ v, M.mulVec v = 0 → v = 0) → ∀ b,
    RoughLeastSquares η M b (ls.rect M b).1 ∧ (ls.rect M b).2 = .successful

/-- **C133.** `GaussNewton` with errors.  Let `r` be a stationary point as in C77, `N` a bound for the Jacobian there, and suppose that
the Jacobian is computed up to `γ` and linear problems are solved up to the relative accuracy `η`, both small enough for `c` to be a
possible rate of convergence.  Then there is a neighbourhood of `r` such that, whenever the residuals are computed up to `β` in it and
the solve starts in it, every step reduces the error by the factor `c` up to the constant `B`, a multiple of `β` plus a multiple of
`γ |F r|`; the iterates come as close to `r` as that permits; the solve reports success if `atol` is not too small compared with the
errors; and a successful answer is as accurate as its last step was short, up to the errors. -/
theorem C133_errors_tolerated (F : (ι → ℝ) → κ → ℝ) (jac : (ι → ℝ) → Matrix κ ι ℝ) (r : ι → ℝ) (σ q N γ η ρ : ℝ)
    (h : LocalFit F jac r σ q) (hN : 0 ≤ N) (hq : 0 ≤ q) (hγ : 0 ≤ γ) (hη : 0 ≤ η) (hρ : 0 < ρ)
    (hJN : ∀ v, euclid ((jac r).mulVec v) ≤ N * euclid v) (c : ℝ) (hc : 0 < c) (hc1 : c < 1)
    (hs : 0 < σ - 3 * (N + 1 + γ) * γ)
    (hcq : (N + 1 + γ) * γ + (q + η * ((N + 1 + γ) ^ 2 + q)) < c * (σ - 3 * (N + 1 + γ) * γ)) :
    ∃ δ > 0, ∀ (rtol atol : ℝ) (nY : (ι → ℝ) → ℝ) (nF : (κ → ℝ) → ℝ) (ls : LinSolve ι κ) (J : (ι → ℝ) → Matrix κ ι ℝ)
      (fn : (ι → ℝ) → (κ → ℝ) × A) (aux0 : A) (β : ℝ), SolvesRoughly η ls → 0 ≤ β →
      ComputedFit F jac (fun y => (fn y).1) J r ρ γ β →
      let B := 2 * (1 + η) * ((N + 1 + γ) * β + γ * euclid (F r)) / (σ - 3 * (N + 1 + γ) * γ)
      B ≤ (1 - c) * δ → ∀ y0 : ι → ℝ, euclid (fun i => y0 i - r i) ≤ δ →
        ∃ st0, (gnSolver rtol atol nY nF ls J aux0).init fn y0 = .ok st0 ∧
        let Y := iterateAt (gnSolver rtol atol nY nF ls J aux0) fn aux0 y0 st0
        Y 1 = y0 ∧ (∀ k, euclid (fun i => Y (k + 2) i - r i) ≤ c * euclid (fun i => Y (k + 1) i - r i) + B) ∧
        (∀ k, euclid (fun i => Y (k + 1) i - r i) ≤ c ^ k * euclid (fun i => y0 i - r i) + B / (1 - c)) ∧
        (GoodNorm nY → GoodNorm nF → 0 < atol → 0 ≤ rtol → 2 * (B / (1 - c)) * nY (fun _ => 1) < atol →
          2 * ((N + 1) * (B / (1 - c)) + β) * nF (fun _ => 1) < atol →
            ∃ n, ∀ ms throw, (∀ m, ms = some m → n ≤ m) →
              ∃ sol, iterativeSolve (gnSolver rtol atol nY nF ls J aux0) (fun _ => true) fn aux0 y0 ms throw = some (.ok sol) ∧
                sol.result = .successful ∧ sol.numSteps ≤ n) ∧
        (nY = maxNorm → 0 < atol → 0 ≤ rtol → ∀ af ms throw sol,
          iterativeSolve (gnSolver rtol atol nY nF ls J aux0) af fn aux0 y0 ms throw = some (.ok sol) → sol.result = .successful →
          sol.numSteps ≠ 1 → ∀ T, (∀ i, atol + rtol * |sol.value i| ≤ T) → 0 ≤ T →
            euclid (fun i => sol.value i - r i) ≤ (c * ((Fintype.card ι + 1) * T) + B) / (1 - c)) := by
  obtain ⟨δ0, hδ0, hvals, hstep⟩ := gauss_newton_noisy h N γ η hN hq hγ hη hJN c hc hs hcq
  refine ⟨min δ0 ρ, lt_min hδ0 hρ, ?_⟩
  intro rtol atol nY nF ls J fn aux0 β hls hβ hcomp B hB y0 hy0
  set δ := min δ0 ρ with hδ
  have hpos : 0 < 1 - c := by linarith
  have hB0 : 0 ≤ B := by
    have := euclid_nonneg (F r)
    exact div_nonneg (by positivity) hs.le
  set S := gnSolver rtol atol nY nF ls J aux0 with hS
  obtain ⟨st0, hi⟩ : ∃ st0, S.init fn y0 = .ok st0 := ⟨_, rfl⟩
  refine ⟨st0, hi, ?_⟩
  have hgs := gn_state rtol atol nY nF ls J aux0 fn y0 st0 hi
  obtain ⟨hY0, hY1, hrec⟩ := C43_recursion rtol atol nY nF ls J aux0 fn y0 st0 hi
  intro Y
  have one : ∀ k, euclid (fun i => Y (k + 1) i - r i) ≤ δ →
      (ls.rect (J (Y (k + 1))) (fn (Y (k + 1))).1).2 = .successful ∧
      euclid (fun i => Y (k + 2) i - r i) ≤ c * euclid (fun i => Y (k + 1) i - r i) + B := by
    intro k hk
    obtain ⟨hfull, hd⟩ := hstep (Y (k + 1)) (J (Y (k + 1))) (fn (Y (k + 1))).1 β (hk.trans (min_le_left _ _)) hβ
      (hcomp.jacobian _ (hk.trans (min_le_right _ _))) (hcomp.value _ (hk.trans (min_le_right _ _)))
    obtain ⟨h1, h2⟩ := hls _ hfull (fn (Y (k + 1))).1
    refine ⟨h2, ?_⟩
    have := hd _ h1
    have e : (fun i => Y (k + 2) i - r i) =
        fun i => Y (k + 1) i - (ls.rect (J (Y (k + 1))) (fn (Y (k + 1))).1).1 i - r i := by
      funext i; exact congrArg (fun t => t - r i) (hrec k i)
    rw [e]; exact this
  have hy1 : euclid (fun i => Y 1 i - r i) = euclid fun i => y0 i - r i :=
    congrArg (fun z : ι → ℝ => euclid fun i => z i - r i) hY1
  have all : ∀ k, euclid (fun i => Y (k + 1) i - r i) ≤ δ := by
    intro k
    induction k with
    | zero => rw [zero_add, hy1]; exact hy0
    | succ k ih =>
      have h1 := (one k ih).2
      have h2 := mul_le_mul_of_nonneg_left ih hc.le
      linarith
  have hbound : ∀ k, euclid (fun i => Y (k + 1) i - r i) ≤ c ^ k * euclid (fun i => y0 i - r i) + B / (1 - c) := by
    intro k
    induction k with
    | zero =>
      have : 0 ≤ B / (1 - c) := by positivity
      rw [pow_zero, one_mul, zero_add, hy1]
      linarith
    | succ k ih =>
      have h1 := (one k (all k)).2
      have h2 := mul_le_mul_of_nonneg_left ih hc.le
      have h3 : c * (B / (1 - c)) + B = B / (1 - c) := by field_simp; ring
      rw [pow_succ']
      linarith
  refine ⟨hY1, fun k => (one k (all k)).2, hbound, ?_, ?_⟩
  · intro hnY hnF ha hr ht1 ht2
    have hpow : Tendsto (fun k => c ^ k) atTop (𝓝 0) := tendsto_pow_atTop_nhds_zero_of_lt_one hc.le hc1
    set E0 := euclid fun i => y0 i - r i with hE0
    have hE00 : 0 ≤ E0 := euclid_nonneg _
    set E := B / (1 - c) with hE
    have ev1 : ∀ᶠ k in atTop, 2 * (c ^ k * E0 + E) * nY (fun _ => 1) < atol := by
      have : Tendsto (fun k => 2 * (c ^ k * E0 + E) * nY (fun _ => 1)) atTop (𝓝 (2 * (0 * E0 + E) * nY (fun _ => 1))) :=
        (((hpow.mul_const _).add_const _).const_mul _).mul_const _
      exact this.eventually (gt_mem_nhds (by rw [zero_mul, zero_add]; exact ht1))
    have ev2 : ∀ᶠ k in atTop, 2 * ((N + 1) * (c ^ k * E0 + E) + β) * nF (fun _ => 1) < atol := by
      have : Tendsto (fun k => 2 * ((N + 1) * (c ^ k * E0 + E) + β) * nF (fun _ => 1)) atTop
          (𝓝 (2 * ((N + 1) * (0 * E0 + E) + β) * nF (fun _ => 1))) :=
        (((((hpow.mul_const _).add_const _).const_mul _).add_const _).const_mul _).mul_const _
      exact this.eventually (gt_mem_nhds (by rw [zero_mul, zero_add]; exact ht2))
    obtain ⟨k, hk1, hk2⟩ := (ev1.and ev2).exists
    set e := c ^ k * E0 + E with he
    have hb1 : euclid (fun i => Y (k + 1) i - r i) ≤ e := hbound k
    have hb2 : euclid (fun i => Y (k + 2) i - r i) ≤ e := by
      refine (hbound (k + 1)).trans ?_
      have h1 : c ^ (k + 1) * E0 ≤ c ^ k * E0 :=
        mul_le_mul_of_nonneg_right (pow_le_pow_of_le_one hc.le hc1.le (Nat.le_succ k)) hE00
      linarith
    have hdy : ∀ i, |Y (k + 2) i - Y (k + 1) i| ≤ 2 * e := by
      intro i
      have h1 := (abs_le_euclid (fun i => Y (k + 1) i - r i) i).trans hb1
      have h2 := (abs_le_euclid (fun i => Y (k + 2) i - r i) i).trans hb2
      have h3 := abs_sub (Y (k + 2) i - r i) (Y (k + 1) i - r i)
      rw [sub_sub_sub_cancel_right] at h3
      linarith
    have hfe : ∀ j, euclid (fun i => Y (j + 1) i - r i) ≤ e → ∀ m, |(fn (Y (j + 1))).1 m - F r m| ≤ (N + 1) * e + β := by
      intro j hj m
      have h1 := (abs_le_euclid (fun m => (fn (Y (j + 1))).1 m - F (Y (j + 1)) m) m).trans
        (hcomp.value _ ((all j).trans (min_le_right _ _)))
      have h2 := (abs_le_euclid (fun m => F (Y (j + 1)) m - F r m) m).trans (hvals _ ((all j).trans (min_le_left _ _)))
      have h3 := abs_add_le ((fn (Y (j + 1))).1 m - F (Y (j + 1)) m) (F (Y (j + 1)) m - F r m)
      rw [sub_add_sub_cancel] at h3
      have h4 := mul_le_mul_of_nonneg_left hj (by linarith : 0 ≤ N + 1)
      linarith
    have hdf : ∀ m, |(fn (Y (k + 2))).1 m - (fn (Y (k + 1))).1 m| ≤ 2 * ((N + 1) * e + β) := by
      intro m
      have h1 := hfe k hb1 m
      have h2 := hfe (k + 1) hb2 m
      have h3 := abs_sub ((fn (Y (k + 2))).1 m - F r m) ((fn (Y (k + 1))).1 m - F r m)
      rw [sub_sub_sub_cancel_right] at h3
      linarith
    refine ⟨k + 2, fun ms throw hb => ?_⟩
    obtain ⟨sol, s1, s2, s3, _⟩ := solve_succeeds_by S (fun _ => true) fn aux0 y0 st0 hi ms throw (k + 2) (fun _ _ => rfl) (by
        intro j _
        show (stateAt S fn aux0 y0 st0 j).result = .successful
        obtain _ | j := j
        · show st0.result = .successful
          cases hi; rfl
        · have := (hgs j).2.2.2
          rw [this, ← (hgs j).1]
          exact (one j (all j)).1) (by
        show (stateAt S fn aux0 y0 st0 (k + 2)).terminate = true
        have e1 : (stateAt S fn aux0 y0 st0 (k + 1)).yEval = Y (k + 2) := by rw [(hgs k).2.1]; exact (hgs (k + 1)).1.symm
        have e2 : (stateAt S fn aux0 y0 st0 (k + 1)).residual = (fn (Y (k + 1))).1 := by rw [(hgs k).2.2.1, ← (hgs k).1]
        have hst : (stateAt S fn aux0 y0 st0 (k + 2)).terminate = cauchyTermination rtol atol nY nF
            (stateAt S fn aux0 y0 st0 (k + 1)).yEval
            (fun i => (stateAt S fn aux0 y0 st0 (k + 1)).yEval i - Y (k + 1) i)
            (fn (stateAt S fn aux0 y0 st0 (k + 1)).yEval).1
            (fun m => (fn (stateAt S fn aux0 y0 st0 (k + 1)).yEval).1 m -
              (stateAt S fn aux0 y0 st0 (k + 1)).residual m) := rfl
        rw [hst, e1, e2]
        simp only [cauchyTermination, Bool.and_eq_true, decide_eq_true_eq]
        exact ⟨norm_small hnY rtol atol _ ha hr _ _ hdy hk1, norm_small hnF rtol atol _ ha hr _ _ hdf hk2⟩) hb
    exact ⟨sol, s1, s2, s3⟩
  · intro hnY ha hr af ms throw sol h1 h2 h3 T hT hT0
    subst hnY
    obtain ⟨st1, k, hi1, hk, hn, hv, hclose, _⟩ := C58_gauss_newton_family_partial
      (GaussNewton.gaussNewton rtol atol maxNorm nF ls J) (fun _ _ _ _ _ => rfl) aux0 fn af y0 ms throw sol h1 h2 h3
    rw [show (GaussNewton.solver (GaussNewton.gaussNewton rtol atol maxNorm nF ls J) aux0).init fn y0 = .ok st0 from hi] at hi1
    cases hi1
    obtain ⟨j, rfl⟩ : ∃ j, k = j + 1 := ⟨k - 1, by omega⟩
    have hval : sol.value = Y (j + 2) := by
      rw [hv]
      exact ((hgs j).2.1).trans (hgs (j + 1)).1.symm
    have hlast : euclid (fun i => Y (j + 2) i - Y (j + 1) i) ≤ (Fintype.card ι + 1) * T := by
      refine euclid_le _ _ hT0 fun i => ?_
      have h5 := ((maxNorm_lt_iff _ _).1 hclose).2 i
      have hp : 0 < atol + rtol * |sol.value i| := by positivity
      have h6 : |(sol.value i - Y (j + 1) i)| / (atol + rtol * |sol.value i|) < 1 := by
        have h7 : 0 ≤ |(sol.value i - Y (j + 1) i)| / (atol + rtol * |sol.value i|) := by positivity
        rw [← abs_of_nonneg h7]; exact h5
      rw [div_lt_one hp, hval] at h6
      have := hT i
      rw [hval] at this
      linarith
    have hstep1 := (one j (all j)).2
    have htri := euclid_sub (fun i => Y (j + 2) i - r i) (fun i => Y (j + 2) i - Y (j + 1) i)
    simp only [sub_sub_sub_cancel_left] at htri
    have hflip : euclid (fun i => Y (j + 1) i - r i) ≤ euclid (fun i => Y (j + 2) i - r i) + (Fintype.card ι + 1) * T := by
      linarith
    rw [hval, le_div_iff₀ hpos]
    have := mul_le_mul_of_nonneg_left hflip hc.le
    linarith

/-- The fit `y + 1`, `y² / 8 + y - 1` of C77 (whose residuals do not vanish at the solution `0`), with residuals and Jacobian that are
wrong by rapidly oscillating errors and linear solves that are exact up to one part in a hundred. -/
example : LocalFit (bentResiduals (1 / 8)) (bentJac (1 / 8)) (fun _ => 0) 2 (1 / 4) ∧
    (∀ v, euclid ((bentJac (1 / 8) fun _ => 0).mulVec v) ≤ 2 * euclid v) ∧
    (0 : ℝ) < 2 - 3 * (2 + 1 + 1 / 100) * (1 / 100) ∧
    ((2 : ℝ) + 1 + 1 / 100) * (1 / 100) + (1 / 4 + 1 / 100 * ((2 + 1 + 1 / 100) ^ 2 + 1 / 4)) <
      1 / 2 * (2 - 3 * (2 + 1 + 1 / 100) * (1 / 100)) ∧
    ComputedFit (bentResiduals (1 / 8)) (bentJac (1 / 8))
      (fun y b => bentResiduals (1 / 8) y b + if b then 1 / 1000 * Real.sin (1000 * y ()) else 0)
      (fun y => Matrix.of fun b i => bentJac (1 / 8) y b i + if b then 1 / 100 * Real.cos (1000 * y ()) else 0)
      (fun _ => 0) 1 (1 / 100) (1 / 1000) ∧
    ∃ ls : LinSolve Unit Bool, SolvesRoughly (1 / 100) ls := by
  refine ⟨?_, fun v => ?_, by norm_num, by norm_num, ⟨fun y _ => ?_, fun y _ v => ?_⟩, ?_⟩
  · have := bent_fit (1 / 8)
    norm_num at this
    exact this
  · rw [euclid, euclid, Real.sqrt_le_left (by positivity), mul_pow, Real.sq_sqrt (by positivity)]
    simp [bent_mulVec]
    nlinarith [sq_nonneg (v PUnit.unit)]
  · rw [Real.sqrt_le_left (by positivity)]
    simp
    have := Real.abs_sin_le_one (1000 * y ())
    rw [← sq_abs, abs_mul]
    have h1 : |(1000 : ℝ)⁻¹| = 1000⁻¹ := abs_of_pos (by norm_num)
    rw [h1]
    have h0 := abs_nonneg (Real.sin (1000 * y ()))
    nlinarith
  · have e : ∀ m, (Matrix.of fun b i => bentJac (1 / 8) y b i + if b then 1 / 100 * Real.cos (1000 * y ()) else 0).mulVec v m -
        (bentJac (1 / 8) y).mulVec v m = (if m then 1 / 100 * Real.cos (1000 * y ()) else 0) * v () := by
      intro m
      cases m <;> simp [Matrix.mulVec, dotProduct]
      ring
    simp only [e]
    rw [Real.sqrt_le_left (by positivity), mul_pow, Real.sq_sqrt (by positivity)]
    simp
    have h1 := Real.abs_cos_le_one (1000 * y ())
    have h2 : Real.cos (1000 * y ()) ^ 2 ≤ 1 := by rw [← sq_abs]; have := abs_nonneg (Real.cos (1000 * y ())); nlinarith
    have h3 : 0 ≤ v () ^ 2 := sq_nonneg _
    have h4 := mul_le_mul_of_nonneg_right h2 h3
    rw [mul_pow, mul_pow]
    nlinarith
  · obtain ⟨ls, hls⟩ := full_rank_solver_exists (ι := Unit) (κ := Bool)
    refine ⟨ls, fun M hM b => ⟨?_, (hls M hM b).2⟩⟩
    have h1 := normal_equations _ _ _ (hls M hM b).1
    simp only [RoughLeastSquares, h1]
    simp only [ne_eq, OfNat.ofNat_ne_zero, not_false_eq_true, zero_pow, Finset.sum_const_zero, Real.sqrt_zero]
    positivity

end Verif.Props
