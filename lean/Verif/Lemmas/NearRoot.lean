import Verif.Spec.Regular
import Verif.Lemmas.Euclid
import Mathlib.Topology.Order.Compact
import Mathlib.Analysis.Calculus.Deriv.Slope
import Mathlib.LinearAlgebra.FiniteDimensional.Basic
import Mathlib.LinearAlgebra.Matrix.ToLin
import Mathlib.Analysis.Normed.Lp.PiLp

/-!
A small residual at a point where a system is regular means a root nearby.
-/

namespace Verif

open Spec Filter Topology

variable {ι κ : Type} [Fintype ι] [Fintype κ]

theorem euclid_continuous : Continuous (euclid : (ι → ℝ) → ℝ) := by
  unfold euclid
  fun_prop

/-- A right inverse of a matrix that maps onto, with a bound. -/
theorem onto_preimage (J : Matrix κ ι ℝ) (μ : ℝ) (hμ : 0 < μ)
    (honto : ∀ v : κ → ℝ, μ * ∑ m, v m ^ 2 ≤ ∑ i, (∑ m, J m i * v m) ^ 2) (b : κ → ℝ) :
    ∃ p : ι → ℝ, (∀ m, ∑ i, J m i * p i = b m) ∧ Real.sqrt μ * euclid p ≤ euclid b := by
  classical
  let T : (κ → ℝ) →ₗ[ℝ] (κ → ℝ) := (J * J.transpose).mulVecLin
  have hT : ∀ w m, T w m = ∑ i, J m i * ∑ k, J k i * w k := by
    intro w m
    show (J * J.transpose).mulVec w m = _
    rw [← Matrix.mulVec_mulVec]
    rfl
  have hdot : ∀ w, ∑ m, w m * T w m = ∑ i, (∑ k, J k i * w k) ^ 2 := by
    intro w
    simp only [hT, Finset.mul_sum]
    rw [Finset.sum_comm]
    refine Finset.sum_congr rfl fun i _ => ?_
    rw [sq, Finset.sum_mul_sum]
    refine Finset.sum_congr rfl fun m _ => ?_
    refine Finset.sum_congr rfl fun k _ => ?_
    ring
  have hinj : Function.Injective T := by
    refine (injective_iff_map_eq_zero T).2 fun w hw => ?_
    have h1 := honto w
    rw [← hdot, hw] at h1
    simp only [Pi.zero_apply, mul_zero, Finset.sum_const_zero] at h1
    have h2 : ∑ m, w m ^ 2 = 0 := by
      refine le_antisymm ?_ (Finset.sum_nonneg fun i _ => sq_nonneg _)
      by_contra h; push Not at h
      have := mul_pos hμ h
      linarith
    funext m
    have := (Finset.sum_eq_zero_iff_of_nonneg fun i _ => sq_nonneg _).1 h2 m (Finset.mem_univ m)
    exact pow_eq_zero_iff two_ne_zero |>.1 this
  obtain ⟨w, hw⟩ := (LinearMap.injective_iff_surjective.1 hinj) b
  set p : ι → ℝ := fun i => ∑ k, J k i * w k with hp
  refine ⟨p, fun m => by rw [← hw, hT], ?_⟩
  have h1 : euclid p ^ 2 ≤ euclid w * euclid b := by
    rw [euclid_sq, ← hdot, hw]; exact euclid_dot w b
  have h2 : μ * euclid w ^ 2 ≤ euclid p ^ 2 := by rw [euclid_sq, euclid_sq]; exact honto w
  have hs := Real.sqrt_pos.2 hμ
  have h3 : Real.sqrt μ * euclid w ≤ euclid p := by
    refine abs_le_of_sq_le_sq' ?_ (euclid_nonneg _) |>.2
    rw [mul_pow, Real.sq_sqrt hμ.le]; exact h2
  rcases (euclid_nonneg p).eq_or_lt with h0 | h0
  · rw [← h0, mul_zero]; exact euclid_nonneg _
  · refine le_of_mul_le_mul_left (a := euclid p) ?_ h0
    calc euclid p * (Real.sqrt μ * euclid p) = Real.sqrt μ * euclid p ^ 2 := by ring
      _ ≤ Real.sqrt μ * (euclid w * euclid b) := mul_le_mul_of_nonneg_left h1 hs.le
      _ = Real.sqrt μ * euclid w * euclid b := by ring
      _ ≤ euclid p * euclid b := mul_le_mul_of_nonneg_right h3 (euclid_nonneg _)

theorem ball_compact (y : ι → ℝ) (ρ : ℝ) : IsCompact {x : ι → ℝ | ∑ i, (x i - y i) ^ 2 ≤ ρ ^ 2} := by
  refine Metric.isCompact_of_isClosed_isBounded (isClosed_le (by fun_prop) continuous_const) ?_
  refine (Metric.isBounded_closedBall (x := y) (r := |ρ|)).subset fun x hx => ?_
  rw [Metric.mem_closedBall, dist_pi_le_iff (abs_nonneg _)]
  intro i
  rw [Real.dist_eq]
  refine sq_le_sq.1 ?_
  exact (Finset.single_le_sum (f := fun i => (x i - y i) ^ 2) (fun i _ => sq_nonneg _) (Finset.mem_univ i)).trans hx

/-- With a slightly smaller constant. -/
theorem near_root_aux (r : (ι → ℝ) → κ → ℝ) (jac : (ι → ℝ) → Matrix κ ι ℝ) (y : ι → ℝ) (ρ μ : ℝ) (hρ : 0 < ρ) (hμ : 0 < μ)
    (h : RegularNear r jac y ρ μ) (c : ℝ) (hc0 : 0 < c) (hc : c < Real.sqrt μ) (hr : euclid (r y) < c * ρ) :
    ∃ x, ∑ i, (x i - y i) ^ 2 ≤ ρ ^ 2 ∧ (∀ m, r x m = 0) ∧ c * euclid (fun i => x i - y i) ≤ euclid (r y) := by
  have hmem : ∀ x : ι → ℝ, ∑ i, (x i - y i) ^ 2 ≤ ρ ^ 2 ↔ euclid (fun i => x i - y i) ≤ ρ := by
    intro x
    rw [← euclid_sq]
    exact ⟨fun h => (abs_le_of_sq_le_sq' h hρ.le).2, fun h => pow_le_pow_left₀ (euclid_nonneg _) h 2⟩
  have hcont : ContinuousOn (fun x => euclid (r x) + c * euclid (fun i => x i - y i)) {x | ∑ i, (x i - y i) ^ 2 ≤ ρ ^ 2} := by
    refine (euclid_continuous.comp_continuousOn h.continuous).add (Continuous.continuousOn ?_)
    exact continuous_const.mul (euclid_continuous.comp (by fun_prop))
  have hyy : euclid (fun i => y i - y i) = 0 := by simp [euclid]
  obtain ⟨x, hx, hmin⟩ := (ball_compact y ρ).exists_isMinOn ⟨y, by simp; positivity⟩ hcont
  have hxy : euclid (r x) + c * euclid (fun i => x i - y i) ≤ euclid (r y) := by
    have := isMinOn_iff.1 hmin y (by simp; positivity)
    rw [hyy] at this
    linarith
  have hlt : euclid (fun i => x i - y i) < ρ := by
    have h1 := euclid_nonneg (r x)
    have : c * euclid (fun i => x i - y i) < c * ρ := by linarith
    exact lt_of_mul_lt_mul_left this hc0.le
  refine ⟨x, hx, ?_, by linarith [euclid_nonneg (r x)]⟩
  by_contra hne
  push Not at hne
  obtain ⟨m0, hm0⟩ := hne
  have hpos : 0 < euclid (r x) := lt_of_lt_of_le (abs_pos.2 hm0) (abs_le_euclid _ m0)
  obtain ⟨p, hp, hpl⟩ := onto_preimage (jac x) μ hμ (h.onto x hx) fun m => -r x m
  have hneg : euclid (fun m => -r x m) = euclid (r x) := by unfold euclid; simp
  rw [hneg] at hpl
  have hs := Real.sqrt_pos.2 hμ
  -- the gain
  set γ := euclid (r x) - c * euclid p with hγ
  have hγ0 : 0 < γ := by
    have h1 : c * euclid p ≤ c / Real.sqrt μ * euclid (r x) := by
      rw [div_mul_eq_mul_div, le_div_iff₀ hs]
      calc c * euclid p * Real.sqrt μ = c * (Real.sqrt μ * euclid p) := by ring
        _ ≤ c * euclid (r x) := mul_le_mul_of_nonneg_left hpl hc0.le
    have h2 : c / Real.sqrt μ < 1 := (div_lt_one hs).2 hc
    have h3 : c / Real.sqrt μ * euclid (r x) < 1 * euclid (r x) := mul_lt_mul_of_pos_right h2 hpos
    rw [hγ]; linarith
  -- what the linearisation misses
  have herr : Tendsto (fun t : ℝ => euclid (fun m => t⁻¹ * (r (fun i => x i + t * p i) m - r x m) - -r x m)) (𝓝[≠] 0) (𝓝 0) := by
    have h1 : Tendsto (fun t : ℝ => fun m => t⁻¹ * (r (fun i => x i + t * p i) m - r x m) - -r x m) (𝓝[≠] 0) (𝓝 fun _ => 0) := by
      refine tendsto_pi_nhds.2 fun m => ?_
      have h2 := hasDerivAt_iff_tendsto_slope_zero.1 (h.deriv x hx p m)
      rw [hp] at h2
      have h3 := h2.sub (tendsto_const_nhds (x := -r x m))
      rw [sub_self] at h3
      refine h3.congr fun t => ?_
      simp only [zero_add, smul_eq_mul, zero_mul, add_zero]
    have h4 := (euclid_continuous.tendsto (fun _ : κ => (0:ℝ))).comp h1
    have e : euclid (fun _ : κ => (0:ℝ)) = 0 := by simp [euclid]
    rw [e] at h4
    exact h4
  have hev1 := herr.eventually (gt_mem_nhds hγ0)
  have hin : Tendsto (fun t : ℝ => euclid fun i => x i + t * p i - y i) (𝓝[≠] 0) (𝓝 (euclid fun i => x i - y i)) := by
    have h1 : Continuous fun t : ℝ => euclid fun i => x i + t * p i - y i := euclid_continuous.comp (by fun_prop)
    have h2 := (h1.tendsto 0).mono_left (nhdsWithin_le_nhds (s := {0}ᶜ))
    simpa using h2
  have hev2 := hin.eventually (gt_mem_nhds hlt)
  have hev3 : ∀ᶠ t : ℝ in 𝓝[>] 0, t < 1 := (gt_mem_nhds (show (0:ℝ) < 1 by norm_num)).filter_mono nhdsWithin_le_nhds
  have hle : 𝓝[>] (0:ℝ) ≤ 𝓝[≠] 0 := nhdsWithin_mono _ fun t ht => (ne_of_gt ht)
  obtain ⟨t, ⟨⟨⟨e1, e2⟩, e3⟩, ht⟩⟩ := ((((hev1.filter_mono hle).and (hev2.filter_mono hle)).and hev3).and self_mem_nhdsWithin).exists
  have ht0 : 0 < t := ht
  have hlow := isMinOn_iff.1 hmin (fun i => x i + t * p i) ((hmem _).2 e2.le)
  have hsmul : ∀ (a : ℝ) (ha : 0 ≤ a) (v : κ → ℝ), euclid (fun m => a * v m) = a * euclid v := by
    intro a ha v
    unfold euclid
    have : ∑ m, (a * v m) ^ 2 = a ^ 2 * ∑ m, v m ^ 2 := by
      rw [Finset.mul_sum]; exact Finset.sum_congr rfl fun _ _ => by ring
    rw [this, Real.sqrt_mul (sq_nonneg a), Real.sqrt_sq ha]
  have hsmul' : ∀ (a : ℝ) (ha : 0 ≤ a) (v : ι → ℝ), euclid (fun m => a * v m) = a * euclid v := by
    intro a ha v
    unfold euclid
    have : ∑ m, (a * v m) ^ 2 = a ^ 2 * ∑ m, v m ^ 2 := by
      rw [Finset.mul_sum]; exact Finset.sum_congr rfl fun _ _ => by ring
    rw [this, Real.sqrt_mul (sq_nonneg a), Real.sqrt_sq ha]
  have h1 : euclid (r fun i => x i + t * p i) ≤ (1 - t) * euclid (r x) +
      t * euclid (fun m => t⁻¹ * (r (fun i => x i + t * p i) m - r x m) - -r x m) := by
    rw [← hsmul (1 - t) (by linarith), ← hsmul t ht0.le]
    refine le_trans (le_of_eq ?_) (euclid_add _ _)
    congr 1
    funext m
    field_simp
    ring
  have h2 : euclid (fun i => x i + t * p i - y i) ≤ euclid (fun i => x i - y i) + t * euclid p := by
    rw [← hsmul' t ht0.le]
    refine le_trans (le_of_eq ?_) (euclid_add _ _)
    congr 1
    funext i
    ring
  have h3 := mul_le_mul_of_nonneg_left h2 hc0.le
  have h4 := mul_lt_mul_of_pos_left e1 ht0
  nlinarith

/-- **A small residual means a root nearby.** -/
theorem near_root (r : (ι → ℝ) → κ → ℝ) (jac : (ι → ℝ) → Matrix κ ι ℝ) (y : ι → ℝ) (ρ μ : ℝ) (hρ : 0 < ρ) (hμ : 0 < μ)
    (h : RegularNear r jac y ρ μ) (hr : ∑ m, r y m ^ 2 < μ * ρ ^ 2) :
    ∃ x, (∀ m, r x m = 0) ∧ μ * ∑ i, (x i - y i) ^ 2 ≤ ∑ m, r y m ^ 2 := by
  have hs := Real.sqrt_pos.2 hμ
  have hr' : euclid (r y) < Real.sqrt μ * ρ := by
    refine abs_lt_of_sq_lt_sq' ?_ (by positivity) |>.2
    rw [euclid_sq, mul_pow, Real.sq_sqrt hμ.le]; exact hr
  set B := {x : ι → ℝ | ∑ i, (x i - y i) ^ 2 ≤ ρ ^ 2} with hB
  set Z := B ∩ {x | r x = fun _ => 0} with hZ
  have hroot : ∀ c, euclid (r y) / ρ < c → c < Real.sqrt μ → ∃ x ∈ Z, c * euclid (fun i => x i - y i) ≤ euclid (r y) := by
    intro c h1 h2
    have hc0 : 0 < c := lt_of_le_of_lt (div_nonneg (euclid_nonneg _) hρ.le) h1
    obtain ⟨x, hx1, hx2, hx3⟩ := near_root_aux r jac y ρ μ hρ hμ h c hc0 h2 ((div_lt_iff₀ hρ).1 h1)
    exact ⟨x, ⟨hx1, funext hx2⟩, hx3⟩
  have hgap : euclid (r y) / ρ < Real.sqrt μ := (div_lt_iff₀ hρ).2 hr'
  have hZne : Z.Nonempty := by
    obtain ⟨c, h1, h2⟩ := exists_between hgap
    obtain ⟨x, hx, _⟩ := hroot c h1 h2
    exact ⟨x, hx⟩
  have hZc : IsCompact Z := by
    refine (ball_compact y ρ).of_isClosed_subset ?_ Set.inter_subset_left
    exact h.continuous.preimage_isClosed_of_isClosed (ball_compact y ρ).isClosed isClosed_singleton
  obtain ⟨x, hx, hmin⟩ := hZc.exists_isMinOn hZne
    ((show Continuous fun x : ι → ℝ => euclid fun i => x i - y i from euclid_continuous.comp (by fun_prop)).continuousOn)
  refine ⟨x, fun m => congrFun hx.2 m, ?_⟩
  have key : Real.sqrt μ * euclid (fun i => x i - y i) ≤ euclid (r y) := by
    by_contra hlt
    push Not at hlt
    have hd : 0 < euclid fun i => x i - y i := pos_of_mul_pos_right (lt_of_le_of_lt (euclid_nonneg _) hlt) hs.le
    obtain ⟨c, h1, h2⟩ := exists_between (max_lt hgap ((div_lt_iff₀ hd).2 hlt))
    obtain ⟨z, hz, hzc⟩ := hroot c ((le_max_left _ _).trans_lt h1) h2
    have hc0 : 0 < c := lt_of_le_of_lt (div_nonneg (euclid_nonneg _) hρ.le) ((le_max_left _ _).trans_lt h1)
    have h3 := (div_lt_iff₀ hd).1 ((le_max_right _ _).trans_lt h1)
    have h4 := mul_le_mul_of_nonneg_left (isMinOn_iff.1 hmin z hz) hc0.le
    linarith
  have := pow_le_pow_left₀ (mul_nonneg hs.le (euclid_nonneg _)) key 2
  rw [mul_pow, Real.sq_sqrt hμ.le, euclid_sq, euclid_sq] at this
  exact this

end Verif
