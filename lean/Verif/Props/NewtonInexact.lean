import Verif.Props.NewtonLocal
import Mathlib.LinearAlgebra.FiniteDimensional.Basic
import Mathlib.Topology.Algebra.Module.FiniteDimension

/-!
**C97.** Newton and Chord with errors: the function, the Jacobian and the linear solve are only approximately right (rounding errors,
finite differences or truncated expansions inside the user's function, iterative linear solvers, ...).
-/

namespace Verif.Props

open Verif.Spec Verif.Driver Verif.NewtonChord Filter Topology

variable {ι A : Type} [Fintype ι]

/-- What the solver works with is close to a smooth problem `F` with the nondegenerate root `r`: the Jacobian is right up to `γ` (within `ρ`
of the root) and linear solves leave a residual of at most `η` times the right hand side.  `K` and `N` bound the inverse of the Jacobian at
the root and the Jacobian. -/
structure InexactSetting (cfg : Cfg ι ι ℝ (Op ι)) (F : (ι → ℝ) → (ι → ℝ)) (r : ι → ℝ) (K N γ η ρ : ℝ) : Prop where
  root : F r = 0
  smooth : ContDiffAt ℝ 1 F r
  lower : ∀ x, ‖x‖ ≤ K * ‖fderiv ℝ F r x‖
  upper : ∀ x, ‖fderiv ℝ F r x‖ ≤ N * ‖x‖
  radius : 0 < ρ
  jacobian : ∀ z, ‖z - r‖ ≤ ρ → ‖cfg.jac z - fderiv ℝ F z‖ ≤ γ
  solves : ∀ J : Op ι, J.IsInvertible → ∀ b, ‖J (cfg.linearSolve J b).1 - b‖ ≤ η * ‖b‖ ∧ (cfg.linearSolve J b).2 = .successful
  aboveLower : ∀ l, cfg.lower = some l → ∀ i, l i ≤ r i
  belowUpper : ∀ u, cfg.upper = some u → ∀ i, r i ≤ u i

theorem invertible_of_lower (J : Op ι) (m : ℝ) (h : ∀ x, ‖x‖ ≤ m * ‖J x‖) : J.IsInvertible := by
  have hinj : Function.Injective (J : (ι → ℝ) →ₗ[ℝ] (ι → ℝ)) := by
    rw [injective_iff_map_eq_zero]
    intro x hx
    have h1 := h x
    rw [show J x = 0 from hx, norm_zero, mul_zero] at h1
    exact norm_le_zero_iff.1 h1
  refine ⟨(LinearEquiv.ofInjectiveEndo (J : (ι → ℝ) →ₗ[ℝ] (ι → ℝ)) hinj).toContinuousLinearEquiv, ?_⟩
  ext x
  simp

/-- One step with errors. -/
theorem inexact_contracts (cfg : Cfg ι ι ℝ (Op ι)) (F : (ι → ℝ) → (ι → ℝ)) (r : ι → ℝ) (K N γ η ρ : ℝ)
    (hs : InexactSetting cfg F r K N γ η ρ) (hK : 0 < K) (hN : 0 ≤ N) (hγ : 0 ≤ γ) (hη : 0 ≤ η) (c : ℝ) (hc1 : c < 1)
    (hc : K * (γ + η * N) < c * (1 - K * γ)) (hKγ : K * γ < 1) :
    ∃ δ > 0, δ ≤ ρ ∧ (∀ y, ‖y - r‖ ≤ δ → ‖F y‖ ≤ (N + 1) * ‖y - r‖ ∧ ‖y - r‖ ≤ 2 * K * ‖F y‖) ∧
      ∀ (β : ℝ) (y z f : ι → ℝ), 0 ≤ β → ‖y - r‖ ≤ δ → ‖z - r‖ ≤ δ → ‖f - F y‖ ≤ β →
        (cfg.linearSolve (cfg.jac z) f).2 = .successful ∧
        ‖y - (cfg.linearSolve (cfg.jac z) f).1 - r‖ ≤ c * ‖y - r‖ + 2 * K * (1 + η) / (1 - K * γ) * β := by
  have hc0 : 0 < c := by
    by_contra h
    have : c * (1 - K * γ) ≤ 0 := mul_nonpos_of_nonpos_of_nonneg (not_lt.1 h) (by linarith)
    have : 0 ≤ K * (γ + η * N) := by positivity
    linarith
  set D := 1 - K * γ with hD
  have hD0 : 0 < D := by linarith
  obtain ⟨ε, hε0, hε1, hε2, hε3⟩ : ∃ ε : ℝ, 0 < ε ∧ ε ≤ 1 ∧ 2 * (K * ε) ≤ D ∧
      ε * (2 * K + η * K + c * K) ≤ c * D - K * (γ + η * N) := by
    have hg : 0 < c * D - K * (γ + η * N) := by linarith
    refine ⟨min 1 (min (D / (2 * K)) ((c * D - K * (γ + η * N)) / (2 * K + η * K + c * K))), by positivity, min_le_left _ _, ?_, ?_⟩
    · have : min 1 (min (D / (2 * K)) ((c * D - K * (γ + η * N)) / (2 * K + η * K + c * K))) ≤ D / (2 * K) :=
        (min_le_right _ _).trans (min_le_left _ _)
      rw [le_div_iff₀ (by positivity)] at this
      linarith
    · have : min 1 (min (D / (2 * K)) ((c * D - K * (γ + η * N)) / (2 * K + η * K + c * K))) ≤
          (c * D - K * (γ + η * N)) / (2 * K + η * K + c * K) := (min_le_right _ _).trans (min_le_right _ _)
      rwa [le_div_iff₀ (by positivity)] at this
  have hd : HasFDerivAt F (fderiv ℝ F r) r := (hs.smooth.differentiableAt (by norm_num)).hasFDerivAt
  have e1 : ∀ᶠ y in 𝓝 r, ‖F y - fderiv ℝ F r (y - r)‖ ≤ ε * ‖y - r‖ := by
    have := hd.isLittleO.def hε0
    filter_upwards [this] with y hy
    simpa [hs.root] using hy
  have hcont : ContinuousAt (fderiv ℝ F) r := (hs.smooth.fderiv_right (m := 0) (by norm_num)).continuousAt
  have e2 : ∀ᶠ z in 𝓝 r, ‖fderiv ℝ F z - fderiv ℝ F r‖ < ε := by
    have := hcont (Metric.ball_mem_nhds _ hε0)
    filter_upwards [this] with z hz
    simpa [dist_eq_norm] using hz
  obtain ⟨δ, hδ, hball⟩ := Metric.eventually_nhds_iff.1 (e1.and e2)
  have hKε : K * ε ≤ 1 / 2 := by
    have : D ≤ 1 := by rw [hD]; nlinarith
    linarith
  refine ⟨min (δ / 2) ρ, lt_min (by positivity) hs.radius, min_le_right _ _, fun y hy => ?_, fun β y z f hβ hy hz hf => ?_⟩
  · obtain ⟨a1, _⟩ := hball (y := y) (by rw [dist_eq_norm]; linarith [hy.trans (min_le_left _ _)])
    have n1 := norm_add_le (F y - fderiv ℝ F r (y - r)) (fderiv ℝ F r (y - r))
    rw [sub_add_cancel] at n1
    have n2 := norm_sub_le (F y) (F y - fderiv ℝ F r (y - r))
    rw [sub_sub_cancel] at n2
    have n3 := hs.upper (y - r)
    have n4 := hs.lower (y - r)
    have n5 := mul_le_mul_of_nonneg_right hε1 (norm_nonneg (y - r))
    constructor
    · linarith
    · have n6 := mul_le_mul_of_nonneg_left (n2.trans (add_le_add_right a1 _)) hK.le
      have n7 := mul_le_mul_of_nonneg_right hKε (norm_nonneg (y - r))
      nlinarith
  obtain ⟨a1, _⟩ := hball (y := y) (by rw [dist_eq_norm]; linarith [hy.trans (min_le_left _ _)])
  obtain ⟨_, a2⟩ := hball (y := z) (by rw [dist_eq_norm]; linarith [hz.trans (min_le_left _ _)])
  have a3 := hs.jacobian z (hz.trans (min_le_right _ _))
  set J := cfg.jac z with hJ
  have hJr : ‖J - fderiv ℝ F r‖ ≤ γ + ε := by
    calc ‖J - fderiv ℝ F r‖ = ‖(J - fderiv ℝ F z) + (fderiv ℝ F z - fderiv ℝ F r)‖ := by congr 1; abel
      _ ≤ _ := (norm_add_le _ _).trans (add_le_add a3 a2.le)
  have hJx : ∀ x, ‖J x - fderiv ℝ F r x‖ ≤ (γ + ε) * ‖x‖ := fun x => by
    rw [← _root_.sub_apply]
    exact (ContinuousLinearMap.le_opNorm _ _).trans (mul_le_mul_of_nonneg_right hJr (norm_nonneg _))
  have hlow : ∀ x, (D - K * ε) * ‖x‖ ≤ K * ‖J x‖ := fun x => by
    have h1 := hs.lower x
    have h2 : ‖fderiv ℝ F r x‖ ≤ ‖J x‖ + (γ + ε) * ‖x‖ := by
      have n := norm_sub_le (J x) (J x - fderiv ℝ F r x)
      rw [sub_sub_cancel] at n
      linarith [hJx x]
    have h3 := mul_le_mul_of_nonneg_left h2 hK.le
    rw [hD]
    nlinarith
  have hDε : D / 2 ≤ D - K * ε := by linarith
  have hinv : J.IsInvertible := by
    refine invertible_of_lower J (2 * K / D) fun x => ?_
    rw [div_mul_eq_mul_div, le_div_iff₀ hD0]
    have := hlow x
    have := mul_le_mul_of_nonneg_right hDε (norm_nonneg x)
    linarith
  obtain ⟨h1, h2⟩ := hs.solves J hinv f
  refine ⟨h2, ?_⟩
  set d := (cfg.linearSolve J f).1 with hdd
  set x := y - d - r with hx
  have hJdx : J x = (J (y - r) - fderiv ℝ F r (y - r)) - (F y - fderiv ℝ F r (y - r)) - (f - F y) - (J d - f) := by
    have : J x = J (y - r) - J d := by rw [← map_sub]; congr 1; rw [hx]; abel
    rw [this]; abel
  have hfn : ‖f‖ ≤ (N + ε) * ‖y - r‖ + β := by
    have n1 := norm_add_le (f - F y) (F y)
    rw [sub_add_cancel] at n1
    have n2 := norm_add_le (F y - fderiv ℝ F r (y - r)) (fderiv ℝ F r (y - r))
    rw [sub_add_cancel] at n2
    linarith [hs.upper (y - r)]
  have hb : ‖J x‖ ≤ (γ + 2 * ε + η * (N + ε)) * ‖y - r‖ + (1 + η) * β := by
    rw [hJdx]
    have n1 := norm_sub_le ((J (y - r) - fderiv ℝ F r (y - r)) - (F y - fderiv ℝ F r (y - r)) - (f - F y)) (J d - f)
    have n2 := norm_sub_le ((J (y - r) - fderiv ℝ F r (y - r)) - (F y - fderiv ℝ F r (y - r))) (f - F y)
    have n3 := norm_sub_le (J (y - r) - fderiv ℝ F r (y - r)) (F y - fderiv ℝ F r (y - r))
    have n4 := hJx (y - r)
    have n5 := mul_le_mul_of_nonneg_left hfn hη
    linarith
  have hmain := (hlow x).trans (mul_le_mul_of_nonneg_left hb hK.le)
  have hDε0 : 0 < D - K * ε := by linarith
  have hcoef : K * (γ + 2 * ε + η * (N + ε)) ≤ c * (D - K * ε) := by nlinarith
  have hβc : K * (1 + η) * β ≤ (D - K * ε) * (2 * K * (1 + η) / D * β) := by
    have : K * (1 + η) * β = D / 2 * (2 * K * (1 + η) / D * β) := by field_simp
    rw [this]
    exact mul_le_mul_of_nonneg_right hDε (by positivity)
  have hfin : (D - K * ε) * ‖x‖ ≤ (D - K * ε) * (c * ‖y - r‖ + 2 * K * (1 + η) / D * β) := by
    have := mul_le_mul_of_nonneg_right hcoef (norm_nonneg (y - r))
    nlinarith
  exact le_of_mul_le_mul_left hfin hDε0

/-- **C97.** Newton and Chord with errors.  Suppose that the Jacobian is computed up to `γ` and linear systems are solved up to the relative
residual `η`, both small compared with the condition of the root, so that `c` is a possible rate of convergence.  Then there is a
neighbourhood of the root such that, whenever the function is computed up to `β` in it and the solve starts in it, every step reduces
the error by the factor `c` up to a multiple of `β`, and the iterates come as close to the root as the errors in the function
permit. -/
theorem C97_errors_tolerated (cfg : Cfg ι ι ℝ (Op ι)) (F : (ι → ℝ) → (ι → ℝ)) (r : ι → ℝ) (K N γ η ρ : ℝ)
    (hs : InexactSetting cfg F r K N γ η ρ) (hK : 0 < K) (hN : 0 ≤ N) (hγ : 0 ≤ γ) (hη : 0 ≤ η) (c : ℝ) (hc1 : c < 1)
    (hc : K * (γ + η * N) < c * (1 - K * γ)) (hKγ : K * γ < 1) :
    ∃ δ > 0, ∀ (fn : (ι → ℝ) → (ι → ℝ) × A) (aux0 : A) (β : ℝ), 0 ≤ β → (∀ y, ‖y - r‖ ≤ ρ → ‖(fn y).1 - F y‖ ≤ β) →
      let B := 2 * K * (1 + η) / (1 - K * γ) * β
      B ≤ (1 - c) * δ → ∀ y0 : ι → ℝ, ‖y0 - r‖ ≤ δ →
        let Y := iterateAt (solver cfg) fn aux0 y0 (init cfg y0)
        (∀ k, ‖Y (k + 1) - r‖ ≤ c * ‖Y k - r‖ + B) ∧ (∀ k, ‖Y k - r‖ ≤ c ^ k * ‖y0 - r‖ + B / (1 - c)) ∧
        (cfg.cauchy = true → cfg.normY = maxNorm → cfg.normF = maxNorm → 0 < cfg.atol → 0 ≤ cfg.rtol →
          2 * (B / (1 - c)) < cfg.atol → (N + 1) * (B / (1 - c)) + β < cfg.atol →
            ∃ n, ∀ ms throw, (∀ m, ms = some m → n ≤ m) →
              ∃ sol, iterativeSolve (solver cfg) (fun _ => true) fn aux0 y0 ms throw = some (.ok sol) ∧
                sol.result = .successful ∧ sol.numSteps ≤ n) ∧
        (cfg.cauchy = true → cfg.normF = maxNorm → 0 < cfg.atol → (terminate cfg y0 (init cfg y0)).1 = false →
          ∀ fin ms throw sol, iterativeSolve (solver cfg) fin fn aux0 y0 ms throw = some (.ok sol) → sol.result = .successful →
            ‖sol.value - r‖ ≤ c * (2 * K * (cfg.atol + β)) + B) := by
  obtain ⟨δ, hδ, hδρ, hF, hcon⟩ := inexact_contracts cfg F r K N γ η ρ hs hK hN hγ hη c hc1 hc hKγ
  have hc0 : 0 < c := by
    by_contra h
    have : c * (1 - K * γ) ≤ 0 := mul_nonpos_of_nonpos_of_nonneg (not_lt.1 h) (by linarith)
    have : 0 ≤ K * (γ + η * N) := by positivity
    linarith
  refine ⟨δ, hδ, ?_⟩
  intro fn aux0 β hβ hval B hB y0 hy0 Y
  have hB0 : 0 ≤ B := mul_nonneg (div_nonneg (by positivity) (by linarith)) hβ
  have one : ∀ k, ‖Y k - r‖ ≤ δ →
      (cfg.linearSolve (cfg.jac (jacPoint cfg fn aux0 y0 k)) (fn (Y k)).1).2 = .successful ∧
      ‖Y k - (cfg.linearSolve (cfg.jac (jacPoint cfg fn aux0 y0 k)) (fn (Y k)).1).1 - r‖ ≤ c * ‖Y k - r‖ + B ∧
      ‖Y (k + 1) - r‖ ≤ c * ‖Y k - r‖ + B := by
    intro k hk
    have hz : ‖jacPoint cfg fn aux0 y0 k - r‖ ≤ δ := by
      unfold jacPoint; split_ifs
      · exact hk
      · exact hy0
    obtain ⟨h2, h3⟩ := hcon β (Y k) _ (fn (Y k)).1 hβ hk hz (hval _ (hk.trans hδρ))
    refine ⟨h2, h3, ?_⟩
    show ‖iterateAt (solver cfg) fn aux0 y0 (init cfg y0) (k + 1) - r‖ ≤ _
    rw [newton_iterate]
    exact (clip_closer _ _ _ _ hs.aboveLower hs.belowUpper).trans h3
  have all : ∀ k, ‖Y k - r‖ ≤ δ := by
    intro k
    induction k with
    | zero => exact hy0
    | succ k ih =>
      have h1 := (one k ih).2.2
      have h2 := mul_le_mul_of_nonneg_left ih hc0.le
      linarith
  have hbound : ∀ k, ‖Y k - r‖ ≤ c ^ k * ‖y0 - r‖ + B / (1 - c) := by
    have hpos : 0 < 1 - c := by linarith
    intro k
    induction k with
    | zero =>
      have : 0 ≤ B / (1 - c) := by positivity
      rw [pow_zero, one_mul]
      show ‖y0 - r‖ ≤ _
      linarith
    | succ k ih =>
      have h1 := (one k (all k)).2.2
      have h2 := mul_le_mul_of_nonneg_left ih hc0.le
      have h3 : c * (B / (1 - c)) + B = B / (1 - c) := by field_simp; ring
      rw [pow_succ']
      linarith
  refine ⟨fun k => (one k (all k)).2.2, hbound, ?_, ?_⟩
  · intro hcau hnY hnF hat hrt ht1 ht2
    have hpos : 0 < 1 - c := by linarith
    have hpow : Tendsto (fun k => c ^ k) atTop (𝓝 0) := tendsto_pow_atTop_nhds_zero_of_lt_one hc0.le hc1
    have hE : B = (1 - c) * (B / (1 - c)) := by field_simp
    set E := B / (1 - c) with hEdef
    have ev1 : ∀ᶠ k in atTop, (1 + c) * (c ^ k * ‖y0 - r‖ + E) + B < cfg.atol := by
      have : Tendsto (fun k => (1 + c) * (c ^ k * ‖y0 - r‖ + E) + B) atTop (𝓝 ((1 + c) * (0 * ‖y0 - r‖ + E) + B)) :=
        (((hpow.mul_const _).add_const _).const_mul _).add_const _
      exact this.eventually (gt_mem_nhds (by linarith))
    have ev2 : ∀ᶠ k in atTop, (N + 1) * (c ^ k * ‖y0 - r‖ + E) + β < cfg.atol := by
      have : Tendsto (fun k => (N + 1) * (c ^ k * ‖y0 - r‖ + E) + β) atTop (𝓝 ((N + 1) * (0 * ‖y0 - r‖ + E) + β)) :=
        (((hpow.mul_const _).add_const _).const_mul _).add_const _
      exact this.eventually (gt_mem_nhds (by linarith))
    obtain ⟨k, hk1, hk2⟩ := (ev1.and ev2).exists
    set S := stateAt (solver cfg) fn aux0 y0 (init cfg y0) with hS
    have hresult : ∀ k, (S k).result = .successful := by
      intro k
      cases k with
      | zero => rfl
      | succ k =>
        have : (S (k + 1)).result = (linSol cfg (Y k) (fn (Y k)).1 (S k)).2 := rfl
        rw [this, newton_linSol]
        exact (one k (all k)).1
    have hf : ∀ k, ∃ f, (S k).f = some f := by
      intro k
      cases k with
      | zero => exact ⟨_, by show (if cfg.cauchy then _ else _) = _; rw [hcau]; rfl⟩
      | succ k => exact ⟨_, by show (if cfg.cauchy then _ else _) = _; rw [hcau]; rfl⟩
    have hterm : ∀ j, (terminate cfg (Y (j - 1)) (S j)).2 = .successful := by
      intro j
      obtain ⟨f, hf⟩ := hf j
      simp [terminate, hresult, hcau, hf]
    have hdiff : ‖Y k - (S (k + 1)).diff - r‖ ≤ c * ‖Y k - r‖ + B := by
      have : (S (k + 1)).diff = if cfg.lower.isSome || cfg.upper.isSome then (fun i => Y k i - Y (k + 1) i)
          else (linSol cfg (Y k) (fn (Y k)).1 (S k)).1 := rfl
      rw [this]
      split_ifs
      · have e : Y k - (fun i => Y k i - Y (k + 1) i) - r = Y (k + 1) - r := by
          funext i; simp
        rw [e]; exact (one k (all k)).2.2
      · rw [newton_linSol]; exact (one k (all k)).2.1
    have hd1 : ‖(S (k + 1)).diff‖ < cfg.atol := by
      have h1 := norm_sub_le (Y k - r) (Y k - (S (k + 1)).diff - r)
      have e : Y k - r - (Y k - (S (k + 1)).diff - r) = (S (k + 1)).diff := by abel
      rw [e] at h1
      have h2 := mul_le_mul_of_nonneg_left (hbound k) (by linarith : 0 ≤ 1 + c)
      linarith
    have hd2 : ‖(fn (Y k)).1‖ < cfg.atol := by
      have n := norm_add_le ((fn (Y k)).1 - F (Y k)) (F (Y k))
      rw [sub_add_cancel] at n
      have h1 := hval (Y k) ((all k).trans hδρ)
      have h2 := (hF (Y k) (all k)).1
      have h3 := mul_le_mul_of_nonneg_left (hbound k) (by linarith : 0 ≤ N + 1)
      linarith
    refine ⟨k + 1, fun ms throw hms =>
      succeeds_by (solver cfg) fn aux0 y0 (init cfg y0) rfl (k + 1) (fun j _ => hterm j) ?_ ms throw hms⟩
    show (terminate cfg (Y k) (S (k + 1))).1 = true
    have hfk : (S (k + 1)).f = some (fn (Y k)).1 := by
      show (if cfg.cauchy then some (fn (Y k)).1 else none) = _
      rw [hcau]; rfl
    simp only [terminate, hcau, hfk, Bool.or_eq_true]
    right
    unfold cauchyTermination scaledDiff
    have hsc : ∀ v : ℝ, cfg.atol ≤ cfg.atol + cfg.rtol * |v| := fun v => le_add_of_nonneg_right (mul_nonneg hrt (abs_nonneg _))
    rw [Bool.and_eq_true, decide_eq_true_eq, decide_eq_true_eq, hnY, hnF, maxNorm_lt_iff, maxNorm_lt_iff]
    refine ⟨⟨one_pos, fun i => ?_⟩, one_pos, fun i => ?_⟩
    · have h1 : |(S (k + 1)).diff i| < cfg.atol := lt_of_le_of_lt (norm_le_pi_norm (S (k + 1)).diff i) hd1
      have h2 : 0 < cfg.atol + cfg.rtol * |Y k i| := hat.trans_le (hsc _)
      show |(|(S (k + 1)).diff i| / (cfg.atol + cfg.rtol * |Y k i|))| < 1
      rw [abs_div, abs_abs, abs_of_pos h2, div_lt_one h2]
      exact h1.trans_le (hsc _)
    · have h1 : |(fn (Y k)).1 i| < cfg.atol := lt_of_le_of_lt (norm_le_pi_norm (fn (Y k)).1 i) hd2
      show |(|(fn (Y k)).1 i| / (cfg.atol + cfg.rtol * |(0 : ℝ)|))| < 1
      rw [abs_zero, mul_zero, add_zero, abs_div, abs_abs, abs_of_pos hat, div_lt_one hat]
      exact h1
  · intro hcau hnF hat hinit fin ms throw sol h hsucc
    obtain ⟨y, hy, hf, -, -⟩ := C57_cauchy_success_small_residual_partial cfg fn aux0 y0 hcau hinit fin ms throw sol h hsucc
    obtain ⟨st0, hi, ht, _⟩ := C02_success_is_certificate _ _ _ _ _ _ _ _ h hsucc
    obtain ⟨_, _, st0', hi', hst, hp⟩ := C01_step_budget _ _ _ _ _ _ _ _ h
    cases hi; cases hi'
    have hn : sol.numSteps ≠ 0 := by
      intro h0
      rw [hst, h0] at ht
      have : (terminate cfg y0 (init cfg y0)).1 = true := congrArg Prod.fst ht
      rw [hinit] at this; cases this
    have hv : sol.value = Y (sol.numSteps - 1 + 1) := by
      rw [Nat.sub_add_cancel (Nat.one_le_iff_ne_zero.2 hn)]
      exact congrArg Prod.fst hp
    have hyk : y = Y (sol.numSteps - 1) := hy
    have hfy : ‖(fn y).1‖ ≤ cfg.atol := by
      rw [hnF, maxNorm_eq_norm, pi_norm_lt_iff one_pos] at hf
      refine (pi_norm_le_iff_of_nonneg hat.le).2 fun i => ?_
      have := hf i
      rw [norm_div, Real.norm_of_nonneg hat.le, Real.norm_eq_abs, abs_abs, div_lt_one hat] at this
      exact this.le
    have hyδ : ‖y - r‖ ≤ δ := hyk ▸ all _
    have h1 := (hF y hyδ).2
    have h2 : ‖F y‖ ≤ cfg.atol + β := by
      have n := norm_sub_le (fn y).1 ((fn y).1 - F y)
      rw [sub_sub_cancel] at n
      linarith [hval y (hyδ.trans hδρ)]
    have h3 : ‖y - r‖ ≤ 2 * K * (cfg.atol + β) := h1.trans (mul_le_mul_of_nonneg_left h2 (by positivity))
    have h4 := (one (sol.numSteps - 1) (all _)).2.2
    rw [← hv, ← hyk] at h4
    linarith [mul_le_mul_of_nonneg_left h3 hc0.le]

/-- The hypotheses of `C97_errors_tolerated` are met, with rate `1 / 2`, when solving `y² = 2` in every component with bounds, a Jacobian that is
off by `1 / 10` and a linear solver whose results are a tenth too small. -/
example : ∃ cfg : Cfg ι ι ℝ (Op ι), InexactSetting cfg (fun y i => y i ^ 2 - 2) (fun _ => √2) (2 / 5) 3 (1 / 10) (1 / 10) 1 ∧
    cfg.isNewton = true ∧ cfg.lower = some (fun _ => 1) ∧ cfg.upper = some (fun _ => 2) ∧
    (2 / 5 : ℝ) * (1 / 10 + 1 / 10 * 3) < 1 / 2 * (1 - 2 / 5 * (1 / 10)) ∧ (2 / 5 : ℝ) * (1 / 10) < 1 := by
  have hd : ∀ y : ι → ℝ, HasFDerivAt (fun (y : ι → ℝ) i => y i ^ 2 - 2)
      (ContinuousLinearMap.pi fun i => (2 * y i) • (ContinuousLinearMap.proj i : (ι → ℝ) →L[ℝ] ℝ)) y := by
    intro y
    rw [hasFDerivAt_pi]
    intro i
    have h1 : HasFDerivAt (fun y : ι → ℝ => y i) (ContinuousLinearMap.proj i : (ι → ℝ) →L[ℝ] ℝ) y := hasFDerivAt_apply i y
    have h2 := (hasDerivAt_pow 2 (y i)).comp_hasFDerivAt y h1
    simpa using h2.sub_const (2 : ℝ)
  have hs2 : √2 * √2 = (2 : ℝ) := Real.mul_self_sqrt (by norm_num)
  have hs0 : (0 : ℝ) ≤ √2 := Real.sqrt_nonneg _
  have hval : ∀ x : ι → ℝ, fderiv ℝ (fun (y : ι → ℝ) i => y i ^ 2 - 2) (fun _ => √2) x = (2 * √2) • x := by
    intro x
    rw [(hd _).fderiv]
    funext i
    simp
  have hnorm : ∀ x : ι → ℝ, ‖(2 * √2 : ℝ) • x‖ = 2 * √2 * ‖x‖ := fun x => by
    rw [norm_smul, Real.norm_of_nonneg (by positivity)]
  refine ⟨{ rtol := 0, atol := 1, normY := maxNorm, normF := maxNorm, kappa := 1, cauchy := true, isNewton := true,
            lower := some fun _ => 1, upper := some fun _ => 2,
            jac := fun z => fderiv ℝ (fun (y : ι → ℝ) i => y i ^ 2 - 2) z + (1 / 10 : ℝ) • ContinuousLinearMap.id ℝ (ι → ℝ),
            linearSolve := fun J b => ((9 / 10 : ℝ) • J.inverse b, .successful), inf := 1, isfinite := fun _ => true,
            resolution := 1 },
    ⟨?_, ?_, ?_, ?_, one_pos, ?_, ?_, ?_, ?_⟩, rfl, rfl, rfl, by norm_num, by norm_num⟩
  · funext i; simp
  · exact ContDiff.contDiffAt (contDiff_pi.2 fun i => by fun_prop)
  · intro x
    rw [hval, hnorm]
    have : (5 / 4 : ℝ) ≤ √2 := by nlinarith
    nlinarith [norm_nonneg x]
  · intro x
    rw [hval, hnorm]
    have : √2 ≤ (3 / 2 : ℝ) := by nlinarith
    nlinarith [norm_nonneg x]
  · intro z _
    rw [add_sub_cancel_left, norm_smul]
    have := ContinuousLinearMap.norm_id_le (𝕜 := ℝ) (E := ι → ℝ)
    rw [Real.norm_of_nonneg (by norm_num)]
    linarith
  · rintro J ⟨e, rfl⟩ b
    refine ⟨?_, rfl⟩
    have : (e : Op ι) ((9 / 10 : ℝ) • (e : Op ι).inverse b) - b = (-(1 / 10) : ℝ) • b := by
      rw [map_smul, ContinuousLinearMap.inverse_equiv]
      simp only [ContinuousLinearEquiv.coe_coe, ContinuousLinearEquiv.apply_symm_apply]
      module
    show ‖(e : Op ι) ((9 / 10 : ℝ) • (e : Op ι).inverse b) - b‖ ≤ _
    rw [this, norm_smul]
    norm_num
  · rintro l ⟨⟩ i
    exact Real.one_le_sqrt.2 (by norm_num)
  · rintro u ⟨⟩ i
    exact (Real.sqrt_le_left (by norm_num)).2 (by norm_num)

end Verif.Props
