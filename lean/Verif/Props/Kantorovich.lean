import Verif.Props.NewtonMonotone

/-!
Property C112: the Newton-Kantorovich theorem for the solvers `Newton` and `Chord`.  A condition that can be checked at the
starting point guarantees that there is a root nearby and that the solve finds it.
-/

namespace Verif.Props

open Verif.Spec Verif.Driver Verif.NewtonChord Filter Topology Metric

variable {ι A : Type} [Fintype ι]

/-- Constants of a system at `y0` (norms are maximum norms): the Jacobian at `y0` is invertible and its inverse is
bounded by `β`; the first Newton step is at most `η` long; within distance `2η` the function is differentiable and its Jacobian
`K`-Lipschitz. -/
structure NewtonConstants (F : (ι → ℝ) → (ι → ℝ)) (y0 : ι → ℝ) (β K η : ℝ) : Prop where
  differentiable : ∀ y ∈ closedBall y0 (2 * η), DifferentiableAt ℝ F y
  lipschitz : ∀ y ∈ closedBall y0 (2 * η), ∀ z ∈ closedBall y0 (2 * η), ‖fderiv ℝ F y - fderiv ℝ F z‖ ≤ K * ‖y - z‖
  inverse : ∀ x, ‖x‖ ≤ β * ‖fderiv ℝ F y0 x‖
  first : ∀ d, fderiv ℝ F y0 d = F y0 → ‖d‖ ≤ η
  positive : 0 < β ∧ 0 ≤ K ∧ 0 ≤ η

/-- The Newton-Kantorovich condition: `β K η ≤ 1/2`. -/
structure Kantorovich (F : (ι → ℝ) → (ι → ℝ)) (y0 : ι → ℝ) (β K η : ℝ) : Prop extends NewtonConstants F y0 β K η where
  small : β * K * η ≤ 1 / 2

theorem invertible_of_bound (J : Op ι) (β : ℝ) (h : ∀ x, ‖x‖ ≤ β * ‖J x‖) : J.IsInvertible := by
  have hinj : Function.Injective J := by
    refine (injective_iff_map_eq_zero _).2 fun d hd => ?_
    have := h d
    rw [hd, norm_zero, mul_zero] at this
    exact norm_eq_zero.1 (le_antisymm this (norm_nonneg _))
  refine ⟨(LinearEquiv.ofInjectiveEndo (J : (ι → ℝ) →ₗ[ℝ] (ι → ℝ)) hinj).toContinuousLinearEquiv, ?_⟩
  ext d i
  rfl

section
variable {F : (ι → ℝ) → (ι → ℝ)} {y0 : ι → ℝ} {β K η : ℝ}

theorem line_mem (y z : ι → ℝ) (ρ : ℝ) (hy : y ∈ closedBall y0 ρ) (hz : z ∈ closedBall y0 ρ) (t : ℝ)
    (h0 : 0 ≤ t) (h1 : t ≤ 1) : y + t • (z - y) ∈ closedBall y0 ρ := by
  have := (convex_closedBall y0 ρ) hy hz (sub_nonneg.2 h1) h0 (by ring)
  convert this using 1
  module

/-- Taylor's formula with the constant `K/2`. -/
theorem Kantorovich.taylor (h : Kantorovich F y0 β K η) (y z : ι → ℝ) (hy : y ∈ closedBall y0 (2 * η))
    (hz : z ∈ closedBall y0 (2 * η)) : ‖F z - F y - fderiv ℝ F y (z - y)‖ ≤ K / 2 * ‖z - y‖ ^ 2 := by
  have hline : ∀ t : ℝ, HasDerivAt (fun t : ℝ => y + t • (z - y)) (z - y) t := fun t => by
    have := ((hasDerivAt_id t).smul_const (z - y)).const_add y
    simpa using this
  have hg : ∀ t ∈ Set.Icc (0:ℝ) 1, HasDerivAt (fun t : ℝ => F (y + t • (z - y)) - F y - t • fderiv ℝ F y (z - y))
      (fderiv ℝ F (y + t • (z - y)) (z - y) - fderiv ℝ F y (z - y)) t := by
    intro t ht
    have h1 := (h.differentiable _ (line_mem y z _ hy hz t ht.1 ht.2)).hasFDerivAt.comp_hasDerivAt t (hline t)
    have h2 := (hasDerivAt_id t).smul_const (fderiv ℝ F y (z - y))
    exact ((h1.sub_const (F y)).sub h2).congr_deriv (by simp)
  have hB : ∀ t : ℝ, HasDerivAt (fun t : ℝ => K / 2 * ‖z - y‖ ^ 2 * t ^ 2) (K * ‖z - y‖ ^ 2 * t) t := fun t => by
    have := (hasDerivAt_pow 2 t).const_mul (K / 2 * ‖z - y‖ ^ 2)
    refine this.congr_deriv ?_
    simp only [Nat.cast_ofNat, Nat.add_one_sub_one, pow_one]
    ring
  have key := image_norm_le_of_norm_deriv_right_le_deriv_boundary (a := 0) (b := 1)
    (f := fun t : ℝ => F (y + t • (z - y)) - F y - t • fderiv ℝ F y (z - y))
    (f' := fun t => fderiv ℝ F (y + t • (z - y)) (z - y) - fderiv ℝ F y (z - y))
    (B := fun t => K / 2 * ‖z - y‖ ^ 2 * t ^ 2) (B' := fun t => K * ‖z - y‖ ^ 2 * t)
    (fun t ht => (hg t ht).continuousAt.continuousWithinAt)
    (fun t ht => (hg t ⟨ht.1, ht.2.le⟩).hasDerivWithinAt) (by simp) hB (by
      intro t ht
      have h1 := h.lipschitz _ (line_mem y z _ hy hz t ht.1 ht.2.le) y hy
      rw [add_sub_cancel_left, norm_smul, Real.norm_eq_abs, abs_of_nonneg ht.1] at h1
      have h2 := (fderiv ℝ F (y + t • (z - y)) - fderiv ℝ F y).le_opNorm (z - y)
      rw [_root_.sub_apply] at h2
      refine h2.trans ((mul_le_mul_of_nonneg_right h1 (norm_nonneg _)).trans (le_of_eq (by ring))))
    (Set.right_mem_Icc.2 zero_le_one)
  simpa using key

/-- One Newton step from a point with the condition leads to a point with the condition, with smaller constants. -/
theorem Kantorovich.next (h : Kantorovich F y0 β K η) (d : ι → ℝ) (hd : fderiv ℝ F y0 d = F y0) :
    Kantorovich F (y0 - d) (β / (1 - β * K * η)) K (β * K * η * η / (2 * (1 - β * K * η))) ∧
    β * K * η * η / (2 * (1 - β * K * η)) ≤ η / 2 ∧
    closedBall (y0 - d) (2 * (β * K * η * η / (2 * (1 - β * K * η)))) ⊆ closedBall y0 (2 * η) := by
  obtain ⟨hβ, hK, hη⟩ := h.positive
  have hdη := h.first d hd
  set hh := β * K * η with hhh
  have hh0 : 0 ≤ hh := by positivity
  have hh1 := h.small
  have h1h : (1:ℝ) / 2 ≤ 1 - hh := by linarith
  have hpos : 0 < 1 - hh := by linarith
  set η' := hh * η / (2 * (1 - hh)) with hη'
  have hη'0 : 0 ≤ η' := by positivity
  have hhalf : η' ≤ η / 2 := by
    rw [hη', div_le_div_iff₀ (by positivity) (by norm_num)]
    nlinarith
  have hsub : closedBall (y0 - d) (2 * η') ⊆ closedBall y0 (2 * η) := by
    refine closedBall_subset_closedBall' ?_
    rw [dist_eq_norm, sub_sub_cancel_left, norm_neg]
    linarith
  have hy0 : y0 ∈ closedBall y0 (2 * η) := mem_closedBall_self (by linarith)
  have hy1 : y0 - d ∈ closedBall y0 (2 * η) := by
    rw [mem_closedBall, dist_eq_norm, sub_sub_cancel_left, norm_neg]
    linarith
  have hinv : ∀ x, ‖x‖ ≤ β / (1 - hh) * ‖fderiv ℝ F (y0 - d) x‖ := by
    intro x
    have h1 := h.inverse x
    have h2 := h.lipschitz y0 hy0 _ hy1
    rw [sub_sub_cancel] at h2
    have h3 := (fderiv ℝ F y0 - fderiv ℝ F (y0 - d)).le_opNorm x
    rw [_root_.sub_apply] at h3
    have h4 : ‖fderiv ℝ F y0 x‖ ≤ ‖fderiv ℝ F (y0 - d) x‖ + K * η * ‖x‖ := by
      have h5 := norm_sub_norm_le (fderiv ℝ F y0 x) (fderiv ℝ F (y0 - d) x)
      have h6 := mul_le_mul_of_nonneg_right (h2.trans (mul_le_mul_of_nonneg_left hdη hK)) (norm_nonneg x)
      linarith
    have h7 := mul_le_mul_of_nonneg_left h4 hβ.le
    rw [div_mul_eq_mul_div, le_div_iff₀ hpos]
    have h8 : β * (‖fderiv ℝ F (y0 - d) x‖ + K * η * ‖x‖) = β * ‖fderiv ℝ F (y0 - d) x‖ + hh * ‖x‖ := by rw [hhh]; ring
    rw [h8] at h7
    nlinarith
  refine ⟨⟨⟨fun y hy => h.differentiable y (hsub hy), fun y hy z hz => h.lipschitz y (hsub hy) z (hsub hz), hinv, ?_,
    ⟨by positivity, hK, hη'0⟩⟩, ?_⟩, hhalf, hsub⟩
  · intro e he
    have h1 := hinv e
    rw [he] at h1
    have h2 := h.taylor y0 (y0 - d) hy0 hy1
    rw [sub_sub_cancel_left, map_neg, hd, norm_neg] at h2
    have h3 : F (y0 - d) - F y0 - -F y0 = F (y0 - d) := by abel
    rw [h3] at h2
    have h4 : ‖d‖ ^ 2 ≤ η ^ 2 := pow_le_pow_left₀ (norm_nonneg _) hdη 2
    have h5 : ‖F (y0 - d)‖ ≤ K / 2 * η ^ 2 := h2.trans (mul_le_mul_of_nonneg_left h4 (by positivity))
    refine h1.trans ((mul_le_mul_of_nonneg_left h5 (by positivity)).trans (le_of_eq ?_))
    rw [hη', hhh]; field_simp
  · have e : β / (1 - hh) * K * η' = hh ^ 2 / (2 * (1 - hh) ^ 2) := by rw [hη', hhh]; field_simp
    rw [e, div_le_div_iff₀ (by positivity) (by norm_num)]
    nlinarith

end

/-- The constants after one step. -/
noncomputable def kNext (K : ℝ) (p : ℝ × ℝ) : ℝ × ℝ :=
  (p.1 / (1 - p.1 * K * p.2), p.1 * K * p.2 * p.2 / (2 * (1 - p.1 * K * p.2)))

/-- If the linear solves succeed and both steps and residuals tend to zero, the solve with Cauchy termination succeeds. -/
theorem newton_succeeds (cfg : Cfg ι ι ℝ (Op ι)) (fn : (ι → ℝ) → (ι → ℝ) × A) (aux0 : A) (y0 : ι → ℝ)
    (hl : cfg.lower = none) (hu : cfg.upper = none)
    (hok : ∀ k, (cfg.linearSolve (cfg.jac (jacPoint cfg fn aux0 y0 k))
      (fn (iterateAt (solver cfg) fn aux0 y0 (init cfg y0) k)).1).2 = .successful)
    (hD : Tendsto (fun k => (cfg.linearSolve (cfg.jac (jacPoint cfg fn aux0 y0 k))
      (fn (iterateAt (solver cfg) fn aux0 y0 (init cfg y0) k)).1).1) atTop (𝓝 0))
    (hF0 : Tendsto (fun k => (fn (iterateAt (solver cfg) fn aux0 y0 (init cfg y0) k)).1) atTop (𝓝 0))
    (hc : cfg.cauchy = true) (hNY : GoodNorm cfg.normY) (hNF : GoodNorm cfg.normF) (ha : 0 < cfg.atol) (hr : 0 ≤ cfg.rtol) :
    ∃ N, ∀ (ms : Option ℕ) (throw : Bool), (∀ n, ms = some n → N ≤ n) →
      ∃ sol, iterativeSolve (solver cfg) (fun _ => true) fn aux0 y0 ms throw = some (.ok sol) ∧ sol.result = .successful ∧
        sol.numSteps ≤ N ∧ sol.value = iterateAt (solver cfg) fn aux0 y0 (init cfg y0) sol.numSteps := by
  set Y := iterateAt (solver cfg) fn aux0 y0 (init cfg y0) with hY
  set D := fun k => (cfg.linearSolve (cfg.jac (jacPoint cfg fn aux0 y0 k)) (fn (Y k)).1).1 with hDd
  have hD : Tendsto D atTop (𝓝 0) := hD
  obtain ⟨δ, hδ, hδY, hδF⟩ := small_enough hNY hNF cfg.atol ha
  have ev : ∀ᶠ k in atTop, ‖D k‖ ≤ δ ∧ ‖(fn (Y k)).1‖ ≤ δ := by
    have e1 := (tendsto_zero_iff_norm_tendsto_zero.1 hD).eventually (gt_mem_nhds hδ)
    have e2 := (tendsto_zero_iff_norm_tendsto_zero.1 hF0).eventually (gt_mem_nhds hδ)
    filter_upwards [e1, e2] with k h1 h2 using ⟨h1.le, h2.le⟩
  obtain ⟨k0, hK1, hK2⟩ := ev.exists
  have hresult : ∀ k, (stateAt (solver cfg) fn aux0 y0 (init cfg y0) k).result = .successful := by
    intro k
    cases k with
    | zero => rfl
    | succ k =>
      show (linSol cfg (Y k) (fn (Y k)).1 (stateAt (solver cfg) fn aux0 y0 (init cfg y0) k)).2 = _
      rw [newton_linSol]
      exact hok k
  have hterm : ∀ k, (solver cfg).terminate fn (Y (k - 1)) (stateAt (solver cfg) fn aux0 y0 (init cfg y0) k) =
      (match (stateAt (solver cfg) fn aux0 y0 (init cfg y0) k).f with
        | some f => cauchyTermination cfg.rtol cfg.atol cfg.normY cfg.normF (Y (k - 1))
          (stateAt (solver cfg) fn aux0 y0 (init cfg y0) k).diff (fun _ => 0) f
        | none => (terminate cfg (Y (k - 1)) (stateAt (solver cfg) fn aux0 y0 (init cfg y0) k)).1, .successful) := by
    intro k
    have hres := hresult k
    have hf : ∃ f, (stateAt (solver cfg) fn aux0 y0 (init cfg y0) k).f = some f := by
      cases k with
      | zero => exact ⟨fun _ => cfg.inf, if_pos hc⟩
      | succ k => exact ⟨(fn (Y k)).1, if_pos hc⟩
    obtain ⟨f, hf⟩ := hf
    show terminate cfg _ _ = _
    unfold terminate
    simp [hc, hf, hres]
  refine ⟨k0 + 1, fun ms throw hb => ?_⟩
  obtain ⟨sol, h1, h2, h3⟩ := succeeds_by (solver cfg) fn aux0 y0 (init cfg y0) rfl (k0 + 1)
    (fun j _ => by rw [hterm]) (by
      rw [hterm]
      have hf : (stateAt (solver cfg) fn aux0 y0 (init cfg y0) (k0 + 1)).f = some (fn (Y k0)).1 := if_pos hc
      have hdiff : (stateAt (solver cfg) fn aux0 y0 (init cfg y0) (k0 + 1)).diff = D k0 := by
        have : (stateAt (solver cfg) fn aux0 y0 (init cfg y0) (k0 + 1)).diff =
            if cfg.lower.isSome || cfg.upper.isSome then (fun i => Y k0 i - Y (k0 + 1) i)
              else (linSol cfg (Y k0) (fn (Y k0)).1 (stateAt (solver cfg) fn aux0 y0 (init cfg y0) k0)).1 := rfl
        rw [this, hl, hu, newton_linSol]
        rfl
      rw [hf, hdiff, Nat.add_sub_cancel]
      have c1 := norm_small hNY cfg.rtol cfg.atol δ ha hr (Y k0) (D k0) (fun i => (norm_le_pi_norm _ i).trans hK1) hδY
      have c2 := norm_small hNF cfg.rtol cfg.atol δ ha hr (fun _ => 0) (fn (Y k0)).1 (fun i => (norm_le_pi_norm _ i).trans hK2) hδF
      show (decide _ && decide _) = true
      rw [Bool.and_eq_true, decide_eq_true_eq, decide_eq_true_eq]
      exact ⟨c1, c2⟩) ms throw hb
  refine ⟨sol, h1, h2, h3, ?_⟩
  obtain ⟨st0, hi, _, _, _, _, hp, _⟩ := solve_spec _ _ _ _ _ _ _ _ h1
  obtain rfl : init cfg y0 = st0 := by simpa [solver] using hi
  exact congrArg Prod.fst hp

/-- The setting: JAX computes the derivative, linear solves of invertible systems are exact, there are no bounds. -/
structure ExactNewton (cfg : Cfg ι ι ℝ (Op ι)) (F : (ι → ℝ) → (ι → ℝ)) : Prop where
  jacobian : ∀ y, cfg.jac y = fderiv ℝ F y
  solves : SolvesInvertible cfg.linearSolve
  noLower : cfg.lower = none
  noUpper : cfg.upper = none

/-- **C112**, `Newton`.  If the Newton-Kantorovich condition holds at the starting point, there is a root `r` within distance
`2η` of it, and only one; the iterates stay within this distance and converge to `r`, quadratically if
`β K η < 1/2`; and with Cauchy termination the solve succeeds, with every sufficiently large budget and with none. -/
theorem C112_newton (cfg : Cfg ι ι ℝ (Op ι)) (fn : (ι → ℝ) → (ι → ℝ) × A) (aux0 : A) (hs : ExactNewton cfg fun y => (fn y).1)
    (hnewton : cfg.isNewton = true) (y0 : ι → ℝ) (β K η : ℝ) (hk : Kantorovich (fun y => (fn y).1) y0 β K η) :
    let Y := iterateAt (solver cfg) fn aux0 y0 (init cfg y0)
    ∃ r, (fn r).1 = 0 ∧ ‖r - y0‖ ≤ 2 * η ∧ (∀ k, ‖Y k - y0‖ ≤ 2 * η) ∧ Tendsto Y atTop (𝓝 r) ∧
      (∀ k, ‖Y k - r‖ ≤ 2 * η / 2 ^ k * (2 * (β * K * η)) ^ (2 ^ k - 1)) ∧
      (∀ r', (fn r').1 = 0 → ‖r' - y0‖ ≤ 2 * η → r' = r) ∧
      ∀ (_ : cfg.cauchy = true) (_ : GoodNorm cfg.normY) (_ : GoodNorm cfg.normF) (_ : 0 < cfg.atol) (_ : 0 ≤ cfg.rtol),
        ∃ N, ∀ (ms : Option ℕ) (throw : Bool), (∀ n, ms = some n → N ≤ n) →
          ∃ sol, iterativeSolve (solver cfg) (fun _ => true) fn aux0 y0 ms throw = some (.ok sol) ∧ sol.result = .successful ∧
            ‖sol.value - r‖ ≤ 2 * η / 2 ^ sol.numSteps := by
  intro Y
  set F := fun y => (fn y).1 with hF
  set p : ℕ → ℝ × ℝ := fun k => (kNext K)^[k] (β, η) with hp
  have hp1 : ∀ k, p (k + 1) = kNext K (p k) := fun k => Function.iterate_succ_apply' _ _ _
  set D := fun k => (cfg.linearSolve (cfg.jac (jacPoint cfg fn aux0 y0 k)) (fn (Y k)).1).1 with hD
  have hjp : ∀ k, jacPoint cfg fn aux0 y0 k = Y k := fun k => by simp [jacPoint, hnewton, Y]
  have hnext : ∀ k, Y (k + 1) = Y k - D k := fun k => by
    show iterateAt _ _ _ _ _ (k + 1) = _
    rw [newton_iterate, hs.noLower, hs.noUpper]; rfl
  obtain ⟨hβ, hK, hη⟩ := hk.positive
  have hsolve : ∀ k, Kantorovich F (Y k) (p k).1 K (p k).2 → fderiv ℝ F (Y k) (D k) = F (Y k) ∧
      (cfg.linearSolve (cfg.jac (jacPoint cfg fn aux0 y0 k)) (fn (Y k)).1).2 = .successful := by
    intro k h
    have h1 := hs.solves (cfg.jac (jacPoint cfg fn aux0 y0 k)) (by
      rw [hs.jacobian, hjp]; exact invertible_of_bound _ _ h.inverse) (fn (Y k)).1
    refine ⟨?_, h1.2⟩
    have h2 := h1.1
    rw [show cfg.jac (jacPoint cfg fn aux0 y0 k) = fderiv ℝ F (Y k) by rw [hs.jacobian, hjp]] at h2
    show fderiv ℝ F (Y k) (cfg.linearSolve (cfg.jac (jacPoint cfg fn aux0 y0 k)) (fn (Y k)).1).1 = _
    rw [show cfg.jac (jacPoint cfg fn aux0 y0 k) = fderiv ℝ F (Y k) by rw [hs.jacobian, hjp]]
    exact h2
  have inv : ∀ k, Kantorovich F (Y k) (p k).1 K (p k).2 := by
    intro k
    induction k with
    | zero => exact hk
    | succ k ih =>
      have h1 := (ih.next (D k) (hsolve k ih).1).1
      rw [hnext, hp1]
      exact h1
  have hstep := fun k => (inv k).next (D k) (hsolve k (inv k)).1
  have hsub : ∀ k, closedBall (Y (k + 1)) (2 * (p (k + 1)).2) ⊆ closedBall (Y k) (2 * (p k).2) := fun k => by
    rw [hnext, hp1]; exact (hstep k).2.2
  have hnest : ∀ k j, closedBall (Y (k + j)) (2 * (p (k + j)).2) ⊆ closedBall (Y k) (2 * (p k).2) := by
    intro k j
    induction j with
    | zero => exact subset_rfl
    | succ j ih => exact (hsub (k + j)).trans ih
  have hin : ∀ k j, Y (k + j) ∈ closedBall (Y k) (2 * (p k).2) := fun k j =>
    hnest k j (mem_closedBall_self (by linarith [(inv (k + j)).positive.2.2]))
  have hη2 : ∀ k, (p k).2 ≤ η / 2 ^ k := by
    intro k
    induction k with
    | zero => simp [hp]
    | succ k ih =>
      have h1 : (p (k + 1)).2 ≤ (p k).2 / 2 := by rw [hp1]; exact (hstep k).2.1
      rw [pow_succ, ← div_div]
      linarith
  have hDn : ∀ k, ‖D k‖ ≤ (p k).2 := fun k => (inv k).first _ (hsolve k (inv k)).1
  have hdist : ∀ k, dist (Y k) (Y (k + 1)) ≤ 2 * η / 2 / 2 ^ k := fun k => by
    rw [dist_eq_norm, hnext, sub_sub_cancel]
    refine (hDn k).trans ((hη2 k).trans (le_of_eq ?_))
    ring
  obtain ⟨r, hr⟩ := cauchySeq_tendsto_of_complete (cauchySeq_of_le_geometric_two hdist)
  have hrin : ∀ k, r ∈ closedBall (Y k) (2 * (p k).2) := fun k =>
    isClosed_closedBall.mem_of_tendsto ((tendsto_add_atTop_iff_nat k).2 hr)
      (Eventually.of_forall fun j => by rw [add_comm]; exact hin k j)
  have hgeo : Tendsto (fun k : ℕ => η / 2 ^ k) atTop (𝓝 0) := by
    have := (tendsto_pow_atTop_nhds_zero_of_lt_one (r := (1/2:ℝ)) (by norm_num) (by norm_num)).const_mul η
    rw [mul_zero] at this
    refine this.congr fun k => ?_
    rw [one_div, inv_pow]; rfl
  have hD0 : Tendsto D atTop (𝓝 0) := squeeze_zero_norm (fun k => (hDn k).trans (hη2 k)) hgeo
  have hball0 : ∀ k, Y k ∈ closedBall y0 (2 * η) := fun k => by have := hin 0 k; rwa [zero_add] at this
  have hy0 : y0 ∈ closedBall y0 (2 * η) := mem_closedBall_self (by linarith)
  have hF0 : Tendsto (fun k => F (Y k)) atTop (𝓝 0) := by
    have hb : ∀ k, ‖F (Y k)‖ ≤ (‖fderiv ℝ F y0‖ + K * (2 * η)) * ‖D k‖ := by
      intro k
      rw [← (hsolve k (inv k)).1]
      refine (ContinuousLinearMap.le_opNorm _ _).trans (mul_le_mul_of_nonneg_right ?_ (norm_nonneg _))
      have h1 := hk.lipschitz _ (hball0 k) y0 hy0
      have h2 : ‖Y k - y0‖ ≤ 2 * η := by have := hball0 k; rwa [mem_closedBall, dist_eq_norm] at this
      have h3 := mul_le_mul_of_nonneg_left h2 hK
      have h4 := norm_sub_norm_le (fderiv ℝ F (Y k)) (fderiv ℝ F y0)
      linarith
    refine squeeze_zero_norm hb ?_
    have := (tendsto_zero_iff_norm_tendsto_zero.1 hD0).const_mul (‖fderiv ℝ F y0‖ + K * (2 * η))
    rwa [mul_zero] at this
  have hr0 : r ∈ closedBall y0 (2 * η) := hrin 0
  have hroot : F r = 0 := tendsto_nhds_unique (((hk.differentiable r hr0).continuousAt.tendsto).comp hr) hF0
  have herr : ∀ k, ‖Y k - r‖ ≤ 2 * (p k).2 := fun k => by
    have := hrin k
    rwa [mem_closedBall, dist_eq_norm, norm_sub_rev] at this
  -- the quadratic rate
  have hhk : ∀ k, 0 ≤ 2 * ((p k).1 * K * (p k).2) ∧ 2 * ((p k).1 * K * (p k).2) ≤ (2 * (β * K * η)) ^ (2 ^ k) := by
    intro k
    have h0 := (inv k).positive
    refine ⟨by have := h0.1; have := h0.2.2; positivity, ?_⟩
    induction k with
    | zero => simp [hp]
    | succ k ih =>
      have hk0 := (inv k).positive
      have ih := ih hk0
      have hsm := (inv k).small
      set hh := (p k).1 * K * (p k).2 with hhh
      have hh0 : 0 ≤ hh := by have := hk0.1; have := hk0.2.2; positivity
      have hpos : 0 < 1 - hh := by linarith
      have e : (p (k + 1)).1 * K * (p (k + 1)).2 = hh ^ 2 / (2 * (1 - hh) ^ 2) := by
        rw [hp1]; simp only [kNext, ← hhh]
        rw [hhh]; field_simp
      rw [e, show (2:ℕ) ^ (k + 1) = 2 ^ k * 2 from pow_succ 2 k, pow_mul]
      have h1 : hh ^ 2 / (2 * (1 - hh) ^ 2) ≤ 2 * hh ^ 2 := by
        rw [div_le_iff₀ (by positivity)]
        have : (1:ℝ) / 4 ≤ (1 - hh) ^ 2 := by nlinarith
        nlinarith [sq_nonneg hh]
      have h2 := pow_le_pow_left₀ (by linarith) ih 2
      nlinarith
  have hquad : ∀ k, (p k).2 ≤ η / 2 ^ k * (2 * (β * K * η)) ^ (2 ^ k - 1) := by
    intro k
    induction k with
    | zero => simp [hp]
    | succ k ih =>
      have hk0 := (inv k).positive
      have hsm := (inv k).small
      have hb := (hhk k).2
      set hh := (p k).1 * K * (p k).2 with hhh
      have hh0 : 0 ≤ hh := by have := hk0.1; have := hk0.2.2; positivity
      have hpos : 0 < 1 - hh := by linarith
      have h1 : (p (k + 1)).2 ≤ (2 * hh) * (p k).2 / 2 := by
        rw [hp1]; simp only [kNext, ← hhh]
        rw [div_le_div_iff₀ (by positivity) (by norm_num)]
        have := mul_nonneg hh0 hk0.2.2
        nlinarith
      have h2 : (2 * hh) * (p k).2 ≤ (2 * (β * K * η)) ^ (2 ^ k) * (η / 2 ^ k * (2 * (β * K * η)) ^ (2 ^ k - 1)) :=
        mul_le_mul hb ih hk0.2.2 (by positivity)
      have e : 2 ^ (k + 1) - 1 = 2 ^ k + (2 ^ k - 1) := by have := Nat.one_le_two_pow (n := k); omega
      rw [e, pow_add (2 * (β * K * η)), pow_succ (2:ℝ) k, ← div_div]
      nlinarith
  refine ⟨r, hroot, ?_, ?_, hr, ?_, ?_, ?_⟩
  · rwa [mem_closedBall, dist_eq_norm] at hr0
  · intro k; have := hball0 k; rwa [mem_closedBall, dist_eq_norm] at this
  · intro k
    refine (herr k).trans ((mul_le_mul_of_nonneg_left (hquad k) (by norm_num)).trans (le_of_eq (by ring)))
  · -- uniqueness
    intro r' hr' hr'0
    have hr'b : r' ∈ closedBall y0 (2 * η) := by rwa [mem_closedBall, dist_eq_norm]
    have hrec : ∀ k, ‖Y (k + 1) - r'‖ ≤ (p k).1 * (K / 2 * ‖Y k - r'‖ ^ 2) := by
      intro k
      have h1 := (inv k).inverse (Y (k + 1) - r')
      have h2 : fderiv ℝ F (Y k) (Y (k + 1) - r') = F r' - F (Y k) - fderiv ℝ F (Y k) (r' - Y k) := by
        rw [hnext, show F r' = 0 from hr', ← (hsolve k (inv k)).1, zero_sub, ← map_neg, ← map_sub]
        congr 1
        abel
      rw [h2] at h1
      have h3 := hk.taylor (Y k) r' (hball0 k) hr'b
      rw [norm_sub_rev r'] at h3
      exact h1.trans (mul_le_mul_of_nonneg_left h3 (inv k).positive.1.le)
    have hu : ∀ k, (p k).1 * K * ‖Y k - r'‖ ≤ 1 ∧ ‖Y k - r'‖ ≤ 2 * (η / 2 ^ k) := by
      intro k
      induction k with
      | zero =>
        have h1 : ‖Y 0 - r'‖ ≤ 2 * η := by rw [norm_sub_rev]; exact hr'0
        refine ⟨?_, by simpa using h1⟩
        have := mul_le_mul_of_nonneg_left h1 (mul_nonneg hβ.le hK)
        have h2 := hk.small
        show β * K * ‖Y 0 - r'‖ ≤ 1
        linarith
      | succ k ih =>
        obtain ⟨ih1, ih2⟩ := ih
        have hk0 := (inv k).positive
        have hsm := (inv k).small
        have hrk := hrec k
        set hh := (p k).1 * K * (p k).2 with hhh
        have hpos : 0 < 1 - hh := by linarith
        have hbk : (p (k + 1)).1 = (p k).1 / (1 - hh) := by rw [hp1]; rfl
        have hu0 : 0 ≤ (p k).1 * K * ‖Y k - r'‖ := mul_nonneg (mul_nonneg hk0.1.le hK) (norm_nonneg _)
        constructor
        · rw [hbk]
          have h1 := mul_le_mul_of_nonneg_left hrk (mul_nonneg (div_nonneg hk0.1.le hpos.le) hK)
          refine h1.trans ?_
          have e : (p k).1 / (1 - hh) * K * ((p k).1 * (K / 2 * ‖Y k - r'‖ ^ 2)) =
              ((p k).1 * K * ‖Y k - r'‖) ^ 2 / (2 * (1 - hh)) := by field_simp
          rw [e, div_le_one (by positivity)]
          nlinarith
        · refine hrk.trans ?_
          have h1 := mul_le_mul_of_nonneg_right ih1 (norm_nonneg (Y k - r'))
          rw [pow_succ (2:ℝ) k, ← div_div]
          nlinarith
    have hlim : Tendsto Y atTop (𝓝 r') := by
      refine tendsto_iff_norm_sub_tendsto_zero.2 (squeeze_zero (fun k => norm_nonneg _) (fun k => (hu k).2) ?_)
      have := hgeo.const_mul 2
      rwa [mul_zero] at this
    exact tendsto_nhds_unique hlim hr
  · intro hc hNY hNF ha hrt
    obtain ⟨N, hN⟩ := newton_succeeds cfg fn aux0 y0 hs.noLower hs.noUpper (fun k => (hsolve k (inv k)).2) hD0 hF0 hc hNY hNF ha hrt
    refine ⟨N, fun ms throw hb => ?_⟩
    obtain ⟨sol, h1, h2, _, h4⟩ := hN ms throw hb
    refine ⟨sol, h1, h2, ?_⟩
    rw [h4]
    refine (herr _).trans ?_
    have := hη2 sol.numSteps
    rw [mul_div_assoc]
    linarith

/-- **C112**, `Chord`.  Under the same condition with `β K η < 1/2` the chord method converges to the same root, linearly with
factor `2 β K η`, and succeeds. -/
theorem C112_chord (cfg : Cfg ι ι ℝ (Op ι)) (fn : (ι → ℝ) → (ι → ℝ) × A) (aux0 : A) (hs : ExactNewton cfg fun y => (fn y).1)
    (hchord : cfg.isNewton = false) (y0 : ι → ℝ) (β K η : ℝ) (hk : Kantorovich (fun y => (fn y).1) y0 β K η)
    (hlt : β * K * η < 1 / 2) :
    let Y := iterateAt (solver cfg) fn aux0 y0 (init cfg y0)
    ∃ r, (fn r).1 = 0 ∧ ‖r - y0‖ ≤ 2 * η ∧ (∀ k, ‖Y k - y0‖ ≤ 2 * η) ∧ Tendsto Y atTop (𝓝 r) ∧
      (∀ k, ‖Y k - r‖ ≤ 2 * η * (2 * (β * K * η)) ^ k) ∧
      ∀ (_ : cfg.cauchy = true) (_ : GoodNorm cfg.normY) (_ : GoodNorm cfg.normF) (_ : 0 < cfg.atol) (_ : 0 ≤ cfg.rtol),
        ∃ N, ∀ (ms : Option ℕ) (throw : Bool), (∀ n, ms = some n → N ≤ n) →
          ∃ sol, iterativeSolve (solver cfg) (fun _ => true) fn aux0 y0 ms throw = some (.ok sol) ∧ sol.result = .successful ∧
            ‖sol.value - r‖ ≤ 2 * η * (2 * (β * K * η)) ^ sol.numSteps := by
  intro Y
  set F := fun y => (fn y).1 with hF
  set D := fun k => (cfg.linearSolve (cfg.jac (jacPoint cfg fn aux0 y0 k)) (fn (Y k)).1).1 with hD
  have hjp : ∀ k, jacPoint cfg fn aux0 y0 k = y0 := fun k => by simp [jacPoint, hchord]
  have hnext : ∀ k, Y (k + 1) = Y k - D k := fun k => by
    show iterateAt _ _ _ _ _ (k + 1) = _
    rw [newton_iterate, hs.noLower, hs.noUpper]; rfl
  obtain ⟨hβ, hK, hη⟩ := hk.positive
  set q := 2 * (β * K * η) with hq
  have hq0 : 0 ≤ q := by positivity
  have hq1 : q < 1 := by linarith
  have hy0 : y0 ∈ closedBall y0 (2 * η) := mem_closedBall_self (by linarith)
  have hsolve : ∀ k, fderiv ℝ F y0 (D k) = F (Y k) ∧
      (cfg.linearSolve (cfg.jac (jacPoint cfg fn aux0 y0 k)) (fn (Y k)).1).2 = .successful := by
    intro k
    have e : cfg.jac (jacPoint cfg fn aux0 y0 k) = fderiv ℝ F y0 := by rw [hs.jacobian, hjp]
    have h1 := hs.solves _ (invertible_of_bound _ _ hk.inverse) (fn (Y k)).1
    simp only [hD]
    rw [e]
    exact h1
  -- differences of values, up to the linear part at the starting point
  have hmean : ∀ y ∈ closedBall y0 (2 * η), ∀ z ∈ closedBall y0 (2 * η),
      ‖F z - F y - fderiv ℝ F y0 (z - y)‖ ≤ K * (2 * η) * ‖z - y‖ := by
    intro y hy z hz
    have := (convex_closedBall y0 (2 * η)).norm_image_sub_le_of_norm_hasFDerivWithin_le' (f := F) (f' := fderiv ℝ F)
      (φ := fderiv ℝ F y0) (C := K * (2 * η)) (fun x hx => (hk.differentiable x hx).hasFDerivAt.hasFDerivWithinAt) (fun x hx => by
        have h1 := hk.lipschitz x hx y0 hy0
        rw [mem_closedBall, dist_eq_norm] at hx
        exact h1.trans (mul_le_mul_of_nonneg_left hx hK)) hy hz
    exact this
  have hball : ∀ k, Y k ∈ closedBall y0 (2 * η) := by
    intro k
    induction k with
    | zero => exact hy0
    | succ k ih =>
      have h1 := hk.inverse (Y (k + 1) - y0 + D 0)
      have h2 : fderiv ℝ F y0 (Y (k + 1) - y0 + D 0) = -(F (Y k) - F y0 - fderiv ℝ F y0 (Y k - y0)) := by
        have e0 : fderiv ℝ F y0 (D 0) = F y0 := (hsolve 0).1
        have ek := (hsolve k).1
        rw [hnext, map_add, map_sub, map_sub, map_sub, e0, ek]
        abel
      rw [h2, norm_neg] at h1
      have h3 := hk.taylor y0 (Y k) hy0 ih
      rw [mem_closedBall, dist_eq_norm] at ih ⊢
      have h4 : ‖Y k - y0‖ ^ 2 ≤ (2 * η) ^ 2 := pow_le_pow_left₀ (norm_nonneg _) ih 2
      have h5 := mul_le_mul_of_nonneg_left (h3.trans (mul_le_mul_of_nonneg_left h4 (by positivity))) hβ.le
      have h6 : ‖D 0‖ ≤ η := hk.first _ (hsolve 0).1
      have h7 := norm_sub_le (Y (k + 1) - y0 + D 0) (D 0)
      rw [add_sub_cancel_right] at h7
      have h8 : β * (K / 2 * (2 * η) ^ 2) = q * η := by rw [hq]; ring
      rw [h8] at h5
      nlinarith
  have hDrec : ∀ k, ‖D (k + 1)‖ ≤ q * ‖D k‖ := by
    intro k
    have h1 := hk.inverse (D (k + 1))
    rw [(hsolve (k + 1)).1] at h1
    have h2 := hmean _ (hball k) _ (hball (k + 1))
    have e : F (Y (k + 1)) - F (Y k) - fderiv ℝ F y0 (Y (k + 1) - Y k) = F (Y (k + 1)) := by
      rw [show Y (k + 1) - Y k = -D k by rw [hnext]; abel, map_neg, (hsolve k).1]
      abel
    rw [e, show Y (k + 1) - Y k = -D k by rw [hnext]; abel, norm_neg] at h2
    refine h1.trans ((mul_le_mul_of_nonneg_left h2 hβ.le).trans (le_of_eq ?_))
    rw [hq]; ring
  have hDn : ∀ k, ‖D k‖ ≤ η * q ^ k := by
    intro k
    induction k with
    | zero => simpa using hk.first _ (hsolve 0).1
    | succ k ih =>
      refine (hDrec k).trans ((mul_le_mul_of_nonneg_left ih hq0).trans (le_of_eq ?_))
      ring
  have hgeo : Tendsto (fun k : ℕ => η * q ^ k) atTop (𝓝 0) := by
    have := (tendsto_pow_atTop_nhds_zero_of_lt_one hq0 hq1).const_mul η
    rwa [mul_zero] at this
  have hD0 : Tendsto D atTop (𝓝 0) := squeeze_zero_norm hDn hgeo
  have hF0 : Tendsto (fun k => F (Y k)) atTop (𝓝 0) := by
    have h1 := ((fderiv ℝ F y0).continuous.tendsto 0).comp hD0
    rw [map_zero] at h1
    exact h1.congr fun k => (hsolve k).1
  obtain ⟨r, hr⟩ := cauchySeq_tendsto_of_complete (cauchySeq_of_le_geometric q η hq1 (f := Y) fun k => by
    rw [dist_eq_norm, hnext, sub_sub_cancel]; exact hDn k)
  have hr0 : r ∈ closedBall y0 (2 * η) := isClosed_closedBall.mem_of_tendsto hr (Eventually.of_forall hball)
  have hroot : F r = 0 := tendsto_nhds_unique (((hk.differentiable r hr0).continuousAt.tendsto).comp hr) hF0
  have herr : ∀ k, ‖Y k - r‖ ≤ 2 * η * q ^ k := by
    intro k
    induction k with
    | zero =>
      rw [pow_zero, mul_one, norm_sub_rev]
      rwa [mem_closedBall, dist_eq_norm] at hr0
    | succ k ih =>
      have h1 := hk.inverse (Y (k + 1) - r)
      have h2 := hmean _ (hball k) _ hr0
      have e : fderiv ℝ F y0 (Y (k + 1) - r) = F r - F (Y k) - fderiv ℝ F y0 (r - Y k) := by
        have ek := (hsolve k).1
        rw [hnext, hroot, map_sub, map_sub, map_sub, ek]
        abel
      rw [e] at h1
      rw [norm_sub_rev r] at h2
      refine h1.trans ((mul_le_mul_of_nonneg_left (h2.trans (mul_le_mul_of_nonneg_left ih (by positivity))) hβ.le).trans (le_of_eq ?_))
      rw [pow_succ, hq]; ring
  refine ⟨r, hroot, ?_, ?_, hr, herr, ?_⟩
  · rwa [mem_closedBall, dist_eq_norm] at hr0
  · intro k; have := hball k; rwa [mem_closedBall, dist_eq_norm] at this
  · intro hc hNY hNF ha hrt
    obtain ⟨N, hN⟩ := newton_succeeds cfg fn aux0 y0 hs.noLower hs.noUpper (fun k => (hsolve k).2) hD0 hF0 hc hNY hNF ha hrt
    refine ⟨N, fun ms throw hb => ?_⟩
    obtain ⟨sol, h1, h2, _, h4⟩ := hN ms throw hb
    exact ⟨sol, h1, h2, by rw [h4]; exact herr _⟩

/-! ### The condition is met -/

/-- A coupled system: `yᵢ² + y_σ(i)/2 = 8/5`, for any map `σ` of the indices. -/
noncomputable def coupled (σ : ι → ι) (y : ι → ℝ) : ι → ℝ := fun i => y i ^ 2 + y (σ i) / 2 - 8 / 5

noncomputable def coupledJac (σ : ι → ι) (y : ι → ℝ) : Op ι :=
  ContinuousLinearMap.pi fun i => (2 * y i) • ContinuousLinearMap.proj (R := ℝ) (φ := fun _ : ι => ℝ) i +
    (1 / 2 : ℝ) • ContinuousLinearMap.proj (R := ℝ) (φ := fun _ : ι => ℝ) (σ i)

theorem coupled_deriv (σ : ι → ι) (y : ι → ℝ) : HasFDerivAt (coupled σ) (coupledJac σ y) y := by
  refine hasFDerivAt_pi.2 fun i => ?_
  have h1 : HasFDerivAt (fun z : ι → ℝ => z i) (ContinuousLinearMap.proj (R := ℝ) (φ := fun _ : ι => ℝ) i) y :=
    (ContinuousLinearMap.proj (R := ℝ) (φ := fun _ : ι => ℝ) i).hasFDerivAt
  have h2 : HasFDerivAt (fun z : ι → ℝ => z (σ i)) (ContinuousLinearMap.proj (R := ℝ) (φ := fun _ : ι => ℝ) (σ i)) y :=
    (ContinuousLinearMap.proj (R := ℝ) (φ := fun _ : ι => ℝ) (σ i)).hasFDerivAt
  have h3 := ((h1.pow 2).add (h2.mul_const (1 / 2))).sub_const (8 / 5)
  refine (h3.congr_fderiv ?_).congr_of_eventuallyEq (Eventually.of_forall fun z => ?_)
  · ext d
    simp
  · simp [coupled]; ring

/-- The condition holds at `(1, …, 1)` with `β = 2/3`, `K = 2`, `η = 1/15`. -/
theorem coupled_kantorovich (σ : ι → ι) : Kantorovich (coupled σ) (fun _ => 1) (2 / 3) 2 (1 / 15) := by
  have hJ : ∀ y, fderiv ℝ (coupled σ) y = coupledJac σ y := fun y => (coupled_deriv σ y).fderiv
  have happ : ∀ y d i, coupledJac σ y d i = 2 * y i * d i + 1 / 2 * d (σ i) := fun y d i => by simp [coupledJac]
  have hinv : ∀ x : ι → ℝ, ‖x‖ ≤ 2 / 3 * ‖fderiv ℝ (coupled σ) (fun _ => 1) x‖ := by
    intro x
    rw [hJ]
    have h1 : ‖x‖ ≤ 1 / 2 * ‖coupledJac σ (fun _ => 1) x‖ + 1 / 4 * ‖x‖ := by
      refine (pi_norm_le_iff_of_nonneg (by positivity)).2 fun i => ?_
      have h2 := norm_le_pi_norm (coupledJac σ (fun _ => 1) x) i
      have h3 := norm_le_pi_norm x (σ i)
      rw [happ] at h2
      rw [Real.norm_eq_abs] at *
      have h4 := abs_sub_abs_le_abs_sub (2 * 1 * x i) (-(1 / 2 * x (σ i)))
      rw [abs_neg, sub_neg_eq_add, abs_mul, abs_mul (1/2:ℝ), abs_of_pos (by norm_num : (0:ℝ) < 2 * 1),
        abs_of_pos (by norm_num : (0:ℝ) < 1 / 2)] at h4
      linarith
    linarith
  refine ⟨⟨fun y _ => (coupled_deriv σ y).differentiableAt, fun y _ z _ => ?_, hinv, fun d hd => ?_, by norm_num⟩, by norm_num⟩
  · rw [hJ, hJ]
    refine ContinuousLinearMap.opNorm_le_bound _ (by positivity) fun d => ?_
    refine (pi_norm_le_iff_of_nonneg (by positivity)).2 fun i => ?_
    rw [_root_.sub_apply, Pi.sub_apply, happ, happ]
    have e : 2 * y i * d i + 1 / 2 * d (σ i) - (2 * z i * d i + 1 / 2 * d (σ i)) = 2 * ((y - z) i * d i) := by
      simp only [Pi.sub_apply]; ring
    rw [e, norm_mul, norm_mul, Real.norm_two, mul_assoc]
    have h1 := norm_le_pi_norm (y - z) i
    have h2 := norm_le_pi_norm d i
    gcongr
  · have h1 := hinv d
    rw [hd] at h1
    have h2 : ‖coupled σ fun _ => 1‖ ≤ 1 / 10 := by
      refine (pi_norm_le_iff_of_nonneg (by norm_num)).2 fun i => ?_
      norm_num [coupled]
    linarith

example (σ : ι → ι) (b : Bool) : ExactNewton (newtonFor (coupled σ) b) (coupled σ) :=
  ⟨fun _ => rfl, invertSolve_solves, rfl, rfl⟩

/-- So the system has exactly one root within `2/15` of `(1, …, 1)`, and `Newton` finds it. -/
example (σ : ι → ι) (cfg : Cfg ι ι ℝ (Op ι)) (hs : ExactNewton cfg (coupled σ)) (hnewton : cfg.isNewton = true)
    (hc : cfg.cauchy = true) (hY : cfg.normY = maxNorm) (hF : cfg.normF = maxNorm) (ha : 0 < cfg.atol) (hr : 0 ≤ cfg.rtol) :
    ∃ r, coupled σ r = 0 ∧ ∃ sol, iterativeSolve (solver cfg) (fun _ => true) (fun y => (coupled σ y, ())) () (fun _ => 1) none true =
      some (.ok sol) ∧ sol.result = .successful ∧ ‖sol.value - r‖ ≤ 2 * (1 / 15) / 2 ^ sol.numSteps := by
  obtain ⟨r, h1, _, _, _, _, _, h7⟩ := C112_newton cfg (fun y => (coupled σ y, ())) () hs hnewton (fun _ => 1) (2 / 3) 2 (1 / 15)
    (coupled_kantorovich σ)
  obtain ⟨N, hN⟩ := h7 hc (by rw [hY]; exact goodNorm_maxNorm) (by rw [hF]; exact goodNorm_maxNorm) ha hr
  exact ⟨r, h1, hN none true (fun n h => by cases h)⟩

/-- And so does `Chord`. -/
example (σ : ι → ι) (cfg : Cfg ι ι ℝ (Op ι)) (hs : ExactNewton cfg (coupled σ)) (hchord : cfg.isNewton = false)
    (hc : cfg.cauchy = true) (hY : cfg.normY = maxNorm) (hF : cfg.normF = maxNorm) (ha : 0 < cfg.atol) (hr : 0 ≤ cfg.rtol) :
    ∃ r, coupled σ r = 0 ∧ ∃ sol, iterativeSolve (solver cfg) (fun _ => true) (fun y => (coupled σ y, ())) () (fun _ => 1) none true =
      some (.ok sol) ∧ sol.result = .successful ∧ ‖sol.value - r‖ ≤ 2 * (1 / 15) * (2 * (2 / 3 * 2 * (1 / 15))) ^ sol.numSteps := by
  obtain ⟨r, h1, _, _, _, _, h7⟩ := C112_chord cfg (fun y => (coupled σ y, ())) () hs hchord (fun _ => 1) (2 / 3) 2 (1 / 15)
    (coupled_kantorovich σ) (by norm_num)
  obtain ⟨N, hN⟩ := h7 hc (by rw [hY]; exact goodNorm_maxNorm) (by rw [hF]; exact goodNorm_maxNorm) ha hr
  exact ⟨r, h1, hN none true (fun n h => by cases h)⟩

/-! ### The bound `1/2` cannot be raised -/

theorem no_root_deriv (e : ℝ) (y : Unit → ℝ) : HasFDerivAt (fun (y : Unit → ℝ) (_ : Unit) => y () ^ 2 + e)
    (ContinuousLinearMap.pi fun _ => (2 * y ()) • ContinuousLinearMap.proj (R := ℝ) (φ := fun _ : Unit => ℝ) ()) y := by
  refine hasFDerivAt_pi.2 fun i => ?_
  have h1 : HasFDerivAt (fun z : Unit → ℝ => z ()) (ContinuousLinearMap.proj (R := ℝ) (φ := fun _ : Unit => ℝ) ()) y :=
    (ContinuousLinearMap.proj (R := ℝ) (φ := fun _ : Unit => ℝ) ()).hasFDerivAt
  refine ((h1.pow 2).add_const e).congr_fderiv ?_
  ext d
  simp

/-- **C112**, sharpness.  For every `h > 1/2` there is a function of one unknown, `x² + (2h - 1)` from `1`, whose constants
satisfy `β K η = h` and that has no root at all; no solver with Cauchy termination and `atol ≤ 2h - 1` reports success on it. -/
theorem C112_half_is_sharp (h : ℝ) (hh : 1 / 2 < h) :
    let F := fun (y : Unit → ℝ) (_ : Unit) => y () ^ 2 + (2 * h - 1)
    NewtonConstants F (fun _ => 1) (1 / 2) 2 h ∧ 1 / 2 * 2 * h = h ∧ (∀ y, F y ≠ 0) ∧
    ∀ (cfg : Cfg Unit Unit ℝ (Op Unit)), cfg.cauchy = true → cfg.normF = maxNorm → 0 < cfg.atol → cfg.atol ≤ 2 * h - 1 →
      cfg.atol ≤ cfg.inf → ∀ (y0 : Unit → ℝ) (ms : Option ℕ) (throw : Bool) sol,
      iterativeSolve (solver cfg) (fun _ => true) (fun y => (F y, ())) () y0 ms throw = some (.ok sol) →
        sol.result ≠ .successful := by
  intro F
  have hJ : ∀ y, fderiv ℝ F y =
      ContinuousLinearMap.pi fun _ => (2 * y ()) • ContinuousLinearMap.proj (R := ℝ) (φ := fun _ : Unit => ℝ) () :=
    fun y => (no_root_deriv _ y).fderiv
  have hnorm : ∀ x : Unit → ℝ, ‖x‖ = |x ()| := fun x => by
    rw [← maxNorm_eq_norm]
    refine le_antisymm ((maxNorm_le_iff _ _).2 ⟨abs_nonneg _, fun _ => le_rfl⟩) (abs_le_maxNorm x ())
  refine ⟨⟨fun y _ => (no_root_deriv _ y).differentiableAt, fun y _ z _ => ?_, fun x => ?_, fun d hd => ?_,
    by norm_num, by norm_num, by linarith⟩, by ring, fun y hy => ?_, ?_⟩
  · rw [hJ, hJ]
    refine ContinuousLinearMap.opNorm_le_bound _ (by positivity) fun d => ?_
    rw [hnorm, hnorm, hnorm, _root_.sub_apply, Pi.sub_apply]
    simp only [ContinuousLinearMap.pi_apply, _root_.smul_apply, ContinuousLinearMap.proj_apply, smul_eq_mul,
      Pi.sub_apply]
    rw [show 2 * y () * d () - 2 * z () * d () = 2 * (y () - z ()) * d () by ring, abs_mul, abs_mul, abs_two]
  · rw [hJ, hnorm, hnorm]
    simp only [ContinuousLinearMap.pi_apply, _root_.smul_apply, ContinuousLinearMap.proj_apply, smul_eq_mul,
      mul_one, abs_mul, abs_two]
    linarith
  · rw [hJ] at hd
    have h1 := congrFun hd ()
    simp only [ContinuousLinearMap.pi_apply, _root_.smul_apply, ContinuousLinearMap.proj_apply, smul_eq_mul,
      F] at h1
    rw [hnorm, abs_of_nonneg (by linarith)]
    linarith
  · have h1 : y () ^ 2 + (2 * h - 1) = 0 := congrFun hy ()
    nlinarith [sq_nonneg (y ())]
  · intro cfg hc hF ha hae hinf y0 ms throw sol hsol hs
    have hbig : ∀ a : Unit → ℝ, cfg.atol ≤ |a ()| → ¬ maxNorm (fun j => |a j| / cfg.atol) < 1 := by
      intro a h1 h2
      have h3 := abs_le_maxNorm (fun j => |a j| / cfg.atol) ()
      have h4 : 1 ≤ |a ()| / cfg.atol := by rw [le_div_iff₀ ha]; linarith
      have h5 := le_abs_self (|a ()| / cfg.atol)
      linarith
    obtain ⟨y, _, h1, _⟩ := C57_cauchy_success_small_residual_partial cfg (fun y => (F y, ())) () y0 hc (by
      have hn : ¬ cfg.normF (scaledDiff cfg.rtol cfg.atol (fun _ => (0:ℝ)) (fun _ : Unit => cfg.inf)) < 1 := by
        rw [hF]
        have := hbig (fun _ => cfg.inf) (hinf.trans (le_abs_self _))
        convert this using 3
        funext j
        simp [scaledDiff, HasAbs.abs]
      simp only [terminate, NewtonChord.init, hc, if_true]
      simp [cauchyTermination, hn]) (fun _ => true) ms throw sol hsol hs
    rw [hF] at h1
    refine hbig (F y) ?_ h1
    have h2 : F y () = y () ^ 2 + (2 * h - 1) := rfl
    rw [h2, abs_of_nonneg (by nlinarith [sq_nonneg (y ())])]
    nlinarith [sq_nonneg (y ())]

end Verif.Props
