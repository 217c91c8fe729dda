import Verif.Props.NewtonLocal
import Verif.Spec.NewtonBall

/-!
Property C112, continued: how many steps `Newton` and `Chord` need, with either termination test and with bounds, from starting points
that satisfy a condition that can be checked there.
-/

namespace Verif.Props

open Verif.Spec Verif.Driver Verif.NewtonChord Filter Topology

variable {ι A : Type} [Fintype ι]

/-- Bounds that hold at a point leave it alone. -/
theorem clip_inside (lower upper : Option (ι → ℝ)) (x : ι → ℝ) (hl : ∀ l, lower = some l → ∀ i, l i ≤ x i)
    (hu : ∀ u, upper = some u → ∀ i, x i ≤ u i) : clipBounds lower upper x = x := by
  have h := clip_closer lower upper x x hl hu
  rw [sub_self, norm_zero] at h
  exact sub_eq_zero.1 (norm_le_zero_iff.1 h)

section sequence

/-- A sequence whose steps are bounded by the values of a function, and whose values are bounded by the steps, stays in the ball. -/
theorem ball_sequence (F : (ι → ℝ) → ι → ℝ) (y0 : ι → ℝ) (Y d : ℕ → ι → ℝ) (hY0 : Y 0 = y0) (ρ β c θ : ℝ) (hβ : 0 ≤ β) (hc0 : 0 ≤ c)
    (hc : β * c ≤ θ) (hθ0 : 0 ≤ θ) (hθ1 : θ < 1) (hrad : β * ‖F y0‖ ≤ (1 - θ) * ρ) (hρ : 0 ≤ ρ)
    (hY : ∀ k, ‖Y k - d k - y0‖ ≤ ρ → Y (k + 1) = Y k - d k)
    (hlin : ∀ k, ‖Y k - y0‖ ≤ ρ → ‖d k‖ ≤ β * ‖F (Y k)‖)
    (hfall : ∀ k, ‖Y k - y0‖ ≤ ρ → ‖Y k - d k - y0‖ ≤ ρ → ‖F (Y k)‖ ≤ ‖F y0‖ → ‖F (Y k - d k)‖ ≤ c * ‖d k‖) (k : ℕ) :
    ‖Y k - y0‖ ≤ ρ ∧ ‖F (Y k)‖ ≤ θ ^ k * ‖F y0‖ ∧ ‖d k‖ ≤ β * ‖F (Y k)‖ ∧ Y (k + 1) = Y k - d k ∧
      ‖F (Y (k + 1))‖ ≤ c * ‖d k‖ ∧ ‖F (Y (k + 1))‖ ≤ θ * ‖F (Y k)‖ := by
  have hpow : ∀ k, 0 ≤ θ ^ k ∧ θ ^ k ≤ 1 := fun k => ⟨pow_nonneg hθ0 k, pow_le_one₀ hθ0 hθ1.le⟩
  have hle : ∀ k, (1 - θ ^ k) * ρ ≤ ρ := fun k => by
    have := mul_nonneg (hpow k).1 hρ
    linarith
  have one : ∀ k, ‖Y k - y0‖ ≤ (1 - θ ^ k) * ρ → ‖F (Y k)‖ ≤ θ ^ k * ‖F y0‖ →
      ‖d k‖ ≤ β * ‖F (Y k)‖ ∧ Y (k + 1) = Y k - d k ∧
      ‖F (Y (k + 1))‖ ≤ c * ‖d k‖ ∧ ‖F (Y (k + 1))‖ ≤ θ * ‖F (Y k)‖ ∧
      ‖Y (k + 1) - y0‖ ≤ (1 - θ ^ (k + 1)) * ρ ∧ ‖F (Y (k + 1))‖ ≤ θ ^ (k + 1) * ‖F y0‖ := by
    intro k h1 h2
    obtain ⟨p0, p1⟩ := hpow k
    have hin : ‖Y k - y0‖ ≤ ρ := h1.trans (hle k)
    have l2 := hlin k hin
    have hnew : ‖Y k - d k - y0‖ ≤ (1 - θ ^ (k + 1)) * ρ := by
      have e : Y k - d k - y0 = (Y k - y0) - d k := by abel
      rw [e]
      refine (norm_sub_le _ _).trans ?_
      have h3 : ‖d k‖ ≤ θ ^ k * ((1 - θ) * ρ) := by
        refine l2.trans ((mul_le_mul_of_nonneg_left h2 hβ).trans ?_)
        calc β * (θ ^ k * ‖F y0‖) = θ ^ k * (β * ‖F y0‖) := by ring
          _ ≤ _ := mul_le_mul_of_nonneg_left hrad p0
      calc _ ≤ (1 - θ ^ k) * ρ + θ ^ k * ((1 - θ) * ρ) := add_le_add h1 h3
        _ = _ := by rw [pow_succ]; ring
    have hnew' : ‖Y k - d k - y0‖ ≤ ρ := hnew.trans (hle _)
    have hYk := hY k hnew'
    have hf := hfall k hin hnew' (h2.trans (mul_le_of_le_one_left (norm_nonneg _) p1))
    rw [← hYk] at hf hnew
    have hf2 : ‖F (Y (k + 1))‖ ≤ θ * ‖F (Y k)‖ := by
      refine hf.trans ((mul_le_mul_of_nonneg_left l2 hc0).trans ?_)
      calc c * (β * ‖F (Y k)‖) = β * c * ‖F (Y k)‖ := by ring
        _ ≤ _ := mul_le_mul_of_nonneg_right hc (norm_nonneg _)
    refine ⟨l2, hYk, hf, hf2, hnew, hf2.trans ?_⟩
    rw [pow_succ']
    calc θ * ‖F (Y k)‖ ≤ θ * (θ ^ k * ‖F y0‖) := mul_le_mul_of_nonneg_left h2 hθ0
      _ = _ := by ring
  have hinv : ∀ k, ‖Y k - y0‖ ≤ (1 - θ ^ k) * ρ ∧ ‖F (Y k)‖ ≤ θ ^ k * ‖F y0‖ := by
    intro k
    induction k with
    | zero => rw [hY0]; simp
    | succ k ih =>
      obtain ⟨_, _, _, _, h6, h7⟩ := one k ih.1 ih.2
      exact ⟨h6, h7⟩
  obtain ⟨h1, h2⟩ := hinv k
  obtain ⟨a2, a3, a4, a5, _, _⟩ := one k h1 h2
  exact ⟨h1.trans (hle k), h2, a2, a3, a4, a5⟩

/-- It converges to a root in the ball. -/
theorem ball_limit (F : (ι → ℝ) → ι → ℝ) (y0 : ι → ℝ) (Y d : ℕ → ι → ℝ) (ρ β θ : ℝ) (hβ : 0 ≤ β) (hθ0 : 0 ≤ θ) (hθ1 : θ < 1)
    (hrun : ∀ k, ‖Y k - y0‖ ≤ ρ ∧ ‖F (Y k)‖ ≤ θ ^ k * ‖F y0‖ ∧ ‖d k‖ ≤ β * ‖F (Y k)‖ ∧ Y (k + 1) = Y k - d k ∧
      ‖F (Y (k + 1))‖ ≤ θ * ‖F (Y k)‖)
    (hcont : ∀ y, ‖y - y0‖ ≤ ρ → ContinuousAt F y) :
    ∃ x, ‖x - y0‖ ≤ ρ ∧ F x = 0 ∧ Tendsto Y atTop (𝓝 x) ∧ ∀ k, ‖Y k - x‖ ≤ β / (1 - θ) * ‖F (Y k)‖ := by
  have hgeo : ∀ k j, ‖F (Y (k + j))‖ ≤ θ ^ j * ‖F (Y k)‖ := by
    intro k j
    induction j with
    | zero => simp
    | succ j ih =>
      have h1 := (hrun (k + j)).2.2.2.2
      calc _ ≤ θ * ‖F (Y (k + j))‖ := h1
        _ ≤ θ * (θ ^ j * ‖F (Y k)‖) := mul_le_mul_of_nonneg_left ih hθ0
        _ = _ := by ring
  have hdist : ∀ k j, dist (Y (k + j)) (Y (k + (j + 1))) ≤ β * ‖F (Y k)‖ * θ ^ j := by
    intro k j
    obtain ⟨_, _, h4, h5, _⟩ := hrun (k + j)
    rw [dist_eq_norm, show k + (j + 1) = k + j + 1 by ring, h5, sub_sub_cancel]
    refine h4.trans ?_
    calc β * ‖F (Y (k + j))‖ ≤ β * (θ ^ j * ‖F (Y k)‖) := mul_le_mul_of_nonneg_left (hgeo k j) hβ
      _ = _ := by ring
  have hcs : CauchySeq Y := cauchySeq_of_le_geometric θ (β * ‖F (Y 0)‖) hθ1 fun n => by
    have := hdist 0 n
    simpa only [zero_add] using this
  obtain ⟨x, hx⟩ := cauchySeq_tendsto_of_complete hcs
  have hin : ‖x - y0‖ ≤ ρ := le_of_tendsto (hx.sub_const y0).norm (Eventually.of_forall fun k => (hrun k).1)
  refine ⟨x, hin, ?_, hx, fun k => ?_⟩
  · have h1 : Tendsto (fun k => F (Y k)) atTop (𝓝 (F x)) := (hcont x hin).tendsto.comp hx
    have h2 : Tendsto (fun k => F (Y k)) atTop (𝓝 0) := by
      refine tendsto_zero_iff_norm_tendsto_zero.2 (squeeze_zero (fun _ => norm_nonneg _) (fun k => (hrun k).2.1) ?_)
      have := (tendsto_pow_atTop_nhds_zero_of_lt_one hθ0 hθ1).mul_const ‖F y0‖
      rwa [zero_mul] at this
    exact tendsto_nhds_unique h1 h2
  · have h1 : Tendsto (fun j => Y (k + j)) atTop (𝓝 x) := by
      have := (tendsto_add_atTop_iff_nat k).2 hx
      simpa only [add_comm] using this
    have h2 := dist_le_of_le_geometric_of_tendsto₀ θ (β * ‖F (Y k)‖) hθ1 (hdist k) h1
    rw [dist_eq_norm, add_zero] at h2
    refine h2.trans (le_of_eq ?_)
    ring

end sequence

/-- The step from the `k`-th iterate, and whether the linear solve succeeded. -/
noncomputable def newtonStepAt (cfg : Cfg ι ι ℝ (Op ι)) (fn : (ι → ℝ) → (ι → ℝ) × A) (aux0 : A) (y0 : ι → ℝ) (k : Nat) :
    (ι → ℝ) × Result :=
  cfg.linearSolve (cfg.jac (jacPoint cfg fn aux0 y0 k)) (fn (iterateAt (solver cfg) fn aux0 y0 (init cfg y0) k)).1

/-- Inside the bounds the step is taken. -/
theorem newton_step_inside (cfg : Cfg ι ι ℝ (Op ι)) (fn : (ι → ℝ) → (ι → ℝ) × A) (aux0 : A) (y0 : ι → ℝ) (ρ : ℝ)
    (hlower : ∀ l, cfg.lower = some l → ∀ y, ‖y - y0‖ ≤ ρ → ∀ i, l i ≤ y i)
    (hupper : ∀ u, cfg.upper = some u → ∀ y, ‖y - y0‖ ≤ ρ → ∀ i, y i ≤ u i) (k : ℕ)
    (h : ‖iterateAt (solver cfg) fn aux0 y0 (init cfg y0) k - (newtonStepAt cfg fn aux0 y0 k).1 - y0‖ ≤ ρ) :
    iterateAt (solver cfg) fn aux0 y0 (init cfg y0) (k + 1) =
      iterateAt (solver cfg) fn aux0 y0 (init cfg y0) k - (newtonStepAt cfg fn aux0 y0 k).1 := by
  rw [newton_iterate]
  exact clip_inside _ _ _ (fun l hl i => hlower l hl _ h i) (fun u hu i => hupper u hu _ h i)

/-- The solve succeeds as soon as the residual is small enough. -/
theorem ball_stops (cfg : Cfg ι ι ℝ (Op ι)) (fn : (ι → ℝ) → (ι → ℝ) × A) (aux0 : A) (y0 : ι → ℝ) (ρ β θ : ℝ) (hρ : 0 ≤ ρ)
    (hrun : ∀ k, ‖iterateAt (solver cfg) fn aux0 y0 (init cfg y0) k - y0‖ ≤ ρ ∧
      ‖(newtonStepAt cfg fn aux0 y0 k).1‖ ≤ β * ‖(fn (iterateAt (solver cfg) fn aux0 y0 (init cfg y0) k)).1‖ ∧
      iterateAt (solver cfg) fn aux0 y0 (init cfg y0) (k + 1) =
        iterateAt (solver cfg) fn aux0 y0 (init cfg y0) k - (newtonStepAt cfg fn aux0 y0 k).1 ∧
      ‖(newtonStepAt cfg fn aux0 y0 (k + 1)).1‖ ≤ θ * ‖(newtonStepAt cfg fn aux0 y0 k).1‖ ∧
      (newtonStepAt cfg fn aux0 y0 k).2 = .successful)
    (hnY : cfg.normY = maxNorm) (hnF : cfg.normF = maxNorm) (hat : 0 < cfg.atol) (hrt : 0 ≤ cfg.rtol)
    (hfin : ∀ x, cfg.isfinite x = true)
    (hmode : cfg.cauchy = true ∨ θ * (cfg.atol + cfg.rtol * (‖y0‖ + ρ)) ≤ 2 * cfg.atol) (k : ℕ) (hk : 1 ≤ k)
    (h1 : β * ‖(fn (iterateAt (solver cfg) fn aux0 y0 (init cfg y0) k)).1‖ <
      cfg.atol * (if cfg.cauchy then 1 else cfg.resolution))
    (h2 : cfg.cauchy = true → ‖(fn (iterateAt (solver cfg) fn aux0 y0 (init cfg y0) k)).1‖ < cfg.atol)
    (ms : Option ℕ) (throw : Bool) (hms : ∀ n, ms = some n → k + 1 ≤ n) :
    ∃ sol, iterativeSolve (solver cfg) (fun _ => true) fn aux0 y0 ms throw = some (.ok sol) ∧
      sol.result = .successful ∧ sol.numSteps ≤ k + 1 := by
  set S := stateAt (solver cfg) fn aux0 y0 (init cfg y0) with hS
  set X := iterateAt (solver cfg) fn aux0 y0 (init cfg y0) with hX
  set d := fun k => (newtonStepAt cfg fn aux0 y0 k).1 with hd
  set M : ℝ := cfg.atol + cfg.rtol * (‖y0‖ + ρ) with hM
  have hM0 : 0 < M := by positivity
  have hsc : ∀ k i, cfg.atol + cfg.rtol * |X k i| ≤ M := by
    intro k i
    have a1 : |X k i| ≤ ‖X k‖ := norm_le_pi_norm (X k) i
    have a2 : ‖X k‖ ≤ ‖y0‖ + ρ := by
      have := norm_add_le (X k - y0) y0
      rw [sub_add_cancel] at this
      have h3 := (hrun k).1
      linarith
    rw [hM]
    exact add_le_add_right (mul_le_mul_of_nonneg_left (a1.trans a2) hrt) _
  have hstep : ∀ k, (S k).step = k := by
    intro k
    induction k with
    | zero => rfl
    | succ k ih => show (S k).step + 1 = k + 1; rw [ih]
  have hresult : ∀ k, (S k).result = .successful := by
    intro k
    cases k with
    | zero => rfl
    | succ k =>
      have : (S (k + 1)).result = (linSol cfg (X k) (fn (X k)).1 (S k)).2 := rfl
      rw [this, hS, hX, newton_linSol]
      exact (hrun k).2.2.2.2
  have hdiff : ∀ k, (S (k + 1)).diff = d k := by
    intro k
    have : (S (k + 1)).diff = if cfg.lower.isSome || cfg.upper.isSome then (fun i => X k i - X (k + 1) i)
        else (linSol cfg (X k) (fn (X k)).1 (S k)).1 := rfl
    rw [this]
    split_ifs
    · have := (hrun k).2.2.1
      funext i
      rw [this]
      show X k i - (X k i - d k i) = d k i
      ring
    · rw [hS, hX, newton_linSol]; rfl
  have hd3 : ∀ k, ‖d (k + 1)‖ ≤ θ * ‖d k‖ := fun k => (hrun k).2.2.2.1
  have hsize : ∀ k, (S (k + 1)).diffsize = ‖fun i => d k i / (cfg.atol + cfg.rtol * |X (k + 1) i|)‖ := by
    intro k
    have : (S (k + 1)).diffsize = cfg.normY fun i => (S (k + 1)).diff i / (cfg.atol + cfg.rtol * |X (k + 1) i|) := rfl
    rw [this, hdiff, hnY, maxNorm_eq_norm]
  have hprev : ∀ k, (S (k + 1)).diffsizePrev = (S k).diffsize := fun k => rfl
  have hrate : θ * M ≤ 2 * cfg.atol → ∀ k, (S (k + 2)).diffsize / (S (k + 2)).diffsizePrev ≤ 2 := by
    intro hm k
    rw [hprev]
    refine div_le_of_le_mul₀ (by rw [hsize]; exact norm_nonneg _) two_pos.le ?_
    rw [hsize, hsize]
    have b1 := (scaled_size cfg.atol cfg.rtol M hat hrt (d (k + 1)) (X (k + 1 + 1)) (hsc _)).2
    have b2 := (scaled_size cfg.atol cfg.rtol M hat hrt (d k) (X (k + 1)) (hsc _)).1
    have b3 : ‖d (k + 1)‖ / cfg.atol ≤ 2 * (‖d k‖ / M) := by
      rw [← mul_div_assoc, div_le_div_iff₀ hat hM0]
      have c1 := mul_le_mul_of_nonneg_right (hd3 k) hM0.le
      have c2 := mul_le_mul_of_nonneg_left hm (norm_nonneg (d k))
      linarith
    exact b1.trans (b3.trans (mul_le_mul_of_nonneg_left b2 two_pos.le))
  have hterm : ∀ j, (terminate cfg (X (j - 1)) (S j)).2 = .successful := by
    intro j
    unfold terminate
    simp only [hresult, ne_eq, not_true_eq_false, decide_false, Bool.false_eq_true, if_false]
    split
    · rfl
    · rename_i hno
      rcases j with _ | _ | j
      · simp [hstep]
      · simp [hstep]
      · have hm : θ * M ≤ 2 * cfg.atol := by
          rcases hmode with hcau | hm
          · exfalso
            refine hno (fn (X (j + 1))).1 hcau ?_
            show (if cfg.cauchy then some (fn (X (j + 1))).1 else none) = _
            rw [hcau]; rfl
          · exact hm
        have : diverged cfg ((S (j + 1 + 1)).diffsize / (S (j + 1 + 1)).diffsizePrev) = false := by
          unfold diverged
          rw [hfin]
          have := hrate hm j
          simp only [Bool.not_true, Bool.false_or, decide_eq_false_iff_not, not_lt, gt_iff_lt]
          linarith
        simp [this]
  have hdk : ‖d k‖ ≤ β * ‖(fn (X k)).1‖ := (hrun k).2.1
  refine succeeds_by (solver cfg) fn aux0 y0 (init cfg y0) rfl (k + 1) (fun j _ => hterm j) ?_ ms throw hms
  show (terminate cfg (X k) (S (k + 1))).1 = true
  unfold terminate
  simp only [Bool.or_eq_true]
  right
  split
  · rename_i f hcau hf
    have hf' : f = (fn (X k)).1 := by
      have : (S (k + 1)).f = if cfg.cauchy then some (fn (X k)).1 else none := rfl
      rw [this, hcau] at hf
      exact (Option.some.inj hf).symm
    rw [if_pos hcau, mul_one] at h1
    unfold cauchyTermination scaledDiff
    rw [Bool.and_eq_true, decide_eq_true_eq, decide_eq_true_eq, hnY, hnF, maxNorm_eq_norm, maxNorm_eq_norm, hf', hdiff]
    constructor
    · have := (scaled_size cfg.atol cfg.rtol M hat hrt (fun i => |d k i|) _ (hsc k)).2
      have e : ‖fun i => |d k i|‖ ≤ ‖d k‖ := (pi_norm_le_iff_of_nonneg (norm_nonneg _)).2 fun i => by
        rw [Real.norm_eq_abs, abs_abs]; exact norm_le_pi_norm (d k) i
      refine this.trans_lt ?_
      rw [div_lt_one hat]
      exact e.trans_lt (hdk.trans_lt h1)
    · rw [pi_norm_lt_iff one_pos]
      intro i
      have h3 : |(fn (X k)).1 i| < cfg.atol := lt_of_le_of_lt (norm_le_pi_norm (fn (X k)).1 i) (h2 hcau)
      show ‖|(fn (X k)).1 i| / (cfg.atol + cfg.rtol * |(0 : ℝ)|)‖ < 1
      rw [abs_zero, mul_zero, add_zero, norm_div, Real.norm_of_nonneg hat.le, Real.norm_eq_abs, abs_abs, div_lt_one hat]
      exact h3
  · rename_i hno
    have hcau : cfg.cauchy = false := by
      by_contra hcon
      rw [Bool.not_eq_false] at hcon
      refine hno (fn (X k)).1 hcon ?_
      show (if cfg.cauchy then some (fn (X k)).1 else none) = _
      rw [hcon]; rfl
    rw [if_neg (by simp [hcau])] at h1
    have hsm : small cfg (S (k + 1)).diffsize = true := by
      unfold small
      rw [decide_eq_true_eq, hsize]
      refine (scaled_size cfg.atol cfg.rtol M hat hrt _ _ (hsc _)).2.trans_lt ?_
      rw [div_lt_iff₀ hat]
      linarith
    simp only [hsm, hstep, Bool.true_or, Bool.and_true, decide_eq_true_eq]
    omega

/-- Taylor's formula with a Lipschitz derivative, on a ball. -/
theorem taylor_ball (F : (ι → ℝ) → ι → ℝ) (jac : (ι → ℝ) → Op ι) (y0 : ι → ℝ) (ρ K : ℝ)
    (hderiv : ∀ y, ‖y - y0‖ ≤ ρ → HasFDerivAt F (jac y) y)
    (hlip : ∀ y z, ‖y - y0‖ ≤ ρ → ‖z - y0‖ ≤ ρ → ‖jac y - jac z‖ ≤ K * ‖y - z‖) (y p : ι → ℝ) (hy : ‖y - y0‖ ≤ ρ)
    (hyp : ‖y + p - y0‖ ≤ ρ) : ‖F (y + p) - F y - jac y p‖ ≤ K / 2 * ‖p‖ ^ 2 := by
  have hseg : ∀ t : ℝ, 0 ≤ t → t ≤ 1 → ‖y + t • p - y0‖ ≤ ρ := by
    intro t h0 h1
    have e : y + t • p - y0 = (1 - t) • (y - y0) + t • (y + p - y0) := by
      rw [sub_smul, one_smul, smul_sub, smul_sub, smul_add]; abel
    rw [e]
    refine (norm_add_le _ _).trans ?_
    rw [norm_smul, norm_smul, Real.norm_of_nonneg (by linarith : 0 ≤ 1 - t), Real.norm_of_nonneg h0]
    nlinarith
  have hd : ∀ t : ℝ, 0 ≤ t → t ≤ 1 →
      HasDerivAt (fun t : ℝ => F (y + t • p) - F y - t • jac y p) (jac (y + t • p) p - jac y p) t := by
    intro t h0 h1
    have g1 : HasDerivAt (fun t : ℝ => y + t • p) p t := by
      have := ((hasDerivAt_id t).smul_const p).const_add y
      simpa using this
    have g2 : HasDerivAt (fun t : ℝ => F (y + t • p)) (jac (y + t • p) p) t :=
      (hderiv _ (hseg t h0 h1)).comp_hasDerivAt t g1
    have g3 : HasDerivAt (fun t : ℝ => t • jac y p) (jac y p) t := by
      have := (hasDerivAt_id t).smul_const (jac y p)
      simpa using this
    exact (g2.sub_const (F y)).sub g3
  have hb := image_norm_le_of_norm_deriv_right_le_deriv_boundary
    (f := fun t : ℝ => F (y + t • p) - F y - t • jac y p) (f' := fun t => jac (y + t • p) p - jac y p) (a := 0) (b := 1)
    (fun t ht => (hd t ht.1 ht.2).continuousAt.continuousWithinAt) (fun t ht => (hd t ht.1 ht.2.le).hasDerivWithinAt)
    (B := fun t => K / 2 * ‖p‖ ^ 2 * t ^ 2) (B' := fun t => K * ‖p‖ ^ 2 * t) (by simp)
    (fun t => by
      have := (hasDerivAt_pow 2 t).const_mul (K / 2 * ‖p‖ ^ 2)
      refine this.congr_deriv ?_
      push_cast
      ring)
    (fun t ht => by
      rw [← sub_apply]
      refine (ContinuousLinearMap.le_opNorm _ _).trans ?_
      have h1 := hlip (y + t • p) y (hseg t ht.1 ht.2.le) hy
      rw [add_sub_cancel_left, norm_smul, Real.norm_of_nonneg ht.1] at h1
      calc _ ≤ K * (t * ‖p‖) * ‖p‖ := mul_le_mul_of_nonneg_right h1 (norm_nonneg _)
        _ = _ := by ring)
    (Set.right_mem_Icc.2 zero_le_one)
  simpa using hb

/-- **C112**, `Newton`.  Let the Jacobian be Lipschitz with constant `K` and have an inverse bounded by `β` on the ball of radius `ρ`
around the starting point, and let `θ ≥ β² K |f(y0)| / 2` be less than one and `β |f(y0)| ≤ (1 - θ) ρ`.  Then the iterates stay in the
ball and converge to a root there; the residuals fall like `θ ^ (2 ^ k - 1)`, and the errors are bounded by `β / (1 - θ)` times the
residuals; and the solve succeeds within `k + 1` steps as soon as `k` is so large that this is below the tolerance. -/
theorem C112_newton_steps (cfg : Cfg ι ι ℝ (Op ι)) (hN : cfg.isNewton = true) (hls : SolvesInvertible cfg.linearSolve)
    (fn : (ι → ℝ) → (ι → ℝ) × A) (aux0 : A) (y0 : ι → ℝ) (ρ β K θ : ℝ)
    (hball : NewtonBall (fun y => (fn y).1) cfg.jac y0 ρ β K)
    (hlower : ∀ l, cfg.lower = some l → ∀ y, ‖y - y0‖ ≤ ρ → ∀ i, l i ≤ y i)
    (hupper : ∀ u, cfg.upper = some u → ∀ y, ‖y - y0‖ ≤ ρ → ∀ i, y i ≤ u i)
    (hθ : β ^ 2 * K * ‖(fn y0).1‖ / 2 ≤ θ) (hθ1 : θ < 1) (hrad : β * ‖(fn y0).1‖ ≤ (1 - θ) * ρ) :
    let Y := iterateAt (solver cfg) fn aux0 y0 (init cfg y0)
    (∀ k, ‖Y k - y0‖ ≤ ρ ∧ ‖(fn (Y k)).1‖ ≤ θ ^ (2 ^ k - 1) * ‖(fn y0).1‖ ∧ ‖(fn (Y (k + 1))).1‖ ≤ θ * ‖(fn (Y k)).1‖) ∧
    (∃ x, ‖x - y0‖ ≤ ρ ∧ (fn x).1 = 0 ∧ Tendsto Y atTop (𝓝 x) ∧ ∀ k, ‖Y k - x‖ ≤ β / (1 - θ) * ‖(fn (Y k)).1‖) ∧
    (cfg.normY = maxNorm → cfg.normF = maxNorm → 0 < cfg.atol → 0 ≤ cfg.rtol → (∀ x, cfg.isfinite x = true) →
      (cfg.cauchy = true ∨ θ * (cfg.atol + cfg.rtol * (‖y0‖ + ρ)) ≤ 2 * cfg.atol) →
      ∀ k, 1 ≤ k → β * (θ ^ (2 ^ k - 1) * ‖(fn y0).1‖) < cfg.atol * (if cfg.cauchy then 1 else cfg.resolution) →
        (cfg.cauchy = true → θ ^ (2 ^ k - 1) * ‖(fn y0).1‖ < cfg.atol) →
        ∀ ms throw, (∀ n, ms = some n → k + 1 ≤ n) →
          ∃ sol, iterativeSolve (solver cfg) (fun _ => true) fn aux0 y0 ms throw = some (.ok sol) ∧
            sol.result = .successful ∧ sol.numSteps ≤ k + 1) := by
  intro Y
  obtain ⟨hρ, hβ, hK⟩ := hball.nonneg
  have hE0 := norm_nonneg (fn y0).1
  have hθ0 : 0 ≤ θ := le_trans (by positivity) hθ
  have hjp : ∀ k, jacPoint cfg fn aux0 y0 k = Y k := fun k => by unfold jacPoint; rw [hN]; rfl
  have hlin : ∀ k, ‖Y k - y0‖ ≤ ρ → cfg.jac (Y k) (newtonStepAt cfg fn aux0 y0 k).1 = (fn (Y k)).1 ∧
      (newtonStepAt cfg fn aux0 y0 k).2 = .successful ∧ ‖(newtonStepAt cfg fn aux0 y0 k).1‖ ≤ β * ‖(fn (Y k)).1‖ := by
    intro k hk
    obtain ⟨i1, i2⟩ := hball.inverse _ hk
    obtain ⟨l1, l2⟩ := hls _ i1 (fn (Y k)).1
    have e : newtonStepAt cfg fn aux0 y0 k = cfg.linearSolve (cfg.jac (Y k)) (fn (Y k)).1 := by
      unfold newtonStepAt; rw [hjp]
    rw [e]
    refine ⟨l1, l2, ?_⟩
    have := i2 (cfg.linearSolve (cfg.jac (Y k)) (fn (Y k)).1).1
    rwa [l1] at this
  have hquad : ∀ k, ‖Y k - y0‖ ≤ ρ → ‖Y k - (newtonStepAt cfg fn aux0 y0 k).1 - y0‖ ≤ ρ →
      ‖(fn (Y k - (newtonStepAt cfg fn aux0 y0 k).1)).1‖ ≤ K / 2 * ‖(newtonStepAt cfg fn aux0 y0 k).1‖ ^ 2 := by
    intro k h1 h2
    have h3 := taylor_ball (fun y => (fn y).1) cfg.jac y0 ρ K hball.deriv hball.lipschitz (Y k) (-(newtonStepAt cfg fn aux0 y0 k).1) h1
      (by rw [← sub_eq_add_neg]; exact h2)
    rw [map_neg, (hlin k h1).1, norm_neg, ← sub_eq_add_neg] at h3
    simpa using h3
  have hc : β * (K / 2 * (β * ‖(fn y0).1‖)) ≤ θ := le_trans (le_of_eq (by ring)) hθ
  have hfall : ∀ k, ‖Y k - y0‖ ≤ ρ → ‖Y k - (newtonStepAt cfg fn aux0 y0 k).1 - y0‖ ≤ ρ → ‖(fn (Y k)).1‖ ≤ ‖(fn y0).1‖ →
      ‖(fn (Y k - (newtonStepAt cfg fn aux0 y0 k).1)).1‖ ≤ K / 2 * (β * ‖(fn y0).1‖) * ‖(newtonStepAt cfg fn aux0 y0 k).1‖ := by
    intro k h1 h2 h3
    refine (hquad k h1 h2).trans ?_
    rw [sq, ← mul_assoc]
    refine mul_le_mul_of_nonneg_right (mul_le_mul_of_nonneg_left ?_ (by positivity)) (norm_nonneg _)
    exact (hlin k h1).2.2.trans (mul_le_mul_of_nonneg_left h3 hβ)
  have hrun := ball_sequence (fun y => (fn y).1) y0 Y (fun k => (newtonStepAt cfg fn aux0 y0 k).1) rfl ρ β _ θ hβ (by positivity) hc hθ0 hθ1
    hrad hρ (newton_step_inside cfg fn aux0 y0 ρ hlower hupper) (fun k hk => (hlin k hk).2.2) hfall
  have hin : ∀ k, ‖Y k - y0‖ ≤ ρ := fun k => (hrun k).1
  have hres : ∀ k, ‖(fn (Y k)).1‖ ≤ θ ^ (2 ^ k - 1) * ‖(fn y0).1‖ := by
    intro k
    induction k with
    | zero => simp [Y, iterateAt, trace]
    | succ k ih =>
      obtain ⟨_, _, h4, h5, _, _⟩ := hrun k
      have h6 := hquad k (hin k) (by rw [← h5]; exact hin (k + 1))
      rw [← h5] at h6
      set T := θ ^ (2 ^ k - 1) with hT
      have hT0 : 0 ≤ T := pow_nonneg hθ0 _
      have h7 : ‖(newtonStepAt cfg fn aux0 y0 k).1‖ ≤ β * (T * ‖(fn y0).1‖) := h4.trans (mul_le_mul_of_nonneg_left ih hβ)
      have h8 : ‖(newtonStepAt cfg fn aux0 y0 k).1‖ ^ 2 ≤ (β * (T * ‖(fn y0).1‖)) ^ 2 := pow_le_pow_left₀ (norm_nonneg _) h7 2
      have e : θ ^ (2 ^ (k + 1) - 1) = θ * T ^ 2 := by
        rw [hT, ← pow_mul, ← pow_succ']
        congr 1
        have := Nat.one_le_two_pow (n := k)
        rw [pow_succ]; omega
      rw [e]
      calc _ ≤ K / 2 * ‖(newtonStepAt cfg fn aux0 y0 k).1‖ ^ 2 := h6
        _ ≤ K / 2 * (β * (T * ‖(fn y0).1‖)) ^ 2 := mul_le_mul_of_nonneg_left h8 (by positivity)
        _ = β ^ 2 * K * ‖(fn y0).1‖ / 2 * (T ^ 2 * ‖(fn y0).1‖) := by ring
        _ ≤ θ * (T ^ 2 * ‖(fn y0).1‖) := mul_le_mul_of_nonneg_right hθ (by positivity)
        _ = _ := by ring
  refine ⟨fun k => ⟨hin k, hres k, (hrun k).2.2.2.2.2⟩, ?_, ?_⟩
  · exact ball_limit (fun y => (fn y).1) y0 Y (fun k => (newtonStepAt cfg fn aux0 y0 k).1) ρ β θ hβ hθ0 hθ1
      (fun k => by obtain ⟨a1, a2, a3, a4, _, a6⟩ := hrun k; exact ⟨a1, a2, a3, a4, a6⟩) (fun y hy => (hball.deriv y hy).continuousAt)
  · intro hnY hnF hat hrt hfin hmode k hk h1 h2
    refine ball_stops cfg fn aux0 y0 ρ β θ hρ (fun k => ?_) hnY hnF hat hrt hfin hmode k hk
      ((mul_le_mul_of_nonneg_left (hres k) hβ).trans_lt h1) (fun h => (hres k).trans_lt (h2 h))
    obtain ⟨a1, _, a3, a4, a5, _⟩ := hrun k
    refine ⟨a1, a3, a4, ?_, (hlin k (hin k)).2.1⟩
    refine (hrun (k + 1)).2.2.1.trans ((mul_le_mul_of_nonneg_left a5 hβ).trans ?_)
    rw [← mul_assoc]
    exact mul_le_mul_of_nonneg_right hc (norm_nonneg _)

/-- **C112**, `Chord`.  Let the Jacobian differ from that at the starting point by at most `K` times the distance, on the ball of radius
`ρ`, and let the inverse of the latter be bounded by `β`; let `θ ≥ β K ρ` be less than one and `β |f(y0)| ≤ (1 - θ) ρ`.  Then the
iterates stay in the ball and converge to a root there, the residuals fall like `θ ^ k`, and the solve succeeds within `k + 1` steps as
soon as this is below the tolerance. -/
theorem C112_chord_steps (cfg : Cfg ι ι ℝ (Op ι)) (hN : cfg.isNewton = false) (hls : SolvesInvertible cfg.linearSolve)
    (fn : (ι → ℝ) → (ι → ℝ) × A) (aux0 : A) (y0 : ι → ℝ) (ρ β K θ : ℝ)
    (hball : ChordBall (fun y => (fn y).1) cfg.jac y0 ρ β K)
    (hlower : ∀ l, cfg.lower = some l → ∀ y, ‖y - y0‖ ≤ ρ → ∀ i, l i ≤ y i)
    (hupper : ∀ u, cfg.upper = some u → ∀ y, ‖y - y0‖ ≤ ρ → ∀ i, y i ≤ u i)
    (hθ : β * K * ρ ≤ θ) (hθ1 : θ < 1) (hrad : β * ‖(fn y0).1‖ ≤ (1 - θ) * ρ) :
    let Y := iterateAt (solver cfg) fn aux0 y0 (init cfg y0)
    (∀ k, ‖Y k - y0‖ ≤ ρ ∧ ‖(fn (Y k)).1‖ ≤ θ ^ k * ‖(fn y0).1‖) ∧
    (∃ x, ‖x - y0‖ ≤ ρ ∧ (fn x).1 = 0 ∧ Tendsto Y atTop (𝓝 x) ∧ ∀ k, ‖Y k - x‖ ≤ β / (1 - θ) * ‖(fn (Y k)).1‖) ∧
    (cfg.normY = maxNorm → cfg.normF = maxNorm → 0 < cfg.atol → 0 ≤ cfg.rtol → (∀ x, cfg.isfinite x = true) →
      (cfg.cauchy = true ∨ θ * (cfg.atol + cfg.rtol * (‖y0‖ + ρ)) ≤ 2 * cfg.atol) →
      ∀ k, 1 ≤ k → β * (θ ^ k * ‖(fn y0).1‖) < cfg.atol * (if cfg.cauchy then 1 else cfg.resolution) →
        (cfg.cauchy = true → θ ^ k * ‖(fn y0).1‖ < cfg.atol) →
        ∀ ms throw, (∀ n, ms = some n → k + 1 ≤ n) →
          ∃ sol, iterativeSolve (solver cfg) (fun _ => true) fn aux0 y0 ms throw = some (.ok sol) ∧
            sol.result = .successful ∧ sol.numSteps ≤ k + 1) := by
  intro Y
  obtain ⟨hρ, hβ, hK⟩ := hball.nonneg
  have hθ0 : 0 ≤ θ := le_trans (by positivity) hθ
  have hjp : ∀ k, jacPoint cfg fn aux0 y0 k = y0 := fun k => by unfold jacPoint; rw [hN]; rfl
  have hlin : ∀ k, cfg.jac y0 (newtonStepAt cfg fn aux0 y0 k).1 = (fn (Y k)).1 ∧
      (newtonStepAt cfg fn aux0 y0 k).2 = .successful ∧ ‖(newtonStepAt cfg fn aux0 y0 k).1‖ ≤ β * ‖(fn (Y k)).1‖ := by
    intro k
    obtain ⟨i1, i2⟩ := hball.inverse
    obtain ⟨l1, l2⟩ := hls _ i1 (fn (Y k)).1
    have e : newtonStepAt cfg fn aux0 y0 k = cfg.linearSolve (cfg.jac y0) (fn (Y k)).1 := by
      unfold newtonStepAt; rw [hjp]
    rw [e]
    refine ⟨l1, l2, ?_⟩
    have := i2 (cfg.linearSolve (cfg.jac y0) (fn (Y k)).1).1
    rwa [l1] at this
  have hc : β * (K * ρ) ≤ θ := le_trans (le_of_eq (by ring)) hθ
  have hconv : Convex ℝ {y : ι → ℝ | ‖y - y0‖ ≤ ρ} := by
    have : {y : ι → ℝ | ‖y - y0‖ ≤ ρ} = Metric.closedBall y0 ρ := by
      ext y; simp [dist_eq_norm]
    rw [this]
    exact convex_closedBall y0 ρ
  have hfall : ∀ k, ‖Y k - y0‖ ≤ ρ → ‖Y k - (newtonStepAt cfg fn aux0 y0 k).1 - y0‖ ≤ ρ → ‖(fn (Y k)).1‖ ≤ ‖(fn y0).1‖ →
      ‖(fn (Y k - (newtonStepAt cfg fn aux0 y0 k).1)).1‖ ≤ K * ρ * ‖(newtonStepAt cfg fn aux0 y0 k).1‖ := by
    intro k h1 h2 _
    have h3 := hconv.norm_image_sub_le_of_norm_hasFDerivWithin_le' (f := fun y => (fn y).1) (f' := cfg.jac) (φ := cfg.jac y0)
      (C := K * ρ) (fun y hy => (hball.deriv y hy).hasFDerivWithinAt)
      (fun y hy => (hball.near y hy).trans (mul_le_mul_of_nonneg_left hy hK)) h1 h2
    rw [sub_sub_cancel_left, map_neg, (hlin k).1, norm_neg] at h3
    simpa using h3
  have hrun := ball_sequence (fun y => (fn y).1) y0 Y (fun k => (newtonStepAt cfg fn aux0 y0 k).1) rfl ρ β _ θ hβ (by positivity) hc hθ0 hθ1
    hrad hρ (newton_step_inside cfg fn aux0 y0 ρ hlower hupper) (fun k _ => (hlin k).2.2) hfall
  have hin : ∀ k, ‖Y k - y0‖ ≤ ρ := fun k => (hrun k).1
  refine ⟨fun k => ⟨hin k, (hrun k).2.1⟩, ?_, ?_⟩
  · exact ball_limit (fun y => (fn y).1) y0 Y (fun k => (newtonStepAt cfg fn aux0 y0 k).1) ρ β θ hβ hθ0 hθ1
      (fun k => by obtain ⟨a1, a2, a3, a4, _, a6⟩ := hrun k; exact ⟨a1, a2, a3, a4, a6⟩) (fun y hy => (hball.deriv y hy).continuousAt)
  · intro hnY hnF hat hrt hfin hmode k hk h1 h2
    refine ball_stops cfg fn aux0 y0 ρ β θ hρ (fun k => ?_) hnY hnF hat hrt hfin hmode k hk
      ((mul_le_mul_of_nonneg_left ((hrun k).2.1) hβ).trans_lt h1) (fun h => ((hrun k).2.1).trans_lt (h2 h))
    obtain ⟨a1, _, a3, a4, a5, _⟩ := hrun k
    refine ⟨a1, a3, a4, ?_, (hlin k).2.1⟩
    refine (hrun (k + 1)).2.2.1.trans ((mul_le_mul_of_nonneg_left a5 hβ).trans ?_)
    rw [← mul_assoc]
    exact mul_le_mul_of_nonneg_right hc (norm_nonneg _)

/-! Concrete case: `y² = 2` in each of two variables, from `3/2`. -/

/-- The Jacobian of `y² - 2` in each variable. -/
noncomputable def squaresJac (y : Fin 2 → ℝ) : Op (Fin 2) :=
  ContinuousLinearMap.pi fun i => (2 * y i) • (ContinuousLinearMap.proj i : (Fin 2 → ℝ) →L[ℝ] ℝ)

theorem squaresJac_apply (y v : Fin 2 → ℝ) (i : Fin 2) : squaresJac y v i = 2 * y i * v i := rfl

theorem squaresJac_deriv (y : Fin 2 → ℝ) : HasFDerivAt (fun (y : Fin 2 → ℝ) i => y i ^ 2 - 2) (squaresJac y) y := by
  unfold squaresJac
  rw [hasFDerivAt_pi]
  intro i
  have h1 : HasFDerivAt (fun y : Fin 2 → ℝ => y i) (ContinuousLinearMap.proj i : (Fin 2 → ℝ) →L[ℝ] ℝ) y := hasFDerivAt_apply i y
  have h2 := (hasDerivAt_pow 2 (y i)).comp_hasFDerivAt y h1
  simpa using h2.sub_const (2 : ℝ)

theorem squaresJac_lipschitz (y z : Fin 2 → ℝ) : ‖squaresJac y - squaresJac z‖ ≤ 2 * ‖y - z‖ := by
  refine ContinuousLinearMap.opNorm_le_bound _ (by positivity) fun v => ?_
  refine (pi_norm_le_iff_of_nonneg (by positivity)).2 fun i => ?_
  have e : (squaresJac y - squaresJac z) v i = 2 * ((y - z) i * v i) := by
    show squaresJac y v i - squaresJac z v i = 2 * ((y i - z i) * v i)
    rw [squaresJac_apply, squaresJac_apply]; ring
  rw [e, norm_mul, norm_mul, Real.norm_two, mul_assoc]
  exact mul_le_mul_of_nonneg_left (mul_le_mul (norm_le_pi_norm (y - z) i) (norm_le_pi_norm v i) (norm_nonneg _) (norm_nonneg _)) two_pos.le

theorem squaresJac_inverse (y : Fin 2 → ℝ) (m : ℝ) (hm : 0 < m) (hy : ∀ i, m ≤ y i) :
    (squaresJac y).IsInvertible ∧ ∀ v, ‖v‖ ≤ 1 / (2 * m) * ‖squaresJac y v‖ := by
  have h0 : ∀ i, (2 * y i : ℝ) ≠ 0 := fun i => by have := hy i; exact (by linarith : (0 : ℝ) < 2 * y i).ne'
  constructor
  · refine ⟨ContinuousLinearEquiv.piCongrRight fun i => ContinuousLinearEquiv.smulLeft (Units.mk0 (2 * y i) (h0 i)), ?_⟩
    ext v i
    rfl
  · intro v
    refine (pi_norm_le_iff_of_nonneg (by positivity)).2 fun i => ?_
    have h1 : ‖squaresJac y v i‖ ≤ ‖squaresJac y v‖ := norm_le_pi_norm _ i
    have h2 : ‖squaresJac y v i‖ = 2 * y i * ‖v i‖ := by
      have := hy i
      rw [squaresJac_apply, norm_mul, Real.norm_of_nonneg (by linarith)]
    have h3 : 2 * m * ‖v i‖ ≤ ‖squaresJac y v‖ := by
      rw [h2] at h1
      refine (mul_le_mul_of_nonneg_right ?_ (norm_nonneg _)).trans h1
      have := hy i
      linarith
    rw [one_div, inv_mul_eq_div, le_div_iff₀ (by positivity)]
    linarith

/-- `Newton` or `Chord`, with its default settings and the given tolerance, on `y² = 2`. -/
noncomputable def squaresCfg (newton : Bool) (atol : ℝ) : Cfg (Fin 2) (Fin 2) ℝ (Op (Fin 2)) :=
  { rtol := 0, atol := atol, normY := maxNorm, normF := maxNorm, kappa := 1 / 100, cauchy := true, isNewton := newton,
    lower := none, upper := none, jac := squaresJac, linearSolve := fun J b => (J.inverse b, .successful), inf := 1,
    isfinite := fun _ => true, resolution := 1 / 1000000 }

theorem squares_start : ‖(fun _ : Fin 2 => (3 / 2 : ℝ) ^ 2 - 2)‖ = 1 / 4 := by
  rw [pi_norm_const, Real.norm_eq_abs]; norm_num

theorem near_start (y : Fin 2 → ℝ) (h : ‖y - fun _ => 3 / 2‖ ≤ 1 / 4) (i : Fin 2) : 5 / 4 ≤ y i := by
  have h2 : |y i - 3 / 2| ≤ 1 / 4 := (norm_le_pi_norm _ i).trans h
  have := (abs_le.1 h2).1
  linarith

/-- From `3/2` the default `Newton` finds the square root of two to six digits in at most four steps. -/
example : ∃ sol, iterativeSolve (solver (squaresCfg true (1 / 1000000))) (fun _ => true)
    (fun y : Fin 2 → ℝ => ((fun i => y i ^ 2 - 2), ())) () (fun _ => 3 / 2) (some 256) true = some (.ok sol) ∧
      sol.result = .successful ∧ sol.numSteps ≤ 4 := by
  have hb : NewtonBall (fun (y : Fin 2 → ℝ) i => y i ^ 2 - 2) squaresJac (fun _ => 3 / 2) (1 / 4) (2 / 5) 2 :=
    ⟨fun y _ => squaresJac_deriv y, fun y z _ _ => squaresJac_lipschitz y z, fun y hy => by
      have := squaresJac_inverse y (5 / 4) (by norm_num) (near_start y hy)
      norm_num at this ⊢
      exact this, by norm_num⟩
  have h := C112_newton_steps (squaresCfg true (1 / 1000000)) rfl (by rintro J ⟨e, rfl⟩ b; simp [squaresCfg])
    (fun y : Fin 2 → ℝ => ((fun i => y i ^ 2 - 2), ())) () (fun _ => 3 / 2) (1 / 4) (2 / 5) 2 (1 / 25) hb (by rintro l ⟨⟩)
    (by rintro u ⟨⟩) (by rw [squares_start]; norm_num) (by norm_num) (by rw [squares_start]; norm_num)
  exact h.2.2 rfl rfl (by norm_num [squaresCfg]) le_rfl (fun _ => rfl) (Or.inl rfl) 3 (by norm_num)
    (by rw [squares_start]; norm_num [squaresCfg]) (fun _ => by rw [squares_start]; norm_num [squaresCfg]) _ _
    (by rintro n ⟨⟩; norm_num)

/-- The default `Chord` does so in at most eight steps. -/
example : ∃ sol, iterativeSolve (solver (squaresCfg false (1 / 1000000))) (fun _ => true)
    (fun y : Fin 2 → ℝ => ((fun i => y i ^ 2 - 2), ())) () (fun _ => 3 / 2) (some 256) true = some (.ok sol) ∧
      sol.result = .successful ∧ sol.numSteps ≤ 8 := by
  have hb : ChordBall (fun (y : Fin 2 → ℝ) i => y i ^ 2 - 2) squaresJac (fun _ => 3 / 2) (1 / 4) (1 / 3) 2 :=
    ⟨fun y _ => squaresJac_deriv y, fun y _ => squaresJac_lipschitz y _, by
      have := squaresJac_inverse (fun _ => 3 / 2) (3 / 2) (by norm_num) (fun _ => le_rfl)
      norm_num at this ⊢
      exact this, by norm_num⟩
  have h := C112_chord_steps (squaresCfg false (1 / 1000000)) rfl (by rintro J ⟨e, rfl⟩ b; simp [squaresCfg])
    (fun y : Fin 2 → ℝ => ((fun i => y i ^ 2 - 2), ())) () (fun _ => 3 / 2) (1 / 4) (1 / 3) 2 (1 / 6) hb (by rintro l ⟨⟩)
    (by rintro u ⟨⟩) (by norm_num) (by norm_num) (by rw [squares_start]; norm_num)
  exact h.2.2 rfl rfl (by norm_num [squaresCfg]) le_rfl (fun _ => rfl) (Or.inl rfl) 7 (by norm_num)
    (by rw [squares_start]; norm_num [squaresCfg]) (fun _ => by rw [squares_start]; norm_num [squaresCfg]) _ _
    (by rintro n ⟨⟩; norm_num)

end Verif.Props
