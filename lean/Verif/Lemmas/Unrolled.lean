import Mathlib.Analysis.Calculus.FDeriv.Basic
import Mathlib.Analysis.Calculus.FDeriv.Prod
import Mathlib.Analysis.Calculus.FDeriv.Comp
import Mathlib.Analysis.Normed.Operator.NormedSpace
import Mathlib.Analysis.SpecificLimits.Basic

/-! Derivatives of iterations with respect to a parameter. -/

namespace Verif.Lemmas

open Filter Topology

/-- Nonnegative numbers that shrink by a factor tending to some `a < 1`, up to an error tending to zero, tend to zero. -/
theorem shrinking_tendsto (e a b : ℕ → ℝ) (he : ∀ n, 0 ≤ e n) (hstep : ∀ n, e (n + 1) ≤ a n * e n + b n) (a' : ℝ) (ha' : a' < 1)
    (ha : Tendsto a atTop (𝓝 a')) (hb : Tendsto b atTop (𝓝 0)) : Tendsto e atTop (𝓝 0) := by
  obtain ⟨q, hq1, hq2⟩ := exists_between (max_lt ha' one_pos)
  have hq0 : 0 < q := (le_max_right _ _).trans_lt hq1
  have haq : a' < q := (le_max_left _ _).trans_lt hq1
  rw [Metric.tendsto_atTop]
  intro ε hε
  have h1 : ∀ᶠ n in atTop, a n ≤ q := (ha.eventually_lt_const haq).mono fun _ => le_of_lt
  have h2 : ∀ᶠ n in atTop, b n ≤ ε / 2 * (1 - q) :=
    (hb.eventually_lt_const (mul_pos (half_pos hε) (sub_pos.2 hq2))).mono fun _ => le_of_lt
  obtain ⟨N, hN⟩ := eventually_atTop.1 (h1.and h2)
  have hk : ∀ k, e (N + k) ≤ q ^ k * e N + ε / 2 := by
    intro k
    induction k with
    | zero => simp; linarith
    | succ k ih =>
      obtain ⟨g1, g2⟩ := hN (N + k) (Nat.le_add_right _ _)
      have g3 : a (N + k) * e (N + k) ≤ q * e (N + k) := mul_le_mul_of_nonneg_right g1 (he _)
      have g4 : q * e (N + k) ≤ q * (q ^ k * e N + ε / 2) := mul_le_mul_of_nonneg_left ih hq0.le
      have := hstep (N + k)
      rw [← Nat.add_assoc, pow_succ]
      nlinarith
  have h3 : Tendsto (fun k => q ^ k * e N) atTop (𝓝 0) := by
    have := (tendsto_pow_atTop_nhds_zero_of_lt_one hq0.le hq2).mul_const (e N)
    rwa [zero_mul] at this
  obtain ⟨M, hM⟩ := eventually_atTop.1 (h3.eventually_lt_const (half_pos hε))
  refine ⟨N + M, fun n hn => ?_⟩
  obtain ⟨k, rfl⟩ := Nat.exists_eq_add_of_le hn
  rw [Real.dist_0_eq_abs, abs_of_nonneg (he _), Nat.add_assoc]
  have := hk (M + k)
  have := hM (M + k) (Nat.le_add_right _ _)
  linarith

variable {E P : Type} [NormedAddCommGroup E] [NormedSpace ℝ E] [NormedAddCommGroup P] [NormedSpace ℝ P]

/-- If an iteration `y ↦ G (y, θ)` converges at `θ0` to a point where it is contracting, then the derivatives of its iterates with
respect to `θ` converge, to the only solution of the linearised equation. -/
theorem unrolled_tendsto (G : E × P → E) (Y : ℕ → P → E) (θ0 : P) (p : E) (h0 : DifferentiableAt ℝ (Y 0) θ0)
    (hstep : ∀ n, Y (n + 1) =ᶠ[𝓝 θ0] fun θ => G (Y n θ, θ)) (hd : ∀ n, DifferentiableAt ℝ G (Y n θ0, θ0))
    (hc : ContinuousAt (fderiv ℝ G) (p, θ0)) (hlim : Tendsto (fun n => Y n θ0) atTop (𝓝 p))
    (hq : ‖(fderiv ℝ G (p, θ0)).comp (.inl ℝ E P)‖ < 1) (D : P →L[ℝ] E)
    (hD : D = (fderiv ℝ G (p, θ0)).comp (D.prod (.id ℝ P))) :
    (∀ n, DifferentiableAt ℝ (Y n) θ0) ∧ Tendsto (fun n => fderiv ℝ (Y n) θ0) atTop (𝓝 D) := by
  have hstepd : ∀ n, DifferentiableAt ℝ (Y n) θ0 →
      HasFDerivAt (Y (n + 1)) ((fderiv ℝ G (Y n θ0, θ0)).comp ((fderiv ℝ (Y n) θ0).prod (.id ℝ P))) θ0 := by
    intro n h
    have h1 : HasFDerivAt (fun θ => (Y n θ, θ)) ((fderiv ℝ (Y n) θ0).prod (.id ℝ P)) θ0 :=
      h.hasFDerivAt.prodMk (hasFDerivAt_id θ0)
    exact (HasFDerivAt.comp (g := G) (f := fun θ => (Y n θ, θ)) θ0 (hd n).hasFDerivAt h1).congr_of_eventuallyEq (hstep n)
  have hdiff : ∀ n, DifferentiableAt ℝ (Y n) θ0 := by
    intro n
    induction n with
    | zero => exact h0
    | succ n ih => exact (hstepd n ih).differentiableAt
  refine ⟨hdiff, ?_⟩
  set L := fun n => fderiv ℝ G (Y n θ0, θ0) with hL
  have hLlim : Tendsto L atTop (𝓝 (fderiv ℝ G (p, θ0))) := by
    have : Tendsto (fun n => (Y n θ0, θ0)) atTop (𝓝 (p, θ0)) := by
      rw [nhds_prod_eq]; exact hlim.prodMk tendsto_const_nhds
    exact hc.tendsto.comp this
  have hrec : ∀ n, fderiv ℝ (Y (n + 1)) θ0 = (L n).comp ((fderiv ℝ (Y n) θ0).prod (.id ℝ P)) := fun n =>
    (hstepd n (hdiff n)).fderiv
  rw [tendsto_iff_norm_sub_tendsto_zero]
  refine shrinking_tendsto _ (fun n => ‖(L n).comp (.inl ℝ E P)‖)
    (fun n => ‖L n - fderiv ℝ G (p, θ0)‖ * ‖D.prod (.id ℝ P)‖) (fun _ => norm_nonneg _) (fun n => ?_) _ hq ?_ ?_
  · have e : fderiv ℝ (Y (n + 1)) θ0 - D = ((L n).comp (.inl ℝ E P)).comp (fderiv ℝ (Y n) θ0 - D) +
        (L n - fderiv ℝ G (p, θ0)).comp (D.prod (.id ℝ P)) := by
      rw [hrec]
      conv_lhs => rw [hD]
      ext t
      have s1 : ∀ x y : E, (L n) (x, t) = (L n) (x - y, 0) + (L n) (y, t) := fun x y => by
        rw [← map_add]; simp
      simp only [_root_.sub_apply, _root_.add_apply, ContinuousLinearMap.comp_apply,
        ContinuousLinearMap.prod_apply, ContinuousLinearMap.inl_apply, ContinuousLinearMap.id_apply]
      rw [s1 _ (D t)]
      abel
    rw [e]
    exact (norm_add_le _ _).trans (add_le_add (ContinuousLinearMap.opNorm_comp_le _ _) (ContinuousLinearMap.opNorm_comp_le _ _))
  · have : Continuous fun M : E × P →L[ℝ] E => ‖M.comp (.inl ℝ E P)‖ := by fun_prop
    exact (this.tendsto _).comp hLlim
  · have := (tendsto_iff_norm_sub_tendsto_zero.1 hLlim).mul_const ‖D.prod (.id ℝ P)‖
    rwa [zero_mul] at this

end Verif.Lemmas
