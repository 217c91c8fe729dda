import Verif.Props.AdHigher
import Mathlib.Analysis.Calculus.ContDiff.RCLike

/-!
**C96.** How wrong derivatives are when the solution is only approximate and the linear system is solved only approximately.
-/

namespace Verif.Props

open Verif.Ad Filter Topology

variable {ι κ μ ο R : Type} [Fintype ι] [Fintype κ] [Fintype μ] [Fintype ο]

/-- The linear solver leaves a residual of at most `η` times the right hand side, in systems whose operator is invertible
(as iterative linear solvers promise; `η = 0` is `Exact`). -/
def Approximate (solve : Solve ι ο) (η : ℝ) : Prop :=
  ∀ A : (ι → ℝ) →L[ℝ] (ο → ℝ), A.IsInvertible → ∀ b, ‖A (solve A b) - b‖ ≤ η * ‖b‖

theorem approximate_zero (solve : Solve ι ο) : Approximate solve 0 ↔ Exact solve := by
  refine forall₃_congr fun A _ b => ?_
  rw [zero_mul, norm_le_zero_iff, sub_eq_zero]

/-- Linear solvers that are approximate but not exact exist. -/
theorem approximate_exists (η : ℝ) (hη : 0 ≤ η) : ∃ solve : Solve ι ο, Approximate solve η ∧
    ∀ A : (ι → ℝ) →L[ℝ] (ο → ℝ), A.IsInvertible → ∀ b, A (solve A b) = (1 - η) • b := by
  have h : ∀ A : (ι → ℝ) →L[ℝ] (ο → ℝ), A.IsInvertible → ∀ b, A ((1 - η) • A.inverse b) = (1 - η) • b := by
    rintro A ⟨e, rfl⟩ b
    rw [map_smul]
    simp
  refine ⟨fun A b => (1 - η) • A.inverse b, fun A hA b => ?_, h⟩
  rw [h A hA b, show (1 - η) • b - b = (-η) • b by rw [sub_smul, one_smul, neg_smul]; abel, norm_smul, Real.norm_eq_abs, abs_neg,
    abs_of_nonneg hη]

/-- The derivative `D` of a branch, and the error of the tangents computed from approximate solutions. -/
def TangentsAccurate (rewrite : (ι → ℝ) → R → Inputs κ μ → (ο → ℝ)) (y : (κ → ℝ) → (ι → ℝ)) (a0 : κ → ℝ) (root : ι → ℝ) : Prop :=
  ∃ D : (κ → ℝ) →L[ℝ] (ι → ℝ), HasFDerivAt y D a0 ∧ ∃ C, ∃ δ > 0, ∀ (solve : Solve ι ο) (η : ℝ), 0 ≤ η → Approximate solve η →
    ∀ (primal : Inputs κ μ → (ι → ℝ) × R) (inputs : Inputs κ μ), (fun k => inputs (.inl k)) = a0 → ‖(primal inputs).1 - root‖ ≤ δ →
      ∀ t : κ ⊕ μ → Option ℝ, ‖(implicitJvp solve primal rewrite inputs t).2.1 - D fun k => (t (.inl k)).getD 0‖ ≤
        C * (‖(primal inputs).1 - root‖ + η) * ‖fun k => (t (.inl k)).getD 0‖

theorem tangent_error (a0 : κ → ℝ) (root : ι → ℝ) (G : (ι → ℝ) → (κ → ℝ) → (ο → ℝ))
    (hG : ContDiffAt ℝ 2 (fun p : (ι → ℝ) × (κ → ℝ) => G p.1 p.2) (root, a0)) (hinv : (fderiv ℝ (fun y => G y a0) root).IsInvertible)
    (y : (κ → ℝ) → (ι → ℝ)) (hy : IsBranch (fun a z => G z a = G root a0) y a0 root) :
    TangentsAccurate (R := R) (μ := μ) (fun y _ i => G y fun k => i (.inl k)) y a0 root := by
  obtain ⟨solve0, hs0⟩ := exact_exists (ι := ι) (ο := ο)
  obtain ⟨D, hD, hDt⟩ := implicit_generic solve0 hs0 (fun _ => (root, ())) (Sum.elim a0 fun _ : Empty => 0) a0 rfl root rfl G
    (hG.of_le (by norm_num)) hinv y hy
  refine ⟨D, hD, ?_⟩
  let F : (ι → ℝ) × (κ → ℝ) → (ο → ℝ) := fun p => G p.1 p.2
  have hF : ContDiffAt ℝ 2 F (root, a0) := hG
  let A : ((ι → ℝ) × (κ → ℝ) →L[ℝ] (ο → ℝ)) → ((ι → ℝ) →L[ℝ] (ο → ℝ)) := fun L => L.comp (.inl ℝ (ι → ℝ) (κ → ℝ))
  have hAc : Continuous A := by fun_prop
  have hpart : ∀ r, DifferentiableAt ℝ F (r, a0) → fderiv ℝ (fun y => G y a0) r = A (fderiv ℝ F (r, a0)) ∧
      DifferentiableAt ℝ (G r) a0 ∧ ∀ v, fderiv ℝ (G r) a0 v = fderiv ℝ F (r, a0) (0, v) := by
    intro r hd
    have h1 : HasFDerivAt (fun y => F (y, a0)) ((fderiv ℝ F (r, a0)).comp (.inl ℝ (ι → ℝ) (κ → ℝ))) r :=
      HasFDerivAt.comp (g := F) (f := fun y => (y, a0)) r hd.hasFDerivAt (hasFDerivAt_prodMk_left r a0)
    have h2 : HasFDerivAt (fun a => F (r, a)) ((fderiv ℝ F (r, a0)).comp (.inr ℝ (ι → ℝ) (κ → ℝ))) a0 :=
      HasFDerivAt.comp (g := F) (f := fun a => (r, a)) a0 hd.hasFDerivAt (hasFDerivAt_prodMk_right r a0)
    refine ⟨h1.fderiv, h2.differentiableAt, fun v => ?_⟩
    rw [show G r = fun a => F (r, a) from rfl, h2.fderiv]
    simp
  have hroot := hpart root (hF.differentiableAt two_ne_zero)
  rw [hroot.1] at hinv
  set W := fderiv ℝ F (root, a0) with hW
  -- the derivative of the branch solves the linear system
  have hDv : ∀ v, W (D v, 0) = -W (0, v) := by
    intro v
    have h := hDt (Sum.elim (fun k => some (v k)) fun _ => none)
    rw [tangent_eq (solve := solve0) (primal := fun _ => (root, ())) (G := G) (hG := hroot.2.1)] at h
    have e1 : (fun k => (Sum.elim a0 fun _ : Empty => (0 : ℝ)) (.inl k : κ ⊕ Empty)) = a0 := rfl
    rw [e1, hroot.1] at h
    change -solve0 (A W) (fderiv ℝ (G root) a0 v) = D v at h
    rw [hroot.2.2] at h
    have h2 := hs0 (A W) hinv (W (0, v))
    rw [← h]
    show A W (-solve0 (A W) (W (0, v))) = _
    rw [map_neg, h2]
  obtain ⟨e, he⟩ := hinv
  set K : ℝ := ‖(e.symm : (ο → ℝ) →L[ℝ] (ι → ℝ))‖ + 1 with hK
  have hK0 : 0 < K := by positivity
  have hlow : ∀ x, ‖x‖ ≤ K * ‖W (x, 0)‖ := by
    intro x
    have h1 : x = (e.symm : (ο → ℝ) →L[ℝ] (ι → ℝ)) (W (x, 0)) := by
      show x = e.symm (A W x)
      rw [← he]; simp
    calc ‖x‖ = ‖(e.symm : (ο → ℝ) →L[ℝ] (ι → ℝ)) (W (x, 0))‖ := by rw [← h1]
      _ ≤ ‖(e.symm : (ο → ℝ) →L[ℝ] (ι → ℝ))‖ * ‖W (x, 0)‖ := ContinuousLinearMap.le_opNorm _ _
      _ ≤ K * ‖W (x, 0)‖ := mul_le_mul_of_nonneg_right (by rw [hK]; linarith) (norm_nonneg _)
  -- everything holds near the root
  have hcd : ContDiffAt ℝ 1 (fderiv ℝ F) (root, a0) := hF.fderiv_right (m := 1) (by norm_num)
  obtain ⟨L, s, hs, hlip⟩ := hcd.exists_lipschitzOnWith
  have hpair : Tendsto (fun r : ι → ℝ => (r, a0)) (𝓝 root) (𝓝 (root, a0)) :=
    (Continuous.prodMk continuous_id continuous_const).tendsto root
  have hinvn : ∀ᶠ r in 𝓝 root, (A (fderiv ℝ F (r, a0))).IsInvertible := by
    have hn := e.nhds
    rw [he] at hn
    have : Tendsto (fun r => A (fderiv ℝ F (r, a0))) (𝓝 root) (𝓝 (A W)) :=
      (hAc.tendsto _).comp (hcd.continuousAt.tendsto.comp hpair)
    filter_upwards [this hn] with n ⟨e', he'⟩
    exact ⟨e', he'⟩
  have hev : ∀ᶠ r in 𝓝 root, DifferentiableAt ℝ F (r, a0) := by
    have : ∀ᶠ p in 𝓝 (root, a0), ContDiffAt ℝ 2 F p := hF.eventually (by simp)
    filter_upwards [hpair.eventually this] with p hp using hp.differentiableAt two_ne_zero
  have hlipn : ∀ᶠ r in 𝓝 root, ‖fderiv ℝ F (r, a0) - W‖ ≤ L * ‖r - root‖ := by
    filter_upwards [hpair hs] with r hr
    have h1 := hlip.dist_le_mul (r, a0) hr (root, a0) (mem_of_mem_nhds hs)
    rw [dist_eq_norm, dist_eq_norm] at h1
    simpa [Prod.norm_def] using h1
  obtain ⟨δ, hδ, hball⟩ := Metric.eventually_nhds_iff.1 (hinvn.and (hev.and hlipn))
  refine ⟨2 * K * (2 * L + L * ‖D‖ + ‖W‖), min (δ / 2) (min 1 (1 / (2 * K * (L + 1)))), by positivity, ?_⟩
  intro solve η hη hsolve primal inputs hin hclose t
  set r := (primal inputs).1 with hr
  set v : κ → ℝ := fun k => (t (.inl k)).getD 0 with hv
  set ε := ‖r - root‖ with hε
  have hε0 : 0 ≤ ε := norm_nonneg _
  have hε1 : ε ≤ 1 := hclose.trans ((min_le_right _ _).trans (min_le_left _ _))
  have hεK : ε * (2 * K * (L + 1)) ≤ 1 := by
    have := hclose.trans ((min_le_right _ _).trans (min_le_right _ _))
    rwa [le_div_iff₀ (by positivity)] at this
  obtain ⟨hi, hd, hl⟩ := hball (y := r) (by
    rw [dist_eq_norm]; exact (hclose.trans (min_le_left _ _)).trans_lt (half_lt_self hδ))
  have hp := hpart r hd
  rw [tangent_eq solve primal inputs G (by rw [hin]; exact hp.2.1) t, hin, ← hr, hp.1, ← hv, hp.2.2]
  set W' := fderiv ℝ F (r, a0) with hW'
  set q := solve (A W') (W' (0, v)) with hq
  have hres : ‖W' (q, 0) - W' (0, v)‖ ≤ η * ‖W' (0, v)‖ := hsolve (A W') hi (W' (0, v))
  have hdiff : ∀ p, ‖W' p - W p‖ ≤ L * ε * ‖p‖ := fun p => by
    rw [← ContinuousLinearMap.sub_apply]
    exact (ContinuousLinearMap.le_opNorm _ _).trans (mul_le_mul_of_nonneg_right hl (norm_nonneg _))
  have hn1 : ∀ x : ι → ℝ, ‖((x, 0) : (ι → ℝ) × (κ → ℝ))‖ = ‖x‖ := fun x => by simp [Prod.norm_def]
  have hn2 : ‖((0, v) : (ι → ℝ) × (κ → ℝ))‖ = ‖v‖ := by simp [Prod.norm_def]
  set x : ι → ℝ := -q - D v with hx
  have hWx : W (x, 0) = -(W' (x, 0) - W (x, 0)) - (W' (q, 0) - W' (0, v)) - (W' (0, v) - W (0, v)) - (W' (D v, 0) - W (D v, 0)) := by
    have e1 : W' (x, 0) = -W' (q, 0) - W' (D v, 0) := by
      rw [← map_neg, ← map_sub]; simp [hx]
    rw [e1, hDv]
    abel
  have hW'v : ‖W' (0, v)‖ ≤ (‖W‖ + L) * ‖v‖ := by
    have h1 : ‖W' (0, v)‖ ≤ ‖W (0, v)‖ + ‖W' (0, v) - W (0, v)‖ := by
      calc ‖W' (0, v)‖ = ‖W (0, v) + (W' (0, v) - W (0, v))‖ := by congr 1; abel
        _ ≤ _ := norm_add_le _ _
    have h2 := ContinuousLinearMap.le_opNorm W (0, v)
    have h3 := hdiff (0, v)
    rw [hn2] at h2 h3
    have h4 : (L : ℝ) * ε * ‖v‖ ≤ L * ‖v‖ :=
      mul_le_mul_of_nonneg_right (by nlinarith [L.coe_nonneg]) (norm_nonneg _)
    linarith
  have hbound : ‖W (x, 0)‖ ≤ L * ε * ‖x‖ + η * ((‖W‖ + L) * ‖v‖) + L * ε * ‖v‖ + L * ε * (‖D‖ * ‖v‖) := by
    rw [hWx]
    have a1 := hdiff (x, 0)
    have a2 := hdiff (0, v)
    have a3 := hdiff (D v, 0)
    rw [hn1] at a1 a3
    rw [hn2] at a2
    have a4 : L * ε * ‖D v‖ ≤ L * ε * (‖D‖ * ‖v‖) :=
      mul_le_mul_of_nonneg_left (ContinuousLinearMap.le_opNorm _ _) (by positivity)
    have a5 := mul_le_mul_of_nonneg_left hW'v hη
    have n1 := norm_sub_le (-(W' (x, 0) - W (x, 0)) - (W' (q, 0) - W' (0, v)) - (W' (0, v) - W (0, v))) (W' (D v, 0) - W (D v, 0))
    have n2 := norm_sub_le (-(W' (x, 0) - W (x, 0)) - (W' (q, 0) - W' (0, v))) (W' (0, v) - W (0, v))
    have n3 := norm_sub_le (-(W' (x, 0) - W (x, 0))) (W' (q, 0) - W' (0, v))
    rw [norm_neg] at n3
    linarith
  have hmain := (hlow x).trans (mul_le_mul_of_nonneg_left hbound hK0.le)
  have hhalf : K * (L * ε * ‖x‖) ≤ 1 / 2 * ‖x‖ := by
    have : K * (L * ε) ≤ 1 / 2 := by nlinarith [L.coe_nonneg, mul_nonneg hK0.le hε0]
    calc K * (L * ε * ‖x‖) = K * (L * ε) * ‖x‖ := by ring
      _ ≤ _ := mul_le_mul_of_nonneg_right this (norm_nonneg _)
  have hfin : ‖x‖ ≤ 2 * K * (η * ((‖W‖ + L) * ‖v‖) + L * ε * ‖v‖ + L * ε * (‖D‖ * ‖v‖)) := by
    linarith
  refine hfin.trans ?_
  have hL := L.coe_nonneg
  have hv0 := norm_nonneg v
  have hD0 := norm_nonneg D
  have hW0 := norm_nonneg W
  have expand : 2 * K * (2 * L + L * ‖D‖ + ‖W‖) * (ε + η) * ‖v‖ - 2 * K * (η * ((‖W‖ + L) * ‖v‖) + L * ε * ‖v‖ + L * ε * (‖D‖ * ‖v‖)) =
      2 * K * ‖v‖ * (L * ε + ‖W‖ * ε + L * η + L * ‖D‖ * η) := by ring
  have : 0 ≤ 2 * K * ‖v‖ * (L * ε + ‖W‖ * ε + L * η + L * ‖D‖ * η) := by positivity
  linarith

/-- **C96**, `root_find` (with a root finder or a least-squares solver).  Near a nondegenerate root of a twice differentiable function the
computed tangent differs from the derivative of the branch of roots by at most a constant times the error of the root plus the relative
residual of the linear solve. -/
theorem C96_root_find (a0 : κ → ℝ) (root : ι → ℝ) (fn : (ι → ℝ) → (κ → ℝ) → (ι → ℝ))
    (hfn : ContDiffAt ℝ 2 (fun p : (ι → ℝ) × (κ → ℝ) => fn p.1 p.2) (root, a0)) (hinv : (fderiv ℝ (fun y => fn y a0) root).IsInvertible)
    (y : (κ → ℝ) → (ι → ℝ)) (hy : IsBranch (fun a z => fn z a = 0) y a0 root) :
    TangentsAccurate (R := R) (μ := μ) (rewriteRootFind fn) y a0 root := by
  refine tangent_error a0 root fn hfn hinv y ⟨hy.1, hy.2.1, ?_⟩
  have h0 : fn root a0 = 0 := by
    have := hy.2.2.self_of_nhds
    rwa [hy.2.1] at this
  rw [h0]
  exact hy.2.2

/-- **C96**, `fixed_point`. -/
theorem C96_fixed_point (a0 : κ → ℝ) (point : ι → ℝ) (fn : (ι → ℝ) → (κ → ℝ) → (ι → ℝ))
    (hfn : ContDiffAt ℝ 2 (fun p : (ι → ℝ) × (κ → ℝ) => fn p.1 p.2) (point, a0))
    (hinv : (fderiv ℝ (fun y => fn y a0 - y) point).IsInvertible)
    (y : (κ → ℝ) → (ι → ℝ)) (hy : IsBranch (fun a z => fn z a = z) y a0 point) :
    TangentsAccurate (R := R) (μ := μ) (rewriteFixedPoint fn) y a0 point := by
  have h0 : fn point a0 = point := by
    have := hy.2.2.self_of_nhds
    rwa [hy.2.1] at this
  refine tangent_error a0 point (fun z a => fn z a - z) (hfn.sub contDiffAt_fst) hinv y ⟨hy.1, hy.2.1, ?_⟩
  filter_upwards [hy.2.2] with a ha
  rw [ha, h0]; simp

variable [DecidableEq ι]

/-- **C96**, `minimise`. -/
theorem C96_minimise (a0 : κ → ℝ) (minimum : ι → ℝ) (fn : (ι → ℝ) → (κ → ℝ) → ℝ)
    (hfn : ContDiffAt ℝ 3 (fun p : (ι → ℝ) × (κ → ℝ) => fn p.1 p.2) (minimum, a0))
    (hinv : (fderiv ℝ (grad fun x => fn x a0) minimum).IsInvertible)
    (y : (κ → ℝ) → (ι → ℝ)) (hy : IsBranch (fun a z => IsLocalMin (fun x => fn x a) z) y a0 minimum) :
    TangentsAccurate (R := R) (μ := μ) (rewriteMinimise fn) y a0 minimum := by
  refine tangent_error a0 minimum (fun z a => grad (fun x => fn x a) z) (grad_contDiffAt_nat fn minimum a0 (n := 2) hfn) hinv y
    ⟨hy.1, hy.2.1, ?_⟩
  have h0 : IsLocalMin (fun x => fn x a0) minimum := by
    have := hy.2.2.self_of_nhds
    rwa [hy.2.1] at this
  filter_upwards [hy.2.2] with a ha
  rw [grad_local_min ha, grad_local_min h0]

/-- **C96**, `least_squares`. -/
theorem C96_least_squares (a0 : κ → ℝ) (optimum : ι → ℝ) (fn : (ι → ℝ) → (κ → ℝ) → (ο → ℝ))
    (hfn : ContDiffAt ℝ 3 (fun p : (ι → ℝ) × (κ → ℝ) => fn p.1 p.2) (optimum, a0))
    (hinv : (fderiv ℝ (grad fun x => 1 / 2 * ∑ j, fn x a0 j ^ 2) optimum).IsInvertible)
    (y : (κ → ℝ) → (ι → ℝ)) (hy : IsBranch (fun a z => IsLocalMin (fun x => ∑ j, fn x a j ^ 2) z) y a0 optimum) :
    TangentsAccurate (R := R) (μ := μ) (rewriteLeastSquares fn) y a0 optimum := by
  have hobj : ∀ (x : ι → ℝ) (a : κ → ℝ), (0.5 : ℝ) * ∑ j, fn x a j * fn x a j = 1 / 2 * ∑ j, fn x a j ^ 2 := by
    intro x a
    rw [show (0.5 : ℝ) = 1 / 2 by norm_num]
    congr 1
    exact Finset.sum_congr rfl fun j _ => by ring
  have hcd : ContDiffAt ℝ 3 (fun p : (ι → ℝ) × (κ → ℝ) => (0.5 : ℝ) * ∑ j, fn p.1 p.2 j * fn p.1 p.2 j) (optimum, a0) := by
    refine contDiffAt_const.mul (ContDiffAt.sum fun j _ => ?_)
    have := contDiffAt_pi.1 hfn j
    exact this.mul this
  refine C96_minimise (R := R) a0 optimum (fun x a => (0.5 : ℝ) * ∑ j, fn x a j * fn x a j) hcd ?_ y ⟨hy.1, hy.2.1, ?_⟩
  · rw [show (fun x => (0.5 : ℝ) * ∑ j, fn x a0 j * fn x a0 j) = fun x => 1 / 2 * ∑ j, fn x a0 j ^ 2 from
      funext fun x => hobj x a0]
    exact hinv
  · filter_upwards [hy.2.2] with a ha
    have : (fun x => (0.5 : ℝ) * ∑ j, fn x a j * fn x a j) = fun x => 1 / 2 * ∑ j, fn x a j ^ 2 :=
      funext fun x => hobj x a
    rw [this]
    filter_upwards [ha] with x hx
    exact mul_le_mul_of_nonneg_left hx (by norm_num)

omit [DecidableEq ι] in
/-- `y² - θ` meets the hypotheses of `C96_root_find` for every `θ > 0`, and the solution `√θ + ε` with a linear solver that leaves a tenth
of the right hand side is covered. -/
example (θ : ℝ) (hθ : 0 < θ) : ∃ C, ∃ δ > 0, ∃ solve : Solve Unit Unit, ¬ Exact solve ∧ ∀ ε, |ε| ≤ δ →
    |(implicitJvp solve (fun _ : Inputs Unit Empty => ((fun _ => √θ + ε : Unit → ℝ), ())) (rewriteRootFind squareMinus) (fun _ => θ)
      (fun _ => some 1)).2.1 () - 1 / (2 * √θ)| ≤ C * (|ε| + 1 / 10) := by
  have hlin : HasFDerivAt (fun z : Unit → ℝ => squareMinus z fun _ => θ)
      ((2 * √θ) • ContinuousLinearMap.id ℝ (Unit → ℝ)) (fun _ => √θ) := by
    refine (hasFDerivAt_pi' (𝕜 := ℝ) (F' := fun _ : Unit => ℝ)).2 fun u => ?_
    have h1 : HasFDerivAt (fun z : Unit → ℝ => z ()) (ContinuousLinearMap.proj (R := ℝ) (φ := fun _ : Unit => ℝ) ())
      (fun _ => √θ) := (ContinuousLinearMap.proj (R := ℝ) (φ := fun _ : Unit => ℝ) ()).hasFDerivAt
    have h2 := (h1.pow 2).sub_const θ
    have e : (ContinuousLinearMap.proj (R := ℝ) (φ := fun _ : Unit => ℝ) u).comp
        ((2 * √θ) • ContinuousLinearMap.id ℝ (Unit → ℝ)) =
        (2 * √θ) • ContinuousLinearMap.proj (R := ℝ) (φ := fun _ : Unit => ℝ) () := by
      ext; simp
    rw [e]
    simpa [squareMinus] using h2
  have hne : 2 * √θ ≠ 0 := by positivity
  obtain ⟨D, hD, C, δ, hδ, hC⟩ := C96_root_find (R := Unit) (μ := Empty) (fun _ : Unit => θ) (fun _ : Unit => √θ) squareMinus
    (contDiffAt_pi.2 fun _ => by unfold squareMinus; fun_prop)
    (by rw [hlin.fderiv]; exact ⟨ContinuousLinearEquiv.smulLeft (Units.mk0 (2 * √θ) hne), by ext; rfl⟩) (fun a _ => √(a ()))
    ⟨continuousAt_pi.2 fun _ => (Real.continuous_sqrt.comp (continuous_apply ())).continuousAt, rfl, by
      have hU : IsOpen {a : Unit → ℝ | 0 < a ()} := isOpen_lt continuous_const (continuous_apply ())
      filter_upwards [hU.mem_nhds (show 0 < (fun _ : Unit => θ) () from hθ)] with a ha
      funext u
      simp [squareMinus, Real.sq_sqrt (le_of_lt ha)]⟩
  obtain ⟨solve, h1, h2⟩ := approximate_exists (ι := Unit) (ο := Unit) (1 / 10) (by norm_num)
  have hD1 : D (fun _ => 1) () = 1 / (2 * √θ) := by
    have h3 : HasFDerivAt (fun a : Unit → ℝ => √(a ())) ((ContinuousLinearMap.proj (R := ℝ) (φ := fun _ : Unit => ℝ) ()).comp D)
        (fun _ => θ) := hasFDerivAt_pi'.1 hD ()
    have h4 : HasFDerivAt (fun a : Unit → ℝ => √(a ())) ((1 / (2 * √θ)) • ContinuousLinearMap.proj (R := ℝ) (φ := fun _ : Unit => ℝ) ())
        (fun _ => θ) := by
      have h5 : HasFDerivAt (fun a : Unit → ℝ => a ()) (ContinuousLinearMap.proj (R := ℝ) (φ := fun _ : Unit => ℝ) ()) (fun _ => θ) :=
        (ContinuousLinearMap.proj (R := ℝ) (φ := fun _ : Unit => ℝ) ()).hasFDerivAt
      exact h5.sqrt hθ.ne'
    have := congrArg (fun L => L fun _ => (1 : ℝ)) (h3.unique h4)
    simpa using this
  refine ⟨C, δ, hδ, solve, fun hex => ?_, fun ε hε => ?_⟩
  · have hid : (ContinuousLinearMap.id ℝ (Unit → ℝ)).IsInvertible := ⟨ContinuousLinearEquiv.refl ℝ _, rfl⟩
    have := (hex _ hid fun _ => 1).symm.trans (h2 _ hid fun _ => 1)
    have := congrFun this ()
    norm_num at this
  · have e0 : (fun _ => √θ + ε) - (fun _ : Unit => √θ) = fun _ => ε := by funext u; simp
    have := hC solve (1 / 10) (by norm_num) h1 (fun _ => ((fun _ => √θ + ε : Unit → ℝ), ())) (fun _ => θ) rfl (by
      show ‖(fun _ => √θ + ε) - (fun _ : Unit => √θ)‖ ≤ δ
      rw [e0]; simpa [pi_norm_const] using hε) (fun _ => some 1)
    have e1 : ‖(fun _ => √θ + ε) - (fun _ : Unit => √θ)‖ = |ε| := by rw [e0]; simp [pi_norm_const]
    have h5 := (norm_le_pi_norm _ ()).trans this
    rw [Pi.sub_apply] at h5
    change |_ - D (fun _ => 1) ()| ≤ C * (‖(fun _ => √θ + ε) - (fun _ : Unit => √θ)‖ + 1 / 10) * ‖fun _ : Unit => (1 : ℝ)‖ at h5
    rw [e1, hD1, pi_norm_const, norm_one, mul_one] at h5
    exact h5

end Verif.Props
