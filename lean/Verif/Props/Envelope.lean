import Verif.Props.AdCertified
import Mathlib.Analysis.Calculus.FDeriv.Symmetric
import Mathlib.Analysis.Calculus.MeanValue
import Mathlib.Analysis.Calculus.ContDiff.RCLike

/-!
Property C146: the derivative of the optimal value.

Users differentiate `fn(minimise(fn, ...).value, args)` with respect to `args`.  At a minimum the derivative of the solution does not matter
(envelope theorem), and at an approximate solution its effect makes up for the error of the rest, to first order.
-/

namespace Verif.Props

open Verif Verif.Spec Verif.Driver Verif.SearchLoop Verif.Ad Filter Topology

variable {ι κ μ ο R A : Type} [Fintype ι] [Fintype κ] [Fintype μ] [Fintype ο] [DecidableEq ι]

/-- The tangent of `fn(sol.value, args)` that forward-mode differentiation computes, for `sol = minimise(fn, solver, y0, args)`: the derivative of
`fn` at the answer, in the direction given by the tangent of the answer and the tangent of the arguments. -/
noncomputable def objectiveTangent (solve : Solve ι ι) (primal : Inputs κ μ → (ι → ℝ) × R) (fn : (ι → ℝ) → (κ → ℝ) → ℝ) (inputs : Inputs κ μ)
    (t : κ ⊕ μ → Option ℝ) : ℝ :=
  fderiv ℝ (fun p : (ι → ℝ) × (κ → ℝ) => fn p.1 p.2) ((primal inputs).1, fun k => inputs (.inl k))
    ((implicitJvp solve primal (rewriteMinimise fn) inputs t).2.1, fun k => (t (.inl k)).getD 0)

omit [Fintype μ] [DecidableEq ι] in
theorem partial_first (fn : (ι → ℝ) → (κ → ℝ) → ℝ) (x : ι → ℝ) (a : κ → ℝ)
    (hd : DifferentiableAt ℝ (fun p : (ι → ℝ) × (κ → ℝ) => fn p.1 p.2) (x, a)) (v : ι → ℝ) :
    fderiv ℝ (fun p : (ι → ℝ) × (κ → ℝ) => fn p.1 p.2) (x, a) (v, 0) = fderiv ℝ (fun z => fn z a) x v := by
  have h : HasFDerivAt (fun z => fn z a) ((fderiv ℝ (fun p : (ι → ℝ) × (κ → ℝ) => fn p.1 p.2) (x, a)).comp (.inl ℝ (ι → ℝ) (κ → ℝ))) x :=
    hd.hasFDerivAt.comp (f := fun z => (z, a)) x (hasFDerivAt_prodMk_left x a)
  rw [h.fderiv]
  simp

omit [Fintype μ] [DecidableEq ι] in
theorem partial_second (fn : (ι → ℝ) → (κ → ℝ) → ℝ) (x : ι → ℝ) (a : κ → ℝ)
    (hd : DifferentiableAt ℝ (fun p : (ι → ℝ) × (κ → ℝ) => fn p.1 p.2) (x, a)) (t : κ → ℝ) :
    fderiv ℝ (fun p : (ι → ℝ) × (κ → ℝ) => fn p.1 p.2) (x, a) (0, t) = fderiv ℝ (fun b => fn x b) a t := by
  have h : HasFDerivAt (fun b => fn x b) ((fderiv ℝ (fun p : (ι → ℝ) × (κ → ℝ) => fn p.1 p.2) (x, a)).comp (.inr ℝ (ι → ℝ) (κ → ℝ))) a :=
    hd.hasFDerivAt.comp (f := fun b => (x, b)) a (hasFDerivAt_prodMk_right x a)
  rw [h.fderiv]
  simp

omit [Fintype μ] in
/-- **C146.** At a point where the objective is stationary in the unknowns, the derivative of the optimal value is the derivative of the objective
with the unknowns held fixed, whatever the linear solver returns and even if the Hessian is singular. -/
theorem C146_stationary (solve : Solve ι ι) (primal : Inputs κ μ → (ι → ℝ) × R) (fn : (ι → ℝ) → (κ → ℝ) → ℝ) (inputs : Inputs κ μ)
    (hd : DifferentiableAt ℝ (fun p : (ι → ℝ) × (κ → ℝ) => fn p.1 p.2) ((primal inputs).1, fun k => inputs (.inl k)))
    (h0 : fderiv ℝ (fun x => fn x fun k => inputs (.inl k)) (primal inputs).1 = 0) (t : κ ⊕ μ → Option ℝ) :
    objectiveTangent solve primal fn inputs t =
      fderiv ℝ (fun a => fn (primal inputs).1 a) (fun k => inputs (.inl k)) fun k => (t (.inl k)).getD 0 := by
  rw [objectiveTangent, ← partial_second fn _ _ hd]
  have e : ∀ (v : ι → ℝ) (w : κ → ℝ), (v, w) = (v, (0 : κ → ℝ)) + ((0 : ι → ℝ), w) := fun v w => by simp
  rw [e (implicitJvp solve primal (rewriteMinimise fn) inputs t).2.1, map_add, partial_first fn _ _ hd, h0]
  simp

omit [Fintype μ] [DecidableEq ι] in
/-- **C146**, the envelope theorem: this is the derivative of the optimal value, along every differentiable branch of local minima. -/
theorem C146_value_function (fn : (ι → ℝ) → (κ → ℝ) → ℝ) (a0 : κ → ℝ) (minimum : ι → ℝ)
    (hd : DifferentiableAt ℝ (fun p : (ι → ℝ) × (κ → ℝ) => fn p.1 p.2) (minimum, a0)) (y : (κ → ℝ) → (ι → ℝ))
    (hy : IsBranch (fun a z => IsLocalMin (fun x => fn x a) z) y a0 minimum) (hdy : DifferentiableAt ℝ y a0) :
    HasFDerivAt (fun a => fn (y a) a) (fderiv ℝ (fun a => fn minimum a) a0) a0 := by
  have h0 : IsLocalMin (fun x => fn x a0) minimum := by
    have := hy.2.2.self_of_nhds
    rwa [hy.2.1] at this
  have hd' : HasFDerivAt (fun p : (ι → ℝ) × (κ → ℝ) => fn p.1 p.2) (fderiv ℝ (fun p : (ι → ℝ) × (κ → ℝ) => fn p.1 p.2) (minimum, a0)) (y a0, a0) := by
    rw [hy.2.1]; exact hd.hasFDerivAt
  refine (hd'.comp (f := fun a => (y a, a)) a0 (hdy.hasFDerivAt.prodMk (hasFDerivAt_id a0))).congr_fderiv ?_
  ext t
  have e : ∀ (v : ι → ℝ) (w : κ → ℝ), (v, w) = (v, (0 : κ → ℝ)) + ((0 : ι → ℝ), w) := fun v w => by simp
  show fderiv ℝ (fun p : (ι → ℝ) × (κ → ℝ) => fn p.1 p.2) (minimum, a0) (fderiv ℝ y a0 t, t) = _
  rw [e (fderiv ℝ y a0 t), map_add, partial_first fn _ _ hd, partial_second fn _ _ hd, h0.fderiv_eq_zero]
  simp

/-- A function whose derivative vanishes at a point is quadratically close to its value there. -/
theorem flat_quadratic {E F : Type} [NormedAddCommGroup E] [NormedSpace ℝ E] [NormedAddCommGroup F] [NormedSpace ℝ F] (G : E → F) (m : E)
    (hG : ContDiffAt ℝ 2 G m) (h0 : fderiv ℝ G m = 0) : ∃ K ≥ 0, ∃ δ > 0, ∀ y, ‖y - m‖ ≤ δ → ‖G y - G m‖ ≤ K * ‖y - m‖ ^ 2 := by
  obtain ⟨K, s, hs, hK⟩ := (hG.fderiv_right (m := 1) (by norm_num)).exists_lipschitzOnWith
  have hev : ∀ᶠ x in 𝓝 m, DifferentiableAt ℝ G x := (hG.eventually (by simp)).mono fun x hx => hx.differentiableAt (by norm_num)
  obtain ⟨δ, hδ, hball⟩ := Metric.nhds_basis_closedBall.mem_iff.1 (inter_mem hs hev)
  refine ⟨K, K.2, δ, hδ, fun y hy => ?_⟩
  have hsub : Metric.closedBall m ‖y - m‖ ⊆ Metric.closedBall m δ := Metric.closedBall_subset_closedBall hy
  have hm : m ∈ Metric.closedBall m δ := Metric.mem_closedBall_self hδ.le
  have h := (convex_closedBall m ‖y - m‖).norm_image_sub_le_of_norm_fderiv_le (𝕜 := ℝ) (f := G) (C := K * ‖y - m‖) (x := m) (y := y)
    (fun x hx => (hball (hsub hx)).2) (fun x hx => by
      have := hK.dist_le_mul x (hball (hsub hx)).1 m (hball hm).1
      rw [dist_eq_norm, h0, sub_zero] at this
      exact this.trans (mul_le_mul_of_nonneg_left (by simpa using hx) K.2))
    (Metric.mem_closedBall_self (norm_nonneg _)) (by simp [dist_eq_norm])
  rw [pow_two, ← mul_assoc]
  exact h

/-- **C146**, approximate solutions.  Let the answer be at distance `e` from a nondegenerate local minimum and let the linear solves of the
implicit differentiation have relative residuals of at most `η`.  Then the derivative of the optimal value is wrong by at most a multiple of
`e (e + η)`: it is accurate to second order, although the answer and its derivative are only accurate to first order. -/
theorem C146_second_order (a0 : κ → ℝ) (minimum : ι → ℝ) (fn : (ι → ℝ) → (κ → ℝ) → ℝ)
    (hfn : ContDiffAt ℝ 3 (fun p : (ι → ℝ) × (κ → ℝ) => fn p.1 p.2) (minimum, a0))
    (hinv : (fderiv ℝ (grad fun x => fn x a0) minimum).IsInvertible)
    (y : (κ → ℝ) → (ι → ℝ)) (hy : IsBranch (fun a z => IsLocalMin (fun x => fn x a) z) y a0 minimum) :
    ∃ E : (κ → ℝ) →L[ℝ] ℝ, HasFDerivAt (fun a => fn (y a) a) E a0 ∧ ∃ C, ∃ δ > 0, ∀ (solve : Solve ι ι) (η : ℝ), 0 ≤ η → Approximate solve η →
      ∀ (primal : Inputs κ μ → (ι → ℝ) × R) (inputs : Inputs κ μ), (fun k => inputs (.inl k)) = a0 → ‖(primal inputs).1 - minimum‖ ≤ δ →
        ∀ t : κ ⊕ μ → Option ℝ, |objectiveTangent solve primal fn inputs t - E fun k => (t (.inl k)).getD 0| ≤
          C * (‖(primal inputs).1 - minimum‖ * (‖(primal inputs).1 - minimum‖ + η)) * ‖fun k => (t (.inl k)).getD 0‖ := by
  set F : (ι → ℝ) × (κ → ℝ) → ℝ := fun p => fn p.1 p.2 with hF
  have hdF : DifferentiableAt ℝ F (minimum, a0) := hfn.differentiableAt (by norm_num)
  have h0 : IsLocalMin (fun x => fn x a0) minimum := by
    have := hy.2.2.self_of_nhds
    rwa [hy.2.1] at this
  obtain ⟨D, hD, C, δ₁, hδ₁, hC⟩ := C96_minimise (μ := μ) (R := R) a0 minimum fn hfn hinv y hy
  have hE := C146_value_function fn a0 minimum hdF y hy hD.differentiableAt
  refine ⟨_, hE, ?_⟩
  have hcF : ContDiffAt ℝ 2 (fderiv ℝ F) (minimum, a0) := hfn.fderiv_right (m := 2) (by norm_num)
  have hcy : ContDiffAt ℝ 2 (fun x : ι → ℝ => fderiv ℝ F (x, a0)) minimum :=
    ContDiffAt.comp (g := fderiv ℝ F) (f := fun x => (x, a0)) minimum hcF (contDiffAt_id.prodMk contDiffAt_const)
  -- the part with the true derivative of the solution
  set P : (κ → ℝ) →L[ℝ] (ι → ℝ) × (κ → ℝ) := D.prod (.id ℝ _) with hP
  set G : (ι → ℝ) → (κ → ℝ) →L[ℝ] ℝ := fun x => (fderiv ℝ F (x, a0)).comp P with hG
  have hGc : ContDiffAt ℝ 2 G minimum := hcy.clm_comp contDiffAt_const
  have hGm : G minimum = fderiv ℝ (fun a => fn minimum a) a0 := by
    ext t
    have e : ∀ (v : ι → ℝ) (w : κ → ℝ), (v, w) = (v, (0 : κ → ℝ)) + ((0 : ι → ℝ), w) := fun v w => by simp
    show fderiv ℝ F (minimum, a0) (D t, t) = _
    rw [e (D t), map_add, partial_first fn _ _ hdF, partial_second fn _ _ hdF, h0.fderiv_eq_zero]
    simp
  have hG0 : fderiv ℝ G minimum = 0 := by
    set S := fderiv ℝ (fderiv ℝ F) (minimum, a0) with hS
    have hSd : HasFDerivAt (fderiv ℝ F) S (minimum, a0) := (hcF.differentiableAt (by norm_num)).hasFDerivAt
    have h1 : HasFDerivAt (fun x : ι → ℝ => fderiv ℝ F (x, a0)) (S.comp (.inl ℝ (ι → ℝ) (κ → ℝ))) minimum :=
      hSd.comp (f := fun x => (x, a0)) minimum (hasFDerivAt_prodMk_left minimum a0)
    have hsym : IsSymmSndFDerivAt ℝ F (minimum, a0) := hfn.isSymmSndFDerivAt (by simp; norm_num)
    ext v t
    have h2 : fderiv ℝ G minimum v t = S (v, 0) (D t, t) := by
      have h3 : HasFDerivAt G _ minimum := h1.clm_comp (hasFDerivAt_const P minimum)
      rw [h3.fderiv]
      simp [hP]
    rw [h2, hsym.eq]
    -- the gradient in the unknowns vanishes along the branch
    have h4 : HasFDerivAt (fun a => fderiv ℝ F (y a, a) (v, 0)) ((S.comp P).flip (v, 0)) a0 := by
      have hSy : HasFDerivAt (fderiv ℝ F) S (y a0, a0) := by rw [hy.2.1]; exact hSd
      have h5 : HasFDerivAt (fun a => fderiv ℝ F (y a, a)) (S.comp P) a0 := hSy.comp (f := fun a => (y a, a)) a0 (hD.prodMk (hasFDerivAt_id a0))
      refine (h5.clm_apply (hasFDerivAt_const (v, (0 : κ → ℝ)) a0)).congr_fderiv ?_
      ext; simp
    have h6 : (fun a => fderiv ℝ F (y a, a) (v, 0)) =ᶠ[𝓝 a0] fun _ => 0 := by
      have hcont : Tendsto (fun a => (y a, a)) (𝓝 a0) (𝓝 (minimum, a0)) := by
        have := hy.1.tendsto
        rw [hy.2.1] at this
        exact this.prodMk_nhds tendsto_id
      filter_upwards [hy.2.2, hcont.eventually (hfn.eventually (by simp))] with a ha hca
      have hda : DifferentiableAt ℝ F (y a, a) := hca.differentiableAt (by norm_num)
      rw [partial_first fn _ _ hda, ha.fderiv_eq_zero]
      simp
    have h7 := (h4.congr_of_eventuallyEq h6.symm).unique (hasFDerivAt_const (0 : ℝ) a0)
    have h8 := congrArg (fun L => L t) h7
    simpa [hP] using h8
  obtain ⟨K, hK0, δ₂, hδ₂, hK⟩ := flat_quadratic G minimum hGc hG0
  -- the part with the error of the tangent
  obtain ⟨K', s, hs, hK'⟩ := (hcy.of_le (by norm_num : (1 : WithTop ℕ∞) ≤ 2)).exists_lipschitzOnWith
  obtain ⟨δ₃, hδ₃, hball⟩ := Metric.nhds_basis_closedBall.mem_iff.1 hs
  refine ⟨K + K' * |C|, min δ₁ (min δ₂ δ₃), lt_min hδ₁ (lt_min hδ₂ hδ₃), ?_⟩
  intro solve η hη hsolve primal inputs hin hval t
  set x := (primal inputs).1 with hx
  set e := ‖x - minimum‖ with he
  have he0 : 0 ≤ e := norm_nonneg _
  have hτ := hC solve η hη hsolve primal inputs hin (hval.trans (min_le_left _ _)) t
  rw [← hx] at hτ
  set τ := (implicitJvp solve primal (rewriteMinimise fn) inputs t).2.1 with hτd
  set w : κ → ℝ := fun k => (t (.inl k)).getD 0 with hw
  have hg := hK x (hval.trans ((min_le_right _ _).trans (min_le_left _ _)))
  have hl := hK'.dist_le_mul x (hball (by
    rw [Metric.mem_closedBall, dist_eq_norm]
    exact hval.trans ((min_le_right _ _).trans (min_le_right _ _)))) minimum (hball (Metric.mem_closedBall_self hδ₃.le))
  rw [dist_eq_norm, dist_eq_norm] at hl
  have hsplit : objectiveTangent solve primal fn inputs t - fderiv ℝ (fun a => fn minimum a) a0 w =
      (G x - G minimum) w + (fderiv ℝ F (x, a0) - fderiv ℝ F (minimum, a0)) (τ - D w, 0) := by
    have h9 : fderiv ℝ F (minimum, a0) (τ - D w, 0) = 0 := by
      rw [partial_first fn _ _ hdF, h0.fderiv_eq_zero]
      simp
    have h10 : fderiv ℝ F (x, a0) (τ, w) = G x w + fderiv ℝ F (x, a0) (τ - D w, 0) := by
      show _ = fderiv ℝ F (x, a0) (D w, w) + _
      rw [← map_add]
      congr 1
      simp
    have h11 : objectiveTangent solve primal fn inputs t = fderiv ℝ F (x, a0) (τ, w) := by
      rw [objectiveTangent, hin]
    rw [h11, h10, ← hGm]
    simp only [sub_apply, h9]
    ring
  rw [hsplit]
  have hb1 : |(G x - G minimum) w| ≤ K * e ^ 2 * ‖w‖ :=
    ((G x - G minimum).le_opNorm w).trans (mul_le_mul_of_nonneg_right hg (norm_nonneg _))
  have hb2 : |(fderiv ℝ F (x, a0) - fderiv ℝ F (minimum, a0)) (τ - D w, 0)| ≤ K' * e * (|C| * (e + η) * ‖w‖) := by
    refine ((fderiv ℝ F (x, a0) - fderiv ℝ F (minimum, a0)).le_opNorm _).trans (mul_le_mul hl ?_ (norm_nonneg _) (by positivity))
    rw [Prod.norm_mk, norm_zero, max_eq_left (norm_nonneg _)]
    refine hτ.trans (mul_le_mul_of_nonneg_right ?_ (norm_nonneg _))
    exact mul_le_mul_of_nonneg_right (le_abs_self C) (by positivity)
  refine (abs_add_le _ _).trans ((add_le_add hb1 hb2).trans ?_)
  have hw0 := norm_nonneg w
  have : K * e ^ 2 * ‖w‖ ≤ K * (e * (e + η)) * ‖w‖ := by
    refine mul_le_mul_of_nonneg_right (mul_le_mul_of_nonneg_left ?_ hK0) hw0
    nlinarith
  calc K * e ^ 2 * ‖w‖ + K' * e * (|C| * (e + η) * ‖w‖) ≤ K * (e * (e + η)) * ‖w‖ + K' * e * (|C| * (e + η) * ‖w‖) := by linarith
    _ = _ := by ring

/-- The same for `least_squares`: the tangent of half the sum of squares at `sol.value`, for `sol = least_squares(fn, solver, y0, args)`. -/
noncomputable def sumSquaresTangent (solve : Solve ι ι) (primal : Inputs κ μ → (ι → ℝ) × R) (fn : (ι → ℝ) → (κ → ℝ) → (ο → ℝ)) (inputs : Inputs κ μ)
    (t : κ ⊕ μ → Option ℝ) : ℝ :=
  fderiv ℝ (fun p : (ι → ℝ) × (κ → ℝ) => 0.5 * ∑ j, fn p.1 p.2 j * fn p.1 p.2 j) ((primal inputs).1, fun k => inputs (.inl k))
    ((implicitJvp solve primal (rewriteLeastSquares fn) inputs t).2.1, fun k => (t (.inl k)).getD 0)

/-- **C146**, `least_squares`. -/
theorem C146_least_squares (a0 : κ → ℝ) (optimum : ι → ℝ) (fn : (ι → ℝ) → (κ → ℝ) → (ο → ℝ))
    (hfn : ContDiffAt ℝ 3 (fun p : (ι → ℝ) × (κ → ℝ) => fn p.1 p.2) (optimum, a0))
    (hinv : (fderiv ℝ (grad fun x => 0.5 * ∑ j, fn x a0 j * fn x a0 j) optimum).IsInvertible)
    (y : (κ → ℝ) → (ι → ℝ)) (hy : IsBranch (fun a z => IsLocalMin (fun x => 0.5 * ∑ j, fn x a j * fn x a j) z) y a0 optimum) :
    ∃ E : (κ → ℝ) →L[ℝ] ℝ, HasFDerivAt (fun a => 0.5 * ∑ j, fn (y a) a j * fn (y a) a j) E a0 ∧
      ∃ C, ∃ δ > 0, ∀ (solve : Solve ι ι) (η : ℝ), 0 ≤ η → Approximate solve η →
      ∀ (primal : Inputs κ μ → (ι → ℝ) × R) (inputs : Inputs κ μ), (fun k => inputs (.inl k)) = a0 → ‖(primal inputs).1 - optimum‖ ≤ δ →
        ∀ t : κ ⊕ μ → Option ℝ, |sumSquaresTangent solve primal fn inputs t - E fun k => (t (.inl k)).getD 0| ≤
          C * (‖(primal inputs).1 - optimum‖ * (‖(primal inputs).1 - optimum‖ + η)) * ‖fun k => (t (.inl k)).getD 0‖ := by
  have hcd : ContDiffAt ℝ 3 (fun p : (ι → ℝ) × (κ → ℝ) => (0.5 : ℝ) * ∑ j, fn p.1 p.2 j * fn p.1 p.2 j) (optimum, a0) := by
    refine contDiffAt_const.mul (ContDiffAt.sum fun j _ => ?_)
    have := contDiffAt_pi.1 hfn j
    exact this.mul this
  exact C146_second_order (R := R) (μ := μ) a0 optimum (fun x a => (0.5 : ℝ) * ∑ j, fn x a j * fn x a j) hcd hinv y hy

/-- **C146**, strongly convex objectives: every solver whose successes certify that the gradient is small (C134) gives the derivative of the optimal
value with an error of the order of the square of the tolerance. -/
theorem C146_certified (fn : (ι → ℝ) → (κ → ℝ) → ℝ) (hfn : ContDiff ℝ 3 fun q : (ι → ℝ) × (κ → ℝ) => fn q.1 q.2) (ν : ℝ)
    (hconv : ∀ a, StronglyConvex (fun y => fn y a) (grad fun x => fn x a) ν)
    (p : (κ → ℝ) → (ι → ℝ)) (hp : ∀ a i, grad (fun x => fn x a) (p a) i = 0) (a0 : κ → ℝ) (K T : ℝ) (hK : 0 ≤ K) (hT : 0 ≤ T) :
    ∃ E : (κ → ℝ) →L[ℝ] ℝ, HasFDerivAt (fun a => fn (p a) a) E a0 ∧ ∃ C, ∃ ε > 0, ∀ tol value, 0 ≤ tol → tol ≤ ε →
      NearlySolves (grad fun x => fn x a0) (K * tol) (T * tol) value → ∀ (solve : Solve ι ι) (η : ℝ), 0 ≤ η → Approximate solve η →
      ∀ (primal : Inputs κ μ → (ι → ℝ) × R) (inputs : Inputs κ μ), (fun k => inputs (.inl k)) = a0 → (primal inputs).1 = value →
        ∀ t : κ ⊕ μ → Option ℝ, |objectiveTangent solve primal fn inputs t - E fun k => (t (.inl k)).getD 0| ≤
          C * (tol * (tol + η)) * ‖fun k => (t (.inl k)).getD 0‖ := by
  set G : (ι → ℝ) → (κ → ℝ) → (ι → ℝ) := fun y a => grad (fun x => fn x a) y with hGd
  have hG : ContDiff ℝ 2 fun q : (ι → ℝ) × (κ → ℝ) => G q.1 q.2 :=
    contDiff_iff_contDiffAt.2 fun q => grad_contDiffAt_nat fn q.1 q.2 (n := 2) hfn.contDiffAt
  have hs : ∀ a, Steep (fun y => G y a) ν := fun a => C134_convex_steep _ _ ν (hconv a)
  have hν : 0 < ν := (hs a0).1
  have hν' : 0 < ν / (Fintype.card ι + 1) := by positivity
  have hexp : ∀ a x y, ν / (Fintype.card ι + 1) * ‖x - y‖ ≤ ‖G x a - G y a‖ := fun a => steep_expands _ ν (hs a)
  have hbr : IsBranch (fun a z => IsLocalMin (fun x => fn x a) z) p a0 (p a0) := by
    obtain ⟨h1, h2, -⟩ := expanding_branch G hG.continuous _ hν' hexp p (fun a => funext (hp a)) a0
    refine ⟨h1, h2, .of_forall fun a => .of_forall fun y => ?_⟩
    have := (hconv a).2 (p a) y
    simp only [hp, zero_mul, Finset.sum_const_zero, add_zero] at this
    have h0 : 0 ≤ ∑ i, (y i - p a i) ^ 2 := Finset.sum_nonneg fun i _ => sq_nonneg _
    show fn (p a) a ≤ fn y a
    nlinarith
  have hinv : (fderiv ℝ (grad fun x => fn x a0) (p a0)).IsInvertible := by
    refine expanding_invertible _ _ hν' _ ?_ (hexp a0)
    have h1 : DifferentiableAt ℝ (fun q : (ι → ℝ) × (κ → ℝ) => G q.1 q.2) (p a0, a0) := hG.differentiable (by norm_num) _
    exact h1.comp (p a0) (by fun_prop : DifferentiableAt ℝ (fun y : ι → ℝ => (y, a0)) (p a0))
  obtain ⟨E, hE, C, δ, hδ, hC⟩ := C146_second_order (R := R) (μ := μ) a0 (p a0) fn hfn.contDiffAt hinv p hbr
  set c := K / ν + T with hc
  have hc0 : 0 ≤ c := by positivity
  refine ⟨E, hE, |C| * (c * (c + 1)), δ / (c + 1), by positivity, fun tol value h0 htol hv solve η hη hsolve primal inputs hin hval t => ?_⟩
  have hdist : ‖value - p a0‖ ≤ c * tol := by
    have h1 := C134_near_solution _ ν _ _ (hs a0) value (p a0) hv fun k => hp a0 k
    refine (norm_le_euclid (value - p a0)).trans (h1.trans (le_of_eq ?_))
    rw [hc]; ring
  have hct : c * tol ≤ δ := by
    rw [le_div_iff₀ (by positivity)] at htol
    nlinarith
  have h1 := hC solve η hη hsolve primal inputs hin (by rw [hval]; exact hdist.trans hct) t
  rw [hval] at h1
  refine h1.trans (mul_le_mul_of_nonneg_right ?_ (norm_nonneg _))
  have h2 : ‖value - p a0‖ * (‖value - p a0‖ + η) ≤ c * (c + 1) * (tol * (tol + η)) := by
    have h3 : ‖value - p a0‖ + η ≤ (c + 1) * (tol + η) := by nlinarith [mul_nonneg hc0 hη]
    calc ‖value - p a0‖ * (‖value - p a0‖ + η) ≤ (c * tol) * ((c + 1) * (tol + η)) :=
          mul_le_mul hdist h3 (by positivity) (by positivity)
      _ = _ := by ring
  calc C * (‖value - p a0‖ * (‖value - p a0‖ + η)) ≤ |C| * (‖value - p a0‖ * (‖value - p a0‖ + η)) :=
        mul_le_mul_of_nonneg_right (le_abs_self C) (by positivity)
    _ ≤ |C| * (c * (c + 1) * (tol * (tol + η))) := mul_le_mul_of_nonneg_left h2 (abs_nonneg C)
    _ = _ := by ring

/-- **C146**, end to end: `minimise` with steepest descent and backtracking. -/
theorem C146_backtracking (fn : (ι → ℝ) → (κ → ℝ) → ℝ) (hfn : ContDiff ℝ 3 fun q : (ι → ℝ) × (κ → ℝ) => fn q.1 q.2) (ν : ℝ)
    (hconv : ∀ a, StronglyConvex (fun y => fn y a) (grad fun x => fn x a) ν)
    (p : (κ → ℝ) → (ι → ℝ)) (hp : ∀ a i, grad (fun x => fn x a) (p a) i = 0) (a0 : κ → ℝ) (L : ℝ) (hL0 : 0 < L)
    (hL : LipschitzGradient (fun y => fn y a0) (grad fun x => fn x a0) L) (d s i : ℝ) (a : Armijo.Cfg ℝ) (ha : Armijo.new d s i = .ok a) :
    ∃ E : (κ → ℝ) →L[ℝ] ℝ, HasFDerivAt (fun a => fn (p a) a) E a0 ∧ ∃ C, ∃ ε > 0,
      ∀ (rtol atol : ℝ) (_ : 0 < atol) (_ : 0 ≤ rtol) (nY : (ι → ℝ) → ℝ)
      (_ : ∀ (x : ι → ℝ) i, |x i| ≤ nY x) (nF : (Unit → ℝ) → ℝ) (aux : (ι → ℝ) → A) (aux0 : A) (y0 : ι → ℝ) (ms : Option ℕ) (throw : Bool)
      (sol : Solution (ι → ℝ) A (GradientDescent.State ι A ℝ (ι → ℝ)) Unit)
      (_ : iterativeSolve (GradientDescent.solver (backtrackingDescent a rtol atol nY nF (grad fun x => fn x a0)) aux0) (fun _ => true)
        (fun y => (fn y a0, aux y)) aux0 y0 ms throw = some (.ok sol)) (_ : sol.result = .successful) (_ : atol + rtol * ‖sol.value‖ ≤ ε)
      (solve : Solve ι ι) (η : ℝ), 0 ≤ η → Approximate solve η →
      ∀ (primal : Inputs κ μ → (ι → ℝ) × R) (inputs : Inputs κ μ), (fun k => inputs (.inl k)) = a0 → (primal inputs).1 = sol.value →
        ∀ t : κ ⊕ μ → Option ℝ, |objectiveTangent solve primal fn inputs t - E fun k => (t (.inl k)).getD 0| ≤
          C * ((atol + rtol * ‖sol.value‖) * ((atol + rtol * ‖sol.value‖) + η)) * ‖fun k => (t (.inl k)).getD 0‖ := by
  have hm : 0 < smallestStep a L := by
    obtain ⟨rfl, hd0, hd1, hs0, hs1, hi0⟩ := armijo_new d s i a ha
    exact lt_min hi0 (mul_pos hd0 (div_pos (mul_pos two_pos (by show (0 : ℝ) < 1 - s; linarith)) hL0))
  obtain ⟨E, hE, C, ε, hε, h⟩ := C146_certified (μ := μ) (R := R) fn hfn ν hconv p hp a0
    ((1 / smallestStep a L + L) * Real.sqrt (Fintype.card ι)) 0 (by positivity) le_rfl
  refine ⟨E, hE, C, ε, hε, fun rtol atol hat hr nY hN nF aux aux0 y0 ms throw sol h1 h2 hle => ?_⟩
  refine h _ _ (by positivity) hle ?_
  rw [zero_mul, mul_assoc]
  exact C134_backtracking rtol atol hat hr nY hN _ (by positivity) nF d s i a ha L hL0 _ aux0 _ y0 hL _ ms throw sol h1 h2
    (tolerance_entries rtol atol hr sol.value)

/-- Concrete case: `(y - a)² + a²` has its minimum `a²` at `y = a`.  Differentiating the value at an answer that is off by `ε` gives `2 a` up to a
multiple of `ε²`. -/
example (a : ℝ) (solve : Solve Unit Unit) (hs : Exact solve) : ∃ C, ∃ δ > 0, ∀ ε, |ε| ≤ δ →
    |objectiveTangent solve (fun _ : Inputs Unit Empty => ((fun _ => a + ε : Unit → ℝ), ())) (fun y b => (y () - b ()) ^ 2 + b () ^ 2)
      (fun _ => a) (fun _ => some 1) - 2 * a| ≤ C * ε ^ 2 := by
  have hgrad : grad (fun x : Unit → ℝ => (x () - a) ^ 2 + a ^ 2) = fun x _ => 2 * (x () - a) := by
    funext x i
    have h1 : HasFDerivAt (fun z : Unit → ℝ => z ()) (ContinuousLinearMap.proj (R := ℝ) (φ := fun _ : Unit => ℝ) ()) x :=
      (ContinuousLinearMap.proj (R := ℝ) (φ := fun _ : Unit => ℝ) ()).hasFDerivAt
    have h2 := ((h1.sub_const a).pow 2).add_const (a ^ 2)
    rw [grad, h2.fderiv]
    simp
  obtain ⟨E, hE, C, δ, hδ, hC⟩ := C146_second_order (R := Unit) (μ := Empty) (fun _ : Unit => a) (fun _ : Unit => a)
    (fun y b => (y () - b ()) ^ 2 + b () ^ 2) (by fun_prop)
    (by
      rw [hgrad]
      have h1 : HasFDerivAt (fun (x : Unit → ℝ) (_ : Unit) => 2 * (x () - a)) ((2 : ℝ) • ContinuousLinearMap.id ℝ (Unit → ℝ)) fun _ => a := by
        refine (hasFDerivAt_pi' (𝕜 := ℝ) (F' := fun _ : Unit => ℝ)).2 fun u => ?_
        have h1 : HasFDerivAt (fun z : Unit → ℝ => z ()) (ContinuousLinearMap.proj (R := ℝ) (φ := fun _ : Unit => ℝ) ()) (fun _ => a) :=
          (ContinuousLinearMap.proj (R := ℝ) (φ := fun _ : Unit => ℝ) ()).hasFDerivAt
        refine ((h1.sub_const a).const_mul 2).congr_fderiv ?_
        ext; simp
      rw [h1.fderiv]
      exact ⟨ContinuousLinearEquiv.smulLeft (Units.mk0 (2 : ℝ) two_ne_zero), by ext; rfl⟩)
    (fun b => b) ⟨continuousAt_id, rfl, .of_forall fun b => .of_forall fun x => by
      show (b () - b ()) ^ 2 + b () ^ 2 ≤ (x () - b ()) ^ 2 + b () ^ 2
      nlinarith [sq_nonneg (x () - b ())]⟩
  have hE1 : E (fun _ => 1) = 2 * a := by
    have h1 : HasFDerivAt (fun z : Unit → ℝ => z ()) (ContinuousLinearMap.proj (R := ℝ) (φ := fun _ : Unit => ℝ) ()) (fun _ => a) :=
      (ContinuousLinearMap.proj (R := ℝ) (φ := fun _ : Unit => ℝ) ()).hasFDerivAt
    have h2 := h1.pow 2
    have e : (fun b : Unit → ℝ => (b () - b ()) ^ 2 + b () ^ 2) = fun b => b () ^ 2 := by funext b; ring
    rw [e] at hE
    rw [hE.unique h2]
    simp
  refine ⟨C, δ, hδ, fun ε hε => ?_⟩
  have hn : ‖(fun _ : Unit => a + ε) - fun _ : Unit => a‖ = |ε| := by
    rw [show ((fun _ : Unit => a + ε) - fun _ : Unit => a) = fun _ => ε from funext fun _ => by simp]
    exact pi_norm_const ε
  have h1 := hC solve 0 le_rfl ((approximate_zero solve).2 hs) (fun _ => ((fun _ => a + ε : Unit → ℝ), ())) (fun _ => a) rfl
    (by rw [hn]; exact hε) (fun _ => some 1)
  rw [hn, add_zero, abs_mul_abs_self] at h1
  have h2 : ‖fun k : Unit => ((fun _ => some 1 : Unit ⊕ Empty → Option ℝ) (.inl k)).getD 0‖ = 1 := by
    rw [show (fun k : Unit => ((fun _ => some 1 : Unit ⊕ Empty → Option ℝ) (.inl k)).getD 0) = fun _ => (1 : ℝ) from rfl, pi_norm_const]
    simp
  rw [h2, mul_one, ← pow_two] at h1
  rw [← hE1]
  exact h1

end Verif.Props
