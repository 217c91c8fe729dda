import Verif.Model.Unrolled
import Verif.Lemmas.Unrolled
import Verif.Props.Ad
import Verif.Props.FixedPoint
import Verif.Props.NewtonLocal
import Mathlib.Analysis.Normed.Ring.Units
import Mathlib.Analysis.Calculus.ContDiff.Operations

/-!
C73: differentiating through the iterates (`RecursiveCheckpointAdjoint`) gives, for long enough solves, the derivative of the
solution, that is, what `ImplicitAdjoint` gives.
-/

namespace Verif.Props

open Verif Verif.Ad Verif.Driver Verif.Spec Filter Topology

variable {ι κ A : Type} [Fintype ι] [Fintype κ]

theorem valueAfter_eq {Y Out St Stats : Type} (S : Solver Y Out A St Stats) (af : Y → Bool) (fn : Y → Out × A) (aux0 : A) (y0 : Y)
    (st0 : St) (hi : S.init fn y0 = .ok st0) (hp : ∀ y aux st r, (S.postprocess fn y aux st r).1 = y) (n : Nat) :
    Unrolled.valueAfter S af fn aux0 y0 n = iterateAt S fn aux0 y0 st0 n := by
  unfold Unrolled.valueAfter
  rw [hi]
  simp only
  rw [body_iterate]
  exact hp _ _ _ _

/-- An operator of norm less than one can be subtracted from the identity. -/
theorem sub_id_invertible (M : Op ι) (h : ‖M‖ < 1) : (M - ContinuousLinearMap.id ℝ (ι → ℝ)).IsInvertible := by
  have hu : IsUnit ((1 : Op ι) - M) := ⟨Units.oneSub M h, rfl⟩
  obtain ⟨u, hu'⟩ : IsUnit (M - (1 : Op ι)) := by rw [← neg_sub]; exact hu.neg
  exact .of_inverse (g := ((u⁻¹ : (Op ι)ˣ) : Op ι)) (by
    show (M - (1 : Op ι)) * _ = 1
    rw [← hu']; exact u.mul_inv) (by
    show _ * (M - (1 : Op ι)) = 1
    rw [← hu']; exact u.inv_mul)

/-- From convergence of the derivatives of the iterates to what a user sees. -/
theorem tangent_close {Out St Stats : Type} (Y : ℕ → (κ → ℝ) → (ι → ℝ)) (a0 : κ → ℝ) (D : (κ → ℝ) →L[ℝ] (ι → ℝ))
    (h : Tendsto (fun n => fderiv ℝ (Y n) a0) atTop (𝓝 D)) (ε : ℝ) (hε : 0 < ε) :
    ∃ N, ∀ (S : (κ → ℝ) → Solver (ι → ℝ) Out A St Stats) (af : (ι → ℝ) → Bool) (fn : (κ → ℝ) → (ι → ℝ) → Out × A) (aux0 : A)
      (y0 : (κ → ℝ) → ι → ℝ), (∀ n, (fun θ => Unrolled.valueAfter (S θ) af (fn θ) aux0 (y0 θ) n) =ᶠ[𝓝 a0] Y n) →
      ∀ n, N ≤ n → ∀ t, ‖Unrolled.tangent S af fn aux0 y0 n a0 t - D t‖ ≤ ε * ‖t‖ := by
  obtain ⟨N, hN⟩ := Metric.tendsto_atTop.1 h ε hε
  refine ⟨N, fun S af fn aux0 y0 he n hn t => ?_⟩
  have h1 : Unrolled.tangent S af fn aux0 y0 n a0 t = fderiv ℝ (Y n) a0 t := by
    unfold Unrolled.tangent
    rw [(he n).fderiv_eq]
  rw [h1, ← _root_.sub_apply]
  refine (ContinuousLinearMap.le_opNorm _ _).trans (mul_le_mul_of_nonneg_right ?_ (norm_nonneg _))
  have := hN n hn
  rw [dist_eq_norm] at this
  exact this.le

/-- **C73**, `fixed_point` with `FixedPointIteration`.  Suppose that the function is continuously differentiable, that the
iterates converge to a fixed point at which it is contracting (in the maximum norm), and that `y` is a branch of fixed
points through it.  Then `y` has a derivative `D`, and differentiating through the iterates gives `D` up to any given
relative error if the solve takes enough steps; how many does not depend on tolerances, norm, budget or `aux`, and the
dependence on the starting point is forgotten. -/
theorem C73_fixed_point (damp : ℝ) (hd0 : 0 ≤ damp) (hd1 : damp < 1) (fn : (ι → ℝ) → (κ → ℝ) → (ι → ℝ) × A)
    (hfn : ContDiff ℝ 1 fun p : (ι → ℝ) × (κ → ℝ) => (fn p.1 p.2).1) (a0 : κ → ℝ) (point : ι → ℝ)
    (hq : ‖fderiv ℝ (fun y => (fn y a0).1) point‖ < 1) (y0 : (κ → ℝ) → (ι → ℝ)) (hy0 : DifferentiableAt ℝ y0 a0)
    (hlim : Tendsto (fun n => (dampedMap damp fun z => (fn z a0).1)^[n] (y0 a0)) atTop (𝓝 point))
    (y : (κ → ℝ) → (ι → ℝ)) (hy : IsBranch (fun a z => (fn z a).1 = z) y a0 point) :
    ∃ D : (κ → ℝ) →L[ℝ] (ι → ℝ), HasFDerivAt y D a0 ∧ ∀ ε > 0, ∃ N, ∀ (cfg : FixedPointIter.Cfg ι ℝ), cfg.damp = damp →
      ∀ af aux0 ms throw sol, iterativeSolve (FixedPointIter.solver cfg) af (fun y => fn y a0) aux0 (y0 a0) ms throw = some (.ok sol) →
        N ≤ sol.numSteps → ∀ t,
          ‖Unrolled.tangent (fun _ => FixedPointIter.solver cfg) af (fun θ y => fn y θ) aux0 y0 sol.numSteps a0 t - D t‖ ≤ ε * ‖t‖ := by
  set F : (ι → ℝ) × (κ → ℝ) → (ι → ℝ) := fun p => (fn p.1 p.2).1 with hF
  have hFd : HasFDerivAt F (fderiv ℝ F (point, a0)) (point, a0) := (hfn.differentiable one_ne_zero _).hasFDerivAt
  have hA : fderiv ℝ (fun y => (fn y a0).1) point = (fderiv ℝ F (point, a0)).comp (.inl ℝ (ι → ℝ) (κ → ℝ)) :=
    (HasFDerivAt.comp (g := F) (f := fun y => (y, a0)) point hFd (hasFDerivAt_prodMk_left point a0)).fderiv
  obtain ⟨solve, hs⟩ := exact_exists (ι := ι) (ο := ι)
  obtain ⟨D, hD, -⟩ := C12_fixed_point (μ := Empty) (R := Unit) solve hs (fun _ => (point, ())) (Sum.elim a0 Empty.elim) a0 rfl point
    rfl (fun y a => (fn y a).1) hfn.contDiffAt (sub_id_invertible _ hq) y hy
  refine ⟨D, hD, ?_⟩
  set G : (ι → ℝ) × (κ → ℝ) → (ι → ℝ) := fun p => (1 - damp) • F p + damp • p.1 with hG
  have hGc : ContDiff ℝ 1 G := (hfn.const_smul _).add (contDiff_fst.const_smul _)
  have hGd : HasFDerivAt G ((1 - damp) • fderiv ℝ F (point, a0) + damp • .fst ℝ (ι → ℝ) (κ → ℝ)) (point, a0) :=
    (hFd.const_smul (1 - damp)).add (hasFDerivAt_fst.const_smul damp)
  have hfix : F (point, a0) = point := by
    have := hy.2.2.self_of_nhds
    rwa [hy.2.1] at this
  have hDF : D = (fderiv ℝ F (point, a0)).comp (D.prod (.id ℝ (κ → ℝ))) := by
    have h1 : HasFDerivAt (fun θ => F (y θ, θ)) ((fderiv ℝ F (point, a0)).comp (D.prod (.id ℝ (κ → ℝ)))) a0 := by
      refine HasFDerivAt.comp (g := F) (f := fun θ => (y θ, θ)) a0 ?_ (hD.prodMk (hasFDerivAt_id a0))
      rw [hy.2.1]; exact hFd
    have h2 : HasFDerivAt (fun θ => F (y θ, θ)) D a0 := hD.congr_of_eventuallyEq hy.2.2
    exact h2.unique h1
  obtain ⟨-, ht⟩ := Lemmas.unrolled_tendsto G (fun n θ => (dampedMap damp fun z => (fn z θ).1)^[n] (y0 θ)) a0 point hy0
    (fun n => Eventually.of_forall fun θ => by
      simp only [Function.iterate_succ_apply']
      rfl) (fun n => hGc.differentiable one_ne_zero _) (hGc.continuous_fderiv one_ne_zero).continuousAt hlim (by
      rw [hGd.fderiv]
      have e : ((1 - damp) • fderiv ℝ F (point, a0) + damp • ContinuousLinearMap.fst ℝ (ι → ℝ) (κ → ℝ)).comp
          (.inl ℝ (ι → ℝ) (κ → ℝ)) = (1 - damp) • (fderiv ℝ F (point, a0)).comp (.inl ℝ (ι → ℝ) (κ → ℝ)) + damp • (1 : Op ι) := by
        ext; simp
      rw [e, ← hA]
      refine (norm_add_le _ _).trans_lt ?_
      rw [norm_smul, norm_smul, Real.norm_eq_abs, Real.norm_eq_abs, abs_of_nonneg hd0, abs_of_pos (sub_pos.2 hd1)]
      have h1 : ‖(1 : Op ι)‖ ≤ 1 := ContinuousLinearMap.norm_id_le
      have h2 := mul_lt_mul_of_pos_left hq (sub_pos.2 hd1)
      have h3 := mul_le_mul_of_nonneg_left h1 hd0
      linarith) D (by
      rw [hGd.fderiv]
      have e : ((1 - damp) • fderiv ℝ F (point, a0) + damp • ContinuousLinearMap.fst ℝ (ι → ℝ) (κ → ℝ)).comp
          (D.prod (.id ℝ (κ → ℝ))) = (1 - damp) • (fderiv ℝ F (point, a0)).comp (D.prod (.id ℝ (κ → ℝ))) + damp • D := by
        ext; simp
      rw [e, ← hDF, ← add_smul]
      simp)
  intro ε hε
  obtain ⟨N, hN⟩ := tangent_close (A := A) (Out := ι → ℝ) (St := Option ℝ) (Stats := Unit) _ a0 D ht ε hε
  refine ⟨N, fun cfg hc af aux0 ms throw sol _ hn t => ?_⟩
  refine hN _ af (fun θ y => fn y θ) aux0 y0 (fun n => Eventually.of_forall fun θ => ?_) _ hn t
  show Unrolled.valueAfter (FixedPointIter.solver cfg) af (fun y => fn y θ) aux0 (y0 θ) n = _
  rw [valueAfter_eq _ _ _ _ _ none rfl (fun _ _ _ _ => rfl), fp_iterate_eq, hc]

/-- The Jacobian in the first argument. -/
noncomputable def jacAt (F : (ι → ℝ) × (κ → ℝ) → (ι → ℝ)) (p : (ι → ℝ) × (κ → ℝ)) : Op ι := fderiv ℝ (fun z => F (z, p.2)) p.1

/-- Newton's iteration, for the root of `F (·, θ)`. -/
noncomputable def newtonIterates (F : (ι → ℝ) × (κ → ℝ) → (ι → ℝ)) (y0 : (κ → ℝ) → (ι → ℝ)) : ℕ → (κ → ℝ) → (ι → ℝ)
  | 0, θ => y0 θ
  | n + 1, θ => newtonIterates F y0 n θ - (jacAt F (newtonIterates F y0 n θ, θ)).inverse (F (newtonIterates F y0 n θ, θ))

/-- **C73**, `root_find` with `Newton` (no bounds).  Suppose that the function is twice continuously differentiable, that
Newton's iteration from `y0` meets invertible Jacobians only and converges to a nondegenerate root, and that `y` is a branch of
roots through it.  Then `y` has a derivative `D`, and differentiating through the iterates gives `D` up to any given
relative error if the solve takes enough steps. -/
theorem C73_newton (fn : (ι → ℝ) → (κ → ℝ) → (ι → ℝ) × A)
    (hfn : ContDiff ℝ 2 fun p : (ι → ℝ) × (κ → ℝ) => (fn p.1 p.2).1) (a0 : κ → ℝ) (root : ι → ℝ)
    (hinv : (fderiv ℝ (fun y => (fn y a0).1) root).IsInvertible) (y0 : (κ → ℝ) → (ι → ℝ)) (hy0 : DifferentiableAt ℝ y0 a0)
    (hdef : ∀ n, (fderiv ℝ (fun y => (fn y a0).1) (newtonIterates (fun p => (fn p.1 p.2).1) y0 n a0)).IsInvertible)
    (hlim : Tendsto (fun n => newtonIterates (fun p => (fn p.1 p.2).1) y0 n a0) atTop (𝓝 root))
    (y : (κ → ℝ) → (ι → ℝ)) (hy : IsBranch (fun a z => (fn z a).1 = 0) y a0 root) :
    ∃ D : (κ → ℝ) →L[ℝ] (ι → ℝ), HasFDerivAt y D a0 ∧ ∀ ε > 0, ∃ N, ∀ (cfg : (κ → ℝ) → NewtonChord.Cfg ι ι ℝ (Op ι)),
      (∀ θ, (cfg θ).isNewton = true ∧ (cfg θ).lower = none ∧ (cfg θ).upper = none ∧ SolvesInvertible (cfg θ).linearSolve ∧
        ∀ z, (cfg θ).jac z = fderiv ℝ (fun z => (fn z θ).1) z) →
      ∀ af aux0 ms throw sol, iterativeSolve (NewtonChord.solver (cfg a0)) af (fun y => fn y a0) aux0 (y0 a0) ms throw = some (.ok sol) →
        N ≤ sol.numSteps → ∀ t,
          ‖Unrolled.tangent (fun θ => NewtonChord.solver (cfg θ)) af (fun θ y => fn y θ) aux0 y0 sol.numSteps a0 t - D t‖ ≤ ε * ‖t‖ := by
  set F : (ι → ℝ) × (κ → ℝ) → (ι → ℝ) := fun p => (fn p.1 p.2).1 with hF
  have hFdiff : Differentiable ℝ F := hfn.differentiable two_ne_zero
  have hJeq : ∀ p, jacAt F p = (fderiv ℝ F p).comp (.inl ℝ (ι → ℝ) (κ → ℝ)) := fun p =>
    (HasFDerivAt.comp (g := F) (f := fun y => (y, p.2)) p.1 (hFdiff (p.1, p.2)).hasFDerivAt (hasFDerivAt_prodMk_left p.1 p.2)).fderiv
  have hJc : ContDiff ℝ 1 (jacAt F) := by
    have h1 : ContDiff ℝ 1 (fderiv ℝ F) := hfn.fderiv_right (by norm_num)
    have : jacAt F = fun p => (fderiv ℝ F p).comp (.inl ℝ (ι → ℝ) (κ → ℝ)) := funext hJeq
    rw [this]
    exact h1.clm_comp contDiff_const
  set G : (ι → ℝ) × (κ → ℝ) → (ι → ℝ) := fun p => p.1 - (jacAt F p).inverse (F p) with hG
  have hIc : ∀ p, (jacAt F p).IsInvertible → ContDiffAt ℝ 1 (fun p => (jacAt F p).inverse) p := by
    rintro p ⟨e, he⟩
    have h1 : ContDiffAt ℝ 1 ContinuousLinearMap.inverse (jacAt F p) := by
      rw [← he]; exact contDiffAt_map_inverse e
    exact h1.comp p hJc.contDiffAt
  have hGc : ∀ p, (jacAt F p).IsInvertible → ContDiffAt ℝ 1 G p := fun p hp =>
    contDiffAt_fst.sub ((hIc p hp).clm_apply (hfn.contDiffAt.of_le (by norm_num)))
  have hopen : ∀ p, (jacAt F p).IsInvertible → ∀ᶠ q in 𝓝 p, (jacAt F q).IsInvertible := by
    rintro p ⟨e, he⟩
    have h1 : Set.range ((↑) : ((ι → ℝ) ≃L[ℝ] (ι → ℝ)) → Op ι) ∈ 𝓝 (jacAt F p) := by
      rw [← he]; exact e.nhds
    filter_upwards [hJc.continuous.continuousAt h1] with z hz
    obtain ⟨e', he'⟩ := hz
    exact ⟨e', he'⟩
  have hroot : F (root, a0) = 0 := by
    have := hy.2.2.self_of_nhds
    rwa [hy.2.1] at this
  obtain ⟨solve, hs⟩ := exact_exists (ι := ι) (ο := ι)
  obtain ⟨D, hD, -⟩ := C12_root_find_partial (μ := Empty) (R := Unit) solve hs (fun _ => (root, ())) (Sum.elim a0 Empty.elim) a0 rfl root
    rfl (fun y a => (fn y a).1) (hfn.contDiffAt.of_le (by norm_num)) hinv y hy
  refine ⟨D, hD, ?_⟩
  have hFd : HasFDerivAt F (fderiv ℝ F (root, a0)) (root, a0) := (hFdiff _).hasFDerivAt
  have hDF : (fderiv ℝ F (root, a0)).comp (D.prod (.id ℝ (κ → ℝ))) = 0 := by
    have h1 : HasFDerivAt (fun θ => F (y θ, θ)) ((fderiv ℝ F (root, a0)).comp (D.prod (.id ℝ (κ → ℝ)))) a0 := by
      refine HasFDerivAt.comp (g := F) (f := fun θ => (y θ, θ)) a0 ?_ (hD.prodMk (hasFDerivAt_id a0))
      rw [hy.2.1]; exact hFd
    have h2 : HasFDerivAt (fun θ => F (y θ, θ)) (0 : (κ → ℝ) →L[ℝ] (ι → ℝ)) a0 :=
      (hasFDerivAt_const (0 : ι → ℝ) a0).congr_of_eventuallyEq hy.2.2
    exact h1.unique h2
  have hGd : fderiv ℝ G (root, a0) = .fst ℝ (ι → ℝ) (κ → ℝ) - (jacAt F (root, a0)).inverse.comp (fderiv ℝ F (root, a0)) := by
    have h1 := ((hIc (root, a0) hinv).differentiableAt one_ne_zero).hasFDerivAt.clm_apply hFd
    have h2 := (hasFDerivAt_fst (𝕜 := ℝ) (p := (root, a0))).sub h1
    rw [hroot] at h2
    refine Eq.trans h2.fderiv ?_
    ext <;> simp
  have hinv' : (jacAt F (root, a0)).IsInvertible := hinv
  have hdef' : ∀ n, (jacAt F (newtonIterates F y0 n a0, a0)).IsInvertible := hdef
  obtain ⟨hdiff, ht⟩ := Lemmas.unrolled_tendsto G (newtonIterates F y0) a0 root hy0
    (fun n => Eventually.of_forall fun θ => rfl) (fun n => (hGc _ (hdef' n)).differentiableAt one_ne_zero)
    ((hGc (root, a0) hinv).fderiv_right (m := 0) (by norm_num)).continuousAt hlim (by
      have : (fderiv ℝ G (root, a0)).comp (.inl ℝ (ι → ℝ) (κ → ℝ)) = 0 := by
        rw [hGd, ContinuousLinearMap.sub_comp, ContinuousLinearMap.comp_assoc, ← hJeq,
          ContinuousLinearMap.IsInvertible.inverse_comp_self hinv']
        ext; simp
      rw [this]; simp) D (by
      rw [hGd, ContinuousLinearMap.sub_comp, ContinuousLinearMap.comp_assoc, hDF]
      ext; simp)
  intro ε hε
  obtain ⟨N, hN⟩ := tangent_close (A := A) (Out := ι → ℝ) (St := NewtonChord.State ι ι ℝ (Op ι)) (Stats := Unit) _ a0 D ht ε hε
  refine ⟨N, fun cfg hc af aux0 ms throw sol _ hn t => ?_⟩
  refine hN _ af (fun θ y => fn y θ) aux0 y0 (fun n => ?_) _ hn t
  have hev : ∀ n, ∀ᶠ θ in 𝓝 a0, iterateAt (NewtonChord.solver (cfg θ)) (fun y => fn y θ) aux0 (y0 θ) (NewtonChord.init (cfg θ) (y0 θ)) n =
      newtonIterates F y0 n θ := by
    intro n
    induction n with
    | zero => exact Eventually.of_forall fun θ => rfl
    | succ n ih =>
      have h1 : ContinuousAt (fun θ => (newtonIterates F y0 n θ, θ)) a0 := (hdiff n).continuousAt.prodMk continuousAt_id
      filter_upwards [ih, h1.eventually (hopen _ (hdef' n))] with θ hθ hi
      obtain ⟨c1, c2, c3, c4, c5⟩ := hc θ
      rw [newton_iterate, c2, c3]
      have e1 : jacPoint (cfg θ) (fun y => fn y θ) aux0 (y0 θ) n = newtonIterates F y0 n θ := by
        unfold jacPoint
        rw [c1, if_pos rfl, hθ]
      rw [e1, hθ, c5]
      have h2 := (c4 _ hi (F (newtonIterates F y0 n θ, θ))).1
      have h3 : ((cfg θ).linearSolve (jacAt F (newtonIterates F y0 n θ, θ)) (F (newtonIterates F y0 n θ, θ))).1 =
          (jacAt F (newtonIterates F y0 n θ, θ)).inverse (F (newtonIterates F y0 n θ, θ)) := by
        have := ContinuousLinearMap.IsInvertible.inverse_apply_self hi
          ((cfg θ).linearSolve (jacAt F (newtonIterates F y0 n θ, θ)) (F (newtonIterates F y0 n θ, θ))).1
        rw [h2] at this
        exact this.symm
      show (fun i => newtonIterates F y0 n θ i - ((cfg θ).linearSolve (jacAt F (newtonIterates F y0 n θ, θ))
        (F (newtonIterates F y0 n θ, θ))).1 i) = _
      rw [h3]
      rfl
  filter_upwards [hev n] with θ hθ
  rw [valueAfter_eq _ _ _ _ _ _ rfl (fun _ _ _ _ => rfl), hθ]

/-- Points that get closer to `r` by a fixed factor, as long as they are close, converge to `r`. -/
theorem closing_in (Z : ℕ → (ι → ℝ)) (r : ι → ℝ) (δ c : ℝ) (hc0 : 0 ≤ c) (hc1 : c < 1) (h0 : ‖Z 0 - r‖ ≤ δ)
    (hstep : ∀ n, ‖Z n - r‖ ≤ δ → ‖Z (n + 1) - r‖ ≤ c * ‖Z n - r‖) :
    (∀ n, ‖Z n - r‖ ≤ δ) ∧ Tendsto Z atTop (𝓝 r) := by
  have hall : ∀ n, ‖Z n - r‖ ≤ δ := by
    intro n
    induction n with
    | zero => exact h0
    | succ n ih => exact (hstep n ih).trans ((mul_le_of_le_one_left (norm_nonneg _) hc1.le).trans ih)
  refine ⟨hall, tendsto_iff_norm_sub_tendsto_zero.2 ?_⟩
  exact Lemmas.shrinking_tendsto _ (fun _ => c) (fun _ => 0) (fun _ => norm_nonneg _)
    (fun n => by rw [add_zero]; exact hstep n (hall n)) c hc1 tendsto_const_nhds tendsto_const_nhds

/-- The hypothesis of `C73_fixed_point` about the iterates holds from every starting point close to the fixed point. -/
theorem C73_fixed_point_nearby (damp : ℝ) (hd0 : 0 ≤ damp) (hd1 : damp < 1) (g : (ι → ℝ) → (ι → ℝ)) (point : ι → ℝ)
    (hg : DifferentiableAt ℝ g point) (hfix : g point = point) (hq : ‖fderiv ℝ g point‖ < 1) :
    ∃ δ > 0, ∀ y0, ‖y0 - point‖ ≤ δ → Tendsto (fun n => (dampedMap damp g)^[n] y0) atTop (𝓝 point) := by
  obtain ⟨q, hq1, hq2⟩ := exists_between hq
  have hq0 : 0 ≤ q := (norm_nonneg _).trans hq1.le
  have h1 : ∀ᶠ y in 𝓝 point, ‖g y - point‖ ≤ q * ‖y - point‖ := by
    have := hg.hasFDerivAt.isLittleO.def (sub_pos.2 hq1)
    filter_upwards [this] with y hy
    rw [hfix] at hy
    have h2 : g y - point = (g y - point - fderiv ℝ g point (y - point)) + fderiv ℝ g point (y - point) := by abel
    rw [h2]
    refine (norm_add_le _ _).trans ?_
    have := ContinuousLinearMap.le_opNorm (fderiv ℝ g point) (y - point)
    linarith
  obtain ⟨δ, hδ, hball⟩ := Metric.eventually_nhds_iff.1 h1
  refine ⟨δ / 2, by positivity, fun y0 hy0 => ?_⟩
  refine (closing_in (fun n => (dampedMap damp g)^[n] y0) point (δ / 2) ((1 - damp) * q + damp) ?_ ?_ hy0 fun n hn => ?_).2
  · have := mul_nonneg (sub_pos.2 hd1).le hq0
    linarith
  · have := mul_lt_mul_of_pos_left hq2 (sub_pos.2 hd1)
    linarith
  · simp only [Function.iterate_succ_apply']
    set z := (dampedMap damp g)^[n] y0
    have h3 := hball (y := z) (by rw [dist_eq_norm]; exact lt_of_le_of_lt hn (by linarith))
    have h4 : dampedMap damp g z - point = (1 - damp) • (g z - point) + damp • (z - point) := by
      funext i
      simp only [dampedMap, Pi.sub_apply, Pi.add_apply, Pi.smul_apply, smul_eq_mul]
      ring
    rw [h4]
    refine (norm_add_le _ _).trans ?_
    rw [norm_smul, norm_smul, Real.norm_eq_abs, Real.norm_eq_abs, abs_of_nonneg hd0, abs_of_pos (sub_pos.2 hd1)]
    have h5 := mul_le_mul_of_nonneg_left h3 (sub_pos.2 hd1).le
    linarith

/-- The hypotheses of `C73_newton` about the iterates hold from every starting point close to the root. -/
theorem C73_newton_nearby (F : (ι → ℝ) × (κ → ℝ) → (ι → ℝ)) (hF : ContDiff ℝ 2 F) (a0 : κ → ℝ) (root : ι → ℝ)
    (hroot : F (root, a0) = 0) (hinv : (fderiv ℝ (fun y => F (y, a0)) root).IsInvertible) :
    ∃ δ > 0, ∀ y0 : (κ → ℝ) → (ι → ℝ), ‖y0 a0 - root‖ ≤ δ →
      (∀ n, (fderiv ℝ (fun y => F (y, a0)) (newtonIterates F y0 n a0)).IsInvertible) ∧
      Tendsto (fun n => newtonIterates F y0 n a0) atTop (𝓝 root) := by
  have hc : ContDiffAt ℝ 1 (fun y => F (y, a0)) root :=
    ((hF.of_le (by norm_num)).comp (contDiff_id.prodMk contDiff_const)).contDiffAt
  obtain ⟨δ, hδ, hcon⟩ := newton_contracts (fun y => F (y, a0)) root hroot hc hinv (1 / 2) (by norm_num)
  refine ⟨δ, hδ, fun y0 hy0 => ?_⟩
  obtain ⟨h1, h2⟩ := closing_in (fun n => newtonIterates F y0 n a0) root δ (1 / 2) (by norm_num) (by norm_num) hy0 fun n hn => by
    obtain ⟨i1, i2⟩ := hcon _ _ hn hn
    exact i2 _ (ContinuousLinearMap.IsInvertible.self_apply_inverse i1 _)
  exact ⟨fun n => (hcon _ _ (h1 n) (h1 n)).1, h2⟩

/-- `C73_fixed_point` on the map `y ↦ θ y + 1` at `θ = 1/2`, started at zero: the fixed point is `1 / (1 - θ)`. -/
example : ∃ D : (Unit → ℝ) →L[ℝ] (Unit → ℝ), HasFDerivAt (fun (θ : Unit → ℝ) (_ : Unit) => 1 / (1 - θ ())) D (fun _ => 1 / 2) ∧
    ∀ ε > 0, ∃ N, ∀ (cfg : FixedPointIter.Cfg Unit ℝ), cfg.damp = 0 →
      ∀ af aux0 ms throw sol, iterativeSolve (FixedPointIter.solver cfg) af (fun y => (fun _ => 1 / 2 * y () + 1, ())) aux0 (fun _ => 0) ms
          throw = some (.ok sol) → N ≤ sol.numSteps → ∀ t,
          ‖Unrolled.tangent (fun _ => FixedPointIter.solver cfg) af (fun (θ : Unit → ℝ) y => (fun _ => θ () * y () + 1, ())) aux0
            (fun _ _ => 0) sol.numSteps (fun _ => 1 / 2) t - D t‖ ≤ ε * ‖t‖ := by
  have hfd : HasFDerivAt (fun y : Unit → ℝ => fun _ : Unit => 1 / 2 * y () + 1) ((1 / 2 : ℝ) • (1 : Op Unit)) (fun _ => 2) := by
    refine hasFDerivAt_pi'.2 fun i => ?_
    have h1 : HasFDerivAt (fun y : Unit → ℝ => y ()) (ContinuousLinearMap.proj (R := ℝ) (φ := fun _ : Unit => ℝ) ()) (fun _ => 2) :=
      (ContinuousLinearMap.proj (R := ℝ) (φ := fun _ : Unit => ℝ) ()).hasFDerivAt
    refine ((h1.const_mul (1 / 2)).add_const 1).congr_fderiv ?_
    ext; simp
  refine C73_fixed_point 0 le_rfl one_pos (fun y (θ : Unit → ℝ) => ((fun _ : Unit => θ () * y () + 1), ())) ?_ (fun _ => 1 / 2) (fun _ => 2)
    ?_ (fun _ _ => 0) (differentiableAt_const _) ?_ _ ⟨?_, ?_, ?_⟩
  · exact contDiff_pi.2 fun _ => by fun_prop
  · rw [hfd.fderiv, norm_smul]
    have h1 : ‖(1 : Op Unit)‖ ≤ 1 := ContinuousLinearMap.norm_id_le
    norm_num
  · refine (closing_in _ (fun _ => 2) 2 (1 / 2) (by norm_num) (by norm_num) ?_ fun n _ => ?_).2
    · refine (pi_norm_le_iff_of_nonneg (by norm_num)).2 fun i => ?_
      simp
    · simp only [Function.iterate_succ_apply']
      set z := (dampedMap 0 fun z : Unit → ℝ => fun _ => 1 / 2 * z () + 1)^[n] fun _ => 0
      have : dampedMap 0 (fun z : Unit → ℝ => fun _ => 1 / 2 * z () + 1) z - (fun _ => 2) = (1 / 2 : ℝ) • (z - fun _ => 2) := by
        funext i
        simp only [dampedMap, Pi.sub_apply, Pi.smul_apply, smul_eq_mul]
        ring
      rw [this, norm_smul]
      norm_num
  · refine continuousAt_pi.2 fun _ => ?_
    refine ContinuousAt.div continuousAt_const (continuousAt_const.sub (continuous_apply ()).continuousAt) (by norm_num)
  · funext; norm_num
  · have h1 : ContinuousAt (fun θ : Unit → ℝ => 1 - θ ()) (fun _ => 1 / 2) :=
      continuousAt_const.sub (continuous_apply ()).continuousAt
    filter_upwards [h1.eventually_ne (show (1 : ℝ) - 1 / 2 ≠ 0 by norm_num)] with θ hθ
    funext i
    have : (1 : ℝ) - θ () ≠ 0 := hθ
    field_simp
    ring

/-- `C73_newton` on the equation `y^2 = θ` at `θ = 1`, from starting points close enough to `1`. -/
example : ∃ δ > 0, ∀ y0 : (Unit → ℝ) → (Unit → ℝ), DifferentiableAt ℝ y0 (fun _ => 1) → ‖y0 (fun _ => 1) - fun _ => 1‖ ≤ δ →
    ∃ D : (Unit → ℝ) →L[ℝ] (Unit → ℝ), HasFDerivAt (fun (θ : Unit → ℝ) (_ : Unit) => Real.sqrt (θ ())) D (fun _ => 1) ∧
    ∀ ε > 0, ∃ N, ∀ (cfg : (Unit → ℝ) → NewtonChord.Cfg Unit Unit ℝ (Op Unit)),
      (∀ θ, (cfg θ).isNewton = true ∧ (cfg θ).lower = none ∧ (cfg θ).upper = none ∧ SolvesInvertible (cfg θ).linearSolve ∧
        ∀ z, (cfg θ).jac z = fderiv ℝ (fun z : Unit → ℝ => fun _ : Unit => z () ^ 2 - θ ()) z) →
      ∀ af aux0 ms throw sol, iterativeSolve (NewtonChord.solver (cfg fun _ => 1)) af (fun y => (fun _ => y () ^ 2 - 1, ())) aux0
          (y0 fun _ => 1) ms throw = some (.ok sol) → N ≤ sol.numSteps → ∀ t,
          ‖Unrolled.tangent (fun θ => NewtonChord.solver (cfg θ)) af (fun (θ : Unit → ℝ) y => (fun _ => y () ^ 2 - θ (), ())) aux0
            y0 sol.numSteps (fun _ => 1) t - D t‖ ≤ ε * ‖t‖ := by
  have hc : ContDiff ℝ 2 fun p : (Unit → ℝ) × (Unit → ℝ) => fun _ : Unit => p.1 () ^ 2 - p.2 () := contDiff_pi.2 fun _ => by fun_prop
  have hfd : HasFDerivAt (fun y : Unit → ℝ => fun _ : Unit => y () ^ 2 - 1) ((2 : ℝ) • (1 : Op Unit)) (fun _ => 1) := by
    refine hasFDerivAt_pi'.2 fun i => ?_
    have h1 : HasFDerivAt (fun y : Unit → ℝ => y ()) (ContinuousLinearMap.proj (R := ℝ) (φ := fun _ : Unit => ℝ) ()) (fun _ => 1) :=
      (ContinuousLinearMap.proj (R := ℝ) (φ := fun _ : Unit => ℝ) ()).hasFDerivAt
    refine ((h1.pow 2).sub_const 1).congr_fderiv ?_
    ext; simp
  have hinv : (fderiv ℝ (fun y : Unit → ℝ => fun _ : Unit => y () ^ 2 - 1) (fun _ => 1)).IsInvertible := by
    rw [hfd.fderiv]
    refine .of_inverse (g := (1 / 2 : ℝ) • (1 : Op Unit)) ?_ ?_ <;> ext <;> simp
  obtain ⟨δ, hδ, hnear⟩ := C73_newton_nearby _ hc (fun _ => 1) (fun _ => 1) (by funext; norm_num) hinv
  refine ⟨δ, hδ, fun y0 hd hy0 => ?_⟩
  obtain ⟨h1, h2⟩ := hnear y0 hy0
  refine C73_newton (fun y (θ : Unit → ℝ) => ((fun _ : Unit => y () ^ 2 - θ ()), ())) hc (fun _ => 1) (fun _ => 1) hinv y0 hd h1 h2 _
    ⟨?_, ?_, ?_⟩
  · exact continuousAt_pi.2 fun _ => (Real.continuous_sqrt.comp (continuous_apply ())).continuousAt
  · funext; simp
  · have h1 : ContinuousAt (fun θ : Unit → ℝ => θ ()) (fun _ => 1) := (continuous_apply ()).continuousAt
    filter_upwards [h1.eventually_const_lt (show (0 : ℝ) < 1 by norm_num)] with θ hθ
    funext i
    simp [Real.sq_sqrt hθ.le]

end Verif.Props
