import Verif.Model.Ad
import Verif.Lemmas.Norms
import Mathlib.Analysis.SpecialFunctions.Sqrt
import Mathlib.Analysis.Calculus.ImplicitFunction.ProdDomain
import Mathlib.Analysis.Calculus.ContDiff.Basic
import Mathlib.Analysis.Calculus.ContDiff.RCLike
import Mathlib.Analysis.Calculus.LocalExtr.Basic
import Mathlib.Analysis.Calculus.Deriv.Pow
import Mathlib.Analysis.Calculus.ContDiff.Operations

/-!
Implicit differentiation.  The specification is the notion of a branch of solutions: a function of the parameters, continuous
at the current ones, whose values solve the problem for all parameters nearby.
-/

namespace Verif.Props

open Verif.Ad Filter Topology

variable {ι κ μ ο R : Type} [Fintype ι] [Fintype κ] [Fintype μ] [Fintype ο]

/-- `y` is a branch of solutions at `a0`, through `root`. -/
def IsBranch (Solution : (κ → ℝ) → (ι → ℝ) → Prop) (y : (κ → ℝ) → (ι → ℝ)) (a0 : κ → ℝ) (root : ι → ℝ) : Prop :=
  ContinuousAt y a0 ∧ y a0 = root ∧ ∀ᶠ a in 𝓝 a0, Solution a (y a)

/-- The linear solver solves systems whose operator is invertible. -/
def Exact (solve : Solve ι ο) : Prop :=
  ∀ A : (ι → ℝ) →L[ℝ] (ο → ℝ), A.IsInvertible → ∀ b, A (solve A b) = b

theorem exact_unique {solve : Solve ι ο} (h : Exact solve) {A : (ι → ℝ) →L[ℝ] (ο → ℝ)} (hA : A.IsInvertible) (b : ο → ℝ) :
    solve A b = A.inverse b := by
  apply hA.injective
  rw [h A hA b]
  obtain ⟨e, rfl⟩ := hA
  simp

theorem exact_exists : ∃ solve : Solve ι ο, Exact solve := by
  refine ⟨fun A b => A.inverse b, fun A hA b => ?_⟩
  obtain ⟨e, rfl⟩ := hA
  simp

/-- The directional derivative taken by the code: inputs without tangent count as inputs with tangent zero, and inputs other
than `args` do not matter. -/
theorem jvp_args (G : (κ → ℝ) → (ο → ℝ)) (inputs : Inputs κ μ) (hG : DifferentiableAt ℝ G fun k => inputs (.inl k))
    (t : κ ⊕ μ → Option ℝ) :
    fderiv ℝ (fun diff : κ ⊕ μ → ℝ => G fun k => combine t diff inputs (.inl k)) inputs (fun k => (t k).getD 0) =
      fderiv ℝ G (fun k => inputs (.inl k)) (fun k => (t (.inl k)).getD 0) := by
  let P' : (κ ⊕ μ → ℝ) →L[ℝ] (κ → ℝ) :=
    ContinuousLinearMap.pi fun k => if (t (.inl k)).isSome then ContinuousLinearMap.proj (.inl k) else 0
  have hP : HasFDerivAt (fun (diff : κ ⊕ μ → ℝ) (k : κ) => combine t diff inputs (.inl k)) P' inputs := by
    refine hasFDerivAt_pi.2 fun k => ?_
    cases h : (t (.inl k)).isSome
    · simp only [combine, h]
      exact hasFDerivAt_const _ _
    · simp only [combine, h, if_true]
      exact (ContinuousLinearMap.proj (R := ℝ) (φ := fun _ : κ ⊕ μ => ℝ) (.inl k)).hasFDerivAt
  have hpt : (fun k => combine t inputs inputs (.inl k)) = fun k => inputs (.inl k : κ ⊕ μ) := by
    funext k; simp [combine]
  have hG' : HasFDerivAt G (fderiv ℝ G fun k => inputs (.inl k)) (fun k => combine t inputs inputs (.inl k)) := by
    rw [hpt]; exact hG.hasFDerivAt
  have := (hG'.comp inputs hP).fderiv
  rw [show (fun diff : κ ⊕ μ → ℝ => G fun k => combine t diff inputs (.inl k)) =
    G ∘ fun (diff : κ ⊕ μ → ℝ) (k : κ) => combine t diff inputs (.inl k) from rfl, this]
  rw [ContinuousLinearMap.comp_apply]
  congr 1
  funext k
  show (if (t (.inl k)).isSome then ContinuousLinearMap.proj (R := ℝ) (φ := fun _ : κ ⊕ μ => ℝ) (.inl k) else 0) _ = _
  cases h : t (.inl k) <;> simp [h]

/-- The tangent computed by the code, for a rewrite function that depends on `args` only. -/
theorem tangent_eq (solve : Solve ι ο) (primal : Inputs κ μ → (ι → ℝ) × R) (inputs : Inputs κ μ)
    (G : (ι → ℝ) → (κ → ℝ) → (ο → ℝ)) (hG : DifferentiableAt ℝ (G (primal inputs).1) fun k => inputs (.inl k))
    (t : κ ⊕ μ → Option ℝ) :
    (implicitJvp solve primal (fun y _ i => G y fun k => i (.inl k)) inputs t).2.1 =
      -solve (fderiv ℝ (fun y => G y fun k => inputs (.inl k)) (primal inputs).1)
        (fderiv ℝ (G (primal inputs).1) (fun k => inputs (.inl k)) fun k => (t (.inl k)).getD 0) := by
  unfold implicitJvp
  simp only
  rw [jvp_args (G (primal inputs).1) inputs hG t]
  rfl

/-- The implicit function theorem for the computed tangent. -/
theorem implicit_generic (solve : Solve ι ο) (hs : Exact solve) (primal : Inputs κ μ → (ι → ℝ) × R) (inputs : Inputs κ μ)
    (a0 : κ → ℝ) (ha : (fun k => inputs (.inl k)) = a0) (root : ι → ℝ) (hr : (primal inputs).1 = root)
    (G : (ι → ℝ) → (κ → ℝ) → (ο → ℝ)) (hG : ContDiffAt ℝ 1 (fun p : (ι → ℝ) × (κ → ℝ) => G p.1 p.2) (root, a0))
    (hinv : (fderiv ℝ (fun y => G y a0) root).IsInvertible)
    (y : (κ → ℝ) → (ι → ℝ)) (hy : IsBranch (fun a z => G z a = G root a0) y a0 root) :
    ∃ D : (κ → ℝ) →L[ℝ] (ι → ℝ), HasFDerivAt y D a0 ∧ ∀ t : κ ⊕ μ → Option ℝ,
      (implicitJvp solve primal (fun y _ i => G y fun k => i (.inl k)) inputs t).2.1 = D fun k => (t (.inl k)).getD 0 := by
  subst ha hr
  set a0 : κ → ℝ := fun k => inputs (.inl k) with ha0
  set root := (primal inputs).1 with hroot
  -- the swapped function
  let F : (κ → ℝ) × (ι → ℝ) → (ο → ℝ) := fun p => G p.2 p.1
  have hF : HasStrictFDerivAt F (fderiv ℝ F (a0, root)) (a0, root) := by
    have hc : ContDiffAt ℝ 1 F (a0, root) :=
      ContDiffAt.comp (g := fun p : (ι → ℝ) × (κ → ℝ) => G p.1 p.2) (f := fun p : (κ → ℝ) × (ι → ℝ) => (p.2, p.1))
        (a0, root) hG (contDiffAt_snd.prodMk contDiffAt_fst)
    exact hc.hasStrictFDerivAt one_ne_zero
  have hd := hF.hasFDerivAt
  have hA : fderiv ℝ (fun y => G y a0) root = (fderiv ℝ F (a0, root)).comp (.inr ℝ (κ → ℝ) (ι → ℝ)) := by
    have : HasFDerivAt (fun y => F (a0, y)) ((fderiv ℝ F (a0, root)).comp (.inr ℝ (κ → ℝ) (ι → ℝ))) root :=
      hd.comp root (hasFDerivAt_prodMk_right a0 root)
    exact this.fderiv
  have hBd : HasFDerivAt (G root) ((fderiv ℝ F (a0, root)).comp (.inl ℝ (κ → ℝ) (ι → ℝ))) a0 :=
    HasFDerivAt.comp (g := F) (f := fun a => (a, root)) a0 hd (hasFDerivAt_prodMk_left a0 root)
  rw [hA] at hinv
  have hψ := hF.hasStrictFDerivAt_implicitFunctionOfProdDomain hinv
  have huniq := hF.eventually_apply_eq_iff_implicitFunctionOfProdDomain hinv
  obtain ⟨hc, hy0, hsol⟩ := hy
  have htend : Tendsto (fun a => (a, y a)) (𝓝 a0) (𝓝 (a0, root)) := by
    have h1 : Tendsto y (𝓝 a0) (𝓝 root) := by rw [← hy0]; exact hc
    rw [nhds_prod_eq]
    exact tendsto_id.prodMk h1
  have heq : y =ᶠ[𝓝 a0] hF.implicitFunctionOfProdDomain hinv := by
    filter_upwards [htend.eventually huniq, hsol] with a h1 h2
    exact (h1.1 h2).symm
  refine ⟨_, hψ.hasFDerivAt.congr_of_eventuallyEq heq, fun t => ?_⟩
  rw [tangent_eq solve primal inputs G hBd.differentiableAt t, ← hroot, ← ha0, hA, hBd.fderiv, exact_unique hs hinv]
  rfl

/-- **C12**, `root_find`.  Differentiating `root_find` (with a root finder or a least-squares solver) with the default adjoint
gives the derivative of every branch of roots.  Nothing is assumed about how the root was found. -/
theorem C12_root_find_partial (solve : Solve ι ι) (hs : Exact solve) (primal : Inputs κ μ → (ι → ℝ) × R) (inputs : Inputs κ μ)
    (a0 : κ → ℝ) (ha : (fun k => inputs (.inl k)) = a0) (root : ι → ℝ) (hr : (primal inputs).1 = root)
    (fn : (ι → ℝ) → (κ → ℝ) → (ι → ℝ)) (hfn : ContDiffAt ℝ 1 (fun p : (ι → ℝ) × (κ → ℝ) => fn p.1 p.2) (root, a0))
    (hinv : (fderiv ℝ (fun y => fn y a0) root).IsInvertible)
    (y : (κ → ℝ) → (ι → ℝ)) (hy : IsBranch (fun a z => fn z a = 0) y a0 root) :
    ∃ D : (κ → ℝ) →L[ℝ] (ι → ℝ), HasFDerivAt y D a0 ∧ ∀ t : κ ⊕ μ → Option ℝ,
      (implicitJvp solve primal (rewriteRootFind fn) inputs t).2.1 = D fun k => (t (.inl k)).getD 0 := by
  refine implicit_generic solve hs primal inputs a0 ha root hr fn hfn hinv y ⟨hy.1, hy.2.1, ?_⟩
  have h0 : fn root a0 = 0 := by
    have := hy.2.2.self_of_nhds
    rwa [hy.2.1] at this
  rw [h0]
  exact hy.2.2

/-- **C12**, `fixed_point`. -/
theorem C12_fixed_point (solve : Solve ι ι) (hs : Exact solve) (primal : Inputs κ μ → (ι → ℝ) × R) (inputs : Inputs κ μ)
    (a0 : κ → ℝ) (ha : (fun k => inputs (.inl k)) = a0) (point : ι → ℝ) (hr : (primal inputs).1 = point)
    (fn : (ι → ℝ) → (κ → ℝ) → (ι → ℝ)) (hfn : ContDiffAt ℝ 1 (fun p : (ι → ℝ) × (κ → ℝ) => fn p.1 p.2) (point, a0))
    (hinv : (fderiv ℝ (fun y => fn y a0) point - ContinuousLinearMap.id ℝ (ι → ℝ)).IsInvertible)
    (y : (κ → ℝ) → (ι → ℝ)) (hy : IsBranch (fun a z => fn z a = z) y a0 point) :
    ∃ D : (κ → ℝ) →L[ℝ] (ι → ℝ), HasFDerivAt y D a0 ∧ ∀ t : κ ⊕ μ → Option ℝ,
      (implicitJvp solve primal (rewriteFixedPoint fn) inputs t).2.1 = D fun k => (t (.inl k)).getD 0 := by
  have hd1 : DifferentiableAt ℝ (fun y => fn y a0) point := by
    have h := hfn.differentiableAt one_ne_zero
    exact DifferentiableAt.comp (g := fun p : (ι → ℝ) × (κ → ℝ) => fn p.1 p.2) (f := fun y => (y, a0)) point h
      (differentiableAt_id.prodMk (differentiableAt_const a0))
  have hder : fderiv ℝ (fun y => fn y a0 - y) point = fderiv ℝ (fun y => fn y a0) point - ContinuousLinearMap.id ℝ (ι → ℝ) :=
    (hd1.hasFDerivAt.sub (hasFDerivAt_id point)).fderiv
  have h0 : fn point a0 = point := by
    have := hy.2.2.self_of_nhds
    rwa [hy.2.1] at this
  refine implicit_generic solve hs primal inputs a0 ha point hr (fun z a => fn z a - z) (hfn.sub contDiffAt_fst)
    (by rw [hder]; exact hinv) y ⟨hy.1, hy.2.1, ?_⟩
  filter_upwards [hy.2.2] with a ha
  rw [ha, h0]; simp

variable [DecidableEq ι]

/-- The gradient in the first argument is continuously differentiable if the function is twice so. -/
theorem grad_contDiffAt (f : (ι → ℝ) → (κ → ℝ) → ℝ) (root : ι → ℝ) (a0 : κ → ℝ)
    (hf : ContDiffAt ℝ 2 (fun p : (ι → ℝ) × (κ → ℝ) => f p.1 p.2) (root, a0)) :
    ContDiffAt ℝ 1 (fun p : (ι → ℝ) × (κ → ℝ) => grad (fun x => f x p.2) p.1) (root, a0) := by
  set F : (ι → ℝ) × (κ → ℝ) → ℝ := fun p => f p.1 p.2 with hF
  have hd : ContDiffAt ℝ 1 (fderiv ℝ F) (root, a0) := hf.fderiv_right (m := 1) (by norm_num)
  have hev : ∀ᶠ p in 𝓝 (root, a0), DifferentiableAt ℝ F p := by
    have : ∀ᶠ p in 𝓝 (root, a0), ContDiffAt ℝ 2 F p := hf.eventually (by simp)
    filter_upwards [this] with p hp
    exact hp.differentiableAt two_ne_zero
  have heq : (fun p : (ι → ℝ) × (κ → ℝ) => grad (fun x => f x p.2) p.1) =ᶠ[𝓝 (root, a0)]
      fun p i => fderiv ℝ F p (Pi.single i 1, 0) := by
    filter_upwards [hev] with p hp
    funext i
    have : HasFDerivAt (fun x => F (x, p.2)) ((fderiv ℝ F p).comp (.inl ℝ (ι → ℝ) (κ → ℝ))) p.1 :=
      HasFDerivAt.comp (g := F) (f := fun x => (x, p.2)) p.1 hp.hasFDerivAt (hasFDerivAt_prodMk_left p.1 p.2)
    show fderiv ℝ (fun x => f x p.2) p.1 _ = _
    rw [show (fun x => f x p.2) = fun x => F (x, p.2) from rfl, this.fderiv]
    simp
  refine ContDiffAt.congr_of_eventuallyEq ?_ heq
  exact contDiffAt_pi.2 fun i => hd.clm_apply contDiffAt_const

theorem grad_local_min {f : (ι → ℝ) → ℝ} {z : ι → ℝ} (h : IsLocalMin f z) : grad f z = 0 := by
  funext i
  simp [grad, h.fderiv_eq_zero]

/-- **C12**, `minimise`: differentiating it with the default adjoint gives the derivative of every branch of local minima,
whenever the Hessian is invertible. -/
theorem C12_minimise (solve : Solve ι ι) (hs : Exact solve) (primal : Inputs κ μ → (ι → ℝ) × R) (inputs : Inputs κ μ)
    (a0 : κ → ℝ) (ha : (fun k => inputs (.inl k)) = a0) (minimum : ι → ℝ) (hr : (primal inputs).1 = minimum)
    (fn : (ι → ℝ) → (κ → ℝ) → ℝ) (hfn : ContDiffAt ℝ 2 (fun p : (ι → ℝ) × (κ → ℝ) => fn p.1 p.2) (minimum, a0))
    (hinv : (fderiv ℝ (grad fun x => fn x a0) minimum).IsInvertible)
    (y : (κ → ℝ) → (ι → ℝ)) (hy : IsBranch (fun a z => IsLocalMin (fun x => fn x a) z) y a0 minimum) :
    ∃ D : (κ → ℝ) →L[ℝ] (ι → ℝ), HasFDerivAt y D a0 ∧ ∀ t : κ ⊕ μ → Option ℝ,
      (implicitJvp solve primal (rewriteMinimise fn) inputs t).2.1 = D fun k => (t (.inl k)).getD 0 := by
  refine implicit_generic solve hs primal inputs a0 ha minimum hr (fun z a => grad (fun x => fn x a) z)
    (grad_contDiffAt fn minimum a0 hfn) hinv y ⟨hy.1, hy.2.1, ?_⟩
  have h0 : IsLocalMin (fun x => fn x a0) minimum := by
    have := hy.2.2.self_of_nhds
    rwa [hy.2.1] at this
  filter_upwards [hy.2.2] with a ha
  rw [grad_local_min ha, grad_local_min h0]

/-- **C12**, `least_squares`. -/
theorem C12_least_squares (solve : Solve ι ι) (hs : Exact solve) (primal : Inputs κ μ → (ι → ℝ) × R) (inputs : Inputs κ μ)
    (a0 : κ → ℝ) (ha : (fun k => inputs (.inl k)) = a0) (optimum : ι → ℝ) (hr : (primal inputs).1 = optimum)
    (fn : (ι → ℝ) → (κ → ℝ) → (ο → ℝ)) (hfn : ContDiffAt ℝ 2 (fun p : (ι → ℝ) × (κ → ℝ) => fn p.1 p.2) (optimum, a0))
    (hinv : (fderiv ℝ (grad fun x => 1 / 2 * ∑ j, fn x a0 j ^ 2) optimum).IsInvertible)
    (y : (κ → ℝ) → (ι → ℝ)) (hy : IsBranch (fun a z => IsLocalMin (fun x => ∑ j, fn x a j ^ 2) z) y a0 optimum) :
    ∃ D : (κ → ℝ) →L[ℝ] (ι → ℝ), HasFDerivAt y D a0 ∧ ∀ t : κ ⊕ μ → Option ℝ,
      (implicitJvp solve primal (rewriteLeastSquares fn) inputs t).2.1 = D fun k => (t (.inl k)).getD 0 := by
  have hobj : ∀ (x : ι → ℝ) (a : κ → ℝ), (0.5 : ℝ) * ∑ j, fn x a j * fn x a j = 1 / 2 * ∑ j, fn x a j ^ 2 := by
    intro x a
    rw [show (0.5 : ℝ) = 1 / 2 by norm_num]
    congr 1
    exact Finset.sum_congr rfl fun j _ => by ring
  have hcd : ContDiffAt ℝ 2 (fun p : (ι → ℝ) × (κ → ℝ) => (0.5 : ℝ) * ∑ j, fn p.1 p.2 j * fn p.1 p.2 j) (optimum, a0) := by
    refine contDiffAt_const.mul (ContDiffAt.sum fun j _ => ?_)
    have := contDiffAt_pi.1 hfn j
    exact this.mul this
  refine C12_minimise (R := R) solve hs primal inputs a0 ha optimum hr
    (fun x a => (0.5 : ℝ) * ∑ j, fn x a j * fn x a j) hcd ?_ y ⟨hy.1, hy.2.1, ?_⟩
  · rw [show (fun x => (0.5 : ℝ) * ∑ j, fn x a0 j * fn x a0 j) = fun x => 1 / 2 * ∑ j, fn x a0 j ^ 2 from
      funext fun x => hobj x a0]
    exact hinv
  · filter_upwards [hy.2.2] with a ha
    have : (fun x => (0.5 : ℝ) * ∑ j, fn x a j * fn x a j) = fun x => 1 / 2 * ∑ j, fn x a j ^ 2 :=
      funext fun x => hobj x a
    rw [this]
    filter_upwards [ha] with x hx
    exact mul_le_mul_of_nonneg_left hx (by norm_num)

/-- **C12.** The value returned is the solver's; everything in the solution besides the value has zero tangent. -/
theorem C12_primal (solve : Solve ι ο) (primal : Inputs κ μ → (ι → ℝ) × R) (rewrite : (ι → ℝ) → R → Inputs κ μ → (ο → ℝ))
    (inputs : Inputs κ μ) (t : κ ⊕ μ → Option ℝ) :
    (implicitJvp solve primal rewrite inputs t).1 = primal inputs ∧ (implicitJvp solve primal rewrite inputs t).2.2 = none :=
  ⟨rfl, rfl⟩

omit [DecidableEq ι] in
/-- The hypotheses of `C12_root_find_partial` can be met at every nondegenerate root: a branch exists. -/
theorem C12_branch_exists (a0 : κ → ℝ) (root : ι → ℝ) (fn : (ι → ℝ) → (κ → ℝ) → (ι → ℝ))
    (hfn : ContDiffAt ℝ 1 (fun p : (ι → ℝ) × (κ → ℝ) => fn p.1 p.2) (root, a0))
    (hinv : (fderiv ℝ (fun y => fn y a0) root).IsInvertible) (h0 : fn root a0 = 0) :
    ∃ y, IsBranch (fun a z => fn z a = 0) y a0 root := by
  let F : (κ → ℝ) × (ι → ℝ) → (ι → ℝ) := fun p => fn p.2 p.1
  have hF : HasStrictFDerivAt F (fderiv ℝ F (a0, root)) (a0, root) := by
    have hc : ContDiffAt ℝ 1 F (a0, root) :=
      ContDiffAt.comp (g := fun p : (ι → ℝ) × (κ → ℝ) => fn p.1 p.2) (f := fun p : (κ → ℝ) × (ι → ℝ) => (p.2, p.1))
        (a0, root) hfn (contDiffAt_snd.prodMk contDiffAt_fst)
    exact hc.hasStrictFDerivAt one_ne_zero
  have hA : fderiv ℝ (fun y => fn y a0) root = (fderiv ℝ F (a0, root)).comp (.inr ℝ (κ → ℝ) (ι → ℝ)) := by
    have : HasFDerivAt (fun y => F (a0, y)) ((fderiv ℝ F (a0, root)).comp (.inr ℝ (κ → ℝ) (ι → ℝ))) root :=
      hF.hasFDerivAt.comp root (hasFDerivAt_prodMk_right a0 root)
    exact this.fderiv
  rw [hA] at hinv
  have hval : hF.implicitFunctionOfProdDomain hinv a0 = root :=
    (hF.eventually_apply_eq_iff_implicitFunctionOfProdDomain hinv).self_of_nhds.1 rfl
  refine ⟨hF.implicitFunctionOfProdDomain hinv, ?_, hval, ?_⟩
  · exact (hF.hasStrictFDerivAt_implicitFunctionOfProdDomain hinv).continuousAt
  · filter_upwards [hF.eventually_apply_implicitFunctionOfProdDomain hinv] with a ha
    exact ha.trans h0

omit [DecidableEq ι] in
/-- **C12**, approximate solutions: if the values returned by the solver approach the solution, the computed tangents approach
the derivative of the branch.  (`roots n` is what the `n`-th solve returned, with possibly different solvers, tolerances or
initial guesses.) -/
theorem C12_approximate_roots (solve : Solve ι ι) (hs : Exact solve) (primal : ℕ → Inputs κ μ → (ι → ℝ) × R)
    (inputs : ℕ → Inputs κ μ) (a0 : κ → ℝ) (ha : ∀ n, (fun k => inputs n (.inl k)) = a0) (root : ι → ℝ)
    (hr : Tendsto (fun n => (primal n (inputs n)).1) atTop (𝓝 root))
    (fn : (ι → ℝ) → (κ → ℝ) → (ι → ℝ)) (hfn : ContDiffAt ℝ 1 (fun p : (ι → ℝ) × (κ → ℝ) => fn p.1 p.2) (root, a0))
    (hinv : (fderiv ℝ (fun y => fn y a0) root).IsInvertible)
    (y : (κ → ℝ) → (ι → ℝ)) (hy : IsBranch (fun a z => fn z a = 0) y a0 root) (t : κ ⊕ μ → Option ℝ) :
    ∃ D : (κ → ℝ) →L[ℝ] (ι → ℝ), HasFDerivAt y D a0 ∧
      Tendsto (fun n => (implicitJvp solve (primal n) (rewriteRootFind fn) (inputs n) t).2.1) atTop
        (𝓝 (D fun k => (t (.inl k)).getD 0)) := by
  obtain ⟨D, hD, hDt⟩ := C12_root_find_partial solve hs (fun _ => (root, ())) (Sum.elim a0 fun _ : Empty => 0) a0 rfl root rfl fn hfn
    hinv y hy
  refine ⟨D, hD, ?_⟩
  set v : κ → ℝ := fun k => (t (.inl k)).getD 0 with hv
  let G : (ι → ℝ) × (κ → ℝ) → (ι → ℝ) := fun p => fn p.1 p.2
  have hev : ∀ᶠ p in 𝓝 (root, a0), ContDiffAt ℝ 1 G p := hfn.eventually (by simp)
  have hcont : ContinuousAt (fderiv ℝ G) (root, a0) := (hfn.fderiv_right (m := 0) (by norm_num)).continuousAt
  have hrp : Tendsto (fun n => ((primal n (inputs n)).1, a0)) atTop (𝓝 (root, a0)) := by
    rw [nhds_prod_eq]
    exact hr.prodMk tendsto_const_nhds
  have hG' : Tendsto (fun n => fderiv ℝ G ((primal n (inputs n)).1, a0)) atTop (𝓝 (fderiv ℝ G (root, a0))) :=
    hcont.tendsto.comp hrp
  let A : ((ι → ℝ) × (κ → ℝ) →L[ℝ] (ι → ℝ)) → ((ι → ℝ) →L[ℝ] (ι → ℝ)) := fun L => L.comp (.inl ℝ (ι → ℝ) (κ → ℝ))
  have hAc : Continuous A := by fun_prop
  have hpart : ∀ r, DifferentiableAt ℝ G (r, a0) → fderiv ℝ (fun y => fn y a0) r = A (fderiv ℝ G (r, a0)) ∧
      DifferentiableAt ℝ (fn r) a0 ∧ fderiv ℝ (fn r) a0 v = fderiv ℝ G (r, a0) (0, v) := by
    intro r hd
    have h1 : HasFDerivAt (fun y => G (y, a0)) ((fderiv ℝ G (r, a0)).comp (.inl ℝ (ι → ℝ) (κ → ℝ))) r :=
      HasFDerivAt.comp (g := G) (f := fun y => (y, a0)) r hd.hasFDerivAt (hasFDerivAt_prodMk_left r a0)
    have h2 : HasFDerivAt (fun a => G (r, a)) ((fderiv ℝ G (r, a0)).comp (.inr ℝ (ι → ℝ) (κ → ℝ))) a0 :=
      HasFDerivAt.comp (g := G) (f := fun a => (r, a)) a0 hd.hasFDerivAt (hasFDerivAt_prodMk_right r a0)
    refine ⟨h1.fderiv, h2.differentiableAt, ?_⟩
    rw [show fn r = fun a => G (r, a) from rfl, h2.fderiv]
    simp
  have hroot := hpart root (hfn.differentiableAt one_ne_zero)
  rw [hroot.1] at hinv
  have hAn : Tendsto (fun n => A (fderiv ℝ G ((primal n (inputs n)).1, a0))) atTop (𝓝 (A (fderiv ℝ G (root, a0)))) :=
    (hAc.tendsto _).comp hG'
  have hinvn : ∀ᶠ n in atTop, (A (fderiv ℝ G ((primal n (inputs n)).1, a0))).IsInvertible := by
    obtain ⟨e, he⟩ := hinv
    have hn := e.nhds
    rw [he] at hn
    filter_upwards [hAn hn] with n ⟨e', he'⟩
    exact ⟨e', he'⟩
  have hlim : Tendsto (fun n => -(A (fderiv ℝ G ((primal n (inputs n)).1, a0))).inverse
      (fderiv ℝ G ((primal n (inputs n)).1, a0) (0, v))) atTop
      (𝓝 (-(A (fderiv ℝ G (root, a0))).inverse (fderiv ℝ G (root, a0) (0, v)))) := by
    have h1 : Tendsto (fun n => (A (fderiv ℝ G ((primal n (inputs n)).1, a0))).inverse) atTop
        (𝓝 (A (fderiv ℝ G (root, a0))).inverse) := (hinv.contDiffAt_map_inverse (n := 0)).continuousAt.tendsto.comp hAn
    have h2 : Tendsto (fun n => fderiv ℝ G ((primal n (inputs n)).1, a0) (0, v)) atTop (𝓝 (fderiv ℝ G (root, a0) (0, v))) :=
      ((ContinuousLinearMap.apply ℝ (ι → ℝ) ((0, v) : (ι → ℝ) × (κ → ℝ))).continuous.tendsto _).comp hG'
    exact ((isBoundedBilinearMap_apply (𝕜 := ℝ) (E := ι → ℝ) (F := ι → ℝ)).continuous.tendsto _ |>.comp (h1.prodMk_nhds h2)).neg
  have htrue : D v = -(A (fderiv ℝ G (root, a0))).inverse (fderiv ℝ G (root, a0) (0, v)) := by
    have := hDt (Sum.elim (fun k => t (.inl k)) fun _ => none)
    rw [show (D v) = D fun k => ((Sum.elim (fun k => t (.inl k)) fun _ : Empty => none) (.inl k : κ ⊕ Empty)).getD 0 from rfl,
      ← this]
    rw [show (rewriteRootFind (R := Unit) (μ := Empty) fn) = fun y _ i => fn y fun k => i (.inl k) from rfl]
    rw [tangent_eq (solve := solve) (primal := fun _ => (root, ())) (G := fn) (hG := hroot.2.1)]
    have e1 : (fun k => (Sum.elim a0 fun _ : Empty => (0 : ℝ)) (.inl k : κ ⊕ Empty)) = a0 := rfl
    rw [e1, hroot.1, exact_unique hs hinv, ← hroot.2.2]
    rfl
  rw [htrue]
  refine hlim.congr' ?_
  filter_upwards [hinvn, hrp.eventually hev] with n hi hc
  have hp := hpart _ (hc.differentiableAt one_ne_zero)
  have hd : DifferentiableAt ℝ (fn (primal n (inputs n)).1) fun k => inputs n (.inl k) := by rw [ha]; exact hp.2.1
  rw [show (rewriteRootFind (R := R) (μ := μ) fn) = fun y _ i => fn y fun k => i (.inl k) from rfl,
    tangent_eq solve (primal n) (inputs n) fn hd t, ha, hp.1, exact_unique hs hi, hp.2.2]

/-- The function `y ↦ y² - θ`, for the example below. -/
def squareMinus (y θ : Unit → ℝ) : Unit → ℝ := fun _ => y () ^ 2 - θ ()

theorem maxNorm_unit (x : Unit → ℝ) : maxNorm x = |x ()| :=
  le_antisymm ((maxNorm_le_iff x _).2 ⟨abs_nonneg _, fun _ => le_rfl⟩) (abs_le_maxNorm x ())

/-- The gradient of `|y² - θ|` away from the root. -/
theorem grad_square (σ : ℝ) (hσ : σ = 1 ∨ σ = -1) (x a : Unit → ℝ) (h : 0 < σ * (x () ^ 2 - a ())) :
    grad (fun z => maxNorm (squareMinus z a)) x = fun _ => σ * (2 * x ()) := by
  have hU : IsOpen {z : Unit → ℝ | 0 < σ * (z () ^ 2 - a ())} := isOpen_lt continuous_const (by fun_prop)
  have heq : (fun z => maxNorm (squareMinus z a)) =ᶠ[𝓝 x] fun z => σ * (z () ^ 2 - a ()) := by
    filter_upwards [hU.mem_nhds h] with z hz
    rw [maxNorm_unit]
    show |z () ^ 2 - a ()| = _
    rcases hσ with rfl | rfl
    · rw [one_mul] at hz ⊢; exact abs_of_pos hz
    · rw [neg_one_mul] at hz ⊢; exact abs_of_neg (by linarith)
  have hd : HasFDerivAt (fun z : Unit → ℝ => σ * (z () ^ 2 - a ()))
      (σ • ((2 * x ()) • ContinuousLinearMap.proj (R := ℝ) (φ := fun _ : Unit => ℝ) ())) x := by
    have h1 : HasFDerivAt (fun z : Unit → ℝ => z ()) (ContinuousLinearMap.proj (R := ℝ) (φ := fun _ : Unit => ℝ) ()) x :=
      (ContinuousLinearMap.proj (R := ℝ) (φ := fun _ : Unit => ℝ) ()).hasFDerivAt
    have h2 := ((h1.pow 2).sub_const (a ())).const_mul σ
    simpa using h2
  funext i
  unfold grad
  rw [heq.fderiv_eq, hd.fderiv]
  simp

/-- **C12 is false of `root_find` with a minimiser.**  For `fn(y, θ) = y² - θ` and the default norm `max_norm`, the computed
derivative is zero at every approximate root, for every exact linear solver, though the branch of roots `√θ` has derivative
`1 / (2 √θ)`. -/
theorem C12_root_find_minimiser_wrong (solve : Solve Unit Unit) (hs : Exact solve) (θ y : ℝ) (hθ : 0 < θ) (hy : y ^ 2 ≠ θ)
    (primal : Inputs Unit μ → (Unit → ℝ) × R) (inputs : Inputs Unit μ) (ha : inputs (.inl ()) = θ)
    (hr : (primal inputs).1 = fun _ => y) :
    (∀ t, (implicitJvp solve primal (rewriteRootFindMinimiser maxNorm squareMinus) inputs t).2.1 = 0) ∧
    IsBranch (fun a z => squareMinus z a = 0) (fun a _ => √(a ())) (fun _ => θ) (fun _ => √θ) ∧
    ∃ D : (Unit → ℝ) →L[ℝ] (Unit → ℝ), HasFDerivAt (fun (a : Unit → ℝ) (_ : Unit) => √(a ())) D (fun _ => θ) ∧
      D (fun _ => 1) = fun _ => 1 / (2 * √θ) := by
  refine ⟨fun t => ?_, ⟨?_, rfl, ?_⟩, ?_⟩
  · have ha' : (fun k => inputs (.inl k)) = fun _ : Unit => θ := by funext k; exact ha
    obtain ⟨σ, hσ, hpos⟩ : ∃ σ : ℝ, (σ = 1 ∨ σ = -1) ∧ 0 < σ * (y ^ 2 - θ) := by
      rcases lt_or_gt_of_ne hy with h | h
      · exact ⟨-1, Or.inr rfl, by linarith⟩
      · exact ⟨1, Or.inl rfl, by linarith⟩
    set G : (Unit → ℝ) → (Unit → ℝ) → (Unit → ℝ) := fun z a => grad (fun x => maxNorm (squareMinus x a)) z with hG
    have hGa : G (fun _ => y) =ᶠ[𝓝 fun _ => θ] fun _ _ => σ * (2 * y) := by
      have hU : IsOpen {a : Unit → ℝ | 0 < σ * (y ^ 2 - a ())} := isOpen_lt continuous_const (by fun_prop)
      filter_upwards [hU.mem_nhds hpos] with a hz
      exact grad_square σ hσ (fun _ => y) a hz
    have hGy : (fun z => G z fun _ => θ) =ᶠ[𝓝 fun _ => y] fun z _ => σ * (2 * z ()) := by
      have hU : IsOpen {z : Unit → ℝ | 0 < σ * (z () ^ 2 - θ)} := isOpen_lt continuous_const (by fun_prop)
      filter_upwards [hU.mem_nhds hpos] with z hz
      exact grad_square σ hσ z (fun _ => θ) hz
    have hd : DifferentiableAt ℝ (G (primal inputs).1) fun k => inputs (.inl k) := by
      rw [hr, ha']
      exact hGa.differentiableAt_iff.2 (differentiableAt_const _)
    have hz : fderiv ℝ (G fun _ => y) (fun _ => θ) = 0 := by
      rw [hGa.fderiv_eq]
      exact (hasFDerivAt_const _ _).fderiv
    have hA : (fderiv ℝ (fun z => G z fun _ => θ) fun _ => y).IsInvertible := by
      have hlin : HasFDerivAt (fun (z : Unit → ℝ) (_ : Unit) => σ * (2 * z ()))
          ((σ * 2) • ContinuousLinearMap.id ℝ (Unit → ℝ)) (fun _ => y) := by
        have := ((σ * 2) • ContinuousLinearMap.id ℝ (Unit → ℝ)).hasFDerivAt (x := fun _ => y)
        refine this.congr_of_eventuallyEq (Eventually.of_forall fun z => ?_)
        funext u
        simp [mul_assoc]
      rw [hGy.fderiv_eq, hlin.fderiv]
      have hne : σ * 2 ≠ 0 := by rcases hσ with rfl | rfl <;> norm_num
      exact ⟨ContinuousLinearEquiv.smulLeft (Units.mk0 (σ * 2) hne), by ext; rfl⟩
    have := tangent_eq solve primal inputs G hd t
    rw [show (rewriteRootFindMinimiser (R := R) (μ := μ) maxNorm squareMinus) = fun z _ i => G z fun k => i (.inl k) from rfl,
      this, hr, ha', hz, exact_unique hs hA]
    simp
  · exact continuousAt_pi.2 fun _ => (Real.continuous_sqrt.comp (continuous_apply ())).continuousAt
  · have hU : IsOpen {a : Unit → ℝ | 0 < a ()} := isOpen_lt continuous_const (continuous_apply ())
    filter_upwards [hU.mem_nhds hθ] with a hpos
    funext _
    have h0 : (0 : ℝ) ≤ a () := le_of_lt hpos
    simp [squareMinus, Real.sq_sqrt h0]
  · have h1 : HasFDerivAt (fun z : Unit → ℝ => z ()) (ContinuousLinearMap.proj (R := ℝ) (φ := fun _ : Unit => ℝ) ())
        (fun _ => θ) := (ContinuousLinearMap.proj (R := ℝ) (φ := fun _ : Unit => ℝ) ()).hasFDerivAt
    have h2 := h1.sqrt hθ.ne'
    refine ⟨ContinuousLinearMap.pi fun _ => (1 / (2 * √θ)) • ContinuousLinearMap.proj (R := ℝ) (φ := fun _ : Unit => ℝ) (),
      hasFDerivAt_pi.2 fun _ => h2, ?_⟩
    funext i
    simp

/-- The same function meets the hypotheses of `C12_root_find_partial` at every `θ > 0`. -/
example (θ : ℝ) (hθ : 0 < θ) :
    ContDiffAt ℝ 1 (fun p : (Unit → ℝ) × (Unit → ℝ) => squareMinus p.1 p.2) (fun _ => √θ, fun _ => θ) ∧
    (fderiv ℝ (fun z => squareMinus z fun _ => θ) fun _ => √θ).IsInvertible := by
  constructor
  · refine contDiffAt_pi.2 fun _ => ?_
    unfold squareMinus
    fun_prop
  · have hlin : HasFDerivAt (fun z : Unit → ℝ => squareMinus z fun _ => θ)
        ((2 * √θ) • ContinuousLinearMap.id ℝ (Unit → ℝ)) (fun _ => √θ) := by
      refine (hasFDerivAt_pi' (𝕜 := ℝ) (F' := fun _ : Unit => ℝ)).2 fun u => ?_
      have h1 : HasFDerivAt (fun z : Unit → ℝ => z ()) (ContinuousLinearMap.proj (R := ℝ) (φ := fun _ : Unit => ℝ) ())
        (fun _ => √θ) := (ContinuousLinearMap.proj (R := ℝ) (φ := fun _ : Unit => ℝ) ()).hasFDerivAt
      have h2 := (h1.pow 2).sub_const θ
      have e : (ContinuousLinearMap.proj (R := ℝ) (φ := fun _ : Unit => ℝ) u).comp
          ((2 * √θ) • ContinuousLinearMap.id ℝ (Unit → ℝ)) =
          (2 * √θ) • ContinuousLinearMap.proj (R := ℝ) (φ := fun _ : Unit => ℝ) () := by
        ext; simp
      rw [e]
      simpa [squareMinus] using h2
    rw [hlin.fderiv]
    have hne : 2 * √θ ≠ 0 := by positivity
    exact ⟨ContinuousLinearEquiv.smulLeft (Units.mk0 (2 * √θ) hne), by ext; rfl⟩

/-- `y ↦ y / 2 + a`, with fixed points `2 a`, meets the hypotheses of `C12_fixed_point`. -/
example (a0 : Unit → ℝ) :
    ContDiffAt ℝ 1 (fun p : (Unit → ℝ) × (Unit → ℝ) => fun _ : Unit => p.1 () / 2 + p.2 ()) (fun _ => 2 * a0 (), a0) ∧
    (fderiv ℝ (fun (z : Unit → ℝ) (_ : Unit) => z () / 2 + a0 ()) (fun _ => 2 * a0 ()) -
      ContinuousLinearMap.id ℝ (Unit → ℝ)).IsInvertible ∧
    IsBranch (fun (a z : Unit → ℝ) => (fun _ => z () / 2 + a ()) = z) (fun a _ => 2 * a ()) a0 (fun _ => 2 * a0 ()) := by
  refine ⟨contDiffAt_pi.2 fun _ => by fun_prop, ?_, ?_, rfl, ?_⟩
  · have hlin : HasFDerivAt (fun (z : Unit → ℝ) (_ : Unit) => z () / 2 + a0 ())
        ((1 / 2 : ℝ) • ContinuousLinearMap.id ℝ (Unit → ℝ)) (fun _ => 2 * a0 ()) := by
      have h := (((1 / 2 : ℝ) • ContinuousLinearMap.id ℝ (Unit → ℝ)).hasFDerivAt (x := fun _ => 2 * a0 ())).add_const a0
      refine h.congr_of_eventuallyEq (Eventually.of_forall fun z => ?_)
      funext u
      simp; ring
    rw [hlin.fderiv]
    refine ⟨ContinuousLinearEquiv.smulLeft (Units.mk0 (-(1 / 2) : ℝ) (by norm_num)), ?_⟩
    ext x u
    show -(1 / 2 : ℝ) * x u = 1 / 2 * x u - x u
    ring
  · exact continuousAt_pi.2 fun _ => (continuous_const.mul (continuous_apply ())).continuousAt
  · refine Eventually.of_forall fun a => ?_
    funext u
    simp; ring

/-- `(y - a)²`, with minima `a`, meets the hypotheses of `C12_minimise`, and its residual `y - a` those of
`C12_least_squares`. -/
example (a0 : Unit → ℝ) :
    ContDiffAt ℝ 2 (fun p : (Unit → ℝ) × (Unit → ℝ) => (p.1 () - p.2 ()) ^ 2) (a0, a0) ∧
    (fderiv ℝ (grad fun z : Unit → ℝ => (z () - a0 ()) ^ 2) a0).IsInvertible ∧
    IsBranch (fun (a z : Unit → ℝ) => IsLocalMin (fun x : Unit → ℝ => (x () - a ()) ^ 2) z) (fun a => a) a0 a0 := by
  refine ⟨by fun_prop, ?_, continuousAt_id, rfl, ?_⟩
  · have hg : (grad fun z : Unit → ℝ => (z () - a0 ()) ^ 2) = fun z _ => 2 * (z () - a0 ()) := by
      funext z u
      have h1 : HasFDerivAt (fun z : Unit → ℝ => z ()) (ContinuousLinearMap.proj (R := ℝ) (φ := fun _ : Unit => ℝ) ()) z :=
        (ContinuousLinearMap.proj (R := ℝ) (φ := fun _ : Unit => ℝ) ()).hasFDerivAt
      unfold grad
      rw [((h1.sub_const (a0 ())).pow 2).fderiv]
      simp
    have hlin : HasFDerivAt (fun (z : Unit → ℝ) (_ : Unit) => 2 * (z () - a0 ()))
        ((2 : ℝ) • ContinuousLinearMap.id ℝ (Unit → ℝ)) a0 := by
      have h := (((2 : ℝ) • ContinuousLinearMap.id ℝ (Unit → ℝ)).hasFDerivAt (x := a0)).sub_const (fun i => 2 * a0 i)
      refine h.congr_of_eventuallyEq (Eventually.of_forall fun z => ?_)
      funext u
      simp; ring
    rw [hg, hlin.fderiv]
    exact ⟨ContinuousLinearEquiv.smulLeft (Units.mk0 (2 : ℝ) (by norm_num)), by ext; rfl⟩
  · exact Eventually.of_forall fun a => Eventually.of_forall fun x => by simp [sq_nonneg]

end Verif.Props
