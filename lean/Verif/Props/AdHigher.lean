import Verif.Model.AdHigher
import Verif.Props.Ad
import Mathlib.Analysis.Calculus.ImplicitContDiff
import Mathlib.Analysis.Calculus.ContDiff.Operations
import Mathlib.Analysis.Calculus.ContDiff.FTaylorSeries

/-!
C88: derivatives of every order through a solve, and reverse mode.
-/

namespace Verif.Props

open Verif.Ad Filter Topology

variable {ι κ μ ο R E : Type} [Fintype ι] [Fintype κ] [Fintype μ] [Fintype ο] [NormedAddCommGroup E] [NormedSpace ℝ E]

theorem nat_ne_infty (m : ℕ) : ((m : ℕ) : WithTop ℕ∞) ≠ ((⊤ : ℕ∞) : WithTop ℕ∞) := by
  intro h
  exact ENat.coe_ne_top m (WithTop.coe_injective (a₁ := (m : ℕ∞)) h)

/-- The partial derivatives of a function of two variables. -/
theorem pair_partials {G : (ι → ℝ) → (κ → ℝ) → (ο → ℝ)} {p : (ι → ℝ) × (κ → ℝ)}
    (h : DifferentiableAt ℝ (fun p : (ι → ℝ) × (κ → ℝ) => G p.1 p.2) p) :
    fderiv ℝ (fun y => G y p.2) p.1 =
      (fderiv ℝ (fun p : (ι → ℝ) × (κ → ℝ) => G p.1 p.2) p).comp (.inl ℝ (ι → ℝ) (κ → ℝ)) ∧
    HasFDerivAt (G p.1) ((fderiv ℝ (fun p : (ι → ℝ) × (κ → ℝ) => G p.1 p.2) p).comp (.inr ℝ (ι → ℝ) (κ → ℝ))) p.2 := by
  have hd := h.hasFDerivAt
  refine ⟨?_, ?_⟩
  · exact (HasFDerivAt.comp (g := fun p : (ι → ℝ) × (κ → ℝ) => G p.1 p.2) (f := fun y => (y, p.2)) p.1 hd
      (hasFDerivAt_prodMk_left p.1 p.2)).fderiv
  · exact HasFDerivAt.comp (g := fun p : (ι → ℝ) × (κ → ℝ) => G p.1 p.2) (f := fun a => (p.1, a)) p.2 hd
      (hasFDerivAt_prodMk_right p.1 p.2)

/-- Inputs without tangent count as inputs with tangent zero. -/
theorem jvp_inputs (G : (κ → ℝ) → (ο → ℝ)) (inputs : κ → ℝ) (hG : DifferentiableAt ℝ G inputs) (t : κ → Option ℝ) :
    fderiv ℝ (fun diff : κ → ℝ => G (combine t diff inputs)) inputs (fun k => (t k).getD 0) =
      fderiv ℝ G inputs (fun k => (t k).getD 0) := by
  let P' : (κ → ℝ) →L[ℝ] (κ → ℝ) :=
    ContinuousLinearMap.pi fun k => if (t k).isSome then ContinuousLinearMap.proj k else 0
  have hP : HasFDerivAt (fun (diff : κ → ℝ) => combine t diff inputs) P' inputs := by
    refine hasFDerivAt_pi.2 fun k => ?_
    cases h : (t k).isSome
    · simp only [combine, h]
      exact hasFDerivAt_const _ _
    · simp only [combine, h, if_true]
      exact (ContinuousLinearMap.proj (R := ℝ) (φ := fun _ : κ => ℝ) k).hasFDerivAt
  have hpt : combine t inputs inputs = inputs := by
    funext k; simp [combine]
  have hG' : HasFDerivAt G (fderiv ℝ G inputs) (combine t inputs inputs) := by
    rw [hpt]; exact hG.hasFDerivAt
  have := (HasFDerivAt.comp (g := G) (f := fun diff : κ → ℝ => combine t diff inputs) inputs hG' hP).fderiv
  rw [show (fun diff : κ → ℝ => G (combine t diff inputs)) = G ∘ fun (diff : κ → ℝ) => combine t diff inputs from rfl, this]
  rw [ContinuousLinearMap.comp_apply]
  congr 1
  funext k
  show (if (t k).isSome then ContinuousLinearMap.proj (R := ℝ) (φ := fun _ : κ => ℝ) k else 0) _ = _
  cases h : t k <;> simp [h]

/-- The tangent of the root, where the operator is invertible. -/
theorem tangentAt_eq {solve : Solve ι ο} (hs : Exact solve) {rewrite : (ι → ℝ) → R → (κ → ℝ) → (ο → ℝ)} {residual : R}
    (t : κ → Option ℝ) {p : (ι → ℝ) × (κ → ℝ)}
    (hd : DifferentiableAt ℝ (fun p : (ι → ℝ) × (κ → ℝ) => rewrite p.1 residual p.2) p)
    (hinv : ((fderiv ℝ (fun p : (ι → ℝ) × (κ → ℝ) => rewrite p.1 residual p.2) p).comp (.inl ℝ (ι → ℝ) (κ → ℝ))).IsInvertible) :
    tangentAt solve rewrite residual t p =
      -((fderiv ℝ (fun p : (ι → ℝ) × (κ → ℝ) => rewrite p.1 residual p.2) p).comp (.inl ℝ (ι → ℝ) (κ → ℝ))).inverse
        (fderiv ℝ (fun p : (ι → ℝ) × (κ → ℝ) => rewrite p.1 residual p.2) p (0, fun k => (t k).getD 0)) := by
  obtain ⟨h1, h2⟩ := pair_partials (G := fun z a => rewrite z residual a) hd
  unfold tangentAt implicitJvp
  simp only
  rw [jvp_inputs (rewrite p.1 residual) p.2 h2.differentiableAt t, h1, h2.fderiv, exact_unique hs hinv]
  rfl

/-- Invertibility persists nearby. -/
theorem eventually_invertible {X : Type} [TopologicalSpace X] {A : X → (ι → ℝ) →L[ℝ] (ο → ℝ)} {x : X} (hA : ContinuousAt A x)
    (h : (A x).IsInvertible) : ∀ᶠ z in 𝓝 x, (A z).IsInvertible := by
  obtain ⟨e, he⟩ := h
  have h1 : Set.range ((↑) : ((ι → ℝ) ≃L[ℝ] (ο → ℝ)) → (ι → ℝ) →L[ℝ] (ο → ℝ)) ∈ 𝓝 (A x) := by
    rw [← he]; exact ContinuousLinearEquiv.nhds e
  filter_upwards [hA h1] with z hz
  exact hz

/-- The tangent of the root is a smooth function of the root and the inputs. -/
theorem tangentAt_contDiff {solve : Solve ι ο} (hs : Exact solve) {rewrite : (ι → ℝ) → R → (κ → ℝ) → (ο → ℝ)} {residual : R}
    (t : κ → Option ℝ) {p : (ι → ℝ) × (κ → ℝ)} {n : ℕ}
    (hc : ContDiffAt ℝ (n + 1 : ℕ) (fun p : (ι → ℝ) × (κ → ℝ) => rewrite p.1 residual p.2) p)
    (hinv : ((fderiv ℝ (fun p : (ι → ℝ) × (κ → ℝ) => rewrite p.1 residual p.2) p).comp (.inl ℝ (ι → ℝ) (κ → ℝ))).IsInvertible) :
    ContDiffAt ℝ n (tangentAt solve rewrite residual t) p := by
  set G := fun p : (ι → ℝ) × (κ → ℝ) => rewrite p.1 residual p.2 with hG
  have hf : ContDiffAt ℝ n (fderiv ℝ G) p := hc.fderiv_right (m := n) (by norm_cast)
  have hA : ContDiffAt ℝ n (fun q => (fderiv ℝ G q).comp (.inl ℝ (ι → ℝ) (κ → ℝ))) p := hf.clm_comp contDiffAt_const
  have hev : ∀ᶠ q in 𝓝 p, tangentAt solve rewrite residual t q =
      -((fderiv ℝ G q).comp (.inl ℝ (ι → ℝ) (κ → ℝ))).inverse (fderiv ℝ G q (0, fun k => (t k).getD 0)) := by
    filter_upwards [eventually_invertible hA.continuousAt hinv, hc.eventually (nat_ne_infty _)] with q h1 h2
    exact tangentAt_eq hs t (h2.differentiableAt (by norm_cast)) h1
  refine ContDiffAt.congr_of_eventuallyEq ?_ hev
  obtain ⟨e, he⟩ := hinv
  have hI : ContDiffAt ℝ n (ContinuousLinearMap.inverse : ((ι → ℝ) →L[ℝ] (ο → ℝ)) → _)
      ((fderiv ℝ G p).comp (.inl ℝ (ι → ℝ) (κ → ℝ))) := by
    rw [← he]; exact contDiffAt_map_inverse e
  exact ((hI.comp p hA).clm_apply (hf.clm_apply contDiffAt_const)).neg

/-- Programs stay smooth under differentiation, losing one order each time. -/
theorem jvpsThrough_contDiff {solve : Solve ι ο} (hs : Exact solve) {rewrite : (ι → ℝ) → R → (κ → ℝ) → (ο → ℝ)} {residual : R}
    {after : (ι → ℝ) × (κ → ℝ) → E} (ts : List (κ → Option ℝ)) {p : (ι → ℝ) × (κ → ℝ)} {n : ℕ}
    (hc : ContDiffAt ℝ (n + ts.length : ℕ) (fun p : (ι → ℝ) × (κ → ℝ) => rewrite p.1 residual p.2) p)
    (ha : ContDiffAt ℝ (n + ts.length : ℕ) after p)
    (hinv : ((fderiv ℝ (fun p : (ι → ℝ) × (κ → ℝ) => rewrite p.1 residual p.2) p).comp (.inl ℝ (ι → ℝ) (κ → ℝ))).IsInvertible) :
    ContDiffAt ℝ n (jvpsThrough solve rewrite residual after ts) p := by
  induction ts generalizing n with
  | nil => exact ha
  | cons t ts ih =>
    have h1 : ContDiffAt ℝ (n + 1 : ℕ) (jvpsThrough solve rewrite residual after ts) p := by
      refine ih (n := n + 1) ?_ ?_
      · convert hc using 2; simp; omega
      · convert ha using 2; simp; omega
    have h2 : ContDiffAt ℝ n (fderiv ℝ (jvpsThrough solve rewrite residual after ts)) p := h1.fderiv_right (m := n) (by norm_cast)
    have h3 : ContDiffAt ℝ n (tangentAt solve rewrite residual t) p :=
      tangentAt_contDiff hs t (hc.of_le (by norm_cast; simp)) hinv
    exact h2.clm_apply (h3.prodMk contDiffAt_const)

/-- A branch of solutions is as smooth as the problem, and its derivative is the computed tangent, also nearby. -/
theorem branch_smooth {rewrite : (ι → ℝ) → R → (κ → ℝ) → (ο → ℝ)} {residual : R} {root : ι → ℝ} {a0 : κ → ℝ} {n : ℕ} (hn : n ≠ 0)
    (hc : ContDiffAt ℝ n (fun p : (ι → ℝ) × (κ → ℝ) => rewrite p.1 residual p.2) (root, a0))
    (hinv : ((fderiv ℝ (fun p : (ι → ℝ) × (κ → ℝ) => rewrite p.1 residual p.2) (root, a0)).comp
      (.inl ℝ (ι → ℝ) (κ → ℝ))).IsInvertible)
    {y : (κ → ℝ) → (ι → ℝ)} (hy : IsBranch (fun a z => rewrite z residual a = 0) y a0 root) : ContDiffAt ℝ n y a0 := by
  let G := fun p : (ι → ℝ) × (κ → ℝ) => rewrite p.1 residual p.2
  let F : (κ → ℝ) × (ι → ℝ) → (ο → ℝ) := fun p => rewrite p.2 residual p.1
  have hF : ContDiffAt ℝ n F (a0, root) :=
    ContDiffAt.comp (g := G) (f := fun p : (κ → ℝ) × (ι → ℝ) => (p.2, p.1)) (a0, root) hc (contDiffAt_snd.prodMk contDiffAt_fst)
  have hdG : HasFDerivAt G (fderiv ℝ G (root, a0)) (root, a0) := (hc.differentiableAt (by simpa using hn)).hasFDerivAt
  have hdF : HasFDerivAt F (fderiv ℝ F (a0, root)) (a0, root) := (hF.differentiableAt (by simpa using hn)).hasFDerivAt
  have hA : (fderiv ℝ G (root, a0)).comp (.inl ℝ (ι → ℝ) (κ → ℝ)) = (fderiv ℝ F (a0, root)).comp (.inr ℝ (κ → ℝ) (ι → ℝ)) := by
    have h1 : HasFDerivAt (fun z => G (z, a0)) ((fderiv ℝ G (root, a0)).comp (.inl ℝ (ι → ℝ) (κ → ℝ))) root :=
      HasFDerivAt.comp (g := G) (f := fun z => (z, a0)) root hdG (hasFDerivAt_prodMk_left root a0)
    have h2 : HasFDerivAt (fun z => F (a0, z)) ((fderiv ℝ F (a0, root)).comp (.inr ℝ (κ → ℝ) (ι → ℝ))) root :=
      HasFDerivAt.comp (g := F) (f := fun z => (a0, z)) root hdF (hasFDerivAt_prodMk_right a0 root)
    exact h1.unique h2
  have hi : ((fderiv ℝ F (a0, root)).comp (.inr ℝ (κ → ℝ) (ι → ℝ))).IsInvertible := hA ▸ hinv
  have hn' : (n : WithTop ℕ∞) ≠ 0 := by simpa using hn
  have huniq := hF.eventually_apply_eq_iff_implicitFunction hn' hi
  obtain ⟨hcont, hy0, hsol⟩ := hy
  have h0 : F (a0, root) = 0 := by
    have := hsol.self_of_nhds
    rwa [hy0] at this
  have htend : Tendsto (fun a => (a, y a)) (𝓝 a0) (𝓝 (a0, root)) := by
    have h1 : Tendsto y (𝓝 a0) (𝓝 root) := by rw [← hy0]; exact hcont
    rw [nhds_prod_eq]
    exact tendsto_id.prodMk h1
  have heq : y =ᶠ[𝓝 a0] hF.implicitFunction hn' hi := by
    filter_upwards [htend.eventually huniq, hsol] with a h1 h2
    exact (h1.1 (h2.trans h0.symm)).symm
  exact (hF.contDiffAt_implicitFunction hn' hi).congr_of_eventuallyEq heq

/-- The tangents as vectors. -/
def directions (ts : List (κ → Option ℝ)) : Fin ts.length → κ → ℝ := fun i k => (ts.get i k).getD 0

/-- Near the current inputs, differentiating the program along the branch is what the rule computes. -/
theorem jvpsThrough_eventually {solve : Solve ι ο} (hs : Exact solve) {rewrite : (ι → ℝ) → R → (κ → ℝ) → (ο → ℝ)} {residual : R}
    {after : (ι → ℝ) × (κ → ℝ) → E} (ts : List (κ → Option ℝ)) {root : ι → ℝ} {a0 : κ → ℝ} {n : ℕ} (hn : n + ts.length ≠ 0)
    (hc : ContDiffAt ℝ (n + ts.length : ℕ) (fun p : (ι → ℝ) × (κ → ℝ) => rewrite p.1 residual p.2) (root, a0))
    (ha : ContDiffAt ℝ (n + ts.length : ℕ) after (root, a0))
    (hinv : ((fderiv ℝ (fun p : (ι → ℝ) × (κ → ℝ) => rewrite p.1 residual p.2) (root, a0)).comp
      (.inl ℝ (ι → ℝ) (κ → ℝ))).IsInvertible)
    {y : (κ → ℝ) → (ι → ℝ)} (hy : IsBranch (fun a z => rewrite z residual a = 0) y a0 root) :
    ∀ᶠ a in 𝓝 a0, jvpsThrough solve rewrite residual after ts (y a, a) =
      iteratedFDeriv ℝ ts.length (fun a => after (y a, a)) a (directions ts) := by
  induction ts generalizing n with
  | nil => exact .of_forall fun a => by simp [jvpsThrough]
  | cons t ts ih =>
    have e : n + (t :: ts).length = n + 1 + ts.length := by simp; omega
    rw [e] at hc ha
    set G := fun p : (ι → ℝ) × (κ → ℝ) => rewrite p.1 residual p.2 with hG
    set Φ := jvpsThrough solve rewrite residual after ts with hΦ
    have hys : ContDiffAt ℝ (n + 1 + ts.length : ℕ) y a0 := branch_smooth (by omega) hc hinv hy
    have hone : ((n + 1 + ts.length : ℕ) : WithTop ℕ∞) ≠ 0 := by norm_cast; omega
    have hpair : ContDiffAt ℝ (n + 1 + ts.length : ℕ) (fun a => (y a, a)) a0 := hys.prodMk contDiffAt_id
    have hpt : (y a0, a0) = (root, a0) := by rw [hy.2.1]
    have hP : ContDiffAt ℝ (n + 1 + ts.length : ℕ) (fun a => after (y a, a)) a0 :=
      ContDiffAt.comp (g := after) (f := fun a => (y a, a)) a0 (hpt ▸ ha) hpair
    have htend : Tendsto (fun a => (y a, a)) (𝓝 a0) (𝓝 (root, a0)) := hpt ▸ hpair.continuousAt.tendsto
    have hΦc : ContDiffAt ℝ (n + 1 : ℕ) Φ (root, a0) := jvpsThrough_contDiff hs ts hc ha hinv
    have hAc : ContinuousAt (fun q => (fderiv ℝ G q).comp (.inl ℝ (ι → ℝ) (κ → ℝ))) (root, a0) := by
      have h1 : ContDiffAt ℝ 0 (fderiv ℝ G) (root, a0) := hc.fderiv_right (by norm_cast; omega)
      exact (h1.clm_comp contDiffAt_const).continuousAt
    filter_upwards [(ih (n := n + 1) (by omega) hc ha).eventually_nhds, hy.2.2.eventually_nhds, hys.eventually (nat_ne_infty _), hP.eventually (nat_ne_infty _),
      htend.eventually (hΦc.eventually (nat_ne_infty _)), htend.eventually (hc.eventually (nat_ne_infty _)),
      htend.eventually (eventually_invertible hAc hinv)] with a h1 h2 h3 h4 h5 h6 h7
    have hyd : HasFDerivAt y (fderiv ℝ y a) a := (h3.differentiableAt hone).hasFDerivAt
    have hpd : HasFDerivAt (fun a => (y a, a)) ((fderiv ℝ y a).prod (.id ℝ (κ → ℝ))) a := hyd.prodMk (hasFDerivAt_id a)
    have hGd : HasFDerivAt G (fderiv ℝ G (y a, a)) (y a, a) := (h6.differentiableAt hone).hasFDerivAt
    -- the branch solves the linearised equation
    have hlin : ∀ v, fderiv ℝ G (y a, a) (fderiv ℝ y a v, v) = 0 := by
      have hz : HasFDerivAt (fun a => G (y a, a)) (0 : (κ → ℝ) →L[ℝ] (ο → ℝ)) a :=
        (hasFDerivAt_const (0 : ο → ℝ) a).congr_of_eventuallyEq h2
      have := (HasFDerivAt.comp (g := G) (f := fun a => (y a, a)) a hGd hpd).unique hz
      intro v
      exact congrArg (fun L : (κ → ℝ) →L[ℝ] (ο → ℝ) => L v) this
    have htan : tangentAt solve rewrite residual t (y a, a) = fderiv ℝ y a fun k => (t k).getD 0 := by
      rw [tangentAt_eq hs t hGd.differentiableAt h7]
      set v := fun k => (t k).getD 0
      have h8 := hlin v
      have h9 : (fderiv ℝ y a v, v) = (fderiv ℝ y a v, (0 : κ → ℝ)) + ((0 : ι → ℝ), v) := by simp
      rw [h9, map_add] at h8
      have h10 : fderiv ℝ G (y a, a) (0, v) = -((fderiv ℝ G (y a, a)).comp (.inl ℝ (ι → ℝ) (κ → ℝ))) (fderiv ℝ y a v) := by
        rw [eq_neg_iff_add_eq_zero, add_comm]; exact h8
      rw [h10, map_neg, neg_neg]
      obtain ⟨e, he⟩ := h7
      rw [← he]
      simp
    have hΦd : HasFDerivAt Φ (fderiv ℝ Φ (y a, a)) (y a, a) := (h5.differentiableAt (by norm_cast)).hasFDerivAt
    have hL : HasFDerivAt (fun a => Φ (y a, a)) ((fderiv ℝ Φ (y a, a)).comp ((fderiv ℝ y a).prod (.id ℝ (κ → ℝ)))) a :=
      HasFDerivAt.comp (g := Φ) (f := fun a => (y a, a)) a hΦd hpd
    have hI : DifferentiableAt ℝ (iteratedFDeriv ℝ ts.length fun a => after (y a, a)) a :=
      h4.differentiableAt_iteratedFDeriv (by norm_cast; omega)
    have hR : HasFDerivAt (fun a => iteratedFDeriv ℝ ts.length (fun a => after (y a, a)) a (directions ts))
        ((ContinuousMultilinearMap.apply ℝ (fun _ => κ → ℝ) E (directions ts)).comp
          (fderiv ℝ (iteratedFDeriv ℝ ts.length fun a => after (y a, a)) a)) a :=
      (ContinuousMultilinearMap.apply ℝ (fun _ => κ → ℝ) E (directions ts)).hasFDerivAt.comp a hI.hasFDerivAt
    have heq := hL.unique (hR.congr_of_eventuallyEq h1)
    show fderiv ℝ Φ (y a, a) (tangentAt solve rewrite residual t (y a, a), fun k => (t k).getD 0) = _
    rw [htan]
    have := congrArg (fun L : (κ → ℝ) →L[ℝ] E => L fun k => (t k).getD 0) heq
    exact this

/-- The part of the inputs that `fn` sees. -/
def argsOf (inputs : Inputs κ μ) : κ → ℝ := fun k => inputs (.inl k)

theorem argsOf_contDiff {n : WithTop ℕ∞} (i : Inputs κ μ) : ContDiffAt ℝ n (argsOf : Inputs κ μ → κ → ℝ) i :=
  contDiffAt_pi.2 fun k => (contDiff_apply ℝ ℝ (.inl k : κ ⊕ μ)).contDiffAt

theorem differentiated_generic (solve : Solve ι ο) (hs : Exact solve) (primal : Inputs κ μ → (ι → ℝ) × R) (inputs : Inputs κ μ)
    (root : ι → ℝ) (hr : (primal inputs).1 = root) (G : (ι → ℝ) → (κ → ℝ) → (ο → ℝ)) (after : (ι → ℝ) × Inputs κ μ → E)
    (ts : List (κ ⊕ μ → Option ℝ))
    (hG : ContDiffAt ℝ ts.length (fun p : (ι → ℝ) × (κ → ℝ) => G p.1 p.2) (root, argsOf inputs))
    (ha : ContDiffAt ℝ ts.length after (root, inputs))
    (hinv : (fderiv ℝ (fun z => G z (argsOf inputs)) root).IsInvertible)
    (y : (κ → ℝ) → (ι → ℝ)) (hy : IsBranch (fun a z => G z a = 0) y (argsOf inputs) root) :
    differentiated solve primal (fun z _ i => G z (argsOf i)) after ts inputs =
      iteratedFDeriv ℝ ts.length (fun i => after (y (argsOf i), i)) inputs (directions ts) := by
  subst hr
  cases hts : ts with
  | nil => simp [differentiated, jvpsThrough, hy.2.1]
  | cons t ts' =>
    rw [← hts]
    have hlen : ts.length ≠ 0 := by simp [hts]
    let rewrite : (ι → ℝ) → R → Inputs κ μ → (ο → ℝ) := fun z _ i => G z (argsOf i)
    have hc : ContDiffAt ℝ (0 + ts.length : ℕ) (fun p : (ι → ℝ) × (κ ⊕ μ → ℝ) => rewrite p.1 (primal inputs).2 p.2)
        ((primal inputs).1, inputs) := by
      rw [zero_add]
      exact ContDiffAt.comp (g := fun p : (ι → ℝ) × (κ → ℝ) => G p.1 p.2) (f := fun p : (ι → ℝ) × (κ ⊕ μ → ℝ) => (p.1, argsOf p.2))
        ((primal inputs).1, inputs) hG (contDiffAt_fst.prodMk
          (ContDiffAt.comp (g := argsOf) (f := fun p : (ι → ℝ) × (κ ⊕ μ → ℝ) => p.2) ((primal inputs).1, inputs)
            (argsOf_contDiff inputs) contDiffAt_snd))
    have hne : ((ts.length : ℕ) : WithTop ℕ∞) ≠ 0 := by exact_mod_cast hlen
    have hd : DifferentiableAt ℝ (fun p : (ι → ℝ) × (κ ⊕ μ → ℝ) => rewrite p.1 (primal inputs).2 p.2) ((primal inputs).1, inputs) :=
      hc.differentiableAt (by rw [zero_add]; exact hne)
    have hinv' : ((fderiv ℝ (fun p : (ι → ℝ) × (κ ⊕ μ → ℝ) => rewrite p.1 (primal inputs).2 p.2) ((primal inputs).1, inputs)).comp
        (.inl ℝ (ι → ℝ) (κ ⊕ μ → ℝ))).IsInvertible := by
      rw [← (pair_partials (G := fun z a => rewrite z (primal inputs).2 a) hd).1]
      exact hinv
    have hb : IsBranch (fun a z => rewrite z (primal inputs).2 a = 0) (fun i => y (argsOf i)) inputs (primal inputs).1 := by
      have hcont : ContinuousAt (argsOf : Inputs κ μ → κ → ℝ) inputs := (argsOf_contDiff (n := 0) inputs).continuousAt
      exact ⟨ContinuousAt.comp (g := y) hy.1 hcont, hy.2.1, hcont.eventually hy.2.2⟩
    have := (jvpsThrough_eventually hs ts (n := 0) (by omega) hc (by rw [zero_add]; exact ha) hinv' hb).self_of_nhds
    simp only [hy.2.1] at this
    exact this

/-- **C88**, `root_find`.  Let a program run `root_find` (with a root finder or a least-squares solver) and compute `after(root, inputs)` from the answer.  Its
derivatives of every order, along any directions, are those of `after(y(args), inputs)`, where `y` is the branch of roots through the
answer. -/
theorem C88_root_find (solve : Solve ι ι) (hs : Exact solve) (primal : Inputs κ μ → (ι → ℝ) × R) (inputs : Inputs κ μ)
    (root : ι → ℝ) (hr : (primal inputs).1 = root) (fn : (ι → ℝ) → (κ → ℝ) → (ι → ℝ)) (after : (ι → ℝ) × Inputs κ μ → E)
    (ts : List (κ ⊕ μ → Option ℝ))
    (hfn : ContDiffAt ℝ ts.length (fun p : (ι → ℝ) × (κ → ℝ) => fn p.1 p.2) (root, argsOf inputs))
    (ha : ContDiffAt ℝ ts.length after (root, inputs))
    (hinv : (fderiv ℝ (fun z => fn z (argsOf inputs)) root).IsInvertible)
    (y : (κ → ℝ) → (ι → ℝ)) (hy : IsBranch (fun a z => fn z a = 0) y (argsOf inputs) root) :
    differentiated solve primal (rewriteRootFind fn) after ts inputs =
      iteratedFDeriv ℝ ts.length (fun i => after (y (argsOf i), i)) inputs (directions ts) :=
  differentiated_generic solve hs primal inputs root hr fn after ts hfn ha hinv y hy

/-- **C88**, `fixed_point`. -/
theorem C88_fixed_point (solve : Solve ι ι) (hs : Exact solve) (primal : Inputs κ μ → (ι → ℝ) × R) (inputs : Inputs κ μ)
    (point : ι → ℝ) (hr : (primal inputs).1 = point) (fn : (ι → ℝ) → (κ → ℝ) → (ι → ℝ)) (after : (ι → ℝ) × Inputs κ μ → E)
    (ts : List (κ ⊕ μ → Option ℝ))
    (hfn : ContDiffAt ℝ ts.length (fun p : (ι → ℝ) × (κ → ℝ) => fn p.1 p.2) (point, argsOf inputs))
    (ha : ContDiffAt ℝ ts.length after (point, inputs))
    (hinv : (fderiv ℝ (fun z => fn z (argsOf inputs) - z) point).IsInvertible)
    (y : (κ → ℝ) → (ι → ℝ)) (hy : IsBranch (fun a z => fn z a = z) y (argsOf inputs) point) :
    differentiated solve primal (rewriteFixedPoint fn) after ts inputs =
      iteratedFDeriv ℝ ts.length (fun i => after (y (argsOf i), i)) inputs (directions ts) :=
  differentiated_generic solve hs primal inputs point hr (fun z a => fn z a - z) after ts (hfn.sub contDiffAt_fst) ha hinv y
    ⟨hy.1, hy.2.1, hy.2.2.mono fun _ h => sub_eq_zero.2 h⟩

/-- The gradient is one order less smooth than the function. -/
theorem grad_contDiffAt_nat [DecidableEq ι] (fn : (ι → ℝ) → (κ → ℝ) → ℝ) (x : ι → ℝ) (a : κ → ℝ) {n : ℕ}
    (hfn : ContDiffAt ℝ (n + 1 : ℕ) (fun p : (ι → ℝ) × (κ → ℝ) => fn p.1 p.2) (x, a)) :
    ContDiffAt ℝ n (fun p : (ι → ℝ) × (κ → ℝ) => grad (fun z => fn z p.2) p.1) (x, a) := by
  refine contDiffAt_pi.2 fun i => ?_
  have h1 : ContDiffAt ℝ n (fderiv ℝ fun p : (ι → ℝ) × (κ → ℝ) => fn p.1 p.2) (x, a) := hfn.fderiv_right (m := n) (by norm_cast)
  have h2 : ContDiffAt ℝ n (fun p => fderiv ℝ (fun p : (ι → ℝ) × (κ → ℝ) => fn p.1 p.2) p (Pi.single i 1, 0)) (x, a) :=
    h1.clm_apply contDiffAt_const
  refine h2.congr_of_eventuallyEq ?_
  filter_upwards [hfn.eventually (nat_ne_infty _)] with p hp
  have hd : HasFDerivAt (fun p : (ι → ℝ) × (κ → ℝ) => fn p.1 p.2) _ p := (hp.differentiableAt (by norm_cast)).hasFDerivAt
  show fderiv ℝ (fun z => fn z p.2) p.1 (Pi.single i 1) = _
  have h3 : HasFDerivAt (fun z => fn z p.2) _ p.1 := HasFDerivAt.comp (g := fun p : (ι → ℝ) × (κ → ℝ) => fn p.1 p.2)
    (f := fun y => (y, p.2)) p.1 hd (hasFDerivAt_prodMk_left p.1 p.2)
  rw [h3.fderiv]
  rfl

/-- **C88**, `minimise`. -/
theorem C88_minimise [DecidableEq ι] (solve : Solve ι ι) (hs : Exact solve) (primal : Inputs κ μ → (ι → ℝ) × R) (inputs : Inputs κ μ)
    (minimum : ι → ℝ) (hr : (primal inputs).1 = minimum) (fn : (ι → ℝ) → (κ → ℝ) → ℝ) (after : (ι → ℝ) × Inputs κ μ → E)
    (ts : List (κ ⊕ μ → Option ℝ))
    (hfn : ContDiffAt ℝ (ts.length + 1 : ℕ) (fun p : (ι → ℝ) × (κ → ℝ) => fn p.1 p.2) (minimum, argsOf inputs))
    (ha : ContDiffAt ℝ ts.length after (minimum, inputs))
    (hinv : (fderiv ℝ (grad fun z => fn z (argsOf inputs)) minimum).IsInvertible)
    (y : (κ → ℝ) → (ι → ℝ)) (hy : IsBranch (fun a z => IsLocalMin (fun x => fn x a) z) y (argsOf inputs) minimum) :
    differentiated solve primal (rewriteMinimise fn) after ts inputs =
      iteratedFDeriv ℝ ts.length (fun i => after (y (argsOf i), i)) inputs (directions ts) :=
  differentiated_generic solve hs primal inputs minimum hr (fun z a => grad (fun x => fn x a) z) after ts
    (grad_contDiffAt_nat fn minimum _ hfn) ha hinv y ⟨hy.1, hy.2.1, hy.2.2.mono fun _ h => grad_local_min h⟩

/-- **C88**, `least_squares`. -/
theorem C88_least_squares [DecidableEq ι] (solve : Solve ι ι) (hs : Exact solve) (primal : Inputs κ μ → (ι → ℝ) × R)
    (inputs : Inputs κ μ) (optimum : ι → ℝ) (hr : (primal inputs).1 = optimum) (fn : (ι → ℝ) → (κ → ℝ) → (ο → ℝ))
    (after : (ι → ℝ) × Inputs κ μ → E) (ts : List (κ ⊕ μ → Option ℝ))
    (hfn : ContDiffAt ℝ (ts.length + 1 : ℕ) (fun p : (ι → ℝ) × (κ → ℝ) => fn p.1 p.2) (optimum, argsOf inputs))
    (ha : ContDiffAt ℝ ts.length after (optimum, inputs))
    (hinv : (fderiv ℝ (grad fun z => 1 / 2 * ∑ j, fn z (argsOf inputs) j ^ 2) optimum).IsInvertible)
    (y : (κ → ℝ) → (ι → ℝ)) (hy : IsBranch (fun a z => IsLocalMin (fun x => ∑ j, fn x a j ^ 2) z) y (argsOf inputs) optimum) :
    differentiated solve primal (rewriteLeastSquares fn) after ts inputs =
      iteratedFDeriv ℝ ts.length (fun i => after (y (argsOf i), i)) inputs (directions ts) := by
  have hobj : ∀ (x : ι → ℝ) (a : κ → ℝ), (0.5 : ℝ) * ∑ j, fn x a j * fn x a j = 1 / 2 * ∑ j, fn x a j ^ 2 := by
    intro x a
    rw [show (0.5 : ℝ) = 1 / 2 by norm_num]
    congr 1
    exact Finset.sum_congr rfl fun j _ => by ring
  refine C88_minimise (R := R) solve hs primal inputs optimum hr (fun x a => (0.5 : ℝ) * ∑ j, fn x a j * fn x a j) after ts ?_ ha ?_ y
    ⟨hy.1, hy.2.1, ?_⟩
  · refine contDiffAt_const.mul (ContDiffAt.sum fun j _ => ?_)
    have := contDiffAt_pi.1 hfn j
    exact this.mul this
  · simp only [hobj]
    exact hinv
  · filter_upwards [hy.2.2] with a ha
    simp only [hobj]
    filter_upwards [ha] with x hx
    exact mul_le_mul_of_nonneg_left hx (by norm_num)

/-- **C88**, answers that are not exact.  As the answer of the solver gets better, so do the derivatives of every order. -/
theorem C88_approximate_roots (solve : Solve ι ι) (hs : Exact solve) (primal : ℕ → Inputs κ μ → (ι → ℝ) × R) (inputs : Inputs κ μ)
    (root : ι → ℝ) (hr : Tendsto (fun m => (primal m inputs).1) atTop (𝓝 root))
    (fn : (ι → ℝ) → (κ → ℝ) → (ι → ℝ)) (after : (ι → ℝ) × Inputs κ μ → E) (ts : List (κ ⊕ μ → Option ℝ)) (hts : ts ≠ [])
    (hfn : ContDiffAt ℝ ts.length (fun p : (ι → ℝ) × (κ → ℝ) => fn p.1 p.2) (root, argsOf inputs))
    (ha : ContDiffAt ℝ ts.length after (root, inputs))
    (hinv : (fderiv ℝ (fun z => fn z (argsOf inputs)) root).IsInvertible)
    (y : (κ → ℝ) → (ι → ℝ)) (hy : IsBranch (fun a z => fn z a = 0) y (argsOf inputs) root) :
    Tendsto (fun m => differentiated solve (primal m) (rewriteRootFind fn) after ts inputs) atTop
      (𝓝 (iteratedFDeriv ℝ ts.length (fun i => after (y (argsOf i), i)) inputs (directions ts))) := by
  have hlim := C88_root_find solve hs (fun _ => (root, ())) inputs root rfl fn after ts hfn ha hinv y hy
  rw [← hlim]
  let rewrite : (ι → ℝ) → Unit → Inputs κ μ → (ι → ℝ) := rewriteRootFind fn
  have hres : ∀ m, differentiated solve (primal m) (rewriteRootFind fn) after ts inputs =
      jvpsThrough solve rewrite () after ts ((primal m inputs).1, inputs) := by
    intro m
    unfold differentiated
    generalize ((primal m inputs).1, inputs) = p
    induction ts generalizing p with
    | nil => rfl
    | cons t ts ih =>
      have h : jvpsThrough solve (rewriteRootFind fn) (primal m inputs).2 after ts = jvpsThrough solve rewrite () after ts := by
        by_cases hn : ts = []
        · rw [hn]; rfl
        · exact funext fun q => ih hn (hfn.of_le (by simp)) (ha.of_le (by simp))
            (C88_root_find solve hs (fun _ => (root, ())) inputs root rfl fn after ts (hfn.of_le (by simp)) (ha.of_le (by simp))
              hinv y hy) q
      show jvpThrough _ _ _ _ _ _ = jvpThrough _ _ _ _ _ _
      rw [h]; rfl
  simp only [hres]
  have hc : ContDiffAt ℝ (0 + ts.length : ℕ) (fun p : (ι → ℝ) × (κ ⊕ μ → ℝ) => rewrite p.1 () p.2) (root, inputs) := by
    rw [zero_add]
    exact ContDiffAt.comp (g := fun p : (ι → ℝ) × (κ → ℝ) => fn p.1 p.2) (f := fun p : (ι → ℝ) × (κ ⊕ μ → ℝ) => (p.1, argsOf p.2))
      (root, inputs) hfn (contDiffAt_fst.prodMk (ContDiffAt.comp (g := argsOf) (f := fun p : (ι → ℝ) × (κ ⊕ μ → ℝ) => p.2)
        (root, inputs) (argsOf_contDiff inputs) contDiffAt_snd))
  have hne : ((ts.length : ℕ) : WithTop ℕ∞) ≠ 0 := by
    have : ts.length ≠ 0 := by simpa using hts
    exact_mod_cast this
  have hd : DifferentiableAt ℝ (fun p : (ι → ℝ) × (κ ⊕ μ → ℝ) => rewrite p.1 () p.2) (root, inputs) :=
    hc.differentiableAt (by rw [zero_add]; exact hne)
  have hinv' : ((fderiv ℝ (fun p : (ι → ℝ) × (κ ⊕ μ → ℝ) => rewrite p.1 () p.2) (root, inputs)).comp
      (.inl ℝ (ι → ℝ) (κ ⊕ μ → ℝ))).IsInvertible := by
    rw [← (pair_partials (G := fun z a => rewrite z () a) hd).1]
    exact hinv
  have hcont : ContinuousAt (jvpsThrough solve rewrite () after ts) (root, inputs) :=
    (jvpsThrough_contDiff (n := 0) hs ts hc (by rw [zero_add]; exact ha) hinv').continuousAt
  refine hcont.tendsto.comp ?_
  rw [nhds_prod_eq]
  exact hr.prodMk tendsto_const_nhds

/-! ### Reverse mode -/

variable [DecidableEq ι] [DecidableEq κ] [DecidableEq ο]

theorem map_eq_sum (A : (ι → ℝ) →L[ℝ] (ο → ℝ)) (u : ι → ℝ) (j : ο) : A u j = ∑ i, u i * A (Pi.single i 1) j := by
  conv_lhs => rw [show u = ∑ i, u i • (Pi.single i (1 : ℝ) : ι → ℝ) from by
    funext k; simp [Finset.sum_apply, Pi.single_apply]]
  rw [map_sum]
  simp [Finset.sum_apply]

/-- What transposition means. -/
theorem transposed_spec (A : (ι → ℝ) →L[ℝ] (ο → ℝ)) (u : ι → ℝ) (w : ο → ℝ) :
    ∑ i, transposed A w i * u i = ∑ j, w j * A u j := by
  simp only [map_eq_sum A u, Finset.mul_sum]
  rw [Finset.sum_comm]
  refine Finset.sum_congr rfl fun i _ => ?_
  show (∑ j, (A (Pi.single i 1) j) • ContinuousLinearMap.proj (R := ℝ) (φ := fun _ : ο => ℝ) j) w * u i = _
  rw [ContinuousLinearMap.sum_apply, Finset.sum_mul]
  refine Finset.sum_congr rfl fun j _ => ?_
  simp; ring

theorem transposed_inverse (A : (ι → ℝ) →L[ℝ] (ο → ℝ)) (B : (ο → ℝ) →L[ℝ] (ι → ℝ)) (h : ∀ u, B (A u) = u) (v : ι → ℝ) :
    transposed A (transposed B v) = v := by
  funext i
  have h1 := transposed_spec A (Pi.single i 1) (transposed B v)
  have h2 := transposed_spec B (A (Pi.single i 1)) v
  rw [h] at h2
  simpa [Pi.single_apply] using h1.trans h2

theorem transposed_invertible {A : (ι → ℝ) →L[ℝ] (ο → ℝ)} (hA : A.IsInvertible) : (transposed A).IsInvertible := by
  obtain ⟨e, rfl⟩ := hA
  refine ⟨ContinuousLinearEquiv.equivOfInverse (transposed (e : (ι → ℝ) →L[ℝ] (ο → ℝ))) (transposed (e.symm : (ο → ℝ) →L[ℝ] (ι → ℝ)))
    (fun w => ?_) (fun v => ?_), rfl⟩
  · exact transposed_inverse _ _ (fun u => by simp) w
  · exact transposed_inverse _ _ (fun u => by simp) v

/-- Reverse mode computes the same numbers as forward mode. -/
theorem gradThrough_eq (solve : Solve ι ο) (hs : Exact solve) (solveT : Solve ο ι) (hsT : Exact solveT)
    (primal : (κ → ℝ) → (ι → ℝ) × R) (rewrite : (ι → ℝ) → R → (κ → ℝ) → (ο → ℝ)) (after : (ι → ℝ) × (κ → ℝ) → (Unit → ℝ)) (inputs : κ → ℝ)
    (hd : DifferentiableAt ℝ (fun p : (ι → ℝ) × (κ → ℝ) => rewrite p.1 (primal inputs).2 p.2) ((primal inputs).1, inputs))
    (ha : DifferentiableAt ℝ after ((primal inputs).1, inputs))
    (hinv : ((fderiv ℝ (fun p : (ι → ℝ) × (κ → ℝ) => rewrite p.1 (primal inputs).2 p.2) ((primal inputs).1, inputs)).comp
      (.inl ℝ (ι → ℝ) (κ → ℝ))).IsInvertible) (k : κ) :
    gradThrough solveT primal rewrite after inputs k =
      differentiated solve primal rewrite after [fun j => some ((Pi.single k (1 : ℝ) : κ → ℝ) j)] inputs () := by
  set root := (primal inputs).1 with hroot
  set res := (primal inputs).2 with hres
  set G := fun p : (ι → ℝ) × (κ → ℝ) => rewrite p.1 res p.2 with hG
  obtain ⟨h1, h2⟩ := pair_partials (G := fun z a => rewrite z res a) hd
  obtain ⟨a1, a2⟩ := pair_partials (G := fun z a => after (z, a)) ha
  set A := (fderiv ℝ G (root, inputs)).comp (.inl ℝ (ι → ℝ) (κ → ℝ)) with hA
  set B := (fderiv ℝ G (root, inputs)).comp (.inr ℝ (ι → ℝ) (κ → ℝ)) with hB
  set C := (fderiv ℝ after (root, inputs)).comp (.inl ℝ (ι → ℝ) (κ → ℝ)) with hC
  set D := (fderiv ℝ after (root, inputs)).comp (.inr ℝ (ι → ℝ) (κ → ℝ)) with hD
  have e1 : fderiv ℝ (fun z => rewrite z res inputs) root = A := h1
  have e2 : fderiv ℝ (rewrite root res) inputs = B := h2.fderiv
  have e3 : fderiv ℝ (fun z => after (z, inputs)) root = C := a1
  have e4 : fderiv ℝ (fun a => after (root, a)) inputs = D := a2.fderiv
  set ek : κ → ℝ := Pi.single k 1 with hek
  have htan : tangentAt solve rewrite res (fun j => some (ek j)) (root, inputs) = -A.inverse (B ek) := by
    rw [tangentAt_eq hs _ hd hinv]; rfl
  have hu : A (A.inverse (B ek)) = B ek := by
    obtain ⟨e, he⟩ := hinv
    rw [← he]; simp
  set u := A.inverse (B ek) with hudef
  have hR : differentiated solve primal rewrite after [fun j => some (ek j)] inputs () = -C u () + D ek () := by
    show fderiv ℝ after (root, inputs) (tangentAt solve rewrite res (fun j => some (ek j)) (root, inputs), ek) () = _
    rw [htan, show ((-u, ek) : (ι → ℝ) × (κ → ℝ)) = -(u, 0) + (0, ek) by simp, map_add, map_neg]
    rfl
  rw [hR]
  unfold gradThrough
  simp only [← hroot, ← hres, e1, e2, e3, e4]
  set w := solveT (transposed A) (Derivatives.linearTranspose C fun _ => 1) with hw
  have hw' : transposed A w = Derivatives.linearTranspose C fun _ => 1 := hsT _ (transposed_invertible hinv) _
  have hsum := transposed_spec A u w
  rw [hw', hu] at hsum
  have hCu : ∑ i, Derivatives.linearTranspose C (fun _ => 1) i * u i = C u () := by
    rw [map_eq_sum C u ()]
    refine Finset.sum_congr rfl fun i _ => ?_
    simp [Derivatives.linearTranspose]; ring
  rw [hCu] at hsum
  have hDk : Derivatives.linearTranspose D (fun _ => 1) k = D ek () := by simp [Derivatives.linearTranspose, hek]
  have hBk : Derivatives.linearTranspose B (fun j => -w j) k = -∑ j, w j * B ek j := by
    simp [Derivatives.linearTranspose, hek, Finset.sum_neg_distrib]
  rw [hDk, hBk, ← hsum]
  ring

theorem gradThrough_generic [DecidableEq μ] (solve : Solve ο ι) (hs : Exact solve) (primal : Inputs κ μ → (ι → ℝ) × R) (inputs : Inputs κ μ)
    (root : ι → ℝ) (hr : (primal inputs).1 = root) (G : (ι → ℝ) → (κ → ℝ) → (ο → ℝ)) (loss : (ι → ℝ) × Inputs κ μ → ℝ)
    (hG : ContDiffAt ℝ 1 (fun p : (ι → ℝ) × (κ → ℝ) => G p.1 p.2) (root, argsOf inputs)) (ha : ContDiffAt ℝ 1 loss (root, inputs))
    (hinv : (fderiv ℝ (fun z => G z (argsOf inputs)) root).IsInvertible)
    (y : (κ → ℝ) → (ι → ℝ)) (hy : IsBranch (fun a z => G z a = 0) y (argsOf inputs) root) :
    gradThrough solve primal (fun z _ i => G z (argsOf i)) (fun p _ => loss p) inputs = grad (fun i => loss (y (argsOf i), i)) inputs := by
  subst hr
  obtain ⟨solve', hs'⟩ := exact_exists (ι := ι) (ο := ο)
  have hafter : ContDiffAt ℝ 1 (fun (p : (ι → ℝ) × Inputs κ μ) (_ : Unit) => loss p) ((primal inputs).1, inputs) :=
    contDiffAt_pi.2 fun _ => ha
  have hc : ContDiffAt ℝ 1 (fun p : (ι → ℝ) × (κ ⊕ μ → ℝ) => G p.1 (argsOf p.2)) ((primal inputs).1, inputs) :=
    ContDiffAt.comp (g := fun p : (ι → ℝ) × (κ → ℝ) => G p.1 p.2) (f := fun p : (ι → ℝ) × (κ ⊕ μ → ℝ) => (p.1, argsOf p.2))
      ((primal inputs).1, inputs) hG (contDiffAt_fst.prodMk (ContDiffAt.comp (g := argsOf) (f := fun p : (ι → ℝ) × (κ ⊕ μ → ℝ) => p.2)
        ((primal inputs).1, inputs) (argsOf_contDiff inputs) contDiffAt_snd))
  have hd := hc.differentiableAt one_ne_zero
  have hinv' : ((fderiv ℝ (fun p : (ι → ℝ) × (κ ⊕ μ → ℝ) => G p.1 (argsOf p.2)) ((primal inputs).1, inputs)).comp
      (.inl ℝ (ι → ℝ) (κ ⊕ μ → ℝ))).IsInvertible := by
    rw [← (pair_partials (G := fun z (a : Inputs κ μ) => G z (argsOf a)) hd).1]
    exact hinv
  funext k
  rw [gradThrough_eq solve' hs' solve hs primal _ _ inputs hd (hafter.differentiableAt one_ne_zero) hinv' k,
    differentiated_generic solve' hs' primal inputs _ rfl G _ [fun j => some ((Pi.single k (1 : ℝ) : κ ⊕ μ → ℝ) j)]
      (by simpa using hG) (by simpa using hafter) hinv y hy]
  have hys : ContDiffAt ℝ (1 : ℕ) y (argsOf inputs) := by
    refine branch_smooth (rewrite := fun z (_ : Unit) a => G z a) (residual := ()) one_ne_zero (by simpa using hG) ?_ hy
    rw [← (pair_partials (G := G) (hG.differentiableAt one_ne_zero)).1]
    exact hinv
  have hpair : ContDiffAt ℝ 1 (fun i : Inputs κ μ => (y (argsOf i), i)) inputs :=
    (ContDiffAt.comp (g := y) (f := argsOf) inputs (by simpa using hys) (argsOf_contDiff inputs)).prodMk contDiffAt_id
  have hpt : (y (argsOf inputs), inputs) = ((primal inputs).1, inputs) := by rw [hy.2.1]
  have hL : ContDiffAt ℝ 1 (fun i : Inputs κ μ => loss (y (argsOf i), i)) inputs :=
    ContDiffAt.comp (g := loss) (f := fun i : Inputs κ μ => (y (argsOf i), i)) inputs (hpt ▸ ha) hpair
  have hdL := (hL.differentiableAt one_ne_zero).hasFDerivAt
  have hU : HasFDerivAt (fun (i : Inputs κ μ) (_ : Unit) => loss (y (argsOf i), i))
      (ContinuousLinearMap.pi fun _ : Unit => fderiv ℝ (fun i : Inputs κ μ => loss (y (argsOf i), i)) inputs) inputs :=
    hasFDerivAt_pi.2 fun _ => hdL
  show iteratedFDeriv ℝ 1 (fun (i : Inputs κ μ) (_ : Unit) => loss (y (argsOf i), i)) inputs
    (directions [fun j => some ((Pi.single k (1 : ℝ) : κ ⊕ μ → ℝ) j)]) () =
      fderiv ℝ (fun i => loss (y (argsOf i), i)) inputs (Pi.single k 1)
  rw [iteratedFDeriv_one_apply, hU.fderiv]
  rfl

/-- **C88**, reverse mode, `root_find`: `jax.grad` of a loss that depends on the answer and on the inputs is the gradient of the loss
along the branch of roots. -/
theorem C88_gradient_root_find [DecidableEq μ] (solve : Solve ι ι) (hs : Exact solve) (primal : Inputs κ μ → (ι → ℝ) × R)
    (inputs : Inputs κ μ) (root : ι → ℝ) (hr : (primal inputs).1 = root) (fn : (ι → ℝ) → (κ → ℝ) → (ι → ℝ))
    (loss : (ι → ℝ) × Inputs κ μ → ℝ) (hfn : ContDiffAt ℝ 1 (fun p : (ι → ℝ) × (κ → ℝ) => fn p.1 p.2) (root, argsOf inputs))
    (ha : ContDiffAt ℝ 1 loss (root, inputs)) (hinv : (fderiv ℝ (fun z => fn z (argsOf inputs)) root).IsInvertible)
    (y : (κ → ℝ) → (ι → ℝ)) (hy : IsBranch (fun a z => fn z a = 0) y (argsOf inputs) root) :
    gradThrough solve primal (rewriteRootFind fn) (fun p _ => loss p) inputs = grad (fun i => loss (y (argsOf i), i)) inputs :=
  gradThrough_generic solve hs primal inputs root hr fn loss hfn ha hinv y hy

/-- **C88**, reverse mode, `fixed_point`. -/
theorem C88_gradient_fixed_point [DecidableEq μ] (solve : Solve ι ι) (hs : Exact solve) (primal : Inputs κ μ → (ι → ℝ) × R)
    (inputs : Inputs κ μ) (point : ι → ℝ) (hr : (primal inputs).1 = point) (fn : (ι → ℝ) → (κ → ℝ) → (ι → ℝ))
    (loss : (ι → ℝ) × Inputs κ μ → ℝ) (hfn : ContDiffAt ℝ 1 (fun p : (ι → ℝ) × (κ → ℝ) => fn p.1 p.2) (point, argsOf inputs))
    (ha : ContDiffAt ℝ 1 loss (point, inputs)) (hinv : (fderiv ℝ (fun z => fn z (argsOf inputs) - z) point).IsInvertible)
    (y : (κ → ℝ) → (ι → ℝ)) (hy : IsBranch (fun a z => fn z a = z) y (argsOf inputs) point) :
    gradThrough solve primal (rewriteFixedPoint fn) (fun p _ => loss p) inputs = grad (fun i => loss (y (argsOf i), i)) inputs :=
  gradThrough_generic solve hs primal inputs point hr (fun z a => fn z a - z) loss (hfn.sub contDiffAt_fst) ha hinv y
    ⟨hy.1, hy.2.1, hy.2.2.mono fun _ h => sub_eq_zero.2 h⟩

/-- **C88**, reverse mode, `minimise`. -/
theorem C88_gradient_minimise [DecidableEq μ] (solve : Solve ι ι) (hs : Exact solve) (primal : Inputs κ μ → (ι → ℝ) × R)
    (inputs : Inputs κ μ) (minimum : ι → ℝ) (hr : (primal inputs).1 = minimum) (fn : (ι → ℝ) → (κ → ℝ) → ℝ)
    (loss : (ι → ℝ) × Inputs κ μ → ℝ) (hfn : ContDiffAt ℝ 2 (fun p : (ι → ℝ) × (κ → ℝ) => fn p.1 p.2) (minimum, argsOf inputs))
    (ha : ContDiffAt ℝ 1 loss (minimum, inputs)) (hinv : (fderiv ℝ (grad fun z => fn z (argsOf inputs)) minimum).IsInvertible)
    (y : (κ → ℝ) → (ι → ℝ)) (hy : IsBranch (fun a z => IsLocalMin (fun x => fn x a) z) y (argsOf inputs) minimum) :
    gradThrough solve primal (rewriteMinimise fn) (fun p _ => loss p) inputs = grad (fun i => loss (y (argsOf i), i)) inputs :=
  gradThrough_generic solve hs primal inputs minimum hr (fun z a => grad (fun x => fn x a) z) loss
    (grad_contDiffAt_nat fn minimum _ (n := 1) hfn) ha hinv y ⟨hy.1, hy.2.1, hy.2.2.mono fun _ h => grad_local_min h⟩

/-- `y² - θ` meets the hypotheses with any number of directions, for every `θ > 0`: all derivatives of `√θ` come out right. -/
example (θ : ℝ) (hθ : 0 < θ) (solve : Solve Unit Unit) (hs : Exact solve) (primal : Inputs Unit Empty → (Unit → ℝ) × R)
    (hr : (primal fun _ => θ).1 = fun _ => √θ) (ts : List (Unit ⊕ Empty → Option ℝ)) :
    differentiated solve primal (rewriteRootFind squareMinus) (fun p => p.1 ()) ts (fun _ => θ) =
      iteratedFDeriv ℝ ts.length (fun i : Inputs Unit Empty => √(i (.inl ()))) (fun _ => θ) (directions ts) := by
  refine C88_root_find solve hs primal (fun _ => θ) (fun _ => √θ) hr squareMinus (fun p => p.1 ()) ts ?_ (by fun_prop) ?_
    (fun a _ => √(a ())) ⟨?_, rfl, ?_⟩
  · refine contDiffAt_pi.2 fun _ => ?_
    unfold squareMinus
    fun_prop
  · have hlin : HasFDerivAt (fun z : Unit → ℝ => squareMinus z fun _ => θ)
        ((2 * √θ) • ContinuousLinearMap.id ℝ (Unit → ℝ)) (fun _ => √θ) := by
      refine (hasFDerivAt_pi' (𝕜 := ℝ) (F' := fun _ : Unit => ℝ)).2 fun u => ?_
      have h1 : HasFDerivAt (fun z : Unit → ℝ => z ()) (ContinuousLinearMap.proj (R := ℝ) (φ := fun _ : Unit => ℝ) ())
        (fun _ => √θ) := (ContinuousLinearMap.proj (R := ℝ) (φ := fun _ : Unit => ℝ) ()).hasFDerivAt
      have h2 := (h1.pow 2).sub_const θ
      have e : (ContinuousLinearMap.proj (R := ℝ) (φ := fun _ : Unit => ℝ) u).comp
          ((2 * √θ) • ContinuousLinearMap.id ℝ (Unit → ℝ)) =
          (2 * √θ) • ContinuousLinearMap.proj (R := ℝ) (φ := fun _ : Unit => ℝ) () := by
        ext; simp
      rw [e]
      simpa [squareMinus] using h2
    show (fderiv ℝ (fun z => squareMinus z fun _ => θ) _).IsInvertible
    rw [hlin.fderiv]
    have hne : 2 * √θ ≠ 0 := by positivity
    exact ⟨ContinuousLinearEquiv.smulLeft (Units.mk0 (2 * √θ) hne), by ext; rfl⟩
  · exact continuousAt_pi.2 fun _ => (Real.continuous_sqrt.comp (continuous_apply ())).continuousAt
  · have hU : IsOpen {a : Unit → ℝ | 0 < a ()} := isOpen_lt continuous_const (continuous_apply ())
    filter_upwards [hU.mem_nhds (show 0 < argsOf (fun _ : Unit ⊕ Empty => θ) () from hθ)] with a ha
    funext u
    simp [squareMinus, Real.sq_sqrt (le_of_lt ha)]

end Verif.Props
