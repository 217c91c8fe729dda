import Verif.Props.AdError
import Verif.Props.FixedPoint
import Verif.Props.NewtonLocal
import Verif.Props.NewtonChord
import Verif.Props.Bisection
import Verif.Props.ConvexRates
import Mathlib.Topology.Algebra.Module.FiniteDimension
import Mathlib.Analysis.SpecialFunctions.Trigonometric.Bounds
import Mathlib.Analysis.SpecialFunctions.Trigonometric.Deriv

/-!
**C104.** From the tolerances of a solve to the accuracy of the derivative taken through it: whenever the solve reports success, the
derivative computed at its answer is within a constant times the tolerance (plus the relative residual of the linear solve) of the
derivative of the exact solution.
-/

namespace Verif.Props

open Verif Verif.Spec Verif.Driver Verif.Ad Filter Topology

variable {ι κ μ R A : Type} [Fintype ι] [Fintype κ] [Fintype μ]

/-- All tangents computed at `value`, by any linear solver with relative residual `η`, differ from `D` by at most `C (tol + η)`, relative
to the tangent of the arguments. -/
def TangentsWithin (μ R : Type) [Fintype μ] (rewrite : (ι → ℝ) → R → Inputs κ μ → (ι → ℝ)) (a0 : κ → ℝ)
    (D : (κ → ℝ) →L[ℝ] (ι → ℝ)) (C tol : ℝ) (value : ι → ℝ) : Prop :=
  ∀ (solve : Solve ι ι) (η : ℝ), 0 ≤ η → Approximate solve η →
    ∀ (primal : Inputs κ μ → (ι → ℝ) × R) (inputs : Inputs κ μ), (fun k => inputs (.inl k)) = a0 → (primal inputs).1 = value →
      ∀ t : κ ⊕ μ → Option ℝ, ‖(implicitJvp solve primal rewrite inputs t).2.1 - D fun k => (t (.inl k)).getD 0‖ ≤
        C * (tol + η) * ‖fun k => (t (.inl k)).getD 0‖

/-- If answers are within `c tol` of the solution then derivatives are within a multiple of `tol`. -/
theorem TangentsAccurate.within {rewrite : (ι → ℝ) → R → Inputs κ μ → (ι → ℝ)} {y : (κ → ℝ) → (ι → ℝ)} {a0 : κ → ℝ} {root : ι → ℝ}
    (h : TangentsAccurate rewrite y a0 root) (c : ℝ) (hc : 0 ≤ c) :
    ∃ D, HasFDerivAt y D a0 ∧ ∃ C, ∃ ε > 0, ∀ tol value, 0 ≤ tol → tol ≤ ε → ‖value - root‖ ≤ c * tol →
      TangentsWithin μ R rewrite a0 D C tol value := by
  obtain ⟨D, hD, C, δ, hδ, hC⟩ := h
  refine ⟨D, hD, |C| * (c + 1), δ / (c + 1), by positivity, fun tol value h0 htol hv => ?_⟩
  intro solve η hη hsolve primal inputs hin hval t
  have hct : c * tol ≤ δ := by
    rw [le_div_iff₀ (by positivity)] at htol
    nlinarith
  have h1 := hC solve η hη hsolve primal inputs hin (by rw [hval]; exact hv.trans hct) t
  refine h1.trans (mul_le_mul_of_nonneg_right ?_ (norm_nonneg _))
  rw [hval]
  have h2 : ‖value - root‖ + η ≤ (c + 1) * (tol + η) := by nlinarith [mul_nonneg hc hη]
  calc C * (‖value - root‖ + η) ≤ |C| * (‖value - root‖ + η) := mul_le_mul_of_nonneg_right (le_abs_self C) (by positivity)
    _ ≤ |C| * ((c + 1) * (tol + η)) := mul_le_mul_of_nonneg_left h2 (abs_nonneg C)
    _ = _ := by ring

/-- A function that expands distances has invertible derivatives. -/
theorem expanding_invertible (F : (ι → ℝ) → (ι → ℝ)) (m : ℝ) (hm : 0 < m) (x : ι → ℝ) (hd : DifferentiableAt ℝ F x)
    (hexp : ∀ x y, m * ‖x - y‖ ≤ ‖F x - F y‖) : (fderiv ℝ F x).IsInvertible := by
  have hinj : Function.Injective (fderiv ℝ F x) := by
    refine (injective_iff_map_eq_zero _).2 fun d hd0 => ?_
    by_contra hne
    have hlo := hd.hasFDerivAt.isLittleO
    have hev := hlo.def (c := m / 2) (by positivity)
    have hline : Tendsto (fun t : ℝ => x + t • d) (𝓝[≠] 0) (𝓝 x) := by
      have : Tendsto (fun t : ℝ => x + t • d) (𝓝 0) (𝓝 (x + (0 : ℝ) • d)) := by
        apply Continuous.tendsto; fun_prop
      rw [zero_smul, add_zero] at this
      exact this.mono_left nhdsWithin_le_nhds
    obtain ⟨t, h1, h2⟩ := ((hline.eventually hev).and self_mem_nhdsWithin).exists
    have h3 := hexp (x + t • d) x
    rw [add_sub_cancel_left] at h1 h3
    rw [map_smul, hd0, smul_zero, sub_zero] at h1
    have h4 : 0 < ‖t • d‖ := norm_pos_iff.2 (smul_ne_zero h2 hne)
    nlinarith
  refine ⟨(LinearEquiv.ofInjectiveEndo (fderiv ℝ F x : (ι → ℝ) →ₗ[ℝ] (ι → ℝ)) hinj).toContinuousLinearEquiv, ?_⟩
  ext d i
  rfl

/-- Solutions of uniformly expanding equations form a branch. -/
theorem expanding_branch (G : (ι → ℝ) → (κ → ℝ) → (ι → ℝ)) (hG : Continuous fun p : (ι → ℝ) × (κ → ℝ) => G p.1 p.2) (m : ℝ) (hm : 0 < m)
    (hexp : ∀ a x y, m * ‖x - y‖ ≤ ‖G x a - G y a‖) (p : (κ → ℝ) → (ι → ℝ)) (hp : ∀ a, G (p a) a = 0) (a0 : κ → ℝ) :
    IsBranch (fun a z => G z a = 0) p a0 (p a0) := by
  refine ⟨?_, rfl, Eventually.of_forall hp⟩
  have hb : ∀ a, ‖p a - p a0‖ ≤ m⁻¹ * ‖G (p a0) a‖ := by
    intro a
    have := hexp a (p a) (p a0)
    rw [hp, zero_sub, norm_neg] at this
    rw [le_inv_mul_iff₀ hm]
    exact this
  have hlim : Tendsto (fun a => m⁻¹ * ‖G (p a0) a‖) (𝓝 a0) (𝓝 0) := by
    have hcont : Continuous fun a => m⁻¹ * ‖G (p a0) a‖ := by
      have : Continuous fun a => G (p a0) a := hG.comp (by fun_prop : Continuous fun a : κ → ℝ => (p a0, a))
      fun_prop
    have := hcont.tendsto a0
    simpa [hp] using this
  exact tendsto_iff_norm_sub_tendsto_zero.2 (squeeze_zero (fun _ => norm_nonneg _) hb hlim)

/-- **C104**, `fixed_point` with `FixedPointIteration`.  Let `fn` be twice continuously differentiable and, for all arguments, a
contraction with factor `q < 1` in `y`; let `p(args)` be its fixed point.  Then `p` is differentiable, and there are constants `C` and
`ε > 0` such that whenever a solve with damping at most `d0 < 1` and any tolerances with `tol = atol + rtol |value| ≤ ε` succeeds, from
any `y0`, the derivatives computed at its answer are within `C (tol + η)` of the derivative of `p`. -/
theorem C104_fixed_point (fn : (ι → ℝ) → (κ → ℝ) → (ι → ℝ)) (hfn : ContDiff ℝ 2 fun p : (ι → ℝ) × (κ → ℝ) => fn p.1 p.2)
    (q : ℝ) (hq0 : 0 ≤ q) (hq : q < 1) (hc : ∀ a x y, ‖fn x a - fn y a‖ ≤ q * ‖x - y‖) (p : (κ → ℝ) → (ι → ℝ)) (hp : ∀ a, fn (p a) a = p a)
    (d0 : ℝ) (hd0 : d0 < 1) (a0 : κ → ℝ) :
    ∃ D, HasFDerivAt p D a0 ∧ ∃ C, ∃ ε > 0, ∀ (cfg : FixedPointIter.Cfg ι ℝ) (_ : cfg.norm = maxNorm) (_ : 0 < cfg.atol)
      (_ : 0 ≤ cfg.rtol) (_ : 0 ≤ cfg.damp) (_ : cfg.damp ≤ d0) (aux : (ι → ℝ) → A) (aux0 : A) (y0 : ι → ℝ) (ms : Option ℕ) (throw : Bool)
      (sol : Solution (ι → ℝ) A (Option ℝ) Unit)
      (_ : iterativeSolve (FixedPointIter.solver cfg) (fun _ => true) (fun y => (fn y a0, aux y)) aux0 y0 ms throw = some (.ok sol))
      (_ : sol.result = .successful) (_ : cfg.atol + cfg.rtol * ‖sol.value‖ ≤ ε),
      TangentsWithin μ R (rewriteFixedPoint fn) a0 D C (cfg.atol + cfg.rtol * ‖sol.value‖) sol.value := by
  have hexp : ∀ a x y, (1 - q) * ‖x - y‖ ≤ ‖(fn x a - x) - (fn y a - y)‖ := by
    intro a x y
    have h1 := hc a x y
    have h2 := norm_sub_norm_le (x - y) (fn x a - fn y a)
    have e : (x - y) - (fn x a - fn y a) = -((fn x a - x) - (fn y a - y)) := by abel
    rw [e, norm_neg] at h2
    linarith
  have hG : ContDiff ℝ 2 fun p : (ι → ℝ) × (κ → ℝ) => fn p.1 p.2 - p.1 := hfn.sub contDiff_fst
  have hbr : IsBranch (fun a z => fn z a = z) p a0 (p a0) := by
    obtain ⟨h1, h2, -⟩ := expanding_branch (fun z a => fn z a - z) hG.continuous (1 - q) (by linarith) hexp p
      (fun a => by rw [hp, sub_self]) a0
    exact ⟨h1, h2, Eventually.of_forall hp⟩
  have hinv : (fderiv ℝ (fun y => fn y a0 - y) (p a0)).IsInvertible := by
    refine expanding_invertible _ (1 - q) (by linarith) _ ?_ (hexp a0)
    have h1 : DifferentiableAt ℝ (fun p : (ι → ℝ) × (κ → ℝ) => fn p.1 p.2 - p.1) (p a0, a0) := hG.differentiable (by norm_num) _
    exact h1.comp (p a0) (by fun_prop : DifferentiableAt ℝ (fun y : ι → ℝ => (y, a0)) (p a0))
  have hpos : 0 < (1 - d0) * (1 - q) := mul_pos (by linarith) (by linarith)
  obtain ⟨D, hD, C, ε, hε, hC⟩ := (C96_fixed_point (μ := μ) (R := R) a0 (p a0) fn hfn.contDiffAt hinv p hbr).within
    (1 / ((1 - d0) * (1 - q))) (by positivity)
  refine ⟨D, hD, C, ε, hε, fun cfg hN ha hr hdl hdu aux aux0 y0 ms throw sol h hs htol => ?_⟩
  have hscale : ∀ i, cfg.atol + cfg.rtol * |sol.value i| ≤ cfg.atol + cfg.rtol * ‖sol.value‖ := fun i => by
    have := mul_le_mul_of_nonneg_left (norm_le_pi_norm sol.value i) hr
    rw [Real.norm_eq_abs] at this
    linarith
  set tol := cfg.atol + cfg.rtol * ‖sol.value‖ with htol'
  have htol0 : 0 ≤ tol := by positivity
  refine hC tol sol.value htol0 htol ?_
  obtain ⟨k, -, hv, -, hlt⟩ := C20_success_certificate cfg _ aux0 y0 _ ms throw sol h hs
  set y := (dampedMap cfg.damp fun z => fn z a0)^[k] y0 with hy
  have hyv : ‖y - sol.value‖ ≤ tol := by
    refine (pi_norm_le_iff_of_nonneg htol0).2 fun i => ?_
    rw [hN] at hlt
    have h1 := ((maxNorm_lt_iff _ _).1 hlt).2 i
    have hpos : 0 < cfg.atol + cfg.rtol * |sol.value i| := by positivity
    rw [abs_div, abs_of_pos hpos, div_lt_one hpos] at h1
    exact h1.le.trans (hscale i)
  have hval : sol.value - p a0 = (1 - cfg.damp) • (fn y a0 - fn (p a0) a0) + cfg.damp • (y - p a0) := by
    rw [hp]
    funext i
    simp only [hv, Pi.sub_apply, Pi.add_apply, Pi.smul_apply, smul_eq_mul]
    ring
  have h1 : ‖sol.value - p a0‖ ≤ ((1 - cfg.damp) * q + cfg.damp) * ‖y - p a0‖ := by
    rw [hval]
    refine (norm_add_le _ _).trans ?_
    rw [norm_smul, norm_smul, Real.norm_of_nonneg (by linarith : (0 : ℝ) ≤ 1 - cfg.damp), Real.norm_of_nonneg hdl]
    have := mul_le_mul_of_nonneg_left (hc a0 y (p a0)) (by linarith : (0 : ℝ) ≤ 1 - cfg.damp)
    linarith
  have h2 : ‖y - p a0‖ ≤ tol + ‖sol.value - p a0‖ := by
    calc ‖y - p a0‖ = ‖(y - sol.value) + (sol.value - p a0)‖ := by congr 1; abel
      _ ≤ _ := (norm_add_le _ _).trans (by linarith)
  rw [div_mul_eq_mul_div, one_mul, le_div_iff₀ hpos]
  have hr1 : (1 - d0) * (1 - q) ≤ 1 - ((1 - cfg.damp) * q + cfg.damp) := by nlinarith
  have hr0 : 0 ≤ (1 - cfg.damp) * q + cfg.damp := by
    have := mul_nonneg (by linarith : (0 : ℝ) ≤ 1 - cfg.damp) hq0
    linarith
  have hr2 : (1 - cfg.damp) * q + cfg.damp ≤ 1 := by linarith
  have h3 := mul_le_mul_of_nonneg_left h2 hr0
  have h4 := mul_le_mul_of_nonneg_right hr1 (norm_nonneg (sol.value - p a0))
  have h5 := mul_le_mul_of_nonneg_right hr2 htol0
  linarith

/-- **C104**, `root_find` with `Newton` or `Chord` and Cauchy termination, with or without bounds, for a function that expands distances
(uniformly in the arguments) by at least a factor `m > 0`.  (No assumption about the Jacobians or linear solves of the solver: what counts
is that it reported success.) -/
theorem C104_newton {J : Type} (fn : (ι → ℝ) → (κ → ℝ) → (ι → ℝ)) (hfn : ContDiff ℝ 2 fun p : (ι → ℝ) × (κ → ℝ) => fn p.1 p.2)
    (m : ℝ) (hm : 0 < m) (hexp : ∀ a x y, m * ‖x - y‖ ≤ ‖fn x a - fn y a‖) (p : (κ → ℝ) → (ι → ℝ)) (hp : ∀ a, fn (p a) a = 0) (a0 : κ → ℝ) :
    ∃ D, HasFDerivAt p D a0 ∧ ∃ C, ∃ ε > 0, ∀ (cfg : NewtonChord.Cfg ι ι ℝ J) (_ : cfg.normY = maxNorm) (_ : cfg.normF = maxNorm)
      (_ : cfg.cauchy = true) (_ : 0 < cfg.atol) (_ : 0 ≤ cfg.rtol) (_ : cfg.rtol ≤ 1 / 2) (aux : (ι → ℝ) → A) (aux0 : A) (y0 : ι → ℝ)
      (_ : (NewtonChord.terminate cfg y0 (NewtonChord.init cfg y0)).1 = false) (ms : Option ℕ) (throw : Bool)
      (sol : Solution (ι → ℝ) A (NewtonChord.State ι ι ℝ J) Unit)
      (_ : iterativeSolve (NewtonChord.solver cfg) (fun _ => true) (fun y => (fn y a0, aux y)) aux0 y0 ms throw = some (.ok sol))
      (_ : sol.result = .successful) (_ : cfg.atol + cfg.rtol * ‖sol.value‖ ≤ ε),
      TangentsWithin μ R (rewriteRootFind fn) a0 D C (cfg.atol + cfg.rtol * ‖sol.value‖) sol.value := by
  have hbr := expanding_branch fn hfn.continuous m hm hexp p hp a0
  have hinv : (fderiv ℝ (fun y => fn y a0) (p a0)).IsInvertible := by
    refine expanding_invertible _ m hm _ ?_ (hexp a0)
    have h1 : DifferentiableAt ℝ (fun p : (ι → ℝ) × (κ → ℝ) => fn p.1 p.2) (p a0, a0) := hfn.differentiable (by norm_num) _
    exact h1.comp (p a0) (by fun_prop : DifferentiableAt ℝ (fun y : ι → ℝ => (y, a0)) (p a0))
  obtain ⟨D, hD, C, ε, hε, hC⟩ := (C96_root_find (μ := μ) (R := R) a0 (p a0) fn hfn.contDiffAt hinv p hbr).within
    (2 + 1 / m) (by positivity)
  refine ⟨D, hD, C, ε, hε, fun cfg hNY hNF hcau ha hr hr2 aux aux0 y0 hinit ms throw sol h hs htol => ?_⟩
  set tol := cfg.atol + cfg.rtol * ‖sol.value‖ with htol'
  have htol0 : 0 ≤ tol := by positivity
  refine hC tol sol.value htol0 htol ?_
  obtain ⟨y, -, h1, h2, -⟩ := C57_cauchy_success_small_residual_partial cfg _ aux0 y0 hcau hinit _ ms throw sol h hs
  rw [hNF, maxNorm_lt_iff] at h1
  rw [hNY, maxNorm_lt_iff] at h2
  have hres : ‖fn y a0‖ ≤ cfg.atol := (pi_norm_le_iff_of_nonneg ha.le).2 fun i => by
    have := h1.2 i
    rw [abs_div, abs_abs, abs_of_pos ha, div_lt_one ha] at this
    exact this.le
  have hupd : ‖y - sol.value‖ ≤ cfg.atol + cfg.rtol * ‖y‖ := (pi_norm_le_iff_of_nonneg (by positivity)).2 fun i => by
    have := h2.2 i
    have hpos : 0 < cfg.atol + cfg.rtol * |y i| := by positivity
    rw [abs_div, abs_abs, abs_of_pos hpos, div_lt_one hpos] at this
    have h3 := mul_le_mul_of_nonneg_left (norm_le_pi_norm y i) hr
    rw [Real.norm_eq_abs] at h3
    exact (this.trans_le (by linarith)).le
  have hy : ‖y‖ ≤ ‖sol.value‖ + ‖y - sol.value‖ := by
    calc ‖y‖ = ‖sol.value + (y - sol.value)‖ := by congr 1; abel
      _ ≤ _ := norm_add_le _ _
  have hupd2 : ‖y - sol.value‖ ≤ 2 * tol := by
    have h3 := mul_le_mul_of_nonneg_left hy hr
    have h4 := mul_le_mul_of_nonneg_right hr2 (norm_nonneg (y - sol.value))
    linarith
  have hyp : ‖y - p a0‖ ≤ 1 / m * tol := by
    have h3 := hexp a0 y (p a0)
    rw [hp, sub_zero] at h3
    rw [div_mul_eq_mul_div, one_mul, le_div_iff₀ hm]
    have : cfg.atol ≤ tol := by
      have := mul_nonneg hr (norm_nonneg sol.value)
      linarith
    linarith
  calc ‖sol.value - p a0‖ = ‖(y - p a0) - (y - sol.value)‖ := by congr 1; abel
    _ ≤ ‖y - p a0‖ + ‖y - sol.value‖ := norm_sub_le _ _
    _ ≤ _ := by linarith

/-- **C104**, `root_find` with `Bisection`, for a function of one unknown that expands distances by at least a factor `m > 0`. -/
theorem C104_bisection (f : ℝ → (κ → ℝ) → ℝ) (hf : ContDiff ℝ 2 fun p : ℝ × (κ → ℝ) => f p.1 p.2) (m : ℝ) (hm : 0 < m)
    (hexp : ∀ a x y, m * |x - y| ≤ |f x a - f y a|) (p : (κ → ℝ) → ℝ) (hp : ∀ a, f (p a) a = 0) (a0 : κ → ℝ) :
    ∃ D, HasFDerivAt (fun a (_ : Unit) => p a) D a0 ∧ ∃ C, ∃ ε > 0, ∀ (cfg : Bisection.Cfg ℝ) (_ : 0 < cfg.atol) (_ : 0 ≤ cfg.rtol)
      (_ : cfg.rtol ≤ 1 / 3) (_ : ∀ b, cfg.flip = .fixed b → Brackets (fun x => f x a0) b cfg.lower cfg.upper) (aux : ℝ → A) (aux0 : A)
      (y0 : ℝ) (ms : Option ℕ) (throw : Bool) (sol : Solution ℝ A (Bisection.State ℝ) Unit)
      (_ : rootFind (Bisection.solver cfg) (fun _ => true) (fun y => (f y a0, aux y)) aux0 y0 ms throw = some (.ok sol))
      (_ : sol.result = .successful) (_ : cfg.atol + cfg.rtol * |sol.value| ≤ ε),
      TangentsWithin μ R (rewriteRootFind fun (y : Unit → ℝ) a (_ : Unit) => f (y ()) a) a0 D C (cfg.atol + cfg.rtol * |sol.value|)
        (fun _ => sol.value) := by
  have hnorm : ∀ x : Unit → ℝ, ‖x‖ = |x ()| := fun x => by
    rw [show x = fun _ => x () from rfl, pi_norm_const, Real.norm_eq_abs]
  have hfn : ContDiff ℝ 2 fun p : (Unit → ℝ) × (κ → ℝ) => fun _ : Unit => f (p.1 ()) p.2 := by
    refine contDiff_pi.2 fun _ => ?_
    exact hf.comp (by fun_prop : ContDiff ℝ 2 fun p : (Unit → ℝ) × (κ → ℝ) => (p.1 (), p.2))
  have hexp' : ∀ (a : κ → ℝ) (x y : Unit → ℝ), m * ‖x - y‖ ≤ ‖(fun _ : Unit => f (x ()) a) - fun _ : Unit => f (y ()) a‖ := by
    intro a x y
    rw [hnorm, hnorm]
    exact hexp a (x ()) (y ())
  have hbr := expanding_branch (fun (y : Unit → ℝ) a (_ : Unit) => f (y ()) a) hfn.continuous m hm hexp' (fun a _ => p a)
    (fun a => by funext _; exact hp a) a0
  have hinv : (fderiv ℝ (fun (y : Unit → ℝ) (_ : Unit) => f (y ()) a0) fun _ => p a0).IsInvertible := by
    refine expanding_invertible _ m hm _ ?_ (hexp' a0)
    have h1 : DifferentiableAt ℝ (fun p : (Unit → ℝ) × (κ → ℝ) => fun _ : Unit => f (p.1 ()) p.2) ((fun _ => p a0), a0) :=
      hfn.differentiable (by norm_num) _
    exact h1.comp (fun _ : Unit => p a0) (by fun_prop : DifferentiableAt ℝ (fun y : Unit → ℝ => (y, a0)) fun _ => p a0)
  obtain ⟨D, hD, C, ε, hε, hC⟩ := (C96_root_find (μ := μ) (R := R) a0 (fun _ : Unit => p a0) (fun (y : Unit → ℝ) a (_ : Unit) => f (y ()) a)
    hfn.contDiffAt hinv (fun a _ => p a) hbr).within 1 zero_le_one
  refine ⟨D, hD, C, ε, hε, fun cfg ha hr hr2 hflip aux aux0 y0 ms throw sol h hs htol => ?_⟩
  set tol := cfg.atol + cfg.rtol * |sol.value| with htol'
  have htol0 : 0 ≤ tol := by positivity
  refine hC tol _ htol0 htol ?_
  have hcont : Continuous fun x => f x a0 := hf.continuous.comp (by fun_prop : Continuous fun x : ℝ => (x, a0))
  obtain ⟨st0, n, -, -, hn⟩ := C14_answer_near_root cfg (fun y => (f y a0, aux y)) aux0 y0 _ ms throw sol hflip Set.univ
    Set.ordConnected_univ hcont.continuousOn (Set.mem_univ _) (fun _ _ => ⟨Set.mem_univ _, Set.mem_univ _⟩) h hs
  generalize iterateAt (Bisection.solver cfg) (fun y => (f y a0, aux y)) aux0 y0 st0 n = y at hn
  obtain ⟨-, root, h0, h1, h2⟩ := hn
  have hroot : root = p a0 := by
    have h3 := hexp a0 root (p a0)
    rw [hp, show f root a0 = 0 from h0, sub_zero, abs_zero] at h3
    have h4 : |root - p a0| = 0 := le_antisymm (nonpos_of_mul_nonpos_right h3 hm) (abs_nonneg _)
    exact sub_eq_zero.1 (abs_eq_zero.1 h4)
  rw [hnorm]
  show |sol.value - p a0| ≤ 1 * tol
  rw [← hroot, abs_sub_comm]
  have hy : |y| ≤ |sol.value| + 3 / 2 * (cfg.atol + cfg.rtol * |y|) := by
    have e : y = sol.value + (root - sol.value) - (root - y) := by ring
    have h3 : |y| ≤ |sol.value| + |root - sol.value| + |root - y| := by
      calc |y| = |sol.value + (root - sol.value) - (root - y)| := by rw [← e]
        _ ≤ |sol.value + (root - sol.value)| + |root - y| := abs_sub _ _
        _ ≤ _ := by linarith [abs_add_le sol.value (root - sol.value)]
    linarith
  have h5 := mul_le_mul_of_nonneg_left hy hr
  have h6 := mul_le_mul_of_nonneg_right hr2 (by positivity : 0 ≤ cfg.atol + cfg.rtol * |y|)
  linarith

/-- **C104**, `minimise` with `GradientDescent`, for an objective that is `μ`-strongly convex (uniformly in the arguments) and `L`-smooth at
the given arguments. -/
theorem C104_gradient_descent [DecidableEq ι] (fn : (ι → ℝ) → (κ → ℝ) → ℝ) (hfn : ContDiff ℝ 3 fun p : (ι → ℝ) × (κ → ℝ) => fn p.1 p.2)
    (a0 : κ → ℝ) (rate L ν : ℝ) (hr0 : 0 < rate) (hrL : rate * L ≤ 1) (hν : 0 < ν)
    (hsmooth : ∀ y z, fn z a0 ≤ fn y a0 + (∑ i, grad (fun x => fn x a0) y i * (z i - y i)) + L / 2 * ∑ i, (z i - y i) ^ 2)
    (hconv : ∀ a y z, fn y a + (∑ i, grad (fun x => fn x a) y i * (z i - y i)) + ν / 2 * ∑ i, (z i - y i) ^ 2 ≤ fn z a)
    (p : (κ → ℝ) → (ι → ℝ)) (hp : ∀ a i, grad (fun x => fn x a) (p a) i = 0) :
    ∃ D, HasFDerivAt p D a0 ∧ ∃ C, ∃ ε > 0, ∀ (rtol atol : ℝ) (_ : 0 < atol) (_ : 0 ≤ rtol) (aux : (ι → ℝ) → A) (aux0 : A) (y0 : ι → ℝ)
      (ms : Option ℕ) (throw : Bool) (sol : Solution (ι → ℝ) A (GradientDescent.State ι A Unit (ι → ℝ)) Unit)
      (_ : iterativeSolve (gdSolver rate rtol atol maxNorm maxNorm (grad fun x => fn x a0) aux0) (fun _ => true)
        (fun y => (fn y a0, aux y)) aux0 y0 ms throw = some (.ok sol))
      (_ : sol.result = .successful) (_ : atol + rtol * ‖sol.value‖ ≤ ε),
      TangentsWithin μ R (rewriteMinimise fn) a0 D C (atol + rtol * ‖sol.value‖) sol.value := by
  set G : (ι → ℝ) → (κ → ℝ) → (ι → ℝ) := fun y a => grad (fun x => fn x a) y with hGdef
  have hG : ContDiff ℝ 2 fun p : (ι → ℝ) × (κ → ℝ) => G p.1 p.2 :=
    contDiff_iff_contDiffAt.2 fun q => grad_contDiffAt_nat fn q.1 q.2 (n := 2) hfn.contDiffAt
  set n : ℝ := (Fintype.card ι : ℝ) + 1 with hn
  have hn0 : 0 < n := by positivity
  have hexp : ∀ a x y, ν / n * ‖x - y‖ ≤ ‖G x a - G y a‖ := by
    intro a x y
    have h1 := hconv a x y
    have h2 := hconv a y x
    have e1 : ∑ i, (y i - x i) ^ 2 = ∑ i, (x i - y i) ^ 2 := Finset.sum_congr rfl fun i _ => by ring
    have e2 : ∑ i, G x a i * (y i - x i) + ∑ i, G y a i * (x i - y i) = -∑ i, (G x a i - G y a i) * (x i - y i) := by
      rw [← Finset.sum_add_distrib, ← Finset.sum_neg_distrib]
      exact Finset.sum_congr rfl fun i _ => by ring
    have h3 : ν * ∑ i, (x i - y i) ^ 2 ≤ ∑ i, (G x a i - G y a i) * (x i - y i) := by
      rw [e1] at h1
      simp only [hGdef] at e2 ⊢
      linarith
    have h4 : ∑ i, (G x a i - G y a i) * (x i - y i) ≤ n * (‖G x a - G y a‖ * ‖x - y‖) := by
      calc ∑ i, (G x a i - G y a i) * (x i - y i) ≤ ∑ _i : ι, ‖G x a - G y a‖ * ‖x - y‖ := Finset.sum_le_sum fun i _ => by
            refine (le_abs_self _).trans ?_
            rw [abs_mul]
            exact mul_le_mul (norm_le_pi_norm (G x a - G y a) i) (norm_le_pi_norm (x - y) i) (abs_nonneg _) (norm_nonneg _)
        _ = (Fintype.card ι : ℝ) * (‖G x a - G y a‖ * ‖x - y‖) := by
            rw [Finset.sum_const, Finset.card_univ, nsmul_eq_mul]
        _ ≤ _ := mul_le_mul_of_nonneg_right (by rw [hn]; linarith) (by positivity)
    have h5 : ‖x - y‖ ^ 2 ≤ ∑ i, (x i - y i) ^ 2 := by
      have hs : 0 ≤ ∑ i, (x i - y i) ^ 2 := Finset.sum_nonneg fun i _ => sq_nonneg _
      have : ‖x - y‖ ≤ √(∑ i, (x i - y i) ^ 2) := (pi_norm_le_iff_of_nonneg (Real.sqrt_nonneg _)).2 fun i => by
        rw [Real.norm_eq_abs, ← Real.sqrt_sq_eq_abs]
        exact Real.sqrt_le_sqrt (Finset.single_le_sum (f := fun i => (x i - y i) ^ 2) (fun i _ => sq_nonneg _) (Finset.mem_univ i))
      calc ‖x - y‖ ^ 2 ≤ √(∑ i, (x i - y i) ^ 2) ^ 2 := pow_le_pow_left₀ (norm_nonneg _) this 2
        _ = _ := Real.sq_sqrt hs
    rw [div_mul_eq_mul_div, div_le_iff₀ hn0]
    rcases (norm_nonneg (x - y)).eq_or_lt with h0 | h0
    · rw [← h0, mul_zero]; positivity
    · have h6 : (ν * ‖x - y‖) * ‖x - y‖ ≤ (‖G x a - G y a‖ * n) * ‖x - y‖ := by
        have := mul_le_mul_of_nonneg_left h5 hν.le
        calc (ν * ‖x - y‖) * ‖x - y‖ = ν * ‖x - y‖ ^ 2 := by ring
          _ ≤ _ := this
          _ ≤ _ := h3
          _ ≤ _ := h4
          _ = _ := by ring
      exact le_of_mul_le_mul_right h6 h0
  have hp' : ∀ a, G (p a) a = 0 := fun a => funext fun i => hp a i
  have hglob : ∀ a y, fn (p a) a ≤ fn y a := fun a y => by
    have := hconv a (p a) y
    simp only [hp, zero_mul, Finset.sum_const_zero, add_zero] at this
    have h0 : 0 ≤ ∑ i, (y i - p a i) ^ 2 := Finset.sum_nonneg fun i _ => sq_nonneg _
    nlinarith
  have hbr : IsBranch (fun a z => IsLocalMin (fun x => fn x a) z) p a0 (p a0) := by
    obtain ⟨h1, h2, -⟩ := expanding_branch G hG.continuous (ν / n) (by positivity) hexp p hp' a0
    exact ⟨h1, h2, Eventually.of_forall fun a => Eventually.of_forall fun y => hglob a y⟩
  have hinv : (fderiv ℝ (grad fun x => fn x a0) (p a0)).IsInvertible := by
    refine expanding_invertible _ (ν / n) (by positivity) _ ?_ (hexp a0)
    have h1 : DifferentiableAt ℝ (fun p : (ι → ℝ) × (κ → ℝ) => G p.1 p.2) (p a0, a0) := hG.differentiable (by norm_num) _
    exact h1.comp (p a0) (by fun_prop : DifferentiableAt ℝ (fun y : ι → ℝ => (y, a0)) (p a0))
  obtain ⟨D, hD, C, ε, hε, hC⟩ := (C96_minimise (μ := μ) (R := R) a0 (p a0) fn hfn.contDiffAt hinv p hbr).within
    (n / (rate * ν)) (by positivity)
  refine ⟨D, hD, C, ε, hε, fun rtol atol ha hr aux aux0 y0 ms throw sol h hs htol => ?_⟩
  set tol := atol + rtol * ‖sol.value‖ with htol'
  have htol0 : 0 ≤ tol := by positivity
  refine hC tol sol.value htol0 htol ?_
  have h1 := C95_success_distance rate rtol atol L (grad fun x => fn x a0) aux0 (fun y => (fn y a0, aux y)) y0 (fun _ => true) hr0 hrL ν hν
    ha hr hsmooth (hconv a0) (p a0) (hp a0) ms throw sol h hs
  have h2 : ∑ i, (atol + rtol * |sol.value i|) ^ 2 ≤ (n * tol) ^ 2 := by
    calc ∑ i, (atol + rtol * |sol.value i|) ^ 2 ≤ ∑ _i : ι, tol ^ 2 := Finset.sum_le_sum fun i _ => by
          refine pow_le_pow_left₀ (by positivity) ?_ 2
          have := mul_le_mul_of_nonneg_left (norm_le_pi_norm sol.value i) hr
          rw [Real.norm_eq_abs] at this
          linarith
      _ = (Fintype.card ι : ℝ) * tol ^ 2 := by rw [Finset.sum_const, Finset.card_univ, nsmul_eq_mul]
      _ ≤ n ^ 2 * tol ^ 2 := mul_le_mul_of_nonneg_right (by
          have : (0 : ℝ) ≤ Fintype.card ι := Nat.cast_nonneg _
          rw [hn]; nlinarith) (sq_nonneg _)
      _ = _ := by ring
  have hb : 0 ≤ n / (rate * ν) * tol := by positivity
  refine (pi_norm_le_iff_of_nonneg hb).2 fun i => ?_
  have h3 : (sol.value i - p a0 i) ^ 2 ≤ ∑ i, (sol.value i - p a0 i) ^ 2 :=
    Finset.single_le_sum (f := fun i => (sol.value i - p a0 i) ^ 2) (fun i _ => sq_nonneg _) (Finset.mem_univ i)
  have h4 : ((rate * ν) * |sol.value i - p a0 i|) ^ 2 ≤ (n * tol) ^ 2 := by
    rw [mul_pow, sq_abs]
    exact (mul_le_mul_of_nonneg_left h3 (sq_nonneg _)).trans (h1.trans h2)
  have h5 : (rate * ν) * |sol.value i - p a0 i| ≤ n * tol := by
    have := abs_le_of_sq_le_sq h4 (by positivity)
    exact (le_abs_self _).trans this
  rw [Pi.sub_apply, Real.norm_eq_abs, div_mul_eq_mul_div, le_div_iff₀ (by positivity)]
  linarith

/-- All hypotheses of `C104_fixed_point` are met by `fn(y, a) = cos(y)/2 + a`, and solves at every small enough tolerance succeed from every
starting point. -/
example (a0 : Unit → ℝ) : ∃ p : (Unit → ℝ) → (Unit → ℝ), (∀ a u, Real.cos (p a u) / 2 + a u = p a u) ∧
    ∃ D, HasFDerivAt p D a0 ∧ ∃ C, ∃ ε > 0, ∀ atol, 0 < atol → atol ≤ ε → ∀ y0 : Unit → ℝ, ∃ sol,
      iterativeSolve (FixedPointIter.solver ⟨0, atol, maxNorm, 0⟩) (fun _ => true) (fun y => (fun u => Real.cos (y u) / 2 + a0 u, ())) () y0
        none true = some (.ok sol) ∧ sol.result = .successful ∧
      TangentsWithin Empty Unit (rewriteFixedPoint fun (y a : Unit → ℝ) u => Real.cos (y u) / 2 + a u) a0 D C atol sol.value := by
  set fn : (Unit → ℝ) → (Unit → ℝ) → (Unit → ℝ) := fun y a u => Real.cos (y u) / 2 + a u with hfn
  have hc : ∀ a x y, ‖fn x a - fn y a‖ ≤ 1 / 2 * ‖x - y‖ := by
    intro a x y
    refine (pi_norm_le_iff_of_nonneg (by positivity)).2 fun u => ?_
    have h1 := norm_le_pi_norm (x - y) u
    have h2 : |Real.cos (x u) - Real.cos (y u)| ≤ |x u - y u| := Real.abs_cos_sub_cos_le _ _
    rw [Real.norm_eq_abs] at h1 ⊢
    simp only [hfn, Pi.sub_apply] at h1 ⊢
    rw [show Real.cos (x u) / 2 + a u - (Real.cos (y u) / 2 + a u) = (Real.cos (x u) - Real.cos (y u)) / 2 by ring, abs_div, abs_two]
    linarith
  have hcf : ∀ a, ContractionFor maxNorm (1 / 2) fun z => fn z a := fun a x y => by
    rw [maxNorm_eq_norm, maxNorm_eq_norm]
    exact hc a x y
  choose p hp _ using fun a => C21_fixed_point_exists (fun z => fn z a) (1 / 2) (by norm_num) (by norm_num) (hcf a)
  obtain ⟨D, hD, C, ε, hε, h⟩ := C104_fixed_point (A := Unit) (μ := Empty) (R := Unit) fn (contDiff_pi.2 fun u => by
    simp only [hfn]; fun_prop) (1 / 2) (by norm_num) (by norm_num) hc p hp 0 (by norm_num) a0
  refine ⟨p, fun a u => congrFun (hp a) u, D, hD, C, ε, hε, fun atol ha hle y0 => ?_⟩
  obtain ⟨n, -, hn⟩ := C21_terminates ⟨0, atol, maxNorm, 0⟩ goodNorm_maxNorm (fun x y => by
      show maxNorm (fun i => x i + y i) ≤ maxNorm x + maxNorm y
      rw [maxNorm_eq_norm, maxNorm_eq_norm, maxNorm_eq_norm]; exact norm_add_le x y) ha le_rfl le_rfl zero_lt_one
    (fun y => (fn y a0, ())) (1 / 2) (by norm_num) (by norm_num) (hcf a0) () y0
  obtain ⟨sol, h1, h2, -⟩ := hn none true (by simp)
  refine ⟨sol, h1, h2, ?_⟩
  have := h ⟨0, atol, maxNorm, 0⟩ rfl ha le_rfl le_rfl le_rfl (fun _ => ()) () y0 none true sol h1 h2 (by simpa using hle)
  simpa using this

/-- The function `y + y³ - a` meets the hypotheses of `C104_bisection`, and (as a function of one-entry vectors) of `C104_newton`. -/
example : ContDiff ℝ 2 (fun p : ℝ × (Unit → ℝ) => p.1 + p.1 ^ 3 - p.2 ()) ∧
    (∀ (a : Unit → ℝ) (x y : ℝ), 1 * |x - y| ≤ |(x + x ^ 3 - a ()) - (y + y ^ 3 - a ())|) ∧
    ∃ p : (Unit → ℝ) → ℝ, ∀ a, p a + p a ^ 3 - a () = 0 := by
  refine ⟨by fun_prop, fun a x y => ?_, ?_⟩
  · rw [show (x + x ^ 3 - a ()) - (y + y ^ 3 - a ()) = (1 + (x ^ 2 + x * y + y ^ 2)) * (x - y) by ring, abs_mul]
    refine mul_le_mul_of_nonneg_right ?_ (abs_nonneg _)
    refine le_trans ?_ (le_abs_self _)
    nlinarith [sq_nonneg (x + y), sq_nonneg x, sq_nonneg y]
  · have hsurj : Function.Surjective fun y : ℝ => y + y ^ 3 := by
      refine Continuous.surjective (by fun_prop) ?_ ?_
      · refine tendsto_atTop_mono' atTop ?_ tendsto_id
        filter_upwards [eventually_ge_atTop 0] with y hy
        have : 0 ≤ y ^ 3 := by positivity
        simp only [id]; linarith
      · refine tendsto_atBot_mono' atBot ?_ tendsto_id
        filter_upwards [eventually_le_atBot 0] with y hy
        have : 0 ≤ (-y) ^ 3 := by have : 0 ≤ -y := by linarith
                                  positivity
        have e : (-y) ^ 3 = -y ^ 3 := by ring
        simp only [id]; linarith
    choose g hg using hsurj
    exact ⟨fun a => g (a ()), fun a => by rw [show g (a ()) + g (a ()) ^ 3 = a () from hg _, sub_self]⟩

/-- The objective `(y - a)²` meets the hypotheses of `C104_gradient_descent`, with rate `1/4`. -/
example : ∃ (fn : (Unit → ℝ) → (Unit → ℝ) → ℝ) (p : (Unit → ℝ) → (Unit → ℝ)),
    ContDiff ℝ 3 (fun q : (Unit → ℝ) × (Unit → ℝ) => fn q.1 q.2) ∧
    (∀ a y z, fn z a ≤ fn y a + (∑ i, grad (fun x => fn x a) y i * (z i - y i)) + 2 / 2 * ∑ i, (z i - y i) ^ 2) ∧
    (∀ a y z, fn y a + (∑ i, grad (fun x => fn x a) y i * (z i - y i)) + 2 / 2 * ∑ i, (z i - y i) ^ 2 ≤ fn z a) ∧
    ∀ a i, grad (fun x => fn x a) (p a) i = 0 := by
  have hg : ∀ a y : Unit → ℝ, grad (fun x : Unit → ℝ => (x () - a ()) ^ 2) y () = 2 * (y () - a ()) := by
    intro a y
    have h1 : HasFDerivAt (fun x : Unit → ℝ => x ()) (ContinuousLinearMap.proj (R := ℝ) (φ := fun _ : Unit => ℝ) ()) y :=
      hasFDerivAt_apply () y
    have h2 := (h1.sub_const (a ())).pow 2
    unfold grad
    rw [h2.fderiv]
    simp
  refine ⟨fun y a => (y () - a ()) ^ 2, fun a => a, by fun_prop, fun a y z => ?_, fun a y z => ?_, fun a i => ?_⟩
  · simp only [Finset.univ_unique, Finset.sum_singleton, PUnit.default_eq_unit, hg]
    nlinarith
  · simp only [Finset.univ_unique, Finset.sum_singleton, PUnit.default_eq_unit, hg]
    nlinarith
  · rw [hg]; ring

end Verif.Props
