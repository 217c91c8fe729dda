import Verif.Props.NoisyValues
import Verif.Props.NoisyGradient
import Verif.Props.FixedPoint
import Verif.Props.AdEndToEnd
import Verif.Spec.Nested
import Mathlib.Analysis.Calculus.MeanValue

/-!
Property C130: solves inside solves. The function given to an outer solve calls `fixed_point` itself. The inner answers are only within their
tolerance of the fixed points, and the derivatives that the outer solve gets by differentiating through the inner solve are the ones that the
implicit adjoint computes at those answers.
-/

namespace Verif.Props
open Verif Verif.Driver Verif.Spec Verif.Ad Filter Topology

variable {ι κ A : Type} [Fintype ι] [Fintype κ]

/-- For every value of the parameters, `z a` is what some successful inner solve returned. The starting point may depend on the parameters
(a warm start), and so may the number of steps that were allowed. -/
def InnerSolves (cfg : FixedPointIter.Cfg ι ℝ) (g : (ι → ℝ) → (κ → ℝ) → (ι → ℝ)) (z : (κ → ℝ) → (ι → ℝ)) : Prop :=
  ∀ a, ∃ (y0 : ι → ℝ) (ms : Option Nat) (throw : Bool) (sol : Solution (ι → ℝ) Unit (Option ℝ) Unit),
    iterativeSolve (FixedPointIter.solver cfg) (fun _ => true) (fun y => (g y a, ())) () y0 ms throw = some (.ok sol) ∧
      sol.result = .successful ∧ sol.value = z a

/-- The error of the inner solves: the last update was shorter than `atol`. -/
noncomputable def innerError (cfg : FixedPointIter.Cfg ι ℝ) (q : ℝ) : ℝ :=
  ((1 - cfg.damp) * q + cfg.damp) / (1 - ((1 - cfg.damp) * q + cfg.damp)) * cfg.atol

theorem _root_.Verif.Spec.ContractionFamily.lip {g : (ι → ℝ) → (κ → ℝ) → (ι → ℝ)} {q M K : ℝ} (hg : ContractionFamily g q M K)
    (a : κ → ℝ) (x y : ι → ℝ) : ‖g x a - g y a‖ ≤ q * ‖x - y‖ := by
  have hd : ∀ v ∈ (Set.univ : Set (ι → ℝ)), DifferentiableAt ℝ (fun y => g y a) v := fun v _ => by
    have h1 : DifferentiableAt ℝ (fun p : (ι → ℝ) × (κ → ℝ) => g p.1 p.2) (v, a) := hg.smooth.differentiable one_ne_zero _
    exact h1.comp v (by fun_prop : DifferentiableAt ℝ (fun y : ι → ℝ => (y, a)) v)
  exact convex_univ.norm_image_sub_le_of_norm_fderiv_le (f := fun y => g y a) hd (fun v _ => hg.contracts v a) (Set.mem_univ y) (Set.mem_univ x)

theorem inner_contraction {g : (ι → ℝ) → (κ → ℝ) → (ι → ℝ)} {q M K : ℝ} (hg : ContractionFamily g q M K) (a : κ → ℝ) :
    ContractionFor maxNorm q fun y => g y a := by
  intro x y
  rw [maxNorm_eq_norm, maxNorm_eq_norm]
  exact hg.lip a x y

/-- **C130** (inner solves). The inner problems have solutions, the inner solves find them from any starting points, and the answers are within
`r/(1-r) atol` of the solutions, `r = (1-damp) q + damp`. -/
theorem C130_inner (cfg : FixedPointIter.Cfg ι ℝ) (hn : cfg.norm = maxNorm) (hr : cfg.rtol = 0) (ha : 0 < cfg.atol) (hd0 : 0 ≤ cfg.damp)
    (hd1 : cfg.damp < 1) (g : (ι → ℝ) → (κ → ℝ) → (ι → ℝ)) (q M K : ℝ) (hg : ContractionFamily g q M K) :
    (∃ z, InnerSolves cfg g z) ∧ ∃ p : (κ → ℝ) → (ι → ℝ), (∀ a, g (p a) a = p a) ∧
      ∀ z, InnerSolves cfg g z → ∀ a, ‖z a - p a‖ ≤ innerError cfg q := by
  have hN : GoodNorm cfg.norm := by rw [hn]; exact goodNorm_maxNorm
  have htri : ∀ x y : ι → ℝ, cfg.norm (fun i => x i + y i) ≤ cfg.norm x + cfg.norm y := by rw [hn]; exact maxNorm_add
  have hc : ∀ a, ContractionFor cfg.norm q fun y => g y a := fun a => by rw [hn]; exact inner_contraction hg a
  constructor
  · have hex : ∀ a, ∃ v, ∃ (y0 : ι → ℝ) (ms : Option Nat) (throw : Bool) (sol : Solution (ι → ℝ) Unit (Option ℝ) Unit),
        iterativeSolve (FixedPointIter.solver cfg) (fun _ => true) (fun y => (g y a, ())) () y0 ms throw = some (.ok sol) ∧
          sol.result = .successful ∧ sol.value = v := by
      intro a
      obtain ⟨n, -, h⟩ := C21_terminates cfg hN htri ha hr.ge hd0 hd1 (fun y => (g y a, ())) q hg.rate_nonneg hg.rate_lt (hc a) () 0
      obtain ⟨sol, h1, h2, -⟩ := h none true (by intro m hm; cases hm)
      exact ⟨sol.value, 0, none, true, sol, h1, h2, rfl⟩
    choose z hz using hex
    exact ⟨z, hz⟩
  · choose p hp _ using fun a => C21_fixed_point_exists (fun y => g y a) q hg.rate_nonneg hg.rate_lt (inner_contraction hg a)
    refine ⟨p, hp, fun z hz a => ?_⟩
    obtain ⟨y0, ms, throw, sol, h, hs, hv⟩ := hz a
    obtain ⟨k, -, hk, -, hlt⟩ := C20_success_certificate cfg _ () y0 _ ms throw sol h hs
    set r := (1 - cfg.damp) * q + cfg.damp with hrdef
    have hr0 : 0 ≤ r := by have := mul_nonneg (by linarith : (0:ℝ) ≤ 1 - cfg.damp) hg.rate_nonneg; linarith
    have hr1 : r < 1 := by have := hg.rate_lt; nlinarith
    set y := (dampedMap cfg.damp fun z => g z a)^[k] y0 with hy
    have hT : ContractionFor cfg.norm r _ := damped_contraction cfg.norm hN htri q cfg.damp hd0 hd1 _ (hc a)
    have hfix := (C20_same_fixed_points cfg.damp hd1.ne (fun z => g z a) (p a)).2 (hp a)
    have h1 := hT y (p a)
    have hk' : sol.value = dampedMap cfg.damp (fun z => g z a) y := hk
    rw [hfix, ← hk', hn, maxNorm_eq_norm, maxNorm_eq_norm] at h1
    change ‖sol.value - p a‖ ≤ r * ‖y - p a‖ at h1
    have h2 : ‖y - sol.value‖ ≤ cfg.atol := by
      refine (pi_norm_le_iff_of_nonneg ha.le).2 fun i => ?_
      rw [hn] at hlt
      have h3 := ((maxNorm_lt_iff _ _).1 hlt).2 i
      rw [hr, zero_mul, add_zero, abs_div, abs_of_pos ha, div_lt_one ha] at h3
      exact h3.le
    have h3 : ‖y - p a‖ ≤ ‖y - sol.value‖ + ‖sol.value - p a‖ := by
      have := norm_add_le (y - sol.value) (sol.value - p a)
      rwa [sub_add_sub_cancel] at this
    rw [← hv]
    unfold innerError
    rw [← hrdef, div_mul_eq_mul_div, le_div_iff₀ (by linarith)]
    nlinarith [mul_le_mul_of_nonneg_left h3 hr0, mul_le_mul_of_nonneg_left h2 hr0]

section derivatives
variable {μ R : Type} [Fintype μ]

theorem family_diff_y {g : (ι → ℝ) → (κ → ℝ) → (ι → ℝ)} {q M K : ℝ} (hg : ContractionFamily g q M K) (y : ι → ℝ) (a : κ → ℝ) :
    DifferentiableAt ℝ (fun y => g y a) y := by
  have h1 : DifferentiableAt ℝ (fun p : (ι → ℝ) × (κ → ℝ) => g p.1 p.2) (y, a) := hg.smooth.differentiable one_ne_zero _
  exact h1.comp y (by fun_prop : DifferentiableAt ℝ (fun y : ι → ℝ => (y, a)) y)

theorem family_diff_a {g : (ι → ℝ) → (κ → ℝ) → (ι → ℝ)} {q M K : ℝ} (hg : ContractionFamily g q M K) (y : ι → ℝ) (a : κ → ℝ) :
    DifferentiableAt ℝ (fun a => g y a) a := by
  have h1 : DifferentiableAt ℝ (fun p : (ι → ℝ) × (κ → ℝ) => g p.1 p.2) (y, a) := hg.smooth.differentiable one_ne_zero _
  exact h1.comp a (by fun_prop : DifferentiableAt ℝ (fun a : κ → ℝ => (y, a)) a)

theorem family_expands {g : (ι → ℝ) → (κ → ℝ) → (ι → ℝ)} {q M K : ℝ} (hg : ContractionFamily g q M K) (a : κ → ℝ) (x y : ι → ℝ) :
    (1 - q) * ‖x - y‖ ≤ ‖(g x a - x) - (g y a - y)‖ := by
  have h1 := hg.lip a x y
  have h2 := norm_sub_norm_le (x - y) (g x a - g y a)
  have e : (x - y) - (g x a - g y a) = -((g x a - x) - (g y a - y)) := by abel
  rw [e, norm_neg] at h2
  linarith

theorem family_fderiv {g : (ι → ℝ) → (κ → ℝ) → (ι → ℝ)} {q M K : ℝ} (hg : ContractionFamily g q M K) (a : κ → ℝ) (y v : ι → ℝ) :
    fderiv ℝ (fun y => g y a - y) y v = fderiv ℝ (fun y => g y a) y v - v := by
  have : HasFDerivAt (fun y => g y a - y) (fderiv ℝ (fun y => g y a) y - ContinuousLinearMap.id ℝ (ι → ℝ)) y :=
    (family_diff_y hg y a).hasFDerivAt.sub (hasFDerivAt_id y)
  rw [this.fderiv]
  rfl

/-- The tangent computed at any point, up to the residual of the linear solver, solves the linearised fixed point equation. -/
theorem family_tangent {g : (ι → ℝ) → (κ → ℝ) → (ι → ℝ)} {q M K : ℝ} (hg : ContractionFamily g q M K) (solve : Solve ι ι) (η : ℝ)
    (hs : Approximate solve η) (primal : Inputs κ μ → (ι → ℝ) × R) (inputs : Inputs κ μ) (t : κ ⊕ μ → Option ℝ) (a : κ → ℝ) (v : ι → ℝ)
    (hi : (fun k => inputs (.inl k)) = a) (hv : (primal inputs).1 = v) :
    let u := (implicitJvp solve primal (rewriteFixedPoint g) inputs t).2.1
    let d : κ → ℝ := fun k => (t (.inl k)).getD 0
    ‖fderiv ℝ (fun y => g y a) v u + fderiv ℝ (fun a => g v a) a d - u‖ ≤ η * ‖fderiv ℝ (fun a => g v a) a d‖ := by
  intro u d
  subst hi hv
  set a : κ → ℝ := fun k => inputs (.inl k) with ha
  set v := (primal inputs).1 with hv
  have hB : DifferentiableAt ℝ (fun a => g v a - v) a := (family_diff_a hg v a).sub (differentiableAt_const v)
  have hBd : fderiv ℝ (fun a => g v a - v) a = fderiv ℝ (fun a => g v a) a := by
    rw [fderiv_sub_const]
  have hu : u = -solve (fderiv ℝ (fun y => g y a - y) v) (fderiv ℝ (fun a => g v a) a d) := by
    have := tangent_eq solve primal inputs (fun z a => g z a - z) hB t
    rw [hBd] at this
    exact this
  have hinv : (fderiv ℝ (fun y => g y a - y) v).IsInvertible :=
    expanding_invertible _ (1 - q) (by linarith [hg.rate_lt]) _ ((family_diff_y hg v a).sub differentiableAt_id) (family_expands hg a)
  have h1 := hs _ hinv (fderiv ℝ (fun a => g v a) a d)
  rw [family_fderiv hg, ← neg_eq_iff_eq_neg.2 hu, map_neg] at h1
  have e : fderiv ℝ (fun y => g y a) v u + fderiv ℝ (fun a => g v a) a d - u =
      -(-fderiv ℝ (fun y => g y a) v u - -u - fderiv ℝ (fun a => g v a) a d) := by abel
  rw [e, norm_neg]
  exact h1

/-- The solution of the inner problem is differentiable in the parameters, with the derivative given by the linearised equation. -/
theorem family_solution {g : (ι → ℝ) → (κ → ℝ) → (ι → ℝ)} {q M K : ℝ} (hg : ContractionFamily g q M K) (p : (κ → ℝ) → (ι → ℝ))
    (hp : ∀ a, g (p a) a = p a) (a : κ → ℝ) :
    ∃ D : (κ → ℝ) →L[ℝ] (ι → ℝ), HasFDerivAt p D a ∧
      ∀ d, fderiv ℝ (fun y => g y a) (p a) (D d) + fderiv ℝ (fun b => g (p a) b) a d = D d := by
  obtain ⟨solve, hs⟩ := exact_exists (ι := ι) (ο := ι)
  have hbr : IsBranch (fun a z => g z a = z) p a (p a) := by
    obtain ⟨h1, h2, -⟩ := expanding_branch (fun z a => g z a - z) (hg.smooth.continuous.sub continuous_fst) (1 - q)
      (by linarith [hg.rate_lt]) (family_expands hg) p (fun a => by rw [hp, sub_self]) a
    exact ⟨h1, h2, Eventually.of_forall hp⟩
  have hinv : (fderiv ℝ (fun y => g y a - y) (p a)).IsInvertible :=
    expanding_invertible _ (1 - q) (by linarith [hg.rate_lt]) _ ((family_diff_y hg (p a) a).sub differentiableAt_id) (family_expands hg a)
  have hinv' : (fderiv ℝ (fun y => g y a) (p a) - ContinuousLinearMap.id ℝ (ι → ℝ)).IsInvertible := by
    have : fderiv ℝ (fun y => g y a - y) (p a) = fderiv ℝ (fun y => g y a) (p a) - ContinuousLinearMap.id ℝ (ι → ℝ) := by
      ext v i
      rw [family_fderiv hg]
      rfl
    rwa [this] at hinv
  obtain ⟨D, hD, ht⟩ := C12_fixed_point (μ := Empty) (R := Unit) solve hs (fun _ => (p a, ())) (Sum.elim a fun _ => 0) a rfl (p a) rfl g
    hg.smooth.contDiffAt hinv' p hbr
  refine ⟨D, hD, fun d => ?_⟩
  have h1 := family_tangent (μ := Empty) (R := Unit) hg solve 0 ((approximate_zero solve).2 hs) (fun _ => (p a, ())) (Sum.elim a fun _ => 0)
    (fun j => Sum.elim (fun k => some (d k)) (fun _ => none) j) a (p a) rfl rfl
  rw [ht] at h1
  dsimp only [Sum.elim_inl, Option.getD_some] at h1
  rw [zero_mul, norm_le_zero_iff, sub_eq_zero] at h1
  exact h1

/-- A solution of the linearised equation is at most `M/(1-q)` times as long as the change of the parameters. -/
theorem family_tangent_bound {g : (ι → ℝ) → (κ → ℝ) → (ι → ℝ)} {q M K : ℝ} (hg : ContractionFamily g q M K) (a d : κ → ℝ) (y w : ι → ℝ)
    (hw : fderiv ℝ (fun y => g y a) y w + fderiv ℝ (fun b => g y b) a d = w) : (1 - q) * ‖w‖ ≤ M * ‖d‖ := by
  have h1 := norm_add_le (fderiv ℝ (fun y => g y a) y w) (fderiv ℝ (fun b => g y b) a d)
  have h2 := (fderiv ℝ (fun y => g y a) y).le_of_opNorm_le (hg.contracts y a) w
  have h3 := (fderiv ℝ (fun b => g y b) a).le_of_opNorm_le (hg.moves y a) d
  rw [hw] at h1
  linarith

/-- **C130** (derivatives). The derivative computed by differentiating through an inner solve whose answer is within `δ` of the solution is within
`((K M/(1-q) + K) δ + η M)/(1-q)` of the derivative of the solution: the constants are the same for all parameters. -/
theorem C130_tangent (g : (ι → ℝ) → (κ → ℝ) → (ι → ℝ)) (q M K : ℝ) (hg : ContractionFamily g q M K) (p : (κ → ℝ) → (ι → ℝ))
    (hp : ∀ a, g (p a) a = p a) (solve : Solve ι ι) (η : ℝ) (hη : 0 ≤ η) (hs : Approximate solve η) (primal : Inputs κ μ → (ι → ℝ) × R)
    (inputs : Inputs κ μ) (t : κ ⊕ μ → Option ℝ) (a : κ → ℝ) (hi : (fun k => inputs (.inl k)) = a) (δ : ℝ)
    (hv : ‖(primal inputs).1 - p a‖ ≤ δ) :
    ‖(implicitJvp solve primal (rewriteFixedPoint g) inputs t).2.1 - fderiv ℝ p a fun k => (t (.inl k)).getD 0‖ ≤
      ((K * (M / (1 - q)) + K) * δ + η * M) / (1 - q) * ‖fun k => (t (.inl k)).getD 0‖ := by
  obtain ⟨D, hD, hDt⟩ := family_solution hg p hp a
  rw [hD.fderiv]
  have h1 := family_tangent hg solve η hs primal inputs t a (primal inputs).1 hi rfl
  dsimp only at h1
  set d : κ → ℝ := fun k => (t (.inl k)).getD 0 with hd
  set u := (implicitJvp solve primal (rewriteFixedPoint g) inputs t).2.1 with hu
  set v := (primal inputs).1 with hvv
  clear_value u v d
  have hq := hg.rate_lt
  have hw := family_tangent_bound hg a d (p a) (D d) (hDt d)
  set w := D d with hwd
  have h2 := hDt d
  rw [← hwd] at h2
  have h3 := (fderiv ℝ (fun y => g y a) v).le_of_opNorm_le (hg.contracts v a) (u - w)
  have h4 := (fderiv ℝ (fun y => g y a) v - fderiv ℝ (fun y => g y a) (p a)).le_of_opNorm_le (hg.changes_y v (p a) a) w
  have h5 := (fderiv ℝ (fun b => g v b) a - fderiv ℝ (fun b => g (p a) b) a).le_of_opNorm_le (hg.changes_a v (p a) a) d
  have h6 := (fderiv ℝ (fun b => g v b) a).le_of_opNorm_le (hg.moves v a) d
  have hK' : K * ‖v - p a‖ ≤ K * δ := mul_le_mul_of_nonneg_left hv hg.change_nonneg
  have hKδ : 0 ≤ K * δ := (mul_nonneg hg.change_nonneg (norm_nonneg _)).trans hK'
  have e : u - w = fderiv ℝ (fun y => g y a) v (u - w) + (fderiv ℝ (fun y => g y a) v - fderiv ℝ (fun y => g y a) (p a)) w +
      (fderiv ℝ (fun b => g v b) a - fderiv ℝ (fun b => g (p a) b) a) d -
      (fderiv ℝ (fun y => g y a) v u + fderiv ℝ (fun b => g v b) a d - u) := by
    rw [map_sub, sub_apply, sub_apply, eq_sub_of_add_eq h2]
    abel
  have h7 : ‖u - w‖ ≤ q * ‖u - w‖ + K * δ * ‖w‖ + K * δ * ‖d‖ + η * (M * ‖d‖) := by
    calc ‖u - w‖ = _ := congrArg norm e
      _ ≤ _ := (norm_sub_le _ _).trans (add_le_add ((norm_add_le _ _).trans (add_le_add ((norm_add_le _ _).trans
          (add_le_add h3 (h4.trans (mul_le_mul_of_nonneg_right hK' (norm_nonneg _)))))
          (h5.trans (mul_le_mul_of_nonneg_right hK' (norm_nonneg _))))) (h1.trans (mul_le_mul_of_nonneg_left h6 hη)))
  have h8 : ‖w‖ ≤ M / (1 - q) * ‖d‖ := by
    rw [div_mul_eq_mul_div, le_div_iff₀ (by linarith)]
    linarith
  rw [div_mul_eq_mul_div, le_div_iff₀ (by linarith)]
  have h9 := mul_le_mul_of_nonneg_left h8 hKδ
  nlinarith

end derivatives

section bilevel

theorem outer_diff_y {H : (ι → ℝ) → (κ → ℝ) → ℝ} {Λ B : ℝ} (hH : OuterObjective H Λ B) (y : ι → ℝ) (a : κ → ℝ) :
    DifferentiableAt ℝ (fun y => H y a) y := by
  have h1 : DifferentiableAt ℝ (fun p : (ι → ℝ) × (κ → ℝ) => H p.1 p.2) (y, a) := hH.smooth _
  exact h1.comp y (by fun_prop : DifferentiableAt ℝ (fun y : ι → ℝ => (y, a)) y)

theorem outer_value {H : (ι → ℝ) → (κ → ℝ) → ℝ} {Λ B : ℝ} (hH : OuterObjective H Λ B) (x y : ι → ℝ) (a : κ → ℝ) :
    |H x a - H y a| ≤ Λ * ‖x - y‖ :=
  convex_univ.norm_image_sub_le_of_norm_fderiv_le (f := fun y => H y a) (fun v _ => outer_diff_y hH v a) (fun v _ => hH.moves v a)
    (Set.mem_univ y) (Set.mem_univ x)

/-- The chain rule. -/
theorem outer_chain {H : (ι → ℝ) → (κ → ℝ) → ℝ} {Λ B : ℝ} (hH : OuterObjective H Λ B) (p : (κ → ℝ) → (ι → ℝ)) (a : κ → ℝ)
    (D : (κ → ℝ) →L[ℝ] (ι → ℝ)) (hD : HasFDerivAt p D a) (d : κ → ℝ) :
    fderiv ℝ (fun a => H (p a) a) a d = fderiv ℝ (fun y => H y a) (p a) (D d) + fderiv ℝ (fun b => H (p a) b) a d := by
  have h0 := (hH.smooth (p a, a)).hasFDerivAt
  have h1 : HasFDerivAt (fun a => H (p a) a) _ a := 
    HasFDerivAt.comp (g := fun p : (ι → ℝ) × (κ → ℝ) => H p.1 p.2) (f := fun a => (p a, a)) a h0 (hD.prodMk (hasFDerivAt_id a))
  have h2 : HasFDerivAt (fun y => H y a) _ (p a) := 
    HasFDerivAt.comp (g := fun p : (ι → ℝ) × (κ → ℝ) => H p.1 p.2) (f := fun y => (y, a)) (p a) h0 (hasFDerivAt_prodMk_left (p a) a)
  have h3 : HasFDerivAt (fun b => H (p a) b) _ a := 
    HasFDerivAt.comp (g := fun p : (ι → ℝ) × (κ → ℝ) => H p.1 p.2) (f := fun b => (p a, b)) a h0 (hasFDerivAt_prodMk_right (p a) a)
  rw [h1.fderiv, h2.fderiv, h3.fderiv]
  simp only [ContinuousLinearMap.comp_apply, ← map_add]
  congr 1
  ext <;> simp

variable [DecidableEq κ]

/-- What forward-mode differentiation of `lambda a: H(fixed_point(g, solver, y0, args=a).value, a)` computes: the chain rule, with the tangent of
the inner solve taken from the implicit adjoint at the answer `z a` of the inner solve. -/
noncomputable def nestedGrad (solve : Solve ι ι) (g : (ι → ℝ) → (κ → ℝ) → (ι → ℝ)) (H : (ι → ℝ) → (κ → ℝ) → ℝ) (z : (κ → ℝ) → (ι → ℝ))
    (a : κ → ℝ) : κ → ℝ := fun k =>
  let tangent := (implicitJvp solve (fun i : Inputs κ Empty => (z fun k => i (.inl k), ())) (rewriteFixedPoint g) (Sum.elim a fun _ => 0)
    (Sum.elim (fun j => some ((Pi.single k 1 : κ → ℝ) j)) fun _ => none)).2.1
  fderiv ℝ (fun y => H y a) (z a) tangent + fderiv ℝ (fun b => H (z a) b) a (Pi.single k 1)

/-- The error of the derivatives, per unit of the parameters. -/
noncomputable def nestedError (q M K Λ B η δ : ℝ) : ℝ :=
  Λ * (((K * (M / (1 - q)) + K) * δ + η * M) / (1 - q)) + B * δ * (M / (1 - q) + 1)

/-- **C130** (values and gradients). What the outer solve computes, with inner solves of tolerance `atol` and linear solves of relative residual
`η`: values within `Λ δ` and gradients within `√n nestedError` of those of the objective that is meant, `δ = r/(1-r) atol`. -/
theorem C130_computed (cfg : FixedPointIter.Cfg ι ℝ) (hn : cfg.norm = maxNorm) (hr : cfg.rtol = 0) (ha : 0 < cfg.atol) (hd0 : 0 ≤ cfg.damp)
    (hd1 : cfg.damp < 1) (g : (ι → ℝ) → (κ → ℝ) → (ι → ℝ)) (q M K : ℝ) (hg : ContractionFamily g q M K) (H : (ι → ℝ) → (κ → ℝ) → ℝ)
    (Λ B : ℝ) (hH : OuterObjective H Λ B) (solve : Solve ι ι) (η : ℝ) (hη : 0 ≤ η) (hs : Approximate solve η)
    (z : (κ → ℝ) → (ι → ℝ)) (hz : InnerSolves cfg g z) (p : (κ → ℝ) → (ι → ℝ)) (hp : ∀ a, g (p a) a = p a) :
    ComputedWithin (fun a => H (p a) a) (grad fun a => H (p a) a) (fun a => H (z a) a) (nestedGrad solve g H z) (Λ * innerError cfg q)
      (Real.sqrt (Fintype.card κ) * nestedError q M K Λ B η (innerError cfg q)) := by
  obtain ⟨-, p', hp', hzp⟩ := C130_inner cfg hn hr ha hd0 hd1 g q M K hg
  have hpp : p' = p := by
    funext a
    exact (C21_fixed_point_exists (fun y => g y a) q hg.rate_nonneg hg.rate_lt (inner_contraction hg a)).unique (hp' a) (hp a)
  subst hpp
  replace hzp := hzp z hz
  set δ := innerError cfg q with hδ
  have hq := hg.rate_lt
  refine ⟨fun a => ?_, fun a => ?_⟩
  · have hΛ : 0 ≤ Λ := (norm_nonneg _).trans (hH.moves (p' a) a)
    exact (outer_value hH _ _ a).trans (mul_le_mul_of_nonneg_left (hzp a) hΛ)
  · have hΛ : 0 ≤ Λ := (norm_nonneg _).trans (hH.moves (p' a) a)
    have hM : 0 ≤ M := (norm_nonneg _).trans (hg.moves (p' a) a)
    have hδ0 : 0 ≤ δ := (norm_nonneg _).trans (hzp a)
    obtain ⟨D, hD, hDt⟩ := family_solution hg p' hp' a
    have hk : ∀ k, |nestedGrad solve g H z a k - grad (fun a => H (p' a) a) a k| ≤ nestedError q M K Λ B η δ := by
      intro k
      have hone : ‖(Pi.single k 1 : κ → ℝ)‖ ≤ 1 := by
        refine (pi_norm_le_iff_of_nonneg zero_le_one).2 fun j => ?_
        rcases eq_or_ne j k with rfl | h <;> simp [*]
      have h1 := C130_tangent g q M K hg p' hp' solve η hη hs (fun i : Inputs κ Empty => (z fun k => i (.inl k), ()))
        (Sum.elim a fun _ => 0) (Sum.elim (fun j => some ((Pi.single k 1 : κ → ℝ) j)) fun _ => none) a rfl δ (hzp a)
      dsimp only [Sum.elim_inl, Option.getD_some] at h1
      rw [hD.fderiv] at h1
      unfold nestedGrad grad
      dsimp only
      rw [outer_chain hH p' a D hD]
      generalize (implicitJvp solve (fun i : Inputs κ Empty => (z fun k => i (.inl k), ())) (rewriteFixedPoint g)
        (Sum.elim a fun _ => 0) (Sum.elim (fun j => some ((Pi.single k 1 : κ → ℝ) j)) fun _ => none)).2.1 = u at h1 ⊢
      have h2 := family_tangent_bound hg a (Pi.single k 1) (p' a) (D (Pi.single k 1)) (hDt _)
      change ‖u - D (Pi.single k 1)‖ ≤ _ * ‖(Pi.single k 1 : κ → ℝ)‖ at h1
      set e : κ → ℝ := Pi.single k 1 with he
      clear_value e
      set w := D e with hw
      clear_value w
      have h3 := (fderiv ℝ (fun y => H y a) (z a)).le_of_opNorm_le (hH.moves (z a) a) (u - w)
      have h4 := (fderiv ℝ (fun y => H y a) (z a) - fderiv ℝ (fun y => H y a) (p' a)).le_of_opNorm_le (hH.changes_y (z a) (p' a) a) w
      have h5 := (fderiv ℝ (fun b => H (z a) b) a - fderiv ℝ (fun b => H (p' a) b) a).le_of_opNorm_le (hH.changes_a (z a) (p' a) a) e
      have hB' : B * ‖z a - p' a‖ ≤ B * δ := mul_le_mul_of_nonneg_left (hzp a) hH.change_nonneg
      have hBδ : 0 ≤ B * δ := mul_nonneg hH.change_nonneg hδ0
      have h6 : ‖w‖ ≤ M / (1 - q) := by
        rw [le_div_iff₀ (by linarith)]
        nlinarith
      have h7 : ‖u - w‖ ≤ ((K * (M / (1 - q)) + K) * δ + η * M) / (1 - q) := by
        have hc : 0 ≤ ((K * (M / (1 - q)) + K) * δ + η * M) / (1 - q) := by
          have hK := hg.change_nonneg
          have : 0 < 1 - q := by linarith
          positivity
        exact h1.trans (mul_le_of_le_one_right hc hone)
      have e1 : fderiv ℝ (fun y => H y a) (z a) u + fderiv ℝ (fun b => H (z a) b) a e -
          (fderiv ℝ (fun y => H y a) (p' a) w + fderiv ℝ (fun b => H (p' a) b) a e) =
          fderiv ℝ (fun y => H y a) (z a) (u - w) + (fderiv ℝ (fun y => H y a) (z a) - fderiv ℝ (fun y => H y a) (p' a)) w +
          (fderiv ℝ (fun b => H (z a) b) a - fderiv ℝ (fun b => H (p' a) b) a) e := by
        rw [map_sub, sub_apply, sub_apply]
        ring
      rw [e1, ← Real.norm_eq_abs]
      refine (norm_add_le _ _).trans ?_
      refine (add_le_add ((norm_add_le _ _).trans (add_le_add (h3.trans (mul_le_mul_of_nonneg_left h7 hΛ))
        (h4.trans (mul_le_mul hB' h6 (norm_nonneg _) hBδ)))) (h5.trans (mul_le_mul hB' hone (norm_nonneg _) hBδ))).trans ?_
      unfold nestedError
      linarith
    have hk0 : 0 ≤ nestedError q M K Λ B η δ := by
      have hK := hg.change_nonneg
      have hB := hH.change_nonneg
      have : 0 < 1 - q := by linarith
      unfold nestedError
      positivity
    rw [← Real.sqrt_sq hk0, ← Real.sqrt_mul (by positivity)]
    refine Real.sqrt_le_sqrt ?_
    refine (Finset.sum_le_card_nsmul Finset.univ _ (nestedError q M K Λ B η δ ^ 2) fun k _ => ?_).trans ?_
    · rw [← sq_abs]
      exact pow_le_pow_left₀ (abs_nonneg _) (hk k) 2
    · rw [Finset.card_univ, nsmul_eq_mul]

/-- **C130** (bilevel optimisation). `GradientDescent` on an objective that contains inner solves, of a true objective that is `L`-smooth and
`μ`-strongly convex: at every step budget the answer is within the usual rate plus `2 √n nestedError/μ` of the true optimum. The inner tolerance enters
only through `innerError`, so the outer solve is as accurate as the inner ones are. -/
theorem C130_bilevel_rate (cfg : FixedPointIter.Cfg ι ℝ) (hn : cfg.norm = maxNorm) (hr : cfg.rtol = 0) (ha : 0 < cfg.atol) (hd0 : 0 ≤ cfg.damp)
    (hd1 : cfg.damp < 1) (g : (ι → ℝ) → (κ → ℝ) → (ι → ℝ)) (q M K : ℝ) (hg : ContractionFamily g q M K) (H : (ι → ℝ) → (κ → ℝ) → ℝ)
    (Λ B : ℝ) (hH : OuterObjective H Λ B) (solve : Solve ι ι) (η : ℝ) (hη : 0 ≤ η) (hs : Approximate solve η)
    (z : (κ → ℝ) → (ι → ℝ)) (hz : InnerSolves cfg g z) (p : (κ → ℝ) → (ι → ℝ)) (hp : ∀ a, g (p a) a = p a)
    (rate rtol atol L μ : ℝ) (nY : (κ → ℝ) → ℝ) (nF : (Unit → ℝ) → ℝ) (hr0 : 0 < rate) (hrL : rate * L ≤ 1) (xs : κ → ℝ)
    (hF : Spec.StronglyConvex (fun a => H (p a) a) (grad fun a => H (p a) a) L μ xs) (aux : (κ → ℝ) → A) (aux0 : A) (a0 : κ → ℝ)
    (af : (κ → ℝ) → Bool) (ms : Option Nat) (throw : Bool) (sol : Solution (κ → ℝ) A (GradientDescent.State κ A Unit (κ → ℝ)) Unit)
    (h : iterativeSolve (gdSolver rate rtol atol nY nF (nestedGrad solve g H z) aux0) af (fun a => (H (z a) a, aux a)) aux0 a0 ms throw =
      some (.ok sol)) :
    Real.sqrt (∑ i, (sol.value i - xs i) ^ 2) ≤ (1 - rate * μ / 2) ^ (sol.numSteps - 1) * Real.sqrt (∑ i, (a0 i - xs i) ^ 2) +
      2 * (Real.sqrt (Fintype.card κ) * nestedError q M K Λ B η (innerError cfg q)) / μ :=
  C124_rate rate rtol atol L μ _ _ nY nF _ _ (nestedGrad solve g H z) aux0 (fun a => (H (z a) a, aux a)) a0 xs af hr0 hrL hF
    (C130_computed cfg hn hr ha hd0 hd1 g q M K hg H Λ B hH solve η hη hs z hz p hp) ms throw sol h

/-- **C130** (bilevel optimisation, success). A successful outer solve is within the outer tolerance, divided by `rate μ`, and the error of the
gradients of the true optimum. -/
theorem C130_bilevel_success (cfg : FixedPointIter.Cfg ι ℝ) (hn : cfg.norm = maxNorm) (hr : cfg.rtol = 0) (ha : 0 < cfg.atol) (hd0 : 0 ≤ cfg.damp)
    (hd1 : cfg.damp < 1) (g : (ι → ℝ) → (κ → ℝ) → (ι → ℝ)) (q M K : ℝ) (hg : ContractionFamily g q M K) (H : (ι → ℝ) → (κ → ℝ) → ℝ)
    (Λ B : ℝ) (hH : OuterObjective H Λ B) (solve : Solve ι ι) (η : ℝ) (hη : 0 ≤ η) (hs : Approximate solve η)
    (z : (κ → ℝ) → (ι → ℝ)) (hz : InnerSolves cfg g z) (p : (κ → ℝ) → (ι → ℝ)) (hp : ∀ a, g (p a) a = p a)
    (rate rtol atol L μ : ℝ) (hr0 : 0 < rate) (hrL : rate * L ≤ 1) (ha' : 0 < atol) (hr' : 0 ≤ rtol) (xs : κ → ℝ)
    (hF : Spec.StronglyConvex (fun a => H (p a) a) (grad fun a => H (p a) a) L μ xs) (aux : (κ → ℝ) → A) (aux0 : A) (a0 : κ → ℝ)
    (af : (κ → ℝ) → Bool) (ms : Option Nat) (throw : Bool) (sol : Solution (κ → ℝ) A (GradientDescent.State κ A Unit (κ → ℝ)) Unit)
    (h : iterativeSolve (gdSolver rate rtol atol maxNorm maxNorm (nestedGrad solve g H z) aux0) af (fun a => (H (z a) a, aux a)) aux0 a0 ms
      throw = some (.ok sol)) (hs' : sol.result = .successful) :
    let ε := Real.sqrt (Fintype.card κ) * nestedError q M K Λ B η (innerError cfg q)
    Real.sqrt (∑ i, (sol.value i - xs i) ^ 2) ≤ (Real.sqrt (∑ i, (atol + rtol * |sol.value i|) ^ 2) / rate + ε) / μ + rate * ε :=
  C124_success rate rtol atol L μ _ _ _ _ (nestedGrad solve g H z) aux0 (fun a => (H (z a) a, aux a)) a0 xs af hr0 hrL ha' hr' hF
    (C130_computed cfg hn hr ha hd0 hd1 g q M K hg H Λ B hH solve η hη hs z hz p hp) ms throw sol h hs'

/-- **C130** (bilevel optimisation, termination). If the outer tolerance is above the errors that the inner solves cause, the outer solve succeeds
within some number of steps. -/
theorem C130_bilevel_terminates (cfg : FixedPointIter.Cfg ι ℝ) (hn : cfg.norm = maxNorm) (hr : cfg.rtol = 0) (ha : 0 < cfg.atol)
    (hd0 : 0 ≤ cfg.damp) (hd1 : cfg.damp < 1) (g : (ι → ℝ) → (κ → ℝ) → (ι → ℝ)) (q M K : ℝ) (hg : ContractionFamily g q M K)
    (H : (ι → ℝ) → (κ → ℝ) → ℝ) (Λ B : ℝ) (hH : OuterObjective H Λ B) (solve : Solve ι ι) (η : ℝ) (hη : 0 ≤ η) (hs : Approximate solve η)
    (z : (κ → ℝ) → (ι → ℝ)) (hz : InnerSolves cfg g z) (p : (κ → ℝ) → (ι → ℝ)) (hp : ∀ a, g (p a) a = p a)
    (rate rtol atol L μ : ℝ) (hr0 : 0 < rate) (hrL : rate * L ≤ 1) (ha' : 0 < atol) (hr' : 0 ≤ rtol) (xs : κ → ℝ)
    (hF : Spec.StronglyConvex (fun a => H (p a) a) (grad fun a => H (p a) a) L μ xs) (aux : (κ → ℝ) → A) (aux0 : A) (a0 : κ → ℝ) (d : ℝ) :
    let ε := Real.sqrt (Fintype.card κ) * nestedError q M K Λ B η (innerError cfg q)
    2 * ε / μ < d → d + rate * ε < atol → 2 * (Λ * innerError cfg q) + L / 2 * (d + rate * ε) ^ 2 < atol →
    ∃ N, ∀ (ms : Option Nat) (throw : Bool), (∀ n, ms = some n → N ≤ n) →
      ∃ sol, iterativeSolve (gdSolver rate rtol atol maxNorm maxNorm (nestedGrad solve g H z) aux0) (fun _ => true)
        (fun a => (H (z a) a, aux a)) aux0 a0 ms throw = some (.ok sol) ∧ sol.result = .successful ∧ sol.numSteps ≤ N :=
  fun h1 h2 h3 => C124_enough_steps rate rtol atol L μ _ _ _ _ (nestedGrad solve g H z) aux0 (fun a => (H (z a) a, aux a)) a0 xs _ hr0 hrL ha'
    hr' hF (C130_computed cfg hn hr ha hd0 hd1 g q M K hg H Λ B hH solve η hη hs z hz p hp) (fun _ => rfl) d h1 h2 h3

end bilevel

section root

/-- **C130** (roots of functions that contain solves). `Bisection` on `x ↦ H(fixed_point(g, args=x).value, x)`: if the inner errors, seen through
`H`, are less than half the outer `atol`, the outer solve succeeds within some number of steps; and a successful solve has an answer within the inner
error over the slope `m`, plus half the outer tolerance, of the true root. -/
theorem C130_bisection (cfg : FixedPointIter.Cfg ι ℝ) (hn : cfg.norm = maxNorm) (hr : cfg.rtol = 0) (ha : 0 < cfg.atol) (hd0 : 0 ≤ cfg.damp)
    (hd1 : cfg.damp < 1) (g : (ι → ℝ) → (Unit → ℝ) → (ι → ℝ)) (q M K : ℝ) (hg : ContractionFamily g q M K) (H : (ι → ℝ) → (Unit → ℝ) → ℝ)
    (Λ B : ℝ) (hH : OuterObjective H Λ B) (z : (Unit → ℝ) → (ι → ℝ)) (hz : InnerSolves cfg g z) (p : (Unit → ℝ) → (ι → ℝ))
    (hp : ∀ a, g (p a) a = p a) (r m : ℝ) (hm : 0 < m) (hslope : ∀ x, m * |x - r| ≤ |H (p fun _ => x) fun _ => x|)
    (outer : Bisection.Cfg ℝ) (hoa : 0 < outer.atol) (hor : 0 ≤ outer.rtol) (aux : ℝ → A) (aux0 : A) (y0 : ℝ) :
    let fn : ℝ → ℝ × A := fun x => (H (z fun _ => x) fun _ => x, aux x)
    (∀ b, outer.flip = .fixed b → Brackets (fun x => (fn x).1) b outer.lower outer.upper) →
    (2 * (Λ * innerError cfg q) < outer.atol → ∀ st0, (Bisection.solver outer).init fn y0 = .ok st0 →
      ∃ N, ∀ (ms : Option Nat) (throw : Bool), (∀ n, ms = some n → N ≤ n) →
        ∃ sol, rootFind (Bisection.solver outer) (fun _ => true) fn aux0 y0 ms throw = some (.ok sol) ∧
          sol.result = .successful ∧ sol.numSteps ≤ N) ∧
    ∀ (af : ℝ → Bool) (ms : Option Nat) (throw : Bool) (sol : Solution ℝ A (Bisection.State ℝ) Unit),
      rootFind (Bisection.solver outer) af fn aux0 y0 ms throw = some (.ok sol) → sol.result = .successful →
      ∃ st0 n, (Bisection.solver outer).init fn y0 = .ok st0 ∧ sol.numSteps = n + 1 ∧
        |sol.value - r| < Λ * innerError cfg q / m +
          (outer.atol + outer.rtol * |iterateAt (Bisection.solver outer) fn aux0 y0 st0 n|) / 2 := by
  intro fn hflip
  obtain ⟨solve, hs⟩ := exact_exists (ι := ι) (ο := ι)
  have hc := C130_computed cfg hn hr ha hd0 hd1 g q M K hg H Λ B hH solve 0 le_rfl ((approximate_zero solve).2 hs) z hz p hp
  have hcont : Continuous fun x : ℝ => H (p fun _ => x) fun _ => x := by
    have hpc : Continuous p := continuous_iff_continuousAt.2 fun a => by
      obtain ⟨D, hD, -⟩ := family_solution hg p hp a
      exact hD.continuousAt
    have h1 : Continuous fun x : ℝ => ((p fun _ => x, fun _ => x) : (ι → ℝ) × (Unit → ℝ)) := by fun_prop
    exact hH.smooth.continuous.comp h1
  have hε : ∀ x, |(fn x).1 - H (p fun _ => x) fun _ => x| ≤ Λ * innerError cfg q := fun x => hc.value fun _ => x
  exact ⟨fun hlt st0 hi => C129_bisection_terminates outer hoa hor fn aux0 y0 st0 hi hflip _ hcont _ hε hlt,
    fun af ms throw sol h hs => C129_bisection_root outer fn aux0 y0 af ms throw sol hflip _ hcont _ hε r m hm hslope h hs⟩

end root

section examples

/-- `g(y, a) = (y + a)/2`, whose fixed point is `a`. -/
noncomputable def exFamily (y a : Unit → ℝ) : Unit → ℝ := fun i => (y i + a i) / 2

theorem exFamily_y (y a : Unit → ℝ) : fderiv ℝ (fun y => exFamily y a) y = (1 / 2 : ℝ) • ContinuousLinearMap.id ℝ (Unit → ℝ) := by
  have e : (fun y => exFamily y a) = fun y => ((1 / 2 : ℝ) • ContinuousLinearMap.id ℝ (Unit → ℝ)) y + (1 / 2 : ℝ) • a := by
    funext y i
    change (y i + a i) / 2 = 1 / 2 * y i + 1 / 2 * a i
    ring
  rw [e]
  exact ((ContinuousLinearMap.hasFDerivAt _).add_const _).fderiv

theorem exFamily_a (y a : Unit → ℝ) : fderiv ℝ (fun a => exFamily y a) a = (1 / 2 : ℝ) • ContinuousLinearMap.id ℝ (Unit → ℝ) := by
  have e : (fun a => exFamily y a) = fun a => ((1 / 2 : ℝ) • ContinuousLinearMap.id ℝ (Unit → ℝ)) a + (1 / 2 : ℝ) • y := by
    funext a i
    change (y i + a i) / 2 = 1 / 2 * a i + 1 / 2 * y i
    ring
  rw [e]
  exact ((ContinuousLinearMap.hasFDerivAt _).add_const _).fderiv

theorem half_id : ‖(1 / 2 : ℝ) • ContinuousLinearMap.id ℝ (Unit → ℝ)‖ ≤ 1 / 2 := by
  refine ContinuousLinearMap.opNorm_le_bound _ (by norm_num) fun x => ?_
  change ‖(1 / 2 : ℝ) • x‖ ≤ _
  rw [norm_smul, Real.norm_of_nonneg (by norm_num : (0 : ℝ) ≤ 1 / 2)]

theorem exFamily_contracts : ContractionFamily exFamily (1 / 2) (1 / 2) 0 where
  smooth := by unfold exFamily; fun_prop
  rate_nonneg := by norm_num
  rate_lt := by norm_num
  contracts y a := by rw [exFamily_y]; exact half_id
  moves y a := by rw [exFamily_a]; exact half_id
  change_nonneg := le_rfl
  changes_y y y' a := by rw [exFamily_y, exFamily_y]; simp
  changes_a y y' a := by rw [exFamily_a, exFamily_a]; simp

/-- The outer objective `y + a²/2`: together with `exFamily`, `a + a²/2`, whose minimum is at `-1`. -/
noncomputable def exOuter (y a : Unit → ℝ) : ℝ := y () + a () ^ 2 / 2

theorem exOuter_y (y a : Unit → ℝ) : fderiv ℝ (fun y => exOuter y a) y = ContinuousLinearMap.proj () :=
  ((ContinuousLinearMap.hasFDerivAt (ContinuousLinearMap.proj (R := ℝ) (φ := fun _ : Unit => ℝ) ())).add_const (a () ^ 2 / 2)).fderiv

theorem exOuter_objective : OuterObjective exOuter 1 0 where
  smooth := by unfold exOuter; fun_prop
  moves y a := by
    rw [exOuter_y]
    refine ContinuousLinearMap.opNorm_le_bound _ zero_le_one fun x => ?_
    rw [one_mul]
    exact norm_le_pi_norm x ()
  change_nonneg := le_rfl
  changes_y y y' a := by rw [exOuter_y, exOuter_y]; simp
  changes_a y y' a := by
    have : ∀ y : Unit → ℝ, fderiv ℝ (fun a => exOuter y a) a = fderiv ℝ (fun a : Unit → ℝ => a () ^ 2 / 2) a := fun y => by
      unfold exOuter
      rw [fderiv_const_add]
    rw [this, this]
    simp

theorem exOuter_grad (a : Unit → ℝ) : grad (fun a => exOuter a a) a = fun i => 1 + a i := by
  funext i
  unfold grad exOuter
  have h : HasFDerivAt (fun a : Unit → ℝ => a () + a () ^ 2 / 2) ((1 + a ()) • (ContinuousLinearMap.proj () : (Unit → ℝ) →L[ℝ] ℝ)) a := by
    have h0 : HasFDerivAt (fun a : Unit → ℝ => a ()) (ContinuousLinearMap.proj () : (Unit → ℝ) →L[ℝ] ℝ) a :=
      (ContinuousLinearMap.proj () : (Unit → ℝ) →L[ℝ] ℝ).hasFDerivAt
    have h1 : HasDerivAt (fun x : ℝ => x + x ^ 2 / 2) (1 + a ()) (a ()) := by
      have := (hasDerivAt_id (a ())).add (((hasDerivAt_id (a ())).pow 2).div_const 2)
      refine this.congr_deriv ?_
      norm_num
    exact h1.comp_hasFDerivAt a h0
  rw [h.fderiv]
  simp

theorem exOuter_convex : Spec.StronglyConvex (fun a => exOuter a a) (grad fun a => exOuter a a) 1 1 (fun _ => -1) where
  mu_pos := one_pos
  mu_le := le_rfl
  smooth y z := by rw [exOuter_grad]; unfold exOuter; simp only [Finset.univ_unique, Finset.sum_singleton]; nlinarith
  convex y z := by rw [exOuter_grad]; unfold exOuter; simp only [Finset.univ_unique, Finset.sum_singleton]; nlinarith
  stationary i := by rw [exOuter_grad]; norm_num

/-- Inner solves of tolerance `1/100`, linear solves that are wrong by up to 1%, and an outer solve of tolerance `1/5`: the outer solve succeeds, near the
true optimum `-1`. -/
example (a0 : Unit → ℝ) :
    let cfg : FixedPointIter.Cfg Unit ℝ := { rtol := 0, atol := 1 / 100, norm := maxNorm, damp := 0 }
    ∃ (solve : Solve Unit Unit) (z : (Unit → ℝ) → Unit → ℝ) (N : ℕ) (sol : _), Approximate solve (1 / 100) ∧ InnerSolves cfg exFamily z ∧
      iterativeSolve (gdSolver (1 / 2) 0 (1 / 5) maxNorm maxNorm (nestedGrad solve exFamily exOuter z) ()) (fun _ => true)
        (fun a => (exOuter (z a) a, ())) () a0 (some N) true = some (.ok sol) ∧ sol.result = .successful ∧
      |sol.value () - -1| ≤ 1 / 2 := by
  intro cfg
  obtain ⟨solve, hs, -⟩ := approximate_exists (ι := Unit) (ο := Unit) (1 / 100) (by norm_num)
  have hd : (0 : ℝ) ≤ cfg.damp ∧ cfg.damp < 1 := by norm_num [cfg]
  have hat : 0 < cfg.atol := by norm_num [cfg]
  obtain ⟨⟨z, hz⟩, -⟩ := C130_inner cfg rfl rfl hat hd.1 hd.2 exFamily _ _ _ exFamily_contracts
  have hp : ∀ a : Unit → ℝ, exFamily a a = a := fun a => by funext i; simp [exFamily]
  have hie : innerError cfg (1 / 2) = 1 / 100 := by unfold innerError; norm_num [cfg]
  have hne : nestedError (1 / 2) (1 / 2) 0 1 0 (1 / 100) (1 / 100) = 1 / 100 := by unfold nestedError; norm_num
  have hterm := C130_bilevel_terminates cfg rfl rfl hat hd.1 hd.2 exFamily _ _ _ exFamily_contracts exOuter 1 0 exOuter_objective solve (1 / 100)
    (by norm_num) hs z hz (fun a => a) hp (1 / 2) 0 (1 / 5) 1 1 (by norm_num) (by norm_num) (by norm_num) le_rfl (fun _ => -1) exOuter_convex
    (fun _ => ()) () a0 (1 / 10)
  rw [hie, hne] at hterm
  obtain ⟨N, hN⟩ := hterm (by norm_num) (by norm_num) (by norm_num)
  obtain ⟨sol, h1, h2, -⟩ := hN (some N) true (by rintro n ⟨⟩; exact le_rfl)
  refine ⟨solve, z, N, sol, hs, hz, h1, h2, ?_⟩
  have h3 := C130_bilevel_success cfg rfl rfl hat hd.1 hd.2 exFamily _ _ _ exFamily_contracts exOuter 1 0 exOuter_objective solve (1 / 100)
    (by norm_num) hs z hz (fun a => a) hp (1 / 2) 0 (1 / 5) 1 1 (by norm_num) (by norm_num) (by norm_num) le_rfl (fun _ => -1) exOuter_convex
    (fun _ => ()) () a0 _ _ _ sol h1 h2
  rw [hie, hne] at h3
  simp only [Finset.univ_unique, Finset.sum_singleton, zero_mul, add_zero] at h3
  rw [Real.sqrt_sq_eq_abs, Real.sqrt_sq (by norm_num)] at h3
  norm_num at h3 ⊢
  linarith

theorem exResidual_y (y : Unit → ℝ) : fderiv ℝ (fun y : Unit → ℝ => y () - 1) y = ContinuousLinearMap.proj () :=
  ((ContinuousLinearMap.hasFDerivAt (ContinuousLinearMap.proj (R := ℝ) (φ := fun _ : Unit => ℝ) ())).sub_const 1).fderiv

theorem exResidual_objective : OuterObjective (fun (y _ : Unit → ℝ) => y () - 1) 1 0 where
  smooth := by fun_prop
  moves y a := by
    rw [exResidual_y y]
    refine ContinuousLinearMap.opNorm_le_bound _ zero_le_one fun x => ?_
    rw [one_mul]
    exact norm_le_pi_norm x ()
  change_nonneg := le_rfl
  changes_y y y' a := by rw [exResidual_y y, exResidual_y y']; simp
  changes_a y y' a := by simp

/-- Inner solves of tolerance `1/100` inside a `Bisection` of tolerance `1/10` on `fixed_point(exFamily, args=x).value - 1`: whatever the inner
solves return within their tolerance, the outer solve succeeds, with an answer within `0.06` of the true root `1`. -/
example (cfg : FixedPointIter.Cfg Unit ℝ) (hcfg : cfg = { rtol := 0, atol := 1 / 100, norm := maxNorm, damp := 0 }) (z : (Unit → ℝ) → Unit → ℝ)
    (hz : InnerSolves cfg exFamily z) :
    ∃ sol, rootFind (Bisection.solver (A := Unit) (exCfg false (-1) 2)) (fun _ => true) (fun x => (z (fun _ => x) () - 1, ()))
      () 0 none true = some (.ok sol) ∧ sol.result = .successful ∧ |sol.value - 1| < 0.06 := by
  have hd : (0 : ℝ) ≤ cfg.damp ∧ cfg.damp < 1 := by norm_num [hcfg]
  have hat : 0 < cfg.atol := by norm_num [hcfg]
  have hn : cfg.norm = maxNorm := by rw [hcfg]
  have hr : cfg.rtol = 0 := by rw [hcfg]
  have hp : ∀ a : Unit → ℝ, exFamily a a = a := fun a => by funext i; simp [exFamily]
  have hie : innerError cfg (1 / 2) = 1 / 100 := by unfold innerError; norm_num [hcfg]
  have hval := (C130_computed cfg hn hr hat hd.1 hd.2 exFamily _ _ _ exFamily_contracts _ 1 0 exResidual_objective
    (exact_exists (ι := Unit) (ο := Unit)).choose 0 le_rfl ((approximate_zero _).2 (exact_exists (ι := Unit) (ο := Unit)).choose_spec) z hz
    (fun a => a) hp).value
  rw [hie] at hval
  obtain ⟨hterm, hroot⟩ := C130_bisection cfg hn hr hat hd.1 hd.2 exFamily _ _ _ exFamily_contracts _ 1 0 exResidual_objective z hz
    (fun a => a) hp 1 1 one_pos (fun x => by rw [one_mul]) (exCfg false (-1) 2) (by simp only [exCfg]; norm_num) (by simp [exCfg]) (fun _ => ()) () 0
    (by intro b hb; cases hb)
  rw [hie] at hterm hroot
  obtain ⟨st0, h⟩ := ((C16_accepts_iff_partial (exCfg false (-1) 2) rfl rfl rfl ⟨true, rfl⟩
    (fun x => (z (fun _ => x) () - 1, ())) 0).1).2 (Or.inl (by
      have h1 := abs_le.1 (hval fun _ => -1)
      have h2 := abs_le.1 (hval fun _ => 2)
      simp only [exCfg]
      constructor <;> linarith [h1.1, h1.2, h2.1, h2.2]))
  obtain ⟨N, hN⟩ := hterm (by simp only [exCfg]; norm_num) st0 h
  obtain ⟨sol, h1, h2, _⟩ := hN none true (by simp)
  refine ⟨sol, h1, h2, ?_⟩
  obtain ⟨st0', n, -, -, hlt⟩ := hroot _ _ _ sol h1 h2
  refine hlt.trans_eq ?_
  simp only [exCfg]
  norm_num

end examples

end Verif.Props
