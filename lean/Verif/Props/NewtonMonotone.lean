import Verif.Props.NewtonLocal
import Verif.Props.Damping
import Mathlib.Analysis.Convex.Deriv
import Mathlib.Topology.Algebra.Module.FiniteDimension
import Mathlib.Analysis.Calculus.Deriv.Prod
import Mathlib.Analysis.Convex.SpecificFunctions.Basic
import Mathlib.Analysis.SpecialFunctions.ExpDeriv
import Mathlib.Tactic.Module

/-!
Property C103: global convergence of Newton's method and of the chord method on convex systems with inverse-positive Jacobian, for
instance on convex increasing functions of one unknown; and a cycle of Newton's method without convexity.
-/

namespace Verif.Props

open Verif.Spec Verif.Driver Verif.NewtonChord Filter Topology

variable {ι A : Type} [Fintype ι]

/-- A system with convex components whose Jacobians have nonnegative inverses.  In one unknown: a convex function with
positive derivative. -/
structure ConvexSystem (F : (ι → ℝ) → (ι → ℝ)) : Prop where
  smooth : ContDiff ℝ 1 F
  convex : ∀ i, ConvexOn ℝ Set.univ fun y => F y i
  inversePositive : ∀ y d, (∀ i, 0 ≤ fderiv ℝ F y d i) → ∀ i, 0 ≤ d i

theorem ConvexSystem.lower {F : (ι → ℝ) → (ι → ℝ)} (h : ConvexSystem F) (y z : ι → ℝ) (i : ι) :
    F y i + fderiv ℝ F y (z - y) i ≤ F z i := by
  have hd : HasFDerivAt F (fderiv ℝ F y) y := (h.smooth.differentiable (by norm_num) y).hasFDerivAt
  have hline : HasDerivAt (fun t : ℝ => y + t • (z - y)) (z - y) 0 := by
    have := ((hasDerivAt_id (0 : ℝ)).smul_const (z - y)).const_add y
    simpa using this
  have hd0 : HasFDerivAt F (fderiv ℝ F y) (y + (0 : ℝ) • (z - y)) := by simpa using hd
  have hg : HasDerivAt (fun t : ℝ => F (y + t • (z - y)) i) (fderiv ℝ F y (z - y) i) 0 := by
    have h1 := hd0.comp_hasDerivAt (0 : ℝ) hline
    exact (hasDerivAt_pi.1 h1) i
  have hconv : ConvexOn ℝ Set.univ fun t : ℝ => F (y + t • (z - y)) i := by
    refine ⟨convex_univ, fun a _ b _ p q hp hq hpq => ?_⟩
    have h2 := (h.convex i).2 (Set.mem_univ (y + a • (z - y))) (Set.mem_univ (y + b • (z - y))) hp hq hpq
    have e : y + (p • a + q • b) • (z - y) = p • (y + a • (z - y)) + q • (y + b • (z - y)) := by
      obtain rfl : q = 1 - p := by linarith
      simp only [smul_eq_mul]
      module
    simp only [e]
    exact h2
  have h3 := hconv.le_slope_of_hasDerivAt (Set.mem_univ 0) (Set.mem_univ 1) one_pos hg
  rw [slope_def_field] at h3
  simp only [one_smul, zero_smul, add_zero, sub_zero, div_one, add_sub_cancel] at h3
  linarith

theorem ConvexSystem.invertible {F : (ι → ℝ) → (ι → ℝ)} (h : ConvexSystem F) (y : ι → ℝ) : (fderiv ℝ F y).IsInvertible := by
  have hinj : Function.Injective (fderiv ℝ F y) := by
    refine (injective_iff_map_eq_zero _).2 fun d hd => ?_
    funext i
    have h1 := h.inversePositive y d (fun i => by rw [hd]; exact le_rfl) i
    have h2 := h.inversePositive y (-d) (fun i => by rw [map_neg, hd]; simp) i
    simp only [Pi.neg_apply] at h2
    show d i = 0
    linarith
  refine ⟨(LinearEquiv.ofInjectiveEndo (fderiv ℝ F y : (ι → ℝ) →ₗ[ℝ] (ι → ℝ)) hinj).toContinuousLinearEquiv, ?_⟩
  ext d i
  rfl

/-- There is at most one root. -/
theorem ConvexSystem.unique {F : (ι → ℝ) → (ι → ℝ)} (h : ConvexSystem F) (r s : ι → ℝ) (hr : F r = 0) (hs : F s = 0) : r = s := by
  have key : ∀ a b : ι → ℝ, F a = 0 → F b = 0 → ∀ i, b i ≤ a i := by
    intro a b ha hb i
    have h1 := h.inversePositive a (a - b) (fun i => by
      have := h.lower a b i
      rw [ha, hb, show b - a = -(a - b) by abel, map_neg] at this
      simp only [Pi.zero_apply, Pi.neg_apply] at this
      linarith) i
    simp only [Pi.sub_apply] at h1
    linarith
  funext i
  exact le_antisymm (key s r hs hr i) (key r s hr hs i)

/-- The setting: JAX computes the derivative, linear solves are exact, there are no bounds. -/
structure MonotoneSetting (cfg : Cfg ι ι ℝ (Op ι)) (F : (ι → ℝ) → (ι → ℝ)) (r : ι → ℝ) : Prop where
  system : ConvexSystem F
  root : F r = 0
  jacobian : ∀ y, cfg.jac y = fderiv ℝ F y
  solves : SolvesInvertible cfg.linearSolve
  noLower : cfg.lower = none
  noUpper : cfg.upper = none

section run

variable (cfg : Cfg ι ι ℝ (Op ι)) (fn : (ι → ℝ) → (ι → ℝ) × A) (aux0 : A) (r : ι → ℝ)
  (hs : MonotoneSetting cfg (fun y => (fn y).1) r) (y0 : ι → ℝ)

local notation "Y" => iterateAt (solver cfg) fn aux0 y0 (init cfg y0)
set_option quotPrecheck false in
local notation "D" k:max => (cfg.linearSolve (cfg.jac (jacPoint cfg fn aux0 y0 k)) (fn (Y k)).1).1

include hs in
theorem monotone_step (k : ℕ) : (∀ i, Y (k + 1) i = Y k i - (D k) i) ∧
    fderiv ℝ (fun y => (fn y).1) (jacPoint cfg fn aux0 y0 k) (D k) = (fn (Y k)).1 ∧
    (stateAt (solver cfg) fn aux0 y0 (init cfg y0) k).result = .successful := by
  have hsol : ∀ k, _ := fun k => hs.solves (cfg.jac (jacPoint cfg fn aux0 y0 k)) (by rw [hs.jacobian]; exact hs.system.invertible _)
    (fn (Y k)).1
  refine ⟨fun i => ?_, ?_, ?_⟩
  · rw [newton_iterate, hs.noLower, hs.noUpper]; rfl
  · have := (hsol k).1
    rw [hs.jacobian] at this ⊢
    exact this
  · cases k with
    | zero => rfl
    | succ k =>
      show (linSol cfg (Y k) (fn (Y k)).1 (stateAt (solver cfg) fn aux0 y0 (init cfg y0) k)).2 = _
      rw [newton_linSol]
      exact (hsol k).2

include hs in
/-- A run that decreases towards the root converges to it and succeeds. -/
theorem monotone_converges (hge : ∀ k i, r i ≤ Y (k + 1) i) (hdec : ∀ k i, Y (k + 2) i ≤ Y (k + 1) i)
    (hjac : cfg.isNewton = true ∨ ∀ k, jacPoint cfg fn aux0 y0 k = y0) :
    Tendsto Y atTop (𝓝 r) ∧
    ∀ (_ : cfg.cauchy = true) (_ : GoodNorm cfg.normY) (_ : GoodNorm cfg.normF) (_ : 0 < cfg.atol) (_ : 0 ≤ cfg.rtol),
      ∃ N, ∀ (ms : Option ℕ) (throw : Bool), (∀ n, ms = some n → N ≤ n) →
        ∃ sol, iterativeSolve (solver cfg) (fun _ => true) fn aux0 y0 ms throw = some (.ok sol) ∧ sol.result = .successful := by
  have hFc : Continuous fun y => (fn y).1 := hs.system.smooth.continuous
  have hJc : Continuous (fderiv ℝ fun y => (fn y).1) := hs.system.smooth.continuous_fderiv (by norm_num)
  obtain ⟨y, hy⟩ : ∃ y : ι → ℝ, Tendsto Y atTop (𝓝 y) := by
    have hi : ∀ i, ∃ a, Tendsto (fun k => Y (k + 1) i) atTop (𝓝 a) := fun i =>
      ⟨_, tendsto_atTop_ciInf (antitone_nat_of_succ_le fun k => hdec k i) ⟨r i, by rintro _ ⟨k, rfl⟩; exact hge k i⟩⟩
    choose a ha using hi
    exact ⟨a, (tendsto_add_atTop_iff_nat 1).1 (tendsto_pi_nhds.2 ha)⟩
  have hD : Tendsto (fun k => D k) atTop (𝓝 0) := by
    have h1 := hy.sub ((tendsto_add_atTop_iff_nat 1).2 hy)
    rw [sub_self] at h1
    refine h1.congr fun k => ?_
    funext i
    have := (monotone_step cfg fn aux0 r hs y0 k).1 i
    simp only [Pi.sub_apply, this]
    ring
  have hJ : ∃ B, Tendsto (fun k => fderiv ℝ (fun y => (fn y).1) (jacPoint cfg fn aux0 y0 k)) atTop (𝓝 B) := by
    rcases hjac with h | h
    · refine ⟨_, ((hJc.tendsto y).comp hy).congr fun k => ?_⟩
      simp [jacPoint, h]
    · exact ⟨fderiv ℝ (fun y => (fn y).1) y0, tendsto_const_nhds.congr fun k => by rw [h]⟩
  obtain ⟨B, hB⟩ := hJ
  have hF0 : Tendsto (fun k => (fn (Y k)).1) atTop (𝓝 0) := by
    have h1 := (isBoundedBilinearMap_apply.continuous.tendsto (B, (0 : ι → ℝ))).comp (hB.prodMk_nhds hD)
    simp only [map_zero] at h1
    exact h1.congr fun k => (monotone_step cfg fn aux0 r hs y0 k).2.1
  have hyr : y = r := hs.system.unique y r (tendsto_nhds_unique ((hFc.tendsto y).comp hy) hF0) hs.root
  refine ⟨hyr ▸ hy, fun hc hNY hNF ha hr => ?_⟩
  obtain ⟨δ, hδ, hδY, hδF⟩ := small_enough hNY hNF cfg.atol ha
  have ev : ∀ᶠ k in atTop, ‖D k‖ ≤ δ ∧ ‖(fn (Y k)).1‖ ≤ δ := by
    have e1 := (tendsto_zero_iff_norm_tendsto_zero.1 hD).eventually (gt_mem_nhds hδ)
    have e2 := (tendsto_zero_iff_norm_tendsto_zero.1 hF0).eventually (gt_mem_nhds hδ)
    filter_upwards [e1, e2] with k h1 h2 using ⟨h1.le, h2.le⟩
  obtain ⟨K, hK1, hK2⟩ := ev.exists
  have hterm : ∀ k, (solver cfg).terminate fn (Y (k - 1)) (stateAt (solver cfg) fn aux0 y0 (init cfg y0) k) =
      (match (stateAt (solver cfg) fn aux0 y0 (init cfg y0) k).f with
        | some f => cauchyTermination cfg.rtol cfg.atol cfg.normY cfg.normF (Y (k - 1))
          (stateAt (solver cfg) fn aux0 y0 (init cfg y0) k).diff (fun _ => 0) f
        | none => (terminate cfg (Y (k - 1)) (stateAt (solver cfg) fn aux0 y0 (init cfg y0) k)).1, .successful) := by
    intro k
    have hres := (monotone_step cfg fn aux0 r hs y0 k).2.2
    have hf : ∃ f, (stateAt (solver cfg) fn aux0 y0 (init cfg y0) k).f = some f := by
      cases k with
      | zero => exact ⟨fun _ => cfg.inf, if_pos hc⟩
      | succ k => exact ⟨(fn (Y k)).1, if_pos hc⟩
    obtain ⟨f, hf⟩ := hf
    show terminate cfg _ _ = _
    unfold terminate
    simp [hc, hf, hres]
  refine ⟨K + 1, fun ms throw hb => ?_⟩
  obtain ⟨sol, h1, h2, -⟩ := succeeds_by (solver cfg) fn aux0 y0 (init cfg y0) rfl (K + 1)
    (fun j _ => by rw [hterm]) (by
      rw [hterm]
      have hf : (stateAt (solver cfg) fn aux0 y0 (init cfg y0) (K + 1)).f = some (fn (Y K)).1 := if_pos hc
      have hdiff : (stateAt (solver cfg) fn aux0 y0 (init cfg y0) (K + 1)).diff = D K := by
        have : (stateAt (solver cfg) fn aux0 y0 (init cfg y0) (K + 1)).diff =
            if cfg.lower.isSome || cfg.upper.isSome then (fun i => Y K i - Y (K + 1) i)
              else (linSol cfg (Y K) (fn (Y K)).1 (stateAt (solver cfg) fn aux0 y0 (init cfg y0) K)).1 := rfl
        rw [this, hs.noLower, hs.noUpper, newton_linSol]
        rfl
      rw [hf, hdiff, Nat.add_sub_cancel]
      have c1 := norm_small hNY cfg.rtol cfg.atol δ ha hr (Y K) (D K) (fun i => (norm_le_pi_norm _ i).trans hK1) hδY
      have c2 := norm_small hNF cfg.rtol cfg.atol δ ha hr (fun _ => 0) (fn (Y K)).1 (fun i => (norm_le_pi_norm _ i).trans hK2) hδF
      show (decide _ && decide _) = true
      rw [Bool.and_eq_true, decide_eq_true_eq, decide_eq_true_eq]
      exact ⟨c1, c2⟩) ms throw hb
  exact ⟨sol, h1, h2⟩

include hs in
/-- **C103**, Newton.  On a convex system with inverse-positive Jacobians that has a root `r` (for instance a convex increasing
function of one unknown), `Newton` converges from every starting point: from the first step on the iterates lie above `r` and
decrease, entry by entry, and converge to `r`; and with the (default) Cauchy termination the solve stops and reports success. -/
theorem C103_newton_global (hnewton : cfg.isNewton = true) :
    (∀ k i, r i ≤ Y (k + 1) i) ∧ (∀ k i, Y (k + 2) i ≤ Y (k + 1) i) ∧ Tendsto Y atTop (𝓝 r) ∧
    ∀ (_ : cfg.cauchy = true) (_ : GoodNorm cfg.normY) (_ : GoodNorm cfg.normF) (_ : 0 < cfg.atol) (_ : 0 ≤ cfg.rtol),
      ∃ N, ∀ (ms : Option ℕ) (throw : Bool), (∀ n, ms = some n → N ≤ n) →
        ∃ sol, iterativeSolve (solver cfg) (fun _ => true) fn aux0 y0 ms throw = some (.ok sol) ∧ sol.result = .successful := by
  have hjp : ∀ k, jacPoint cfg fn aux0 y0 k = Y k := fun k => by simp [jacPoint, hnewton]
  have hd : ∀ k, fderiv ℝ (fun y => (fn y).1) (Y k) (D k) = (fn (Y k)).1 := fun k => by
    have := (monotone_step cfg fn aux0 r hs y0 k).2.1
    rw [hjp] at this ⊢
    exact this
  have hstep := fun k => (monotone_step cfg fn aux0 r hs y0 k).1
  have hnext : ∀ k, Y (k + 1) = Y k - D k := fun k => by funext i; exact hstep k i
  have hge : ∀ k i, r i ≤ Y (k + 1) i := by
    intro k i
    have h1 := hs.system.inversePositive (Y k) (Y (k + 1) - r) (fun i => by
      have h2 := hs.system.lower (Y k) r i
      rw [hs.root] at h2
      have e : fderiv ℝ (fun y => (fn y).1) (Y k) (Y (k + 1) - r) =
          -((fn (Y k)).1 + fderiv ℝ (fun y => (fn y).1) (Y k) (r - Y k)) := by
        rw [hnext, ← hd, ← map_add, ← map_neg, hd]
        congr 1
        abel
      rw [e]
      simp only [Pi.neg_apply, Pi.add_apply, Pi.zero_apply] at h2 ⊢
      linarith) i
    simp only [Pi.sub_apply] at h1
    linarith
  have hFpos : ∀ k i, 0 ≤ (fn (Y (k + 1))).1 i := by
    intro k i
    have h2 := hs.system.lower (Y k) (Y (k + 1)) i
    rw [hnext, sub_sub_cancel_left, map_neg, hd] at h2
    simp only [Pi.neg_apply] at h2
    rw [hnext]
    linarith
  have hdec : ∀ k i, Y (k + 2) i ≤ Y (k + 1) i := by
    intro k i
    have h1 := hs.system.inversePositive (Y (k + 1)) (D (k + 1)) (fun i => by rw [hd]; exact hFpos k i) i
    have := hstep (k + 1) i
    linarith
  obtain ⟨h1, h2⟩ := monotone_converges cfg fn aux0 r hs y0 hge hdec (Or.inl hnewton)
  exact ⟨hge, hdec, h1, h2⟩

include hs in
/-- **C103**, Chord.  If moreover the Jacobians are isotone (`J(y) d ≤ J(z) d` for `y ≤ z` and `d ≥ 0`; automatic in one unknown)
then `Chord` converges in the same way from every `y0` with `fn(y0) ≥ 0`. -/
theorem C103_chord_global (hchord : cfg.isNewton = false)
    (hiso : ∀ y z d : ι → ℝ, (∀ i, y i ≤ z i) → (∀ i, 0 ≤ d i) →
      ∀ i, fderiv ℝ (fun y => (fn y).1) y d i ≤ fderiv ℝ (fun y => (fn y).1) z d i)
    (hy0 : ∀ i, 0 ≤ (fn y0).1 i) :
    (∀ k i, r i ≤ Y k i) ∧ (∀ k i, Y (k + 1) i ≤ Y k i) ∧ Tendsto Y atTop (𝓝 r) ∧
    ∀ (_ : cfg.cauchy = true) (_ : GoodNorm cfg.normY) (_ : GoodNorm cfg.normF) (_ : 0 < cfg.atol) (_ : 0 ≤ cfg.rtol),
      ∃ N, ∀ (ms : Option ℕ) (throw : Bool), (∀ n, ms = some n → N ≤ n) →
        ∃ sol, iterativeSolve (solver cfg) (fun _ => true) fn aux0 y0 ms throw = some (.ok sol) ∧ sol.result = .successful := by
  have hjp : ∀ k, jacPoint cfg fn aux0 y0 k = y0 := fun k => by simp [jacPoint, hchord]
  have hd : ∀ k, fderiv ℝ (fun y => (fn y).1) y0 (D k) = (fn (Y k)).1 := fun k => by
    have := (monotone_step cfg fn aux0 r hs y0 k).2.1
    rw [hjp] at this ⊢
    exact this
  have hstep := fun k => (monotone_step cfg fn aux0 r hs y0 k).1
  have hnext : ∀ k, Y (k + 1) = Y k - D k := fun k => by funext i; exact hstep k i
  have hD0 : ∀ k, (∀ i, 0 ≤ (fn (Y k)).1 i) → ∀ i, 0 ≤ (D k) i := fun k h =>
    hs.system.inversePositive y0 (D k) (fun i => by rw [hd]; exact h i)
  have hstart : ∀ i, r i ≤ y0 i := by
    intro i
    have h1 := hs.system.inversePositive y0 (y0 - r) (fun i => by
      have h2 := hs.system.lower y0 r i
      rw [hs.root, show r - y0 = -(y0 - r) by abel, map_neg] at h2
      simp only [Pi.neg_apply, Pi.zero_apply] at h2
      linarith [hy0 i]) i
    simp only [Pi.sub_apply] at h1
    linarith
  have inv : ∀ k, (∀ i, 0 ≤ (fn (Y k)).1 i) ∧ (∀ i, r i ≤ Y k i) ∧ ∀ i, Y k i ≤ y0 i := by
    intro k
    induction k with
    | zero => exact ⟨hy0, hstart, fun i => le_rfl⟩
    | succ k ih =>
      obtain ⟨a, b, c⟩ := ih
      have hDk := hD0 k a
      refine ⟨fun i => ?_, fun i => ?_, fun i => ?_⟩
      · have h2 := hs.system.lower (Y k) (Y (k + 1)) i
        rw [hnext, sub_sub_cancel_left, map_neg] at h2
        have h3 := hiso (Y k) y0 (D k) c hDk i
        rw [hd] at h3
        simp only [Pi.neg_apply] at h2
        rw [hnext]
        linarith
      · have h1 := hs.system.inversePositive y0 (Y (k + 1) - r) (fun i => by
          have h2 := hs.system.lower (Y k) r i
          have h3 := hiso (Y k) y0 (Y k - r) c (fun i => by simp only [Pi.sub_apply]; linarith [b i]) i
          rw [hs.root, show r - Y k = -(Y k - r) by abel, map_neg] at h2
          rw [hnext, show Y k - (D k) - r = (Y k - r) - D k by abel, map_sub, hd]
          simp only [Pi.neg_apply, Pi.sub_apply, Pi.zero_apply] at h2 ⊢
          linarith) i
        simp only [Pi.sub_apply] at h1
        linarith
      · have := hstep k i
        linarith [hDk i, c i]
  have hdec : ∀ k i, Y (k + 1) i ≤ Y k i := fun k i => by
    have := hstep k i
    linarith [hD0 k (inv k).1 i]
  obtain ⟨h1, h2⟩ := monotone_converges cfg fn aux0 r hs y0 (fun k => (inv (k + 1)).2.1) (fun k => hdec (k + 1)) (Or.inr hjp)
  exact ⟨fun k => (inv k).2.1, hdec, h1, h2⟩

end run

theorem scalar_derivative (g g' : ℝ → ℝ) (hg : ∀ x, HasDerivAt g (g' x) x) (y : Unit → ℝ) :
    HasFDerivAt (fun (y : Unit → ℝ) (_ : Unit) => g (y ()))
      (g' (y ()) • ContinuousLinearMap.id ℝ (Unit → ℝ)) y := by
  rw [hasFDerivAt_pi']
  intro i
  have h1 : HasFDerivAt (fun y : Unit → ℝ => y ()) (ContinuousLinearMap.proj () : (Unit → ℝ) →L[ℝ] ℝ) y := hasFDerivAt_apply () y
  have h2 := (hg (y ())).comp_hasFDerivAt y h1
  have e : (ContinuousLinearMap.proj i : (Unit → ℝ) →L[ℝ] ℝ).comp (g' (y ()) • ContinuousLinearMap.id ℝ (Unit → ℝ)) =
      g' (y ()) • (ContinuousLinearMap.proj () : (Unit → ℝ) →L[ℝ] ℝ) := by
    ext x
    rfl
  rw [e]
  exact h2

/-- In one unknown: convex functions with positive derivative, on the whole line, are convex systems. -/
theorem scalar_system (g g' : ℝ → ℝ) (hg : ∀ x, HasDerivAt g (g' x) x) (hc : Continuous g') (hconv : ConvexOn ℝ Set.univ g)
    (hpos : ∀ x, 0 < g' x) : ConvexSystem fun (y : Unit → ℝ) (_ : Unit) => g (y ()) := by
  have hfd : ∀ y : Unit → ℝ, fderiv ℝ (fun (y : Unit → ℝ) (_ : Unit) => g (y ())) y = _ := fun y =>
    (scalar_derivative g g' hg y).fderiv
  refine ⟨?_, fun i => ⟨convex_univ, fun a _ b _ p q hp hq hpq => ?_⟩, fun y d h i => ?_⟩
  · rw [contDiff_one_iff_fderiv]
    refine ⟨fun y => (scalar_derivative g g' hg y).differentiableAt, ?_⟩
    have e : fderiv ℝ (fun (y : Unit → ℝ) (_ : Unit) => g (y ())) = fun y => g' (y ()) • ContinuousLinearMap.id ℝ (Unit → ℝ) :=
      funext hfd
    rw [e]
    fun_prop
  · exact hconv.2 (Set.mem_univ _) (Set.mem_univ _) hp hq hpq
  · have := h ()
    rw [hfd] at this
    have h2 : 0 ≤ g' (y ()) * d () := this
    exact nonneg_of_mul_nonneg_right h2 (hpos _)

/-- An exact linear solver. -/
noncomputable def invertSolve (J : Op ι) (b : ι → ℝ) : (ι → ℝ) × Result := (J.inverse b, .successful)

theorem invertSolve_solves : SolvesInvertible (ι := ι) invertSolve := by
  rintro J ⟨e, rfl⟩ b
  simp [invertSolve]

/-- A solver object for a given function: exact derivative, exact linear solves, default (Cauchy) termination, tolerances `1/100`. -/
noncomputable def newtonFor (F : (ι → ℝ) → (ι → ℝ)) (isNewton : Bool) : Cfg ι ι ℝ (Op ι) :=
  { rtol := 1 / 100, atol := 1 / 100, normY := maxNorm, normF := maxNorm, kappa := 1, cauchy := true, isNewton := isNewton,
    lower := none, upper := none, jac := fderiv ℝ F, linearSolve := invertSolve, inf := 1000000,
    isfinite := fun _ => true, resolution := 1 / 100 }

/-- The hypotheses are met by the equation `exp(x) = 2`, for both solvers (for the chord method, from every `y0 ≥ log 2`). -/
example (b : Bool) :
    MonotoneSetting (newtonFor (fun (y : Unit → ℝ) (_ : Unit) => Real.exp (y ()) - 2) b)
      (fun (y : Unit → ℝ) (_ : Unit) => Real.exp (y ()) - 2) (fun _ => Real.log 2) ∧
    ∀ y z d : Unit → ℝ, (∀ i, y i ≤ z i) → (∀ i, 0 ≤ d i) → ∀ i,
      fderiv ℝ (fun (y : Unit → ℝ) (_ : Unit) => Real.exp (y ()) - 2) y d i ≤
        fderiv ℝ (fun (y : Unit → ℝ) (_ : Unit) => Real.exp (y ()) - 2) z d i := by
  have hd : ∀ x, HasDerivAt (fun x => Real.exp x - 2) (Real.exp x) x := fun x => (Real.hasDerivAt_exp x).sub_const 2
  refine ⟨⟨scalar_system (fun x => Real.exp x - 2) Real.exp hd Real.continuous_exp ?_ Real.exp_pos, ?_, fun _ => rfl,
    invertSolve_solves, rfl, rfl⟩, fun y z d hyz hd0 i => ?_⟩
  · exact convexOn_exp.add_const (-2 : ℝ)
  · funext i
    simp [Real.exp_log]
  · rw [(scalar_derivative _ _ hd y).fderiv, (scalar_derivative _ _ hd z).fderiv]
    exact mul_le_mul_of_nonneg_right (Real.exp_le_exp.2 (hyz ())) (hd0 _)

/-- A discretised boundary value problem `-u'' + exp(u) = 1` on two grid points. -/
noncomputable def grid (y : Fin 2 → ℝ) (i : Fin 2) : ℝ := 2 * y i - y (1 - i) + Real.exp (y i) - 1

/-- The hypotheses are met by a system of two coupled nonlinear equations. -/
example (b : Bool) : MonotoneSetting (newtonFor grid b) grid (fun _ => 0) := by
  have hd : ∀ y : Fin 2 → ℝ, HasFDerivAt grid (ContinuousLinearMap.pi fun i =>
      (2 + Real.exp (y i)) • (ContinuousLinearMap.proj i : (Fin 2 → ℝ) →L[ℝ] ℝ) - ContinuousLinearMap.proj (1 - i)) y := by
    intro y
    rw [hasFDerivAt_pi]
    intro i
    have h1 : ∀ i, HasFDerivAt (fun y : Fin 2 → ℝ => y i) (ContinuousLinearMap.proj i : (Fin 2 → ℝ) →L[ℝ] ℝ) y :=
      fun i => hasFDerivAt_apply i y
    have h2 := ((((h1 i).const_mul 2).sub (h1 (1 - i))).add ((Real.hasDerivAt_exp (y i)).comp_hasFDerivAt y (h1 i))).sub_const (1 : ℝ)
    have e : (2 + Real.exp (y i)) • (ContinuousLinearMap.proj i : (Fin 2 → ℝ) →L[ℝ] ℝ) - ContinuousLinearMap.proj (1 - i) =
        (2 : ℝ) • (ContinuousLinearMap.proj i : (Fin 2 → ℝ) →L[ℝ] ℝ) - ContinuousLinearMap.proj (1 - i) +
          Real.exp (y i) • ContinuousLinearMap.proj i := by
      rw [add_smul]
      abel
    rw [e]
    exact h2
  refine ⟨⟨?_, fun i => ?_, fun y d h i => ?_⟩, ?_, fun _ => rfl, invertSolve_solves, rfl, rfl⟩
  · refine contDiff_pi.2 fun i => ?_
    unfold grid
    fun_prop
  · refine ⟨convex_univ, fun a _ b _ p q hp hq hpq => ?_⟩
    have h1 := convexOn_exp.2 (Set.mem_univ (a i)) (Set.mem_univ (b i)) hp hq hpq
    simp only [grid, Pi.add_apply, Pi.smul_apply, smul_eq_mul] at h1 ⊢
    nlinarith
  · have h0 := h 0
    have h1 := h 1
    rw [(hd y).fderiv] at h0 h1
    simp at h0 h1
    have e0 := Real.exp_pos (y 0)
    have e1 := Real.exp_pos (y 1)
    have a0 : 0 ≤ d 0 := by
      by_contra hc
      push Not at hc
      have : d 1 < 2 * d 0 := by nlinarith
      nlinarith
    have a1 : 0 ≤ d 1 := by
      by_contra hc
      push Not at hc
      nlinarith
    fin_cases i
    · exact a0
    · exact a1
  · funext i
    simp [grid]

/-- The cubic `x³ - 2x + 2`. -/
noncomputable def cubic (y : Unit → ℝ) : (Unit → ℝ) × Unit := (fun _ => y () ^ 3 - 2 * y () + 2, ())

/-- **C103**, the converse: without convexity there is no such guarantee.  On `x³ - 2x + 2`, which has a root (near `-1.77`), with
nonzero derivative there, `Newton` started at `0` alternates between `0` and `1`: with an unlimited budget the solve never returns,
with any finite budget it uses the budget up and says so. -/
theorem C103_newton_cycles (cfg : Cfg Unit Unit ℝ (Op Unit)) (hnewton : cfg.isNewton = true) (hcauchy : cfg.cauchy = true)
    (hjac : ∀ y, cfg.jac y = fderiv ℝ (fun y => (cubic y).1) y) (hsolve : SolvesInvertible cfg.linearSolve)
    (hl : cfg.lower = none) (hu : cfg.upper = none) (hnorm : cfg.normY = maxNorm) (hinf : 1 ≤ cfg.inf)
    (ha : 0 < cfg.atol) (hr : 0 ≤ cfg.rtol) (htol : cfg.atol + cfg.rtol ≤ 1) :
    (∀ k, iterateAt (solver cfg) cubic () (fun _ => 0) (init cfg fun _ => 0) k = fun _ => if k % 2 = 0 then 0 else 1) ∧
    iterativeSolve (solver cfg) (fun _ => true) cubic () (fun _ => 0) none false = none ∧
    ∀ m, ∃ sol, iterativeSolve (solver cfg) (fun _ => true) cubic () (fun _ => 0) (some m) false = some (.ok sol) ∧
      sol.result = .nonlinearMaxStepsReached ∧ sol.numSteps = m := by
  have hder : ∀ x : ℝ, HasDerivAt (fun x : ℝ => x ^ 3 - 2 * x + 2) (3 * x ^ 2 - 2) x := by
    intro x
    have := (((hasDerivAt_pow 3 x).sub ((hasDerivAt_id x).const_mul 2)).add_const (2 : ℝ))
    simpa using this
  have hJ : ∀ y, cfg.jac y = (3 * y () ^ 2 - 2) • ContinuousLinearMap.id ℝ (Unit → ℝ) := fun y => by
    rw [hjac]
    exact (scalar_derivative _ _ hder y).fderiv
  have hsol : ∀ y : Unit → ℝ, 3 * y () ^ 2 - 2 ≠ 0 → ∀ b, (3 * y () ^ 2 - 2) * (cfg.linearSolve (cfg.jac y) b).1 () = b () ∧
      (cfg.linearSolve (cfg.jac y) b).2 = .successful := by
    intro y hy b
    have hi : (cfg.jac y).IsInvertible := by
      rw [hJ]
      refine ⟨ContinuousLinearEquiv.smulLeft (Units.mk0 _ hy), ?_⟩
      ext x i
      simp
    obtain ⟨h1, h2⟩ := hsolve _ hi b
    refine ⟨?_, h2⟩
    have h3 := congrFun h1 ()
    generalize (cfg.linearSolve (cfg.jac y) b).1 = w at h3 ⊢
    rw [hJ] at h3
    exact h3
  set Y := iterateAt (solver cfg) cubic () (fun _ => 0) (init cfg fun _ => 0) with hY
  have hjp : ∀ k, jacPoint cfg cubic () (fun _ => 0) k = Y k := fun k => by simp [jacPoint, hnewton, hY]
  have hnext : ∀ k, Y (k + 1) () = Y k () - (cfg.linearSolve (cfg.jac (Y k)) (cubic (Y k)).1).1 () := by
    intro k
    rw [hY, newton_iterate, hjp, hl, hu]
    rfl
  have hiter : ∀ k, Y k () = if k % 2 = 0 then 0 else 1 := by
    intro k
    induction k with
    | zero => rfl
    | succ k ih =>
      rw [hnext]
      rcases Nat.mod_two_eq_zero_or_one k with h | h
      · rw [if_pos h] at ih
        have h1 := (hsol (Y k) (by rw [ih]; norm_num) (cubic (Y k)).1).1
        simp only [cubic, ih] at h1 ⊢
        rw [if_neg (by omega)]
        linarith
      · rw [if_neg (by omega)] at ih
        have h1 := (hsol (Y k) (by rw [ih]; norm_num) (cubic (Y k)).1).1
        simp only [cubic, ih] at h1 ⊢
        rw [if_pos (by omega)]
        linarith
  have hstep : ∀ k, |(cfg.linearSolve (cfg.jac (Y k)) (cubic (Y k)).1).1 ()| = 1 := by
    intro k
    have h1 := hnext k
    have e : (cfg.linearSolve (cfg.jac (Y k)) (cubic (Y k)).1).1 () = Y k () - Y (k + 1) () := by linarith
    rw [e, hiter, hiter]
    rcases Nat.mod_two_eq_zero_or_one k with h | h
    · rw [if_pos h, if_neg (by omega)]; norm_num
    · rw [if_neg (by omega), if_pos (by omega)]; norm_num
  have habs : ∀ k, |Y k ()| ≤ 1 := by
    intro k
    rw [hiter]
    split <;> norm_num
  have hok : ∀ k, (cfg.linearSolve (cfg.jac (Y k)) (cubic (Y k)).1).2 = .successful := by
    intro k
    refine (hsol (Y k) ?_ _).2
    rw [hiter]
    split <;> norm_num
  have hlarge : ∀ y d : Unit → ℝ, |y ()| ≤ 1 → 1 ≤ |d ()| → ¬ cfg.normY (scaledDiff cfg.rtol cfg.atol y d) < 1 := by
    intro y d hy hd hlt
    have h1 : scaledDiff cfg.rtol cfg.atol y d () ≤ maxNorm (scaledDiff cfg.rtol cfg.atol y d) :=
      (le_abs_self _).trans (((maxNorm_le_iff (scaledDiff cfg.rtol cfg.atol y d) _).1 le_rfl).2 ())
    rw [hnorm] at hlt
    have hs : 0 < cfg.atol + cfg.rtol * |y ()| := by positivity
    have h2 : 1 ≤ scaledDiff cfg.rtol cfg.atol y d () := by
      show 1 ≤ |d ()| / (cfg.atol + cfg.rtol * |y ()|)
      rw [le_div_iff₀ hs]
      have := mul_le_mul_of_nonneg_left hy hr
      linarith
    linarith
  have hcont : ∀ k, (solver cfg).terminate cubic (Y (k - 1)) (stateAt (solver cfg) cubic () (fun _ => 0) (init cfg fun _ => 0) k) =
      (false, .successful) := by
    intro k
    have key : ∀ (y : Unit → ℝ) (st : State Unit Unit ℝ (Op Unit)) (f : Unit → ℝ), st.f = some f → st.result = .successful →
        |y ()| ≤ 1 → 1 ≤ |st.diff ()| → terminate cfg y st = (false, .successful) := by
      intro y st f hf hres hy hd
      have := hlarge y st.diff hy hd
      unfold terminate
      simp [hcauchy, hf, hres, cauchyTermination, this]
    cases k with
    | zero =>
      refine key _ _ (fun _ => cfg.inf) (if_pos hcauchy) rfl (by simpa using habs 0) ?_
      show 1 ≤ |cfg.inf|
      exact hinf.trans (le_abs_self _)
    | succ k =>
      have hlin := newton_linSol cfg cubic () (fun _ => 0) k
      rw [hjp] at hlin
      refine key _ _ (cubic (Y k)).1 (if_pos hcauchy) ?_ (habs k) ?_
      · show (linSol cfg (Y k) (cubic (Y k)).1 (stateAt (solver cfg) cubic () (fun _ => 0) (init cfg fun _ => 0) k)).2 = _
        rw [hlin]
        exact hok k
      · have : (stateAt (solver cfg) cubic () (fun _ => 0) (init cfg fun _ => 0) (k + 1)).diff =
            if cfg.lower.isSome || cfg.upper.isSome then (fun i => Y k i - Y (k + 1) i)
              else (linSol cfg (Y k) (cubic (Y k)).1 (stateAt (solver cfg) cubic () (fun _ => 0) (init cfg fun _ => 0) k)).1 := rfl
        rw [this, hl, hu, hlin]
        exact (hstep k).ge
  refine ⟨fun k => funext fun i => hiter k, ?_⟩
  exact never_stops (solver cfg) (fun _ => true) cubic () (fun _ => 0) _ rfl fun k => ⟨rfl, hcont k⟩

/-- The hypotheses are met with tolerances `1/100`. -/
example : let cfg := newtonFor (fun y => (cubic y).1) true
    cfg.isNewton = true ∧ cfg.cauchy = true ∧ (∀ y, cfg.jac y = fderiv ℝ (fun y => (cubic y).1) y) ∧
    SolvesInvertible cfg.linearSolve ∧ cfg.normY = maxNorm ∧ 1 ≤ cfg.inf ∧ cfg.atol + cfg.rtol ≤ 1 := by
  refine ⟨rfl, rfl, fun _ => rfl, invertSolve_solves, rfl, ?_, ?_⟩ <;> simp only [newtonFor] <;> norm_num

end Verif.Props
