import Verif.Props.NewtonMonotone
import Verif.Props.Visited
import Verif.Spec.Bounds

/-!
Property C136: bounds for Newton and Chord that contain the root.
-/

namespace Verif.Props

open Verif.Spec Verif.Driver Verif.NewtonChord Filter Topology

variable {ι κ A J : Type}

theorem clip_inert (lower upper : Option (ι → ℝ)) (y : ι → ℝ) (h : InsideBounds lower upper y) : clipBounds lower upper y = y := by
  funext i
  cases lower with
  | none =>
    cases upper with
    | none => rfl
    | some u => exact if_neg (not_lt.2 (h.2 u rfl i))
  | some l =>
    have h1 : (if y i < l i then l i else y i) = y i := if_neg (not_lt.2 (h.1 l rfl i))
    cases upper with
    | none => exact h1
    | some u =>
      show (if u i < (if y i < l i then l i else y i) then u i else (if y i < l i then l i else y i)) = y i
      rw [h1]
      exact if_neg (not_lt.2 (h.2 u rfl i))

/-- A step that ends inside the bounds is the step without bounds. -/
theorem step_inside (cfg : Cfg ι κ ℝ J) (hl : cfg.lower = none) (hu : cfg.upper = none) (lower upper : Option (ι → ℝ))
    (fn : (ι → ℝ) → (κ → ℝ) × A) (y : ι → ℝ) (st : State ι κ ℝ J) (h : InsideBounds lower upper (step cfg fn y st).1) :
    step { cfg with lower := lower, upper := upper } fn y st = step cfg fn y st := by
  have e0 : (step cfg fn y st).1 = fun i => y i - (linSol cfg y (fn y).1 st).1 i := by
    show clipBounds cfg.lower cfg.upper _ = _
    rw [hl, hu]; rfl
  rw [e0] at h
  have hlin : linSol { cfg with lower := lower, upper := upper } y (fn y).1 st = linSol cfg y (fn y).1 st := rfl
  have hc := clip_inert lower upper _ h
  have hd : (if lower.isSome || upper.isSome then fun i => y i - (y i - (linSol cfg y (fn y).1 st).1 i) else
      (linSol cfg y (fn y).1 st).1) = (linSol cfg y (fn y).1 st).1 := by
    split
    · funext i; ring
    · rfl
  unfold step
  simp only [hlin, hc, hl, hu]
  rw [hd]
  rfl

/-- **C136.**  A solve without bounds that stays inside the bounds is the solve with bounds. -/
theorem C136_inactive (cfg : Cfg ι κ ℝ J) (hl : cfg.lower = none) (hu : cfg.upper = none) (lower upper : Option (ι → ℝ))
    (fn : (ι → ℝ) → (κ → ℝ) × A) (aux0 : A) (y0 : ι → ℝ) (af : (ι → ℝ) → Bool) (ms : Option ℕ) (throw : Bool)
    (sol : Solution (ι → ℝ) A (State ι κ ℝ J) Unit) (h : iterativeSolve (solver cfg) af fn aux0 y0 ms throw = some (.ok sol))
    (hin : ∀ k < sol.numSteps, InsideBounds lower upper (iterateAt (solver cfg) fn aux0 y0 (init cfg y0) (k + 1))) :
    iterativeSolve (solver { cfg with lower := lower, upper := upper }) af fn aux0 y0 ms throw = some (.ok sol) :=
  same_solution (S := solver cfg) (S' := solver { cfg with lower := lower, upper := upper }) rfl rfl rfl h (st0 := init cfg y0) rfl
    fun k hk => step_inside cfg hl hu lower upper fn _ _ (hin k hk)

variable [Fintype ι]

section
variable (cfg : Cfg ι ι ℝ (Op ι)) (fn : (ι → ℝ) → (ι → ℝ) × A) (aux0 : A) (r : ι → ℝ)

/-- **C136**, convex systems with inverse-positive Jacobians (C103): lower bounds that the root satisfies change nothing, whatever the starting
point; neither do upper bounds, if the starting point satisfies them and the function is nonnegative there. -/
theorem C136_systems (hs : MonotoneSetting cfg (fun y => (fn y).1) r) (hnewton : cfg.isNewton = true) (y0 : ι → ℝ)
    (lower upper : Option (ι → ℝ)) (hl : ∀ l, lower = some l → ∀ i, l i ≤ r i)
    (hu : ∀ u, upper = some u → (∀ i, y0 i ≤ u i) ∧ ∀ i, 0 ≤ (fn y0).1 i) (af : (ι → ℝ) → Bool) (ms : Option ℕ) (throw : Bool) :
    iterativeSolve (solver { cfg with lower := lower, upper := upper }) af fn aux0 y0 ms throw =
      iterativeSolve (solver cfg) af fn aux0 y0 ms throw := by
  obtain ⟨hge, hdec, -⟩ := C103_newton_global cfg fn aux0 r hs y0 hnewton
  have hin : ∀ k, InsideBounds lower upper (iterateAt (solver cfg) fn aux0 y0 (init cfg y0) (k + 1)) := by
    intro k
    refine ⟨fun l h i => (hl l h i).trans (hge k i), fun u h i => ?_⟩
    obtain ⟨h1, h2⟩ := hu u h
    have hfirst : iterateAt (solver cfg) fn aux0 y0 (init cfg y0) 1 i ≤ y0 i := by
      obtain ⟨a1, a2, -⟩ := monotone_step cfg fn aux0 r hs y0 0
      have a3 := hs.system.inversePositive _ _ (fun i => by rw [a2]; exact h2 i) i
      have a4 := a1 i
      have a5 : iterateAt (solver cfg) fn aux0 y0 (init cfg y0) 0 i = y0 i := rfl
      rw [a5] at a4
      rw [a4]
      linarith
    refine le_trans ?_ (hfirst.trans (h1 i))
    exact antitone_nat_of_succ_le (f := fun k => iterateAt (solver cfg) fn aux0 y0 (init cfg y0) (k + 1) i) (fun k => hdec k i) (Nat.zero_le k)
  refine same_outcome (S := solver cfg) (S' := solver { cfg with lower := lower, upper := upper })
    (fun y st => ∃ k, y = iterateAt (solver cfg) fn aux0 y0 (init cfg y0) k ∧ st = stateAt (solver cfg) fn aux0 y0 (init cfg y0) k)
    rfl rfl rfl ?_ ?_ ?_ af ms throw
  · rintro st0 ⟨⟩
    exact ⟨0, rfl, rfl⟩
  · rintro _ _ ⟨k, rfl, rfl⟩
    exact ⟨k + 1, rfl, rfl⟩
  · rintro _ _ ⟨k, rfl, rfl⟩
    exact step_inside cfg hs.noLower hs.noUpper lower upper fn _ _ (hin k)

end

/-- A run with Cauchy termination that converges to a root, and whose linear solves succeed, stops and reports success. -/
theorem newton_stops (cfg : Cfg ι ι ℝ (Op ι)) (fn : (ι → ℝ) → (ι → ℝ) × A) (aux0 : A) (y0 r : ι → ℝ)
    (hF : Continuous fun y => (fn y).1) (hr0 : (fn r).1 = 0)
    (hY : Tendsto (iterateAt (solver cfg) fn aux0 y0 (init cfg y0)) atTop (𝓝 r))
    (hok : ∀ k, (stateAt (solver cfg) fn aux0 y0 (init cfg y0) k).result = .successful)
    (hc : cfg.cauchy = true) (hNY : GoodNorm cfg.normY) (hNF : GoodNorm cfg.normF) (ha : 0 < cfg.atol) (hr : 0 ≤ cfg.rtol) :
    ∃ N, ∀ (ms : Option ℕ) (throw : Bool), (∀ n, ms = some n → N ≤ n) →
      ∃ sol, iterativeSolve (solver cfg) (fun _ => true) fn aux0 y0 ms throw = some (.ok sol) ∧ sol.result = .successful := by
  set Y := iterateAt (solver cfg) fn aux0 y0 (init cfg y0) with hYdef
  have hD : Tendsto (fun k => Y k - Y (k + 1)) atTop (𝓝 0) := by
    have h1 := hY.sub ((tendsto_add_atTop_iff_nat 1).2 hY)
    rwa [sub_self] at h1
  have hF0 : Tendsto (fun k => (fn (Y k)).1) atTop (𝓝 0) := by
    have := (hF.tendsto r).comp hY
    rwa [hr0] at this
  obtain ⟨δ, hδ, hδY, hδF⟩ := small_enough hNY hNF cfg.atol ha
  have ev : ∀ᶠ k in atTop, ‖Y k - Y (k + 1)‖ ≤ δ ∧ ‖(fn (Y k)).1‖ ≤ δ := by
    have e1 := (tendsto_zero_iff_norm_tendsto_zero.1 hD).eventually (gt_mem_nhds hδ)
    have e2 := (tendsto_zero_iff_norm_tendsto_zero.1 hF0).eventually (gt_mem_nhds hδ)
    filter_upwards [e1, e2] with k h1 h2 using ⟨h1.le, h2.le⟩
  obtain ⟨K, hK1, hK2⟩ := ev.exists
  have hterm : ∀ k, (solver cfg).terminate fn (Y (k - 1)) (stateAt (solver cfg) fn aux0 y0 (init cfg y0) k) =
      (match (stateAt (solver cfg) fn aux0 y0 (init cfg y0) k).f with
        | some f => cauchyTermination cfg.rtol cfg.atol cfg.normY cfg.normF (Y (k - 1))
          (stateAt (solver cfg) fn aux0 y0 (init cfg y0) k).diff (fun _ => 0) f
        | none => (terminate cfg (Y (k - 1)) (stateAt (solver cfg) fn aux0 y0 (init cfg y0) k)).1, .successful) := by
    intro k
    have hres := hok k
    have hf : ∃ f, (stateAt (solver cfg) fn aux0 y0 (init cfg y0) k).f = some f := by
      cases k with
      | zero => exact ⟨fun _ => cfg.inf, if_pos hc⟩
      | succ k => exact ⟨(fn (Y k)).1, if_pos hc⟩
    obtain ⟨f, hf⟩ := hf
    show terminate cfg _ _ = _
    unfold terminate
    simp [hc, hf, hres]
  refine ⟨K + 1, fun ms throw hb => ?_⟩
  obtain ⟨sol, h1, h2, -⟩ := succeeds_by (solver cfg) fn aux0 y0 (init cfg y0) rfl (K + 1)
    (fun j _ => by rw [hterm]) (by
      rw [hterm]
      have hf : (stateAt (solver cfg) fn aux0 y0 (init cfg y0) (K + 1)).f = some (fn (Y K)).1 := if_pos hc
      have hdiff : (stateAt (solver cfg) fn aux0 y0 (init cfg y0) (K + 1)).diff = Y K - Y (K + 1) := by
        have : (stateAt (solver cfg) fn aux0 y0 (init cfg y0) (K + 1)).diff =
            if cfg.lower.isSome || cfg.upper.isSome then (fun i => Y K i - Y (K + 1) i)
              else (linSol cfg (Y K) (fn (Y K)).1 (stateAt (solver cfg) fn aux0 y0 (init cfg y0) K)).1 := rfl
        rw [this]
        split
        · rfl
        · rename_i hn
          simp only [Bool.or_eq_true, not_or, Option.not_isSome_iff_eq_none] at hn
          funext i
          have h1 := congrFun (newton_iterate cfg fn aux0 y0 K) i
          rw [hn.1, hn.2, ← newton_linSol] at h1
          simp only [clipBounds] at h1
          rw [← hYdef] at h1
          simp only [Pi.sub_apply, h1]
          ring
      rw [hf, hdiff, Nat.add_sub_cancel]
      have c1 := norm_small hNY cfg.rtol cfg.atol δ ha hr (Y K) (Y K - Y (K + 1)) (fun i => (norm_le_pi_norm _ i).trans hK1) hδY
      have c2 := norm_small hNF cfg.rtol cfg.atol δ ha hr (fun _ => 0) (fn (Y K)).1 (fun i => (norm_le_pi_norm _ i).trans hK2) hδF
      show (decide _ && decide _) = true
      rw [Bool.and_eq_true, decide_eq_true_eq, decide_eq_true_eq]
      exact ⟨c1, c2⟩) ms throw hb
  exact ⟨sol, h1, h2⟩

/-- **C136**, one unknown.  On a convex increasing function `Newton` with bounds that contain the root converges from every starting point,
inside or outside the bounds; with the (default) Cauchy termination the solve stops and reports success. -/
theorem C136_one_unknown (cfg : Cfg Unit Unit ℝ (Op Unit)) (fn : (Unit → ℝ) → (Unit → ℝ) × A) (aux0 : A) (r : Unit → ℝ)
    (hs : MonotoneSetting { cfg with lower := none, upper := none } (fun y => (fn y).1) r) (hnewton : cfg.isNewton = true)
    (hin : InsideBounds cfg.lower cfg.upper r) (y0 : Unit → ℝ) :
    Tendsto (iterateAt (solver cfg) fn aux0 y0 (init cfg y0)) atTop (𝓝 r) ∧
    ∀ (_ : cfg.cauchy = true) (_ : GoodNorm cfg.normY) (_ : GoodNorm cfg.normF) (_ : 0 < cfg.atol) (_ : 0 ≤ cfg.rtol),
      ∃ N, ∀ (ms : Option ℕ) (throw : Bool), (∀ n, ms = some n → N ≤ n) →
        ∃ sol, iterativeSolve (solver cfg) (fun _ => true) fn aux0 y0 ms throw = some (.ok sol) ∧ sol.result = .successful := by
  set cfg0 : Cfg Unit Unit ℝ (Op Unit) := { cfg with lower := none, upper := none } with hcfg0
  set Y := iterateAt (solver cfg) fn aux0 y0 (init cfg y0) with hY
  -- one step without bounds from any point
  have hfree : ∀ y : Unit → ℝ, r () ≤ y () - (cfg.linearSolve (cfg.jac y) (fn y).1).1 () := by
    intro y
    have h1 := (C103_newton_global cfg0 fn aux0 r hs y hnewton).1 0 ()
    rw [newton_iterate] at h1
    have hj : jacPoint cfg0 fn aux0 y 0 = y := by simp only [jacPoint, hcfg0, hnewton, if_true]; rfl
    rw [hj] at h1
    exact h1
  have hpos : ∀ y : Unit → ℝ, r () ≤ y () → 0 ≤ (fn y).1 () := by
    intro y hy
    have h1 := hs.system.lower r y ()
    rw [hs.root] at h1
    refine le_trans ?_ h1
    rw [Pi.zero_apply, zero_add]
    by_contra hneg
    push Not at hneg
    have h2 := hs.system.inversePositive r (-(y - r)) (fun i => by
      rw [map_neg, Pi.neg_apply]; exact (neg_pos.2 hneg).le) ()
    simp only [Pi.neg_apply, Pi.sub_apply] at h2
    have h3 : y = r := funext fun _ => by linarith
    rw [h3, sub_self, map_zero] at hneg
    exact lt_irrefl _ hneg
  have hdown : ∀ y : Unit → ℝ, r () ≤ y () → 0 ≤ (cfg.linearSolve (cfg.jac y) (fn y).1).1 () := by
    intro y hy
    refine hs.system.inversePositive y _ (fun i => ?_) ()
    have h1 := (hs.solves (cfg.jac y) (by rw [show cfg.jac y = _ from hs.jacobian y]; exact hs.system.invertible y) (fn y).1).1
    rw [show cfg.jac y = fderiv ℝ (fun y => (fn y).1) y from hs.jacobian y] at h1 ⊢
    rw [show (fderiv ℝ (fun y => (fn y).1) y) (cfg.linearSolve (fderiv ℝ (fun y => (fn y).1) y) (fn y).1).1 = (fn y).1 from h1]
    exact hpos y hy
  have hstep : ∀ k, Y (k + 1) = clipBounds cfg.lower cfg.upper fun i => Y k i - (cfg.linearSolve (cfg.jac (Y k)) (fn (Y k)).1).1 i := by
    intro k
    rw [hY, newton_iterate]
    simp [jacPoint, hnewton]
  have hclip : ∀ x : Unit → ℝ, r () ≤ x () → r () ≤ clipBounds cfg.lower cfg.upper x () := by
    intro x hx
    cases hl : cfg.lower with
    | none =>
      cases hu : cfg.upper with
      | none => exact hx
      | some u =>
        show r () ≤ if u () < x () then u () else x ()
        split
        · exact hin.2 u hu ()
        · exact hx
    | some l =>
      have h1 : r () ≤ if x () < l () then l () else x () := by split <;> linarith
      cases hu : cfg.upper with
      | none => exact h1
      | some u =>
        show r () ≤ if u () < (if x () < l () then l () else x ()) then u () else (if x () < l () then l () else x ())
        by_cases h2 : u () < (if x () < l () then l () else x ())
        · rw [if_pos h2]; exact hin.2 u hu ()
        · rw [if_neg h2]; exact h1
  have hge : ∀ k, r () ≤ Y (k + 1) () := fun k => by
    rw [hstep]
    exact hclip _ (hfree (Y k))
  have hup : ∀ k, InsideBounds none cfg.upper (Y (k + 1)) := fun k => ⟨by simp, fun u hu i => by
    refine (C22_iterates_in_bounds cfg fn aux0 y0 (fun l u' h1 h2 i => ?_) k i).2 u hu
    exact (hin.1 l h1 i).trans (hin.2 u' h2 i)⟩
  have hnext : ∀ k, Y (k + 2) = fun i => Y (k + 1) i - (cfg.linearSolve (cfg.jac (Y (k + 1))) (fn (Y (k + 1))).1).1 i := by
    intro k
    rw [hstep (k + 1)]
    refine clip_inert _ _ _ ⟨fun l hl i => (hin.1 l hl i).trans (hfree _), fun u hu i => ?_⟩
    have h1 := hdown _ (hge k)
    have h2 := (hup k).2 u hu i
    cases i
    linarith
  have hshift : ∀ k, Y (k + 1) = iterateAt (solver cfg0) fn aux0 (Y 1) (init cfg0 (Y 1)) k := by
    intro k
    induction k with
    | zero => rfl
    | succ k ih =>
      rw [newton_iterate, hnext, ← ih]
      have : jacPoint cfg0 fn aux0 (Y 1) k = Y (k + 1) := by rw [ih]; simp [jacPoint, hcfg0, hnewton]
      rw [this]
      rfl
  have hlim : Tendsto Y atTop (𝓝 r) := by
    refine (tendsto_add_atTop_iff_nat 1).1 ?_
    exact (C103_newton_global cfg0 fn aux0 r hs (Y 1) hnewton).2.2.1.congr fun k => (hshift k).symm
  refine ⟨hlim, newton_stops cfg fn aux0 y0 r hs.system.smooth.continuous hs.root hlim fun k => ?_⟩
  cases k with
  | zero => rfl
  | succ k =>
    show (linSol cfg (Y k) (fn (Y k)).1 (stateAt (solver cfg) fn aux0 y0 (init cfg y0) k)).2 = _
    rw [newton_linSol]
    exact (hs.solves _ (by rw [show cfg.jac _ = _ from hs.jacobian _]; exact hs.system.invertible _) _).2

/-- The hypotheses are met by the equation `exp(x) = 2` with the bounds `0 ≤ x ≤ 1`: from `x = -5`, where the step without bounds would lead to
a point near `290`, Newton with bounds converges. -/
example : ∃ N, ∀ (ms : Option ℕ) (throw : Bool), (∀ n, ms = some n → N ≤ n) → ∃ sol,
    iterativeSolve (solver { newtonFor (fun (y : Unit → ℝ) (_ : Unit) => Real.exp (y ()) - 2) true with
      lower := some fun _ => 0, upper := some fun _ => 1 }) (fun _ => true) (fun y => (fun _ => Real.exp (y ()) - 2, ())) () (fun _ => -5) ms throw =
      some (.ok sol) ∧ sol.result = .successful := by
  refine (C136_one_unknown _ _ () (fun _ => Real.log 2) ?_ rfl ?_ _).2 rfl (goodNorm_maxNorm (ι := Unit)) (goodNorm_maxNorm (ι := Unit)) (by norm_num [newtonFor])
    (by norm_num [newtonFor])
  · refine ⟨scalar_system (fun x => Real.exp x - 2) Real.exp (fun x => (Real.hasDerivAt_exp x).sub_const 2) Real.continuous_exp ?_
      Real.exp_pos, ?_, fun y => rfl, invertSolve_solves, rfl, rfl⟩
    · exact convexOn_exp.sub (concaveOn_const 2 convex_univ)
    · funext u
      show Real.exp (Real.log 2) - 2 = 0
      rw [Real.exp_log two_pos, sub_self]
  · refine ⟨fun l hl i => ?_, fun u hu i => ?_⟩
    · cases hl
      exact Real.log_nonneg (by norm_num)
    · cases hu
      have : Real.log 2 ≤ 2 - 1 := Real.log_le_sub_one_of_pos two_pos
      show Real.log 2 ≤ 1
      linarith

/-- The function `x² - 1`. -/
noncomputable def squareLessOne (y : Unit → ℝ) : (Unit → ℝ) × Unit := (fun _ => y () ^ 2 - 1, ())

/-- **C136**, the converse: where the function is not increasing, bounds that contain a root can keep Newton from it.  The bounds
`-2 ≤ x ≤ 1/2` contain the root `-1` of `x² - 1`; started at `1/2`, `Newton` stays there: with an unlimited budget the solve never returns, with
any finite budget it uses the budget up and says so. -/
theorem C136_stuck (cfg : Cfg Unit Unit ℝ (Op Unit)) (hnewton : cfg.isNewton = true) (hcauchy : cfg.cauchy = true)
    (hjac : ∀ y, cfg.jac y = fderiv ℝ (fun y => (squareLessOne y).1) y) (hsolve : SolvesInvertible cfg.linearSolve)
    (hl : cfg.lower = some fun _ => -2) (hu : cfg.upper = some fun _ => 1 / 2) (hnorm : cfg.normF = maxNorm) (hinf : 1 ≤ cfg.inf)
    (ha : 0 < cfg.atol) (htol : cfg.atol ≤ 3 / 4) :
    (∀ k, iterateAt (solver cfg) squareLessOne () (fun _ => 1 / 2) (init cfg fun _ => 1 / 2) k = fun _ => 1 / 2) ∧
    iterativeSolve (solver cfg) (fun _ => true) squareLessOne () (fun _ => 1 / 2) none false = none ∧
    ∀ m, ∃ sol, iterativeSolve (solver cfg) (fun _ => true) squareLessOne () (fun _ => 1 / 2) (some m) false = some (.ok sol) ∧
      sol.result = .nonlinearMaxStepsReached ∧ sol.numSteps = m := by
  have hder : ∀ x : ℝ, HasDerivAt (fun x : ℝ => x ^ 2 - 1) (2 * x) x := by
    intro x
    simpa using (hasDerivAt_pow 2 x).sub_const (1 : ℝ)
  have hJ : cfg.jac (fun _ => 1 / 2) = ContinuousLinearMap.id ℝ (Unit → ℝ) := by
    rw [hjac]
    refine (scalar_derivative _ _ hder _).fderiv.trans ?_
    norm_num
  obtain ⟨hsol, hok⟩ := hsolve (cfg.jac fun _ => 1 / 2) (by rw [hJ]; exact ⟨ContinuousLinearEquiv.refl ℝ _, rfl⟩)
    (squareLessOne fun _ => 1 / 2).1
  have hd : (cfg.linearSolve (cfg.jac fun _ => 1 / 2) (squareLessOne fun _ => 1 / 2).1).1 () = -3 / 4 := by
    have h1 := congrFun hsol ()
    generalize (cfg.linearSolve (cfg.jac fun _ => 1 / 2) (squareLessOne fun _ => 1 / 2).1).1 = w at h1 ⊢
    rw [hJ] at h1
    have h2 : w () = (1 / 2 : ℝ) ^ 2 - 1 := h1
    rw [h2]; norm_num
  set Y := iterateAt (solver cfg) squareLessOne () (fun _ => 1 / 2) (init cfg fun _ => 1 / 2) with hY
  have hjp : ∀ k, jacPoint cfg squareLessOne () (fun _ => 1 / 2) k = Y k := fun k => by simp [jacPoint, hnewton, hY]
  have hiter : ∀ k, Y k = fun _ => 1 / 2 := by
    intro k
    induction k with
    | zero => rfl
    | succ k ih =>
      rw [hY, newton_iterate, hjp, ← hY, ih, hl, hu]
      funext u
      cases u
      simp only [clipBounds, hd]
      norm_num
  have hlarge : ∀ f : Unit → ℝ, 3 / 4 ≤ |f ()| → ¬ cfg.normF (scaledDiff cfg.rtol cfg.atol (fun _ => 0) f) < 1 := by
    intro f hf hlt
    have h1 : scaledDiff cfg.rtol cfg.atol (fun _ => 0) f () ≤ maxNorm (scaledDiff cfg.rtol cfg.atol (fun _ => 0) f) :=
      (le_abs_self _).trans (((maxNorm_le_iff (scaledDiff cfg.rtol cfg.atol (fun _ => 0) f) _).1 le_rfl).2 ())
    rw [hnorm] at hlt
    have h2 : 1 ≤ scaledDiff cfg.rtol cfg.atol (fun _ => 0) f () := by
      show 1 ≤ |f ()| / (cfg.atol + cfg.rtol * |(0 : ℝ)|)
      rw [abs_zero, mul_zero, add_zero, le_div_iff₀ ha]
      linarith
    linarith
  have hcont : ∀ k, (solver cfg).terminate squareLessOne (Y (k - 1))
      (stateAt (solver cfg) squareLessOne () (fun _ => 1 / 2) (init cfg fun _ => 1 / 2) k) = (false, .successful) := by
    intro k
    have key : ∀ (y : Unit → ℝ) (st : State Unit Unit ℝ (Op Unit)) (f : Unit → ℝ), st.f = some f → st.result = .successful →
        3 / 4 ≤ |f ()| → terminate cfg y st = (false, .successful) := by
      intro y st f hf hres hy
      have := hlarge f hy
      unfold terminate
      simp [hcauchy, hf, hres, cauchyTermination, this]
    cases k with
    | zero =>
      refine key _ _ (fun _ => cfg.inf) (if_pos hcauchy) rfl ?_
      exact le_trans (by norm_num) (hinf.trans (le_abs_self _))
    | succ k =>
      have hlin := newton_linSol cfg squareLessOne () (fun _ => 1 / 2) k
      rw [hjp, ← hY, hiter] at hlin
      refine key _ _ (squareLessOne (Y k)).1 (if_pos hcauchy) ?_ ?_
      · show (linSol cfg (Y k) (squareLessOne (Y k)).1 (stateAt (solver cfg) squareLessOne () (fun _ => 1 / 2) (init cfg fun _ => 1 / 2) k)).2 = _
        rw [hiter, hlin]
        exact hok
      · rw [hiter]
        show 3 / 4 ≤ |(1 / 2 : ℝ) ^ 2 - 1|
        norm_num
  refine ⟨fun k => hiter k, ?_⟩
  exact never_stops (solver cfg) (fun _ => true) squareLessOne () (fun _ => 1 / 2) _ rfl fun k => ⟨rfl, hcont k⟩

/-- The hypotheses are met with tolerances `1/100`. -/
example : let cfg : Cfg Unit Unit ℝ (Op Unit) := { newtonFor (fun y => (squareLessOne y).1) true with
      lower := some fun _ => -2, upper := some fun _ => 1 / 2 }
    cfg.isNewton = true ∧ cfg.cauchy = true ∧ (∀ y, cfg.jac y = fderiv ℝ (fun y => (squareLessOne y).1) y) ∧
    SolvesInvertible cfg.linearSolve ∧ cfg.normF = maxNorm ∧ 1 ≤ cfg.inf ∧ cfg.atol ≤ 3 / 4 := by
  refine ⟨rfl, rfl, fun _ => rfl, invertSolve_solves, rfl, ?_, ?_⟩ <;> simp only [newtonFor] <;> norm_num

end Verif.Props
