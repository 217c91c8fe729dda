import Verif.Lemmas.TrustRegion
import Verif.Props.LevenbergMarquardt
import Verif.Props.GlobalConvergence
import Mathlib.Analysis.Calculus.FDeriv.Pi
import Mathlib.Analysis.Calculus.FDeriv.Pow
import Mathlib.Topology.Algebra.Module.FiniteDimension
import Mathlib.Analysis.SpecialFunctions.Trigonometric.Bounds

/-!
Property C64: Levenberg-Marquardt makes progress at every point that is not stationary, and converges from every starting
point.
-/

namespace Verif.Props

open Verif Verif.Spec Verif.Driver Verif.SearchLoop Filter Topology

variable {ι κ A DS : Type} [Fintype ι] [Fintype κ]

/-- The step of the descent, from a query with residuals `r` and Jacobian `J`, is `stepAt t r J`: it does not depend on earlier
queries. -/
def Memoryless (desc : Descent ι κ DS) (stepAt : ℝ → (κ → ℝ) → Matrix κ ι ℝ → (ι → ℝ) × Result) : Prop :=
  ∀ t y' d' r J, desc.step t (desc.query y' (.residualJac r J) d') = stepAt t r J

/-- Least-squares runs with the classical trust region follow the trust-region rule. -/
theorem gn_trust_run (c : TrustRegion.Cfg ℝ) (hl : 0 < c.lowConstant) (hh : 0 < c.highConstant)
    (cfg : GaussNewton.Cfg ι κ ℝ DS) (hs : cfg.search = TrustRegion.classical c)
    (stepAt : ℝ → (κ → ℝ) → Matrix κ ι ℝ → (ι → ℝ) × Result) (hd : Memoryless cfg.descent stepAt)
    (aux0 : A) (fn : (ι → ℝ) → (κ → ℝ) × A) (y0 : ι → ℝ) (st0 : GaussNewton.State ι κ A ℝ DS)
    (hi : (GaussNewton.solver cfg aux0).init fn y0 = .ok st0) :
    let Y := iterateAt (GaussNewton.solver cfg aux0) fn aux0 y0 st0
    let St := stateAt (GaussNewton.solver cfg aux0) fn aux0 y0 st0
    TrustRun (fun y => (∑ m, (fn y).1 m ^ 2) / 2)
      (fun y t => fun i => y i + (stepAt t (fn y).1 (cfg.jac y)).1 i)
      (fun y t => linearisedChange (cfg.jac y) (fn y).1 (stepAt t (fn y).1 (cfg.jac y)).1)
      c.lowCutoff c.lowConstant c.highConstant (fun k => Y (k + 1)) (fun k => (St (k + 1)).searchState) ∧
    Y 1 = y0 ∧ (St 1).searchState = 1 ∧
    ∀ k, (St (k + 1)).yEval = (fun i => Y (k + 1) i +
      (stepAt (St (k + 1)).searchState (fn (Y (k + 1))).1 (cfg.jac (Y (k + 1)))).1 i) := by
  intro Y St
  have hss : ∀ x : κ → ℝ, sumSquares x = ∑ i, x i ^ 2 := by
    intro x; unfold sumSquares; exact Finset.sum_congr rfl fun _ _ => by ring
  have L := gn_laws cfg aux0 fn
  rw [hs] at L
  obtain ⟨hpos, _, h1, hrule⟩ := C29_run_gauss_newton c hl hh cfg hs aux0 fn y0 st0 hi
  have hy : ∀ k, (St (k + 1)).yEval = (fun i => Y (k + 1) i +
      (stepAt (St (k + 1)).searchState (fn (Y (k + 1))).1 (cfg.jac (Y (k + 1)))).1 i) := by
    intro k
    obtain ⟨⟨y', d', hq⟩, htr⟩ := trust_region_trial c DS cfg hs aux0 fn y0 st0 hi k
    funext i
    have h := htr i
    rw [hq, hd] at h
    linarith
  refine ⟨⟨fun k => hpos (k + 1), fun k => ?_⟩, (first_iterate L (tr_first _ _ _) aux0 y0 st0 hi).1, h1, hy⟩
  have hrule' : ∀ D P, D = sumSquares (fn (St (k + 1)).yEval).1 / 2 - sumSquares (fn (Y (k + 1))).1 / 2 →
      P = (∑ m, ((fn (Y (k + 1))).1 m + ∑ i, cfg.jac (Y (k + 1)) m i * ((St (k + 1)).yEval i - Y (k + 1) i)) ^ 2) / 2 -
        (∑ m, (fn (Y (k + 1))).1 m ^ 2) / 2 →
      (D ≤ c.lowCutoff * P → Y (k + 1 + 1) = (St (k + 1)).yEval ∧
        (St (k + 1 + 1)).searchState = (if D < c.highCutoff * P ∧ P < 0 then
          c.highConstant * (St (k + 1)).searchState else (St (k + 1)).searchState)) ∧
      (¬ D ≤ c.lowCutoff * P → Y (k + 1 + 1) = Y (k + 1) ∧
        (St (k + 1 + 1)).searchState = c.lowConstant * (St (k + 1)).searchState) := by
    rintro _ _ rfl rfl
    exact hrule (k + 1) (by omega)
  set p := (stepAt (St (k + 1)).searchState (fn (Y (k + 1))).1 (cfg.jac (Y (k + 1)))).1 with hp
  obtain ⟨hacc, hrej⟩ := hrule' ((∑ m, (fn fun i => Y (k + 1) i + p i).1 m ^ 2) / 2 - (∑ m, (fn (Y (k + 1))).1 m ^ 2) / 2)
    (linearisedChange (cfg.jac (Y (k + 1))) (fn (Y (k + 1))).1 p) (by rw [hss, hss, hy k]) (by
      unfold linearisedChange
      congr 2
      refine Finset.sum_congr rfl fun m _ => ?_
      rw [add_comm, hy k]
      congr 2
      simp only [Matrix.mulVec, dotProduct]
      exact Finset.sum_congr rfl fun i _ => by rw [add_sub_cancel_left])
  by_cases ha : (∑ m, (fn fun i => Y (k + 1) i + p i).1 m ^ 2) / 2 - (∑ m, (fn (Y (k + 1))).1 m ^ 2) / 2 ≤
      c.lowCutoff * linearisedChange (cfg.jac (Y (k + 1))) (fn (Y (k + 1))).1 p
  · refine .inl ⟨ha, by rw [(hacc ha).1, hy k], ?_⟩
    have := (hacc ha).2
    split at this
    · exact .inl this
    · exact .inr this
  · exact .inr ⟨ha, (hrej ha).1, (hrej ha).2⟩

/-- If a trial point is taken after a step so short, and so small a change of the residuals, that the tests pass, the run is flagged
to stop there, free of failures so far. -/
theorem gn_trust_flag (c : TrustRegion.Cfg ℝ) (hl : 0 < c.lowConstant) (hh : 0 < c.highConstant)
    (cfg : GaussNewton.Cfg ι κ ℝ DS) (hs : cfg.search = TrustRegion.classical c)
    (stepAt : ℝ → (κ → ℝ) → Matrix κ ι ℝ → (ι → ℝ) × Result) (hd : Memoryless cfg.descent stepAt)
    (hat : 0 < cfg.atol) (hrt : 0 ≤ cfg.rtol) (hY : GoodNorm cfg.normY) (hF : GoodNorm cfg.normF)
    (aux0 : A) (fn : (ι → ℝ) → (κ → ℝ) × A) (y0 : ι → ℝ) (st0 : GaussNewton.State ι κ A ℝ DS)
    (hi : (GaussNewton.solver cfg aux0).init fn y0 = .ok st0)
    (hok : ∀ k, let y := iterateAt (GaussNewton.solver cfg aux0) fn aux0 y0 st0 (k + 1)
      (stepAt (stateAt (GaussNewton.solver cfg aux0) fn aux0 y0 st0 (k + 1)).searchState (fn y).1 (cfg.jac y)).2 = .successful)
    (δ : ℝ) (hδY : δ * cfg.normY (fun _ => 1) < cfg.atol) (hδF : δ * cfg.normF (fun _ => 1) < cfg.atol) (k : Nat)
    (ha : let y := iterateAt (GaussNewton.solver cfg aux0) fn aux0 y0 st0 (k + 1)
      let p := (stepAt (stateAt (GaussNewton.solver cfg aux0) fn aux0 y0 st0 (k + 1)).searchState (fn y).1 (cfg.jac y)).1
      (∑ m, (fn fun i => y i + p i).1 m ^ 2) / 2 - (∑ m, (fn y).1 m ^ 2) / 2 ≤
        c.lowCutoff * linearisedChange (cfg.jac y) (fn y).1 p ∧ (∀ i, |p i| ≤ δ) ∧
      ∀ m, |(fn fun i => y i + p i).1 m - (fn y).1 m| ≤ δ) :
    (∀ j, (stateAt (GaussNewton.solver cfg aux0) fn aux0 y0 st0 j).result = .successful) ∧
    (stateAt (GaussNewton.solver cfg aux0) fn aux0 y0 st0 (k + 2)).terminate = true := by
  have hss : ∀ x : κ → ℝ, sumSquares x = ∑ i, x i ^ 2 := by
    intro x; unfold sumSquares; exact Finset.sum_congr rfl fun _ _ => by ring
  have L := gn_laws cfg aux0 fn
  rw [hs] at L
  obtain ⟨_, _, _, hyE⟩ := gn_trust_run c hl hh cfg hs stepAt hd aux0 fn y0 st0 hi
  obtain ⟨ha, hp, hr⟩ := ha
  set Y := iterateAt (GaussNewton.solver cfg aux0) fn aux0 y0 st0 with hYd
  set St := stateAt (GaussNewton.solver cfg aux0) fn aux0 y0 st0 with hSt
  have hinfo := (stored L (tr_first _ _ _) aux0 y0 st0 hi k).1
  have hacc := (tr_ask L aux0 y0 st0 hi k).2 (by
    have hyk := hyE k
    have e1 : (gnView (A := A) cfg fn).yEval (St (k + 1)) = (St (k + 1)).yEval := rfl
    show 0.5 * sumSquares (fn ((gnView (A := A) cfg fn).yEval (St (k + 1)))).1 - 0.5 * sumSquares (fn (Y (k + 1))).1 ≤
      c.lowCutoff * (TrustRegion.classicalPredict (fun i => (gnView (A := A) cfg fn).yEval (St (k + 1)) i - Y (k + 1) i)
        ((gnView (A := A) cfg fn).fInfo (St (k + 1)))).getD 0
    rw [hinfo, C54_classical_residual, e1, hss, hss, hyk]
    refine le_trans (le_of_eq ?_) (ha.trans (le_of_eq ?_))
    · norm_num; ring
    · unfold linearisedChange
      simp only [Option.getD_some]
      congr 3
      refine Finset.sum_congr rfl fun m _ => ?_
      rw [add_comm]
      congr 2
      simp only [Matrix.mulVec, dotProduct]
      exact Finset.sum_congr rfl fun i _ => by ring)
  refine ⟨?_, ?_⟩
  · intro j
    show (St j).result = .successful
    obtain _ | j := j
    · show st0.result = .successful
      simp only [GaussNewton.solver, GaussNewton.init] at hi
      split at hi
      · cases hi
      · cases hi; rfl
    · obtain ⟨⟨y', d', hq⟩, _⟩ := trust_region_trial c DS cfg hs aux0 fn y0 st0 hi j
      have hst : St (j + 1) = (GaussNewton.step cfg fn (Y j) (St j)).2.1 := rfl
      have hres : (St (j + 1)).result = (cfg.descent.step (St (j + 1)).searchState (St (j + 1)).descentState).2 := by
        rw [hst]
        simp only [GaussNewton.step, hs]
        rfl
      rw [hres, show (St (j + 1)).descentState = _ from hq, hd]
      exact hok j
  · show (St (k + 1 + 1)).terminate = true
    have hst : St (k + 1 + 1) = (GaussNewton.step cfg fn (Y (k + 1)) (St (k + 1))).2.1 := rfl
    have hfirst : (St (k + 1)).firstStep = false := first_at L aux0 y0 st0 k
    have hacc' : (cfg.search.step (St (k + 1)).firstStep (Y (k + 1)) (St (k + 1)).yEval
      (.residualJac (St (k + 1)).residual (St (k + 1)).jac)
      (.residualJac (fn (St (k + 1)).yEval).1 (cfg.jac (St (k + 1)).yEval)) (St (k + 1)).searchState).2.1 = true := by
      rw [hs]; exact hacc
    have hres : (St (k + 1)).residual = (fn (Y (k + 1))).1 := by
      have : FnInfo.residualJac (St (k + 1)).residual (St (k + 1)).jac =
        .residualJac (fn (Y (k + 1))).1 (cfg.jac (Y (k + 1))) := hinfo
      injection this
    have hgoal : cauchyTermination cfg.rtol cfg.atol cfg.normY cfg.normF (St (k + 1)).yEval
        (fun i => (St (k + 1)).yEval i - Y (k + 1) i) (fn (St (k + 1)).yEval).1
        (fun m => (fn (St (k + 1)).yEval).1 m - (fn (Y (k + 1))).1 m) = true := by
      simp only [cauchyTermination, Bool.and_eq_true, decide_eq_true_eq]
      refine ⟨norm_small hY cfg.rtol cfg.atol δ hat hrt _ _ (fun i => ?_) hδY,
        norm_small hF cfg.rtol cfg.atol δ hat hrt _ _ (fun m => ?_) hδF⟩
      · show |(St (k + 1)).yEval i - Y (k + 1) i| ≤ δ
        rw [hyE k, add_sub_cancel_left]
        exact hp i
      · rw [hyE k]; exact hr m
    rw [hfirst, hres] at hacc'
    rw [hst]
    simp only [GaussNewton.step, hacc', if_true, hfirst, hres]
    exact hgoal

/-- If trial points keep being taken, with steps and changes of the residuals that get small, the solve stops successfully. -/
theorem gn_trust_stops_at (c : TrustRegion.Cfg ℝ) (hl : 0 < c.lowConstant) (hh : 0 < c.highConstant)
    (cfg : GaussNewton.Cfg ι κ ℝ DS) (hs : cfg.search = TrustRegion.classical c)
    (stepAt : ℝ → (κ → ℝ) → Matrix κ ι ℝ → (ι → ℝ) × Result) (hd : Memoryless cfg.descent stepAt)
    (hat : 0 < cfg.atol) (hrt : 0 ≤ cfg.rtol) (hY : GoodNorm cfg.normY) (hF : GoodNorm cfg.normF)
    (aux0 : A) (fn : (ι → ℝ) → (κ → ℝ) × A) (y0 : ι → ℝ) (st0 : GaussNewton.State ι κ A ℝ DS)
    (hi : (GaussNewton.solver cfg aux0).init fn y0 = .ok st0)
    (hok : ∀ k, let y := iterateAt (GaussNewton.solver cfg aux0) fn aux0 y0 st0 (k + 1)
      (stepAt (stateAt (GaussNewton.solver cfg aux0) fn aux0 y0 st0 (k + 1)).searchState (fn y).1 (cfg.jac y)).2 = .successful)
    (hsmall : ∀ δ, 0 < δ → ∃ k, let y := iterateAt (GaussNewton.solver cfg aux0) fn aux0 y0 st0 (k + 1)
      let p := (stepAt (stateAt (GaussNewton.solver cfg aux0) fn aux0 y0 st0 (k + 1)).searchState (fn y).1 (cfg.jac y)).1
      (∑ m, (fn fun i => y i + p i).1 m ^ 2) / 2 - (∑ m, (fn y).1 m ^ 2) / 2 ≤
        c.lowCutoff * linearisedChange (cfg.jac y) (fn y).1 p ∧ (∀ i, |p i| ≤ δ) ∧
      ∀ m, |(fn fun i => y i + p i).1 m - (fn y).1 m| ≤ δ) :
    ∃ N, ∀ ms throw, (∀ n, ms = some n → N ≤ n) →
      ∃ sol, iterativeSolve (GaussNewton.solver cfg aux0) (fun _ => true) fn aux0 y0 ms throw = some (.ok sol) ∧
        sol.result = .successful ∧ sol.numSteps ≤ N := by
  obtain ⟨δ, hδ, hδY, hδF⟩ := small_enough hY hF cfg.atol hat
  obtain ⟨k, ha⟩ := hsmall δ hδ
  obtain ⟨h1, h2⟩ := gn_trust_flag c hl hh cfg hs stepAt hd hat hrt hY hF aux0 fn y0 st0 hi hok δ hδY hδF k ha
  refine ⟨k + 2, fun ms throw hb => ?_⟩
  obtain ⟨sol, s1, s2, s3, _⟩ := solve_succeeds_by (GaussNewton.solver cfg aux0) (fun _ => true) fn aux0 y0 st0 hi ms
    throw (k + 2) (fun _ _ => rfl) (fun j _ => h1 j) h2 hb
  exact ⟨sol, s1, s2, s3⟩

/-- The same if steps never fail at all. -/
theorem gn_trust_stops (c : TrustRegion.Cfg ℝ) (hl : 0 < c.lowConstant) (hh : 0 < c.highConstant)
    (cfg : GaussNewton.Cfg ι κ ℝ DS) (hs : cfg.search = TrustRegion.classical c)
    (stepAt : ℝ → (κ → ℝ) → Matrix κ ι ℝ → (ι → ℝ) × Result) (hd : Memoryless cfg.descent stepAt)
    (hok : ∀ t r J, 0 < t → (stepAt t r J).2 = .successful)
    (hat : 0 < cfg.atol) (hrt : 0 ≤ cfg.rtol) (hY : GoodNorm cfg.normY) (hF : GoodNorm cfg.normF)
    (aux0 : A) (fn : (ι → ℝ) → (κ → ℝ) × A) (y0 : ι → ℝ) (st0 : GaussNewton.State ι κ A ℝ DS)
    (hi : (GaussNewton.solver cfg aux0).init fn y0 = .ok st0)
    (hsmall : ∀ δ, 0 < δ → ∃ k, let y := iterateAt (GaussNewton.solver cfg aux0) fn aux0 y0 st0 (k + 1)
      let p := (stepAt (stateAt (GaussNewton.solver cfg aux0) fn aux0 y0 st0 (k + 1)).searchState (fn y).1 (cfg.jac y)).1
      (∑ m, (fn fun i => y i + p i).1 m ^ 2) / 2 - (∑ m, (fn y).1 m ^ 2) / 2 ≤
        c.lowCutoff * linearisedChange (cfg.jac y) (fn y).1 p ∧ (∀ i, |p i| ≤ δ) ∧
      ∀ m, |(fn fun i => y i + p i).1 m - (fn y).1 m| ≤ δ) :
    ∃ N, ∀ ms throw, (∀ n, ms = some n → N ≤ n) →
      ∃ sol, iterativeSolve (GaussNewton.solver cfg aux0) (fun _ => true) fn aux0 y0 ms throw = some (.ok sol) ∧
        sol.result = .successful ∧ sol.numSteps ≤ N :=
  gn_trust_stops_at c hl hh cfg hs stepAt hd hat hrt hY hF aux0 fn y0 st0 hi
    (fun k => hok _ _ _ ((C29_run_gauss_newton c hl hh cfg hs aux0 fn y0 st0 hi).1 (k + 1))) hsmall

/-! ### Levenberg-Marquardt -/

/-- Residuals `r` with Jacobian `jac` (along every line), bounded by `√B` in the spectral norm, such that the gradient `Jᵀr`
of `½|r|²` is Lipschitz with constant `L`. -/
structure SmoothResiduals (r : (ι → ℝ) → κ → ℝ) (jac : (ι → ℝ) → Matrix κ ι ℝ) (L B : ℝ) : Prop where
  deriv : ∀ (y p : ι → ℝ) m, HasDerivAt (fun t : ℝ => r (fun i => y i + t * p i) m) (∑ i, jac y m i * p i) 0
  lipschitz : ∀ y z, ∑ i, (∑ m, jac y m i * r y m - ∑ m, jac z m i * r z m) ^ 2 ≤ L ^ 2 * ∑ i, (y i - z i) ^ 2
  bounded : ∀ (y p : ι → ℝ), ∑ m, (∑ i, jac y m i * p i) ^ 2 ≤ B * ∑ i, p i ^ 2
  nonneg : 0 ≤ L ∧ 0 ≤ B

theorem SmoothResiduals.gradient {r : (ι → ℝ) → κ → ℝ} {jac : (ι → ℝ) → Matrix κ ι ℝ} {L B : ℝ}
    (h : SmoothResiduals r jac L B) :
    LipschitzGradient (fun y => (∑ m, r y m ^ 2) / 2) (fun y i => ∑ m, jac y m i * r y m) L where
  deriv y p := by
    have h1 := (HasDerivAt.fun_sum fun m (_ : m ∈ (Finset.univ : Finset κ)) => (h.deriv y p m).fun_pow 2).div_const 2
    have e : ∑ i, (∑ m, jac y m i * r y m) * p i =
        (∑ m, ((2 : ℕ) : ℝ) * r (fun i => y i + 0 * p i) m ^ (2 - 1) * ∑ i, jac y m i * p i) / 2 := by
      simp only [zero_mul, add_zero, Finset.sum_mul]
      rw [Finset.sum_comm, Finset.sum_div]
      refine Finset.sum_congr rfl fun m _ => ?_
      rw [Finset.mul_sum, Finset.sum_div]
      refine Finset.sum_congr rfl fun i _ => ?_
      push_cast
      ring
    rw [e]
    exact h1
  lipschitz := h.lipschitz
  nonneg := h.nonneg.1

/-- The transpose has the same bound. -/
theorem transpose_bound (J : Matrix κ ι ℝ) (B : ℝ) (hB : 0 ≤ B) (h : ∀ p : ι → ℝ, ∑ m, (∑ i, J m i * p i) ^ 2 ≤ B * ∑ i, p i ^ 2)
    (u : κ → ℝ) : ∑ i, (∑ m, J m i * u m) ^ 2 ≤ B * ∑ m, u m ^ 2 := by
  set w : ι → ℝ := fun i => ∑ m, J m i * u m with hw
  set W := ∑ i, w i ^ 2 with hW
  have hW0 : 0 ≤ W := Finset.sum_nonneg fun i _ => sq_nonneg _
  have e : W = ∑ m, u m * ∑ i, J m i * w i := by
    simp only [hW, Finset.mul_sum]
    rw [Finset.sum_comm]
    refine Finset.sum_congr rfl fun i _ => ?_
    rw [sq]
    nth_rw 1 [hw]
    rw [Finset.sum_mul]
    exact Finset.sum_congr rfl fun m _ => by ring
  have hcs := Finset.sum_mul_sq_le_sq_mul_sq Finset.univ u fun m => ∑ i, J m i * w i
  rw [← e] at hcs
  have hU : 0 ≤ ∑ m, u m ^ 2 := Finset.sum_nonneg fun i _ => sq_nonneg _
  have h2 := mul_le_mul_of_nonneg_left (h w) hU
  rcases hW0.eq_or_lt with h0 | h0
  · show W ≤ _
    rw [← h0]; positivity
  · show W ≤ _
    by_contra hlt
    push Not at hlt
    nlinarith

/-- The change of the residuals. -/
theorem SmoothResiduals.change {r : (ι → ℝ) → κ → ℝ} {jac : (ι → ℝ) → Matrix κ ι ℝ} {L B : ℝ}
    (h : SmoothResiduals r jac L B) (y p : ι → ℝ) (m : κ) :
    (r (fun i => y i + p i) m - r y m) ^ 2 ≤ B * ∑ i, p i ^ 2 := by
  have hd : ∀ t : ℝ, HasDerivAt (fun t : ℝ => r (fun i => y i + t * p i) m)
      (∑ i, jac (fun i => y i + t * p i) m i * p i) t := by
    intro t
    have h0 := h.deriv (fun i => y i + t * p i) p m
    have h1 : HasDerivAt (fun u : ℝ => u - t) 1 t := (hasDerivAt_id t).sub_const t
    have h0' : HasDerivAt (fun s : ℝ => r (fun i => (y i + t * p i) + s * p i) m)
        (∑ i, jac (fun i => y i + t * p i) m i * p i) (t - t) := by rw [sub_self]; exact h0
    have := HasDerivAt.comp (h := fun u : ℝ => u - t) t h0' h1
    rw [mul_one] at this
    refine this.congr_of_eventuallyEq (Eventually.of_forall fun u => ?_)
    show r _ m = r _ m
    congr 1
    funext i
    ring
  obtain ⟨s, _, hs⟩ := exists_hasDerivAt_eq_slope (fun t : ℝ => r (fun i => y i + t * p i) m)
    (fun t => ∑ i, jac (fun i => y i + t * p i) m i * p i) zero_lt_one
    (fun t _ => (hd t).continuousAt.continuousWithinAt) (fun t _ => hd t)
  simp only [one_mul, zero_mul, add_zero, sub_zero, div_one] at hs
  rw [← hs]
  exact (Finset.single_le_sum (f := fun m => (∑ i, jac (fun i => y i + s * p i) m i * p i) ^ 2)
    (fun _ _ => sq_nonneg _) (Finset.mem_univ m)).trans (h.bounded _ p)

/-- The step at step size `t`, its slope, its predicted change and the length of the gradient. -/
theorem damped_facts [DecidableEq ι] (eps fmax t : ℝ) (he : 0 ≤ eps) (hf : 0 < fmax) (ls : LinSolve ι (κ ⊕ ι))
    (hls : SolvesLeastSquares ls) (J : Matrix κ ι ℝ) (r : κ → ℝ) :
    let l := lmParam eps fmax t
    let p := ((dampedNewtonDescent eps fmax ls).step t (.residualJac r J)).1
    let g := fun i => ∑ k, J k i * r k
    let N := ∑ m, (∑ i, J m i * p i) ^ 2
    let Q := ∑ i, p i ^ 2
    0 < l ∧ 0 ≤ N ∧ 0 ≤ Q ∧ ∑ i, g i * p i = -N - l * Q ∧ linearisedChange J r p = -N / 2 - l * Q ∧
    ∀ B, 0 ≤ B → (∀ p : ι → ℝ, ∑ m, (∑ i, J m i * p i) ^ 2 ≤ B * ∑ i, p i ^ 2) →
      ∑ i, g i ^ 2 ≤ 2 * (B + l) * (N + l * Q) ∧ ∑ i, g i ^ 2 ≤ 2 * (B ^ 2 + l ^ 2) * Q := by
  intro l p g N Q
  obtain ⟨hl, _, hstat, _⟩ := C40_damped_step eps fmax t he hf ls hls J r
  have hl' : 0 < l := hl
  have hst : ∀ i, ∑ k, J k i * (∑ j, J k j * p j) + l * p i = -g i := hstat
  have hN : 0 ≤ N := Finset.sum_nonneg fun i _ => sq_nonneg _
  have hQ : 0 ≤ Q := Finset.sum_nonneg fun i _ => sq_nonneg _
  have hgp : ∑ i, g i * p i = -N - l * Q := by
    have e1 : ∑ i, (∑ k, J k i * (∑ j, J k j * p j)) * p i = N := by
      simp only [Finset.sum_mul]
      rw [Finset.sum_comm]
      refine Finset.sum_congr rfl fun k _ => ?_
      rw [sq, Finset.mul_sum]
      exact Finset.sum_congr rfl fun i _ => by ring
    have e2 : ∑ i, g i * p i = ∑ i, (-((∑ k, J k i * (∑ j, J k j * p j)) * p i) - l * p i ^ 2) := by
      refine Finset.sum_congr rfl fun i _ => ?_
      have := hst i
      rw [show g i = -(∑ k, J k i * (∑ j, J k j * p j)) - l * p i by linarith]; ring
    rw [e2, Finset.sum_sub_distrib, Finset.sum_neg_distrib, e1, ← Finset.mul_sum]
  have hgp2 : ∑ k, r k * (∑ i, J k i * p i) = ∑ i, g i * p i := by
    simp only [g, Finset.mul_sum, Finset.sum_mul]
    rw [Finset.sum_comm]
    exact Finset.sum_congr rfl fun i _ => Finset.sum_congr rfl fun k _ => by ring
  refine ⟨hl', hN, hQ, hgp, ?_, ?_⟩
  · show (∑ k, ((∑ i, J k i * p i) + r k) ^ 2) / 2 - (∑ k, r k ^ 2) / 2 = _
    have e : ∑ k, ((∑ i, J k i * p i) + r k) ^ 2 = N + 2 * ∑ k, r k * (∑ i, J k i * p i) + ∑ k, r k ^ 2 := by
      rw [Finset.mul_sum, ← Finset.sum_add_distrib, ← Finset.sum_add_distrib]
      exact Finset.sum_congr rfl fun k _ => by ring
    rw [e, hgp2, hgp]; ring
  · intro B hB hJ
    have hT := transpose_bound J B hB hJ fun k => ∑ j, J k j * p j
    have hN' : N ≤ B * Q := hJ p
    have h1 : ∑ i, g i ^ 2 ≤ 2 * ∑ i, (∑ k, J k i * (∑ j, J k j * p j)) ^ 2 + 2 * (l ^ 2 * Q) := by
      rw [show l ^ 2 * Q = ∑ i, (l * p i) ^ 2 by rw [Finset.mul_sum]; exact Finset.sum_congr rfl fun i _ => by ring,
        Finset.mul_sum, Finset.mul_sum, ← Finset.sum_add_distrib]
      refine Finset.sum_le_sum fun i _ => ?_
      rw [show g i = -(∑ k, J k i * (∑ j, J k j * p j) + l * p i) by linarith [hst i]]
      nlinarith [sq_nonneg (∑ k, J k i * (∑ j, J k j * p j) - l * p i)]
    have h2 : ∑ i, (∑ k, J k i * (∑ j, J k j * p j)) ^ 2 ≤ B * N := hT
    constructor
    · nlinarith [mul_nonneg hB (mul_nonneg hl'.le hQ), mul_nonneg hl'.le hN]
    · nlinarith [mul_le_mul_of_nonneg_left hN' hB]

/-- The descent of Levenberg-Marquardt depends on the current residuals and Jacobian only. -/
theorem damped_memoryless [DecidableEq ι] (eps fmax : ℝ) (ls : LinSolve ι (κ ⊕ ι)) :
    Memoryless (dampedNewtonDescent eps fmax ls)
      fun t r J => (dampedNewtonDescent eps fmax ls).step t (.residualJac r J) :=
  fun _ _ _ _ _ => rfl

theorem lmParam_ge (eps fmax t a : ℝ) (ht : 0 < t) (ha : a * t ≤ 1) (hf : a ≤ fmax) : a ≤ lmParam eps fmax t := by
  unfold lmParam
  split
  · rw [le_div_iff₀ ht]; exact ha
  · exact hf

theorem lmParam_le (eps fmax t s : ℝ) (hs : 0 < s) (ht : s ≤ t) : lmParam eps fmax t ≤ max (1 / s) fmax := by
  unfold lmParam
  split
  · exact (one_div_le_one_div_of_le hs ht).trans (le_max_left _ _)
  · exact le_max_right _ _

/-- **C64**, convergence.  If the residuals have a bounded Jacobian and `½|r|²` has a Lipschitz gradient (with a constant the
largest finite number exceeds), then along every run of `LevenbergMarquardt` the gradients `Jᵀr` tend to zero, from every
starting point; and if the Jacobian has full column rank, uniformly, the solve stops by itself and reports success, with every
sufficiently large budget and with none. -/
theorem C64_converges [DecidableEq ι] (eps fmax rtol atol : ℝ) (he : 0 ≤ eps) (hf : 0 < fmax)
    (nY : (ι → ℝ) → ℝ) (nF : (κ → ℝ) → ℝ) (ls : LinSolve ι (κ ⊕ ι)) (hls : SolvesLeastSquares ls)
    (jac : (ι → ℝ) → Matrix κ ι ℝ) (aux0 : A) (fn : (ι → ℝ) → (κ → ℝ) × A) (y0 : ι → ℝ) (L B : ℝ)
    (hS : SmoothResiduals (fun y => (fn y).1) jac L B) (hfL : L ≤ fmax) :
    let S := GaussNewton.solver (GaussNewton.levenbergMarquardt eps fmax rtol atol nY nF ls jac) aux0
    ∃ st0, S.init fn y0 = .ok st0 ∧
      Tendsto (fun k => ∑ i, (∑ m, jac (iterateAt S fn aux0 y0 st0 k) m i * (fn (iterateAt S fn aux0 y0 st0 k)).1 m) ^ 2)
        atTop (𝓝 0) ∧
      ∀ μ, 0 < μ → (∀ (y p : ι → ℝ), μ * ∑ i, p i ^ 2 ≤ ∑ m, (∑ i, jac y m i * p i) ^ 2) →
        (∀ M v, (ls.rect M v).2 = .successful) → 0 < atol → 0 ≤ rtol → GoodNorm nY → GoodNorm nF →
        ∃ N, ∀ ms throw, (∀ n, ms = some n → N ≤ n) →
          ∃ sol, iterativeSolve S (fun _ => true) fn aux0 y0 ms throw = some (.ok sol) ∧ sol.result = .successful ∧
            sol.numSteps ≤ N := by
  intro S
  obtain ⟨st0, hi⟩ : ∃ st0, S.init fn y0 = .ok st0 := ⟨_, rfl⟩
  refine ⟨st0, hi, ?_⟩
  set c : TrustRegion.Cfg ℝ := TrustRegion.defaults with hc
  have c1 : c.lowCutoff = 1 / 100 := by norm_num [hc, TrustRegion.defaults]
  have c2 : c.lowConstant = 1 / 4 := by norm_num [hc, TrustRegion.defaults]
  have c3 : 1 ≤ c.highConstant := by norm_num [hc, TrustRegion.defaults]
  obtain ⟨R, hY1, ht1, _⟩ := gn_trust_run c (by rw [c2]; norm_num) (by linarith)
    (GaussNewton.levenbergMarquardt eps fmax rtol atol nY nF ls jac) rfl _ (damped_memoryless eps fmax ls) aux0 fn y0 st0 hi
  set Y := iterateAt S fn aux0 y0 st0 with hYd
  set St := stateAt S fn aux0 y0 st0 with hSt
  obtain ⟨hL0, hB0⟩ := hS.nonneg
  set step := fun t r J => ((dampedNewtonDescent (κ := κ) eps fmax ls).step t (.residualJac r J)).1 with hstep
  -- short enough steps are taken
  have hacc : ∀ y s, 0 < s → s ≤ 1 / (L + 1) →
      (∑ m, (fn fun i => y i + step s (fn y).1 (jac y) i).1 m ^ 2) / 2 - (∑ m, (fn y).1 m ^ 2) / 2 ≤
        c.lowCutoff * linearisedChange (jac y) (fn y).1 (step s (fn y).1 (jac y)) := by
    intro y s hs0 hs
    obtain ⟨hl, hN, hQ, hgp, hlin, _⟩ := damped_facts eps fmax s he hf ls hls (jac y) (fn y).1
    have hlam : L ≤ lmParam eps fmax s := by
      refine lmParam_ge eps fmax s L hs0 ?_ hfL
      calc L * s ≤ L * (1 / (L + 1)) := mul_le_mul_of_nonneg_left hs hL0
        _ ≤ 1 := by rw [mul_one_div, div_le_one (by linarith)]; linarith
    have hb := hS.gradient.bound y fun i => y i + step s (fn y).1 (jac y) i
    simp only [add_sub_cancel_left] at hb
    have e1 : treeDot (fun i => ∑ m, jac y m i * (fn y).1 m) (fun i => step s (fn y).1 (jac y) i) =
      ∑ i, (∑ m, jac y m i * (fn y).1 m) * step s (fn y).1 (jac y) i := rfl
    have e2 : sumSquares (fun i => step s (fn y).1 (jac y) i) = ∑ i, step s (fn y).1 (jac y) i ^ 2 := by
      unfold sumSquares; exact Finset.sum_congr rfl fun _ _ => by ring
    rw [e1, e2] at hb
    rw [show ∑ i, (∑ m, jac y m i * (fn y).1 m) * step s (fn y).1 (jac y) i = _ from hgp] at hb
    rw [show linearisedChange (jac y) (fn y).1 (step s (fn y).1 (jac y)) = _ from hlin, c1]
    have h1 := mul_le_mul_of_nonneg_right hlam hQ
    have h2 := mul_nonneg hl.le hQ
    nlinarith
  have hτ : (0:ℝ) < 1 / (L + 1) := by positivity
  set tmin := min ((fun k => (St (k + 1)).searchState) 0) (c.lowConstant * (1 / (L + 1))) with htmin
  have htm : 0 < tmin := by
    refine lt_min ?_ ?_
    · show 0 < (St 1).searchState
      rw [ht1]; norm_num
    · rw [c2]; positivity
  set M := max (1 / tmin) fmax with hM
  have hM0 : 0 < M := lt_of_lt_of_le hf (le_max_right _ _)
  set g := fun y i => ∑ m, jac y m i * (fn y).1 m with hg
  have hpred : ∀ y s, tmin ≤ s → linearisedChange (jac y) (fn y).1 (step s (fn y).1 (jac y)) ≤
      -(1 / (4 * (B + M)) * ∑ i, g y i ^ 2) := by
    intro y s hs
    obtain ⟨hl, hN, hQ, _, hlin, hgb⟩ := damped_facts eps fmax s he hf ls hls (jac y) (fn y).1
    have h1 := (hgb B hB0 (hS.bounded y)).1
    have hlM : lmParam eps fmax s ≤ M := lmParam_le eps fmax s tmin htm hs
    rw [show linearisedChange (jac y) (fn y).1 (step s (fn y).1 (jac y)) = _ from hlin]
    rw [one_div, ← div_eq_inv_mul, le_neg, div_le_iff₀ (by positivity)]
    refine le_trans h1 ?_
    have hQl := mul_nonneg hl.le hQ
    have h3 : 2 * (B + lmParam eps fmax s) * (_ + lmParam eps fmax s * _) ≤ 2 * (B + M) * (_ + lmParam eps fmax s * _) :=
      mul_le_mul_of_nonneg_right (by linarith) (add_nonneg hN hQl)
    refine h3.trans ?_
    have h4 : 0 ≤ (B + M) * (lmParam eps fmax s *
      ∑ i, ((dampedNewtonDescent eps fmax ls).step s (.residualJac (fn y).1 (jac y))).1 i ^ 2) :=
      mul_nonneg (by positivity) hQl
    nlinarith
  obtain ⟨s1, s2, s3⟩ := R.settles (by rw [c1]; norm_num) (by rw [c2]; norm_num) (by rw [c2]; norm_num) c3 (1 / (L + 1)) hτ
    (fun k s h1 h2 => hacc _ s h1 h2) 0 (fun y => by positivity) (fun y => ∑ i, g y i ^ 2)
    (fun y => Finset.sum_nonneg fun i _ => sq_nonneg _) (1 / (4 * (B + M))) (by positivity) (fun y s h => hpred y s h)
  refine ⟨(tendsto_add_atTop_iff_nat 1).1 s1, ?_⟩
  intro μ hμ hrank hok hat hrt hnY hnF
  refine gn_trust_stops c (by rw [c2]; norm_num) (by linarith)
    (GaussNewton.levenbergMarquardt eps fmax rtol atol nY nF ls jac) rfl _ (damped_memoryless eps fmax ls)
    (fun t r J _ => hok _ _) hat hrt hnY hnF aux0 fn y0 st0 hi ?_
  intro δ hδ
  -- at late accepted steps the predicted decrease, hence the step, is small
  set η := δ ^ 2 * μ / (200 * (B + 1)) with hη
  have hη0 : 0 < η := by positivity
  obtain ⟨K, hK⟩ := eventually_atTop.1 (s2.eventually (Metric.ball_mem_nhds 0 hη0))
  obtain ⟨k, hk, ha, hyk⟩ := s3 K
  have hsm := hK k hk
  rw [Real.dist_eq, sub_zero] at hsm
  refine ⟨k, ha, ?_⟩
  set y := Y (k + 1) with hy
  set t := (St (k + 1)).searchState with ht
  obtain ⟨hl, hN, hQ, _, hlin, _⟩ := damped_facts eps fmax t he hf ls hls (jac y) (fn y).1
  set p := ((dampedNewtonDescent eps fmax ls).step t (.residualJac (fn y).1 (jac y))).1 with hp
  have hr := hrank y p
  have hdec : (∑ m, (fn y).1 m ^ 2) / 2 - (∑ m, (fn fun i => y i + p i).1 m ^ 2) / 2 < η := by
    have := (abs_lt.1 hsm).2
    rw [hyk] at this
    exact this
  have ha' : (∑ m, (fn fun i => y i + p i).1 m ^ 2) / 2 - (∑ m, (fn y).1 m ^ 2) / 2 ≤
      c.lowCutoff * linearisedChange (jac y) (fn y).1 p := ha
  rw [hlin, c1] at ha'
  have hQl := mul_nonneg hl.le hQ
  have hQs : μ * ∑ i, p i ^ 2 < 200 * η := by linarith
  have hQs' : (B + 1) * ∑ i, p i ^ 2 < δ ^ 2 := by
    have e : 200 * η * (B + 1) = δ ^ 2 * μ := by rw [hη]; field_simp
    have h1 := mul_lt_mul_of_pos_right hQs (by positivity : 0 < B + 1)
    rw [e] at h1
    exact lt_of_mul_lt_mul_left (by linarith) hμ.le
  have hBQ : 0 ≤ B * ∑ i, p i ^ 2 := mul_nonneg hB0 hQ
  rw [add_mul, one_mul] at hQs'
  refine ⟨fun i => ?_, fun m => ?_⟩
  · refine abs_le_of_sq_le_sq ?_ hδ.le
    have h1 : p i ^ 2 ≤ ∑ i, p i ^ 2 :=
      Finset.single_le_sum (f := fun i => p i ^ 2) (fun i _ => sq_nonneg _) (Finset.mem_univ i)
    exact h1.trans (by linarith)
  · refine abs_le_of_sq_le_sq ?_ hδ.le
    exact (hS.change y p m).trans (by linarith)

/-- Every matrix is bounded. -/
theorem matrix_bounded (J : Matrix κ ι ℝ) :
    ∃ B, 0 ≤ B ∧ ∀ p : ι → ℝ, ∑ m, (∑ i, J m i * p i) ^ 2 ≤ B * ∑ i, p i ^ 2 := by
  refine ⟨∑ m, ∑ i, J m i ^ 2, Finset.sum_nonneg fun m _ => Finset.sum_nonneg fun i _ => sq_nonneg _, fun p => ?_⟩
  rw [Finset.sum_mul]
  exact Finset.sum_le_sum fun m _ => Finset.sum_mul_sq_le_sq_mul_sq Finset.univ (J m) p

/-- First-order expansion of `½|r|²` at a point where the residuals are differentiable. -/
theorem half_square_expansion (r : (ι → ℝ) → κ → ℝ) (J : Matrix κ ι ℝ) (y : ι → ℝ)
    (hd : HasFDerivAt r (LinearMap.toContinuousLinearMap J.mulVecLin) y) (ε : ℝ) (hε : 0 < ε) :
    ∃ δ, 0 < δ ∧ ∀ p : ι → ℝ, Real.sqrt (∑ i, p i ^ 2) < δ →
      (∑ m, r (fun i => y i + p i) m ^ 2) / 2 - (∑ m, r y m ^ 2) / 2 ≤
        ∑ i, (∑ m, J m i * r y m) * p i + ε * Real.sqrt (∑ i, p i ^ 2) := by
  have hm := hasFDerivAt_pi'.1 hd
  have hm2 : ∀ m, HasFDerivAt (fun z => r z m ^ 2)
      ((2 * r y m) • (ContinuousLinearMap.proj m ∘SL LinearMap.toContinuousLinearMap J.mulVecLin)) y := by
    intro m
    have h := (hasDerivAt_pow 2 (r y m)).comp_hasFDerivAt (f := fun z => r z m) y (hm m)
    rw [show ((2 : ℕ) : ℝ) * r y m ^ (2 - 1) = 2 * r y m by norm_num] at h
    exact h
  have hs := HasFDerivAt.fun_sum (u := (Finset.univ : Finset κ)) fun m _ => hm2 m
  have ho := (hasFDerivAt_iff_isLittleO_nhds_zero.1 hs).def (mul_pos two_pos hε)
  obtain ⟨δ, hδ, h⟩ := Metric.eventually_nhds_iff.1 ho
  have hle : ∀ p : ι → ℝ, ‖p‖ ≤ Real.sqrt (∑ i, p i ^ 2) := by
    intro p
    rw [pi_norm_le_iff_of_nonneg (Real.sqrt_nonneg _)]
    intro i
    rw [Real.norm_eq_abs]
    refine Real.abs_le_sqrt ?_
    exact Finset.single_le_sum (f := fun i => p i ^ 2) (fun i _ => sq_nonneg _) (Finset.mem_univ i)
  refine ⟨δ, hδ, fun p hp => ?_⟩
  have h1 := h (y := p) (by rw [dist_zero_right]; exact (hle p).trans_lt hp)
  rw [Real.norm_eq_abs] at h1
  have h2 := (abs_le.1 h1).2
  have e1 : (y + p) = fun i => y i + p i := rfl
  have e2 : (∑ m, (2 * r y m) • (ContinuousLinearMap.proj m ∘SL LinearMap.toContinuousLinearMap J.mulVecLin)) p =
      2 * ∑ i, (∑ m, J m i * r y m) * p i := by
    simp only [sum_apply, Finset.sum_mul]
    rw [Finset.sum_comm, Finset.mul_sum]
    refine Finset.sum_congr rfl fun m _ => ?_
    have e3 : ((2 * r y m) • (ContinuousLinearMap.proj m ∘SL LinearMap.toContinuousLinearMap J.mulVecLin)) p =
      (2 * r y m) * ∑ i, J m i * p i := rfl
    rw [e3, Finset.mul_sum, Finset.mul_sum]
    exact Finset.sum_congr rfl fun i _ => by ring
  rw [e1, e2] at h2
  have h3 := mul_le_mul_of_nonneg_left (hle p) hε.le
  linarith

/-- Scalar form of the acceptance argument: `l` the damping, `q` the length of the step, `N = |J p|²`, `G` the length of the
gradient, `a` the slope along the step, `D` the change of the objective. -/
theorem accept_scalar (B l q N G δ a D : ℝ) (hB : 0 ≤ B) (hl : 0 < l) (hq : 0 < q) (hN : 0 ≤ N) (hG : 0 < G) (hδ : 0 < δ)
    (hBl : B ≤ l) (hlδ : 2 * G / δ ≤ l) (ha : a = -N - l * q ^ 2) (hcs : a ^ 2 ≤ G ^ 2 * q ^ 2)
    (hg : G ^ 2 ≤ 2 * (B ^ 2 + l ^ 2) * q ^ 2) (hD : q < δ → D ≤ a + G / 4 * q) :
    D ≤ 1 / 100 * (-N / 2 - l * q ^ 2) := by
  have hgs : -a ≤ G * q := by
    have := abs_le_of_sq_le_sq (show a ^ 2 ≤ (G * q) ^ 2 by rw [mul_pow]; exact hcs) (by positivity)
    linarith [(abs_le.1 this).1]
  have hlq : l * q ≤ G := by
    have : l * q * q ≤ G * q := by nlinarith
    exact le_of_mul_le_mul_right this hq
  have hGl : G ≤ 2 * (l * q) := by
    refine (pow_le_pow_iff_left₀ hG.le (by positivity) two_ne_zero).1 ?_
    have h1 : B ^ 2 ≤ l ^ 2 := pow_le_pow_left₀ hB hBl 2
    have h2 := mul_le_mul_of_nonneg_right h1 (sq_nonneg q)
    nlinarith
  have hqδ : q < δ := by
    rw [div_le_iff₀ hδ] at hlδ
    by_contra hge
    push Not at hge
    have : l * δ ≤ l * q := mul_le_mul_of_nonneg_left hge hl.le
    linarith
  have hx := hD hqδ
  have h5 : G * q ≤ 2 * (l * q) * q := mul_le_mul_of_nonneg_right hGl hq.le
  nlinarith

/-- At a point that is not stationary all short enough steps of Levenberg-Marquardt are taken. -/
theorem damped_accepted [DecidableEq ι] (r : (ι → ℝ) → κ → ℝ) (J : Matrix κ ι ℝ) (y : ι → ℝ)
    (hd : HasFDerivAt r (LinearMap.toContinuousLinearMap J.mulVecLin) y) (hg : ∃ i, ∑ m, J m i * r y m ≠ 0) :
    ∃ Λ, 0 < Λ ∧ ∀ (eps fmax : ℝ), 0 ≤ eps → 0 < fmax → Λ ≤ fmax → ∀ (ls : LinSolve ι (κ ⊕ ι)), SolvesLeastSquares ls →
      ∀ s, 0 < s → s ≤ 1 / Λ →
        (∑ m, r (fun i => y i + ((dampedNewtonDescent eps fmax ls).step s (.residualJac (r y) J)).1 i) m ^ 2) / 2 -
          (∑ m, r y m ^ 2) / 2 ≤
        1 / 100 * linearisedChange J (r y) ((dampedNewtonDescent eps fmax ls).step s (.residualJac (r y) J)).1 := by
  obtain ⟨i0, hi0⟩ := hg
  have hpos : 0 < ∑ i, (∑ m, J m i * r y m) ^ 2 := by
    refine lt_of_lt_of_le (sq_pos_of_ne_zero hi0) ?_
    exact Finset.single_le_sum (f := fun i => (∑ m, J m i * r y m) ^ 2) (fun i _ => sq_nonneg _) (Finset.mem_univ i0)
  have hG0 := Real.sqrt_pos.2 hpos
  have hG2 := Real.sq_sqrt hpos.le
  generalize Real.sqrt (∑ i, (∑ m, J m i * r y m) ^ 2) = G at hG0 hG2
  obtain ⟨B, hB0, hB⟩ := matrix_bounded J
  obtain ⟨δ, hδ, hexp⟩ := half_square_expansion r J y hd (G / 4) (by positivity)
  refine ⟨max B (2 * G / δ), lt_of_lt_of_le (by positivity : 0 < 2 * G / δ) (le_max_right _ _), ?_⟩
  intro eps fmax he hf hΛ ls hls s hs0 hs
  obtain ⟨hl, hN, hQ, hgp, hlin, hgb⟩ := damped_facts eps fmax s he hf ls hls J (r y)
  have hz := (C40_damped_step eps fmax s he hf ls hls J (r y)).2.2.2.2.2
  have h2 := (hgb B hB0 hB).2
  have hlam : max B (2 * G / δ) ≤ lmParam eps fmax s := by
    refine lmParam_ge eps fmax s _ hs0 ?_ hΛ
    have hΛ0 : 0 < max B (2 * G / δ) := lt_of_lt_of_le (by positivity : 0 < 2 * G / δ) (le_max_right _ _)
    calc max B (2 * G / δ) * s ≤ max B (2 * G / δ) * (1 / max B (2 * G / δ)) := mul_le_mul_of_nonneg_left hs hΛ0.le
      _ = 1 := by field_simp
  clear hgb
  generalize ((dampedNewtonDescent eps fmax ls).step s (.residualJac (r y) J)).1 = p at *
  generalize lmParam eps fmax s = l at *
  have hq0 : 0 < ∑ i, p i ^ 2 := by
    have hne : p ≠ fun _ => 0 := fun h => hi0 (hz.1 h i0)
    obtain ⟨i, hi⟩ := Function.ne_iff.1 hne
    exact Finset.sum_pos' (fun i _ => sq_nonneg _) ⟨i, Finset.mem_univ i, sq_pos_of_ne_zero hi⟩
  have hcs := Finset.sum_mul_sq_le_sq_mul_sq Finset.univ (fun i => ∑ m, J m i * r y m) p
  have hx := hexp p
  have hs0 := Real.sqrt_pos.2 hq0
  have hs2 := Real.sq_sqrt hq0.le
  generalize Real.sqrt (∑ i, p i ^ 2) = q at hs0 hs2 hx
  rw [hlin, ← hs2]
  rw [← hG2, ← hs2] at hcs h2
  rw [← hs2] at hgp
  exact accept_scalar B l q _ G δ _ _ hB0 hl hs0 hN hG0 hδ ((le_max_left _ _).trans hlam) ((le_max_right _ _).trans hlam)
    hgp hcs h2 hx

/-- **C64**, progress.  At every point where the residuals are differentiable and the gradient `Jᵀr` does not vanish,
`LevenbergMarquardt` (with a large enough largest finite number: `Λ` depends on the problem and the point only) does not get
stuck: whichever way a run got there, after finitely many rejected trials it moves to a point with a smaller sum of
squares. -/
theorem C64_progress [DecidableEq ι] (jac : (ι → ℝ) → Matrix κ ι ℝ) (fn : (ι → ℝ) → (κ → ℝ) × A) (y : ι → ℝ)
    (hd : HasFDerivAt (fun z => (fn z).1) (LinearMap.toContinuousLinearMap (jac y).mulVecLin) y)
    (hg : ∃ i, ∑ m, jac y m i * (fn y).1 m ≠ 0) :
    ∃ Λ, ∀ (eps fmax rtol atol : ℝ), 0 ≤ eps → 0 < fmax → Λ ≤ fmax →
      ∀ (nY : (ι → ℝ) → ℝ) (nF : (κ → ℝ) → ℝ) (ls : LinSolve ι (κ ⊕ ι)), SolvesLeastSquares ls →
      ∀ (aux0 : A) (y0 : ι → ℝ) st0,
        let S := GaussNewton.solver (GaussNewton.levenbergMarquardt eps fmax rtol atol nY nF ls jac) aux0
        S.init fn y0 = .ok st0 → ∀ k, 1 ≤ k → iterateAt S fn aux0 y0 st0 k = y →
          ∃ j, k ≤ j ∧ iterateAt S fn aux0 y0 st0 j = y ∧
            ∑ m, (fn (iterateAt S fn aux0 y0 st0 (j + 1))).1 m ^ 2 < ∑ m, (fn y).1 m ^ 2 := by
  obtain ⟨Λ, hΛ0, hacc⟩ := damped_accepted (fun z => (fn z).1) (jac y) y hd hg
  refine ⟨Λ, ?_⟩
  intro eps fmax rtol atol he hf hΛ nY nF ls hls aux0 y0 st0 S hi k hk hky
  obtain _ | k := k
  · omega
  have c1 : (TrustRegion.defaults : TrustRegion.Cfg ℝ).lowCutoff = 1 / 100 := by norm_num [TrustRegion.defaults]
  have c2 : (TrustRegion.defaults : TrustRegion.Cfg ℝ).lowConstant = 1 / 4 := by norm_num [TrustRegion.defaults]
  have c3 : 0 < (TrustRegion.defaults : TrustRegion.Cfg ℝ).highConstant := by norm_num [TrustRegion.defaults]
  obtain ⟨R, _⟩ := gn_trust_run TrustRegion.defaults (by rw [c2]; norm_num) c3
    (GaussNewton.levenbergMarquardt eps fmax rtol atol nY nF ls jac) rfl _ (damped_memoryless eps fmax ls) aux0 fn y0 st0 hi
  rw [c1, c2] at R
  obtain ⟨j, h1, h2, h3, _⟩ := R.progress (by norm_num) (by norm_num) k (1 / Λ) (by positivity) (by
    intro s hs0 hs1
    show _ ≤ 1 / 100 * _
    have := hacc eps fmax he hf hΛ ls hls s hs0 hs1
    rw [← hky] at this
    exact this)
  refine ⟨k + j + 1, by omega, h1.trans hky, ?_⟩
  rw [← hky]
  rw [← hky] at hg
  have hneg : ∀ t, linearisedChange (jac (iterateAt S fn aux0 y0 st0 (k + 1))) (fn (iterateAt S fn aux0 y0 st0 (k + 1))).1
      ((dampedNewtonDescent eps fmax ls).step t (.residualJac (fn (iterateAt S fn aux0 y0 st0 (k + 1))).1
        (jac (iterateAt S fn aux0 y0 st0 (k + 1))))).1 < 0 := by
    intro t
    obtain ⟨hl, _, _, hlin, _, hz⟩ := C40_damped_step eps fmax t he hf ls hls
      (jac (iterateAt S fn aux0 y0 st0 (k + 1))) (fn (iterateAt S fn aux0 y0 st0 (k + 1))).1
    refine lt_of_le_of_lt hlin (neg_neg_of_pos (mul_pos (half_pos hl) ?_))
    obtain ⟨i0, hi0⟩ := hg
    have hne := mt hz.1 fun h => hi0 (h i0)
    obtain ⟨i, hi⟩ := Function.ne_iff.1 hne
    exact Finset.sum_pos' (fun i _ => sq_nonneg _) ⟨i, Finset.mem_univ i, sq_pos_of_ne_zero hi⟩
  have hn := hneg (stateAt S fn aux0 y0 st0 (k + j + 1)).searchState
  have h2' := lt_of_le_of_lt h2 (mul_neg_of_pos_of_neg (by norm_num) hn)
  rw [show iterateAt S fn aux0 y0 st0 (k + j + 1 + 1) = _ from h3]
  linarith

/-! ### A nonlinear case -/

/-- The residuals `(y, sin y)` of one unknown, and their Jacobian. -/
noncomputable def waveResiduals (y : Unit → ℝ) : Bool → ℝ := fun b => if b then y () else Real.sin (y ())
noncomputable def waveJac (y : Unit → ℝ) : Matrix Bool Unit ℝ := Matrix.of fun b _ => if b then 1 else Real.cos (y ())

theorem wave_smooth : SmoothResiduals waveResiduals waveJac 2 2 where
  deriv y p m := by
    have h := (hasDerivAt_mul_const (p ()) (x := (0:ℝ))).const_add (y ())
    cases m with
    | true => simpa [waveResiduals, waveJac] using h
    | false =>
      have h2 := (Real.hasDerivAt_sin (y () + 0 * p ())).comp (h := fun t : ℝ => y () + t * p ()) 0 h
      rw [zero_mul, add_zero] at h2
      rw [show ∑ i, waveJac y false i * p i = Real.cos (y ()) * p () by simp [waveJac]]
      exact h2
  lipschitz y z := by
    simp only [waveResiduals, waveJac, Matrix.of_apply, Fintype.sum_bool, if_true, Bool.false_eq_true, if_false,
      Finset.univ_unique, Finset.sum_singleton, PUnit.default_eq_unit, one_mul]
    have h := Real.abs_sin_sub_sin_le (2 * y ()) (2 * z ())
    rw [Real.sin_two_mul, Real.sin_two_mul] at h
    rw [← mul_pow, sq_le_sq, abs_mul, abs_two]
    have e : y () + Real.cos (y ()) * Real.sin (y ()) - (z () + Real.cos (z ()) * Real.sin (z ())) =
      (y () - z ()) + (2 * Real.sin (y ()) * Real.cos (y ()) - 2 * Real.sin (z ()) * Real.cos (z ())) / 2 := by ring
    rw [e]
    have h2 : |2 * y () - 2 * z ()| = 2 * |y () - z ()| := by rw [← mul_sub, abs_mul, abs_two]
    refine (abs_add_le _ _).trans ?_
    rw [abs_div, abs_two]
    linarith
  bounded y p := by
    simp only [waveJac, Matrix.of_apply, Fintype.sum_bool, if_true, Bool.false_eq_true, if_false,
      Finset.univ_unique, Finset.sum_singleton, PUnit.default_eq_unit, one_mul]
    nlinarith [Real.cos_sq_le_one (y ()), sq_nonneg (p ()), mul_le_mul_of_nonneg_right (Real.cos_sq_le_one (y ()))
      (sq_nonneg (p ()))]
  nonneg := ⟨by norm_num, by norm_num⟩

/-- The hypotheses of C64 are met by the nonlinear residuals `(y, sin y)`: `least_squares` with `LevenbergMarquardt` returns,
successfully, from every starting point. -/
example (ls : LinSolve Unit (Bool ⊕ Unit)) (hls : SolvesLeastSquares ls) (hok : ∀ M v, (ls.rect M v).2 = .successful)
    (y0 : Unit → ℝ) :
    ∃ sol, iterativeSolve (GaussNewton.solver (GaussNewton.levenbergMarquardt (2⁻¹ ^ 52) (2 ^ 1023) (1/10) (1/10) maxNorm maxNorm
      ls waveJac) ()) (fun _ => true) (fun y => (waveResiduals y, ())) () y0 none true = some (.ok sol) ∧
      sol.result = .successful := by
  obtain ⟨_, _, _, h⟩ := C64_converges (2⁻¹ ^ 52) (2 ^ 1023) (1/10) (1/10) (by positivity) (by positivity) maxNorm maxNorm ls hls
    waveJac () (fun y => (waveResiduals y, ())) y0 2 2 wave_smooth (by
      calc (2:ℝ) = 2 ^ 1 := by norm_num
        _ ≤ 2 ^ 1023 := pow_le_pow_right₀ (by norm_num) (by norm_num))
  obtain ⟨N, hN⟩ := h 1 one_pos (fun y p => by
    simp only [waveJac, Matrix.of_apply, Fintype.sum_bool, if_true, Bool.false_eq_true, if_false,
      Finset.univ_unique, Finset.sum_singleton, PUnit.default_eq_unit, one_mul]
    nlinarith [sq_nonneg (Real.cos (y ()) * p ())]) hok (by norm_num) (by norm_num) goodNorm_maxNorm goodNorm_maxNorm
  obtain ⟨sol, h1, h2, _⟩ := hN none true (fun n h => by cases h)
  exact ⟨sol, h1, h2⟩

/-- and those of the progress theorem wherever the unknown is not zero. -/
example (y : Unit → ℝ) (hy : y () = 1) :
    HasFDerivAt waveResiduals (LinearMap.toContinuousLinearMap (waveJac y).mulVecLin) y ∧
    ∃ i, ∑ m, waveJac y m i * waveResiduals y m ≠ 0 := by
  constructor
  · refine hasFDerivAt_pi'.2 fun b => ?_
    have hp : HasFDerivAt (fun z : Unit → ℝ => z ()) (ContinuousLinearMap.proj (R := ℝ) (φ := fun _ : Unit => ℝ) ()) y :=
      (ContinuousLinearMap.proj (R := ℝ) (φ := fun _ : Unit => ℝ) ()).hasFDerivAt
    cases b with
    | true =>
      refine hp.congr_fderiv ?_
      ext p
      simp [waveJac, Matrix.mulVec, dotProduct]
    | false =>
      have h2 := (Real.hasDerivAt_sin (y ())).comp_hasFDerivAt (f := fun z : Unit → ℝ => z ()) y hp
      refine h2.congr_fderiv ?_
      ext p
      simp [waveJac, Matrix.mulVec, dotProduct]
  · refine ⟨(), ?_⟩
    simp only [waveResiduals, waveJac, Matrix.of_apply, Fintype.sum_bool, if_true, Bool.false_eq_true, if_false, hy, one_mul]
    have h1 : 0 < Real.sin 1 := Real.sin_pos_of_pos_of_le_one one_pos le_rfl
    have h2 : 0 < Real.cos 1 := Real.cos_one_pos
    positivity

end Verif.Props
