import Verif.Props.LocalFits

/-!
**C155.** Linear least-squares problems with the trust-region solvers.

On linear residuals the prediction of a trust region is exact: no step is ever rejected.  The answers of `LevenbergMarquardt` never
get further from any best fit, and their distance from a unique best fit shrinks faster than at any geometric rate; `Dogleg` and
`IndirectLevenbergMarquardt` are done after one step.
-/

namespace Verif.Props

open Verif Verif.Spec Verif.Driver Verif.SearchLoop Verif.Rank

variable {ι κ A DS : Type} [Fintype ι] [Fintype κ]

/-- `x` is a best fit for the residuals `M y + b`. -/
def BestFit (M : Matrix κ ι ℝ) (b : κ → ℝ) (x : ι → ℝ) : Prop :=
  ∀ z : ι → ℝ, ∑ m, (M.mulVec x m + b m) ^ 2 ≤ ∑ m, (M.mulVec z m + b m) ^ 2

theorem BestFit.normal {M : Matrix κ ι ℝ} {b : κ → ℝ} {x : ι → ℝ} (h : BestFit M b x) (i : ι) :
    ∑ m, M m i * (M.mulVec x m + b m) = 0 := by
  have h1 := normal_equations M (fun m => -b m) x (fun z => by
    have := h z
    simpa [sub_neg_eq_add] using this) i
  simpa [sub_neg_eq_add] using h1

/-- The damped step from `x + e` for a best fit `x` is the one for the residuals `M e`. -/
theorem damped_from_fit {M : Matrix κ ι ℝ} {b : κ → ℝ} {x y p : ι → ℝ} {l : ℝ} (hx : BestFit M b x)
    (hp : DampedNormal M (fun m => M.mulVec y m + b m) l p) : DampedNormal M (M.mulVec fun i => y i - x i) l p := by
  intro i
  have h1 := hp i
  have h2 := hx.normal i
  have e : ∑ m, M m i * (M.mulVec p m + M.mulVec (fun i => y i - x i) m) =
      ∑ m, M m i * (M.mulVec p m + (M.mulVec y m + b m)) - ∑ m, M m i * (M.mulVec x m + b m) := by
    rw [← Finset.sum_sub_distrib]
    refine Finset.sum_congr rfl fun m _ => ?_
    have : M.mulVec (fun i => y i - x i) m = M.mulVec y m - M.mulVec x m := congrFun (Matrix.mulVec_sub M y x) m
    rw [this]; ring
  rw [e, h2]; linarith

/-- The distance from a best fit after a damped step. -/
theorem fit_error {M : Matrix κ ι ℝ} {b : κ → ℝ} {x y p : ι → ℝ} {l σ : ℝ} (hl : 0 ≤ l) (hx : BestFit M b x)
    (hσ : σ * euclid (fun i => y i + p i - x i) ^ 2 ≤ euclid (M.mulVec fun i => y i + p i - x i) ^ 2)
    (hp : DampedNormal M (fun m => M.mulVec y m + b m) l p) :
    (σ + l) * euclid (fun i => y i + p i - x i) ≤ l * euclid fun i => y i - x i := by
  have h := damped_from_fit hx hp
  set e : ι → ℝ := fun i => y i - x i with he
  set w : ι → ℝ := fun i => y i + p i - x i with hw
  have hwe : ∀ i, w i = p i + e i := fun i => by rw [hw, he]; ring
  have hMw : ∀ m, M.mulVec p m + M.mulVec e m = M.mulVec w m := fun m => by
    rw [show w = p + e from funext hwe, Matrix.mulVec_add]; rfl
  have h1 := h.dot w
  have e1 : ∑ m, M.mulVec w m * (M.mulVec p m + M.mulVec e m) = euclid (M.mulVec w) ^ 2 := by
    rw [euclid_sq]
    exact Finset.sum_congr rfl fun m _ => by rw [hMw]; ring
  have e2 : ∑ i, w i * p i = euclid w ^ 2 - ∑ i, w i * e i := by
    rw [euclid_sq, ← Finset.sum_sub_distrib]
    exact Finset.sum_congr rfl fun i _ => by rw [hwe]; ring
  rw [e1, e2] at h1
  have h2 := hσ
  have h3 := mul_le_mul_of_nonneg_left (euclid_dot w e) hl
  have hW := euclid_nonneg w
  rcases hW.eq_or_lt with h0 | h0
  · rw [← h0, mul_zero]
    exact mul_nonneg hl (euclid_nonneg _)
  · refine le_of_mul_le_mul_left ?_ h0
    nlinarith

/-- Orthogonal to all directions along which linear residuals with the matrix `M` do not change. -/
def PerpKernel (M : Matrix κ ι ℝ) (v : ι → ℝ) : Prop := ∀ w, M.mulVec w = 0 → ∑ i, v i * w i = 0

/-- Damped steps do not move along these directions. -/
theorem DampedNormal.perp {M : Matrix κ ι ℝ} {f : κ → ℝ} {l : ℝ} {p : ι → ℝ} (hl : 0 < l) (h : DampedNormal M f l p) :
    PerpKernel M p := by
  intro w hw
  have h1 := h.dot w
  rw [hw] at h1
  simp only [Pi.zero_apply, zero_mul, Finset.sum_const_zero] at h1
  have h2 := (mul_eq_zero.1 (neg_eq_zero.1 h1.symm)).resolve_left hl.ne'
  rw [← h2]
  exact Finset.sum_congr rfl fun i _ => mul_comm _ _

section
variable (cfg : GaussNewton.Cfg ι κ ℝ DS) (hs : cfg.search = TrustRegion.classical TrustRegion.defaults)
  (stepAt : ℝ → (κ → ℝ) → Matrix κ ι ℝ → (ι → ℝ) × Result) (hd : Memoryless cfg.descent stepAt) (μ : ℝ → ℝ)
  (M : Matrix κ ι ℝ) (hj : ∀ y, cfg.jac y = M) (hμ : ∀ t, 1 ≤ t → 0 ≤ μ t)
  (hstep : ∀ t f, 1 ≤ t → DampedNormal M f (μ t) (stepAt t f M).1)
  (aux0 : A) (fn : (ι → ℝ) → (κ → ℝ) × A) (b : κ → ℝ) (hfn : ∀ y m, (fn y).1 m = M.mulVec y m + b m) (y0 : ι → ℝ)
  (st0 : GaussNewton.State ι κ A ℝ DS) (hi : (GaussNewton.solver cfg aux0).init fn y0 = .ok st0)

include hs hd hj hμ hstep hfn hi

/-- Every step of a solve is a damped step that is accepted; the radius grows by the factor `3.5` as long as the steps do anything. -/
theorem linear_run :
    let Y := iterateAt (GaussNewton.solver cfg aux0) fn aux0 y0 st0
    let t := fun k => (stateAt (GaussNewton.solver cfg aux0) fn aux0 y0 st0 k).searchState
    Y 1 = y0 ∧ t 1 = 1 ∧ ∀ k, 1 ≤ t (k + 1) ∧ ∃ p, p = (stepAt (t (k + 1)) (fn (Y (k + 1))).1 M).1 ∧
      DampedNormal M (fun m => M.mulVec (Y (k + 1)) m + b m) (μ (t (k + 1))) p ∧
      Y (k + 2) = (fun i => Y (k + 1) i + p i) ∧
      (t (k + 2) = 7 / 2 * t (k + 1) ∨
        t (k + 2) = t (k + 1) ∧ euclid (M.mulVec p) ^ 2 / 2 + μ (t (k + 1)) * euclid p ^ 2 = 0) := by
  intro Y t
  obtain ⟨hY1, ht1, hrule⟩ := gn_trust_rule cfg hs stepAt hd aux0 fn y0 st0 hi
  have key : ∀ k, 1 ≤ t (k + 1) → 1 ≤ t (k + 2) ∧
      ∃ p, p = (stepAt (t (k + 1)) (fn (Y (k + 1))).1 M).1 ∧
      DampedNormal M (fun m => M.mulVec (Y (k + 1)) m + b m) (μ (t (k + 1))) p ∧
      Y (k + 2) = (fun i => Y (k + 1) i + p i) ∧
      (t (k + 2) = 7 / 2 * t (k + 1) ∨
        t (k + 2) = t (k + 1) ∧ euclid (M.mulVec p) ^ 2 / 2 + μ (t (k + 1)) * euclid p ^ 2 = 0) := by
    intro k ht
    have hr := hrule k
    simp only [hj] at hr
    have hN := hstep (t (k + 1)) (fn (Y (k + 1))).1 ht
    have hf : (fn (Y (k + 1))).1 = fun m => M.mulVec (Y (k + 1)) m + b m := funext (hfn _)
    have hP := damped_decrease hN
    have hr' : let p := (stepAt (t (k + 1)) (fn (Y (k + 1))).1 M).1
      let D := (∑ m, (fn fun i => Y (k + 1) i + p i).1 m ^ 2) / 2 - (∑ m, (fn (Y (k + 1))).1 m ^ 2) / 2
      let P := linearisedChange M (fn (Y (k + 1))).1 p
      D ≤ 1 / 100 * P → Y (k + 2) = (fun i => Y (k + 1) i + p i) ∧
        t (k + 2) = if D < 99 / 100 * P ∧ P < 0 then 7 / 2 * t (k + 1) else t (k + 1) := hr
    clear hr
    generalize hpd : (stepAt (t (k + 1)) (fn (Y (k + 1))).1 M).1 = p at hN hP hr'
    -- the prediction is exact
    have hD : (∑ m, (fn fun i => Y (k + 1) i + p i).1 m ^ 2) / 2 - (∑ m, (fn (Y (k + 1))).1 m ^ 2) / 2 =
        linearisedChange M (fn (Y (k + 1))).1 p := by
      unfold linearisedChange
      congr 2
      refine Finset.sum_congr rfl fun m _ => ?_
      rw [hfn, hfn]
      have : M.mulVec (fun i => Y (k + 1) i + p i) m = M.mulVec (Y (k + 1)) m + M.mulVec p m :=
        congrFun (Matrix.mulVec_add M (Y (k + 1)) p) m
      rw [this]; ring
    have hnn : 0 ≤ euclid (M.mulVec p) ^ 2 / 2 + μ (t (k + 1)) * euclid p ^ 2 :=
      add_nonneg (by positivity) (mul_nonneg (hμ _ ht) (sq_nonneg _))
    simp only [hD, hP] at hr'
    obtain ⟨h1, h2⟩ := hr' (by linarith)
    rw [hf] at hN
    by_cases hz : euclid (M.mulVec p) ^ 2 / 2 + μ (t (k + 1)) * euclid p ^ 2 = 0
    · rw [if_neg (by rw [hz]; norm_num)] at h2
      exact ⟨by rw [h2]; exact ht, p, rfl, hN, h1, Or.inr ⟨h2, hz⟩⟩
    · have hpos := lt_of_le_of_ne hnn (Ne.symm hz)
      rw [if_pos ⟨by linarith, by linarith⟩] at h2
      exact ⟨by rw [h2]; linarith, p, rfl, hN, h1, Or.inl h2⟩
  have hge : ∀ k, 1 ≤ t (k + 1) := by
    intro k
    induction k with
    | zero => exact ht1.ge
    | succ k ih => exact (key k ih).1
  exact ⟨hY1, ht1, fun k => ⟨hge k, (key k (hge k)).2⟩⟩

/-- The distance from every best fit never grows. -/
theorem linear_never_further (hμ0 : ∀ t, 1 ≤ t → 0 < μ t) (x : ι → ℝ) (hx : BestFit M b x) (j k : ℕ) (hjk : j ≤ k) :
    euclid (fun i => iterateAt (GaussNewton.solver cfg aux0) fn aux0 y0 st0 k i - x i) ≤
      euclid fun i => iterateAt (GaussNewton.solver cfg aux0) fn aux0 y0 st0 j i - x i := by
  obtain ⟨hY1, ht1, hrun⟩ := linear_run cfg hs stepAt hd μ M hj hμ hstep aux0 fn b hfn y0 st0 hi
  induction hjk with
  | refl => exact le_rfl
  | @step k _ ih =>
    refine le_trans ?_ ih
    obtain _ | k := k
    · show euclid (fun i => iterateAt (GaussNewton.solver cfg aux0) fn aux0 y0 st0 1 i - x i) ≤ _
      rw [hY1]
      exact le_rfl
    · obtain ⟨ht, p, _, hp, hY, _⟩ := hrun k
      have h := fit_error (σ := 0) (hμ _ ht) hx (by rw [zero_mul]; exact sq_nonneg _) hp
      rw [zero_add] at h
      show euclid (fun i => iterateAt (GaussNewton.solver cfg aux0) fn aux0 y0 st0 (k + 2) i - x i) ≤ _
      rw [hY]
      exact le_of_mul_le_mul_left h (hμ0 _ ht)

/-- The distance from a best fit after `k` steps, for the one whose difference from the starting point has no component along the
directions that the problem ignores. -/
theorem linear_rate (hμ0 : ∀ t, 1 ≤ t → 0 < μ t) (σ : ℝ) (hσ0 : 0 < σ)
    (hσ : ∀ v, PerpKernel M v → σ * euclid v ^ 2 ≤ euclid (M.mulVec v) ^ 2) (x : ι → ℝ) (hx : BestFit M b x)
    (hperp : PerpKernel M fun i => y0 i - x i) (k : ℕ) :
    (∏ j ∈ Finset.range k, (σ + μ ((7 / 2) ^ j))) *
      euclid (fun i => iterateAt (GaussNewton.solver cfg aux0) fn aux0 y0 st0 (k + 1) i - x i) ≤
      (∏ j ∈ Finset.range k, μ ((7 / 2) ^ j)) * euclid fun i => y0 i - x i := by
  obtain ⟨hY1, ht1, hrun⟩ := linear_run cfg hs stepAt hd μ M hj hμ hstep aux0 fn b hfn y0 st0 hi
  set Y := iterateAt (GaussNewton.solver cfg aux0) fn aux0 y0 st0 with hYd
  have hpow : ∀ j : ℕ, (1:ℝ) ≤ (7 / 2) ^ j := fun j => one_le_pow₀ (by norm_num)
  have hprod : 0 ≤ (∏ j ∈ Finset.range k, μ ((7 / 2) ^ j)) := Finset.prod_nonneg fun j _ => hμ _ (hpow j)
  have hperpk : ∀ k, PerpKernel M fun i => Y (k + 1) i - x i := by
    intro k
    induction k with
    | zero =>
      intro w hw
      have e : Y (0 + 1) = y0 := hY1
      simp only [e]
      exact hperp w hw
    | succ k ih =>
      obtain ⟨ht, p, _, hp, hY, _⟩ := hrun k
      have h2 := hp.perp (hμ0 _ ht)
      intro w hw
      have e : ∑ i, (Y (k + 1 + 1) i - x i) * w i = ∑ i, (Y (k + 1) i - x i) * w i + ∑ i, p i * w i := by
        rw [← Finset.sum_add_distrib]
        refine Finset.sum_congr rfl fun i _ => ?_
        rw [show Y (k + 1 + 1) = _ from hY]; ring
      rw [e, ih w hw, h2 w hw, add_zero]
  -- either the radius has grown all the time, or the best fit has been found
  have hinv : ∀ k, ((stateAt (GaussNewton.solver cfg aux0) fn aux0 y0 st0 (k + 1)).searchState = (7 / 2) ^ k ∧
      (∏ j ∈ Finset.range k, (σ + μ ((7 / 2) ^ j))) * euclid (fun i => Y (k + 1) i - x i) ≤
        (∏ j ∈ Finset.range k, μ ((7 / 2) ^ j)) * euclid fun i => y0 i - x i) ∨ euclid (fun i => Y (k + 1) i - x i) = 0 := by
    intro k
    induction k with
    | zero =>
      refine Or.inl ⟨by rw [pow_zero]; exact ht1, ?_⟩
      simp only [Finset.range_zero, Finset.prod_empty, one_mul, zero_add]
      rw [hY1]
    | succ k ih =>
      obtain ⟨ht, p, _, hp, hY, hgrow⟩ := hrun k
      have hY' : (fun i => Y (k + 1 + 1) i - x i) = fun i => Y (k + 1) i + p i - x i := by
        funext i; rw [show Y (k + 1 + 1) = _ from hY]
      have hpp := hp.perp (hμ0 _ ht)
      have h := fit_error (hμ _ ht) hx (hσ _ (hY' ▸ hperpk (k + 1))) hp
      beta_reduce at ht hp h hgrow
      rw [hY']
      have hpos : 0 < σ + μ (stateAt (GaussNewton.solver cfg aux0) fn aux0 y0 st0 (k + 1)).searchState :=
        add_pos_of_pos_of_nonneg hσ0 (hμ _ ht)
      rcases ih with ⟨htk, hb⟩ | hz
      · rcases hgrow with hg | ⟨_, hz⟩
        · left
          refine ⟨by rw [pow_succ, hg, htk]; ring, ?_⟩
          rw [htk] at h
          rw [Finset.prod_range_succ, Finset.prod_range_succ, mul_assoc]
          have hP : 0 ≤ ∏ j ∈ Finset.range k, (σ + μ ((7 / 2) ^ j)) :=
            Finset.prod_nonneg fun j _ => (add_pos_of_pos_of_nonneg hσ0 (hμ _ (hpow j))).le
          have h1 := mul_le_mul_of_nonneg_left h hP
          have h2 := mul_le_mul_of_nonneg_left hb (hμ _ (hpow k))
          refine h1.trans ?_
          calc _ = μ ((7 / 2) ^ k) * ((∏ j ∈ Finset.range k, (σ + μ ((7 / 2) ^ j))) * euclid fun i => Y (k + 1) i - x i) := by ring
            _ ≤ _ := h2
            _ = _ := by ring
        · -- a vanishing step: the best fit has been found
          right
          have hMp : euclid (M.mulVec p) ^ 2 = 0 := by
            have h1 : 0 ≤ μ (stateAt (GaussNewton.solver cfg aux0) fn aux0 y0 st0 (k + 1)).searchState * euclid p ^ 2 :=
              mul_nonneg (hμ _ ht) (sq_nonneg _)
            nlinarith [sq_nonneg (euclid (M.mulVec p))]
          have hp0 : euclid p ^ 2 = 0 := by
            have := hσ p hpp
            rw [hMp] at this
            by_contra hne
            have h1 : 0 < euclid p ^ 2 := lt_of_le_of_ne (sq_nonneg _) (Ne.symm hne)
            have := mul_pos hσ0 h1
            linarith
          have hpz : ∀ i, p i = 0 := fun i => by
            have h1 := abs_le_euclid p i
            rw [pow_eq_zero_iff two_ne_zero] at hp0
            rw [hp0] at h1
            exact abs_eq_zero.1 (le_antisymm h1 (abs_nonneg _))
          have hsame : (fun i => Y (k + 1) i + p i - x i) = fun i => Y (k + 1) i - x i := by
            funext i; rw [hpz, add_zero]
          rw [hsame] at h ⊢
          have h0 := euclid_nonneg fun i => Y (k + 1) i - x i
          have h1 : σ * euclid (fun i => Y (k + 1) i - x i) ≤ 0 := by linarith
          by_contra hne
          have := mul_pos hσ0 (lt_of_le_of_ne h0 (Ne.symm hne))
          linarith
      · right
        rw [hz, mul_zero] at h
        have h0 := euclid_nonneg fun i => Y (k + 1) i + p i - x i
        by_contra hne
        have := mul_pos hpos (lt_of_le_of_ne h0 (Ne.symm hne))
        linarith
  rcases hinv k with ⟨_, h⟩ | h
  · exact h
  · rw [h, mul_zero]
    exact mul_nonneg hprod (euclid_nonneg _)

end

/-- The step of `LevenbergMarquardt`, whatever the rank of the Jacobian. -/
theorem damped_normal_step [DecidableEq ι] (eps fmax : ℝ) (he : eps < 1) (ls : LinSolve ι (κ ⊕ ι)) (hls : SolvesFullRank ls)
    (t : ℝ) (f : κ → ℝ) (J : Matrix κ ι ℝ) (ht : 1 ≤ t) :
    DampedNormal J f (1 / t) ((dampedNewtonDescent eps fmax ls).step t (.residualJac f J)).1 := by
  have hl : lmParam eps fmax t = 1 / t := if_pos (by linarith)
  have hl0 : 0 < 1 / t := by positivity
  have hfull : ∀ v, (dampedOperator J (1 / t)).mulVec v = 0 → v = 0 := by
    intro v hv
    funext i
    have := congrFun hv (.inr i)
    have e : (dampedOperator J (1 / t)).mulVec v (.inr i) = √(1 / t) * v i := by
      simp [dampedOperator, Matrix.mulVec, dotProduct]
    rw [e, Pi.zero_apply] at this
    exact (mul_eq_zero.1 this).resolve_left (Real.sqrt_pos.2 hl0).ne'
  obtain ⟨h1, _⟩ := hls _ hfull (dampedVector f)
  show DampedNormal J f (1 / t) fun i => -(ls.rect (dampedOperator J (lmParam eps fmax t)) (dampedVector f)).1 i
  rw [hl]
  exact regularised_stationary J f (1 / t) hl0.le _ fun q => damped_minimiser J f (1 / t) hl0.le _ h1 q

section solves
variable (M : Matrix κ ι ℝ) (aux0 : A) (fn : (ι → ℝ) → (κ → ℝ) × A) (b : κ → ℝ) (hfn : ∀ y m, (fn y).1 m = M.mulVec y m + b m)
  (y0 : ι → ℝ) (rtol atol : ℝ) (nY : (ι → ℝ) → ℝ) (nF : (κ → ℝ) → ℝ) (af : (ι → ℝ) → Bool) (ms : Option ℕ) (throw : Bool)

include hfn

/-- **C155.** `LevenbergMarquardt` on linear residuals, with or without full rank: the answer, whatever its result code, is not
further from any best fit than the starting point. -/
theorem C155_never_further [DecidableEq ι] (eps fmax : ℝ) (he : eps < 1) (ls : LinSolve ι (κ ⊕ ι)) (hls : SolvesFullRank ls)
    (sol : Solution (ι → ℝ) A (GaussNewton.State ι κ A ℝ (FnInfo ι κ)) Unit)
    (h : iterativeSolve (GaussNewton.solver (GaussNewton.levenbergMarquardt eps fmax rtol atol nY nF ls fun _ => M) aux0) af fn aux0
      y0 ms throw = some (.ok sol)) (x : ι → ℝ) (hx : BestFit M b x) :
    ∑ i, (sol.value i - x i) ^ 2 ≤ ∑ i, (y0 i - x i) ^ 2 := by
  obtain ⟨_, _, st0, hi, _, hp⟩ := C01_step_budget _ _ _ _ _ _ _ _ h
  have hv : sol.value = iterateAt _ fn aux0 y0 st0 sol.numSteps := congrArg Prod.fst hp
  have := linear_never_further (GaussNewton.levenbergMarquardt eps fmax rtol atol nY nF ls fun _ => M) rfl _
    (damped_memoryless eps fmax ls) (fun t => 1 / t) M (fun _ => rfl) (fun t ht => by positivity)
    (fun t f ht => damped_normal_step eps fmax he ls hls t f M ht) aux0 fn b hfn y0 st0 hi (fun t ht => by positivity) x hx 0
    sol.numSteps (Nat.zero_le _)
  rw [← hv] at this
  have h2 := pow_le_pow_left₀ (euclid_nonneg _) this 2
  rwa [euclid_sq, euclid_sq] at h2

theorem lm_rate [DecidableEq ι] (eps fmax : ℝ) (he : eps < 1) (ls : LinSolve ι (κ ⊕ ι)) (hls : SolvesFullRank ls)
    (sol : Solution (ι → ℝ) A (GaussNewton.State ι κ A ℝ (FnInfo ι κ)) Unit)
    (h : iterativeSolve (GaussNewton.solver (GaussNewton.levenbergMarquardt eps fmax rtol atol nY nF ls fun _ => M) aux0) af fn aux0
      y0 ms throw = some (.ok sol)) (σ : ℝ) (hσ0 : 0 < σ) (hσ : ∀ v : ι → ℝ, PerpKernel M v → σ * ∑ i, v i ^ 2 ≤ ∑ m, M.mulVec v m ^ 2)
    (x : ι → ℝ) (hx : BestFit M b x) (hperp : PerpKernel M fun i => y0 i - x i) :
    √(∑ i, (sol.value i - x i) ^ 2) ≤ √(∑ i, (y0 i - x i) ^ 2) / ∏ j ∈ Finset.range (sol.numSteps - 1), (1 + σ * 3.5 ^ j) := by
  obtain ⟨_, _, st0, hi, _, hp⟩ := C01_step_budget _ _ _ _ _ _ _ _ h
  have hv : sol.value = iterateAt _ fn aux0 y0 st0 sol.numSteps := congrArg Prod.fst hp
  rw [le_div_iff₀ (Finset.prod_pos fun j _ => by positivity)]
  rcases Nat.eq_zero_or_pos sol.numSteps with h0 | h0
  · rw [h0] at hv ⊢
    rw [hv]
    simp
    exact le_rfl
  have hr := linear_rate (GaussNewton.levenbergMarquardt eps fmax rtol atol nY nF ls fun _ => M) rfl _
    (damped_memoryless eps fmax ls) (fun t => 1 / t) M (fun _ => rfl) (fun t ht => by positivity)
    (fun t f ht => damped_normal_step eps fmax he ls hls t f M ht) aux0 fn b hfn y0 st0 hi (fun t ht => by positivity) σ hσ0
    (fun v hv => by rw [euclid_sq, euclid_sq]; exact hσ v hv) x hx hperp (sol.numSteps - 1)
  rw [Nat.sub_add_cancel h0, ← hv] at hr
  have hprod : ∏ j ∈ Finset.range (sol.numSteps - 1), (σ + 1 / (7 / 2 : ℝ) ^ j) =
      (∏ j ∈ Finset.range (sol.numSteps - 1), 1 / (7 / 2 : ℝ) ^ j) *
        ∏ j ∈ Finset.range (sol.numSteps - 1), (1 + σ * 3.5 ^ j) := by
    rw [← Finset.prod_mul_distrib]
    refine Finset.prod_congr rfl fun j _ => ?_
    rw [show (3.5 : ℝ) = 7 / 2 by norm_num]
    have : (7 / 2 : ℝ) ^ j ≠ 0 := by positivity
    field_simp
    ring
  rw [hprod, mul_assoc] at hr
  have := le_of_mul_le_mul_left hr (Finset.prod_pos fun j _ => by positivity)
  rw [mul_comm]
  exact this

/-- **C155.** If the best fit is unique, `σ |v|² ≤ |M v|²`, then after `n` steps of `LevenbergMarquardt`, whatever the result code,
the distance from it is at most that of the starting point divided by `(1 + σ)(1 + 3.5 σ)(1 + 3.5² σ) ⋯`, with `n - 1` factors. -/
theorem C155_levenberg_marquardt [DecidableEq ι] (eps fmax : ℝ) (he : eps < 1) (ls : LinSolve ι (κ ⊕ ι)) (hls : SolvesFullRank ls)
    (sol : Solution (ι → ℝ) A (GaussNewton.State ι κ A ℝ (FnInfo ι κ)) Unit)
    (h : iterativeSolve (GaussNewton.solver (GaussNewton.levenbergMarquardt eps fmax rtol atol nY nF ls fun _ => M) aux0) af fn aux0
      y0 ms throw = some (.ok sol)) (σ : ℝ) (hσ0 : 0 < σ) (hσ : ∀ v : ι → ℝ, σ * ∑ i, v i ^ 2 ≤ ∑ m, M.mulVec v m ^ 2) (x : ι → ℝ)
    (hx : BestFit M b x) :
    √(∑ i, (sol.value i - x i) ^ 2) ≤ √(∑ i, (y0 i - x i) ^ 2) / ∏ j ∈ Finset.range (sol.numSteps - 1), (1 + σ * 3.5 ^ j) := by
  refine lm_rate M aux0 fn b hfn y0 rtol atol nY nF af ms throw eps fmax he ls hls sol h σ hσ0 (fun v _ => hσ v) x hx fun w hw => ?_
  have h1 := hσ w
  rw [hw] at h1
  simp only [Pi.zero_apply, ne_eq, OfNat.ofNat_ne_zero, not_false_eq_true, zero_pow, Finset.sum_const_zero] at h1
  have h2 : ∀ i, w i = 0 := fun i => by
    have h3 := Finset.single_le_sum (f := fun i => w i ^ 2) (fun i _ => sq_nonneg _) (Finset.mem_univ i)
    have h4 : ∑ i, w i ^ 2 ≤ 0 := by
      by_contra hpos
      push Not at hpos
      linarith [mul_pos hσ0 hpos]
    exact pow_eq_zero_iff two_ne_zero |>.1 (le_antisymm (h3.trans h4) (sq_nonneg _))
  simp [h2]

/-- **C155.** If there are many best fits, `LevenbergMarquardt` approaches the one closest to the starting point, at the same rate; `σ` is
now the smallest squared singular value that is not zero: `σ |v|² ≤ |M v|²` for the `v` orthogonal to the null space of `M`. -/
theorem C155_closest [DecidableEq ι] (eps fmax : ℝ) (he : eps < 1) (ls : LinSolve ι (κ ⊕ ι)) (hls : SolvesFullRank ls)
    (sol : Solution (ι → ℝ) A (GaussNewton.State ι κ A ℝ (FnInfo ι κ)) Unit)
    (h : iterativeSolve (GaussNewton.solver (GaussNewton.levenbergMarquardt eps fmax rtol atol nY nF ls fun _ => M) aux0) af fn aux0
      y0 ms throw = some (.ok sol)) (σ : ℝ) (hσ0 : 0 < σ)
    (hσ : ∀ v : ι → ℝ, (∀ w, M.mulVec w = 0 → ∑ i, v i * w i = 0) → σ * ∑ i, v i ^ 2 ≤ ∑ m, M.mulVec v m ^ 2) (x : ι → ℝ)
    (hx : BestFit M b x) (hclosest : ∀ z, BestFit M b z → ∑ i, (y0 i - x i) ^ 2 ≤ ∑ i, (y0 i - z i) ^ 2) :
    √(∑ i, (sol.value i - x i) ^ 2) ≤ √(∑ i, (y0 i - x i) ^ 2) / ∏ j ∈ Finset.range (sol.numSteps - 1), (1 + σ * 3.5 ^ j) := by
  refine lm_rate M aux0 fn b hfn y0 rtol atol nY nF af ms throw eps fmax he ls hls sol h σ hσ0 hσ x hx fun w hw => ?_
  -- moving along the null space keeps best fits
  have hfit : ∀ c : ℝ, BestFit M b fun i => x i + c * w i := by
    intro c z
    have e : M.mulVec (fun i => x i + c * w i) = M.mulVec x := by
      have : (fun i => x i + c * w i) = x + c • w := rfl
      rw [this, Matrix.mulVec_add, Matrix.mulVec_smul, hw, smul_zero, add_zero]
    rw [e]
    exact hx z
  have hq : ∀ c : ℝ, 2 * c * ∑ i, (y0 i - x i) * w i ≤ c ^ 2 * ∑ i, w i ^ 2 := by
    intro c
    have h1 := hclosest _ (hfit c)
    have e : ∑ i, (y0 i - (x i + c * w i)) ^ 2 =
        ∑ i, (y0 i - x i) ^ 2 - 2 * c * (∑ i, (y0 i - x i) * w i) + c ^ 2 * ∑ i, w i ^ 2 := by
      rw [Finset.mul_sum, Finset.mul_sum, ← Finset.sum_sub_distrib, ← Finset.sum_add_distrib]
      exact Finset.sum_congr rfl fun i _ => by ring
    rw [e] at h1
    linarith
  have hW : 0 ≤ ∑ i, w i ^ 2 := Finset.sum_nonneg fun i _ => sq_nonneg _
  set D := ∑ i, (y0 i - x i) * w i
  set W := ∑ i, w i ^ 2
  have h1 := hq (D / (W + 1))
  have h2 : 2 * (D / (W + 1)) * D = 2 * (W + 1) * (D / (W + 1)) ^ 2 := by field_simp
  rw [h2] at h1
  have h3 : (D / (W + 1)) ^ 2 * (W + 2) ≤ 0 := by linarith
  have h4 : (D / (W + 1)) ^ 2 = 0 := by
    by_contra hne
    have := mul_pos (lt_of_le_of_ne (sq_nonneg (D / (W + 1))) (Ne.symm hne)) (show 0 < W + 2 by linarith)
    linarith
  have h5 := pow_eq_zero_iff two_ne_zero |>.1 h4
  rcases div_eq_zero_iff.1 h5 with h6 | h6
  · exact h6
  · linarith

omit hfn in
theorem BestFit.of_normal {x : ι → ℝ} (h : ∀ i, ∑ m, M m i * (M.mulVec x m + b m) = 0) : BestFit M b x := by
  intro z
  have h1 : ∑ m, M.mulVec (fun i => z i - x i) m * (M.mulVec x m + b m) = 0 := by
    have hswap : ∑ m, M.mulVec (fun i => z i - x i) m * (M.mulVec x m + b m) =
        ∑ i, (z i - x i) * ∑ m, M m i * (M.mulVec x m + b m) := by
      simp only [Matrix.mulVec, dotProduct, Finset.sum_mul, Finset.mul_sum]
      rw [Finset.sum_comm]
      exact Finset.sum_congr rfl fun i _ => Finset.sum_congr rfl fun m _ => by ring
    rw [hswap]
    exact Finset.sum_eq_zero fun i _ => by rw [h i, mul_zero]
  have h2 : ∑ m, (M.mulVec z m + b m) ^ 2 = ∑ m, (M.mulVec x m + b m) ^ 2 +
      2 * (∑ m, M.mulVec (fun i => z i - x i) m * (M.mulVec x m + b m)) + ∑ m, M.mulVec (fun i => z i - x i) m ^ 2 := by
    rw [Finset.mul_sum, ← Finset.sum_add_distrib, ← Finset.sum_add_distrib]
    refine Finset.sum_congr rfl fun m _ => ?_
    have : M.mulVec (fun i => z i - x i) m = M.mulVec z m - M.mulVec x m := congrFun (Matrix.mulVec_sub M z x) m
    rw [this]; ring
  have h3 : 0 ≤ ∑ m, M.mulVec (fun i => z i - x i) m ^ 2 := Finset.sum_nonneg fun m _ => sq_nonneg _
  rw [h2, h1]; linarith

/-- Solvers that start with Newton steps are done after one of them. -/
theorem linear_done (cfg : GaussNewton.Cfg ι κ ℝ DS) (hs : cfg.search = TrustRegion.classical TrustRegion.defaults)
    (stepAt : ℝ → (κ → ℝ) → Matrix κ ι ℝ → (ι → ℝ) × Result) (hd : Memoryless cfg.descent stepAt) (hj : ∀ y, cfg.jac y = M)
    (hstep : NewtonLike stepAt fun _ => 0) (hM : ∀ v, M.mulVec v = 0 → v = 0)
    (sol : Solution (ι → ℝ) A (GaussNewton.State ι κ A ℝ DS) Unit)
    (h : iterativeSolve (GaussNewton.solver cfg aux0) af fn aux0 y0 ms throw = some (.ok sol)) (hn : 2 ≤ sol.numSteps) :
    BestFit M b sol.value := by
  obtain ⟨_, _, st0, hi, _, hp⟩ := C01_step_budget _ _ _ _ _ _ _ _ h
  have hv : sol.value = iterateAt _ fn aux0 y0 st0 sol.numSteps := congrArg Prod.fst hp
  obtain ⟨hY1, ht1, hrun⟩ := linear_run cfg hs stepAt hd (fun _ => 0) M hj (fun _ _ => le_rfl)
    (fun t f ht => (hstep t f M ht hM).1) aux0 fn b hfn y0 st0 hi
  obtain ⟨k, hk⟩ : ∃ k, sol.numSteps = k + 2 := ⟨sol.numSteps - 2, by omega⟩
  obtain ⟨_, p, _, hN, hY, _⟩ := hrun k
  rw [hv, hk, hY]
  refine BestFit.of_normal M b fun i => ?_
  have h1 := hN i
  rw [zero_mul, add_zero] at h1
  rw [← h1]
  refine Finset.sum_congr rfl fun m _ => ?_
  have : M.mulVec (fun i => iterateAt (GaussNewton.solver cfg aux0) fn aux0 y0 st0 (k + 1) i + p i) m =
      M.mulVec (iterateAt (GaussNewton.solver cfg aux0) fn aux0 y0 st0 (k + 1)) m + M.mulVec p m :=
    congrFun (Matrix.mulVec_add M _ p) m
  rw [this]; ring

/-- **C155.** With full rank, the answer of `Dogleg` after two steps or more (the first one only evaluates the residuals) is the best
fit. -/
theorem C155_dogleg (eps : ℝ) (he : 0 ≤ eps) (ls : LinSolve ι κ) (hls : SolvesFullRank ls) (sol)
    (h : iterativeSolve (GaussNewton.solver (GaussNewton.dogleg eps rtol atol nY nF ls fun _ => M) aux0) af fn aux0
      y0 ms throw = some (.ok sol)) (hM : ∀ v, M.mulVec v = 0 → v = 0) (hn : 2 ≤ sol.numSteps) :
    ∀ z : ι → ℝ, ∑ m, (fn sol.value).1 m ^ 2 ≤ ∑ m, (fn z).1 m ^ 2 := by
  have := linear_done M aux0 fn b hfn y0 af ms throw (GaussNewton.dogleg eps rtol atol nY nF ls fun _ => M) rfl _
    (dogleg_memoryless eps ls) (fun _ => rfl) (dogleg_newton_like eps he ls hls) hM sol h hn
  simpa only [BestFit, hfn] using this

/-- **C155.** And so is that of `IndirectLevenbergMarquardt`. -/
theorem C155_indirect_levenberg_marquardt [DecidableEq ι] (eps fmax : ℝ) (ls : LinSolve ι κ) (hls : SolvesFullRank ls)
    (lsD : LinSolve ι (κ ⊕ ι)) (env : InnerEnv) (sol)
    (h : iterativeSolve (GaussNewton.solver (GaussNewton.indirectLevenbergMarquardt eps fmax rtol atol nY nF ls lsD
      (findLambdaNewton env 1) fun _ => M) aux0) af fn aux0 y0 ms throw = some (.ok sol)) (hM : ∀ v, M.mulVec v = 0 → v = 0)
    (hn : 2 ≤ sol.numSteps) :
    ∀ z : ι → ℝ, ∑ m, (fn sol.value).1 m ^ 2 ≤ ∑ m, (fn z).1 m ^ 2 := by
  have := linear_done M aux0 fn b hfn y0 af ms throw (GaussNewton.indirectLevenbergMarquardt eps fmax rtol atol nY nF ls lsD
    (findLambdaNewton env 1) fun _ => M) rfl _ (indirect_memoryless eps fmax ls lsD env) (fun _ => rfl)
    (indirect_newton_like eps fmax ls hls lsD env) hM sol h hn
  simpa only [BestFit, hfn] using this

/-- **C155.** `LevenbergMarquardt` never rejects a step on linear residuals, with or without full rank, and never shrinks its trust
region. -/
theorem C155_no_rejections [DecidableEq ι] (eps fmax : ℝ) (he : eps < 1) (ls : LinSolve ι (κ ⊕ ι)) (hls : SolvesFullRank ls)
    (st0 : GaussNewton.State ι κ A ℝ (FnInfo ι κ)) :
    let S := GaussNewton.solver (GaussNewton.levenbergMarquardt eps fmax rtol atol nY nF ls fun _ => M) aux0
    S.init fn y0 = .ok st0 → ∀ k, 1 ≤ k →
      iterateAt S fn aux0 y0 st0 (k + 1) = (stateAt S fn aux0 y0 st0 k).yEval ∧
      (stateAt S fn aux0 y0 st0 k).searchState ≤ (stateAt S fn aux0 y0 st0 (k + 1)).searchState := by
  intro S hi k hk
  obtain ⟨k, rfl⟩ : ∃ j, k = j + 1 := ⟨k - 1, by omega⟩
  have hr := linear_run (GaussNewton.levenbergMarquardt eps fmax rtol atol nY nF ls fun _ => M) rfl _
    (damped_memoryless eps fmax ls) (fun t => 1 / t) M (fun _ => rfl) (fun t ht => by positivity)
    (fun t f ht => damped_normal_step eps fmax he ls hls t f M ht) aux0 fn b hfn y0 st0 hi
  have hy := (gn_trust_run TrustRegion.defaults (by norm_num [TrustRegion.defaults]) (by norm_num [TrustRegion.defaults])
    (GaussNewton.levenbergMarquardt eps fmax rtol atol nY nF ls fun _ => M) rfl _ (damped_memoryless eps fmax ls) aux0 fn y0 st0 hi).2.2.2 k
  obtain ⟨ht, p, hpd, _, hY, hgrow⟩ := hr.2.2 k
  beta_reduce at ht hpd hgrow
  have hacc : iterateAt S fn aux0 y0 st0 (k + 1 + 1) = (stateAt S fn aux0 y0 st0 (k + 1)).yEval := by
    rw [show iterateAt S fn aux0 y0 st0 (k + 1 + 1) = _ from hY, show (stateAt S fn aux0 y0 st0 (k + 1)).yEval = _ from hy, hpd]
    rfl
  refine ⟨hacc, ?_⟩
  rcases hgrow with hg | ⟨hg, _⟩
  · rw [show (stateAt S fn aux0 y0 st0 (k + 1 + 1)).searchState = _ from hg]
    linarith
  · rw [show (stateAt S fn aux0 y0 st0 (k + 1 + 1)).searchState = _ from hg]

end solves

/-! ### The hypotheses are met -/

/-- Fitting a line to `(0, 0)`, `(1, 1)`, `(2, 1)`: the best fit is `1/6 + x/2`, it does not go through the points, and the matrix has
full rank with `σ = 1 / 2`. -/
example : let M : Matrix (Fin 3) (Fin 2) ℝ := !![1, 0; 1, 1; 1, 2]
    let b : Fin 3 → ℝ := ![0, -1, -1]
    BestFit M b ![1 / 6, 1 / 2] ∧ (∀ v : Fin 2 → ℝ, 1 / 2 * ∑ i, v i ^ 2 ≤ ∑ m, M.mulVec v m ^ 2) ∧
      (∃ m, M.mulVec ![1 / 6, 1 / 2] m + b m ≠ 0) ∧ ∃ ls : LinSolve (Fin 2) (Fin 3 ⊕ Fin 2), SolvesFullRank ls := by
  refine ⟨BestFit.of_normal _ _ fun i => ?_, fun v => ?_, ⟨0, ?_⟩, full_rank_solver_exists⟩
  · fin_cases i <;> simp [Fin.sum_univ_three, Matrix.mulVec, dotProduct, Fin.sum_univ_two] <;> norm_num
  · simp [Fin.sum_univ_three, Matrix.mulVec, dotProduct, Fin.sum_univ_two]
    nlinarith [sq_nonneg (v 0 + v 1), sq_nonneg (5 * v 0 + 6 * v 1), sq_nonneg (v 0), sq_nonneg (v 1)]
  · simp [Matrix.mulVec, dotProduct, Fin.sum_univ_two]

/-- A rank-deficient fit: only the sum of the two unknowns matters.  `σ = 4`; from `(3, 0)` the closest best fit is `(2, -1)`. -/
example : let M : Matrix (Fin 2) (Fin 2) ℝ := !![1, 1; 1, 1]
    let b : Fin 2 → ℝ := ![0, -2]
    let y0 : Fin 2 → ℝ := ![3, 0]
    (∀ v : Fin 2 → ℝ, (∀ w, M.mulVec w = 0 → ∑ i, v i * w i = 0) → 4 * ∑ i, v i ^ 2 ≤ ∑ m, M.mulVec v m ^ 2) ∧
      BestFit M b ![2, -1] ∧ ∀ z, BestFit M b z → ∑ i, (y0 i - (![2, -1] : Fin 2 → ℝ) i) ^ 2 ≤ ∑ i, (y0 i - z i) ^ 2 := by
  refine ⟨fun v hv => ?_, BestFit.of_normal _ _ fun i => ?_, fun z hz => ?_⟩
  · have h1 := hv ![1, -1] (by funext i; fin_cases i <;> simp [Matrix.mulVec, dotProduct, Fin.sum_univ_two])
    simp [Matrix.mulVec, dotProduct, Fin.sum_univ_two] at h1 ⊢
    have : v 0 = v 1 := by linarith
    rw [this]; nlinarith
  · fin_cases i <;> simp [Matrix.mulVec, dotProduct, Fin.sum_univ_two] <;> norm_num
  · have h1 := hz.normal 0
    simp [Matrix.mulVec, dotProduct, Fin.sum_univ_two] at h1 ⊢
    have : z 1 = 1 - z 0 := by linarith
    rw [this]
    nlinarith [sq_nonneg (z 0 - 2)]

end Verif.Props
