import Verif.Props.FixedPointMonotone
import Verif.Props.GradientMethods

/-!
**C157.** The answer of a solve depends continuously on the starting point and on the arguments of the problem, as long as the number
of steps stays the same; and the number of steps stays the same near every problem for which no stopping test was a tie.
-/

namespace Verif.Props

open Verif Verif.Spec Verif.Driver Filter Topology

variable {ι A P : Type} [TopologicalSpace P]

/-- Iterates of a map that depends continuously on a parameter. -/
theorem iterates_continuous {T : P → (ι → ℝ) → ι → ℝ} (hT : Continuous fun q : P × (ι → ℝ) => T q.1 q.2) {y0 : P → ι → ℝ}
    (hy : Continuous y0) (k : ℕ) : Continuous fun p => (T p)^[k] (y0 p) := by
  induction k with
  | zero => exact hy
  | succ k ih =>
    simp only [Function.iterate_succ_apply']
    exact hT.comp (continuous_id.prodMk ih)

/-- A scaled norm of a continuous family. -/
theorem scaled_continuous {κ : Type} {norm : (κ → ℝ) → ℝ} (hn : Continuous norm) {rtol atol : ℝ} (ha : 0 < atol) (hr : 0 ≤ rtol)
    {u v : P → κ → ℝ} (hu : Continuous u) (hv : Continuous v) :
    Continuous fun p => norm fun i => u p i / (atol + rtol * |v p i|) := by
  refine hn.comp (continuous_pi fun i => ?_)
  refine ((continuous_apply i).comp hu).div (continuous_const.add (continuous_const.mul ((continuous_apply i).comp hv).abs)) fun p => ?_
  exact (add_pos_of_pos_of_nonneg ha (mul_nonneg hr (abs_nonneg _))).ne'

omit [TopologicalSpace P] in
theorem maxNorm_continuous [Fintype ι] : Continuous (maxNorm : (ι → ℝ) → ℝ) := by
  unfold maxNorm
  refine Continuous.finset_sup'_apply _ fun o _ => ?_
  cases o with
  | none => exact continuous_const
  | some i => exact (continuous_apply i).abs

/-- **C157** for `FixedPointIteration`. Let the map and the starting point depend continuously on arguments `p`, and let a solve
succeed at `p0` such that none of the stopping tests before the last one was a tie. Then all solves near `p0` succeed after the same
number of steps, and their answers tend to that of the first. -/
theorem C157_fixed_point (cfg : FixedPointIter.Cfg ι ℝ) (hn : Continuous cfg.norm) (ha : 0 < cfg.atol) (hr : 0 ≤ cfg.rtol)
    (fn : P → (ι → ℝ) → (ι → ℝ) × A) (hfn : Continuous fun q : P × (ι → ℝ) => (fn q.1 q.2).1) (y0 : P → ι → ℝ) (hy : Continuous y0)
    (aux0 : A) (ms : Option ℕ) (throw : Bool) (p0 : P) (sol : Solution (ι → ℝ) A (Option ℝ) Unit)
    (h : iterativeSolve (FixedPointIter.solver cfg) (fun _ => true) (fn p0) aux0 (y0 p0) ms throw = some (.ok sol))
    (hs : sol.result = .successful)
    (hties : ∀ k, k + 1 < sol.numSteps →
      let Y := fun k => (fun y i => (1 - cfg.damp) * (fn p0 y).1 i + cfg.damp * y i)^[k] (y0 p0)
      cfg.norm (fun i => (Y k i - Y (k + 1) i) / (cfg.atol + cfg.rtol * |Y (k + 1) i|)) ≠ 1) (U : Set (ι → ℝ)) (hU : U ∈ 𝓝 sol.value) :
    ∀ᶠ p in 𝓝 p0, ∃ sol', iterativeSolve (FixedPointIter.solver cfg) (fun _ => true) (fn p) aux0 (y0 p) ms throw = some (.ok sol') ∧
      sol'.result = .successful ∧ sol'.numSteps = sol.numSteps ∧ sol'.value ∈ U := by
  let Y : P → ℕ → ι → ℝ := fun p k => (dampedMap cfg.damp fun z => (fn p z).1)^[k] (y0 p)
  have hY : ∀ k, Continuous fun p => Y p k := fun k => iterates_continuous (T := fun p => dampedMap cfg.damp fun z => (fn p z).1)
    (continuous_pi fun i => (continuous_const.mul ((continuous_apply i).comp hfn)).add
      (continuous_const.mul ((continuous_apply i).comp continuous_snd))) hy k
  let E : P → ℕ → ℝ := fun p k => cfg.norm fun i => (Y p k i - Y p (k + 1) i) / (cfg.atol + cfg.rtol * |Y p (k + 1) i|)
  have hE : ∀ k, Continuous fun p => E p k := fun k => scaled_continuous hn ha hr ((hY k).sub (hY (k + 1))) (hY (k + 1))
  obtain ⟨n, hnum, hv, _, hc⟩ := C20_success_certificate cfg (fn p0) aux0 (y0 p0) _ ms throw sol h hs
  have hvY : sol.value = Y p0 (n + 1) := by
    rw [hv]; exact (Function.iterate_succ_apply' (dampedMap cfg.damp fun z => (fn p0 z).1) n (y0 p0)).symm
  rw [hvY] at hc hU
  have hterm : ∀ p k, (FixedPointIter.solver (A := A) cfg).terminate (fn p)
      (iterateAt (FixedPointIter.solver cfg) (fn p) aux0 (y0 p) none k)
      (stateAt (FixedPointIter.solver cfg) (fn p) aux0 (y0 p) none (k + 1)) = (true, .successful) ↔ E p k < 1 := by
    intro p k
    rw [fp_terminate_succ, fp_iterate_eq, fp_iterate_eq]
  -- the tests before the last one
  obtain ⟨st0, hi, _, hbefore, _⟩ := C02_success_is_certificate _ _ _ _ _ _ _ _ h hs
  cases hi
  have hgt : ∀ k, k < n → 1 < E p0 k := by
    intro k hk
    refine lt_of_le_of_ne (not_lt.1 fun hlt => ?_) (Ne.symm (hties k (by omega)))
    have h1 := (hterm p0 k).2 hlt
    have h2 := hbefore (k + 1) (by omega)
    rw [Nat.add_sub_cancel, h1] at h2
    cases h2
  have hev1 : ∀ᶠ p in 𝓝 p0, ∀ k ∈ Finset.range n, 1 < E p k :=
    (Finset.eventually_all _).2 fun k hk => (hE k).continuousAt.eventually (lt_mem_nhds (hgt k (Finset.mem_range.1 hk)))
  have hev2 : ∀ᶠ p in 𝓝 p0, E p n < 1 := (hE n).continuousAt.eventually (gt_mem_nhds hc)
  have hev3 : ∀ᶠ p in 𝓝 p0, Y p (n + 1) ∈ U := (hY (n + 1)).continuousAt.eventually hU
  filter_upwards [hev1, hev2, hev3] with p h1 h2 h3
  have hb := (C01_step_budget _ _ _ _ _ _ _ _ h).1
  obtain ⟨sol', hsol, hres, hle⟩ := fp_succeeds cfg (fn p) aux0 (y0 p) ms throw n (by rw [fp_iterate_eq, fp_iterate_eq]; exact h2)
    (fun m hm => hnum ▸ hb m hm)
  obtain ⟨n', hnum', hv', _, hc'⟩ := C20_success_certificate cfg (fn p) aux0 (y0 p) _ ms throw sol' hsol hres
  have hvY' : sol'.value = Y p (n' + 1) := by
    rw [hv']; exact (Function.iterate_succ_apply' (dampedMap cfg.damp fun z => (fn p z).1) n' (y0 p)).symm
  rw [hvY'] at hc'
  have hc'' : E p n' < 1 := hc'
  have hnn : n' = n := by
    by_contra hne
    have := h1 n' (Finset.mem_range.2 (by omega))
    linarith
  refine ⟨sol', hsol, hres, by omega, ?_⟩
  rw [hvY', hnn]
  exact h3

/-- The stopping test of `GradientDescent`. -/
theorem gd_terminate_iff (rate rtol atol : ℝ) (nY : (ι → ℝ) → ℝ) (nF : (Unit → ℝ) → ℝ) (grad : (ι → ℝ) → (ι → ℝ)) (aux0 : A)
    (fn : (ι → ℝ) → ℝ × A) (y0 : ι → ℝ) (st0) (hi : (gdSolver rate rtol atol nY nF grad aux0).init fn y0 = .ok st0) (k : ℕ) :
    (stateAt (gdSolver rate rtol atol nY nF grad aux0) fn aux0 y0 st0 (k + 2)).terminate = true ↔
      nY (fun i => |(gdMap rate grad)^[k + 1] y0 i - (gdMap rate grad)^[k] y0 i| /
        (atol + rtol * |(gdMap rate grad)^[k + 1] y0 i|)) < 1 ∧
      nF (fun _ => |(fn ((gdMap rate grad)^[k + 1] y0)).1 - (fn ((gdMap rate grad)^[k] y0)).1| /
        (atol + rtol * |(fn ((gdMap rate grad)^[k + 1] y0)).1|)) < 1 := by
  obtain ⟨s1, s2, s3, s4, s5⟩ := gd_state rate rtol atol nY nF grad aux0 fn y0 st0 hi k
  have hS2 : stateAt (gdSolver rate rtol atol nY nF grad aux0) fn aux0 y0 st0 (k + 2) =
    (GradientDescent.step (GradientDescent.gradientDescent rate rtol atol nY nF grad) fn
      (iterateAt (gdSolver rate rtol atol nY nF grad aux0) fn aux0 y0 st0 (k + 1))
      (stateAt (gdSolver rate rtol atol nY nF grad aux0) fn aux0 y0 st0 (k + 1))).2.1 := rfl
  rw [hS2]
  generalize stateAt (gdSolver rate rtol atol nY nF grad aux0) fn aux0 y0 st0 (k + 1) = S at *
  generalize iterateAt (gdSolver rate rtol atol nY nF grad aux0) fn aux0 y0 st0 (k + 1) = Yk at *
  have e : (GradientDescent.step (GradientDescent.gradientDescent rate rtol atol nY nF grad) fn Yk S).2.1.terminate =
      cauchyTermination rtol atol nY nF S.yEval (fun i => S.yEval i - Yk i)
          (fun _ => (fn S.yEval).1) (fun _ => (fn S.yEval).1 - GradientDescent.fOf S.fInfo) := by
    simp only [GradientDescent.step, GradientDescent.gradientDescent, learningRate, if_true, s5, Bool.false_eq_true, if_false]
  rw [e, s2, s1, s3]
  simp only [cauchyTermination, Bool.and_eq_true, decide_eq_true_eq]
  exact Iff.rfl

/-- **C157** for `GradientDescent`. -/
theorem C157_gradient_descent (rate rtol atol : ℝ) (nY : (ι → ℝ) → ℝ) (nF : (Unit → ℝ) → ℝ) (hnY : Continuous nY) (hnF : Continuous nF)
    (ha : 0 < atol) (hr : 0 ≤ rtol) (fn : P → (ι → ℝ) → ℝ × A) (hfn : Continuous fun q : P × (ι → ℝ) => (fn q.1 q.2).1)
    (grad : P → (ι → ℝ) → ι → ℝ) (hgrad : Continuous fun q : P × (ι → ℝ) => grad q.1 q.2) (y0 : P → ι → ℝ) (hy : Continuous y0)
    (aux0 : A) (ms : Option ℕ) (throw : Bool) (p0 : P) (sol)
    (h : iterativeSolve (gdSolver rate rtol atol nY nF (grad p0) aux0) (fun _ => true) (fn p0) aux0 (y0 p0) ms throw = some (.ok sol))
    (hs : sol.result = .successful)
    (hties : ∀ k, k + 2 < sol.numSteps →
      let Y := fun k => (fun y i => y i - rate * grad p0 y i)^[k] (y0 p0)
      nY (fun i => |Y (k + 1) i - Y k i| / (atol + rtol * |Y (k + 1) i|)) ≠ 1 ∧
      nF (fun _ => |(fn p0 (Y (k + 1))).1 - (fn p0 (Y k)).1| / (atol + rtol * |(fn p0 (Y (k + 1))).1|)) ≠ 1)
    (U : Set (ι → ℝ)) (hU : U ∈ 𝓝 sol.value) :
    ∀ᶠ p in 𝓝 p0, ∃ sol', iterativeSolve (gdSolver rate rtol atol nY nF (grad p) aux0) (fun _ => true) (fn p) aux0 (y0 p) ms throw =
        some (.ok sol') ∧
      sol'.result = .successful ∧ sol'.numSteps = sol.numSteps ∧ sol'.value ∈ U := by
  let Y : P → ℕ → ι → ℝ := fun p k => (gdMap rate (grad p))^[k] (y0 p)
  have hY : ∀ k, Continuous fun p => Y p k := fun k => iterates_continuous (T := fun p => gdMap rate (grad p))
    (continuous_pi fun i => ((continuous_apply i).comp continuous_snd).sub
      (continuous_const.mul ((continuous_apply i).comp hgrad))) hy k
  have hF : ∀ k, Continuous fun p => (fn p (Y p k)).1 := fun k => hfn.comp (continuous_id.prodMk (hY k))
  let E : P → ℕ → ℝ := fun p k => nY fun i => |Y p (k + 1) i - Y p k i| / (atol + rtol * |Y p (k + 1) i|)
  let D : P → ℕ → ℝ := fun p k => nF fun _ => |(fn p (Y p (k + 1))).1 - (fn p (Y p k)).1| / (atol + rtol * |(fn p (Y p (k + 1))).1|)
  have hE : ∀ k, Continuous fun p => E p k := fun k => scaled_continuous (u := fun p i => |Y p (k + 1) i - Y p k i|) hnY ha hr
    (continuous_pi fun i => (((continuous_apply i).comp (hY (k + 1))).sub ((continuous_apply i).comp (hY k))).abs) (hY (k + 1))
  have hD : ∀ k, Continuous fun p => D p k := fun k => scaled_continuous (κ := Unit)
    (u := fun p _ => |(fn p (Y p (k + 1))).1 - (fn p (Y p k)).1|) (v := fun p _ => (fn p (Y p (k + 1))).1) hnF ha hr
    (continuous_pi fun _ => ((hF (k + 1)).sub (hF k)).abs) (continuous_pi fun _ => hF (k + 1))
  -- solves in terms of the tests
  have hinit : ∀ p, ∃ st0, (gdSolver rate rtol atol nY nF (grad p) aux0).init (fn p) (y0 p) = .ok st0 := fun p => ⟨_, rfl⟩
  have hcert : ∀ p s, iterativeSolve (gdSolver rate rtol atol nY nF (grad p) aux0) (fun _ => true) (fn p) aux0 (y0 p) ms throw =
      some (.ok s) → s.result = .successful → ∃ n, s.numSteps = n + 2 ∧ s.value = Y p (n + 1) ∧ (E p n < 1 ∧ D p n < 1) ∧
        ∀ k, k < n → ¬(E p k < 1 ∧ D p k < 1) := by
    intro p s hsol hres
    obtain ⟨st0, k, hi, hk, hnum, hv, _⟩ := C58_gradient_family _ (fun _ _ _ _ _ => rfl) aux0 (fn p) _ (y0 p) ms throw s hsol hres
    obtain ⟨n, rfl⟩ : ∃ j, k = j + 1 := ⟨k - 1, by omega⟩
    obtain ⟨_, _, st1, hi1, hst, _⟩ := C01_step_budget _ _ _ _ _ _ _ _ hsol
    obtain ⟨st2, hi2, hterm, hbefore, _⟩ := C02_success_is_certificate _ _ _ _ _ _ _ _ hsol hres
    have e1 : st1 = st0 := by
      have := hi1.symm.trans hi; cases this; rfl
    have e2 : st2 = st0 := by
      have := hi2.symm.trans hi; cases this; rfl
    subst e1 e2
    have ht : s.state.terminate = true := congrArg Prod.fst hterm
    rw [hst, hnum] at ht
    refine ⟨n, hnum, hv.trans (gd_state rate rtol atol nY nF (grad p) aux0 (fn p) (y0 p) _ hi n).2.1,
      (gd_terminate_iff rate rtol atol nY nF (grad p) aux0 (fn p) (y0 p) _ hi n).1 ht, fun k hk hlt => ?_⟩
    have h1 := (gd_terminate_iff rate rtol atol nY nF (grad p) aux0 (fn p) (y0 p) _ hi k).2 hlt
    have h2 : (stateAt (gdSolver rate rtol atol nY nF (grad p) aux0) (fn p) aux0 (y0 p) _ (k + 2)).terminate = false :=
      congrArg Prod.fst (hbefore (k + 2) (by omega))
    rw [h1] at h2
    cases h2
  obtain ⟨n, hnum, hv, hc, hbefore⟩ := hcert p0 sol h hs
  rw [hv] at hU
  have hgt : ∀ k, k < n → 1 < E p0 k ∨ 1 < D p0 k := by
    intro k hk
    have h1 := hbefore k hk
    have h2 := hties k (by omega)
    rw [not_and_or, not_lt, not_lt] at h1
    exact h1.imp (fun h => lt_of_le_of_ne h (Ne.symm h2.1)) (fun h => lt_of_le_of_ne h (Ne.symm h2.2))
  have hev1 : ∀ᶠ p in 𝓝 p0, ∀ k ∈ Finset.range n, 1 < E p k ∨ 1 < D p k := by
    refine (Finset.eventually_all _).2 fun k hk => ?_
    rcases hgt k (Finset.mem_range.1 hk) with hlt | hlt
    · exact ((hE k).continuousAt.eventually (lt_mem_nhds hlt)).mono fun p hp => Or.inl hp
    · exact ((hD k).continuousAt.eventually (lt_mem_nhds hlt)).mono fun p hp => Or.inr hp
  have hev2 : ∀ᶠ p in 𝓝 p0, E p n < 1 := (hE n).continuousAt.eventually (gt_mem_nhds hc.1)
  have hev2' : ∀ᶠ p in 𝓝 p0, D p n < 1 := (hD n).continuousAt.eventually (gt_mem_nhds hc.2)
  have hev3 : ∀ᶠ p in 𝓝 p0, Y p (n + 1) ∈ U := (hY (n + 1)).continuousAt.eventually hU
  filter_upwards [hev1, hev2, hev2', hev3] with p h1 h2 h2' h3
  have hb := (C01_step_budget _ _ _ _ _ _ _ _ h).1
  obtain ⟨st0, hi⟩ := hinit p
  obtain ⟨sol', hsol, hres, hle, _⟩ := solve_succeeds_by (gdSolver rate rtol atol nY nF (grad p) aux0) (fun _ => true) (fn p) aux0 (y0 p)
    st0 hi ms throw (n + 2) (fun j _ => rfl)
    (by
      intro j _
      obtain _ | j := j
      · cases hi; rfl
      · exact (gd_state rate rtol atol nY nF (grad p) aux0 (fn p) (y0 p) st0 hi j).2.2.2.1)
    ((gd_terminate_iff rate rtol atol nY nF (grad p) aux0 (fn p) (y0 p) st0 hi n).2 ⟨h2, h2'⟩) (fun m hm => hnum ▸ hb m hm)
  obtain ⟨n', hnum', hv', hc', _⟩ := hcert p sol' hsol hres
  have hnn : n' = n := by
    by_contra hne
    rcases h1 n' (Finset.mem_range.2 (by omega)) with hlt | hlt
    · linarith [hc'.1]
    · linarith [hc'.2]
  refine ⟨sol', hsol, hres, by omega, ?_⟩
  rw [hv', hnn]
  exact h3

/-! ### Ties -/

/-- Halving with `atol = 1`: what a solve does. -/
theorem halving_solve (y0 : ℝ) (k : ℕ) (hk : |y0| < 2 ^ (k + 1)) (hk' : ∀ j, j < k → (2:ℝ) ^ (j + 1) ≤ |y0|) :
    ∃ sol, iterativeSolve (FixedPointIter.solver { rtol := 0, atol := 1, norm := maxNorm, damp := 0 }) (fun _ => true)
      (fun (y : Unit → ℝ) => (fun i => y i / 2, ())) () (fun _ => y0) none true = some (.ok sol) ∧ sol.result = .successful ∧
      sol.numSteps = k + 1 ∧ sol.value () = y0 / 2 ^ (k + 1) := by
  set cfg : FixedPointIter.Cfg Unit ℝ := { rtol := 0, atol := 1, norm := maxNorm, damp := 0 } with hcfg
  set fn : (Unit → ℝ) → (Unit → ℝ) × Unit := fun y => (fun i => y i / 2, ()) with hfn
  have hY : ∀ j, (dampedMap cfg.damp fun z => (fn z).1)^[j] (fun _ => y0) = fun _ => y0 / 2 ^ j := by
    intro j
    induction j with
    | zero => funext i; simp
    | succ j ih =>
      rw [Function.iterate_succ_apply', ih]
      funext i
      simp only [dampedMap, hcfg, hfn, pow_succ]
      field_simp
      ring
  have hE : ∀ j, cfg.norm (fun i : Unit => (y0 / 2 ^ j - y0 / 2 ^ (j + 1)) / (cfg.atol + cfg.rtol * |y0 / 2 ^ (j + 1)|)) < 1 ↔
      |y0| < 2 ^ (j + 1) := by
    intro j
    have e : y0 / 2 ^ j - y0 / 2 ^ (j + 1) = y0 / 2 ^ (j + 1) := by rw [pow_succ]; field_simp; ring
    have e2 : |y0 / 2 ^ (j + 1)| = |y0| / 2 ^ (j + 1) := by rw [abs_div, abs_of_pos (by positivity : (0:ℝ) < 2 ^ (j + 1))]
    show maxNorm (fun i : Unit => (y0 / 2 ^ j - y0 / 2 ^ (j + 1)) / (1 + 0 * |y0 / 2 ^ (j + 1)|)) < 1 ↔ _
    rw [maxNorm_lt_iff]
    simp only [e, zero_mul, add_zero, div_one, e2, zero_lt_one, true_and]
    rw [← div_lt_one (by positivity : (0:ℝ) < 2 ^ (j + 1))]
    exact ⟨fun h => h (), fun h _ => h⟩
  obtain ⟨sol, hsol, hres, hle⟩ := fp_succeeds cfg fn () (fun _ => y0) none true k
    (by rw [fp_iterate_eq, fp_iterate_eq, hY, hY]; exact (hE k).2 hk) (fun n hn => by cases hn)
  obtain ⟨n, hnum, hv, _, hc⟩ := C20_success_certificate cfg fn () (fun _ => y0) _ none true sol hsol hres
  have hvY : sol.value = fun _ => y0 / 2 ^ (n + 1) := by
    rw [hv, ← hY (n + 1), Function.iterate_succ_apply']; rfl
  rw [hvY, hY n] at hc
  have hlt := (hE n).1 hc
  have hnk : n = k := by
    by_contra hne
    exact absurd hlt (not_lt.2 (hk' n (by omega)))
  exact ⟨sol, hsol, hres, by omega, by rw [hvY, hnk]⟩

/-- The hypothesis on ties cannot be dropped: halving with `atol = 1`, started at `2`, where the first test is a tie, has the answer
`1/2`; started anywhere closer to zero it stops one step earlier, with answers that tend to `1`. -/
theorem C157_ties_jump :
    let solve := fun y0 : ℝ => iterativeSolve (FixedPointIter.solver { rtol := 0, atol := 1, norm := maxNorm, damp := 0 }) (fun _ => true)
      (fun (y : Unit → ℝ) => (fun i => y i / 2, ())) () (fun _ => y0) none true
    (∃ sol, solve 2 = some (.ok sol) ∧ sol.result = .successful ∧ sol.numSteps = 2 ∧ sol.value () = 1 / 2) ∧
    ∀ y0, 0 < y0 → y0 < 2 → ∃ sol, solve y0 = some (.ok sol) ∧ sol.result = .successful ∧ sol.numSteps = 1 ∧ sol.value () = y0 / 2 := by
  intro solve
  refine ⟨?_, fun y0 h0 h2 => ?_⟩
  · obtain ⟨sol, h1, h2, h3, h4⟩ := halving_solve 2 1 (by norm_num) (fun j hj => by
      obtain rfl : j = 0 := by omega
      norm_num)
    exact ⟨sol, h1, h2, h3, by rw [h4]; norm_num⟩
  · obtain ⟨sol, h1, h2, h3, h4⟩ := halving_solve y0 0 (by rw [abs_of_pos h0]; norm_num; exact h2) (fun j hj => by omega)
    exact ⟨sol, h1, h2, h3, by rw [h4]; norm_num⟩

/-! ### The hypotheses are met -/

/-- Halving, started at `3`: two steps, without ties, so that all solves started near `3` take two steps. -/
example : ∀ᶠ y0 : ℝ in 𝓝 3, ∃ sol, iterativeSolve (FixedPointIter.solver { rtol := 0, atol := 1, norm := maxNorm, damp := 0 })
    (fun _ => true) (fun (y : Unit → ℝ) => (fun i => y i / 2, ())) () (fun _ => y0) none true = some (.ok sol) ∧
      sol.result = .successful ∧ sol.numSteps = 2 ∧ sol.value ∈ {v : Unit → ℝ | |v () - 3 / 4| < 1 / 100} := by
  obtain ⟨sol, h1, h2, h3, h4⟩ := halving_solve 3 1 (by norm_num) (fun j hj => by
      obtain rfl : j = 0 := by omega
      norm_num)
  have := C157_fixed_point (P := ℝ) { rtol := 0, atol := 1, norm := maxNorm, damp := 0 } maxNorm_continuous one_pos le_rfl
    (fun _ (y : Unit → ℝ) => (fun i => y i / 2, ())) (continuous_pi fun i => ((continuous_apply i).comp continuous_snd).div_const 2)
    (fun y0 _ => y0) (continuous_pi fun _ => continuous_id) () none true 3 sol h1 h2 (by
      intro k hk Y heq
      obtain rfl : k = 0 := by omega
      have e : (fun i : Unit => (Y 0 i - Y (0 + 1) i) / (1 + 0 * |Y (0 + 1) i|)) = fun _ => (3 / 2 : ℝ) := by
        funext i; simp [Y]; norm_num
      have h5 := (maxNorm_le_iff (fun _ : Unit => (3 / 2 : ℝ)) 1).1 (by rw [← e]; exact heq.le)
      have := h5.2 ()
      rw [abs_of_pos (by norm_num)] at this
      norm_num at this) {v | |v () - 3 / 4| < 1 / 100} (by
      refine IsOpen.mem_nhds (isOpen_lt ((continuous_apply ()).sub continuous_const).abs continuous_const) ?_
      show |sol.value () - 3 / 4| < 1 / 100
      rw [h4]; norm_num)
  rw [h3] at this
  exact this

end Verif.Props
