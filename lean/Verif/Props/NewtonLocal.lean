import Verif.Props.NewtonChord
import Verif.Lemmas.Norms
import Mathlib.Analysis.Calculus.ContDiff.Basic
import Mathlib.Analysis.Calculus.ContDiff.RCLike
import Mathlib.Analysis.Calculus.ContDiff.Comp
import Mathlib.Analysis.Calculus.MeanValue
import Mathlib.Analysis.Calculus.Deriv.Pow
import Mathlib.Analysis.Calculus.ContDiff.Operations
import Mathlib.Analysis.Normed.Operator.NormedSpace
import Mathlib.Analysis.SpecificLimits.Basic

/-! Local convergence of Newton's method and of the chord method. -/

namespace Verif.Props

open Verif.Spec Verif.Driver Verif.NewtonChord Filter Topology

/-- If no test up to index `k` reports a failure and the test of index `k` says "done", then the solve succeeds after at most
`k` steps. -/
theorem succeeds_by {Y Out Aux St Stats : Type} (S : Solver Y Out Aux St Stats) (fn : Y → Out × Aux) (aux0 : Aux) (y0 : Y)
    (st0 : St) (hi : S.init fn y0 = .ok st0) (k : Nat)
    (hres : ∀ j, j ≤ k → (S.terminate fn (iterateAt S fn aux0 y0 st0 (j - 1)) (stateAt S fn aux0 y0 st0 j)).2 = .successful)
    (hk : (S.terminate fn (iterateAt S fn aux0 y0 st0 (k - 1)) (stateAt S fn aux0 y0 st0 k)).1 = true)
    (ms : Option Nat) (throw : Bool) (hb : ∀ n, ms = some n → k ≤ n) :
    ∃ sol, iterativeSolve S (fun _ => true) fn aux0 y0 ms throw = some (.ok sol) ∧ sol.result = .successful ∧
      sol.numSteps ≤ k := by
  classical
  have hex : ∃ j, (S.terminate fn (iterateAt S fn aux0 y0 st0 (j - 1)) (stateAt S fn aux0 y0 st0 j)).1 = true := ⟨k, hk⟩
  have hle : Nat.find hex ≤ k := Nat.find_min' hex hk
  obtain ⟨sol, h1, h2, h3⟩ := C02_success_complete S (fun _ => true) fn aux0 y0 st0 hi ms throw (Nat.find hex)
    (fun j hj => ⟨rfl, Prod.ext (Bool.eq_false_iff.2 (Nat.find_min hex hj)) (hres j (hj.le.trans hle))⟩) rfl
    (Prod.ext (Nat.find_spec hex) (hres _ hle)) (fun n hn => hle.trans (hb n hn))
  exact ⟨sol, h1, h2, h3 ▸ hle⟩

variable {ι A : Type} [Fintype ι]

/-- Linear operators on the unknowns. -/
abbrev Op (ι : Type) [Fintype ι] := (ι → ℝ) →L[ℝ] (ι → ℝ)

theorem maxNorm_eq_norm (x : ι → ℝ) : maxNorm x = ‖x‖ := by
  apply le_antisymm
  · exact (maxNorm_le_iff x _).2 ⟨norm_nonneg _, fun i => norm_le_pi_norm x i⟩
  · exact (pi_norm_le_iff_of_nonneg ((maxNorm_le_iff x (maxNorm x)).1 le_rfl).1).2 fun i => abs_le_maxNorm x i

/-- The heart of the matter: close to a nondegenerate root, one step with a Jacobian taken close to the root reduces the error
by any given factor. -/
theorem newton_contracts (F : (ι → ℝ) → (ι → ℝ)) (r : ι → ℝ) (hr : F r = 0) (hF : ContDiffAt ℝ 1 F r)
    (hinv : (fderiv ℝ F r).IsInvertible) (c : ℝ) (hc : 0 < c) :
    ∃ δ > 0, ∀ y z : ι → ℝ, ‖y - r‖ ≤ δ → ‖z - r‖ ≤ δ → (fderiv ℝ F z).IsInvertible ∧
      ∀ d, fderiv ℝ F z d = F y → ‖y - d - r‖ ≤ c * ‖y - r‖ := by
  obtain ⟨e, he⟩ := hinv
  set K : ℝ := ‖(e.symm : Op ι)‖ + 1 with hK
  have hK0 : 0 < K := by positivity
  have hlow : ∀ x, ‖x‖ ≤ K * ‖fderiv ℝ F r x‖ := by
    intro x
    have h1 : x = (e.symm : Op ι) (fderiv ℝ F r x) := by rw [← he]; simp
    calc ‖x‖ = ‖(e.symm : Op ι) (fderiv ℝ F r x)‖ := by rw [← h1]
      _ ≤ ‖(e.symm : Op ι)‖ * ‖fderiv ℝ F r x‖ := ContinuousLinearMap.le_opNorm _ _
      _ ≤ K * ‖fderiv ℝ F r x‖ := mul_le_mul_of_nonneg_right (by rw [hK]; linarith) (norm_nonneg _)
  set ε : ℝ := min (1 / (2 * K)) (c / (4 * K)) with hε
  have hε0 : 0 < ε := by positivity
  have hε1 : K * ε ≤ 1 / 2 := by
    have : ε ≤ 1 / (2 * K) := min_le_left _ _
    calc K * ε ≤ K * (1 / (2 * K)) := mul_le_mul_of_nonneg_left this hK0.le
      _ = 1 / 2 := by field_simp
  have hε2 : 4 * (K * ε) ≤ c := by
    have : ε ≤ c / (4 * K) := min_le_right _ _
    calc 4 * (K * ε) ≤ 4 * (K * (c / (4 * K))) := by gcongr
      _ = c := by field_simp
  have hd : HasFDerivAt F (fderiv ℝ F r) r := (hF.differentiableAt (by norm_num)).hasFDerivAt
  have e1 : ∀ᶠ y in 𝓝 r, ‖F y - fderiv ℝ F r (y - r)‖ ≤ ε * ‖y - r‖ := by
    have := hd.isLittleO.def hε0
    filter_upwards [this] with y hy
    simpa [hr] using hy
  have hcont : ContinuousAt (fderiv ℝ F) r := (hF.fderiv_right (m := 0) (by norm_num)).continuousAt
  have e2 : ∀ᶠ z in 𝓝 r, ‖fderiv ℝ F z - fderiv ℝ F r‖ < ε := by
    have := hcont (Metric.ball_mem_nhds _ hε0)
    filter_upwards [this] with z hz
    simpa [dist_eq_norm] using hz
  have e3 : ∀ᶠ z in 𝓝 r, (fderiv ℝ F z).IsInvertible := by
    have h1 : Set.range ((↑) : ((ι → ℝ) ≃L[ℝ] (ι → ℝ)) → Op ι) ∈ 𝓝 (fderiv ℝ F r) := by
      rw [← he]; exact e.nhds
    filter_upwards [hcont h1] with z hz
    obtain ⟨e', he'⟩ := hz
    exact ⟨e', he'⟩
  obtain ⟨δ, hδ, hball⟩ := Metric.eventually_nhds_iff.1 (e1.and (e2.and e3))
  refine ⟨δ / 2, by positivity, fun y z hy hz => ?_⟩
  obtain ⟨a1, _⟩ := hball (y := y) (by rw [dist_eq_norm]; linarith)
  obtain ⟨_, a2, a3⟩ := hball (y := z) (by rw [dist_eq_norm]; linarith)
  refine ⟨a3, fun d hdd => ?_⟩
  set x := y - d - r with hx
  have hBx : fderiv ℝ F z x = fderiv ℝ F z (y - r) - F y := by
    rw [← hdd, ← map_sub]; congr 1; rw [hx]; abel
  have h1 : ‖fderiv ℝ F z x‖ ≤ 2 * ε * ‖y - r‖ := by
    have : fderiv ℝ F z x = (fderiv ℝ F z - fderiv ℝ F r) (y - r) - (F y - fderiv ℝ F r (y - r)) := by
      rw [hBx, _root_.sub_apply]; abel
    rw [this]
    have b1 : ‖(fderiv ℝ F z - fderiv ℝ F r) (y - r)‖ ≤ ε * ‖y - r‖ :=
      (ContinuousLinearMap.le_opNorm _ _).trans (mul_le_mul_of_nonneg_right a2.le (norm_nonneg _))
    linarith [norm_sub_le ((fderiv ℝ F z - fderiv ℝ F r) (y - r)) (F y - fderiv ℝ F r (y - r))]
  have h2 : ‖fderiv ℝ F r x‖ ≤ 2 * ε * ‖y - r‖ + ε * ‖x‖ := by
    have : fderiv ℝ F r x = fderiv ℝ F z x - (fderiv ℝ F z - fderiv ℝ F r) x := by
      rw [_root_.sub_apply]; abel
    rw [this]
    have b1 : ‖(fderiv ℝ F z - fderiv ℝ F r) x‖ ≤ ε * ‖x‖ :=
      (ContinuousLinearMap.le_opNorm _ _).trans (mul_le_mul_of_nonneg_right a2.le (norm_nonneg _))
    linarith [norm_sub_le (fderiv ℝ F z x) ((fderiv ℝ F z - fderiv ℝ F r) x)]
  have h3 : ‖x‖ ≤ K * (2 * ε * ‖y - r‖ + ε * ‖x‖) := (hlow x).trans (mul_le_mul_of_nonneg_left h2 hK0.le)
  have h4 : K * ε * ‖x‖ ≤ 1 / 2 * ‖x‖ := mul_le_mul_of_nonneg_right hε1 (norm_nonneg _)
  have h5 : 4 * (K * ε) * ‖y - r‖ ≤ c * ‖y - r‖ := mul_le_mul_of_nonneg_right hε2 (norm_nonneg _)
  nlinarith


/-- Clipping to bounds that contain `r` brings a point no further from `r`. -/
theorem clip_closer (lower upper : Option (ι → ℝ)) (r x : ι → ℝ) (hl : ∀ l, lower = some l → ∀ i, l i ≤ r i)
    (hu : ∀ u, upper = some u → ∀ i, r i ≤ u i) : ‖clipBounds lower upper x - r‖ ≤ ‖x - r‖ := by
  refine (pi_norm_le_iff_of_nonneg (norm_nonneg _)).2 fun i => le_trans ?_ (norm_le_pi_norm (x - r) i)
  have step1 : ∀ a : ℝ, (∀ l, lower = some l → |(if a < l i then l i else a) - r i| ≤ |a - r i|) := by
    intro a l h
    have := hl l h i
    split_ifs with h1
    · rw [abs_of_nonpos (by linarith), abs_of_nonpos (by linarith)]; linarith
    · exact le_rfl
  have step2 : ∀ a : ℝ, (∀ u, upper = some u → |(if u i < a then u i else a) - r i| ≤ |a - r i|) := by
    intro a u h
    have := hu u h i
    split_ifs with h1
    · rw [abs_of_nonneg (by linarith), abs_of_nonneg (by linarith)]; linarith
    · exact le_rfl
  show |clipBounds lower upper x i - r i| ≤ |x i - r i|
  cases hlo : lower with
  | none =>
    cases hup : upper with
    | none => exact le_rfl
    | some u => exact step2 _ u hup
  | some l =>
    cases hup : upper with
    | none => exact step1 _ l hlo
    | some u => exact (step2 _ u hup).trans (step1 _ l hlo)

section run

variable (cfg : Cfg ι ι ℝ (Op ι)) (fn : (ι → ℝ) → (ι → ℝ) × A) (aux0 : A) (y0 : ι → ℝ)

/-- The `k`-th iterate of the run. -/
local notation "Y" => iterateAt (solver cfg) fn aux0 y0 (init cfg y0)

/-- The point at which the Jacobian of the `k`-th step is taken. -/
noncomputable def jacPoint (k : Nat) : ι → ℝ := if cfg.isNewton then Y k else y0

theorem newton_linSol (k : Nat) :
    linSol cfg (Y k) (fn (Y k)).1 (stateAt (solver cfg) fn aux0 y0 (init cfg y0) k) =
      cfg.linearSolve (cfg.jac (jacPoint cfg fn aux0 y0 k)) (fn (Y k)).1 := by
  have hls : ∀ j, (stateAt (solver cfg) fn aux0 y0 (init cfg y0) j).linearState =
      if cfg.isNewton then none else some (cfg.jac y0) := by
    intro j
    induction j with
    | zero => rfl
    | succ j ih => exact ih
  unfold linSol jacPoint
  rw [hls]
  cases cfg.isNewton <;> rfl

theorem newton_iterate (k : Nat) :
    Y (k + 1) = clipBounds cfg.lower cfg.upper
      (fun i => Y k i - (cfg.linearSolve (cfg.jac (jacPoint cfg fn aux0 y0 k)) (fn (Y k)).1).1 i) := by
  rw [← newton_linSol]; rfl

theorem newton_stateAt (k : Nat) :
    stateAt (solver cfg) fn aux0 y0 (init cfg y0) (k + 1) =
      (step cfg fn (Y k) (stateAt (solver cfg) fn aux0 y0 (init cfg y0) k)).2.1 := rfl

end run

/-- The linear solver solves every invertible system, and says so. -/
def SolvesInvertible (solve : Op ι → (ι → ℝ) → (ι → ℝ) × Result) : Prop :=
  ∀ J : Op ι, J.IsInvertible → ∀ b, J (solve J b).1 = b ∧ (solve J b).2 = .successful

/-- The setting of the local convergence theorems: `r` is a nondegenerate root, inside the bounds if there are any, JAX
computes the derivative, linear solves are exact. -/
structure LocalSetting (cfg : Cfg ι ι ℝ (Op ι)) (F : (ι → ℝ) → (ι → ℝ)) (r : ι → ℝ) : Prop where
  root : F r = 0
  smooth : ContDiffAt ℝ 1 F r
  nondegenerate : (fderiv ℝ F r).IsInvertible
  jacobian : ∀ y, cfg.jac y = fderiv ℝ F y
  solves : SolvesInvertible cfg.linearSolve
  aboveLower : ∀ l, cfg.lower = some l → ∀ i, l i ≤ r i
  belowUpper : ∀ u, cfg.upper = some u → ∀ i, r i ≤ u i

/-- One run from a nearby point. -/
theorem newton_run (cfg : Cfg ι ι ℝ (Op ι)) (fn : (ι → ℝ) → (ι → ℝ) × A) (aux0 : A) (r : ι → ℝ)
    (hs : LocalSetting cfg (fun y => (fn y).1) r) (c : ℝ) (hc : 0 < c) (hc1 : c < 1) :
    ∃ δ > 0, ∀ y0 : ι → ℝ, ‖y0 - r‖ ≤ δ → ∀ k,
      let Y := iterateAt (solver cfg) fn aux0 y0 (init cfg y0)
      let d := (cfg.linearSolve (cfg.jac (jacPoint cfg fn aux0 y0 k)) (fn (Y k)).1)
      ‖Y k - r‖ ≤ δ ∧ d.2 = .successful ∧ ‖Y k - d.1 - r‖ ≤ c * ‖Y k - r‖ ∧ ‖Y (k + 1) - r‖ ≤ c * ‖Y k - r‖ := by
  obtain ⟨δ, hδ, hcon⟩ := newton_contracts (fun y => (fn y).1) r hs.root hs.smooth hs.nondegenerate c hc
  refine ⟨δ, hδ, fun y0 hy0 => ?_⟩
  have one : ∀ k, ‖iterateAt (solver cfg) fn aux0 y0 (init cfg y0) k - r‖ ≤ δ →
      (cfg.linearSolve (cfg.jac (jacPoint cfg fn aux0 y0 k)) (fn (iterateAt (solver cfg) fn aux0 y0 (init cfg y0) k)).1).2 =
        .successful ∧
      ‖iterateAt (solver cfg) fn aux0 y0 (init cfg y0) k - (cfg.linearSolve (cfg.jac (jacPoint cfg fn aux0 y0 k))
        (fn (iterateAt (solver cfg) fn aux0 y0 (init cfg y0) k)).1).1 - r‖ ≤
          c * ‖iterateAt (solver cfg) fn aux0 y0 (init cfg y0) k - r‖ ∧
      ‖iterateAt (solver cfg) fn aux0 y0 (init cfg y0) (k + 1) - r‖ ≤
        c * ‖iterateAt (solver cfg) fn aux0 y0 (init cfg y0) k - r‖ := by
    intro k hk
    have hz : ‖jacPoint cfg fn aux0 y0 k - r‖ ≤ δ := by
      unfold jacPoint; split_ifs
      · exact hk
      · exact hy0
    obtain ⟨hinv, hd⟩ := hcon _ _ hk hz
    rw [← hs.jacobian] at hinv
    obtain ⟨h1, h2⟩ := hs.solves _ hinv (fn (iterateAt (solver cfg) fn aux0 y0 (init cfg y0) k)).1
    have h3 := hd _ (by rw [← hs.jacobian]; exact h1)
    refine ⟨h2, h3, ?_⟩
    rw [newton_iterate]
    exact (clip_closer _ _ _ _ hs.aboveLower hs.belowUpper).trans h3
  have all : ∀ k, ‖iterateAt (solver cfg) fn aux0 y0 (init cfg y0) k - r‖ ≤ δ := by
    intro k
    induction k with
    | zero => exact hy0
    | succ k ih =>
      refine (one k ih).2.2.trans ((mul_le_of_le_one_left (norm_nonneg _) hc1.le).trans ih)
  exact fun k => ⟨all k, one k (all k)⟩


/-- Sizes of scaled updates. -/
theorem scaled_size (atol rtol M : ℝ) (ha : 0 < atol) (hr : 0 ≤ rtol) (x y : ι → ℝ) (hM : ∀ i, atol + rtol * |y i| ≤ M) :
    ‖x‖ / M ≤ ‖fun i => x i / (atol + rtol * |y i|)‖ ∧ ‖fun i => x i / (atol + rtol * |y i|)‖ ≤ ‖x‖ / atol := by
  have hs : ∀ i, atol ≤ atol + rtol * |y i| := fun i => le_add_of_nonneg_right (mul_nonneg hr (abs_nonneg _))
  constructor
  · rcases isEmpty_or_nonempty ι with h | ⟨⟨i0⟩⟩
    · rw [show x = 0 from Subsingleton.elim _ _]; simp
    have hM0 : 0 < M := ha.trans_le ((hs i0).trans (hM i0))
    rw [div_le_iff₀ hM0]
    refine (pi_norm_le_iff_of_nonneg (by positivity)).2 fun i => ?_
    have h1 := norm_le_pi_norm (fun i => x i / (atol + rtol * |y i|)) i
    have h2 : 0 < atol + rtol * |y i| := ha.trans_le (hs i)
    rw [norm_div, Real.norm_of_nonneg h2.le, div_le_iff₀ h2] at h1
    exact h1.trans (mul_le_mul_of_nonneg_left (hM i) (norm_nonneg _))
  · refine (pi_norm_le_iff_of_nonneg (by positivity)).2 fun i => ?_
    have h2 : 0 < atol + rtol * |y i| := ha.trans_le (hs i)
    rw [norm_div, Real.norm_of_nonneg h2.le]
    exact div_le_div₀ (norm_nonneg _) (norm_le_pi_norm x i) ha (hs i)

/-- **C61.** `root_find` with `Newton` or `Chord` converges from every starting point close enough to a nondegenerate root: given
any factor `c`, there is a neighbourhood of the root from which every step reduces the error by the factor `c`, and the solve
reports success, with any budget from some number of steps on or none.  With either kind of termination test, with or without
bounds around the root. -/
theorem C61_local_convergence (cfg : Cfg ι ι ℝ (Op ι)) (fn : (ι → ℝ) → (ι → ℝ) × A) (aux0 : A) (r : ι → ℝ)
    (hs : LocalSetting cfg (fun y => (fn y).1) r) (hnY : cfg.normY = maxNorm) (hnF : cfg.normF = maxNorm)
    (hat : 0 < cfg.atol) (hrt : 0 ≤ cfg.rtol) (hreso : 0 < cfg.resolution) (hfin : ∀ x, cfg.isfinite x = true)
    (c : ℝ) (hc : 0 < c) (hc1 : c < 1) :
    ∃ δ > 0, ∀ y0 : ι → ℝ, ‖y0 - r‖ ≤ δ →
      (∀ k, ‖iterateAt (solver cfg) fn aux0 y0 (init cfg y0) (k + 1) - r‖ ≤
        c * ‖iterateAt (solver cfg) fn aux0 y0 (init cfg y0) k - r‖) ∧
      Tendsto (iterateAt (solver cfg) fn aux0 y0 (init cfg y0)) atTop (𝓝 r) ∧
      ∃ n, ∀ ms throw, (∀ m, ms = some m → n ≤ m) →
        ∃ sol, iterativeSolve (solver cfg) (fun _ => true) fn aux0 y0 ms throw = some (.ok sol) ∧
          sol.result = .successful ∧ sol.numSteps ≤ n := by
  set M : ℝ := cfg.atol + cfg.rtol * (‖r‖ + 1) with hM
  have hM0 : 0 < M := by positivity
  set c' : ℝ := min c (min (1 / 2) (cfg.atol / (3 * M))) with hc'
  have hc'0 : 0 < c' := by positivity
  have hc'c : c' ≤ c := min_le_left _ _
  have hc'h : c' ≤ 1 / 2 := (min_le_right _ _).trans (min_le_left _ _)
  have hc'M : 3 * c' * M ≤ cfg.atol := by
    have : c' ≤ cfg.atol / (3 * M) := (min_le_right _ _).trans (min_le_right _ _)
    rw [le_div_iff₀ (by positivity)] at this
    linarith
  obtain ⟨δ, hδ, hrun⟩ := newton_run cfg fn aux0 r hs c' hc'0 (hc'c.trans_lt hc1)
  refine ⟨min δ 1, by positivity, fun y0 hy0 => ?_⟩
  have hrun := hrun y0 (hy0.trans (min_le_left _ _))
  set Y := iterateAt (solver cfg) fn aux0 y0 (init cfg y0) with hY
  set S := stateAt (solver cfg) fn aux0 y0 (init cfg y0) with hS
  have hle : ∀ k, ‖Y k - r‖ ≤ c' ^ k := by
    intro k
    induction k with
    | zero => rw [pow_zero]; exact hy0.trans (min_le_right _ _)
    | succ k ih =>
      rw [pow_succ']
      exact (hrun k).2.2.2.trans (mul_le_mul_of_nonneg_left ih hc'0.le)
  have hle1 : ∀ k, ‖Y k - r‖ ≤ 1 := fun k => (hle k).trans (pow_le_one₀ hc'0.le (hc'c.trans hc1.le))
  have hpow : Tendsto (fun k => c' ^ k) atTop (𝓝 0) :=
    tendsto_pow_atTop_nhds_zero_of_lt_one hc'0.le (hc'c.trans_lt hc1)
  have hlim : Tendsto Y atTop (𝓝 r) :=
    tendsto_iff_norm_sub_tendsto_zero.2 (squeeze_zero (fun _ => norm_nonneg _) hle hpow)
  have hsc : ∀ k i, cfg.atol + cfg.rtol * |Y k i| ≤ M := by
    intro k i
    have h1 : |Y k i| ≤ ‖Y k‖ := norm_le_pi_norm (Y k) i
    have h2 : ‖Y k‖ ≤ ‖r‖ + 1 := by
      have := norm_add_le (Y k - r) r
      rw [sub_add_cancel] at this
      linarith [hle1 k]
    rw [hM]
    exact add_le_add_right (mul_le_mul_of_nonneg_left (h1.trans h2) hrt) _
  have hstep : ∀ k, (S k).step = k := by
    intro k
    induction k with
    | zero => rfl
    | succ k ih => show (S k).step + 1 = k + 1; rw [ih]
  have hresult : ∀ k, (S k).result = .successful := by
    intro k
    cases k with
    | zero => rfl
    | succ k =>
      have : (S (k + 1)).result = (linSol cfg (Y k) (fn (Y k)).1 (S k)).2 := rfl
      rw [this, hS, hY, newton_linSol]
      exact (hrun k).2.1
  have hdiff : ∀ k, ‖Y k - (S (k + 1)).diff - r‖ ≤ c' * ‖Y k - r‖ := by
    intro k
    have : (S (k + 1)).diff = if cfg.lower.isSome || cfg.upper.isSome then (fun i => Y k i - Y (k + 1) i)
        else (linSol cfg (Y k) (fn (Y k)).1 (S k)).1 := rfl
    rw [this]
    split_ifs
    · have e : Y k - (fun i => Y k i - Y (k + 1) i) - r = Y (k + 1) - r := by
        funext i; simp
      rw [e]; exact (hrun k).2.2.2
    · rw [hS, hY, newton_linSol]; exact (hrun k).2.2.1
  have hd1 : ∀ k, ‖(S (k + 1)).diff‖ ≤ 3 / 2 * ‖Y k - r‖ := by
    intro k
    have h1 := norm_sub_le (Y k - r) (Y k - (S (k + 1)).diff - r)
    have e : Y k - r - (Y k - (S (k + 1)).diff - r) = (S (k + 1)).diff := by abel
    rw [e] at h1
    have := mul_le_mul_of_nonneg_right hc'h (norm_nonneg (Y k - r))
    linarith [hdiff k]
  have hd2 : ∀ k, ‖Y k - r‖ ≤ 2 * ‖(S (k + 1)).diff‖ := by
    intro k
    have h1 := norm_add_le (Y k - (S (k + 1)).diff - r) (S (k + 1)).diff
    have e : Y k - (S (k + 1)).diff - r + (S (k + 1)).diff = Y k - r := by abel
    rw [e] at h1
    have := mul_le_mul_of_nonneg_right hc'h (norm_nonneg (Y k - r))
    linarith [hdiff k]
  have hd3 : ∀ k, ‖(S (k + 2)).diff‖ ≤ 3 * c' * ‖(S (k + 1)).diff‖ := by
    intro k
    have a1 := hd1 (k + 1)
    have a2 := (hrun k).2.2.2
    have a3 := mul_le_mul_of_nonneg_left (hd2 k) hc'0.le
    linarith
  have hsize : ∀ k, (S (k + 1)).diffsize = ‖fun i => (S (k + 1)).diff i / (cfg.atol + cfg.rtol * |Y (k + 1) i|)‖ := by
    intro k
    have : (S (k + 1)).diffsize = cfg.normY fun i => (S (k + 1)).diff i / (cfg.atol + cfg.rtol * |Y (k + 1) i|) := rfl
    rw [this, hnY, maxNorm_eq_norm]
  have hprev : ∀ k, (S (k + 1)).diffsizePrev = (S k).diffsize := fun k => rfl
  have hrate : ∀ k, (S (k + 2)).diffsize / (S (k + 2)).diffsizePrev ≤ 1 := by
    intro k
    rw [hprev]
    refine div_le_one_of_le₀ ?_ (by rw [hsize]; exact norm_nonneg _)
    rw [hsize, hsize]
    refine ((scaled_size cfg.atol cfg.rtol M hat hrt _ _ (hsc _)).2.trans ?_).trans
      (scaled_size cfg.atol cfg.rtol M hat hrt _ _ (hsc _)).1
    rw [div_le_div_iff₀ hat hM0]
    have b1 := mul_le_mul_of_nonneg_right (hd3 k) hM0.le
    have b2 := mul_le_mul_of_nonneg_left hc'M (norm_nonneg (S (k + 1)).diff)
    linarith
  have hterm : ∀ j, (terminate cfg (Y (j - 1)) (S j)).2 = .successful := by
    intro j
    unfold terminate
    simp only [hresult, ne_eq, not_true_eq_false, decide_false, Bool.false_eq_true, if_false]
    split
    · rfl
    · rcases j with _ | _ | j
      · simp [hstep]
      · simp [hstep]
      · have : diverged cfg ((S (j + 1 + 1)).diffsize / (S (j + 1 + 1)).diffsizePrev) = false := by
          unfold diverged
          rw [hfin]
          have := hrate j
          simp only [Bool.not_true, Bool.false_or, decide_eq_false_iff_not, not_lt, gt_iff_lt]
          linarith
        simp [this]
  have hFlim : Tendsto (fun k => (fn (Y k)).1) atTop (𝓝 0) := by
    have h1 : Tendsto (fun k => (fn (Y k)).1) atTop (𝓝 (fn r).1) := hs.smooth.continuousAt.tendsto.comp hlim
    have h2 : (fn r).1 = 0 := hs.root
    rwa [h2] at h1
  have ev1 : ∀ᶠ k in atTop, 3 / 2 * c' ^ k / cfg.atol < min 1 cfg.resolution := by
    have : Tendsto (fun k => 3 / 2 * c' ^ k / cfg.atol) atTop (𝓝 (3 / 2 * 0 / cfg.atol)) :=
      (hpow.const_mul _).div_const _
    rw [mul_zero, zero_div] at this
    exact this.eventually (gt_mem_nhds (by positivity))
  have ev2 : ∀ᶠ k in atTop, ‖(fn (Y k)).1‖ < cfg.atol := by
    have := hFlim.norm
    rw [norm_zero] at this
    exact this.eventually (gt_mem_nhds hat)
  obtain ⟨k, ⟨hk1, hk2⟩, hk3⟩ := ((ev1.and ev2).and (eventually_ge_atTop 1)).exists
  have hsmall : ‖(S (k + 1)).diff‖ / cfg.atol < min 1 cfg.resolution := by
    refine lt_of_le_of_lt ?_ hk1
    refine div_le_div_of_nonneg_right ?_ hat.le
    linarith [hd1 k, hle k]
  refine ⟨fun k => (hrun k).2.2.2.trans (mul_le_mul_of_nonneg_right hc'c (norm_nonneg _)), hlim, k + 1, fun ms throw hms =>
    succeeds_by (solver cfg) fn aux0 y0 (init cfg y0) rfl (k + 1) (fun j _ => hterm j) ?_ ms throw hms⟩
  show (terminate cfg (Y k) (S (k + 1))).1 = true
  unfold terminate
  simp only [Bool.or_eq_true]
  right
  split
  · rename_i f hcau hf
    have hf' : f = (fn (Y k)).1 := by
      have : (S (k + 1)).f = if cfg.cauchy then some (fn (Y k)).1 else none := rfl
      rw [this, hcau] at hf
      exact (Option.some.inj hf).symm
    unfold cauchyTermination scaledDiff
    rw [Bool.and_eq_true, decide_eq_true_eq, decide_eq_true_eq, hnY, hnF, maxNorm_eq_norm, maxNorm_eq_norm, hf']
    constructor
    · have := (scaled_size cfg.atol cfg.rtol M hat hrt (fun i => |(S (k + 1)).diff i|) _ (hsc k)).2
      have e : ‖fun i => |(S (k + 1)).diff i|‖ = ‖(S (k + 1)).diff‖ := by
        apply le_antisymm
        · exact (pi_norm_le_iff_of_nonneg (norm_nonneg _)).2 fun i => by
            rw [Real.norm_eq_abs, abs_abs]; exact norm_le_pi_norm (S (k + 1)).diff i
        · exact (pi_norm_le_iff_of_nonneg (norm_nonneg _)).2 fun i => by
            have := norm_le_pi_norm (fun i => |(S (k + 1)).diff i|) i
            rwa [Real.norm_eq_abs, abs_abs] at this
      rw [e] at this
      exact this.trans_lt (hsmall.trans_le (min_le_left _ _))
    · rw [pi_norm_lt_iff one_pos]
      intro i
      have h1 : |(fn (Y k)).1 i| < cfg.atol := lt_of_le_of_lt (norm_le_pi_norm (fn (Y k)).1 i) hk2
      show ‖|(fn (Y k)).1 i| / (cfg.atol + cfg.rtol * |(0 : ℝ)|)‖ < 1
      rw [abs_zero, mul_zero, add_zero, norm_div, Real.norm_of_nonneg hat.le, Real.norm_eq_abs, abs_abs, div_lt_one hat]
      exact h1
  · have h1 : small cfg (S (k + 1)).diffsize = true := by
      unfold small
      rw [decide_eq_true_eq, hsize]
      exact (scaled_size cfg.atol cfg.rtol M hat hrt _ _ (hsc _)).2.trans_lt (hsmall.trans_le (min_le_right _ _))
    have h2 : decide (2 ≤ (S (k + 1)).step) = true := by
      rw [hstep, decide_eq_true_eq]; omega
    simp [h1, h2]


/-- **C61.** If moreover the Jacobian is Lipschitz at the root, then the errors of `Newton` decrease quadratically. -/
theorem C61_newton_quadratic (cfg : Cfg ι ι ℝ (Op ι)) (fn : (ι → ℝ) → (ι → ℝ) × A) (aux0 : A) (r : ι → ℝ)
    (hs : LocalSetting cfg (fun y => (fn y).1) r) (hN : cfg.isNewton = true) (L : ℝ)
    (hL : ∀ᶠ y in 𝓝 r, ‖fderiv ℝ (fun y => (fn y).1) y - fderiv ℝ (fun y => (fn y).1) r‖ ≤ L * ‖y - r‖) :
    ∃ C, ∃ δ > 0, ∀ y0 : ι → ℝ, ‖y0 - r‖ ≤ δ → ∀ k,
      ‖iterateAt (solver cfg) fn aux0 y0 (init cfg y0) (k + 1) - r‖ ≤
        C * ‖iterateAt (solver cfg) fn aux0 y0 (init cfg y0) k - r‖ ^ 2 := by
  set F : (ι → ℝ) → (ι → ℝ) := fun y => (fn y).1 with hF
  obtain ⟨e, he⟩ := hs.nondegenerate
  set K : ℝ := ‖(e.symm : Op ι)‖ + 1 with hK
  have hK0 : 0 < K := by positivity
  have hlow : ∀ x, ‖x‖ ≤ K * ‖fderiv ℝ F r x‖ := by
    intro x
    have h1 : x = (e.symm : Op ι) (fderiv ℝ F r x) := by rw [← he]; simp
    calc ‖x‖ = ‖(e.symm : Op ι) (fderiv ℝ F r x)‖ := by rw [← h1]
      _ ≤ ‖(e.symm : Op ι)‖ * ‖fderiv ℝ F r x‖ := ContinuousLinearMap.le_opNorm _ _
      _ ≤ K * ‖fderiv ℝ F r x‖ := mul_le_mul_of_nonneg_right (by rw [hK]; linarith) (norm_nonneg _)
  obtain ⟨δ1, hδ1, hrun⟩ := newton_run cfg fn aux0 r hs (1 / 2) (by norm_num) (by norm_num)
  have ed : ∀ᶠ y in 𝓝 r, DifferentiableAt ℝ F y := by
    have : ∀ᶠ y in 𝓝 r, ContDiffAt ℝ 1 F y := hs.smooth.eventually (by simp)
    filter_upwards [this] with y hy using hy.differentiableAt (by norm_num)
  obtain ⟨δ2, hδ2, hball⟩ := Metric.eventually_nhds_iff.1 (hL.and ed)
  set L' := |L| + 1 with hL'
  have hL'0 : 0 < L' := by positivity
  have hLL : ∀ y, ‖y - r‖ < δ2 → ‖fderiv ℝ F y - fderiv ℝ F r‖ ≤ L' * ‖y - r‖ := by
    intro y hy
    refine (hball (by rwa [dist_eq_norm])).1.trans (mul_le_mul_of_nonneg_right ?_ (norm_nonneg _))
    rw [hL']; linarith [le_abs_self L]
  obtain ⟨δ3, hδ3, hcon⟩ := newton_contracts F r hs.root hs.smooth ⟨e, he⟩ (1 / 2) (by norm_num)
  set δ := min δ1 (min (δ2 / 2) (min (1 / (2 * K * L')) δ3)) with hδ
  have hδ0 : 0 < δ := by positivity
  refine ⟨4 * K * L', δ, hδ0, fun y0 hy0 k => ?_⟩
  have hrun' := hrun y0 (hy0.trans (min_le_left _ _))
  have hmono : ∀ j, ‖iterateAt (solver cfg) fn aux0 y0 (init cfg y0) j - r‖ ≤ δ := by
    intro j
    induction j with
    | zero => exact hy0
    | succ j ih =>
      refine (hrun' j).2.2.2.trans (le_trans ?_ ih)
      linarith [norm_nonneg (iterateAt (solver cfg) fn aux0 y0 (init cfg y0) j - r)]
  set y := iterateAt (solver cfg) fn aux0 y0 (init cfg y0) k with hy
  have hyδ : ‖y - r‖ ≤ δ := hmono k
  have hyδ2 : ‖y - r‖ < δ2 := by
    have : δ ≤ δ2 / 2 := (min_le_right _ _).trans (min_le_left _ _)
    linarith
  have hKL : K * (L' * ‖y - r‖) ≤ 1 / 2 := by
    have h1 : δ ≤ 1 / (2 * K * L') := (min_le_right _ _).trans ((min_le_right _ _).trans (min_le_left _ _))
    have h2 : ‖y - r‖ ≤ 1 / (2 * K * L') := hyδ.trans h1
    rw [le_div_iff₀ (by positivity)] at h2
    linarith
  -- the linearisation error
  have hlin : ‖F y - fderiv ℝ F r (y - r)‖ ≤ L' * ‖y - r‖ * ‖y - r‖ := by
    have hseg : ∀ z ∈ Metric.closedBall r ‖y - r‖, ‖z - r‖ ≤ ‖y - r‖ := fun z hz => by
      rwa [Metric.mem_closedBall, dist_eq_norm] at hz
    have := (convex_closedBall r ‖y - r‖).norm_image_sub_le_of_norm_hasFDerivWithin_le' (f := F) (f' := fderiv ℝ F)
      (φ := fderiv ℝ F r) (C := L' * ‖y - r‖) (x := r) (y := y)
      (fun z hz => ((hball (y := z) (by rw [dist_eq_norm]; exact (hseg z hz).trans_lt hyδ2)).2.hasFDerivAt).hasFDerivWithinAt)
      (fun z hz => (hLL z ((hseg z hz).trans_lt hyδ2)).trans (mul_le_mul_of_nonneg_left (hseg z hz) hL'0.le))
      (Metric.mem_closedBall_self (norm_nonneg _)) (by rw [Metric.mem_closedBall, dist_eq_norm])
    have hroot : F r = 0 := hs.root
    simpa [hroot] using this
  -- the step
  have hjp : jacPoint cfg fn aux0 y0 k = y := by unfold jacPoint; rw [hN]; rfl
  have hinv : (cfg.jac y).IsInvertible := by
    rw [hs.jacobian]
    exact (hcon y y (hyδ.trans ((min_le_right _ _).trans ((min_le_right _ _).trans (min_le_right _ _))))
      (hyδ.trans ((min_le_right _ _).trans ((min_le_right _ _).trans (min_le_right _ _))))).1
  obtain ⟨h1, _⟩ := hs.solves _ hinv (fn y).1
  set d := (cfg.linearSolve (cfg.jac y) (fn y).1).1 with hd
  have hnext : ‖iterateAt (solver cfg) fn aux0 y0 (init cfg y0) (k + 1) - r‖ ≤ ‖y - d - r‖ := by
    rw [newton_iterate, hjp]
    exact clip_closer _ _ _ _ hs.aboveLower hs.belowUpper
  refine hnext.trans ?_
  rw [hs.jacobian] at h1
  set x := y - d - r with hx
  have hBx : fderiv ℝ F y x = fderiv ℝ F y (y - r) - F y := by
    have : F y = fderiv ℝ F y d := h1.symm
    rw [this, ← map_sub]; congr 1; rw [hx]; abel
  have b1 : ‖(fderiv ℝ F y - fderiv ℝ F r) (y - r)‖ ≤ L' * ‖y - r‖ * ‖y - r‖ :=
    (ContinuousLinearMap.le_opNorm _ _).trans (mul_le_mul_of_nonneg_right (hLL y hyδ2) (norm_nonneg _))
  have b2 : ‖(fderiv ℝ F y - fderiv ℝ F r) x‖ ≤ L' * ‖y - r‖ * ‖x‖ :=
    (ContinuousLinearMap.le_opNorm _ _).trans (mul_le_mul_of_nonneg_right (hLL y hyδ2) (norm_nonneg _))
  have b3 : fderiv ℝ F r x = (fderiv ℝ F y - fderiv ℝ F r) (y - r) - (F y - fderiv ℝ F r (y - r)) -
      (fderiv ℝ F y - fderiv ℝ F r) x := by
    rw [_root_.sub_apply, _root_.sub_apply, hBx]; abel
  have b4 : ‖fderiv ℝ F r x‖ ≤ L' * ‖y - r‖ * ‖y - r‖ + L' * ‖y - r‖ * ‖y - r‖ + L' * ‖y - r‖ * ‖x‖ := by
    rw [b3]
    refine (norm_sub_le _ _).trans (add_le_add ((norm_sub_le _ _).trans (add_le_add b1 hlin)) b2)
  have b5 := (hlow x).trans (mul_le_mul_of_nonneg_left b4 hK0.le)
  have b6 : K * (L' * ‖y - r‖) * ‖x‖ ≤ 1 / 2 * ‖x‖ := mul_le_mul_of_nonneg_right hKL (norm_nonneg _)
  nlinarith

/-- The setting is met, for instance by `y ↦ y² - 2` (in any number of unknowns), with exact linear solves and bounds `[1, 2]`. -/
example : ∃ cfg : Cfg ι ι ℝ (Op ι), LocalSetting cfg (fun y i => y i ^ 2 - 2) (fun _ => √2) ∧
    cfg.isNewton = true ∧ cfg.lower = some (fun _ => 1) ∧ cfg.upper = some (fun _ => 2) := by
  have hd : ∀ y : ι → ℝ, HasFDerivAt (fun (y : ι → ℝ) i => y i ^ 2 - 2)
      (ContinuousLinearMap.pi fun i => (2 * y i) • (ContinuousLinearMap.proj i : (ι → ℝ) →L[ℝ] ℝ)) y := by
    intro y
    rw [hasFDerivAt_pi]
    intro i
    have h1 : HasFDerivAt (fun y : ι → ℝ => y i) (ContinuousLinearMap.proj i : (ι → ℝ) →L[ℝ] ℝ) y := hasFDerivAt_apply i y
    have h2 := (hasDerivAt_pow 2 (y i)).comp_hasFDerivAt y h1
    simpa using h2.sub_const (2 : ℝ)
  refine ⟨{ rtol := 0, atol := 1, normY := maxNorm, normF := maxNorm, kappa := 1, cauchy := true, isNewton := true,
            lower := some fun _ => 1, upper := some fun _ => 2, jac := fderiv ℝ fun (y : ι → ℝ) i => y i ^ 2 - 2,
            linearSolve := fun J b => (J.inverse b, .successful), inf := 1, isfinite := fun _ => true, resolution := 1 },
    ⟨?_, ?_, ?_, fun _ => rfl, ?_, ?_, ?_⟩, rfl, rfl, rfl⟩
  · funext i; simp
  · exact ContDiff.contDiffAt (contDiff_pi.2 fun i => by fun_prop)
  · rw [(hd _).fderiv]
    have h0 : (2 * √2 : ℝ) ≠ 0 := by positivity
    refine ⟨ContinuousLinearEquiv.smulLeft (Units.mk0 (2 * √2) h0), ?_⟩
    ext x i
    simp
    ring
  · rintro J ⟨e, rfl⟩ b
    simp
  · rintro l ⟨⟩ i
    exact Real.one_le_sqrt.2 (by norm_num)
  · rintro u ⟨⟩ i
    exact (Real.sqrt_le_left (by norm_num)).2 (by norm_num)

end Verif.Props
