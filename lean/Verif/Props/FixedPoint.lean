import Verif.Model.FixedPoint
import Verif.Props.Driver
import Verif.Lemmas.Norms
import Mathlib.Topology.MetricSpace.Contracting
import Mathlib.Analysis.SpecificLimits.Basic
import Mathlib.Tactic.Linarith
import Mathlib.Tactic.FieldSimp
import Mathlib.Tactic.Ring

/-! Properties C20 and C21: `FixedPointIteration`. -/

namespace Verif.Props

open Verif.Spec Verif.Driver Verif.FixedPointIter

variable {ι A : Type}

/-- The damped map `y ↦ (1 - damp) * g(y) + damp * y` of the documentation. -/
def dampedMap (damp : ℝ) (g : (ι → ℝ) → ι → ℝ) (y : ι → ℝ) : ι → ℝ :=
  fun i => (1 - damp) * g y i + damp * y i

section helpers

variable (cfg : Cfg ι ℝ) (fn : (ι → ℝ) → (ι → ℝ) × A) (aux0 : A) (y0 : ι → ℝ)

theorem fp_iterate_succ (k : Nat) :
    iterateAt (solver cfg) fn aux0 y0 none (k + 1) =
      dampedMap cfg.damp (fun z => (fn z).1) (iterateAt (solver cfg) fn aux0 y0 none k) := rfl

theorem fp_state_succ (k : Nat) :
    stateAt (solver cfg) fn aux0 y0 none (k + 1) =
      some (cfg.norm fun i => (iterateAt (solver cfg) fn aux0 y0 none k i -
        iterateAt (solver cfg) fn aux0 y0 none (k + 1) i) /
        (cfg.atol + cfg.rtol * |iterateAt (solver cfg) fn aux0 y0 none (k + 1) i|)) := rfl

theorem fp_iterate_eq (k : Nat) :
    iterateAt (solver cfg) fn aux0 y0 none k = (dampedMap cfg.damp fun z => (fn z).1)^[k] y0 := by
  induction k with
  | zero => rfl
  | succ k ih => rw [fp_iterate_succ, ih, Function.iterate_succ_apply']

theorem fp_terminate_succ (k : Nat) :
    (solver (A := A) cfg).terminate fn (iterateAt (solver cfg) fn aux0 y0 none k)
        (stateAt (solver cfg) fn aux0 y0 none (k + 1)) = (true, .successful) ↔
      cfg.norm (fun i => (iterateAt (solver cfg) fn aux0 y0 none k i -
        iterateAt (solver cfg) fn aux0 y0 none (k + 1) i) /
        (cfg.atol + cfg.rtol * |iterateAt (solver cfg) fn aux0 y0 none (k + 1) i|)) < 1 := by
  rw [fp_state_succ]
  show ((decide _ : Bool), Result.successful) = _ ↔ _
  simp

/-- If the scaled update of some step is below one, the solve succeeds no later than there. -/
theorem fp_succeeds (ms : Option Nat) (throw : Bool) (k : Nat)
    (hk : cfg.norm (fun i => (iterateAt (solver cfg) fn aux0 y0 none k i -
        iterateAt (solver cfg) fn aux0 y0 none (k + 1) i) /
        (cfg.atol + cfg.rtol * |iterateAt (solver cfg) fn aux0 y0 none (k + 1) i|)) < 1)
    (hb : ∀ n, ms = some n → k + 1 ≤ n) :
    ∃ sol, iterativeSolve (solver cfg) (fun _ => true) fn aux0 y0 ms throw = some (.ok sol) ∧
      sol.result = .successful ∧ sol.numSteps ≤ k + 1 := by
  classical
  have hex : ∃ j, (solver (A := A) cfg).terminate fn (iterateAt (solver cfg) fn aux0 y0 none (j - 1))
      (stateAt (solver cfg) fn aux0 y0 none j) = (true, .successful) :=
    ⟨k + 1, (fp_terminate_succ cfg fn aux0 y0 k).2 hk⟩
  have hle : Nat.find hex ≤ k + 1 := Nat.find_min' hex ((fp_terminate_succ cfg fn aux0 y0 k).2 hk)
  obtain ⟨sol, h1, h2, h3⟩ := C02_success_complete (solver cfg) (fun _ => true) fn aux0 y0 none rfl ms throw
    (Nat.find hex) (fun j hj => ⟨rfl, by
      have hn := Nat.find_min hex hj
      have : ((solver (A := A) cfg).terminate fn (iterateAt (solver cfg) fn aux0 y0 none (j - 1))
        (stateAt (solver cfg) fn aux0 y0 none j)) =
          (((solver (A := A) cfg).terminate fn (iterateAt (solver cfg) fn aux0 y0 none (j - 1))
            (stateAt (solver cfg) fn aux0 y0 none j)).1, .successful) := rfl
      rw [this] at hn ⊢
      cases hb' : ((solver (A := A) cfg).terminate fn (iterateAt (solver cfg) fn aux0 y0 none (j - 1))
            (stateAt (solver cfg) fn aux0 y0 none j)).1 with
      | true => rw [hb'] at hn; exact absurd rfl hn
      | false => rfl⟩) rfl (Nat.find_spec hex) (fun n hn => hle.trans (hb n hn))
  exact ⟨sol, h1, h2, h3 ▸ hle⟩

end helpers

/-! ### C20 -/

/-- **C20.** When `fixed_point` with `FixedPointIteration` reports success, the returned value is one damped application
of `fn` to some point `y` (an iterate), and `value` differs from `y` by less than the tolerance in the scaled norm.
For every norm, tolerance and damping. -/
theorem C20_success_certificate (cfg : Cfg ι ℝ) (fn : (ι → ℝ) → (ι → ℝ) × A) (aux0 : A) (y0 : ι → ℝ)
    (af : (ι → ℝ) → Bool) (ms : Option Nat) (throw : Bool) (sol : Solution (ι → ℝ) A (Option ℝ) Unit)
    (h : iterativeSolve (solver cfg) af fn aux0 y0 ms throw = some (.ok sol)) (hs : sol.result = .successful) :
    ∃ k, sol.numSteps = k + 1 ∧
      let y := (dampedMap cfg.damp fun z => (fn z).1)^[k] y0
      sol.value = (fun i => (1 - cfg.damp) * (fn y).1 i + cfg.damp * y i) ∧ sol.aux = (fn y).2 ∧
      cfg.norm (fun i => (y i - sol.value i) / (cfg.atol + cfg.rtol * |sol.value i|)) < 1 := by
  obtain ⟨st0, hi, ht, _⟩ := C02_success_is_certificate _ _ _ _ _ _ _ _ h hs
  obtain ⟨_, _, st0', hi', hst, hp⟩ := C01_step_budget _ _ _ _ _ _ _ _ h
  cases hi; cases hi'
  cases hk : sol.numSteps with
  | zero =>
    rw [hst, hk] at ht
    exact absurd (congrArg Prod.fst ht) (by simp [solver, terminate, stateAt, trace])
  | succ k =>
    refine ⟨k, rfl, ?_⟩
    rw [hst, hk, Nat.add_sub_cancel, fp_terminate_succ] at ht
    rw [hk] at hp
    have hv : sol.value = iterateAt (solver cfg) fn aux0 y0 none (k + 1) := congrArg Prod.fst hp
    have ha : sol.aux = auxAt (solver cfg) fn aux0 y0 none (k + 1) := congrArg (fun t => t.2.1) hp
    rw [← fp_iterate_eq cfg fn aux0 y0 k]
    refine ⟨hv, ha, ?_⟩
    rw [hv]; exact ht

/-- **C20.** For `damp ≠ 1` the damped map has exactly the fixed points of `fn`. -/
theorem C20_same_fixed_points (damp : ℝ) (hd : damp ≠ 1) (g : (ι → ℝ) → ι → ℝ) (y : ι → ℝ) :
    dampedMap damp g y = y ↔ g y = y := by
  have h1 : (1 - damp) ≠ 0 := sub_ne_zero.2 (Ne.symm hd)
  constructor
  · intro h; funext i
    have := congrFun h i
    simp only [dampedMap] at this
    have h2 : (1 - damp) * (g y i - y i) = 0 := by linarith
    rcases mul_eq_zero.1 h2 with h3 | h3
    · exact absurd h3 h1
    · linarith
  · intro h; funext i; simp only [dampedMap, h]; ring

/-- **C20.** What success says about `fn` itself, with the default `max_norm`: at the last point `y` that was evaluated,
`(1 - damp) * |fn(y) - y|` is within the tolerance in every entry, and the returned value is that close to `y`. -/
theorem C20_residual_bound [Fintype ι] (cfg : Cfg ι ℝ) (hn : cfg.norm = maxNorm) (hd : cfg.damp ≤ 1)
    (hat : 0 < cfg.atol) (hrt : 0 ≤ cfg.rtol)
    (fn : (ι → ℝ) → (ι → ℝ) × A) (aux0 : A) (y0 : ι → ℝ)
    (af : (ι → ℝ) → Bool) (ms : Option Nat) (throw : Bool) (sol : Solution (ι → ℝ) A (Option ℝ) Unit)
    (h : iterativeSolve (solver cfg) af fn aux0 y0 ms throw = some (.ok sol)) (hs : sol.result = .successful) :
    ∃ y : ι → ℝ, ∀ i, (1 - cfg.damp) * |(fn y).1 i - y i| < cfg.atol + cfg.rtol * |sol.value i| ∧
      |sol.value i - y i| < cfg.atol + cfg.rtol * |sol.value i| := by
  obtain ⟨k, _, hv, _, hlt⟩ := C20_success_certificate cfg fn aux0 y0 af ms throw sol h hs
  refine ⟨(dampedMap cfg.damp fun z => (fn z).1)^[k] y0, fun i => ?_⟩
  have hsc : 0 < cfg.atol + cfg.rtol * |sol.value i| :=
    add_pos_of_pos_of_nonneg hat (mul_nonneg hrt (abs_nonneg _))
  rw [hn] at hlt
  have h1 := ((maxNorm_lt_iff _ _).1 hlt).2 i
  rw [abs_div, abs_of_pos hsc, div_lt_one hsc, abs_sub_comm] at h1
  refine ⟨?_, h1⟩
  have h2 : sol.value i - (dampedMap cfg.damp fun z => (fn z).1)^[k] y0 i =
      (1 - cfg.damp) * ((fn ((dampedMap cfg.damp fun z => (fn z).1)^[k] y0)).1 i -
        (dampedMap cfg.damp fun z => (fn z).1)^[k] y0 i) := by
    rw [hv]; ring
  rw [h2, abs_mul, abs_of_nonneg (by linarith)] at h1
  exact h1

/-- **C20**, boundary of the claim: `damp = 1` is accepted and then every point is reported as a fixed point. -/
theorem C20_damp_one_vacuous [Fintype ι] (cfg : Cfg ι ℝ) (hn : cfg.norm = maxNorm) (hd : cfg.damp = 1)
    (fn : (ι → ℝ) → (ι → ℝ) × A) (aux0 : A) (y0 : ι → ℝ) (throw : Bool) :
    ∃ sol, iterativeSolve (solver cfg) (fun _ => true) fn aux0 y0 (some 1) throw = some (.ok sol) ∧
      sol.result = .successful ∧ sol.value = y0 := by
  obtain ⟨sol, h1, h2, h3⟩ := fp_succeeds cfg fn aux0 y0 (some 1) throw 0 (by
    have : iterateAt (solver cfg) fn aux0 y0 none (0 + 1) = y0 := by
      rw [fp_iterate_succ]; funext i; simp [dampedMap, hd, iterateAt, trace]
    rw [this, hn, maxNorm_lt_iff]
    exact ⟨one_pos, fun i => by simp [iterateAt, trace]⟩) (by rintro n ⟨⟩; exact le_rfl)
  refine ⟨sol, h1, h2, ?_⟩
  obtain ⟨k, hk, hv, _⟩ := C20_success_certificate cfg fn aux0 y0 _ _ throw sol h1 h2
  have : k = 0 := by omega
  subst this
  rw [hv]; funext i; simp [hd]

/-! ### C21 -/

/-- `g` is a contraction with factor `q` for the norm `N`. -/
def ContractionFor (N : (ι → ℝ) → ℝ) (q : ℝ) (g : (ι → ℝ) → ι → ℝ) : Prop :=
  ∀ x y, N (fun i => g x i - g y i) ≤ q * N (fun i => x i - y i)

theorem damped_contraction (N : (ι → ℝ) → ℝ) (hN : GoodNorm N)
    (htri : ∀ x y : ι → ℝ, N (fun i => x i + y i) ≤ N x + N y) (q damp : ℝ) (hd0 : 0 ≤ damp) (hd1 : damp < 1)
    (g : (ι → ℝ) → ι → ℝ) (hg : ContractionFor N q g) :
    ContractionFor N ((1 - damp) * q + damp) (dampedMap damp g) := by
  intro x y
  have e : (fun i => dampedMap damp g x i - dampedMap damp g y i) =
      fun i => (1 - damp) * (g x i - g y i) + damp * (x i - y i) := by
    funext i; simp only [dampedMap]; ring
  rw [e]
  refine (htri (fun i => (1 - damp) * (g x i - g y i)) fun i => damp * (x i - y i)).trans ?_
  have h1 := hN.smul (1 - damp) (fun i => g x i - g y i)
  have h2 := hN.smul damp (fun i => x i - y i)
  rw [h1, h2, abs_of_pos (by linarith : (0:ℝ) < 1 - damp), abs_of_nonneg hd0]
  have := mul_le_mul_of_nonneg_left (hg x y) (by linarith : (0:ℝ) ≤ 1 - damp)
  nlinarith

theorem goodNorm_sub_comm {N : (ι → ℝ) → ℝ} (hN : GoodNorm N) (x y : ι → ℝ) :
    N (fun i => x i - y i) = N (fun i => y i - x i) :=
  le_antisymm (hN.mono _ _ fun i => (abs_sub_comm _ _).le) (hN.mono _ _ fun i => (abs_sub_comm _ _).le)

theorem contraction_iterate (N : (ι → ℝ) → ℝ) (r : ℝ) (hr : 0 ≤ r) (T : (ι → ℝ) → ι → ℝ)
    (hT : ContractionFor N r T) (y0 : ι → ℝ) (k : Nat) :
    N (fun i => T^[k + 1] y0 i - T^[k] y0 i) ≤ r ^ k * N (fun i => T y0 i - y0 i) := by
  induction k with
  | zero => simp
  | succ k ih =>
    have h1 := hT (T^[k + 1] y0) (T^[k] y0)
    rw [← Function.iterate_succ_apply' T, ← Function.iterate_succ_apply' T] at h1
    refine h1.trans ?_
    rw [pow_succ]
    nlinarith

/-- **C21.** For a contraction `fn` (in the solver's norm), `damp ∈ [0, 1)` and `atol > 0`, the iteration stops
successfully, whatever the starting point, within a number of steps that depends only on the first update. -/
theorem C21_terminates (cfg : Cfg ι ℝ) (hN : GoodNorm cfg.norm)
    (htri : ∀ x y : ι → ℝ, cfg.norm (fun i => x i + y i) ≤ cfg.norm x + cfg.norm y)
    (hat : 0 < cfg.atol) (hrt : 0 ≤ cfg.rtol) (hd0 : 0 ≤ cfg.damp) (hd1 : cfg.damp < 1)
    (fn : (ι → ℝ) → (ι → ℝ) × A) (q : ℝ) (hq0 : 0 ≤ q) (hq1 : q < 1)
    (hc : ContractionFor cfg.norm q fun z => (fn z).1) (aux0 : A) (y0 : ι → ℝ) :
    ∃ n, (((1 - cfg.damp) * q + cfg.damp) ^ n *
          cfg.norm (fun i => dampedMap cfg.damp (fun z => (fn z).1) y0 i - y0 i) < cfg.atol) ∧
      ∀ ms throw, (∀ m, ms = some m → n + 1 ≤ m) →
        ∃ sol, iterativeSolve (solver cfg) (fun _ => true) fn aux0 y0 ms throw = some (.ok sol) ∧
          sol.result = .successful ∧ sol.numSteps ≤ n + 1 := by
  set T := dampedMap cfg.damp fun z => (fn z).1 with hT
  set r := (1 - cfg.damp) * q + cfg.damp with hr
  have hr0 : 0 ≤ r := by have := mul_nonneg (by linarith : (0:ℝ) ≤ 1 - cfg.damp) hq0; linarith
  have hr1 : r < 1 := by nlinarith
  have hTc : ContractionFor cfg.norm r T := damped_contraction _ hN htri q _ hd0 hd1 _ hc
  have hlim : Filter.Tendsto (fun n => r ^ n * cfg.norm (fun i => T y0 i - y0 i)) Filter.atTop (nhds 0) := by
    have := (tendsto_pow_atTop_nhds_zero_of_lt_one hr0 hr1).mul_const (cfg.norm fun i => T y0 i - y0 i)
    simpa using this
  obtain ⟨n, hn⟩ := (hlim.eventually (gt_mem_nhds hat)).exists
  refine ⟨n, hn, fun ms throw hms => fp_succeeds cfg fn aux0 y0 ms throw n ?_ hms⟩
  rw [fp_iterate_eq, fp_iterate_eq, ← hT]
  have h1 := contraction_iterate cfg.norm r hr0 T hTc y0 n
  have h2 : cfg.norm (fun i => (T^[n] y0 i - T^[n + 1] y0 i) / (cfg.atol + cfg.rtol * |T^[n + 1] y0 i|)) ≤
      cfg.norm (fun i => cfg.atol⁻¹ * (T^[n + 1] y0 i - T^[n] y0 i)) := by
    refine hN.mono _ _ fun i => ?_
    have hsc : cfg.atol ≤ cfg.atol + cfg.rtol * |T^[n + 1] y0 i| :=
      le_add_of_nonneg_right (mul_nonneg hrt (abs_nonneg _))
    rw [abs_div, abs_mul, abs_sub_comm, abs_of_pos (hat.trans_le hsc), abs_inv, abs_of_pos hat, div_eq_inv_mul]
    exact mul_le_mul_of_nonneg_right (inv_anti₀ hat hsc) (abs_nonneg _)
  rw [hN.smul, abs_inv, abs_of_pos hat] at h2
  refine h2.trans_lt ?_
  rw [inv_mul_lt_iff₀ hat, mul_one]
  exact h1.trans_lt hn

/-- **C21.** Error bound: if `fn` is a contraction and `y*` a fixed point of it, then the returned value is within
`r/(1-r)` times the last update of `y*`, where `r = (1-damp)*q + damp`; so the fixed point is unique. -/
theorem C21_error_bound (cfg : Cfg ι ℝ) (hN : GoodNorm cfg.norm)
    (htri : ∀ x y : ι → ℝ, cfg.norm (fun i => x i + y i) ≤ cfg.norm x + cfg.norm y)
    (hd0 : 0 ≤ cfg.damp) (hd1 : cfg.damp < 1)
    (fn : (ι → ℝ) → (ι → ℝ) × A) (q : ℝ) (hq0 : 0 ≤ q) (hq1 : q < 1)
    (hc : ContractionFor cfg.norm q fun z => (fn z).1) (aux0 : A) (y0 : ι → ℝ) (ystar : ι → ℝ)
    (hfix : (fn ystar).1 = ystar)
    (af : (ι → ℝ) → Bool) (ms : Option Nat) (throw : Bool) (sol : Solution (ι → ℝ) A (Option ℝ) Unit)
    (h : iterativeSolve (solver cfg) af fn aux0 y0 ms throw = some (.ok sol)) (hs : sol.result = .successful) :
    let r := (1 - cfg.damp) * q + cfg.damp
    ∃ y, sol.value = dampedMap cfg.damp (fun z => (fn z).1) y ∧
      cfg.norm (fun i => sol.value i - ystar i) ≤ r / (1 - r) * cfg.norm (fun i => sol.value i - y i) := by
  intro r
  obtain ⟨k, _, hv, _, _⟩ := C20_success_certificate cfg fn aux0 y0 af ms throw sol h hs
  set y := (dampedMap cfg.damp fun z => (fn z).1)^[k] y0 with hy
  refine ⟨y, hv, ?_⟩
  have hv' : sol.value = dampedMap cfg.damp (fun z => (fn z).1) y := hv
  have hr1 : r < 1 := by simp only [r]; nlinarith
  have hr0 : 0 ≤ r := by
    have := mul_nonneg (by linarith : (0:ℝ) ≤ 1 - cfg.damp) hq0; simp only [r]; linarith
  have hTc : ContractionFor cfg.norm r _ := damped_contraction cfg.norm hN htri q _ hd0 hd1 _ hc
  have h1 := hTc y ystar
  rw [(C20_same_fixed_points cfg.damp hd1.ne _ ystar).2 hfix, ← hv'] at h1
  have h2 : cfg.norm (fun i => y i - ystar i) ≤
      cfg.norm (fun i => sol.value i - y i) + cfg.norm (fun i => sol.value i - ystar i) := by
    have := htri (fun i => y i - sol.value i) (fun i => sol.value i - ystar i)
    rw [goodNorm_sub_comm hN y sol.value] at this
    have e : (fun i => y i - sol.value i + (sol.value i - ystar i)) = fun i => y i - ystar i := by
      funext i; ring
    rwa [e] at this
  rw [div_mul_eq_mul_div, le_div_iff₀ (by linarith)]
  have := mul_le_mul_of_nonneg_left h2 hr0
  nlinarith

/-- **C21.** With the default `max_norm` a contraction does have a fixed point (Banach), and only one; so the two
theorems above apply to every contraction. -/
theorem C21_fixed_point_exists [Fintype ι] (g : (ι → ℝ) → ι → ℝ) (q : ℝ) (hq0 : 0 ≤ q) (hq1 : q < 1)
    (hc : ContractionFor maxNorm q g) : ∃! y, g y = y := by
  have hnorm : ∀ x : ι → ℝ, maxNorm x = ‖x‖ := by
    intro x
    apply le_antisymm
    · exact (maxNorm_le_iff _ _).2 ⟨norm_nonneg _, fun i => norm_le_pi_norm x i⟩
    · exact (pi_norm_le_iff_of_nonneg (maxNorm_nonneg x)).2 fun i => abs_le_maxNorm x i
  have hL : LipschitzWith ⟨q, hq0⟩ g := LipschitzWith.of_dist_le_mul fun x y => by
    rw [dist_eq_norm, dist_eq_norm]
    have := hc x y
    rw [hnorm, hnorm] at this
    exact this
  have hK : ContractingWith ⟨q, hq0⟩ g := ⟨by exact_mod_cast hq1, hL⟩
  refine ⟨hK.fixedPoint, hK.fixedPoint_isFixedPt, fun z hz => ?_⟩
  exact hK.fixedPoint_unique hz

/-- The hypotheses of C20/C21 are met: `fn(y) = y/2 + 1` with damping 1/2, tolerance 1e-3, `max_norm`, converges from
any `y0`; the fixed point is 2. -/
example (y0 : Unit → ℝ) :
    let cfg : Cfg Unit ℝ := { rtol := 0, atol := 1 / 1000, norm := maxNorm, damp := 1 / 2 }
    let fn : (Unit → ℝ) → (Unit → ℝ) × Unit := fun y => (fun i => y i / 2 + 1, ())
    ∃ n sol, iterativeSolve (solver cfg) (fun _ => true) fn () y0 (some n) true = some (.ok sol) ∧
      sol.result = .successful ∧ |sol.value () - 2| ≤ 3 / 1000 := by
  intro cfg fn
  have hc : ContractionFor cfg.norm (1 / 2) fun z => (fn z).1 := by
    intro x y
    show maxNorm (ι := Unit) _ ≤ 1 / 2 * maxNorm (ι := Unit) _
    refine (maxNorm_le_iff _ _).2 ⟨mul_nonneg (by norm_num) (maxNorm_nonneg _), fun i => ?_⟩
    have h1 := abs_le_maxNorm (fun i => x i - y i) i
    have e : (fn x).1 i - (fn y).1 i = (1 / 2) * (x i - y i) := by simp only [fn]; ring
    rw [e, abs_mul, abs_of_pos (by norm_num : (0:ℝ) < 1 / 2)]
    exact mul_le_mul_of_nonneg_left h1 (by norm_num)
  obtain ⟨n, _, hn⟩ := C21_terminates cfg (goodNorm_maxNorm (ι := Unit)) (maxNorm_add (ι := Unit)) (by norm_num [cfg]) (by norm_num [cfg])
    (by norm_num [cfg]) (by norm_num [cfg]) fn (1 / 2) (by norm_num) (by norm_num) hc () y0
  obtain ⟨sol, h1, h2, _⟩ := hn (some (n + 1)) true (by rintro m ⟨⟩; exact le_rfl)
  refine ⟨n + 1, sol, h1, h2, ?_⟩
  obtain ⟨k, _, hv, _, hlt⟩ := C20_success_certificate cfg fn () y0 _ _ _ sol h1 h2
  have hlt' := ((maxNorm_lt_iff _ _).1 hlt).2 ()
  have hv' := congrFun hv ()
  generalize (dampedMap cfg.damp fun z => (fn z).1)^[k] y0 = y at hlt' hv'
  simp only [cfg, fn] at hlt' hv'
  norm_num at hlt' hv'
  rw [abs_lt] at hlt'
  rw [abs_le]
  constructor <;> linarith [hlt'.1, hlt'.2]

end Verif.Props
