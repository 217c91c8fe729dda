import Verif.Model.NewtonChord
import Verif.Props.Driver
import Verif.Props.Misc
import Mathlib.LinearAlgebra.Matrix.Notation
import Mathlib.Tactic.Linarith
import Mathlib.Tactic.FieldSimp
import Mathlib.Tactic.Ring
import Mathlib.Tactic.SplitIfs

/-! Properties C22, C23, C24 and C57: `Newton` and `Chord`. -/

namespace Verif.Props

open Verif.Spec Verif.Driver Verif.NewtonChord

variable {ι κ J A : Type}

/-! ### C22 -/

theorem clip_mem (lower upper : Option (ι → ℝ)) (y : ι → ℝ)
    (hlu : ∀ l u, lower = some l → upper = some u → ∀ i, l i ≤ u i) (i : ι) :
    (∀ l, lower = some l → l i ≤ clipBounds lower upper y i) ∧
    (∀ u, upper = some u → clipBounds lower upper y i ≤ u i) := by
  cases hl : lower with
  | none =>
    cases hu : upper with
    | none => simp
    | some u =>
      refine ⟨by simp, ?_⟩
      rintro _ ⟨⟩
      simp only [clipBounds]
      split_ifs with h1 <;> linarith
  | some l =>
    cases hu : upper with
    | none =>
      refine ⟨?_, by simp⟩
      rintro _ ⟨⟩
      simp only [clipBounds]
      split_ifs with h1 <;> linarith
    | some u =>
      have := hlu l u hl hu i
      constructor <;> rintro _ ⟨⟩ <;> simp only [clipBounds] <;> split_ifs <;> linarith

theorem clip_id (lower upper : Option (ι → ℝ)) (y : ι → ℝ)
    (hl : ∀ l, lower = some l → ∀ i, l i ≤ y i) (hu : ∀ u, upper = some u → ∀ i, y i ≤ u i) :
    clipBounds lower upper y = y := by
  cases lower with
  | none =>
    cases upper with
    | none => rfl
    | some u => funext i; simp only [clipBounds]; rw [if_neg (not_lt.2 (hu u rfl i))]
  | some l =>
    cases upper with
    | none => funext i; simp only [clipBounds]; rw [if_neg (not_lt.2 (hl l rfl i))]
    | some u =>
      funext i; simp only [clipBounds]
      rw [if_neg (not_lt.2 (hl l rfl i)), if_neg (not_lt.2 (hu u rfl i))]

/-- **C22.** With `options=dict(lower=…, upper=…)` (either or both), every iterate from the first step on is inside the
bounds - whatever the function, its Jacobian and the linear solver's answers are. -/
theorem C22_iterates_in_bounds (cfg : Cfg ι κ ℝ J) (fn : (ι → ℝ) → (κ → ℝ) × A) (aux0 : A) (y0 : ι → ℝ)
    (hlu : ∀ l u, cfg.lower = some l → cfg.upper = some u → ∀ i, l i ≤ u i) (k : Nat) (i : ι) :
    (∀ l, cfg.lower = some l → l i ≤ iterateAt (solver cfg) fn aux0 y0 (init cfg y0) (k + 1) i) ∧
    (∀ u, cfg.upper = some u → iterateAt (solver cfg) fn aux0 y0 (init cfg y0) (k + 1) i ≤ u i) :=
  clip_mem cfg.lower cfg.upper _ hlu i

/-- **C22.** So the returned value is inside the bounds if at least one step was made, or if `y0` was inside. -/
theorem C22_value_in_bounds (cfg : Cfg ι κ ℝ J) (fn : (ι → ℝ) → (κ → ℝ) × A) (aux0 : A) (y0 : ι → ℝ)
    (hlu : ∀ l u, cfg.lower = some l → cfg.upper = some u → ∀ i, l i ≤ u i)
    (af : (ι → ℝ) → Bool) (ms : Option Nat) (throw : Bool) (sol : Solution (ι → ℝ) A (State ι κ ℝ J) Unit)
    (h : iterativeSolve (solver cfg) af fn aux0 y0 ms throw = some (.ok sol))
    (h0 : sol.numSteps ≠ 0 ∨
      ((∀ l, cfg.lower = some l → ∀ i, l i ≤ y0 i) ∧ (∀ u, cfg.upper = some u → ∀ i, y0 i ≤ u i))) (i : ι) :
    (∀ l, cfg.lower = some l → l i ≤ sol.value i) ∧ (∀ u, cfg.upper = some u → sol.value i ≤ u i) := by
  obtain ⟨_, _, st0, hi, _, hp⟩ := C01_step_budget _ _ _ _ _ _ _ _ h
  cases hi
  have hv : sol.value = iterateAt (solver cfg) fn aux0 y0 (init cfg y0) sol.numSteps := congrArg Prod.fst hp
  rw [hv]
  cases hk : sol.numSteps with
  | succ k => exact C22_iterates_in_bounds cfg fn aux0 y0 hlu k i
  | zero =>
    rcases h0 with h0 | h0
    · exact absurd hk h0
    · exact ⟨fun l hl => h0.1 l hl i, fun u hu => h0.2 u hu i⟩

/-- **C22.** With NaN and infinities: every entry of an iterate is inside the (ordered, non-NaN) bounds or is NaN. -/
theorem C22_iterates_in_bounds_float (cfg : Cfg ι κ XR J) (fn : (ι → XR) → (κ → XR) × A) (aux0 : A)
    (y0 : ι → XR) (l u : ι → XR) (hl : cfg.lower = some l) (hu : cfg.upper = some u) (hlu : ∀ i, l i ≤ u i)
    (k : Nat) (i : ι) :
    let y := iterateAt (solver cfg) fn aux0 y0 (init cfg y0) (k + 1) i
    y = XR.nan ∨ (l i ≤ y ∧ y ≤ u i) := by
  intro y
  have hy : ∃ z : ι → XR, y = clipBounds (some l) (some u) z i := ⟨_, by
    show clipBounds cfg.lower cfg.upper _ i = _
    rw [hl, hu]⟩
  obtain ⟨z, hz⟩ := hy
  rw [hz]
  have h := hlu i
  simp only [clipBounds]
  have refl : ∀ a : XR, a ≤ u i → u i ≤ u i := by
    intro a ha
    cases hui : u i with
    | fin r => exact le_refl r
    | pinf => trivial
    | ninf => trivial
    | nan => rw [hui] at ha; exact absurd ha (XR.not_le_nan a)
  have lrefl : l i ≤ l i := by
    cases hli : l i with
    | fin r => exact le_refl r
    | pinf => trivial
    | ninf => trivial
    | nan => rw [hli] at h; exact absurd h (XR.not_nan_le _)
  have tot : ∀ a b : XR, a ≠ XR.nan → b ≤ b → ¬ b < a → a ≤ b := by
    intro a b ha hb hba
    cases a <;> cases b <;> first | exact absurd rfl ha | exact absurd hb (XR.not_nan_le _) | trivial | skip
    · next r s => exact (not_lt (α := ℝ)).1 hba
    all_goals exact absurd trivial hba
  have tot' : ∀ a b : XR, a ≠ XR.nan → b ≤ b → ¬ a < b → b ≤ a := by
    intro a b ha hb hba
    cases a <;> cases b <;> first | exact absurd rfl ha | exact absurd hb (XR.not_nan_le _) | trivial | skip
    · next r s => exact (not_lt (α := ℝ)).1 hba
    all_goals exact absurd trivial hba
  by_cases hn : z i = XR.nan
  · left; rw [hn]; simp [XR.not_nan_lt, XR.not_lt_nan]
  · right
    by_cases h1 : z i < l i
    · simp only [if_pos h1]
      by_cases h2 : u i < l i
      · simp only [if_pos h2]; exact ⟨h, refl _ h⟩
      · simp only [if_neg h2]; exact ⟨lrefl, h⟩
    · simp only [if_neg h1]
      by_cases h2 : u i < z i
      · simp only [if_pos h2]; exact ⟨h, refl _ h⟩
      · simp only [if_neg h2]; exact ⟨tot' _ _ hn lrefl h1, tot _ _ hn (refl _ h) h2⟩

/-! ### C23 -/

/-- What is required of the linear solver: for the operator `M` it solves every consistent system exactly. -/
def ExactFor [Fintype ι] (linearSolve : Matrix κ ι ℝ → (κ → ℝ) → (ι → ℝ) × Result) (M : Matrix κ ι ℝ) : Prop :=
  ∀ b x, M.mulVec x = b → M.mulVec (linearSolve M b).1 = b ∧ (linearSolve M b).2 = .successful

section affine

variable [Fintype ι] (cfg : Cfg ι κ ℝ (Matrix κ ι ℝ)) (fn : (ι → ℝ) → (κ → ℝ) × A) (aux0 : A) (y0 : ι → ℝ)
  (M : Matrix κ ι ℝ) (root : ι → ℝ)
  (hfn : ∀ y, (fn y).1 = M.mulVec (y - root)) (hjac : ∀ y, cfg.jac y = M)
  (hinj : ∀ x, M.mulVec x = 0 → x = 0) (hex : ExactFor cfg.linearSolve M)
  (hl : ∀ l, cfg.lower = some l → ∀ i, l i ≤ root i) (hu : ∀ u, cfg.upper = some u → ∀ i, root i ≤ u i)

include hfn hjac hinj hex hl hu

theorem affine_linear_state (k : Nat) (j : Matrix κ ι ℝ)
    (h : (stateAt (solver cfg) fn aux0 y0 (init cfg y0) k).linearState = some j) : j = M := by
  induction k with
  | zero =>
    have h' : (if cfg.isNewton then none else some (cfg.jac y0)) = some j := h
    cases hN : cfg.isNewton with
    | true => rw [hN] at h'; cases h'
    | false => rw [hN] at h'; rw [← hjac y0]; exact (Option.some.inj h').symm
  | succ k ih => exact ih h

theorem affine_linSol (k : Nat) (y : ι → ℝ) :
    linSol cfg y (fn y).1 (stateAt (solver cfg) fn aux0 y0 (init cfg y0) k) = (y - root, .successful) := by
  have h1 : linSol cfg y (fn y).1 (stateAt (solver cfg) fn aux0 y0 (init cfg y0) k) =
      cfg.linearSolve M (fn y).1 := by
    unfold linSol
    split
    · next j _ hj =>
      rw [affine_linear_state cfg fn aux0 y0 M root hfn hjac hinj hex hl hu k j hj]
    · rw [hjac]
  rw [h1, hfn]
  obtain ⟨h2, h3⟩ := hex (M.mulVec (y - root)) (y - root) rfl
  refine Prod.ext ?_ h3
  have : (cfg.linearSolve M (M.mulVec (y - root))).1 - (y - root) = 0 := by
    apply hinj; rw [Matrix.mulVec_sub, h2, sub_self]
  exact sub_eq_zero.1 this

theorem affine_iterate (k : Nat) :
    iterateAt (solver cfg) fn aux0 y0 (init cfg y0) (k + 1) = root := by
  show clipBounds cfg.lower cfg.upper (fun i => iterateAt (solver cfg) fn aux0 y0 (init cfg y0) k i -
    (linSol cfg (iterateAt (solver cfg) fn aux0 y0 (init cfg y0) k)
      (fn (iterateAt (solver cfg) fn aux0 y0 (init cfg y0) k)).1
      (stateAt (solver cfg) fn aux0 y0 (init cfg y0) k)).1 i) = root
  rw [affine_linSol cfg fn aux0 y0 M root hfn hjac hinj hex hl hu]
  have : (fun i => iterateAt (solver cfg) fn aux0 y0 (init cfg y0) k i -
      (iterateAt (solver cfg) fn aux0 y0 (init cfg y0) k - root) i) = root := by
    funext i; simp
  rw [this]
  exact clip_id _ _ _ hl hu

theorem affine_result (k : Nat) : (stateAt (solver cfg) fn aux0 y0 (init cfg y0) k).result = .successful := by
  cases k with
  | zero => rfl
  | succ k =>
    show (linSol cfg (iterateAt (solver cfg) fn aux0 y0 (init cfg y0) k)
      (fn (iterateAt (solver cfg) fn aux0 y0 (init cfg y0) k)).1
      (stateAt (solver cfg) fn aux0 y0 (init cfg y0) k)).2 = _
    rw [affine_linSol cfg fn aux0 y0 M root hfn hjac hinj hex hl hu]

theorem affine_diff (k : Nat) : (stateAt (solver cfg) fn aux0 y0 (init cfg y0) (k + 2)).diff = fun _ => 0 := by
  show (if cfg.lower.isSome || cfg.upper.isSome then
    (fun i => iterateAt (solver cfg) fn aux0 y0 (init cfg y0) (k + 1) i -
      iterateAt (solver cfg) fn aux0 y0 (init cfg y0) (k + 2) i)
    else (linSol cfg (iterateAt (solver cfg) fn aux0 y0 (init cfg y0) (k + 1))
      (fn (iterateAt (solver cfg) fn aux0 y0 (init cfg y0) (k + 1))).1
      (stateAt (solver cfg) fn aux0 y0 (init cfg y0) (k + 1))).1) = _
  have h1 := affine_iterate cfg fn aux0 y0 M root hfn hjac hinj hex hl hu
  rw [affine_linSol cfg fn aux0 y0 M root hfn hjac hinj hex hl hu, h1 k, h1 (k + 1)]
  split_ifs <;> funext i <;> simp

end affine

/-- **C23.** Newton and Chord (cauchy termination or rate-based; with or without bounds containing the root) solve an
affine system exactly: after one step the iterate is the root, and the solve reports success after at most two steps with
the root as its value.  `hinit` says that the initial test, made on the `inf` placeholders, does not already pass; see
`C23_initial_test_fails`. -/
theorem C23_affine_exact [Fintype ι] (cfg : Cfg ι κ ℝ (Matrix κ ι ℝ)) (fn : (ι → ℝ) → (κ → ℝ) × A) (aux0 : A)
    (y0 : ι → ℝ) (M : Matrix κ ι ℝ) (root : ι → ℝ)
    (hfn : ∀ y, (fn y).1 = M.mulVec (y - root)) (hjac : ∀ y, cfg.jac y = M)
    (hinj : ∀ x, M.mulVec x = 0 → x = 0) (hex : ExactFor cfg.linearSolve M)
    (hl : ∀ l, cfg.lower = some l → ∀ i, l i ≤ root i) (hu : ∀ u, cfg.upper = some u → ∀ i, root i ≤ u i)
    (hnY : GoodNorm cfg.normY) (hnF : GoodNorm cfg.normF) (hres : 0 < cfg.resolution)
    (hinit : (terminate cfg y0 (init cfg y0)).1 = false)
    (ms : Option Nat) (hms : ∀ n, ms = some n → 2 ≤ n) (throw : Bool) :
    (∀ k, iterateAt (solver cfg) fn aux0 y0 (init cfg y0) (k + 1) = root) ∧
    ∃ sol, iterativeSolve (solver cfg) (fun _ => true) fn aux0 y0 ms throw = some (.ok sol) ∧
      sol.result = .successful ∧ sol.value = root ∧ sol.numSteps ≤ 2 := by
  have hit := affine_iterate cfg fn aux0 y0 M root hfn hjac hinj hex hl hu
  have hsr := affine_result cfg fn aux0 y0 M root hfn hjac hinj hex hl hu
  have hdiff : (stateAt (solver cfg) fn aux0 y0 (init cfg y0) 2).diff = fun _ => 0 :=
    affine_diff cfg fn aux0 y0 M root hfn hjac hinj hex hl hu 0
  have hds : (stateAt (solver cfg) fn aux0 y0 (init cfg y0) 2).diffsize = 0 := by
    show cfg.normY (fun i => (stateAt (solver cfg) fn aux0 y0 (init cfg y0) 2).diff i / _) = 0
    rw [hdiff]
    simp only [zero_div]
    exact hnY.zero
  have hstep2 : (stateAt (solver cfg) fn aux0 y0 (init cfg y0) 2).step = 2 := rfl
  have hstep : ∀ j, (stateAt (solver cfg) fn aux0 y0 (init cfg y0) j).step = j := by
    intro j
    induction j with
    | zero => rfl
    | succ j ih => exact congrArg (· + 1) ih
  have hf : ∀ j, (stateAt (solver cfg) fn aux0 y0 (init cfg y0) j).f.isSome = cfg.cauchy := by
    intro j
    cases j with
    | zero =>
      show (if cfg.cauchy then some _ else none : Option (κ → ℝ)).isSome = _
      cases cfg.cauchy <;> rfl
    | succ j =>
      show (if cfg.cauchy then some _ else none : Option (κ → ℝ)).isSome = _
      cases cfg.cauchy <;> rfl
  have hf2 : ∀ f, (stateAt (solver cfg) fn aux0 y0 (init cfg y0) 2).f = some f → f = 0 := by
    intro f hf
    have h' : (if cfg.cauchy then some (fn (iterateAt (solver cfg) fn aux0 y0 (init cfg y0) 1)).1 else none) =
      some f := hf
    split_ifs at h' with hc
    have := (Option.some.inj h').symm
    rw [hit 0, hfn, sub_self, Matrix.mulVec_zero] at this
    exact this
  -- the test after two steps passes
  have ht2 : (terminate cfg root (stateAt (solver cfg) fn aux0 y0 (init cfg y0) 2)) = (true, .successful) := by
    unfold terminate
    simp only [hsr 2, hds, hdiff, hstep2]
    split
    · next f hcau hff =>
      have := hf2 f hff
      subst this
      have h0 : cauchyTermination cfg.rtol cfg.atol cfg.normY cfg.normF root (fun _ => 0) (fun _ => 0) 0 = true := by
        rw [C46_cauchy_needs_both]
        constructor
        · simp only [abs_zero, zero_div]; rw [hnY.zero]; exact one_pos
        · simp only [Pi.zero_apply, abs_zero, zero_div]; rw [hnF.zero]; exact one_pos
      simp [h0]
    · simp [small, hres]
  have hall : ∀ j, j ≤ 2 → (terminate cfg (iterateAt (solver cfg) fn aux0 y0 (init cfg y0) (j - 1))
      (stateAt (solver cfg) fn aux0 y0 (init cfg y0) j)).2 = .successful := by
    intro j hj
    by_cases hj2 : j = 2
    · subst hj2; rw [show 2 - 1 = 0 + 1 from rfl, hit 0, ht2]
    · have hlt : ¬ 2 ≤ j := by omega
      unfold terminate
      simp only [hsr j, hstep j, ne_eq, not_true, decide_false, Bool.false_eq_true, if_false]
      split <;> simp [hlt]
  obtain ⟨sol, h1, h2, h3, hpre⟩ := solve_succeeds_by (solver cfg) (fun _ => true) fn aux0 y0 (init cfg y0) rfl ms throw 2
    (fun _ _ => rfl) hall (by
      show (terminate cfg (iterateAt (solver cfg) fn aux0 y0 (init cfg y0) (0 + 1)) _).1 = true
      rw [hit 0, ht2]) hms
  refine ⟨hit, sol, h1, h2, ?_, h3⟩
  obtain ⟨_, _, st0, hi, hst, hp⟩ := C01_step_budget _ _ _ _ _ _ _ _ h1
  cases hi
  have hv : sol.value = iterateAt (solver cfg) fn aux0 y0 (init cfg y0) sol.numSteps := congrArg Prod.fst hp
  cases hk : sol.numSteps with
  | succ k => rw [hv, hk, hit]
  | zero =>
    obtain ⟨st0', hi', ht, _⟩ := C02_success_is_certificate _ _ _ _ _ _ _ _ h1 h2
    cases hi'
    rw [hst, hk] at ht
    have : (terminate cfg y0 (init cfg y0)).1 = true := congrArg Prod.fst ht
    rw [hinit] at this; cases this

/-- **C23.** The hypothesis `hinit` above is what the code's placeholders guarantee: with `diff = inf` in every entry,
finite `y`, `atol > 0`, and a norm that is not below one on a vector with an infinite entry, the initial cauchy test is
false; the rate-based test is false before the second step anyway. -/
theorem C23_initial_test_fails [Nonempty ι] (cfg : Cfg ι κ XR J) (y : ι → ℝ) (at' rt : ℝ)
    (hat : cfg.atol = .fin at') (hrt : cfg.rtol = .fin rt) (h0 : 0 ≤ at') (h1 : 0 ≤ rt) (hinf : cfg.inf = .pinf)
    (hn : ∀ v : ι → XR, (∃ i, v i = .pinf) → ¬ cfg.normY v < 1) :
    (terminate cfg (fun i => .fin (y i)) (init cfg fun i => .fin (y i))).1 = false := by
  unfold terminate init
  cases hc : cfg.cauchy with
  | false => simp
  | true =>
    have hcau : ∀ f fd, cauchyTermination cfg.rtol cfg.atol cfg.normY cfg.normF (fun i => XR.fin (y i))
        (fun _ => cfg.inf) f fd = false := by
      intro f fd
      rw [cauchyTermination, Bool.and_eq_false_iff]
      left
      rw [decide_eq_false_iff_not]
      apply hn
      obtain ⟨i⟩ := ‹Nonempty ι›
      refine ⟨i, ?_⟩
      show HasAbs.abs cfg.inf / (cfg.atol + cfg.rtol * HasAbs.abs (XR.fin (y i))) = _
      rw [hinf, hat, hrt, XR.abs_fin, XR.mul_fin, XR.add_fin]
      exact XR.pinf_div_fin _ (add_nonneg h0 (mul_nonneg h1 (abs_nonneg _)))
    simp [hcau]

/-- **C23.** Each Newton step solves the linearised equation: if the linear solve is exact and no bound is active then
`fn(y_k) + Jacobian(y_k) (y_{k+1} - y_k) = 0`; Chord does the same with the Jacobian at `y0`. -/
theorem C23_step_solves_linearisation [Fintype ι] (cfg : Cfg ι κ ℝ (Matrix κ ι ℝ))
    (fn : (ι → ℝ) → (κ → ℝ) × A) (aux0 : A) (y0 : ι → ℝ) (hb : cfg.lower = none ∧ cfg.upper = none) (k : Nat) :
    let y := iterateAt (solver cfg) fn aux0 y0 (init cfg y0)
    let Jk := if cfg.isNewton then cfg.jac (y k) else cfg.jac y0
    Jk.mulVec (cfg.linearSolve Jk (fn (y k)).1).1 = (fn (y k)).1 →
      (fn (y k)).1 + Jk.mulVec (y (k + 1) - y k) = 0 := by
  intro y Jk hex
  have hls : ∀ j, (stateAt (solver cfg) fn aux0 y0 (init cfg y0) j).linearState =
      if cfg.isNewton then none else some (cfg.jac y0) := by
    intro j
    induction j with
    | zero => rfl
    | succ j ih => exact ih
  have h1 : y (k + 1) = fun i => y k i - (cfg.linearSolve Jk (fn (y k)).1).1 i := by
    show clipBounds cfg.lower cfg.upper (fun i => y k i - (linSol cfg (y k) (fn (y k)).1
      (stateAt (solver cfg) fn aux0 y0 (init cfg y0) k)).1 i) = _
    rw [hb.1, hb.2]
    have : linSol cfg (y k) (fn (y k)).1 (stateAt (solver cfg) fn aux0 y0 (init cfg y0) k) =
        cfg.linearSolve Jk (fn (y k)).1 := by
      unfold linSol
      rw [hls k]
      simp only [Jk]
      cases hN : cfg.isNewton <;> simp
    rw [this]
    rfl
  have h2 : y (k + 1) - y k = -(cfg.linearSolve Jk (fn (y k)).1).1 := by
    rw [h1]; funext i; simp
  rw [h2, Matrix.mulVec_neg, hex, add_neg_cancel]

/-! ### C24 -/

/-- **C24.** A failed linear solve stops the solve with the linear solver's own result code. -/
theorem C24_linear_failure_reported (cfg : Cfg ι κ XR J) (fn : (ι → XR) → (κ → XR) × A) (aux0 : A)
    (y0 : ι → XR) (af : (ι → XR) → Bool) (ms : Option Nat) (k : Nat) (r : Result) (hr : r ≠ .successful)
    (hbefore : ∀ j, j ≤ k → af (iterateAt (solver cfg) fn aux0 y0 (init cfg y0) (j - 1)) = true ∧
      terminate cfg (iterateAt (solver cfg) fn aux0 y0 (init cfg y0) (j - 1))
        (stateAt (solver cfg) fn aux0 y0 (init cfg y0) j) = (false, .successful))
    (hfin : af (iterateAt (solver cfg) fn aux0 y0 (init cfg y0) k) = true)
    (hfail : (cfg.linearSolve (if cfg.isNewton then cfg.jac (iterateAt (solver cfg) fn aux0 y0 (init cfg y0) k)
      else cfg.jac y0) (fn (iterateAt (solver cfg) fn aux0 y0 (init cfg y0) k)).1).2 = r)
    (hms : ∀ n, ms = some n → k + 1 ≤ n) :
    ∃ sol, iterativeSolve (solver cfg) af fn aux0 y0 ms false = some (.ok sol) ∧ sol.result = r ∧
      sol.numSteps = k + 1 := by
  have hls : ∀ j, (stateAt (solver cfg) fn aux0 y0 (init cfg y0) j).linearState =
      if cfg.isNewton then none else some (cfg.jac y0) := by
    intro j
    induction j with
    | zero => rfl
    | succ j ih => exact ih
  have hres : (stateAt (solver cfg) fn aux0 y0 (init cfg y0) (k + 1)).result = r := by
    show (linSol cfg (iterateAt (solver cfg) fn aux0 y0 (init cfg y0) k)
      (fn (iterateAt (solver cfg) fn aux0 y0 (init cfg y0) k)).1
      (stateAt (solver cfg) fn aux0 y0 (init cfg y0) k)).2 = r
    rw [← hfail]
    unfold linSol
    rw [hls k]
    cases hN : cfg.isNewton <;> simp
  have hterm : (solver (A := A) cfg).terminate fn (iterateAt (solver cfg) fn aux0 y0 (init cfg y0) (k + 1 - 1))
      (stateAt (solver cfg) fn aux0 y0 (init cfg y0) (k + 1)) = (true, r) := by
    show terminate cfg _ _ = _
    unfold terminate
    simp only [hres]
    simp [hr]
  exact C03_failure_reported (solver cfg) af fn aux0 y0 (init cfg y0) rfl ms (k + 1) true r hr
    (fun j hj => hbefore j (by omega)) hfin hterm hms

/-- How the rate-based test (`cauchy_termination=False`) must judge two consecutive scaled update sizes `p` then `d`:
`ρ` is the smallest resolvable size, `κ` the tolerance on the estimated remaining error `d²/(p-d)`. -/
inductive RateVerdict (ρ κ p d : ℝ) : Bool × Result → Prop
  | tiny : d < ρ → RateVerdict ρ κ p d (true, .successful)
  | diverged : ρ ≤ d → (p = 0 ∨ 2 * p < d) → RateVerdict ρ κ p d (true, .nonlinearDivergence)
  | converged : ρ ≤ d → d < p → d ^ 2 / (p - d) < κ → RateVerdict ρ κ p d (true, .successful)
  | undecided : ρ ≤ d → p ≠ 0 → d ≤ 2 * p → ¬ (d < p ∧ d ^ 2 / (p - d) < κ) → RateVerdict ρ κ p d (false, .successful)

/-- **C24.** The rate-based test classifies every pair of update sizes as specified: divergence exactly if the update
more than doubled (and is not negligibly small), success exactly if it is negligible or the estimated remaining error
is below `kappa`. -/
theorem C24_rate_classification (cfg : Cfg ι κ XR J) (y : ι → XR) (st : State ι κ XR J)
    (hc : cfg.cauchy = false) (hfin : cfg.isfinite = XR.isFinite)
    (ρ kap p d : ℝ) (hρ : cfg.resolution = .fin ρ) (hρ0 : 0 < ρ) (hk : cfg.kappa = .fin kap)
    (hd : st.diffsize = .fin d) (hp : st.diffsizePrev = .fin p) (hp0 : 0 ≤ p)
    (hstep : 2 ≤ st.step) (hres : st.result = .successful) :
    RateVerdict ρ kap p d (terminate cfg y st) := by
  have hterm : terminate cfg y st =
      (small cfg st.diffsize || diverged cfg (st.diffsize / st.diffsizePrev) ||
        converged (st.diffsize * (st.diffsize / st.diffsizePrev) / (1 - st.diffsize / st.diffsizePrev)) cfg.kappa,
       if (!(small cfg st.diffsize) && diverged cfg (st.diffsize / st.diffsizePrev)) = true
        then .nonlinearDivergence else .successful) := by
    unfold terminate
    rw [hc]
    simp [hres, hstep]
  rw [hterm, hd, hp]
  have hsm : small cfg (.fin d) = decide (d < ρ) := by
    unfold small; rw [hρ]; exact decide_eq_decide.2 (XR.lt_fin _ _)
  rw [hsm]
  by_cases h1 : d < ρ
  · simp only [h1, decide_true, Bool.true_or, Bool.not_true, Bool.false_and, Bool.false_eq_true, if_false]
    exact .tiny h1
  have h1' : ρ ≤ d := not_lt.1 h1
  have hdpos : 0 < d := hρ0.trans_le h1'
  simp only [h1, decide_false, Bool.false_or, Bool.not_false, Bool.true_and]
  by_cases hp1 : p = 0
  · have hrate : (XR.fin d / XR.fin p) = .pinf := by
      rw [hp1]
      show (if (0:ℝ) = 0 then XR.infTimes d else _) = _
      rw [if_pos rfl]; simp [XR.infTimes, hdpos]
    have hdv : diverged cfg (XR.fin d / XR.fin p) = true := by
      rw [hrate]; unfold diverged; rw [hfin]; rfl
    simp only [hdv, Bool.true_or, if_true]
    exact .diverged h1' (Or.inl hp1)
  have hppos : 0 < p := lt_of_le_of_ne hp0 (Ne.symm hp1)
  rw [XR.div_fin _ _ hp1]
  have hdv : diverged cfg (.fin (d / p)) = decide (2 * p < d) := by
    unfold diverged
    rw [hfin]
    have : ((XR.fin (d / p) : XR) > 2) ↔ 2 * p < d := by
      show (2:ℝ) < d / p ↔ _
      rw [lt_div_iff₀ hppos]
    simp only [XR.isFinite, Bool.not_true, Bool.false_or]
    exact decide_eq_decide.2 this
  rw [hdv]
  by_cases h2 : 2 * p < d
  · simp only [h2, decide_true, Bool.true_or, if_true]
    exact .diverged h1' (Or.inr h2)
  simp only [h2, decide_false, Bool.false_or, Bool.false_eq_true, if_false]
  have hcv : converged (XR.fin d * XR.fin (d / p) / (1 - XR.fin (d / p))) cfg.kappa =
      decide (d < p ∧ d ^ 2 / (p - d) < kap) := by
    unfold converged
    rw [hk, XR.one_def, XR.sub_fin, XR.mul_fin, ← Bool.decide_and]
    apply decide_eq_decide.2
    by_cases hdp : d = p
    · subst hdp
      have e : (XR.fin (d * (d / d)) / XR.fin (1 - d / d)) = .pinf := by
        rw [div_self hp1, sub_self]
        show (if (0:ℝ) = 0 then XR.infTimes (d * 1) else _) = _
        rw [if_pos rfl]; simp [XR.infTimes, hdpos]
      rw [e]
      constructor
      · rintro ⟨_, h⟩; exact absurd h (XR.not_pinf_lt _)
      · rintro ⟨h, _⟩; exact absurd h (lt_irrefl _)
    · have hne : 1 - d / p ≠ 0 := by
        intro h
        apply hdp
        have : d / p = 1 := by linarith
        rwa [div_eq_one_iff_eq hp1] at this
      have hpd : p - d ≠ 0 := sub_ne_zero.2 (Ne.symm hdp)
      rw [XR.div_fin _ _ hne]
      have e : d * (d / p) / (1 - d / p) = d ^ 2 / (p - d) := by
        have : 1 - d / p = (p - d) / p := by field_simp
        rw [this, div_div_eq_mul_div]
        congr 1
        field_simp
      rw [e]
      show (0 < d ^ 2 / (p - d) ∧ d ^ 2 / (p - d) < kap) ↔ _
      constructor
      · rintro ⟨ha, hb⟩
        refine ⟨?_, hb⟩
        by_contra hcon
        have : p - d < 0 := by
          rcases lt_or_gt_of_ne hdp with h | h
          · exact absurd h hcon
          · linarith
        exact absurd ha (not_lt.2 (div_nonpos_of_nonneg_of_nonpos (sq_nonneg _) this.le))
      · rintro ⟨ha, hb⟩
        exact ⟨div_pos (pow_pos hdpos 2) (by linarith), hb⟩
  rw [hcv]
  by_cases h3 : d < p ∧ d ^ 2 / (p - d) < kap
  · simp only [h3]
    exact .converged h1' h3.1 h3.2
  · simp only [h3]
    exact .undecided h1' hp1 (not_lt.1 h2) h3

/-- **C24.** In rate mode a NaN update (from the second step on) is reported as divergence, never as success. -/
theorem C24_nan_is_divergence (cfg : Cfg ι κ XR J) (y : ι → XR) (st : State ι κ XR J)
    (hc : cfg.cauchy = false) (hfin : cfg.isfinite = XR.isFinite)
    (hd : st.diffsize = .nan) (hstep : 2 ≤ st.step) (hres : st.result = .successful) :
    terminate cfg y st = (true, .nonlinearDivergence) := by
  unfold terminate
  rw [hc]
  have h1 : small cfg st.diffsize = false := by
    unfold small; rw [hd]; simp
  have h2 : diverged cfg (st.diffsize / st.diffsizePrev) = true := by
    unfold diverged; rw [hd, hfin, XR.nan_div]; rfl
  simp [hres, hstep, h1, h2]

/-- **C24.** Divergence is only ever reported in rate mode, after at least two steps, and then the scaled size of the last
update is not negligible and is not finite, or more than twice the one before. -/
theorem C24_divergence_means (cfg : Cfg ι κ XR J) (fn : (ι → XR) → (κ → XR) × A) (aux0 : A)
    (y0 : ι → XR) (hlin : ∀ j b, (cfg.linearSolve j b).2 ≠ .nonlinearDivergence)
    (af : (ι → XR) → Bool) (ms : Option Nat) (sol : Solution (ι → XR) A (State ι κ XR J) Unit)
    (h : iterativeSolve (solver cfg) af fn aux0 y0 ms false = some (.ok sol))
    (hd : sol.result = .nonlinearDivergence) :
    cfg.cauchy = false ∧ 2 ≤ sol.numSteps ∧ ¬ sol.state.diffsize < cfg.resolution ∧
      (cfg.isfinite (sol.state.diffsize / sol.state.diffsizePrev) = false ∨
        (2 : XR) < sol.state.diffsize / sol.state.diffsizePrev) := by
  obtain ⟨st0, hi, ho⟩ := C03_result_origin _ _ _ _ _ _ _ h
  cases hi
  have hsteps : ∀ j, (stateAt (solver cfg) fn aux0 y0 (init cfg y0) j).step = j := by
    intro j
    induction j with
    | zero => rfl
    | succ j ih => exact congrArg (· + 1) ih
  have hr : ∀ j, (stateAt (solver cfg) fn aux0 y0 (init cfg y0) j).result ≠ .nonlinearDivergence := by
    intro j
    cases j with
    | zero => intro h; cases h
    | succ j =>
      show (linSol cfg _ _ _).2 ≠ _
      unfold linSol
      split <;> exact hlin _ _
  have hf : ∀ j, (stateAt (solver cfg) fn aux0 y0 (init cfg y0) j).f.isSome = cfg.cauchy := by
    intro j
    cases j with
    | zero =>
      show (if cfg.cauchy then some _ else none : Option (κ → XR)).isSome = _
      cases cfg.cauchy <;> rfl
    | succ j =>
      show (if cfg.cauchy then some _ else none : Option (κ → XR)).isSome = _
      cases cfg.cauchy <;> rfl
  obtain ⟨_, _, st0', hi', hst, _⟩ := C01_step_budget _ _ _ _ _ _ _ _ h
  cases hi'
  rcases ho with ⟨_, ho⟩ | ⟨_, ho⟩ | ⟨_, ho, _⟩
  · rw [hd] at ho
    have ho' : (terminate cfg (iterateAt (solver cfg) fn aux0 y0 (init cfg y0) (sol.numSteps - 1)) sol.state).2 =
      .nonlinearDivergence := ho
    have hr' := hr sol.numSteps
    have hs' := hsteps sol.numSteps
    have hf' := hf sol.numSteps
    rw [← hst] at hr' hs' hf'
    unfold terminate at ho'
    simp only at ho'
    split at ho'
    · next hx => exact absurd ho' hr'
    · split at ho'
      · cases ho'
      · next hnc =>
        have hcf : cfg.cauchy = false := by
          cases hcc : cfg.cauchy with
          | false => rfl
          | true =>
            rw [hcc] at hf'
            obtain ⟨f, hff⟩ := Option.isSome_iff_exists.1 hf'
            exact absurd hff (hnc f hcc)
        simp only at ho'
        split at ho'
        · next hx =>
          rw [Bool.and_eq_true, Bool.and_eq_true, decide_eq_true_eq, hs'] at hx
          obtain ⟨⟨hx1, hx2⟩, hx3⟩ := hx
          refine ⟨hcf, hx1, ?_, ?_⟩
          · simpa [small] using hx2
          · simpa [diverged] using hx3
        · cases ho'
  · rw [hd] at ho; cases ho
  · rw [hd] at ho; cases ho

/-- **C24.** What the two sizes are that the rate test compares after `k + 2` steps: the lengths of the last two updates,
`Y_{k+1} → Y_{k+2}` and `Y_k → Y_{k+1}`, each scaled by the tolerances at the point it arrived at. -/
theorem C24_sizes_compared (cfg : Cfg ι κ ℝ J) (fn : (ι → ℝ) → (κ → ℝ) × A) (aux0 : A) (y0 : ι → ℝ) (k : Nat) :
    let Y := iterateAt (solver cfg) fn aux0 y0 (init cfg y0)
    let st := stateAt (solver cfg) fn aux0 y0 (init cfg y0) (k + 2)
    st.step = k + 2 ∧
    st.diffsize = cfg.normY (fun i => (Y (k + 1) i - Y (k + 2) i) / (cfg.atol + cfg.rtol * |Y (k + 2) i|)) ∧
    st.diffsizePrev = cfg.normY (fun i => (Y k i - Y (k + 1) i) / (cfg.atol + cfg.rtol * |Y (k + 1) i|)) := by
  intro Y st
  have hsteps : ∀ j, (stateAt (solver cfg) fn aux0 y0 (init cfg y0) j).step = j := by
    intro j
    induction j with
    | zero => rfl
    | succ j ih => exact congrArg (· + 1) ih
  have hsize : ∀ j, (stateAt (solver cfg) fn aux0 y0 (init cfg y0) (j + 1)).diffsize =
      cfg.normY (fun i => (Y j i - Y (j + 1) i) / (cfg.atol + cfg.rtol * |Y (j + 1) i|)) := by
    intro j
    have hd : (if cfg.lower.isSome || cfg.upper.isSome then (fun i => Y j i - Y (j + 1) i)
        else (linSol cfg (Y j) (fn (Y j)).1 (stateAt (solver cfg) fn aux0 y0 (init cfg y0) j)).1) =
        fun i => Y j i - Y (j + 1) i := by
      split_ifs with hbd
      · rfl
      · rw [Bool.or_eq_true, not_or, Bool.not_eq_true, Bool.not_eq_true] at hbd
        have hv2 : Y (j + 1) = clipBounds cfg.lower cfg.upper (fun i => Y j i - (linSol cfg (Y j) (fn (Y j)).1
          (stateAt (solver cfg) fn aux0 y0 (init cfg y0) j)).1 i) := rfl
        have h1 : cfg.lower = none := by simpa using hbd.1
        have h2 : cfg.upper = none := by simpa using hbd.2
        rw [hv2, h1, h2]
        funext i; simp [clipBounds]
    show cfg.normY (fun i => (if cfg.lower.isSome || cfg.upper.isSome then (fun i => Y j i - Y (j + 1) i)
        else (linSol cfg (Y j) (fn (Y j)).1 (stateAt (solver cfg) fn aux0 y0 (init cfg y0) j)).1) i /
          (cfg.atol + cfg.rtol * |Y (j + 1) i|)) = _
    rw [hd]
  exact ⟨hsteps _, hsize (k + 1), hsize k⟩

/-! ### C57 -/

/-- **C57**, the part that holds. With the default `cauchy_termination=True`, success of Newton/Chord certifies a small residual: at the last
point `y` that was evaluated, `fn(y)` is below `atol` in the scaled norm, and the last update is within the tolerance. -/
theorem C57_cauchy_success_small_residual_partial (cfg : Cfg ι κ ℝ J) (fn : (ι → ℝ) → (κ → ℝ) × A) (aux0 : A)
    (y0 : ι → ℝ) (hc : cfg.cauchy = true) (hinit : (terminate cfg y0 (init cfg y0)).1 = false)
    (af : (ι → ℝ) → Bool) (ms : Option Nat) (throw : Bool) (sol : Solution (ι → ℝ) A (State ι κ ℝ J) Unit)
    (h : iterativeSolve (solver cfg) af fn aux0 y0 ms throw = some (.ok sol)) (hs : sol.result = .successful) :
    ∃ y, y = iterateAt (solver cfg) fn aux0 y0 (init cfg y0) (sol.numSteps - 1) ∧
      cfg.normF (fun j => |(fn y).1 j| / cfg.atol) < 1 ∧
      cfg.normY (fun i => |y i - sol.value i| / (cfg.atol + cfg.rtol * |y i|)) < 1 ∧ sol.aux = (fn y).2 := by
  obtain ⟨st0, hi, ht, _⟩ := C02_success_is_certificate _ _ _ _ _ _ _ _ h hs
  obtain ⟨_, _, st0', hi', hst, hp⟩ := C01_step_budget _ _ _ _ _ _ _ _ h
  cases hi; cases hi'
  refine ⟨_, rfl, ?_⟩
  cases hk : sol.numSteps with
  | zero =>
    rw [hst, hk] at ht
    have : (terminate cfg y0 (init cfg y0)).1 = true := congrArg Prod.fst ht
    rw [hinit] at this; cases this
  | succ k =>
    rw [Nat.add_sub_cancel]
    rw [hst, hk, Nat.add_sub_cancel] at ht
    rw [hk] at hp
    set y := iterateAt (solver cfg) fn aux0 y0 (init cfg y0) k with hy
    have hv : sol.value = iterateAt (solver cfg) fn aux0 y0 (init cfg y0) (k + 1) := congrArg Prod.fst hp
    have ha : sol.aux = auxAt (solver cfg) fn aux0 y0 (init cfg y0) (k + 1) := congrArg (fun t => t.2.1) hp
    have hf : (stateAt (solver cfg) fn aux0 y0 (init cfg y0) (k + 1)).f = some (fn y).1 := by
      show (if cfg.cauchy then some (fn y).1 else none) = _
      rw [hc]; rfl
    have hdiff : (stateAt (solver cfg) fn aux0 y0 (init cfg y0) (k + 1)).diff = fun i => y i - sol.value i := by
      rw [hv]
      have hv2 : iterateAt (solver cfg) fn aux0 y0 (init cfg y0) (k + 1) =
        clipBounds cfg.lower cfg.upper (fun i => y i - (linSol cfg y (fn y).1
          (stateAt (solver cfg) fn aux0 y0 (init cfg y0) k)).1 i) := rfl
      show (if cfg.lower.isSome || cfg.upper.isSome then
        (fun i => y i - iterateAt (solver cfg) fn aux0 y0 (init cfg y0) (k + 1) i)
        else (linSol cfg y (fn y).1 (stateAt (solver cfg) fn aux0 y0 (init cfg y0) k)).1) = _
      split_ifs with hbd
      · rfl
      · rw [Bool.or_eq_true, not_or, Bool.not_eq_true, Bool.not_eq_true] at hbd
        rw [hv2]
        have h1 : cfg.lower = none := by simpa using hbd.1
        have h2 : cfg.upper = none := by simpa using hbd.2
        rw [h1, h2]
        funext i; simp [clipBounds]
    have ht' : terminate cfg y (stateAt (solver cfg) fn aux0 y0 (init cfg y0) (k + 1)) = (true, .successful) := ht
    have hcau : cauchyTermination cfg.rtol cfg.atol cfg.normY cfg.normF y
        (fun i => y i - sol.value i) (fun _ => 0) (fn y).1 = true := by
      unfold terminate at ht'
      rw [hc, hf, hdiff] at ht'
      simp only at ht'
      have h2 := congrArg Prod.snd ht'
      have h1 := congrArg Prod.fst ht'
      simp only at h1 h2
      split at h2
      · next hfail =>
        rw [decide_eq_true_eq] at hfail
        exact absurd h2 hfail
      · next hfail =>
        rw [Bool.not_eq_true] at hfail
        rw [hfail, Bool.false_or] at h1
        exact h1
    rw [C46_cauchy_needs_both] at hcau
    refine ⟨?_, hcau.1, ha⟩
    simpa using hcau.2

/-- **C57** is false with `cauchy_termination=False` and bounds: `fn(y) = y + 1` on `[0, ∞)` from `y0 = 0` has no root;
the clipped update is zero, so Newton stops after two steps with "successful" at `0`, where the residual is one. -/
theorem C57_rate_mode_false_success :
    let cfg : Cfg Unit Unit ℝ ℝ :=
      { rtol := 0, atol := 1 / 1000, normY := maxNorm, normF := maxNorm, kappa := 1 / 100, cauchy := false
        isNewton := true, lower := some fun _ => 0, upper := none, jac := fun _ => 1
        linearSolve := fun j b => (fun i => b i / j, .successful)
        inf := 1000, isfinite := fun _ => true, resolution := 1 / 1000000 }
    let fn : (Unit → ℝ) → (Unit → ℝ) × Unit := fun y => (fun i => y i + 1, ())
    ∃ sol, iterativeSolve (solver cfg) (fun _ => true) fn () (fun _ => 0) (some 256) true = some (.ok sol) ∧
      sol.result = .successful ∧ (fn sol.value).1 () = 1 := by
  intro cfg fn
  have hit : ∀ k, iterateAt (solver cfg) fn () (fun _ => 0) (init cfg fun _ => 0) k = fun _ => 0 := by
    intro k
    induction k with
    | zero => rfl
    | succ k ih =>
      show clipBounds cfg.lower cfg.upper (fun i => iterateAt (solver cfg) fn () (fun _ => 0) (init cfg fun _ => 0) k i -
        (linSol cfg _ (fn (iterateAt (solver cfg) fn () (fun _ => 0) (init cfg fun _ => 0) k)).1 _).1 i) = _
      rw [ih]
      funext i
      simp [clipBounds, cfg, fn, linSol]
  have hds : ∀ k, (stateAt (solver cfg) fn () (fun _ => 0) (init cfg fun _ => 0) (k + 1)).diffsize = 0 := by
    intro k
    have : (stateAt (solver cfg) fn () (fun _ => 0) (init cfg fun _ => 0) (k + 1)).diffsize =
      maxNorm (fun i => (iterateAt (solver cfg) fn () (fun _ => 0) (init cfg fun _ => 0) k i -
        iterateAt (solver cfg) fn () (fun _ => 0) (init cfg fun _ => 0) (k + 1) i) /
        (1 / 1000 + 0 * |iterateAt (solver cfg) fn () (fun _ => 0) (init cfg fun _ => 0) (k + 1) i|)) := rfl
    rw [this, hit, hit]
    simp only [sub_self, zero_div]
    exact goodNorm_maxNorm.zero
  have hstep : ∀ j, (stateAt (solver cfg) fn () (fun _ => 0) (init cfg fun _ => 0) j).step = j := by
    intro j
    induction j with
    | zero => rfl
    | succ j ih => exact congrArg (· + 1) ih
  have hres : ∀ j, (stateAt (solver cfg) fn () (fun _ => 0) (init cfg fun _ => 0) j).result = .successful := by
    intro j; cases j <;> rfl
  have hcf : cfg.cauchy = false := rfl
  have hterm : ∀ j y, terminate cfg y (stateAt (solver cfg) fn () (fun _ => 0) (init cfg fun _ => 0) j) =
      (decide (2 ≤ j), .successful) := by
    intro j y
    unfold terminate
    simp only [hcf, hres j, hstep j]
    by_cases h2 : 2 ≤ j
    · obtain ⟨i, rfl⟩ : ∃ i, j = i + 1 := ⟨j - 1, by omega⟩
      rw [hds i]
      have hsm : small cfg 0 = true := by
        unfold small; rw [decide_eq_true_eq]; show (0:ℝ) < 1 / 1000000; norm_num
      simp [hsm, h2]
    · simp [h2]
  obtain ⟨sol, h1, h2, _⟩ := solve_succeeds_by (solver cfg) (fun _ => true) fn () (fun _ => 0) (init cfg fun _ => 0) rfl
    (some 256) true 2 (fun _ _ => rfl) (fun j _ => by
      show (terminate cfg (iterateAt (solver cfg) fn () (fun _ => 0) (init cfg fun _ => 0) (j - 1)) _).2 = _
      rw [hterm]) (by
      show (terminate cfg (iterateAt (solver cfg) fn () (fun _ => 0) (init cfg fun _ => 0) 1) _).1 = _
      rw [hterm]; rfl) (by rintro n ⟨⟩; norm_num)
  refine ⟨sol, h1, h2, ?_⟩
  obtain ⟨_, _, st0, hi, hst, hp⟩ := C01_step_budget _ _ _ _ _ _ _ _ h1
  cases hi
  have hv : sol.value = iterateAt (solver cfg) fn () (fun _ => 0) (init cfg fun _ => 0) sol.numSteps :=
    congrArg Prod.fst hp
  rw [hv, hit]
  simp [fn]

/-- The hypotheses of C23/C57 are met by a genuine system: two equations, two unknowns, Newton, cauchy termination. -/
example : ∃ sol, iterativeSolve (solver (A := Unit) (ι := Fin 2) (κ := Fin 2) (K := ℝ) (J := Matrix (Fin 2) (Fin 2) ℝ)
      { rtol := 1 / 1000, atol := 1 / 1000, normY := maxNorm, normF := maxNorm, kappa := 1 / 100, cauchy := true
        isNewton := true, lower := none, upper := some fun _ => 100, jac := fun _ => !![2, 1; 0, 1]
        linearSolve := fun _ b => (![(b 0 - b 1) / 2, b 1], .successful)
        inf := 1000, isfinite := fun _ => true, resolution := 1 / 1000000 })
      (fun _ => true) (fun y => (Matrix.mulVec !![2, 1; 0, 1] (y - ![3, 5] : Fin 2 → ℝ), ())) () ![1, 7] (some 10) true =
        some (.ok sol) ∧ sol.result = .successful ∧ sol.value = ![3, 5] ∧ sol.numSteps ≤ 2 := by
  refine (C23_affine_exact _ _ () ![1, 7] !![2, 1; 0, 1] ![3, 5] (fun y => rfl) (fun y => rfl) ?_ ?_ ?_ ?_
    (goodNorm_maxNorm (ι := Fin 2)) (goodNorm_maxNorm (ι := Fin 2)) (by norm_num) ?_ (some 10) (by rintro n ⟨⟩; norm_num) true).2
  · intro x hx
    have h0 := congrFun hx 0
    have h1 := congrFun hx 1
    simp [Matrix.mulVec, dotProduct, Fin.sum_univ_two] at h0 h1
    funext i
    fin_cases i
    · show x 0 = 0; linarith
    · show x 1 = 0; linarith
  · intro b x _
    refine ⟨?_, rfl⟩
    funext i
    fin_cases i
    · simp [Matrix.mulVec, dotProduct, Fin.sum_univ_two]; ring
    · simp [Matrix.mulVec, dotProduct, Fin.sum_univ_two]
  · rintro l ⟨⟩
  · rintro u ⟨⟩ i
    fin_cases i <;> norm_num
  · unfold terminate init
    have : cauchyTermination (1 / 1000 : ℝ) (1 / 1000) maxNorm maxNorm ![1, 7] (fun _ : Fin 2 => (1000:ℝ))
        (fun _ : Fin 2 => 0) (fun _ => 1000) = false := by
      rw [Bool.eq_false_iff, Ne, C46_cauchy_iff_all_entries _ _ (by norm_num) (by norm_num)]
      intro h
      have := h.1 0
      norm_num at this
    simpa using this

end Verif.Props
