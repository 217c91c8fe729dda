import Verif.Props.Complexity
import Verif.Props.Bisection
import Verif.Props.BestSoFar
import Verif.Props.NelderMead
import Verif.Props.Dogleg
import Verif.Props.Damping
import Verif.Props.TrustMinimise
import Verif.Lemmas.Euclid

/-!
Property C129: errors in the values of the function. The solvers that work by comparing values (`Bisection`, line searches, trust regions,
`BestSoFar…`, `NelderMead`) are run on `fn`, which is within `ε` of the function that is meant; nothing else is asked of the error, which may be
as irregular as rounding makes it.
-/

namespace Verif.Props
open Verif Verif.Driver Verif.Spec Verif.SearchLoop

section bisection
variable {A : Type}

/-- Between the ends of a bracket of `fn` there is a point at which the true function is at most `ε`. -/
theorem noisy_between (fn f : ℝ → ℝ) (hf : Continuous f) (ε : ℝ) (hε : ∀ x, |fn x - f x| ≤ ε) (b : Bool) (l u : ℝ)
    (hb : Brackets fn b l u) : ∃ x ∈ Set.uIcc l u, |f x| ≤ ε := by
  have el := abs_le.1 (hε l)
  have eu := abs_le.1 (hε u)
  have hε0 : 0 ≤ ε := (abs_nonneg _).trans (hε l)
  by_cases c1 : |f l| ≤ ε
  · exact ⟨l, Set.left_mem_uIcc, c1⟩
  by_cases c2 : |f u| ≤ ε
  · exact ⟨u, Set.right_mem_uIcc, c2⟩
  rw [abs_le, not_and_or, not_le, not_le] at c1 c2
  have h0 : (0 : ℝ) ∈ Set.uIcc (f l) (f u) := by
    cases b with
    | false =>
      obtain ⟨b1, b2⟩ := hb
      refine Set.Icc_subset_uIcc ⟨?_, ?_⟩
      · rcases c1 with c | c <;> linarith
      · rcases c2 with c | c <;> linarith
    | true =>
      obtain ⟨b1, b2⟩ := hb
      refine Set.Icc_subset_uIcc' ⟨?_, ?_⟩
      · rcases c2 with c | c <;> linarith
      · rcases c1 with c | c <;> linarith
  obtain ⟨x, hx, hx0⟩ := intermediate_value_uIcc hf.continuousOn h0
  exact ⟨x, hx, by rw [hx0, abs_zero]; exact hε0⟩

/-- **C129.** `Bisection` on a function whose values are off by at most `ε` (so that `fn` need not be continuous or monotone): if the solve
succeeds, within half of `atol + rtol*|y|` of the answer there is a point at which the true function is at most `ε` in magnitude, where `y` is the
last point tried. -/
theorem C129_bisection (cfg : Bisection.Cfg ℝ) (fn : ℝ → ℝ × A) (aux0 : A) (y0 : ℝ) (af : ℝ → Bool) (ms : Option Nat) (throw : Bool)
    (sol : Solution ℝ A (Bisection.State ℝ) Unit)
    (hflip : ∀ b, cfg.flip = .fixed b → Brackets (fun x => (fn x).1) b cfg.lower cfg.upper)
    (f : ℝ → ℝ) (hf : Continuous f) (ε : ℝ) (hε : ∀ x, |(fn x).1 - f x| ≤ ε)
    (h : rootFind (Bisection.solver cfg) af fn aux0 y0 ms throw = some (.ok sol)) (hs : sol.result = .successful) :
    ∃ st0 n, (Bisection.solver cfg).init fn y0 = .ok st0 ∧ sol.numSteps = n + 1 ∧
      let y := iterateAt (Bisection.solver cfg) fn aux0 y0 st0 n
      |f y| < cfg.atol + ε ∧ ∃ x, |f x| ≤ ε ∧ |x - sol.value| < (cfg.atol + cfg.rtol * |y|) / 2 := by
  -- a continuous function with the sign pattern of `fn` at the bracket that is within `ε` of `f` there
  obtain ⟨st0, hi, ht, _, _, _⟩ := C02_success_is_certificate _ _ _ _ _ _ _ _ h hs
  obtain ⟨_, _, st0', hi', hstate, hp⟩ := C01_step_budget _ _ _ _ _ _ _ _ h
  rw [hi] at hi'; cases hi'
  replace ht : Bisection.terminate cfg _ _ = _ := ht
  unfold Bisection.terminate at ht
  simp only [Prod.mk.injEq, and_true, Bool.and_eq_true, decide_eq_true_eq, HasAbs.abs_real] at ht
  obtain ⟨ht1, ht2⟩ := ht
  have hval : sol.value = iterateAt (Bisection.solver cfg) fn aux0 y0 st0 sol.numSteps := congrArg Prod.fst hp
  cases hn : sol.numSteps with
  | zero =>
    exfalso
    rw [hn] at hstate
    have hnone : st0.error = none := by
      replace hi : Bisection.init cfg fn y0 = .ok st0 := hi
      unfold Bisection.init at hi
      split at hi
      · cases hi
      split at hi
      · split at hi
        · cases hi; rfl
        · dsimp only at hi
          split at hi
          · split at hi
            · cases hi
            · cases hi; rfl
          · split at hi
            · cases hi
            · cases hi; rfl
        · cases hi
      · cases hi
    rw [hstate] at ht2
    have : (stateAt (Bisection.solver cfg) fn aux0 y0 st0 0).error = none := hnone
    rw [this] at ht2
    cases ht2
  | succ n =>
    refine ⟨st0, n, hi, rfl, ?_⟩
    rw [hn] at hstate hval ht1
    simp only [Nat.add_sub_cancel] at ht1
    obtain ⟨hb, _⟩ := C13_bracket_invariant cfg fn aux0 y0 st0 hi hflip (n + 1)
    obtain ⟨_, herr, _⟩ := C13_bracket_invariant cfg fn aux0 y0 st0 hi hflip n
    rw [hstate] at ht1 ht2
    rw [herr] at ht2
    simp only [decide_eq_true_eq] at ht2
    set l := (stateAt (Bisection.solver cfg) fn aux0 y0 st0 (n + 1)).lower with hl
    set u := (stateAt (Bisection.solver cfg) fn aux0 y0 st0 (n + 1)).upper with hu
    obtain ⟨x, hx, hfx⟩ := noisy_between (fun x => (fn x).1) f hf ε hε _ l u hb
    refine ⟨?_, x, hfx, ?_⟩
    · have h1 := hε (iterateAt (Bisection.solver cfg) fn aux0 y0 st0 n)
      rw [abs_lt] at ht2 ⊢
      rw [abs_le] at h1
      constructor <;> linarith [ht2.1, ht2.2, h1.1, h1.2]
    · rw [hval, bisection_midpoint]
      rw [Set.mem_uIcc] at hx
      rw [abs_lt] at ht1 ⊢
      rcases hx with hx | hx <;> constructor <;> linarith [hx.1, hx.2, ht1.1, ht1.2]

/-- **C129.** If moreover the true function has the root `r` and moves away from zero at least at the rate `m`, the answer is within `ε/m` plus
half the tolerance of `r`. -/
theorem C129_bisection_root (cfg : Bisection.Cfg ℝ) (fn : ℝ → ℝ × A) (aux0 : A) (y0 : ℝ) (af : ℝ → Bool) (ms : Option Nat) (throw : Bool)
    (sol : Solution ℝ A (Bisection.State ℝ) Unit)
    (hflip : ∀ b, cfg.flip = .fixed b → Brackets (fun x => (fn x).1) b cfg.lower cfg.upper)
    (f : ℝ → ℝ) (hf : Continuous f) (ε : ℝ) (hε : ∀ x, |(fn x).1 - f x| ≤ ε) (r m : ℝ) (hm : 0 < m)
    (hr : ∀ x, m * |x - r| ≤ |f x|)
    (h : rootFind (Bisection.solver cfg) af fn aux0 y0 ms throw = some (.ok sol)) (hs : sol.result = .successful) :
    ∃ st0 n, (Bisection.solver cfg).init fn y0 = .ok st0 ∧ sol.numSteps = n + 1 ∧
      |sol.value - r| < ε / m + (cfg.atol + cfg.rtol * |iterateAt (Bisection.solver cfg) fn aux0 y0 st0 n|) / 2 := by
  obtain ⟨st0, n, hi, hn, -, x, h1, h2⟩ := C129_bisection cfg fn aux0 y0 af ms throw sol hflip f hf ε hε h hs
  refine ⟨st0, n, hi, hn, ?_⟩
  have h3 : |x - r| ≤ ε / m := by
    rw [le_div_iff₀ hm]
    linarith [hr x]
  have h4 : |sol.value - r| ≤ |x - sol.value| + |x - r| := by
    rw [abs_sub_comm x sol.value]
    exact abs_sub_le _ _ _
  linarith

/-- **C129.** If the errors are less than half of `atol`, the solve succeeds within some number of steps. -/
theorem C129_bisection_terminates (cfg : Bisection.Cfg ℝ) (ha : 0 < cfg.atol) (hr : 0 ≤ cfg.rtol) (fn : ℝ → ℝ × A) (aux0 : A) (y0 : ℝ)
    (st0 : Bisection.State ℝ) (hi : (Bisection.solver cfg).init fn y0 = .ok st0)
    (hflip : ∀ b, cfg.flip = .fixed b → Brackets (fun x => (fn x).1) b cfg.lower cfg.upper)
    (f : ℝ → ℝ) (hf : Continuous f) (ε : ℝ) (hε : ∀ x, |(fn x).1 - f x| ≤ ε) (hlt : 2 * ε < cfg.atol) :
    ∃ N, ∀ (ms : Option Nat) (throw : Bool), (∀ n, ms = some n → N ≤ n) →
      ∃ sol, rootFind (Bisection.solver cfg) (fun _ => true) fn aux0 y0 ms throw = some (.ok sol) ∧
        sol.result = .successful ∧ sol.numSteps ≤ N := by
  let lo := min (min st0.lower st0.upper) y0
  let hi' := max (max st0.lower st0.upper) y0
  have huc := isCompact_Icc.uniformContinuousOn_of_continuous (hf.continuousOn (s := Set.Icc lo hi'))
  rw [Metric.uniformContinuousOn_iff] at huc
  obtain ⟨δ, hδ0, hδ⟩ := huc (cfg.atol - 2 * ε) (by linarith)
  have hlK : st0.lower ∈ Set.Icc lo hi' :=
    ⟨(min_le_left _ _).trans (min_le_left _ _), (le_max_left _ _).trans (le_max_left _ _)⟩
  have huK : st0.upper ∈ Set.Icc lo hi' :=
    ⟨(min_le_left _ _).trans (min_le_right _ _), (le_max_right _ _).trans (le_max_left _ _)⟩
  have hyK : y0 ∈ Set.Icc lo hi' := ⟨min_le_right _ _, le_max_right _ _⟩
  obtain ⟨k, hk⟩ : ∃ k : Nat, |(stateAt (Bisection.solver cfg) fn aux0 y0 st0 1).upper -
      (stateAt (Bisection.solver cfg) fn aux0 y0 st0 1).lower| / 2 ^ k < min δ cfg.atol := by
    have hpos : 0 < min δ cfg.atol := lt_min hδ0 ha
    obtain ⟨k, hk⟩ := pow_unbounded_of_one_lt (|(stateAt (Bisection.solver cfg) fn aux0 y0 st0 1).upper -
      (stateAt (Bisection.solver cfg) fn aux0 y0 st0 1).lower| / min δ cfg.atol) (one_lt_two (α := ℝ))
    refine ⟨k, ?_⟩
    rw [div_lt_iff₀ (by positivity)]
    rw [div_lt_iff₀ hpos] at hk
    linarith
  rw [← bisection_width] at hk
  refine ⟨k + 1, fun ms throw hms => ?_⟩
  refine bisection_succeeds cfg fn aux0 y0 st0 hi (k + 1) ?_ ms hms throw
  simp only [Nat.add_sub_cancel]
  obtain ⟨hb, _⟩ := C13_bracket_invariant cfg fn aux0 y0 st0 hi hflip (k + 1)
  obtain ⟨_, herr, hends⟩ := C13_bracket_invariant cfg fn aux0 y0 st0 hi hflip k
  obtain ⟨hl', hu', _⟩ := bisection_stays cfg fn aux0 y0 st0 _ Set.ordConnected_Icc hlK huK hyK (k + 1)
  obtain ⟨_, _, hyk⟩ := bisection_stays cfg fn aux0 y0 st0 _ Set.ordConnected_Icc hlK huK hyK k
  obtain ⟨x, hx, hx0⟩ := noisy_between (fun x => (fn x).1) f hf ε hε _ _ _ hb
  have hxK : x ∈ Set.Icc lo hi' := Set.ordConnected_Icc.uIcc_subset hl' hu' hx
  show Bisection.terminate _ _ _ = _
  unfold Bisection.terminate
  dsimp only
  rw [herr]
  simp only [Prod.mk.injEq, and_true, Bool.and_eq_true, decide_eq_true_eq, HasAbs.abs_real]
  constructor
  · rw [abs_sub_comm]
    have : 0 ≤ cfg.rtol * |iterateAt (Bisection.solver cfg) fn aux0 y0 st0 k| := mul_nonneg hr (abs_nonneg _)
    have := hk.trans_le (min_le_right _ _)
    linarith
  · have hd : |iterateAt (Bisection.solver cfg) fn aux0 y0 st0 k - x| < δ := by
      refine lt_of_le_of_lt ?_ (hk.trans_le (min_le_left _ _))
      rw [Set.mem_uIcc] at hx
      rcases hends with ⟨e1, _⟩ | ⟨_, e1⟩
      · rw [← e1]
        rcases hx with hx | hx
        · rw [abs_of_nonpos (by linarith [hx.1]), abs_of_nonneg (by linarith [hx.1, hx.2])]; linarith [hx.2]
        · rw [abs_of_nonneg (by linarith [hx.2]), abs_of_nonpos (by linarith [hx.1, hx.2])]; linarith [hx.1]
      · rw [← e1]
        rcases hx with hx | hx
        · rw [abs_of_nonneg (by linarith [hx.2]), abs_of_nonneg (by linarith [hx.1, hx.2])]; linarith [hx.1]
        · rw [abs_of_nonpos (by linarith [hx.1]), abs_of_nonpos (by linarith [hx.1, hx.2])]; linarith [hx.2]
    have h1 := hδ _ hyk _ hxK (by rw [Real.dist_eq]; exact hd)
    rw [Real.dist_eq] at h1
    have h2 := hε (iterateAt (Bisection.solver cfg) fn aux0 y0 st0 k)
    rw [abs_lt] at h1 ⊢
    rw [abs_le] at h2 hx0
    constructor <;> linarith [h1.1, h1.2, h2.1, h2.2, hx0.1, hx0.2]

/-- `x - 1` as an inexact version of `x - 1.05`: the solve succeeds, and its answer is within `0.05 + 0.05` of the true root. -/
example : ∃ sol, rootFind (Bisection.solver (A := Unit) (exCfg false (-1) 2)) (fun _ => true) (fun x => (x - 1, ()))
    () 0 none true = some (.ok sol) ∧ sol.result = .successful ∧ |sol.value - 1.05| < 0.1 := by
  obtain ⟨st0, h⟩ := ((C16_accepts_iff_partial (exCfg false (-1) 2) rfl rfl rfl ⟨true, rfl⟩ (fun x => (x - 1, ())) 0).1).2
    (Or.inl (by simp only [exCfg]; norm_num))
  obtain ⟨N, hN⟩ := C15_terminates (exCfg false (-1) 2) (by simp only [exCfg]; norm_num) (by simp [exCfg])
    (fun x => (x - 1, ())) () 0 st0 h (by intro b hb; cases hb) Set.univ Set.ordConnected_univ
    (by fun_prop) trivial trivial trivial
  obtain ⟨sol, h1, h2, _⟩ := hN none true (by simp)
  refine ⟨sol, h1, h2, ?_⟩
  obtain ⟨st0', n, -, -, hlt⟩ := C129_bisection_root (exCfg false (-1) 2) (fun x => (x - 1, ())) () 0 _ _ _ sol (by intro b hb; cases hb)
    (fun x => x - 1.05) (by fun_prop) 0.05 (fun x => by rw [show x - 1 - (x - 1.05) = (0.05 : ℝ) by norm_num]; norm_num [abs_of_pos]) 1.05 1 one_pos
    (fun x => by rw [one_mul]) h1 h2
  refine hlt.trans_eq ?_
  simp only [exCfg]
  norm_num

end bisection

section search
variable {ι κ A DS HS : Type} [Fintype ι] [Fintype κ]

theorem noisy_le {X : Type} (f F : X → ℝ) (ε : ℝ) (hε : ∀ x, |f x - F x| ≤ ε) (x y : X) (h : f x ≤ f y) : F x ≤ F y + 2 * ε := by
  have h1 := abs_le.1 (hε x)
  have h2 := abs_le.1 (hε y)
  linarith

/-- **C129.** Solvers with a backtracking line search, of the gradient family (`NonlinearCG`, steepest descent): whatever gradients they use,
the true objective at the answer exceeds the true objective at the start by at most `2ε`. -/
theorem C129_gradient_family (d s i : ℝ) (a : Armijo.Cfg ℝ) (ha : Armijo.new d s i = .ok a)
    (cfg : GradientDescent.Cfg ι ℝ DS) (hs : cfg.search = Armijo.search a) (aux0 : A) (fn : (ι → ℝ) → ℝ × A)
    (F : (ι → ℝ) → ℝ) (ε : ℝ) (hε : ∀ y, |(fn y).1 - F y| ≤ ε)
    (af : (ι → ℝ) → Bool) (y0 : ι → ℝ) (ms : Option Nat) (throw : Bool)
    (sol : Solution (ι → ℝ) A (GradientDescent.State ι A ℝ DS) Unit)
    (h : iterativeSolve (GradientDescent.solver cfg aux0) af fn aux0 y0 ms throw = some (.ok sol)) :
    F sol.value ≤ F y0 + 2 * ε :=
  noisy_le _ _ _ hε _ _ (C27_gradient_family d s i a ha cfg hs aux0 fn af y0 ms throw sol h).1

/-- **C129**, quasi-Newton family (`BFGS`, `DFP`, `LBFGS` with backtracking). -/
theorem C129_quasi_newton_family (d s i : ℝ) (a : Armijo.Cfg ℝ) (ha : Armijo.new d s i = .ok a)
    (cfg : QuasiNewton.Cfg ι ℝ DS HS) (hs : cfg.search = Armijo.search a) (hr : RecordsPoint cfg.hess) (aux0 : A)
    (fn : (ι → ℝ) → ℝ × A) (F : (ι → ℝ) → ℝ) (ε : ℝ) (hε : ∀ y, |(fn y).1 - F y| ≤ ε)
    (af : (ι → ℝ) → Bool) (y0 : ι → ℝ) (ms : Option Nat) (throw : Bool)
    (sol : Solution (ι → ℝ) A (QuasiNewton.State ι A ℝ DS HS) Unit)
    (h : iterativeSolve (QuasiNewton.solver cfg aux0) af fn aux0 y0 ms throw = some (.ok sol)) :
    F sol.value ≤ F y0 + 2 * ε :=
  noisy_le _ _ _ hε _ _ (C27_quasi_newton_family d s i a ha cfg hs hr aux0 fn af y0 ms throw sol h).1

theorem noisy_norm {X : Type} (r R : X → κ → ℝ) (ε : ℝ) (hε : ∀ x, Real.sqrt (∑ c, (r x c - R x c) ^ 2) ≤ ε) (x y : X)
    (h : ∑ c, r x c ^ 2 ≤ ∑ c, r y c ^ 2) : Real.sqrt (∑ c, R x c ^ 2) ≤ Real.sqrt (∑ c, R y c ^ 2) + 2 * ε := by
  have h0 : euclid (r x) ≤ euclid (r y) := Real.sqrt_le_sqrt h
  have h1 : euclid (R x) ≤ euclid (r x) + ε := by
    have h2 := euclid_add (r x) (fun c => R x c - r x c)
    have e : (fun c => r x c + (R x c - r x c)) = R x := by funext c; ring
    have e2 : euclid (fun c => R x c - r x c) = Real.sqrt (∑ c, (r x c - R x c) ^ 2) := by
      unfold euclid
      congr 1
      exact Finset.sum_congr rfl fun c _ => by ring
    rw [e, e2] at h2
    linarith [hε x]
  have h2 : euclid (r y) ≤ euclid (R y) + ε := by
    have h3 := euclid_add (R y) (fun c => r y c - R y c)
    have e : (fun c => R y c + (r y c - R y c)) = r y := by funext c; ring
    have e2 : euclid (fun c => r y c - R y c) = Real.sqrt (∑ c, (r y c - R y c) ^ 2) := rfl
    rw [e, e2] at h3
    linarith [hε y]
  change euclid (R x) ≤ euclid (R y) + 2 * ε
  linarith

/-- **C129.** Least-squares solvers with a backtracking line search, whatever descent and Jacobians they use. -/
theorem C129_gauss_newton_family (d s i : ℝ) (a : Armijo.Cfg ℝ) (ha : Armijo.new d s i = .ok a) (cfg : GaussNewton.Cfg ι κ ℝ DS)
    (hs : cfg.search = Armijo.search a) (aux0 : A) (fn : (ι → ℝ) → (κ → ℝ) × A)
    (R : (ι → ℝ) → κ → ℝ) (ε : ℝ) (hε : ∀ y, Real.sqrt (∑ c, ((fn y).1 c - R y c) ^ 2) ≤ ε)
    (af : (ι → ℝ) → Bool) (y0 : ι → ℝ) (ms : Option Nat) (throw : Bool)
    (sol : Solution (ι → ℝ) A (GaussNewton.State ι κ A ℝ DS) Unit)
    (h : iterativeSolve (GaussNewton.solver cfg aux0) af fn aux0 y0 ms throw = some (.ok sol)) :
    Real.sqrt (∑ c, R sol.value c ^ 2) ≤ Real.sqrt (∑ c, R y0 c ^ 2) + 2 * ε := by
  refine noisy_norm (fun y => (fn y).1) R ε hε _ _ ?_
  have := (C27_gauss_newton_family d s i a ha cfg hs aux0 fn af y0 ms throw sol h).1
  simpa only [sumSquares, pow_two] using this

/-- **C129.** `LevenbergMarquardt`, whatever Jacobians it uses. -/
theorem C129_levenberg_marquardt [DecidableEq ι] (eps fmax rtol atol : ℝ) (he : 0 ≤ eps) (hf : 0 < fmax)
    (nY : (ι → ℝ) → ℝ) (nF : (κ → ℝ) → ℝ) (ls : LinSolve ι (κ ⊕ ι)) (hls : SolvesLeastSquares ls)
    (jac : (ι → ℝ) → Matrix κ ι ℝ) (aux0 : A) (fn : (ι → ℝ) → (κ → ℝ) × A) (y0 : ι → ℝ)
    (R : (ι → ℝ) → κ → ℝ) (ε : ℝ) (hε : ∀ y, Real.sqrt (∑ c, ((fn y).1 c - R y c) ^ 2) ≤ ε)
    (af : (ι → ℝ) → Bool) (ms : Option Nat) (throw : Bool) (sol)
    (h : iterativeSolve (GaussNewton.solver (GaussNewton.levenbergMarquardt eps fmax rtol atol nY nF ls jac) aux0) af fn aux0 y0 ms throw =
      some (.ok sol)) :
    Real.sqrt (∑ c, R sol.value c ^ 2) ≤ Real.sqrt (∑ c, R y0 c ^ 2) + 2 * ε :=
  noisy_norm (fun y => (fn y).1) R ε hε _ _
    ((C41_levenberg_marquardt eps fmax rtol atol he hf nY nF ls hls jac aux0 fn y0).2 af ms throw sol h)

/-- **C129.** `Dogleg`, whatever Jacobians it uses. -/
theorem C129_dogleg (eps rtol atol : ℝ) (he : 0 ≤ eps) (nY : (ι → ℝ) → ℝ) (nF : (κ → ℝ) → ℝ) (ls : LinSolve ι κ)
    (hls : SolvesLeastSquares ls) (jac : (ι → ℝ) → Matrix κ ι ℝ) (aux0 : A) (fn : (ι → ℝ) → (κ → ℝ) × A) (y0 : ι → ℝ)
    (R : (ι → ℝ) → κ → ℝ) (ε : ℝ) (hε : ∀ y, Real.sqrt (∑ c, ((fn y).1 c - R y c) ^ 2) ≤ ε)
    (af : (ι → ℝ) → Bool) (ms : Option Nat) (throw : Bool) (sol)
    (h : iterativeSolve (GaussNewton.solver (GaussNewton.dogleg eps rtol atol nY nF ls jac) aux0) af fn aux0 y0 ms throw =
      some (.ok sol)) :
    Real.sqrt (∑ c, R sol.value c ^ 2) ≤ Real.sqrt (∑ c, R y0 c ^ 2) + 2 * ε :=
  noisy_norm (fun y => (fn y).1) R ε hε _ _
    ((C41_dogleg eps rtol atol he nY nF ls hls jac aux0 fn y0).2 af ms throw sol h)

omit [Fintype ι] in
/-- **C129.** `BestSoFarMinimiser` around a solver of the gradient family: the true objective at the answer is at most `2ε` above that at every
point the solver stepped from. -/
theorem C129_best_so_far {SS : Type} (cfg : GradientDescent.Cfg ι SS DS)
    (hf : ∀ y z i j s, (cfg.search.step true y z i j s).2.1 = true) (aux0 auxZero : A) (fn : (ι → ℝ) → ℝ × A)
    (F : (ι → ℝ) → ℝ) (ε : ℝ) (hε : ∀ y, |(fn y).1 - F y| ≤ ε)
    (af : (ι → ℝ) → Bool) (y0 : ι → ℝ) (ms : Option Nat) (throw : Bool) (sol)
    (h : iterativeSolve (BestSoFar.solver (GradientDescent.solver cfg ((0 : ℝ), aux0)) BestSoFar.minLoss ⊤ auxZero) af fn
      aux0 y0 ms throw = some (.ok sol)) (hn : 1 ≤ sol.numSteps) :
    ∃ st0, (GradientDescent.solver cfg ((0 : ℝ), aux0)).init (BestSoFar.auxmented fn) y0 = .ok st0 ∧
      let X := iterateAt (GradientDescent.solver cfg ((0 : ℝ), aux0)) (BestSoFar.auxmented fn) (0, aux0) y0 st0
      (∀ i, i < sol.numSteps → F sol.value ≤ F (X i) + 2 * ε) ∧ F sol.value ≤ F y0 + 2 * ε := by
  obtain ⟨st0, hi, -, h1, h2, -⟩ := C25_minimiser_gradient_family cfg hf aux0 auxZero fn af y0 ms throw sol h hn
  exact ⟨st0, hi, fun i hi' => noisy_le _ _ _ hε _ _ (h1 i hi'), noisy_le _ _ _ hε _ _ h2⟩

/-- **C129.** `NelderMead`: if it succeeds, one vertex `b` of the last simplex is within tolerance of the answer, and the true objective at every
vertex is at least the true objective at `b` minus `2ε`, and at most that plus the tolerance plus `2ε`. -/
theorem C129_nelder_mead {n : ℕ} [NeZero n] (cfg : NelderMead.Cfg n ι) (aux0 : A) (fn : (ι → ℝ) → ℝ × A) (y0 : ι → ℝ)
    (hx : cfg.normX = maxNorm) (hf : cfg.normF = maxNorm) (ha : 0 < cfg.atol) (hr : 0 ≤ cfg.rtol)
    (F : (ι → ℝ) → ℝ) (ε : ℝ) (hε : ∀ y, |(fn y).1 - F y| ≤ ε)
    (af : (ι → ℝ) → Bool) (ms : Option Nat) (throw : Bool) (sol : Solution (ι → ℝ) A (NelderMead.State n ι A) NelderMead.Stats)
    (h : iterativeSolve (NelderMead.solver cfg aux0) af (fun y => (((fn y).1 : NelderMead.Val), (fn y).2)) aux0 y0 ms throw = some (.ok sol))
    (hsucc : sol.result = .successful) :
    ∃ b : Fin n, (∀ c, |sol.state.simplex b c - sol.value c| < cfg.atol + cfg.rtol * |sol.value c|) ∧
      ∀ i, F (sol.state.simplex b) - 2 * ε ≤ F (sol.state.simplex i) ∧
        F (sol.state.simplex i) < F (sol.state.simplex b) + (cfg.atol + cfg.rtol * (|F (sol.state.simplex b)| + ε)) + 2 * ε := by
  obtain ⟨-, h2, m, ⟨b, hb⟩, h3⟩ := C44_success cfg aux0 _ y0 hx hf ha hr af ms throw sol h hsucc
  have hb' : (fn (sol.state.simplex b)).1 = m := WithTop.coe_injective hb
  refine ⟨b, h2 b, fun i => ?_⟩
  obtain ⟨v, hv, hv1, hv2⟩ := h3 i
  have hv' : (fn (sol.state.simplex i)).1 = v := WithTop.coe_injective hv
  have e1 := abs_le.1 (hε (sol.state.simplex b))
  have e2 := abs_le.1 (hε (sol.state.simplex i))
  rw [hb'] at e1
  rw [hv'] at e2
  have hm : |m| ≤ |F (sol.state.simplex b)| + ε := by
    have := hε (sol.state.simplex b)
    rw [hb'] at this
    have h4 := abs_add_le (m - F (sol.state.simplex b)) (F (sol.state.simplex b))
    rw [sub_add_cancel] at h4
    linarith
  have h5 := mul_le_mul_of_nonneg_left hm hr
  constructor <;> linarith [e1.1, e1.2, e2.1, e2.2]

/-- The hypotheses of `C129_gradient_family` are met by a run of backtracking steepest descent on `y²` computed with an error of a tenth. -/
example (e : (Unit → ℝ) → ℝ) (he : ∀ y, |e y| ≤ 1 / 10) : ∃ sol, iterativeSolve (GradientDescent.solver exGD ())
    (fun _ => true) (fun y => (y () ^ 2 + e y, ())) () (fun _ => 1) (some 7) false = some (.ok sol) ∧ sol.value () ^ 2 ≤ 12 / 10 := by
  obtain ⟨a, ha⟩ := (C55_armijo_valid_iff 0.5 0.1 1).1.2 (by norm_num)
  obtain ⟨rfl, _⟩ := armijo_new _ _ _ _ ha
  obtain ⟨sol, h⟩ := C05_bounded_returns (GradientDescent.solver exGD ()) (fun _ => true) (fun y : Unit → ℝ => (y () ^ 2 + e y, ())) ()
    (fun _ => (1 : ℝ)) _ rfl 7
  refine ⟨sol, h, ?_⟩
  have := C129_gradient_family 0.5 0.1 1 _ ha exGD rfl () _ (fun y => y () ^ 2) (1 / 10) (fun y => by
    show |y () ^ 2 + e y - y () ^ 2| ≤ 1 / 10
    rw [add_sub_cancel_left]; exact he y) _ _ _ _ sol h
  refine le_trans this (by norm_num)

/-! ### How far a line search gets -/

/-- Backtracking in numbers: `e` the values, `g` the squared gradients and `T` the step sizes; a trial is accepted if its step is between `t` and
`τ` and the squared gradient is above `c`. -/
theorem noisy_backtracking (e g T : ℕ → ℝ) (s d t0 t τ c m B : ℝ) (hs : 0 < s) (hd0 : 0 < d) (hd1 : d < 1) (ht : 0 < t) (ht0 : t ≤ t0)
    (hτ : t ≤ d * τ) (hc : 0 ≤ c) (hT : T 0 = t0)
    (hstep : ∀ k, (e (k + 1) ≤ e k - s * (T k * g k) ∧ T (k + 1) = t0) ∨
      (e (k + 1) = e k ∧ T (k + 1) = d * T k ∧ (t ≤ T k → T k ≤ τ → c < g k → False)))
    (hlow : ∀ k, m ≤ e k) (hB : e 0 - m ≤ B) (q : ℕ) (hq : t0 * d ^ q < t) (N : ℕ) (hN : 1 ≤ N) :
    ∃ k, k < q * N ∧ g k ≤ max c (B / (N * (s * t))) := by
  by_contra hno
  push Not at hno
  have hbig : ∀ k, k < q * N → c < g k ∧ B / (N * (s * t)) < g k := fun k hk => max_lt_iff.1 (hno k hk)
  have hNpos : (0 : ℝ) < N := by exact_mod_cast hN
  have hrange : ∀ k, k ≤ q * N → t ≤ T k ∧ T k ≤ t0 := by
    intro k
    induction k with
    | zero => intro _; rw [hT]; exact ⟨ht0, le_rfl⟩
    | succ k ih =>
      intro hk
      obtain ⟨i1, i2⟩ := ih (by omega)
      rcases hstep k with ⟨-, h⟩ | ⟨-, h, hr⟩
      · rw [h]; exact ⟨ht0, le_rfl⟩
      · have hlt : τ < T k := by
          by_contra hle
          exact hr i1 (not_lt.1 hle) (hbig k (by omega)).1
        rw [h]
        refine ⟨hτ.trans (mul_le_mul_of_nonneg_left hlt.le hd0.le), ?_⟩
        nlinarith
  have hanti : ∀ k, k < q * N → e (k + 1) ≤ e k := by
    intro k hk
    rcases hstep k with ⟨h, -⟩ | ⟨h, -⟩
    · have h1 := (hrange k hk.le).1
      have h2 := hc.trans (hbig k hk).1.le
      have : 0 ≤ s * (T k * g k) := mul_nonneg hs.le (mul_nonneg (ht.le.trans h1) h2)
      linarith
    · exact h.le
  have hanti' : ∀ j k, j ≤ k → k ≤ q * N → e k ≤ e j := by
    intro j k hjk
    induction k, hjk using Nat.le_induction with
    | base => intro _; exact le_rfl
    | succ k _ ih => intro hk; exact (hanti k (by omega)).trans (ih (by omega))
  have hqpos : 0 < q := by
    rcases Nat.eq_zero_or_pos q with rfl | h
    · simp only [pow_zero, mul_one] at hq
      exact absurd hq (not_lt.2 ht0)
    · exact h
  have hblock : ∀ k, k + q ≤ q * N → B / N < e k - e (k + q) := by
    intro k hk
    have hacc : ∃ j, j < q ∧ e (k + j + 1) ≤ e (k + j) - s * (T (k + j) * g (k + j)) := by
      by_contra hnone
      push Not at hnone
      have hT' : ∀ j, j ≤ q → T (k + j) ≤ t0 * d ^ j := by
        intro j
        induction j with
        | zero => intro _; simpa using (hrange k (by omega)).2
        | succ j ih =>
          intro hj
          rcases hstep (k + j) with ⟨h, -⟩ | ⟨-, h, -⟩
          · exact absurd h (not_le.2 (hnone j (by omega)))
          · have h1 := ih (by omega)
            rw [show k + (j + 1) = k + j + 1 by ring, h, pow_succ]
            calc d * T (k + j) ≤ d * (t0 * d ^ j) := mul_le_mul_of_nonneg_left h1 hd0.le
              _ = _ := by ring
      have h1 := hT' q le_rfl
      have h2 := (hrange (k + q) hk).1
      linarith
    obtain ⟨j, hj, hacc⟩ := hacc
    have hkj : k + j < q * N := by omega
    have h1 := hanti' k (k + j) (by omega) hkj.le
    have h2 := hanti' (k + j + 1) (k + q) (by omega) hk
    have h3 := (hrange (k + j) hkj.le).1
    have h4 := (hbig (k + j) hkj).2
    have h5 : 0 ≤ g (k + j) := hc.trans (hbig _ hkj).1.le
    have h6 : s * t * g (k + j) ≤ s * (T (k + j) * g (k + j)) := by
      rw [mul_assoc]
      exact mul_le_mul_of_nonneg_left (mul_le_mul_of_nonneg_right h3 h5) hs.le
    have h7 : B / N < s * t * g (k + j) := by
      have hst : 0 < s * t := mul_pos hs ht
      rw [div_lt_iff₀ (by positivity)] at h4
      rw [div_lt_iff₀ hNpos]
      linarith
    linarith
  have htel : ∀ n : ℕ, n ≤ N → (n : ℝ) * (B / N) ≤ e 0 - e (q * n) ∧ (n ≠ 0 → (n : ℝ) * (B / N) < e 0 - e (q * n)) := by
    intro n
    induction n with
    | zero => intro _; simp
    | succ n ih =>
      intro hn
      have h1 := (ih (by omega)).1
      have hle : q * n + q ≤ q * N := by
        calc q * n + q = q * (n + 1) := by ring
          _ ≤ q * N := Nat.mul_le_mul_left q hn
      have h2 := hblock (q * n) hle
      have : ((n + 1 : ℕ) : ℝ) * (B / N) < e 0 - e (q * (n + 1)) := by
        rw [show q * (n + 1) = q * n + q by ring]
        push_cast
        linarith
      exact ⟨this.le, fun _ => this⟩
  have h1 := (htel N le_rfl).2 (by omega)
  rw [mul_div_cancel₀ _ hNpos.ne'] at h1
  linarith [hlow (q * N)]

/-- **C129.** How far steepest descent with backtracking gets when the values of an `L`-smooth objective `F`, bounded below by `m`, are off by up
to `ε`, and the gradients are those of `F`. `q` trials suffice for an accepted step while the squared gradient is above
`4ε / ((1 - slope) t)`, where `t` is the smallest step size tried; so for every `N ≥ 1` one of the first `q N` points has a squared gradient of at
most that, or of at most `(F(y0) - m + 2ε) / (N slope t)`. -/
theorem C129_backtracking (d s i : ℝ) (a : Armijo.Cfg ℝ) (ha : Armijo.new d s i = .ok a)
    (rtol atol : ℝ) (nY : (ι → ℝ) → ℝ) (nF : (Unit → ℝ) → ℝ) (grad : (ι → ℝ) → (ι → ℝ)) (aux0 : A)
    (fn : (ι → ℝ) → ℝ × A) (y0 : ι → ℝ) (F : (ι → ℝ) → ℝ) (L m ε : ℝ) (hL0 : 0 < L) (hL : LipschitzGradient F grad L)
    (hlow : ∀ y, m ≤ F y) (hε : ∀ y, |(fn y).1 - F y| ≤ ε) (t : ℝ) (ht : t = min a.stepInit (a.decreaseFactor * ((1 - a.slope) / L)))
    (q : ℕ) (hq : a.stepInit * a.decreaseFactor ^ q < t) :
    let S := GradientDescent.solver (backtrackingDescent a rtol atol nY nF grad) aux0
    ∃ st0, S.init fn y0 = .ok st0 ∧ ∀ N : ℕ, 1 ≤ N → ∃ k, k < q * N ∧
      ∑ c, grad (iterateAt S fn aux0 y0 st0 (k + 1)) c ^ 2 ≤
        max (4 * ε / ((1 - a.slope) * t)) ((F y0 - m + 2 * ε) / (N * (a.slope * t))) := by
  intro S
  obtain ⟨rfl, hd0, hd1, hs0, hs1, hi0⟩ := armijo_new d s i a ha
  have h1s : 0 < 1 - s := by linarith
  have htm0 : 0 < t := by
    rw [ht]
    refine lt_min hi0 ?_
    show 0 < d * ((1 - s) / L)
    positivity
  have hε0 : 0 ≤ ε := (abs_nonneg _).trans (hε y0)
  obtain ⟨st0, hi⟩ : ∃ st0, S.init fn y0 = .ok st0 := ⟨_, rfl⟩
  refine ⟨st0, hi, ?_⟩
  set Y := iterateAt S fn aux0 y0 st0 with hYdef
  set cfg := backtrackingDescent ⟨d, s, i⟩ rtol atol nY nF grad with hcfg
  have LL := gd_laws cfg aux0 fn
  have LA : Laws S fn (fun y => (fn y).1) (Armijo.search ⟨d, s, i⟩) cfg.descent (gdView fn) _ := LL
  have hG : ∀ y (i : FnInfo ι Unit), i = .evalGrad (fn y).1 (cfg.grad y) → i.grad? = some (cfg.grad y) := by
    rintro y i rfl; rfl
  have hrel := steepest_related ⟨d, s, i⟩ rtol atol nY nF grad aux0 fn y0 st0 hi
  set T := fun k => (stateAt S fn aux0 y0 st0 (k + 1)).searchState with hT
  have htrial : ∀ k, (stateAt S fn aux0 y0 st0 (k + 1)).yEval = fun c => Y (k + 1) c + T k * -grad (Y (k + 1)) c := by
    intro k
    have h1 := armijo_trial LA hG aux0 y0 st0 hi k
    have h2 := congrArg Prod.fst (hrel (k + 1) (by omega) (T k))
    refine h1.trans ?_
    funext c
    exact congrArg (fun p : ι → ℝ => Y (k + 1) c + p c) h2
  have hdot : ∀ k, treeDot (grad (Y (k + 1))) (fun c => (Y (k + 1) c + T k * -grad (Y (k + 1)) c) - Y (k + 1) c) =
      -(T k * ∑ c, grad (Y (k + 1)) c ^ 2) := by
    intro k
    unfold treeDot
    rw [Finset.mul_sum, ← Finset.sum_neg_distrib]
    exact Finset.sum_congr rfl fun c _ => by ring
  have hsq : ∀ k, sumSquares (fun c => (Y (k + 1) c + T k * -grad (Y (k + 1)) c) - Y (k + 1) c) =
      T k ^ 2 * ∑ c, grad (Y (k + 1)) c ^ 2 := by
    intro k
    unfold sumSquares
    rw [Finset.mul_sum]
    exact Finset.sum_congr rfl fun c _ => by ring
  have hg0 : ∀ k, 0 ≤ ∑ c, grad (Y (k + 1)) c ^ 2 := fun k => Finset.sum_nonneg fun c _ => sq_nonneg _
  intro N hN
  refine noisy_backtracking (fun k => (fn (Y (k + 1))).1) (fun k => ∑ c, grad (Y (k + 1)) c ^ 2) T s d i t ((1 - s) / L) _ (m - ε) _ hs0 hd0
    hd1 htm0 (ht.le.trans (min_le_left _ _)) (ht.le.trans (min_le_right _ _)) (by positivity) (armijo_start LA aux0 y0 st0 hi).2.1
    (fun k => ?_) (fun k => ?_) ?_ q hq N hN
  · rcases (armijo_run LA hG aux0 y0 st0 hi k).2 with ⟨hA, hy, hs⟩ | ⟨hA, hy, hs, -⟩
    · refine Or.inl ⟨?_, hs⟩
      have hy' : Y (k + 1 + 1) = fun c => Y (k + 1) c + T k * -grad (Y (k + 1)) c := hy.trans (htrial k)
      have hA' := hA.1
      change (fn (stateAt S fn aux0 y0 st0 (k + 1)).yEval).1 ≤ (fn (Y (k + 1))).1 +
        s * treeDot (grad (Y (k + 1))) (fun c => (stateAt S fn aux0 y0 st0 (k + 1)).yEval c - Y (k + 1) c) at hA'
      rw [htrial, hdot] at hA'
      show (fn (Y (k + 1 + 1))).1 ≤ _
      rw [hy']
      linarith
    · have hy' : Y (k + 1 + 1) = Y (k + 1) := hy
      refine Or.inr ⟨by show (fn (Y (k + 1 + 1))).1 = _; rw [hy'], hs, fun h1 h2 h3 => hA ?_⟩
      change ArmijoHolds s (fun y => (fn y).1) (grad (Y (k + 1))) (Y (k + 1)) (stateAt S fn aux0 y0 st0 (k + 1)).yEval
      rw [htrial, ArmijoHolds, hdot]
      have hT0 : 0 < T k := htm0.trans_le h1
      refine ⟨?_, neg_nonpos.2 (mul_nonneg hT0.le (hg0 k))⟩
      have h4 := hL.bound (Y (k + 1)) (fun c => Y (k + 1) c + T k * -grad (Y (k + 1)) c)
      rw [hdot, hsq] at h4
      have e1 := abs_le.1 (hε (Y (k + 1)))
      have e2 := abs_le.1 (hε (fun c => Y (k + 1) c + T k * -grad (Y (k + 1)) c))
      set g := ∑ c, grad (Y (k + 1)) c ^ 2 with hgdef
      have hg := hg0 k
      rw [← hgdef] at hg
      have h5 : T k * L ≤ 1 - s := (le_div_iff₀ hL0).1 h2
      have h6 : 4 * ε < (1 - s) * t * g := by
        have := (div_lt_iff₀ (mul_pos h1s htm0)).1 h3
        linarith
      have h7 : (1 - s) * t * g ≤ (1 - s) * (T k * g) := by
        rw [mul_assoc]
        exact mul_le_mul_of_nonneg_left (mul_le_mul_of_nonneg_right h1 hg) h1s.le
      have h8 : L / 2 * (T k ^ 2 * g) ≤ (1 - s) / 2 * (T k * g) := by
        have : L / 2 * (T k ^ 2 * g) = T k * L / 2 * (T k * g) := by ring
        rw [this]
        exact mul_le_mul_of_nonneg_right (by linarith) (mul_nonneg hT0.le hg)
      show (fn _).1 ≤ (fn (Y (k + 1))).1 + s * -(T k * g)
      linarith [e1.1, e1.2, e2.1, e2.2]
  · have e1 := abs_le.1 (hε (Y (k + 1)))
    have := hlow (Y (k + 1))
    show m - ε ≤ (fn (Y (k + 1))).1
    linarith [e1.1]
  · have e1 := abs_le.1 (hε y0)
    have hY1 : Y (0 + 1) = y0 := (armijo_start LA aux0 y0 st0 hi).1
    show (fn (Y (0 + 1))).1 - (m - ε) ≤ _
    rw [hY1]
    linarith [e1.2]

/-- **C129.** The floor is real. Whatever the settings of the line search and however small `ε > 0`, if a single value of `y²/2`, the one at the
start `y0 ≠ 0`, is computed too small by `ε > y0²/2`, then steepest descent with backtracking rejects every trial: without `max_steps` the solve
never returns, and with it the budget is used up. -/
theorem C129_below_the_noise (d s i : ℝ) (a : Armijo.Cfg ℝ) (ha : Armijo.new d s i = .ok a) (rtol atol : ℝ)
    (nY : (Unit → ℝ) → ℝ) (nF : (Unit → ℝ) → ℝ) (ε x : ℝ) (hx : x ≠ 0) (hε : x ^ 2 / 2 < ε) :
    ∃ f : (Unit → ℝ) → ℝ, (∀ y, |f y - y () ^ 2 / 2| ≤ ε) ∧
      let S := GradientDescent.solver (backtrackingDescent a rtol atol nY nF fun y => y) ()
      iterativeSolve S (fun _ => true) (fun y => (f y, ())) () (fun _ => x) none false = none ∧
      ∀ m, ∃ sol, iterativeSolve S (fun _ => true) (fun y => (f y, ())) () (fun _ => x) (some m) false = some (.ok sol) ∧
        sol.result = .nonlinearMaxStepsReached ∧ sol.numSteps = m ∧ sol.value = fun _ => x := by
  classical
  have hε0 : 0 < ε := lt_of_le_of_lt (by positivity) hε
  refine ⟨fun y => if y () = x then x ^ 2 / 2 - ε else y () ^ 2 / 2, fun y => ?_, ?_⟩
  · dsimp only
    split_ifs with h
    · rw [h, show x ^ 2 / 2 - ε - x ^ 2 / 2 = -ε by ring, abs_neg, abs_of_pos hε0]
    · rw [sub_self, abs_zero]; exact hε0.le
  intro S
  set fn : (Unit → ℝ) → ℝ × Unit := fun y => (if y () = x then x ^ 2 / 2 - ε else y () ^ 2 / 2, ()) with hfn
  set y0 : Unit → ℝ := fun _ => x with hy0
  obtain ⟨rfl, hd0, hd1, hs0, hs1, hi0⟩ := armijo_new d s i a ha
  obtain ⟨st0, hi⟩ : ∃ st0, S.init fn y0 = .ok st0 := ⟨_, rfl⟩
  set stk : ℝ → GradientDescent.State Unit Unit ℝ (Unit → ℝ) := fun T =>
    { firstStep := false, yEval := fun _ => x + -T * x, searchState := T, fInfo := .evalGrad (x ^ 2 / 2 - ε) y0, aux := (),
      descentState := y0, terminate := false, result := .successful } with hstk
  have hfirst : S.step fn y0 st0 = (y0, stk i, ()) := by
    cases hi
    have hf0 : fn y0 = (x ^ 2 / 2 - ε, ()) := by simp [hfn, hy0]
    simp only [S, GradientDescent.solver, GradientDescent.step, backtrackingDescent, steepestDescent, Armijo.search, Armijo.decide',
      Bool.true_or, if_true, hf0, FnInfo.grad?, Option.getD_some]
    rfl
  have hrej : ∀ T, 0 < T → S.step fn y0 (stk T) = (y0, stk (d * T), ()) := by
    intro T hT
    have hne : ¬ (x + -T * x = x) := by
      intro h
      have : T * x = 0 := by linarith
      rcases mul_eq_zero.1 this with h | h
      · exact hT.ne' h
      · exact hx h
    have hf1 : fn (fun _ => x + -T * x) = ((x + -T * x) ^ 2 / 2, ()) := by simp only [hfn, if_neg hne]
    have hdot : FnInfo.gradDot? (fun c => (x + -T * x) - y0 c) (FnInfo.evalGrad (x ^ 2 / 2 - ε) y0 : FnInfo Unit Unit) = some (-(T * x ^ 2)) := by
      simp only [FnInfo.gradDot?, treeDot, Finset.univ_unique, Finset.sum_singleton, hy0]
      congr 1
      ring
    have hno : ¬ ((x + -T * x) ^ 2 / 2 - (x ^ 2 / 2 - ε) ≤ s * -(T * x ^ 2)) := by
      rw [not_le]
      have h1 : 0 ≤ s * (T * x ^ 2) := by positivity
      have h2 : 0 ≤ (x + -T * x) ^ 2 / 2 := by positivity
      linarith
    simp only [S, hstk, GradientDescent.solver, GradientDescent.step, backtrackingDescent, steepestDescent, Armijo.search, Armijo.decide',
      hf1, hdot, Option.getD_some, Bool.false_or]
    simp only [FnInfo.asMin, hno, decide_false, Bool.false_and, Bool.false_eq_true, if_false, if_true]
    rfl
  have hstay : ∀ k, iterateAt S fn () y0 st0 (k + 1) = y0 ∧ stateAt S fn () y0 st0 (k + 1) = stk (i * d ^ k) := by
    intro k
    induction k with
    | zero =>
      refine ⟨congrArg Prod.fst hfirst, (congrArg (fun p => p.2.1) hfirst).trans ?_⟩
      rw [pow_zero, mul_one]
    | succ k ih =>
      have h1 : iterateAt S fn () y0 st0 (k + 1 + 1) =
          (S.step fn (iterateAt S fn () y0 st0 (k + 1)) (stateAt S fn () y0 st0 (k + 1))).1 := rfl
      have h2 : stateAt S fn () y0 st0 (k + 1 + 1) =
          (S.step fn (iterateAt S fn () y0 st0 (k + 1)) (stateAt S fn () y0 st0 (k + 1))).2.1 := rfl
      rw [h1, h2, ih.1, ih.2, hrej _ (by positivity)]
      exact ⟨rfl, congrArg stk (by ring)⟩
  have hcont : ∀ k, Continues S (fun _ => true) fn () y0 st0 k := by
    intro k
    refine ⟨rfl, ?_⟩
    obtain _ | k := k
    · cases hi; rfl
    · show ((stateAt S fn () y0 st0 (k + 1)).terminate, (stateAt S fn () y0 st0 (k + 1)).result) = _
      rw [(hstay k).2]
  obtain ⟨n1, n2⟩ := never_stops S (fun _ => true) fn () y0 st0 hi hcont
  refine ⟨n1, fun m => ?_⟩
  obtain ⟨sol, h1, h2, h3⟩ := n2 m
  refine ⟨sol, h1, h2, h3, ?_⟩
  obtain ⟨_, _, st0', hi', _, hp⟩ := C01_step_budget _ _ _ _ _ _ _ _ h1
  rw [hi] at hi'; cases hi'
  have hv : sol.value = iterateAt S fn () y0 st0 sol.numSteps := congrArg Prod.fst hp
  rw [hv]
  cases sol.numSteps with
  | zero => rfl
  | succ k => exact (hstay k).1

/-- The hypotheses of `C129_backtracking` are met by the default `BacktrackingArmijo()` on `y²/2` with an error of a ten-thousandth: `q = 5`
trials suffice, and within 1000 trials the squared gradient falls below a thousandth. -/
example (f : (Unit → ℝ) → ℝ) (hf : ∀ y, |f y - (parabola 1 y).1| ≤ 1 / 10000) (y0 : Unit → ℝ) (hy0 : y0 () = 1 / 10) :
    let S := GradientDescent.solver (backtrackingDescent ⟨0.5, 0.1, 1⟩ 0.1 0.1 maxNorm maxNorm fun y _ => 1 * y ()) ()
    ∃ st0 k, S.init (fun y => (f y, ())) y0 = .ok st0 ∧ k < 1000 ∧
      iterateAt S (fun y => (f y, ())) () y0 st0 (k + 1) () ^ 2 ≤ 1 / 1000 := by
  intro S
  obtain ⟨a, ha⟩ := (C55_armijo_valid_iff 0.5 0.1 1).1.2 (by norm_num)
  obtain ⟨rfl, _⟩ := armijo_new _ _ _ _ ha
  have ht : (0.45 : ℝ) = min (1 : ℝ) (0.5 * ((1 - 0.1) / 1)) := by norm_num
  obtain ⟨st0, hi, h⟩ := C129_backtracking (ι := Unit) 0.5 0.1 1 _ ha 0.1 0.1 maxNorm maxNorm (fun y _ => 1 * y ()) () (fun y => (f y, ())) y0
    (fun y => (parabola 1 y).1) 1 0 (1 / 10000) one_pos (parabola_lipschitz 1 zero_le_one)
    (fun y => by show 0 ≤ 1 / 2 * y () ^ 2; positivity) hf 0.45 ht 5 (by norm_num)
  obtain ⟨k, hk, hle⟩ := h 200 (by norm_num)
  refine ⟨st0, k, hi, by omega, ?_⟩
  have e : ∑ c : Unit, (1 * iterateAt S (fun y => (f y, ())) () y0 st0 (k + 1) ()) ^ 2 =
      iterateAt S (fun y => (f y, ())) () y0 st0 (k + 1) () ^ 2 := by
    simp only [Finset.univ_unique, Finset.sum_singleton, one_mul]
  rw [← e]
  refine le_trans hle (max_le (by norm_num) ?_)
  simp only [parabola, hy0]
  norm_num

end search
end Verif.Props
