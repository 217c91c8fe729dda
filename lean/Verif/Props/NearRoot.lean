import Verif.Lemmas.NearRoot
import Verif.Props.RootFindLM
import Verif.Props.FixedPoint
import Verif.Props.NewtonChord
import Verif.Props.Dogleg

/-!
Property C120: a successful root find has a true root nearby.
-/

namespace Verif.Props

open Verif Verif.Spec Verif.Driver Verif.SearchLoop Filter Topology

variable {ι κ A : Type} [Fintype ι] [Fintype κ]

theorem small_sum (v : κ → ℝ) (a : ℝ) (h : ∀ m, |v m| < a) : ∑ m, v m ^ 2 ≤ Fintype.card κ * a ^ 2 := by
  calc ∑ m, v m ^ 2 ≤ ∑ _m : κ, a ^ 2 := by
        refine Finset.sum_le_sum fun m _ => ?_
        rw [← sq_abs]
        exact pow_le_pow_left₀ (abs_nonneg _) (h m).le 2
    _ = Fintype.card κ * a ^ 2 := by rw [Finset.sum_const, Finset.card_univ, nsmul_eq_mul]

/-- If the solver never increases the sum of squares, the residuals at the value returned are small too. -/
theorem small_value (norm : (κ → ℝ) → ℝ) (hN : ∀ (v : κ → ℝ) m, |v m| ≤ norm v) (atol : ℝ) (fInf : κ → ℝ) (hinf : ¬ norm fInf < atol)
    (fn : (ι → ℝ) → (κ → ℝ) × A) {St Stats : Type} (S : Solver (ι → ℝ) (κ → ℝ) ((κ → ℝ) × A) St Stats) (af : (ι → ℝ) → Bool)
    (aux0 : (κ → ℝ) × A) (y0 : ι → ℝ) (ms : Option ℕ) (throw : Bool) (sol : Solution (ι → ℝ) A (St × (κ → ℝ)) Stats)
    (h : rootFindViaLeastSquares S norm atol fInf af fn aux0 y0 ms throw = some (.ok sol)) (hs : sol.result = .successful)
    (hrep : ∀ st0, S.init (toLstsqFn fn) y0 = .ok st0 → ReportsAux S (toLstsqFn fn) aux0 y0 st0)
    (hpost : ∀ f y a st r, (S.postprocess f y a st r).1 = y)
    (hmono : ∀ st0, S.init (toLstsqFn fn) y0 = .ok st0 → ∀ j k, j ≤ k →
      ∑ m, (toLstsqFn fn (iterateAt S (toLstsqFn fn) aux0 y0 st0 k)).1 m ^ 2 ≤
        ∑ m, (toLstsqFn fn (iterateAt S (toLstsqFn fn) aux0 y0 st0 j)).1 m ^ 2) :
    ∑ m, (fn sol.value).1 m ^ 2 ≤ Fintype.card κ * atol ^ 2 := by
  obtain ⟨st0, n, hi, hn, _, hnorm⟩ := C10_root_via_least_squares_certificate S norm atol fInf hinf af fn aux0 y0 ms throw sol h hs hrep
  have h1 := small_sum (fn (iterateAt S (toLstsqFn fn) aux0 y0 st0 n)).1 atol fun m => (hN _ m).trans_lt hnorm
  have hv : sol.value = iterateAt S (toLstsqFn fn) aux0 y0 st0 (n + 1) := by
    simp only [rootFindViaLeastSquares, Option.map_eq_some_iff] at h
    obtain ⟨r, hr, hr2⟩ := h
    cases r with
    | error e => cases hr2
    | ok sol' =>
      cases hr2
      obtain ⟨_, _, st1, hi1, _, hp⟩ := C01_step_budget _ _ _ _ _ _ _ _ hr
      have hi2 : (toRoot norm atol fInf S).init (toLstsqFn fn) y0 = .ok (st0, fInf) := by simp only [toRoot, hi]
      rw [hi2] at hi1
      cases hi1
      have h1 : sol'.value = iterateAt (toRoot norm atol fInf S) (toLstsqFn fn) aux0 y0 (st0, fInf) sol'.numSteps :=
        (congrArg Prod.fst hp).trans (hpost _ _ _ _ _)
      show sol'.value = _
      rw [h1, show sol'.numSteps = n + 1 from hn, (toRoot_trace S norm atol fInf (toLstsqFn fn) aux0 y0 st0 (n + 1)).1]
  rw [hv]; exact (hmono st0 hi n (n + 1) (Nat.le_succ n)).trans h1

section
variable (norm : (κ → ℝ) → ℝ) (hN : ∀ (v : κ → ℝ) m, |v m| ≤ norm v) (atol : ℝ) (fInf : κ → ℝ) (hinf : ¬ norm fInf < atol)
  (fn : (ι → ℝ) → (κ → ℝ) × A) (jac : (ι → ℝ) → Matrix κ ι ℝ) (ρ μ : ℝ) (hρ : 0 < ρ) (hμ : 0 < μ)
  (hreg : ∀ z, ∑ m, (fn z).1 m ^ 2 ≤ Fintype.card κ * atol ^ 2 → RegularNear (fun y => (fn y).1) jac z ρ μ)
  (hsmall : Fintype.card κ * atol ^ 2 < μ * ρ ^ 2)
include hN hinf hρ hμ hreg hsmall

/-- **C120**, `root_find` with a least-squares solver.  Whatever the solver: when it reports success, a true root lies within
`√n·atol/√μ` of the point the solver stepped from last. -/
theorem C120_least_squares_solver {St Stats : Type} (S : Solver (ι → ℝ) (κ → ℝ) ((κ → ℝ) × A) St Stats) (af : (ι → ℝ) → Bool)
    (aux0 : (κ → ℝ) × A) (y0 : ι → ℝ) (ms : Option ℕ) (throw : Bool) (sol : Solution (ι → ℝ) A (St × (κ → ℝ)) Stats)
    (h : rootFindViaLeastSquares S norm atol fInf af fn aux0 y0 ms throw = some (.ok sol)) (hs : sol.result = .successful)
    (hrep : ∀ st0, S.init (toLstsqFn fn) y0 = .ok st0 → ReportsAux S (toLstsqFn fn) aux0 y0 st0) :
    ∃ st0 n, S.init (toLstsqFn fn) y0 = .ok st0 ∧ sol.numSteps = n + 1 ∧ ∃ x, (∀ m, (fn x).1 m = 0) ∧
      μ * ∑ i, (x i - iterateAt S (toLstsqFn fn) aux0 y0 st0 n i) ^ 2 ≤ Fintype.card κ * atol ^ 2 := by
  obtain ⟨st0, n, hi, hn, _, hnorm⟩ := C10_root_via_least_squares_certificate S norm atol fInf hinf af fn aux0 y0 ms throw sol h hs hrep
  have h1 := small_sum (fn (iterateAt S (toLstsqFn fn) aux0 y0 st0 n)).1 atol fun m => (hN _ m).trans_lt hnorm
  obtain ⟨x, hx, hd⟩ := near_root (fun y => (fn y).1) jac _ ρ μ hρ hμ (hreg _ h1) (h1.trans_lt hsmall)
  exact ⟨st0, n, hi, hn, x, hx, hd.trans h1⟩

/-- **C120**, `root_find` with a minimiser. -/
theorem C120_minimiser {St Stats : Type} (S : Solver (ι → ℝ) ℝ ((κ → ℝ) × A) St Stats) (af : (ι → ℝ) → Bool)
    (aux0 : (κ → ℝ) × A) (y0 : ι → ℝ) (ms : Option ℕ) (throw : Bool) (sol : Solution (ι → ℝ) A (St × (κ → ℝ)) Stats)
    (h : rootFindViaMinimiser S norm atol fInf af fn aux0 y0 ms throw = some (.ok sol)) (hs : sol.result = .successful)
    (hrep : ∀ st0, S.init (toMinimiseFn norm fn) y0 = .ok st0 → ReportsAux S (toMinimiseFn norm fn) aux0 y0 st0) :
    ∃ st0 n, S.init (toMinimiseFn norm fn) y0 = .ok st0 ∧ sol.numSteps = n + 1 ∧ ∃ x, (∀ m, (fn x).1 m = 0) ∧
      μ * ∑ i, (x i - iterateAt S (toMinimiseFn norm fn) aux0 y0 st0 n i) ^ 2 ≤ Fintype.card κ * atol ^ 2 := by
  obtain ⟨st0, n, hi, hn, _, hnorm⟩ := C10_root_via_minimiser_certificate S norm atol fInf hinf af fn aux0 y0 ms throw sol h hs hrep
  have h1 := small_sum (fn (iterateAt S (toMinimiseFn norm fn) aux0 y0 st0 n)).1 atol fun m => (hN _ m).trans_lt hnorm
  obtain ⟨x, hx, hd⟩ := near_root (fun y => (fn y).1) jac _ ρ μ hρ hμ (hreg _ h1) (h1.trans_lt hsmall)
  exact ⟨st0, n, hi, hn, x, hx, hd.trans h1⟩

/-- The same for the value returned, if the solver never increases the sum of squares. -/
theorem near_value {St Stats : Type} (S : Solver (ι → ℝ) (κ → ℝ) ((κ → ℝ) × A) St Stats) (af : (ι → ℝ) → Bool)
    (aux0 : (κ → ℝ) × A) (y0 : ι → ℝ) (ms : Option ℕ) (throw : Bool) (sol : Solution (ι → ℝ) A (St × (κ → ℝ)) Stats)
    (h : rootFindViaLeastSquares S norm atol fInf af fn aux0 y0 ms throw = some (.ok sol)) (hs : sol.result = .successful)
    (hrep : ∀ st0, S.init (toLstsqFn fn) y0 = .ok st0 → ReportsAux S (toLstsqFn fn) aux0 y0 st0)
    (hpost : ∀ f y a st r, (S.postprocess f y a st r).1 = y)
    (hmono : ∀ st0, S.init (toLstsqFn fn) y0 = .ok st0 → ∀ j k, j ≤ k →
      ∑ m, (toLstsqFn fn (iterateAt S (toLstsqFn fn) aux0 y0 st0 k)).1 m ^ 2 ≤
        ∑ m, (toLstsqFn fn (iterateAt S (toLstsqFn fn) aux0 y0 st0 j)).1 m ^ 2) :
    ∃ x, (∀ m, (fn x).1 m = 0) ∧ μ * ∑ i, (x i - sol.value i) ^ 2 ≤ Fintype.card κ * atol ^ 2 := by
  have h2 := small_value norm hN atol fInf hinf fn S af aux0 y0 ms throw sol h hs hrep hpost hmono
  obtain ⟨x, hx, hd⟩ := near_root (fun y => (fn y).1) jac _ ρ μ hρ hμ (hreg _ h2) (h2.trans_lt hsmall)
  exact ⟨x, hx, hd.trans h2⟩

end

section
variable (rtol atol : ℝ) (nY : (ι → ℝ) → ℝ) (norm : (κ → ℝ) → ℝ) (hN : ∀ (v : κ → ℝ) m, |v m| ≤ norm v) (fInf : κ → ℝ)
  (hinf : ¬ norm fInf < atol) (fn : (ι → ℝ) → (κ → ℝ) × A) (jac : (ι → ℝ) → Matrix κ ι ℝ) (ρ μ : ℝ) (hρ : 0 < ρ) (hμ : 0 < μ)
  (hreg : ∀ z, ∑ m, (fn z).1 m ^ 2 ≤ Fintype.card κ * atol ^ 2 → RegularNear (fun y => (fn y).1) jac z ρ μ)
  (hsmall : Fintype.card κ * atol ^ 2 < μ * ρ ^ 2)
include hN hinf hρ hμ hreg hsmall

/-- **C120**, `LevenbergMarquardt`: within `√n·atol/√μ` of the value returned by a successful `root_find` there is a root. -/
theorem C120_levenberg_marquardt [DecidableEq ι] (eps fmax : ℝ) (he : 0 ≤ eps) (hf : 0 < fmax) (ls : LinSolve ι (κ ⊕ ι))
    (hls : SolvesLeastSquares ls) (af : (ι → ℝ) → Bool) (aux0 : (κ → ℝ) × A) (y0 : ι → ℝ) (ms : Option ℕ) (throw : Bool)
    (sol : Solution (ι → ℝ) A (GaussNewton.State ι κ ((κ → ℝ) × A) ℝ (FnInfo ι κ) × (κ → ℝ)) Unit)
    (h : rootFindViaLeastSquares (GaussNewton.solver (GaussNewton.levenbergMarquardt eps fmax rtol atol nY norm ls jac) aux0)
      norm atol fInf af fn aux0 y0 ms throw = some (.ok sol)) (hs : sol.result = .successful) :
    ∃ x, (∀ m, (fn x).1 m = 0) ∧ μ * ∑ i, (x i - sol.value i) ^ 2 ≤ Fintype.card κ * atol ^ 2 :=
  near_value norm hN atol fInf hinf fn jac ρ μ hρ hμ hreg hsmall _ af aux0 y0 ms throw sol h hs
    (fun st0 hi => C30_aux_gauss_newton_family _ (fun y z i j s => by
      simp [GaussNewton.levenbergMarquardt, TrustRegion.classical, tr_first]) aux0 (toLstsqFn fn) y0 st0 hi)
    (fun _ _ _ _ _ => rfl) (C41_levenberg_marquardt eps fmax rtol atol he hf nY norm ls hls jac aux0 (toLstsqFn fn) y0).1

/-- **C120**, `Dogleg`. -/
theorem C120_dogleg (eps : ℝ) (he : 0 ≤ eps) (ls : LinSolve ι κ) (hls : SolvesLeastSquares ls) (af : (ι → ℝ) → Bool)
    (aux0 : (κ → ℝ) × A) (y0 : ι → ℝ) (ms : Option ℕ) (throw : Bool)
    (sol : Solution (ι → ℝ) A (GaussNewton.State ι κ ((κ → ℝ) × A) ℝ (Dogleg.State ι) × (κ → ℝ)) Unit)
    (h : rootFindViaLeastSquares (GaussNewton.solver (GaussNewton.dogleg eps rtol atol nY norm ls jac) aux0)
      norm atol fInf af fn aux0 y0 ms throw = some (.ok sol)) (hs : sol.result = .successful) :
    ∃ x, (∀ m, (fn x).1 m = 0) ∧ μ * ∑ i, (x i - sol.value i) ^ 2 ≤ Fintype.card κ * atol ^ 2 :=
  near_value norm hN atol fInf hinf fn jac ρ μ hρ hμ hreg hsmall _ af aux0 y0 ms throw sol h hs
    (fun st0 hi => C30_aux_gauss_newton_family _ (fun y z i j s => by
      simp [GaussNewton.dogleg, TrustRegion.classical, tr_first]) aux0 (toLstsqFn fn) y0 st0 hi)
    (fun _ _ _ _ _ => rfl) (C41_dogleg eps rtol atol he nY norm ls hls jac aux0 (toLstsqFn fn) y0).1

/-- **C120**, `IndirectLevenbergMarquardt`. -/
theorem C120_indirect [DecidableEq ι] (eps fmax : ℝ) (he : 0 ≤ eps) (hf : 0 < fmax) (ls : LinSolve ι κ) (hls : SolvesLeastSquares ls)
    (lsD : LinSolve ι (κ ⊕ ι)) (hlsD : SolvesLeastSquares lsD) (findLambda : (ℝ → ℝ) → ℝ × Result) (af : (ι → ℝ) → Bool)
    (aux0 : (κ → ℝ) × A) (y0 : ι → ℝ) (ms : Option ℕ) (throw : Bool)
    (sol : Solution (ι → ℝ) A (GaussNewton.State ι κ ((κ → ℝ) × A) ℝ (IndirectState ι κ) × (κ → ℝ)) Unit)
    (h : rootFindViaLeastSquares (GaussNewton.solver (GaussNewton.indirectLevenbergMarquardt eps fmax rtol atol nY norm ls lsD findLambda
      jac) aux0) norm atol fInf af fn aux0 y0 ms throw = some (.ok sol)) (hs : sol.result = .successful) :
    ∃ x, (∀ m, (fn x).1 m = 0) ∧ μ * ∑ i, (x i - sol.value i) ^ 2 ≤ Fintype.card κ * atol ^ 2 :=
  near_value norm hN atol fInf hinf fn jac ρ μ hρ hμ hreg hsmall _ af aux0 y0 ms throw sol h hs
    (fun st0 hi => C30_aux_gauss_newton_family _ (fun y z i j s => by
      simp [GaussNewton.indirectLevenbergMarquardt, TrustRegion.classical, tr_first]) aux0 (toLstsqFn fn) y0 st0 hi)
    (fun _ _ _ _ _ => rfl)
    (C41_indirect eps fmax ls lsD findLambda he hf hls hlsD rtol atol nY norm jac aux0 (toLstsqFn fn) y0).1

end

/-- **C120**, `Newton` and `Chord` (with `cauchy_termination=True`, the default, and the default norms).  The last iterate but one
is close to a root, and the value returned is close to the last iterate but one. -/
theorem C120_newton_chord {J : Type} (cfg : NewtonChord.Cfg ι κ ℝ J) (hnY : cfg.normY = maxNorm) (hnF : cfg.normF = maxNorm)
    (hc : cfg.cauchy = true) (hat : 0 < cfg.atol) (hrt : 0 ≤ cfg.rtol) (fn : (ι → ℝ) → (κ → ℝ) × A)
    (jac : (ι → ℝ) → Matrix κ ι ℝ) (ρ μ : ℝ) (hρ : 0 < ρ) (hμ : 0 < μ)
    (hreg : ∀ z, ∑ m, (fn z).1 m ^ 2 ≤ Fintype.card κ * cfg.atol ^ 2 → RegularNear (fun y => (fn y).1) jac z ρ μ)
    (hsmall : Fintype.card κ * cfg.atol ^ 2 < μ * ρ ^ 2) (aux0 : A) (y0 : ι → ℝ)
    (hinit : (NewtonChord.terminate cfg y0 (NewtonChord.init cfg y0)).1 = false) (af : (ι → ℝ) → Bool) (ms : Option ℕ) (throw : Bool)
    (sol : Solution (ι → ℝ) A (NewtonChord.State ι κ ℝ J) Unit)
    (h : iterativeSolve (NewtonChord.solver cfg) af fn aux0 y0 ms throw = some (.ok sol)) (hs : sol.result = .successful) :
    ∃ y x : ι → ℝ, (∀ m, (fn x).1 m = 0) ∧ μ * ∑ i, (x i - y i) ^ 2 ≤ Fintype.card κ * cfg.atol ^ 2 ∧
      ∀ i, |sol.value i - y i| < cfg.atol + cfg.rtol * |y i| := by
  obtain ⟨y, _, h1, h2, _⟩ := C57_cauchy_success_small_residual_partial cfg fn aux0 y0 hc hinit af ms throw sol h hs
  rw [hnF] at h1
  rw [hnY] at h2
  have h3 : ∑ m, (fn y).1 m ^ 2 ≤ Fintype.card κ * cfg.atol ^ 2 := small_sum _ _ fun m => by
    have h4 := ((maxNorm_lt_iff _ _).1 h1).2 m
    rw [abs_of_nonneg (by positivity), div_lt_one hat] at h4
    exact h4
  obtain ⟨x, hx, hd⟩ := near_root (fun y => (fn y).1) jac y ρ μ hρ hμ (hreg y h3) (h3.trans_lt hsmall)
  refine ⟨y, x, hx, hd.trans h3, fun i => ?_⟩
  have hsc : 0 < cfg.atol + cfg.rtol * |y i| := add_pos_of_pos_of_nonneg hat (mul_nonneg hrt (abs_nonneg _))
  have h4 := ((maxNorm_lt_iff _ _).1 h2).2 i
  rw [abs_of_nonneg (by positivity), div_lt_one hsc] at h4
  rw [abs_sub_comm]; exact h4

/-- **C120**, `FixedPointIteration` (default norm).  `T` is the tolerance the solve ended with. -/
theorem C120_fixed_point (cfg : FixedPointIter.Cfg ι ℝ) (hn : cfg.norm = maxNorm) (hd : cfg.damp < 1) (hat : 0 < cfg.atol)
    (hrt : 0 ≤ cfg.rtol) (fn : (ι → ℝ) → (ι → ℝ) × A) (jac : (ι → ℝ) → Matrix ι ι ℝ) (T ρ μ : ℝ) (hρ : 0 < ρ) (hμ : 0 < μ)
    (hreg : ∀ z, ∑ i, ((fn z).1 i - z i) ^ 2 ≤ Fintype.card ι * (T / (1 - cfg.damp)) ^ 2 →
      RegularNear (fun y i => (fn y).1 i - y i) jac z ρ μ)
    (hsmall : Fintype.card ι * (T / (1 - cfg.damp)) ^ 2 < μ * ρ ^ 2) (aux0 : A) (y0 : ι → ℝ) (af : (ι → ℝ) → Bool) (ms : Option ℕ)
    (throw : Bool) (sol : Solution (ι → ℝ) A (Option ℝ) Unit)
    (h : iterativeSolve (FixedPointIter.solver cfg) af fn aux0 y0 ms throw = some (.ok sol)) (hs : sol.result = .successful)
    (hT : ∀ i, cfg.atol + cfg.rtol * |sol.value i| ≤ T) :
    ∃ y x : ι → ℝ, (fn x).1 = x ∧ μ * ∑ i, (x i - y i) ^ 2 ≤ Fintype.card ι * (T / (1 - cfg.damp)) ^ 2 ∧
      ∀ i, |sol.value i - y i| < T := by
  obtain ⟨y, hy⟩ := C20_residual_bound cfg hn hd.le hat hrt fn aux0 y0 af ms throw sol h hs
  have hd1 : 0 < 1 - cfg.damp := by linarith
  have h3 : ∑ i, ((fn y).1 i - y i) ^ 2 ≤ Fintype.card ι * (T / (1 - cfg.damp)) ^ 2 := small_sum _ _ fun i => by
    rw [lt_div_iff₀ hd1, mul_comm]
    exact (hy i).1.trans_le (hT i)
  obtain ⟨x, hx, hdist⟩ := near_root (fun y i => (fn y).1 i - y i) jac y ρ μ hρ hμ (hreg y h3) (h3.trans_lt hsmall)
  exact ⟨y, x, funext fun i => sub_eq_zero.1 (hx i), hdist.trans h3, fun i => (hy i).2.trans_le (hT i)⟩

/-- **C120**, regularity is needed: the constant function `c ≠ 0` has no root, yet if `|c|` is below the tolerance `root_find` with
`LevenbergMarquardt` reports success. -/
theorem C120_no_root [DecidableEq ι] (eps fmax rtol atol c : ℝ) (he : 0 ≤ eps) (hf : 0 < fmax) (hat : 0 < atol) (hrt : 0 ≤ rtol)
    (hc : |c| < atol) (hc0 : c ≠ 0) (ls : LinSolve ι (Unit ⊕ ι)) (hls : SolvesLeastSquares ls)
    (hok : ∀ M v, (ls.rect M v).2 = .successful) (y0 : ι → ℝ) (ms : Option ℕ) (hms : ∀ n, ms = some n → 2 ≤ n) (throw : Bool)
    (fInf : Unit → ℝ) :
    ∃ sol, rootFindViaLeastSquares (GaussNewton.solver
        (GaussNewton.levenbergMarquardt eps fmax rtol atol maxNorm maxNorm ls fun _ => (0 : Matrix Unit ι ℝ)) (fInf, ()))
        maxNorm atol fInf (fun _ => true) (fun _ => (fun _ => c, ())) (fInf, ()) y0 ms throw = some (.ok sol) ∧
      sol.result = .successful ∧ ∀ x : ι → ℝ, ¬ ∀ m, ((fun _ => (fun _ => c, ())) x : (Unit → ℝ) × Unit).1 m = 0 := by
  set jac : (ι → ℝ) → Matrix Unit ι ℝ := fun _ => 0 with hjac
  set fn : (ι → ℝ) → (Unit → ℝ) × Unit := fun _ => (fun _ => c, ()) with hfn
  set S := GaussNewton.solver (GaussNewton.levenbergMarquardt eps fmax rtol atol maxNorm maxNorm ls jac) (fInf, ()) with hS
  obtain ⟨st0, hi⟩ : ∃ st0, S.init (toLstsqFn fn) y0 = .ok st0 := ⟨_, rfl⟩
  have hzero : ∀ t r, ((dampedNewtonDescent (κ := Unit) eps fmax ls).step t (.residualJac r (0 : Matrix Unit ι ℝ))).1 = fun _ => 0 :=
    fun t r => (C40_damped_step eps fmax t he hf ls hls 0 r).2.2.2.2.2.2 fun i => by simp
  obtain ⟨f1, f2⟩ := gn_trust_flag (TrustRegion.defaults : TrustRegion.Cfg ℝ) (by norm_num [TrustRegion.defaults])
    (by norm_num [TrustRegion.defaults]) (GaussNewton.levenbergMarquardt eps fmax rtol atol maxNorm maxNorm ls jac) rfl _
    (damped_memoryless eps fmax ls) hat hrt goodNorm_maxNorm goodNorm_maxNorm (fInf, ()) (toLstsqFn fn) y0 st0 hi (fun j => hok _ _) 0
    (by rw [zero_mul]; exact hat) (by rw [zero_mul]; exact hat) 0 (by
      intro y p
      have hp : p = fun _ => 0 := hzero _ _
      rw [hp]
      refine ⟨?_, fun i => by simp, fun m => by simp⟩
      show _ ≤ _ * linearisedChange (0 : Matrix Unit ι ℝ) _ _
      simp [linearisedChange, toLstsqFn, hfn, Matrix.mulVec, dotProduct])
  have htrace := toRoot_trace S maxNorm atol fInf (toLstsqFn fn) (fInf, ()) y0 st0
  have hiR : (toRoot maxNorm atol fInf S).init (toLstsqFn fn) y0 = .ok (st0, fInf) := by
    simp only [toRoot, hi]
  obtain ⟨sol, s1, s2, s3, _⟩ := solve_succeeds_by (toRoot maxNorm atol fInf S) (fun _ => true) (toLstsqFn fn) (fInf, ()) y0 (st0, fInf)
    hiR ms throw 2 (fun _ _ => rfl) (fun j _ => by
      rw [toRoot_terminate]
      dsimp only
      rw [(htrace j).2.1]
      exact f1 j) (by
      rw [toRoot_terminate]
      dsimp only
      rw [(htrace 2).2.1, (htrace 2).2.2, if_neg (by omega), Bool.and_eq_true]
      refine ⟨f2, decide_eq_true ?_⟩
      have haux : (auxAt S (toLstsqFn fn) (fInf, ()) y0 st0 2).1 = fun _ => c :=
        congrArg Prod.fst (C30_aux_gauss_newton_family _ (fun y z i j s => by
          simp [GaussNewton.levenbergMarquardt, TrustRegion.classical, tr_first]) (fInf, ()) (toLstsqFn fn) y0 st0 hi 1)
      rw [haux]
      exact (maxNorm_lt_iff _ _).2 ⟨hat, fun _ => hc⟩) hms
  refine ⟨sol.dropF, ?_, s2, fun x hx => hc0 (hx ())⟩
  rw [rootFindViaLeastSquares, s1]; rfl

/-! ## The hypotheses are met -/

/-- `x² - 2`. -/
noncomputable def squareMinusTwo (y : Unit → ℝ) : Unit → ℝ := fun _ => y () ^ 2 - 2

/-- Wherever `|x² - 2| ≤ 1/10`, the slope is at least two within the distance one third: there is a root within a twentieth. -/
theorem squareMinusTwo_regular (z : Unit → ℝ) (hz : ∑ m, squareMinusTwo z m ^ 2 ≤ Fintype.card Unit * (1 / 10 : ℝ) ^ 2) :
    RegularNear squareMinusTwo (fun y => Matrix.of fun _ _ => 2 * y ()) z (1 / 3) 4 := by
  have hz' : (z () ^ 2 - 2) ^ 2 ≤ (1 / 10) ^ 2 := by simpa [squareMinusTwo] using hz
  have h1 := abs_le_of_sq_le_sq' hz' (by norm_num)
  have hbig : ∀ x : Unit → ℝ, ∑ i, (x i - z i) ^ 2 ≤ (1 / 3 : ℝ) ^ 2 → 1 ≤ x () ^ 2 := by
    intro x hx
    have hx' : (x () - z ()) ^ 2 ≤ (1 / 3) ^ 2 := by simpa using hx
    have h2 := abs_le_of_sq_le_sq' hx' (by norm_num)
    rcases le_or_gt 0 (z ()) with h0 | h0
    · have : 4 / 3 ≤ z () := by nlinarith [h1.1]
      nlinarith [h2.1]
    · have : z () ≤ -(4 / 3) := by nlinarith [h1.1]
      nlinarith [h2.2]
  refine ⟨Continuous.continuousOn (by unfold squareMinusTwo; fun_prop), fun x _ p m => ?_, fun x hx v => ?_⟩
  · have h : HasDerivAt (fun t : ℝ => x () + t * p ()) (p ()) 0 := by
      simpa using ((hasDerivAt_id (0:ℝ)).mul_const (p ())).const_add (x ())
    refine ((h.pow 2).sub_const 2).congr_deriv ?_
    simp
  · have := hbig x hx
    simp only [Finset.univ_unique, Finset.sum_singleton, Matrix.of_apply]
    rw [show (2 * x () * v default) ^ 2 = 4 * (x () ^ 2 * v default ^ 2) by ring]
    have := mul_le_mul_of_nonneg_right this (sq_nonneg (v default))
    linarith

/-- So a successful solve of `x² = 2` with tolerance `1/10` is off by at most `1/20`, whichever root it found. -/
example (ls : LinSolve Unit Unit) (hls : SolvesLeastSquares ls) (y0 : Unit → ℝ) (ms : Option ℕ) (throw : Bool)
    (sol : Solution (Unit → ℝ) Unit (GaussNewton.State Unit Unit ((Unit → ℝ) × Unit) ℝ (Dogleg.State Unit) × (Unit → ℝ)) Unit)
    (h : rootFindViaLeastSquares (GaussNewton.solver (GaussNewton.dogleg 0 (1/10) (1/10) maxNorm maxNorm ls
      fun y => Matrix.of fun _ _ => 2 * y ()) (fun _ => 1, ())) maxNorm (1/10) (fun _ => 1) (fun _ => true)
      (fun y => (squareMinusTwo y, ())) (fun _ => 1, ()) y0 ms throw = some (.ok sol)) (hs : sol.result = .successful) :
    ∃ x, x ^ 2 = 2 ∧ |x - sol.value ()| ≤ 1 / 20 := by
  obtain ⟨x, hx, hd⟩ := C120_dogleg (1/10) (1/10) (maxNorm (ι := Unit)) (maxNorm (ι := Unit)) abs_le_maxNorm (fun _ => 1) (by
      have := abs_le_maxNorm (ι := Unit) (fun _ => 1) ()
      rw [abs_one] at this
      linarith) (fun y => (squareMinusTwo y, ())) _ (1/3) 4 (by norm_num) (by norm_num) squareMinusTwo_regular (by norm_num) 0 le_rfl ls hls
    _ _ y0 ms throw sol h hs
  refine ⟨x (), ?_, ?_⟩
  · have := hx ()
    simp only [squareMinusTwo] at this
    linarith
  · have hd' : 4 * (x () - sol.value ()) ^ 2 ≤ 1 * (1 / 10) ^ 2 := by simpa using hd
    exact abs_le_of_sq_le_sq (by linarith) (by norm_num)

end Verif.Props
