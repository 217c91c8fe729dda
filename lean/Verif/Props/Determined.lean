import Verif.Props.NearRoot
import Verif.Props.SuccessGradient
import Verif.Props.Bisection
import Verif.Spec.Determined
import Verif.Lemmas.Euclid

/-!
**C134.** The answer of a successful solve is determined by the problem, up to the tolerances: neither the solver, nor its settings,
nor the starting point matter, and a small change of the problem changes the answer little.
-/

namespace Verif.Props

open Verif Verif.Spec Verif.Driver Verif.SearchLoop

variable {ι κ A : Type} [Fintype ι] [Fintype κ]

/-- **C134.** Two points that nearly solve two nearly equal, well conditioned systems are close to each other. -/
theorem C134_agree (F G : (ι → ℝ) → κ → ℝ) (μ β ε ε' τ τ' : ℝ) (hF : Steep F μ) (hFG : Within F G β) (v w : ι → ℝ)
    (hv : NearlySolves F ε τ v) (hw : NearlySolves G ε' τ' w) :
    Real.sqrt (∑ i, (v i - w i) ^ 2) ≤ (ε + ε' + β) / μ + τ + τ' := by
  obtain ⟨y, hy1, hy2⟩ := hv
  obtain ⟨z, hz1, hz2⟩ := hw
  have h1 : μ * euclid (fun i => y i - z i) ≤ euclid fun m => F y m - F z m := hF.2 y z
  have h2 := euclid_sub (F y) (F z)
  have h3 := euclid_add (fun m => F z m - G z m) (G z)
  simp only [sub_add_cancel] at h3
  have h4 : euclid (fun m => F z m - G z m) ≤ β := hFG z
  have h5 : euclid (fun i => y i - z i) ≤ (ε + ε' + β) / μ := by
    rw [le_div_iff₀ hF.1, mul_comm]
    have a1 : euclid (F y) ≤ ε := hy1
    have a2 : euclid (G z) ≤ ε' := hz1
    have a3 : euclid (fun m => F z m) = euclid (F z) := rfl
    linarith
  have h6 := euclid_add (fun i => v i - y i) (fun i => y i - w i)
  simp only [sub_add_sub_cancel] at h6
  have h7 := euclid_sub (fun i => y i - z i) (fun i => w i - z i)
  simp only [sub_sub_sub_cancel_right] at h7
  have a4 : euclid (fun i => v i - y i) ≤ τ := hy2
  have a5 : euclid (fun i => w i - z i) ≤ τ' := hz2
  show euclid (fun i => v i - w i) ≤ _
  linarith

/-- **C134.** In particular every such point is close to the solution. -/
theorem C134_near_solution (F : (ι → ℝ) → κ → ℝ) (μ ε τ : ℝ) (hF : Steep F μ) (v x : ι → ℝ) (hv : NearlySolves F ε τ v)
    (hx : ∀ m, F x m = 0) : Real.sqrt (∑ i, (v i - x i) ^ 2) ≤ ε / μ + τ := by
  have := C134_agree F F μ 0 ε 0 τ 0 hF (fun y => by simp) v x hv ⟨x, by simp [hx], by simp⟩
  simpa using this

/-! ### Which systems are well conditioned -/

/-- **C134.** The equations `g(y) - y = 0` for a contraction. -/
theorem C134_contraction_steep (g : (ι → ℝ) → ι → ℝ) (q : ℝ) (hq : q < 1)
    (hg : ∀ x y, Real.sqrt (∑ i, (g x i - g y i) ^ 2) ≤ q * Real.sqrt (∑ i, (x i - y i) ^ 2)) :
    Steep (fun y i => g y i - y i) (1 - q) := by
  refine ⟨by linarith, fun x y => ?_⟩
  have h1 := euclid_sub (fun i => g x i - g y i) (fun i => g x i - x i - (g y i - y i))
  have e : (fun i => g x i - g y i - (g x i - x i - (g y i - y i))) = fun i => x i - y i := by funext i; ring
  rw [e] at h1
  have h2 : euclid (fun i => g x i - g y i) ≤ q * euclid fun i => x i - y i := hg x y
  show (1 - q) * euclid (fun i => x i - y i) ≤ euclid fun i => g x i - x i - (g y i - y i)
  linarith

/-- **C134.** The equations `∇f = 0` for a strongly convex function. -/
theorem C134_convex_steep (f : (ι → ℝ) → ℝ) (grad : (ι → ℝ) → (ι → ℝ)) (μ : ℝ) (h : StronglyConvex f grad μ) : Steep grad μ := by
  have hp := h.pos
  refine ⟨hp, fun x y => ?_⟩
  have h1 : ∑ i, (grad x i - grad y i) * (x i - y i) ≥ μ * euclid (fun i => x i - y i) ^ 2 := by
    have a1 := h.lower x y
    have a2 := h.lower y x
    have e1 : ∑ i, (y i - x i) ^ 2 = ∑ i, (x i - y i) ^ 2 := Finset.sum_congr rfl fun i _ => by ring
    have e2 : ∑ i, (grad x i - grad y i) * (x i - y i) = -(∑ i, grad x i * (y i - x i)) - ∑ i, grad y i * (x i - y i) := by
      rw [← Finset.sum_neg_distrib, ← Finset.sum_sub_distrib]
      exact Finset.sum_congr rfl fun i _ => by ring
    rw [e1] at a1
    rw [e2, euclid_sq]
    linarith
  have h2 := euclid_dot (fun i => grad x i - grad y i) (fun i => x i - y i)
  show μ * euclid (fun i => x i - y i) ≤ euclid fun i => grad x i - grad y i
  rcases (euclid_nonneg fun i => x i - y i).eq_or_lt with h0 | h0
  · rw [← h0, mul_zero]; exact euclid_nonneg _
  · refine le_of_mul_le_mul_right ?_ h0
    nlinarith

/-! ### What a successful solve says -/

theorem sqrt_card_le (v : κ → ℝ) (a : ℝ) (ha : 0 ≤ a) (h : ∑ m, v m ^ 2 ≤ Fintype.card κ * a ^ 2) :
    Real.sqrt (∑ m, v m ^ 2) ≤ Real.sqrt (Fintype.card κ) * a := by
  refine (Real.sqrt_le_sqrt h).trans (le_of_eq ?_)
  rw [Real.sqrt_mul (Nat.cast_nonneg _), Real.sqrt_sq ha]

/-- **C134**, `root_find` with `Newton` or `Chord` (default norms and `cauchy_termination`). -/
theorem C134_newton_chord {J : Type} (cfg : NewtonChord.Cfg ι κ ℝ J) (hnY : cfg.normY = maxNorm) (hnF : cfg.normF = maxNorm)
    (hc : cfg.cauchy = true) (hat : 0 < cfg.atol) (hrt : 0 ≤ cfg.rtol) (hrt1 : cfg.rtol < 1) (fn : (ι → ℝ) → (κ → ℝ) × A)
    (aux0 : A) (y0 : ι → ℝ) (hinit : (NewtonChord.terminate cfg y0 (NewtonChord.init cfg y0)).1 = false) (af : (ι → ℝ) → Bool)
    (ms : Option ℕ) (throw : Bool) (sol : Solution (ι → ℝ) A (NewtonChord.State ι κ ℝ J) Unit)
    (h : iterativeSolve (NewtonChord.solver cfg) af fn aux0 y0 ms throw = some (.ok sol)) (hs : sol.result = .successful) (T : ℝ)
    (hT0 : 0 ≤ T) (hT : ∀ i, cfg.atol + cfg.rtol * |sol.value i| ≤ (1 - cfg.rtol) * T) :
    NearlySolves (fun y => (fn y).1) (Real.sqrt (Fintype.card κ) * cfg.atol) (Real.sqrt (Fintype.card ι) * T) sol.value := by
  obtain ⟨y, _, h1, h2, _⟩ := C57_cauchy_success_small_residual_partial cfg fn aux0 y0 hc hinit af ms throw sol h hs
  rw [hnF] at h1
  rw [hnY] at h2
  refine ⟨y, sqrt_card_le _ _ hat.le (small_sum _ _ fun m => ?_), sqrt_card_le _ _ hT0 (small_sum _ _ fun i => ?_)⟩
  · have h4 := ((maxNorm_lt_iff _ _).1 h1).2 m
    rw [abs_of_nonneg (by positivity), div_lt_one hat] at h4
    exact h4
  · have hsc : 0 < cfg.atol + cfg.rtol * |y i| := add_pos_of_pos_of_nonneg hat (mul_nonneg hrt (abs_nonneg _))
    have h4 := ((maxNorm_lt_iff _ _).1 h2).2 i
    rw [abs_of_nonneg (by positivity), div_lt_one hsc, abs_sub_comm] at h4
    have h5 := abs_sub_abs_le_abs_sub (y i) (sol.value i)
    rw [abs_sub_comm] at h5
    have h6 := mul_le_mul_of_nonneg_left h5 hrt
    have h7 := hT i
    have h8 : 0 < 1 - cfg.rtol := by linarith
    refine lt_of_mul_lt_mul_left ?_ h8.le
    linarith

/-- **C134**, `fixed_point` with `FixedPointIteration` (default norm). -/
theorem C134_fixed_point_iteration (cfg : FixedPointIter.Cfg ι ℝ) (hn : cfg.norm = maxNorm) (hd : cfg.damp < 1) (hat : 0 < cfg.atol)
    (hrt : 0 ≤ cfg.rtol) (fn : (ι → ℝ) → (ι → ℝ) × A) (aux0 : A) (y0 : ι → ℝ) (af : (ι → ℝ) → Bool) (ms : Option ℕ)
    (throw : Bool) (sol : Solution (ι → ℝ) A (Option ℝ) Unit)
    (h : iterativeSolve (FixedPointIter.solver cfg) af fn aux0 y0 ms throw = some (.ok sol)) (hs : sol.result = .successful) (T : ℝ)
    (hT0 : 0 ≤ T) (hT : ∀ i, cfg.atol + cfg.rtol * |sol.value i| ≤ T) :
    NearlySolves (fun y i => (fn y).1 i - y i) (Real.sqrt (Fintype.card ι) * (T / (1 - cfg.damp))) (Real.sqrt (Fintype.card ι) * T)
      sol.value := by
  obtain ⟨y, hy⟩ := C20_residual_bound cfg hn hd.le hat hrt fn aux0 y0 af ms throw sol h hs
  have hd1 : 0 < 1 - cfg.damp := by linarith
  refine ⟨y, sqrt_card_le _ _ (by positivity) (small_sum _ _ fun i => ?_), sqrt_card_le _ _ hT0 (small_sum _ _ fun i => ?_)⟩
  · rw [lt_div_iff₀ hd1, mul_comm]
    exact (hy i).1.trans_le (hT i)
  · exact (hy i).2.trans_le (hT i)

/-- **C134**, `root_find` with `Bisection`. -/
theorem C134_bisection (cfg : Bisection.Cfg ℝ) (hrt : 0 ≤ cfg.rtol) (hrt1 : cfg.rtol < 2 / 3) (fn : ℝ → ℝ × A) (aux0 : A) (y0 : ℝ)
    (af : ℝ → Bool) (ms : Option Nat) (throw : Bool) (sol : Solution ℝ A (Bisection.State ℝ) Unit)
    (hflip : ∀ b, cfg.flip = .fixed b → Brackets (fun x => (fn x).1) b cfg.lower cfg.upper) (hc : Continuous fun x => (fn x).1)
    (h : rootFind (Bisection.solver cfg) af fn aux0 y0 ms throw = some (.ok sol)) (hs : sol.result = .successful) (T : ℝ)
    (hT : cfg.atol + cfg.rtol * |sol.value| ≤ (1 - 3 / 2 * cfg.rtol) * T) :
    NearlySolves (fun (y : Unit → ℝ) (_ : Unit) => (fn (y ())).1) 0 (T / 2) (fun _ => sol.value) := by
  obtain ⟨st0, n, hi, _, hy, root, h0, h1, h2⟩ := C14_answer_near_root cfg fn aux0 y0 af ms throw sol hflip Set.univ
    Set.ordConnected_univ hc.continuousOn trivial (fun _ _ => ⟨trivial, trivial⟩) h hs
  set y := iterateAt (Bisection.solver cfg) fn aux0 y0 st0 n
  set s := cfg.atol + cfg.rtol * |y| with hsd
  have h3 : |y| ≤ |sol.value| + 3 / 2 * s := by
    have a1 := abs_sub_abs_le_abs_sub y sol.value
    have a2 := abs_sub_le y root sol.value
    rw [abs_sub_comm y root] at a2
    linarith
  have h4 := mul_le_mul_of_nonneg_left h3 hrt
  have h5 : s ≤ T := by
    have h8 : 0 < 1 - 3 / 2 * cfg.rtol := by linarith
    refine le_of_mul_le_mul_left ?_ h8
    linarith
  refine ⟨fun _ => root, by simp [h0], ?_⟩
  simp only [Finset.univ_unique, Finset.sum_singleton, Real.sqrt_sq_eq_abs]
  rw [abs_sub_comm]
  linarith

section
variable (rtol atol : ℝ) (hat : 0 ≤ atol) (nY : (ι → ℝ) → ℝ) (norm : (κ → ℝ) → ℝ) (hN : ∀ (v : κ → ℝ) m, |v m| ≤ norm v)
  (fInf : κ → ℝ) (hinf : ¬ norm fInf < atol) (fn : (ι → ℝ) → (κ → ℝ) × A) (jac : (ι → ℝ) → Matrix κ ι ℝ)
include hat hN hinf

/-- **C134**, `root_find` with `LevenbergMarquardt`. -/
theorem C134_levenberg_marquardt [DecidableEq ι] (eps fmax : ℝ) (he : 0 ≤ eps) (hf : 0 < fmax) (ls : LinSolve ι (κ ⊕ ι))
    (hls : SolvesLeastSquares ls) (af : (ι → ℝ) → Bool) (aux0 : (κ → ℝ) × A) (y0 : ι → ℝ) (ms : Option ℕ) (throw : Bool)
    (sol : Solution (ι → ℝ) A (GaussNewton.State ι κ ((κ → ℝ) × A) ℝ (FnInfo ι κ) × (κ → ℝ)) Unit)
    (h : rootFindViaLeastSquares (GaussNewton.solver (GaussNewton.levenbergMarquardt eps fmax rtol atol nY norm ls jac) aux0)
      norm atol fInf af fn aux0 y0 ms throw = some (.ok sol)) (hs : sol.result = .successful) :
    NearlySolves (fun y => (fn y).1) (Real.sqrt (Fintype.card κ) * atol) 0 sol.value := by
  refine ⟨sol.value, sqrt_card_le _ _ hat ?_, by simp⟩
  exact small_value norm hN atol fInf hinf fn _ af aux0 y0 ms throw sol h hs
    (fun st0 hi => C30_aux_gauss_newton_family _ (fun y z i j s => by
      simp [GaussNewton.levenbergMarquardt, TrustRegion.classical, tr_first]) aux0 (toLstsqFn fn) y0 st0 hi)
    (fun _ _ _ _ _ => rfl) (C41_levenberg_marquardt eps fmax rtol atol he hf nY norm ls hls jac aux0 (toLstsqFn fn) y0).1

/-- **C134**, `root_find` with `Dogleg`. -/
theorem C134_dogleg (eps : ℝ) (he : 0 ≤ eps) (ls : LinSolve ι κ) (hls : SolvesLeastSquares ls) (af : (ι → ℝ) → Bool)
    (aux0 : (κ → ℝ) × A) (y0 : ι → ℝ) (ms : Option ℕ) (throw : Bool)
    (sol : Solution (ι → ℝ) A (GaussNewton.State ι κ ((κ → ℝ) × A) ℝ (Dogleg.State ι) × (κ → ℝ)) Unit)
    (h : rootFindViaLeastSquares (GaussNewton.solver (GaussNewton.dogleg eps rtol atol nY norm ls jac) aux0)
      norm atol fInf af fn aux0 y0 ms throw = some (.ok sol)) (hs : sol.result = .successful) :
    NearlySolves (fun y => (fn y).1) (Real.sqrt (Fintype.card κ) * atol) 0 sol.value := by
  refine ⟨sol.value, sqrt_card_le _ _ hat ?_, by simp⟩
  exact small_value norm hN atol fInf hinf fn _ af aux0 y0 ms throw sol h hs
    (fun st0 hi => C30_aux_gauss_newton_family _ (fun y z i j s => by
      simp [GaussNewton.dogleg, TrustRegion.classical, tr_first]) aux0 (toLstsqFn fn) y0 st0 hi)
    (fun _ _ _ _ _ => rfl) (C41_dogleg eps rtol atol he nY norm ls hls jac aux0 (toLstsqFn fn) y0).1

/-- **C134**, `root_find` with `IndirectLevenbergMarquardt`. -/
theorem C134_indirect [DecidableEq ι] (eps fmax : ℝ) (he : 0 ≤ eps) (hf : 0 < fmax) (ls : LinSolve ι κ) (hls : SolvesLeastSquares ls)
    (lsD : LinSolve ι (κ ⊕ ι)) (hlsD : SolvesLeastSquares lsD) (findLambda : (ℝ → ℝ) → ℝ × Result) (af : (ι → ℝ) → Bool)
    (aux0 : (κ → ℝ) × A) (y0 : ι → ℝ) (ms : Option ℕ) (throw : Bool)
    (sol : Solution (ι → ℝ) A (GaussNewton.State ι κ ((κ → ℝ) × A) ℝ (IndirectState ι κ) × (κ → ℝ)) Unit)
    (h : rootFindViaLeastSquares (GaussNewton.solver (GaussNewton.indirectLevenbergMarquardt eps fmax rtol atol nY norm ls lsD findLambda
      jac) aux0) norm atol fInf af fn aux0 y0 ms throw = some (.ok sol)) (hs : sol.result = .successful) :
    NearlySolves (fun y => (fn y).1) (Real.sqrt (Fintype.card κ) * atol) 0 sol.value := by
  refine ⟨sol.value, sqrt_card_le _ _ hat ?_, by simp⟩
  exact small_value norm hN atol fInf hinf fn _ af aux0 y0 ms throw sol h hs
    (fun st0 hi => C30_aux_gauss_newton_family _ (fun y z i j s => by
      simp [GaussNewton.indirectLevenbergMarquardt, TrustRegion.classical, tr_first]) aux0 (toLstsqFn fn) y0 st0 hi)
    (fun _ _ _ _ _ => rfl)
    (C41_indirect eps fmax ls lsD findLambda he hf hls hlsD rtol atol nY norm jac aux0 (toLstsqFn fn) y0).1

end

theorem nearly_of_tolerance (G : (ι → ℝ) → κ → ℝ) (C T rtol atol : ℝ) (hC : 0 ≤ C) (hT : 0 ≤ T) (ha : 0 ≤ atol) (hr : 0 ≤ rtol)
    (v : ι → ℝ) (h : ∑ m, G v m ^ 2 ≤ C ^ 2 * ∑ i, (atol + rtol * |v i|) ^ 2) (hv : ∀ i, atol + rtol * |v i| ≤ T) :
    NearlySolves G (C * (Real.sqrt (Fintype.card ι) * T)) 0 v := by
  refine ⟨v, ?_, by simp⟩
  refine (Real.sqrt_le_sqrt h).trans ?_
  rw [Real.sqrt_mul (sq_nonneg C), Real.sqrt_sq hC]
  refine mul_le_mul_of_nonneg_left (sqrt_card_le _ _ hT ?_) hC
  calc ∑ i, (atol + rtol * |v i|) ^ 2 ≤ ∑ _i : ι, T ^ 2 :=
        Finset.sum_le_sum fun i _ => pow_le_pow_left₀ (by positivity) (hv i) 2
    _ = _ := by rw [Finset.sum_const, Finset.card_univ, nsmul_eq_mul]

section
variable (rtol atol : ℝ) (ha : 0 < atol) (hr : 0 ≤ rtol) (nY : (ι → ℝ) → ℝ) (hN : ∀ (x : ι → ℝ) i, |x i| ≤ nY x) (T : ℝ)
  (hT0 : 0 ≤ T)
include ha hr hN hT0

/-- **C134**, `minimise` with `GradientDescent`. -/
theorem C134_gradient_descent (nF : (Unit → ℝ) → ℝ) (rate L : ℝ) (hrate : 0 < rate) (grad : (ι → ℝ) → (ι → ℝ)) (aux0 : A)
    (fn : (ι → ℝ) → ℝ × A) (y0 : ι → ℝ) (hL : LipschitzGradient (fun y => (fn y).1) grad L) (af : (ι → ℝ) → Bool)
    (ms : Option Nat) (throw : Bool) (sol : Solution (ι → ℝ) A (GradientDescent.State ι A Unit (ι → ℝ)) Unit)
    (h : iterativeSolve (GradientDescent.solver (GradientDescent.gradientDescent rate rtol atol nY nF grad) aux0) af fn aux0 y0 ms
      throw = some (.ok sol)) (hs : sol.result = .successful) (hT : ∀ i, atol + rtol * |sol.value i| ≤ T) :
    NearlySolves grad ((1 / rate + L) * (Real.sqrt (Fintype.card ι) * T)) 0 sol.value :=
  nearly_of_tolerance grad _ T rtol atol (by have := hL.nonneg; positivity) hT0 ha.le hr sol.value
    (C114_gradient_descent rtol atol ha hr nY hN nF rate L hrate grad aux0 fn y0 hL af ms throw sol h hs) hT

/-- **C134**, `minimise` with steepest descent and backtracking. -/
theorem C134_backtracking (nF : (Unit → ℝ) → ℝ) (d s i : ℝ) (a : Armijo.Cfg ℝ) (hnew : Armijo.new d s i = .ok a) (L : ℝ)
    (hL0 : 0 < L) (grad : (ι → ℝ) → (ι → ℝ)) (aux0 : A) (fn : (ι → ℝ) → ℝ × A) (y0 : ι → ℝ)
    (hL : LipschitzGradient (fun y => (fn y).1) grad L) (af : (ι → ℝ) → Bool)
    (ms : Option Nat) (throw : Bool) (sol : Solution (ι → ℝ) A (GradientDescent.State ι A ℝ (ι → ℝ)) Unit)
    (h : iterativeSolve (GradientDescent.solver (backtrackingDescent a rtol atol nY nF grad) aux0) af fn aux0 y0 ms
      throw = some (.ok sol)) (hs : sol.result = .successful) (hT : ∀ i, atol + rtol * |sol.value i| ≤ T) :
    NearlySolves grad ((1 / smallestStep a L + L) * (Real.sqrt (Fintype.card ι) * T)) 0 sol.value := by
  have hm : 0 < smallestStep a L := by
    obtain ⟨rfl, hd0, hd1, hs0, hs1, hi0⟩ := armijo_new d s i a hnew
    exact lt_min hi0 (mul_pos hd0 (div_pos (mul_pos two_pos (by show (0 : ℝ) < 1 - s; linarith)) hL0))
  exact nearly_of_tolerance grad _ T rtol atol (by positivity) hT0 ha.le hr sol.value
    (C114_backtracking rtol atol ha hr nY hN nF d s i a hnew L hL0 grad aux0 fn y0 hL af ms throw sol h hs) hT

/-- **C134**, `least_squares` with `LevenbergMarquardt`: what nearly vanishes is the gradient of half the sum of squares. -/
theorem C134_least_squares [DecidableEq ι] (nF : (κ → ℝ) → ℝ) (eps fmax : ℝ) (he : 0 ≤ eps) (hf : 0 < fmax)
    (ls : LinSolve ι (κ ⊕ ι)) (hls : SolvesLeastSquares ls) (jac : (ι → ℝ) → Matrix κ ι ℝ)
    (aux0 : A) (fn : (ι → ℝ) → (κ → ℝ) × A) (y0 : ι → ℝ) (L B : ℝ) (hS : SmoothResiduals (fun y => (fn y).1) jac L B)
    (hfL : L ≤ fmax) (heps : eps * (4 * (L + 1)) < 1)
    (af : (ι → ℝ) → Bool) (ms : Option Nat) (throw : Bool)
    (sol : Solution (ι → ℝ) A (GaussNewton.State ι κ A ℝ (FnInfo ι κ)) Unit)
    (h : iterativeSolve (GaussNewton.solver (GaussNewton.levenbergMarquardt eps fmax rtol atol nY nF ls jac) aux0) af fn aux0 y0 ms
      throw = some (.ok sol)) (hs : sol.result = .successful) (htwo : sol.numSteps ≠ 1)
    (hT : ∀ i, atol + rtol * |sol.value i| ≤ T) :
    NearlySolves (fun y i => ∑ m, jac y m i * (fn y).1 m) ((B + 4 * (L + 1) + L) * (Real.sqrt (Fintype.card ι) * T)) 0 sol.value :=
  nearly_of_tolerance _ _ T rtol atol (by obtain ⟨h1, h2⟩ := hS.nonneg; positivity) hT0 ha.le hr sol.value
    (C114_levenberg_marquardt rtol atol ha hr nY hN nF eps fmax he hf ls hls jac aux0 fn y0 L B hS hfL heps af ms throw sol h hs htwo)
    hT

/-- **C134**, `least_squares` with `GaussNewton`. -/
theorem C134_gauss_newton (nF : (κ → ℝ) → ℝ) (ls : LinSolve ι κ) (hls : SolvesLeastSquares ls) (jac : (ι → ℝ) → Matrix κ ι ℝ)
    (aux0 : A) (fn : (ι → ℝ) → (κ → ℝ) × A) (y0 : ι → ℝ) (L B : ℝ) (hS : SmoothResiduals (fun y => (fn y).1) jac L B)
    (af : (ι → ℝ) → Bool) (ms : Option Nat) (throw : Bool)
    (sol : Solution (ι → ℝ) A (GaussNewton.State ι κ A Unit ((ι → ℝ) × Result)) Unit)
    (h : iterativeSolve (GaussNewton.solver (GaussNewton.gaussNewton rtol atol nY nF ls jac) aux0) af fn aux0 y0 ms throw =
      some (.ok sol)) (hs : sol.result = .successful) (htwo : sol.numSteps ≠ 1) (hT : ∀ i, atol + rtol * |sol.value i| ≤ T) :
    NearlySolves (fun y i => ∑ m, jac y m i * (fn y).1 m) ((B + L) * (Real.sqrt (Fintype.card ι) * T)) 0 sol.value :=
  nearly_of_tolerance _ _ T rtol atol (by obtain ⟨h1, h2⟩ := hS.nonneg; positivity) hT0 ha.le hr sol.value
    (C114_gauss_newton rtol atol ha hr nY hN nF ls hls jac aux0 fn y0 L B hS af ms throw sol h hs htwo) hT

end

/-- Two solves that have little in common: `cos(y)/2` and `cos(y)/2 + β` are solved from different starting points with different
tolerances and different damping.  Both succeed, and their answers agree up to the sum of the tolerances and `β`. -/
example (β a b : ℝ) (hβ : 0 ≤ β) :
    let S : ℝ → ℝ → FixedPointIter.Cfg Unit ℝ := fun atol damp => ⟨0, atol, maxNorm, damp⟩
    let fn : ℝ → (Unit → ℝ) → (Unit → ℝ) × Unit := fun β y => (fun _ => Real.cos (y ()) / 2 + β, ())
    ∃ v w, iterativeSolve (FixedPointIter.solver (S (1 / 100) 0)) (fun _ => true) (fn 0) () (fun _ => a) none true = some (.ok v) ∧
      iterativeSolve (FixedPointIter.solver (S (1 / 1000) (1 / 2))) (fun _ => true) (fn β) () (fun _ => b) none true = some (.ok w) ∧
      v.result = .successful ∧ w.result = .successful ∧ |v.value () - w.value ()| ≤ (1 / 100 + 2 / 1000 + β) * 2 + 11 / 1000 := by
  intro S fn
  have hcos : ∀ x y : ℝ, |Real.cos x / 2 - Real.cos y / 2| ≤ 1 / 2 * |x - y| := by
    intro x y
    have h1 : |Real.cos x - Real.cos y| ≤ |x - y| := by
      have := Real.lipschitzWith_cos.dist_le_mul x y
      simpa [Real.dist_eq] using this
    rw [← sub_div, abs_div, abs_two]
    linarith
  have hcon : ∀ β, ContractionFor maxNorm (1 / 2) fun z => (fn β z).1 := by
    intro β x y
    have hu : ∀ x : Unit → ℝ, maxNorm x = |x ()| := fun x =>
      le_antisymm ((maxNorm_le_iff x _).2 ⟨abs_nonneg _, fun _ => le_rfl⟩) (abs_le_maxNorm x ())
    rw [hu, hu]
    simp only [fn, add_sub_add_right_eq_sub]
    exact hcos _ _
  have hrun : ∀ (atol damp β a : ℝ), 0 < atol → 0 ≤ damp → damp < 1 →
      ∃ v, iterativeSolve (FixedPointIter.solver (S atol damp)) (fun _ => true) (fn β) () (fun _ => a) none true = some (.ok v) ∧
        v.result = .successful ∧ NearlySolves (fun y i => (fn β y).1 i - y i) (atol / (1 - damp)) atol v.value := by
    intro atol damp β a ha hd0 hd1
    obtain ⟨n, _, hn⟩ := C21_terminates (S atol damp) (goodNorm_maxNorm (ι := Unit)) (maxNorm_add (ι := Unit)) ha le_rfl hd0 hd1 (fn β) (1 / 2) (by norm_num)
      (by norm_num) (hcon β) () fun _ => a
    obtain ⟨v, h1, h2, _⟩ := hn none true (by rintro m ⟨⟩)
    refine ⟨v, h1, h2, ?_⟩
    have := C134_fixed_point_iteration (S atol damp) rfl hd1 ha le_rfl (fn β) () (fun _ => a) _ none true v h1 h2 atol ha.le
      (fun i => by simp [S])
    simpa [S] using this
  obtain ⟨v, hv1, hv2, hv3⟩ := hrun (1 / 100) 0 0 a (by norm_num) le_rfl one_pos
  obtain ⟨w, hw1, hw2, hw3⟩ := hrun (1 / 1000) (1 / 2) β b (by norm_num) (by norm_num) (by norm_num)
  refine ⟨v, w, hv1, hw1, hv2, hw2, ?_⟩
  have hsteep : Steep (fun (y : Unit → ℝ) i => (fn 0 y).1 i - y i) (1 - 1 / 2) :=
    C134_contraction_steep (fun y => (fn 0 y).1) (1 / 2) (by norm_num) fun x y => by
      simpa [fn, Real.sqrt_sq_eq_abs] using hcos (x ()) (y ())
  have := C134_agree _ _ _ β _ _ _ _ hsteep (fun y => by simp [fn, Real.sqrt_sq_eq_abs, abs_of_nonneg hβ]) _ _ hv3 hw3
  simp only [Finset.univ_unique, Finset.sum_singleton, Real.sqrt_sq_eq_abs] at this
  refine this.trans (le_of_eq ?_)
  norm_num
  ring

end Verif.Props
