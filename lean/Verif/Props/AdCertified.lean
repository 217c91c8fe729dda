import Verif.Props.AdEndToEnd
import Verif.Props.Determined
import Verif.Props.FitByMinimiser

/-!
**C104** for the other solvers: derivatives through every solve that certifies its answer (C134) are as accurate as its tolerances.
-/

namespace Verif.Props

open Verif Verif.Spec Verif.Driver Verif.SearchLoop Verif.Ad Filter Topology

variable {ι κ ο μ R A : Type} [Fintype ι] [Fintype κ] [Fintype ο] [Fintype μ]

theorem norm_le_euclid (x : ι → ℝ) : ‖x‖ ≤ euclid x :=
  (pi_norm_le_iff_of_nonneg (euclid_nonneg x)).2 fun i => abs_le_euclid x i

/-- Well conditioned systems expand distances. -/
theorem steep_expands (F : (ι → ℝ) → ο → ℝ) (m : ℝ) (hF : Steep F m) (x y : ι → ℝ) :
    m / (Fintype.card ο + 1) * ‖x - y‖ ≤ ‖F x - F y‖ := by
  have h1 : m * euclid (fun i => x i - y i) ≤ euclid fun k => F x k - F y k := hF.2 x y
  have h2 := norm_le_euclid (x - y)
  have h3 := euclid_le (F x - F y) ‖F x - F y‖ (norm_nonneg _) fun i => norm_le_pi_norm (F x - F y) i
  rw [div_mul_eq_mul_div, div_le_iff₀ (by positivity), mul_comm ‖F x - F y‖]
  exact (mul_le_mul_of_nonneg_left h2 hF.1.le).trans (h1.trans h3)

/-- The derivative of a branch of solutions of well conditioned equations `G(y, a) = 0` is approximated, at every point that nearly solves the
equations, as well as the equations are solved. -/
theorem certified_tangents (G : (ι → ℝ) → (κ → ℝ) → (ι → ℝ)) (hG : ContDiff ℝ 2 fun q : (ι → ℝ) × (κ → ℝ) => G q.1 q.2) (m : ℝ)
    (hs : ∀ a, Steep (fun y => G y a) m) (p : (κ → ℝ) → (ι → ℝ)) (hp : ∀ a, G (p a) a = 0) (a0 : κ → ℝ) (K T : ℝ) (hK : 0 ≤ K) (hT : 0 ≤ T) :
    ∃ D, HasFDerivAt p D a0 ∧ ∃ C, ∃ ε > 0, ∀ tol value, 0 ≤ tol → tol ≤ ε → NearlySolves (fun y => G y a0) (K * tol) (T * tol) value →
      TangentsWithin μ R (fun y _ i => G y fun k => i (.inl k)) a0 D C tol value := by
  have hm : 0 < m := (hs a0).1
  have hm' : 0 < m / (Fintype.card ι + 1) := by positivity
  have hexp : ∀ a x y, m / (Fintype.card ι + 1) * ‖x - y‖ ≤ ‖G x a - G y a‖ := fun a => steep_expands _ m (hs a)
  have hbr := expanding_branch G hG.continuous _ hm' hexp p hp a0
  have hinv : (fderiv ℝ (fun y => G y a0) (p a0)).IsInvertible := by
    refine expanding_invertible _ _ hm' _ ?_ (hexp a0)
    have h1 : DifferentiableAt ℝ (fun q : (ι → ℝ) × (κ → ℝ) => G q.1 q.2) (p a0, a0) := hG.differentiable (by norm_num) _
    exact h1.comp (p a0) (by fun_prop : DifferentiableAt ℝ (fun y : ι → ℝ => (y, a0)) (p a0))
  obtain ⟨D, hD, C, ε, hε, hC⟩ := (tangent_error (μ := μ) (R := R) a0 (p a0) G hG.contDiffAt hinv p (by rw [hp]; exact hbr)).within
    (K / m + T) (by positivity)
  refine ⟨D, hD, C, ε, hε, fun tol value h0 htol hv => hC tol value h0 htol ?_⟩
  have h1 := C134_near_solution _ m _ _ (hs a0) value (p a0) hv fun k => congrFun (hp a0) k
  refine (norm_le_euclid (value - p a0)).trans (h1.trans (le_of_eq ?_))
  ring

/-- **C104**, `root_find`: every solver whose successes certify that the equations are nearly solved. -/
theorem C104_certified_root_find (fn : (ι → ℝ) → (κ → ℝ) → (ι → ℝ)) (hfn : ContDiff ℝ 2 fun q : (ι → ℝ) × (κ → ℝ) => fn q.1 q.2) (m : ℝ)
    (hs : ∀ a, Steep (fun y => fn y a) m) (p : (κ → ℝ) → (ι → ℝ)) (hp : ∀ a, fn (p a) a = 0) (a0 : κ → ℝ) (K T : ℝ) (hK : 0 ≤ K) (hT : 0 ≤ T) :
    ∃ D, HasFDerivAt p D a0 ∧ ∃ C, ∃ ε > 0, ∀ tol value, 0 ≤ tol → tol ≤ ε → NearlySolves (fun y => fn y a0) (K * tol) (T * tol) value →
      TangentsWithin μ R (rewriteRootFind fn) a0 D C tol value :=
  certified_tangents fn hfn m hs p hp a0 K T hK hT

/-- **C104**, `root_find` with `LevenbergMarquardt`, `Dogleg` and `IndirectLevenbergMarquardt`. -/
theorem C104_root_find_least_squares [DecidableEq ι] (fn : (ι → ℝ) → (κ → ℝ) → (ι → ℝ))
    (hfn : ContDiff ℝ 2 fun q : (ι → ℝ) × (κ → ℝ) => fn q.1 q.2) (m : ℝ)
    (hs : ∀ a, Steep (fun y => fn y a) m) (p : (κ → ℝ) → (ι → ℝ)) (hp : ∀ a, fn (p a) a = 0) (a0 : κ → ℝ) :
    ∃ D, HasFDerivAt p D a0 ∧ ∃ C, ∃ ε > 0, ∀ (eps fmax rtol atol : ℝ) (_ : 0 ≤ eps) (_ : 0 < fmax) (_ : 0 ≤ atol) (_ : atol ≤ ε)
      (nY norm : (ι → ℝ) → ℝ) (_ : ∀ (v : ι → ℝ) i, |v i| ≤ norm v) (fInf : ι → ℝ) (_ : ¬ norm fInf < atol)
      (jac : (ι → ℝ) → Matrix ι ι ℝ) (aux : (ι → ℝ) → A) (aux0 : (ι → ℝ) × A) (y0 : ι → ℝ) (ms : Option ℕ) (throw : Bool)
      (ls : LinSolve ι ι) (_ : SolvesLeastSquares ls) (lsD : LinSolve ι (ι ⊕ ι)) (_ : SolvesLeastSquares lsD)
      (findLambda : (ℝ → ℝ) → ℝ × Result),
      (∀ sol, rootFindViaLeastSquares (GaussNewton.solver (GaussNewton.levenbergMarquardt eps fmax rtol atol nY norm lsD jac) aux0) norm atol
        fInf (fun _ => true) (fun y => (fn y a0, aux y)) aux0 y0 ms throw = some (.ok sol) → sol.result = .successful →
        TangentsWithin μ R (rewriteRootFind fn) a0 D C atol sol.value) ∧
      (∀ sol, rootFindViaLeastSquares (GaussNewton.solver (GaussNewton.dogleg eps rtol atol nY norm ls jac) aux0) norm atol
        fInf (fun _ => true) (fun y => (fn y a0, aux y)) aux0 y0 ms throw = some (.ok sol) → sol.result = .successful →
        TangentsWithin μ R (rewriteRootFind fn) a0 D C atol sol.value) ∧
      (∀ sol, rootFindViaLeastSquares (GaussNewton.solver (GaussNewton.indirectLevenbergMarquardt eps fmax rtol atol nY norm ls lsD findLambda
        jac) aux0) norm atol fInf (fun _ => true) (fun y => (fn y a0, aux y)) aux0 y0 ms throw = some (.ok sol) → sol.result = .successful →
        TangentsWithin μ R (rewriteRootFind fn) a0 D C atol sol.value) := by
  obtain ⟨D, hD, C, ε, hε, h⟩ := C104_certified_root_find (μ := μ) (R := R) fn hfn m hs p hp a0 (Real.sqrt (Fintype.card ι)) 0
    (Real.sqrt_nonneg _) le_rfl
  refine ⟨D, hD, C, ε, hε, fun eps fmax rtol atol he hf hat hle nY norm hN fInf hinf jac aux aux0 y0 ms throw ls hls lsD hlsD findLambda =>
    ⟨fun sol h1 h2 => ?_, fun sol h1 h2 => ?_, fun sol h1 h2 => ?_⟩⟩
  all_goals refine h atol sol.value hat hle ?_
  all_goals rw [zero_mul]
  · exact C134_levenberg_marquardt rtol atol hat nY norm hN fInf hinf _ jac eps fmax he hf lsD hlsD _ aux0 y0 ms throw sol h1 h2
  · exact C134_dogleg rtol atol hat nY norm hN fInf hinf _ jac eps he ls hls _ aux0 y0 ms throw sol h1 h2
  · exact C134_indirect rtol atol hat nY norm hN fInf hinf _ jac eps fmax he hf ls hls lsD hlsD findLambda _ aux0 y0 ms throw sol h1 h2

section gradients
variable [DecidableEq ι]

/-- **C104**, `minimise`: every solver whose successes certify that the gradient is small. -/
theorem C104_certified_minimise (fn : (ι → ℝ) → (κ → ℝ) → ℝ) (hfn : ContDiff ℝ 3 fun q : (ι → ℝ) × (κ → ℝ) => fn q.1 q.2) (ν : ℝ)
    (hconv : ∀ a, StronglyConvex (fun y => fn y a) (grad fun x => fn x a) ν)
    (p : (κ → ℝ) → (ι → ℝ)) (hp : ∀ a i, grad (fun x => fn x a) (p a) i = 0) (a0 : κ → ℝ) (K T : ℝ) (hK : 0 ≤ K) (hT : 0 ≤ T) :
    ∃ D, HasFDerivAt p D a0 ∧ ∃ C, ∃ ε > 0, ∀ tol value, 0 ≤ tol → tol ≤ ε →
      NearlySolves (grad fun x => fn x a0) (K * tol) (T * tol) value → TangentsWithin μ R (rewriteMinimise fn) a0 D C tol value :=
  certified_tangents (fun y a => grad (fun x => fn x a) y)
    (contDiff_iff_contDiffAt.2 fun q => grad_contDiffAt_nat fn q.1 q.2 (n := 2) hfn.contDiffAt) ν
    (fun a => C134_convex_steep _ _ ν (hconv a)) p (fun a => funext (hp a)) a0 K T hK hT

theorem tolerance_entries (rtol atol : ℝ) (hr : 0 ≤ rtol) (v : ι → ℝ) (i : ι) : atol + rtol * |v i| ≤ atol + rtol * ‖v‖ := by
  have := mul_le_mul_of_nonneg_left (norm_le_pi_norm v i) hr
  rw [Real.norm_eq_abs] at this
  linarith

/-- **C104**, `minimise` with steepest descent and backtracking. -/
theorem C104_backtracking (fn : (ι → ℝ) → (κ → ℝ) → ℝ) (hfn : ContDiff ℝ 3 fun q : (ι → ℝ) × (κ → ℝ) => fn q.1 q.2) (ν : ℝ)
    (hconv : ∀ a, StronglyConvex (fun y => fn y a) (grad fun x => fn x a) ν)
    (p : (κ → ℝ) → (ι → ℝ)) (hp : ∀ a i, grad (fun x => fn x a) (p a) i = 0) (a0 : κ → ℝ) (L : ℝ) (hL0 : 0 < L)
    (hL : LipschitzGradient (fun y => fn y a0) (grad fun x => fn x a0) L) (d s i : ℝ) (a : Armijo.Cfg ℝ) (ha : Armijo.new d s i = .ok a) :
    ∃ D, HasFDerivAt p D a0 ∧ ∃ C, ∃ ε > 0, ∀ (rtol atol : ℝ) (_ : 0 < atol) (_ : 0 ≤ rtol) (nY : (ι → ℝ) → ℝ)
      (_ : ∀ (x : ι → ℝ) i, |x i| ≤ nY x) (nF : (Unit → ℝ) → ℝ) (aux : (ι → ℝ) → A) (aux0 : A) (y0 : ι → ℝ) (ms : Option ℕ) (throw : Bool)
      (sol : Solution (ι → ℝ) A (GradientDescent.State ι A ℝ (ι → ℝ)) Unit)
      (_ : iterativeSolve (GradientDescent.solver (backtrackingDescent a rtol atol nY nF (grad fun x => fn x a0)) aux0) (fun _ => true)
        (fun y => (fn y a0, aux y)) aux0 y0 ms throw = some (.ok sol)) (_ : sol.result = .successful) (_ : atol + rtol * ‖sol.value‖ ≤ ε),
      TangentsWithin μ R (rewriteMinimise fn) a0 D C (atol + rtol * ‖sol.value‖) sol.value := by
  have hm : 0 < smallestStep a L := by
    obtain ⟨rfl, hd0, hd1, hs0, hs1, hi0⟩ := armijo_new d s i a ha
    exact lt_min hi0 (mul_pos hd0 (div_pos (mul_pos two_pos (by show (0 : ℝ) < 1 - s; linarith)) hL0))
  obtain ⟨D, hD, C, ε, hε, h⟩ := C104_certified_minimise (μ := μ) (R := R) fn hfn ν hconv p hp a0
    ((1 / smallestStep a L + L) * Real.sqrt (Fintype.card ι)) 0 (by positivity) le_rfl
  refine ⟨D, hD, C, ε, hε, fun rtol atol hat hr nY hN nF aux aux0 y0 ms throw sol h1 h2 hle => ?_⟩
  refine h _ _ (by positivity) hle ?_
  rw [zero_mul, mul_assoc]
  exact C134_backtracking rtol atol hat hr nY hN _ (by positivity) nF d s i a ha L hL0 _ aux0 _ y0 hL _ ms throw sol h1 h2
    (tolerance_entries rtol atol hr sol.value)

/-- The gradient of half the sum of squares. -/
noncomputable def gradSquares (fn : (ι → ℝ) → (κ → ℝ) → (ο → ℝ)) (a : κ → ℝ) : (ι → ℝ) → ι → ℝ :=
  grad fun x => 0.5 * ∑ j, fn x a j * fn x a j

theorem gradSquares_eq (fn : (ι → ℝ) → (κ → ℝ) → (ο → ℝ)) (a : κ → ℝ) (jac : (ι → ℝ) → Matrix ο ι ℝ) (L B : ℝ)
    (hd : ∀ y, DifferentiableAt ℝ (fun x => fn x a) y) (hS : SmoothResiduals (fun y => fn y a) jac L B) (y : ι → ℝ) (i : ι) :
    gradSquares fn a y i = ∑ k, jac y k i * fn y a k := by
  have hf : DifferentiableAt ℝ (fun x => (0.5 : ℝ) * ∑ j, fn x a j * fn x a j) y := by
    have h1 := fun j => differentiableAt_pi.1 (hd y) j
    fun_prop
  have h1 := hS.gradient.deriv y (Pi.single i 1)
  have h2 : HasDerivAt (fun t : ℝ => y + t • (Pi.single i (1 : ℝ) : ι → ℝ)) (Pi.single i 1) 0 := by
    simpa using ((hasDerivAt_id (0 : ℝ)).smul_const (Pi.single i (1 : ℝ) : ι → ℝ)).const_add y
  have h3 := HasFDerivAt.comp_hasDerivAt_of_eq (0 : ℝ) (f := fun t : ℝ => y + t • (Pi.single i (1 : ℝ) : ι → ℝ)) hf.hasFDerivAt h2 (by simp)
  have e : (fun x => (0.5 : ℝ) * ∑ j, fn x a j * fn x a j) ∘ (fun t : ℝ => y + t • (Pi.single i (1 : ℝ) : ι → ℝ)) =
      fun t => (∑ k, fn (fun c => y c + t * (Pi.single i (1 : ℝ) : ι → ℝ) c) a k ^ 2) / 2 := by
    funext t
    have : (y + t • (Pi.single i (1 : ℝ) : ι → ℝ)) = fun c => y c + t * (Pi.single i (1 : ℝ) : ι → ℝ) c := rfl
    simp only [Function.comp, this]
    rw [show (0.5 : ℝ) = 1 / 2 by norm_num, one_div, inv_mul_eq_div]
    congr 1
    exact Finset.sum_congr rfl fun _ _ => by ring
  rw [e] at h3
  have h4 := h3.unique h1
  rw [show ∑ c, (∑ k, jac y k c * fn y a k) * (Pi.single i (1 : ℝ) : ι → ℝ) c = ∑ k, jac y k i * fn y a k by
    simp [Pi.single_apply]] at h4
  exact h4

/-- **C104**, `least_squares`: every solver whose successes certify that the gradient of the sum of squares is small. -/
theorem C104_certified_least_squares (fn : (ι → ℝ) → (κ → ℝ) → (ο → ℝ)) (hfn : ContDiff ℝ 3 fun q : (ι → ℝ) × (κ → ℝ) => fn q.1 q.2) (ν : ℝ)
    (hs : ∀ a, Steep (gradSquares fn a) ν) (p : (κ → ℝ) → (ι → ℝ)) (hp : ∀ a i, gradSquares fn a (p a) i = 0)
    (a0 : κ → ℝ) (K T : ℝ) (hK : 0 ≤ K) (hT : 0 ≤ T) :
    ∃ D, HasFDerivAt p D a0 ∧ ∃ C, ∃ ε > 0, ∀ tol value, 0 ≤ tol → tol ≤ ε →
      NearlySolves (gradSquares fn a0) (K * tol) (T * tol) value → TangentsWithin μ R (rewriteLeastSquares fn) a0 D C tol value := by
  refine certified_tangents (fun y a => gradSquares fn a y) ?_ ν hs p (fun a => funext (hp a)) a0 K T hK hT
  refine contDiff_iff_contDiffAt.2 fun q => grad_contDiffAt_nat (fun x a => 0.5 * ∑ j, fn x a j * fn x a j) q.1 q.2 (n := 2) ?_
  have h1 := fun j => contDiff_pi.1 hfn j
  exact (contDiff_const.mul (ContDiff.sum fun j _ => (h1 j).mul (h1 j))).contDiffAt

/-- **C104**, `least_squares` with `LevenbergMarquardt` and `GaussNewton`. -/
theorem C104_least_squares (fn : (ι → ℝ) → (κ → ℝ) → (ο → ℝ)) (hfn : ContDiff ℝ 3 fun q : (ι → ℝ) × (κ → ℝ) => fn q.1 q.2) (ν : ℝ)
    (hs : ∀ a, Steep (gradSquares fn a) ν) (p : (κ → ℝ) → (ι → ℝ)) (hp : ∀ a i, gradSquares fn a (p a) i = 0) (a0 : κ → ℝ)
    (jac : (ι → ℝ) → Matrix ο ι ℝ) (L B : ℝ) (hS : SmoothResiduals (fun y => fn y a0) jac L B) :
    ∃ D, HasFDerivAt p D a0 ∧ ∃ C, ∃ ε > 0, ∀ (rtol atol : ℝ) (_ : 0 < atol) (_ : 0 ≤ rtol) (nY : (ι → ℝ) → ℝ)
      (_ : ∀ (x : ι → ℝ) i, |x i| ≤ nY x) (nF : (ο → ℝ) → ℝ) (eps fmax : ℝ) (_ : 0 ≤ eps) (_ : 0 < fmax) (_ : L ≤ fmax)
      (_ : eps * (4 * (L + 1)) < 1) (ls : LinSolve ι ο) (_ : SolvesLeastSquares ls) (lsD : LinSolve ι (ο ⊕ ι)) (_ : SolvesLeastSquares lsD)
      (aux : (ι → ℝ) → A) (aux0 : A) (y0 : ι → ℝ) (ms : Option ℕ) (throw : Bool),
      (∀ sol, iterativeSolve (GaussNewton.solver (GaussNewton.levenbergMarquardt eps fmax rtol atol nY nF lsD jac) aux0) (fun _ => true)
        (fun y => (fn y a0, aux y)) aux0 y0 ms throw = some (.ok sol) → sol.result = .successful → sol.numSteps ≠ 1 →
        atol + rtol * ‖sol.value‖ ≤ ε → TangentsWithin μ R (rewriteLeastSquares fn) a0 D C (atol + rtol * ‖sol.value‖) sol.value) ∧
      (∀ sol, iterativeSolve (GaussNewton.solver (GaussNewton.gaussNewton rtol atol nY nF ls jac) aux0) (fun _ => true)
        (fun y => (fn y a0, aux y)) aux0 y0 ms throw = some (.ok sol) → sol.result = .successful → sol.numSteps ≠ 1 →
        atol + rtol * ‖sol.value‖ ≤ ε → TangentsWithin μ R (rewriteLeastSquares fn) a0 D C (atol + rtol * ‖sol.value‖) sol.value) := by
  obtain ⟨hL, hB⟩ := hS.nonneg
  have hd : ∀ y, DifferentiableAt ℝ (fun x => fn x a0) y := fun y => by
    have h1 : DifferentiableAt ℝ (fun q : (ι → ℝ) × (κ → ℝ) => fn q.1 q.2) (y, a0) := hfn.differentiable (by norm_num) _
    exact h1.comp y (by fun_prop : DifferentiableAt ℝ (fun y : ι → ℝ => (y, a0)) y)
  have hg : gradSquares fn a0 = fun y i => ∑ k, jac y k i * fn y a0 k :=
    funext fun y => funext fun i => gradSquares_eq fn a0 jac L B hd hS y i
  obtain ⟨D, hD, C, ε, hε, h⟩ := C104_certified_least_squares (μ := μ) (R := R) fn hfn ν hs p hp a0
    ((B + 4 * (L + 1) + L) * Real.sqrt (Fintype.card ι)) 0 (by positivity) le_rfl
  refine ⟨D, hD, C, ε, hε, fun rtol atol hat hr nY hN nF eps fmax he hf hfL heps ls hls lsD hlsD aux aux0 y0 ms throw =>
    ⟨fun sol h1 h2 h3 hle => ?_, fun sol h1 h2 h3 hle => ?_⟩⟩
  all_goals refine h _ _ (by positivity) hle ?_
  all_goals rw [zero_mul, mul_assoc, hg]
  · exact C134_least_squares rtol atol hat hr nY hN (atol + rtol * ‖sol.value‖) (by positivity) nF eps fmax he hf lsD hlsD jac aux0 (fun y => (fn y a0, aux y)) y0 L B hS
      hfL heps _ ms throw sol h1 h2 h3 (tolerance_entries rtol atol hr sol.value)
  · obtain ⟨y, h4, h5⟩ := C134_gauss_newton rtol atol hat hr nY hN (atol + rtol * ‖sol.value‖) (by positivity) nF ls hls jac aux0
      (fun y => (fn y a0, aux y)) y0 L B hS _ ms throw sol h1 h2 h3 (tolerance_entries rtol atol hr sol.value)
    exact ⟨y, h4.trans (mul_le_mul_of_nonneg_right (by linarith) (by positivity)), h5⟩

end gradients

/-- Three measurements of one unknown, differentiated with respect to the measurements: the best fit is their mean.  `LevenbergMarquardt` and
`GaussNewton` meet the hypotheses of `C104_least_squares`. -/
example (a0 : Fin 3 → ℝ) :
    let fn : (Unit → ℝ) → (Fin 3 → ℝ) → (Fin 3 → ℝ) := fun y a k => y () - a k
    (∀ a, Steep (gradSquares fn a) 3) ∧ (∀ a i, gradSquares fn a (fun _ => (a 0 + a 1 + a 2) / 3) i = 0) ∧
      SmoothResiduals (fun y => fn y a0) (fun _ _ _ => 1) 3 3 ∧
      ContDiff ℝ 3 fun q : (Unit → ℝ) × (Fin 3 → ℝ) => fn q.1 q.2 := by
  intro fn
  have hS : ∀ a, SmoothResiduals (fun y => fn y a) (fun _ _ _ => 1) 3 3 := fun a =>
    linear_smooth (b := a) (fun y m => by simp [fn]) 3 (by norm_num) fun p => by simp
  have hg : ∀ a y i, gradSquares fn a y i = 3 * y () - (a 0 + a 1 + a 2) := fun a y i => by
    rw [gradSquares_eq fn a (fun _ _ _ => 1) 3 3 (fun y => by
      refine differentiableAt_pi.2 fun k => ?_
      show DifferentiableAt ℝ (fun x : Unit → ℝ => x () - a k) y
      fun_prop) (hS a)]
    simp only [fn, Fin.sum_univ_three]
    ring
  refine ⟨fun a => ⟨by norm_num, fun x y => ?_⟩, fun a i => ?_, hS a0, ?_⟩
  · simp only [hg, Finset.univ_unique, Finset.sum_singleton, Real.sqrt_sq_eq_abs, PUnit.default_eq_unit]
    rw [show 3 * x () - (a 0 + a 1 + a 2) - (3 * y () - (a 0 + a 1 + a 2)) = 3 * (x () - y ()) by ring, abs_mul]
    norm_num
  · rw [hg]; ring
  · refine contDiff_pi.2 fun k => ?_
    show ContDiff ℝ 3 fun q : (Unit → ℝ) × (Fin 3 → ℝ) => q.1 () - q.2 k
    fun_prop

/-- The equation `y + y³ = a` meets the hypotheses of `C104_root_find_least_squares`. -/
example : let fn : (Unit → ℝ) → (Unit → ℝ) → (Unit → ℝ) := fun y a _ => y () + y () ^ 3 - a ()
    (∀ a, Steep (fun y => fn y a) 1) ∧ ContDiff ℝ 2 fun q : (Unit → ℝ) × (Unit → ℝ) => fn q.1 q.2 := by
  intro fn
  refine ⟨fun a => ⟨one_pos, fun x y => ?_⟩, contDiff_pi.2 fun u => ?_⟩
  · simp only [fn, Finset.univ_unique, Finset.sum_singleton, Real.sqrt_sq_eq_abs, PUnit.default_eq_unit]
    rw [show (x () + x () ^ 3 - a ()) - (y () + y () ^ 3 - a ()) = (1 + (x () ^ 2 + x () * y () + y () ^ 2)) * (x () - y ()) by ring, abs_mul]
    refine mul_le_mul_of_nonneg_right ?_ (abs_nonneg _)
    refine le_trans ?_ (le_abs_self _)
    nlinarith [sq_nonneg (x () + y ()), sq_nonneg (x ()), sq_nonneg (y ())]
  · show ContDiff ℝ 2 fun q : (Unit → ℝ) × (Unit → ℝ) => q.1 () + q.1 () ^ 3 - q.2 ()
    fun_prop

end Verif.Props
