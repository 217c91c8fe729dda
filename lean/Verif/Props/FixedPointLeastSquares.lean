import Verif.Props.RootFindIndirect
import Verif.Props.Determined
import Verif.Spec.SmoothContraction

/-!
Property C137: `fixed_point` with the least-squares solvers finds the fixed points of contractions.
-/

namespace Verif.Props

open Verif Verif.Spec Verif.Driver Verif.SearchLoop Verif.Secular Filter Topology

variable {ι A : Type} [Fintype ι]

/-- The Jacobian of a contraction shrinks vectors. -/
theorem contraction_jacobian {g : (ι → ℝ) → ι → ℝ} {G : (ι → ℝ) → Matrix ι ι ℝ} {c K : ℝ} (h : SmoothContraction g G c K) (y p : ι → ℝ) :
    ∑ m, (∑ i, G y m i * p i) ^ 2 ≤ c ^ 2 * ∑ i, p i ^ 2 := by
  have hlim : Tendsto (fun t : ℝ => ∑ m, (slope (fun t : ℝ => g (fun i => y i + t * p i) m) 0 t) ^ 2) (𝓝[≠] 0)
      (𝓝 (∑ m, (∑ i, G y m i * p i) ^ 2)) :=
    tendsto_finsetSum _ fun m _ => ((h.jacobian.deriv y p m).tendsto_slope).pow 2
  refine le_of_tendsto hlim ?_
  filter_upwards [self_mem_nhdsWithin] with t ht
  have ht' : t ≠ 0 := ht
  have h1 := h.contracts (fun i => y i + t * p i) y
  have h2 : ∑ m, (g (fun i => y i + t * p i) m - g y m) ^ 2 ≤ (c * Real.sqrt (∑ i, (y i + t * p i - y i) ^ 2)) ^ 2 := by
    rw [← Real.sq_sqrt (show 0 ≤ ∑ m, (g (fun i => y i + t * p i) m - g y m) ^ 2 from Finset.sum_nonneg fun _ _ => sq_nonneg _)]
    exact pow_le_pow_left₀ (Real.sqrt_nonneg _) h1 2
  rw [mul_pow, Real.sq_sqrt (Finset.sum_nonneg fun _ _ => sq_nonneg _)] at h2
  have e1 : ∑ i, (y i + t * p i - y i) ^ 2 = t ^ 2 * ∑ i, p i ^ 2 := by
    rw [Finset.mul_sum]; exact Finset.sum_congr rfl fun i _ => by ring
  have e2 : ∑ m, (slope (fun t : ℝ => g (fun i => y i + t * p i) m) 0 t) ^ 2 = (∑ m, (g (fun i => y i + t * p i) m - g y m) ^ 2) / t ^ 2 := by
    rw [Finset.sum_div]
    refine Finset.sum_congr rfl fun m _ => ?_
    rw [slope_def_field]
    simp only [zero_mul, add_zero, sub_zero, div_pow]
  rw [e1] at h2
  rw [e2, div_le_iff₀ (by positivity)]
  linarith

variable [DecidableEq ι]

/-- The Jacobian of `g(y) - y`. -/
def rootJac (G : (ι → ℝ) → Matrix ι ι ℝ) (y : ι → ℝ) : Matrix ι ι ℝ := G y - 1

theorem rootJac_apply (G : (ι → ℝ) → Matrix ι ι ℝ) (y p : ι → ℝ) (m : ι) : ∑ i, rootJac G y m i * p i = (∑ i, G y m i * p i) - p m := by
  simp only [rootJac, Matrix.sub_apply, sub_mul, Finset.sum_sub_distrib, Matrix.one_apply, ite_mul, one_mul, zero_mul, Finset.sum_ite_eq,
    Finset.mem_univ, if_true]

theorem rootJac_transpose (G : (ι → ℝ) → Matrix ι ι ℝ) (y v : ι → ℝ) (i : ι) : ∑ m, rootJac G y m i * v m = (∑ m, G y m i * v m) - v i := by
  simp only [rootJac, Matrix.sub_apply, sub_mul, Finset.sum_sub_distrib, Matrix.one_apply, ite_mul, one_mul, zero_mul, Finset.sum_ite_eq',
    Finset.mem_univ, if_true]

theorem shrink_gap (c : ℝ) (hc0 : 0 ≤ c) (hc : c < 1) (a p : ι → ℝ) (h : ∑ i, a i ^ 2 ≤ c ^ 2 * ∑ i, p i ^ 2) :
    (1 - c) ^ 2 * ∑ i, p i ^ 2 ≤ ∑ i, (a i - p i) ^ 2 ∧ ∑ i, (a i - p i) ^ 2 ≤ (1 + c) ^ 2 * ∑ i, p i ^ 2 := by
  have ha : euclid a ≤ c * euclid p := by
    refine abs_le_of_sq_le_sq' ?_ (mul_nonneg hc0 (euclid_nonneg p)) |>.2
    rw [mul_pow, euclid_sq, euclid_sq]
    exact h
  have h1 : euclid p ≤ euclid a + euclid fun i => a i - p i := by
    have := euclid_sub a fun i => a i - p i
    rwa [show (fun i => a i - (a i - p i)) = p from funext fun i => by ring] at this
  have h2 := euclid_sub a p
  have hp := euclid_nonneg p
  rw [← euclid_sq, ← euclid_sq (fun i => a i - p i), ← mul_pow, ← mul_pow]
  exact ⟨pow_le_pow_left₀ (mul_nonneg (by linarith) hp) (by linarith) 2, pow_le_pow_left₀ (euclid_nonneg _) (by linarith) 2⟩

theorem rootJac_lipschitz {fn : (ι → ℝ) → (ι → ℝ) × A} {G : (ι → ℝ) → Matrix ι ι ℝ} {c K : ℝ}
    (h : SmoothContraction (fun y => (fn y).1) G c K) : LipschitzJacobian (fun y => (fpToRootFn fn y).1) (rootJac G) K where
  deriv y p m := by
    rw [rootJac_apply]
    have h1 := h.jacobian.deriv y p m
    have h2 : HasDerivAt (fun t : ℝ => y m + t * p m) (p m) 0 := by simpa using ((hasDerivAt_id (0 : ℝ)).mul_const (p m)).const_add (y m)
    exact h1.sub h2
  lipschitz y z p := by
    have e : ∀ m i, rootJac G y m i - rootJac G z m i = G y m i - G z m i := fun m i => by
      simp only [rootJac, Matrix.sub_apply]; ring
    simp only [e]
    exact h.jacobian.lipschitz y z p
  nonneg := h.jacobian.nonneg

theorem rootJac_invertible {g : (ι → ℝ) → ι → ℝ} {G : (ι → ℝ) → Matrix ι ι ℝ} {c K : ℝ} (h : SmoothContraction g G c K) :
    UniformlyInvertible (rootJac G) ((1 - c) ^ 2) ((1 + c) ^ 2) where
  pos := by have := h.small; exact pow_pos (by linarith) 2
  below y p := by
    simp only [rootJac_apply]
    exact (shrink_gap c h.nonneg h.small _ p (contraction_jacobian h y p)).1
  above y p := by
    simp only [rootJac_apply]
    exact (shrink_gap c h.nonneg h.small _ p (contraction_jacobian h y p)).2

theorem rootJac_onto {g : (ι → ℝ) → ι → ℝ} {G : (ι → ℝ) → Matrix ι ι ℝ} {c K : ℝ} (h : SmoothContraction g G c K) :
    UniformlyOnto (rootJac G) ((1 - c) ^ 2) where
  pos := by have := h.small; exact pow_pos (by linarith) 2
  onto y v := by
    simp only [rootJac_transpose]
    exact (shrink_gap c h.nonneg h.small _ v (transpose_bound (G y) (c ^ 2) (sq_nonneg c) (contraction_jacobian h y) v)).1

/-- **C137.**  A contraction has exactly one fixed point. -/
theorem C137_one_fixed_point (g : (ι → ℝ) → ι → ℝ) (G : (ι → ℝ) → Matrix ι ι ℝ) (c K : ℝ) (h : SmoothContraction g G c K) :
    ∃! x, g x = x := by
  have hJ := rootJac_lipschitz (A := Unit) (fn := fun y => (g y, ())) h
  obtain ⟨x, hx, -⟩ := invertible_near_root (fun y => g y - y) (rootJac G) K _ _ hJ (rootJac_invertible h) 0
  refine ⟨x, funext fun i => sub_eq_zero.1 (hx i), fun z hz => ?_⟩
  have h1 := h.contracts z x
  have hx' : g x = x := funext fun i => sub_eq_zero.1 (hx i)
  rw [hz, hx'] at h1
  have h2 : euclid (fun i => z i - x i) ≤ c * euclid fun i => z i - x i := h1
  have h3 : euclid (fun i => z i - x i) = 0 := by
    have := euclid_nonneg fun i => z i - x i
    have := h.small
    nlinarith
  funext i
  have h4 := abs_le_euclid (fun i => z i - x i) i
  rw [h3] at h4
  exact sub_eq_zero.1 (abs_nonpos_iff.1 h4)

/-- Every small residual is close to the fixed point. -/
theorem near_fixed_point {fn : (ι → ℝ) → (ι → ℝ) × A} {G : (ι → ℝ) → Matrix ι ι ℝ} {c K : ℝ}
    (h : SmoothContraction (fun y => (fn y).1) G c K) (x : ι → ℝ) (hx : (fn x).1 = x) (ε : ℝ) (v : ι → ℝ)
    (hv : NearlySolves (fun y => (fpToRootFn fn y).1) ε 0 v) : Real.sqrt (∑ i, (v i - x i) ^ 2) ≤ ε / (1 - c) := by
  have := C134_near_solution _ _ _ _ (C134_contraction_steep (fun y => (fn y).1) c h.small h.contracts) v x hv
    fun m => by simp [hx]
  simpa using this

section
variable (rtol atol : ℝ) (hat : 0 < atol) (hrt : 0 ≤ rtol) (nY nF : (ι → ℝ) → ℝ) (hY : GoodNorm nY) (hF : GoodNorm nF)
  (hN : ∀ (v : ι → ℝ) m, |v m| ≤ nF v) (fInf : ι → ℝ) (hinf : ¬ nF fInf < atol) (fn : (ι → ℝ) → (ι → ℝ) × A) (auxF : (ι → ℝ) × A)
  (G : (ι → ℝ) → Matrix ι ι ℝ) (c K : ℝ) (h : SmoothContraction (fun y => (fn y).1) G c K) (x : ι → ℝ) (hx : (fn x).1 = x)
  (s : Struct) (y0 : ι → ℝ) (R : ℝ) (hR0 : 0 ≤ R) (hR : ∑ m, ((fn y0).1 m - y0 m) ^ 2 ≤ R ^ 2)
include hat hrt hY hF hN hinf h hx hR0 hR

/-- **C137**, `LevenbergMarquardt`: from every starting point, for every function that is a contraction with a Lipschitz Jacobian, `fixed_point`
stops by itself and reports success, with every sufficiently large budget and with none, and its answer is close to the fixed point. -/
theorem C137_levenberg_marquardt (eps fmax : ℝ) (he : 0 ≤ eps) (hf : 0 < fmax) (ls : LinSolve ι (ι ⊕ ι)) (hls : SolvesLeastSquares ls)
    (hok : ∀ M v, (ls.rect M v).2 = .successful) (hfK : K * R ≤ fmax) (heps : eps * (4 * (K * R + 1)) < 1) :
    ∃ N, ∀ ms throw, (∀ n, ms = some n → N ≤ n) →
      ∃ sol, fixedPointViaLeastSquares (GaussNewton.solver (GaussNewton.levenbergMarquardt eps fmax rtol atol nY nF ls (rootJac G)) auxF)
          nF atol fInf s s (fun _ => true) fn auxF y0 ms throw = some (.ok sol) ∧ sol.result = .successful ∧ sol.numSteps ≤ N ∧
        Real.sqrt (∑ i, (sol.value i - x i) ^ 2) ≤ Real.sqrt (Fintype.card ι) * atol / (1 - c) := by
  obtain ⟨N, hN'⟩ := C116_root_find eps fmax rtol atol he hf nY nF ls hls (rootJac G) (fpToRootFn fn) y0 K _ R (rootJac_lipschitz h)
    (rootJac_onto h) hR0 hR hfK heps hok hat hrt hY hF fInf auxF
  refine ⟨N, fun ms throw hb => ?_⟩
  obtain ⟨sol, h1, h2, h3⟩ := hN' ms throw hb
  refine ⟨sol, ?_, h2, h3, ?_⟩
  · simpa [fixedPointViaLeastSquares, fpStructCheck] using h1
  · exact near_fixed_point h x hx _ _
      (C134_levenberg_marquardt rtol atol hat.le nY nF hN fInf hinf _ (rootJac G) eps fmax he hf ls hls _ auxF y0 ms throw sol h1 h2)

/-- **C137**, `IndirectLevenbergMarquardt`. -/
theorem C137_indirect (eps fmax : ℝ) (he : 0 < eps) (hf : 0 < fmax) (ls : LinSolve ι ι) (hls : SolvesLeastSquares ls)
    (hok : ∀ M v, (ls.rect M v).2 = .successful) (lsD : LinSolve ι (ι ⊕ ι)) (hlsD : SolvesLeastSquares lsD)
    (hokD : ∀ M v, (lsD.rect M v).2 = .successful) (env : InnerEnv) (henv : ExactInner env) (hfK : K * R ≤ fmax) (hL : K * R ≤ 10 ^ 8)
    (hcond : eps * (40 * (1 + c) ^ 2 * ((1 + c) ^ 2 + K * R + 1)) < (1 - c) ^ 2) :
    ∃ N, ∀ ms throw, (∀ n, ms = some n → N ≤ n) →
      ∃ sol, fixedPointViaLeastSquares (GaussNewton.solver (GaussNewton.indirectLevenbergMarquardt eps fmax rtol atol nY nF ls lsD
          (findLambdaNewton env 1) (rootJac G)) auxF) nF atol fInf s s (fun _ => true) fn auxF y0 ms throw = some (.ok sol) ∧
        sol.result = .successful ∧ sol.numSteps ≤ N ∧
        Real.sqrt (∑ i, (sol.value i - x i) ^ 2) ≤ Real.sqrt (Fintype.card ι) * atol / (1 - c) := by
  have hc0 := h.nonneg
  have hc1 := h.small
  obtain ⟨N, hN'⟩ := C126_root_find eps fmax rtol atol he hf nY nF ls hls lsD hlsD env henv (rootJac G) (fpToRootFn fn) y0 K _ _ R
    (rootJac_lipschitz h) (rootJac_invertible h) (pow_le_pow_left₀ (by linarith) (by linarith) 2) hR0 hR hfK hL hcond hok hokD hat hrt hY hF
    fInf auxF
  refine ⟨N, fun ms throw hb => ?_⟩
  obtain ⟨sol, h1, h2, h3⟩ := hN' ms throw hb
  refine ⟨sol, ?_, h2, h3, ?_⟩
  · simpa [fixedPointViaLeastSquares, fpStructCheck] using h1
  · exact near_fixed_point h x hx _ _ (C134_indirect rtol atol hat.le nY nF hN fInf hinf _ (rootJac G) eps fmax he.le hf ls hls lsD hlsD _ _ auxF
      y0 ms throw sol h1 h2)

/-- **C137**, `Dogleg`, if the tolerance is not below the level of its guard against division by zero and no trial before success is at a step
size where the formula for the crossing of the dogleg path degenerates (C42). -/
theorem C137_dogleg (eps : ℝ) (he : 0 ≤ eps) (ls : LinSolve ι ι) (hls : SolvesLeastSquares ls) (hok : ∀ M v, (ls.rect M v).2 = .successful)
    (hguard : ∀ v : ι → ℝ, (1 - c) ^ 2 * ∑ m, v m ^ 2 ≤ ((1 + c) ^ 2 * eps) ^ 2 → nF v < atol) :
    let S := GaussNewton.solver (GaussNewton.dogleg eps rtol atol nY nF ls (rootJac G)) auxF
    ∃ st0 N, S.init (toLstsqFn (fpToRootFn fn)) y0 = .ok st0 ∧
      ((∀ k, k < N → ¬ AtDegenerateCrossing eps (stateAt S (toLstsqFn (fpToRootFn fn)) auxF y0 st0 (k + 1)).searchState ls
          (rootJac G (iterateAt S (toLstsqFn (fpToRootFn fn)) auxF y0 st0 (k + 1)))
          (fpToRootFn fn (iterateAt S (toLstsqFn (fpToRootFn fn)) auxF y0 st0 (k + 1))).1) →
        ∀ ms throw, (∀ n, ms = some n → N ≤ n) →
          ∃ sol, fixedPointViaLeastSquares S nF atol fInf s s (fun _ => true) fn auxF y0 ms throw = some (.ok sol) ∧
            sol.result = .successful ∧ sol.numSteps ≤ N ∧
            Real.sqrt (∑ i, (sol.value i - x i) ^ 2) ≤ Real.sqrt (Fintype.card ι) * atol / (1 - c)) := by
  intro S
  have hc0 := h.nonneg
  obtain ⟨st0, N, hi, hN'⟩ := C121_root_find eps rtol atol he nY nF ls hls (rootJac G) (fpToRootFn fn) y0 K _ _ R
    (rootJac_lipschitz h) (rootJac_invertible h) (by positivity) hR0 hR hok hat hrt hY hF hguard fInf auxF
  refine ⟨st0, N, hi, fun hcross ms throw hb => ?_⟩
  obtain ⟨sol, h1, h2, h3⟩ := hN' hcross ms throw hb
  refine ⟨sol, ?_, h2, h3, ?_⟩
  · simpa [fixedPointViaLeastSquares, fpStructCheck] using h1
  · exact near_fixed_point h x hx _ _ (C134_dogleg rtol atol hat.le nY nF hN fInf hinf _ (rootJac G) eps he ls hls _ auxF y0 ms throw sol h1 h2)

end

/-- The contraction `cos(y)/2`. -/
theorem halfCos_contraction : SmoothContraction (fun (y : Unit → ℝ) (_ : Unit) => Real.cos (y ()) / 2)
    (fun y _ _ => -Real.sin (y ()) / 2) (1 / 2) (1 / 2) where
  nonneg := by norm_num
  small := by norm_num
  contracts x y := by
    simp only [Finset.univ_unique, Finset.sum_singleton, Real.sqrt_sq_eq_abs, PUnit.default_eq_unit]
    have h1 : |Real.cos (x ()) - Real.cos (y ())| ≤ |x () - y ()| := by
      have := Real.lipschitzWith_cos.dist_le_mul (x ()) (y ())
      simpa [Real.dist_eq] using this
    rw [← sub_div, abs_div, abs_two]
    linarith
  jacobian :=
    { deriv := fun y p m => by
        simp only [Finset.univ_unique, Finset.sum_singleton, PUnit.default_eq_unit]
        have h2 : HasDerivAt (fun t : ℝ => y () + t * p ()) (p ()) 0 := by simpa using ((hasDerivAt_id (0 : ℝ)).mul_const (p ())).const_add (y ())
        have h3 := (h2.cos).div_const 2
        simp only [zero_mul, add_zero] at h3
        exact h3.congr_deriv (by ring)
      lipschitz := fun y z p => by
        simp only [Finset.univ_unique, Finset.sum_singleton, PUnit.default_eq_unit]
        have h1 : |Real.sin (y ()) - Real.sin (z ())| ≤ |y () - z ()| := by
          have := Real.lipschitzWith_sin.dist_le_mul (y ()) (z ())
          simpa [Real.dist_eq] using this
        have h2 := sq_le_sq.2 h1
        rw [mul_pow]
        refine mul_le_mul_of_nonneg_right ?_ (sq_nonneg _)
        have e : (-Real.sin (y ()) / 2 - -Real.sin (z ()) / 2) ^ 2 = (1 / 2) ^ 2 * (Real.sin (y ()) - Real.sin (z ())) ^ 2 := by ring
        rw [e]
        exact mul_le_mul_of_nonneg_left h2 (by positivity)
      nonneg := by norm_num }

/-- From every starting point with `|cos(y0)/2 - y0| ≤ 2`, `fixed_point` with `LevenbergMarquardt` finds the fixed point of `cos(y)/2`. -/
example (ls : LinSolve Unit (Unit ⊕ Unit)) (hls : SolvesLeastSquares ls) (hok : ∀ M v, (ls.rect M v).2 = .successful) (y0 : ℝ)
    (hy : |Real.cos y0 / 2 - y0| ≤ 2) :
    ∃ x, Real.cos x / 2 = x ∧ ∃ sol, fixedPointViaLeastSquares
      (GaussNewton.solver (GaussNewton.levenbergMarquardt (2⁻¹ ^ 52) (2 ^ 1023) (1/100) (1/100) maxNorm maxNorm ls
        (rootJac fun y _ _ => -Real.sin (y ()) / 2)) (fun _ => 0, ())) maxNorm (1/100) (fun _ => 1) (.leaf [] true) (.leaf [] true)
        (fun _ => true) (fun y => (fun _ => Real.cos (y ()) / 2, ())) (fun _ => 0, ()) (fun _ => y0) none true = some (.ok sol) ∧
      sol.result = .successful ∧ |sol.value () - x| ≤ 1 / 50 := by
  obtain ⟨x, hx, -⟩ := C137_one_fixed_point _ _ _ _ halfCos_contraction
  refine ⟨x (), congrFun hx (), ?_⟩
  obtain ⟨N, hN⟩ := C137_levenberg_marquardt (A := Unit) (1/100) (1/100) (by norm_num) (by norm_num) (maxNorm (ι := Unit)) (maxNorm (ι := Unit))
    goodNorm_maxNorm goodNorm_maxNorm abs_le_maxNorm (fun _ => 1)
    (by
      have := abs_le_maxNorm (fun _ : Unit => (1 : ℝ)) ()
      rw [abs_one] at this
      linarith)
    (fun y => (fun _ => Real.cos (y ()) / 2, ())) (fun _ => 0, ()) _ (1 / 2) (1 / 2) halfCos_contraction x hx (.leaf [] true) (fun _ => y0) 2
    (by norm_num) (by
      simp only [Finset.univ_unique, Finset.sum_singleton]
      rw [← sq_abs]
      exact pow_le_pow_left₀ (abs_nonneg _) hy 2) (2⁻¹ ^ 52) (2 ^ 1023) (by positivity) (by positivity) ls hls hok
    (le_trans (by norm_num) (one_le_pow₀ one_le_two)) (by norm_num)
  obtain ⟨sol, h1, h2, -, h3⟩ := hN none true (by simp)
  refine ⟨sol, h1, h2, ?_⟩
  simp only [Finset.univ_unique, Finset.sum_singleton, Real.sqrt_sq_eq_abs, PUnit.default_eq_unit, Fintype.card_unit, Nat.cast_one,
    Real.sqrt_one] at h3
  exact h3.trans (by norm_num)

end Verif.Props
