import Verif.Props.FixedPoint
import Verif.Spec.Eigen
import Mathlib.Analysis.Matrix.Normed
import Mathlib.Analysis.Normed.Algebra.GelfandFormula
import Mathlib.Analysis.Calculus.FDeriv.Comp
import Mathlib.Analysis.Calculus.FDeriv.Add
import Mathlib.Analysis.Calculus.FDeriv.Mul
import Mathlib.LinearAlgebra.Matrix.ToLinearEquiv
import Mathlib.Topology.Algebra.Module.FiniteDimension
import Mathlib.Analysis.SpecialFunctions.Trigonometric.Deriv

/-!
Property C139: the eigenvalues decide whether `FixedPointIteration` converges.
-/

namespace Verif.Props

open Verif.Spec Verif.Driver Verif.FixedPointIter Filter Topology

variable {ι A : Type} [Fintype ι]

section
open scoped Matrix.Norms.Operator

/-- If all eigenvalues lie inside the unit circle, then some power of the matrix shrinks all vectors. -/
theorem shrinking_power [DecidableEq ι] (M : Matrix ι ι ℝ) (h : ∀ z, IsEigenvalue M z → ‖z‖ < 1) :
    ∃ m, 1 ≤ m ∧ ∃ c, 0 ≤ c ∧ c < 1 ∧ ∀ x : ι → ℝ, ‖(M ^ m).mulVec x‖ ≤ c * ‖x‖ := by
  set C : Matrix ι ι ℂ := M.map Complex.ofReal with hC
  rcases isEmpty_or_nonempty ι with hemp | hne
  · refine ⟨1, le_rfl, 0, le_rfl, one_pos, fun x => ?_⟩
    rw [Subsingleton.elim ((M ^ 1).mulVec x) 0, norm_zero, zero_mul]
  have hspec : ∀ z ∈ spectrum ℂ C, ‖z‖₊ < (1 : NNReal) := by
    intro z hz
    rw [spectrum.mem_iff, Matrix.isUnit_iff_isUnit_det, isUnit_iff_ne_zero, not_not] at hz
    obtain ⟨v, hv, hv0⟩ := Matrix.exists_mulVec_eq_zero_iff.2 hz
    refine h z ⟨v, hv, fun i => ?_⟩
    have h1 := congrFun hv0 i
    rw [Matrix.sub_mulVec, Pi.sub_apply, Pi.zero_apply, sub_eq_zero] at h1
    have h2 : (algebraMap ℂ (Matrix ι ι ℂ) z).mulVec v i = z * v i := by
      rw [Algebra.algebraMap_eq_smul_one, Matrix.smul_mulVec, Matrix.one_mulVec]; rfl
    rw [h2] at h1
    exact h1.symm
  have hrad : spectralRadius ℂ C < (1 : NNReal) := spectrum.spectralRadius_lt_of_forall_lt C hspec
  have hlim := spectrum.pow_nnnorm_pow_one_div_tendsto_nhds_spectralRadius C
  obtain ⟨m, hm1, hm2⟩ := ((hlim.eventually (gt_mem_nhds hrad)).and (eventually_ge_atTop 1)).exists
  refine ⟨m, hm2, ‖C ^ m‖, norm_nonneg _, ?_, fun x => ?_⟩
  · have hmr : (0 : ℝ) < 1 / m := by
      have : (0 : ℝ) < m := by exact_mod_cast hm2
      positivity
    by_contra hge
    push Not at hge
    have h3 : (1 : ENNReal) ≤ (‖C ^ m‖₊ : ENNReal) := by
      rw [← ENNReal.coe_one, ENNReal.coe_le_coe]
      exact hge
    have h4 := ENNReal.rpow_le_rpow h3 hmr.le
    rw [ENNReal.one_rpow] at h4
    exact absurd hm1 (not_lt.2 (by simpa using h4))
  · have h5 := Matrix.linfty_opNorm_mulVec (C ^ m) (fun i => (x i : ℂ))
    have h6 : (C ^ m).mulVec (fun i => (x i : ℂ)) = fun i => (((M ^ m).mulVec x i : ℝ) : ℂ) := by
      have e : C ^ m = (M ^ m).map Complex.ofReal := (map_pow (Complex.ofRealHom.mapMatrix) M m).symm
      rw [e]
      funext i
      simp only [Matrix.mulVec, dotProduct, Matrix.map_apply]
      push_cast
      rfl
    rw [h6] at h5
    have hn : ∀ w : ι → ℝ, ‖fun i => (w i : ℂ)‖ = ‖w‖ := fun w => by
      simp only [Pi.norm_def, nnnorm, Complex.norm_real]
    rwa [hn, hn] at h5

end

/-- A map one of whose powers contracts a ball towards a point, iterated from a point that it keeps in the ball that long. -/
theorem iterates_tend (T : (ι → ℝ) → (ι → ℝ)) (ys : ι → ℝ) (m : ℕ) (hm : 1 ≤ m) (c ε : ℝ) (hc0 : 0 ≤ c) (hc1 : c < 1)
    (hpow : ∀ x, ‖x - ys‖ < ε → ‖T^[m] x - ys‖ ≤ c * ‖x - ys‖) (x : ι → ℝ) (hx : ∀ j < m, ‖T^[j] x - ys‖ < ε) :
    Tendsto (fun k => T^[k] x) atTop (𝓝 ys) := by
  have hin : ∀ j < m, ∀ n, ‖T^[m * n + j] x - ys‖ ≤ c ^ n * ε ∧ ‖T^[m * n + j] x - ys‖ < ε := by
    intro j hj n
    induction n with
    | zero => simpa using ⟨(hx j hj).le, hx j hj⟩
    | succ n ih =>
      have e : T^[m * (n + 1) + j] x = T^[m] (T^[m * n + j] x) := by
        rw [← Function.iterate_add_apply]; congr 1; ring
      have h1 := hpow _ ih.2
      have h0 := norm_nonneg (T^[m * n + j] x - ys)
      rw [e]
      constructor
      · calc _ ≤ c * ‖T^[m * n + j] x - ys‖ := h1
          _ ≤ c * (c ^ n * ε) := mul_le_mul_of_nonneg_left ih.1 hc0
          _ = _ := by ring
      · nlinarith [ih.2]
  rw [tendsto_iff_norm_sub_tendsto_zero]
  have hz : Tendsto (fun k : ℕ => c ^ (k / m) * ε) atTop (𝓝 0) := by
    have h1 : Tendsto (fun k : ℕ => k / m) atTop atTop := Nat.tendsto_div_const_atTop (by omega)
    have h2 := ((tendsto_pow_atTop_nhds_zero_of_lt_one hc0 hc1).comp h1).mul_const ε
    rwa [zero_mul] at h2
  refine squeeze_zero (fun _ => norm_nonneg _) (fun k => ?_) hz
  have h1 := (hin (k % m) (Nat.mod_lt k (by omega)) (k / m)).1
  rwa [Nat.div_add_mod] at h1

/-- A map is iterated from near a fixed point at which all eigenvalues of its Jacobian `M` lie inside the unit circle. -/
theorem spectral_local [DecidableEq ι] (T : (ι → ℝ) → (ι → ℝ)) (ys : ι → ℝ) (hTfix : T ys = ys) (M : Matrix ι ι ℝ)
    (hTd : HasStrictFDerivAt T (LinearMap.toContinuousLinearMap M.mulVecLin) ys) (h : ∀ z, IsEigenvalue M z → ‖z‖ < 1) :
    ∃ δ > 0, ∀ x, ‖x - ys‖ < δ → Tendsto (fun k => T^[k] x) atTop (𝓝 ys) := by
  obtain ⟨m, hm, c, hc0, hc1, hc⟩ := shrinking_power M h
  have hiter : ∀ k, HasStrictFDerivAt T^[k] (LinearMap.toContinuousLinearMap (M ^ k).mulVecLin) ys := by
    intro k
    induction k with
    | zero =>
      refine (hasStrictFDerivAt_id ys).congr_fderiv ?_
      ext x i; simp
    | succ k ih =>
      have hk : T^[k] ys = ys := Function.iterate_fixed hTfix k
      rw [Function.iterate_succ']
      refine (HasStrictFDerivAt.comp ys (by rw [hk]; exact hTd) ih).congr_fderiv ?_
      ext x i
      simp [pow_succ']
  obtain ⟨q, hq1, hq2⟩ := exists_between hc1
  have hlim := (hiter m).hasFDerivAt.isLittleO.def (c := q - c) (by linarith)
  rw [Metric.eventually_nhds_iff] at hlim
  obtain ⟨ε, hε, hball⟩ := hlim
  have hpow : ∀ x, ‖x - ys‖ < ε → ‖T^[m] x - ys‖ ≤ q * ‖x - ys‖ := by
    intro x hx
    have h1 := hball (by rwa [dist_eq_norm])
    rw [Function.iterate_fixed hTfix m] at h1
    have h2 := hc (x - ys)
    have h3 : T^[m] x - ys = (T^[m] x - ys - LinearMap.toContinuousLinearMap (M ^ m).mulVecLin (x - ys)) + (M ^ m).mulVec (x - ys) := by
      simp
    rw [h3]
    refine (norm_add_le _ _).trans ?_
    calc _ ≤ (q - c) * ‖x - ys‖ + c * ‖x - ys‖ := add_le_add h1 h2
      _ = _ := by ring
  have hnear : ∀ᶠ x in 𝓝 ys, ∀ j < m, ‖T^[j] x - ys‖ < ε := by
    have : ∀ j ∈ Set.Iio m, ∀ᶠ x in 𝓝 ys, ‖T^[j] x - ys‖ < ε := by
      intro j _
      have h1 := (hiter j).continuousAt
      have h2 : Tendsto (fun x => ‖T^[j] x - ys‖) (𝓝 ys) (𝓝 0) := by
        have h3 := (h1.sub (continuousAt_const (y := ys))).norm
        have h4 : ‖T^[j] ys - ys‖ = 0 := by rw [Function.iterate_fixed hTfix j, sub_self, norm_zero]
        rw [← h4]
        exact h3
      exact h2.eventually (gt_mem_nhds hε)
    exact (eventually_all_finite (Set.finite_Iio m)).2 this
  rw [Metric.eventually_nhds_iff] at hnear
  obtain ⟨δ, hδ, hδ'⟩ := hnear
  exact ⟨δ, hδ, fun x hx => iterates_tend T ys m hm q ε (hc0.trans hq1.le) hq2 hpow x (hδ' (by rwa [dist_eq_norm]))⟩

/-- An affine map is iterated: convergence from everywhere means that all eigenvalues lie inside the unit circle. -/
theorem spectral_affine [DecidableEq ι] (T : (ι → ℝ) → (ι → ℝ)) (ys : ι → ℝ) (M : Matrix ι ι ℝ)
    (hTk : ∀ x k, T^[k] x - ys = (M ^ k).mulVec (x - ys)) :
    (∀ x, Tendsto (fun k => T^[k] x) atTop (𝓝 ys)) ↔ ∀ z, IsEigenvalue M z → ‖z‖ < 1 := by
  constructor
  · rintro hall w ⟨v, hv, hz'⟩
    have hreal : ∀ x : ι → ℝ, Tendsto (fun k => (M ^ k).mulVec x) atTop (𝓝 0) := by
      intro x
      have h1 := (hall (ys + x)).sub_const ys
      rw [sub_self] at h1
      refine h1.congr fun k => ?_
      rw [hTk, add_sub_cancel_left]
    have hpow : ∀ (k : ℕ) i, ∑ j, ((M ^ k) i j : ℂ) * v j = w ^ k * v i := by
      intro k
      induction k with
      | zero =>
        intro i
        have e : ∀ j, ((M ^ 0) i j : ℂ) * v j = if i = j then v j else 0 := fun j => by
          rw [pow_zero, Matrix.one_apply]; split <;> simp
        rw [Finset.sum_congr rfl fun j _ => e j]; simp
      | succ k ih =>
        intro i
        rw [pow_succ']
        simp only [Matrix.mul_apply]
        push_cast
        calc ∑ j, (∑ l, (M i l : ℂ) * ((M ^ k) l j : ℂ)) * v j = ∑ l, (M i l : ℂ) * ∑ j, ((M ^ k) l j : ℂ) * v j := by
              simp only [Finset.sum_mul, Finset.mul_sum]
              rw [Finset.sum_comm]
              exact Finset.sum_congr rfl fun l _ => Finset.sum_congr rfl fun j _ => by ring
          _ = w ^ k * ∑ l, (M i l : ℂ) * v l := by
              rw [Finset.mul_sum]
              exact Finset.sum_congr rfl fun l _ => by rw [ih]; ring
          _ = w ^ (k + 1) * v i := by rw [hz']; ring
    have hsplit : ∀ (k : ℕ) i, ∑ j, ((M ^ k) i j : ℂ) * v j =
        (((M ^ k).mulVec (fun j => (v j).re) i : ℝ) : ℂ) + (((M ^ k).mulVec (fun j => (v j).im) i : ℝ) : ℂ) * Complex.I := by
      intro k i
      simp only [Matrix.mulVec, dotProduct]
      push_cast
      rw [Finset.sum_mul, ← Finset.sum_add_distrib]
      refine Finset.sum_congr rfl fun j _ => ?_
      conv_lhs => rw [← Complex.re_add_im (v j)]
      ring
    obtain ⟨i, hi⟩ := Function.ne_iff.1 hv
    have h0 : Tendsto (fun k : ℕ => w ^ k * v i) atTop (𝓝 0) := by
      have h1 := (Complex.continuous_ofReal.tendsto 0).comp (((continuous_apply i).tendsto _).comp (hreal fun j => (v j).re))
      have h2 := ((Complex.continuous_ofReal.tendsto 0).comp (((continuous_apply i).tendsto _).comp (hreal fun j => (v j).im))).mul_const Complex.I
      have h3 := h1.add h2
      simp only [Complex.ofReal_zero, zero_mul, add_zero] at h3
      refine h3.congr fun k => ?_
      rw [← hpow, hsplit]
      rfl
    have h1 : Tendsto (fun k : ℕ => w ^ k) atTop (𝓝 0) := by
      have h2 := h0.mul_const (v i)⁻¹
      rw [zero_mul] at h2
      refine h2.congr fun k => ?_
      exact mul_inv_cancel_right₀ hi _
    rw [tendsto_zero_iff_norm_tendsto_zero] at h1
    by_contra hge
    push Not at hge
    obtain ⟨k, hk⟩ := (h1.eventually (gt_mem_nhds one_pos)).exists
    rw [norm_pow] at hk
    exact absurd hk (not_lt.2 (one_le_pow₀ hge))
  · intro heig y0
    obtain ⟨m, hm, c, hc0, hc1, hc⟩ := shrinking_power M heig
    obtain ⟨ε, hε⟩ : ∃ ε, ∀ j < m, ‖T^[j] y0 - ys‖ < ε := by
      refine ⟨(∑ j ∈ Finset.range m, ‖T^[j] y0 - ys‖) + 1, fun j hj => ?_⟩
      have := Finset.single_le_sum (f := fun j => ‖T^[j] y0 - ys‖) (fun _ _ => norm_nonneg _) (Finset.mem_range.2 hj)
      linarith
    exact iterates_tend T ys m hm c ε hc0 hc1 (fun x _ => by rw [hTk]; exact hc _) y0 hε

section
variable (cfg : Cfg ι ℝ) (fn : (ι → ℝ) → (ι → ℝ) × A) (aux0 : A)

/-- `FixedPointIteration` stops by itself when its iterates converge. -/
theorem fp_stops (hN : GoodNorm cfg.norm) (hat : 0 < cfg.atol) (hrt : 0 ≤ cfg.rtol) (y0 ys : ι → ℝ)
    (h : Tendsto (iterateAt (solver cfg) fn aux0 y0 none) atTop (𝓝 ys)) :
    ∃ N, ∀ (ms : Option ℕ) (throw : Bool), (∀ n, ms = some n → N ≤ n) →
      ∃ sol, iterativeSolve (solver cfg) (fun _ => true) fn aux0 y0 ms throw = some (.ok sol) ∧ sol.result = .successful := by
  set Y := iterateAt (solver cfg) fn aux0 y0 none with hY
  have hD : Tendsto (fun k => Y k - Y (k + 1)) atTop (𝓝 0) := by
    have h1 := h.sub ((tendsto_add_atTop_iff_nat 1).2 h)
    rwa [sub_self] at h1
  have hb : 0 ≤ cfg.norm fun _ => 1 := by
    have h1 := hN.smul 0 (fun _ => 1)
    have h2 := hN.mono (fun i => 0 * (fun _ => (1 : ℝ)) i) (fun _ => 1) (fun i => by simp)
    rw [h1, abs_zero, zero_mul] at h2
    exact h2
  have hδ : 0 < cfg.atol / (cfg.norm (fun _ => 1) + 1) := by positivity
  obtain ⟨K, hK⟩ := ((tendsto_zero_iff_norm_tendsto_zero.1 hD).eventually (gt_mem_nhds hδ)).exists
  refine ⟨K + 1, fun ms throw hms => ?_⟩
  obtain ⟨sol, h1, h2, -⟩ := fp_succeeds cfg fn aux0 y0 ms throw K (by
    rw [← hY]
    refine lt_of_le_of_lt (hN.mono _ (fun i => (1 / (cfg.norm (fun _ => 1) + 1)) * (fun _ => (1 : ℝ)) i) fun i => ?_) ?_
    · have hp : cfg.atol ≤ cfg.atol + cfg.rtol * |Y (K + 1) i| := le_add_of_nonneg_right (by positivity)
      have hi : |Y K i - Y (K + 1) i| ≤ cfg.atol / (cfg.norm (fun _ => 1) + 1) := (norm_le_pi_norm (Y K - Y (K + 1)) i).trans hK.le
      rw [abs_div, abs_of_pos (lt_of_lt_of_le hat hp), mul_one, abs_of_nonneg (by positivity : 0 ≤ 1 / (cfg.norm (fun _ => 1) + 1)),
        div_le_iff₀ (lt_of_lt_of_le hat hp)]
      calc _ ≤ cfg.atol / (cfg.norm (fun _ => 1) + 1) := hi
        _ = 1 / (cfg.norm (fun _ => 1) + 1) * cfg.atol := by ring
        _ ≤ _ := mul_le_mul_of_nonneg_left hp (by positivity)
    · rw [hN.smul, abs_of_nonneg (by positivity : 0 ≤ 1 / (cfg.norm (fun _ => 1) + 1)), div_mul_eq_mul_div, one_mul,
        div_lt_one (by positivity)]
      linarith) hms
  exact ⟨sol, h1, h2⟩

/-- **C139**, powers.  If some power of the damped map is a contraction then there is exactly one fixed point, `FixedPointIteration` converges to
it from every starting point, and it stops by itself and reports success. -/
theorem C139_power (hN : GoodNorm cfg.norm) (hat : 0 < cfg.atol) (hrt : 0 ≤ cfg.rtol) (hd : cfg.damp ≠ 1) (m : ℕ) (hm : 1 ≤ m) (c : ℝ)
    (hc0 : 0 ≤ c) (hc1 : c < 1) (hc : ContractionFor maxNorm c (dampedMap cfg.damp fun z => (fn z).1)^[m]) :
    ∃ ys, (∀ y, (fn y).1 = y ↔ y = ys) ∧ ∀ y0,
      Tendsto (iterateAt (solver cfg) fn aux0 y0 none) atTop (𝓝 ys) ∧
      ∃ N, ∀ (ms : Option ℕ) (throw : Bool), (∀ n, ms = some n → N ≤ n) →
        ∃ sol, iterativeSolve (solver cfg) (fun _ => true) fn aux0 y0 ms throw = some (.ok sol) ∧ sol.result = .successful := by
  set T := dampedMap cfg.damp fun z => (fn z).1 with hT
  obtain ⟨ys, hfix, huniq⟩ := C21_fixed_point_exists _ c hc0 hc1 hc
  have hcom : T^[m] (T ys) = T (T^[m] ys) := by
    rw [← Function.iterate_succ_apply, Function.iterate_succ_apply']
  have hfixT : T ys = ys := huniq _ (by show T^[m] (T ys) = T ys; rw [hcom]; exact congrArg T hfix)
  have hall : ∀ y, (fn y).1 = y ↔ y = ys := by
    intro y
    have h1 : T y = y ↔ (fn y).1 = y := C20_same_fixed_points cfg.damp hd (fun z => (fn z).1) y
    rw [← h1]
    constructor
    · intro h
      exact huniq _ (Function.iterate_fixed h m)
    · rintro rfl
      exact hfixT
  refine ⟨ys, hall, fun y0 => ?_⟩
  have hlim : Tendsto (iterateAt (solver cfg) fn aux0 y0 none) atTop (𝓝 ys) := by
    have hbound : ∃ ε, ∀ j < m, ‖T^[j] y0 - ys‖ < ε := by
      refine ⟨(∑ j ∈ Finset.range m, ‖T^[j] y0 - ys‖) + 1, fun j hj => ?_⟩
      have := Finset.single_le_sum (f := fun j => ‖T^[j] y0 - ys‖) (fun _ _ => norm_nonneg _) (Finset.mem_range.2 hj)
      linarith
    obtain ⟨ε, hε⟩ := hbound
    have hmn : ∀ x : ι → ℝ, maxNorm x = ‖x‖ := fun x =>
      le_antisymm ((maxNorm_le_iff x _).2 ⟨norm_nonneg _, fun i => norm_le_pi_norm x i⟩)
        ((pi_norm_le_iff_of_nonneg (maxNorm_nonneg x)).2 fun i => abs_le_maxNorm x i)
    have h1 := iterates_tend T ys m hm c ε hc0 hc1 (fun x _ => by
      have h2 := hc x ys
      rw [hfix, hmn, hmn] at h2
      exact h2) y0 hε
    refine h1.congr fun k => ?_
    rw [fp_iterate_eq]
  exact ⟨hlim, fp_stops cfg fn aux0 hN hat hrt y0 ys hlim⟩

variable [DecidableEq ι]

/-- The matrix of the damped map. -/
def dampedMatrix (d : ℝ) (G : Matrix ι ι ℝ) : Matrix ι ι ℝ := (1 - d) • G + d • 1

omit [Fintype ι] in
theorem dampedMatrix_apply [Fintype ι] (d : ℝ) (G : Matrix ι ι ℝ) (x : ι → ℝ) (i : ι) :
    (dampedMatrix d G).mulVec x i = (1 - d) * G.mulVec x i + d * x i := by
  simp [dampedMatrix, Matrix.add_mulVec, Matrix.smul_mulVec]

theorem damped_eigenvalue (d : ℝ) (hd : d ≠ 1) (G : Matrix ι ι ℝ) (z : ℂ) :
    IsEigenvalue (dampedMatrix d G) z ↔ ∃ w, IsEigenvalue G w ∧ z = (1 - d) * w + d := by
  have hd' : (1 - (d : ℂ)) ≠ 0 := by
    rw [sub_ne_zero]; exact_mod_cast Ne.symm hd
  have key : ∀ (v : ι → ℂ) i, ∑ j, (dampedMatrix d G i j : ℂ) * v j = (1 - d) * ∑ j, (G i j : ℂ) * v j + d * v i := by
    intro v i
    have e : ∀ j, (dampedMatrix d G i j : ℂ) * v j = (1 - d) * ((G i j : ℂ) * v j) + d * (if i = j then v j else 0) := by
      intro j
      simp only [dampedMatrix, Matrix.add_apply, Matrix.smul_apply, Matrix.one_apply, smul_eq_mul]
      split <;> push_cast <;> ring
    rw [Finset.sum_congr rfl fun j _ => e j, Finset.sum_add_distrib, ← Finset.mul_sum, ← Finset.mul_sum]
    simp
  constructor
  · rintro ⟨v, hv, h⟩
    refine ⟨(z - d) / (1 - d), ⟨v, hv, fun i => ?_⟩, by field_simp; ring⟩
    have h1 := h i
    rw [key] at h1
    have h2 : (1 - d : ℂ) * ∑ j, (G i j : ℂ) * v j = (z - d) * v i := by rw [sub_mul z]; linear_combination h1
    field_simp
    linear_combination h2
  · rintro ⟨w, ⟨v, hv, h⟩, rfl⟩
    refine ⟨v, hv, fun i => ?_⟩
    rw [key, h]
    ring

/-- **C139**, local convergence.  If the map is strictly differentiable at a fixed point and `damping` brings all eigenvalues of its Jacobian `G`
into the unit circle, then from all nearby starting points `FixedPointIteration` converges to the fixed point, stops by itself and reports
success. -/
theorem C139_local (hN : GoodNorm cfg.norm) (hat : 0 < cfg.atol) (hrt : 0 ≤ cfg.rtol) (hd : cfg.damp ≠ 1) (ys : ι → ℝ)
    (hfix : (fn ys).1 = ys) (G : Matrix ι ι ℝ)
    (hG : HasStrictFDerivAt (fun y => (fn y).1) (LinearMap.toContinuousLinearMap G.mulVecLin) ys)
    (heig : ∀ z, IsEigenvalue G z → ‖(1 - cfg.damp) * z + cfg.damp‖ < 1) :
    ∃ δ > 0, ∀ y0, ‖y0 - ys‖ < δ →
      Tendsto (iterateAt (solver cfg) fn aux0 y0 none) atTop (𝓝 ys) ∧
      ∃ N, ∀ (ms : Option ℕ) (throw : Bool), (∀ n, ms = some n → N ≤ n) →
        ∃ sol, iterativeSolve (solver cfg) (fun _ => true) fn aux0 y0 ms throw = some (.ok sol) ∧ sol.result = .successful := by
  set T := dampedMap cfg.damp fun z => (fn z).1 with hT
  set M := dampedMatrix cfg.damp G with hM
  have hTfix : T ys = ys := (C20_same_fixed_points cfg.damp hd (fun z => (fn z).1) ys).2 hfix
  have hTd : HasStrictFDerivAt T (LinearMap.toContinuousLinearMap M.mulVecLin) ys := by
    have h1 := (hG.const_smul (1 - cfg.damp)).add ((hasStrictFDerivAt_id ys).const_smul cfg.damp)
    refine h1.congr_fderiv ?_
    ext x i
    simp [hM, dampedMatrix_apply]
  obtain ⟨δ, hδ, hδ'⟩ := spectral_local T ys hTfix M hTd fun z hz => by
    obtain ⟨w, hw, rfl⟩ := (damped_eigenvalue cfg.damp hd G z).1 hz
    exact heig w hw
  refine ⟨δ, hδ, fun y0 hy0 => ?_⟩
  have hl : Tendsto (iterateAt (solver cfg) fn aux0 y0 none) atTop (𝓝 ys) := (hδ' y0 hy0).congr fun k => by rw [fp_iterate_eq]
  exact ⟨hl, fp_stops cfg fn aux0 hN hat hrt y0 ys hl⟩

/-- The iterates on an affine map. -/
theorem affine_iterates (G : Matrix ι ι ℝ) (b : ι → ℝ) (hfn : ∀ y i, (fn y).1 i = G.mulVec y i + b i) (ys : ι → ℝ)
    (hfix : (fn ys).1 = ys) (y0 : ι → ℝ) (k : ℕ) :
    iterateAt (solver cfg) fn aux0 y0 none k - ys = ((dampedMatrix cfg.damp G) ^ k).mulVec (y0 - ys) := by
  induction k with
  | zero => simp [iterateAt, trace]
  | succ k ih =>
    rw [pow_succ', ← Matrix.mulVec_mulVec, ← ih, fp_iterate_succ]
    funext i
    rw [dampedMatrix_apply, Matrix.mulVec_sub]
    have h1 := congrFun hfix i
    rw [hfn] at h1
    simp only [dampedMap, Pi.sub_apply, hfn]
    linear_combination (1 - cfg.damp) * h1

/-- **C139**, affine maps.  `FixedPointIteration` converges to the fixed point from every starting point if and only if damping brings all
eigenvalues into the unit circle. -/
theorem C139_affine (hd : cfg.damp ≠ 1) (G : Matrix ι ι ℝ) (b : ι → ℝ)
    (hfn : ∀ y i, (fn y).1 i = G.mulVec y i + b i) (ys : ι → ℝ) (hfix : (fn ys).1 = ys) :
    (∀ y0, Tendsto (iterateAt (solver cfg) fn aux0 y0 none) atTop (𝓝 ys)) ↔
      ∀ z, IsEigenvalue G z → ‖(1 - cfg.damp) * z + cfg.damp‖ < 1 := by
  have hit := affine_iterates cfg fn aux0 G b hfn ys hfix
  have h1 := spectral_affine (dampedMap cfg.damp fun z => (fn z).1) ys (dampedMatrix cfg.damp G) fun x k => by
    rw [← hit, fp_iterate_eq]
  have h2 : ∀ y0, iterateAt (solver cfg) fn aux0 y0 none = fun k => (dampedMap cfg.damp fun z => (fn z).1)^[k] y0 :=
    fun y0 => funext fun k => fp_iterate_eq cfg fn aux0 y0 k
  simp only [h2]
  rw [h1]
  constructor
  · exact fun h z hz => h _ ((damped_eigenvalue cfg.damp hd G _).2 ⟨z, hz, rfl⟩)
  · intro h z hz
    obtain ⟨w, hw, rfl⟩ := (damped_eigenvalue cfg.damp hd G z).1 hz
    exact h w hw

/-- **C139**, affine maps: when damping brings all eigenvalues into the unit circle, the solve stops by itself and reports success, from every
starting point. -/
theorem C139_affine_succeeds (hN : GoodNorm cfg.norm) (hat : 0 < cfg.atol) (hrt : 0 ≤ cfg.rtol) (hd : cfg.damp ≠ 1) (G : Matrix ι ι ℝ)
    (b : ι → ℝ) (hfn : ∀ y i, (fn y).1 i = G.mulVec y i + b i) (ys : ι → ℝ) (hfix : (fn ys).1 = ys)
    (heig : ∀ z, IsEigenvalue G z → ‖(1 - cfg.damp) * z + cfg.damp‖ < 1) (y0 : ι → ℝ) :
    ∃ N, ∀ (ms : Option ℕ) (throw : Bool), (∀ n, ms = some n → N ≤ n) →
      ∃ sol, iterativeSolve (solver cfg) (fun _ => true) fn aux0 y0 ms throw = some (.ok sol) ∧ sol.result = .successful :=
  fp_stops cfg fn aux0 hN hat hrt y0 ys ((C139_affine cfg fn aux0 hd G b hfn ys hfix).2 heig y0)

end

/-- The map `(x, y) ↦ (-2y, 2x)`, which doubles all distances. -/
def doublingTurn : Matrix (Fin 2) (Fin 2) ℝ := !![0, -2; 2, 0]

theorem doublingTurn_eigenvalue (z : ℂ) (h : IsEigenvalue doublingTurn z) : z = 2 * Complex.I ∨ z = -(2 * Complex.I) := by
  obtain ⟨v, hv, h⟩ := h
  have h0 := h 0
  have h1 := h 1
  simp only [doublingTurn, Fin.sum_univ_two, Matrix.of_apply, Matrix.cons_val_zero, Matrix.cons_val_one, Matrix.cons_val', Matrix.cons_val_fin_one,
    Complex.ofReal_zero, zero_mul, zero_add, add_zero] at h0 h1
  push_cast at h0 h1
  have hsq : z ^ 2 + 4 = 0 := by
    by_contra hne
    apply hv
    funext i
    fin_cases i
    · exact (mul_eq_zero.1 (show (z ^ 2 + 4) * v 0 = 0 by linear_combination -z * h0 + 2 * h1)).resolve_left hne
    · exact (mul_eq_zero.1 (show (z ^ 2 + 4) * v 1 = 0 by linear_combination -2 * h0 - z * h1)).resolve_left hne
  have hf : (z - 2 * Complex.I) * (z + 2 * Complex.I) = 0 := by
    linear_combination hsq - 4 * Complex.I_sq
  rcases mul_eq_zero.1 hf with h | h
  · exact .inl (sub_eq_zero.1 h)
  · exact .inr (eq_neg_of_add_eq_zero_left h)

theorem doublingTurn_damped (d : ℝ) (z : ℂ) (h : IsEigenvalue doublingTurn z) :
    ‖(1 - d) * z + d‖ ^ 2 = 4 * (1 - d) ^ 2 + d ^ 2 := by
  rw [← Complex.normSq_eq_norm_sq, Complex.normSq_apply]
  rcases doublingTurn_eigenvalue z h with rfl | rfl <;> simp <;> ring

/-- The affine theorem applies to a map that doubles all distances: with damping `4/5` the iteration converges from every starting point, without
damping it does not. -/
example (fn : (Fin 2 → ℝ) → (Fin 2 → ℝ) × Unit) (hfn : fn = fun y => (doublingTurn.mulVec y, ())) (cfg : Cfg (Fin 2) ℝ) :
    (cfg.damp = 4 / 5 → ∀ y0, Tendsto (iterateAt (solver cfg) fn () y0 none) atTop (𝓝 0)) ∧
    (cfg.damp = 0 → ∃ y0, ¬ Tendsto (iterateAt (solver cfg) fn () y0 none) atTop (𝓝 0)) := by
  have hfix : (fn 0).1 = 0 := by rw [hfn]; exact Matrix.mulVec_zero doublingTurn
  have haff : ∀ y i, (fn y).1 i = doublingTurn.mulVec y i + (0 : Fin 2 → ℝ) i := fun y i => by rw [hfn]; simp
  constructor
  · intro hd
    refine (C139_affine cfg fn () (by rw [hd]; norm_num) doublingTurn 0 haff 0 hfix).2 fun z hz => ?_
    have h1 := doublingTurn_damped cfg.damp z hz
    rw [hd] at h1 ⊢
    norm_num at h1 ⊢
    nlinarith [norm_nonneg ((1 - (4 / 5 : ℂ)) * z + 4 / 5)]
  · intro hd
    by_contra hall
    push Not at hall
    have h0 := (C139_affine cfg fn () (by rw [hd]; norm_num) doublingTurn 0 haff 0 hfix).1 hall (2 * Complex.I) ⟨![1, -Complex.I], ?_, ?_⟩
    · rw [hd] at h0
      norm_num at h0
    · intro h
      have := congrFun h 0
      simp at this
    · intro i
      fin_cases i
      · simp [doublingTurn]
      · simp only [doublingTurn, Fin.sum_univ_two]
        simp
        linear_combination 2 * Complex.I_sq

/-- The theorem on powers applies to the map `(x, y) ↦ (4y, 1)`, which is no contraction but is constant after two applications. -/
example : ContractionFor maxNorm 0 (dampedMap 0 fun (y : Fin 2 → ℝ) => ![4 * y 1, 1])^[2] := by
  intro x y
  rw [maxNorm_le_iff]
  refine ⟨by simp, fun i => ?_⟩
  fin_cases i <;> simp [dampedMap]

/-- The local theorem applies to `y ↦ cos y - 3 y + c` with damping `4/5` at a fixed point: wherever the fixed point is, the eigenvalue
`-sin y - 3` of the Jacobian lies between `-4` and `-2`. -/
example (c : ℝ) (ys : Unit → ℝ) (G : Matrix Unit Unit ℝ) (hG : G = fun _ _ => -Real.sin (ys ()) - 3) :
    HasStrictFDerivAt (fun (y : Unit → ℝ) (_ : Unit) => Real.cos (y ()) - 3 * y () + c) (LinearMap.toContinuousLinearMap G.mulVecLin) ys ∧
    ∀ z, IsEigenvalue G z → ‖(1 - ((4 / 5 : ℝ) : ℂ)) * z + ((4 / 5 : ℝ) : ℂ)‖ < 1 := by
  constructor
  · rw [hasStrictFDerivAt_pi']
    intro i
    have h1 : HasStrictFDerivAt (fun y : Unit → ℝ => y ()) (ContinuousLinearMap.proj (R := ℝ) (φ := fun _ : Unit => ℝ) ()) ys :=
      (ContinuousLinearMap.proj (R := ℝ) (φ := fun _ : Unit => ℝ) ()).hasStrictFDerivAt
    have h2 := (((Real.hasStrictDerivAt_cos (ys ())).comp_hasStrictFDerivAt ys h1).sub (h1.const_mul 3)).add_const c
    refine h2.congr_fderiv ?_
    ext x
    show -Real.sin (ys ()) * x () - 3 * x () = G.mulVec x i
    rw [hG]
    simp only [Matrix.mulVec, dotProduct, Finset.univ_unique, Finset.sum_singleton]
    rw [sub_mul]
  · rintro z ⟨v, hv, h⟩
    have hv0 : v () ≠ 0 := fun h0 => hv (funext fun _ => h0)
    have h1 := h ()
    simp only [Finset.univ_unique, Finset.sum_singleton] at h1
    have hz : z = ((-Real.sin (ys ()) - 3 : ℝ) : ℂ) := by
      rw [hG] at h1
      exact (mul_right_cancel₀ hv0 h1).symm
    have e : (1 - ((4 / 5 : ℝ) : ℂ)) * z + ((4 / 5 : ℝ) : ℂ) = (((1 / 5) * (-Real.sin (ys ()) - 3) + 4 / 5 : ℝ) : ℂ) := by
      rw [hz]; push_cast; ring
    rw [e, Complex.norm_real, Real.norm_eq_abs, abs_lt]
    have := Real.neg_one_le_sin (ys ())
    have := Real.sin_le_one (ys ())
    constructor <;> linarith

end Verif.Props
