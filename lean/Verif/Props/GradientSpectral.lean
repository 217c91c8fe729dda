import Verif.Props.FixedPointSpectral
import Verif.Props.GradientMethods

/-!
Property C140: the eigenvalues of the Hessian decide which learning rates work for `GradientDescent`.
-/

namespace Verif.Props

open Verif Verif.Spec Verif.Driver Filter Topology

variable {ι A : Type} [Fintype ι]

/-- Eigenvalues of symmetric matrices are real. -/
theorem symmetric_eigenvalue (H : Matrix ι ι ℝ) (hH : ∀ i j, H i j = H j i) (z : ℂ) (h : IsEigenvalue H z) : z.im = 0 := by
  obtain ⟨v, hv, h⟩ := h
  set c := starRingEnd ℂ with hc
  have h1 : ∑ i, c (v i) * ∑ j, (H i j : ℂ) * v j = z * ∑ i, c (v i) * v i := by
    rw [Finset.mul_sum]
    exact Finset.sum_congr rfl fun i _ => by rw [h]; ring
  have h2 : c (∑ i, c (v i) * ∑ j, (H i j : ℂ) * v j) = ∑ i, c (v i) * ∑ j, (H i j : ℂ) * v j := by
    rw [map_sum]
    simp only [map_mul, map_sum, hc, Complex.conj_conj, Complex.conj_ofReal, Finset.mul_sum]
    rw [Finset.sum_comm]
    refine Finset.sum_congr rfl fun i _ => Finset.sum_congr rfl fun j _ => ?_
    rw [hH j i]; ring
  have h3 : ∑ i, c (v i) * v i = ((∑ i, Complex.normSq (v i) : ℝ) : ℂ) := by
    push_cast
    exact Finset.sum_congr rfl fun i _ => by rw [Complex.normSq_eq_conj_mul_self]
  have h4 : (∑ i, Complex.normSq (v i)) ≠ 0 := by
    intro h0
    rw [Finset.sum_eq_zero_iff_of_nonneg fun i _ => Complex.normSq_nonneg _] at h0
    exact hv (funext fun i => Complex.normSq_eq_zero.1 (h0 i (Finset.mem_univ i)))
  rw [h1, h3, map_mul, hc, Complex.conj_ofReal] at h2
  exact Complex.conj_eq_iff_im.1 (mul_right_cancel₀ (Complex.ofReal_ne_zero.2 h4) h2)

variable [DecidableEq ι]

/-- The matrix of one step of gradient descent. -/
def stepMatrix (rate : ℝ) (H : Matrix ι ι ℝ) : Matrix ι ι ℝ := 1 - rate • H

theorem stepMatrix_apply (rate : ℝ) (H : Matrix ι ι ℝ) (x : ι → ℝ) (i : ι) :
    (stepMatrix rate H).mulVec x i = x i - rate * H.mulVec x i := by
  simp [stepMatrix, Matrix.sub_mulVec, Matrix.smul_mulVec]

theorem step_eigenvalue (rate : ℝ) (hr : rate ≠ 0) (H : Matrix ι ι ℝ) (w : ℂ) :
    IsEigenvalue (stepMatrix rate H) w ↔ ∃ z, IsEigenvalue H z ∧ w = 1 - rate * z := by
  have hr' : (rate : ℂ) ≠ 0 := Complex.ofReal_ne_zero.2 hr
  have key : ∀ (v : ι → ℂ) i, ∑ j, (stepMatrix rate H i j : ℂ) * v j = v i - rate * ∑ j, (H i j : ℂ) * v j := by
    intro v i
    have e : ∀ j, (stepMatrix rate H i j : ℂ) * v j = (if i = j then v j else 0) - rate * ((H i j : ℂ) * v j) := by
      intro j
      simp only [stepMatrix, Matrix.sub_apply, Matrix.smul_apply, Matrix.one_apply, smul_eq_mul]
      split <;> push_cast <;> ring
    rw [Finset.sum_congr rfl fun j _ => e j, Finset.sum_sub_distrib, ← Finset.mul_sum]
    simp
  constructor
  · rintro ⟨v, hv, h⟩
    refine ⟨(1 - w) / rate, ⟨v, hv, fun i => ?_⟩, by field_simp; ring⟩
    have h1 := h i
    rw [key] at h1
    field_simp
    linear_combination -h1
  · rintro ⟨z, ⟨v, hv, h⟩, rfl⟩
    refine ⟨v, hv, fun i => ?_⟩
    rw [key, h]
    ring

/-- For symmetric matrices and positive rates: the eigenvalues of the step lie inside the unit circle exactly when those of the matrix lie
between `0` and `2 / rate`. -/
theorem step_contracts (rate : ℝ) (hr : 0 < rate) (H : Matrix ι ι ℝ) (hH : ∀ i j, H i j = H j i) :
    (∀ w, IsEigenvalue (stepMatrix rate H) w → ‖w‖ < 1) ↔ ∀ l : ℝ, IsEigenvalue H l → 0 < l ∧ l < 2 / rate := by
  have hn : ∀ l : ℝ, ‖(1 - rate * l : ℂ)‖ < 1 ↔ 0 < l ∧ l < 2 / rate := by
    intro l
    have e : (1 - rate * l : ℂ) = ((1 - rate * l : ℝ) : ℂ) := by push_cast; rfl
    rw [e, Complex.norm_real, Real.norm_eq_abs, abs_lt, lt_div_iff₀ hr]
    constructor
    · rintro ⟨h1, h2⟩
      exact ⟨by by_contra hl; push Not at hl; nlinarith, by linarith⟩
    · rintro ⟨h1, h2⟩
      have := mul_pos hr h1
      constructor <;> linarith
  constructor
  · intro h l hl
    exact (hn l).1 (h _ ((step_eigenvalue rate hr.ne' H _).2 ⟨l, hl, rfl⟩))
  · intro h w hw
    obtain ⟨z, hz, rfl⟩ := (step_eigenvalue rate hr.ne' H w).1 hw
    have him := symmetric_eigenvalue H hH z hz
    have e : z = (z.re : ℂ) := Complex.ext rfl (by simp [him])
    rw [e] at hz ⊢
    exact (hn z.re).2 (h _ hz)

section
variable (rate rtol atol : ℝ) (nY : (ι → ℝ) → ℝ) (nF : (Unit → ℝ) → ℝ) (grad : (ι → ℝ) → (ι → ℝ)) (aux0 : A)
  (fn : (ι → ℝ) → ℝ × A)

omit [DecidableEq ι] in
/-- `GradientDescent` stops by itself when its iterates converge to a point at which the objective is continuous. -/
theorem gd_stops (ha : 0 < atol) (hr : 0 ≤ rtol) (hY : GoodNorm nY) (hF : GoodNorm nF) (y0 xs : ι → ℝ)
    (hcont : ContinuousAt (fun y => (fn y).1) xs) (h : Tendsto (fun k => (gdMap rate grad)^[k] y0) atTop (𝓝 xs)) :
    ∃ N, ∀ (ms : Option ℕ) (throw : Bool), (∀ n, ms = some n → N ≤ n) →
      ∃ sol, iterativeSolve (gdSolver rate rtol atol nY nF grad aux0) (fun _ => true) fn aux0 y0 ms throw = some (.ok sol) ∧
        sol.result = .successful := by
  set x : ℕ → ι → ℝ := fun k => (gdMap rate grad)^[k] y0 with hx
  have hx1 : Tendsto (fun k => x (k + 1)) atTop (𝓝 xs) := (tendsto_add_atTop_iff_nat 1).2 h
  have hD : Tendsto (fun k => ‖x (k + 1) - x k‖) atTop (𝓝 0) := by
    have h1 := (hx1.sub h).norm
    rwa [sub_self, norm_zero] at h1
  have hV : Tendsto (fun k => |(fn (x (k + 1))).1 - (fn (x k)).1|) atTop (𝓝 0) := by
    have h1 := ((hcont.tendsto.comp hx1).sub (hcont.tendsto.comp h)).abs
    rwa [sub_self, abs_zero] at h1
  have hpos : ∀ {α : Type} {N : (α → ℝ) → ℝ}, GoodNorm N → 0 ≤ N fun _ => 1 := by
    intro α N hN
    have h1 := hN.smul 0 (fun _ => 1)
    have h2 := hN.mono (fun i => 0 * (fun _ => (1 : ℝ)) i) (fun _ => 1) (fun i => by simp)
    rwa [h1, abs_zero, zero_mul] at h2
  have hbY := hpos hY
  have hbF := hpos hF
  set δ := atol / (nY (fun _ => 1) + nF (fun _ => 1) + 1) with hδ
  have hδ0 : 0 < δ := by positivity
  have hδY : δ * nY (fun _ => 1) < atol := by
    rw [hδ, div_mul_eq_mul_div, div_lt_iff₀ (by positivity)]; nlinarith
  have hδF : δ * nF (fun _ => 1) < atol := by
    rw [hδ, div_mul_eq_mul_div, div_lt_iff₀ (by positivity)]; nlinarith
  obtain ⟨k, hk1, hk2⟩ := ((hD.eventually (gt_mem_nhds hδ0)).and (hV.eventually (gt_mem_nhds hδ0))).exists
  obtain ⟨st0, hi⟩ : ∃ st0, (gdSolver rate rtol atol nY nF grad aux0).init fn y0 = .ok st0 := ⟨_, rfl⟩
  have hst := gd_state rate rtol atol nY nF grad aux0 fn y0 st0 hi
  refine ⟨k + 2, fun ms throw hb => ?_⟩
  obtain ⟨sol, h1, h2, -⟩ := solve_succeeds_by (gdSolver rate rtol atol nY nF grad aux0) (fun _ => true) fn aux0 y0 st0 hi ms throw
    (k + 2) (fun j _ => rfl)
    (by
      intro j _
      obtain _ | j := j
      · cases hi; rfl
      · exact (hst j).2.2.2.1)
    (by
      show (stateAt (gdSolver rate rtol atol nY nF grad aux0) fn aux0 y0 st0 (k + 2)).terminate = true
      obtain ⟨s1, s2, s3, s4, s5⟩ := hst k
      generalize hS : stateAt (gdSolver rate rtol atol nY nF grad aux0) fn aux0 y0 st0 (k + 1) = S at *
      generalize hYk : iterateAt (gdSolver rate rtol atol nY nF grad aux0) fn aux0 y0 st0 (k + 1) = Yk at *
      have hS2 : stateAt (gdSolver rate rtol atol nY nF grad aux0) fn aux0 y0 st0 (k + 2) =
        (GradientDescent.step (GradientDescent.gradientDescent rate rtol atol nY nF grad) fn Yk S).2.1 := by
        rw [← hS, ← hYk]; rfl
      rw [hS2]
      have hgoal : cauchyTermination rtol atol nY nF S.yEval (fun i => S.yEval i - Yk i)
          (fun _ : Unit => (fn S.yEval).1) (fun _ => (fn S.yEval).1 - GradientDescent.fOf S.fInfo) = true := by
        rw [s2, s1, s3]
        simp only [cauchyTermination, Bool.and_eq_true, decide_eq_true_eq]
        exact ⟨norm_small hY rtol atol δ ha hr _ _ (fun i => (norm_le_pi_norm (x (k + 1) - x k) i).trans hk1.le) hδY,
          norm_small hF rtol atol δ ha hr _ _ (fun i => hk2.le) hδF⟩
      simp only [GradientDescent.step, GradientDescent.gradientDescent, learningRate, if_true, s5, Bool.false_eq_true,
        if_false]
      exact hgoal) hb
  exact ⟨sol, h1, h2⟩

/-- **C140**, quadratic objectives.  Let the gradient be `H (y - xs)` with a symmetric matrix `H`.  The iterates of `GradientDescent` converge to
`xs` from every starting point if and only if all eigenvalues of `H` lie strictly between `0` and `2 / learning_rate`. -/
theorem C140_quadratic (hr0 : 0 < rate) (H : Matrix ι ι ℝ) (hH : ∀ i j, H i j = H j i) (xs : ι → ℝ)
    (hgrad : ∀ y i, grad y i = H.mulVec (y - xs) i) :
    (∀ y0 st0, (gdSolver rate rtol atol nY nF grad aux0).init fn y0 = .ok st0 →
      Tendsto (iterateAt (gdSolver rate rtol atol nY nF grad aux0) fn aux0 y0 st0) atTop (𝓝 xs)) ↔
      ∀ l : ℝ, IsEigenvalue H l → 0 < l ∧ l < 2 / rate := by
  have hTk : ∀ x k, (gdMap rate grad)^[k] x - xs = ((stepMatrix rate H) ^ k).mulVec (x - xs) := by
    intro x k
    induction k with
    | zero => simp
    | succ k ih =>
      rw [pow_succ', ← Matrix.mulVec_mulVec, ← ih, Function.iterate_succ_apply']
      funext i
      rw [stepMatrix_apply]
      simp only [gdMap, Pi.sub_apply, hgrad]
      ring
  rw [← step_contracts rate hr0 H hH, ← spectral_affine (gdMap rate grad) xs (stepMatrix rate H) hTk]
  have hshift : ∀ y0 st0, (gdSolver rate rtol atol nY nF grad aux0).init fn y0 = .ok st0 →
      (Tendsto (iterateAt (gdSolver rate rtol atol nY nF grad aux0) fn aux0 y0 st0) atTop (𝓝 xs) ↔
        Tendsto (fun k => (gdMap rate grad)^[k] y0) atTop (𝓝 xs)) := by
    intro y0 st0 hi
    rw [← tendsto_add_atTop_iff_nat 1]
    refine tendsto_congr fun k => ?_
    exact (gd_state rate rtol atol nY nF grad aux0 fn y0 st0 hi k).1
  constructor
  · intro h y0
    exact (hshift y0 _ rfl).1 (h y0 _ rfl)
  · intro h y0 st0 hi
    exact (hshift y0 st0 hi).2 (h y0)

/-- **C140**, all objectives, near a minimum.  If at a stationary point `xs` the objective is continuous and its gradient is strictly
differentiable with Hessian `H`, all of whose eigenvalues lie strictly between `0` and `2 / learning_rate`, then from all nearby starting points
`GradientDescent` converges to `xs`, stops by itself and reports success. -/
theorem C140_local (ha : 0 < atol) (hr : 0 ≤ rtol) (hY : GoodNorm nY) (hF : GoodNorm nF) (hr0 : 0 < rate) (H : Matrix ι ι ℝ)
    (hH : ∀ i j, H i j = H j i) (xs : ι → ℝ) (hcont : ContinuousAt (fun y => (fn y).1) xs) (hstat : grad xs = 0)
    (hd : HasStrictFDerivAt grad (LinearMap.toContinuousLinearMap H.mulVecLin) xs)
    (heig : ∀ l : ℝ, IsEigenvalue H l → 0 < l ∧ l < 2 / rate) :
    ∃ δ > 0, ∀ y0, ‖y0 - xs‖ < δ →
      (∀ st0, (gdSolver rate rtol atol nY nF grad aux0).init fn y0 = .ok st0 →
        Tendsto (iterateAt (gdSolver rate rtol atol nY nF grad aux0) fn aux0 y0 st0) atTop (𝓝 xs)) ∧
      ∃ N, ∀ (ms : Option ℕ) (throw : Bool), (∀ n, ms = some n → N ≤ n) →
        ∃ sol, iterativeSolve (gdSolver rate rtol atol nY nF grad aux0) (fun _ => true) fn aux0 y0 ms throw = some (.ok sol) ∧
          sol.result = .successful := by
  have hfix : gdMap rate grad xs = xs := by
    funext i; simp [gdMap, hstat]
  have hTd : HasStrictFDerivAt (gdMap rate grad) (LinearMap.toContinuousLinearMap (stepMatrix rate H).mulVecLin) xs := by
    refine ((hasStrictFDerivAt_id xs).sub (hd.const_smul rate)).congr_fderiv ?_
    ext x i
    simp [stepMatrix_apply]
  obtain ⟨δ, hδ, h⟩ := spectral_local (gdMap rate grad) xs hfix (stepMatrix rate H) hTd ((step_contracts rate hr0 H hH).2 heig)
  refine ⟨δ, hδ, fun y0 hy0 => ⟨fun st0 hi => ?_, gd_stops rate rtol atol nY nF grad aux0 fn ha hr hY hF y0 xs hcont (h y0 hy0)⟩⟩
  rw [← tendsto_add_atTop_iff_nat 1]
  exact (h y0 hy0).congr fun k => ((gd_state rate rtol atol nY nF grad aux0 fn y0 st0 hi k).1).symm

end

/-- The quadratic theorem applies to `x² + 5 y²` (gradient `(2x, 10y)`): learning rates below `1/5` work, `1/5` does not. -/
example (rate : ℝ) (hr : 0 < rate) :
    (∀ y0 st0, (gdSolver rate 0 (1/10) maxNorm maxNorm (fun (y : Fin 2 → ℝ) => ![2 * y 0, 10 * y 1]) ()).init
        (fun y => (y 0 ^ 2 + 5 * y 1 ^ 2, ())) y0 = .ok st0 →
      Tendsto (iterateAt (gdSolver rate 0 (1/10) maxNorm maxNorm (fun (y : Fin 2 → ℝ) => ![2 * y 0, 10 * y 1]) ())
        (fun y => (y 0 ^ 2 + 5 * y 1 ^ 2, ())) () y0 st0) atTop (𝓝 0)) ↔ rate < 1 / 5 := by
  rw [C140_quadratic rate 0 (1/10) maxNorm maxNorm (fun (y : Fin 2 → ℝ) => ![2 * y 0, 10 * y 1]) () _ hr !![2, 0; 0, 10]
    (by intro i j; fin_cases i <;> fin_cases j <;> rfl) 0 (by intro y i; fin_cases i <;> simp [Matrix.mulVec, dotProduct, Fin.sum_univ_two])]
  constructor
  · intro h
    have h1 := (h 10 ⟨![0, 1], fun h0 => by simpa using congrFun h0 1, fun i => by
      fin_cases i <;> simp [Fin.sum_univ_two]⟩).2
    rw [lt_div_iff₀ hr] at h1
    linarith
  · rintro h l ⟨v, hv, hl⟩
    have h0 := hl 0
    have h1 := hl 1
    simp [Fin.sum_univ_two] at h0 h1
    have hcase : l = 2 ∨ l = 10 := by
      by_contra hne
      push Not at hne
      apply hv
      funext i
      fin_cases i
      · exact (h0.resolve_left fun e => hne.1 (Complex.ofReal_injective (by push_cast; exact e.symm)))
      · exact (h1.resolve_left fun e => hne.2 (Complex.ofReal_injective (by push_cast; exact e.symm)))
    rw [lt_div_iff₀ hr]
    rcases hcase with rfl | rfl <;> constructor <;> linarith

/-- The local theorem applies to `y² + y³` near its minimum `0` with learning rate `1/2`. -/
example : ∃ δ > 0, ∀ y0 : Fin 1 → ℝ, ‖y0 - 0‖ < δ → ∃ N, ∀ (ms : Option ℕ) (throw : Bool), (∀ n, ms = some n → N ≤ n) →
    ∃ sol, iterativeSolve (gdSolver (1/2) 0 (1/10) maxNorm maxNorm (fun (y : Fin 1 → ℝ) i => 2 * y i + 3 * y i ^ 2) ()) (fun _ => true)
      (fun y => (y 0 ^ 2 + y 0 ^ 3, ())) () y0 ms throw = some (.ok sol) ∧ sol.result = .successful := by
  have hd : HasStrictFDerivAt (fun (y : Fin 1 → ℝ) i => 2 * y i + 3 * y i ^ 2)
      (LinearMap.toContinuousLinearMap (!![2] : Matrix (Fin 1) (Fin 1) ℝ).mulVecLin) 0 := by
    rw [hasStrictFDerivAt_pi']
    intro i
    have h1 : HasStrictFDerivAt (fun y : Fin 1 → ℝ => y i) (ContinuousLinearMap.proj i) 0 :=
      (ContinuousLinearMap.proj (R := ℝ) (φ := fun _ : Fin 1 => ℝ) i).hasStrictFDerivAt
    refine ((h1.const_mul 2).add ((h1.pow 2).const_mul 3)).congr_fderiv ?_
    ext x
    fin_cases i
    simp [dotProduct]
  obtain ⟨δ, hδ, h⟩ := C140_local (1/2) 0 (1/10) maxNorm maxNorm (fun (y : Fin 1 → ℝ) i => 2 * y i + 3 * y i ^ 2) ()
    (fun y => (y 0 ^ 2 + y 0 ^ 3, ())) (by norm_num) le_rfl (goodNorm_maxNorm (ι := Fin 1)) (goodNorm_maxNorm (ι := Unit)) (by norm_num)
    !![2] (by intro i j; fin_cases i; fin_cases j; rfl) 0 (by fun_prop) (by funext i; simp) hd (by
      rintro l ⟨v, hv, hl⟩
      have h0 := hl 0
      simp at h0
      rcases h0 with h0 | h0
      · have : l = 2 := Complex.ofReal_injective (by push_cast; exact h0.symm)
        subst this; norm_num
      · exact absurd (by funext i; fin_cases i; exact h0) hv)
  exact ⟨δ, hδ, fun y0 hy0 => (h y0 hy0).2⟩

end Verif.Props
