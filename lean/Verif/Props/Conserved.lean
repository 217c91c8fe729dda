import Verif.Props.Symmetric
import Verif.Spec.Ignores

/-!
Property C131: a solve does not move along directions in which the problem does not change.

The reflection that reverses the direction and keeps the starting point is a symmetry of the problem, so the answer is its own mirror image (C132).
-/

namespace Verif.Props
open Verif Verif.Spec Verif.Driver Verif.Rigid Matrix
open Verif.Relabel (Formula outcome)

variable {ι κ A : Type} [Fintype ι] [DecidableEq ι]

/-- The reflection in the plane through `y0` orthogonal to `c`. -/
noncomputable def mirror (c y0 : ι → ℝ) (hc : component c c ≠ 0) : Coordinates ι ι where
  Q := 1 - (2 / component c c) • Matrix.vecMulVec c c
  orthonormal := by
    have hT : (1 - (2 / component c c) • Matrix.vecMulVec c c).transpose = 1 - (2 / component c c) • Matrix.vecMulVec c c := by
      rw [Matrix.transpose_sub, Matrix.transpose_smul, Matrix.transpose_one, Matrix.transpose_vecMulVec]
    rw [hT]
    have h2 : Matrix.vecMulVec c c * Matrix.vecMulVec c c = component c c • Matrix.vecMulVec c c := by
      rw [Matrix.vecMulVec_mul_vecMulVec, Matrix.vecMulVec_smul]
      rfl
    rw [sub_mul, mul_sub, mul_sub, Matrix.one_mul, Matrix.mul_one, Matrix.one_mul, Matrix.smul_mul, Matrix.mul_smul, h2, smul_smul, smul_smul]
    rw [show 2 / component c c * (2 / component c c) * component c c = 2 * (2 / component c c) by field_simp, two_mul, add_smul]
    abel
  shift := fun i => 2 / component c c * component c y0 * c i

theorem mirror_mulVec (c y0 : ι → ℝ) (hc : component c c ≠ 0) (y : ι → ℝ) (i : ι) :
    (mirror c y0 hc).Q.mulVec y i = y i - 2 / component c c * component c y * c i := by
  simp only [mirror]
  rw [Matrix.sub_mulVec, Matrix.one_mulVec, Matrix.smul_mulVec, Matrix.vecMulVec_mulVec]
  simp only [Pi.sub_apply, Pi.smul_apply, smul_eq_mul]
  change y i - 2 / component c c * (MulOpposite.op (component c y) • c) i = _
  simp only [Pi.smul_apply, MulOpposite.smul_eq_mul_unop, MulOpposite.unop_op]
  ring

theorem mirror_transpose (c y0 : ι → ℝ) (hc : component c c ≠ 0) : (mirror c y0 hc).Q.transpose = (mirror c y0 hc).Q := by
  simp only [mirror]
  rw [Matrix.transpose_sub, Matrix.transpose_smul, Matrix.transpose_one, Matrix.transpose_vecMulVec]

omit [DecidableEq ι] in
theorem component_sub (c x y : ι → ℝ) : component c (fun i => x i - y i) = component c x - component c y := by
  simp only [component, mul_sub, Finset.sum_sub_distrib]

omit [DecidableEq ι] in
theorem component_smul (c x : ι → ℝ) (s : ℝ) : component c (fun i => s * x i) = s * component c x := by
  simp only [component, Finset.mul_sum]
  exact Finset.sum_congr rfl fun i _ => by ring

theorem mirror_point (c y0 : ι → ℝ) (hc : component c c ≠ 0) (y : ι → ℝ) :
    (mirror c y0 hc).point y = along c y (-(2 / component c c * (component c y - component c y0))) := by
  funext i
  simp only [Coordinates.point, mirror_mulVec, along]
  simp only [mirror]
  ring

theorem mirror_back (c y0 : ι → ℝ) (hc : component c c ≠ 0) (y : ι → ℝ) :
    (mirror c y0 hc).back y = along c y (-(2 / component c c * (component c y - component c y0))) := by
  funext i
  simp only [Coordinates.back, mirror_transpose, mirror_mulVec, along]
  rw [component_sub]
  simp only [mirror]
  rw [component_smul]
  field_simp
  ring

/-- A point that is its own mirror image is in the plane. -/
theorem mirror_fixed (c y0 : ι → ℝ) (hc : component c c ≠ 0) (y : ι → ℝ) (h : (mirror c y0 hc).point y = y) :
    component c y = component c y0 := by
  have h1 : component c c ≠ 0 := hc
  rw [mirror_point] at h
  have h2 : component c (along c y (-(2 / component c c * (component c y - component c y0)))) =
      component c y - 2 * (component c y - component c y0) := by
    have : component c (along c y (-(2 / component c c * (component c y - component c y0)))) =
        component c y + -(2 / component c c * (component c y - component c y0)) * component c c := by
      simp only [component, along, mul_add, Finset.sum_add_distrib, Finset.mul_sum]
      congr 1
      exact Finset.sum_congr rfl fun i _ => by ring
    rw [this]
    field_simp
    ring
  rw [h] at h2
  linarith

theorem mirror_start (c y0 : ι → ℝ) (hc : component c c ≠ 0) : (mirror c y0 hc).point y0 = y0 := by
  rw [mirror_point]
  funext i
  simp [along]

omit [DecidableEq ι] in
theorem component_zero_of (c : ι → ℝ) (h : component c c = 0) (y : ι → ℝ) : component c y = 0 := by
  have : ∀ i, c i = 0 := fun i => by
    have := (Finset.sum_eq_zero_iff_of_nonneg (fun i _ => mul_self_nonneg (c i))).1 h i (Finset.mem_univ i)
    exact mul_self_eq_zero.1 this
  simp [component, this]

section minimisers
variable (c : ι → ℝ) (f : (ι → ℝ) → ℝ × A) (g : (ι → ℝ) → ι → ℝ) (hf : Ignores f g c) (rtol atol : ℝ) (normY : (ι → ℝ) → ℝ)
  (normF : (Unit → ℝ) → ℝ) (aux0 : A) (y0 : ι → ℝ) (ms : Option Nat) (throw : Bool)

theorem conserved_of_mirror (v : ι → ℝ) (h : ∀ hc : component c c ≠ 0, (mirror c y0 hc).point v = v) : component c v = component c y0 := by
  by_cases hc : component c c = 0
  · rw [component_zero_of c hc, component_zero_of c hc]
  · exact mirror_fixed c y0 hc v (h hc)

include hf

theorem mirror_keeps (hc : component c c ≠ 0) : KeepsObjective (mirror c y0 hc) f g := by
  refine ⟨fun y => ?_, fun y => ?_⟩
  · rw [mirror_point, hf.value]
  · funext i
    rw [mirror_point, hf.gradient, mirror_mulVec, hf.flat]
    ring

/-- **C131** for `GradientDescent`. -/
theorem C131_gradient_descent (rate : ℝ) (sol : Solution (ι → ℝ) A (GradientDescent.State ι A Unit (ι → ℝ)) Unit)
    (h : iterativeSolve (GradientDescent.solver (GradientDescent.gradientDescent rate rtol atol normY normF g) aux0) (fun _ => true) f aux0 y0
      ms throw = some (.ok sol)) : component c sol.value = component c y0 :=
  conserved_of_mirror c y0 _ fun hc => C132_gradient_descent _ f g (mirror_keeps c f g hf y0 hc) rtol atol normY normF aux0 y0 (mirror_start c y0 hc) ms throw rate sol h

/-- **C131** for `NonlinearCG`, for each of its four formulas. -/
theorem C131_nonlinear_cg (eps : ℝ) (b : Formula) (armijo : Armijo.Cfg ℝ)
    (sol : Solution (ι → ℝ) A (GradientDescent.State ι A ℝ (NonlinearCG.DState ι)) Unit)
    (h : iterativeSolve (GradientDescent.solver (NonlinearCG.cfg rtol atol normY normF (b.fn eps) (Armijo.search armijo) g) aux0) (fun _ => true) f
      aux0 y0 ms throw = some (.ok sol)) : component c sol.value = component c y0 :=
  conserved_of_mirror c y0 _ fun hc => C132_nonlinear_cg _ f g (mirror_keeps c f g hf y0 hc) rtol atol normY normF aux0 y0 (mirror_start c y0 hc) ms throw eps b armijo sol h

variable (eps : ℝ) (he : 0 ≤ eps) {ls : LinSolve ι Unit} (hls : SolvesSPD ls) (armijo : Armijo.Cfg ℝ)

include he hls

/-- **C131** for `BFGS`, in both forms. -/
theorem C131_bfgs (useInverse : Bool) (sol) (h : iterativeSolve (QuasiNewton.solver
    (QuasiNewton.withArmijo rtol atol normY normF ls armijo (QuasiNewton.bfgs eps useInverse) g) aux0) (fun _ => true) f aux0 y0 ms throw =
      some (.ok sol)) : component c sol.value = component c y0 :=
  conserved_of_mirror c y0 _ fun hc => C132_bfgs _ f g (mirror_keeps c f g hf y0 hc) rtol atol normY normF aux0 y0 (mirror_start c y0 hc) ms throw eps he hls armijo useInverse sol h

/-- **C131** for `DFP`, in both forms. -/
theorem C131_dfp (useInverse : Bool) (sol) (h : iterativeSolve (QuasiNewton.solver
    (QuasiNewton.withArmijo rtol atol normY normF ls armijo (QuasiNewton.dfp eps useInverse) g) aux0) (fun _ => true) f aux0 y0 ms throw =
      some (.ok sol)) : component c sol.value = component c y0 :=
  conserved_of_mirror c y0 _ fun hc => C132_dfp _ f g (mirror_keeps c f g hf y0 hc) rtol atol normY normF aux0 y0 (mirror_start c y0 hc) ms throw eps he hls armijo useInverse sol h

/-- **C131** for `LBFGS` with `use_inverse=True`, for every history length. -/
theorem C131_lbfgs_inverse (n : ℕ) [NeZero n] (sol) (h : iterativeSolve (QuasiNewton.solver
    (QuasiNewton.withArmijo rtol atol normY normF ls armijo (LBFGS.inverse eps n) g) aux0) (fun _ => true) f aux0 y0 ms throw =
      some (.ok sol)) : component c sol.value = component c y0 :=
  conserved_of_mirror c y0 _ fun hc => C132_lbfgs_inverse _ f g (mirror_keeps c f g hf y0 hc) rtol atol normY normF aux0 y0 (mirror_start c y0 hc) ms throw eps he hls armijo n sol h

/-- **C131** for `LBFGS` with `use_inverse=False`. -/
theorem C131_lbfgs_direct (n : ℕ) [NeZero n] (la : LBFGS.DenseLA n) (hla : ExactLA la) (sol) (h : iterativeSolve (QuasiNewton.solver
    (QuasiNewton.withArmijo rtol atol normY normF ls armijo (LBFGS.direct eps n la) g) aux0) (fun _ => true) f aux0 y0 ms throw =
      some (.ok sol)) : component c sol.value = component c y0 :=
  conserved_of_mirror c y0 _ fun hc => C132_lbfgs_direct _ f g (mirror_keeps c f g hf y0 hc) rtol atol normY normF aux0 y0 (mirror_start c y0 hc) ms throw eps he hls armijo n la hla sol h

end minimisers

/-! ### Least squares -/

section leastSquares
variable [Fintype κ] [DecidableEq κ]

/-- The residuals as they are. -/
def sameResiduals : Coordinates κ κ where
  Q := 1
  orthonormal := by simp
  shift := 0

variable (c : ι → ℝ) (f : (ι → ℝ) → (κ → ℝ) × A) (j : (ι → ℝ) → Matrix κ ι ℝ) (hf : ResidualsIgnore f j c) (rtol atol : ℝ) (normY : (ι → ℝ) → ℝ)
  (normF : (κ → ℝ) → ℝ) (aux0 : A) (y0 : ι → ℝ) (ms : Option Nat) (throw : Bool)

include hf

theorem mirror_keeps_residuals (hc : component c c ≠ 0) : KeepsResiduals (mirror c y0 hc) sameResiduals f j := by
  refine ⟨fun y => ?_, fun y => ?_⟩
  · simp only [sameResiduals, Matrix.one_mulVec, mirror_point, hf.value]
  · rw [mirror_point, hf.jacobian, mirror_transpose]
    simp only [sameResiduals, mirror]
    rw [Matrix.one_mul, Matrix.mul_sub, Matrix.mul_one, Matrix.mul_smul, Matrix.mul_vecMulVec, hf.flat]
    simp

/-- **C131** for `GaussNewton`, with a linear solver that finds the least-squares solution of smallest length. -/
theorem C131_gauss_newton {ls : LinSolve ι κ} (hls : SolvesMinimal ls) (sol) (h : iterativeSolve (GaussNewton.solver
    (GaussNewton.gaussNewton rtol atol normY normF ls j) aux0) (fun _ => true) f aux0 y0 ms throw = some (.ok sol)) :
    component c sol.value = component c y0 :=
  conserved_of_mirror c y0 _ fun hc => C132_gauss_newton _ sameResiduals f j (mirror_keeps_residuals c f j hf y0 hc) rtol atol normY normF aux0 y0
    (mirror_start c y0 hc) ms throw hls sol h

/-- **C131** for `Dogleg`. -/
theorem C131_dogleg (eps : ℝ) {ls : LinSolve ι κ} (hls : SolvesMinimal ls) (sol) (h : iterativeSolve (GaussNewton.solver
    (GaussNewton.dogleg eps rtol atol normY normF ls j) aux0) (fun _ => true) f aux0 y0 ms throw = some (.ok sol)) :
    component c sol.value = component c y0 :=
  conserved_of_mirror c y0 _ fun hc => C132_dogleg _ sameResiduals f j (mirror_keeps_residuals c f j hf y0 hc) rtol atol normY normF aux0 y0
    (mirror_start c y0 hc) ms throw eps hls sol h

variable (eps fmax : ℝ) (he : 0 ≤ eps) (hfm : 0 < fmax)

include he hfm

/-- **C131** for `LevenbergMarquardt`. -/
theorem C131_levenberg_marquardt {ls : LinSolve ι (κ ⊕ ι)} (hls : SolvesFullRank ls) (sol) (h : iterativeSolve (GaussNewton.solver
    (GaussNewton.levenbergMarquardt eps fmax rtol atol normY normF ls j) aux0) (fun _ => true) f aux0 y0 ms throw = some (.ok sol)) :
    component c sol.value = component c y0 :=
  conserved_of_mirror c y0 _ fun hc => C132_levenberg_marquardt _ sameResiduals f j (mirror_keeps_residuals c f j hf y0 hc) rtol atol normY normF aux0 y0
    (mirror_start c y0 hc) ms throw eps fmax he hfm hls sol h

/-- **C131** for `IndirectLevenbergMarquardt`. -/
theorem C131_indirect_levenberg_marquardt {ls : LinSolve ι κ} (hls : SolvesMinimal ls) {lsD : LinSolve ι (κ ⊕ ι)} (hlsD : SolvesFullRank lsD)
    (find : (ℝ → ℝ) → ℝ × Result) (sol) (h : iterativeSolve (GaussNewton.solver
    (GaussNewton.indirectLevenbergMarquardt eps fmax rtol atol normY normF ls lsD find j) aux0) (fun _ => true) f aux0 y0 ms throw =
      some (.ok sol)) : component c sol.value = component c y0 :=
  conserved_of_mirror c y0 _ fun hc => C132_indirect_levenberg_marquardt _ sameResiduals f j (mirror_keeps_residuals c f j hf y0 hc) rtol atol normY normF aux0 y0
    (mirror_start c y0 hc) ms throw eps fmax he hfm hls hlsD find sol h

end leastSquares

/-! ### Derivatives of problems that ignore a direction -/

/-- **C131.** If the values do not change along `c`, then the gradient is as `Ignores` asks. -/
theorem C131_true_gradient (c : ι → ℝ) (f : (ι → ℝ) → ℝ × A) (g : (ι → ℝ) → ι → ℝ) (D : (ι → ℝ) → (ι → ℝ) →L[ℝ] ℝ)
    (hD : ∀ y v, D y v = ∑ i, g y i * v i) (h : ∀ y, HasFDerivAt (fun y => (f y).1) (D y) y) (hv : ∀ y s, f (along c y s) = f y) :
    Ignores f g c := by
  have key : ∀ y s, D (along c y s) = D y := by
    intro y s
    have e : (fun y => (f y).1) = fun y => (f (y + s • c)).1 := by
      funext y
      rw [show y + s • c = along c y s from rfl, hv]
    have h1 : HasFDerivAt (fun y => (f (y + s • c)).1) (D (y + s • c)) y := (hasFDerivAt_comp_add_right (s • c)).2 (h (y + s • c))
    rw [← e] at h1
    exact h1.unique (h y)
  refine ⟨hv, fun y s => ?_, fun y => ?_⟩
  · funext i
    have := congrArg (fun L => L (Pi.single i 1)) (key y s)
    simp only [hD] at this
    simpa [Pi.single_apply] using this
  · have h1 : HasDerivAt (fun s : ℝ => y + s • c) c 0 := by
      simpa using ((hasDerivAt_id (0 : ℝ)).smul_const c).const_add y
    have h2 : HasDerivAt (fun s : ℝ => (f (y + s • c)).1) (D y c) 0 := by
      have h3 : HasFDerivAt (fun y => (f y).1) (D y) (y + (0 : ℝ) • c) := by simpa using h y
      exact h3.comp_hasDerivAt (0 : ℝ) h1
    have e : (fun s : ℝ => (f (y + s • c)).1) = fun _ => (f y).1 := by
      funext s
      rw [show y + s • c = along c y s from rfl, hv]
    rw [e] at h2
    have := h2.unique (hasDerivAt_const 0 _)
    rw [hD] at this
    rw [component, ← this]
    exact Finset.sum_congr rfl fun i _ => mul_comm _ _

/-- **C131.** If the residuals do not change along `c`, then the Jacobian is as `ResidualsIgnore` asks. -/
theorem C131_true_jacobian [Fintype κ] (c : ι → ℝ) (f : (ι → ℝ) → (κ → ℝ) × A) (j : (ι → ℝ) → Matrix κ ι ℝ)
    (h : ∀ y, HasFDerivAt (fun y => (f y).1) (LinearMap.toContinuousLinearMap (j y).mulVecLin) y) (hv : ∀ y s, f (along c y s) = f y) :
    ResidualsIgnore f j c := by
  have key : ∀ y s, LinearMap.toContinuousLinearMap (j (along c y s)).mulVecLin = LinearMap.toContinuousLinearMap (j y).mulVecLin := by
    intro y s
    have e : (fun y => (f y).1) = fun y => (f (y + s • c)).1 := by
      funext y
      rw [show y + s • c = along c y s from rfl, hv]
    have h1 := (hasFDerivAt_comp_add_right (s • c)).2 (h (y + s • c))
    rw [← e] at h1
    exact h1.unique (h y)
  refine ⟨hv, fun y s => ?_, fun y => ?_⟩
  · have := LinearMap.toContinuousLinearMap.injective (key y s)
    ext a i
    have h2 := congrFun (LinearMap.congr_fun this (Pi.single i 1)) a
    simpa using h2
  · have h1 : HasDerivAt (fun s : ℝ => y + s • c) c 0 := by
      simpa using ((hasDerivAt_id (0 : ℝ)).smul_const c).const_add y
    have h2 : HasDerivAt (fun s : ℝ => (f (y + s • c)).1) ((j y).mulVec c) 0 := by
      have h3 : HasFDerivAt (fun y => (f y).1) (LinearMap.toContinuousLinearMap (j y).mulVecLin) (y + (0 : ℝ) • c) := by simpa using h y
      exact h3.comp_hasDerivAt (0 : ℝ) h1
    have e : (fun s : ℝ => (f (y + s • c)).1) = fun _ => (f y).1 := by
      funext s
      rw [show y + s • c = along c y s from rfl, hv]
    rw [e] at h2
    exact h2.unique (hasDerivAt_const 0 _)

/-! ### Linear least squares: the solution nearest to the start -/

section linear
variable [Fintype κ]

omit [DecidableEq ι] [Fintype κ] in
/-- Linear residuals `M y - b` ignore every direction in the kernel of `M`. -/
theorem linear_ignores (M : Matrix κ ι ℝ) (b : κ → ℝ) (c : ι → ℝ) (hc : M.mulVec c = 0) :
    ResidualsIgnore (fun y => (M.mulVec y - b, ())) (fun _ => M) c := by
  refine ⟨fun y s => ?_, fun _ _ => rfl, fun _ => hc⟩
  rw [show along c y s = y + s • c from rfl, Matrix.mulVec_add, Matrix.mulVec_smul, hc, smul_zero, add_zero]

omit [DecidableEq ι] in
/-- **C131.** A point reached from `y0` without moving in the kernel of `M` orders the points with the same `M x` by their distance as `y0` does. In
particular, if it solves the linear least-squares problem, it is the solution nearest to `y0`. -/
theorem C131_nearest (M : Matrix κ ι ℝ) (b : κ → ℝ) (y0 v : ι → ℝ) (hv : ∀ c, M.mulVec c = 0 → component c v = component c y0) :
    (∀ x x' : ι → ℝ, M.mulVec x = M.mulVec x' →
      ∑ i, (x i - v i) ^ 2 - ∑ i, (x' i - v i) ^ 2 = ∑ i, (x i - y0 i) ^ 2 - ∑ i, (x' i - y0 i) ^ 2) ∧
    ((∀ x, sumSquares (M.mulVec v - b) ≤ sumSquares (M.mulVec x - b)) →
      ∀ x, (∀ z, sumSquares (M.mulVec x - b) ≤ sumSquares (M.mulVec z - b)) → ∑ i, (v i - y0 i) ^ 2 ≤ ∑ i, (x i - y0 i) ^ 2) := by
  have h1 : ∀ x x' : ι → ℝ, M.mulVec x = M.mulVec x' →
      ∑ i, (x i - v i) ^ 2 - ∑ i, (x' i - v i) ^ 2 = ∑ i, (x i - y0 i) ^ 2 - ∑ i, (x' i - y0 i) ^ 2 := by
    intro x x' hx
    have hk : M.mulVec (x - x') = 0 := by rw [Matrix.mulVec_sub, hx, sub_self]
    have h2 := hv (x - x') hk
    simp only [component, Pi.sub_apply] at h2
    have e : ∀ w : ι → ℝ, ∑ i, (x i - w i) ^ 2 - ∑ i, (x' i - w i) ^ 2 = ∑ i, (x i ^ 2 - x' i ^ 2) - 2 * ∑ i, (x i - x' i) * w i := by
      intro w
      rw [← Finset.sum_sub_distrib, Finset.mul_sum, ← Finset.sum_sub_distrib]
      exact Finset.sum_congr rfl fun i _ => by ring
    rw [e, e, h2]
  refine ⟨h1, fun hmin x hx => ?_⟩
  -- two solutions have the same residuals
  have hsame : M.mulVec x = M.mulVec v := by
    have hmid := hmin (fun i => (x i + v i) / 2)
    have heq : sumSquares (M.mulVec x - b) = sumSquares (M.mulVec v - b) := le_antisymm (hx v) (hmin x)
    have hm : M.mulVec (fun i => (x i + v i) / 2) - b = fun a => ((M.mulVec x - b) a + (M.mulVec v - b) a) / 2 := by
      rw [show (fun i => (x i + v i) / 2) = (1 / 2 : ℝ) • (x + v) by funext i; simp; ring, Matrix.mulVec_smul, Matrix.mulVec_add]
      funext a
      simp
      ring
    rw [hm] at hmid
    have hpar : ∑ a, (M.mulVec x a - M.mulVec v a) ^ 2 ≤ 0 := by
      have e : ∑ a, (M.mulVec x a - M.mulVec v a) ^ 2 =
          2 * sumSquares (M.mulVec x - b) + 2 * sumSquares (M.mulVec v - b) -
            4 * sumSquares (fun a => ((M.mulVec x - b) a + (M.mulVec v - b) a) / 2) := by
        simp only [sumSquares, Finset.mul_sum, ← Finset.sum_add_distrib, ← Finset.sum_sub_distrib, Pi.sub_apply]
        exact Finset.sum_congr rfl fun i _ => by ring
      rw [e]
      linarith
    funext a
    have := (Finset.sum_eq_zero_iff_of_nonneg (fun a _ => sq_nonneg (M.mulVec x a - M.mulVec v a))).1
      (le_antisymm hpar (Finset.sum_nonneg fun a _ => sq_nonneg _)) a (Finset.mem_univ a)
    exact sub_eq_zero.1 (pow_eq_zero_iff (two_ne_zero)|>.1 this)
  have h2 := h1 x v hsame
  have h3 : ∑ i, (v i - v i) ^ 2 = 0 := by simp
  have h4 : 0 ≤ ∑ i, (x i - v i) ^ 2 := Finset.sum_nonneg fun i _ => sq_nonneg _
  rw [h3] at h2
  linarith

/-- **C131**, for example for `LevenbergMarquardt`: on a linear problem with infinitely many solutions, an answer that solves the problem is the
solution nearest to the starting point. -/
theorem C131_nearest_levenberg_marquardt [DecidableEq κ] (M : Matrix κ ι ℝ) (b : κ → ℝ) (eps fmax : ℝ) (he : 0 ≤ eps) (hfm : 0 < fmax)
    (rtol atol : ℝ) (normY : (ι → ℝ) → ℝ) (normF : (κ → ℝ) → ℝ) (y0 : ι → ℝ) (ms : Option Nat) (throw : Bool) {ls : LinSolve ι (κ ⊕ ι)}
    (hls : SolvesFullRank ls) (sol) (h : iterativeSolve (GaussNewton.solver
      (GaussNewton.levenbergMarquardt eps fmax rtol atol normY normF ls fun _ => M) ()) (fun _ => true) (fun y => (M.mulVec y - b, ())) () y0 ms
      throw = some (.ok sol)) (hsol : ∀ x, sumSquares (M.mulVec sol.value - b) ≤ sumSquares (M.mulVec x - b)) (x : ι → ℝ)
    (hx : ∀ z, sumSquares (M.mulVec x - b) ≤ sumSquares (M.mulVec z - b)) :
    ∑ i, (sol.value i - y0 i) ^ 2 ≤ ∑ i, (x i - y0 i) ^ 2 :=
  (C131_nearest M b y0 sol.value fun c hc => C131_levenberg_marquardt c _ _ (linear_ignores M b c hc) rtol atol normY normF () y0 ms throw eps fmax
    he hfm hls sol h).2 hsol x hx

end linear

/-! ### Fixed-point iteration -/

omit [DecidableEq ι] in
/-- **C131** for `FixedPointIteration`: a total that the map keeps is kept by the answer, whatever the damping. -/
theorem C131_fixed_point (c : ι → ℝ) (cfg : FixedPointIter.Cfg ι ℝ) (fn : (ι → ℝ) → (ι → ℝ) × A) (hg : ∀ y, component c (fn y).1 = component c y)
    (aux0 : A) (af : (ι → ℝ) → Bool) (y0 : ι → ℝ) (ms : Option Nat) (throw : Bool) (sol)
    (h : iterativeSolve (FixedPointIter.solver cfg) af fn aux0 y0 ms throw = some (.ok sol)) : component c sol.value = component c y0 := by
  have hk : ∀ k, component c ((dampedMap cfg.damp fun z => (fn z).1)^[k] y0) = component c y0 := by
    intro k
    induction k with
    | zero => rfl
    | succ k ih =>
      rw [Function.iterate_succ_apply']
      set z := (dampedMap cfg.damp fun z => (fn z).1)^[k] y0
      have : component c (dampedMap cfg.damp (fun z => (fn z).1) z) = (1 - cfg.damp) * component c (fn z).1 + cfg.damp * component c z := by
        simp only [component, dampedMap, mul_add, Finset.sum_add_distrib, Finset.mul_sum]
        congr 1 <;> exact Finset.sum_congr rfl fun i _ => by ring
      rw [this, hg, ih]
      ring
  obtain ⟨st0, hi, -, -, -, -, hp, -⟩ := solve_spec _ _ _ _ _ _ _ _ h
  obtain rfl : none = st0 := Except.ok.inj hi
  have hv : sol.value = iterateAt (FixedPointIter.solver cfg) fn aux0 y0 none sol.numSteps := congrArg Prod.fst hp
  rw [hv, fp_iterate_eq, hk]

/-! ### The hypotheses are met -/

/-- `(y₀ - y₁)²` ignores the direction `(1, 1)`. -/
theorem difference_ignores : Ignores (fun y : Fin 2 → ℝ => ((y 0 - y 1) ^ 2, ())) (fun y => ![2 * (y 0 - y 1), -(2 * (y 0 - y 1))]) ![1, 1] := by
  refine ⟨fun y s => ?_, fun y s => ?_, fun y => ?_⟩
  · simp [along]
  · simp [along]
  · simp [component, Fin.sum_univ_two]

/-- `GradientDescent` from `(3, 1)` keeps the sum of the unknowns. -/
example : ∃ sol, iterativeSolve (GradientDescent.solver (GradientDescent.gradientDescent (1 / 4) 0 (1 / 100) maxNorm maxNorm
      fun y : Fin 2 → ℝ => ![2 * (y 0 - y 1), -(2 * (y 0 - y 1))]) ()) (fun _ => true) (fun y => ((y 0 - y 1) ^ 2, ())) () ![3, 1] (some 9) false =
      some (.ok sol) ∧ component ![1, 1] sol.value = 4 := by
  obtain ⟨sol, h⟩ := C05_bounded_returns (GradientDescent.solver (GradientDescent.gradientDescent (1 / 4) 0 (1 / 100) maxNorm maxNorm
      fun y : Fin 2 → ℝ => ![2 * (y 0 - y 1), -(2 * (y 0 - y 1))]) ()) (fun _ => true) (fun y => ((y 0 - y 1) ^ 2, ())) () ![3, 1] _ rfl 9
  refine ⟨sol, h, ?_⟩
  rw [C131_gradient_descent _ _ _ difference_ignores _ _ _ _ _ _ _ _ _ sol h]
  norm_num [component, Fin.sum_univ_two]

/-- `y₀ + y₁ = 2` has infinitely many solutions; the linear solvers asked for exist. -/
example : ResidualsIgnore (fun y : Fin 2 → ℝ => ((!![1, 1] : Matrix (Fin 1) (Fin 2) ℝ).mulVec y - ![2], ())) (fun _ => !![1, 1]) ![1, -1] ∧
    (∃ ls : LinSolve (Fin 2) (Fin 1 ⊕ Fin 2), SolvesFullRank ls) ∧ ∃ ls : LinSolve (Fin 2) (Fin 1), SolvesMinimal ls :=
  ⟨linear_ignores _ _ _ (by ext i; fin_cases i; simp), full_rank_solver_exists, minimal_solver_exists⟩

/-- Mixing two quantities keeps their sum. -/
example (y : Fin 2 → ℝ) : component ![1, 1] (![(y 0 + y 1) / 2, (y 0 + y 1) / 2] : Fin 2 → ℝ) = component ![1, 1] y := by
  simp [component, Fin.sum_univ_two]

end Verif.Props
