import Verif.Lemmas.RigidSteps
import Verif.Props.LBFGSAgree
import Verif.Props.Relabel
import Mathlib.Data.Matrix.ColumnRowPartitioned

/-!
C78: the outcome of a solve does not depend on the choice of Cartesian coordinates, on unused unknowns, or on residuals that always
vanish.

`m` gives the new coordinates of the unknowns and `k` those of the residuals (`Spec/Rigid.lean`).  Each theorem says that solving the
problem in the new coordinates, from the same point, has the same outcome as solving the original problem, with the answer in the
new coordinates: it returns if and only if the original does, raises the same error, and otherwise has the same result code, the
same auxiliary output and the same number of steps.

Assumed: the stopping test gives the same verdict in both coordinates (`SameTest`; below it is shown for which norms it does), and
the linear solvers are exact.
-/

namespace Verif.Rigid

open Driver Verif.Spec Verif.Props
open Verif.Relabel (Formula outcome)

variable {ι ι' κ κ' A : Type} [Fintype ι] [Fintype ι'] [DecidableEq ι]

section minimisers

variable (m : Coordinates ι ι') {fin : (ι → ℝ) → Bool} {fin' : (ι' → ℝ) → Bool} (hfin : ∀ y, fin' (m.point y) = fin y)
  (rtol atol : ℝ) {normY : (ι → ℝ) → ℝ} {normY' : (ι' → ℝ) → ℝ} (hY : SameTest m rtol atol normY normY')
  (normF : (Unit → ℝ) → ℝ) (f : (ι → ℝ) → ℝ × A) (g : (ι → ℝ) → ι → ℝ) (aux0 : A) (y0 : ι → ℝ) (ms : Option ℕ) (throw : Bool)

include hfin hY

/-- **C78** for `GradientDescent`. -/
theorem C78_gradient_descent (rate : ℝ) :
    outcome (iterativeSolve (GradientDescent.solver
        (GradientDescent.gradientDescent rate rtol atol normY' normF (gradient m g)) aux0) fin' (objective m f) aux0
        (m.point y0) ms throw) =
      moved m (outcome (iterativeSolve (GradientDescent.solver
        (GradientDescent.gradientDescent rate rtol atol normY normF g) aux0) fin f aux0 y0 ms throw)) :=
  (gd_follows (c := GradientDescent.gradientDescent rate rtol atol normY normF g)
    (c' := GradientDescent.gradientDescent rate rtol atol normY' normF (gradient m g)) rfl rfl hY rfl steepest_same
    (learningRate_same rate) (fun y => by simp only [GradientDescent.gradientDescent, gradient, back_point])
    (fun y => by simp only [objective, back_point]) aux0).solve hfin aux0 y0 ms throw

/-- **C78** for `NonlinearCG` with its default search, for each of its four formulas. -/
theorem C78_nonlinear_cg (eps : ℝ) (b : Formula) (armijo : Armijo.Cfg ℝ) :
    outcome (iterativeSolve (GradientDescent.solver
        (NonlinearCG.cfg rtol atol normY' normF (b.fn eps) (Armijo.search armijo) (gradient m g)) aux0) fin' (objective m f) aux0
        (m.point y0) ms throw) =
      moved m (outcome (iterativeSolve (GradientDescent.solver
        (NonlinearCG.cfg rtol atol normY normF (b.fn eps) (Armijo.search armijo) g) aux0) fin f aux0 y0 ms throw)) := by
  have hb : SameFormula m (b.fn (ι := ι) eps) (b.fn eps) := by
    intro x y z
    cases b
    · simp only [Formula.fn, NonlinearCG.polakRibiere, dir_sub, dot_dir, sumSquares_dir]
    · simp only [Formula.fn, NonlinearCG.fletcherReeves, sumSquares_dir]
    · simp only [Formula.fn, NonlinearCG.hestenesStiefel, dir_sub, dot_dir]
    · simp only [Formula.fn, NonlinearCG.daiYuan, dir_sub, dot_dir, sumSquares_dir]
  exact (gd_follows (c := NonlinearCG.cfg rtol atol normY normF (b.fn eps) (Armijo.search armijo) g)
    (c' := NonlinearCG.cfg rtol atol normY' normF (b.fn eps) (Armijo.search armijo) (gradient m g)) rfl rfl hY rfl (cg_same hb)
    (armijo_same armijo) (fun y => by simp only [NonlinearCG.cfg, gradient, back_point])
    (fun y => by simp only [objective, back_point]) aux0).solve hfin aux0 y0 ms throw

variable [DecidableEq ι'] (eps : ℝ) (he : 0 ≤ eps) {ls : LinSolve ι Unit} {ls' : LinSolve ι' Unit} (hls : SolvesSPD ls)
  (hls' : SolvesSPD ls') (armijo : Armijo.Cfg ℝ)

include he hls hls'

theorem quasi_newton_moved {HS HS' : Type} {H : QuasiNewton.HessianUpdate ι HS} {H' : QuasiNewton.HessianUpdate ι' HS'}
    {P : FnInfo ι Unit × HS → FnInfo ι' Unit × HS' → Prop} (hH : HessianSame m H H' P) :
    outcome (iterativeSolve (QuasiNewton.solver
        (QuasiNewton.withArmijo rtol atol normY' normF ls' armijo H' (gradient m g)) aux0) fin' (objective m f) aux0 (m.point y0)
        ms throw) =
      moved m (outcome (iterativeSolve (QuasiNewton.solver
        (QuasiNewton.withArmijo rtol atol normY normF ls armijo H g) aux0) fin f aux0 y0 ms throw)) :=
  (qn_follows (c := QuasiNewton.withArmijo rtol atol normY normF ls armijo H g)
    (c' := QuasiNewton.withArmijo rtol atol normY' normF ls' armijo H' (gradient m g)) rfl rfl hY rfl
    (newton_same (newton_hess hls hls')) (armijo_same armijo) hH
    (fun y => by simp only [QuasiNewton.withArmijo, gradient, back_point])
    (fun y => by simp only [objective, back_point]) aux0).solve hfin aux0 y0 ms throw

/-- **C78** for `BFGS`, in both forms. -/
theorem C78_bfgs (useInverse : Bool) :
    outcome (iterativeSolve (QuasiNewton.solver
        (QuasiNewton.withArmijo rtol atol normY' normF ls' armijo (QuasiNewton.bfgs eps useInverse) (gradient m g)) aux0) fin'
        (objective m f) aux0 (m.point y0) ms throw) =
      moved m (outcome (iterativeSolve (QuasiNewton.solver
        (QuasiNewton.withArmijo rtol atol normY normF ls armijo (QuasiNewton.bfgs eps useInverse) g) aux0) fin f aux0 y0 ms
        throw)) :=
  quasi_newton_moved m hfin rtol atol hY normF f g aux0 y0 ms throw eps he hls hls' armijo (bfgs_same eps he useInverse)

/-- **C78** for `DFP`, in both forms. -/
theorem C78_dfp (useInverse : Bool) :
    outcome (iterativeSolve (QuasiNewton.solver
        (QuasiNewton.withArmijo rtol atol normY' normF ls' armijo (QuasiNewton.dfp eps useInverse) (gradient m g)) aux0) fin'
        (objective m f) aux0 (m.point y0) ms throw) =
      moved m (outcome (iterativeSolve (QuasiNewton.solver
        (QuasiNewton.withArmijo rtol atol normY normF ls armijo (QuasiNewton.dfp eps useInverse) g) aux0) fin f aux0 y0 ms
        throw)) :=
  quasi_newton_moved m hfin rtol atol hY normF f g aux0 y0 ms throw eps he hls hls' armijo (dfp_same eps he useInverse)

/-- **C78** for `LBFGS` with `use_inverse=True`. -/
theorem C78_lbfgs_inverse (h : ℕ) [NeZero h] :
    outcome (iterativeSolve (QuasiNewton.solver
        (QuasiNewton.withArmijo rtol atol normY' normF ls' armijo (LBFGS.inverse eps h) (gradient m g)) aux0) fin'
        (objective m f) aux0 (m.point y0) ms throw) =
      moved m (outcome (iterativeSolve (QuasiNewton.solver
        (QuasiNewton.withArmijo rtol atol normY normF ls armijo (LBFGS.inverse eps h) g) aux0) fin f aux0 y0 ms throw)) :=
  quasi_newton_moved m hfin rtol atol hY normF f g aux0 y0 ms throw eps he hls hls' armijo (lbfgs_inverse_same eps he h)

/-- **C78** for `LBFGS` with `use_inverse=False`. -/
theorem C78_lbfgs_direct (h : ℕ) [NeZero h] (la : LBFGS.DenseLA h) (hla : ExactLA la) :
    outcome (iterativeSolve (QuasiNewton.solver
        (QuasiNewton.withArmijo rtol atol normY' normF ls' armijo (LBFGS.direct eps h la) (gradient m g)) aux0) fin'
        (objective m f) aux0 (m.point y0) ms throw) =
      moved m (outcome (iterativeSolve (QuasiNewton.solver
        (QuasiNewton.withArmijo rtol atol normY normF ls armijo (LBFGS.direct eps h la) g) aux0) fin f aux0 y0 ms throw)) :=
  quasi_newton_moved m hfin rtol atol hY normF f g aux0 y0 ms throw eps he hls hls' armijo (lbfgs_direct_same eps he h la hla)

end minimisers

section leastSquares

variable [Fintype κ] [Fintype κ'] [DecidableEq κ]

variable (m : Coordinates ι ι') (k : Coordinates κ κ') {fin : (ι → ℝ) → Bool} {fin' : (ι' → ℝ) → Bool}
  (hfin : ∀ y, fin' (m.point y) = fin y) (rtol atol : ℝ) {normY : (ι → ℝ) → ℝ} {normY' : (ι' → ℝ) → ℝ}
  (hY : SameTest m rtol atol normY normY') {normF : (κ → ℝ) → ℝ} {normF' : (κ' → ℝ) → ℝ}
  (hF : SameResidualTest k rtol atol normF normF') (f : (ι → ℝ) → (κ → ℝ) × A) (j : (ι → ℝ) → Matrix κ ι ℝ) (aux0 : A)
  (y0 : ι → ℝ) (ms : Option ℕ) (throw : Bool)

include hfin hY hF

/-- **C78** for `GaussNewton`, with a linear solver that finds the least-squares solution of smallest length. -/
theorem C78_gauss_newton {ls : LinSolve ι κ} {ls' : LinSolve ι' κ'} (hls : SolvesMinimal ls) (hls' : SolvesMinimal ls') :
    outcome (iterativeSolve (GaussNewton.solver
        (GaussNewton.gaussNewton rtol atol normY' normF' ls' (jacobian m k j)) aux0) fin' (residuals m k f) aux0 (m.point y0)
        ms throw) =
      moved m (outcome (iterativeSolve (GaussNewton.solver
        (GaussNewton.gaussNewton rtol atol normY normF ls j) aux0) fin f aux0 y0 ms throw)) :=
  (gn_follows (c := GaussNewton.gaussNewton rtol atol normY normF ls j)
    (c' := GaussNewton.gaussNewton rtol atol normY' normF' ls' (jacobian m k j)) rfl rfl hY hF
    (newton_same (newton_jac hls hls')) (learningRate_same 1)
    (fun y => by simp only [GaussNewton.gaussNewton, jacobian, back_point, jacMap])
    (fun y => by simp only [residuals, back_point]) aux0).solve hfin aux0 y0 ms throw

variable [DecidableEq ι'] (eps fmax : ℝ) (he : 0 ≤ eps) (hf : 0 < fmax)

include he hf in
/-- **C78** for `LevenbergMarquardt`, whatever the rank of the Jacobian. -/
theorem C78_levenberg_marquardt {ls : LinSolve ι (κ ⊕ ι)} {ls' : LinSolve ι' (κ' ⊕ ι')} (hls : SolvesFullRank ls)
    (hls' : SolvesFullRank ls') :
    outcome (iterativeSolve (GaussNewton.solver
        (GaussNewton.levenbergMarquardt eps fmax rtol atol normY' normF' ls' (jacobian m k j)) aux0) fin' (residuals m k f) aux0
        (m.point y0) ms throw) =
      moved m (outcome (iterativeSolve (GaussNewton.solver
        (GaussNewton.levenbergMarquardt eps fmax rtol atol normY normF ls j) aux0) fin f aux0 y0 ms throw)) :=
  (gn_follows (c := GaussNewton.levenbergMarquardt eps fmax rtol atol normY normF ls j)
    (c' := GaussNewton.levenbergMarquardt eps fmax rtol atol normY' normF' ls' (jacobian m k j)) rfl rfl hY hF
    (damped_same (damped_step_same he hf hls hls')) (classical_same _)
    (fun y => by simp only [GaussNewton.levenbergMarquardt, jacobian, back_point, jacMap])
    (fun y => by simp only [residuals, back_point]) aux0).solve hfin aux0 y0 ms throw

include he hf in
/-- **C78** for `IndirectLevenbergMarquardt`. -/
theorem C78_indirect_levenberg_marquardt {ls : LinSolve ι κ} {ls' : LinSolve ι' κ'} (hls : SolvesMinimal ls)
    (hls' : SolvesMinimal ls') {lsD : LinSolve ι (κ ⊕ ι)} {lsD' : LinSolve ι' (κ' ⊕ ι')} (hlsD : SolvesFullRank lsD)
    (hlsD' : SolvesFullRank lsD') (find : (ℝ → ℝ) → ℝ × Result) :
    outcome (iterativeSolve (GaussNewton.solver
        (GaussNewton.indirectLevenbergMarquardt eps fmax rtol atol normY' normF' ls' lsD' find (jacobian m k j)) aux0) fin'
        (residuals m k f) aux0 (m.point y0) ms throw) =
      moved m (outcome (iterativeSolve (GaussNewton.solver
        (GaussNewton.indirectLevenbergMarquardt eps fmax rtol atol normY normF ls lsD find j) aux0) fin f aux0 y0 ms throw)) :=
  (gn_follows (c := GaussNewton.indirectLevenbergMarquardt eps fmax rtol atol normY normF ls lsD find j)
    (c' := GaussNewton.indirectLevenbergMarquardt eps fmax rtol atol normY' normF' ls' lsD' find (jacobian m k j)) rfl rfl hY hF
    (indirect_same (newton_jac hls hls') (damped_step_same he hf hlsD hlsD') find) (classical_same _)
    (fun y => by simp only [GaussNewton.indirectLevenbergMarquardt, jacobian, back_point, jacMap])
    (fun y => by simp only [residuals, back_point]) aux0).solve hfin aux0 y0 ms throw

omit [DecidableEq ι'] in
/-- **C78** for `Dogleg`. -/
theorem C78_dogleg {ls : LinSolve ι κ} {ls' : LinSolve ι' κ'} (hls : SolvesMinimal ls) (hls' : SolvesMinimal ls') :
    outcome (iterativeSolve (GaussNewton.solver
        (GaussNewton.dogleg eps rtol atol normY' normF' ls' (jacobian m k j)) aux0) fin' (residuals m k f) aux0 (m.point y0)
        ms throw) =
      moved m (outcome (iterativeSolve (GaussNewton.solver
        (GaussNewton.dogleg eps rtol atol normY normF ls j) aux0) fin f aux0 y0 ms throw)) :=
  (gn_follows (c := GaussNewton.dogleg eps rtol atol normY normF ls j)
    (c' := GaussNewton.dogleg eps rtol atol normY' normF' ls' (jacobian m k j)) rfl rfl hY hF
    (dogleg_same (newton_jac hls hls')) (classical_same _)
    (fun y => by simp only [GaussNewton.dogleg, jacobian, back_point, jacMap])
    (fun y => by simp only [residuals, back_point]) aux0).solve hfin aux0 y0 ms throw

end leastSquares

/-! ### The derivatives used for the problem in new coordinates -/

/-- The old coordinates depend on the new ones affinely. -/
theorem back_hasFDerivAt (m : Coordinates ι ι') (x : ι' → ℝ) :
    HasFDerivAt m.back (LinearMap.toContinuousLinearMap m.Q.transpose.mulVecLin) x := by
  have h := (LinearMap.toContinuousLinearMap m.Q.transpose.mulVecLin).hasFDerivAt (x := x)
  have e : m.back = fun x => LinearMap.toContinuousLinearMap m.Q.transpose.mulVecLin x - m.Q.transpose.mulVec m.shift := by
    funext x
    exact Matrix.mulVec_sub m.Q.transpose x m.shift
  rw [e]
  exact h.sub_const _

/-- **C78.** The gradient used in the new coordinates is the gradient of the objective there. -/
theorem C78_gradient (m : Coordinates ι ι') (f : (ι → ℝ) → ℝ × A) (g : (ι → ℝ) → ι → ℝ)
    (D : (ι → ℝ) → (ι → ℝ) →L[ℝ] ℝ) (hD : ∀ y v, D y v = ∑ i, g y i * v i) (h : ∀ y, HasFDerivAt (fun y => (f y).1) (D y) y)
    (x : ι' → ℝ) :
    ∃ D' : (ι' → ℝ) →L[ℝ] ℝ, (∀ v, D' v = ∑ i, gradient m g x i * v i) ∧ HasFDerivAt (fun x => (objective m f x).1) D' x := by
  refine ⟨_, fun v => ?_, (h (m.back x)).comp x (back_hasFDerivAt m x)⟩
  show D (m.back x) (m.Q.transpose.mulVec v) = (m.Q.mulVec (g (m.back x))) ⬝ᵥ v
  rw [hD]
  show (g (m.back x)) ⬝ᵥ (m.Q.transpose.mulVec v) = _
  rw [Matrix.dotProduct_mulVec, Matrix.vecMul_transpose]

/-- **C78.** The Jacobian used in the new coordinates is that of the residuals there. -/
theorem C78_jacobian [Fintype κ] [Fintype κ'] [DecidableEq κ] (m : Coordinates ι ι') (k : Coordinates κ κ')
    (f : (ι → ℝ) → (κ → ℝ) × A) (j : (ι → ℝ) → Matrix κ ι ℝ)
    (h : ∀ y, HasFDerivAt (fun y => (f y).1) (LinearMap.toContinuousLinearMap (j y).mulVecLin) y) (x : ι' → ℝ) :
    HasFDerivAt (fun x => (residuals m k f x).1) (LinearMap.toContinuousLinearMap (jacobian m k j x).mulVecLin) x := by
  have hk := (LinearMap.toContinuousLinearMap k.Q.mulVecLin).hasFDerivAt (x := (f (m.back x)).1)
  have hc := hk.comp x ((h (m.back x)).comp x (back_hasFDerivAt m x))
  rw [show LinearMap.toContinuousLinearMap (jacobian m k j x).mulVecLin = _ from ?_]
  · exact hc
  ext v a
  simp [jacobian, Matrix.mulVec_mulVec, Matrix.mul_assoc]

/-! ### Which stopping tests give the same verdict -/

/-- **C78.** With `rtol=0` the stopping test in `two_norm` does not depend on the coordinates. -/
theorem C78_two_norm (m : Coordinates ι ι') (atol : ℝ) : SameTest m 0 atol twoNorm twoNorm := by
  have e : ∀ {α : Type} [Fintype α] (y d : α → ℝ), twoNorm (scaledDiff 0 atol y d) = Real.sqrt (sumSquares d * (1 / atol ^ 2)) := by
    intro α _ y d
    rw [twoNorm, sumSquares, sumSquares, Finset.sum_mul]
    congr 1
    refine Finset.sum_congr rfl fun i _ => ?_
    show |d i| / (atol + 0 * |y i|) * (|d i| / (atol + 0 * |y i|)) = _
    rw [zero_mul, add_zero, div_mul_div_comm, abs_mul_abs_self]
    ring
  intro y d
  rw [e, e, sumSquares_dir]

/-- The same for residuals. -/
theorem C78_two_norm_residuals (m : Coordinates ι ι') (atol : ℝ) : SameResidualTest m 0 atol twoNorm twoNorm := by
  have h : ∀ r, m.Q.mulVec r = ({ m with shift := fun _ => 0 } : Coordinates ι ι').point r := fun r => by
    funext i; simp [Coordinates.point]
  intro r d
  have := C78_two_norm { m with shift := fun _ => 0 } atol r d
  rwa [← h] at this

/-- Further unknowns, at `z`, which the function ignores. -/
def unused {π : Type} [Fintype π] (z : π → ℝ) : Coordinates ι (ι ⊕ π) where
  Q := Matrix.fromRows 1 0
  orthonormal := by simp [Matrix.transpose_fromRows, Matrix.fromCols_mul_fromRows]
  shift := Sum.elim (fun _ => 0) z

section unused

variable {π : Type} [Fintype π] (z : π → ℝ)

theorem unused_point (y : ι → ℝ) : (unused z).point y = Sum.elim y z := by
  funext i
  cases i <;> simp [Coordinates.point, unused]

theorem unused_dir (d : ι → ℝ) : (unused z).Q.mulVec d = Sum.elim d fun _ => 0 := by
  funext i
  cases i <;> simp [unused]

omit [DecidableEq ι] in
/-- **C78.** `max_norm` and `two_norm` do not change when a tree is padded with zeros; `rms_norm` does: it becomes smaller unless it
vanishes (the documentation says that `two_norm` has this property "not at all"). -/
theorem C78_norm_padding (x : ι → ℝ) :
    maxNorm (Sum.elim x fun _ : π => 0) = maxNorm x ∧ twoNorm (Sum.elim x fun _ : π => 0) = twoNorm x ∧
      (Nonempty π → (∃ i, x i ≠ 0) → rmsNorm (Sum.elim x fun _ : π => 0) < rmsNorm x) := by
  have hs : sumSquares (Sum.elim x fun _ : π => 0) = sumSquares x := by simp [sumSquares]
  refine ⟨?_, by rw [twoNorm, hs, twoNorm], ?_⟩
  · apply le_antisymm
    · rw [maxNorm_le_iff]
      refine ⟨maxNorm_nonneg x, ?_⟩
      rintro (i | i)
      · exact abs_le_maxNorm x i
      · simpa using maxNorm_nonneg x
    · rw [maxNorm_le_iff]
      exact ⟨maxNorm_nonneg _, fun i => abs_le_maxNorm (Sum.elim x fun _ : π => 0) (.inl i)⟩
  · rintro ⟨p⟩ ⟨i, hi⟩
    have hpos : 0 < sumSquares x := by
      refine Finset.sum_pos' (fun _ _ => mul_self_nonneg _) ⟨i, Finset.mem_univ i, ?_⟩
      exact mul_self_pos.2 hi
    rw [rmsNorm, rmsNorm, hs]
    apply Real.sqrt_lt_sqrt (by positivity)
    have hι : (0 : ℝ) < Fintype.card ι := by exact_mod_cast Fintype.card_pos_iff.2 ⟨i⟩
    have hπ : (0 : ℝ) < Fintype.card π := by exact_mod_cast Fintype.card_pos_iff.2 ⟨p⟩
    rw [Fintype.card_sum]
    push_cast
    exact div_lt_div_of_pos_left hpos hι (by linarith)

/-- **C78.** With the default `max_norm` and with `two_norm`, for all tolerances, unused unknowns do not change the verdict of the
stopping test. -/
theorem C78_unused_unknowns (rtol atol : ℝ) :
    SameTest (unused (ι := ι) z) rtol atol maxNorm maxNorm ∧ SameTest (unused (ι := ι) z) rtol atol twoNorm twoNorm := by
  have e : ∀ y d : ι → ℝ, scaledDiff rtol atol ((unused z).point y) ((unused z).Q.mulVec d) =
      Sum.elim (scaledDiff rtol atol y d) fun _ => 0 := by
    intro y d
    rw [unused_point, unused_dir]
    funext i
    cases i with
    | inl i => rfl
    | inr i =>
      show |(0 : ℝ)| / _ = 0
      rw [abs_zero, zero_div]
  exact ⟨fun y d => by rw [e, (C78_norm_padding _).1], fun y d => by rw [e, (C78_norm_padding _).2.1]⟩

/-- The same for residuals that always vanish. -/
theorem C78_zero_residuals (rtol atol : ℝ) :
    SameResidualTest (unused (ι := ι) (fun _ : π => 0)) rtol atol maxNorm maxNorm ∧
      SameResidualTest (unused (ι := ι) (fun _ : π => 0)) rtol atol twoNorm twoNorm := by
  obtain ⟨h1, h2⟩ := C78_unused_unknowns (ι := ι) (fun _ : π => 0) rtol atol
  have e : ∀ r : ι → ℝ, (unused (fun _ : π => 0)).Q.mulVec r = (unused (fun _ : π => 0)).point r := fun r => by
    rw [unused_dir, unused_point]
  exact ⟨fun r d => by rw [e r]; exact h1 r d, fun r d => by rw [e r]; exact h2 r d⟩

end unused

/-! ### The hypotheses are met -/

/-- A rotation of the plane by 3-4-5 angles. -/
noncomputable def rotation : Coordinates (Fin 2) (Fin 2) where
  Q := !![3 / 5, -4 / 5; 4 / 5, 3 / 5]
  orthonormal := by
    ext i j
    fin_cases i <;> fin_cases j <;> norm_num [Matrix.mul_apply, Fin.sum_univ_two]
  shift := ![1, 2]

/-- It moves points; with it, the hypotheses of the theorems for `BFGS` and `LevenbergMarquardt` hold. -/
example : rotation.point ![5, 0] = ![4, 6] ∧ SameTest rotation 0 (1 / 10) twoNorm twoNorm ∧
    (∃ ls : LinSolve (Fin 2) Unit, SolvesSPD ls) ∧ (∃ ls : LinSolve (Fin 2) (Fin 3 ⊕ Fin 2), SolvesFullRank ls) ∧
    ∃ ls : LinSolve (Fin 2) (Fin 3), SolvesMinimal ls := by
  refine ⟨?_, C78_two_norm _ _, ⟨_, exact_solver_exists⟩, full_rank_solver_exists, minimal_solver_exists⟩
  funext i
  fin_cases i <;> norm_num [Coordinates.point, rotation, Matrix.mulVec, dotProduct, Fin.sum_univ_two]

/-- Without a hypothesis on the linear solver: `GradientDescent` on `½|y - (1,2)|²` in the rotated coordinates. -/
example (y0 : Fin 2 → ℝ) (ms : Option ℕ) :
    outcome (iterativeSolve (GradientDescent.solver (GradientDescent.gradientDescent (1 / 10) 0 (1 / 100) twoNorm twoNorm
        (gradient rotation fun y i => y i - ![1, 2] i)) ()) (fun _ => true)
        (objective rotation fun y => ((sumSquares fun i => y i - ![1, 2] i) / 2, ())) () (rotation.point y0) ms false) =
      moved rotation (outcome (iterativeSolve (GradientDescent.solver (GradientDescent.gradientDescent (1 / 10) 0 (1 / 100)
        twoNorm twoNorm fun y i => y i - ![1, 2] i) ()) (fun _ => true)
        (fun y => ((sumSquares fun i => y i - ![1, 2] i) / 2, ())) () y0 ms false)) :=
  C78_gradient_descent rotation (fun _ => rfl) 0 (1 / 100) (C78_two_norm _ _) twoNorm _ _ () y0 ms false (1 / 10)

end Verif.Rigid
