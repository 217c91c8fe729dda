import Verif.Props.Rigid
import Verif.Props.Tolerances
import Verif.Props.FixedPoint
import Verif.Props.Units
import Verif.Spec.Symmetric
import Mathlib.LinearAlgebra.Matrix.Permutation

/-!
Property C132: a symmetric problem started symmetrically has a symmetric answer.

The proofs combine two properties: the answer does not depend on Cartesian coordinates (C78), here applied to the symmetry, which leaves the problem
and the starting point as they are; and the points visited do not depend on when the solve stops (C113), so that C78 may be applied to a solve whose
stopping test does not depend on coordinates.
-/

namespace Verif.Props
open Verif Verif.Spec Verif.Driver Verif.Rigid Matrix
open Verif.Relabel (Formula outcome)

variable {ι κ A : Type} [Fintype ι] [DecidableEq ι]

theorem point_back (m : Coordinates ι ι) (x : ι → ℝ) : m.point (m.back x) = x := by
  funext i
  simp only [Coordinates.point, Coordinates.back, Matrix.mulVec_mulVec, mul_eq_one_comm.1 m.orthonormal, Matrix.one_mulVec]
  ring

theorem solve_throw_false {Y Out Aux St Stats : Type} (S : Solver Y Out Aux St Stats) (af : Y → Bool) (fn : Y → Out × Aux) (aux0 : Aux) (y0 : Y)
    (ms : Option Nat) (throw : Bool) (sol : Solution Y Aux St Stats) (h : iterativeSolve S af fn aux0 y0 ms throw = some (.ok sol)) :
    iterativeSolve S af fn aux0 y0 ms false = some (.ok sol) := by
  cases throw with
  | false => exact h
  | true =>
    rw [iterativeSolve_false]
    unfold iterativeSolve at h
    cases hi : iterate S af fn aux0 y0 ms with
    | none => rw [hi] at h; cases h
    | some r =>
      rw [hi] at h
      cases r with
      | error e => exact h
      | ok s =>
        simp only [Option.map_some, Option.some.injEq] at h ⊢
        split at h
        · cases h
        · exact h

/-- The argument: the stricter solver `S'` never stops, and its outcome is carried to itself by `m`. -/
theorem symmetric_generic {Out St St' : Type} {S : Solver (ι → ℝ) Out A St Unit} {S' : Solver (ι → ℝ) Out A St' Unit} {fn : (ι → ℝ) → Out × A}
    {aux0 : A} {y0 : ι → ℝ} {m : Coordinates ι ι} (hp : OnlyProlongs S S' (fun _ => true) fn aux0 y0)
    (hm : ∀ ms, outcome (iterativeSolve S' (fun _ => true) fn aux0 y0 ms false) =
      moved m (outcome (iterativeSolve S' (fun _ => true) fn aux0 y0 ms false)))
    (ms : Option Nat) (throw : Bool) (sol : Solution (ι → ℝ) A St Unit)
    (h : iterativeSolve S (fun _ => true) fn aux0 y0 ms throw = some (.ok sol)) : m.point sol.value = sol.value := by
  obtain ⟨sol', h1, -, h2, -⟩ := (hp ms).2.2 sol (solve_throw_false _ _ _ _ _ _ _ _ h)
  have h3 := hm (some sol.numSteps)
  rw [h1] at h3
  simp only [outcome, moved, Option.map_some, Except.map, Option.some.injEq, Except.ok.injEq, Prod.mk.injEq] at h3
  rw [h2] at h3
  exact h3.1.symm

section minimisers
variable (m : Coordinates ι ι) (f : (ι → ℝ) → ℝ × A) (g : (ι → ℝ) → ι → ℝ) (hf : KeepsObjective m f g) (rtol atol : ℝ) (normY : (ι → ℝ) → ℝ)
  (normF : (Unit → ℝ) → ℝ) (aux0 : A) (y0 : ι → ℝ) (h0 : m.point y0 = y0) (ms : Option Nat) (throw : Bool)

include hf

theorem keeps_objective : objective m f = f := by
  funext x
  have := hf.value (m.back x)
  rw [point_back] at this
  exact this.symm

theorem keeps_gradient : gradient m g = g := by
  funext x
  have := hf.gradient (m.back x)
  rw [point_back] at this
  exact this.symm

include h0

/-- **C132** for `GradientDescent`. -/
theorem C132_gradient_descent (rate : ℝ) (sol : Solution (ι → ℝ) A (GradientDescent.State ι A Unit (ι → ℝ)) Unit)
    (h : iterativeSolve (GradientDescent.solver (GradientDescent.gradientDescent rate rtol atol normY normF g) aux0) (fun _ => true) f aux0 y0
      ms throw = some (.ok sol)) : m.point sol.value = sol.value := by
  have ht := (gd_tightens (rtol' := rtol) (atol' := atol) (nY' := fun _ => 1) (nF' := normF)
    (GradientDescent.gradientDescent rate rtol atol normY normF g) (by simp [cauchyTermination]) aux0 f).prolongs (fun _ => true) aux0 y0
  refine symmetric_generic ht (fun ms => ?_) ms throw sol h
  have := C78_gradient_descent m (fin := fun _ => true) (fin' := fun _ => true) (fun _ => rfl) rtol atol
    (normY := fun _ => 1) (normY' := fun _ => 1) (fun _ _ => rfl) normF f g aux0 y0 ms false rate
  rw [keeps_objective m f g hf, keeps_gradient m f g hf, h0] at this
  exact this

/-- **C132** for `NonlinearCG`, for each of its four formulas. -/
theorem C132_nonlinear_cg (eps : ℝ) (b : Formula) (armijo : Armijo.Cfg ℝ)
    (sol : Solution (ι → ℝ) A (GradientDescent.State ι A ℝ (NonlinearCG.DState ι)) Unit)
    (h : iterativeSolve (GradientDescent.solver (NonlinearCG.cfg rtol atol normY normF (b.fn eps) (Armijo.search armijo) g) aux0) (fun _ => true) f
      aux0 y0 ms throw = some (.ok sol)) : m.point sol.value = sol.value := by
  have ht := (gd_tightens (rtol' := rtol) (atol' := atol) (nY' := fun _ => 1) (nF' := normF)
    (NonlinearCG.cfg rtol atol normY normF (b.fn eps) (Armijo.search armijo) g) (by simp [cauchyTermination]) aux0 f).prolongs (fun _ => true) aux0 y0
  refine symmetric_generic ht (fun ms => ?_) ms throw sol h
  have := C78_nonlinear_cg m (fin := fun _ => true) (fin' := fun _ => true) (fun _ => rfl) rtol atol
    (normY := fun _ => 1) (normY' := fun _ => 1) (fun _ _ => rfl) normF f g aux0 y0 ms false eps b armijo
  rw [keeps_objective m f g hf, keeps_gradient m f g hf, h0] at this
  exact this

variable (eps : ℝ) (he : 0 ≤ eps) {ls : LinSolve ι Unit} (hls : SolvesSPD ls) (armijo : Armijo.Cfg ℝ)

theorem qn_symmetric {HS : Type} (H : QuasiNewton.HessianUpdate ι HS)
    (hm : ∀ ms : Option Nat, outcome (iterativeSolve (QuasiNewton.solver
        (QuasiNewton.withArmijo rtol atol (fun _ => 1) normF ls armijo H (gradient m g)) aux0) (fun _ => true)
        (objective m f) aux0 (m.point y0) ms false) =
      moved m (outcome (iterativeSolve (QuasiNewton.solver
        (QuasiNewton.withArmijo rtol atol (fun _ => 1) normF ls armijo H g) aux0) (fun _ => true) f aux0 y0 ms false)))
    (sol : Solution (ι → ℝ) A (QuasiNewton.State ι A ℝ ((ι → ℝ) × Result) HS) Unit)
    (h : iterativeSolve (QuasiNewton.solver (QuasiNewton.withArmijo rtol atol normY normF ls armijo H g) aux0) (fun _ => true) f aux0 y0 ms throw =
      some (.ok sol)) : m.point sol.value = sol.value := by
  have ht := (qn_tightens (rtol' := rtol) (atol' := atol) (nY' := fun _ => 1) (nF' := normF)
    (QuasiNewton.withArmijo rtol atol normY normF ls armijo H g) (by simp [cauchyTermination]) aux0 f).prolongs (fun _ => true) aux0 y0
  refine symmetric_generic ht (fun ms => ?_) ms throw sol h
  have := hm ms
  rw [keeps_objective m f g hf, keeps_gradient m f g hf, h0] at this
  exact this

include he hls

/-- **C132** for `BFGS`, in both forms. -/
theorem C132_bfgs (useInverse : Bool) (sol) (h : iterativeSolve (QuasiNewton.solver
    (QuasiNewton.withArmijo rtol atol normY normF ls armijo (QuasiNewton.bfgs eps useInverse) g) aux0) (fun _ => true) f aux0 y0 ms throw =
      some (.ok sol)) : m.point sol.value = sol.value :=
  qn_symmetric m f g hf rtol atol normY normF aux0 y0 h0 ms throw armijo _ (fun ms => C78_bfgs m (fun _ => rfl) rtol atol
    (fun _ _ => rfl) normF f g aux0 y0 ms false eps he hls hls armijo useInverse) sol h

/-- **C132** for `DFP`, in both forms. -/
theorem C132_dfp (useInverse : Bool) (sol) (h : iterativeSolve (QuasiNewton.solver
    (QuasiNewton.withArmijo rtol atol normY normF ls armijo (QuasiNewton.dfp eps useInverse) g) aux0) (fun _ => true) f aux0 y0 ms throw =
      some (.ok sol)) : m.point sol.value = sol.value :=
  qn_symmetric m f g hf rtol atol normY normF aux0 y0 h0 ms throw armijo _ (fun ms => C78_dfp m (fun _ => rfl) rtol atol
    (fun _ _ => rfl) normF f g aux0 y0 ms false eps he hls hls armijo useInverse) sol h

/-- **C132** for `LBFGS` with `use_inverse=True`, for every history length. -/
theorem C132_lbfgs_inverse (n : ℕ) [NeZero n] (sol) (h : iterativeSolve (QuasiNewton.solver
    (QuasiNewton.withArmijo rtol atol normY normF ls armijo (LBFGS.inverse eps n) g) aux0) (fun _ => true) f aux0 y0 ms throw =
      some (.ok sol)) : m.point sol.value = sol.value :=
  qn_symmetric m f g hf rtol atol normY normF aux0 y0 h0 ms throw armijo _ (fun ms => C78_lbfgs_inverse m (fun _ => rfl) rtol atol
    (fun _ _ => rfl) normF f g aux0 y0 ms false eps he hls hls armijo n) sol h

/-- **C132** for `LBFGS` with `use_inverse=False`. -/
theorem C132_lbfgs_direct (n : ℕ) [NeZero n] (la : LBFGS.DenseLA n) (hla : ExactLA la) (sol) (h : iterativeSolve (QuasiNewton.solver
    (QuasiNewton.withArmijo rtol atol normY normF ls armijo (LBFGS.direct eps n la) g) aux0) (fun _ => true) f aux0 y0 ms throw =
      some (.ok sol)) : m.point sol.value = sol.value :=
  qn_symmetric m f g hf rtol atol normY normF aux0 y0 h0 ms throw armijo _ (fun ms => C78_lbfgs_direct m (fun _ => rfl) rtol atol
    (fun _ _ => rfl) normF f g aux0 y0 ms false eps he hls hls armijo n la hla) sol h

end minimisers

/-! ### Least squares -/

section leastSquares
variable [Fintype κ] [DecidableEq κ]

variable (m : Coordinates ι ι) (k : Coordinates κ κ) (f : (ι → ℝ) → (κ → ℝ) × A) (j : (ι → ℝ) → Matrix κ ι ℝ) (hf : KeepsResiduals m k f j) (rtol atol : ℝ) (normY : (ι → ℝ) → ℝ)
  (normF : (κ → ℝ) → ℝ) (aux0 : A) (y0 : ι → ℝ) (h0 : m.point y0 = y0) (ms : Option Nat) (throw : Bool)

theorem keeps_residuals (hf : KeepsResiduals m k f j) : residuals m k f = f := by
  funext x
  have := hf.value (m.back x)
  rw [point_back] at this
  exact this.symm

theorem keeps_jacobian (hf : KeepsResiduals m k f j) : jacobian m k j = j := by
  funext x
  have := hf.jacobian (m.back x)
  rw [point_back] at this
  exact this.symm

include h0 in
theorem gn_symmetric {SS DS : Type} (cfg : ((ι → ℝ) → ℝ) → ((κ → ℝ) → ℝ) → ((ι → ℝ) → Matrix κ ι ℝ) → GaussNewton.Cfg ι κ SS DS)
    (hf : KeepsResiduals m k f j)
    (hcfg : { cfg normY normF j with normY := fun _ => 1, normF := fun _ => 1 } = cfg (fun _ => 1) (fun _ => 1) j)
    (hm : ∀ ms : Option Nat, outcome (iterativeSolve (GaussNewton.solver
        (cfg (fun _ => 1) (fun _ => 1) (jacobian m k j)) aux0) (fun _ => true) (residuals m k f) aux0 (m.point y0) ms false) =
      moved m (outcome (iterativeSolve (GaussNewton.solver (cfg (fun _ => 1) (fun _ => 1) j) aux0) (fun _ => true) f aux0 y0 ms false)))
    (sol : Solution (ι → ℝ) A (GaussNewton.State ι κ A SS DS) Unit)
    (h : iterativeSolve (GaussNewton.solver (cfg normY normF j) aux0) (fun _ => true) f aux0 y0 ms throw =
      some (.ok sol)) : m.point sol.value = sol.value := by
  have ht := (gn_tightens (rtol' := (cfg normY normF j).rtol) (atol' := (cfg normY normF j).atol) (nY' := fun _ => 1) (nF' := fun _ => 1)
    (cfg normY normF j) (by simp [cauchyTermination]) aux0 f).prolongs (fun _ => true) aux0 y0
  have e : ({ cfg normY normF j with rtol := (cfg normY normF j).rtol, atol := (cfg normY normF j).atol, normY := fun _ => 1, normF := fun _ => 1 } :
    GaussNewton.Cfg ι κ SS DS) = cfg (fun _ => 1) (fun _ => 1) j := hcfg
  rw [e] at ht
  refine symmetric_generic ht (fun ms => ?_) ms throw sol h
  have := hm ms
  rw [keeps_residuals m k f j hf, keeps_jacobian m k f j hf, h0] at this
  exact this

include hf h0

/-- **C132** for `GaussNewton`, with a linear solver that finds the least-squares solution of smallest length. -/
theorem C132_gauss_newton {ls : LinSolve ι κ} (hls : SolvesMinimal ls) (sol) (h : iterativeSolve (GaussNewton.solver
    (GaussNewton.gaussNewton rtol atol normY normF ls j) aux0) (fun _ => true) f aux0 y0 ms throw = some (.ok sol)) :
    m.point sol.value = sol.value :=
  gn_symmetric m k f j normY normF aux0 y0 h0 ms throw (fun n nF j => GaussNewton.gaussNewton rtol atol n nF ls j) hf rfl
    (fun ms => C78_gauss_newton m k (fun _ => rfl) rtol atol (fun _ _ => rfl)
      (fun _ _ => rfl) f j aux0 y0 ms false hls hls) sol h

/-- **C132** for `Dogleg`. -/
theorem C132_dogleg (eps : ℝ) {ls : LinSolve ι κ} (hls : SolvesMinimal ls) (sol) (h : iterativeSolve (GaussNewton.solver
    (GaussNewton.dogleg eps rtol atol normY normF ls j) aux0) (fun _ => true) f aux0 y0 ms throw = some (.ok sol)) :
    m.point sol.value = sol.value :=
  gn_symmetric m k f j normY normF aux0 y0 h0 ms throw (fun n nF j => GaussNewton.dogleg eps rtol atol n nF ls j) hf rfl
    (fun ms => C78_dogleg m k (fun _ => rfl) rtol atol (fun _ _ => rfl)
      (fun _ _ => rfl) f j aux0 y0 ms false eps hls hls) sol h

variable (eps fmax : ℝ) (he : 0 ≤ eps) (hfm : 0 < fmax)

include he hfm

/-- **C132** for `LevenbergMarquardt`. -/
theorem C132_levenberg_marquardt {ls : LinSolve ι (κ ⊕ ι)} (hls : SolvesFullRank ls) (sol) (h : iterativeSolve (GaussNewton.solver
    (GaussNewton.levenbergMarquardt eps fmax rtol atol normY normF ls j) aux0) (fun _ => true) f aux0 y0 ms throw = some (.ok sol)) :
    m.point sol.value = sol.value :=
  gn_symmetric m k f j normY normF aux0 y0 h0 ms throw (fun n nF j => GaussNewton.levenbergMarquardt eps fmax rtol atol n nF ls j) hf rfl
    (fun ms => C78_levenberg_marquardt m k (fun _ => rfl) rtol atol (fun _ _ => rfl)
      (fun _ _ => rfl) f j aux0 y0 ms false eps fmax he hfm hls hls) sol h

/-- **C132** for `IndirectLevenbergMarquardt`. -/
theorem C132_indirect_levenberg_marquardt {ls : LinSolve ι κ} (hls : SolvesMinimal ls) {lsD : LinSolve ι (κ ⊕ ι)} (hlsD : SolvesFullRank lsD)
    (find : (ℝ → ℝ) → ℝ × Result) (sol) (h : iterativeSolve (GaussNewton.solver
    (GaussNewton.indirectLevenbergMarquardt eps fmax rtol atol normY normF ls lsD find j) aux0) (fun _ => true) f aux0 y0 ms throw =
      some (.ok sol)) : m.point sol.value = sol.value :=
  gn_symmetric m k f j normY normF aux0 y0 h0 ms throw (fun n nF j => GaussNewton.indirectLevenbergMarquardt eps fmax rtol atol n nF ls lsD find j) hf rfl
    (fun ms => C78_indirect_levenberg_marquardt m k (fun _ => rfl) rtol atol (fun _ _ => rfl)
      (fun _ _ => rfl) f j aux0 y0 ms false eps fmax he hfm hls hls hlsD hlsD find) sol h

end leastSquares


/-! ### Newton, Chord and fixed-point iteration: affine symmetries -/

omit [DecidableEq ι] in
theorem affineMap_sub (T : Matrix ι ι ℝ) (t y d : ι → ℝ) :
    affineMap T t (fun i => y i - d i) = fun i => affineMap T t y i - T.mulVec d i := by
  funext i
  simp only [affineMap]
  rw [show (fun i => y i - d i) = y - d from rfl, Matrix.mulVec_sub, Pi.sub_apply]
  ring

omit [DecidableEq ι] in
/-- **C132** for `Newton` and `Chord` without bounds. Neither `T` nor `S` need be invertible. -/
theorem C132_newton_chord [Fintype κ] (T : Matrix ι ι ℝ) (t : ι → ℝ) (S : Matrix κ κ ℝ) (cfg : NewtonChord.Cfg ι κ ℝ (Matrix κ ι ℝ))
    (f : (ι → ℝ) → (κ → ℝ) × A) (hf : KeepsEquations T t S f cfg.jac) (hls : Units.SolvesUnique cfg.linearSolve)
    (hreg : ∀ y b, ∃! x, (cfg.jac y).mulVec x = b) (hl : cfg.lower = none) (hu : cfg.upper = none) (af : (ι → ℝ) → Bool) (aux0 : A) (y0 : ι → ℝ)
    (h0 : affineMap T t y0 = y0) (ms : Option Nat) (throw : Bool) (sol)
    (h : iterativeSolve (NewtonChord.solver cfg) af f aux0 y0 ms throw = some (.ok sol)) : affineMap T t sol.value = sol.value := by
  obtain ⟨st0, hi, -, -, -, -, hp, -⟩ := solve_spec _ _ _ _ _ _ _ _ h
  obtain rfl : NewtonChord.init cfg y0 = st0 := Except.ok.inj hi
  have hv : sol.value = iterateAt (NewtonChord.solver cfg) f aux0 y0 (NewtonChord.init cfg y0) sol.numSteps := congrArg Prod.fst hp
  rw [hv]
  -- the Jacobian used is that of a symmetric point
  have key : ∀ k, affineMap T t (iterateAt (NewtonChord.solver cfg) f aux0 y0 (NewtonChord.init cfg y0) k) =
      iterateAt (NewtonChord.solver cfg) f aux0 y0 (NewtonChord.init cfg y0) k ∧
      (stateAt (NewtonChord.solver cfg) f aux0 y0 (NewtonChord.init cfg y0) k).linearState =
        if cfg.isNewton then none else some (cfg.jac y0) := by
    intro k
    induction k with
    | zero => exact ⟨h0, rfl⟩
    | succ k ih =>
      obtain ⟨ih1, ih2⟩ := ih
      set y := iterateAt (NewtonChord.solver cfg) f aux0 y0 (NewtonChord.init cfg y0) k with hy
      set st := stateAt (NewtonChord.solver cfg) f aux0 y0 (NewtonChord.init cfg y0) k with hst
      have hs : iterateAt (NewtonChord.solver cfg) f aux0 y0 (NewtonChord.init cfg y0) (k + 1) = (NewtonChord.step cfg f y st).1 := by
        rw [hy, hst]; rfl
      have hs' : stateAt (NewtonChord.solver cfg) f aux0 y0 (NewtonChord.init cfg y0) (k + 1) = (NewtonChord.step cfg f y st).2.1 := by
        rw [hy, hst]; rfl
      refine ⟨?_, by rw [hs']; exact ih2⟩
      rw [hs]
      obtain ⟨w, hw, hlin⟩ : ∃ w, affineMap T t w = w ∧ NewtonChord.linSol cfg y (f y).1 st = cfg.linearSolve (cfg.jac w) (f y).1 := by
        unfold NewtonChord.linSol
        rw [ih2]
        cases cfg.isNewton
        · exact ⟨y0, h0, rfl⟩
        · exact ⟨y, ih1, rfl⟩
      have hx := (hls _ _ (hreg w (f y).1)).1
      have hTx : T.mulVec (cfg.linearSolve (cfg.jac w) (f y).1).1 = (cfg.linearSolve (cfg.jac w) (f y).1).1 := by
        refine (hreg w (f y).1).unique ?_ hx
        have hj := hf.jacobian w
        rw [hw] at hj
        rw [Matrix.mulVec_mulVec, hj, ← Matrix.mulVec_mulVec, hx, ← hf.value, ih1]
      simp only [NewtonChord.step, hl, hu, NewtonChord.clipBounds, hlin]
      rw [affineMap_sub, hTx, ih1]
  exact (key _).1

omit [DecidableEq ι] in
/-- **C132** for `FixedPointIteration`, for every affine map that commutes with the function. -/
theorem C132_fixed_point (T : Matrix ι ι ℝ) (t : ι → ℝ) (cfg : FixedPointIter.Cfg ι ℝ) (fn : (ι → ℝ) → (ι → ℝ) × A)
    (hf : ∀ y, (fn (affineMap T t y)).1 = affineMap T t (fn y).1) (aux0 : A) (af : (ι → ℝ) → Bool) (y0 : ι → ℝ) (h0 : affineMap T t y0 = y0)
    (ms : Option Nat) (throw : Bool) (sol) (h : iterativeSolve (FixedPointIter.solver cfg) af fn aux0 y0 ms throw = some (.ok sol)) :
    affineMap T t sol.value = sol.value := by
  have hk : ∀ k, affineMap T t ((dampedMap cfg.damp fun z => (fn z).1)^[k] y0) = (dampedMap cfg.damp fun z => (fn z).1)^[k] y0 := by
    intro k
    induction k with
    | zero => exact h0
    | succ k ih =>
      rw [Function.iterate_succ_apply']
      set z := (dampedMap cfg.damp fun z => (fn z).1)^[k] y0
      have e : affineMap T t (dampedMap cfg.damp (fun z => (fn z).1) z) = dampedMap cfg.damp (fun z => (fn z).1) (affineMap T t z) := by
        funext i
        have h1 : dampedMap cfg.damp (fun z => (fn z).1) z = (1 - cfg.damp) • (fn z).1 + cfg.damp • z := rfl
        rw [h1]
        simp only [dampedMap, hf]
        simp only [affineMap, Matrix.mulVec_add, Matrix.mulVec_smul, Pi.add_apply, Pi.smul_apply, smul_eq_mul]
        ring
      rw [e, ih]
  obtain ⟨st0, hi, -, -, -, -, hp, -⟩ := solve_spec _ _ _ _ _ _ _ _ h
  obtain rfl : none = st0 := Except.ok.inj hi
  have hv : sol.value = iterateAt (FixedPointIter.solver cfg) fn aux0 y0 none sol.numSteps := congrArg Prod.fst hp
  rw [hv, fp_iterate_eq, hk]

/-! ### Derivatives of symmetric problems -/

/-- **C132.** If a rigid motion does not change the values, the gradient turns with it. -/
theorem C132_true_gradient (m : Coordinates ι ι) (f : (ι → ℝ) → ℝ × A) (g : (ι → ℝ) → ι → ℝ) (D : (ι → ℝ) → (ι → ℝ) →L[ℝ] ℝ)
    (hD : ∀ y v, D y v = ∑ i, g y i * v i) (h : ∀ y, HasFDerivAt (fun y => (f y).1) (D y) y) (hv : ∀ y, f (m.point y) = f y) :
    KeepsObjective m f g := by
  have ho : objective m f = f := by
    funext x
    have := hv (m.back x)
    rw [point_back] at this
    exact this.symm
  refine ⟨hv, fun y => ?_⟩
  obtain ⟨D', h1, h2⟩ := C78_gradient m f g D hD h (m.point y)
  rw [ho] at h2
  have h3 := h2.unique (h (m.point y))
  funext i
  have h4 := congrArg (fun L => L (Pi.single i 1)) h3
  simp only [h1, hD, gradient, back_point] at h4
  simpa [Pi.single_apply] using h4.symm

/-- **C132.** The same for residuals. -/
theorem C132_true_jacobian [Fintype κ] [DecidableEq κ] (m : Coordinates ι ι) (k : Coordinates κ κ) (f : (ι → ℝ) → (κ → ℝ) × A)
    (j : (ι → ℝ) → Matrix κ ι ℝ) (h : ∀ y, HasFDerivAt (fun y => (f y).1) (LinearMap.toContinuousLinearMap (j y).mulVecLin) y)
    (hv : ∀ y, f (m.point y) = (k.Q.mulVec (f y).1, (f y).2)) : KeepsResiduals m k f j := by
  have ho : residuals m k f = f := by
    funext x
    have := hv (m.back x)
    rw [point_back] at this
    exact this.symm
  refine ⟨hv, fun y => ?_⟩
  have h2 := C78_jacobian m k f j h (m.point y)
  rw [ho] at h2
  have h3 := LinearMap.toContinuousLinearMap.injective (h2.unique (h (m.point y)))
  ext a i
  have h4 := congrFun (LinearMap.congr_fun h3 (Pi.single i 1)) a
  simp only [Matrix.mulVecLin_apply, Matrix.mulVec_single_one, jacobian, back_point] at h4
  exact h4.symm

/-! ### Unknowns that are interchangeable -/

/-- Unknowns change places. -/
def permuted (σ : Equiv.Perm ι) : Coordinates ι ι where
  Q := σ.permMatrix ℝ
  orthonormal := by
    rw [Matrix.transpose_permMatrix, ← Matrix.permMatrix_mul, mul_inv_cancel, Matrix.permMatrix_one]
  shift := 0

/-- **C132.** The motion that lets unknowns change places: interchangeable unknowns which start equal stay equal. -/
theorem C132_interchangeable (σ : Equiv.Perm ι) (y : ι → ℝ) : (permuted σ).point y = fun i => y (σ i) := by
  funext i
  simp [permuted, Coordinates.point, Matrix.permMatrix_mulVec]

/-! ### The hypotheses are met -/

/-- In `(y₀ - y₁)² + (y₀ + y₁ - 4)⁴` the unknowns are interchangeable. -/
theorem exchange_keeps : KeepsObjective (permuted (Equiv.swap (0 : Fin 2) 1)) (fun y : Fin 2 → ℝ => ((y 0 - y 1) ^ 2 + (y 0 + y 1 - 4) ^ 4, ()))
    (fun y => ![2 * (y 0 - y 1) + 4 * (y 0 + y 1 - 4) ^ 3, -(2 * (y 0 - y 1)) + 4 * (y 0 + y 1 - 4) ^ 3]) := by
  have hQ : ∀ v : Fin 2 → ℝ, (permuted (Equiv.swap (0 : Fin 2) 1)).Q.mulVec v = ![v 1, v 0] := by
    intro v
    funext i
    fin_cases i <;> simp [permuted, Matrix.permMatrix_mulVec]
  refine ⟨fun y => ?_, fun y => ?_⟩
  · rw [C132_interchangeable]
    simp only [Equiv.swap_apply_left, Equiv.swap_apply_right, Prod.mk.injEq, and_true]
    ring
  · rw [C132_interchangeable, hQ]
    funext i
    fin_cases i <;> simp <;> ring

/-- So `NonlinearCG` started where they are equal returns an answer where they are equal. -/
example (ms : Option Nat) (throw : Bool) (armijo : Armijo.Cfg ℝ) (sol) (h : iterativeSolve (GradientDescent.solver
      (NonlinearCG.cfg (1 / 100) (1 / 100) maxNorm maxNorm (Formula.fn (1 / 1000) .polakRibiere) (Armijo.search armijo)
        fun y : Fin 2 → ℝ => ![2 * (y 0 - y 1) + 4 * (y 0 + y 1 - 4) ^ 3, -(2 * (y 0 - y 1)) + 4 * (y 0 + y 1 - 4) ^ 3]) ()) (fun _ => true)
      (fun y => ((y 0 - y 1) ^ 2 + (y 0 + y 1 - 4) ^ 4, ())) () ![5, 5] ms throw = some (.ok sol)) : sol.value 0 = sol.value 1 := by
  have := C132_nonlinear_cg _ _ _ exchange_keeps _ _ _ _ _ _ (by
    rw [C132_interchangeable]
    funext i
    fin_cases i <;> simp) ms throw (1 / 1000) .polakRibiere armijo sol h
  rw [C132_interchangeable] at this
  simpa using (congrFun this 0).symm

/-- The equations `y₀ + y₁³ = 2`, `y₁ + y₀³ = 2` change places with their unknowns. -/
example : KeepsEquations !![0, 1; 1, 0] 0 !![0, 1; 1, 0] (fun y : Fin 2 → ℝ => (![y 0 + y 1 ^ 3 - 2, y 1 + y 0 ^ 3 - 2], ()))
    (fun y => !![1, 3 * y 1 ^ 2; 3 * y 0 ^ 2, 1]) := by
  refine ⟨fun y => ?_, fun y => ?_⟩
  · funext i
    fin_cases i <;> simp [affineMap, Matrix.mulVec, dotProduct, Fin.sum_univ_two]
  · ext i j
    fin_cases i <;> fin_cases j <;> simp [affineMap, Matrix.mulVec, dotProduct, Fin.sum_univ_two]

/-- A map that treats its arguments alike. -/
example (y : Fin 2 → ℝ) : (fun z : Fin 2 → ℝ => ![Real.cos (z 1), Real.cos (z 0)]) (affineMap !![0, 1; 1, 0] 0 y) =
    affineMap !![0, 1; 1, 0] 0 ![Real.cos (y 1), Real.cos (y 0)] := by
  funext i
  fin_cases i <;> simp [affineMap, Matrix.mulVec, dotProduct, Fin.sum_univ_two]

end Verif.Props
