import Verif.Lemmas.RelabelSolvers
import Mathlib.Analysis.Calculus.FDeriv.Comp
import Mathlib.Analysis.Calculus.FDeriv.Linear
import Mathlib.Topology.Algebra.Module.FiniteDimension

/-!
C67: the outcome of a solve does not depend on how the unknowns and residuals are packed into PyTrees.

`e` and `k` repack the unknowns and the residuals (`Spec/Relabel.lean`).  Each theorem says that solving the repacked
problem, from the repacked starting point, has the same outcome as solving the original problem, with the answer repacked:
it returns if and only if the original does, raises the same error, and otherwise has the same result code, the same
auxiliary output and the same number of steps.

Assumed of the environment: the norm and the linear solver do not themselves depend on the packing (`SameNorm`, `SameSolve`;
examples below).
-/

namespace Verif.Relabel

open Driver

variable {ι ι' κ κ' A : Type}

/-- Outcomes are packed answers when the auxiliary output is untouched. -/
theorem solve_packed {K Out Out' St St' Stats Stats' : Type} {S : Solver (ι → K) Out A St Stats} {fn : (ι → K) → Out × A}
    {S' : Solver (ι' → K) Out' A St' Stats'} {fn' : (ι' → K) → Out' × A} {e : ι ≃ ι'} {mS : St → St'}
    (h : Simulates S fn S' fn' (vec e) id mS) {fin : (ι → K) → Bool} {fin' : (ι' → K) → Bool}
    (hfin : ∀ y, fin' (vec e y) = fin y) (aux0 : A) (y0 : ι → K) (ms : Option ℕ) (throw : Bool) :
    outcome (iterativeSolve S' fin' fn' aux0 (vec e y0) ms throw) =
      packed e (outcome (iterativeSolve S fin fn aux0 y0 ms throw)) :=
  h.solve hfin aux0 y0 ms throw

section minimisers

variable (e : ι ≃ ι') {fin : (ι → ℝ) → Bool} {fin' : (ι' → ℝ) → Bool} (hfin : ∀ y, fin' (vec e y) = fin y)
  {normY : (ι → ℝ) → ℝ} {normY' : (ι' → ℝ) → ℝ} (hY : SameNorm e normY normY') (normF : (Unit → ℝ) → ℝ) (rtol atol : ℝ)
  (f : (ι → ℝ) → ℝ × A) (g : (ι → ℝ) → ι → ℝ) (aux0 : A) (y0 : ι → ℝ) (ms : Option ℕ) (throw : Bool)

include hfin hY

/-- **C67** for `GradientDescent`. -/
theorem C67_gradient_descent [Fintype ι] [Fintype ι'] (rate : ℝ) :
    outcome (iterativeSolve (GradientDescent.solver
        (GradientDescent.gradientDescent rate rtol atol normY' normF (grad e g)) aux0) fin' (scalarFn e f) aux0 (vec e y0)
        ms throw) =
      packed e (outcome (iterativeSolve (GradientDescent.solver
        (GradientDescent.gradientDescent rate rtol atol normY normF g) aux0) fin f aux0 y0 ms throw)) :=
  solve_packed (gd_simulates (mA := id) (by rfl) (by rfl) hY (by rfl) (steepest_same e _) (learningRate_same e _ rate)
    (fun y => by simp [GradientDescent.gradientDescent, grad]) (fun y => by simp [scalarFn]) aux0) hfin aux0 y0 ms throw

/-- The four formulas of `NonlinearCG` (`nonlinear_cg.py:23-70`). -/
inductive Formula
  | polakRibiere | fletcherReeves | hestenesStiefel | daiYuan

/-- The function of a formula. -/
noncomputable def Formula.fn [Fintype ι] (eps : ℝ) : Formula → (ι → ℝ) → (ι → ℝ) → (ι → ℝ) → ℝ
  | .polakRibiere => NonlinearCG.polakRibiere eps
  | .fletcherReeves => NonlinearCG.fletcherReeves eps
  | .hestenesStiefel => NonlinearCG.hestenesStiefel eps
  | .daiYuan => NonlinearCG.daiYuan eps

/-- **C67** for `NonlinearCG` with its default search, for each of its four formulas. -/
theorem C67_nonlinear_cg [Fintype ι] [Fintype ι'] (eps : ℝ) (m : Formula) (armijo : Armijo.Cfg ℝ) :
    outcome (iterativeSolve (GradientDescent.solver
        (NonlinearCG.cfg rtol atol normY' normF (m.fn eps) (Armijo.search armijo) (grad e g)) aux0) fin' (scalarFn e f) aux0
        (vec e y0) ms throw) =
      packed e (outcome (iterativeSolve (GradientDescent.solver
        (NonlinearCG.cfg rtol atol normY normF (m.fn eps) (Armijo.search armijo) g) aux0) fin f aux0 y0 ms throw)) := by
  have hm : SameMethod e (m.fn (ι := ι) eps) (m.fn eps) := by
    cases m
    · exact polakRibiere_same e eps
    · exact fletcherReeves_same e eps
    · exact hestenesStiefel_same e eps
    · exact daiYuan_same e eps
  exact solve_packed (gd_simulates (mA := id) (by rfl) (by rfl) hY (by rfl) (cg_same e _ hm) (armijo_same e _ armijo)
    (fun y => by simp [NonlinearCG.cfg, grad]) (fun y => by simp [scalarFn]) aux0) hfin aux0 y0 ms throw

/-- **C67** for `BFGS`, in both forms. -/
theorem C67_bfgs [Fintype ι] [Fintype ι'] [DecidableEq ι] [DecidableEq ι'] (eps : ℝ) (useInverse : Bool)
    {ls : LinSolve ι Unit} {ls' : LinSolve ι' Unit} (hls : SameSolve e (Equiv.refl Unit) ls ls') (armijo : Armijo.Cfg ℝ) :
    outcome (iterativeSolve (QuasiNewton.solver
        (QuasiNewton.withArmijo rtol atol normY' normF ls' armijo (QuasiNewton.bfgs eps useInverse) (grad e g)) aux0) fin'
        (scalarFn e f) aux0 (vec e y0) ms throw) =
      packed e (outcome (iterativeSolve (QuasiNewton.solver
        (QuasiNewton.withArmijo rtol atol normY normF ls armijo (QuasiNewton.bfgs eps useInverse) g) aux0) fin f aux0 y0 ms
        throw)) :=
  solve_packed (qn_simulates (mA := id) (by rfl) (by rfl) hY (by rfl) (newton_same hls) (armijo_same e _ armijo)
    (bfgs_same e eps useInverse) (fun y => by simp [QuasiNewton.withArmijo, grad]) (fun y => by simp [scalarFn]) aux0) hfin
    aux0 y0 ms throw

/-- **C67** for `DFP`, in both forms. -/
theorem C67_dfp [Fintype ι] [Fintype ι'] [DecidableEq ι] [DecidableEq ι'] (eps : ℝ) (useInverse : Bool)
    {ls : LinSolve ι Unit} {ls' : LinSolve ι' Unit} (hls : SameSolve e (Equiv.refl Unit) ls ls') (armijo : Armijo.Cfg ℝ) :
    outcome (iterativeSolve (QuasiNewton.solver
        (QuasiNewton.withArmijo rtol atol normY' normF ls' armijo (QuasiNewton.dfp eps useInverse) (grad e g)) aux0) fin'
        (scalarFn e f) aux0 (vec e y0) ms throw) =
      packed e (outcome (iterativeSolve (QuasiNewton.solver
        (QuasiNewton.withArmijo rtol atol normY normF ls armijo (QuasiNewton.dfp eps useInverse) g) aux0) fin f aux0 y0 ms
        throw)) :=
  solve_packed (qn_simulates (mA := id) (by rfl) (by rfl) hY (by rfl) (newton_same hls) (armijo_same e _ armijo)
    (dfp_same e eps useInverse) (fun y => by simp [QuasiNewton.withArmijo, grad]) (fun y => by simp [scalarFn]) aux0) hfin
    aux0 y0 ms throw

/-- **C67** for `LBFGS` with `use_inverse=True`. -/
theorem C67_lbfgs_inverse [Fintype ι] [Fintype ι'] [DecidableEq ι] [DecidableEq ι'] (eps : ℝ) (h : ℕ) [NeZero h]
    {ls : LinSolve ι Unit} {ls' : LinSolve ι' Unit} (hls : SameSolve e (Equiv.refl Unit) ls ls') (armijo : Armijo.Cfg ℝ) :
    outcome (iterativeSolve (QuasiNewton.solver
        (QuasiNewton.withArmijo rtol atol normY' normF ls' armijo (LBFGS.inverse eps h) (grad e g)) aux0) fin'
        (scalarFn e f) aux0 (vec e y0) ms throw) =
      packed e (outcome (iterativeSolve (QuasiNewton.solver
        (QuasiNewton.withArmijo rtol atol normY normF ls armijo (LBFGS.inverse eps h) g) aux0) fin f aux0 y0 ms throw)) :=
  solve_packed (qn_simulates (mA := id) (by rfl) (by rfl) hY (by rfl) (newton_same hls) (armijo_same e _ armijo)
    (lbfgs_inverse_same e eps) (fun y => by simp [QuasiNewton.withArmijo, grad]) (fun y => by simp [scalarFn]) aux0) hfin
    aux0 y0 ms throw

/-- **C67** for `LBFGS` with `use_inverse=False`. -/
theorem C67_lbfgs_direct [Fintype ι] [Fintype ι'] [DecidableEq ι] [DecidableEq ι'] (eps : ℝ) (h : ℕ) [NeZero h]
    (la : LBFGS.DenseLA h) {ls : LinSolve ι Unit} {ls' : LinSolve ι' Unit} (hls : SameSolve e (Equiv.refl Unit) ls ls')
    (armijo : Armijo.Cfg ℝ) :
    outcome (iterativeSolve (QuasiNewton.solver
        (QuasiNewton.withArmijo rtol atol normY' normF ls' armijo (LBFGS.direct eps h la) (grad e g)) aux0) fin'
        (scalarFn e f) aux0 (vec e y0) ms throw) =
      packed e (outcome (iterativeSolve (QuasiNewton.solver
        (QuasiNewton.withArmijo rtol atol normY normF ls armijo (LBFGS.direct eps h la) g) aux0) fin f aux0 y0 ms throw)) :=
  solve_packed (qn_simulates (mA := id) (by rfl) (by rfl) hY (by rfl) (newton_same hls) (armijo_same e _ armijo)
    (lbfgs_direct_same e eps la) (fun y => by simp [QuasiNewton.withArmijo, grad]) (fun y => by simp [scalarFn]) aux0) hfin
    aux0 y0 ms throw

/-- **C67** for `OptaxMinimiser`, given an optimiser that acts on the repacked gradients as it does on the original ones
(its state being repacked by `m`). -/
theorem C67_optax {OS OS' : Type} (m : OS → OS') {o : Optax.Optim ι OS} {o' : Optax.Optim ι' OS'} (fmax : ℝ)
    (hi : ∀ y, o'.init (vec e y) = m (o.init y))
    (hu : ∀ g s y v (w : (ι → ℝ) → ℝ), o'.update (vec e g) (m s) (vec e y) v (fun z => w (vec e.symm z)) =
      (vec e (o.update g s y v w).1, m (o.update g s y v w).2)) :
    outcome (iterativeSolve (Optax.solver
        { optim := o', rtol, atol, normY := normY', normF, grad := grad e g, fmax }) fin' (scalarFn e f) aux0 (vec e y0)
        ms throw) =
      packed e (outcome (iterativeSolve (Optax.solver
        { optim := o, rtol, atol, normY, normF, grad := g, fmax }) fin f aux0 y0 ms throw)) :=
  solve_packed (optax_simulates (mA := id) (by rfl) (by rfl) hY (by rfl) (by rfl) (fun y => by simp [grad]) hi hu
    (fun y => by simp [scalarFn])) hfin aux0 y0 ms throw

/-- **C67** for `BestSoFarMinimiser`, here around `BFGS`. -/
theorem C67_best_so_far_bfgs [Fintype ι] [Fintype ι'] [DecidableEq ι] [DecidableEq ι'] (eps : ℝ) (useInverse : Bool)
    {ls : LinSolve ι Unit} {ls' : LinSolve ι' Unit} (hls : SameSolve e (Equiv.refl Unit) ls ls') (armijo : Armijo.Cfg ℝ)
    (pair0 : ℝ × A) (inf : WithTop ℝ) :
    outcome (iterativeSolve (BestSoFar.solver (QuasiNewton.solver
        (QuasiNewton.withArmijo rtol atol normY' normF ls' armijo (QuasiNewton.bfgs eps useInverse) (grad e g)) pair0)
        BestSoFar.minLoss inf aux0) fin' (scalarFn e f) aux0 (vec e y0) ms throw) =
      packed e (outcome (iterativeSolve (BestSoFar.solver (QuasiNewton.solver
        (QuasiNewton.withArmijo rtol atol normY normF ls armijo (QuasiNewton.bfgs eps useInverse) g) pair0)
        BestSoFar.minLoss inf aux0) fin f aux0 y0 ms throw)) := by
  have hin := qn_simulates (c := QuasiNewton.withArmijo rtol atol normY normF ls armijo (QuasiNewton.bfgs eps useInverse) g)
    (c' := QuasiNewton.withArmijo rtol atol normY' normF ls' armijo (QuasiNewton.bfgs eps useInverse) (grad e g))
    (mA := Prod.map (id : ℝ → ℝ) (id : A → A)) (f := BestSoFar.auxmented f)
    (f' := BestSoFar.auxmented (scalarFn e f)) rfl rfl hY rfl (newton_same hls)
    (armijo_same e _ armijo) (bfgs_same e eps useInverse) (fun y => by simp [QuasiNewton.withArmijo, grad])
    (fun y => by simp [scalarFn, BestSoFar.auxmented]) pair0
  exact solve_packed (best_simulates (mA := id) (fun _ _ => rfl) hin inf aux0) hfin aux0 y0 ms throw

end minimisers

section leastSquares

variable (e : ι ≃ ι') (k : κ ≃ κ') {fin : (ι → ℝ) → Bool} {fin' : (ι' → ℝ) → Bool} (hfin : ∀ y, fin' (vec e y) = fin y)
  {normY : (ι → ℝ) → ℝ} {normY' : (ι' → ℝ) → ℝ} (hY : SameNorm e normY normY') {normF : (κ → ℝ) → ℝ}
  {normF' : (κ' → ℝ) → ℝ} (hF : SameNorm k normF normF') (rtol atol : ℝ) (f : (ι → ℝ) → (κ → ℝ) × A)
  (j : (ι → ℝ) → Matrix κ ι ℝ) (aux0 : A) (y0 : ι → ℝ) (ms : Option ℕ) (throw : Bool)

include hfin hY hF

/-- **C67** for `GaussNewton`. -/
theorem C67_gauss_newton [Fintype ι] [Fintype ι'] {ls : LinSolve ι κ} {ls' : LinSolve ι' κ'} (hls : SameSolve e k ls ls') :
    outcome (iterativeSolve (GaussNewton.solver
        (GaussNewton.gaussNewton rtol atol normY' normF' ls' (jac k e j)) aux0) fin' (fn e k f) aux0 (vec e y0) ms throw) =
      packed e (outcome (iterativeSolve (GaussNewton.solver
        (GaussNewton.gaussNewton rtol atol normY normF ls j) aux0) fin f aux0 y0 ms throw)) :=
  solve_packed (gn_simulates (mA := id) (by rfl) (by rfl) hY hF (newton_same hls) (learningRate_same e k 1)
    (fun y => by simp [GaussNewton.gaussNewton, jac]) (fun y => by simp [fn]) aux0) hfin aux0 y0 ms throw

variable [Fintype ι] [Fintype ι'] [Fintype κ] [Fintype κ'] [DecidableEq ι] [DecidableEq ι'] (eps fmax : ℝ)

/-- **C67** for `LevenbergMarquardt`. -/
theorem C67_levenberg_marquardt {ls : LinSolve ι (κ ⊕ ι)} {ls' : LinSolve ι' (κ' ⊕ ι')}
    (hls : SameSolve e (k.sumCongr e) ls ls') :
    outcome (iterativeSolve (GaussNewton.solver
        (GaussNewton.levenbergMarquardt eps fmax rtol atol normY' normF' ls' (jac k e j)) aux0) fin' (fn e k f) aux0
        (vec e y0) ms throw) =
      packed e (outcome (iterativeSolve (GaussNewton.solver
        (GaussNewton.levenbergMarquardt eps fmax rtol atol normY normF ls j) aux0) fin f aux0 y0 ms throw)) :=
  solve_packed (gn_simulates (mA := id) (by rfl) (by rfl) hY hF (damped_same hls eps fmax) (classical_same e k _)
    (fun y => by simp [GaussNewton.levenbergMarquardt, jac]) (fun y => by simp [fn]) aux0) hfin aux0 y0 ms throw

/-- **C67** for `IndirectLevenbergMarquardt`. -/
theorem C67_indirect_levenberg_marquardt {ls : LinSolve ι κ} {ls' : LinSolve ι' κ'} (hls : SameSolve e k ls ls')
    {lsD : LinSolve ι (κ ⊕ ι)} {lsD' : LinSolve ι' (κ' ⊕ ι')} (hlsD : SameSolve e (k.sumCongr e) lsD lsD')
    (find : (ℝ → ℝ) → ℝ × Result) :
    outcome (iterativeSolve (GaussNewton.solver
        (GaussNewton.indirectLevenbergMarquardt eps fmax rtol atol normY' normF' ls' lsD' find (jac k e j)) aux0) fin'
        (fn e k f) aux0 (vec e y0) ms throw) =
      packed e (outcome (iterativeSolve (GaussNewton.solver
        (GaussNewton.indirectLevenbergMarquardt eps fmax rtol atol normY normF ls lsD find j) aux0) fin f aux0 y0 ms
        throw)) :=
  solve_packed (gn_simulates (mA := id) (by rfl) (by rfl) hY hF (indirect_same hls hlsD (twoNorm_same e) eps fmax find)
    (classical_same e k _) (fun y => by simp [GaussNewton.indirectLevenbergMarquardt, jac]) (fun y => by simp [fn]) aux0)
    hfin aux0 y0 ms throw

omit [DecidableEq ι] [DecidableEq ι'] in
/-- **C67** for `Dogleg`. -/
theorem C67_dogleg {ls : LinSolve ι κ} {ls' : LinSolve ι' κ'} (hls : SameSolve e k ls ls') :
    outcome (iterativeSolve (GaussNewton.solver
        (GaussNewton.dogleg eps rtol atol normY' normF' ls' (jac k e j)) aux0) fin' (fn e k f) aux0 (vec e y0) ms throw) =
      packed e (outcome (iterativeSolve (GaussNewton.solver
        (GaussNewton.dogleg eps rtol atol normY normF ls j) aux0) fin f aux0 y0 ms throw)) :=
  solve_packed (gn_simulates (mA := id) (by rfl) (by rfl) hY hF (dogleg_same hls .twoNorm eps) (classical_same e k _)
    (fun y => by simp [GaussNewton.dogleg, jac]) (fun y => by simp [fn]) aux0) hfin aux0 y0 ms throw

/-- **C67** for `BestSoFarLeastSquares`, here around `LevenbergMarquardt`. -/
theorem C67_best_so_far_levenberg_marquardt {ls : LinSolve ι (κ ⊕ ι)} {ls' : LinSolve ι' (κ' ⊕ ι')}
    (hls : SameSolve e (k.sumCongr e) ls ls') (r0 : κ → ℝ) (inf : WithTop ℝ) :
    outcome (iterativeSolve (BestSoFar.solver (GaussNewton.solver
        (GaussNewton.levenbergMarquardt eps fmax rtol atol normY' normF' ls' (jac k e j)) (vec k r0, aux0))
        BestSoFar.sqLoss inf aux0) fin' (fn e k f) aux0 (vec e y0) ms throw) =
      packed e (outcome (iterativeSolve (BestSoFar.solver (GaussNewton.solver
        (GaussNewton.levenbergMarquardt eps fmax rtol atol normY normF ls j) (r0, aux0))
        BestSoFar.sqLoss inf aux0) fin f aux0 y0 ms throw)) := by
  have hin := gn_simulates (c := GaussNewton.levenbergMarquardt eps fmax rtol atol normY normF ls j)
    (c' := GaussNewton.levenbergMarquardt eps fmax rtol atol normY' normF' ls' (jac k e j))
    (mA := Prod.map (vec k : (κ → ℝ) → κ' → ℝ) (id : A → A)) (f := BestSoFar.auxmented f)
    (f' := BestSoFar.auxmented (fn e k f)) rfl rfl hY hF (damped_same hls eps fmax)
    (classical_same e k _) (fun y => by simp [GaussNewton.levenbergMarquardt, jac])
    (fun y => by simp [fn, BestSoFar.auxmented]; rfl) (r0, aux0)
  refine solve_packed (best_simulates (mA := id) (fun y o => ?_) hin inf aux0) hfin aux0 y0 ms throw
  simp only [BestSoFar.sqLoss, sumSquares_vec]

end leastSquares

section rootFinders

variable {K : Type} (e : ι ≃ ι') (k : κ ≃ κ') {fin : (ι → K) → Bool} {fin' : (ι' → K) → Bool}
  (hfin : ∀ y, fin' (vec e y) = fin y) {normY : (ι → K) → K} {normY' : (ι' → K) → K} (hY : SameNorm e normY normY')

include hfin hY

/-- **C67** for `Newton` (`isNewton`) and `Chord` (`¬ isNewton`), with both termination criteria and with bounds, for any
scalars `K`.  `mJ` repacks the Jacobian. -/
theorem C67_newton_chord {J J' : Type} [Add K] [Sub K] [Mul K] [Div K] [Zero K] [One K] [OfNat K 2] [LT K] [DecidableLT K]
    [HasAbs K] {normF : (κ → K) → K} {normF' : (κ' → K) → K} (hF : SameNorm k normF normF') (rtol atol kappa : K)
    (cauchy isNewton : Bool) (lower upper : Option (ι → K)) (mJ : J → J') (j : (ι → K) → J)
    {solve : J → (κ → K) → (ι → K) × Result} {solve' : J' → (κ' → K) → (ι' → K) × Result}
    (hs : ∀ M b, solve' (mJ M) (vec k b) = (vec e (solve M b).1, (solve M b).2)) (inf resolution : K)
    (isfinite : K → Bool) (f : (ι → K) → (κ → K) × A) (aux0 : A) (y0 : ι → K) (ms : Option ℕ) (throw : Bool) :
    outcome (iterativeSolve (NewtonChord.solver
        { rtol, atol, normY := normY', normF := normF', kappa, cauchy, isNewton, lower := lower.map (vec e),
          upper := upper.map (vec e), jac := fun y => mJ (j (vec e.symm y)), linearSolve := solve', inf, isfinite,
          resolution }) fin' (fn e k f) aux0 (vec e y0) ms throw) =
      packed e (outcome (iterativeSolve (NewtonChord.solver
        { rtol, atol, normY, normF, kappa, cauchy, isNewton, lower, upper, jac := j, linearSolve := solve, inf, isfinite,
          resolution }) fin f aux0 y0 ms throw)) :=
  solve_packed (newton_simulates (mA := id) (by rfl) (by rfl) hY hF (by rfl) (by rfl) (by rfl) (by rfl) (by rfl) (fun y => by simp) hs (by rfl) (by rfl) (by rfl)
    (fun y => by simp [fn])) hfin aux0 y0 ms throw

/-- **C67** for `FixedPointIteration`, for any scalars `K`. -/
theorem C67_fixed_point [Add K] [Sub K] [Mul K] [Div K] [One K] [LT K] [DecidableLT K] [HasAbs K] (rtol atol damp : K)
    (f : (ι → K) → (ι → K) × A) (aux0 : A) (y0 : ι → K) (ms : Option ℕ) (throw : Bool) :
    outcome (iterativeSolve (FixedPointIter.solver { rtol, atol, norm := normY', damp }) fin' (fn e e f) aux0 (vec e y0) ms
        throw) =
      packed e (outcome (iterativeSolve (FixedPointIter.solver { rtol, atol, norm := normY, damp }) fin f aux0 y0 ms
        throw)) :=
  solve_packed (fixedPoint_simulates (mA := id) hY (fun y => by simp [fn])) hfin aux0 y0 ms throw

end rootFinders

section bestSoFar

variable (e : ι ≃ ι') (k : κ ≃ κ') [Fintype ι] [Fintype ι'] [Fintype κ] [Fintype κ'] {fin : (ι → ℝ) → Bool}
  {fin' : (ι' → ℝ) → Bool} (hfin : ∀ y, fin' (vec e y) = fin y) {normY : (ι → ℝ) → ℝ} {normY' : (ι' → ℝ) → ℝ}
  (hY : SameNorm e normY normY')

include hfin

/-- **C67** for the `BestSoFar…` wrappers around any solver whose steps and stopping decisions do not depend on the packing (all
those above; `mS` repacks the state). -/
theorem C67_best_so_far {Out Out' L St St' Stats Stats' : Type} [LT L] [DecidableLT L]
    {S : Solver (ι → ℝ) Out (Out × A) St Stats} {S' : Solver (ι' → ℝ) Out' (Out' × A) St' Stats'} {mO : Out → Out'}
    {mS : St → St'} (f : (ι → ℝ) → Out × A) (f' : (ι' → ℝ) → Out' × A)
    (h : Simulates S (BestSoFar.auxmented f) S' (BestSoFar.auxmented f') (vec e) (Prod.map mO id) mS)
    (loss : (ι → ℝ) → Out → L) (loss' : (ι' → ℝ) → Out' → L) (hl : ∀ y o, loss' (vec e y) (mO o) = loss y o) (inf : L)
    (aux0 : A) (y0 : ι → ℝ) (ms : Option ℕ) (throw : Bool) :
    outcome (iterativeSolve (BestSoFar.solver S' loss' inf aux0) fin' f' aux0 (vec e y0) ms throw) =
      packed e (outcome (iterativeSolve (BestSoFar.solver S loss inf aux0) fin f aux0 y0 ms throw)) :=
  solve_packed (best_simulates (mA := id) hl h inf aux0) hfin aux0 y0 ms throw

include hY

/-- **C67** for `BestSoFarRootFinder` around `Newton` and `Chord`. -/
theorem C67_best_so_far_newton_chord {J J' : Type} {normF : (κ → ℝ) → ℝ} {normF' : (κ' → ℝ) → ℝ} (hF : SameNorm k normF normF')
    (rtol atol kappa : ℝ) (cauchy isNewton : Bool) (lower upper : Option (ι → ℝ)) (mJ : J → J') (j : (ι → ℝ) → J)
    {solve : J → (κ → ℝ) → (ι → ℝ) × Result} {solve' : J' → (κ' → ℝ) → (ι' → ℝ) × Result}
    (hs : ∀ M b, solve' (mJ M) (vec k b) = (vec e (solve M b).1, (solve M b).2)) (inf resolution : ℝ)
    (isfinite : ℝ → Bool) (f : (ι → ℝ) → (κ → ℝ) × A) (top : WithTop ℝ) (aux0 : A) (y0 : ι → ℝ) (ms : Option ℕ) (throw : Bool) :
    outcome (iterativeSolve (BestSoFar.solver (NewtonChord.solver
        { rtol, atol, normY := normY', normF := normF', kappa, cauchy, isNewton, lower := lower.map (vec e),
          upper := upper.map (vec e), jac := fun y => mJ (j (vec e.symm y)), linearSolve := solve', inf, isfinite,
          resolution }) BestSoFar.sqLoss top aux0) fin' (fn e k f) aux0 (vec e y0) ms throw) =
      packed e (outcome (iterativeSolve (BestSoFar.solver (NewtonChord.solver
        { rtol, atol, normY, normF, kappa, cauchy, isNewton, lower, upper, jac := j, linearSolve := solve, inf, isfinite,
          resolution }) BestSoFar.sqLoss top aux0) fin f aux0 y0 ms throw)) :=
  C67_best_so_far e hfin f (fn e k f)
    (newton_simulates (k := k) (mA := Prod.map (vec k : (κ → ℝ) → κ' → ℝ) (id : A → A)) (by rfl) (by rfl) hY hF (by rfl) (by rfl)
      (by rfl) (by rfl) (by rfl) (fun y => by simp) hs (by rfl) (by rfl) (by rfl)
      (fun y => by simp [fn, BestSoFar.auxmented]; rfl)) _ _
    (fun y o => by simp only [BestSoFar.sqLoss, sumSquares_vec]) top aux0 y0 ms throw

/-- **C67** for `BestSoFarFixedPoint` around `FixedPointIteration`. -/
theorem C67_best_so_far_fixed_point (rtol atol damp : ℝ) (f : (ι → ℝ) → (ι → ℝ) × A) (top : WithTop ℝ) (aux0 : A) (y0 : ι → ℝ)
    (ms : Option ℕ) (throw : Bool) :
    outcome (iterativeSolve (BestSoFar.solver (FixedPointIter.solver { rtol, atol, norm := normY', damp }) BestSoFar.fpLoss top
        aux0) fin' (fn e e f) aux0 (vec e y0) ms throw) =
      packed e (outcome (iterativeSolve (BestSoFar.solver (FixedPointIter.solver { rtol, atol, norm := normY, damp })
        BestSoFar.fpLoss top aux0) fin f aux0 y0 ms throw)) :=
  C67_best_so_far e hfin f (fn e e f)
    (fixedPoint_simulates (mA := Prod.map (vec e : (ι → ℝ) → ι' → ℝ) (id : A → A)) hY
      (fun y => by simp [fn, BestSoFar.auxmented]; rfl)) _ _
    (fun y o => by
      simp only [BestSoFar.fpLoss]
      exact congrArg (fun r : ℝ => (r : WithTop ℝ)) (sumSquares_vec e fun i => y i - o i)) top aux0 y0 ms throw

end bestSoFar

/-- The Jacobian used for the repacked problem is its derivative if the original one is. -/
theorem C67_jacobian [Fintype ι] [Fintype ι'] [Fintype κ] [Fintype κ'] (e : ι ≃ ι') (k : κ ≃ κ') (f : (ι → ℝ) → (κ → ℝ) × A)
    (j : (ι → ℝ) → Matrix κ ι ℝ)
    (h : ∀ y, HasFDerivAt (fun y => (f y).1) (LinearMap.toContinuousLinearMap (j y).mulVecLin) y) (y' : ι' → ℝ) :
    HasFDerivAt (fun y => (fn e k f y).1) (LinearMap.toContinuousLinearMap (jac k e j y').mulVecLin) y' := by
  let P : (ι' → ℝ) →ₗ[ℝ] ι → ℝ := { toFun := vec e.symm, map_add' := fun _ _ => rfl, map_smul' := fun _ _ => rfl }
  let Q : (κ → ℝ) →ₗ[ℝ] κ' → ℝ := { toFun := vec k, map_add' := fun _ _ => rfl, map_smul' := fun _ _ => rfl }
  have hP := (LinearMap.toContinuousLinearMap P).hasFDerivAt (x := y')
  have hQ := (LinearMap.toContinuousLinearMap Q).hasFDerivAt (x := (f (vec e.symm y')).1)
  have hc := hQ.comp y' ((h (vec e.symm y')).comp y' hP)
  rw [show LinearMap.toContinuousLinearMap (jac k e j y').mulVecLin = _ from ?_]
  · exact hc
  ext v a
  have := congrFun (mulVec_mat k e (j (vec e.symm y')) (vec e.symm v)) a
  rw [vec_symm'] at this
  exact this

/-! ### The hypotheses are met -/

/-- An exact least-squares solver for operators of full column rank does not depend on the packing. -/
theorem exact_same [Fintype ι] [Fintype ι'] [Fintype κ] [Fintype κ'] [DecidableEq ι] [DecidableEq ι'] (e : ι ≃ ι')
    (k : κ ≃ κ') :
    SameSolve e k
      { rect := fun M b => (((M.transpose * M)⁻¹ * M.transpose).mulVec b, .successful)
        square := fun M b => ((M⁻¹).mulVec b, .successful) }
      { rect := fun M b => (((M.transpose * M)⁻¹ * M.transpose).mulVec b, .successful)
        square := fun M b => ((M⁻¹).mulVec b, .successful) } where
  rect M b := by simp only [transpose_mat, mul_mat, ← inv_mat, mulVec_mat]
  square M b := by simp only [← inv_mat, mulVec_mat]

/-- A tree with two scalars and a tree with one array of two entries: any three-parameter problem split in any way over two
leaves is a repacking of the flat problem. -/
example (sizes : Fin 2 → ℕ) (h : ∑ l, sizes l = 3) : Nonempty ((Σ l, Fin (sizes l)) ≃ Fin 3) :=
  ⟨finSigmaFinEquiv.trans (finCongr h)⟩

/-- The hypotheses hold for the circle/line system packed in either order, with the default norm. -/
example : ∃ (ls : LinSolve (Fin 2) (Fin 2 ⊕ Fin 2)) (ls' : LinSolve Bool (Bool ⊕ Bool)) (e : Fin 2 ≃ Bool),
    SameSolve e (e.sumCongr e) ls ls' ∧ SameNorm e (maxNorm (ι := Fin 2)) maxNorm ∧
      vec e ![1, 2] = fun b => if b then 2 else 1 :=
  ⟨_, _, finTwoEquiv, exact_same finTwoEquiv (finTwoEquiv.sumCongr finTwoEquiv), maxNorm_same finTwoEquiv, by
    funext b; cases b <;> simp [vec, finTwoEquiv]⟩

end Verif.Relabel
