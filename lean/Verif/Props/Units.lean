import Verif.Lemmas.Units
import Mathlib.Analysis.Calculus.FDeriv.Add

/-!
C79: the outcome of a solve with `Newton`, `Chord`, `GaussNewton` or `FixedPointIteration` does not depend on the units, or more
generally on the affine coordinates, of the unknowns, nor on the way the equations are combined.

`m` gives the new coordinates of the unknowns, and the equations are multiplied by a matrix (`Spec/Units.lean`).  As in C78, the
outcome is compared completely: whether the solve returns, the error raised, the result code, the auxiliary output, the number of
steps, and the answer (in the new coordinates).
-/

namespace Verif.Units

open Driver Verif.Spec Verif.NewtonChord Matrix
open Verif.Relabel (outcome)

variable {ι ι' κ κ' A : Type} [Fintype ι] [Fintype ι'] [DecidableEq ι] [DecidableEq ι']
  [Fintype κ] [Fintype κ'] [DecidableEq κ] [DecidableEq κ']

/-! ### Newton and Chord -/

/-- **C79** for `Newton` and `Chord`: any affine coordinates `m`, any invertible combination `k` of the equations.  The Jacobians
are regular and the linear solver is exact for them.  The stopping test: the size of the updates relative to the tolerances is the
same in both coordinates (`SameSize`; see `C79_newton_units` and `C79_newton_equations` for cases in which it always is); if
`cauchy_termination=True`, also the size of the residuals is the same, and the test does not pass on the `inf` placeholders before
the first step (see `C23_initial_test_fails`). -/
theorem C79_newton (m : Change ι ι') (k : Change κ κ') {c : Cfg ι κ ℝ (Matrix κ ι ℝ)} {c' : Cfg ι' κ' ℝ (Matrix κ' ι' ℝ)}
    (hc : SameNewton m k.P c c') (hls : SolvesUnique c.linearSolve) (hls' : SolvesUnique c'.linearSolve)
    (hreg : ∀ y b, ∃! x, (c.jac y).mulVec x = b) (hY : SameSize m c.rtol c.atol c.normY c'.normY)
    (hcauchy : c.cauchy = true → 0 ≤ c.rtol ∧ 0 ≤ c.atol ∧ Absolute c.normY ∧ Absolute c'.normY ∧
      (∀ r, c'.normF (scaledDiff c.rtol c.atol (fun _ => 0) (k.P.mulVec r)) = c.normF (scaledDiff c.rtol c.atol (fun _ => 0) r)) ∧
      (∀ y, (NewtonChord.terminate c y (NewtonChord.init c y)).1 = false) ∧
      ∀ y, (NewtonChord.terminate c' y (NewtonChord.init c' y)).1 = false)
    (hb : c.lower = none ∧ c.upper = none) (hb' : c'.lower = none ∧ c'.upper = none)
    {fin : (ι → ℝ) → Bool} {fin' : (ι' → ℝ) → Bool} (hfin : ∀ y, fin' (m.point y) = fin y)
    (f : (ι → ℝ) → (κ → ℝ) × A) (aux0 : A) (y0 : ι → ℝ) (ms : Option ℕ) (throw : Bool) :
    outcome (iterativeSolve (NewtonChord.solver c') fin' (combined m k.P f) aux0 (m.point y0) ms throw) =
      moved m (outcome (iterativeSolve (NewtonChord.solver c) fin f aux0 y0 ms throw)) :=
  (newton_follows m k hc hls hls' hreg hY hcauchy (fun y => by rw [hb.1, hb.2, hb'.1, hb'.2]; rfl)
    (by rw [hb.1, hb.2, hb'.1, hb'.2]; rfl) f).solve hfin aux0 y0 ms throw

theorem same_point (y : ι → ℝ) : (same : Change ι ι).point y = y := by
  funext i; simp [same, Change.point]

theorem moved_same (o : Option (Except Err ((ι → ℝ) × Result × A × Nat))) : moved same o = o := by
  cases o with
  | none => rfl
  | some r => cases r with
    | error e => rfl
    | ok s => simp only [moved, Option.map_some, Except.map, same_point]

/-- **C79.** With `cauchy_termination=False`, `Newton` and `Chord` do not notice how the equations are scaled or combined: multiplying
the system by any invertible matrix changes nothing, for all tolerances, norms and bounds. -/
theorem C79_newton_equations (k : Change κ κ') {c : Cfg ι κ ℝ (Matrix κ ι ℝ)} {c' : Cfg ι κ' ℝ (Matrix κ' ι ℝ)}
    (hc : SameNewton same k.P c c') (hls : SolvesUnique c.linearSolve) (hls' : SolvesUnique c'.linearSolve)
    (hreg : ∀ y b, ∃! x, (c.jac y).mulVec x = b) (hn : c'.normY = c.normY) (hcauchy : c.cauchy = false)
    (hl : c'.lower = c.lower) (hu : c'.upper = c.upper) (fin : (ι → ℝ) → Bool) (f : (ι → ℝ) → (κ → ℝ) × A) (aux0 : A)
    (y0 : ι → ℝ) (ms : Option ℕ) (throw : Bool) :
    outcome (iterativeSolve (NewtonChord.solver c') fin (fun y => (k.P.mulVec (f y).1, (f y).2)) aux0 y0 ms throw) =
      outcome (iterativeSolve (NewtonChord.solver c) fin f aux0 y0 ms throw) := by
  have hid : (fun y => (same : Change ι ι).point y) = id := funext same_point
  have hfn : combined same k.P f = fun y => (k.P.mulVec (f y).1, (f y).2) := by
    funext y
    have := combined_point (same : Change ι ι) k.P f y
    rwa [same_point] at this
  have hsize : SameSize same c.rtol c.atol c.normY c'.normY := by
    intro y d
    simp only [same_point, hn]
    simp [same]
  have := (newton_follows same k hc hls hls' hreg hsize (fun h => absurd (hcauchy.symm.trans h) (by simp))
    (fun y => by rw [same_point, same_point, hl, hu]) (by rw [hl, hu]) f).solve (allfinite := fin) (allfinite' := fin)
    (fun y => by rw [same_point]) aux0 y0 ms throw
  rw [hfn, same_point] at this
  exact this.trans (moved_same _)

theorem scaling_point (s : ι → ℝ) (hs : ∀ i, 0 < s i) (y : ι → ℝ) : (scaling s hs).point y = fun i => s i * y i := by
  funext i; simp [scaling, Change.point, mulVec_diagonal]

theorem scaling_back (s : ι → ℝ) (hs : ∀ i, 0 < s i) (y : ι → ℝ) : (scaling s hs).back y = fun i => (s i)⁻¹ * y i := by
  funext i; simp [scaling, Change.back, mulVec_diagonal]

/-- With `atol=0` the relative size of an update does not depend on the units. -/
theorem scaling_size (s : ι → ℝ) (hs : ∀ i, 0 < s i) (rtol : ℝ) (n : (ι → ℝ) → ℝ) : SameSize (scaling s hs) rtol 0 n n := by
  intro y d
  rw [scaling_point]
  congr 1
  funext i
  have e : (scaling s hs).P.mulVec d i = s i * d i := by simp [scaling, mulVec_diagonal]
  rw [e, abs_mul, abs_of_pos (hs i), zero_add, zero_add, mul_left_comm, mul_div_mul_left _ _ (hs i).ne']

theorem scaling_clip (s : ι → ℝ) (hs : ∀ i, 0 < s i) (l u : Option (ι → ℝ)) (y : ι → ℝ) :
    clipBounds (l.map (scaling s hs).point) (u.map (scaling s hs).point) ((scaling s hs).point y) =
      (scaling s hs).point (clipBounds l u y) := by
  have hlt : ∀ i (a b : ℝ), s i * a < s i * b ↔ a < b := fun i a b => mul_lt_mul_iff_right₀ (hs i)
  funext i
  cases l with
  | none =>
    cases u with
    | none => rfl
    | some u =>
      simp only [clipBounds, Option.map_none, Option.map_some, scaling_point, hlt]
      split_ifs <;> rfl
  | some l =>
    cases u with
    | none =>
      simp only [clipBounds, Option.map_none, Option.map_some, scaling_point, hlt]
      split_ifs <;> rfl
    | some u =>
      simp only [clipBounds, Option.map_some, scaling_point, hlt]
      by_cases h1 : y i < l i
      · simp only [if_pos h1, hlt]
        split_ifs <;> rfl
      · simp only [if_neg h1, hlt]
        split_ifs <;> rfl

/-- **C79.** With `atol=0` and `cauchy_termination=False`, `Newton` and `Chord` do not notice the units of the unknowns, nor how the
equations are scaled or combined: for all relative tolerances and norms, and all bounds (given in the new units). -/
theorem C79_newton_units (s : ι → ℝ) (hs : ∀ i, 0 < s i) (k : Change κ κ') {c : Cfg ι κ ℝ (Matrix κ ι ℝ)}
    {c' : Cfg ι κ' ℝ (Matrix κ' ι ℝ)} (hc : SameNewton (scaling s hs) k.P c c') (hls : SolvesUnique c.linearSolve)
    (hls' : SolvesUnique c'.linearSolve) (hreg : ∀ y b, ∃! x, (c.jac y).mulVec x = b) (hn : c'.normY = c.normY)
    (ha : c.atol = 0) (hcauchy : c.cauchy = false)
    (hl : c'.lower = c.lower.map fun b i => s i * b i) (hu : c'.upper = c.upper.map fun b i => s i * b i)
    {fin fin' : (ι → ℝ) → Bool} (hfin : ∀ y, fin' (fun i => s i * y i) = fin y)
    (f : (ι → ℝ) → (κ → ℝ) × A) (aux0 : A) (y0 : ι → ℝ) (ms : Option ℕ) (throw : Bool) :
    outcome (iterativeSolve (NewtonChord.solver c') fin'
        (fun x => (k.P.mulVec (f fun i => (s i)⁻¹ * x i).1, (f fun i => (s i)⁻¹ * x i).2)) aux0 (fun i => s i * y0 i) ms throw) =
      moved (scaling s hs) (outcome (iterativeSolve (NewtonChord.solver c) fin f aux0 y0 ms throw)) := by
  have hp : (scaling s hs).point = fun b i => s i * b i := funext (scaling_point s hs)
  have := (newton_follows (scaling s hs) k hc hls hls' hreg (by rw [ha, hn]; exact scaling_size s hs _ _)
    (fun h => absurd (hcauchy.symm.trans h) (by simp))
    (fun y => by rw [hl, hu, ← hp]; exact scaling_clip s hs _ _ y) (by simp [hl, hu]) f).solve
    (allfinite := fin) (allfinite' := fin') (fun y => by rw [scaling_point]; exact hfin y) aux0 y0 ms throw
  rw [scaling_point] at this
  have hfn : combined (scaling s hs) k.P f =
      fun x => (k.P.mulVec (f fun i => (s i)⁻¹ * x i).1, (f fun i => (s i)⁻¹ * x i).2) := by
    funext x; simp only [combined, scaling_back]
  rw [hfn] at this
  exact this

/-! ### Fixed-point iteration -/

/-- **C79** for `FixedPointIteration`, in any affine coordinates. -/
theorem C79_fixed_point (m : Change ι ι') {rtol atol damp : ℝ} {n : (ι → ℝ) → ℝ} {n' : (ι' → ℝ) → ℝ}
    (hY : SameSize m rtol atol n n') {fin : (ι → ℝ) → Bool} {fin' : (ι' → ℝ) → Bool} (hfin : ∀ y, fin' (m.point y) = fin y)
    (f : (ι → ℝ) → (ι → ℝ) × A) (aux0 : A) (y0 : ι → ℝ) (ms : Option ℕ) (throw : Bool) :
    outcome (iterativeSolve (FixedPointIter.solver ⟨rtol, atol, n', damp⟩) fin' (iteration m f) aux0 (m.point y0) ms throw) =
      moved m (outcome (iterativeSolve (FixedPointIter.solver ⟨rtol, atol, n, damp⟩) fin f aux0 y0 ms throw)) :=
  (fixed_point_follows m (c := ⟨rtol, atol, n, damp⟩) (c' := ⟨rtol, atol, n', damp⟩) rfl rfl rfl hY f).solve hfin aux0 y0 ms throw

/-- **C79.** With `atol=0` the outcome of `FixedPointIteration` does not depend on the units of the unknowns. -/
theorem C79_fixed_point_units (s : ι → ℝ) (hs : ∀ i, 0 < s i) (rtol damp : ℝ) (n : (ι → ℝ) → ℝ)
    {fin fin' : (ι → ℝ) → Bool} (hfin : ∀ y, fin' (fun i => s i * y i) = fin y)
    (f : (ι → ℝ) → (ι → ℝ) × A) (aux0 : A) (y0 : ι → ℝ) (ms : Option ℕ) (throw : Bool) :
    outcome (iterativeSolve (FixedPointIter.solver ⟨rtol, 0, n, damp⟩) fin'
        (fun x => (fun i => s i * (f fun j => (s j)⁻¹ * x j).1 i, (f fun j => (s j)⁻¹ * x j).2)) aux0 (fun i => s i * y0 i) ms
        throw) =
      moved (scaling s hs) (outcome (iterativeSolve (FixedPointIter.solver ⟨rtol, 0, n, damp⟩) fin f aux0 y0 ms throw)) := by
  have := C79_fixed_point (scaling s hs) (damp := damp) (scaling_size s hs rtol n)
    (fin := fin) (fin' := fin') (fun y => by rw [scaling_point]; exact hfin y) f aux0 y0 ms throw
  have hfn : iteration (scaling s hs) f =
      fun x => (fun i => s i * (f fun j => (s j)⁻¹ * x j).1 i, (f fun j => (s j)⁻¹ * x j).2) := by
    funext x; simp only [iteration, scaling_back, scaling_point]
  rw [hfn, scaling_point] at this
  exact this

/-- The condition `atol=0` is needed: with `atol=1`, fixed-point iteration for `y ↦ y/2` from `1` succeeds after one step; with the
unknown in units four times smaller it does not. -/
theorem C79_atol_matters :
    let slv : Solver (Unit → ℝ) (Unit → ℝ) Unit (Option ℝ) Unit := FixedPointIter.solver ⟨0, 1, fun v => |v ()|, 0⟩
    (outcome (iterativeSolve slv (fun _ => true) (fun y => (fun i => y i / 2, ())) () (fun _ => 1) (some 1) false)).map
        (fun r => r.map fun s => s.2.1) = some (.ok .successful) ∧
      (outcome (iterativeSolve slv (fun _ => true) (fun y => (fun i => y i / 2, ())) () (fun _ => 4) (some 1) false)).map
        (fun r => r.map fun s => s.2.1) = some (.ok .nonlinearMaxStepsReached) := by
  constructor
  · norm_num [outcome, iterativeSolve, Driver.iterate, package, finalResult, initCarry, Driver.body, Driver.cond,
      terminateAndResult, whileOpt, whileLoop, Except.map, FixedPointIter.solver, FixedPointIter.step,
      FixedPointIter.terminate, HasAbs.abs]
  · norm_num [outcome, iterativeSolve, Driver.iterate, package, finalResult, initCarry, Driver.body, Driver.cond,
      terminateAndResult, whileOpt, whileLoop, Except.map, FixedPointIter.solver, FixedPointIter.step,
      FixedPointIter.terminate, HasAbs.abs]

/-! ### Gauss-Newton -/

/-- **C79** for `GaussNewton`: any affine coordinates `m` of the unknowns, and residuals rotated and measured in another common unit.
The Jacobians have full column rank, and the linear solver solves such least-squares problems. -/
theorem C79_gauss_newton (m : Change ι ι') {M : Matrix κ' κ ℝ} (hM : Conformal M) {rtol atol : ℝ}
    {nY : (ι → ℝ) → ℝ} {nF : (κ → ℝ) → ℝ} {nY' : (ι' → ℝ) → ℝ} {nF' : (κ' → ℝ) → ℝ} (hr : 0 ≤ rtol) (ha : 0 ≤ atol)
    (hY : SameSize m rtol atol nY nY') (hn : Absolute nY) (hn' : Absolute nY') (hF : SameResidualSize M rtol atol nF nF')
    {ls : LinSolve ι κ} {ls' : LinSolve ι' κ'} (hls : Props.SolvesFullRank ls) (hls' : Props.SolvesFullRank ls')
    (j : (ι → ℝ) → Matrix κ ι ℝ) (hj : ∀ y v, (j y).mulVec v = 0 → v = 0)
    {fin : (ι → ℝ) → Bool} {fin' : (ι' → ℝ) → Bool} (hfin : ∀ y, fin' (m.point y) = fin y)
    (f : (ι → ℝ) → (κ → ℝ) × A) (aux0 : A) (y0 : ι → ℝ) (ms : Option ℕ) (throw : Bool) :
    outcome (iterativeSolve (GaussNewton.solver (GaussNewton.gaussNewton rtol atol nY' nF' ls' (jacobian m M j)) aux0) fin'
        (combined m M f) aux0 (m.point y0) ms throw) =
      moved m (outcome (iterativeSolve (GaussNewton.solver (GaussNewton.gaussNewton rtol atol nY nF ls j) aux0) fin f aux0 y0 ms
        throw)) :=
  (gauss_newton_follows m hM hr ha hY hn hn' hF hls hls' j hj f aux0).solve hfin aux0 y0 ms throw

/-- **C79.** With `atol=0` the outcome of `GaussNewton` depends neither on the units of the unknowns nor on the common unit of the
residuals. -/
theorem C79_gauss_newton_units (s : ι → ℝ) (hs : ∀ i, 0 < s i) (a : ℝ) (ha : 0 < a) {rtol : ℝ} (hr : 0 ≤ rtol)
    {nY : (ι → ℝ) → ℝ} (hn : Absolute nY) (nF : (κ → ℝ) → ℝ)
    {ls : LinSolve ι κ} (hls : Props.SolvesFullRank ls)
    (j : (ι → ℝ) → Matrix κ ι ℝ) (hj : ∀ y v, (j y).mulVec v = 0 → v = 0)
    {fin fin' : (ι → ℝ) → Bool} (hfin : ∀ y, fin' (fun i => s i * y i) = fin y)
    (f : (ι → ℝ) → (κ → ℝ) × A) (aux0 : A) (y0 : ι → ℝ) (ms : Option ℕ) (throw : Bool) :
    outcome (iterativeSolve (GaussNewton.solver (GaussNewton.gaussNewton rtol 0 nY nF ls
          fun x => Matrix.of fun r i => a * j (fun i => (s i)⁻¹ * x i) r i * (s i)⁻¹) aux0) fin'
        (fun x => (fun r => a * (f fun i => (s i)⁻¹ * x i).1 r, (f fun i => (s i)⁻¹ * x i).2)) aux0 (fun i => s i * y0 i) ms throw) =
      moved (scaling s hs) (outcome (iterativeSolve (GaussNewton.solver (GaussNewton.gaussNewton rtol 0 nY nF ls j) aux0) fin f
        aux0 y0 ms throw)) := by
  have hM : Conformal (a • (1 : Matrix κ κ ℝ)) := ⟨a * a, by positivity, by simp [smul_smul]⟩
  have hF : SameResidualSize (a • (1 : Matrix κ κ ℝ)) rtol 0 nF nF := by
    intro r d
    congr 1
    funext i
    simp only [scaledDiff, smul_mulVec, one_mulVec, Pi.smul_apply, smul_eq_mul]
    show |a * d i| / (0 + rtol * |a * r i|) = |d i| / (0 + rtol * |r i|)
    rw [abs_mul, abs_mul, abs_of_pos ha, zero_add, zero_add, mul_left_comm, mul_div_mul_left _ _ ha.ne']
  have := C79_gauss_newton (scaling s hs) hM hr le_rfl (scaling_size s hs rtol nY) hn hn hF hls hls j hj
    (fin := fin) (fin' := fin') (fun y => by rw [scaling_point]; exact hfin y) f aux0 y0 ms throw
  have hfn : combined (scaling s hs) (a • (1 : Matrix κ κ ℝ)) f =
      fun x => (fun r => a * (f fun i => (s i)⁻¹ * x i).1 r, (f fun i => (s i)⁻¹ * x i).2) := by
    funext x; simp only [combined, scaling_back, smul_mulVec, one_mulVec]; rfl
  have hjn : jacobian (scaling s hs) (a • (1 : Matrix κ κ ℝ)) j =
      fun x => Matrix.of fun r i => a * j (fun i => (s i)⁻¹ * x i) r i * (s i)⁻¹ := by
    funext x
    ext r i
    simp only [jacobian, scaling_back, Matrix.of_apply]
    simp [scaling, mul_diagonal]
  rw [hfn, hjn, scaling_point] at this
  exact this

/-! ### The hypotheses -/

/-- **C79.** `jacobian` is the Jacobian of the combined functions in the new coordinates. -/
theorem C79_jacobian (m : Change ι ι') (M : Matrix κ' κ ℝ) (f : (ι → ℝ) → (κ → ℝ) × A) (j : (ι → ℝ) → Matrix κ ι ℝ)
    (h : ∀ y, HasFDerivAt (fun y => (f y).1) (LinearMap.toContinuousLinearMap (j y).mulVecLin) y) (x : ι' → ℝ) :
    HasFDerivAt (fun x => (combined m M f x).1) (LinearMap.toContinuousLinearMap (jacobian m M j x).mulVecLin) x := by
  have hb : HasFDerivAt m.back (LinearMap.toContinuousLinearMap m.inv.mulVecLin) x := by
    have h1 : HasFDerivAt (fun x : ι' → ℝ => fun i => x i - m.shift i) (ContinuousLinearMap.id ℝ (ι' → ℝ)) x :=
      (hasFDerivAt_id x).sub_const m.shift
    have h2 := (LinearMap.toContinuousLinearMap m.inv.mulVecLin).hasFDerivAt (x := fun i => x i - m.shift i)
    exact h2.comp x h1
  have hk := (LinearMap.toContinuousLinearMap M.mulVecLin).hasFDerivAt (x := (f (m.back x)).1)
  have hc := hk.comp x ((h (m.back x)).comp x hb)
  rw [show LinearMap.toContinuousLinearMap (jacobian m M j x).mulVecLin = _ from ?_]
  · exact hc
  ext v a
  simp [jacobian, Matrix.mulVec_mulVec, Matrix.mul_assoc]

theorem unique_solver_exists : ∃ ls : Matrix κ ι ℝ → (κ → ℝ) → (ι → ℝ) × Result, SolvesUnique ls := by
  classical
  refine ⟨fun M b => (if h : ∃ x, M.mulVec x = b then h.choose else 0, .successful), ?_⟩
  intro M b h
  have hx : ∃ x, M.mulVec x = b := h.exists
  refine ⟨?_, rfl⟩
  simp only [dif_pos hx]
  exact hx.choose_spec

theorem goodNorm_absolute {n : (ι → ℝ) → ℝ} (h : GoodNorm n) : Absolute n :=
  fun v => le_antisymm (h.mono _ _ fun i => by simp) (h.mono _ _ fun i => by simp)

/-! ### Instances -/

/-- The equations `y₁³ + y₁ = 3`, `y₂³ + y₂ = 1` and their Jacobian. -/
noncomputable def cubic (y : Fin 2 → ℝ) : (Fin 2 → ℝ) × Unit := (fun i => y i ^ 3 + y i - ![3, 1] i, ())

/-- See `cubic`. -/
noncomputable def cubicJac (y : Fin 2 → ℝ) : Matrix (Fin 2) (Fin 2) ℝ := diagonal fun i => 3 * y i ^ 2 + 1

theorem cubic_regular (y b : Fin 2 → ℝ) : ∃! x, (cubicJac y).mulVec x = b := by
  have h : ∀ i, (3 * y i ^ 2 + 1 : ℝ) ≠ 0 := fun i => by positivity
  refine ⟨fun i => b i / (3 * y i ^ 2 + 1), ?_, ?_⟩
  · funext i
    simp only [cubicJac, mulVec_diagonal]
    exact mul_div_cancel₀ _ (h i)
  · intro x hx
    funext i
    rw [← hx]
    simp only [cubicJac, mulVec_diagonal]
    exact (mul_div_cancel_left₀ _ (h i)).symm

/-- Replace the second equation by the sum of both. -/
noncomputable def addUp : Change (Fin 2) (Fin 2) where
  P := !![1, 0; 1, 1]
  inv := !![1, 0; -1, 1]
  left := by ext i j; fin_cases i <;> fin_cases j <;> simp [Matrix.mul_apply, Fin.sum_univ_two]
  right := by ext i j; fin_cases i <;> fin_cases j <;> simp [Matrix.mul_apply, Fin.sum_univ_two]
  shift := 0

/-- `C79_newton_units` applies to `Newton` and `Chord` on `cubic`, with the first unknown in other units, the equations combined, a
lower bound and `rtol=1e-3`. -/
example (newton : Bool) (y0 : Fin 2 → ℝ) (ms : Option ℕ) : ∃ ls : Matrix (Fin 2) (Fin 2) ℝ → (Fin 2 → ℝ) → (Fin 2 → ℝ) × Result,
    ∃ hs : ∀ i, 0 < (![1000, 1] : Fin 2 → ℝ) i,
    let c : Cfg (Fin 2) (Fin 2) ℝ (Matrix (Fin 2) (Fin 2) ℝ) :=
      ⟨1 / 1000, 0, maxNorm, maxNorm, 1 / 100, false, newton, some fun _ => 0, none, cubicJac, ls, 10 ^ 300, fun _ => true, 1 / 10 ^ 13⟩
    let c' := { c with lower := some fun i => ![1000, 1] i * 0, jac := jacobian (scaling ![1000, 1] hs) addUp.P cubicJac }
    outcome (iterativeSolve (NewtonChord.solver c') (fun _ => true)
        (fun x => (addUp.P.mulVec (cubic fun i => (![1000, 1] i)⁻¹ * x i).1, ())) () (fun i => ![1000, 1] i * y0 i) ms false) =
      moved (scaling ![1000, 1] hs) (outcome (iterativeSolve (NewtonChord.solver c) (fun _ => true) cubic () y0 ms false)) := by
  obtain ⟨ls, hls⟩ := unique_solver_exists (ι := Fin 2) (κ := Fin 2)
  have hs : ∀ i, 0 < (![1000, 1] : Fin 2 → ℝ) i := by intro i; fin_cases i <;> simp
  refine ⟨ls, hs, ?_⟩
  intro c c'
  exact C79_newton_units (c := c) (c' := c') ![1000, 1] hs addUp ⟨rfl, rfl, rfl, rfl, rfl, rfl, rfl, rfl, rfl⟩ hls hls cubic_regular
    rfl rfl rfl rfl rfl (fun _ => rfl) cubic () y0 ms false

/-- `C79_gauss_newton_units` applies to `GaussNewton` on `cubic`. -/
example (y0 : Fin 2 → ℝ) (ms : Option ℕ) : ∃ ls : LinSolve (Fin 2) (Fin 2),
    ∃ hs : ∀ i, 0 < (![1000, 1] : Fin 2 → ℝ) i,
    outcome (iterativeSolve (GaussNewton.solver (GaussNewton.gaussNewton (1 / 1000) 0 maxNorm maxNorm ls
          fun x => Matrix.of fun r i => 7 * cubicJac (fun i => (![1000, 1] i)⁻¹ * x i) r i * (![1000, 1] i)⁻¹) ()) (fun _ => true)
        (fun x => (fun r => 7 * (cubic fun i => (![1000, 1] i)⁻¹ * x i).1 r, ())) () (fun i => ![1000, 1] i * y0 i) ms false) =
      moved (scaling ![1000, 1] hs) (outcome (iterativeSolve (GaussNewton.solver
        (GaussNewton.gaussNewton (1 / 1000) 0 maxNorm maxNorm ls cubicJac) ()) (fun _ => true) cubic () y0 ms false)) := by
  obtain ⟨ls, hls⟩ := Props.full_rank_solver_exists (ι := Fin 2) (κ := Fin 2)
  have hs : ∀ i, 0 < (![1000, 1] : Fin 2 → ℝ) i := by intro i; fin_cases i <;> simp
  refine ⟨ls, hs, C79_gauss_newton_units ![1000, 1] hs 7 (by norm_num) (by norm_num) (goodNorm_absolute goodNorm_maxNorm) _ hls cubicJac
    ?_ (fun _ => rfl) cubic () y0 ms false⟩
  intro y v hv
  exact (cubic_regular y 0).unique hv (mulVec_zero _)

end Verif.Units
