import Verif.Props.NewtonChord
import Verif.Props.FixedPoint
import Verif.Props.Visited
import Mathlib.Analysis.Calculus.FDeriv.Add
import Mathlib.Analysis.Calculus.FDeriv.Mul
import Mathlib.Analysis.Convex.Basic
import Mathlib.Analysis.Normed.Module.FiniteDimension

/-!
Property C145: `Newton` and `Chord` satisfy linear equations of the system exactly after one step, and `FixedPointIteration` stays in convex sets
that the function maps into themselves.
-/

namespace Verif.Props
open Verif Verif.Spec Verif.Driver Matrix

variable {ι κ A : Type}

section newton
open Verif.NewtonChord

/-- The true Jacobian of residuals a combination `w` of which is affine has the same combination of its rows everywhere. -/
theorem affine_rows [Fintype ι] [Fintype κ] (F : (ι → ℝ) → κ → ℝ) (jac : (ι → ℝ) → Matrix κ ι ℝ)
    (hD : ∀ y, HasFDerivAt F (LinearMap.toContinuousLinearMap (jac y).mulVecLin) y) (w : κ → ℝ) (a : ι → ℝ) (b : ℝ)
    (haff : ∀ y, ∑ m, w m * F y m = (∑ i, a i * y i) + b) (y v : ι → ℝ) :
    ∑ m, w m * (jac y).mulVec v m = ∑ i, a i * v i := by
  have h1 : HasFDerivAt (fun y => ∑ m, w m * F y m)
      (∑ m, w m • (ContinuousLinearMap.proj m).comp (LinearMap.toContinuousLinearMap (jac y).mulVecLin)) y := by
    refine HasFDerivAt.fun_sum fun m _ => ?_
    exact ((hasFDerivAt_pi'.1 (hD y)) m).const_mul (w m)
  have h2 : HasFDerivAt (fun y : ι → ℝ => (∑ i, a i * y i) + b) (∑ i, a i • ContinuousLinearMap.proj (R := ℝ) (φ := fun _ : ι => ℝ) i) y := by
    refine HasFDerivAt.add_const _ (HasFDerivAt.fun_sum fun i _ => ?_)
    exact (hasFDerivAt_apply i y).const_mul (a i)
  rw [show (fun y => ∑ m, w m * F y m) = fun y => (∑ i, a i * y i) + b from funext haff] at h1
  have h3 := congrArg (fun L => L v) (h1.unique h2)
  simpa [_root_.sum_apply] using h3

variable [Fintype ι] [Fintype κ]

/-- One exact step of `Newton` or `Chord` makes every affine combination of the residuals vanish. -/
theorem affine_step (cfg : Cfg ι κ ℝ (Matrix κ ι ℝ)) (fn : (ι → ℝ) → (κ → ℝ) × A) (aux0 : A) (y0 : ι → ℝ)
    (hb : cfg.lower = none ∧ cfg.upper = none) (hD : ∀ y, HasFDerivAt (fun y => (fn y).1) (LinearMap.toContinuousLinearMap (cfg.jac y).mulVecLin) y)
    (hls : ∀ M b, (cfg.linearSolve M b).2 = .successful → M.mulVec (cfg.linearSolve M b).1 = b)
    (w : κ → ℝ) (a : ι → ℝ) (b : ℝ) (haff : ∀ y, ∑ m, w m * (fn y).1 m = (∑ i, a i * y i) + b) (k : ℕ)
    (hk : (stateAt (solver cfg) fn aux0 y0 (init cfg y0) (k + 1)).result = .successful) :
    ∑ m, w m * (fn (iterateAt (solver cfg) fn aux0 y0 (init cfg y0) (k + 1))).1 m = 0 := by
  set Y := iterateAt (solver cfg) fn aux0 y0 (init cfg y0) with hY
  have hstate : ∀ j, (stateAt (solver cfg) fn aux0 y0 (init cfg y0) j).linearState =
      if cfg.isNewton then none else some (cfg.jac y0) := by
    intro j
    induction j with
    | zero => rfl
    | succ j ih => exact ih
  have hres : (cfg.linearSolve (if cfg.isNewton then cfg.jac (Y k) else cfg.jac y0) (fn (Y k)).1).2 = .successful := by
    have h1 : (linSol cfg (Y k) (fn (Y k)).1 (stateAt (solver cfg) fn aux0 y0 (init cfg y0) k)).2 = .successful := hk
    unfold linSol at h1
    rw [hstate k] at h1
    cases hN : cfg.isNewton <;> simp_all
  have h := C23_step_solves_linearisation cfg fn aux0 y0 hb k (hls _ _ hres)
  have hrow : ∀ v, ∑ m, w m * (if cfg.isNewton then cfg.jac (Y k) else cfg.jac y0).mulVec v m = ∑ i, a i * v i := fun v => by
    split_ifs
    · exact affine_rows _ cfg.jac hD w a b haff (Y k) v
    · exact affine_rows _ cfg.jac hD w a b haff y0 v
  have h2 : ∑ m, w m * (fn (Y k)).1 m + ∑ i, a i * (Y (k + 1) - Y k) i = 0 := by
    rw [← hrow, ← Finset.sum_add_distrib]
    refine Finset.sum_eq_zero fun m _ => ?_
    rw [← mul_add]
    exact mul_eq_zero_of_right _ (congrFun h m)
  rw [haff] at h2 ⊢
  simp only [Pi.sub_apply, mul_sub, Finset.sum_sub_distrib] at h2
  linarith

/-- **C145**, `Newton` and `Chord` without bounds.  If a combination of the equations is affine (in particular, if one of the equations is), then all
iterates from the first step on satisfy it exactly, whatever the other equations and the starting point; the answer of a successful solve that took a
step does too, and so does every other answer the last linear solve of which succeeded (the step budget ran out, say). The linear solver is assumed to be exact when it reports success. -/
theorem C145_linear_equations (cfg : Cfg ι κ ℝ (Matrix κ ι ℝ)) (fn : (ι → ℝ) → (κ → ℝ) × A) (aux0 : A) (y0 : ι → ℝ)
    (hb : cfg.lower = none ∧ cfg.upper = none) (hD : ∀ y, HasFDerivAt (fun y => (fn y).1) (LinearMap.toContinuousLinearMap (cfg.jac y).mulVecLin) y)
    (hls : ∀ M b, (cfg.linearSolve M b).2 = .successful → M.mulVec (cfg.linearSolve M b).1 = b)
    (w : κ → ℝ) (a : ι → ℝ) (b : ℝ) (haff : ∀ y, ∑ m, w m * (fn y).1 m = (∑ i, a i * y i) + b)
    (af : (ι → ℝ) → Bool) (ms : Option ℕ) (throw : Bool) (sol)
    (h : iterativeSolve (solver cfg) af fn aux0 y0 ms throw = some (.ok sol)) :
    (∀ k, 1 ≤ k → k < sol.numSteps → ∑ m, w m * (fn (iterateAt (solver cfg) fn aux0 y0 (init cfg y0) k)).1 m = 0) ∧
    (sol.result = .successful ∨ sol.state.result = .successful → 1 ≤ sol.numSteps → ∑ m, w m * (fn sol.value).1 m = 0) := by
  obtain ⟨st0, hi, hcont, -, hst, -, hp, hr⟩ := solve_spec _ _ _ _ _ _ _ _ h
  obtain rfl : init cfg y0 = st0 := Except.ok.inj hi
  have hgood : ∀ y st, (terminate cfg y st).2 = .successful → st.result = .successful := by
    intro y st hv
    by_contra hne
    simp only [terminate, ne_eq, hne, not_false_eq_true, decide_true, if_true] at hv
  have hstep : ∀ k, 1 ≤ k → (stateAt (solver cfg) fn aux0 y0 (init cfg y0) k).result = .successful →
      ∑ m, w m * (fn (iterateAt (solver cfg) fn aux0 y0 (init cfg y0) k)).1 m = 0 := by
    intro k hk
    obtain ⟨k, rfl⟩ := Nat.exists_eq_add_of_le' hk
    exact affine_step cfg fn aux0 y0 hb hD hls w a b haff k
  refine ⟨fun k hk1 hk => hstep k hk1 (hgood _ _ (congrArg Prod.snd (hcont k hk).2)), fun hres hn => ?_⟩
  have hv : sol.value = iterateAt (solver cfg) fn aux0 y0 (init cfg y0) sol.numSteps := congrArg Prod.fst hp
  rw [hv]
  refine hstep _ hn ?_
  rcases hres with hres | hres
  · rw [hres] at hr
    split_ifs at hr with h1 h2
    exact hgood _ _ hr.symm
  · rw [← hst]; exact hres

end newton

/-! ### Invariant convex sets -/

/-- **C145**, `FixedPointIteration`.  If the function maps a convex set into itself, then from a starting point in the set all iterates and the answer,
whatever its result, are in the set; and the outcome does not depend on what the function does, or whether it is defined, outside the set. -/
theorem C145_invariant_set (cfg : FixedPointIter.Cfg ι ℝ) (hd0 : 0 ≤ cfg.damp) (hd1 : cfg.damp ≤ 1) (fn : (ι → ℝ) → (ι → ℝ) × A)
    (K : Set (ι → ℝ)) (hK : Convex ℝ K) (hfn : ∀ y ∈ K, (fn y).1 ∈ K) (aux0 : A) (y0 : ι → ℝ) (hy0 : y0 ∈ K)
    (af : (ι → ℝ) → Bool) (ms : Option ℕ) (throw : Bool) (sol)
    (h : iterativeSolve (FixedPointIter.solver cfg) af fn aux0 y0 ms throw = some (.ok sol)) :
    (∀ k, iterateAt (FixedPointIter.solver cfg) fn aux0 y0 none k ∈ K) ∧ sol.value ∈ K ∧
    ∀ fn' : (ι → ℝ) → (ι → ℝ) × A, (∀ y ∈ K, fn' y = fn y) →
      iterativeSolve (FixedPointIter.solver cfg) af fn' aux0 y0 ms throw = some (.ok sol) := by
  have hk : ∀ k, iterateAt (FixedPointIter.solver cfg) fn aux0 y0 none k ∈ K := by
    intro k
    rw [fp_iterate_eq]
    induction k with
    | zero => exact hy0
    | succ k ih =>
      rw [Function.iterate_succ_apply']
      exact hK (hfn _ ih) ih (by linarith) hd0 (by ring)
  obtain ⟨st0, hi, -, -, -, -, hp, -⟩ := solve_spec _ _ _ _ _ _ _ _ h
  obtain rfl : none = st0 := Except.ok.inj hi
  have hv : sol.value = iterateAt (FixedPointIter.solver cfg) fn aux0 y0 none sol.numSteps := congrArg Prod.fst hp
  refine ⟨hk, hv ▸ hk _, fun fn' hf => ?_⟩
  refine same_solution (S := FixedPointIter.solver cfg) (S' := FixedPointIter.solver cfg) (fn := fn) (fn' := fn') rfl rfl rfl h hi fun k _ => ?_
  simp only [FixedPointIter.solver, FixedPointIter.step]
  have := hf _ (hk k)
  simp only [FixedPointIter.solver] at this
  rw [this]

/-! ### The hypotheses are met -/

/-- Intersecting the circle `x² + y² = 1` with the line `x + y = 1`: the second equation is affine. -/
example (cfg : NewtonChord.Cfg (Fin 2) (Fin 2) ℝ (Matrix (Fin 2) (Fin 2) ℝ)) (hb : cfg.lower = none ∧ cfg.upper = none)
    (hj : cfg.jac = fun y => !![2 * y 0, 2 * y 1; 1, 1])
    (hls : ∀ M b, (cfg.linearSolve M b).2 = .successful → M.mulVec (cfg.linearSolve M b).1 = b) (y0 : Fin 2 → ℝ) (sol)
    (h : iterativeSolve (NewtonChord.solver cfg) (fun _ => true) (fun y => (![y 0 ^ 2 + y 1 ^ 2 - 1, y 0 + y 1 - 1], ())) () y0 (some 256) false =
      some (.ok sol)) (hn : 1 ≤ sol.numSteps) (hr : sol.result = .successful) : sol.value 0 + sol.value 1 = 1 := by
  have := (C145_linear_equations cfg (fun y => (![y 0 ^ 2 + y 1 ^ 2 - 1, y 0 + y 1 - 1], ())) () y0 hb (fun y => by
      rw [hj]
      refine hasFDerivAt_pi'.2 fun m => ?_
      have h0 : HasFDerivAt (fun y : Fin 2 → ℝ => y 0) (ContinuousLinearMap.proj (R := ℝ) (φ := fun _ : Fin 2 => ℝ) 0) y := hasFDerivAt_apply (𝕜 := ℝ) (0 : Fin 2) y
      have h1 : HasFDerivAt (fun y : Fin 2 → ℝ => y 1) (ContinuousLinearMap.proj (R := ℝ) (φ := fun _ : Fin 2 => ℝ) 1) y := hasFDerivAt_apply (𝕜 := ℝ) (1 : Fin 2) y
      fin_cases m
      · refine (((h0.pow 2).add (h1.pow 2)).sub_const 1).congr_fderiv ?_
        ext v
        simp [dotProduct, Fin.sum_univ_two]
      · refine ((h0.add h1).sub_const 1).congr_fderiv ?_
        ext v
        simp [dotProduct, Fin.sum_univ_two]) hls ![0, 1] ![1, 1] (-1)
    (fun y => by simp [Fin.sum_univ_two]; ring) _ _ _ sol h).2 (.inl hr) hn
  simp [Fin.sum_univ_two] at this
  linarith

/-- A linear solver that is exact whenever it reports success: Cramer's rule. -/
example : ∃ ls : Matrix (Fin 2) (Fin 2) ℝ → (Fin 2 → ℝ) → (Fin 2 → ℝ) × Result,
    (∀ M b, (ls M b).2 = .successful → M.mulVec (ls M b).1 = b) ∧ ∀ M b, IsUnit M.det → (ls M b).2 = .successful := by
  classical
  refine ⟨fun M b => (M⁻¹.mulVec b, if IsUnit M.det then .successful else .linear 0), fun M b h => ?_, fun M b h => if_pos h⟩
  by_cases hu : IsUnit M.det
  · rw [Matrix.mulVec_mulVec, Matrix.mul_nonsing_inv M hu, Matrix.one_mulVec]
  · dsimp only at h
    rw [if_neg hu] at h
    cases h

/-- Probability vectors are mapped to probability vectors by the matrix of a Markov chain: the answer is a probability vector. -/
example (P : Matrix (Fin 3) (Fin 3) ℝ) (hP : ∀ i j, 0 ≤ P i j) (hcol : ∀ j, ∑ i, P i j = 1) (y0 : Fin 3 → ℝ) (h0 : ∀ i, 0 ≤ y0 i)
    (h1 : ∑ i, y0 i = 1) (sol) (h : iterativeSolve (FixedPointIter.solver ⟨0, 1/100, maxNorm, 1/2⟩) (fun _ => true)
      (fun y => (P.mulVec y, ())) () y0 (some 256) false = some (.ok sol)) : (∀ i, 0 ≤ sol.value i) ∧ ∑ i, sol.value i = 1 := by
  refine (C145_invariant_set ⟨0, 1/100, maxNorm, 1/2⟩ (by norm_num) (by norm_num) (fun y => (P.mulVec y, ()))
    {y | (∀ i, 0 ≤ y i) ∧ ∑ i, y i = 1} ?_ ?_ () y0 ⟨h0, h1⟩ _ _ _ sol h).2.1
  · rintro x ⟨hx0, hx1⟩ y ⟨hy0, hy1⟩ s t hs ht hst
    refine ⟨fun i => add_nonneg (mul_nonneg hs (hx0 i)) (mul_nonneg ht (hy0 i)), ?_⟩
    simp only [Pi.add_apply, Pi.smul_apply, smul_eq_mul, Finset.sum_add_distrib, ← Finset.mul_sum, hx1, hy1]
    linarith
  · rintro y ⟨hy0, hy1⟩
    refine ⟨fun i => by
      show 0 ≤ ∑ j, P i j * y j
      exact Finset.sum_nonneg fun j _ => mul_nonneg (hP i j) (hy0 j), ?_⟩
    simp only [Matrix.mulVec, dotProduct]
    rw [Finset.sum_comm]
    simp only [← Finset.sum_mul, hcol, one_mul]
    exact hy1

end Verif.Props
