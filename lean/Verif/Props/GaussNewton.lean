import Verif.Props.QuasiNewton
import Verif.Lemmas.LeastSquares

/-! Properties C43 (`GaussNewton` on affine residuals) and C59 (failures of linear solves are reported). -/

namespace Verif.Props

open Verif Verif.Spec Verif.Driver Verif.SearchLoop Verif.Rank

variable {ι κ A SS HS : Type} [Fintype ι] [Fintype κ]

/-! ### C43 -/

/-- One step of textbook Gauss-Newton: subtract a solution of the linear least-squares problem `J d ≈ r`. -/
def gnMap (ls : LinSolve ι κ) (jac : (ι → ℝ) → Matrix κ ι ℝ) (res : (ι → ℝ) → κ → ℝ) (y : ι → ℝ) : ι → ℝ :=
  fun i => y i - (ls.rect (jac y) (res y)).1 i

section
variable (rtol atol : ℝ) (nY : (ι → ℝ) → ℝ) (nF : (κ → ℝ) → ℝ) (ls : LinSolve ι κ) (jac : (ι → ℝ) → Matrix κ ι ℝ)
  (aux0 : A) (fn : (ι → ℝ) → (κ → ℝ) × A) (y0 : ι → ℝ)

/-- The solver under study: `least_squares` with `GaussNewton(rtol, atol, norm, linear_solver)`. -/
noncomputable abbrev gnSolver : Solver (ι → ℝ) (κ → ℝ) A (GaussNewton.State ι κ A Unit ((ι → ℝ) × Result)) Unit :=
  GaussNewton.solver (GaussNewton.gaussNewton rtol atol nY nF ls jac) aux0

omit [Fintype κ] in
theorem gn_state (st0 : GaussNewton.State ι κ A Unit ((ι → ℝ) × Result))
    (hi : (gnSolver rtol atol nY nF ls jac aux0).init fn y0 = .ok st0) (k : Nat) :
    let N := gnMap ls jac fun y => (fn y).1
    let Y := iterateAt (gnSolver rtol atol nY nF ls jac aux0) fn aux0 y0 st0
    let St := stateAt (gnSolver rtol atol nY nF ls jac aux0) fn aux0 y0 st0
    Y (k + 1) = N^[k] y0 ∧ (St (k + 1)).yEval = N^[k + 1] y0 ∧ (St (k + 1)).residual = (fn (N^[k] y0)).1 ∧
    (St (k + 1)).result = (ls.rect (jac (N^[k] y0)) (fn (N^[k] y0)).1).2 := by
  intro N Y St
  have hstep : ∀ y (z : ι → ℝ) st, st.yEval = z →
      (GaussNewton.step (GaussNewton.gaussNewton rtol atol nY nF ls jac) fn y st).1 = z ∧
      (GaussNewton.step (GaussNewton.gaussNewton rtol atol nY nF ls jac) fn y st).2.1.yEval = N z ∧
      (GaussNewton.step (GaussNewton.gaussNewton rtol atol nY nF ls jac) fn y st).2.1.residual = (fn z).1 ∧
      (GaussNewton.step (GaussNewton.gaussNewton rtol atol nY nF ls jac) fn y st).2.1.result =
        (ls.rect (jac z) (fn z).1).2 := by
    rintro y z st rfl
    refine ⟨rfl, ?_, rfl, rfl⟩
    funext i
    show st.yEval i + -1 * (ls.rect (jac st.yEval) (fn st.yEval).1).1 i = N st.yEval i
    simp only [N, gnMap]; ring
  induction k with
  | zero =>
    have h0 : st0.yEval = y0 := by
      simp only [GaussNewton.solver, GaussNewton.init] at hi
      split at hi
      · cases hi
      · cases hi; rfl
    exact hstep y0 y0 st0 h0
  | succ k ih =>
    rw [Function.iterate_succ_apply' _ (k + 1)]
    exact hstep _ _ _ ih.2.1

omit [Fintype κ] in
/-- **C43.** `GaussNewton` follows the textbook recursion `y ← y - lstsq(J(y), r(y))` (after a first step that only
evaluates at `y0`), for all residual functions. -/
theorem C43_recursion (st0 : GaussNewton.State ι κ A Unit ((ι → ℝ) × Result))
    (hi : (gnSolver rtol atol nY nF ls jac aux0).init fn y0 = .ok st0) :
    let Y := iterateAt (gnSolver rtol atol nY nF ls jac aux0) fn aux0 y0 st0
    Y 0 = y0 ∧ Y 1 = y0 ∧ ∀ k i, Y (k + 2) i = Y (k + 1) i - (ls.rect (jac (Y (k + 1))) (fn (Y (k + 1))).1).1 i := by
  intro Y
  refine ⟨rfl, (gn_state rtol atol nY nF ls jac aux0 fn y0 st0 hi 0).1, fun k i => ?_⟩
  have h1 := (gn_state rtol atol nY nF ls jac aux0 fn y0 st0 hi k).1
  have h2 := (gn_state rtol atol nY nF ls jac aux0 fn y0 st0 hi (k + 1)).1
  show iterateAt _ fn aux0 y0 st0 (k + 1 + 1) i = _
  rw [h2, Function.iterate_succ_apply']
  show gnMap ls jac (fun y => (fn y).1) _ i = _
  simp only [gnMap, Y]
  rw [h1]

end

section
variable (rtol atol : ℝ) (nY : (ι → ℝ) → ℝ) (nF : (κ → ℝ) → ℝ) (ls : LinSolve ι κ) (M : Matrix κ ι ℝ) (b : κ → ℝ)
  (aux0 : A) (aux : (ι → ℝ) → A) (y0 : ι → ℝ)

/-- **C43.** Affine residuals `r(y) = M y + b`, a linear solver that returns a least-squares solution of `M d ≈ r`: from
the second step on (the first only evaluates at `y0`) every iterate of `GaussNewton` is a global minimiser of
`Σ r(y)²` - any shape, any rank of `M`. -/
theorem C43_affine_one_step (hls : ∀ r, IsLeastSquares M r (ls.rect M r).1)
    (st0 : GaussNewton.State ι κ A Unit ((ι → ℝ) × Result))
    (hi : (gnSolver rtol atol nY nF ls (fun _ => M) aux0).init (fun y => (fun j => M.mulVec y j + b j, aux y)) y0 =
      .ok st0) (k : Nat) (z : ι → ℝ) :
    let Y := iterateAt (gnSolver rtol atol nY nF ls (fun _ => M) aux0)
      (fun y => (fun j => M.mulVec y j + b j, aux y)) aux0 y0 st0
    ∑ j, (M.mulVec (Y (k + 2)) j + b j) ^ 2 ≤ ∑ j, (M.mulVec z j + b j) ^ 2 := by
  intro Y
  have h := (C43_recursion rtol atol nY nF ls (fun _ => M) aux0 (fun y => (fun j => M.mulVec y j + b j, aux y)) y0 st0
    hi).2.2 k
  have h' : Y (k + 2) = fun i => Y (k + 1) i - (ls.rect M (fun j => M.mulVec (Y (k + 1)) j + b j)).1 i := funext h
  rw [h']
  exact least_squares_step M b _ _ (hls _) z

/-- **C43.** The whole solve: if moreover linear solves report success and either `M` is injective or the solver returns
least-squares solutions of minimal norm, then `least_squares(GaussNewton)` returns successfully after at most three steps
(unless the budget is smaller), and the value returned is a global minimiser if at least two steps were made.  (Fewer are
made only if the tolerances already hold at the first comparison.) -/
theorem C43_affine_solve (hr : 0 ≤ rtol) (ha : 0 < atol)
    (hnY : nY (fun _ => 0) < 1) (hnF : nF (fun _ => 0) < 1)
    (hls : ∀ r, IsLeastSquares M r (ls.rect M r).1) (hok : ∀ r, (ls.rect M r).2 = .successful)
    (hu : (∀ x, M.mulVec x = 0 → x = 0) ∨
      ∀ r d', IsLeastSquares M r d' → ∑ i, (ls.rect M r).1 i ^ 2 ≤ ∑ i, d' i ^ 2)
    (ms : Option Nat) (hms : ∀ n, ms = some n → 3 ≤ n) (throw : Bool) :
    ∃ sol, iterativeSolve (gnSolver rtol atol nY nF ls (fun _ => M) aux0) (fun _ => true)
        (fun y => (fun j => M.mulVec y j + b j, aux y)) aux0 y0 ms throw = some (.ok sol) ∧
      sol.result = .successful ∧ sol.numSteps ≤ 3 ∧
      (2 ≤ sol.numSteps → ∀ z, ∑ j, (M.mulVec sol.value j + b j) ^ 2 ≤ ∑ j, (M.mulVec z j + b j) ^ 2) := by
  set fn : (ι → ℝ) → (κ → ℝ) × A := fun y => (fun j => M.mulVec y j + b j, aux y) with hfn
  set S := gnSolver rtol atol nY nF ls (fun _ => M) aux0 with hS
  obtain ⟨st0, hi⟩ : ∃ st0, S.init fn y0 = .ok st0 := ⟨_, rfl⟩
  have hgs := gn_state rtol atol nY nF ls (fun _ => M) aux0 fn y0 st0 hi
  -- the third iterate equals the second
  have hrec := (C43_recursion rtol atol nY nF ls (fun _ => M) aux0 fn y0 st0 hi).2.2
  have hmin := fun k z => C43_affine_one_step rtol atol nY nF ls M b aux0 aux y0 hls st0 hi k z
  have h32 : iterateAt S fn aux0 y0 st0 3 = iterateAt S fn aux0 y0 st0 2 := by
    set y2 := iterateAt S fn aux0 y0 st0 2 with hy2
    have e : iterateAt S fn aux0 y0 st0 3 = fun i => y2 i - (ls.rect M (fun j => M.mulVec y2 j + b j)).1 i :=
      funext (hrec 1)
    have hz : IsLeastSquares M (fun j => M.mulVec y2 j + b j) (fun _ => 0) := by
      intro d'
      have := hmin 0 fun i => y2 i - d' i
      have hsub : ∀ j, M.mulVec (fun i => y2 i - d' i) j = M.mulVec y2 j - M.mulVec d' j := by
        intro j; exact congrFun (Matrix.mulVec_sub M y2 d') j
      have hzero : ∀ j, M.mulVec (fun _ => (0 : ℝ)) j = 0 := fun j => congrFun (Matrix.mulVec_zero M) j
      calc ∑ j, (M.mulVec (fun _ => (0:ℝ)) j - (M.mulVec y2 j + b j)) ^ 2 = ∑ j, (M.mulVec y2 j + b j) ^ 2 :=
            Finset.sum_congr rfl fun j _ => by rw [hzero]; ring
        _ ≤ ∑ j, (M.mulVec (fun i => y2 i - d' i) j + b j) ^ 2 := this
        _ = ∑ j, (M.mulVec d' j - (M.mulVec y2 j + b j)) ^ 2 :=
            Finset.sum_congr rfl fun j _ => by rw [hsub]; ring
    have hd0 : (ls.rect M (fun j => M.mulVec y2 j + b j)).1 = 0 := by
      rcases hu with hu | hu
      · apply hu
        rw [least_squares_image M _ _ _ (hls _) hz]
        exact Matrix.mulVec_zero M
      · have := hu _ _ hz
        have h0 : ∑ i, (ls.rect M (fun j => M.mulVec y2 j + b j)).1 i ^ 2 = 0 :=
          le_antisymm (by simpa using this) (Finset.sum_nonneg fun i _ => sq_nonneg _)
        rw [Finset.sum_eq_zero_iff_of_nonneg fun j _ => sq_nonneg _] at h0
        funext i
        exact pow_eq_zero_iff (two_ne_zero) |>.1 (h0 i (Finset.mem_univ i))
    rw [e]; funext i; rw [hd0]; simp
  have hres : ∀ j, (stateAt S fn aux0 y0 st0 j).result = .successful := by
    intro j
    cases j with
    | zero =>
      show st0.result = _
      simp only [hS, GaussNewton.solver, GaussNewton.init] at hi
      split at hi
      · cases hi
      · cases hi; rfl
    | succ j => rw [(hgs j).2.2.2]; exact hok _
  have hterm : (stateAt S fn aux0 y0 st0 3).terminate = true := by
    have hst : (stateAt S fn aux0 y0 st0 3).terminate = cauchyTermination rtol atol nY nF
      (stateAt S fn aux0 y0 st0 2).yEval
      (fun i => (stateAt S fn aux0 y0 st0 2).yEval i - iterateAt S fn aux0 y0 st0 2 i)
      (fn (stateAt S fn aux0 y0 st0 2).yEval).1
      (fun j => (fn (stateAt S fn aux0 y0 st0 2).yEval).1 j - (stateAt S fn aux0 y0 st0 2).residual j) := rfl
    have e1 : (stateAt S fn aux0 y0 st0 2).yEval = iterateAt S fn aux0 y0 st0 2 := by
      rw [(hgs 1).2.1, ← (hgs 2).1]; exact h32
    have e2 : (stateAt S fn aux0 y0 st0 2).residual = (fn (iterateAt S fn aux0 y0 st0 2)).1 := by
      rw [(hgs 1).2.2.1, ← (hgs 1).1]
    rw [hst, e1, e2]
    unfold cauchyTermination scaledDiff
    simp only [sub_self]
    have z1 : (fun i => HasAbs.abs (0:ℝ) / (atol + rtol * HasAbs.abs (iterateAt S fn aux0 y0 st0 2 i))) = fun _ => 0 := by
      funext i; show |(0:ℝ)| / _ = 0; simp
    have z2 : (fun i => HasAbs.abs (0:ℝ) / (atol + rtol * HasAbs.abs ((fn (iterateAt S fn aux0 y0 st0 2)).1 i))) =
        fun _ => 0 := by
      funext i; show |(0:ℝ)| / _ = 0; simp
    simp only [z1, z2, hnY, hnF, decide_true, Bool.and_self]
  obtain ⟨sol, hsol, hsr, hn, _⟩ := solve_succeeds_by S (fun _ => true) fn aux0 y0 st0 hi ms throw 3 (fun _ _ => rfl)
    (fun j _ => hres j) hterm hms
  refine ⟨sol, hsol, hsr, hn, fun h2 z => ?_⟩
  obtain ⟨_, _, st0', hi', _, hp⟩ := C01_step_budget _ _ _ _ _ _ _ _ hsol
  rw [hi] at hi'; cases hi'
  have hv : sol.value = iterateAt S fn aux0 y0 st0 sol.numSteps := congrArg Prod.fst hp
  obtain ⟨k, hk⟩ : ∃ k, sol.numSteps = k + 2 := ⟨sol.numSteps - 2, by omega⟩
  rw [hv, hk]
  exact hmin k z

end

/-- The hypotheses of C43 hold e.g. for an overdetermined problem: two equations `y = -1`, `y = 3` in one unknown. -/
example : ∃ (ls : LinSolve Unit (Fin 2)), (∀ r, IsLeastSquares (Matrix.of fun _ _ => (1:ℝ)) r (ls.rect (Matrix.of fun _ _ => 1) r).1) ∧
    (∀ r, (ls.rect (Matrix.of fun _ _ => (1:ℝ)) r).2 = .successful) ∧
    (∀ x : Unit → ℝ, (Matrix.of fun (_ : Fin 2) (_ : Unit) => (1:ℝ)).mulVec x = 0 → x = 0) := by
  refine ⟨⟨fun _ r => (fun _ => (r 0 + r 1) / 2, .successful), fun _ g => (g, .successful)⟩, ?_, fun _ => rfl, ?_⟩
  · intro r d'
    simp only [Matrix.mulVec, dotProduct, Matrix.of_apply, Fin.sum_univ_two, Finset.univ_unique, Finset.sum_singleton,
      one_mul]
    nlinarith [sq_nonneg (2 * d' default - r 0 - r 1)]
  · intro x h
    funext u
    have := congrFun h 0
    simpa [Matrix.mulVec, dotProduct] using this

end Verif.Props
