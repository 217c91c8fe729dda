import Verif.Props.GaussNewton
import Verif.Props.GradientMethods
import Verif.Props.QuasiNewton
import Verif.Props.Derivatives
import Verif.Model.FixedPoint
import Verif.Model.NewtonChord
import Verif.Spec.Units
import Verif.Lemmas.SimulateRel

/-!
C83: different solvers take the same steps where the methods they implement coincide.
-/

namespace Verif.Props

open Driver Spec

variable {ι κ A SS HS : Type} [Fintype ι]

/-! ### Newton's method and the Gauss-Newton method on square systems -/

/-- The entry points of `linear_solve` used by `Newton` and `GaussNewton` solve systems with exactly one solution. -/
theorem unique_solution [DecidableEq ι] (M : Matrix ι ι ℝ) (hM : IsUnit M.det) (b : ι → ℝ) : ∃! x, M.mulVec x = b :=
  ⟨M⁻¹.mulVec b, by simp [Matrix.mulVec_mulVec, Matrix.mul_nonsing_inv M hM],
    fun x hx => by rw [← hx, Matrix.mulVec_mulVec, Matrix.nonsing_inv_mul M hM, Matrix.one_mulVec]⟩

/-- **C83.** On a square system whose Jacobian is nonsingular at the iterates, `GaussNewton` takes Newton's steps: its iterate after
`k + 1` steps (the first of which only evaluates `y0`) is that of `Newton` after `k` steps - whatever the tolerances, norms and
linear solvers, as long as the latter solve nonsingular systems. -/
theorem C83_gauss_newton_is_newton [DecidableEq ι] (cfg : NewtonChord.Cfg ι ι ℝ (Matrix ι ι ℝ)) (hn : cfg.isNewton = true)
    (hl : cfg.lower = none) (hu : cfg.upper = none) (hls : Units.SolvesUnique cfg.linearSolve)
    (rtol atol : ℝ) (nY nF : (ι → ℝ) → ℝ) (ls : LinSolve ι ι) (hls' : Units.SolvesUnique ls.rect)
    (aux0 : A) (fn : (ι → ℝ) → (ι → ℝ) × A) (y0 : ι → ℝ)
    (nt0 : NewtonChord.State ι ι ℝ (Matrix ι ι ℝ)) (hi : (NewtonChord.solver (A := A) cfg).init fn y0 = .ok nt0)
    (gn0 : GaussNewton.State ι ι A Unit ((ι → ℝ) × Result))
    (hg : (gnSolver rtol atol nY nF ls cfg.jac aux0).init fn y0 = .ok gn0)
    (hreg : ∀ k, IsUnit (cfg.jac (iterateAt (NewtonChord.solver cfg) fn aux0 y0 nt0 k)).det) (k : ℕ) :
    iterateAt (gnSolver rtol atol nY nF ls cfg.jac aux0) fn aux0 y0 gn0 (k + 1) =
      iterateAt (NewtonChord.solver cfg) fn aux0 y0 nt0 k := by
  have hr := C43_recursion rtol atol nY nF ls cfg.jac aux0 fn y0 gn0 hg
  have hN : ∀ k, iterateAt (NewtonChord.solver cfg) fn aux0 y0 nt0 (k + 1) = fun i =>
      iterateAt (NewtonChord.solver cfg) fn aux0 y0 nt0 k i -
        (cfg.linearSolve (cfg.jac (iterateAt (NewtonChord.solver cfg) fn aux0 y0 nt0 k))
          (fn (iterateAt (NewtonChord.solver cfg) fn aux0 y0 nt0 k)).1).1 i := by
    intro k
    show (NewtonChord.step cfg fn _ _).1 = _
    simp only [NewtonChord.step, NewtonChord.linSol, NewtonChord.clipBounds, hn, hl, hu]
    rfl
  induction k with
  | zero => exact hr.2.1
  | succ k ih =>
    funext i
    rw [hr.2.2 k i, ih, hN k]
    have hx := unique_solution _ (hreg k) (fn (iterateAt (NewtonChord.solver cfg) fn aux0 y0 nt0 k)).1
    rw [hx.unique (hls' _ _ hx).1 (hls _ _ hx).1]

/-! ### Newton and Chord -/

/-- **C83.** `Chord` starts like `Newton`: the first step is the same, bounds included. -/
theorem C83_chord_first_step {J : Type} (cfg : NewtonChord.Cfg ι κ ℝ J) (aux0 : A) (fn : (ι → ℝ) → (κ → ℝ) × A) (y0 : ι → ℝ)
    (st0 st0' : NewtonChord.State ι κ ℝ J)
    (hn : (NewtonChord.solver (A := A) { cfg with isNewton := true }).init fn y0 = .ok st0)
    (hc : (NewtonChord.solver (A := A) { cfg with isNewton := false }).init fn y0 = .ok st0') :
    iterateAt (NewtonChord.solver { cfg with isNewton := false }) fn aux0 y0 st0' 1 =
      iterateAt (NewtonChord.solver { cfg with isNewton := true }) fn aux0 y0 st0 1 := by
  cases hn; cases hc; rfl

/-- **C83.** If the Jacobian is constant (an affine function) `Chord` and `Newton` have the same outcome. -/
theorem C83_chord_is_newton_affine {J : Type} (cfg : NewtonChord.Cfg ι κ ℝ J) (j : J) (hj : ∀ y, cfg.jac y = j)
    (af : (ι → ℝ) → Bool) (fn : (ι → ℝ) → (κ → ℝ) × A) (aux0 : A) (y0 : ι → ℝ) (ms : Option ℕ) (throw : Bool) :
    Relabel.outcome (iterativeSolve (NewtonChord.solver { cfg with isNewton := false }) af fn aux0 y0 ms throw) =
      Relabel.outcome (iterativeSolve (NewtonChord.solver { cfg with isNewton := true }) af fn aux0 y0 ms throw) := by
  have hf : Follows (NewtonChord.solver (A := A) { cfg with isNewton := true }) fn
      (NewtonChord.solver { cfg with isNewton := false }) fn id
      (fun st st' => st.linearState = none ∧ st' = { st with linearState := some j }) := by
    constructor
    · intro y
      refine .inr ⟨_, _, rfl, rfl, rfl, ?_⟩
      simp [NewtonChord.init, hj]
    · rintro y st _ ⟨h0, rfl⟩
      have hs : NewtonChord.linSol { cfg with isNewton := false } y (fn y).1 { st with linearState := some j } =
          NewtonChord.linSol { cfg with isNewton := true } y (fn y).1 st := by
        simp only [NewtonChord.linSol, hj]
      simp only [NewtonChord.solver, NewtonChord.step, id, hs]
      exact ⟨trivial, ⟨h0, trivial⟩, trivial⟩
    · rintro y st _ ⟨h0, rfl⟩
      rfl
    · intros; rfl
    · intros; rfl
  have := hf.solve (allfinite := af) (allfinite' := af) (fun _ => rfl) aux0 y0 ms throw
  rw [show id y0 = y0 from rfl] at this
  rw [this]
  cases Relabel.outcome (iterativeSolve (NewtonChord.solver { cfg with isNewton := true }) af fn aux0 y0 ms throw) with
  | none => rfl
  | some r => cases r <;> rfl

/-! ### Fixed-point iteration and gradient descent -/

/-- **C83.** `FixedPointIteration` applied to `y - rate·∇f(y)` is gradient descent: with damping `damp` it takes the steps of
`GradientDescent((1 - damp)·rate)` (whose first step only evaluates `y0`). -/
theorem C83_fixed_point_is_gradient_descent (fcfg : FixedPointIter.Cfg ι ℝ) (rate rtol atol : ℝ) (nY : (ι → ℝ) → ℝ)
    (nF : (Unit → ℝ) → ℝ) (grad : (ι → ℝ) → (ι → ℝ)) (aux0 : A) (fn : (ι → ℝ) → ℝ × A) (y0 : ι → ℝ)
    (gd0 : GradientDescent.State ι A Unit (ι → ℝ))
    (hg : (GradientDescent.solver (GradientDescent.gradientDescent ((1 - fcfg.damp) * rate) rtol atol nY nF grad) aux0).init fn y0 =
      .ok gd0) (k : ℕ) :
    iterateAt (FixedPointIter.solver fcfg) (fun y => ((fun i => y i - rate * grad y i), (fn y).2)) aux0 y0 none k =
      iterateAt (GradientDescent.solver (GradientDescent.gradientDescent ((1 - fcfg.damp) * rate) rtol atol nY nF grad) aux0) fn aux0
        y0 gd0 (k + 1) := by
  rw [(gd_state _ rtol atol nY nF grad aux0 fn y0 gd0 hg k).1]
  induction k with
  | zero => rfl
  | succ k ih =>
    rw [Function.iterate_succ_apply', ← ih]
    have e : ∀ (a g : ℝ), (1 - fcfg.damp) * (a - rate * g) + fcfg.damp * a = a - (1 - fcfg.damp) * rate * g := fun a g => by ring
    funext i
    exact e _ _

/-! ### BFGS and DFP with one unknown -/

theorem guarded_congr {eps : ℝ} {inv inv' direct direct' : Matrix ι ι ℝ → (ι → ℝ) → (ι → ℝ) → ℝ → Matrix ι ι ℝ}
    (hi : ∀ H gd yd, eps < treeDot gd yd → inv H gd yd (treeDot gd yd) = inv' H gd yd (treeDot gd yd))
    (hd : ∀ H gd yd, eps < treeDot gd yd → direct H gd yd (treeDot gd yd) = direct' H gd yd (treeDot gd yd)) :
    QuasiNewton.guarded eps inv direct = QuasiNewton.guarded eps inv' direct' := by
  funext y yEval fInfo fEval grad u
  cases fInfo <;> simp only [QuasiNewton.guarded]
  · split
    · rw [hd _ _ _ (by assumption)]
    · rfl
  · split
    · rw [hi _ _ _ (by assumption)]
    · rfl

/-- **C83.** With one unknown there is only one secant slope: after an update both `BFGS` and `DFP` hold the slope of the gradient
between the last two points (or its inverse), whatever they held before. -/
theorem C83_secant_slope [Unique ι] (H : Matrix ι ι ℝ) (gd yd : ι → ℝ) (h : 0 < treeDot gd yd) :
    QuasiNewton.bfgsInv H gd yd (treeDot gd yd) default default = yd default / gd default ∧
    QuasiNewton.dfpInv H gd yd (treeDot gd yd) default default = yd default / gd default ∧
    QuasiNewton.bfgsDirect H gd yd (treeDot gd yd) default default = gd default / yd default ∧
    QuasiNewton.dfpDirect H gd yd (treeDot gd yd) default default = gd default / yd default := by
  have e : treeDot gd yd = gd default * yd default := by simp [treeDot]
  rw [e] at h
  have hg : gd default ≠ 0 := fun h0 => by rw [h0] at h; simp at h
  have hy : yd default ≠ 0 := fun h0 => by rw [h0] at h; simp at h
  refine ⟨?_, ?_, ?_, ?_⟩
  · simp [QuasiNewton.bfgsInv, QuasiNewton.outer, treeDot, Matrix.mulVec, dotProduct]
    field_simp; ring
  · rcases eq_or_ne (H default default) 0 with hH | hH
    · simp [QuasiNewton.dfpInv, QuasiNewton.outer, treeDot, Matrix.mulVec, dotProduct, hH]
      field_simp
    · simp [QuasiNewton.dfpInv, QuasiNewton.outer, treeDot, Matrix.mulVec, dotProduct]
      field_simp; ring
  · rcases eq_or_ne (H default default) 0 with hH | hH
    · simp [QuasiNewton.bfgsDirect, QuasiNewton.outer, treeDot, Matrix.mulVec, dotProduct, hH]
      field_simp
    · simp [QuasiNewton.bfgsDirect, QuasiNewton.outer, treeDot, Matrix.mulVec, dotProduct]
      field_simp; ring
  · simp [QuasiNewton.dfpDirect, QuasiNewton.outer, treeDot, Matrix.mulVec, dotProduct]
    field_simp; ring

theorem unique_matrix [Unique ι] {M N : Matrix ι ι ℝ} (h : M default default = N default default) : M = N := by
  funext i j
  rw [Subsingleton.elim i default, Subsingleton.elim j default]; exact h

/-- **C83.** Hence `BFGS` and `DFP` (with the same search, tolerances, linear solver and `use_inverse`) have the same outcome on every
problem with one unknown. -/
theorem C83_bfgs_is_dfp [Unique ι] [DecidableEq ι] (eps : ℝ) (heps : 0 ≤ eps) (useInverse : Bool) {DS : Type}
    (cfg : QuasiNewton.Cfg ι SS DS Unit) (af : (ι → ℝ) → Bool) (fn : (ι → ℝ) → ℝ × A) (aux0 : A) (y0 : ι → ℝ) (ms : Option ℕ)
    (throw : Bool) :
    iterativeSolve (QuasiNewton.solver { cfg with hess := QuasiNewton.bfgs eps useInverse } aux0) af fn aux0 y0 ms throw =
      iterativeSolve (QuasiNewton.solver { cfg with hess := QuasiNewton.dfp eps useInverse } aux0) af fn aux0 y0 ms throw := by
  have : QuasiNewton.bfgs (ι := ι) eps useInverse = QuasiNewton.dfp eps useInverse := by
    simp only [QuasiNewton.bfgs, QuasiNewton.dfp]
    congr 1
    refine guarded_congr (fun H gd yd h => ?_) (fun H gd yd h => ?_)
    · obtain ⟨h1, h2, _, _⟩ := C83_secant_slope H gd yd (heps.trans_lt h)
      exact unique_matrix (h1.trans h2.symm)
    · obtain ⟨_, _, h1, h2⟩ := C83_secant_slope H gd yd (heps.trans_lt h)
      exact unique_matrix (h1.trans h2.symm)
  rw [this]

/-! ### First directions -/

/-- **C83.** `NonlinearCG`, with every method, sets out like steepest descent: after the first step (which evaluates `y0`) the next
point to be evaluated is `y0 - s·∇f(y0)`, with the step size `s` the search has chosen. -/
theorem C83_first_direction_cg (cfg : GradientDescent.Cfg ι SS (NonlinearCG.DState ι)) (method : (ι → ℝ) → (ι → ℝ) → (ι → ℝ) → ℝ)
    (hd : cfg.descent = NonlinearCG.descent method)
    (hf : ∀ y z i j s, (cfg.search.step true y z i j s).2.1 = true) (aux0 : A) (fn : (ι → ℝ) → ℝ × A) (y0 : ι → ℝ)
    (st0 : GradientDescent.State ι A SS (NonlinearCG.DState ι)) (hi : (GradientDescent.solver cfg aux0).init fn y0 = .ok st0) :
    (stateAt (GradientDescent.solver cfg aux0) fn aux0 y0 st0 1).yEval = fun i =>
      y0 i - (cfg.search.step true y0 y0 (.evalGrad 0 y0) (.eval (fn y0).1) cfg.search.init).1 * cfg.grad y0 i := by
  simp only [GradientDescent.solver, GradientDescent.init] at hi
  split at hi
  · cases hi
  cases hi
  have key : ∀ st : GradientDescent.State ι A SS (NonlinearCG.DState ι), st.firstStep = true → st.yEval = y0 →
      st.searchState = cfg.search.init → st.fInfo = .evalGrad 0 y0 → st.descentState.yDiff = (fun _ => 0) →
      (GradientDescent.step cfg fn y0 st).2.1.yEval = fun i =>
        y0 i - (cfg.search.step true y0 y0 (.evalGrad 0 y0) (.eval (fn y0).1) cfg.search.init).1 * cfg.grad y0 i := by
    intro st h1 h2 h3 h4 h5
    simp only [GradientDescent.step, h1, h2, h3, h4, hf, if_true, hd, NonlinearCG.descent, FnInfo.grad?, Option.getD_some, h5, mul_zero,
      add_zero, ite_self]
    funext i; ring
  exact key _ rfl rfl rfl rfl (by rw [trace, hd]; rfl)

/-- **C83.** The same for `BFGS` and `DFP`, in both representations. -/
theorem C83_first_direction_quasi_newton [DecidableEq ι] (cfg : QuasiNewton.Cfg ι SS ((ι → ℝ) × Result) Unit) (eps : ℝ) (heps : 0 ≤ eps)
    (useInverse : Bool) (hh : cfg.hess = QuasiNewton.bfgs eps useInverse ∨ cfg.hess = QuasiNewton.dfp eps useInverse)
    (ls : LinSolve ι Unit) (hls : useInverse = false → SolvesSPD ls) (hd : cfg.descent = newtonDescent ls none)
    (hf : ∀ y z i j s, (cfg.search.step true y z i j s).2.1 = true) (aux0 : A) (fn : (ι → ℝ) → ℝ × A) (y0 : ι → ℝ)
    (st0 : QuasiNewton.State ι A SS ((ι → ℝ) × Result) Unit) (hi : (QuasiNewton.solver cfg aux0).init fn y0 = .ok st0) :
    (stateAt (QuasiNewton.solver cfg aux0) fn aux0 y0 st0 1).yEval = fun i =>
      y0 i - (cfg.search.step true y0 y0 st0.fInfo (.eval (fn y0).1) cfg.search.init).1 * cfg.grad y0 i := by
  have hu : ∃ inv direct, cfg.hess = ⟨QuasiNewton.initIdentity useInverse, QuasiNewton.guarded eps inv direct⟩ := by
    rcases hh with h | h
    · exact ⟨_, _, h⟩
    · exact ⟨_, _, h⟩
  obtain ⟨inv, direct, hu⟩ := hu
  simp only [QuasiNewton.solver, QuasiNewton.init] at hi
  split at hi
  · cases hi
  cases hi
  have h0 : ∀ g : ι → ℝ, treeDot g (fun _ => 0) = 0 := fun g => by simp [treeDot]
  have key : ∀ st : QuasiNewton.State ι A SS ((ι → ℝ) × Result) Unit, st.firstStep = true → st.yEval = y0 →
      st.searchState = cfg.search.init → st.fInfo = (QuasiNewton.initIdentity useInverse y0 0 fun _ => 0).1 →
      (QuasiNewton.step cfg fn y0 st).2.1.yEval = fun i =>
        y0 i - (cfg.search.step true y0 y0 st.fInfo (.eval (fn y0).1) cfg.search.init).1 * cfg.grad y0 i := by
    intro st h1 h2 h3 h4
    simp only [QuasiNewton.step, h1, h2, h3, hf, if_true, hd, hu, newtonDescent]
    cases useInverse with
    | true =>
      simp only [QuasiNewton.initIdentity, if_true] at h4
      simp only [h4, QuasiNewton.guarded, sub_self, h0, if_neg heps.not_gt, newtonStep, Matrix.one_mulVec]
      funext i; ring
    | false =>
      have e : (ls.square 1 (cfg.grad y0)).1 = cfg.grad y0 := by
        have := (hls rfl 1 (cfg.grad y0) Rank.spd_one).2
        rwa [Matrix.one_mulVec] at this
      simp only [QuasiNewton.initIdentity, Bool.false_eq_true, if_false] at h4
      simp only [h4, QuasiNewton.guarded, sub_self, h0, if_neg heps.not_gt, newtonStep, e]
      funext i; ring
  exact key _ rfl rfl rfl (by rw [hu]; rfl)

/-! ### NonlinearCG without memory -/

/-- **C83.** `NonlinearCG` with a method that always answers `0` is steepest descent with the same search: same outcome. -/
theorem C83_cg_without_memory (cfg : GradientDescent.Cfg ι SS (ι → ℝ)) (hd : cfg.descent = steepestDescent none)
    (hacc : ∀ y z i j s, (cfg.search.step true y z i j s).2.1 = true) (af : (ι → ℝ) → Bool) (fn : (ι → ℝ) → ℝ × A) (aux0 : A) (y0 : ι → ℝ) (ms : Option ℕ) (throw : Bool) :
    Relabel.outcome (iterativeSolve (GradientDescent.solver (NonlinearCG.cfg cfg.rtol cfg.atol cfg.normY cfg.normF (fun _ _ _ => 0)
        cfg.search cfg.grad) aux0) af fn aux0 y0 ms throw) =
      Relabel.outcome (iterativeSolve (GradientDescent.solver cfg aux0) af fn aux0 y0 ms throw) := by
  have hf : Follows (GradientDescent.solver cfg aux0) fn (GradientDescent.solver (NonlinearCG.cfg cfg.rtol cfg.atol cfg.normY cfg.normF
      (fun _ _ _ => 0) cfg.search cfg.grad) aux0) fn id
      (fun st st' => (st.firstStep = true ∨ st'.descentState.yDiff = fun i => -st.descentState i) ∧ st'.firstStep = st.firstStep ∧
        st'.yEval = st.yEval ∧ st'.searchState = st.searchState ∧ st'.fInfo = st.fInfo ∧ st'.aux = st.aux ∧
        st'.terminate = st.terminate ∧ st'.result = st.result) := by
    constructor
    · intro y
      simp only [GradientDescent.solver, GradientDescent.init, NonlinearCG.cfg, NonlinearCG.descent, hd, steepestDescent, id]
      split
      · exact .inl ⟨_, rfl, rfl⟩
      · exact .inr ⟨_, _, rfl, rfl, .inl rfl, rfl, rfl, rfl, rfl, rfl, rfl, rfl⟩
    · rintro y st st' ⟨h0, h1, h2, h3, h4, h5, h6, h7⟩
      cases ha : (cfg.search.step st.firstStep y st.yEval st.fInfo (.eval (fn st.yEval).1) st.searchState).2.1 with
      | true =>
        have e : ∀ g : ι → ℝ, (if treeDot g (fun i => -g i) < 0 then fun i => -g i else fun i => -g i) = fun i => -g i := fun g => ite_self _
        simp only [GradientDescent.solver, GradientDescent.step, NonlinearCG.cfg, NonlinearCG.descent, hd, steepestDescent, id, h1, h2, h3,
          h4, h5, ha, if_true, FnInfo.grad?, Option.getD_some, zero_mul, add_zero, ite_self, mul_neg, neg_mul]
        simp
      | false =>
        have hfs : st.firstStep = false := by
          cases hb : st.firstStep with
          | false => rfl
          | true => rw [hb, hacc] at ha; cases ha
        have h0' : st'.descentState.yDiff = fun i => -st.descentState i := by
          rcases h0 with h | h
          · rw [hfs] at h; cases h
          · exact h
        rw [hfs] at ha
        simp only [GradientDescent.solver, GradientDescent.step, NonlinearCG.cfg, NonlinearCG.descent, hd, steepestDescent, id, h1, h2, h3,
          h4, h5, hfs, ha, h0', Bool.false_eq_true, if_false, mul_neg, neg_mul]
        simp
    · rintro y st st' ⟨h0, h1, h2, h3, h4, h5, h6, h7⟩
      simp only [GradientDescent.solver, h6, h7]
    · intros; rfl
    · intros; rfl
  have := hf.solve (allfinite := af) (allfinite' := af) (fun _ => rfl) aux0 y0 ms throw
  rw [show id y0 = y0 from rfl] at this
  rw [this]
  cases Relabel.outcome (iterativeSolve (GradientDescent.solver cfg aux0) af fn aux0 y0 ms throw) with
  | none => rfl
  | some r => cases r <;> rfl

/-! ### Cases to which the theorems apply -/

/-- `y³ + y`, whose derivative `3y² + 1` never vanishes, with exact solvers: the two methods take the same steps, from everywhere. -/
example (y0 : Fin 1 → ℝ) (k : ℕ) :
    let solve : Matrix (Fin 1) (Fin 1) ℝ → (Fin 1 → ℝ) → (Fin 1 → ℝ) × Result := fun M b => (M⁻¹.mulVec b, .successful)
    let jac : (Fin 1 → ℝ) → Matrix (Fin 1) (Fin 1) ℝ := fun y => Matrix.of fun _ _ => 3 * y 0 ^ 2 + 1
    let cfg : NewtonChord.Cfg (Fin 1) (Fin 1) ℝ (Matrix (Fin 1) (Fin 1) ℝ) :=
      { rtol := 1, atol := 1, normY := fun y => |y 0|, normF := fun y => |y 0|, kappa := 1, cauchy := true, isNewton := true,
        lower := none, upper := none, jac := jac, linearSolve := solve, inf := 7, isfinite := fun _ => true, resolution := 1 }
    let fn : (Fin 1 → ℝ) → (Fin 1 → ℝ) × Unit := fun y => (fun _ => y 0 ^ 3 + y 0, ())
    ∃ gn0, (gnSolver 1 1 (fun y => |y 0|) (fun y => |y 0|) ⟨solve, solve⟩ jac ()).init fn y0 = .ok gn0 ∧
    iterateAt (gnSolver 1 1 (fun y => |y 0|) (fun y => |y 0|) ⟨solve, solve⟩ jac ()) fn () y0 gn0 (k + 1) =
      iterateAt (NewtonChord.solver cfg) fn () y0 (NewtonChord.init cfg y0) k := by
  intro solve jac cfg fn
  have hs : Units.SolvesUnique solve := by
    intro M b h
    refine ⟨?_, rfl⟩
    have hd : IsUnit M.det := by
      rw [isUnit_iff_ne_zero, Matrix.det_fin_one]
      intro h0
      obtain ⟨x, hx, hu⟩ := h
      have h1 := hu (x + 1) (by
        funext i
        rw [← hx]
        simp [Matrix.mulVec, dotProduct, Subsingleton.elim i 0, h0])
      have := congrFun h1 0
      simp at this
    show M.mulVec (M⁻¹.mulVec b) = b
    rw [Matrix.mulVec_mulVec, Matrix.mul_nonsing_inv _ hd, Matrix.one_mulVec]
  refine ⟨_, rfl, C83_gauss_newton_is_newton cfg rfl rfl rfl hs 1 1 _ _ ⟨solve, solve⟩ hs () fn y0 _ rfl _ rfl (fun j => ?_) k⟩
  rw [isUnit_iff_ne_zero, Matrix.det_fin_one]
  show 3 * _ ^ 2 + 1 ≠ (0 : ℝ)
  positivity

/-- The searches of the library accept the first point, so that the theorems on first directions apply to them, here with the default
search of `NonlinearCG` and `BFGS`. -/
example (a : Armijo.Cfg ℝ) (y z : Fin 2 → ℝ) (i j : FnInfo (Fin 2) Unit) (s) :
    ((Armijo.search (κ := Unit) a).step true y z i j s).2.1 = true :=
  (searches_accept_first a TrustRegion.defaults 1 y z i j s).1

end Verif.Props
