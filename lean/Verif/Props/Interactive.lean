import Verif.Model.Interactive
import Verif.Props.Driver
import Verif.Model.Bisection
import Verif.Model.Golden
import Verif.Model.FixedPoint
import Verif.Model.NewtonChord
import Verif.Model.GradientMethods
import Verif.Model.QuasiNewton
import Verif.Model.GaussNewton
import Verif.Model.NelderMead
import Verif.Model.Optax
import Verif.Model.BestSoFar
import Verif.Props.FixedPoint

/-!
Properties C74, C75: the two documented ways of stepping through a solve, compared with the solve.
-/

namespace Verif.Props
open Verif Verif.Spec Verif.Driver

variable {Y Out Aux St Stats : Type}

/-! ### The loop written by hand -/

/-- The answer of the solver's test at the point reached after `k` steps (not at the one before). -/
def verdictHere (S : Solver Y Out Aux St Stats) (fn : Y → Out × Aux) (aux0 : Aux) (y0 : Y) (st0 : St) (k : Nat) :
    Bool × Result :=
  S.terminate fn (iterateAt S fn aux0 y0 st0 k) (stateAt S fn aux0 y0 st0 k)

theorem hand_iterate (S : Solver Y Out Aux St Stats) (fn : Y → Out × Aux) (aux0 : Aux) (y0 : Y) (st0 : St) (k : Nat) :
    (Interactive.body S fn)^[k] (Interactive.start S fn aux0 y0 st0) =
      { y := iterateAt S fn aux0 y0 st0 k, numSteps := k, state := stateAt S fn aux0 y0 st0 k,
        aux := auxAt S fn aux0 y0 st0 k, done := (verdictHere S fn aux0 y0 st0 k).1,
        result := (verdictHere S fn aux0 y0 st0 k).2 } := by
  induction k with
  | zero => rfl
  | succ k ih =>
    rw [Function.iterate_succ_apply', ih]
    rfl

/-- The loop ends at the first `k` at which the test, made at the `k`-th point, says "done". -/
theorem hand_returns (S : Solver Y Out Aux St Stats) (fn : Y → Out × Aux) (aux0 : Aux) (y0 : Y) (st0 : St)
    (hi : S.init fn y0 = .ok st0) (k : Nat) (hlt : ∀ j, j < k → (verdictHere S fn aux0 y0 st0 j).1 = false)
    (hk : (verdictHere S fn aux0 y0 st0 k).1 = true) :
    ∃ sol, Interactive.byHand S fn aux0 y0 = some (.ok sol) ∧ sol.numSteps = k ∧
      sol.result = (verdictHere S fn aux0 y0 st0 k).2 ∧ sol.state = stateAt S fn aux0 y0 st0 k ∧ sol.maxSteps = none ∧
      (sol.value, sol.aux, sol.stats) = S.postprocess fn (iterateAt S fn aux0 y0 st0 k) (auxAt S fn aux0 y0 st0 k)
        (stateAt S fn aux0 y0 st0 k) sol.result := by
  have hw : whileForever (fun v => !v.done) (Interactive.body S fn) (Interactive.start S fn aux0 y0 st0) =
      some ((Interactive.body S fn)^[k] (Interactive.start S fn aux0 y0 st0)) := by
    rw [whileForever_spec]
    refine ⟨k, rfl, fun j hj => ?_, ?_⟩
    · rw [hand_iterate]; simp [hlt j hj]
    · rw [hand_iterate]; simp [hk]
  refine ⟨Interactive.finish S fn ((Interactive.body S fn)^[k] (Interactive.start S fn aux0 y0 st0)), ?_, ?_⟩
  · unfold Interactive.byHand
    rw [hi]
    simp only [hw, Option.map_some]
  · rw [hand_iterate]
    exact ⟨rfl, rfl, rfl, rfl, rfl⟩

/-- The loop never ends if the test never says "done". -/
theorem hand_hangs (S : Solver Y Out Aux St Stats) (fn : Y → Out × Aux) (aux0 : Aux) (y0 : Y) (st0 : St)
    (hi : S.init fn y0 = .ok st0) (h : ∀ k, (verdictHere S fn aux0 y0 st0 k).1 = false) :
    Interactive.byHand S fn aux0 y0 = none := by
  unfold Interactive.byHand
  rw [hi]
  simp only [Option.map_eq_none_iff, whileForever_none]
  intro k
  rw [hand_iterate]
  simp [h k]

/-- The solver's test does not look at the point, only at the state. -/
def TestsStateOnly (S : Solver Y Out Aux St Stats) : Prop := ∀ fn y z st, S.terminate fn y st = S.terminate fn z st

/-- Whenever the solver's test reports a failure it also says "done". -/
def FailsDone (S : Solver Y Out Aux St Stats) : Prop :=
  ∀ fn y st, (S.terminate fn y st).2 ≠ .successful → (S.terminate fn y st).1 = true

/-- **C74.** For a solver whose test looks at its state only, on a run in which - until the test says "done" - every point
is finite and no failure is reported without "done": the loop written by hand does exactly what the solve with
`max_steps=None` does: the same value, result, auxiliary output, statistics, state and number of steps, or the same error
from `init`, or neither ever returns.
(`_partial`: without these three restrictions it is false, see the next three theorems.) -/
theorem C74_by_hand_partial (S : Solver Y Out Aux St Stats) (hS : TestsStateOnly S) (af : Y → Bool)
    (fn : Y → Out × Aux) (aux0 : Aux) (y0 : Y)
    (hrun : ∀ st0, S.init fn y0 = .ok st0 → ∀ k, (∀ j, j < k → (verdictAt S fn aux0 y0 st0 j).1 = false) →
      af (testedAt S fn aux0 y0 st0 k) = true ∧
      ((verdictAt S fn aux0 y0 st0 k).1 = false → (verdictAt S fn aux0 y0 st0 k).2 = .successful)) :
    Interactive.byHand S fn aux0 y0 = iterativeSolve S af fn aux0 y0 none false := by
  cases hi : S.init fn y0 with
  | error e =>
    unfold Interactive.byHand iterativeSolve iterate
    simp [hi]
  | ok st0 =>
    have hv : ∀ k, verdictHere S fn aux0 y0 st0 k = verdictAt S fn aux0 y0 st0 k := fun k => hS _ _ _ _
    have hrun := hrun st0 hi
    have hc : ∀ k, (∀ j, j < k → (verdictAt S fn aux0 y0 st0 j).1 = false) →
        (Continues S af fn aux0 y0 st0 k ↔ (verdictAt S fn aux0 y0 st0 k).1 = false) := by
      intro k hk
      obtain ⟨h1, h2⟩ := hrun k hk
      unfold Continues
      constructor
      · rintro ⟨_, h⟩; rw [h]
      · intro h; exact ⟨h1, Prod.ext h (h2 h)⟩
    by_cases hd : ∃ k, (verdictAt S fn aux0 y0 st0 k).1 = true
    · classical
      obtain ⟨k, hk, hmin⟩ : ∃ k, (verdictAt S fn aux0 y0 st0 k).1 = true ∧
          ∀ j, j < k → (verdictAt S fn aux0 y0 st0 j).1 = false :=
        ⟨Nat.find hd, Nat.find_spec hd, fun j hj => by simpa using Nat.find_min hd hj⟩
      have hlt : ∀ j, j < k → Continues S af fn aux0 y0 st0 j := fun j hj =>
        (hc j fun i hij => hmin i (lt_trans hij hj)).2 (hmin j hj)
      have hnk : ¬Continues S af fn aux0 y0 st0 k := by rw [hc k hmin]; simp [hk]
      obtain ⟨s1, e1, n1, r1, t1, m1, p1⟩ := hand_returns S fn aux0 y0 st0 hi k (fun j hj => by rw [hv]; exact hmin j hj)
        (by rw [hv]; exact hk)
      obtain ⟨s2, e2, n2⟩ := solve_exists S af fn aux0 y0 st0 hi none k hlt (Or.inl ⟨hnk, by simp⟩)
      obtain ⟨st0', hi', -, -, t2, m2, p2, r2⟩ := solve_spec _ _ _ _ _ _ _ _ e2
      rw [hi] at hi'; cases hi'
      rw [n2] at t2 p2 r2
      rw [if_neg hnk, if_pos (hrun k hmin).1] at r2
      rw [hv] at r1
      rw [e1, e2]
      have hr : s1.result = s2.result := r1.trans r2.symm
      rw [hr, ← p2] at p1
      obtain ⟨v1, _, a1, _, _, _, _⟩ := s1
      obtain ⟨v2, _, a2, _, _, _, _⟩ := s2
      simp only [Prod.mk.injEq] at p1
      simp_all
    · have hd' : ∀ k, (verdictAt S fn aux0 y0 st0 k).1 = false := fun k => by
        by_contra h; exact hd ⟨k, by simpa using h⟩
      rw [hand_hangs S fn aux0 y0 st0 hi fun k => by rw [hv]; exact hd' k]
      unfold iterativeSolve iterate
      rw [hi]
      symm
      simp only [whileOpt, Option.map_eq_none_iff, whileForever_none]
      intro k
      rw [cond_body_iterate]
      exact (hc k fun j _ => hd' j).2 (hd' k)

section which
variable {ι κ A K J SS DS HS OS L : Type}

/-- **C74.** The solvers whose test looks at their state only: fixed-point iteration, golden-section search, Nelder-Mead,
the Optax wrapper, all the search-based minimisers and least-squares solvers (gradient descent, nonlinear CG, BFGS, DFP, L-BFGS,
Gauss-Newton, Levenberg-Marquardt, dogleg), Newton and Chord with `cauchy_termination=False`, and wrapped versions of these.  The first
four and Newton and Chord moreover report failures only together with "done". -/
theorem C74_which_solvers :
    (∀ cfg : FixedPointIter.Cfg ι ℝ, TestsStateOnly (FixedPointIter.solver (A := A) cfg) ∧ FailsDone (FixedPointIter.solver (A := A) cfg)) ∧
    (∀ cfg : Golden.Cfg, TestsStateOnly (Golden.solver (A := A) cfg) ∧ FailsDone (Golden.solver (A := A) cfg)) ∧
    (∀ (n : Nat) [NeZero n] [DecidableEq (Fin n)] (cfg : NelderMead.Cfg n ι) (aux0 : A),
      TestsStateOnly (NelderMead.solver cfg aux0) ∧ FailsDone (NelderMead.solver cfg aux0)) ∧
    (∀ cfg : Optax.Cfg ι OS, TestsStateOnly (Optax.solver (A := A) cfg) ∧ FailsDone (Optax.solver (A := A) cfg)) ∧
    (∀ (cfg : GradientDescent.Cfg ι SS DS) (aux0 : A), TestsStateOnly (GradientDescent.solver cfg aux0)) ∧
    (∀ (cfg : QuasiNewton.Cfg ι SS DS HS) (aux0 : A), TestsStateOnly (QuasiNewton.solver cfg aux0)) ∧
    (∀ (cfg : GaussNewton.Cfg ι κ SS DS) (aux0 : A), TestsStateOnly (GaussNewton.solver cfg aux0)) ∧
    (∀ cfg : NewtonChord.Cfg ι κ ℝ J, (cfg.cauchy = false → TestsStateOnly (NewtonChord.solver (A := A) cfg)) ∧
      FailsDone (NewtonChord.solver (A := A) cfg)) ∧
    (∀ (S : Solver Y Out (Out × A) St Stats) (toLoss : Y → Out → ℝ) (inf : ℝ) (aux0 : A),
      TestsStateOnly S → TestsStateOnly (BestSoFar.solver S toLoss inf aux0)) := by
  refine ⟨fun cfg => ⟨fun _ _ _ _ => rfl, fun _ _ _ h => absurd rfl h⟩, fun cfg => ⟨fun _ _ _ _ => rfl, fun _ _ _ h => absurd rfl h⟩,
    fun n _ _ cfg aux0 => ⟨fun _ _ _ _ => rfl, ?_⟩, fun cfg => ⟨fun _ _ _ _ => rfl, fun _ _ _ h => absurd rfl h⟩, fun _ _ _ _ _ _ => rfl,
    fun _ _ _ _ _ _ => rfl, fun _ _ _ _ _ _ => rfl, fun cfg => ⟨fun hc _ _ _ _ => ?_, fun _ _ st h => ?_⟩, fun S _ _ _ h _ _ _ _ => h _ _ _ _⟩
  · intro fn y st h
    change (NelderMead.terminate cfg st).2 ≠ _ at h
    change (NelderMead.terminate cfg st).1 = true
    unfold NelderMead.terminate at h ⊢
    simp only at h ⊢
    by_cases hd : st.fBest = ⊤
    · simp [hd]
    · simp [hd] at h
  · show NewtonChord.terminate _ _ _ = NewtonChord.terminate _ _ _
    unfold NewtonChord.terminate
    simp only [hc]
  · change (NewtonChord.terminate cfg _ st).2 ≠ _ at h
    change (NewtonChord.terminate cfg _ st).1 = true
    unfold NewtonChord.terminate at h ⊢
    simp only at h ⊢
    by_cases hl : st.result = .successful
    · simp only [hl, ne_eq, not_true_eq_false, decide_false, Bool.false_eq_true, if_false, Bool.false_or] at h ⊢
      split at h
      · simp at h
      · rename_i hx
        simp only at h ⊢
        split_ifs at h with hd
        · simp only [Bool.and_eq_true, Bool.not_eq_true'] at hd
          simp [hd.1.1, hd.1.2, hd.2]
        · exact absurd rfl h
    · simp [hl]

end which

/-- **C74.** In particular, for solvers that look at their state only and report failures only together with "done" (see
`C74_which_solvers`), if all numbers are finite then the loop does what the solve does. -/
theorem C74_finite (S : Solver Y Out Aux St Stats) (hS : TestsStateOnly S) (hF : FailsDone S) (af : Y → Bool) (fn : Y → Out × Aux)
    (aux0 : Aux) (y0 : Y) (hf : ∀ st0, S.init fn y0 = .ok st0 → ∀ k, af (iterateAt S fn aux0 y0 st0 k) = true) :
    Interactive.byHand S fn aux0 y0 = iterativeSolve S af fn aux0 y0 none false := by
  refine C74_by_hand_partial S hS af fn aux0 y0 fun st0 hi k _ => ⟨hf st0 hi _, fun h => ?_⟩
  by_contra hn
  have := hF _ _ _ hn
  rw [show S.terminate fn _ _ = verdictAt S fn aux0 y0 st0 k from rfl, h] at this
  cases this

/-- A case in which the loop returns: halving, from `1`. -/
example : ∃ sol, Interactive.byHand (FixedPointIter.solver (A := Unit) { rtol := (0.1 : ℝ), atol := 0.1, norm := fun v => |v ()|, damp := 0 })
    (fun y => (fun i => y i / 2, ())) () (fun _ : Unit => 1) = some (.ok sol) ∧ sol.result = .successful := by
  rw [C74_finite _ (fun _ _ _ _ => rfl) (fun _ _ _ h => absurd rfl h) (fun _ => true) _ _ _ fun _ _ _ => rfl]
  obtain ⟨sol, h, hr, -⟩ := fp_succeeds { rtol := (0.1 : ℝ), atol := 0.1, norm := fun v : Unit → ℝ => |v ()|, damp := 0 }
    (fun y => (fun i => y i / 2, ())) () (fun _ : Unit => 1) none false 3 (by
      simp only [fp_iterate_eq, Function.iterate_succ_apply', Function.iterate_zero, id, dampedMap]
      norm_num) (by simp)
  exact ⟨sol, h, hr⟩

/-! ### Where the two differ -/

/-- The identity on `[-1, 1]`, with `rtol = 1/2`, `atol = 1`. -/
noncomputable def handBisection : Bisection.Cfg ℝ :=
  { rtol := 1 / 2, atol := 1, flip := .detect, expand := false, lower := -1, upper := 1, scalarArgs := true, fStruct := .leaf [] true }

/-- **C74, disagreement.** The solver of the documentation's own example, bisection: the loop tests the scale of the new point and
the solve that of the old one, so that they may stop at different points: for the identity on `[-1, 1]` from `0` the loop stops after
one step, at `-1/2`, and the solve after two, at `-1/4`. -/
theorem C74_bisection_differs :
    (∃ sol, Interactive.byHand (Bisection.solver handBisection) (fun y => (y, ())) () 0 = some (.ok sol) ∧
      sol.numSteps = 1 ∧ sol.value = -1 / 2 ∧ sol.result = .successful) ∧
    ∃ sol, iterativeSolve (Bisection.solver handBisection) (fun _ => true) (fun y => (y, ())) () 0 none false = some (.ok sol) ∧
      sol.numSteps = 2 ∧ sol.value = -1 / 4 ∧ sol.result = .successful := by
  set S : Solver ℝ ℝ Unit (Bisection.State ℝ) Unit := Bisection.solver handBisection with hS
  set fn : ℝ → ℝ × Unit := fun y => (y, ()) with hfn
  let st0 : Bisection.State ℝ := { lower := -1, upper := 1, flip := false, error := none }
  have hi : S.init fn 0 = .ok st0 := by
    show Bisection.init handBisection fn 0 = _
    norm_num [Bisection.init, handBisection, hfn, st0]
  have e1 : trace S fn () 0 st0 1 = (-1 / 2, { lower := -1, upper := 0, flip := false, error := some 0 }, ()) := by
    show Bisection.step fn 0 st0 = _
    norm_num [Bisection.step, hfn, st0]
  have e2 : trace S fn () 0 st0 2 = (-1 / 4, { lower := -1 / 2, upper := 0, flip := false, error := some (-1 / 2) }, ()) := by
    show Bisection.step fn (trace S fn () 0 st0 1).1 (trace S fn () 0 st0 1).2.1 = _
    rw [e1]
    norm_num [Bisection.step, hfn]
  have t0 : verdictHere S fn () 0 st0 0 = (false, .successful) := by
    show Bisection.terminate handBisection 0 st0 = _
    simp [Bisection.terminate, st0]
  have t1 : verdictHere S fn () 0 st0 1 = (true, .successful) := by
    show Bisection.terminate handBisection (trace S fn () 0 st0 1).1 (trace S fn () 0 st0 1).2.1 = _
    rw [e1]
    simp only [Bisection.terminate, handBisection, HasAbs.abs_real]
    norm_num
  have c0 : Continues S (fun _ => true) fn () 0 st0 0 := ⟨rfl, t0⟩
  have c1 : Continues S (fun _ => true) fn () 0 st0 1 := by
    refine ⟨rfl, ?_⟩
    show Bisection.terminate handBisection 0 (trace S fn () 0 st0 1).2.1 = _
    rw [e1]
    simp only [Bisection.terminate, handBisection, HasAbs.abs_real]
    norm_num
  have v2 : verdictAt S fn () 0 st0 2 = (true, .successful) := by
    show Bisection.terminate handBisection (trace S fn () 0 st0 1).1 (trace S fn () 0 st0 2).2.1 = _
    rw [e1, e2]
    simp only [Bisection.terminate, handBisection, HasAbs.abs_real]
    norm_num
  have c2 : ¬Continues S (fun _ => true) fn () 0 st0 2 := by
    rintro ⟨_, h⟩
    rw [v2] at h; cases h
  constructor
  · obtain ⟨sol, h, hn, hr, -, -, hp⟩ := hand_returns S fn () 0 st0 hi 1 (fun j hj => by
      obtain rfl : j = 0 := by omega
      rw [t0]) (by rw [t1])
    refine ⟨sol, h, hn, ?_, by rw [hr, t1]⟩
    have : sol.value = (trace S fn () 0 st0 1).1 := congrArg Prod.fst hp
    rw [this, e1]
  · obtain ⟨sol, h, hn⟩ := solve_exists S (fun _ => true) fn () 0 st0 hi none 2 (fun j hj => by
      rcases (by omega : j = 0 ∨ j = 1) with rfl | rfl
      · exact c0
      · exact c1) (Or.inl ⟨c2, by simp⟩)
    obtain ⟨st0', hi', -, -, -, -, hp, hr⟩ := solve_spec _ _ _ _ _ _ _ _ h
    rw [hi] at hi'; cases hi'
    rw [hn, if_neg c2, if_pos rfl, v2] at hr
    refine ⟨sol, h, hn, ?_, hr⟩
    have : sol.value = (trace S fn () 0 st0 sol.numSteps).1 := congrArg Prod.fst hp
    rw [this, hn, e2]

/-- A linear solver that fails at the residual `1`, and otherwise solves the equation `x = r`. -/
noncomputable def failsAtOne : LinSolve Unit Unit where
  rect _ r := open Classical in (r, if r () = 1 then .linear 0 else .successful)
  square _ r := (r, .successful)

/-- Gauss-Newton for the residual `y` with this linear solver. -/
noncomputable def handGaussNewton : GaussNewton.Cfg Unit Unit Unit ((Unit → ℝ) × Result) :=
  GaussNewton.gaussNewton 0.1 0.1 (fun v => |v ()|) (fun v => |v ()|) failsAtOne fun _ => 1

/-- **C74, disagreement.** Failures reported without "done" (all search-based solvers do so) end the solve but not the loop:
Gauss-Newton for the residual `y` from `1`, with a linear solver that fails in the first step.  The solve stops there and reports the
failure.  The loop carries on, and ends after three steps with `successful`. -/
theorem C74_failure_ignored :
    (∃ sol, Interactive.byHand (GaussNewton.solver handGaussNewton ()) (fun y => (y, ())) () (fun _ => 1) = some (.ok sol) ∧
      sol.numSteps = 3 ∧ sol.value = (fun _ => 0) ∧ sol.result = .successful) ∧
    ∃ sol, iterativeSolve (GaussNewton.solver handGaussNewton ()) (fun _ => true) (fun y => (y, ())) () (fun _ => 1) none false =
        some (.ok sol) ∧ sol.numSteps = 1 ∧ sol.value = (fun _ => 1) ∧ sol.result = .linear 0 := by
  set S : Solver (Unit → ℝ) (Unit → ℝ) Unit _ Unit := GaussNewton.solver handGaussNewton () with hS
  set fn : (Unit → ℝ) → (Unit → ℝ) × Unit := fun y => (y, ()) with hfn
  obtain ⟨st0, hi, z0, r0, t0⟩ : ∃ st0, S.init fn (fun _ => 1) = .ok st0 ∧ st0.yEval = (fun _ => 1) ∧ st0.residual = (fun _ => 0) ∧
      (st0.terminate, st0.result) = (false, .successful) := ⟨_, rfl, rfl, rfl, rfl⟩
  have key : ∀ k, iterateAt S fn () (fun _ => 1) st0 (k + 1) = (stateAt S fn () (fun _ => 1) st0 k).yEval ∧
      (stateAt S fn () (fun _ => 1) st0 (k + 1)).yEval = (fun _ => 0) ∧
      (stateAt S fn () (fun _ => 1) st0 (k + 1)).residual = (stateAt S fn () (fun _ => 1) st0 k).yEval ∧
      (stateAt S fn () (fun _ => 1) st0 (k + 1)).result =
        (if (stateAt S fn () (fun _ => 1) st0 k).yEval () = 1 then .linear 0 else .successful) ∧
      (stateAt S fn () (fun _ => 1) st0 (k + 1)).terminate =
        cauchyTermination (ι := Unit) (κ := Unit) (0.1 : ℝ) 0.1 (fun v => |v ()|) (fun v => |v ()|) (stateAt S fn () (fun _ => 1) st0 k).yEval
          (fun i => (stateAt S fn () (fun _ => 1) st0 k).yEval i - iterateAt S fn () (fun _ => 1) st0 k i)
          (stateAt S fn () (fun _ => 1) st0 k).yEval
          (fun i => (stateAt S fn () (fun _ => 1) st0 k).yEval i - (stateAt S fn () (fun _ => 1) st0 k).residual i) := by
    intro k
    refine ⟨rfl, ?_, rfl, rfl, rfl⟩
    funext i
    show (stateAt S fn () (fun _ => 1) st0 k).yEval i + -1 * (stateAt S fn () (fun _ => 1) st0 k).yEval i = 0
    ring
  obtain ⟨y1, z1, r1, f1, t1⟩ := key 0
  obtain ⟨y2, z2, r2, f2, t2⟩ := key 1
  obtain ⟨y3, z3, r3, f3, t3⟩ := key 2
  have s0 : stateAt S fn () (fun _ => 1) st0 0 = st0 := rfl
  have i0 : iterateAt S fn () (fun _ => 1) st0 0 = fun _ => 1 := rfl
  simp only [Nat.zero_add, Nat.reduceAdd] at *
  rw [s0, z0] at y1 r1 f1 t1
  rw [z1] at y2 r2 f2 t2
  rw [z2] at y3 r3 f3 t3
  rw [y1, r1] at t2
  rw [y2, r2] at t3
  rw [i0, r0] at t1
  simp only [cauchyTermination, scaledDiff, HasAbs.abs_real] at t1 t2 t3
  norm_num at t1 t2 t3 f1 f2 f3
  have vd : ∀ k y, S.terminate fn y (stateAt S fn () (fun _ => 1) st0 k) =
    ((stateAt S fn () (fun _ => 1) st0 k).terminate, (stateAt S fn () (fun _ => 1) st0 k).result) := fun _ _ => rfl
  constructor
  · obtain ⟨sol, h, hn, hr, -, -, hp⟩ := hand_returns S fn () (fun _ => 1) st0 hi 3 (fun j hj => by
      rw [verdictHere, vd]
      rcases (by omega : j = 0 ∨ j = 1 ∨ j = 2) with rfl | rfl | rfl
      · exact congrArg Prod.fst t0
      · exact t1
      · exact t2) (by rw [verdictHere, vd]; exact t3)
    refine ⟨sol, h, hn, ?_, ?_⟩
    · exact (congrArg Prod.fst hp).trans y3
    · rw [hr, verdictHere, vd]; exact f3
  · have c0 : Continues S (fun _ => true) fn () (fun _ => 1) st0 0 := ⟨rfl, t0⟩
    have c1 : ¬Continues S (fun _ => true) fn () (fun _ => 1) st0 1 := by
      rintro ⟨_, h⟩
      rw [verdictAt, vd, f1] at h
      exact absurd (congrArg Prod.snd h) (by simp)
    obtain ⟨sol, h, hn⟩ := solve_exists S (fun _ => true) fn () (fun _ => 1) st0 hi none 1 (fun j hj => by
      obtain rfl : j = 0 := by omega
      exact c0) (Or.inl ⟨c1, by simp⟩)
    obtain ⟨st0', hi', -, -, -, -, hp, hr⟩ := solve_spec _ _ _ _ _ _ _ _ h
    rw [hi] at hi'; cases hi'
    rw [hn, if_neg c1, if_pos rfl, verdictAt, vd, f1] at hr
    refine ⟨sol, h, hn, ?_, hr⟩
    rw [hn] at hp
    exact (congrArg Prod.fst hp).trans y1

/-- **C74, disagreement.** The loop does not look for infinities and NaNs: fixed-point iteration on a function that returns NaN.  The
solve reports `nonfinite`; the loop never ends. -/
theorem C74_nonfinite_ignored (cfg : FixedPointIter.Cfg Unit XR) (hn : cfg.norm = fun v => v ()) :
    Interactive.byHand (FixedPointIter.solver cfg) (fun _ => (fun _ => XR.nan, ())) () (fun _ => 0) = none ∧
    ∃ sol, iterativeSolve (FixedPointIter.solver cfg) treeAllfinite (fun _ => (fun _ => XR.nan, ())) ()
      (fun _ => 0) none false = some (.ok sol) ∧ sol.result = .nonfinite := by
  set S : Solver (Unit → XR) (Unit → XR) Unit (Option XR) Unit := FixedPointIter.solver cfg with hS
  set fn : (Unit → XR) → (Unit → XR) × Unit := fun _ => (fun _ => XR.nan, ()) with hfn
  have hy : ∀ k, iterateAt S fn () (fun _ => 0) none (k + 1) = fun _ => XR.nan := by
    intro k
    funext i
    show (1 - cfg.damp) * XR.nan + cfg.damp * _ = _
    simp
  have hst : ∀ k, stateAt S fn () (fun _ => 0) none (k + 1) = some XR.nan := by
    intro k
    show some (cfg.norm _) = _
    rw [hn]
    have := congrFun (hy k) ()
    show some ((_ - iterateAt S fn () (fun _ => 0) none (k + 1) ()) / _) = _
    rw [this]
    simp
  have ht : ∀ k y, S.terminate fn y (stateAt S fn () (fun _ => 0) none k) = (false, .successful) := by
    intro k y
    cases k with
    | zero => rfl
    | succ k =>
      rw [hst]
      show ((decide (XR.nan < 1) : Bool), Result.successful) = _
      simp
  refine ⟨hand_hangs S fn () _ none rfl fun k => by rw [verdictHere, ht], ?_⟩
  have hc : ∀ k, k < 2 → Continues S treeAllfinite fn () (fun _ => 0) none k := by
    intro k hk
    refine ⟨?_, ht _ _⟩
    have : k - 1 = 0 := by omega
    show treeAllfinite (iterateAt S fn () (fun _ => 0) none (k - 1)) = true
    rw [this]
    show treeAllfinite (fun _ => (0 : XR)) = true
    simp [treeAllfinite, XR.isFinite]
  have hc2 : ¬Continues S treeAllfinite fn () (fun _ => 0) none 2 := by
    rintro ⟨h, _⟩
    have h1 : testedAt S fn () (fun _ => 0) none 2 = fun _ => XR.nan := hy 0
    rw [h1] at h
    simp [treeAllfinite, XR.isFinite] at h
  obtain ⟨sol, h, hk⟩ := solve_exists S treeAllfinite fn () (fun _ => 0) none rfl none 2 hc (Or.inl ⟨hc2, by simp⟩)
  refine ⟨sol, h, ?_⟩
  obtain ⟨st0', hi', -, -, -, -, -, hr⟩ := solve_spec _ _ _ _ _ _ _ _ h
  cases hi'
  rw [hk, if_neg hc2] at hr
  have h1 : testedAt S fn () (fun _ => 0) none 2 = fun _ => XR.nan := hy 0
  rw [h1] at hr
  simpa [treeAllfinite, XR.isFinite] using hr

/-! ### Repeated solves of one step -/

section one
variable (S : Solver Y Out Aux St Stats) (af : Y → Bool) (fn : Y → Out × Aux) (aux0 : Aux)

/-- A solve of one step from a finite point at which the test says "carry on" makes that step. -/
theorem one_step (y : Y) (st0 : St) (hi : S.init fn y = .ok st0) (hf : af y = true) (ht : S.terminate fn y st0 = (false, .successful)) :
    ∃ r, Interactive.oneStep S af fn aux0 y =
      .ok (S.postprocess fn (S.step fn y st0).1 (S.step fn y st0).2.2 (S.step fn y st0).2.1 r).1 := by
  have c0 : Continues S af fn aux0 y st0 0 := ⟨hf, ht⟩
  obtain ⟨sol, h, hn⟩ := solve_exists S af fn aux0 y st0 hi (some 1) 1 (fun j hj => by
    obtain rfl : j = 0 := by omega
    exact c0) (Or.inr rfl)
  obtain ⟨st0', hi', -, -, -, -, hp, -⟩ := solve_spec _ _ _ _ _ _ _ _ h
  rw [hi] at hi'; cases hi'
  rw [hn] at hp
  refine ⟨sol.result, ?_⟩
  unfold Interactive.oneStep
  rw [h]
  exact congrArg Except.ok (congrArg Prod.fst hp)

/-- A solve of one step makes no step or one. -/
theorem one_step_or_none (y : Y) (st0 : St) (hi : S.init fn y = .ok st0) :
    ∃ r, Interactive.oneStep S af fn aux0 y = .ok (S.postprocess fn y aux0 st0 r).1 ∨
      Interactive.oneStep S af fn aux0 y =
        .ok (S.postprocess fn (S.step fn y st0).1 (S.step fn y st0).2.2 (S.step fn y st0).2.1 r).1 := by
  by_cases c0 : Continues S af fn aux0 y st0 0
  · obtain ⟨r, hr⟩ := one_step S af fn aux0 y st0 hi c0.1 c0.2
    exact ⟨r, Or.inr hr⟩
  · obtain ⟨sol, h, hn⟩ := solve_exists S af fn aux0 y st0 hi (some 1) 0 (fun j hj => by omega)
      (Or.inl ⟨c0, fun n h => by omega⟩)
    obtain ⟨st0', hi', -, -, -, -, hp, -⟩ := solve_spec _ _ _ _ _ _ _ _ h
    rw [hi] at hi'; cases hi'
    rw [hn] at hp
    refine ⟨sol.result, Or.inl ?_⟩
    unfold Interactive.oneStep
    rw [h]
    exact congrArg Except.ok (congrArg Prod.fst hp)

/-- **C75.** Repeated solves of one step with a solver `S` follow the iterates of a solver `T`, provided that `S` can always be
started, that its first test says "carry on", that its value is the last point, and that its first step from any point leads where `T` goes
from there, whatever the state of `T`.  With `T = S`: for solvers whose next point depends on the present point only, `n` solves of one step
give the point the solve reaches in its `n`-th step.
(`_partial`: for the other solvers it is false, see `C75_never_moves`, `C75_golden_restarts`, `C75_bisection_cycles`.) -/
theorem C75_one_by_one_partial {St' Stats' : Type} (T : Solver Y Out Aux St' Stats') (st : St')
    (hinit : ∀ y, ∃ st0, S.init fn y = .ok st0 ∧ S.terminate fn y st0 = (false, .successful) ∧
      ∀ st', (S.step fn y st0).1 = (T.step fn y st').1)
    (hpost : ∀ y aux st r, (S.postprocess fn y aux st r).1 = y) (y0 : Y) (n : Nat)
    (hf : ∀ k, k < n → af (iterateAt T fn aux0 y0 st k) = true) :
    Interactive.oneByOne S af fn aux0 y0 n = .ok (iterateAt T fn aux0 y0 st n) := by
  induction n with
  | zero => rfl
  | succ n ih =>
    unfold Interactive.oneByOne
    rw [ih fun k hk => hf k (by omega)]
    obtain ⟨st0, hi, ht, hs⟩ := hinit (iterateAt T fn aux0 y0 st n)
    obtain ⟨r, hr⟩ := one_step S af fn aux0 _ st0 hi (hf n (by omega)) ht
    show Interactive.oneStep S af fn aux0 _ = _
    rw [hr, hpost, hs (stateAt T fn aux0 y0 st n)]
    rfl

theorem stays (y0 : Y) (st0 : St) (hi : S.init fn y0 = .ok st0) (h0 : ∀ aux r, (S.postprocess fn y0 aux st0 r).1 = y0)
    (h1 : ∀ r, (S.postprocess fn (S.step fn y0 st0).1 (S.step fn y0 st0).2.2 (S.step fn y0 st0).2.1 r).1 = y0) (n : Nat) :
    Interactive.oneByOne S af fn aux0 y0 n = .ok y0 := by
  induction n with
  | zero => rfl
  | succ n ih =>
    unfold Interactive.oneByOne
    rw [ih]
    obtain ⟨r, hr | hr⟩ := one_step_or_none S af fn aux0 y0 st0 hi
    · show Interactive.oneStep S af fn aux0 _ = _
      rw [hr, h0]
    · show Interactive.oneStep S af fn aux0 _ = _
      rw [hr, h1]

end one

section solvers
variable {ι κ A J SS DS HS OS L : Type}

/-- **C75.** Fixed-point iteration, one step at a time. -/
theorem C75_fixed_point (cfg : FixedPointIter.Cfg ι ℝ) (af : (ι → ℝ) → Bool) (fn : (ι → ℝ) → (ι → ℝ) × A) (aux0 : A) (y0 : ι → ℝ) (n : Nat)
    (hf : ∀ k, k < n → af (iterateAt (FixedPointIter.solver cfg) fn aux0 y0 none k) = true) :
    Interactive.oneByOne (FixedPointIter.solver cfg) af fn aux0 y0 n = .ok (iterateAt (FixedPointIter.solver cfg) fn aux0 y0 none n) :=
  C75_one_by_one_partial _ af fn aux0 _ none (fun _ => ⟨none, rfl, rfl, fun _ => rfl⟩) (fun _ _ _ _ => rfl) y0 n hf

/-- **C75.** The Optax wrapper, one step at a time, with an optimiser whose updates do not depend on its state (such as `sgd` without
momentum): every solve starts with a fresh optimiser state. -/
theorem C75_optax (cfg : Optax.Cfg ι OS) (ho : ∀ g s s' p v f, (cfg.optim.update g s p v f).1 = (cfg.optim.update g s' p v f).1)
    (af : (ι → ℝ) → Bool) (fn : (ι → ℝ) → ℝ × A) (aux0 : A) (y0 : ι → ℝ) (n : Nat)
    (hf : ∀ k, k < n → af (iterateAt (Optax.solver cfg) fn aux0 y0 (Optax.init cfg y0) k) = true) :
    Interactive.oneByOne (Optax.solver cfg) af fn aux0 y0 n = .ok (iterateAt (Optax.solver cfg) fn aux0 y0 (Optax.init cfg y0) n) := by
  refine C75_one_by_one_partial _ af fn aux0 _ _ (fun y => ⟨_, rfl, rfl, fun st' => ?_⟩) (fun _ _ _ _ => rfl) y0 n hf
  show Optax.applyUpdates _ _ = Optax.applyUpdates _ _
  rw [ho _ _ st'.optState]

/-- **C75.** Newton's method, one step at a time; and Chord, one step at a time, is not Chord but Newton's method: the Jacobian is computed
anew in each solve. -/
theorem C75_newton_chord (cfg : NewtonChord.Cfg ι κ ℝ J) (isNewton : Bool) (af : (ι → ℝ) → Bool) (fn : (ι → ℝ) → (κ → ℝ) × A) (aux0 : A)
    (y0 : ι → ℝ) (n : Nat)
    (hfirst : cfg.cauchy = false ∨ ∀ y, NewtonChord.terminate cfg y (NewtonChord.init { cfg with isNewton } y) = (false, .successful))
    (hf : ∀ k, k < n → af (iterateAt (NewtonChord.solver { cfg with isNewton := true }) fn aux0 y0
      (NewtonChord.init { cfg with isNewton := true } y0) k) = true) :
    Interactive.oneByOne (NewtonChord.solver { cfg with isNewton }) af fn aux0 y0 n =
      .ok (iterateAt (NewtonChord.solver { cfg with isNewton := true }) fn aux0 y0 (NewtonChord.init { cfg with isNewton := true } y0) n) := by
  refine C75_one_by_one_partial _ af fn aux0 _ _ (fun y => ⟨_, rfl, ?_, fun st' => ?_⟩) (fun _ _ _ _ => rfl) y0 n hf
  · rcases hfirst with h | h
    · show NewtonChord.terminate _ _ _ = _
      simp [NewtonChord.terminate, NewtonChord.init, h]
    · exact h y
  · cases isNewton <;> rfl

/-- **C75, disagreement.** With the search-based minimisers and least-squares solvers - gradient descent, nonlinear CG, BFGS, DFP, L-BFGS,
Gauss-Newton, Levenberg-Marquardt, dogleg, whatever their searches and descents - repeated solves of one step never move at all: the first
step of a solve only evaluates the function at the starting point.  The same goes for everything wrapped in `BestSoFar…`. -/
theorem C75_never_moves (af : (ι → ℝ) → Bool) (aux0 : A) (y0 : ι → ℝ) (n : Nat) :
    (∀ (cfg : GradientDescent.Cfg ι SS DS) (fn : (ι → ℝ) → ℝ × A), (∃ st0, (GradientDescent.solver cfg aux0).init fn y0 = .ok st0) →
      Interactive.oneByOne (GradientDescent.solver cfg aux0) af fn aux0 y0 n = .ok y0) ∧
    (∀ (cfg : QuasiNewton.Cfg ι SS DS HS) (fn : (ι → ℝ) → ℝ × A), (∃ st0, (QuasiNewton.solver cfg aux0).init fn y0 = .ok st0) →
      Interactive.oneByOne (QuasiNewton.solver cfg aux0) af fn aux0 y0 n = .ok y0) ∧
    (∀ (cfg : GaussNewton.Cfg ι κ SS DS) (fn : (ι → ℝ) → (κ → ℝ) × A), (∃ st0, (GaussNewton.solver cfg aux0).init fn y0 = .ok st0) →
      Interactive.oneByOne (GaussNewton.solver cfg aux0) af fn aux0 y0 n = .ok y0) ∧
    ∀ (S : Solver (ι → ℝ) Out (Out × A) St Stats) (toLoss : (ι → ℝ) → Out → ℝ) (inf : ℝ) (auxZero : A) (fn : (ι → ℝ) → Out × A),
      (∃ st0, (BestSoFar.solver S toLoss inf auxZero).init fn y0 = .ok st0) →
      Interactive.oneByOne (BestSoFar.solver S toLoss inf auxZero) af fn aux0 y0 n = .ok y0 := by
  refine ⟨?_, ?_, ?_, ?_⟩
  · rintro cfg fn ⟨st0, hi⟩
    have hy : st0.yEval = y0 := by
      change GradientDescent.init cfg aux0 y0 = _ at hi
      unfold GradientDescent.init at hi
      simp only at hi
      split at hi
      · cases hi
      · cases hi; rfl
    refine stays _ af fn aux0 y0 st0 hi (fun _ _ => rfl) (fun r => ?_) n
    show (GradientDescent.step cfg fn y0 st0).1 = y0
    unfold GradientDescent.step
    simp only [hy]
    split <;> rfl
  · rintro cfg fn ⟨st0, hi⟩
    have hy : st0.yEval = y0 := by
      change QuasiNewton.init cfg aux0 y0 = _ at hi
      unfold QuasiNewton.init at hi
      simp only at hi
      split at hi
      · cases hi
      · cases hi; rfl
    refine stays _ af fn aux0 y0 st0 hi (fun _ _ => rfl) (fun r => ?_) n
    show (QuasiNewton.step cfg fn y0 st0).1 = y0
    unfold QuasiNewton.step
    simp only [hy]
    split <;> rfl
  · rintro cfg fn ⟨st0, hi⟩
    have hy : st0.yEval = y0 := by
      change GaussNewton.init cfg aux0 y0 = _ at hi
      unfold GaussNewton.init at hi
      simp only at hi
      split at hi
      · cases hi
      · cases hi; rfl
    refine stays _ af fn aux0 y0 st0 hi (fun _ _ => rfl) (fun r => ?_) n
    show (GaussNewton.step cfg fn y0 st0).1 = y0
    unfold GaussNewton.step
    simp only [hy]
    split <;> rfl
  · rintro S toLoss inf auxZero fn ⟨st0, hi⟩
    have hy : st0.bestY = y0 := by
      change BestSoFar.init S inf auxZero fn y0 = _ at hi
      unfold BestSoFar.init at hi
      split at hi
      · cases hi
      · cases hi; rfl
    refine stays _ af fn aux0 y0 st0 hi (fun _ _ => hy) (fun r => ?_) n
    show (BestSoFar.step S toLoss fn y0 st0).2.1.bestY = y0
    unfold BestSoFar.step
    simp only [hy, ite_self]

/-- Gradient descent for `y²`, from `1`: the solve itself does move (so that the theorem above says something). -/
example :
    let cfg : GradientDescent.Cfg Unit Unit (Unit → ℝ) :=
      GradientDescent.gradientDescent 0.25 0.1 0.1 (fun v => |v ()|) (fun v => |v ()|) fun y i => 2 * y i
    ∃ st0, (GradientDescent.solver cfg ()).init (fun y => (y () ^ 2, ())) (fun _ => 1) = .ok st0 ∧
      iterateAt (GradientDescent.solver cfg ()) (fun y => (y () ^ 2, ())) () (fun _ => 1) st0 2 () = 1 / 2 := by
  refine ⟨_, rfl, ?_⟩
  show (1 : ℝ) + -0.25 * (2 * 1) = 1 / 2
  norm_num

/-- **C75, disagreement.** Golden-section search starts again from the whole interval in each solve: all solves of one step, the first and
the millionth, return the same point. -/
theorem C75_golden_restarts (cfg : Golden.Cfg) (fn : ℝ → ℝ × A) (aux0 : A) (y0 : ℝ) (st0 : Golden.State)
    (hi : (Golden.solver cfg).init fn y0 = .ok st0) (n : Nat) :
    Interactive.oneByOne (Golden.solver cfg) (fun _ => true) fn aux0 y0 (n + 1) =
      .ok (iterateAt (Golden.solver cfg) fn aux0 y0 st0 1) := by
  have hy : ∀ y, (Golden.solver cfg).init fn y = .ok st0 := fun y => hi
  have hst : st0.first = true ∧ st0.terminate = false := by
    change Golden.init cfg fn y0 = _ at hi
    unfold Golden.init at hi
    split at hi
    · cases hi
    · split at hi
      · cases hi; exact ⟨rfl, rfl⟩
      · cases hi
  have key : ∀ y, Interactive.oneStep (Golden.solver cfg) (fun _ => true) fn aux0 y =
      .ok (iterateAt (Golden.solver cfg) fn aux0 y0 st0 1) := by
    intro y
    obtain ⟨r, hr⟩ := one_step (Golden.solver cfg) (fun _ => true) fn aux0 y st0 (hy y) rfl (by
      show (st0.terminate, Result.successful) = _
      rw [hst.2])
    rw [hr]
    show Except.ok (Golden.step cfg fn y st0).1 = .ok (Golden.step cfg fn y0 st0).1
    simp only [Golden.step, hst.1, if_true]
  cases n with
  | zero => exact key y0
  | succ n =>
    have : ∃ y, Interactive.oneByOne (Golden.solver cfg) (fun _ => true) fn aux0 y0 (n + 1) = .ok y := by
      induction n with
      | zero => exact ⟨_, key y0⟩
      | succ n ih =>
        obtain ⟨y, h⟩ := ih
        refine ⟨iterateAt (Golden.solver cfg) fn aux0 y0 st0 1, ?_⟩
        unfold Interactive.oneByOne
        rw [h]
        exact key y
    obtain ⟨y, h⟩ := this
    unfold Interactive.oneByOne
    rw [h]
    exact key y

/-- Bisection on `[0, 1]`. -/
noncomputable def unitBisection : Bisection.Cfg ℝ :=
  { rtol := 0, atol := 1 / 1000, flip := .detect, expand := false, lower := 0, upper := 1, scalarArgs := true, fStruct := .leaf [] true }

/-- **C75, disagreement.** Bisection starts again from the whole interval in each solve: looking for the root `9/20` of `y - 9/20` in `[0, 1]`
from `1/3`, solves of one step go back and forth between `1/3` and `2/3` for ever. -/
theorem C75_bisection_cycles (n : Nat) :
    Interactive.oneByOne (Bisection.solver unitBisection) (fun _ => true) (fun y => (y - 9 / 20, ())) () (1 / 3) (2 * n) = .ok (1 / 3) ∧
    Interactive.oneByOne (Bisection.solver unitBisection) (fun _ => true) (fun y => (y - 9 / 20, ())) () (1 / 3) (2 * n + 1) = .ok (2 / 3) := by
  have hi : ∀ y : ℝ, (Bisection.solver unitBisection).init (fun y : ℝ => (y - 9 / 20, ())) y =
      .ok { lower := 0, upper := 1, flip := false, error := none } := by
    intro y
    norm_num [Bisection.solver, Bisection.init, unitBisection]
  have h1 : Interactive.oneStep (Bisection.solver unitBisection) (fun _ => true) (fun y : ℝ => (y - 9 / 20, ())) () (1 / 3) = .ok (2 / 3) := by
    obtain ⟨r, hr⟩ := one_step (Bisection.solver unitBisection) (fun _ => true) (fun y : ℝ => (y - 9 / 20, ())) () (1 / 3) _ (hi _) rfl (by
      show Bisection.terminate _ _ _ = _
      simp [Bisection.terminate])
    rw [hr]
    norm_num [Bisection.solver, Bisection.step]
  have h2 : Interactive.oneStep (Bisection.solver unitBisection) (fun _ => true) (fun y : ℝ => (y - 9 / 20, ())) () (2 / 3) = .ok (1 / 3) := by
    obtain ⟨r, hr⟩ := one_step (Bisection.solver unitBisection) (fun _ => true) (fun y : ℝ => (y - 9 / 20, ())) () (2 / 3) _ (hi _) rfl (by
      show Bisection.terminate _ _ _ = _
      simp [Bisection.terminate])
    rw [hr]
    norm_num [Bisection.solver, Bisection.step]
  induction n with
  | zero =>
    refine ⟨rfl, ?_⟩
    exact h1
  | succ n ih =>
    have e : Interactive.oneByOne (Bisection.solver unitBisection) (fun _ => true) (fun y : ℝ => (y - 9 / 20, ())) () (1 / 3) (2 * n + 2) =
        .ok (1 / 3) := by
      unfold Interactive.oneByOne
      rw [ih.2]
      exact h2
    refine ⟨e, ?_⟩
    show Interactive.oneByOne _ _ _ _ _ (2 * n + 2 + 1) = _
    unfold Interactive.oneByOne
    rw [e]
    exact h1

end solvers

end Verif.Props
