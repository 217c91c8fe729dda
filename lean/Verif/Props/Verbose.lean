import Verif.Model.Verbose
import Verif.Props.Search
import Verif.Lemmas.SimulateRel
import Verif.Props.Offset
import Verif.Props.LBFGS

/-!
C81: what `verbose` shows.

A user expects: that it changes nothing; that `False` shows nothing, `True` prints one line per step, and a callable is called once per
step; that the reports of a solve describe its steps in order, each quantity being what its name says.  The last is false of two
quantities (`C81_loss_of_another_point`): the "loss on the last accepted step" is not the loss at the "y on the last accepted step"
when the step is accepted (the first is that of the point before, the second is not), and it is `0` at the first step.
-/

namespace Verif.Props

open Driver Verif.Spec Verbose
open Verif.Relabel (outcome)

variable {ι κ A SS DS HS OS : Type} {Y Out Aux St Stats : Type}

/-- **C81.** `verbose` accepts booleans and callables only. -/
theorem C81_argument (a : Arg) :
    (∃ h, defaultVerbose a = .ok h) ↔ a ≠ .other := by
  cases a with
  | bool b => cases b <;> simp [defaultVerbose]
  | callable => simp [defaultVerbose]
  | other => simp [defaultVerbose]

/-- **C81.** Watching a solve does not change it. -/
theorem C81_transparent (S : Solver Y Out Aux St Stats) (h : Handler) (rep : (Y → Out × Aux) → Y → St → List (String × Value ι))
    (af : Y → Bool) (fn : Y → Out × Aux) (aux0 : Aux) (y0 : Y) (ms : Option ℕ) (throw : Bool) :
    outcome (iterativeSolve (watched S h rep) af fn aux0 y0 ms throw) = outcome (iterativeSolve S af fn aux0 y0 ms throw) := by
  have key : Follows S fn (watched S h rep) fn id (fun s s' => s'.1 = s) :=
    { init := fun y => by
        cases hi : S.init fn y with
        | error e => exact .inl ⟨e, rfl, by simp [watched, hi, Except.map]⟩
        | ok st => exact .inr ⟨st, (st, []), rfl, by simp [watched, hi, Except.map], rfl⟩
      step := fun y st st' e => by subst e; exact ⟨rfl, rfl, rfl⟩
      terminate := fun y st st' e => by subst e; rfl
      postY := fun y a st st' r e => by subst e; rfl
      postA := fun y a st st' r e => by subst e; rfl }
  exact (key.solve (fun _ => rfl) aux0 y0 ms throw).trans (Offset.unmoved _)

/-- The trace of a watched solver. -/
theorem watched_trace (S : Solver Y Out Aux St Stats) (h : Handler) (rep : (Y → Out × Aux) → Y → St → List (String × Value ι))
    (fn : Y → Out × Aux) (aux0 : Aux) (y0 : Y) (st0 : St) (k : ℕ) :
    trace (watched S h rep) fn aux0 y0 (st0, []) k = (iterateAt S fn aux0 y0 st0 k, (stateAt S fn aux0 y0 st0 k,
      (List.range k).flatMap fun j => emit h (rep fn (iterateAt S fn aux0 y0 st0 j) (stateAt S fn aux0 y0 st0 j))),
      auxAt S fn aux0 y0 st0 k) := by
  induction k with
  | zero => rfl
  | succ k ih =>
    simp only [trace, ih, List.range_succ, List.flatMap_append, List.flatMap_cons, List.flatMap_nil, List.append_nil]
    rfl

/-- **C81.** The log of a solve has the reports of its steps, one for each step taken, in order; nothing is shown after the last step. -/
theorem C81_one_report_per_step (S : Solver Y Out Aux St Stats) (h : Handler)
    (rep : (Y → Out × Aux) → Y → St → List (String × Value ι)) (af : Y → Bool) (fn : Y → Out × Aux) (aux0 : Aux) (y0 : Y)
    (ms : Option ℕ) (throw : Bool) (sol : Solution Y Aux (St × List (Effect ι)) (Stats × List (Effect ι)))
    (hs : iterativeSolve (watched S h rep) af fn aux0 y0 ms throw = some (.ok sol)) :
    ∃ st0, S.init fn y0 = .ok st0 ∧ sol.stats.2 =
      (List.range sol.numSteps).flatMap fun k => emit h (rep fn (iterateAt S fn aux0 y0 st0 k) (stateAt S fn aux0 y0 st0 k)) := by
  obtain ⟨_, _, st0', hi, hst, hp⟩ := C01_step_budget _ _ _ _ _ _ _ _ hs
  cases hi0 : S.init fn y0 with
  | error e => simp [watched, hi0, Except.map] at hi
  | ok st0 =>
    refine ⟨st0, rfl, ?_⟩
    have e : st0' = (st0, []) := by
      simp only [watched, hi0, Except.map, Except.ok.injEq] at hi
      exact hi.symm
    subst e
    have h3 : sol.stats.2 = sol.state.2 := by
      have := congrArg (fun t => t.2.2.2) hp
      exact this
    rw [h3, hst, stateAt, watched_trace]

/-- **C81.** `False` shows nothing; `True` prints one line per step; a callable is called once per step with the same information. -/
theorem C81_handlers (n : ℕ) (r : ℕ → List (String × Value ι)) (hr : ∀ k, r k ≠ []) :
    (∃ h, defaultVerbose (.bool false) = .ok h ∧ ((List.range n).flatMap fun k => emit h (r k)) = []) ∧
    (∃ h, defaultVerbose (.bool true) = .ok h ∧
      ((List.range n).flatMap fun k => emit h (r k)) = (List.range n).map fun k => .printed (r k)) ∧
    (∃ h, defaultVerbose .callable = .ok h ∧
      ((List.range n).flatMap fun k => emit h (r k)) = (List.range n).map fun k => .called (r k)) := by
  refine ⟨⟨_, rfl, by simp [emit]⟩, ⟨_, rfl, ?_⟩, ⟨_, rfl, ?_⟩⟩
  · induction n with
    | zero => rfl
    | succ n ih =>
      have : 0 < (r n).length := List.length_pos_iff.mpr (hr n)
      rw [List.range_succ, List.flatMap_append, List.map_append, ih]; simp [emit, this]
  · induction n with
    | zero => rfl
    | succ n ih => rw [List.range_succ, List.flatMap_append, List.map_append, ih]; simp [emit]

/-! ### What the reports say -/

/-- **C81**, least-squares solvers, for every search that accepts the first step, every descent and every history; report number `k`
is that of the `k`-th step, counted from `0`.  It has the number of the step, the numbers of steps accepted before and rejected since,
the point evaluated with its loss, and the point kept: the one evaluated if the step is accepted, otherwise the one kept before.
Missing: the "loss on the last accepted step" is that of the "y on the last accepted step" of the report *before*; it is that of the
same report only if the step is rejected. -/
theorem C81_gauss_newton_partial [Fintype κ] (cfg : GaussNewton.Cfg ι κ SS DS)
    (hf : ∀ y z i j s, (cfg.search.step true y z i j s).2.1 = true) (aux0 : A) (fn : (ι → ℝ) → (κ → ℝ) × A) (y0 : ι → ℝ)
    (st0 : GaussNewton.State ι κ A SS DS) (hi : (GaussNewton.solver cfg aux0).init fn y0 = .ok st0) :
    let Y := iterateAt (GaussNewton.solver cfg aux0) fn aux0 y0 st0
    let St := stateAt (GaussNewton.solver cfg aux0) fn aux0 y0 st0
    let rep := fun k => gnReport cfg fn (Y k) (St k)
    let accepted := fun k => (cfg.search.step (St k).firstStep (Y k) (St k).yEval (.residualJac (St k).residual (St k).jac)
      (.residualJac (fn (St k).yEval).1 (cfg.jac (St k).yEval)) (St k).searchState).2.1
    let loss := fun y => (∑ i, (fn y).1 i ^ 2) / 2
    (∀ k, (rep k).numSteps = k ∧
      (rep k).acceptedSteps = ((List.range k).filter accepted).length ∧
      ((rep k).stepsSinceAcceptance ≤ k ∧
        (∀ j, k - (rep k).stepsSinceAcceptance ≤ j → j < k → accepted j = false) ∧
        ((rep k).stepsSinceAcceptance < k → accepted (k - (rep k).stepsSinceAcceptance - 1) = true)) ∧
      (rep k).lossThisStep = loss (rep k).y ∧
      (rep k).yLastAcceptedStep = Y (k + 1) ∧
      (accepted k = true → (rep k).yLastAcceptedStep = (rep k).y) ∧
      (accepted k = false → 1 ≤ k ∧ (rep k).yLastAcceptedStep = (rep (k - 1)).yLastAcceptedStep ∧
        (rep k).lossLastAcceptedStep = loss (rep k).yLastAcceptedStep) ∧
      (rep (k + 1)).lossLastAcceptedStep = loss (rep k).yLastAcceptedStep) ∧
    (rep 0).y = y0 ∧ (rep 0).yLastAcceptedStep = y0 ∧ (rep 0).lossLastAcceptedStep = 0 := by
  intro Y St rep accepted loss
  have C := C30_gauss_newton_family cfg hf aux0 fn y0 st0 hi
  have hloss : ∀ r : κ → ℝ, 0.5 * sumSquares r = (∑ i, r i ^ 2) / 2 := by
    intro r
    have : sumSquares r = ∑ i, r i ^ 2 := by simp only [sumSquares, treeDot, sq]
    rw [this]; norm_num; ring
  have h0 : st0.firstStep = true ∧ st0.yEval = y0 ∧ st0.residual = (fun _ => 0) ∧ st0.numAcceptedSteps = 0 ∧
      st0.numStepsSinceAcceptance = 0 := by
    simp only [GaussNewton.solver, GaussNewton.init] at hi
    split at hi
    · cases hi
    · cases hi; exact ⟨rfl, rfl, rfl, rfl, rfl⟩
  have ha0 : accepted 0 = true := by
    show (cfg.search.step st0.firstStep _ _ _ _ _).2.1 = true
    rw [h0.1]; exact hf _ _ _ _ _
  have hy : ∀ k, (rep k).yLastAcceptedStep = Y (k + 1) := by
    intro k
    cases hk : accepted k with
    | true => exact (if_pos hk).trans ((C k).2.1 hk).1.symm
    | false => exact (if_neg (fun h => Bool.noConfusion (hk.symm.trans h))).trans ((C k).2.2.1 hk).1.symm
  have hlast : ∀ k, 1 ≤ k → (rep k).lossLastAcceptedStep = loss (Y k) := by
    intro k hk
    show 0.5 * sumSquares (St k).residual = _
    rw [((C k).1 hk).1]; exact hloss _
  refine ⟨fun k => ⟨(C k).2.2.2, ?_, ?_, hloss _, hy k, fun h => if_pos h, fun h => ?_, ?_⟩, h0.2.1, ?_, ?_⟩
  · show (St k).numAcceptedSteps = _
    induction k with
    | zero => exact h0.2.2.2.1
    | succ k ih =>
      rw [List.range_succ, List.filter_append, List.length_append, ← ih]
      cases hk : accepted k with
      | true => rw [((C k).2.1 hk).2.1]; simp [hk]; rfl
      | false => rw [((C k).2.2.1 hk).2.2.2.2.2.2.1]; simp [hk]; rfl
  · show (St k).numStepsSinceAcceptance ≤ k ∧ (∀ j, k - (St k).numStepsSinceAcceptance ≤ j → j < k → accepted j = false) ∧
      ((St k).numStepsSinceAcceptance < k → accepted (k - (St k).numStepsSinceAcceptance - 1) = true)
    induction k with
    | zero =>
      refine ⟨le_of_eq h0.2.2.2.2, fun j _ hj => absurd hj (Nat.not_lt_zero _), fun h => absurd h (Nat.not_lt_zero _)⟩
    | succ k ih =>
      obtain ⟨i1, i2, i3⟩ := ih
      cases hk : accepted k with
      | true =>
        rw [((C k).2.1 hk).2.2]
        exact ⟨Nat.zero_le _, fun j h1 h2 => by omega, fun _ => by simpa using hk⟩
      | false =>
        rw [show (St (k + 1)).numStepsSinceAcceptance = (St k).numStepsSinceAcceptance + 1 from ((C k).2.2.1 hk).2.2.2.2.2.2.2]
        refine ⟨by omega, fun j h1 h2 => ?_, fun h => ?_⟩
        · rcases Nat.lt_succ_iff_lt_or_eq.mp h2 with h3 | h3
          · exact i2 j (by omega) h3
          · rw [h3]; exact hk
        · have := i3 (by omega)
          rwa [show k + 1 - ((St k).numStepsSinceAcceptance + 1) - 1 = k - (St k).numStepsSinceAcceptance - 1 by omega]
  · have hk : 1 ≤ k := by
      rcases Nat.eq_zero_or_pos k with h' | h'
      · rw [h', ha0] at h; simp at h
      · exact h'
    refine ⟨hk, ?_, ?_⟩
    · rw [hy, hy, Nat.sub_add_cancel hk]; exact ((C k).2.2.1 h).1
    · rw [hy, hlast k hk]; exact congrArg loss ((C k).2.2.1 h).1.symm
  · rw [hy, hlast (k + 1) (by omega)]
  · rw [hy]; exact ((C 0).2.1 ha0).1.trans h0.2.1
  · show 0.5 * sumSquares st0.residual = 0
    rw [h0.2.2.1, hloss]; simp

/-- **C81**, quasi-Newton minimisers (`BFGS`, `DFP`, `LBFGS` and user-made ones; `hv` holds for all Hessian approximations of the
library, `Offset.HessianBlind.value`).  Missing: as for the least-squares solvers. -/
theorem C81_quasi_newton_partial (cfg : QuasiNewton.Cfg ι SS DS HS) (hr : RecordsPoint cfg.hess)
    (hv : ∀ y z i f g s, GradientDescent.fOf (cfg.hess.updateHessian y z i f g s).1 = f)
    (hv0 : ∀ y, GradientDescent.fOf (cfg.hess.initHessian y 0 fun _ => 0).1 = 0)
    (hf : ∀ y z i j s, (cfg.search.step true y z i j s).2.1 = true) (aux0 : A) (fn : (ι → ℝ) → ℝ × A) (y0 : ι → ℝ)
    (st0 : QuasiNewton.State ι A SS DS HS) (hi : (QuasiNewton.solver cfg aux0).init fn y0 = .ok st0) :
    let Y := iterateAt (QuasiNewton.solver cfg aux0) fn aux0 y0 st0
    let St := stateAt (QuasiNewton.solver cfg aux0) fn aux0 y0 st0
    let rep := fun k => qnReport cfg fn (Y k) (St k)
    let accepted := fun k => (cfg.search.step (St k).firstStep (Y k) (St k).yEval (St k).fInfo (.eval (fn (St k).yEval).1)
      (St k).searchState).2.1
    let loss := fun y => (fn y).1
    (∀ k, (rep k).lossThisStep = loss (rep k).y ∧
      (rep k).yLastAcceptedStep = Y (k + 1) ∧
      (accepted k = true → (rep k).yLastAcceptedStep = (rep k).y) ∧
      (accepted k = false → 1 ≤ k ∧ (rep k).yLastAcceptedStep = (rep (k - 1)).yLastAcceptedStep ∧
        (rep k).lossLastAcceptedStep = loss (rep k).yLastAcceptedStep) ∧
      (rep (k + 1)).lossLastAcceptedStep = loss (rep k).yLastAcceptedStep) ∧
    (rep 0).y = y0 ∧ (rep 0).yLastAcceptedStep = y0 ∧ (rep 0).lossLastAcceptedStep = 0 := by
  intro Y St rep accepted loss
  have C := C30_quasi_newton_family cfg hr hf aux0 fn y0 st0 hi
  have h0 : st0.firstStep = true ∧ st0.yEval = y0 ∧ GradientDescent.fOf st0.fInfo = 0 := by
    simp only [QuasiNewton.solver, QuasiNewton.init] at hi
    split at hi
    · cases hi
    · cases hi; exact ⟨rfl, rfl, hv0 _⟩
  have ha0 : accepted 0 = true := by
    show (cfg.search.step st0.firstStep _ _ _ _ _).2.1 = true
    rw [h0.1]; exact hf _ _ _ _ _
  have hy : ∀ k, (rep k).yLastAcceptedStep = Y (k + 1) := by
    intro k
    cases hk : accepted k with
    | true => exact (if_pos hk).trans ((C k).2.1 hk).1.symm
    | false => exact (if_neg (fun h => Bool.noConfusion (hk.symm.trans h))).trans ((C k).2.2 hk).1.symm
  have hlast : ∀ k, (rep (k + 1)).lossLastAcceptedStep = loss (Y (k + 1)) := by
    intro k
    show GradientDescent.fOf (St (k + 1)).fInfo = _
    induction k with
    | zero =>
      have := congrArg Prod.fst ((C 0).2.1 ha0).2.2
      simp only at this
      rw [this, hv]; exact congrArg loss ((C 0).2.1 ha0).1.symm
    | succ k ih =>
      cases hk : accepted (k + 1) with
      | true =>
        have := congrArg Prod.fst ((C (k + 1)).2.1 hk).2.2
        simp only at this
        rw [this, hv]; exact congrArg loss ((C (k + 1)).2.1 hk).1.symm
      | false =>
        rw [((C (k + 1)).2.2 hk).2.1, ih]; exact congrArg loss ((C (k + 1)).2.2 hk).1.symm
  refine ⟨fun k => ⟨rfl, hy k, fun h => if_pos h, fun h => ?_, ?_⟩, h0.2.1, ?_, h0.2.2⟩
  · have hk : 1 ≤ k := by
      rcases Nat.eq_zero_or_pos k with h' | h'
      · rw [h', ha0] at h; simp at h
      · exact h'
    obtain _ | k := k
    · omega
    refine ⟨hk, ?_, ?_⟩
    · rw [hy, hy]; exact ((C (k + 1)).2.2 h).1
    · rw [hy, hlast k]; exact congrArg loss ((C (k + 1)).2.2 h).1.symm
  · rw [hy, hlast k]
  · rw [hy]; exact ((C 0).2.1 ha0).1.trans h0.2.1

/-- **C81**, `OptaxMinimiser`: the number of the step, the point it starts from and the value there. -/
theorem C81_optax (cfg : Optax.Cfg ι OS) (fn : (ι → ℝ) → ℝ × A) (aux0 : A) (y0 : ι → ℝ) (st0 : Optax.State OS)
    (hi : (Optax.solver cfg : Solver (ι → ℝ) ℝ A _ _).init fn y0 = .ok st0) (k : ℕ) :
    let Y := iterateAt (Optax.solver cfg) fn aux0 y0 st0
    let rep := optaxReport fn (Y k) (stateAt (Optax.solver cfg) fn aux0 y0 st0 k)
    rep.numSteps = k ∧ rep.y = Y k ∧ rep.lossThisStep = (fn (Y k)).1 := by
  intro Y rep
  refine ⟨?_, rfl, rfl⟩
  show (stateAt (Optax.solver cfg) fn aux0 y0 st0 k).step = k
  induction k with
  | zero => simp only [Optax.solver, Except.ok.injEq] at hi; subst hi; rfl
  | succ k ih => show (stateAt (Optax.solver cfg) fn aux0 y0 st0 k).step + 1 = k + 1; rw [ih]

/-- **C81.** What the least-squares solvers show in step `k` (counting from 0), by the names under which it is shown: the number of
steps taken before; a point and its loss; the iterate after this step; the number of accepted candidates so far; and the step size with
which the next candidate is made from that iterate. -/
theorem C81_gauss_newton_names (cfg : GaussNewton.Cfg ι κ SS DS) [Fintype κ]
    (hf : ∀ y z i j s, (cfg.search.step true y z i j s).2.1 = true) (aux0 : A) (fn : (ι → ℝ) → (κ → ℝ) × A) (y0 : ι → ℝ)
    (st0 : GaussNewton.State ι κ A SS DS) (hi : (GaussNewton.solver cfg aux0).init fn y0 = .ok st0) (k : ℕ) :
    let Y := iterateAt (GaussNewton.solver cfg aux0) fn aux0 y0 st0
    let St := stateAt (GaussNewton.solver cfg aux0) fn aux0 y0 st0
    let shown := fun k => (gnReport cfg fn (Y k) (St k)).kwargs
    let accepted := fun k => (cfg.search.step (St k).firstStep (Y k) (St k).yEval (.residualJac (St k).residual (St k).jac)
      (.residualJac (fn (St k).yEval).1 (cfg.jac (St k).yEval)) (St k).searchState).2.1
    (shown k).lookup "Step" = some (.count k) ∧
    (∃ y, (shown k).lookup "y" = some (.point y) ∧
      (shown k).lookup "Loss on this step" = some (.number ((∑ i, (fn y).1 i ^ 2) / 2))) ∧
    (shown k).lookup "Accepted steps" = some (.count ((List.range k).filter accepted).length) ∧
    (shown k).lookup "y on the last accepted step" = some (.point (Y (k + 1))) ∧
    (∃ y, (shown k).lookup "y on the last accepted step" = some (.point y) ∧
      (shown (k + 1)).lookup "Loss on the last accepted step" = some (.number ((∑ i, (fn y).1 i ^ 2) / 2))) ∧
    (∃ n ≤ k, (shown k).lookup "Steps since acceptance" = some (.count n) ∧
      (∀ j, k - n ≤ j → j < k → accepted j = false) ∧ (n < k → accepted (k - n - 1) = true)) ∧
    ∃ size, (shown k).lookup "Step size" = some (.number size) ∧
      (shown (k + 1)).lookup "y" =
        some (.point fun i => Y (k + 1) i + (cfg.descent.step size (St (k + 1)).descentState).1 i) := by
  intro Y St shown accepted
  have h := (C81_gauss_newton_partial cfg hf aux0 fn y0 st0 hi).1 k
  obtain ⟨h1, h2, ⟨h3, h4, h5⟩, h6, h7, _, _, h8⟩ := h
  simp only [shown, GNReport.kwargs, List.lookup_cons, List.lookup_nil, String.reduceBEq, Option.some.injEq, Value.count.injEq,
    Value.point.injEq, Value.number.injEq, exists_eq_left', beq_self_eq_true]
  exact ⟨h1, h6, h2, h7, h8, ⟨_, h3, rfl, h4, h5⟩, rfl⟩

/-- **C81.** The same for the quasi-Newton minimisers. -/
theorem C81_quasi_newton_names (cfg : QuasiNewton.Cfg ι SS DS HS) (hr : RecordsPoint cfg.hess)
    (hv : ∀ y z i f g s, GradientDescent.fOf (cfg.hess.updateHessian y z i f g s).1 = f)
    (hv0 : ∀ y, GradientDescent.fOf (cfg.hess.initHessian y 0 fun _ => 0).1 = 0)
    (hf : ∀ y z i j s, (cfg.search.step true y z i j s).2.1 = true) (aux0 : A) (fn : (ι → ℝ) → ℝ × A) (y0 : ι → ℝ)
    (st0 : QuasiNewton.State ι A SS DS HS) (hi : (QuasiNewton.solver cfg aux0).init fn y0 = .ok st0) (k : ℕ) :
    let Y := iterateAt (QuasiNewton.solver cfg aux0) fn aux0 y0 st0
    let St := stateAt (QuasiNewton.solver cfg aux0) fn aux0 y0 st0
    let shown := fun k => (qnReport cfg fn (Y k) (St k)).kwargs
    (∃ y, (shown k).lookup "y" = some (.point y) ∧ (shown k).lookup "Loss on this step" = some (.number (fn y).1)) ∧
    (shown k).lookup "y on the last accepted step" = some (.point (Y (k + 1))) ∧
    (∃ y, (shown k).lookup "y on the last accepted step" = some (.point y) ∧
      (shown (k + 1)).lookup "Loss on the last accepted step" = some (.number (fn y).1)) ∧
    ∃ size, (shown k).lookup "Step size" = some (.number size) ∧
      (shown (k + 1)).lookup "y" =
        some (.point fun i => Y (k + 1) i + (cfg.descent.step size (St (k + 1)).descentState).1 i) := by
  intro Y St shown
  have h := (C81_quasi_newton_partial cfg hr hv hv0 hf aux0 fn y0 st0 hi).1 k
  obtain ⟨h6, h7, _, _, h8⟩ := h
  simp only [shown, QNReport.kwargs, List.lookup_cons, List.lookup_nil, String.reduceBEq, Option.some.injEq,
    Value.point.injEq, Value.number.injEq, exists_eq_left', beq_self_eq_true]
  exact ⟨h6, h7, h8, rfl⟩

/-- **C81.** The same for `OptaxMinimiser`. -/
theorem C81_optax_names (cfg : Optax.Cfg ι OS) (fn : (ι → ℝ) → ℝ × A) (aux0 : A) (y0 : ι → ℝ) (st0 : Optax.State OS)
    (hi : (Optax.solver cfg : Solver (ι → ℝ) ℝ A _ _).init fn y0 = .ok st0) (k : ℕ) :
    let Y := iterateAt (Optax.solver cfg) fn aux0 y0 st0
    let shown := (optaxReport fn (Y k) (stateAt (Optax.solver cfg) fn aux0 y0 st0 k)).kwargs
    shown.lookup "Step" = some (.count k) ∧ shown.lookup "y" = some (.point (Y k)) ∧
      shown.lookup "Loss on this step" = some (.number (fn (Y k)).1) := by
  intro Y shown
  obtain ⟨h1, h2, h3⟩ := C81_optax cfg fn aux0 y0 st0 hi k
  simp only [shown, OptaxReport.kwargs, List.lookup_cons, List.lookup_nil, String.reduceBEq, Option.some.injEq, Value.count.injEq,
    Value.point.injEq, Value.number.injEq, beq_self_eq_true]
  exact ⟨h1, h2, h3⟩

/-- The linear solver of the example: exact for the identity. -/
def oneSolve : LinSolve Unit Unit where
  rect _ r := (r, .successful)
  square _ r := (r, .successful)

/-- **C81, disagreement.** `GaussNewton` for the residual `y` from `1`.  The first report says that the loss on the last accepted step is
`0`, at `1`, where it is `1/2`; the second that it is `1/2`, at `0`, where it is `0`. -/
theorem C81_loss_of_another_point :
    let cfg := GaussNewton.gaussNewton (ι := Unit) (κ := Unit) 0.1 0.1 (fun v => |v ()|) (fun v => |v ()|) oneSolve fun _ => 1
    let fn : (Unit → ℝ) → (Unit → ℝ) × Unit := fun y => (y, ())
    ∃ st0, (GaussNewton.solver cfg ()).init fn (fun _ => 1) = .ok st0 ∧
      let rep := fun k => gnReport cfg fn (iterateAt (GaussNewton.solver cfg ()) fn () (fun _ => 1) st0 k)
        (stateAt (GaussNewton.solver cfg ()) fn () (fun _ => 1) st0 k)
      ((rep 0).lossLastAcceptedStep = 0 ∧ (rep 0).yLastAcceptedStep () = 1) ∧
      ((rep 1).lossLastAcceptedStep = 1 / 2 ∧ (rep 1).yLastAcceptedStep () = 0) := by
  intro cfg fn
  refine ⟨_, rfl, ?_⟩
  intro rep
  have h := C81_gauss_newton_partial cfg (fun _ _ _ _ _ => rfl) () fn (fun _ => 1) _ rfl
  refine ⟨⟨h.2.2.2, by rw [h.2.2.1]⟩, ?_, ?_⟩
  · have := (h.1 0).2.2.2.2.2.2.2
    rw [this, h.2.2.1]; simp [fn]
  · rw [(h.1 1).2.2.2.2.2.1 rfl]
    show (1 : ℝ) + -1 * 1 = 0
    norm_num

/-- `BFGS` (in both forms) and L-BFGS meet the assumptions of `C81_quasi_newton_partial` on the approximation of the Hessian; the first
step of the searches of the library is always accepted. -/
example [Fintype ι] [DecidableEq ι] (eps : ℝ) (b : Bool) :
    RecordsPoint (QuasiNewton.bfgs (ι := ι) eps b) ∧
    (∀ y z i f g s, GradientDescent.fOf ((QuasiNewton.bfgs (ι := ι) eps b).updateHessian y z i f g s).1 = f) ∧
    (∀ y, GradientDescent.fOf ((QuasiNewton.bfgs (ι := ι) eps b).initHessian y 0 fun _ => 0).1 = 0) :=
  ⟨bfgs_records eps b, fun y z i f g s => ((Offset.bfgs_blind eps b).value y z i f g s).2, fun _ => by cases b <;> rfl⟩

example [Fintype ι] [DecidableEq ι] (eps : ℝ) (h : ℕ) [NeZero h] :
    RecordsPoint (LBFGS.inverse (ι := ι) eps h) ∧
    (∀ y z i f g s, GradientDescent.fOf ((LBFGS.inverse (ι := ι) eps h).updateHessian y z i f g s).1 = f) ∧
    (∀ y, GradientDescent.fOf ((LBFGS.inverse (ι := ι) eps h).initHessian y 0 fun _ => 0).1 = 0) :=
  ⟨inverse_records eps h, fun y z i f g s => ((Offset.lbfgs_inverse_blind eps h).value y z i f g s).2, fun _ => rfl⟩

end Verif.Props
