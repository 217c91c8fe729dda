import Verif.Lemmas.Simulate
import Verif.Model.Bisection
import Verif.Model.FixedPoint
import Verif.Model.NewtonChord
import Verif.Model.Golden
import Verif.Model.NelderMead
import Verif.Model.GradientMethods
import Verif.Model.QuasiNewton
import Verif.Model.GaussNewton
import Verif.Model.BestSoFar
import Verif.Model.Optax
import Verif.Model.Problems

/-!
C150: the auxiliary output only goes along for the ride.

Replacing the auxiliary output `a` of the user's function by `h a`, for any `h`, changes nothing but the auxiliary output of
the solution, from `a` to `h a`: the answer, the result code, the errors raised and the number of steps stay the same.  In
particular a solve with `has_aux=True` finds what the solve of the same function without auxiliary output finds.
-/

namespace Verif.Props

open Driver

variable {Y Out A B St St' Stats Stats' ι κ K J SS DS HS OS L : Type}

/-- The user's function, with its auxiliary output changed from `a` to `h a`. -/
def changeAux (h : A → B) (fn : Y → Out × A) : Y → Out × B := fun y => ((fn y).1, h (fn y).2)

/-- The outcome of a solve, with its auxiliary output changed from `a` to `h a`. -/
def auxChanged (h : A → B) (o : Option (Except Err (Y × Result × A × Nat))) : Option (Except Err (Y × Result × B × Nat)) :=
  o.map fun r => r.map fun s => (s.1, s.2.1, h s.2.2.1, s.2.2.2)

/-- Whatever the function, the budget and the way of reporting failure, `S'` on the function with the changed auxiliary output
does what `S` does on the function itself. -/
def AuxRides (S : Solver Y Out A St Stats) (S' : Solver Y Out B St' Stats') (h : A → B) : Prop :=
  ∀ (fn : Y → Out × A) (af : Y → Bool) (a : A) (y0 : Y) (ms : Option ℕ) (throw : Bool),
    Relabel.outcome (iterativeSolve S' af (changeAux h fn) (h a) y0 ms throw) =
      auxChanged h (Relabel.outcome (iterativeSolve S af fn a y0 ms throw))

/-- The states correspond. -/
def StateRides (S : Solver Y Out A St Stats) (S' : Solver Y Out B St' Stats') (h : A → B) : Prop :=
  ∀ fn : Y → Out × A, ∃ mS, Simulates S fn S' (changeAux h fn) id h mS

theorem StateRides.rides {S : Solver Y Out A St Stats} {S' : Solver Y Out B St' Stats'} {h : A → B}
    (H : StateRides S S' h) : AuxRides S S' h := by
  intro fn af a y0 ms throw
  obtain ⟨mS, hS⟩ := H fn
  exact hS.solve (allfinite := af) (allfinite' := af) (fun _ => rfl) a y0 ms throw

theorem except_map_id {α : Type} (x : Except Err α) : x.map id = x := by cases x <;> rfl

/-! ### Solvers whose state does not hold the auxiliary output -/

section
variable [Add K] [Sub K] [Mul K] [Div K] [Zero K] [One K] [OfNat K 2] [OfScientific K] [LT K] [DecidableLT K] [HasAbs K]

omit [OfScientific K] in
theorem stateRides_newtonChord (cfg : NewtonChord.Cfg ι κ K J) (h : A → B) :
    StateRides (NewtonChord.solver cfg) (NewtonChord.solver cfg) h :=
  fun _ => ⟨id, fun _ => rfl, fun _ _ => rfl, fun _ _ => rfl, fun _ _ _ _ => rfl, fun _ _ _ _ => rfl⟩

omit [Zero K] [OfNat K 2] [OfScientific K] in
theorem stateRides_fixedPoint (cfg : FixedPointIter.Cfg ι K) (h : A → B) :
    StateRides (FixedPointIter.solver cfg) (FixedPointIter.solver cfg) h :=
  fun _ => ⟨id, fun _ => rfl, fun _ _ => rfl, fun _ _ => rfl, fun _ _ _ _ => rfl, fun _ _ _ _ => rfl⟩

omit [Div K] [One K] [OfNat K 2] in
theorem stateRides_bisection (cfg : Bisection.Cfg K) (h : A → B) :
    StateRides (Bisection.solver cfg) (Bisection.solver cfg) h :=
  fun _ => ⟨id, fun _ => (except_map_id _).symm, fun _ _ => rfl, fun _ _ => rfl, fun _ _ _ _ => rfl, fun _ _ _ _ => rfl⟩

end

theorem stateRides_golden (cfg : Golden.Cfg) (h : A → B) :
    StateRides (Golden.solver cfg) (Golden.solver cfg) h :=
  fun _ => ⟨id, fun _ => (except_map_id _).symm, fun _ _ => rfl, fun _ _ => rfl, fun _ _ _ _ => rfl, fun _ _ _ _ => rfl⟩

theorem stateRides_optax (cfg : Optax.Cfg ι OS) (h : A → B) :
    StateRides (Optax.solver cfg) (Optax.solver cfg) h :=
  fun _ => ⟨id, fun _ => rfl, fun _ _ => rfl, fun _ _ => rfl, fun _ _ _ _ => rfl, fun _ _ _ _ => rfl⟩

/-! ### Solvers whose state holds the auxiliary output of the last accepted point -/

theorem stateRides_gradient (cfg : GradientDescent.Cfg ι SS DS) (aux0 : A) (h : A → B) :
    StateRides (GradientDescent.solver cfg aux0) (GradientDescent.solver cfg (h aux0)) h := by
  intro fn
  refine ⟨fun st => ⟨st.firstStep, st.yEval, st.searchState, st.fInfo, h st.aux, st.descentState, st.terminate, st.result⟩,
    fun y => ?_, fun y st => ?_, fun _ _ => rfl, fun _ _ _ _ => rfl, fun _ _ _ _ => rfl⟩
  · simp only [GradientDescent.solver, GradientDescent.init, id]
    split <;> rfl
  · simp only [GradientDescent.solver, GradientDescent.step, changeAux, id]
    by_cases hacc : (cfg.search.step st.firstStep y st.yEval st.fInfo (.eval (fn st.yEval).1) st.searchState).2.1 = true <;>
      simp only [hacc, if_true, if_false, Bool.false_eq_true] <;> by_cases hf : st.firstStep = true <;>
      first | rfl | simp only [if_pos hf] | simp only [if_neg hf]

theorem stateRides_quasiNewton (cfg : QuasiNewton.Cfg ι SS DS HS) (aux0 : A) (h : A → B) :
    StateRides (QuasiNewton.solver cfg aux0) (QuasiNewton.solver cfg (h aux0)) h := by
  intro fn
  refine ⟨fun st => ⟨st.firstStep, st.yEval, st.searchState, st.fInfo, h st.aux, st.descentState, st.terminate, st.result,
      st.numAcceptedSteps, st.hessianUpdateState⟩,
    fun y => ?_, fun y st => ?_, fun _ _ => rfl, fun _ _ _ _ => rfl, fun _ _ _ _ => rfl⟩
  · simp only [QuasiNewton.solver, QuasiNewton.init, id]
    split <;> rfl
  · simp only [QuasiNewton.solver, QuasiNewton.step, changeAux, id]
    by_cases hacc : (cfg.search.step st.firstStep y st.yEval st.fInfo (.eval (fn st.yEval).1) st.searchState).2.1 = true <;>
      simp only [hacc, if_true, if_false, Bool.false_eq_true] <;> by_cases hf : st.firstStep = true <;>
      first | rfl | simp only [if_pos hf] | simp only [if_neg hf]

theorem stateRides_gaussNewton (cfg : GaussNewton.Cfg ι κ SS DS) (aux0 : A) (h : A → B) :
    StateRides (GaussNewton.solver cfg aux0) (GaussNewton.solver cfg (h aux0)) h := by
  intro fn
  refine ⟨fun st => ⟨st.firstStep, st.yEval, st.searchState, st.residual, st.jac, h st.aux, st.descentState, st.terminate,
      st.result, st.numSteps, st.numAcceptedSteps, st.numStepsSinceAcceptance⟩,
    fun y => ?_, fun y st => ?_, fun _ _ => rfl, fun _ _ _ _ => rfl, fun _ _ _ _ => rfl⟩
  · simp only [GaussNewton.solver, GaussNewton.init, id]
    split <;> rfl
  · simp only [GaussNewton.solver, GaussNewton.step, changeAux, id]
    by_cases hacc : (cfg.search.step st.firstStep y st.yEval (.residualJac st.residual st.jac)
        (.residualJac (fn st.yEval).1 (cfg.jac st.yEval)) st.searchState).2.1 = true <;>
      simp only [hacc, if_true, if_false, Bool.false_eq_true] <;> by_cases hf : st.firstStep = true <;>
      first | rfl | simp only [if_pos hf] | simp only [if_neg hf]

theorem stateRides_nelderMead {n : ℕ} [NeZero n] (cfg : NelderMead.Cfg n ι) (aux0 : A) (h : A → B) :
    StateRides (NelderMead.solver cfg aux0) (NelderMead.solver cfg (h aux0)) h := by
  intro fn
  refine ⟨fun st => ⟨st.simplex, st.fSimplex, st.fBest, st.best, st.bestIndex, st.fWorst, st.worst, st.worstIndex,
      st.fSecondWorst, st.stats, st.result, st.firstPass, h st.aux, st.step⟩,
    fun y => ?_, fun y st => ?_, fun _ _ => rfl, fun _ _ _ _ => rfl, fun _ _ _ _ => rfl⟩
  · simp only [NelderMead.solver, NelderMead.init, id]
    split <;> rfl
  · obtain ⟨_, _, _, _, _, _, _, _, _, _, _, fp, _, _⟩ := st
    cases fp <;> rfl

/-! ### Wrappers -/

/-- The auxiliary output the wrappers add to the user's stays as it is. -/
abbrev innerAux (h : A → B) : Out × A → Out × B := fun p => (p.1, h p.2)

theorem stateRides_bestSoFar [LT L] [DecidableLT L] {S : Solver Y Out (Out × A) St Stats}
    {S' : Solver Y Out (Out × B) St' Stats'} {h : A → B} (H : StateRides S S' (innerAux h)) (toLoss : Y → Out → L) (inf : L)
    (auxZero : A) :
    StateRides (BestSoFar.solver S toLoss inf auxZero) (BestSoFar.solver S' toLoss inf (h auxZero)) h := by
  intro fn
  obtain ⟨mS, hS⟩ := H (BestSoFar.auxmented fn)
  have haux : BestSoFar.auxmented (changeAux h fn) = changeAux (innerAux h) (BestSoFar.auxmented fn) := rfl
  refine ⟨fun st => ⟨st.bestY, h st.bestAux, st.bestLoss, mS st.state⟩, fun y => ?_, fun y st => ?_, fun y st => ?_,
    fun _ _ _ _ => rfl, fun _ _ _ _ => rfl⟩
  · simp only [BestSoFar.solver, BestSoFar.init, haux, id]
    have := hS.init y
    simp only [id] at this
    rw [this]
    cases S.init (BestSoFar.auxmented fn) y <;> rfl
  · have := hS.step y st.state
    simp only [id] at this
    simp only [BestSoFar.solver, BestSoFar.step, haux, id, this]
    split <;> rfl
  · exact hS.terminate y st.state

theorem stateRides_toRoot {O : Type} [LT K] [DecidableLT K] {S : Solver Y O (Out × A) St Stats}
    {S' : Solver Y O (Out × B) St' Stats'} {h : A → B} (H : StateRides S S' (innerAux h)) (norm : Out → K) (atol : K)
    (fInf : Out) : StateRides (toRoot norm atol fInf S) (toRoot norm atol fInf S') (innerAux h) := by
  intro fn
  obtain ⟨mS, hS⟩ := H fn
  refine ⟨fun st => (mS st.1, st.2), fun y => ?_, fun y st => ?_, fun y st => ?_, fun y a st r => ?_, fun y a st r => ?_⟩
  · have := hS.init y
    simp only [id] at this
    simp only [toRoot, id, this]
    cases S.init fn y <;> rfl
  · have := hS.step y st.1
    simp only [id] at this
    simp only [toRoot, id, this]
  · have := hS.terminate y st.1
    simp only [id] at this
    simp only [toRoot, id, this]
  · exact hS.postY y a st.1 r
  · exact hS.postA y a st.1 r

/-! ### The property -/

section
variable [Add K] [Sub K] [Mul K] [Div K] [Zero K] [One K] [OfNat K 2] [OfScientific K] [LT K] [DecidableLT K] [HasAbs K]

/-- Newton, Chord, FixedPointIteration and Bisection, over real numbers or in any floating-point format. -/
theorem C150_root_finders (h : A → B) (cfg : NewtonChord.Cfg ι κ K J) (cfg₁ : FixedPointIter.Cfg ι K)
    (cfg₂ : Bisection.Cfg K) :
    AuxRides (NewtonChord.solver cfg) (NewtonChord.solver cfg) h ∧
      AuxRides (FixedPointIter.solver cfg₁) (FixedPointIter.solver cfg₁) h ∧
      AuxRides (Bisection.solver cfg₂) (Bisection.solver cfg₂) h :=
  ⟨(stateRides_newtonChord cfg h).rides, (stateRides_fixedPoint cfg₁ h).rides, (stateRides_bisection cfg₂ h).rides⟩

end

/-- All minimisers: gradient descent and nonlinear CG, the quasi-Newton methods, Nelder-Mead, golden-section search and Optax,
with any search and descent. -/
theorem C150_minimisers {n : ℕ} [NeZero n] (h : A → B) (aux0 : A) (gd : GradientDescent.Cfg ι SS DS)
    (qn : QuasiNewton.Cfg ι SS DS HS) (nm : NelderMead.Cfg n ι) (gs : Golden.Cfg) (ox : Optax.Cfg ι OS) :
    AuxRides (GradientDescent.solver gd aux0) (GradientDescent.solver gd (h aux0)) h ∧
      AuxRides (QuasiNewton.solver qn aux0) (QuasiNewton.solver qn (h aux0)) h ∧
      AuxRides (NelderMead.solver nm aux0) (NelderMead.solver nm (h aux0)) h ∧
      AuxRides (Golden.solver gs) (Golden.solver gs) h ∧ AuxRides (Optax.solver ox) (Optax.solver ox) h :=
  ⟨(stateRides_gradient gd aux0 h).rides, (stateRides_quasiNewton qn aux0 h).rides, (stateRides_nelderMead nm aux0 h).rides,
    (stateRides_golden gs h).rides, (stateRides_optax ox h).rides⟩

/-- All least-squares solvers: Gauss-Newton, Levenberg-Marquardt, Dogleg and their relatives, with any search and descent. -/
theorem C150_least_squares (h : A → B) (aux0 : A) (cfg : GaussNewton.Cfg ι κ SS DS) :
    AuxRides (GaussNewton.solver cfg aux0) (GaussNewton.solver cfg (h aux0)) h :=
  (stateRides_gaussNewton cfg aux0 h).rides

/-- The `BestSoFar` wrappers around a minimiser or a least-squares solver. -/
theorem C150_best_so_far [LT L] [DecidableLT L] (h : A → B) (f0 : ℝ) (r0 : κ → ℝ) (aux0 auxZero : A) (inf : L)
    (qn : QuasiNewton.Cfg ι SS DS HS) (toLoss : (ι → ℝ) → ℝ → L) (gn : GaussNewton.Cfg ι κ SS DS)
    (toLoss' : (ι → ℝ) → (κ → ℝ) → L) :
    AuxRides (BestSoFar.solver (QuasiNewton.solver qn (f0, aux0)) toLoss inf auxZero)
        (BestSoFar.solver (QuasiNewton.solver qn (f0, h aux0)) toLoss inf (h auxZero)) h ∧
      AuxRides (BestSoFar.solver (GaussNewton.solver gn (r0, aux0)) toLoss' inf auxZero)
        (BestSoFar.solver (GaussNewton.solver gn (r0, h aux0)) toLoss' inf (h auxZero)) h :=
  ⟨(stateRides_bestSoFar (stateRides_quasiNewton qn (f0, aux0) (innerAux h)) toLoss inf auxZero).rides,
    (stateRides_bestSoFar (stateRides_gaussNewton gn (r0, aux0) (innerAux h)) toLoss' inf auxZero).rides⟩

theorem outcome_dropF {S T : Option (Except Err (Solution Y (Out × A) St Stats))} :
    S = T → Relabel.outcome (S.map fun r => r.map Solution.dropF) =
      (Relabel.outcome T).map fun r => r.map fun s => (s.1, s.2.1, s.2.2.1.2, s.2.2.2) := by
  rintro rfl
  cases S with
  | none => rfl
  | some r => cases r <;> rfl

/-- `root_find` with a least-squares solver. -/
theorem C150_root_find (h : A → B) (r0 : κ → ℝ) (aux0 : A) (cfg : GaussNewton.Cfg ι κ SS DS) (norm : (κ → ℝ) → ℝ) (atol : ℝ)
    (fInf : κ → ℝ) (fn : (ι → ℝ) → (κ → ℝ) × A) (af : (ι → ℝ) → Bool) (a : (κ → ℝ) × A) (y0 : ι → ℝ) (ms : Option ℕ)
    (throw : Bool) :
    Relabel.outcome (rootFindViaLeastSquares (GaussNewton.solver cfg (r0, h aux0)) norm atol fInf af (changeAux h fn)
        (a.1, h a.2) y0 ms throw) =
      auxChanged h (Relabel.outcome (rootFindViaLeastSquares (GaussNewton.solver cfg (r0, aux0)) norm atol fInf af fn a y0 ms
        throw)) := by
  have H := (stateRides_toRoot (stateRides_gaussNewton cfg (r0, aux0) (innerAux h)) norm atol fInf).rides (toLstsqFn fn) af a y0
    ms throw
  have hfn : changeAux (innerAux h) (toLstsqFn fn) = toLstsqFn (changeAux h fn) := rfl
  rw [hfn] at H
  unfold rootFindViaLeastSquares
  rw [outcome_dropF rfl, outcome_dropF rfl]
  change Option.map _ (Relabel.outcome (iterativeSolve _ af (toLstsqFn (changeAux h fn)) (innerAux h a) y0 ms throw)) = _
  have hs : GaussNewton.solver cfg (r0, h aux0) = GaussNewton.solver cfg (innerAux h (r0, aux0)) := rfl
  rw [hs, H]
  cases Relabel.outcome (iterativeSolve (toRoot norm atol fInf (GaussNewton.solver cfg (r0, aux0))) af (toLstsqFn fn) a y0 ms
    throw) with
  | none => rfl
  | some r => cases r <;> rfl

/-- A solve with `has_aux=True` and the solve of the same function without auxiliary output have the same answers, result
codes, errors and numbers of steps. -/
theorem C150_has_aux {S : Solver Y Out A St Stats} {S' : Solver Y Out Unit St' Stats'} (H : AuxRides S S' fun _ => ())
    (fn : Y → Out × A) (af : Y → Bool) (a : A) (y0 : Y) (ms : Option ℕ) (throw : Bool) :
    Relabel.outcome (iterativeSolve S' af (noneAux fun y => (fn y).1) () y0 ms throw) =
      auxChanged (fun _ => ()) (Relabel.outcome (iterativeSolve S af fn a y0 ms throw)) :=
  H fn af a y0 ms throw

/-- A solve that reports the value and the auxiliary output of a gradient descent, with and without. -/
example (cfg : GradientDescent.Cfg (Fin 2) Unit (Fin 2 → ℝ)) (fn : (Fin 2 → ℝ) → ℝ × ℝ) (y0 : Fin 2 → ℝ) :
    Relabel.outcome (iterativeSolve (GradientDescent.solver cfg ()) (fun _ => true) (noneAux fun y => (fn y).1) () y0 (some 256)
      false) = auxChanged (fun _ => ())
        (Relabel.outcome (iterativeSolve (GradientDescent.solver cfg 0) (fun _ => true) fn 0 y0 (some 256) false)) :=
  C150_has_aux (S := GradientDescent.solver cfg (0 : ℝ)) (S' := GradientDescent.solver cfg ())
    ((stateRides_gradient cfg (0 : ℝ) fun _ => ()).rides) fn _ 0 y0 _ _

end Verif.Props
