import Verif.Props.Driver
import Verif.Props.Search
import Verif.Model.Bisection
import Verif.Model.Golden
import Verif.Model.FixedPoint
import Verif.Props.NewtonChord
import Verif.Model.Optax
import Verif.Lemmas.SimulateRel
import Mathlib.Analysis.Convex.Basic

/-!
C84: a solve depends on the user's function only at the points it visits.
-/

namespace Verif.Props

open Driver Spec

section generic
variable {Y Out Aux St Stats : Type} {S S' : Solver Y Out Aux St Stats} {fn fn' : Y → Out × Aux} {aux0 : Aux} {y0 : Y}

/-- Two solvers that make the same steps along a run of one of them have this run in common. -/
theorem same_solution (hi : S'.init fn' y0 = S.init fn y0) (ht : S'.terminate fn' = S.terminate fn)
    (hp : S'.postprocess fn' = S.postprocess fn) {af : Y → Bool} {ms : Option ℕ} {throw : Bool} {sol : Solution Y Aux St Stats}
    (h : iterativeSolve S af fn aux0 y0 ms throw = some (.ok sol)) {st0 : St} (h0 : S.init fn y0 = .ok st0)
    (hs : ∀ k, k < sol.numSteps → S'.step fn' (iterateAt S fn aux0 y0 st0 k) (stateAt S fn aux0 y0 st0 k) =
      S.step fn (iterateAt S fn aux0 y0 st0 k) (stateAt S fn aux0 y0 st0 k)) :
    iterativeSolve S' af fn' aux0 y0 ms throw = some (.ok sol) := by
  have htr : ∀ k, k ≤ sol.numSteps → trace S' fn' aux0 y0 st0 k = trace S fn aux0 y0 st0 k := by
    intro k
    induction k with
    | zero => intro _; rfl
    | succ k ih =>
      intro hk
      rw [trace, trace, ih (by omega)]
      exact hs k (by omega)
  have hthrow := ((solve_iff ..).1 h).2
  obtain ⟨st1, h1, hc, hstop, e1, e2, e3, e4⟩ := solve_spec _ _ _ _ _ _ _ _ h
  obtain rfl : st1 = st0 := by rw [h1] at h0; injection h0
  have hC : ∀ k, k ≤ sol.numSteps → (Continues S' af fn' aux0 y0 st1 k ↔ Continues S af fn aux0 y0 st1 k) := by
    intro k hk
    simp only [Continues, verdictAt, testedAt, iterateAt, stateAt, htr k hk, htr (k - 1) (by omega), ht]
  obtain ⟨sol', h', hn⟩ := solve_exists S' af fn' aux0 y0 st1 (hi.trans h1) ms sol.numSteps
    (fun j hj => (hC j hj.le).2 (hc j hj)) (by rw [hC _ le_rfl]; exact hstop)
  obtain ⟨st2, h2, _, _, e1', e2', e3', e4'⟩ := solve_spec _ _ _ _ _ _ _ _ h'
  obtain rfl : st2 = st1 := by rw [hi, h1] at h2; injection h2 with h2; exact h2.symm
  rw [hn] at e1' e3' e4'
  have hr : sol'.result = sol.result := by
    rw [e4', e4]
    simp only [hC _ le_rfl, verdictAt, testedAt, iterateAt, stateAt, htr _ le_rfl, htr (sol.numSteps - 1) (by omega), ht]
    congr
  have hv : (sol'.value, sol'.aux, sol'.stats) = (sol.value, sol.aux, sol.stats) := by
    rw [e3', e3, hr, hp]
    simp only [iterateAt, stateAt, auxAt, htr _ le_rfl]
  have hst : sol'.state = sol.state := by
    rw [e1', e1]; simp only [stateAt, htr _ le_rfl]
  have : sol' = sol := by
    cases sol; cases sol'
    simp only [Prod.mk.injEq] at hv
    simp_all
  subst this
  exact (solve_iff ..).2 ⟨((solve_iff ..).1 h').1, hthrow⟩

/-- Two solvers that make the same steps on a set of points and states that a run does not leave have the same outcome. -/
theorem same_outcome (Inv : Y → St → Prop) (hi : S'.init fn' y0 = S.init fn y0) (ht : S'.terminate fn' = S.terminate fn)
    (hp : S'.postprocess fn' = S.postprocess fn) (h0 : ∀ st0, S.init fn y0 = .ok st0 → Inv y0 st0)
    (hinv : ∀ y st, Inv y st → Inv (S.step fn y st).1 (S.step fn y st).2.1)
    (hs : ∀ y st, Inv y st → S'.step fn' y st = S.step fn y st) (af : Y → Bool) (ms : Option ℕ) (throw : Bool) :
    iterativeSolve S' af fn' aux0 y0 ms throw = iterativeSolve S af fn aux0 y0 ms throw := by
  have : iterate S' af fn' aux0 y0 ms = iterate S af fn aux0 y0 ms := by
    unfold iterate
    rw [hi]
    cases hi0 : S.init fn y0 with
    | error e => rfl
    | ok st0 =>
      have hini : initCarry S' af fn' aux0 y0 st0 = initCarry S af fn aux0 y0 st0 := by
        simp only [initCarry, terminateAndResult, ht]
      have hpk : ∀ c, package S' fn' ms c = package S fn ms c := fun c => by simp only [package, hp]
      have := whileOpt_rel (cond := cond) (cond' := cond) (body := body S af fn) (body' := body S' af fn')
        (fun c c' => c' = c ∧ Inv c.y c.state) (fun c c' h => by rw [h.1]) (fun c c' h => by
          obtain ⟨rfl, h⟩ := h
          refine ⟨?_, hinv _ _ h⟩
          simp only [body, terminateAndResult, hs _ _ h, ht]) ms (initCarry S af fn aux0 y0 st0) _ ⟨rfl, h0 st0 hi0⟩
      simp only [hini]
      rcases this with ⟨h1, h2⟩ | ⟨d, d', h1, h2, h3, _⟩
      · rw [h1, h2]; rfl
      · rw [h1, h2, h3, Option.map_some, Option.map_some, hpk]
  simp only [iterativeSolve, this]

end generic

variable {ι κ A SS DS HS J OS : Type}

/-! ### Only the points visited matter -/

/-- **C84**, gradient methods: the solve uses the values of the function at the points evaluated, one in each step, and the gradients
at the iterates.  Any other function with the same values and gradients there has the same solution. -/
theorem C84_gradient_family (cfg : GradientDescent.Cfg ι SS DS) (grad' : (ι → ℝ) → (ι → ℝ)) (aux0 : A) (fn fn' : (ι → ℝ) → ℝ × A)
    (af : (ι → ℝ) → Bool) (y0 : ι → ℝ) (ms : Option ℕ) (throw : Bool) (sol : Solution (ι → ℝ) A (GradientDescent.State ι A SS DS) Unit)
    (h : iterativeSolve (GradientDescent.solver cfg aux0) af fn aux0 y0 ms throw = some (.ok sol))
    (st0 : GradientDescent.State ι A SS DS) (hi : (GradientDescent.solver cfg aux0).init fn y0 = .ok st0)
    (hv : ∀ k < sol.numSteps, fn' (stateAt (GradientDescent.solver cfg aux0) fn aux0 y0 st0 k).yEval =
      fn (stateAt (GradientDescent.solver cfg aux0) fn aux0 y0 st0 k).yEval)
    (hg : ∀ k < sol.numSteps, grad' (iterateAt (GradientDescent.solver cfg aux0) fn aux0 y0 st0 (k + 1)) =
      cfg.grad (iterateAt (GradientDescent.solver cfg aux0) fn aux0 y0 st0 (k + 1))) :
    iterativeSolve (GradientDescent.solver { cfg with grad := grad' } aux0) af fn' aux0 y0 ms throw = some (.ok sol) := by
  refine same_solution (S := GradientDescent.solver cfg aux0) (S' := GradientDescent.solver { cfg with grad := grad' } aux0)
    (fn := fn) (fn' := fn') rfl rfl rfl h hi fun k hk => ?_
  have h1 := hv k hk
  have h2 : grad' (GradientDescent.step cfg fn (iterateAt (GradientDescent.solver cfg aux0) fn aux0 y0 st0 k)
      (stateAt (GradientDescent.solver cfg aux0) fn aux0 y0 st0 k)).1 = cfg.grad (GradientDescent.step cfg fn
        (iterateAt (GradientDescent.solver cfg aux0) fn aux0 y0 st0 k) (stateAt (GradientDescent.solver cfg aux0) fn aux0 y0 st0 k)).1 :=
    hg k hk
  revert h1 h2
  generalize iterateAt (GradientDescent.solver cfg aux0) fn aux0 y0 st0 k = y
  generalize stateAt (GradientDescent.solver cfg aux0) fn aux0 y0 st0 k = st
  intro h1 h2
  simp only [GradientDescent.step] at h2
  simp only [GradientDescent.solver, GradientDescent.step, h1]
  cases ha : (cfg.search.step st.firstStep y st.yEval st.fInfo (FnInfo.eval (fn st.yEval).1) st.searchState).2.1 with
  | false => rfl
  | true =>
    rw [ha] at h2
    simp only [if_true] at h2 ⊢
    rw [h2]

/-- **C84**, quasi-Newton methods. -/
theorem C84_quasi_newton_family (cfg : QuasiNewton.Cfg ι SS DS HS) (grad' : (ι → ℝ) → (ι → ℝ)) (aux0 : A) (fn fn' : (ι → ℝ) → ℝ × A)
    (af : (ι → ℝ) → Bool) (y0 : ι → ℝ) (ms : Option ℕ) (throw : Bool) (sol : Solution (ι → ℝ) A (QuasiNewton.State ι A SS DS HS) Unit)
    (h : iterativeSolve (QuasiNewton.solver cfg aux0) af fn aux0 y0 ms throw = some (.ok sol))
    (st0 : QuasiNewton.State ι A SS DS HS) (hi : (QuasiNewton.solver cfg aux0).init fn y0 = .ok st0)
    (hv : ∀ k < sol.numSteps, fn' (stateAt (QuasiNewton.solver cfg aux0) fn aux0 y0 st0 k).yEval =
      fn (stateAt (QuasiNewton.solver cfg aux0) fn aux0 y0 st0 k).yEval)
    (hg : ∀ k < sol.numSteps, grad' (iterateAt (QuasiNewton.solver cfg aux0) fn aux0 y0 st0 (k + 1)) =
      cfg.grad (iterateAt (QuasiNewton.solver cfg aux0) fn aux0 y0 st0 (k + 1))) :
    iterativeSolve (QuasiNewton.solver { cfg with grad := grad' } aux0) af fn' aux0 y0 ms throw = some (.ok sol) := by
  refine same_solution (S := QuasiNewton.solver cfg aux0) (S' := QuasiNewton.solver { cfg with grad := grad' } aux0)
    (fn := fn) (fn' := fn') rfl rfl rfl h hi fun k hk => ?_
  have h1 := hv k hk
  have h2 : grad' (QuasiNewton.step cfg fn (iterateAt (QuasiNewton.solver cfg aux0) fn aux0 y0 st0 k)
      (stateAt (QuasiNewton.solver cfg aux0) fn aux0 y0 st0 k)).1 = cfg.grad (QuasiNewton.step cfg fn
        (iterateAt (QuasiNewton.solver cfg aux0) fn aux0 y0 st0 k) (stateAt (QuasiNewton.solver cfg aux0) fn aux0 y0 st0 k)).1 :=
    hg k hk
  revert h1 h2
  generalize iterateAt (QuasiNewton.solver cfg aux0) fn aux0 y0 st0 k = y
  generalize stateAt (QuasiNewton.solver cfg aux0) fn aux0 y0 st0 k = st
  intro h1 h2
  simp only [QuasiNewton.step] at h2
  simp only [QuasiNewton.solver, QuasiNewton.step, h1]
  cases ha : (cfg.search.step st.firstStep y st.yEval st.fInfo (FnInfo.eval (fn st.yEval).1) st.searchState).2.1 with
  | false => rfl
  | true =>
    rw [ha] at h2
    simp only [if_true] at h2 ⊢
    rw [h2]

/-- **C84**, least-squares solvers: residuals and Jacobians at the points evaluated, one in each step. -/
theorem C84_gauss_newton_family (cfg : GaussNewton.Cfg ι κ SS DS) (jac' : (ι → ℝ) → Matrix κ ι ℝ) (aux0 : A)
    (fn fn' : (ι → ℝ) → (κ → ℝ) × A) (af : (ι → ℝ) → Bool) (y0 : ι → ℝ) (ms : Option ℕ) (throw : Bool)
    (sol : Solution (ι → ℝ) A (GaussNewton.State ι κ A SS DS) Unit)
    (h : iterativeSolve (GaussNewton.solver cfg aux0) af fn aux0 y0 ms throw = some (.ok sol))
    (st0 : GaussNewton.State ι κ A SS DS) (hi : (GaussNewton.solver cfg aux0).init fn y0 = .ok st0)
    (hv : ∀ k < sol.numSteps, fn' (stateAt (GaussNewton.solver cfg aux0) fn aux0 y0 st0 k).yEval =
      fn (stateAt (GaussNewton.solver cfg aux0) fn aux0 y0 st0 k).yEval)
    (hg : ∀ k < sol.numSteps, jac' (stateAt (GaussNewton.solver cfg aux0) fn aux0 y0 st0 k).yEval =
      cfg.jac (stateAt (GaussNewton.solver cfg aux0) fn aux0 y0 st0 k).yEval) :
    iterativeSolve (GaussNewton.solver { cfg with jac := jac' } aux0) af fn' aux0 y0 ms throw = some (.ok sol) := by
  refine same_solution (S := GaussNewton.solver cfg aux0) (S' := GaussNewton.solver { cfg with jac := jac' } aux0)
    (fn := fn) (fn' := fn') rfl rfl rfl h hi fun k hk => ?_
  have h1 := hv k hk
  have h2 := hg k hk
  simp only [GaussNewton.solver] at h1 h2
  simp only [GaussNewton.solver, GaussNewton.step, h1, h2]

/-- **C84**, `Newton` and `Chord`: values at the points stepped from; Jacobians there (`Newton`) or at `y0` only (`Chord`). -/
theorem C84_newton (cfg : NewtonChord.Cfg ι κ ℝ J) (jac' : (ι → ℝ) → J) (aux0 : A) (fn fn' : (ι → ℝ) → (κ → ℝ) × A)
    (af : (ι → ℝ) → Bool) (y0 : ι → ℝ) (ms : Option ℕ) (throw : Bool) (sol : Solution (ι → ℝ) A (NewtonChord.State ι κ ℝ J) Unit)
    (h : iterativeSolve (NewtonChord.solver cfg) af fn aux0 y0 ms throw = some (.ok sol))
    (hv : ∀ k < sol.numSteps, fn' (iterateAt (NewtonChord.solver cfg) fn aux0 y0 (NewtonChord.init cfg y0) k) =
      fn (iterateAt (NewtonChord.solver cfg) fn aux0 y0 (NewtonChord.init cfg y0) k))
    (hg : if cfg.isNewton then ∀ k < sol.numSteps, jac' (iterateAt (NewtonChord.solver cfg) fn aux0 y0 (NewtonChord.init cfg y0) k) =
      cfg.jac (iterateAt (NewtonChord.solver cfg) fn aux0 y0 (NewtonChord.init cfg y0) k) else jac' y0 = cfg.jac y0) :
    iterativeSolve (NewtonChord.solver { cfg with jac := jac' }) af fn' aux0 y0 ms throw = some (.ok sol) := by
  have hst : ∀ k, (stateAt (NewtonChord.solver cfg) fn aux0 y0 (NewtonChord.init cfg y0) k).linearState =
      if cfg.isNewton then none else some (cfg.jac y0) := by
    intro k
    induction k with
    | zero => rfl
    | succ k ih => exact ih
  refine same_solution (S := NewtonChord.solver cfg) (S' := NewtonChord.solver { cfg with jac := jac' })
    (fn := fn) (fn' := fn') ?_ rfl rfl h rfl fun k hk => ?_
  · cases hn : cfg.isNewton with
    | true => simp [NewtonChord.solver, NewtonChord.init, hn]
    | false =>
      rw [hn] at hg
      simp only [Bool.false_eq_true, if_false] at hg
      simp [NewtonChord.solver, NewtonChord.init, hn, hg]
  · have h1 := hv k hk
    have h2 : NewtonChord.linSol { cfg with jac := jac' } (iterateAt (NewtonChord.solver cfg) fn aux0 y0 (NewtonChord.init cfg y0) k)
        (fn (iterateAt (NewtonChord.solver cfg) fn aux0 y0 (NewtonChord.init cfg y0) k)).1
        (stateAt (NewtonChord.solver cfg) fn aux0 y0 (NewtonChord.init cfg y0) k) =
        NewtonChord.linSol cfg (iterateAt (NewtonChord.solver cfg) fn aux0 y0 (NewtonChord.init cfg y0) k)
        (fn (iterateAt (NewtonChord.solver cfg) fn aux0 y0 (NewtonChord.init cfg y0) k)).1
        (stateAt (NewtonChord.solver cfg) fn aux0 y0 (NewtonChord.init cfg y0) k) := by
      simp only [NewtonChord.linSol, hst]
      cases hn : cfg.isNewton with
      | true => rw [hn] at hg; simp only [if_true] at hg ⊢; rw [hg k hk]
      | false => simp
    show NewtonChord.step { cfg with jac := jac' } fn' _ _ = NewtonChord.step cfg fn _ _
    simp only [NewtonChord.step, h1, h2]

/-- **C84**, `FixedPointIteration`: values at the points stepped from. -/
theorem C84_fixed_point (cfg : FixedPointIter.Cfg ι ℝ) (aux0 : A) (fn fn' : (ι → ℝ) → (ι → ℝ) × A)
    (af : (ι → ℝ) → Bool) (y0 : ι → ℝ) (ms : Option ℕ) (throw : Bool) (sol : Solution (ι → ℝ) A (Option ℝ) Unit)
    (h : iterativeSolve (FixedPointIter.solver cfg) af fn aux0 y0 ms throw = some (.ok sol))
    (hv : ∀ k < sol.numSteps, fn' (iterateAt (FixedPointIter.solver cfg) fn aux0 y0 none k) =
      fn (iterateAt (FixedPointIter.solver cfg) fn aux0 y0 none k)) :
    iterativeSolve (FixedPointIter.solver cfg) af fn' aux0 y0 ms throw = some (.ok sol) := by
  refine same_solution (S := FixedPointIter.solver cfg) (S' := FixedPointIter.solver cfg) (fn := fn) (fn' := fn') rfl rfl rfl h rfl fun k hk => ?_
  have h1 := hv k hk
  simp only [FixedPointIter.solver] at h1
  simp only [FixedPointIter.solver, FixedPointIter.step, h1]

/-- **C84**, `OptaxMinimiser` with an optimiser that does not call `value_fn`: values and gradients at the points stepped from. -/
theorem C84_optax (cfg : Optax.Cfg ι OS) (hopt : ∀ g s p v w w', cfg.optim.update g s p v w = cfg.optim.update g s p v w')
    (grad' : (ι → ℝ) → (ι → ℝ)) (aux0 : A) (fn fn' : (ι → ℝ) → ℝ × A)
    (af : (ι → ℝ) → Bool) (y0 : ι → ℝ) (ms : Option ℕ) (throw : Bool) (sol : Solution (ι → ℝ) A (Optax.State OS) Unit)
    (h : iterativeSolve (Optax.solver cfg) af fn aux0 y0 ms throw = some (.ok sol))
    (hv : ∀ k < sol.numSteps, fn' (iterateAt (Optax.solver cfg) fn aux0 y0 (Optax.init cfg y0) k) =
      fn (iterateAt (Optax.solver cfg) fn aux0 y0 (Optax.init cfg y0) k))
    (hg : ∀ k < sol.numSteps, grad' (iterateAt (Optax.solver cfg) fn aux0 y0 (Optax.init cfg y0) k) =
      cfg.grad (iterateAt (Optax.solver cfg) fn aux0 y0 (Optax.init cfg y0) k)) :
    iterativeSolve (Optax.solver { cfg with grad := grad' }) af fn' aux0 y0 ms throw = some (.ok sol) := by
  refine same_solution (S := Optax.solver cfg) (S' := Optax.solver { cfg with grad := grad' }) (fn := fn) (fn' := fn') rfl rfl rfl h rfl
    fun k hk => ?_
  have h1 := hv k hk
  have h2 := hg k hk
  show Optax.step { cfg with grad := grad' } fn' _ (stateAt (Optax.solver cfg) fn aux0 y0 (Optax.init cfg y0) k) =
    Optax.step cfg fn _ (stateAt (Optax.solver cfg) fn aux0 y0 (Optax.init cfg y0) k)
  simp only [Optax.step, h1, h2, hopt _ _ _ _ (fun y => (fn' y).1) fun y => (fn y).1]

/-- **C84**, `Bisection` with a fixed `flip`: values at the points stepped from. -/
theorem C84_bisection (cfg : Bisection.Cfg ℝ) (b : Bool) (hb : cfg.flip = .fixed b) (aux0 : A) (fn fn' : ℝ → ℝ × A)
    (af : ℝ → Bool) (y0 : ℝ) (ms : Option ℕ) (throw : Bool) (sol : Solution ℝ A (Bisection.State ℝ) Unit)
    (h : iterativeSolve (Bisection.solver cfg) af fn aux0 y0 ms throw = some (.ok sol))
    (st0 : Bisection.State ℝ) (hi : (Bisection.solver cfg).init fn y0 = .ok st0)
    (hv : ∀ k < sol.numSteps, fn' (iterateAt (Bisection.solver cfg) fn aux0 y0 st0 k) =
      fn (iterateAt (Bisection.solver cfg) fn aux0 y0 st0 k)) :
    iterativeSolve (Bisection.solver cfg) af fn' aux0 y0 ms throw = some (.ok sol) := by
  refine same_solution (S := Bisection.solver cfg) (S' := Bisection.solver cfg) (fn := fn) (fn' := fn') ?_ rfl rfl h hi
    fun k hk => ?_
  · simp only [Bisection.solver, Bisection.init, hb]
  have h1 := hv k hk
  simp only [Bisection.solver] at h1
  simp only [Bisection.solver, Bisection.step, h1]

/-! ### Domains: where the function need not make sense -/

/-- **C84.** `Bisection` (without `expand_if_necessary`) started in `[lower, upper]` never looks at the function outside: two functions
that agree there have the same outcome, whatever they are elsewhere. -/
theorem C84_bisection_domain (cfg : Bisection.Cfg ℝ) (he : cfg.expand = false) (y0 : ℝ) (hy : y0 ∈ Set.Icc cfg.lower cfg.upper)
    (fn fn' : ℝ → ℝ × A) (h : ∀ y ∈ Set.Icc cfg.lower cfg.upper, fn' y = fn y) (af : ℝ → Bool) (aux0 : A) (ms : Option ℕ)
    (throw : Bool) :
    iterativeSolve (Bisection.solver cfg) af fn' aux0 y0 ms throw = iterativeSolve (Bisection.solver cfg) af fn aux0 y0 ms throw := by
  have hlu : cfg.lower ≤ cfg.upper := hy.1.trans hy.2
  have hini : Bisection.init cfg fn' y0 = Bisection.init cfg fn y0 := by
    simp only [Bisection.init, h _ ⟨le_rfl, hlu⟩, h _ ⟨hlu, le_rfl⟩, he, Bool.false_eq_true, if_false]
  refine same_outcome (S := Bisection.solver cfg) (S' := Bisection.solver cfg) (fn := fn) (fn' := fn') (fun y st => cfg.lower ≤ st.lower ∧ st.lower ≤ y ∧ y ≤ st.upper ∧ st.upper ≤ cfg.upper) hini rfl rfl ?_ ?_ ?_
    af ms throw
  · intro st0 hi
    have : st0.lower = cfg.lower ∧ st0.upper = cfg.upper := by
      simp only [Bisection.solver, Bisection.init, he, Bool.false_eq_true, if_false] at hi
      split at hi
      · cases hi
      · split at hi
        · split at hi
          · cases hi; exact ⟨rfl, rfl⟩
          · split at hi
            · cases hi
            · cases hi; exact ⟨rfl, rfl⟩
          · cases hi
        · cases hi
    rw [this.1, this.2]
    exact ⟨le_rfl, hy.1, hy.2, le_rfl⟩
  · rintro y st ⟨h1, h2, h3, h4⟩
    simp only [Bisection.solver, Bisection.step]
    cases st.flip ^^ decide ((fn y).1 < 0) <;> simp only [Bool.false_eq_true, if_false, if_true] <;>
      refine ⟨?_, ?_, ?_, ?_⟩ <;> norm_num <;> linarith
  · rintro y st ⟨h1, h2, h3, h4⟩
    simp only [Bisection.solver, Bisection.step, h y ⟨h1.trans h2, h3.trans h4⟩]

/-- The box of the options `lower` and `upper`. -/
def inBox (lower upper : Option (ι → ℝ)) : Set (ι → ℝ) :=
  {y | (∀ l, lower = some l → ∀ i, l i ≤ y i) ∧ ∀ u, upper = some u → ∀ i, y i ≤ u i}

/-- **C84.** `Newton` and `Chord` with bounds, started within the bounds, never look at the function or its Jacobian outside. -/
theorem C84_newton_domain (cfg : NewtonChord.Cfg ι κ ℝ J) (jac' : (ι → ℝ) → J) (y0 : ι → ℝ) (hy : y0 ∈ inBox cfg.lower cfg.upper)
    (fn fn' : (ι → ℝ) → (κ → ℝ) × A) (h : ∀ y ∈ inBox cfg.lower cfg.upper, fn' y = fn y ∧ jac' y = cfg.jac y) (af : (ι → ℝ) → Bool)
    (aux0 : A) (ms : Option ℕ) (throw : Bool) :
    iterativeSolve (NewtonChord.solver { cfg with jac := jac' }) af fn' aux0 y0 ms throw =
      iterativeSolve (NewtonChord.solver cfg) af fn aux0 y0 ms throw := by
  have hclip : ∀ z, NewtonChord.clipBounds cfg.lower cfg.upper z ∈ inBox cfg.lower cfg.upper := by
    intro z
    have hlu : ∀ l u, cfg.lower = some l → cfg.upper = some u → ∀ i, l i ≤ u i := fun l u hl hu i =>
      (hy.1 l hl i).trans (hy.2 u hu i)
    exact ⟨fun l hl i => (clip_mem _ _ z hlu i).1 l hl, fun u hu i => (clip_mem _ _ z hlu i).2 u hu⟩
  refine same_outcome (S := NewtonChord.solver cfg) (S' := NewtonChord.solver { cfg with jac := jac' })
    (fn := fn) (fn' := fn') (fun y _ => y ∈ inBox cfg.lower cfg.upper) ?_ rfl rfl (fun _ _ => hy) (fun y st _ => hclip _) ?_ af ms throw
  · simp only [NewtonChord.solver, NewtonChord.init, (h y0 hy).2]
  · intro y st hb
    have h2 : ∀ v, NewtonChord.linSol { cfg with jac := jac' } y v st = NewtonChord.linSol cfg y v st := by
      intro v; simp only [NewtonChord.linSol, (h y hb).2]
    simp only [NewtonChord.solver, NewtonChord.step, (h y hb).1, h2]

/-- **C84.** `FixedPointIteration` with `0 ≤ damp ≤ 1` never leaves a convex set that the function maps to itself. -/
theorem C84_fixed_point_domain (cfg : FixedPointIter.Cfg ι ℝ) (hd : 0 ≤ cfg.damp) (hd' : cfg.damp ≤ 1) (C : Set (ι → ℝ))
    (hC : Convex ℝ C) (y0 : ι → ℝ) (hy : y0 ∈ C) (fn fn' : (ι → ℝ) → (ι → ℝ) × A) (hm : ∀ y ∈ C, (fn y).1 ∈ C)
    (h : ∀ y ∈ C, fn' y = fn y) (af : (ι → ℝ) → Bool) (aux0 : A) (ms : Option ℕ) (throw : Bool) :
    iterativeSolve (FixedPointIter.solver cfg) af fn' aux0 y0 ms throw =
      iterativeSolve (FixedPointIter.solver cfg) af fn aux0 y0 ms throw := by
  refine same_outcome (S := FixedPointIter.solver cfg) (S' := FixedPointIter.solver cfg) (fn := fn) (fn' := fn') (fun y _ => y ∈ C) rfl rfl rfl (fun _ _ => hy) (fun y st hb => ?_) ?_ af ms throw
  · exact hC (hm y hb) hb (sub_nonneg.2 hd') hd (by ring)
  · intro y st hb
    simp only [FixedPointIter.solver, FixedPointIter.step, h y hb]

/-- **C84_partial**, `GoldenSearch` on `[0, upper]`: it never looks at the function outside, wherever `y0` is.
(Missing: `lower ≠ 0`; see `C84_golden_outside`.) -/
theorem C84_golden_domain_partial (cfg : Golden.Cfg) (h0 : cfg.lower = 0) (hu : 0 ≤ cfg.upper) (y0 : ℝ) (fn fn' : ℝ → ℝ × A)
    (h : ∀ y ∈ Set.Icc cfg.lower cfg.upper, fn' y = fn y) (af : ℝ → Bool) (aux0 : A) (ms : Option ℕ) (throw : Bool) :
    iterativeSolve (Golden.solver cfg) af fn' aux0 y0 ms throw = iterativeSolve (Golden.solver cfg) af fn aux0 y0 ms throw := by
  rw [h0] at h
  have hm : cfg.upper / ((1 + Real.sqrt 5) / 2 + 1) ∈ Set.Icc 0 cfg.upper := by
    have hs := Real.sqrt_nonneg 5
    exact ⟨div_nonneg hu (by positivity), div_le_self hu (by linarith)⟩
  have hini : Golden.init cfg fn' y0 = Golden.init cfg fn y0 := by
    simp only [Golden.init, h0, sub_zero, h _ hm]
  refine same_outcome (S := Golden.solver cfg) (S' := Golden.solver cfg) (fn := fn) (fn' := fn')
    (fun y st => 0 ≤ st.lower ∧ st.lower ≤ st.middle ∧ st.middle ≤ st.upper ∧ st.upper ≤ cfg.upper ∧
      (st.first = false → y = st.lower + (st.upper - st.middle))) hini rfl rfl ?_ ?_ ?_ af ms throw
  · intro st0 hi
    simp only [Golden.solver, Golden.init, h0, sub_zero] at hi
    split at hi
    · cases hi
    · split at hi
      · cases hi
        exact ⟨le_rfl, hm.1, hm.2, le_rfl, fun h => by cases h⟩
      · cases hi
  · rintro y st ⟨h1, h2, h3, h4, h5⟩
    have hp : (if st.first = true then st.lower + (st.upper - st.middle) else y) = st.lower + (st.upper - st.middle) := by
      cases hf : st.first with
      | true => simp
      | false => simpa using h5 hf
    simp only [Golden.solver, Golden.step, hp]
    split_ifs with c1 c2
    · exact ⟨h1, by linarith, c2.le, by linarith, fun _ => trivial⟩
    · exact ⟨by linarith, not_lt.1 c2, by linarith, h4, fun _ => trivial⟩
    · exact ⟨by linarith, by linarith, h3, h4, fun _ => trivial⟩
    · exact ⟨h1, h2, by linarith, by linarith, fun _ => trivial⟩
  · rintro y st ⟨h1, h2, h3, h4, h5⟩
    have hp : (if st.first = true then st.lower + (st.upper - st.middle) else y) = st.lower + (st.upper - st.middle) := by
      cases hf : st.first with
      | true => simp
      | false => simpa using h5 hf
    simp only [Golden.solver, Golden.step, hp, h (st.lower + (st.upper - st.middle)) ⟨by linarith, by linarith⟩]

/-- **C84, negation for `GoldenSearch`.**  On `[1, 2]` it evaluates the function at `0.38…` and at `2.61…`; two functions that agree
on `[1, 2]` have different answers. -/
theorem C84_golden_outside :
    ∃ (fn fn' : ℝ → ℝ × Unit) (sol sol' : Solution ℝ Unit Golden.State Unit), (∀ y ∈ Set.Icc (1 : ℝ) 2, fn' y = fn y) ∧
      iterativeSolve (Golden.solver ⟨1e-3, 1e-3, 1, 2, true, .leaf [] true⟩) (fun _ => true) fn () 1.5 (some 1) false = some (.ok sol) ∧
      iterativeSolve (Golden.solver ⟨1e-3, 1e-3, 1, 2, true, .leaf [] true⟩) (fun _ => true) fn' () 1.5 (some 1) false =
        some (.ok sol') ∧ sol.value ≠ sol'.value := by
  have hs := Real.sqrt_nonneg 5
  set m : ℝ := (2 - 1) / ((1 + Real.sqrt 5) / 2 + 1) with hm
  have hm0 : 0 < m := by rw [hm]; positivity
  have hm1 : m < 1 := by rw [hm, div_lt_one (by positivity)]; linarith
  have hrun : ∀ f : ℝ → ℝ, ∃ sol : Solution ℝ Unit Golden.State Unit,
      iterativeSolve (Golden.solver ⟨1e-3, 1e-3, 1, 2, true, .leaf [] true⟩) (fun _ => true) (fun y => (f y, ())) () 1.5 (some 1) false =
        some (.ok sol) ∧ sol.value = if f (1 + (2 - m)) < f m then m + (2 - (1 + (2 - m))) else 1 + (1 + (2 - m) - m) := by
    intro f
    refine ⟨_, rfl, ?_⟩
    have hlt : ¬ 1 + (2 - m) < m := by linarith
    simp only [package, whileLoop, initCarry, terminateAndResult, Golden.solver, Driver.cond, Driver.body, Golden.step, ← hm,
      hlt, if_true, if_false]
    simp only [Bool.not_false, decide_true, Bool.and_self, if_true]
    split_ifs <;> rfl
  obtain ⟨s1, h1, v1⟩ := hrun id
  obtain ⟨s2, h2, v2⟩ := hrun fun y => if y < 1 then 100 else y
  refine ⟨_, _, s1, s2, fun y hy => ?_, h1, h2, ?_⟩
  · simp only [if_neg hy.1.not_gt, id]
  · rw [v1, v2]
    simp only [id]
    rw [if_neg (by linarith : ¬ 1 + (2 - m) < m), if_pos hm1, if_neg (by linarith : ¬ 1 + (2 - m) < 1), if_pos (by linarith)]
    intro h
    linarith

/-! ### Cases to which the theorems apply -/

/-- A logarithm (which makes no sense below `0`) solved by bisection on `[1/2, 4]` from `1`: replacing it by anything else for negative
arguments changes nothing. -/
example (junk : ℝ → ℝ) (ms : Option ℕ) (throw : Bool) :
    let cfg : Bisection.Cfg ℝ := ⟨1e-6, 1e-6, .detect, false, 1/2, 4, true, .leaf [] true⟩
    iterativeSolve (Bisection.solver cfg) (fun _ => true) (fun y => (if y ≤ 0 then junk y else Real.log y, ())) () 1 ms throw =
      iterativeSolve (Bisection.solver cfg) (fun _ => true) (fun y => (Real.log y, ())) () 1 ms throw := by
  intro cfg
  refine C84_bisection_domain cfg rfl 1 ⟨by norm_num [cfg], by norm_num [cfg]⟩ _ _ (fun y hy => ?_) _ _ ms throw
  have : (0 : ℝ) < y := lt_of_lt_of_le (by norm_num) hy.1
  simp only [if_neg this.not_ge]

/-- A box and a function to which `C84_newton_domain` applies. -/
example : (fun _ => 1 : Fin 2 → ℝ) ∈ inBox (some fun _ => 0) (none : Option (Fin 2 → ℝ)) :=
  ⟨fun l hl i => by cases hl; exact zero_le_one, fun u hu => by cases hu⟩

/-- Halving maps the interval `[0, 1]` to itself. -/
example : ∀ y ∈ {y : Fin 1 → ℝ | 0 ≤ y 0 ∧ y 0 ≤ 1}, (fun i => y i / 2) ∈ {y : Fin 1 → ℝ | 0 ≤ y 0 ∧ y 0 ≤ 1} :=
  fun y hy => ⟨by have := hy.1; show 0 ≤ y 0 / 2; linarith, by have := hy; show y 0 / 2 ≤ 1; linarith [hy.1, hy.2]⟩

end Verif.Props
