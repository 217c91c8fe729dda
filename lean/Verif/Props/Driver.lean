import Verif.Lemmas.Driver

/-!
Properties C01-C09 and C52: the iteration driver, for **every** solver (`S` is arbitrary).
-/

namespace Verif.Props
open Verif.Driver Verif.Spec

variable {Y Out Aux St Stats : Type}

section helpers

theorem solve_iff (S : Solver Y Out Aux St Stats) (af : Y → Bool) (fn : Y → Out × Aux) (aux0 : Aux)
    (y0 : Y) (ms : Option Nat) (throw : Bool) (sol : Solution Y Aux St Stats) :
    iterativeSolve S af fn aux0 y0 ms throw = some (.ok sol) ↔
      iterate S af fn aux0 y0 ms = some (.ok sol) ∧ (throw = true → sol.result = .successful) := by
  unfold iterativeSolve
  cases h : iterate S af fn aux0 y0 ms with
  | none => simp
  | some r =>
    cases r with
    | error e => simp
    | ok s =>
      simp only [Option.map_some, Option.some.injEq]
      by_cases hc : throw = true ∧ s.result ≠ .successful
      · rw [if_pos hc]
        simp only [reduceCtorEq, Except.ok.injEq, false_iff, not_and]
        rintro rfl h2
        exact hc.2 (h2 hc.1)
      · rw [if_neg hc]
        constructor
        · intro h; cases h
          exact ⟨rfl, fun ht => by_contra fun hn => hc ⟨ht, hn⟩⟩
        · rintro ⟨h1, _⟩; exact h1

/-- All fields of the solution in terms of the paper trace. -/
theorem solve_spec (S : Solver Y Out Aux St Stats) (af : Y → Bool) (fn : Y → Out × Aux) (aux0 : Aux)
    (y0 : Y) (ms : Option Nat) (throw : Bool) (sol : Solution Y Aux St Stats)
    (h : iterativeSolve S af fn aux0 y0 ms throw = some (.ok sol)) :
    ∃ st0, S.init fn y0 = .ok st0 ∧
      (∀ j, j < sol.numSteps → Continues S af fn aux0 y0 st0 j) ∧
      ((¬ Continues S af fn aux0 y0 st0 sol.numSteps ∧ ∀ n, ms = some n → sol.numSteps ≤ n) ∨
        ms = some sol.numSteps) ∧
      sol.state = stateAt S fn aux0 y0 st0 sol.numSteps ∧
      sol.maxSteps = ms ∧
      (sol.value, sol.aux, sol.stats) = S.postprocess fn (iterateAt S fn aux0 y0 st0 sol.numSteps)
        (auxAt S fn aux0 y0 st0 sol.numSteps) (stateAt S fn aux0 y0 st0 sol.numSteps) sol.result ∧
      sol.result = (if Continues S af fn aux0 y0 st0 sol.numSteps then .nonlinearMaxStepsReached else
        if af (testedAt S fn aux0 y0 st0 sol.numSteps) then (verdictAt S fn aux0 y0 st0 sol.numSteps).2
          else .nonfinite) := by
  rw [solve_iff] at h
  obtain ⟨st0, hi⟩ := iterate_init _ _ _ _ _ _ _ h.1
  obtain ⟨k, hlt, hst, rfl⟩ := (iterate_eq_some_ok S af fn aux0 y0 st0 hi ms _).1 h.1
  rw [body_iterate]
  have key : ∀ (t : Bool) (r : Result), verdictAt S fn aux0 y0 st0 k = (t, r) →
      finalResult (Y := Y) (St := St) (Aux := Aux)
        { y := iterateAt S fn aux0 y0 st0 k, numSteps := k, state := stateAt S fn aux0 y0 st0 k,
          aux := auxAt S fn aux0 y0 st0 k, terminate := (verdictAt S fn aux0 y0 st0 k).1,
          result := if af (testedAt S fn aux0 y0 st0 k) then (verdictAt S fn aux0 y0 st0 k).2
            else .nonfinite } =
      (if Continues S af fn aux0 y0 st0 k then .nonlinearMaxStepsReached else
        if af (testedAt S fn aux0 y0 st0 k) then (verdictAt S fn aux0 y0 st0 k).2
          else .nonfinite) := by
    intro t r hv
    unfold finalResult Continues
    simp only [hv, Prod.mk.injEq]
    congr 1
    apply propext
    cases af (testedAt S fn aux0 y0 st0 k) <;> simp [and_comm]
  have key := key _ _ rfl
  exact ⟨st0, hi, hlt, hst, rfl, rfl, rfl, key⟩

/-- Existence: if `k` is the first index at which the test does not say "carry on" and the budget allows it, the solve
returns after exactly `k` steps. -/
theorem solve_exists (S : Solver Y Out Aux St Stats) (af : Y → Bool) (fn : Y → Out × Aux) (aux0 : Aux)
    (y0 : Y) (st0 : St) (hi : S.init fn y0 = .ok st0) (ms : Option Nat) (k : Nat)
    (hlt : ∀ j, j < k → Continues S af fn aux0 y0 st0 j)
    (hst : (¬ Continues S af fn aux0 y0 st0 k ∧ ∀ n, ms = some n → k ≤ n) ∨ ms = some k) :
    ∃ sol, iterativeSolve S af fn aux0 y0 ms false = some (.ok sol) ∧ sol.numSteps = k := by
  refine ⟨_, (solve_iff ..).2 ⟨(iterate_eq_some_ok S af fn aux0 y0 st0 hi ms _).2 ⟨k, hlt, hst, rfl⟩, by simp⟩, ?_⟩
  rw [body_iterate]; rfl

end helpers

/-! ### C01 -/

/-- **C01.** At most `max_steps` steps; `num_steps` is the number of steps made; the final state and the input of
post-processing are what `num_steps` applications of `step` give. -/
theorem C01_step_budget (S : Solver Y Out Aux St Stats) (af : Y → Bool) (fn : Y → Out × Aux) (aux0 : Aux)
    (y0 : Y) (ms : Option Nat) (throw : Bool) (sol : Solution Y Aux St Stats)
    (h : iterativeSolve S af fn aux0 y0 ms throw = some (.ok sol)) :
    (∀ n, ms = some n → sol.numSteps ≤ n) ∧ sol.maxSteps = ms ∧
    ∃ st0, S.init fn y0 = .ok st0 ∧
      sol.state = stateAt S fn aux0 y0 st0 sol.numSteps ∧
      (sol.value, sol.aux, sol.stats) = S.postprocess fn (iterateAt S fn aux0 y0 st0 sol.numSteps)
        (auxAt S fn aux0 y0 st0 sol.numSteps) sol.state sol.result := by
  obtain ⟨st0, hi, hlt, hst, hs, hm, hp, hr⟩ := solve_spec _ _ _ _ _ _ _ _ h
  refine ⟨?_, hm, st0, hi, hs, by rw [hs]; exact hp⟩
  rintro n rfl
  rcases hst with ⟨_, h2⟩ | h2
  · exact h2 n rfl
  · simp only [Option.some.injEq] at h2; omega

/-- A solver instrumented with a counter of its `step` calls. -/
def counting (S : Solver Y Out Aux St Stats) : Solver Y Out Aux (St × Nat) Stats where
  init fn y := (S.init fn y).map fun s => (s, 0)
  step fn y s := let o := S.step fn y s.1; (o.1, (o.2.1, s.2 + 1), o.2.2)
  terminate fn y s := S.terminate fn y s.1
  postprocess fn y a s r := S.postprocess fn y a s.1 r

/-- **C01** (counting form).  Instrument any solver with a counter of `step` calls: `num_steps` is the counter. -/
theorem C01_counts_calls (S : Solver Y Out Aux St Stats) (af : Y → Bool) (fn : Y → Out × Aux) (aux0 : Aux)
    (y0 : Y) (ms : Option Nat) (throw : Bool) (sol : Solution Y Aux (St × Nat) Stats)
    (h : iterativeSolve (counting S) af fn aux0 y0 ms throw = some (.ok sol)) :
    sol.state.2 = sol.numSteps := by
  obtain ⟨_, _, st0, hi, hs, _⟩ := C01_step_budget _ _ _ _ _ _ _ _ h
  rw [hs]
  have h0 : st0.2 = 0 := by
    simp only [counting] at hi
    cases hx : S.init fn y0 with
    | error e => rw [hx] at hi; cases hi
    | ok s => rw [hx] at hi; cases hi; rfl
  generalize sol.numSteps = k
  induction k with
  | zero => exact h0
  | succ k ih =>
    show (stateAt (counting S) fn aux0 y0 st0 k).2 + 1 = k + 1
    rw [ih]

/-! ### C02 -/

/-- **C02.** A successful result means: the solver's own test said `(True, successful)` on the final state, it had not
said so (or failed) after any smaller number of steps, and every iterate handed to it was finite. -/
theorem C02_success_is_certificate (S : Solver Y Out Aux St Stats) (af : Y → Bool) (fn : Y → Out × Aux)
    (aux0 : Aux) (y0 : Y) (ms : Option Nat) (throw : Bool) (sol : Solution Y Aux St Stats)
    (h : iterativeSolve S af fn aux0 y0 ms throw = some (.ok sol)) (hs : sol.result = .successful) :
    ∃ st0, S.init fn y0 = .ok st0 ∧
      S.terminate fn (iterateAt S fn aux0 y0 st0 (sol.numSteps - 1)) sol.state = (true, .successful) ∧
      (∀ j, j < sol.numSteps → S.terminate fn (iterateAt S fn aux0 y0 st0 (j - 1))
        (stateAt S fn aux0 y0 st0 j) = (false, .successful)) ∧
      (∀ j, j < sol.numSteps → af (iterateAt S fn aux0 y0 st0 j) = true) ∧ af y0 = true := by
  obtain ⟨st0, hi, hlt, hst, hstate, hm, hp, hr⟩ := solve_spec _ _ _ _ _ _ _ _ h
  rw [hs] at hr
  by_cases hc : Continues S af fn aux0 y0 st0 sol.numSteps
  · rw [if_pos hc] at hr; cases hr
  · rw [if_neg hc] at hr
    split at hr
    · rename_i haf
      have hv : verdictAt S fn aux0 y0 st0 sol.numSteps = (true, .successful) := by
        rcases hv : verdictAt S fn aux0 y0 st0 sol.numSteps with ⟨t, r⟩
        rw [hv] at hr
        dsimp only at hr
        cases t with
        | true => rw [← hr]
        | false => exact absurd ⟨haf, by rw [hv, ← hr]⟩ hc
      have hfin : ∀ j, j ≤ sol.numSteps → af (testedAt S fn aux0 y0 st0 j) = true := by
        intro j hj
        rcases Nat.lt_or_eq_of_le hj with hj | rfl
        · exact (hlt j hj).1
        · exact haf
      refine ⟨st0, hi, by rw [hstate]; exact hv, fun j hj => (hlt j hj).2, fun j hj => hfin (j + 1) hj, ?_⟩
      exact hfin 0 (Nat.zero_le _)
    · cases hr

/-- **C02** (converse).  If the test first says something other than "carry on" after `k` steps, says
`(True, successful)` there at a finite iterate, and the budget allows `k` steps, then the solve is successful after
exactly `k` steps. -/
theorem C02_success_complete (S : Solver Y Out Aux St Stats) (af : Y → Bool) (fn : Y → Out × Aux)
    (aux0 : Aux) (y0 : Y) (st0 : St) (hi : S.init fn y0 = .ok st0) (ms : Option Nat) (throw : Bool) (k : Nat)
    (hlt : ∀ j, j < k → af (iterateAt S fn aux0 y0 st0 (j - 1)) = true ∧
      S.terminate fn (iterateAt S fn aux0 y0 st0 (j - 1)) (stateAt S fn aux0 y0 st0 j) = (false, .successful))
    (hfin : af (iterateAt S fn aux0 y0 st0 (k - 1)) = true)
    (hk : S.terminate fn (iterateAt S fn aux0 y0 st0 (k - 1)) (stateAt S fn aux0 y0 st0 k) = (true, .successful))
    (hb : ∀ n, ms = some n → k ≤ n) :
    ∃ sol, iterativeSolve S af fn aux0 y0 ms throw = some (.ok sol) ∧ sol.result = .successful ∧
      sol.numSteps = k := by
  have hnc : ¬ Continues S af fn aux0 y0 st0 k := by
    rintro ⟨_, h2⟩
    have h2' : S.terminate fn (iterateAt S fn aux0 y0 st0 (k - 1)) (stateAt S fn aux0 y0 st0 k) =
      (false, .successful) := h2
    rw [hk] at h2'
    cases h2'
  obtain ⟨sol, hsol, hn⟩ := solve_exists S af fn aux0 y0 st0 hi ms k hlt (Or.inl ⟨hnc, hb⟩)
  obtain ⟨st0', hi', _, _, _, _, _, hr⟩ := solve_spec _ _ _ _ _ _ _ _ hsol
  rw [hi] at hi'; cases hi'
  rw [hn, if_neg hnc, if_pos (show af (testedAt S fn aux0 y0 st0 k) = true from hfin)] at hr
  have hr' : sol.result = .successful := by
    rw [hr]; show (S.terminate fn _ _).2 = _; exact congrArg Prod.snd hk
  exact ⟨sol, (solve_iff ..).2 ⟨((solve_iff ..).1 hsol).1, fun _ => hr'⟩, hr', hn⟩

/-- If the test made after `k` steps says "stop", every test up to there is free of failure codes and every iterate up
to there is finite, then the solve succeeds, no later than after `k` steps (a packaging of the previous theorem). -/
theorem solve_succeeds_by (S : Solver Y Out Aux St Stats) (af : Y → Bool) (fn : Y → Out × Aux)
    (aux0 : Aux) (y0 : Y) (st0 : St) (hi : S.init fn y0 = .ok st0) (ms : Option Nat) (throw : Bool) (k : Nat)
    (hfin : ∀ j, j ≤ k → af (iterateAt S fn aux0 y0 st0 (j - 1)) = true)
    (hres : ∀ j, j ≤ k → (S.terminate fn (iterateAt S fn aux0 y0 st0 (j - 1))
      (stateAt S fn aux0 y0 st0 j)).2 = .successful)
    (hk : (S.terminate fn (iterateAt S fn aux0 y0 st0 (k - 1)) (stateAt S fn aux0 y0 st0 k)).1 = true)
    (hb : ∀ n, ms = some n → k ≤ n) :
    ∃ sol, iterativeSolve S af fn aux0 y0 ms throw = some (.ok sol) ∧ sol.result = .successful ∧
      sol.numSteps ≤ k ∧ (∀ j, j < sol.numSteps →
        (S.terminate fn (iterateAt S fn aux0 y0 st0 (j - 1)) (stateAt S fn aux0 y0 st0 j)).1 = false) := by
  classical
  have hex : ∃ j, (S.terminate fn (iterateAt S fn aux0 y0 st0 (j - 1)) (stateAt S fn aux0 y0 st0 j)).1 = true :=
    ⟨k, hk⟩
  have hle : Nat.find hex ≤ k := Nat.find_min' hex hk
  have hmin : ∀ j, j < Nat.find hex →
      (S.terminate fn (iterateAt S fn aux0 y0 st0 (j - 1)) (stateAt S fn aux0 y0 st0 j)).1 = false := fun j hj =>
    Bool.eq_false_iff.2 (Nat.find_min hex hj)
  obtain ⟨sol, h1, h2, h3⟩ := C02_success_complete S af fn aux0 y0 st0 hi ms throw (Nat.find hex)
    (fun j hj => ⟨hfin j (hj.le.trans hle), Prod.ext (hmin j hj) (hres j (hj.le.trans hle))⟩)
    (hfin _ hle) (Prod.ext (Nat.find_spec hex) (hres _ hle)) (fun n hn => hle.trans (hb n hn))
  exact ⟨sol, h1, h2, h3 ▸ hle, fun j hj => hmin j (h3 ▸ hj)⟩

/-! ### C03 -/

/-- **C03.** The first failure code `r` of the solver's test ends the solve at once and is the reported result. -/
theorem C03_failure_reported (S : Solver Y Out Aux St Stats) (af : Y → Bool) (fn : Y → Out × Aux)
    (aux0 : Aux) (y0 : Y) (st0 : St) (hi : S.init fn y0 = .ok st0) (ms : Option Nat) (k : Nat)
    (t : Bool) (r : Result) (hr : r ≠ .successful)
    (hlt : ∀ j, j < k → af (iterateAt S fn aux0 y0 st0 (j - 1)) = true ∧
      S.terminate fn (iterateAt S fn aux0 y0 st0 (j - 1)) (stateAt S fn aux0 y0 st0 j) = (false, .successful))
    (hfin : af (iterateAt S fn aux0 y0 st0 (k - 1)) = true)
    (hk : S.terminate fn (iterateAt S fn aux0 y0 st0 (k - 1)) (stateAt S fn aux0 y0 st0 k) = (t, r))
    (hb : ∀ n, ms = some n → k ≤ n) :
    ∃ sol, iterativeSolve S af fn aux0 y0 ms false = some (.ok sol) ∧ sol.result = r ∧ sol.numSteps = k := by
  have hnc : ¬ Continues S af fn aux0 y0 st0 k := by
    rintro ⟨_, h2⟩
    have h2' : S.terminate fn (iterateAt S fn aux0 y0 st0 (k - 1)) (stateAt S fn aux0 y0 st0 k) =
      (false, .successful) := h2
    rw [hk] at h2'
    cases h2'
    exact hr rfl
  obtain ⟨sol, hsol, hn⟩ := solve_exists S af fn aux0 y0 st0 hi ms k hlt (Or.inl ⟨hnc, hb⟩)
  obtain ⟨st0', hi', _, _, _, _, _, hr'⟩ := solve_spec _ _ _ _ _ _ _ _ hsol
  rw [hi] at hi'; cases hi'
  rw [hn, if_neg hnc, if_pos (show af (testedAt S fn aux0 y0 st0 k) = true from hfin)] at hr'
  refine ⟨sol, hsol, ?_, hn⟩
  rw [hr']; show (S.terminate fn _ _).2 = _; exact congrArg Prod.snd hk

/-- **C03** (nothing is invented).  Any reported result is either the solver's own code for the
final state, `nonfinite` because the tested iterate was not finite, or `max_steps_reached` because the budget was used
up undecided. -/
theorem C03_result_origin (S : Solver Y Out Aux St Stats) (af : Y → Bool) (fn : Y → Out × Aux)
    (aux0 : Aux) (y0 : Y) (ms : Option Nat) (sol : Solution Y Aux St Stats)
    (h : iterativeSolve S af fn aux0 y0 ms false = some (.ok sol)) :
    ∃ st0, S.init fn y0 = .ok st0 ∧
      ((af (iterateAt S fn aux0 y0 st0 (sol.numSteps - 1)) = true ∧
          (S.terminate fn (iterateAt S fn aux0 y0 st0 (sol.numSteps - 1)) sol.state).2 = sol.result) ∨
       (af (iterateAt S fn aux0 y0 st0 (sol.numSteps - 1)) = false ∧ sol.result = .nonfinite) ∨
       (ms = some sol.numSteps ∧ sol.result = .nonlinearMaxStepsReached ∧
          S.terminate fn (iterateAt S fn aux0 y0 st0 (sol.numSteps - 1)) sol.state = (false, .successful))) := by
  obtain ⟨st0, hi, hlt, hst, hstate, hm, hp, hr⟩ := solve_spec _ _ _ _ _ _ _ _ h
  refine ⟨st0, hi, ?_⟩
  by_cases hc : Continues S af fn aux0 y0 st0 sol.numSteps
  · rw [if_pos hc] at hr
    right; right
    rcases hst with ⟨h1, _⟩ | h1
    · exact absurd hc h1
    · exact ⟨h1, hr, by rw [hstate]; exact hc.2⟩
  · rw [if_neg hc] at hr
    split at hr
    · rename_i haf
      left; exact ⟨haf, by rw [hstate, hr]; rfl⟩
    · rename_i haf
      right; left; exact ⟨Bool.eq_false_iff.2 haf, hr⟩

/-! ### C04 -/

/-- **C04.** For a solver which never itself emits `nonlinear_max_steps_reached`: this result is reported iff the budget
`n` was used up completely and none of the `n + 1` tests made (before the first and after each step) was decisive. -/
theorem C04_max_steps_reached_iff (S : Solver Y Out Aux St Stats) (af : Y → Bool) (fn : Y → Out × Aux)
    (aux0 : Aux) (y0 : Y) (st0 : St) (hi : S.init fn y0 = .ok st0) (ms : Option Nat)
    (hne : ∀ y st, (S.terminate fn y st).2 ≠ .nonlinearMaxStepsReached) (sol : Solution Y Aux St Stats)
    (h : iterativeSolve S af fn aux0 y0 ms false = some (.ok sol)) :
    sol.result = .nonlinearMaxStepsReached ↔
      ms = some sol.numSteps ∧ ∀ j, j ≤ sol.numSteps →
        af (iterateAt S fn aux0 y0 st0 (j - 1)) = true ∧
        S.terminate fn (iterateAt S fn aux0 y0 st0 (j - 1)) (stateAt S fn aux0 y0 st0 j) =
          (false, .successful) := by
  obtain ⟨st0', hi', hlt, hst, hstate, hm, hp, hr⟩ := solve_spec _ _ _ _ _ _ _ _ h
  rw [hi] at hi'; cases hi'
  constructor
  · intro hmax
    rw [hmax] at hr
    by_cases hc : Continues S af fn aux0 y0 st0 sol.numSteps
    · refine ⟨?_, ?_⟩
      · rcases hst with ⟨h1, _⟩ | h1
        · exact absurd hc h1
        · exact h1
      · intro j hj
        rcases Nat.lt_or_eq_of_le hj with hj | rfl
        · exact hlt j hj
        · exact hc
    · rw [if_neg hc] at hr
      split at hr
      · exact absurd hr.symm (hne _ _)
      · cases hr
  · rintro ⟨_, hall⟩
    have hc : Continues S af fn aux0 y0 st0 sol.numSteps := hall _ (le_refl _)
    rw [hr, if_pos hc]

/-! ### C05 -/

/-- **C05.** `throw=True` returns a solution iff `throw=False` returns this solution and it is successful. -/
theorem C05_throw_returns_only_success (S : Solver Y Out Aux St Stats) (af : Y → Bool) (fn : Y → Out × Aux)
    (aux0 : Aux) (y0 : Y) (ms : Option Nat) (sol : Solution Y Aux St Stats) :
    iterativeSolve S af fn aux0 y0 ms true = some (.ok sol) ↔
      iterativeSolve S af fn aux0 y0 ms false = some (.ok sol) ∧ sol.result = .successful := by
  rw [solve_iff, solve_iff]; simp

/-- **C05.** `throw=True` raises iff the solver's `init` rejects the input, or `throw=False` returns an unsuccessful
solution, in which case the error carries its result. -/
theorem C05_throw_raises_iff (S : Solver Y Out Aux St Stats) (af : Y → Bool) (fn : Y → Out × Aux)
    (aux0 : Aux) (y0 : Y) (ms : Option Nat) (e : Err) :
    iterativeSolve S af fn aux0 y0 ms true = some (.error e) ↔
      S.init fn y0 = .error e ∨
      ∃ sol, iterativeSolve S af fn aux0 y0 ms false = some (.ok sol) ∧ sol.result ≠ .successful ∧
        e = .solveFailed sol.result := by
  cases hi : S.init fn y0 with
  | error e' =>
    have hit : iterate S af fn aux0 y0 ms = some (.error e') := by unfold iterate; rw [hi]
    unfold iterativeSolve
    rw [hit]
    simp
  | ok st0 =>
    simp only [solve_iff]
    unfold iterativeSolve
    cases hit : iterate S af fn aux0 y0 ms with
    | none => simp
    | some r =>
      cases r with
      | error e' => exact absurd hit (iterate_ne_error S af fn aux0 y0 st0 hi ms e')
      | ok s =>
        simp only [Option.map_some, Option.some.injEq, true_and, reduceCtorEq, Except.ok.injEq, false_or]
        by_cases hs : s.result = .successful
        · simp [hs]
        · simp only [hs, ne_eq, not_false_eq_true, if_true]
          constructor
          · intro h; cases h; exact ⟨s, by simp, hs, rfl⟩
          · rintro ⟨s', ⟨rfl, _⟩, _, rfl⟩; rfl

/-- **C05.** `throw=False` raises only if the solver's `init` rejects the input. -/
theorem C05_nothrow_never_raises (S : Solver Y Out Aux St Stats) (af : Y → Bool) (fn : Y → Out × Aux)
    (aux0 : Aux) (y0 : Y) (ms : Option Nat) (e : Err) :
    iterativeSolve S af fn aux0 y0 ms false = some (.error e) ↔ S.init fn y0 = .error e := by
  cases hi : S.init fn y0 with
  | error e' =>
    have hit : iterate S af fn aux0 y0 ms = some (.error e') := by unfold iterate; rw [hi]
    unfold iterativeSolve
    rw [hit]
    simp
  | ok st0 =>
    unfold iterativeSolve
    cases hit : iterate S af fn aux0 y0 ms with
    | none => simp
    | some r =>
      cases r with
      | error e' => exact absurd hit (iterate_ne_error S af fn aux0 y0 st0 hi ms e')
      | ok s => simp

/-- **C05.** With a finite step budget and `throw=False`, a solve whose solver accepts the input always returns a
solution (it neither diverges nor raises). -/
theorem C05_bounded_returns (S : Solver Y Out Aux St Stats) (af : Y → Bool) (fn : Y → Out × Aux)
    (aux0 : Aux) (y0 : Y) (st0 : St) (hi : S.init fn y0 = .ok st0) (n : Nat) :
    ∃ sol, iterativeSolve S af fn aux0 y0 (some n) false = some (.ok sol) := by
  cases hit : iterate S af fn aux0 y0 (some n) with
  | none => exact absurd ((iterate_none S af fn aux0 y0 st0 hi _).1 hit).1 (by simp)
  | some r =>
    cases r with
    | error e => exact absurd hit (iterate_ne_error S af fn aux0 y0 st0 hi _ e)
    | ok s => exact ⟨s, by unfold iterativeSolve; rw [hit]; simp⟩

/-! ### C06 -/

/-- **C06.** A non-finite starting point: zero steps, result `nonfinite`, whatever the solver and budget. -/
theorem C06_nonfinite_start (S : Solver Y Out Aux St Stats) (af : Y → Bool) (fn : Y → Out × Aux)
    (aux0 : Aux) (y0 : Y) (st0 : St) (hi : S.init fn y0 = .ok st0) (ms : Option Nat) (hy : af y0 = false) :
    ∃ sol, iterativeSolve S af fn aux0 y0 ms false = some (.ok sol) ∧ sol.numSteps = 0 ∧
      sol.result = .nonfinite := by
  have hnc : ¬ Continues S af fn aux0 y0 st0 0 := by
    rintro ⟨h, _⟩
    have h' : af y0 = true := h
    rw [hy] at h'; cases h'
  obtain ⟨sol, hsol, hn⟩ := solve_exists S af fn aux0 y0 st0 hi ms 0 (by omega)
    (Or.inl ⟨hnc, fun n _ => Nat.zero_le n⟩)
  obtain ⟨st0', hi', _, _, _, _, _, hr⟩ := solve_spec _ _ _ _ _ _ _ _ hsol
  rw [hi] at hi'; cases hi'
  refine ⟨sol, hsol, hn, ?_⟩
  rw [hr, hn, if_neg hnc, if_neg]
  show ¬ af y0 = true
  simp [hy]

/-- **C06.** If the iterate after `k` steps is not finite while the loop is still running and the budget allows one
more step, then the solve stops after exactly that one more step and reports `nonfinite`. -/
theorem C06_nonfinite_iterate (S : Solver Y Out Aux St Stats) (af : Y → Bool) (fn : Y → Out × Aux)
    (aux0 : Aux) (y0 : Y) (st0 : St) (hi : S.init fn y0 = .ok st0) (ms : Option Nat) (k : Nat)
    (hlt : ∀ j, j ≤ k → af (iterateAt S fn aux0 y0 st0 (j - 1)) = true ∧
      S.terminate fn (iterateAt S fn aux0 y0 st0 (j - 1)) (stateAt S fn aux0 y0 st0 j) = (false, .successful))
    (hy : af (iterateAt S fn aux0 y0 st0 k) = false) (hb : ∀ n, ms = some n → k + 1 ≤ n) :
    ∃ sol, iterativeSolve S af fn aux0 y0 ms false = some (.ok sol) ∧ sol.numSteps = k + 1 ∧
      sol.result = .nonfinite := by
  have hnc : ¬ Continues S af fn aux0 y0 st0 (k + 1) := by
    rintro ⟨h, _⟩
    have h' : af (iterateAt S fn aux0 y0 st0 k) = true := h
    rw [hy] at h'; cases h'
  obtain ⟨sol, hsol, hn⟩ := solve_exists S af fn aux0 y0 st0 hi ms (k + 1)
    (fun j hj => hlt j (by omega)) (Or.inl ⟨hnc, hb⟩)
  obtain ⟨st0', hi', _, _, _, _, _, hr⟩ := solve_spec _ _ _ _ _ _ _ _ hsol
  rw [hi] at hi'; cases hi'
  refine ⟨sol, hsol, hn, ?_⟩
  rw [hr, hn, if_neg hnc, if_neg]
  show ¬ af (iterateAt S fn aux0 y0 st0 k) = true
  simp [hy]

/-! ### C07 -/

/-- A (user-defined) solver over `Option Nat`, where `none` plays the role of a non-finite value: it makes one step, to
`none`, and declares convergence. -/
def jumpSolver : Solver (Option Nat) Nat Unit Bool Unit where
  init _ _ := .ok false
  step _ _ _ := (none, true, ())
  terminate _ _ st := (st, .successful)
  postprocess _ y a _ _ := (y, a, ())

/-- **C07 is false of the driver for arbitrary solvers**: a solve may report `successful` with a non-finite value,
because `_iterate.py:238` checks the finiteness of the *previous* iterate. -/
theorem C07_not_finite_value :
    ∃ (S : Solver (Option Nat) Nat Unit Bool Unit) (fn : Option Nat → Nat × Unit)
      (sol : Solution (Option Nat) Unit Bool Unit),
      iterativeSolve S Option.isSome fn () (some 0) (some 10) true = some (.ok sol) ∧
      sol.result = .successful ∧ Option.isSome sol.value = false :=
  ⟨jumpSolver, fun _ => (0, ()),
    { value := none, result := .successful, aux := (), numSteps := 1, maxSteps := some 10, stats := (),
      state := true }, by
      rw [solve_iff]
      exact ⟨rfl, fun _ => rfl⟩, rfl, rfl⟩

/-- **C07_partial.** What the driver does guarantee: on success every iterate except possibly the last is finite; and if
the solver's test succeeds only when the newest iterate is finite, then the (un-postprocessed) final iterate is finite.
Missing from the full property: finiteness of the last iterate for solvers without that guarantee. -/
theorem C07_finite_value_partial (S : Solver Y Out Aux St Stats) (af : Y → Bool) (fn : Y → Out × Aux)
    (aux0 : Aux) (y0 : Y) (ms : Option Nat) (throw : Bool) (sol : Solution Y Aux St Stats)
    (h : iterativeSolve S af fn aux0 y0 ms throw = some (.ok sol)) (hs : sol.result = .successful) :
    ∃ st0, S.init fn y0 = .ok st0 ∧
      (∀ j, j < sol.numSteps → af (iterateAt S fn aux0 y0 st0 j) = true) ∧
      ((∀ y st, af y = true → (S.terminate fn y (S.step fn y st).2.1) = (true, .successful) →
          af (S.step fn y st).1 = true) →
        af (iterateAt S fn aux0 y0 st0 sol.numSteps) = true) := by
  obtain ⟨st0, hi, ht, _, hfin, hy0⟩ := C02_success_is_certificate _ _ _ _ _ _ _ _ h hs
  obtain ⟨_, _, st0', hi', hstate, _⟩ := C01_step_budget _ _ _ _ _ _ _ _ h
  rw [hi] at hi'; cases hi'
  refine ⟨st0, hi, hfin, fun hyp => ?_⟩
  cases hn : sol.numSteps with
  | zero => exact hy0
  | succ k =>
    rw [hstate, hn] at ht
    exact hyp _ _ (hfin k (by omega)) ht

/-! ### C08 -/

/-- **C08.** A solve that did not end in `max_steps_reached` gives the same answer under every larger budget and without
any budget. -/
theorem C08_budget_monotone (S : Solver Y Out Aux St Stats) (af : Y → Bool) (fn : Y → Out × Aux)
    (aux0 : Aux) (y0 : Y) (n : Nat) (throw : Bool) (sol : Solution Y Aux St Stats)
    (h : iterativeSolve S af fn aux0 y0 (some n) throw = some (.ok sol))
    (hf : sol.result ≠ .nonlinearMaxStepsReached) (ms : Option Nat) (hms : ∀ m, ms = some m → n ≤ m) :
    iterativeSolve S af fn aux0 y0 ms throw = some (.ok { sol with maxSteps := ms }) := by
  rw [solve_iff] at h ⊢
  refine ⟨?_, h.2⟩
  obtain ⟨st0, hi⟩ := iterate_init _ _ _ _ _ _ _ h.1
  obtain ⟨k, hlt, hst, hsol⟩ := (iterate_eq_some_ok S af fn aux0 y0 st0 hi _ _).1 h.1
  refine (iterate_eq_some_ok S af fn aux0 y0 st0 hi _ _).2 ⟨k, hlt, Or.inl ⟨?_, ?_⟩, ?_⟩
  · intro hc
    apply hf
    rw [hsol, body_iterate]
    simp [package, finalResult, hc.1, hc.2]
  · intro m hm
    have := hms m hm
    rcases hst with ⟨_, h2⟩ | h2
    · have := h2 n rfl; omega
    · simp only [Option.some.injEq] at h2; omega
  · rw [hsol]; rfl

/-- **C08.** Without a budget the solve runs for ever iff every finite budget `n` is used up entirely without a
decision. -/
theorem C08_unbounded_diverges_iff (S : Solver Y Out Aux St Stats) (af : Y → Bool) (fn : Y → Out × Aux)
    (aux0 : Aux) (y0 : Y) (st0 : St) (hi : S.init fn y0 = .ok st0)
    (hne : ∀ y st, (S.terminate fn y st).2 ≠ .nonlinearMaxStepsReached) :
    iterativeSolve S af fn aux0 y0 none false = none ↔
      ∀ n, ∃ sol, iterativeSolve S af fn aux0 y0 (some n) false = some (.ok sol) ∧
        sol.result = .nonlinearMaxStepsReached := by
  have hnone : iterativeSolve S af fn aux0 y0 none false = none ↔
      ∀ k, Continues S af fn aux0 y0 st0 k := by
    unfold iterativeSolve
    rw [Option.map_eq_none_iff, iterate_none S af fn aux0 y0 st0 hi]
    simp
  rw [hnone]
  constructor
  · intro hall n
    obtain ⟨sol, hsol, hn⟩ := solve_exists S af fn aux0 y0 st0 hi (some n) n (fun j _ => hall j) (Or.inr rfl)
    exact ⟨sol, hsol, (C04_max_steps_reached_iff S af fn aux0 y0 st0 hi _ hne sol hsol).2
      ⟨by rw [hn], fun j _ => hall j⟩⟩
  · intro hall k
    obtain ⟨sol, hsol, hr⟩ := hall k
    obtain ⟨hm, hc⟩ := (C04_max_steps_reached_iff S af fn aux0 y0 st0 hi _ hne sol hsol).1 hr
    simp only [Option.some.injEq] at hm
    exact hc k (by omega)

/-! ### C09 -/

/-- **C09.** The aux handed to post-processing is the placeholder if no step was made and otherwise the aux output of
the last step, made from the last-but-one iterate and state. -/
theorem C09_aux_provenance (S : Solver Y Out Aux St Stats) (af : Y → Bool) (fn : Y → Out × Aux) (aux0 : Aux)
    (y0 : Y) (ms : Option Nat) (throw : Bool) (sol : Solution Y Aux St Stats)
    (hpp : ∀ y a st r, (S.postprocess fn y a st r).2.1 = a)
    (h : iterativeSolve S af fn aux0 y0 ms throw = some (.ok sol)) :
    ∃ st0, S.init fn y0 = .ok st0 ∧ (sol.numSteps = 0 → sol.aux = aux0) ∧
      ∀ k, sol.numSteps = k + 1 →
        sol.aux = (S.step fn (iterateAt S fn aux0 y0 st0 k) (stateAt S fn aux0 y0 st0 k)).2.2 := by
  obtain ⟨_, _, st0, hi, _, hp⟩ := C01_step_budget _ _ _ _ _ _ _ _ h
  have ha : sol.aux = auxAt S fn aux0 y0 st0 sol.numSteps := by
    have := congrArg (fun x => x.2.1) hp
    simpa [hpp] using this
  refine ⟨st0, hi, fun h0 => by rw [ha, h0]; rfl, fun k hk => by rw [ha, hk]; rfl⟩

/-! ### C52: batching -/

/-- `jax.vmap` of a `while_loop`: all lanes advance together as long as any lane's condition holds; a lane whose own
condition is false keeps its value (`select`).  Trusted: this is JAX's batching rule for `while_loop`. -/
def batchedLoop {L C : Type} (cond : C → Bool) (body : C → C) (anyLane : (L → Bool) → Bool) :
    Nat → (L → C) → (L → C) :=
  Driver.whileLoop (fun cs => anyLane fun l => cond (cs l))
    (fun cs l => if cond (cs l) then body (cs l) else cs l)

/-- **C52.** Every lane of a batched loop ends exactly as if it had been run alone with the same budget. -/
theorem C52_batched_eq_individual {L C : Type} (cond : C → Bool) (body : C → C)
    (anyLane : (L → Bool) → Bool) (hany : ∀ p : L → Bool, anyLane p = true ↔ ∃ l, p l = true)
    (n : Nat) (cs : L → C) (l : L) :
    batchedLoop cond body anyLane n cs l = Driver.whileLoop cond body n (cs l) := by
  have stuck : ∀ (n : Nat) (c : C), cond c = false → Driver.whileLoop cond body n c = c := by
    intro n c hc
    cases n with
    | zero => rfl
    | succ n => simp [Driver.whileLoop, hc]
  induction n generalizing cs with
  | zero => rfl
  | succ n ih =>
    unfold batchedLoop at *
    rw [Driver.whileLoop]
    split
    · rw [ih]
      rw [Driver.whileLoop]
      split
      · rfl
      · rename_i h; exact stuck n _ (by simpa using h)
    · rename_i h
      have : cond (cs l) = false := by
        by_contra hc
        exact h ((hany _).2 ⟨l, by simpa using hc⟩)
      rw [stuck _ _ this]

/-- **C52** for whole solves: batch the driver's loop over lanes with different starting points (and states) and the
carry of each lane, hence its value, result, aux and number of steps, is the one of the solve run on its own. -/
theorem C52_batched_solve {L : Type} (S : Solver Y Out Aux St Stats) (af : Y → Bool) (fn : L → Y → Out × Aux)
    (aux0 : Aux) (y0 : L → Y) (st0 : L → St) (anyLane : (L → Bool) → Bool)
    (hany : ∀ p : L → Bool, anyLane p = true ↔ ∃ l, p l = true) (n : Nat) (l : L)
    (hi : S.init (fn l) (y0 l) = .ok (st0 l)) :
    iterate S af (fn l) aux0 (y0 l) (some n) =
      some (.ok (package S (fn l) (some n)
        (batchedLoop (fun c : L × Carry Y St Aux => Driver.cond c.2) (fun c => (c.1, body S af (fn c.1) c.2))
          anyLane n (fun l => (l, initCarry S af (fn l) aux0 (y0 l) (st0 l))) l).2)) := by
  rw [C52_batched_eq_individual _ _ _ hany]
  unfold iterate
  rw [hi]
  simp only [whileOpt, Option.map_some]
  congr 3
  have : ∀ (n : Nat) (c : Carry Y St Aux),
      (Driver.whileLoop (fun c : L × Carry Y St Aux => Driver.cond c.2)
        (fun c => (c.1, body S af (fn c.1) c.2)) n (l, c)) =
        (l, Driver.whileLoop Driver.cond (body S af (fn l)) n c) := by
    intro n
    induction n with
    | zero => intro c; rfl
    | succ n ih =>
      intro c
      rw [Driver.whileLoop, Driver.whileLoop]
      dsimp only
      split
      · exact ih _
      · rfl
  rw [this]

/-! ### Non-vacuity: a concrete solver that counts down to zero, stops successfully at 0, and fails on `7`. -/

/-- Counts `y` down; converged when the state (the last tested value) is 0; diverged when it is 7. -/
def countdown : Solver Nat Nat Nat Nat Unit where
  init _ y := .ok y
  step fn y _ := (y - 1, y - 1, (fn y).2)
  terminate _ _ st := (st == 0, if st = 7 then .nonlinearDivergence else .successful)
  postprocess _ y a _ _ := (y, a, ())

/-- Success after exactly 3 of at most 5 steps (C01, C02, C05, C08, C09). -/
example : ∃ sol, iterativeSolve countdown (fun _ => true) (fun y => (y, 10 * y)) 99 3 (some 5) true =
    some (.ok sol) ∧ sol.result = .successful ∧ sol.numSteps = 3 ∧ sol.value = 0 ∧ sol.aux = 10 :=
  ⟨_, (solve_iff ..).2 ⟨rfl, fun _ => rfl⟩, rfl, rfl, rfl, rfl⟩

/-- Budget exhausted (C04). -/
example : ∃ sol, iterativeSolve countdown (fun _ => true) (fun y => (y, 10 * y)) 99 3 (some 2) false =
    some (.ok sol) ∧ sol.result = .nonlinearMaxStepsReached ∧ sol.numSteps = 2 :=
  ⟨_, (solve_iff ..).2 ⟨rfl, by simp⟩, rfl, rfl⟩

/-- A failure on the way (C03). -/
example : ∃ sol, iterativeSolve countdown (fun _ => true) (fun y => (y, 10 * y)) 99 9 (some 50) false =
    some (.ok sol) ∧ sol.result = .nonlinearDivergence ∧ sol.numSteps = 2 :=
  ⟨_, (solve_iff ..).2 ⟨rfl, by simp⟩, rfl, rfl⟩

/-- A non-finite iterate on the way (C06): `5` counts as non-finite. -/
example : ∃ sol, iterativeSolve countdown (fun y => y != 5) (fun y => (y, 10 * y)) 99 6 (some 50) false =
    some (.ok sol) ∧ sol.result = .nonfinite ∧ sol.numSteps = 2 :=
  ⟨_, (solve_iff ..).2 ⟨rfl, by simp⟩, rfl, rfl⟩

/-- A divergent unbounded solve (C08): a solver that never stops. -/
example : iterativeSolve ({ countdown with terminate := fun _ _ _ => (false, .successful) })
    (fun _ => true) (fun y => (y, y)) 0 3 none false = none := by
  rw [C08_unbounded_diverges_iff _ _ _ _ _ 3 rfl (by simp)]
  intro n
  obtain ⟨sol, hsol, hn⟩ := solve_exists ({ countdown with terminate := fun _ _ _ => (false, .successful) })
    (fun _ => true) (fun y => (y, y)) 0 3 3 rfl (some n) n (fun j _ => ⟨rfl, rfl⟩) (Or.inr rfl)
  exact ⟨sol, hsol, (C04_max_steps_reached_iff _ _ _ _ _ 3 rfl _ (by simp) sol hsol).2
    ⟨by rw [hn], fun j _ => ⟨rfl, rfl⟩⟩⟩

end Verif.Props
