import Verif.Model.Compat
import Verif.Props.QuasiNewton

/-! Properties of `compat.minimize` (C48). -/

namespace Verif.Props

open Verif Verif.Spec Verif.Driver Verif.QuasiNewton Verif.SearchLoop

variable {d : Nat} (eps : ℝ) (ls : LinSolve (Fin d) Unit) (af : (Fin d → ℝ) → Bool) (f : (Fin d → ℝ) → ℝ)
  (grad : (Fin d → ℝ) → (Fin d → ℝ))

/-- A call that the documentation allows: method `bfgs` in any capitalisation, a vector, a tuple, and no options other than
`maxiter` (a number or `None`) and `norm`. -/
def ValidRequest (q : Compat.Request d) : Prop :=
  q.method.toLower = "bfgs" ∧ (∃ x0, q.x0 = .vector x0) ∧ q.argsIsTuple = true ∧
    ∀ p ∈ q.options.getD [], p.1 = "maxiter" ∨ p.1 = "norm"

/-- The value of the option `maxiter`, if it is given. -/
def maxiterOption (q : Compat.Request d) : Option (Compat.OptVal d) :=
  ((q.options.getD []).find? fun p => p.1 == "maxiter").map Prod.snd

theorem leftover (o : List (String × Compat.OptVal d)) :
    (Compat.pop (Compat.pop o "maxiter").2 "norm").2.length = 0 ↔ ∀ p ∈ o, p.1 = "maxiter" ∨ p.1 = "norm" := by
  simp only [Compat.pop, List.length_eq_zero_iff, List.filter_filter, List.filter_eq_nil_iff, Bool.and_eq_true, bne_iff_ne]
  constructor
  · intro h p hp
    have := h p hp
    by_cases h1 : p.1 = "norm"
    · exact Or.inr h1
    · by_cases h2 : p.1 = "maxiter"
      · exact Or.inl h2
      · exact absurd ⟨h1, h2⟩ this
  · rintro h p hp ⟨h1, h2⟩
    rcases h p hp with h | h
    · exact h2 h
    · exact h1 h

theorem bfgs_init (tol : ℝ) (x0 : Fin d → ℝ) :
    ∃ st0 : QuasiNewton.State (Fin d) Unit ℝ ((Fin d → ℝ) × Result) Unit,
      (QuasiNewton.solver (Compat.bfgsCfg eps tol ls grad) ()).init (fun y => (f y, ())) x0 = .ok st0 ∧
      st0.fInfo = .evalGradHessianInv 0 (fun _ => 0) 1 ∧ st0.numAcceptedSteps = 0 := ⟨_, rfl, rfl, rfl⟩

/-- **C48.** What is raised: in the order of the checks, a `ValueError` for an unknown method and for an `x0` that is not a
vector, a `TypeError` for `args` that are not a tuple, a `ValueError` for unknown options. -/
theorem C48_error_kinds (q : Compat.Request d) :
    (q.method.toLower ≠ "bfgs" → ∃ m, Compat.minimize eps ls af f grad q = some (.error (.valueError m))) ∧
    (q.method.toLower = "bfgs" → q.x0 = .other → ∃ m, Compat.minimize eps ls af f grad q = some (.error (.valueError m))) ∧
    (q.method.toLower = "bfgs" → (∃ x, q.x0 = .vector x) → q.argsIsTuple = false →
      ∃ m, Compat.minimize eps ls af f grad q = some (.error (.typeError m))) ∧
    (q.method.toLower = "bfgs" → (∃ x, q.x0 = .vector x) → q.argsIsTuple = true →
      (∃ p ∈ q.options.getD [], p.1 ≠ "maxiter" ∧ p.1 ≠ "norm") →
      ∃ m, Compat.minimize eps ls af f grad q = some (.error (.valueError m))) := by
  refine ⟨fun h => ?_, fun h h1 => ?_, fun h ⟨x, h1⟩ h2 => ?_, fun h ⟨x, h1⟩ h2 ⟨p, hp, h3⟩ => ?_⟩
  · exact ⟨_, by unfold Compat.minimize; rw [if_pos h]⟩
  · exact ⟨_, by unfold Compat.minimize; rw [if_neg (not_not.2 h), h1]⟩
  · exact ⟨_, by unfold Compat.minimize; rw [if_neg (not_not.2 h), h1]; simp only [h2, if_true]; rfl⟩
  · refine ⟨"Unsupported options", ?_⟩
    unfold Compat.minimize
    rw [if_neg (not_not.2 h), h1]
    simp only [h2, Bool.true_eq_false, if_false]
    rw [if_pos]
    intro hl
    have := (leftover _).1 hl p hp
    tauto

/-- **C48.** Which calls raise, and what: a `ValueError` for an unknown method, for an `x0` that is not a vector and for
unknown options, a `TypeError` for `args` that are not a tuple (checked in this order), and nothing else (except a
`maxiter` of a wrong type).  In particular failures of the optimisation itself never raise. -/
theorem C48_raises_iff (q : Compat.Request d) :
    (∃ e, Compat.minimize eps ls af f grad q = some (.error e)) ↔
      ¬ ValidRequest q ∨ ∃ v, maxiterOption q = some v ∧ v ≠ .none ∧ ∀ n, v ≠ .nat n := by
  unfold Compat.minimize ValidRequest maxiterOption
  by_cases h1 : q.method.toLower = "bfgs"
  swap
  · rw [if_pos h1]
    exact iff_of_true ⟨_, rfl⟩ (Or.inl fun h => h1 h.1)
  rw [if_neg (not_not.2 h1)]
  cases hx : q.x0 with
  | other =>
    refine iff_of_true ⟨_, rfl⟩ (Or.inl fun h => ?_)
    obtain ⟨x0, h⟩ := h.2.1
    cases h
  | vector x0 =>
    cases ht : q.argsIsTuple with
    | false =>
      refine iff_of_true ⟨_, rfl⟩ (Or.inl fun h => ?_)
      cases h.2.2.1
    | true =>
      simp only [Bool.true_eq_false, if_false]
      by_cases hl : (Compat.pop (Compat.pop (q.options.getD []) "maxiter").2 "norm").2.length = 0
      swap
      · rw [if_pos hl]
        exact iff_of_true ⟨_, rfl⟩ (Or.inl fun h => hl ((leftover _).2 h.2.2.2))
      rw [if_neg (not_not.2 hl)]
      have key : ∀ (tol : ℝ) (ms : Option Nat), ¬ ∃ e, (Driver.iterativeSolve (QuasiNewton.solver (Compat.bfgsCfg eps tol ls grad) ())
          af (fun y => (f y, ())) () x0 ms false).map (fun r => r.map Compat.results) = some (.error e) := by
        rintro tol ms ⟨e, he⟩
        rw [Option.map_eq_some_iff] at he
        obtain ⟨r, hr, hr2⟩ := he
        cases r with
        | ok a => cases hr2
        | error e' =>
          obtain ⟨st0, h0, _⟩ := bfgs_init eps ls f grad tol x0
          have := (C05_nothrow_never_raises _ _ _ _ _ _ _).1 hr
          rw [h0] at this
          cases this
      have hsame : (Compat.pop (q.options.getD []) "maxiter").1 =
          ((q.options.getD []).find? fun p => p.1 == "maxiter").map Prod.snd := rfl
      rw [hsame]
      generalize ((q.options.getD []).find? fun p => p.1 == "maxiter").map Prod.snd = mv
      rcases mv with _ | v
      · refine iff_of_false (key _ _) ?_
        rintro (h | ⟨v, h, _⟩)
        · exact h ⟨h1, ⟨x0, rfl⟩, trivial, (leftover _).1 hl⟩
        · cases h
      · cases v with
        | none =>
          refine iff_of_false (key _ _) ?_
          rintro (h | ⟨v, h, h', _⟩)
          · exact h ⟨h1, ⟨x0, rfl⟩, trivial, (leftover _).1 hl⟩
          · cases h; exact h' rfl
        | nat n =>
          refine iff_of_false (key _ _) ?_
          rintro (h | ⟨v, h, _, h'⟩)
          · exact h ⟨h1, ⟨x0, rfl⟩, trivial, (leftover _).1 hl⟩
          · cases h; exact h' n rfl
        | callable N => exact iff_of_true ⟨_, rfl⟩ (Or.inr ⟨_, rfl, by simp, by simp⟩)
        | other => exact iff_of_true ⟨_, rfl⟩ (Or.inr ⟨_, rfl, by simp, by simp⟩)

theorem bfgs_step_ok (tol : ℝ) (y : Fin d → ℝ) (st : QuasiNewton.State (Fin d) Unit ℝ ((Fin d → ℝ) × Result) Unit)
    (h2 : st.descentState.2 = .successful) (h3 : ∃ v g M, st.fInfo = .evalGradHessianInv v g M) :
    let s := (QuasiNewton.step (Compat.bfgsCfg eps tol ls grad) (fun y => (f y, ())) y st).2.1
    s.result = .successful ∧ s.descentState.2 = .successful ∧ ∃ v g M, s.fInfo = .evalGradHessianInv v g M := by
  obtain ⟨v, g, M, h3⟩ := h3
  obtain ⟨a1, a2, a3, info, a5, ⟨dv, dr⟩, a7, a8, a9, a10⟩ := st
  simp only at h2 h3
  subst h2 h3
  intro s
  by_cases hb : ((Compat.bfgsCfg eps tol ls grad).search.step a1 y a2 (.evalGradHessianInv v g M) (.eval (f a2)) a3).2.1 = true
  · have hs : s = (QuasiNewton.step (Compat.bfgsCfg eps tol ls grad) (fun y => (f y, ())) y
      ⟨a1, a2, a3, .evalGradHessianInv v g M, a5, ⟨dv, .successful⟩, a7, a8, a9, a10⟩).2.1 := rfl
    unfold QuasiNewton.step at hs
    simp only [hb, if_true] at hs
    rw [hs]
    exact ⟨rfl, rfl, _, _, _, rfl⟩
  · have hs : s = (QuasiNewton.step (Compat.bfgsCfg eps tol ls grad) (fun y => (f y, ())) y
      ⟨a1, a2, a3, .evalGradHessianInv v g M, a5, ⟨dv, .successful⟩, a7, a8, a9, a10⟩).2.1 := rfl
    unfold QuasiNewton.step at hs
    rw [Bool.not_eq_true] at hb
    simp only [hb] at hs
    rw [hs]
    exact ⟨rfl, rfl, _, _, _, rfl⟩

/-- BFGS with `use_inverse=True` makes no linear solves, so no step ever fails. -/
theorem bfgs_never_fails (tol : ℝ) (x0 : Fin d → ℝ) (st0 : QuasiNewton.State (Fin d) Unit ℝ ((Fin d → ℝ) × Result) Unit)
    (hi : (QuasiNewton.solver (Compat.bfgsCfg eps tol ls grad) ()).init (fun y => (f y, ())) x0 = .ok st0) (k : Nat) :
    let s := stateAt (QuasiNewton.solver (Compat.bfgsCfg eps tol ls grad) ()) (fun y => (f y, ())) () x0 st0 k
    s.result = .successful ∧ s.descentState.2 = .successful ∧ ∃ v g M, s.fInfo = .evalGradHessianInv v g M := by
  cases hi
  induction k with
  | zero => exact ⟨rfl, rfl, _, _, _, rfl⟩
  | succ k ih =>
    exact bfgs_step_ok eps ls f grad tol _ _ ih.2.1 ih.2.2

/-- What a call that returns has computed: a `minimise` solve with `BFGS`, `throw=False`, the tolerance (default `1e-5`) and
the budget `maxiter` (default: none). -/
theorem minimize_solves (q : Compat.Request d) (r : Compat.Results d)
    (h : Compat.minimize eps ls af f grad q = some (.ok r)) :
    ∃ x0 ms sol, q.x0 = .vector x0 ∧
      (∀ n, ms = some n ↔ maxiterOption q = some (.nat n)) ∧
      iterativeSolve (QuasiNewton.solver (Compat.bfgsCfg eps (q.tol.getD 1e-5) ls grad) ()) af (fun y => (f y, ())) () x0
        ms false = some (.ok sol) ∧ r = Compat.results sol := by
  unfold Compat.minimize at h
  split at h
  · cases h
  · cases hx : q.x0 with
    | other => rw [hx] at h; cases h
    | vector x0 =>
      rw [hx] at h
      simp only at h
      split at h
      · cases h
      · split at h
        · cases h
        · have hsame : (Compat.pop (q.options.getD []) "maxiter").1 = maxiterOption q := rfl
          rw [hsame] at h
          cases hm : Compat.maxSteps (maxiterOption q) with
          | error e => rw [hm] at h; cases h
          | ok ms =>
            rw [hm] at h
            simp only [Option.map_eq_some_iff] at h
            obtain ⟨s, hs, hs2⟩ := h
            cases s with
            | error e => cases hs2
            | ok sol =>
              refine ⟨x0, ms, sol, rfl, ?_, hs, ?_⟩
              · intro n
                generalize maxiterOption q = mv at hm
                rcases mv with _ | v
                · cases hm; simp
                · cases v <;> cases hm <;> simp
              · cases hs2; rfl

/-- **C48.** `status` is `0` exactly for success, `1` exactly if the step budget ran out, and `3` for every other failure;
`success` says whether `status` is `0`; and the number of function evaluations never exceeds `maxiter`. -/
theorem C48_status (q : Compat.Request d) (r : Compat.Results d)
    (h : Compat.minimize eps ls af f grad q = some (.ok r)) :
    ∃ x0 ms sol, q.x0 = .vector x0 ∧ (∀ n, ms = some n ↔ maxiterOption q = some (.nat n)) ∧
      iterativeSolve (QuasiNewton.solver (Compat.bfgsCfg eps (q.tol.getD 1e-5) ls grad) ()) af (fun y => (f y, ())) () x0
        ms false = some (.ok sol) ∧ r.x = sol.value ∧ r.nfev = sol.numSteps ∧
      (r.status = 0 ↔ sol.result = .successful) ∧ (r.status = 1 ↔ sol.result = .nonlinearMaxStepsReached) ∧
      (r.status = 0 ∨ r.status = 1 ∨ r.status = 3) ∧ (r.success = true ↔ r.status = 0) ∧
      ∀ n, maxiterOption q = some (.nat n) → r.nfev ≤ n ∧ (r.status = 1 → r.nfev = n) := by
  obtain ⟨x0, ms, sol, hx, hms, hsol, rfl⟩ := minimize_solves eps ls af f grad q r h
  refine ⟨x0, ms, sol, hx, hms, hsol, rfl, rfl, ?_, ?_, ?_, ?_, ?_⟩
  · simp only [Compat.results, Compat.statusOf]
    split
    · simp_all
    · split <;> simp_all
  · simp only [Compat.results, Compat.statusOf]
    split
    · simp_all
    · split <;> simp_all
  · simp only [Compat.results, Compat.statusOf]
    split
    · simp
    · split <;> simp
  · simp only [Compat.results, Compat.statusOf, decide_eq_true_eq]
    split
    · simp_all
    · split <;> simp_all
  · intro n hn
    refine ⟨(C01_step_budget _ _ _ _ _ _ _ _ hsol).1 n ((hms n).2 hn), fun h1 => ?_⟩
    have hres : sol.result = .nonlinearMaxStepsReached := by
      simp only [Compat.results, Compat.statusOf] at h1
      split at h1
      · cases h1
      · split at h1
        · assumption
        · cases h1
    obtain ⟨st0, hi, _, hstop, _, _, _, hr⟩ := solve_spec _ _ _ _ _ _ _ _ hsol
    rcases hstop with ⟨hnc, _⟩ | hb
    · exfalso
      rw [if_neg hnc] at hr
      rw [hres] at hr
      split at hr
      · have hr' : Result.nonlinearMaxStepsReached =
          (stateAt (QuasiNewton.solver (Compat.bfgsCfg eps (q.tol.getD 1e-5) ls grad) ()) (fun y => (f y, ())) () x0 st0
            sol.numSteps).result := hr
        have hres' : ∀ k, (stateAt (QuasiNewton.solver (Compat.bfgsCfg eps (q.tol.getD 1e-5) ls grad) ()) (fun y => (f y, ()))
            () x0 st0 k).result = .successful := by
          exact fun k => (bfgs_never_fails eps ls f grad _ x0 st0 hi k).1
        rw [hres'] at hr'
        cases hr'
      · cases hr
    · rw [(hms n).2 hn] at hb
      cases hb; rfl

/-- **C48.** `fun` and `jac` are the objective and its gradient at the returned `x`, the objective there is not above that at
`x0`, and `hess_inv` is symmetric positive definite - provided at least one evaluation was made.  `njev` and `nit` count the
accepted trial points (the first evaluation, at `x0`, included).  Success means that the last two accepted points, and the
objective at them, agree within the tolerance. -/
theorem C48_results_at_x_partial (heps : 0 ≤ eps) (q : Compat.Request d) (r : Compat.Results d)
    (h : Compat.minimize eps ls af f grad q = some (.ok r)) (hn : 1 ≤ r.nfev) :
    r.fun = f r.x ∧ r.jac = grad r.x ∧ SPD r.hessInv ∧ (∀ x0, q.x0 = .vector x0 → f r.x ≤ f x0) ∧
    r.nit = r.njev ∧ 1 ≤ r.nit ∧ r.nit ≤ r.nfev ∧
    (0 < q.tol.getD 1e-5 → r.success = true → 2 ≤ r.nit ∧ ∃ w, (∀ i, |r.x i - w i| < q.tol.getD 1e-5 + q.tol.getD 1e-5 * |r.x i|) ∧
      |f r.x - f w| < q.tol.getD 1e-5 + q.tol.getD 1e-5 * |f r.x|) := by
  obtain ⟨x0, ms, sol, hx, hms, hsol, rfl⟩ := minimize_solves eps ls af f grad q r h
  set tol := q.tol.getD 1e-5 with htol
  set cfg := Compat.bfgsCfg eps tol ls grad with hcfg
  have hrec : RecordsPoint cfg.hess := bfgs_records eps true
  have hf : ∀ y z i j s, (cfg.search.step true y z i j s).2.1 = true := armijo_first _
  obtain ⟨_, _, st0, hi, hst, hp⟩ := C01_step_budget _ _ _ _ _ _ _ _ hsol
  have hv : sol.value = iterateAt (QuasiNewton.solver cfg ()) (fun y => (f y, ())) () x0 st0 sol.numSteps :=
    congrArg Prod.fst hp
  obtain ⟨k, hk⟩ : ∃ k, sol.numSteps = k + 1 := ⟨sol.numSteps - 1, by
    have : 1 ≤ sol.numSteps := hn
    omega⟩
  obtain ⟨_, _, v, g, M, hM⟩ := bfgs_never_fails eps ls f grad tol x0 st0 hi sol.numSteps
  have hinfo : sol.state.fInfo = .evalGradHessianInv v g M := by rw [hst]; exact hM
  obtain ⟨hs, _, _⟩ := C30_quasi_newton_family cfg hrec hf () (fun y => (f y, ())) x0 st0 hi sol.numSteps
  obtain ⟨hs1, hs2, _⟩ := hs hn
  rw [hM] at hs1 hs2
  rw [← hv] at hs1 hs2
  have hspd : SPD M := by
    obtain ⟨_, hr⟩ := C34_run eps heps true cfg rfl hf () (fun y => (f y, ())) x0 st0 hi
    obtain ⟨N, _, ⟨v', g', hN⟩, _, hN2, _⟩ := hr k
    rw [← hk, hM] at hN
    simp only [if_true] at hN
    cases hN
    exact hN2
  have hnew : Armijo.new (0.5 : ℝ) 0.1 1 = .ok { decreaseFactor := 0.5, slope := 0.1, stepInit := 1 } := by
    obtain ⟨a, ha⟩ := (C55_armijo_valid_iff 0.5 0.1 1).1.2 (by norm_num)
    obtain ⟨rfl, _⟩ := armijo_new _ _ _ _ ha
    exact ha
  have hmono : f sol.value ≤ f x0 :=
    (C27_quasi_newton_family 0.5 0.1 1 _ hnew cfg rfl
      hrec () (fun y => (f y, ())) af x0 ms false sol hsol).1
  have hcount : ∀ n, (1 ≤ n → 1 ≤ (stateAt (QuasiNewton.solver cfg ()) (fun y => (f y, ())) () x0 st0 n).numAcceptedSteps) ∧
      (stateAt (QuasiNewton.solver cfg ()) (fun y => (f y, ())) () x0 st0 n).numAcceptedSteps ≤ n := by
    intro n
    induction n with
    | zero => cases hi; exact ⟨fun h => by omega, le_refl _⟩
    | succ n ih =>
      have e : (stateAt (QuasiNewton.solver cfg ()) (fun y => (f y, ())) () x0 st0 (n + 1)).numAcceptedSteps =
        (stateAt (QuasiNewton.solver cfg ()) (fun y => (f y, ())) () x0 st0 n).numAcceptedSteps +
        if (cfg.search.step (stateAt (QuasiNewton.solver cfg ()) (fun y => (f y, ())) () x0 st0 n).firstStep
          (iterateAt (QuasiNewton.solver cfg ()) (fun y => (f y, ())) () x0 st0 n)
          (stateAt (QuasiNewton.solver cfg ()) (fun y => (f y, ())) () x0 st0 n).yEval
          (stateAt (QuasiNewton.solver cfg ()) (fun y => (f y, ())) () x0 st0 n).fInfo
          (.eval (f (stateAt (QuasiNewton.solver cfg ()) (fun y => (f y, ())) () x0 st0 n).yEval))
          (stateAt (QuasiNewton.solver cfg ()) (fun y => (f y, ())) () x0 st0 n).searchState).2.1 then 1 else 0 := rfl
      rw [e]
      refine ⟨fun _ => ?_, by split <;> omega⟩
      rcases Nat.eq_zero_or_pos n with rfl | hpos
      · have hfirst : (stateAt (QuasiNewton.solver cfg ()) (fun y => (f y, ())) () x0 st0 0).firstStep = true := by
          cases hi; rfl
        rw [hfirst, if_pos (hf ..)]
        omega
      · have := ih.1 hpos
        omega
  have hstate : sol.state.numAcceptedSteps =
      (stateAt (QuasiNewton.solver cfg ()) (fun y => (f y, ())) () x0 st0 sol.numSteps).numAcceptedSteps := by rw [hst]
  refine ⟨?_, ?_, ?_, ?_, rfl, ?_, ?_, ?_⟩
  · show GradientDescent.fOf sol.state.fInfo = _
    rw [hinfo]; exact hs1
  · show QuasiNewton.gradOf sol.state.fInfo = _
    rw [hinfo]; exact Option.some.inj hs2
  · show SPD (Compat.hessInvOf sol.state.fInfo)
    rw [hinfo]; exact hspd
  · intro x0' hx'
    rw [hx] at hx'; cases hx'
    exact hmono
  · show 1 ≤ sol.state.numAcceptedSteps
    rw [hstate]; exact (hcount _).1 hn
  · show sol.state.numAcceptedSteps ≤ sol.numSteps
    rw [hstate]; exact (hcount _).2
  · intro htol0 hsucc
    have hres : sol.result = .successful := by simpa [Compat.results] using hsucc
    obtain ⟨st0', k', hi', hk1, hk2, hval, hclose⟩ := C58_quasi_newton_family cfg hrec hf () (fun y => (f y, ())) af x0 ms
      false sol hsol hres
    rw [hi] at hi'; cases hi'
    have hacc : 2 ≤ sol.state.numAcceptedSteps := by
      have ht : sol.state.terminate = true := by
        obtain ⟨st0', hi', hterm, _⟩ := C02_success_is_certificate _ _ _ _ _ _ _ _ hsol hres
        exact congrArg Prod.fst hterm
      rw [hst, hk2] at ht
      rw [hstate, hk2]
      have h1 := (hcount k').1 hk1
      by_cases hb : (cfg.search.step (stateAt (QuasiNewton.solver cfg ()) (fun y => (f y, ())) () x0 st0 k').firstStep
          (iterateAt (QuasiNewton.solver cfg ()) (fun y => (f y, ())) () x0 st0 k')
          (stateAt (QuasiNewton.solver cfg ()) (fun y => (f y, ())) () x0 st0 k').yEval
          (stateAt (QuasiNewton.solver cfg ()) (fun y => (f y, ())) () x0 st0 k').fInfo
          (.eval (f (stateAt (QuasiNewton.solver cfg ()) (fun y => (f y, ())) () x0 st0 k').yEval))
          (stateAt (QuasiNewton.solver cfg ()) (fun y => (f y, ())) () x0 st0 k').searchState).2.1 = true
      · have := ((C30_quasi_newton_family cfg hrec hf () (fun y => (f y, ())) x0 st0 hi k').2.1 hb).2.1
        rw [this]; omega
      · have := ((C30_quasi_newton_family cfg hrec hf () (fun y => (f y, ())) x0 st0 hi k').2.2
          (Bool.eq_false_iff.2 hb)).2.2.2.2.1
        rw [this] at ht; cases ht
    refine ⟨hacc, iterateAt (QuasiNewton.solver cfg ()) (fun y => (f y, ())) () x0 st0 k', ?_⟩
    have hc' : cauchyTermination tol tol maxNorm maxNorm sol.value
        (fun i => sol.value i - iterateAt (QuasiNewton.solver cfg ()) (fun y => (f y, ())) () x0 st0 k' i)
        (fun _ : Unit => f sol.value)
        (fun _ : Unit => f sol.value - f (iterateAt (QuasiNewton.solver cfg ()) (fun y => (f y, ())) () x0 st0 k')) = true := by
      simp only [cauchyTermination, Bool.and_eq_true, decide_eq_true_eq]
      exact hclose
    rw [C46_cauchy_iff_all_entries tol tol htol0 htol0.le] at hc'
    exact ⟨hc'.1, hc'.2 ()⟩

/-- **C48 is false without an evaluation**: with `maxiter=0` (or a non-finite `x0`) `fun` and `jac` are zeros that have
nothing to do with the objective. -/
theorem C48_zero_steps_dummy (q : Compat.Request d) (r : Compat.Results d)
    (h : Compat.minimize eps ls af f grad q = some (.ok r)) (hn : r.nfev = 0) :
    q.x0 = .vector r.x ∧ r.fun = 0 ∧ r.jac = (fun _ => 0) ∧ r.hessInv = 1 ∧ r.nit = 0 ∧ r.success = false ∧
    (r.status = 1 → maxiterOption q = some (.nat 0)) ∧ (r.status = 3 → af r.x = false) := by
  obtain ⟨x0, ms, sol, hx, hms, hsol, rfl⟩ := minimize_solves eps ls af f grad q r h
  have hn' : sol.numSteps = 0 := hn
  obtain ⟨st0, hi, _, hstop, hst, _, hp, hr⟩ := solve_spec _ _ _ _ _ _ _ _ hsol
  have hv : sol.value = x0 := by
    have := congrArg Prod.fst hp
    rw [hn'] at this
    exact this
  rw [hn'] at hst hr hstop
  cases hi
  have hinfo : sol.state.fInfo = .evalGradHessianInv 0 (fun _ => 0) 1 := by rw [hst]; rfl
  have hnum : sol.state.numAcceptedSteps = 0 := by rw [hst]; rfl
  have hxv : q.x0 = .vector (Compat.results sol).x := by rw [hx]; show _ = Compat.X0.vector sol.value; rw [hv]
  have hres : sol.result = if af x0 = true then .nonlinearMaxStepsReached else .nonfinite := by
    rw [hr]
    by_cases haf : af x0 = true
    · rw [if_pos haf, if_pos]
      exact ⟨haf, rfl⟩
    · rw [if_neg haf, if_neg (fun hc => haf hc.1)]
      exact if_neg haf
  refine ⟨hxv, ?_, ?_, ?_, hnum, ?_, ?_, ?_⟩
  · show GradientDescent.fOf sol.state.fInfo = _
    rw [hinfo]; rfl
  · show QuasiNewton.gradOf sol.state.fInfo = _
    rw [hinfo]; rfl
  · show Compat.hessInvOf sol.state.fInfo = _
    rw [hinfo]; rfl
  · show decide (sol.result = .successful) = false
    rw [hres]
    split <;> rfl
  · intro h1
    have hre : (Compat.results sol).status = Compat.statusOf sol.result := rfl
    rw [hre, hres] at h1
    split at h1
    · rename_i haf
      rcases hstop with ⟨hnc, _⟩ | hb
      · exact absurd ⟨haf, rfl⟩ hnc
      · exact (hms 0).1 hb
    · cases h1
  · intro h1
    have hre : (Compat.results sol).status = Compat.statusOf sol.result := rfl
    rw [hre, hres] at h1
    split at h1
    · cases h1
    · rename_i haf
      show af sol.value = false
      rw [hv]; exact Bool.eq_false_iff.2 haf

/-- **C48 is false of the option `norm`**: it is accepted and has no effect whatsoever. -/
theorem C48_norm_ignored (q : Compat.Request d) (o : List (String × Compat.OptVal d)) (N : Compat.OptVal d) :
    Compat.minimize eps ls af f grad { q with options := some (("norm", N) :: o) } =
      Compat.minimize eps ls af f grad { q with options := some o } := by
  have h1 : (Compat.pop (("norm", N) :: o) "maxiter").1 = (Compat.pop o "maxiter").1 := rfl
  have h2 : (Compat.pop (Compat.pop (("norm", N) :: o) "maxiter").2 "norm").2 =
      (Compat.pop (Compat.pop o "maxiter").2 "norm").2 := rfl
  unfold Compat.minimize
  simp only [Option.getD_some, h1, h2]

/-- A step from a point with zero gradient and zero direction, on a zero objective, terminates. -/
theorem zero_step_terminates (tol : ℝ) (htol : 0 < tol) (y : Fin d → ℝ)
    (st : QuasiNewton.State (Fin d) Unit ℝ ((Fin d → ℝ) × Result) Unit) (M : Matrix (Fin d) (Fin d) ℝ)
    (h1 : st.firstStep = false) (h2 : st.yEval = y) (h3 : st.fInfo = .evalGradHessianInv 0 (fun _ => 0) M) :
    (QuasiNewton.step (Compat.bfgsCfg eps tol ls fun _ _ => 0) (fun _ => ((0 : ℝ), ())) y st).2.1.terminate = true := by
  have hacc : ((Compat.bfgsCfg (d := d) eps tol ls fun _ _ => 0).search.step false y y (.evalGradHessianInv 0 (fun _ => 0) M)
      (.eval 0) st.searchState).2.1 = true := by
    simp [Compat.bfgsCfg, QuasiNewton.withArmijo, Armijo.search, Armijo.decide', FnInfo.gradDot?, FnInfo.grad?, FnInfo.asMin, treeDot]
  unfold QuasiNewton.step
  simp only [h1, h2, h3, hacc, if_true]
  rw [if_neg (by decide)]
  change cauchyTermination tol tol (maxNorm (ι := Fin d)) (maxNorm (ι := Unit)) y (fun i => y i - y i) (fun _ => (0 : ℝ))
    (fun _ => (0 : ℝ) - 0) = true
  rw [C46_cauchy_iff_all_entries tol tol htol htol.le]
  refine ⟨fun i => ?_, fun _ => ?_⟩
  · simp only [sub_self, abs_zero]; positivity
  · simp only [sub_self, abs_zero]; positivity

/-- On the zero objective the solve succeeds. -/
theorem constant_succeeds (x0 : Fin d → ℝ) :
    ∃ sol, iterativeSolve (QuasiNewton.solver (Compat.bfgsCfg eps 1e-5 ls fun _ _ => 0) ()) (fun _ => true)
      (fun _ => ((0 : ℝ), ())) () x0 none false = some (.ok sol) ∧ sol.result = .successful := by
  set S := QuasiNewton.solver (Compat.bfgsCfg (d := d) eps 1e-5 ls fun _ _ => 0) () with hS
  set fn : (Fin d → ℝ) → ℝ × Unit := fun _ => ((0 : ℝ), ()) with hfn
  obtain ⟨st0, hi⟩ : ∃ st0, S.init fn x0 = .ok st0 := ⟨_, rfl⟩
  have hok := fun k => (bfgs_never_fails eps ls (fun _ => 0) (fun _ _ => 0) 1e-5 x0 st0 hi k).1
  have hit : iterateAt S fn () x0 st0 1 = x0 := by cases hi; rfl
  have hinfo : ∃ M, (stateAt S fn () x0 st0 1).fInfo = .evalGradHessianInv 0 (fun _ => 0) M ∧
      (stateAt S fn () x0 st0 1).yEval = fun i => x0 i + -1 * (M.mulVec (fun _ => 0)) i := by
    cases hi; exact ⟨_, rfl, rfl⟩
  have hfirst : (stateAt S fn () x0 st0 1).firstStep = false := by cases hi; rfl
  have hterm1 : (stateAt S fn () x0 st0 1).terminate = false := by cases hi; rfl
  have hterm0 : (stateAt S fn () x0 st0 0).terminate = false := by cases hi; rfl
  obtain ⟨M, hM, hy⟩ := hinfo
  have hy' : (stateAt S fn () x0 st0 1).yEval = x0 := by
    rw [hy, show (fun _ : Fin d => (0 : ℝ)) = 0 from rfl, Matrix.mulVec_zero]
    funext i; simp
  have hterm2 : (stateAt S fn () x0 st0 2).terminate = true := by
    have := zero_step_terminates eps ls 1e-5 (by norm_num) x0 _ M hfirst hy' hM
    rw [← this]
    have hst : (stateAt S fn () x0 st0 2) = (QuasiNewton.step (Compat.bfgsCfg eps 1e-5 ls fun _ _ => 0) fn
      (iterateAt S fn () x0 st0 1) (stateAt S fn () x0 st0 1)).2.1 := rfl
    rw [hst, hit]
  have hv : ∀ k, verdictAt S fn () x0 st0 k = ((stateAt S fn () x0 st0 k).terminate, .successful) :=
    fun k => Prod.ext rfl (hok k)
  have hnc : ¬ Continues S (fun _ => true) fn () x0 st0 2 := by
    rintro ⟨_, hc⟩
    rw [hv, hterm2] at hc
    cases hc
  obtain ⟨sol, hsol, hk⟩ := solve_exists S (fun _ => true) fn () x0 st0 hi none 2
    (by
      intro j hj
      refine ⟨rfl, ?_⟩
      rw [hv]
      interval_cases j
      · rw [hterm0]
      · rw [hterm1])
    (Or.inl ⟨hnc, by simp⟩)
  refine ⟨sol, hsol, ?_⟩
  obtain ⟨st0', hi', _, _, _, _, _, hr⟩ := solve_spec _ _ _ _ _ _ _ _ hsol
  rw [hi] at hi'; cases hi'
  rw [hk, if_neg hnc, if_pos rfl, hv] at hr
  exact hr

/-- **C48**, the option `norm` again: a norm that is always `1` is never below the threshold `1`, so `BFGS` with that norm
never reports success; `minimize` with that norm reports success on a constant objective. -/
theorem C48_norm_ignored_witness (x0 : Fin d → ℝ) :
    (∀ ms throw sol, iterativeSolve (QuasiNewton.solver (QuasiNewton.withArmijo 1e-5 1e-5 (fun _ => 1) (fun _ => 1) ls
        { decreaseFactor := 0.5, slope := 0.1, stepInit := 1 } (QuasiNewton.bfgs eps true) fun _ _ => 0) ()) (fun _ => true)
        (fun _ => ((0 : ℝ), ())) () x0 ms throw = some (.ok sol) → sol.result ≠ .successful) ∧
    ∃ r, Compat.minimize eps ls (fun _ => true) (fun _ => 0) (fun _ _ => 0)
        ⟨.vector x0, true, "BFGS", none, some [("norm", .callable fun _ => 1)]⟩ = some (.ok r) ∧ r.success = true := by
  constructor
  · intro ms throw sol hsol hs
    obtain ⟨st0, k, hi, _, _, _, hc⟩ := C58_quasi_newton_family _ (bfgs_records eps true) (armijo_first _) () _ _ _ _ _ sol hsol hs
    exact absurd hc.1 (lt_irrefl _)
  · rw [show ([("norm", .callable fun _ => 1)] : List (String × Compat.OptVal d)) = ("norm", .callable fun _ => 1) :: [] from rfl]
    rw [C48_norm_ignored eps ls (fun _ => true) (fun _ => 0) (fun _ _ => 0) ⟨.vector x0, true, "BFGS", none, none⟩ []]
    obtain ⟨sol, hsol, hres⟩ := constant_succeeds eps ls x0
    refine ⟨Compat.results sol, ?_, by simp [Compat.results, hres]⟩
    have hm : ("BFGS" : String).toLower = "bfgs" := by decide +kernel
    simp only [Compat.minimize, hm, ne_eq, not_true_eq_false, if_false, Bool.true_eq_false, Option.getD_none,
      Option.getD_some, Compat.pop, List.find?_nil, List.filter_nil, List.length_nil, Option.map_none, Compat.maxSteps]
    rw [hsol]
    rfl

/-- Every objective and gradient with a finite start and `maxiter=7` meet the hypotheses of `C48_results_at_x_partial`. -/
example (x0 : Fin d → ℝ) : ∃ r, Compat.minimize eps ls (fun _ => true) f grad
    ⟨.vector x0, true, "BFGS", none, some [("maxiter", .nat 7)]⟩ = some (.ok r) ∧ 1 ≤ r.nfev := by
  obtain ⟨sol, hsol⟩ := C05_bounded_returns (QuasiNewton.solver (Compat.bfgsCfg eps 1e-5 ls grad) ()) (fun _ => true)
    (fun y => (f y, ())) () x0 _ rfl 7
  have hm : ("BFGS" : String).toLower = "bfgs" := by decide +kernel
  have hr : Compat.minimize eps ls (fun _ => true) f grad
      ⟨.vector x0, true, "BFGS", none, some [("maxiter", .nat 7)]⟩ = some (.ok (Compat.results sol)) := by
    unfold Compat.minimize
    simp only [hm, ne_eq, not_true_eq_false, if_false, Bool.true_eq_false, Option.getD_none, Option.getD_some]
    show (if ([] : List (String × Compat.OptVal d)).length ≠ 0 then _ else _) = _
    rw [if_neg (by simp)]
    show Option.map _ (iterativeSolve (QuasiNewton.solver (Compat.bfgsCfg eps 1e-5 ls grad) ()) (fun _ => true)
      (fun y => (f y, ())) () x0 (some 7) false) = _
    rw [hsol]
    rfl
  refine ⟨_, hr, ?_⟩
  by_contra hn
  have h0 : (Compat.results sol).nfev = 0 := by omega
  obtain ⟨_, _, _, _, _, h5, h6, h7⟩ := C48_zero_steps_dummy eps ls (fun _ => true) f grad _ _ hr h0
  obtain ⟨_, _, _, _, _, _, _, _, _, _, hs, hs', _⟩ := C48_status eps ls (fun _ => true) f grad _ _ hr
  rcases hs with hs | hs | hs
  · rw [hs'.2 hs] at h5; cases h5
  · have h6' := h6 hs
    simp [maxiterOption] at h6'
  · cases h7 hs

/-- Requests that are valid, and one with an unknown option. -/
example : ValidRequest (d := 2) ⟨.vector ![1, 2], true, "BFGS", none, some [("maxiter", .nat 10), ("norm", .other)]⟩ := by
  refine ⟨by decide +kernel, ⟨_, rfl⟩, rfl, ?_⟩
  intro p hp
  simp only [Option.getD_some, List.mem_cons, List.not_mem_nil, or_false] at hp
  rcases hp with rfl | rfl
  · exact Or.inl rfl
  · exact Or.inr rfl

example : ¬ ValidRequest (d := 2) ⟨.vector ![1, 2], true, "bfgs", none, some [("gtol", .other)]⟩ := by
  rintro ⟨_, _, _, h⟩
  rcases h ("gtol", .other) (by simp) with h | h <;> exact absurd h (by decide)

end Verif.Props
