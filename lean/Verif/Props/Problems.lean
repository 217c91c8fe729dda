import Verif.Props.Driver
import Verif.Model.Problems
import Verif.Lemmas.Norms
import Mathlib.Tactic.NormNum

/-!
Properties C10, C11 and C56: conversions between problem types.
-/

namespace Verif.Props
open Verif.Driver Verif.Spec

variable {Y Out Aux St Stats K O : Type}

/-! ### C10 -/

section
variable [LT K] [DecidableLT K]

theorem toRoot_step (S : Solver Y O (Out × Aux) St Stats) (norm : Out → K) (atol : K) (fInf : Out)
    (g : Y → O × (Out × Aux)) (y : Y) (st : St × Out) :
    (toRoot norm atol fInf S).step g y st =
      ((S.step g y st.1).1, ((S.step g y st.1).2.1, (S.step g y st.1).2.2.1), (S.step g y st.1).2.2) := rfl

theorem toRoot_terminate (S : Solver Y O (Out × Aux) St Stats) (norm : Out → K) (atol : K) (fInf : Out)
    (g : Y → O × (Out × Aux)) (y : Y) (st : St × Out) :
    (toRoot norm atol fInf S).terminate g y st =
      ((S.terminate g y st.1).1 && decide (norm st.2 < atol), (S.terminate g y st.1).2) := rfl

theorem toRoot_trace (S : Solver Y O (Out × Aux) St Stats) (norm : Out → K) (atol : K) (fInf : Out)
    (g : Y → O × (Out × Aux)) (aux0 : Out × Aux) (y0 : Y) (st0 : St) (k : Nat) :
    iterateAt (toRoot norm atol fInf S) g aux0 y0 (st0, fInf) k = iterateAt S g aux0 y0 st0 k ∧
    (stateAt (toRoot norm atol fInf S) g aux0 y0 (st0, fInf) k).1 = stateAt S g aux0 y0 st0 k ∧
    (stateAt (toRoot norm atol fInf S) g aux0 y0 (st0, fInf) k).2 =
      (if k = 0 then fInf else (auxAt S g aux0 y0 st0 k).1) := by
  induction k with
  | zero => exact ⟨rfl, rfl, rfl⟩
  | succ k ih =>
    obtain ⟨h1, h2, _⟩ := ih
    have hs : trace (toRoot norm atol fInf S) g aux0 y0 (st0, fInf) (k + 1) =
        (toRoot norm atol fInf S).step g (iterateAt (toRoot norm atol fInf S) g aux0 y0 (st0, fInf) k)
          (stateAt (toRoot norm atol fInf S) g aux0 y0 (st0, fInf) k) := rfl
    have hS : trace S g aux0 y0 st0 (k + 1) = S.step g (iterateAt S g aux0 y0 st0 k)
      (stateAt S g aux0 y0 st0 k) := rfl
    simp only [iterateAt, stateAt, auxAt] at *
    rw [hs, hS]
    simp [toRoot_step, h1, h2]

/-- The core of C10 for both wrappers. -/
theorem toRoot_success (S : Solver Y O (Out × Aux) St Stats) (norm : Out → K) (atol : K) (fInf : Out)
    (hinf : ¬ norm fInf < atol) (af : Y → Bool) (g : Y → O × (Out × Aux)) (aux0 : Out × Aux) (y0 : Y)
    (ms : Option Nat) (throw : Bool) (sol : Solution Y (Out × Aux) (St × Out) Stats)
    (h : iterativeSolve (toRoot norm atol fInf S) af g aux0 y0 ms throw = some (.ok sol))
    (hs : sol.result = .successful) :
    ∃ st0 n, S.init g y0 = .ok st0 ∧ sol.numSteps = n + 1 ∧
      S.terminate g (iterateAt S g aux0 y0 st0 n) sol.state.1 = (true, .successful) ∧
      norm (auxAt S g aux0 y0 st0 (n + 1)).1 < atol := by
  obtain ⟨st, hi, ht, _, _, _⟩ := C02_success_is_certificate _ _ _ _ _ _ _ _ h hs
  obtain ⟨_, _, st', hi', hstate, _⟩ := C01_step_budget _ _ _ _ _ _ _ _ h
  rw [hi] at hi'; cases hi'
  obtain ⟨st0, hst0, rfl⟩ : ∃ st0, S.init g y0 = .ok st0 ∧ st = (st0, fInf) := by
    simp only [toRoot] at hi
    cases hx : S.init g y0 with
    | error e => rw [hx] at hi; cases hi
    | ok s => rw [hx] at hi; cases hi; exact ⟨s, rfl, rfl⟩
  obtain ⟨h1, h2, h3⟩ := toRoot_trace S norm atol fInf g aux0 y0 st0 sol.numSteps
  rw [toRoot_terminate] at ht
  simp only [Prod.mk.injEq, Bool.and_eq_true, decide_eq_true_eq] at ht
  obtain ⟨⟨ht1, ht2⟩, ht3⟩ := ht
  rw [hstate] at ht2
  rw [show (stateAt (toRoot norm atol fInf S) g aux0 y0 (st0, fInf) sol.numSteps).2 = _ from h3] at ht2
  cases hn : sol.numSteps with
  | zero => rw [hn] at ht2; exact absurd ht2 hinf
  | succ n =>
    refine ⟨st0, n, hst0, rfl, ?_, ?_⟩
    · have h4 := (toRoot_trace S norm atol fInf g aux0 y0 st0 n).1
      rw [hn] at ht1 ht3
      simp only [Nat.add_sub_cancel] at ht1 ht3
      rw [h4] at ht1 ht3
      exact Prod.ext ht1 ht3
    · rw [hn, if_neg (Nat.succ_ne_zero n)] at ht2
      exact ht2

/-- **C10** (minimisers).  A successful `root_find` with a minimiser: the inner minimiser's own test succeeded, and
`norm(fn(y)) < atol` at the last iterate `y` the minimiser stepped from. -/
theorem C10_root_via_minimiser_certificate (S : Solver Y K (Out × Aux) St Stats) (norm : Out → K) (atol : K)
    (fInf : Out) (hinf : ¬ norm fInf < atol) (af : Y → Bool) (fn : Y → Out × Aux) (aux0 : Out × Aux) (y0 : Y)
    (ms : Option Nat) (throw : Bool) (sol : Solution Y Aux (St × Out) Stats)
    (h : rootFindViaMinimiser S norm atol fInf af fn aux0 y0 ms throw = some (.ok sol))
    (hs : sol.result = .successful)
    (hrep : ∀ st0, S.init (toMinimiseFn norm fn) y0 = .ok st0 → ReportsAux S (toMinimiseFn norm fn) aux0 y0 st0) :
    ∃ st0 n, S.init (toMinimiseFn norm fn) y0 = .ok st0 ∧ sol.numSteps = n + 1 ∧
      S.terminate (toMinimiseFn norm fn) (iterateAt S (toMinimiseFn norm fn) aux0 y0 st0 n) sol.state.1 =
        (true, .successful) ∧
      norm (fn (iterateAt S (toMinimiseFn norm fn) aux0 y0 st0 n)).1 < atol := by
  simp only [rootFindViaMinimiser, minimise, if_true, Option.map_eq_some_iff] at h
  obtain ⟨r, hr, hr2⟩ := h
  cases r with
  | error e => cases hr2
  | ok sol' =>
    cases hr2
    obtain ⟨st0, n, h1, h2, h3, h4⟩ := toRoot_success S norm atol fInf hinf af _ aux0 y0 ms throw sol' hr hs
    refine ⟨st0, n, h1, h2, h3, ?_⟩
    have := hrep st0 h1 n
    rw [this] at h4
    exact h4

/-- **C10** (least-squares solvers). -/
theorem C10_root_via_least_squares_certificate (S : Solver Y Out (Out × Aux) St Stats) (norm : Out → K) (atol : K)
    (fInf : Out) (hinf : ¬ norm fInf < atol) (af : Y → Bool) (fn : Y → Out × Aux) (aux0 : Out × Aux) (y0 : Y)
    (ms : Option Nat) (throw : Bool) (sol : Solution Y Aux (St × Out) Stats)
    (h : rootFindViaLeastSquares S norm atol fInf af fn aux0 y0 ms throw = some (.ok sol))
    (hs : sol.result = .successful)
    (hrep : ∀ st0, S.init (toLstsqFn fn) y0 = .ok st0 → ReportsAux S (toLstsqFn fn) aux0 y0 st0) :
    ∃ st0 n, S.init (toLstsqFn fn) y0 = .ok st0 ∧ sol.numSteps = n + 1 ∧
      S.terminate (toLstsqFn fn) (iterateAt S (toLstsqFn fn) aux0 y0 st0 n) sol.state.1 = (true, .successful) ∧
      norm (fn (iterateAt S (toLstsqFn fn) aux0 y0 st0 n)).1 < atol := by
  simp only [rootFindViaLeastSquares, Option.map_eq_some_iff] at h
  obtain ⟨r, hr, hr2⟩ := h
  cases r with
  | error e => cases hr2
  | ok sol' =>
    cases hr2
    obtain ⟨st0, n, h1, h2, h3, h4⟩ := toRoot_success S norm atol fInf hinf af _ aux0 y0 ms throw sol' hr hs
    refine ⟨st0, n, h1, h2, h3, ?_⟩
    have := hrep st0 h1 n
    rw [this] at h4
    exact h4

/-- **C10** (no false roots).  If `norm(fn(y)) < atol` nowhere, then no minimiser can make `root_find` succeed. -/
theorem C10_no_root_no_success (S : Solver Y K (Out × Aux) St Stats) (norm : Out → K) (atol : K)
    (fInf : Out) (hinf : ¬ norm fInf < atol) (af : Y → Bool) (fn : Y → Out × Aux) (aux0 : Out × Aux) (y0 : Y)
    (ms : Option Nat) (throw : Bool) (sol : Solution Y Aux (St × Out) Stats)
    (h : rootFindViaMinimiser S norm atol fInf af fn aux0 y0 ms throw = some (.ok sol))
    (hrep : ∀ st0, S.init (toMinimiseFn norm fn) y0 = .ok st0 → ReportsAux S (toMinimiseFn norm fn) aux0 y0 st0)
    (hno : ∀ y, ¬ norm (fn y).1 < atol) : sol.result ≠ .successful := by
  intro hs
  obtain ⟨st0, n, _, _, _, h4⟩ := C10_root_via_minimiser_certificate S norm atol fInf hinf af fn aux0 y0 ms throw
    sol h hs hrep
  exact hno _ h4

end

/-- The wrapper does not disturb the inner solver: the value returned is the inner solver's post-processed iterate, and
`aux` is the user's aux. -/
theorem C10_root_aux_is_users (S : Solver Y ℝ (Out × Aux) St Stats) (norm : Out → ℝ) (atol : ℝ)
    (fInf : Out) (af : Y → Bool) (fn : Y → Out × Aux) (aux0 : Out × Aux) (y0 : Y)
    (ms : Option Nat) (throw : Bool) (sol : Solution Y Aux (St × Out) Stats)
    (h : rootFindViaMinimiser S norm atol fInf af fn aux0 y0 ms throw = some (.ok sol))
    (hpp : ∀ g y a st r, (S.postprocess g y a st r).1 = y ∧ (S.postprocess g y a st r).2.1 = a)
    (hrep : ∀ st0, S.init (toMinimiseFn norm fn) y0 = .ok st0 → ReportsAux S (toMinimiseFn norm fn) aux0 y0 st0)
    (n : Nat) (hn : sol.numSteps = n + 1) :
    ∃ st0, S.init (toMinimiseFn norm fn) y0 = .ok st0 ∧
      sol.value = iterateAt S (toMinimiseFn norm fn) aux0 y0 st0 (n + 1) ∧
      sol.aux = (fn (iterateAt S (toMinimiseFn norm fn) aux0 y0 st0 n)).2 := by
  simp only [rootFindViaMinimiser, minimise, if_true, Option.map_eq_some_iff] at h
  obtain ⟨r, hr, hr2⟩ := h
  cases r with
  | error e => cases hr2
  | ok sol' =>
    cases hr2
    obtain ⟨_, _, st, hi, hstate, hp⟩ := C01_step_budget _ _ _ _ _ _ _ _ hr
    obtain ⟨st0, hst0, rfl⟩ : ∃ st0, S.init (toMinimiseFn norm fn) y0 = .ok st0 ∧ st = (st0, fInf) := by
      simp only [toRoot] at hi
      cases hx : S.init (toMinimiseFn norm fn) y0 with
      | error e => rw [hx] at hi; cases hi
      | ok s => rw [hx] at hi; cases hi; exact ⟨s, rfl, rfl⟩
    have hn' : sol'.numSteps = n + 1 := hn
    rw [hn'] at hp
    have h1 := (toRoot_trace S norm atol fInf (toMinimiseFn norm fn) aux0 y0 st0 (n + 1)).1
    have ha : auxAt (toRoot norm atol fInf S) (toMinimiseFn norm fn) aux0 y0 (st0, fInf) (n + 1) =
        auxAt S (toMinimiseFn norm fn) aux0 y0 st0 (n + 1) := by
      obtain ⟨h2, h3, _⟩ := toRoot_trace S norm atol fInf (toMinimiseFn norm fn) aux0 y0 st0 n
      have e1 : auxAt (toRoot norm atol fInf S) (toMinimiseFn norm fn) aux0 y0 (st0, fInf) (n + 1) =
        ((toRoot norm atol fInf S).step (toMinimiseFn norm fn)
          (iterateAt (toRoot norm atol fInf S) (toMinimiseFn norm fn) aux0 y0 (st0, fInf) n)
          (stateAt (toRoot norm atol fInf S) (toMinimiseFn norm fn) aux0 y0 (st0, fInf) n)).2.2 := rfl
      rw [e1, h2]
      show (S.step _ _ (stateAt (toRoot norm atol fInf S) _ aux0 y0 (st0, fInf) n).1).2.2 = _
      rw [h3]; rfl
    have hp' : (sol'.value, sol'.aux, sol'.stats) = S.postprocess (toMinimiseFn norm fn) _ _ sol'.state.1
      sol'.result := hp
    rw [h1, ha] at hp'
    refine ⟨st0, hst0, ?_, ?_⟩
    · have := congrArg Prod.fst hp'
      rw [(hpp _ _ _ _ _).1] at this
      exact this
    · have := congrArg (fun x => x.2.1) hp'
      dsimp only at this
      rw [(hpp _ _ _ _ _).2, hrep st0 hst0 n] at this
      show sol'.aux.2 = _
      rw [this]; rfl

/-- Non-vacuity of C10: a minimiser that walks down to 0 in unit steps, on `fn y = y`, `norm = id`, `atol = 1`. -/
def walker : Solver Nat Nat (Nat × Unit) Bool Unit where
  init _ _ := .ok false
  step fn y _ := (y - 1, y == 0, (fn y).2)
  terminate _ _ st := (st, .successful)
  postprocess _ y a _ _ := (y, a, ())

/-- The solution of the walker. -/
def walkerSol {A : Type} (a : A) : Solution Nat A (Bool × Nat) Unit :=
  { value := 0, result := .successful, aux := a, numSteps := 4, maxSteps := some 9, stats := (), state := (true, 0) }

example : ∃ sol, rootFindViaMinimiser walker id 1 9 (fun _ => true) (fun y => (y, ())) (0, ()) 3 (some 9) true =
    some (.ok sol) ∧ sol.result = .successful ∧ sol.numSteps = 4 := by
  have : iterativeSolve (toRoot id 1 9 walker) (fun _ => true) (toMinimiseFn id fun y => (y, ())) (0, ()) 3
      (some 9) true = some (.ok (walkerSol (0, ()))) := (solve_iff ..).2 ⟨rfl, fun _ => rfl⟩
  refine ⟨walkerSol (), ?_, rfl, rfl⟩
  simp only [rootFindViaMinimiser, minimise, if_true, this]
  rfl

example : ReportsAux walker (toMinimiseFn id fun y => (y, ())) (0, ()) 3 false := fun _ => rfl

/-! ### C11 -/

/-- **C11.** `least_squares` with a minimiser: the objective handed over is non-negative, vanishes exactly at the points
where all residuals vanish, orders points exactly as the documented `sum_i fn(y)_i^2` does (so has the same minimisers),
and the aux is untouched. -/
theorem C11_least_squares_objective {κ : Type} [Fintype κ] (r : Y → (κ → ℝ) × Aux) (y y' : Y) :
    0 ≤ (lsqToMinimiseFn r y).1 ∧
    ((lsqToMinimiseFn r y).1 = 0 ↔ ∀ i, (r y).1 i = 0) ∧
    ((lsqToMinimiseFn r y).1 ≤ (lsqToMinimiseFn r y').1 ↔ ∑ i, (r y).1 i ^ 2 ≤ ∑ i, (r y').1 i ^ 2) ∧
    (lsqToMinimiseFn r y).2 = (r y).2 := by
  have hsq : ∀ x : κ → ℝ, sumSquares x = ∑ i, x i ^ 2 := fun x =>
    Finset.sum_congr rfl fun i _ => (sq _).symm
  refine ⟨?_, ?_, ?_, rfl⟩
  · exact mul_nonneg (by norm_num) (sumSquares_nonneg _)
  · show 1 / 2 * sumSquares (r y).1 = 0 ↔ _
    rw [← sumSquares_eq_zero]
    constructor <;> intro h <;> linarith
  · show 1 / 2 * sumSquares (r y).1 ≤ 1 / 2 * sumSquares (r y').1 ↔ _
    rw [hsq, hsq]
    constructor <;> intro h <;> linarith

/-- **C11.** `fixed_point` through a root finder: the roots of the converted function are exactly the fixed points. -/
theorem C11_fixed_point_root {κ : Type} (fn : (κ → ℝ) → (κ → ℝ) × Aux) (y : κ → ℝ) :
    ((fpToRootFn fn y).1 = 0 ↔ (fn y).1 = y) ∧ (fpToRootFn fn y).2 = (fn y).2 :=
  ⟨sub_eq_zero, rfl⟩

/-- **C11.** `root_find` through a least-squares solver hands over `fn` itself (so the least-squares objective is 0
exactly at roots), through a minimiser `norm(fn)`: non-negative and zero exactly at roots, for every definite norm;
both keep the pair `(fn value, aux)` as the inner aux. -/
theorem C11_root_find_objective {κ : Type} [Fintype κ] (norm : (κ → ℝ) → ℝ)
    (hnn : ∀ x, 0 ≤ norm x) (hdef : ∀ x, norm x = 0 ↔ x = 0) (fn : Y → (κ → ℝ) × Aux) (y : Y) :
    (toLstsqFn fn y).1 = (fn y).1 ∧ (toLstsqFn fn y).2 = fn y ∧
    0 ≤ (toMinimiseFn norm fn y).1 ∧ ((toMinimiseFn norm fn y).1 = 0 ↔ (fn y).1 = 0) ∧
    (toMinimiseFn norm fn y).2 = fn y :=
  ⟨rfl, rfl, hnn _, hdef _, rfl⟩

/-- `max_norm` and `two_norm` are definite, as C11 needs. -/
example {κ : Type} [Fintype κ] (x : κ → ℝ) : maxNorm x = 0 ↔ x = 0 := by
  constructor
  · intro h; funext i
    have := abs_le_maxNorm x i
    rw [h] at this
    exact abs_eq_zero.1 (le_antisymm this (abs_nonneg _))
  · rintro rfl; exact goodNorm_maxNorm.zero

example {κ : Type} [Fintype κ] (x : κ → ℝ) : twoNorm x = 0 ↔ x = 0 := by
  unfold twoNorm
  rw [Real.sqrt_eq_zero (sumSquares_nonneg x), sumSquares_eq_zero]
  exact ⟨fun h => funext h, fun h i => by rw [h]; rfl⟩

/-- **C11.** All ways to solve a fixed-point problem reject a function whose output structure differs from its input's,
without running anything, whatever the solver. -/
theorem C11_fixed_point_structure_rejected {Y Aux St Stats : Type} [Sub Y] (yStruct fStruct : Struct)
    (hne : fStruct ≠ yStruct) (S : Solver Y Y Aux St Stats) (S2 : Solver Y Y (Y × Aux) St Stats)
    (S3 : Solver Y ℝ (Y × Aux) St Stats) (norm : Y → ℝ) (atol : ℝ) (fInf : Y) (af : Y → Bool)
    (fn : Y → Y × Aux) (aux0 : Aux) (aux1 : Y × Aux) (y0 : Y) (ms : Option Nat) (throw : Bool) :
    ∃ e, fixedPoint S yStruct fStruct af fn aux0 y0 ms throw = some (.error (.valueError e)) ∧
      fixedPointViaRootFinder S yStruct fStruct af fn aux0 y0 ms throw = some (.error (.valueError e)) ∧
      fixedPointViaLeastSquares S2 norm atol fInf yStruct fStruct af fn aux1 y0 ms throw =
        some (.error (.valueError e)) ∧
      fixedPointViaMinimiser S3 norm atol fInf yStruct fStruct af fn aux1 y0 ms throw =
        some (.error (.valueError e)) := by
  refine ⟨"The input and output of `fixed_point_fn` must have the same structure", ?_, ?_, ?_, ?_⟩ <;>
  simp [fixedPoint, fixedPointViaRootFinder, fixedPointViaLeastSquares, fixedPointViaMinimiser, fpStructCheck, hne]

/-- **C11.** `minimise` rejects every objective whose output is not exactly one floating-point scalar. -/
theorem C11_minimise_rejects_nonscalar (S : Solver Y K Aux St Stats) (s : Struct) (hs : s ≠ .leaf [] true)
    (af : Y → Bool) (fn : Y → K × Aux) (aux0 : Aux) (y0 : Y) (ms : Option Nat) (throw : Bool) :
    ∃ m, minimise S s af fn aux0 y0 ms throw = some (.error (.valueError m)) :=
  ⟨_, if_neg hs⟩

example : (Struct.leaf [3] true) ≠ .leaf [] true ∧ (Struct.leaf [] false) ≠ .leaf [] true ∧
    Struct.node "tuple" [([], true)] ≠ .leaf [] true := by decide

/-! ### C56 -/

/-- **C56 is false of the code.**  The documentation of `root_find` promises that with a minimiser
`sum(fn(y)^2)` is minimised; the code minimises `norm(fn(y))` and with the default `max_norm` the two objectives order
points differently, so even have different minimisers: here `y = true` is better for the documented objective and
`y = false` for the one handed to the solver. -/
theorem C56_documented_objective_false :
    ∃ (fn : Bool → (Fin 2 → ℝ) × Unit),
      (∑ i, (fn true).1 i ^ 2 < ∑ i, (fn false).1 i ^ 2) ∧
      (toMinimiseFn maxNorm fn false).1 < (toMinimiseFn maxNorm fn true).1 := by
  refine ⟨fun b => (if b then ![5, 0] else ![4, 4], ()), ?_, ?_⟩
  · simp [Fin.sum_univ_two]; norm_num
  · simp only [toMinimiseFn]
    rw [maxNorm_lt_iff]
    have h5 : (5:ℝ) ≤ maxNorm ![(5:ℝ), 0] := by
      have := abs_le_maxNorm ![(5:ℝ), 0] 0
      simpa using this
    simp only [Bool.false_eq_true, if_false, if_true]
    refine ⟨by linarith, fun i => ?_⟩
    fin_cases i <;> (simp; linarith)

/-- **C56_partial.** With `two_norm` as the solver's norm the promise holds up to a monotone transformation: the
objective orders points as `sum(fn(y)^2)`.  (Missing: the default norm, for which it is false.) -/
theorem C56_documented_objective_partial {κ : Type} [Fintype κ] (fn : Y → (κ → ℝ) × Aux) (y y' : Y) :
    (toMinimiseFn twoNorm fn y).1 ≤ (toMinimiseFn twoNorm fn y').1 ↔
      ∑ i, (fn y).1 i ^ 2 ≤ ∑ i, (fn y').1 i ^ 2 := by
  have hsq : ∀ x : κ → ℝ, sumSquares x = ∑ i, x i ^ 2 := fun x =>
    Finset.sum_congr rfl fun i _ => (sq _).symm
  simp only [toMinimiseFn, twoNorm]
  rw [Real.sqrt_le_sqrt_iff (sumSquares_nonneg _), hsq, hsq]

end Verif.Props
