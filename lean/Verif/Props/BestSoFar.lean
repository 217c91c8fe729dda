import Verif.Model.BestSoFar
import Verif.Props.Search
import Verif.Props.Golden
import Verif.Props.FixedPoint
import Verif.Props.GradientMethods
import Verif.Props.NewtonChord

/-! Properties of the `BestSoFar…` wrappers (C25, C26). -/

namespace Verif.Props

open Verif Verif.Spec Verif.Driver

variable {Y Out A St Stats L : Type}

section
variable [LT L] [DecidableLT L] (S : Solver Y Out (Out × A) St Stats) (toLoss : Y → Out → L) (inf : L) (auxZero : A)
  (fn : Y → Out × A)

theorem best_trace (out0 : Out) (aux0 : A) (y0 : Y) (bst : BestSoFar.State Y A L St) (k : Nat) :
    iterateAt (BestSoFar.solver S toLoss inf auxZero) fn aux0 y0 bst k =
      iterateAt S (BestSoFar.auxmented fn) (out0, aux0) y0 bst.state k ∧
    (stateAt (BestSoFar.solver S toLoss inf auxZero) fn aux0 y0 bst k).state =
      stateAt S (BestSoFar.auxmented fn) (out0, aux0) y0 bst.state k := by
  induction k with
  | zero => exact ⟨rfl, rfl⟩
  | succ k ih =>
    constructor
    · show (S.step _ (iterateAt (BestSoFar.solver S toLoss inf auxZero) fn aux0 y0 bst k)
        (stateAt (BestSoFar.solver S toLoss inf auxZero) fn aux0 y0 bst k).state).1 = _
      rw [ih.1, ih.2]; rfl
    · show (S.step _ (iterateAt (BestSoFar.solver S toLoss inf auxZero) fn aux0 y0 bst k)
        (stateAt (BestSoFar.solver S toLoss inf auxZero) fn aux0 y0 bst k).state).2.1 = _
      rw [ih.1, ih.2]; rfl

/-- The best point after `k` steps. -/
theorem best_invariant (htrans : ∀ a b c : L, a < b → b < c → a < c) (hirr : ∀ a : L, ¬ a < a)
    (out0 : Out) (aux0 : A) (y0 : Y) (bst : BestSoFar.State Y A L St)
    (hy : bst.bestY = y0) (ha : bst.bestAux = auxZero) (hl : bst.bestLoss = inf)
    (hrep : ReportsAux S (BestSoFar.auxmented fn) (out0, aux0) y0 bst.state) (k : Nat) :
    let X := iterateAt S (BestSoFar.auxmented fn) (out0, aux0) y0 bst.state
    let T := stateAt (BestSoFar.solver S toLoss inf auxZero) fn aux0 y0 bst k
    (∀ i, i < k → ¬ toLoss (X i) (fn (X i)).1 < T.bestLoss) ∧
    ((T.bestLoss = inf ∧ T.bestY = y0 ∧ T.bestAux = auxZero) ∨
      (∃ j, j < k ∧ T.bestY = X j ∧ T.bestAux = (fn (X j)).2 ∧ T.bestLoss = toLoss (X j) (fn (X j)).1 ∧
        T.bestLoss < inf)) := by
  intro X
  induction k with
  | zero => exact ⟨fun i hi => absurd hi (Nat.not_lt_zero i), .inl ⟨hl, hy, ha⟩⟩
  | succ k ih =>
    obtain ⟨hx, hs⟩ := best_trace S toLoss inf auxZero fn out0 aux0 y0 bst k
    set T := stateAt (BestSoFar.solver S toLoss inf auxZero) fn aux0 y0 bst k with hT
    have haux : (S.step (BestSoFar.auxmented fn) (X k) T.state).2.2 = ((fn (X k)).1, (fn (X k)).2) := by
      rw [hs]; exact hrep k
    have hT' : stateAt (BestSoFar.solver S toLoss inf auxZero) fn aux0 y0 bst (k + 1) =
        { bestY := if toLoss (X k) (fn (X k)).1 < T.bestLoss then X k else T.bestY,
          bestAux := if toLoss (X k) (fn (X k)).1 < T.bestLoss then (fn (X k)).2 else T.bestAux,
          bestLoss := if toLoss (X k) (fn (X k)).1 < T.bestLoss then toLoss (X k) (fn (X k)).1 else T.bestLoss,
          state := (S.step (BestSoFar.auxmented fn) (X k) T.state).2.1 } := by
      show (BestSoFar.step S toLoss fn (iterateAt (BestSoFar.solver S toLoss inf auxZero) fn aux0 y0 bst k) T).2.1 = _
      rw [hx]
      simp only [BestSoFar.step]
      rw [show (S.step (BestSoFar.auxmented fn) (iterateAt S (BestSoFar.auxmented fn) (out0, aux0) y0 bst.state k)
        T.state).2.2 = _ from haux]
    simp only [hT']
    by_cases hp : toLoss (X k) (fn (X k)).1 < T.bestLoss
    · simp only [hp, if_true]
      refine ⟨fun i hi h => ?_, .inr ⟨k, Nat.lt_succ_self k, rfl, rfl, rfl, ?_⟩⟩
      · rcases Nat.lt_succ_iff_lt_or_eq.1 hi with hi | rfl
        · exact ih.1 i hi (htrans _ _ _ h hp)
        · exact hirr _ h
      · rcases ih.2 with ⟨h, _⟩ | ⟨_, _, _, _, _, h⟩
        · rw [← h]; exact hp
        · exact htrans _ _ _ hp h
    · simp only [hp, if_false]
      refine ⟨fun i hi => ?_, ?_⟩
      · rcases Nat.lt_succ_iff_lt_or_eq.1 hi with hi | rfl
        · exact ih.1 i hi
        · exact hp
      · rcases ih.2 with h | ⟨j, hj, h⟩
        · exact .inl h
        · exact .inr ⟨j, Nat.lt_succ_of_lt hj, h⟩

/-- **C25/C26.** For every inner solver that reports the function's output at the point it steps from, every function,
loss, budget and run: the wrapper's solve makes exactly the inner solver's steps `X 0 = y0, X 1, …` (on the function
that reports its own value as extra aux).  If some point stepped from has a loss below infinity, the returned value is one
of these points, none of them has a strictly smaller loss (losses that compare false, such as NaN, never win), and the
returned aux is `fn`'s aux output at the returned value.  If there is none the answer is `y0` with the zero aux.
`<` may be any transitive, irreflexive comparison, e.g. IEEE `<`. -/
theorem C25_best_of_iterates (htrans : ∀ a b c : L, a < b → b < c → a < c) (hirr : ∀ a : L, ¬ a < a)
    (af : Y → Bool) (out0 : Out) (aux0 : A) (y0 : Y) (ms : Option Nat) (throw : Bool)
    (hrep : ∀ st0, S.init (BestSoFar.auxmented fn) y0 = .ok st0 →
      ReportsAux S (BestSoFar.auxmented fn) (out0, aux0) y0 st0)
    (sol : Solution Y A (BestSoFar.State Y A L St) Unit)
    (h : iterativeSolve (BestSoFar.solver S toLoss inf auxZero) af fn aux0 y0 ms throw = some (.ok sol)) :
    ∃ st0, S.init (BestSoFar.auxmented fn) y0 = .ok st0 ∧
      let X := iterateAt S (BestSoFar.auxmented fn) (out0, aux0) y0 st0
      let loss := fun j => toLoss (X j) (fn (X j)).1
      ((∃ i, i < sol.numSteps ∧ loss i < inf) →
        ∃ j, j < sol.numSteps ∧ sol.value = X j ∧ sol.aux = (fn sol.value).2 ∧ loss j < inf ∧
          ∀ i, i < sol.numSteps → ¬ loss i < loss j) ∧
      ((∀ i, i < sol.numSteps → ¬ loss i < inf) → sol.value = y0 ∧ sol.aux = auxZero) := by
  obtain ⟨_, _, bst, hi, hstate, hp⟩ := C01_step_budget _ _ _ _ _ _ _ _ h
  obtain ⟨st0, hst, rfl⟩ : ∃ st0, S.init (BestSoFar.auxmented fn) y0 = .ok st0 ∧
      bst = { bestY := y0, bestAux := auxZero, bestLoss := inf, state := st0 } := by
    simp only [BestSoFar.solver, BestSoFar.init] at hi
    split at hi
    · cases hi
    · rename_i st0 h0; cases hi; exact ⟨st0, h0, rfl⟩
  refine ⟨st0, hst, ?_⟩
  intro X loss
  obtain ⟨hmin, hor⟩ := best_invariant S toLoss inf auxZero fn htrans hirr out0 aux0 y0
    { bestY := y0, bestAux := auxZero, bestLoss := inf, state := st0 } rfl rfl rfl (hrep st0 hst) sol.numSteps
  set T := stateAt (BestSoFar.solver S toLoss inf auxZero) fn aux0 y0
    { bestY := y0, bestAux := auxZero, bestLoss := inf, state := st0 } sol.numSteps with hT
  rw [hstate] at hp
  have hv : sol.value = T.bestY := congrArg Prod.fst hp
  have hx : sol.aux = T.bestAux := congrArg (fun p => p.2.1) hp
  refine ⟨fun ⟨i, hi', hl⟩ => ?_, fun hno => ?_⟩
  · rcases hor with ⟨h0, _⟩ | ⟨j, hj, e1, e2, e3, e4⟩
    · exact absurd hl (by rw [← h0]; exact hmin i hi')
    · refine ⟨j, hj, hv.trans e1, ?_, by rw [e3] at e4; exact e4, fun i hi' => ?_⟩
      · rw [hx, e2, hv, e1]
      · have := hmin i hi'; rw [e3] at this; exact this
  · rcases hor with ⟨_, h1, h2⟩ | ⟨j, hj, e1, e2, e3, e4⟩
    · exact ⟨hv.trans h1, hx.trans h2⟩
    · exact absurd (by rw [e3] at e4; exact e4) (hno j hj)

/-- Two solvers whose stopping tests agree at every index make the same number of steps with the same result. -/
theorem same_run {Y₁ Out₁ A₁ St₁ Stats₁ Y₂ Out₂ A₂ St₂ Stats₂ : Type} (S₁ : Solver Y₁ Out₁ A₁ St₁ Stats₁)
    (S₂ : Solver Y₂ Out₂ A₂ St₂ Stats₂) (af₁ : Y₁ → Bool) (af₂ : Y₂ → Bool) (fn₁ : Y₁ → Out₁ × A₁) (fn₂ : Y₂ → Out₂ × A₂)
    (a₁ : A₁) (a₂ : A₂) (y₁ : Y₁) (y₂ : Y₂) (st₁ : St₁) (st₂ : St₂) (h₁ : S₁.init fn₁ y₁ = .ok st₁)
    (h₂ : S₂.init fn₂ y₂ = .ok st₂)
    (hf : ∀ k, af₁ (testedAt S₁ fn₁ a₁ y₁ st₁ k) = af₂ (testedAt S₂ fn₂ a₂ y₂ st₂ k))
    (hv : ∀ k, verdictAt S₁ fn₁ a₁ y₁ st₁ k = verdictAt S₂ fn₂ a₂ y₂ st₂ k)
    (ms : Option Nat) (throw : Bool) (sol₁ : Solution Y₁ A₁ St₁ Stats₁)
    (h : iterativeSolve S₁ af₁ fn₁ a₁ y₁ ms throw = some (.ok sol₁)) :
    ∃ sol₂, iterativeSolve S₂ af₂ fn₂ a₂ y₂ ms throw = some (.ok sol₂) ∧ sol₂.numSteps = sol₁.numSteps ∧
      sol₂.result = sol₁.result := by
  have hC : ∀ k, Continues S₁ af₁ fn₁ a₁ y₁ st₁ k ↔ Continues S₂ af₂ fn₂ a₂ y₂ st₂ k := by
    intro k; unfold Continues; rw [hf, hv]
  obtain ⟨st, hi, hlt, hst, _, _, _, hr⟩ := solve_spec _ _ _ _ _ _ _ _ h
  rw [h₁] at hi; cases hi
  obtain ⟨sol₂, hs2, hn⟩ := solve_exists S₂ af₂ fn₂ a₂ y₂ st₂ h₂ ms sol₁.numSteps (fun j hj => (hC j).1 (hlt j hj))
    (by rw [← hC]; exact hst)
  obtain ⟨st', hi', _, _, _, _, _, hr'⟩ := solve_spec _ _ _ _ _ _ _ _ hs2
  rw [h₂] at hi'; cases hi'
  have hres : sol₂.result = sol₁.result := by
    rw [hr', hr, hn, ← hf, ← hv]
    simp only [hC]
  refine ⟨sol₂, ?_, hn, hres⟩
  rw [solve_iff] at hs2 h ⊢
  exact ⟨hs2.1, fun ht => hres.trans (h.2 ht)⟩

/-- **C25** (transparency).  Wrapping changes neither how many steps are made nor the result: the wrapper returns a
solution after `n` steps with result `r` if and only if the inner solver (run on the function that reports its own
value as extra aux) does. -/
theorem C25_same_run (af : Y → Bool) (out0 : Out) (aux0 : A) (y0 : Y) (ms : Option Nat) (throw : Bool) (n : Nat)
    (r : Result) :
    (∃ sol, iterativeSolve (BestSoFar.solver S toLoss inf auxZero) af fn aux0 y0 ms throw = some (.ok sol) ∧
      sol.numSteps = n ∧ sol.result = r) ↔
    (∃ sol, iterativeSolve S af (BestSoFar.auxmented fn) (out0, aux0) y0 ms throw = some (.ok sol) ∧
      sol.numSteps = n ∧ sol.result = r) := by
  have key : ∀ st0, S.init (BestSoFar.auxmented fn) y0 = .ok st0 →
      ∃ bst : BestSoFar.State Y A L St, (BestSoFar.solver S toLoss inf auxZero).init fn y0 = .ok bst ∧ bst.state = st0 := by
    intro st0 h0
    exact ⟨{ bestY := y0, bestAux := auxZero, bestLoss := inf, state := st0 },
      by simp only [BestSoFar.solver, BestSoFar.init, h0], rfl⟩
  have hT : ∀ bst : BestSoFar.State Y A L St, ∀ k,
      testedAt (BestSoFar.solver S toLoss inf auxZero) fn aux0 y0 bst k =
        testedAt S (BestSoFar.auxmented fn) (out0, aux0) y0 bst.state k :=
    fun bst k => (best_trace S toLoss inf auxZero fn out0 aux0 y0 bst (k - 1)).1
  have hV : ∀ bst : BestSoFar.State Y A L St, ∀ k,
      verdictAt (BestSoFar.solver S toLoss inf auxZero) fn aux0 y0 bst k =
        verdictAt S (BestSoFar.auxmented fn) (out0, aux0) y0 bst.state k := by
    intro bst k
    unfold verdictAt
    rw [hT, ← (best_trace S toLoss inf auxZero fn out0 aux0 y0 bst k).2]; rfl
  constructor
  · rintro ⟨sol, h, rfl, rfl⟩
    obtain ⟨_, _, bst, hi, _⟩ := C01_step_budget _ _ _ _ _ _ _ _ h
    have h0 : S.init (BestSoFar.auxmented fn) y0 = .ok bst.state := by
      simp only [BestSoFar.solver, BestSoFar.init] at hi
      split at hi
      · cases hi
      · rename_i st0 h0; cases hi; exact h0
    exact same_run _ _ _ _ _ _ _ _ _ _ bst bst.state hi h0 (fun k => by rw [hT]) (hV bst) _ _ _ h
  · rintro ⟨sol, h, rfl, rfl⟩
    obtain ⟨_, _, st0, hi, _⟩ := C01_step_budget _ _ _ _ _ _ _ _ h
    obtain ⟨bst, hb, rfl⟩ := key st0 hi
    exact same_run _ _ _ _ _ _ _ _ _ _ bst.state bst hi hb (fun k => by rw [hT]) (fun k => (hV bst k).symm) _ _ _ h

/-- **C26.** The aux of a wrapped solver is the user's aux at the returned value, for every inner solver reporting at the
point it steps from, as soon as one iterate had a finite loss.  Missing: inner solvers that report elsewhere, of which
`GoldenSearch` is one (`C26_golden_wrong_aux`). -/
theorem C26_aux_of_value_partial (htrans : ∀ a b c : L, a < b → b < c → a < c) (hirr : ∀ a : L, ¬ a < a)
    (af : Y → Bool) (out0 : Out) (aux0 : A) (y0 : Y) (ms : Option Nat) (throw : Bool)
    (hrep : ∀ st0, S.init (BestSoFar.auxmented fn) y0 = .ok st0 →
      ReportsAux S (BestSoFar.auxmented fn) (out0, aux0) y0 st0)
    (hfin : toLoss y0 (fn y0).1 < inf)
    (sol : Solution Y A (BestSoFar.State Y A L St) Unit)
    (h : iterativeSolve (BestSoFar.solver S toLoss inf auxZero) af fn aux0 y0 ms throw = some (.ok sol))
    (hn : 1 ≤ sol.numSteps) : sol.aux = (fn sol.value).2 := by
  obtain ⟨st0, _, h1, _⟩ := C25_best_of_iterates S toLoss inf auxZero fn htrans hirr af out0 aux0 y0 ms throw hrep sol h
  obtain ⟨j, _, _, ha, _⟩ := h1 ⟨0, hn, hfin⟩
  exact ha

end

/-! Instances for the built-in solvers. -/

theorem xr_lt_trans (a b c : XR) (h : a < b) (h' : b < c) : a < c := by
  cases a <;> cases b <;> cases c <;>
    first | exact absurd h id | exact absurd h' id | exact trivial | exact lt_trans (α := ℝ) h h'

theorem xr_lt_irrefl (a : XR) : ¬ a < a := by
  cases a <;> first | exact lt_irrefl (α := ℝ) _ | exact id

/-- **C25** for `BestSoFarMinimiser` around any solver of the gradient-descent family (`GradientDescent`, `NonlinearCG`,
with any descent and any built-in search), real arithmetic: after at least one step, the returned value is one of
the iterates stepped from, no such iterate has a smaller objective (in particular not `y0`), and aux belongs to it. -/
theorem C25_minimiser_gradient_family {ι SS DS : Type} (cfg : GradientDescent.Cfg ι SS DS)
    (hf : ∀ y z i j s, (cfg.search.step true y z i j s).2.1 = true) (aux0 auxZero : A) (fn : (ι → ℝ) → ℝ × A)
    (af : (ι → ℝ) → Bool) (y0 : ι → ℝ) (ms : Option Nat) (throw : Bool) (sol)
    (h : iterativeSolve (BestSoFar.solver (GradientDescent.solver cfg ((0 : ℝ), aux0)) BestSoFar.minLoss ⊤ auxZero) af fn
      aux0 y0 ms throw = some (.ok sol)) (hn : 1 ≤ sol.numSteps) :
    ∃ st0, (GradientDescent.solver cfg ((0 : ℝ), aux0)).init (BestSoFar.auxmented fn) y0 = .ok st0 ∧
      let X := iterateAt (GradientDescent.solver cfg ((0 : ℝ), aux0)) (BestSoFar.auxmented fn) (0, aux0) y0 st0
      (∃ j, j < sol.numSteps ∧ sol.value = X j) ∧ (∀ i, i < sol.numSteps → (fn sol.value).1 ≤ (fn (X i)).1) ∧
      (fn sol.value).1 ≤ (fn y0).1 ∧ sol.aux = (fn sol.value).2 := by
  obtain ⟨st0, hi, h1, _⟩ := C25_best_of_iterates _ BestSoFar.minLoss ⊤ auxZero fn (fun _ _ _ => lt_trans) lt_irrefl af
    (0 : ℝ) aux0 y0 ms throw (fun st0 hi => C30_aux_gradient_family cfg hf ((0 : ℝ), aux0) _ y0 st0 hi) sol h
  refine ⟨st0, hi, ?_⟩
  intro X
  obtain ⟨j, hj, hv, ha, _, hm⟩ := h1 ⟨0, hn, WithTop.coe_lt_top _⟩
  have hm' : ∀ i, i < sol.numSteps → (fn sol.value).1 ≤ (fn (X i)).1 := by
    intro i hi'
    have := hm i hi'
    rw [not_lt] at this
    rw [hv]; exact WithTop.coe_le_coe.1 this
  exact ⟨⟨j, hj, hv⟩, hm', hm' 0 hn, ha⟩

/-- **C25** for `BestSoFarLeastSquares` around any solver of the Gauss-Newton family. -/
theorem C25_least_squares_gauss_newton_family {ι κ SS DS : Type} [Fintype ι] [Fintype κ] (cfg : GaussNewton.Cfg ι κ SS DS)
    (hf : ∀ y z i j s, (cfg.search.step true y z i j s).2.1 = true) (aux0 auxZero : A) (fn : (ι → ℝ) → (κ → ℝ) × A)
    (af : (ι → ℝ) → Bool) (y0 : ι → ℝ) (ms : Option Nat) (throw : Bool) (sol)
    (h : iterativeSolve (BestSoFar.solver (GaussNewton.solver cfg ((fun _ => (0 : ℝ)), aux0)) BestSoFar.sqLoss ⊤ auxZero)
      af fn aux0 y0 ms throw = some (.ok sol)) (hn : 1 ≤ sol.numSteps) :
    ∃ st0, (GaussNewton.solver cfg ((fun _ => (0 : ℝ)), aux0)).init (BestSoFar.auxmented fn) y0 = .ok st0 ∧
      let X := iterateAt (GaussNewton.solver cfg ((fun _ => (0 : ℝ)), aux0)) (BestSoFar.auxmented fn)
        ((fun _ => 0), aux0) y0 st0
      (∃ j, j < sol.numSteps ∧ sol.value = X j) ∧
      (∀ i, i < sol.numSteps → ∑ c, (fn sol.value).1 c ^ 2 ≤ ∑ c, (fn (X i)).1 c ^ 2) ∧
      ∑ c, (fn sol.value).1 c ^ 2 ≤ ∑ c, (fn y0).1 c ^ 2 ∧ sol.aux = (fn sol.value).2 := by
  obtain ⟨st0, hi, h1, _⟩ := C25_best_of_iterates _ BestSoFar.sqLoss ⊤ auxZero fn (fun _ _ _ => lt_trans) lt_irrefl af
    (fun _ => (0 : ℝ)) aux0 y0 ms throw (fun st0 hi => C30_aux_gauss_newton_family cfg hf (_, aux0) _ y0 st0 hi) sol h
  refine ⟨st0, hi, ?_⟩
  intro X
  obtain ⟨j, hj, hv, ha, _, hm⟩ := h1 ⟨0, hn, WithTop.coe_lt_top _⟩
  have hm' : ∀ i, i < sol.numSteps → ∑ c, (fn sol.value).1 c ^ 2 ≤ ∑ c, (fn (X i)).1 c ^ 2 := by
    intro i hi'
    have := hm i hi'
    rw [not_lt] at this
    have := WithTop.coe_le_coe.1 this
    rw [hv]; simpa only [sumSquares, pow_two] using this
  exact ⟨⟨j, hj, hv⟩, hm', hm' 0 hn, ha⟩

/-- **C25** for `BestSoFarFixedPoint` around `FixedPointIteration`: the returned value has the smallest `|y - fn(y)|²` among
the iterates stepped from. -/
theorem C25_fixed_point {ι : Type} [Fintype ι] (cfg : FixedPointIter.Cfg ι ℝ) (aux0 auxZero : A)
    (fn : (ι → ℝ) → (ι → ℝ) × A) (af : (ι → ℝ) → Bool) (y0 : ι → ℝ) (ms : Option Nat) (throw : Bool) (sol)
    (h : iterativeSolve (BestSoFar.solver (FixedPointIter.solver cfg) BestSoFar.fpLoss ⊤ auxZero)
      af fn aux0 y0 ms throw = some (.ok sol)) (hn : 1 ≤ sol.numSteps) :
    let X := iterateAt (FixedPointIter.solver cfg) (BestSoFar.auxmented fn) ((fun _ => 0), aux0) y0 none
    (∃ j, j < sol.numSteps ∧ sol.value = X j) ∧
    (∀ i, i < sol.numSteps →
      ∑ c, (sol.value c - (fn sol.value).1 c) ^ 2 ≤ ∑ c, (X i c - (fn (X i)).1 c) ^ 2) ∧
    sol.aux = (fn sol.value).2 := by
  obtain ⟨st0, hi, h1, _⟩ := C25_best_of_iterates _ BestSoFar.fpLoss ⊤ auxZero fn (fun _ _ _ => lt_trans) lt_irrefl af
    (fun _ => (0 : ℝ)) aux0 y0 ms throw (fun st0 hi k => rfl) sol h
  cases hi
  intro X
  obtain ⟨j, hj, hv, ha, _, hm⟩ := h1 ⟨0, hn, WithTop.coe_lt_top _⟩
  refine ⟨⟨j, hj, hv⟩, fun i hi' => ?_, ha⟩
  have := hm i hi'
  rw [not_lt] at this
  have := WithTop.coe_le_coe.1 this
  rw [hv]; simpa only [sumSquares, pow_two] using this

/-- **C25** for `BestSoFarRootFinder` around `Newton`/`Chord`: the returned value has the smallest `|fn(y)|²` among the
iterates stepped from. -/
theorem C25_root_finder_newton {ι κ J : Type} [Fintype ι] [Fintype κ] (cfg : NewtonChord.Cfg ι κ ℝ J) (aux0 auxZero : A)
    (fn : (ι → ℝ) → (κ → ℝ) × A) (af : (ι → ℝ) → Bool) (y0 : ι → ℝ) (ms : Option Nat) (throw : Bool) (sol)
    (h : iterativeSolve (BestSoFar.solver (NewtonChord.solver cfg) BestSoFar.sqLoss ⊤ auxZero)
      af fn aux0 y0 ms throw = some (.ok sol)) (hn : 1 ≤ sol.numSteps) :
    let X := iterateAt (NewtonChord.solver cfg) (BestSoFar.auxmented fn) ((fun _ => 0), aux0) y0
      (NewtonChord.init cfg y0)
    (∃ j, j < sol.numSteps ∧ sol.value = X j) ∧
    (∀ i, i < sol.numSteps → ∑ c, (fn sol.value).1 c ^ 2 ≤ ∑ c, (fn (X i)).1 c ^ 2) ∧
    sol.aux = (fn sol.value).2 := by
  obtain ⟨st0, hi, h1, _⟩ := C25_best_of_iterates _ BestSoFar.sqLoss ⊤ auxZero fn (fun _ _ _ => lt_trans) lt_irrefl af
    (fun _ => (0 : ℝ)) aux0 y0 ms throw (fun st0 hi k => rfl) sol h
  cases hi
  intro X
  obtain ⟨j, hj, hv, ha, _, hm⟩ := h1 ⟨0, hn, WithTop.coe_lt_top _⟩
  refine ⟨⟨j, hj, hv⟩, fun i hi' => ?_, ha⟩
  have := hm i hi'
  rw [not_lt] at this
  have := WithTop.coe_le_coe.1 this
  rw [hv]; simpa only [sumSquares, pow_two] using this

/-- **C25** for `BestSoFarMinimiser` around any solver, with IEEE comparison: an iterate with NaN objective is returned only
if *no* iterate stepped from had an objective below `+inf`, and then the answer is `y0`. -/
theorem C25_nan_never_wins {St : Type} (S : Solver Y XR (XR × A) St Stats) (auxZero : A) (fn : Y → XR × A)
    (af : Y → Bool) (out0 : XR) (aux0 : A) (y0 : Y) (ms : Option Nat) (throw : Bool)
    (hrep : ∀ st0, S.init (BestSoFar.auxmented fn) y0 = .ok st0 →
      ReportsAux S (BestSoFar.auxmented fn) (out0, aux0) y0 st0)
    (sol) (h : iterativeSolve (BestSoFar.solver S BestSoFar.minLossX XR.pinf auxZero) af fn aux0 y0 ms throw =
      some (.ok sol)) (hnan : (fn sol.value).1 = XR.nan) :
    sol.value = y0 ∧ ∃ st0, S.init (BestSoFar.auxmented fn) y0 = .ok st0 ∧ ∀ i, i < sol.numSteps →
      ¬ (fn (iterateAt S (BestSoFar.auxmented fn) (out0, aux0) y0 st0 i)).1 < XR.pinf := by
  obtain ⟨st0, hi, h1, h2⟩ := C25_best_of_iterates S BestSoFar.minLossX XR.pinf auxZero fn xr_lt_trans xr_lt_irrefl af
    out0 aux0 y0 ms throw hrep sol h
  have hno : ∀ i, i < sol.numSteps →
      ¬ (fn (iterateAt S (BestSoFar.auxmented fn) (out0, aux0) y0 st0 i)).1 < XR.pinf := by
    intro i hi' hlt
    obtain ⟨j, _, hv, _, hj, _⟩ := h1 ⟨i, hi', hlt⟩
    have hj' : (fn (iterateAt S (BestSoFar.auxmented fn) (out0, aux0) y0 st0 j)).1 < XR.pinf := hj
    rw [← hv, hnan] at hj'
    exact XR.not_nan_lt _ hj'
  exact ⟨(h2 hno).1, st0, hi, hno⟩

/-- **C25, limitation.**  The last iterate, which the inner solver has already evaluated and accepted, is never considered:
minimising `y²` from `1` by `GradientDescent(1/4)` with `max_steps=2` gives `1/2`; the *wrapped* solver returns `1`, whose
objective is larger. -/
theorem C25_last_iterate_ignored :
    let gd {B : Type} (b : B) := gdSolver (ι := Unit) (1/4) 0 (1/1000) maxNorm maxNorm (fun y i => 2 * y i) b
    let fn : (Unit → ℝ) → ℝ × Unit := fun y => (y () ^ 2, ())
    ∃ sol sol', iterativeSolve (BestSoFar.solver (gd ((0:ℝ), ())) BestSoFar.minLoss ⊤ ()) (fun _ => true) fn ()
        (fun _ => 1) (some 2) false = some (.ok sol) ∧
      iterativeSolve (gd ()) (fun _ => true) fn () (fun _ => 1) (some 2) false = some (.ok sol') ∧
      sol.numSteps = 2 ∧ sol'.numSteps = 2 ∧ sol.value () = 1 ∧ sol'.value () = 1/2 ∧
      (fn sol'.value).1 < (fn sol.value).1 := by
  intro gd fn
  obtain ⟨st', hi'⟩ : ∃ st, (gd ()).init fn (fun _ => 1) = .ok st := ⟨_, rfl⟩
  obtain ⟨stb, hib⟩ : ∃ st, (gd ((0:ℝ), ())).init (BestSoFar.auxmented fn) (fun _ => 1) = .ok st := ⟨_, rfl⟩
  have hcont : ∀ {B : Type} (b : B) (g : (Unit → ℝ) → ℝ × B) st, (gd b).init g (fun _ => 1) = .ok st → ∀ j, j < 2 →
      Continues (gd b) (fun _ => true) g b (fun _ => 1) st j := by
    intro B b g st hst j hj
    have hj' : j = 0 ∨ j = 1 := by omega
    rcases hj' with rfl | rfl
    · cases hst; exact ⟨rfl, rfl⟩
    · cases hst
      refine ⟨rfl, ?_⟩
      rfl
  obtain ⟨sol', h', hn'⟩ := solve_exists (gd ()) (fun _ => true) fn () (fun _ => 1) st' hi' (some 2) 2
    (hcont () fn st' hi') (.inr rfl)
  obtain ⟨sb, hb, hnb⟩ := solve_exists (gd ((0:ℝ), ())) (fun _ => true) (BestSoFar.auxmented fn) (0, ()) (fun _ => 1) stb
    hib (some 2) 2 (hcont (0, ()) _ stb hib) (.inr rfl)
  obtain ⟨sol, h, hn, _⟩ := (C25_same_run (gd ((0:ℝ), ())) BestSoFar.minLoss ⊤ () fn (fun _ => true) 0 () (fun _ => 1)
    (some 2) false 2 sb.result).2 ⟨sb, hb, hnb, rfl⟩
  have hv' : sol'.value () = 1/2 := by
    rw [C31_value _ _ _ _ _ _ _ _ _ _ _ _ _ h', hn']
    show (1:ℝ) - 1/4 * (2 * 1) = 1/2
    norm_num
  have hv : sol.value () = 1 := by
    obtain ⟨st0, hi0, ⟨j, hj, hx⟩, _⟩ := C25_minimiser_gradient_family
      (GradientDescent.gradientDescent (1/4) 0 (1/1000) maxNorm maxNorm fun y i => 2 * y i) (fun _ _ _ _ _ => rfl) () () fn
      (fun _ => true) (fun _ => 1) (some 2) false sol h (by omega)
    have T := C31_textbook_recursion (1/4) 0 (1/1000) maxNorm maxNorm (fun y i => 2 * y i) ((0:ℝ), ())
      (BestSoFar.auxmented fn) (fun _ : Unit => 1) st0 hi0
    have hj' : j = 0 ∨ j = 1 := by omega
    rw [hx]
    rcases hj' with rfl | rfl
    · rfl
    · exact congrFun T.2.1 ()
  refine ⟨sol, sol', h, h', hn, hn', hv, hv', ?_⟩
  show sol'.value () ^ 2 < sol.value () ^ 2
  rw [hv, hv']; norm_num

/-- **C26, negation for `GoldenSearch`.**  `GoldenSearch`'s first step evaluates the function somewhere else than at the point
it steps from (see C18_y0_ignored), so a `BestSoFarMinimiser` around it returns an aux (and judges `y0` by an objective
value) that does not belong to the returned value: for `y²` on `[0,1]` with aux `y`, started at `y0 = 5` with one
step, the value is `5` and the aux is a number below `1`. -/
theorem C26_golden_wrong_aux :
    let fn : ℝ → ℝ × ℝ := fun y => (y ^ 2, y)
    ∃ sol, iterativeSolve (BestSoFar.solver
        (Golden.solver (A := ℝ × ℝ) ⟨0, 1/1000, 0, 1, true, .leaf [] true⟩) BestSoFar.minLoss ⊤ 0) (fun _ => true) fn 0 5
        (some 1) false = some (.ok sol) ∧ sol.value = 5 ∧ sol.aux < 1 ∧ sol.aux ≠ (fn sol.value).2 := by
  intro fn
  obtain ⟨st, hi⟩ : ∃ st, (BestSoFar.solver (Golden.solver (A := ℝ × ℝ) ⟨0, 1/1000, 0, 1, true, .leaf [] true⟩)
    (BestSoFar.minLoss (Y := ℝ)) ⊤ 0).init fn 5 = .ok st := ⟨_, rfl⟩
  obtain ⟨sol, h, hn⟩ := solve_exists _ (fun _ => true) fn 0 5 st hi (some 1) 1
    (fun j hj => by
      obtain rfl : j = 0 := by omega
      cases hi; exact ⟨rfl, rfl⟩) (.inr rfl)
  obtain ⟨_, _, st', hi', hs, hp⟩ := C01_step_budget _ _ _ _ _ _ _ _ h
  rw [hi] at hi'; cases hi'
  rw [hs, hn] at hp
  cases hi
  have hv : sol.value = 5 := by
    have hv : sol.value = if (BestSoFar.minLoss (5:ℝ) ((fn (0 + (1 - (1 - 0) / ((1 + Real.sqrt 5) / 2 + 1)))).1)) < ⊤ then
      5 else 5 := congrArg Prod.fst hp
    rw [hv, ite_self]
  have ha : sol.aux = 0 + (1 - (1 - 0) / ((1 + Real.sqrt 5) / 2 + 1)) := by
    have ha : sol.aux = if (BestSoFar.minLoss (5:ℝ) ((fn (0 + (1 - (1 - 0) / ((1 + Real.sqrt 5) / 2 + 1)))).1)) < ⊤ then
      0 + (1 - (1 - 0) / ((1 + Real.sqrt 5) / 2 + 1)) else 0 := congrArg (fun p => p.2.1) hp
    rw [ha]; exact if_pos (WithTop.coe_lt_top _)
  have hpos : (0:ℝ) < (1 - 0) / ((1 + Real.sqrt 5) / 2 + 1) := by positivity
  have hlt : sol.aux < 1 := by rw [ha]; linarith
  refine ⟨sol, h, hv, hlt, ?_⟩
  show sol.aux ≠ sol.value
  rw [hv]; intro h5; rw [h5] at hlt; norm_num at hlt

/-- Hypotheses of C25 for a genuine run: two steps of the wrapped gradient descent (see `C25_last_iterate_ignored`). -/
example : ∃ sol, iterativeSolve (BestSoFar.solver (gdSolver (ι := Unit) (1/4) 0 (1/1000) maxNorm maxNorm
      (fun y i => 2 * y i) ((0:ℝ), ())) BestSoFar.minLoss ⊤ ()) (fun _ => true) (fun y => (y () ^ 2, ())) ()
        (fun _ => 1) (some 2) false = some (.ok sol) ∧ 1 ≤ sol.numSteps := by
  obtain ⟨sol, _, h, _, hn, _⟩ := C25_last_iterate_ignored
  exact ⟨sol, h, by omega⟩

end Verif.Props
