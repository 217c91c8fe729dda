import Verif.Model.Iterate
import Mathlib.Data.Real.Basic

/-!
Specification: larger budgets and the answers they give.  Used by property C142.
-/

namespace Verif.Spec

open Verif.Driver

/-- The budget `max_steps = ms'` allows at least as many steps as `ms`; `none` is no limit. -/
def BudgetLe (ms ms' : Option ℕ) : Prop := ∀ n', ms' = some n' → ∃ n, ms = some n ∧ n ≤ n'

/-- Whenever a solve returns with two budgets, the loss of the answer with the larger one is not larger. -/
def NeverWorseWithBudget {Y Out Aux St Stats : Type} (S : Solver Y Out Aux St Stats) (af : Y → Bool) (fn : Y → Out × Aux) (aux0 : Aux)
    (y0 : Y) (loss : Y → ℝ) : Prop :=
  ∀ (ms ms' : Option ℕ) (throw throw' : Bool), BudgetLe ms ms' → ∀ sol sol', iterativeSolve S af fn aux0 y0 ms throw = some (.ok sol) →
    iterativeSolve S af fn aux0 y0 ms' throw' = some (.ok sol') → loss sol'.value ≤ loss sol.value

end Verif.Spec
