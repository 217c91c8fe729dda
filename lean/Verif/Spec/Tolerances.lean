import Verif.Model.Iterate

/-!
Specification vocabulary: one solver is a stricter version of another.
-/

namespace Verif.Spec

open Verif.Driver

variable {Y Out Aux St St' Stats : Type}

/-- The stricter solver `S'` takes the steps of `S` and never stops earlier.  For every budget (all with `throw=False`):
both raise the same errors; when `S'` returns, so does `S`, after at most as many steps, successfully if `S'` is successful, and
with everything the same if `S` is not successful; and what `S` returns is what `S'` returns when its budget is the number of
steps `S` took. -/
def OnlyProlongs (S : Solver Y Out Aux St Stats) (S' : Solver Y Out Aux St' Stats) (af : Y → Bool) (fn : Y → Out × Aux)
    (aux0 : Aux) (y0 : Y) : Prop :=
  ∀ ms,
    (∀ e, iterativeSolve S' af fn aux0 y0 ms false = some (.error e) ↔
      iterativeSolve S af fn aux0 y0 ms false = some (.error e)) ∧
    (∀ sol', iterativeSolve S' af fn aux0 y0 ms false = some (.ok sol') →
      ∃ sol, iterativeSolve S af fn aux0 y0 ms false = some (.ok sol) ∧ sol.numSteps ≤ sol'.numSteps ∧
        (sol'.result = .successful → sol.result = .successful) ∧
        (sol.result ≠ .successful → sol.result = sol'.result ∧ sol.numSteps = sol'.numSteps ∧ sol.value = sol'.value ∧
          sol.aux = sol'.aux ∧ sol.stats = sol'.stats)) ∧
    (∀ sol, iterativeSolve S af fn aux0 y0 ms false = some (.ok sol) →
      ∃ sol', iterativeSolve S' af fn aux0 y0 (some sol.numSteps) false = some (.ok sol') ∧
        sol'.numSteps = sol.numSteps ∧ sol'.value = sol.value ∧ sol'.aux = sol.aux ∧ sol'.stats = sol.stats)

end Verif.Spec
