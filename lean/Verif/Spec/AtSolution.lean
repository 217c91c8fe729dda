import Verif.Model.Iterate

/-!
Specification for C91: a solve that starts at a solution.
-/

namespace Verif.Spec

variable {Y Out Aux St Stats : Type}

/-- Every solve from `y0` that is allowed `n` steps succeeds within them and returns `y0` and the user's auxiliary output at `y0`,
whatever `throw` says. -/
def ReturnsStart (S : Solver Y Out Aux St Stats) (fn : Y → Out × Aux) (aux0 : Aux) (y0 : Y) (n : ℕ) : Prop :=
  ∀ (allfinite : Y → Bool) (maxSteps : Option ℕ) (throw : Bool), allfinite y0 = true → (∀ m, maxSteps = some m → n ≤ m) →
    ∃ sol, Driver.iterativeSolve S allfinite fn aux0 y0 maxSteps throw = some (.ok sol) ∧ sol.result = .successful ∧
      sol.value = y0 ∧ sol.aux = (fn y0).2 ∧ sol.numSteps ≤ n

end Verif.Spec
