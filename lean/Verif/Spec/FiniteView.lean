import Verif.Model.Iterate

/-!
Specification for C123: solvers that can only be in finitely many situations, as all solvers are that compute with numbers of a fixed
number of bits.
-/

namespace Verif.Spec

variable {Y Out Aux St Stats B : Type}

/-- `view y st` is all that matters when the solver is at the point `y` in the state `st`: it determines the point, what it will be
after the next step, and what the solver will say after that step. -/
structure Determines (S : Solver Y Out Aux St Stats) (fn : Y → Out × Aux) (view : Y → St → B) : Prop where
  point : ∀ {y st y' st'}, view y st = view y' st' → y = y'
  step : ∀ {y st y' st'}, view y st = view y' st' →
    view (S.step fn y st).1 (S.step fn y st).2.1 = view (S.step fn y' st').1 (S.step fn y' st').2.1
  verdict : ∀ {y st y' st'}, view y st = view y' st' →
    S.terminate fn y (S.step fn y st).2.1 = S.terminate fn y' (S.step fn y' st').2.1

end Verif.Spec
