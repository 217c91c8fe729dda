import Verif.Model.Iterate

/-!
Specification vocabulary for the driver: the sequence of solver steps "on paper", without any loop, budget or flags.
Only the solver interface `Solver` is used here, none of the driver's definitions.
-/

namespace Verif.Spec

variable {Y Out Aux St Stats : Type}

/-- The `k`-th point of the sequence obtained by applying the solver's `step` again and again, starting from
`(y0, st0)`; the `aux` of index 0 is the placeholder `aux0`. -/
def trace (S : Solver Y Out Aux St Stats) (fn : Y → Out × Aux) (aux0 : Aux) (y0 : Y) (st0 : St) :
    Nat → Y × St × Aux
  | 0 => (y0, st0, aux0)
  | k + 1 => S.step fn (trace S fn aux0 y0 st0 k).1 (trace S fn aux0 y0 st0 k).2.1

/-- The `k`-th iterate. -/
def iterateAt (S : Solver Y Out Aux St Stats) (fn : Y → Out × Aux) (aux0 : Aux) (y0 : Y) (st0 : St)
    (k : Nat) : Y := (trace S fn aux0 y0 st0 k).1

/-- The solver state after `k` steps. -/
def stateAt (S : Solver Y Out Aux St Stats) (fn : Y → Out × Aux) (aux0 : Aux) (y0 : Y) (st0 : St)
    (k : Nat) : St := (trace S fn aux0 y0 st0 k).2.1

/-- The aux output of the `k`-th step (`aux0` for `k = 0`). -/
def auxAt (S : Solver Y Out Aux St Stats) (fn : Y → Out × Aux) (aux0 : Aux) (y0 : Y) (st0 : St)
    (k : Nat) : Aux := (trace S fn aux0 y0 st0 k).2.2

/-- The iterate at which the stopping test after `k` steps is made: the point the `k`-th step started from
(`y0` before any step). -/
def testedAt (S : Solver Y Out Aux St Stats) (fn : Y → Out × Aux) (aux0 : Aux) (y0 : Y) (st0 : St)
    (k : Nat) : Y := iterateAt S fn aux0 y0 st0 (k - 1)

/-- What the solver's own termination test says after `k` steps. -/
def verdictAt (S : Solver Y Out Aux St Stats) (fn : Y → Out × Aux) (aux0 : Aux) (y0 : Y) (st0 : St)
    (k : Nat) : Bool × Result :=
  S.terminate fn (testedAt S fn aux0 y0 st0 k) (stateAt S fn aux0 y0 st0 k)

/-- The test made after `k` steps says "carry on": the tested iterate is finite, the solver says neither "done" nor
"failed". -/
def Continues (S : Solver Y Out Aux St Stats) (allfinite : Y → Bool) (fn : Y → Out × Aux) (aux0 : Aux)
    (y0 : Y) (st0 : St) (k : Nat) : Prop :=
  allfinite (testedAt S fn aux0 y0 st0 k) = true ∧
    verdictAt S fn aux0 y0 st0 k = (false, .successful)

instance (S : Solver Y Out Aux St Stats) (allfinite : Y → Bool) (fn : Y → Out × Aux) (aux0 : Aux)
    (y0 : Y) (st0 : St) (k : Nat) : Decidable (Continues S allfinite fn aux0 y0 st0 k) := by
  unfold Continues; infer_instance

/-- The solver's `step` reports the user's auxiliary output at the point it stepped from (all gradient-based solvers do).
-/
def ReportsAux (S : Solver Y Out Aux St Stats) (fn : Y → Out × Aux) (aux0 : Aux) (y0 : Y) (st0 : St) : Prop :=
  ∀ k, auxAt S fn aux0 y0 st0 (k + 1) = (fn (iterateAt S fn aux0 y0 st0 k)).2

end Verif.Spec
