import Verif.Spec.Trace
import Mathlib.Order.Defs.LinearOrder
import Mathlib.Algebra.Notation.Defs

/-!
Specification for C94: functions that cannot be told apart by comparing their values, and solves that take the same course.
-/

namespace Verif.Comparisons

variable {Y K A Out St Stats B : Type}

/-- The values of both functions have the same sign everywhere (and come with the same aux). -/
structure SameSigns [Zero K] [LT K] (f f' : Y → K × A) : Prop where
  neg : ∀ y, (f' y).1 < 0 ↔ (f y).1 < 0
  pos : ∀ y, 0 < (f' y).1 ↔ 0 < (f y).1
  aux : ∀ y, (f' y).2 = (f y).2

/-- Both functions put all points in the same order (and come with the same aux). -/
structure SameOrder [LT K] (f f' : Y → K × A) : Prop where
  lt : ∀ x y, (f' x).1 < (f' y).1 ↔ (f x).1 < (f y).1
  aux : ∀ y, (f' y).2 = (f y).2

/-- The solver takes the same course on both functions: it rejects them with the same error, or produces, at every step, the same iterate,
aux, and (part `obs` of the) state. -/
def SameCourse (S : Solver Y Out A St Stats) (obs : St → B) (f f' : Y → Out × A) (aux0 : A) (y0 : Y) : Prop :=
  (∃ e, S.init f y0 = .error e ∧ S.init f' y0 = .error e) ∨
    ∃ st st', S.init f y0 = .ok st ∧ S.init f' y0 = .ok st' ∧
      ∀ k, Spec.iterateAt S f' aux0 y0 st' k = Spec.iterateAt S f aux0 y0 st k ∧
        Spec.auxAt S f' aux0 y0 st' k = Spec.auxAt S f aux0 y0 st k ∧
        obs (Spec.stateAt S f' aux0 y0 st' k) = obs (Spec.stateAt S f aux0 y0 st k)

/-- The solver says the same after every step. -/
def SameVerdicts (S : Solver Y Out A St Stats) (f f' : Y → Out × A) (aux0 : A) (y0 : Y) : Prop :=
  ∀ st st', S.init f y0 = .ok st → S.init f' y0 = .ok st' →
    ∀ k, Spec.verdictAt S f' aux0 y0 st' k = Spec.verdictAt S f aux0 y0 st k

end Verif.Comparisons
