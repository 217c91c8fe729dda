import Verif.Model.LevenbergMarquardt

/-!
What it means to present the same problem with its unknowns and residuals arranged differently.

A PyTree of arrays is a family of numbers indexed by its scalar entries (`Model/Misc.lean`).  Packing the same numbers
into another PyTree (one array instead of two, a dictionary instead of a tuple, a different order, a different shape) is a
bijection between the two sets of entries.
-/

namespace Verif.Relabel

variable {ι ι' κ κ' A K : Type}

/-- The numbers `y`, packed according to `e`: the entry `e i` of the new tree is the entry `i` of the old one. -/
def vec (e : ι ≃ ι') (y : ι → K) : ι' → K := fun j => y (e.symm j)

/-- A matrix whose rows and columns are packed according to `k` and `e`. -/
def mat (k : κ ≃ κ') (e : ι ≃ ι') (M : Matrix κ ι ℝ) : Matrix κ' ι' ℝ := Matrix.of fun a b => M (k.symm a) (e.symm b)

/-- The user's function, taking its argument packed according to `e` and returning its output packed according to `k`.
The auxiliary output is untouched. -/
def fn (e : ι ≃ ι') (k : κ ≃ κ') (f : (ι → K) → (κ → K) × A) : (ι' → K) → (κ' → K) × A :=
  fun y => (vec k (f (vec e.symm y)).1, (f (vec e.symm y)).2)

/-- The same for a scalar function (a minimisation problem). -/
def scalarFn (e : ι ≃ ι') (f : (ι → ℝ) → ℝ × A) : (ι' → ℝ) → ℝ × A := fun y => f (vec e.symm y)

/-- The gradient of the repacked function. -/
def grad (e : ι ≃ ι') (g : (ι → ℝ) → ι → ℝ) : (ι' → ℝ) → ι' → ℝ := fun y => vec e (g (vec e.symm y))

/-- The Jacobian of the repacked function. -/
def jac (k : κ ≃ κ') (e : ι ≃ ι') (j : (ι → ℝ) → Matrix κ ι ℝ) : (ι' → ℝ) → Matrix κ' ι' ℝ :=
  fun y => mat k e (j (vec e.symm y))

/-- A norm that does not depend on the packing: the norms of the two trees agree. -/
def SameNorm (e : ι ≃ ι') (n : (ι → K) → K) (n' : (ι' → K) → K) : Prop := ∀ v, n' (vec e v) = n v

/-- A linear solver that does not depend on the packing. -/
structure SameSolve (e : ι ≃ ι') (k : κ ≃ κ') (ls : LinSolve ι κ) (ls' : LinSolve ι' κ') : Prop where
  rect : ∀ M b, ls'.rect (mat k e M) (vec k b) = (vec e (ls.rect M b).1, (ls.rect M b).2)
  square : ∀ M b, ls'.square (mat e e M) (vec e b) = (vec e (ls.square M b).1, (ls.square M b).2)

/-- What the user sees of the outcome of a solve: nothing if it does not return, the error raised, or the answer with its
result code, auxiliary output and number of steps. -/
def outcome {Y Aux St Stats : Type} (s : Option (Except Err (Solution Y Aux St Stats))) :
    Option (Except Err (Y × Result × Aux × Nat)) :=
  s.map fun r => r.map fun sol => (sol.value, sol.result, sol.aux, sol.numSteps)

/-- The outcome, with the answer packed according to `e`. -/
def packed {Aux : Type} (e : ι ≃ ι') (o : Option (Except Err ((ι → K) × Result × Aux × Nat))) :
    Option (Except Err ((ι' → K) × Result × Aux × Nat)) :=
  o.map fun r => r.map fun s => (vec e s.1, s.2)

end Verif.Relabel
