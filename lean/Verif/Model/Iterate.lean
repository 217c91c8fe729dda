import Mathlib.Order.Basic
import Mathlib.Logic.Function.Iterate
import Mathlib.Data.Nat.Find

/-!
Model of `optimistix/_iterate.py` (the iteration driver) and `optimistix/_solution.py`.
-/

namespace Verif

/-- `optimistix/_solution.py:11-19`, `RESULTS`.  The codes inherited from `lineax.RESULTS` (line 11) other than
`successful` are collapsed into `linear n`, "the `n`-th failure code of lineax". -/
inductive Result where
  | successful
  | nonlinearMaxStepsReached
  | nonlinearDivergence
  | nonfinite
  | linear (n : Nat)
  deriving DecidableEq, Repr

/-- Exceptions.  `solveFailed r` is what `result.error_if` raises (`_iterate.py:357-358`); `valueError` and
`typeError` stand for Python's `ValueError`/`TypeError` and for `eqx.error_if`; the message is only descriptive.
`hangs` is not an exception: it marks an `init` that never returns (only `Bisection` with interval expansion has an
unbounded loop in its `init`). -/
inductive Err where
  | solveFailed (r : Result)
  | valueError (msg : String)
  | typeError (msg : String)
  | hangs
  deriving DecidableEq, Repr

/-- `optimistix/_iterate.py:26-184`, `AbstractIterativeSolver`: the four methods of a solver.
`fn` is the user's function with `args` already applied; it returns `(out, aux)`.
Simplifications: `args`, `options`, `tags`, `f_struct`, `aux_struct` are closed over by the particular solver; the
solver's state is one value (its static/dynamic partition is in `Model/Partition`); an error raised while initialising
is an `Except` value. -/
structure Solver (Y Out Aux St Stats : Type) where
  init : (Y → Out × Aux) → Y → Except Err St
  step : (Y → Out × Aux) → Y → St → Y × St × Aux
  terminate : (Y → Out × Aux) → Y → St → Bool × Result
  postprocess : (Y → Out × Aux) → Y → Aux → St → Result → Y × Aux × Stats

/-- `optimistix/_solution.py:22-43`, `Solution`.  `stats` is split into the two entries added by
`iterative_solve` (`_iterate.py:355`) and the solver's own statistics. -/
structure Solution (Y Aux St Stats : Type) where
  value : Y
  result : Result
  aux : Aux
  numSteps : Nat
  maxSteps : Option Nat
  stats : Stats
  state : St

namespace Driver

variable {Y Out Aux St Stats : Type}

/-- The loop carry, `_iterate.py:221-228`. -/
structure Carry (Y St Aux : Type) where
  y : Y
  numSteps : Nat
  state : St
  aux : Aux
  terminate : Bool
  result : Result

/-- `_iterate.py:214-217`, `terminate_and_result`.  `allfinite` models `tree_allfinite` (`_misc.py:85`). -/
def terminateAndResult (S : Solver Y Out Aux St Stats) (allfinite : Y → Bool) (fn : Y → Out × Aux)
    (y : Y) (st : St) : Bool × Result :=
  let tr := S.terminate fn y st
  (tr.1, if allfinite y then tr.2 else .nonfinite)

/-- `_iterate.py:219-228`, the initial carry. -/
def initCarry (S : Solver Y Out Aux St Stats) (allfinite : Y → Bool) (fn : Y → Out × Aux) (aux0 : Aux)
    (y0 : Y) (st0 : St) : Carry Y St Aux :=
  let tr := terminateAndResult S allfinite fn y0 st0
  { y := y0, numSteps := 0, state := st0, aux := aux0, terminate := tr.1, result := tr.2 }

/-- `_iterate.py:230-232`, `cond_fun`. -/
def cond (c : Carry Y St Aux) : Bool := !c.terminate && decide (c.result = .successful)

/-- `_iterate.py:234-241`, `body_fun`.  Note that line 238 tests the *old* `y`. -/
def body (S : Solver Y Out Aux St Stats) (allfinite : Y → Bool) (fn : Y → Out × Aux)
    (c : Carry Y St Aux) : Carry Y St Aux :=
  let out := S.step fn c.y c.state
  let tr := terminateAndResult S allfinite fn c.y out.2.1
  { y := out.1, numSteps := c.numSteps + 1, state := out.2.1, aux := out.2.2,
    terminate := tr.1, result := tr.2 }

/-- `eqxi.while_loop(cond, body, init, max_steps=n)` (called at `_iterate.py:243`): run the body while the condition
holds, at most `n` times. -/
def whileLoop {C : Type} (cond : C → Bool) (body : C → C) : Nat → C → C
  | 0, c => c
  | n + 1, c => if cond c then whileLoop cond body n (body c) else c

open Classical in
/-- `eqxi.while_loop(cond, body, init, max_steps=None)`: run the body until the condition fails; `none` if it never
does (the program diverges).  Called in `_iterate.py:243`. -/
noncomputable def whileForever {C : Type} (cond : C → Bool) (body : C → C) (c : C) : Option C :=
  if h : ∃ n, cond (body^[n] c) = false then some (body^[Nat.find h] c) else none

/-- `_iterate.py:243`: the loop with an optional budget. -/
noncomputable def whileOpt {C : Type} (cond : C → Bool) (body : C → C) : Option Nat → C → Option C
  | some n, c => some (whileLoop cond body n c)
  | none, c => whileForever cond body c

/-- `_iterate.py:253-257`: a still-`successful` but unterminated loop has run out of steps. -/
def finalResult (c : Carry Y St Aux) : Result :=
  if c.result = .successful ∧ c.terminate = false then .nonlinearMaxStepsReached else c.result

/-- `_iterate.py:244-268` and `355-356`: post-process and package the solution. -/
def package (S : Solver Y Out Aux St Stats) (fn : Y → Out × Aux) (maxSteps : Option Nat)
    (c : Carry Y St Aux) : Solution Y Aux St Stats :=
  let r := finalResult c
  let p := S.postprocess fn c.y c.aux c.state r
  { value := p.1, result := r, aux := p.2.1, numSteps := c.numSteps, maxSteps := maxSteps,
    stats := p.2.2, state := c.state }

/-- `_iterate.py:194-268`, `_iterate`, together with the packaging of `iterative_solve` (355-356).
Outer `Option`: `none` = the loop never returns.  `Except.error`: raised by the solver's `init`.
The adjoint (353) is transparent for the returned values: both `ImplicitAdjoint` and `RecursiveCheckpointAdjoint` call
the primal function (`_adjoint.py:108-113`, `_adjoint.py:131-133`, `_ad.py:60-67`). -/
noncomputable def iterate (S : Solver Y Out Aux St Stats) (allfinite : Y → Bool) (fn : Y → Out × Aux)
    (aux0 : Aux) (y0 : Y) (maxSteps : Option Nat) : Option (Except Err (Solution Y Aux St Stats)) :=
  match S.init fn y0 with
  | .error e => some (.error e)
  | .ok st0 =>
    (whileOpt cond (body S allfinite fn) maxSteps (initCarry S allfinite fn aux0 y0 st0)).map
      fun c => .ok (package S fn maxSteps c)

/-- `_iterate.py:276-359`, `iterative_solve`: as `iterate`, and with `throw=True` a solution whose result is not
`successful` is raised as an error (357-358). -/
noncomputable def iterativeSolve (S : Solver Y Out Aux St Stats) (allfinite : Y → Bool)
    (fn : Y → Out × Aux) (aux0 : Aux) (y0 : Y) (maxSteps : Option Nat) (throw : Bool) :
    Option (Except Err (Solution Y Aux St Stats)) :=
  (iterate S allfinite fn aux0 y0 maxSteps).map fun r =>
    match r with
    | .error e => .error e
    | .ok sol => if throw = true ∧ sol.result ≠ .successful then .error (.solveFailed sol.result) else .ok sol

end Driver
end Verif
