import Verif.Model.Iterate

/-!
Model of the two ways of stepping through a solve that the documentation gives (`docs/examples/interactive.ipynb`): the loop
written by hand around a solver's `init`, `step`, `terminate` and `postprocess`, and repeated solves of one step.
-/

namespace Verif.Interactive

variable {Y Out Aux St Stats : Type}

/-- The local variables of the loop (`interactive.ipynb:76-97`): `y`, `state`, `aux`, `done`, `result`, and the number of steps
made so far (which the notebook prints line by line).  `aux` is unbound before the first step (a placeholder here). -/
structure Vars (Y St Aux : Type) where
  y : Y
  numSteps : Nat
  state : St
  aux : Aux
  done : Bool
  result : Result

/-- `interactive.ipynb:86-87`: the variables before the loop. -/
def start (S : Solver Y Out Aux St Stats) (fn : Y → Out × Aux) (aux0 : Aux) (y0 : Y) (st0 : St) : Vars Y St Aux :=
  let tr := S.terminate fn y0 st0
  { y := y0, numSteps := 0, state := st0, aux := aux0, done := tr.1, result := tr.2 }

/-- `interactive.ipynb:91-93`, the body of the loop.  The test is made at the *new* `y`. -/
def body (S : Solver Y Out Aux St Stats) (fn : Y → Out × Aux) (v : Vars Y St Aux) : Vars Y St Aux :=
  let out := S.step fn v.y v.state
  let tr := S.terminate fn out.1 out.2.1
  { y := out.1, numSteps := v.numSteps + 1, state := out.2.1, aux := out.2.2, done := tr.1, result := tr.2 }

/-- `interactive.ipynb:94-97`: what is printed, and the post-processing (whose `aux` and statistics the notebook drops). -/
def finish (S : Solver Y Out Aux St Stats) (fn : Y → Out × Aux) (v : Vars Y St Aux) : Solution Y Aux St Stats :=
  let p := S.postprocess fn v.y v.aux v.state v.result
  { value := p.1, result := v.result, aux := p.2.1, numSteps := v.numSteps, maxSteps := none, stats := p.2.2, state := v.state }

/-- `interactive.ipynb:76-97`, `solve`: `none` if the loop (`while not done`) never ends. -/
noncomputable def byHand (S : Solver Y Out Aux St Stats) (fn : Y → Out × Aux) (aux0 : Aux) (y0 : Y) :
    Option (Except Err (Solution Y Aux St Stats)) :=
  match S.init fn y0 with
  | .error e => some (.error e)
  | .ok st0 => (Driver.whileForever (fun v => !v.done) (body S fn) (start S fn aux0 y0 st0)).map fun v => .ok (finish S fn v)

/-- `interactive.ipynb:12`: one solve with `throw=False, max_steps=1` and its `value`. -/
noncomputable def oneStep (S : Solver Y Out Aux St Stats) (allfinite : Y → Bool) (fn : Y → Out × Aux) (aux0 : Aux) (y : Y) :
    Except Err Y :=
  match Driver.iterativeSolve S allfinite fn aux0 y (some 1) false with
  | some (.ok sol) => .ok sol.value
  | some (.error e) => .error e
  | none => .error .hangs

/-- `interactive.ipynb:12`: `n` solves of one step, each from the value the one before returned. -/
noncomputable def oneByOne (S : Solver Y Out Aux St Stats) (allfinite : Y → Bool) (fn : Y → Out × Aux) (aux0 : Aux) (y0 : Y) :
    Nat → Except Err Y
  | 0 => .ok y0
  | n + 1 =>
    match oneByOne S allfinite fn aux0 y0 n with
    | .error e => .error e
    | .ok y => oneStep S allfinite fn aux0 y

end Verif.Interactive
