import Verif.Model.Iterate

/-!
Model of the bookkeeping around the loop of `optimistix/_iterate.py` that `Verif.Model.Iterate` leaves out: solver states are
PyTrees whose array leaves go through the loop while everything else (functions, jaxprs, strings, …) stays outside.  Also of the
helpers `filter_cond`, `wrap_jaxpr`, `unwrap_jaxpr` of `optimistix/_misc.py`, and of the merging of statistics.

Trusted: `eqx.partition`, `eqx.combine` and `eqx.tree_equal` do what they are documented to do (modelled here as `partition`,
`combine` and equality).
-/

namespace Verif.Partition

/-- A leaf of a PyTree: an array, a jaxpr, a jaxpr wrapped in `_JaxprEqual` (`_misc.py:312-322`), or anything else. -/
inductive Leaf (Arr Jpr Obj : Type) where
  | array (a : Arr)
  | jaxpr (j : Jpr)
  | wrapped (j : Jpr)
  | other (o : Obj)

variable {Arr Jpr Obj : Type}

/-- A PyTree of a fixed structure: its leaves in order, `none` standing for `None`.  (The states of `_iterate.py:220-252`.) -/
abbrev Tree (Arr Jpr Obj : Type) := List (Option (Leaf Arr Jpr Obj))

/-- `eqx.is_array`.  Passed in `_iterate.py:220, 239`, `_misc.py:350-361`. -/
def Leaf.isArray : Leaf Arr Jpr Obj → Bool
  | .array _ => true
  | _ => false

/-- `eqx.partition(tree, eqx.is_array)`: the arrays (with `None` elsewhere) and everything else (with `None` for arrays).
Called in `_iterate.py:220, 239`, `_misc.py:350-361`. -/
def partition (t : Tree Arr Jpr Obj) : Tree Arr Jpr Obj × Tree Arr Jpr Obj :=
  (t.map fun l => l.filter Leaf.isArray, t.map fun l => l.filter fun l => !l.isArray)

/-- `eqx.combine(a, b)`: at each leaf the first that is not `None`.  Called in `_iterate.py:236, 252, 354`, `_misc.py:353-365`. -/
def combine (a b : Tree Arr Jpr Obj) : Tree Arr Jpr Obj := List.zipWith (fun x y => x <|> y) a b

/-- `_misc.py:325-331`, `_wrap_jaxpr_leaf`. -/
def wrapLeaf : Leaf Arr Jpr Obj → Leaf Arr Jpr Obj
  | .jaxpr j => .wrapped j
  | l => l

/-- `_misc.py:338-342`, `_unwrap_jaxpr_leaf`. -/
def unwrapLeaf : Leaf Arr Jpr Obj → Leaf Arr Jpr Obj
  | .wrapped j => .jaxpr j
  | l => l

/-- `_misc.py:334-335`, `wrap_jaxpr`. -/
def wrapJaxpr (t : Tree Arr Jpr Obj) : Tree Arr Jpr Obj := t.map fun l => l.map wrapLeaf

/-- `_misc.py:345-346`, `unwrap_jaxpr`. -/
def unwrapJaxpr (t : Tree Arr Jpr Obj) : Tree Arr Jpr Obj := t.map fun l => l.map unwrapLeaf

open Classical in
/-- `_misc.py:349-365`, `filter_cond`.  `lax.cond` traces both branches and raises a `TypeError` unless their outputs have the
same structure, which here includes the non-array parts (wrapped in `eqxi.Static`); then it runs the selected branch.
Simplification: "same structure" is equality of the non-array parts and equal numbers of leaves (`partition` keeps `None`s). -/
noncomputable def filterCond (pred : Bool) (trueFun falseFun : Tree Arr Jpr Obj → Tree Arr Jpr Obj)
    (operands : Tree Arr Jpr Obj) : Except Err (Tree Arr Jpr Obj) :=
  let p := partition operands
  let branch := fun (f : Tree Arr Jpr Obj → Tree Arr Jpr Obj) (dynamic : Tree Arr Jpr Obj) => partition (f (combine dynamic p.2))
  if (branch trueFun p.1).2 ≠ (branch falseFun p.1).2 then .error (.typeError "lax.cond: branches differ in structure")
  else
    let out := if pred then branch trueFun p.1 else branch falseFun p.1
    .ok (combine out.1 out.2)

variable {Y Out Aux Stats : Type}

/-- `_iterate.py:221-228`, the carry as it is: `dynamic` is the array part of the state. -/
structure Carry (Y Aux Arr Jpr Obj : Type) where
  y : Y
  numSteps : Nat
  dynamic : Tree Arr Jpr Obj
  aux : Aux
  terminate : Bool
  result : Result

/-- `_iterate.py:230-232`, `cond_fun`. -/
def cond (c : Carry Y Aux Arr Jpr Obj) : Bool := !c.terminate && decide (c.result = .successful)

/-- `_iterate.py:234-241`, `body_fun`; its `assert` (240) is `assertHolds`. -/
def body (S : Solver Y Out Aux (Tree Arr Jpr Obj) Stats) (allfinite : Y → Bool) (fn : Y → Out × Aux)
    (static : Tree Arr Jpr Obj) (c : Carry Y Aux Arr Jpr Obj) : Carry Y Aux Arr Jpr Obj :=
  let state := combine static c.dynamic
  let out := S.step fn c.y state
  let tr := Driver.terminateAndResult S allfinite fn c.y out.2.1
  { y := out.1, numSteps := c.numSteps + 1, dynamic := (partition out.2.1).1, aux := out.2.2,
    terminate := tr.1, result := tr.2 }

/-- `_iterate.py:240`, `assert eqx.tree_equal(static_state, new_static_state) is True`.  It is checked once, while the body is
traced (whether or not it is ever run); tracing sees the non-array part of the new state, which cannot depend on the values of
arrays (`Spec.Traced`), so the first step stands for all. -/
def assertHolds (S : Solver Y Out Aux (Tree Arr Jpr Obj) Stats) (fn : Y → Out × Aux) (static : Tree Arr Jpr Obj) (y0 : Y)
    (dynamic : Tree Arr Jpr Obj) : Prop :=
  (partition (S.step fn y0 (combine static dynamic)).2.1).2 = static

open Classical in
/-- `_iterate.py:194-268`, `_iterate`, with the packaging of `iterative_solve` (354-356).  A failing `assert` is an
`AssertionError`. -/
noncomputable def iterate (S : Solver Y Out Aux (Tree Arr Jpr Obj) Stats) (allfinite : Y → Bool) (fn : Y → Out × Aux)
    (aux0 : Aux) (y0 : Y) (maxSteps : Option Nat) :
    Option (Except Err (Solution Y Aux (Tree Arr Jpr Obj) Stats)) :=
  match S.init fn y0 with
  | .error e => some (.error e)
  | .ok initState =>
    let tr := Driver.terminateAndResult S allfinite fn y0 initState
    let static := (partition initState).2
    let initCarry : Carry Y Aux Arr Jpr Obj :=
      { y := y0, numSteps := 0, dynamic := (partition initState).1, aux := aux0, terminate := tr.1, result := tr.2 }
    if ¬assertHolds S fn static y0 initCarry.dynamic then some (.error (.valueError "AssertionError"))
    else
      (Driver.whileOpt cond (body S allfinite fn static) maxSteps initCarry).map fun c =>
        let finalState := combine static c.dynamic
        let result := if c.result = .successful ∧ c.terminate = false then .nonlinearMaxStepsReached else c.result
        let p := S.postprocess fn c.y c.aux finalState result
        -- 265 and 354: the non-array part leaves with its jaxprs wrapped, and is recombined outside
        let outside := combine c.dynamic (unwrapJaxpr (wrapJaxpr static))
        .ok { value := p.1, result := result, aux := p.2.1, numSteps := c.numSteps, maxSteps := maxSteps,
              stats := p.2.2, state := outside }

/-- `_iterate.py:355`, `{"num_steps": num_steps, "max_steps": max_steps, **stats}`: later entries win. -/
def mergeStats {V : Type} (numSteps maxSteps : V) (stats : String → Option V) (key : String) : Option V :=
  match stats key with
  | some v => some v
  | none => if key = "max_steps" then some maxSteps else if key = "num_steps" then some numSteps else none

/-- `nelder_mead.py:456-462`: the statistics of `NelderMead` as a dictionary; the other solvers' dictionaries are empty. -/
def nelderMeadStats {V : Type} (reflect inner outer expand shrink : V) (key : String) : Option V :=
  if key = "num_reflections" then some reflect
  else if key = "num_inner_contractions" then some inner
  else if key = "num_outer_contractions" then some outer
  else if key = "num_expansions" then some expand
  else if key = "num_shrinkages" then some shrink
  else none

end Verif.Partition
