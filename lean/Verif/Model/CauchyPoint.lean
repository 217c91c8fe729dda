import Verif.Model.Iterate
import Verif.Model.Misc
import Verif.Model.XR

/-!
Model of `optimistix/_solver/cauchy_point.py`, over `XR` (extended reals with NaN), for a `y` with `n + 1` entries in the
order of `ravel_pytree`.  (An empty `y` makes `jnp.argmin` raise.)
-/

namespace Verif.CauchyPoint

variable {n : Nat}

/-- A tree with `n + 1` scalar entries.  (The `PyTree`s of `cauchy_point.py:16-53`.) -/
abbrev Vec (n : Nat) := Fin (n + 1) → XR

/-- `jnp.minimum`: NaN if one of the arguments is.  Called in `cauchy_point.py:50`; also `jnp.clip(., max=1.0)` in line 42. -/
noncomputable def min (a b : XR) : XR := if a.isNan || b.isNan then .nan else if a < b then a else b

open Classical in
/-- `cauchy_point.py:36-44`, `leaf_intercepts`, for one entry. -/
noncomputable def leafIntercept (y bound gradient : XR) : XR :=
  let a := (y - bound) / gradient
  let a := if 0 ≤ a then a else .pinf
  let a := if gradient ≠ 0 then a else .pinf
  if a.isFinite then min a 1 else a

/-- `cauchy_point.py:16-53`, `_boundary_intercepts`. -/
noncomputable def boundaryIntercepts (y lower upper grad : Vec n) : Vec n := fun i =>
  min (leafIntercept (y i) (lower i) (grad i)) (leafIntercept (y i) (upper i) (grad i))

/-- `cauchy_point.py:56-65`, `_next_intercept`: `argmin` of booleans is the first entry that is false, and the first entry if
there is none. -/
noncomputable def nextIntercept (intercepts : Vec n) (previous : XR) : XR :=
  match (List.finRange (n + 1)).find? fun i => decide (previous < intercepts i) && (intercepts i).isFinite with
  | some i => intercepts i
  | none => intercepts 0

/-- `cauchy_point.py:68-69`, `_point`. -/
noncomputable def point (y grad : Vec n) (intercept : XR) (lower upper : Vec n) : Vec n :=
  treeClip (fun i => y i - intercept * grad i) lower upper

/-- `tree_dot`.  Called in `cauchy_point.py:100-103`. -/
noncomputable def dot (x y : Vec n) : XR := (List.ofFn fun i => x i * y i).foldr (· + ·) 0

/-- `hessian_operator.mv`.  Called in `cauchy_point.py:101-103`. -/
noncomputable def mv (h : Fin (n + 1) → Vec n) (x : Vec n) : Vec n := fun i => dot (h i) x

/-- `cauchy_point.py:72-76`, `_CauchyState` (the constant `intercepts` is left out). -/
structure State (n : Nat) where
  previousIntercept : XR
  point : Vec n
  terminate : Bool

/-- `cauchy_point.py:93-127`, `body_fun`. -/
noncomputable def body (y lower upper grad : Vec n) (h : Fin (n + 1) → Vec n) (intercepts : Vec n) (st : State n) : State n :=
  let next := nextIntercept intercepts st.previousIntercept
  let nextPoint := point y grad next lower upper
  let pointDiff := fun i => nextPoint i - y i
  let linear := dot grad pointDiff + dot st.point (mv h pointDiff)
  let quadratic := dot pointDiff (mv h pointDiff)
  let optimal := -linear / quadratic
  let stopAtPrevious := decide (0 < linear)
  let skipToNext := decide (next < optimal)
  let optimal := if stopAtPrevious then st.previousIntercept else optimal
  let optimal := if skipToNext then next else optimal
  let isCauchy := stopAtPrevious || !skipToNext
  let moreToTry := (List.finRange (n + 1)).any fun i => decide (next < intercepts i)
  { previousIntercept := next, point := point y grad optimal lower upper, terminate := isCauchy || !moreToTry }

/-- `cauchy_point.py:79-132`, `_find_cauchy_point`.  `none`: the loop never stops. -/
noncomputable def findCauchyPoint (y lower upper grad : Vec n) (h : Fin (n + 1) → Vec n) (intercepts : Vec n) :
    Option (Vec n) :=
  (Driver.whileForever (fun st : State n => !st.terminate) (body y lower upper grad h intercepts)
    { previousIntercept := 0, point := y, terminate := false }).map State.point

/-- `tree_min`.  `_misc.py:127-129`, called in `cauchy_point.py:217`. -/
noncomputable def treeMin (x : Vec n) : XR := (List.ofFn x).foldr min .pinf

/-- `cauchy_point.py:214-217`, `just_move`. -/
noncomputable def justMove (y lower upper grad : Vec n) : Vec n :=
  let gradientStep := fun i => -grad i
  let stepSize := feasibleStepLength y gradientStep lower upper none
  fun i => y i + treeMin stepSize * gradientStep i

/-- `cauchy_point.py:135-220`, `cauchy_point`. -/
noncomputable def cauchyPoint (y lower upper grad : Vec n) (h : Fin (n + 1) → Vec n) : Option (Vec n) :=
  let intercepts := boundaryIntercepts y lower upper grad
  let hasIntercepts := (List.finRange (n + 1)).any fun i => decide (0 < intercepts i) && decide (intercepts i < 1)
  if hasIntercepts then findCauchyPoint y lower upper grad h intercepts else some (justMove y lower upper grad)

end Verif.CauchyPoint
