import Verif.Model.Problems
import Mathlib.NumberTheory.Real.GoldenRatio

/-!
Model of `optimistix/_solver/golden.py`, over the reals.
-/

namespace Verif.Golden

/-- `golden.py:50-51` (tolerances) and the options `lower`, `upper` (66-67), with the shape information tested at 68-77:
do `y`, `lower`, `upper` have shape `()`, and the structure of the output of `fn`. -/
structure Cfg where
  rtol : ℝ
  atol : ℝ
  lower : ℝ
  upper : ℝ
  scalarArgs : Bool
  fStruct : Struct

/-- `golden.py:17-23`, `_GoldenSearchState`. -/
structure State where
  lower : ℝ
  middle : ℝ
  upper : ℝ
  fMiddle : ℝ
  first : Bool
  terminate : Bool

variable {A : Type}

/-- `golden.py:55-95`, `GoldenSearch.init`.  Note that the middle point (line 84) is `(upper-lower)/(phi+1)`, without
`lower +`. -/
noncomputable def init (cfg : Cfg) (fn : ℝ → ℝ × A) (_y : ℝ) : Except Err State :=
  if cfg.scalarArgs = false then .error (.valueError "scalar input")
  else match cfg.fStruct with
  | .leaf [] _ =>
    let goldenRatio := (1 + Real.sqrt 5) / 2
    let middle := (cfg.upper - cfg.lower) / (goldenRatio + 1)
    .ok { lower := cfg.lower, middle := middle, upper := cfg.upper, fMiddle := (fn middle).1, first := true,
          terminate := false }
  | _ => .error (.valueError "scalar output")

/-- `golden.py:97-163`, `GoldenSearch.step`. -/
noncomputable def step (cfg : Cfg) (fn : ℝ → ℝ × A) (y : ℝ) (st : State) : ℝ × State × A :=
  let y_ := if st.first then st.lower + (st.upper - st.middle) else y
  let fa := fn y_
  let yDiff := st.middle - y_
  let fDiff := st.fMiddle - fa.1
  let term := cauchyTermination (ι := Unit) (κ := Unit) cfg.rtol cfg.atol (fun v => |v ()|) (fun v => |v ()|)
    (fun _ => st.middle) (fun _ => yDiff) (fun _ => st.fMiddle) (fun _ => fDiff)
  let isMin := fa.1 < st.fMiddle
  let isLower := y_ < st.middle
  let newMiddle : State :=
    { lower := if isLower then st.lower else st.middle, middle := y_,
      upper := if isLower then st.middle else st.upper, fMiddle := fa.1, first := false, terminate := term }
  let newOuter : State :=
    { lower := if isLower then y_ else st.lower, middle := st.middle,
      upper := if isLower then st.upper else y_, fMiddle := st.fMiddle, first := false, terminate := term }
  let newState := if isMin then newMiddle else newOuter
  (newState.lower + (newState.upper - newState.middle), newState, fa.2)

/-- `golden.py:26-187`, the solver `GoldenSearch` (`terminate`: 165-174, `postprocess`: 176-187). -/
noncomputable def solver (cfg : Cfg) : Solver ℝ ℝ A State Unit where
  init := init cfg
  step := step cfg
  terminate _ _ st := (st.terminate, .successful)
  postprocess _ y aux _ _ := (y, aux, ())

end Verif.Golden
