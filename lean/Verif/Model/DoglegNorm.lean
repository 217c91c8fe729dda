import Verif.Model.Dogleg
import Verif.Model.Bisection

/-!
Model of the branch of `DoglegDescent.step` (`optimistix/_solver/dogleg.py`) for trust-region norms other than `two_norm`, with the
default root finder.
-/

namespace Verif.Dogleg

variable {ι : Type}

/-- The default root finder of `DoglegDescent` (`dogleg.py:49-51`, `Bisection(rtol=1e-3, atol=1e-3)`: `flip="detect"`, no expansion)
with the options of `dogleg.py:173`. -/
noncomputable def innerBisection : Bisection.Cfg ℝ :=
  { rtol := 1e-3, atol := 1e-3, flip := .detect, expand := false, lower := 1, upper := 2, scalarArgs := true,
    fStruct := .leaf [] true }

/-- `dogleg.py:174-184`, the inner `root_find` for trust regions of another shape: from `1.5`, at most 256 steps (the default),
`throw=False`.  Errors raised by `Bisection.init` are raised nevertheless. -/
noncomputable def findCrossing (gap : ℝ → ℝ) : Except Err (ℝ × Result) :=
  match rootFind (Bisection.solver innerBisection) (fun _ => true) (fun t => (gap t, ())) () 1.5 (some 256) false with
  | some (.ok sol) => .ok (sol.value, sol.result)
  | some (.error e) => .error e
  | none => .error .hangs

/-- `dogleg.py:113-203`, `DoglegDescent.step` with a trust-region norm other than `two_norm` and the default root
finder: as `step`, but with the errors raised by the inner root find. -/
noncomputable def stepOther (eps : ℝ) (norm : (ι → ℝ) → ℝ) (stepSize : ℝ) (st : State ι) : Except Err ((ι → ℝ) × Result) :=
  let scaledStepSize := st.newtonNorm * stepSize
  let r : Except Err ((ι → ℝ) × Result) :=
    if scaledStepSize < st.cauchyNorm then .ok (scaledCauchy eps st scaledStepSize, .successful)
    else if stepSize < 1 then
      match findCrossing fun t => norm (interpolate st.cauchy st.newton t) - scaledStepSize with
      | .ok s => .ok (interpolate st.cauchy st.newton s.1, s.2)
      | .error e => .error e
    else .ok (st.newton, .successful)
  match r with
  | .ok r => .ok (r.1, if st.result = .successful then r.2 else st.result)
  | .error e => .error e

end Verif.Dogleg
