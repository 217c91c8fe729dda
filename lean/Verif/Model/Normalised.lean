import Verif.Model.AnyScalar
import Verif.Spec.Finite

/-!
Gradient descent whose descent is normalised, `SteepestDescent(norm=...)` (`gradient_methods.py:42-79`), on `XR`: here the
division `0/0` of a zero gradient by its norm is what it is in floating point arithmetic.
-/

namespace Verif.Normalised

variable {ι A : Type}

/-- `gradient_methods.py:71-73`, the end of `SteepestDescent.query` with a `norm`: `grad**ω / self.norm(grad)`. -/
noncomputable def query (norm : (ι → XR) → XR) (grad : ι → XR) : ι → XR :=
  fun i => grad i / norm grad

/-- `gradient_methods.py:75-79`, `SteepestDescent.step`. -/
noncomputable def descend (stepSize : XR) (grad : ι → XR) : (ι → XR) × Result :=
  (fun i => -stepSize * grad i, .successful)

/-- A subclass of `AbstractGradientDescent` (`gradient_methods.py:107-246`) with `descent = SteepestDescent(norm)` and
`search = LearningRate(learning_rate)` (`learning_rate.py:16-41`: every trial is accepted); the stored `f_info` is the pair
of value and gradient; `grad` is the gradient oracle. -/
noncomputable def cfg (rtol atol learningRate : XR) (norm : (ι → XR) → XR) (normF : (Unit → XR) → XR)
    (grad : (ι → XR) → ι → XR) :
    SearchBased.Cfg ι Unit XR XR (XR × (ι → XR)) XR Unit (ι → XR) Unit where
  rtol := rtol
  atol := atol
  normY := norm
  normF := normF
  flat f := fun _ => f
  stored i := fun _ => i.1
  makeEval _ f := f
  makeInfo _ yEval _ f _ := ((f, grad yEval), ())
  search _ _ _ _ _ _ := (learningRate, true, .successful, ())
  query _ info _ := query norm info.2
  descend := descend
  skipFirst := true

/-- `gradient_methods.py:138-159`, `init`; the placeholders are zeros (143-156). -/
def init (aux0 : A) (y : ι → XR) : Except Err (SearchBased.State ι XR (XR × (ι → XR)) A Unit (ι → XR) Unit) :=
  .ok { firstStep := true, yEval := y, searchState := (), fInfo := (0, y), aux := aux0, descentState := y,
        terminate := false, result := .successful, hess := () }

/-- `gradient_methods.py:107-246`, the solver. -/
noncomputable def solver (rtol atol learningRate : XR) (norm : (ι → XR) → XR) (normF : (Unit → XR) → XR)
    (grad : (ι → XR) → ι → XR) (aux0 : A) :
    Solver (ι → XR) XR A (SearchBased.State ι XR (XR × (ι → XR)) A Unit (ι → XR) Unit) Unit :=
  SearchBased.solver (cfg rtol atol learningRate norm normF grad) (init aux0)

end Verif.Normalised
