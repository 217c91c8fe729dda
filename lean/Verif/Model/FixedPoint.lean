import Verif.Model.Problems

/-!
Model of `optimistix/_solver/fixed_point.py`, over an arbitrary scalar type `K`.
-/

namespace Verif.FixedPointIter

/-- `fixed_point.py:34-37`, the attributes of `FixedPointIteration`. -/
structure Cfg (ι K : Type) where
  rtol : K
  atol : K
  norm : (ι → K) → K
  damp : K

variable {ι K A : Type} [Add K] [Sub K] [Mul K] [Div K] [One K] [LT K] [DecidableLT K] [HasAbs K]

/-- `fixed_point.py:52-69`, `FixedPointIteration.step`.  The state is `relative_error`; `none` is the initial `inf`. -/
def step (cfg : Cfg ι K) (fn : (ι → K) → (ι → K) × A) (y : ι → K) (_st : Option K) : (ι → K) × Option K × A :=
  let fa := fn y
  let newY : ι → K := fun i => (1 - cfg.damp) * fa.1 i + cfg.damp * y i
  let error : ι → K := fun i => y i - newY i
  let scale : ι → K := fun i => cfg.atol + cfg.rtol * HasAbs.abs (newY i)
  (newY, some (cfg.norm fun i => error i / scale i), fa.2)

/-- `fixed_point.py:71-80`, `FixedPointIteration.terminate`. -/
def terminate (st : Option K) : Bool × Result :=
  (match st with
    | none => false
    | some e => decide (e < 1), .successful)

/-- `fixed_point.py:21-93`, the solver (`init`: 39-50, `postprocess`: 82-93). -/
def solver (cfg : Cfg ι K) : Solver (ι → K) (ι → K) A (Option K) Unit where
  init _ _ := .ok none
  step := step cfg
  terminate _ _ st := terminate st
  postprocess _ y aux _ _ := (y, aux, ())

end Verif.FixedPointIter
