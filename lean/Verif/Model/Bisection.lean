import Verif.Model.Problems

/-!
Model of `optimistix/_solver/bisection.py`.

The scalar type `K` is arbitrary: no laws are assumed of its arithmetic, so `K` may be exact reals or any floating-point
format with any rounding.  `A` is the type of the user's aux.
-/

namespace Verif.Bisection

/-- `bisection.py:103`, the attribute `flip: bool | Literal["detect"]`; `other` is any other object. -/
inductive Flip where
  | fixed (b : Bool)
  | detect
  | other

/-- `bisection.py:101-105` (attributes) together with `options["lower"]`, `options["upper"]` (118-119).
`scalarArgs`: do `y`, `lower` and `upper` have shape `()` (121)?  `fStruct`: the structure of the output of `fn`. -/
structure Cfg (K : Type) where
  rtol : K
  atol : K
  flip : Flip
  expand : Bool
  lower : K
  upper : K
  scalarArgs : Bool
  fStruct : Struct

/-- `bisection.py:15-19`, `_BisectionState`; `error = none` is the initial `inf` (163). -/
structure State (K : Type) where
  lower : K
  upper : K
  flip : Bool
  error : Option K

variable {K A : Type} [Add K] [Sub K] [Mul K] [OfScientific K] [Zero K] [LT K] [DecidableLT K] [HasAbs K]

/-- `bisection.py:27-38`, `_interval_contains_root` (despite its name: `true` means "keep expanding"). -/
def keepExpanding (needPositive expandUpper : Bool) (fn : K → K × A) (c : K × K) : Bool :=
  let newBoundary := if expandUpper then c.2 else c.1
  needPositive ^^ decide ((fn newBoundary).1 > 0)

/-- `bisection.py:41-50`, `_expand_interval`. -/
def expandInterval (expandUpper : Bool) (c : K × K) : K × K :=
  let newDomain := 2.0 * (c.2 - c.1)
  let newLower := if expandUpper then c.2 else c.1 - newDomain
  let newUpper := if expandUpper then c.2 + newDomain else c.1
  (newLower, newUpper)

/-- `bisection.py:53-77`, `_expand_interval_repeatedly`; `none` if the loop never ends. -/
noncomputable def expandRepeatedly (lower upper upperVal lowerVal : K) (needPositive : Bool) (fn : K → K × A) :
    Option (K × K) :=
  let expandUpper := needPositive ^^ decide (upperVal < lowerVal)
  Driver.whileForever (keepExpanding needPositive expandUpper fn) (expandInterval expandUpper) (lower, upper)

/-- `bisection.py:108-164`, `Bisection.init`. -/
noncomputable def init (cfg : Cfg K) (fn : K → K × A) (_y : K) : Except Err (State K) :=
  if cfg.scalarArgs = false then .error (.valueError "scalar input")
  else match cfg.fStruct with
  | .leaf [] _ =>
    match cfg.flip with
    | .fixed b => .ok { lower := cfg.lower, upper := cfg.upper, flip := b, error := none }
    | .detect =>
      let lowerVal := (fn cfg.lower).1
      let upperVal := (fn cfg.upper).1
      let flip := decide (lowerVal > upperVal)
      if cfg.expand then
        match expandRepeatedly cfg.lower cfg.upper upperVal lowerVal (decide (lowerVal < 0)) fn with
        | none => .error .hangs
        | some lu => .ok { lower := lu.1, upper := lu.2, flip := flip, error := none }
      else
        let lowerNeg := decide (lowerVal < 0)
        let upperNeg := decide (upperVal < 0)
        if lowerNeg = upperNeg then .error (.valueError "The root is not contained in [lower, upper]")
        else .ok { lower := cfg.lower, upper := cfg.upper, flip := flip, error := none }
    | .other => .error (.valueError "`flip` may only be True, False, or 'detect'.")
  | _ => .error (.valueError "scalar output")

/-- `bisection.py:166-184`, `Bisection.step`. -/
def step (fn : K → K × A) (y : K) (st : State K) : K × State K × A :=
  let ea := fn y
  let negative := st.flip ^^ decide (ea.1 < 0)
  let newLower := if negative then y else st.lower
  let newUpper := if negative then st.upper else y
  let newY := newLower + 0.5 * (newUpper - newLower)
  (newY, { lower := newLower, upper := newUpper, flip := st.flip, error := some ea.1 }, ea.2)

/-- `bisection.py:186-199`, `Bisection.terminate`. -/
def terminate (cfg : Cfg K) (y : K) (st : State K) : Bool × Result :=
  let scale := cfg.atol + cfg.rtol * HasAbs.abs y
  let ySmall := decide (HasAbs.abs (st.lower - st.upper) < scale)
  let fSmall := match st.error with
    | none => false
    | some e => decide (HasAbs.abs e < cfg.atol)
  (ySmall && fSmall, .successful)

/-- `bisection.py:79-212`, the solver `Bisection`. -/
noncomputable def solver (cfg : Cfg K) : Solver K K A (State K) Unit where
  init := init cfg
  step := step
  terminate _ y st := terminate cfg y st
  postprocess _ y aux _ _ := (y, aux, ())

end Verif.Bisection
