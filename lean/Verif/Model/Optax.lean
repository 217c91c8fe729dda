import Verif.Model.Iterate
import Verif.Model.Misc

/-!
Model of `optimistix/_solver/optax.py`.
-/

namespace Verif.Optax

variable {ι A OS : Type}

/-- `optax.GradientTransformation` as used by `optax.py:78, 104-106`: `init(params)` and
`update(grads, state, params, value=…, grad=…, value_fn=…)`.  Both are arbitrary functions. -/
structure Optim (ι OS : Type) where
  init : (ι → ℝ) → OS
  update : (grads : ι → ℝ) → OS → (params : ι → ℝ) → (value : ℝ) → (valueFn : (ι → ℝ) → ℝ) → (ι → ℝ) × OS

/-- `optax.py:16-20`, `_OptaxState`. -/
structure State (OS : Type) where
  step : Nat
  f : ℝ
  optState : OS
  terminate : Bool

/-- `optax.py:28-64`, the attributes of `OptaxMinimiser` (without `verbose`); `normY`/`normF` are the one `norm` at the two
structures it is used at; `grad` is the gradient oracle (`eqx.filter_value_and_grad`, line 94); `fmax` is
`jnp.finfo(dtype).max` (79). -/
structure Cfg (ι OS : Type) where
  optim : Optim ι OS
  rtol : ℝ
  atol : ℝ
  normY : (ι → ℝ) → ℝ
  normF : (Unit → ℝ) → ℝ
  grad : (ι → ℝ) → (ι → ℝ)
  fmax : ℝ

/-- `eqx.apply_updates` (`optax.py:107`): entrywise sum (`None` updates are not modelled). -/
def applyUpdates (y updates : ι → ℝ) : ι → ℝ := fun i => y i + updates i

/-- `optax.py:67-82`, `init`. -/
def init (cfg : Cfg ι OS) (y : ι → ℝ) : State OS :=
  { step := 0, f := cfg.fmax, optState := cfg.optim.init y, terminate := false }

/-- `optax.py:84-120`, `step`. -/
noncomputable def step (cfg : Cfg ι OS) (fn : (ι → ℝ) → ℝ × A) (y : ι → ℝ) (st : State OS) : (ι → ℝ) × State OS × A :=
  let f := (fn y).1
  let aux := (fn y).2
  let grads := cfg.grad y
  let u := cfg.optim.update grads st.optState y f fun y => (fn y).1
  let newY := applyUpdates y u.1
  let terminate := cauchyTermination cfg.rtol cfg.atol cfg.normY cfg.normF y u.1 (fun _ => f) (fun _ => f - st.f)
  (newY, { step := st.step + 1, f := f, optState := u.2, terminate := terminate }, aux)

/-- `optax.py:23-145`, `OptaxMinimiser` (`terminate`: 122-132, `postprocess`: 134-145). -/
noncomputable def solver (cfg : Cfg ι OS) : Solver (ι → ℝ) ℝ A (State OS) Unit where
  init _ y := .ok (init cfg y)
  step := step cfg
  terminate _ _ st := (st.terminate, .successful)
  postprocess _ y aux _ _ := (y, aux, ())

/-- `optax.sgd(learning_rate)` without momentum, an example of an optimiser: updates are `-learning_rate * grads`.
(Not in `/repo`; an instance of `optim`, `optax.py:104-106`.) -/
def sgd (learningRate : ℝ) : Optim ι Unit where
  init _ := ()
  update grads _ _ _ _ := (fun i => -learningRate * grads i, ())

end Verif.Optax
