import Mathlib.Analysis.Calculus.FDeriv.Basic
import Mathlib.Analysis.Calculus.FDeriv.Pi
import Mathlib.Analysis.Calculus.FDeriv.Prod
import Mathlib.Topology.Algebra.Module.Equiv
import Mathlib.Data.Real.Basic

/-!
Model of `optimistix/_ad.py` and of the four `rewrite_fn`s, that is, of how solves are differentiated with the default
`ImplicitAdjoint`.

Trusted: `jax.jvp`, `jax.grad` and `lx.JacobianLinearOperator` compute the Fréchet derivative (Lean's `fderiv`) where it
exists.  `lx.linear_solve` is a parameter.
-/

namespace Verif.Ad

variable {ι κ ο R : Type} [Fintype ι] [Fintype κ] [Fintype ο]

/-- A linear solver, `lx.linear_solve(operator, vector, linear_solver).value`.  Called in `_ad.py:110`. -/
abbrev Solve (ι ο : Type) [Fintype ι] [Fintype ο] := ((ι → ℝ) →L[ℝ] (ο → ℝ)) → (ο → ℝ) → (ι → ℝ)

/-- `_ad.py:96-97, 102-103`: `no_tangent`, `eqx.partition` and `eqx.combine`: the inputs that have a tangent are taken from `diff`, the
others from `inputs`. -/
def combine (t : κ → Option ℝ) (diff inputs : κ → ℝ) : κ → ℝ := fun k => if (t k).isSome then diff k else inputs k

/-- `_ad.py:83-118`, `_implicit_impl_jvp`: the primals `(root, residual)` and the tangents of `root` (given) and of `residual`
(always zero; `none` stands for the symbolic zero).  `t k = none` means that input `k` has no tangent.  `rewrite` is `fn_rewrite`, taking
`(root, residual, inputs)`. -/
noncomputable def implicitJvp (solve : Solve ι ο) (primal : (κ → ℝ) → (ι → ℝ) × R)
    (rewrite : (ι → ℝ) → R → (κ → ℝ) → (ο → ℝ)) (inputs : κ → ℝ) (t : κ → Option ℝ) :
    ((ι → ℝ) × R) × ((ι → ℝ) × Option R) :=
  let root := (primal inputs).1
  let residual := (primal inputs).2
  let forJvp := fun diff => rewrite root residual (combine t diff inputs)
  let operator := fderiv ℝ (fun y => rewrite y residual inputs) root
  let jvpDiff := fderiv ℝ forJvp inputs (fun k => (t k).getD 0)
  let tRoot := fun i => -solve operator jvpDiff i
  ((root, residual), (tRoot, none))

/-- The inputs of a solve (`_iterate.py:342`): `args` (with the arrays that `fn` closes over, see
`eqx.filter_closure_convert`) and everything else (`y0`, the arrays inside `solver` and `options`). -/
abbrev Inputs (κ μ : Type) := κ ⊕ μ → ℝ

variable {μ : Type} [Fintype μ]

/-- `_root_find.py:22-26`, `_rewrite_fn`. -/
def rewriteRootFind (fn : (ι → ℝ) → (κ → ℝ) → (ο → ℝ)) (root : ι → ℝ) (_ : R) (inputs : Inputs κ μ) : ο → ℝ :=
  fn root (fun k => inputs (.inl k))

/-- `_fixed_point.py:23-27`, `_rewrite_fn`. -/
def rewriteFixedPoint (fn : (ι → ℝ) → (κ → ℝ) → (ι → ℝ)) (point : ι → ℝ) (_ : R) (inputs : Inputs κ μ) : ι → ℝ :=
  fun i => fn point (fun k => inputs (.inl k)) i - point i

/-- `jax.grad`: the partial derivatives.  Called in `_minimise.py:28` and `_least_squares.py:28`. -/
noncomputable def grad [DecidableEq ι] (f : (ι → ℝ) → ℝ) (y : ι → ℝ) : ι → ℝ := fun i => fderiv ℝ f y (Pi.single i 1)

/-- `_minimise.py:20-28`, `_rewrite_fn`. -/
noncomputable def rewriteMinimise [DecidableEq ι] (fn : (ι → ℝ) → (κ → ℝ) → ℝ) (minimum : ι → ℝ) (_ : R)
    (inputs : Inputs κ μ) : ι → ℝ :=
  grad (fun x => fn x (fun k => inputs (.inl k))) minimum

/-- `_least_squares.py:20-28`, `_rewrite_fn`; `_misc.py`, `sum_squares`. -/
noncomputable def rewriteLeastSquares [DecidableEq ι] (fn : (ι → ℝ) → (κ → ℝ) → (ο → ℝ)) (optimum : ι → ℝ) (_ : R)
    (inputs : Inputs κ μ) : ι → ℝ :=
  grad (fun x => 0.5 * ∑ j, fn x (fun k => inputs (.inl k)) j * fn x (fun k => inputs (.inl k)) j) optimum

/-- The `rewrite_fn` in use when `root_find` is given a minimiser: `root_find` calls `minimise` on
`norm(fn(y, args))` (`_root_find.py:34-36, 178-190`), and `minimise` passes its own `_rewrite_fn`. -/
noncomputable def rewriteRootFindMinimiser [DecidableEq ι] (norm : (ο → ℝ) → ℝ) (fn : (ι → ℝ) → (κ → ℝ) → (ο → ℝ)) :
    (ι → ℝ) → R → Inputs κ μ → ι → ℝ :=
  rewriteMinimise fun y args => norm (fn y args)

end Verif.Ad
