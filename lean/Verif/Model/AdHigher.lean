import Verif.Model.Ad
import Verif.Model.Derivatives

/-!
Repeated and reverse-mode differentiation of solves (`optimistix/_ad.py`) with the default `ImplicitAdjoint`.

JAX differentiates a program that calls `_implicit_impl` by the chain rule, using `_implicit_impl_jvp` for the tangent of the root.
The rule itself is again a program that calls `_implicit_impl` (`_ad.py:99`), so that it can be differentiated in the same way.
Programs are modelled by the functions of `(root, inputs)` that they compute after the solve.
-/

namespace Verif.Ad

variable {ι κ ο R E : Type} [Fintype ι] [Fintype κ] [Fintype ο] [NormedAddCommGroup E] [NormedSpace ℝ E]

/-- `_ad.py:83-118`: the tangent of the root as a function of the root and the inputs.  (`root` and `residual` are the outputs of the nested
`implicit_jvp`, line 99.) -/
noncomputable def tangentAt (solve : Solve ι ο) (rewrite : (ι → ℝ) → R → (κ → ℝ) → (ο → ℝ)) (residual : R) (t : κ → Option ℝ)
    (p : (ι → ℝ) × (κ → ℝ)) : ι → ℝ :=
  (implicitJvp solve (fun _ => (p.1, residual)) rewrite p.2 t).2.1

/-- `jax.jvp` of the program `after` in the direction `t`: the chain rule at `(root, inputs)`.  The result is again a function of `(root,
inputs)`.  The residual has tangent zero (`_ad.py:111-116`). -/
noncomputable def jvpThrough (solve : Solve ι ο) (rewrite : (ι → ℝ) → R → (κ → ℝ) → (ο → ℝ)) (residual : R) (t : κ → Option ℝ)
    (after : (ι → ℝ) × (κ → ℝ) → E) (p : (ι → ℝ) × (κ → ℝ)) : E :=
  fderiv ℝ after p (tangentAt solve rewrite residual t p, fun k => (t k).getD 0)

/-- `jax.jvp` nested: differentiated along the last direction of the list first.  (`_ad.py:83-118`, applied to the call in line 99.) -/
noncomputable def jvpsThrough (solve : Solve ι ο) (rewrite : (ι → ℝ) → R → (κ → ℝ) → (ο → ℝ)) (residual : R)
    (after : (ι → ℝ) × (κ → ℝ) → E) : List (κ → Option ℝ) → (ι → ℝ) × (κ → ℝ) → E
  | [] => after
  | t :: ts => jvpThrough solve rewrite residual t (jvpsThrough solve rewrite residual after ts)

/-- What JAX returns for a solve followed by `after`, differentiated along `ts`: `primal` is run once, at the given inputs.
(`_ad.py:64-67, 83-118`.) -/
noncomputable def differentiated (solve : Solve ι ο) (primal : (κ → ℝ) → (ι → ℝ) × R)
    (rewrite : (ι → ℝ) → R → (κ → ℝ) → (ο → ℝ)) (after : (ι → ℝ) × (κ → ℝ) → E) (ts : List (κ → Option ℝ)) (inputs : κ → ℝ) : E :=
  jvpsThrough solve rewrite (primal inputs).2 after ts ((primal inputs).1, inputs)

/-- `jax.linear_transpose` as a linear map.  Applied by JAX to the linear solve of `_ad.py:110`. -/
noncomputable def transposed [DecidableEq ι] (A : (ι → ℝ) →L[ℝ] (ο → ℝ)) : (ο → ℝ) →L[ℝ] (ι → ℝ) :=
  ContinuousLinearMap.pi fun i => ∑ j, (A (Pi.single i 1) j) • ContinuousLinearMap.proj (R := ℝ) (φ := fun _ : ο => ℝ) j

/-- `jax.grad` of the program `after` (with a scalar result): the transpose of `jvpThrough`, from the output back to the inputs.  The transpose of
`lx.linear_solve(operator, ·, linear_solver)` is `lx.linear_solve(operator.T, ·, linear_solver)`.  (`_ad.py:83-118` transposed.) -/
noncomputable def gradThrough (solve : Solve ο ι) (primal : (κ → ℝ) → (ι → ℝ) × R) [DecidableEq ι] [DecidableEq κ]
    (rewrite : (ι → ℝ) → R → (κ → ℝ) → (ο → ℝ)) (after : (ι → ℝ) × (κ → ℝ) → (Unit → ℝ)) (inputs : κ → ℝ) : κ → ℝ :=
  let root := (primal inputs).1
  let residual := (primal inputs).2
  let ctRoot := Derivatives.linearTranspose (fderiv ℝ (fun z => after (z, inputs)) root) fun _ => 1
  let operator := fderiv ℝ (fun z => rewrite z residual inputs) root
  let ctRewrite := fun j => -solve (transposed operator) ctRoot j
  fun k => Derivatives.linearTranspose (fderiv ℝ (fun a => after (root, a)) inputs) (fun _ => 1) k +
    Derivatives.linearTranspose (fderiv ℝ (rewrite root residual) inputs) ctRewrite k

end Verif.Ad
