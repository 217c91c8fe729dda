import Verif.Model.Iterate
import Mathlib.Analysis.Calculus.FDeriv.Basic
import Mathlib.Analysis.Calculus.FDeriv.Pi

/-!
Model of `RecursiveCheckpointAdjoint` (`optimistix/_adjoint.py:30-113`): differentiation through the iterates.

Trusted: reverse-mode differentiation of `eqxi.while_loop(kind="checkpointed")` gives the derivative of the composition of the
executions of the loop body that actually took place, the number of which is decided by the primal run.  (Checkpointing only
decides what is recomputed.)
-/

namespace Verif.Unrolled

open Verif.Driver

variable {P ι Out A St Stats : Type} [Fintype ι]

/-- What a solve returns if its loop body is executed exactly `n` times (`_iterate.py:234-262`). -/
def valueAfter {Y : Type} (S : Solver Y Out A St Stats) (allfinite : Y → Bool) (fn : Y → Out × A) (aux0 : A) (y0 : Y) (n : Nat) : Y :=
  match S.init fn y0 with
  | .error _ => y0
  | .ok st0 => (package S fn none ((body S allfinite fn)^[n] (initCarry S allfinite fn aux0 y0 st0))).value

/-- `_adjoint.py:108-113`, `RecursiveCheckpointAdjoint.apply`: the tangent of the value of a solve whose solver (through the
Jacobians it takes), function and starting point depend on inputs `θ`, in the direction `t`, where `n` is the number of steps
that the solve at `θ` takes. -/
noncomputable def tangent [NormedAddCommGroup P] [NormedSpace ℝ P] (S : P → Solver (ι → ℝ) Out A St Stats)
    (allfinite : (ι → ℝ) → Bool) (fn : P → (ι → ℝ) → Out × A) (aux0 : A) (y0 : P → ι → ℝ) (n : Nat) (θ t : P) : ι → ℝ :=
  fderiv ℝ (fun θ' => valueAfter (S θ') allfinite (fn θ') aux0 (y0 θ') n) θ t

end Verif.Unrolled
