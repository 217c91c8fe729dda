import Mathlib.Topology.ContinuousOn
import Mathlib.Topology.Instances.Real.Lemmas

/-!
Specification: strict local maxima and the points a run keeps coming back to.  Used by property C141.
-/

namespace Verif.Spec

open Filter Topology

/-- `f` has a strict local maximum at `xs`. -/
def StrictLocalMax {Y : Type} [TopologicalSpace Y] (f : Y → ℝ) (xs : Y) : Prop := ∀ᶠ y in 𝓝 xs, y ≠ xs → f y < f xs

/-- The sequence `x` comes arbitrarily close to `xs` again and again (as it does if it, or a subsequence of it, converges to `xs`). -/
def Accumulates {Y : Type} [TopologicalSpace Y] (x : ℕ → Y) (xs : Y) : Prop := ∀ U ∈ 𝓝 xs, ∀ n, ∃ k ≥ n, x k ∈ U

end Verif.Spec
