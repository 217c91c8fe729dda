import Verif.Spec.LipschitzJacobian

/-! Contractions with a well-behaved Jacobian. -/

namespace Verif.Spec

variable {ι : Type} [Fintype ι]

/-- `g` shrinks Euclidean distances by the factor `c < 1`, and its Jacobian `G` is Lipschitz with constant `K`. -/
structure SmoothContraction (g : (ι → ℝ) → ι → ℝ) (G : (ι → ℝ) → Matrix ι ι ℝ) (c K : ℝ) : Prop where
  nonneg : 0 ≤ c
  small : c < 1
  contracts : ∀ x y, Real.sqrt (∑ i, (g x i - g y i) ^ 2) ≤ c * Real.sqrt (∑ i, (x i - y i) ^ 2)
  jacobian : LipschitzJacobian g G K

end Verif.Spec
