import Mathlib.Analysis.SpecialFunctions.Pow.Real

/-!
Vocabulary for least-squares problems given to minimisers.
-/

namespace Verif.Spec

open Filter Topology

variable {ι κ : Type} [Fintype ι] [Fintype κ]

/-- The residuals can be moved independently of each other, everywhere: the rows of the Jacobian are independent, and no combination `u` of
residuals has a gradient shorter than `√μ` times `u`.  There are then at least as many unknowns as residuals. -/
structure IndependentResiduals (jac : (ι → ℝ) → Matrix κ ι ℝ) (μ : ℝ) : Prop where
  pos : 0 < μ
  rows : ∀ y (u : κ → ℝ), μ * ∑ m, u m ^ 2 ≤ ∑ i, (∑ m, jac y m i * u m) ^ 2

/-- The residuals `r` are those of the linear model `M y ≈ b`, and `M` determines the unknowns: it stretches no vector by less than `√μ`. -/
structure LinearFit (r : (ι → ℝ) → κ → ℝ) (M : Matrix κ ι ℝ) (b : κ → ℝ) (μ : ℝ) : Prop where
  linear : ∀ y m, r y m = ∑ i, M m i * y i - b m
  pos : 0 < μ
  columns : ∀ p : ι → ℝ, μ * ∑ i, p i ^ 2 ≤ ∑ m, (∑ i, M m i * p i) ^ 2

/-- The points `Y` converge to a point where every residual is zero; at all times the squared distance still to go is at most `C` times the sum
of the squared residuals. -/
def ReachesExactFit (r : (ι → ℝ) → κ → ℝ) (Y : ℕ → ι → ℝ) (C : ℝ) : Prop :=
  ∃ x, (∀ m, r x m = 0) ∧ Tendsto Y atTop (𝓝 x) ∧ ∀ k, ∑ i, (Y k i - x i) ^ 2 ≤ C * ∑ m, r (Y k) m ^ 2

/-- The points `Y` converge to the one point whose sum of squared residuals is smaller than that of every other point. -/
def ReachesBestFit (r : (ι → ℝ) → κ → ℝ) (Y : ℕ → ι → ℝ) : Prop :=
  ∃ x, (∀ y, y ≠ x → ∑ m, r x m ^ 2 < ∑ m, r y m ^ 2) ∧ Tendsto Y atTop (𝓝 x)

end Verif.Spec
