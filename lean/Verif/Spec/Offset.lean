import Verif.Model.Misc
import Mathlib.Order.WithBot

/-!
Specification for C80: the objective with a constant added, or more generally measured on another scale.
-/

namespace Verif.Offset

variable {Y A : Type}

/-- The objective with the constant `a` added; the auxiliary output is untouched. -/
def offset (a : ℝ) (f : Y → ℝ × A) : Y → ℝ × A := fun y => ((f y).1 + a, (f y).2)

/-- The stopping test on the objective gives the same verdict when the constant `a` is added. -/
def SameVerdict (a rtol atol : ℝ) (n : (Unit → ℝ) → ℝ) : Prop :=
  ∀ v d : ℝ, n (scaledDiff rtol atol (fun _ => v + a) fun _ => d) = n (scaledDiff rtol atol (fun _ => v) fun _ => d)

/-- The objective on another scale: its values are transformed by the increasing function `φ`. -/
def rescaled (φ : ℝ → ℝ) (f : Y → ℝ × A) : Y → ℝ × A := fun y => (φ (f y).1, (f y).2)

/-- The same for objectives that may be `+inf`, which remains `+inf`. -/
def rescaledTop (φ : ℝ → ℝ) (f : Y → WithTop ℝ × A) : Y → WithTop ℝ × A := fun y => ((f y).1.map φ, (f y).2)

/-- A test on the objective between a current value and another one passes on the other scale whenever it does on the first. -/
def KeepsTest (φ : ℝ → ℝ) (rtol atol : ℝ) : Prop :=
  ∀ v w : ℝ, |φ v - φ w| / (atol + rtol * |φ v|) < 1 ↔ |v - w| / (atol + rtol * |v|) < 1

/-- The same for the values at the `n` vertices of a simplex, of which `b` is the best. -/
def KeepsSimplexTest {n : ℕ} (φ : ℝ → ℝ) (rtol atol : ℝ) (norm : (Fin n → ℝ) → ℝ) : Prop :=
  ∀ (v : Fin n → ℝ) (b : ℝ), norm (fun i => |φ (v i) - φ b| / (atol + rtol * |φ b|)) < 1 ↔
    norm (fun i => |v i - b| / (atol + rtol * |b|)) < 1

end Verif.Offset
