import Verif.Model.Problems
import Mathlib.Data.Real.Basic

/-!
Specification for C122: the same problem, drawn elsewhere and to another scale.
-/

namespace Verif.Placement

variable {Y Y' ι A : Type}

/-- The number `y`, to the scale `c` and moved by `b`. -/
def place (c b y : ℝ) : ℝ := c * y + b

/-- The point `y`, to the scale `c` and moved by `b`. -/
def placePoint (c : ℝ) (b : ι → ℝ) (y : ι → ℝ) : ι → ℝ := fun i => c * y i + b i

/-- The outcome of a solve, with the answer put where `T` puts it. -/
def moved (T : Y → Y') (o : Option (Except Err (Y × Result × A × Nat))) : Option (Except Err (Y' × Result × A × Nat)) :=
  o.map fun r => r.map fun s => (T s.1, s.2)

/-- `f'` is `f` redrawn: its value at the point `T y` is that of `f` at `y`, changed by `φ`; the aux is the same. -/
def Redrawn {V V' : Type} (T : Y → Y') (φ : V → V') (f : Y → V × A) (f' : Y' → V' × A) : Prop :=
  ∀ y, f' (T y) = (φ (f y).1, (f y).2)

end Verif.Placement
