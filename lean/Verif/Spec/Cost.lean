import Mathlib.Data.Finset.Card
import Mathlib.Data.Finset.Image

/-!
Specification: what a solve costs, counted in points at which the outcome depends on the user's function.  Used by property C143.
-/

namespace Verif.Spec

/-- The outcome `solve fn` looks at the function at no more than `a` points: there are `a` points such that every function that agrees with
`fn` there has the same outcome. -/
def LooksAt {Y V R : Type} (solve : (Y → V) → R) (fn : Y → V) (a : ℕ) : Prop :=
  ∃ P : Finset Y, P.card ≤ a ∧ ∀ fn', (∀ y ∈ P, fn' y = fn y) → solve fn' = solve fn

/-- The outcome `solve fn df` looks at the function at no more than `a` points and at its derivative at no more than `b` points. -/
def LooksAtBoth {Y V D R : Type} (solve : (Y → V) → (Y → D) → R) (fn : Y → V) (df : Y → D) (a b : ℕ) : Prop :=
  ∃ P Q : Finset Y, P.card ≤ a ∧ Q.card ≤ b ∧ ∀ fn' df', (∀ y ∈ P, fn' y = fn y) → (∀ y ∈ Q, df' y = df y) →
    solve fn' df' = solve fn df

open Classical in
/-- How many of the first `n` steps changed the iterate. -/
noncomputable def moves {Y : Type} (iterate : ℕ → Y) (n : ℕ) : ℕ := ((Finset.range n).filter fun k => iterate (k + 1) ≠ iterate k).card

end Verif.Spec
