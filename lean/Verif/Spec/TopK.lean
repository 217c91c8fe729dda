import Verif.Model.NelderMeadNan

/-!
What is assumed of `lax.top_k` when NaN may occur.
-/

namespace Verif.Spec

open NelderMeadNan

variable {n : Nat}

/-- Arrays without NaN are ranked in the usual way; of equal entries the first one counts (as documented). -/
structure SortsNumbers (t : TopK n) : Prop where
  smallest : ∀ f, (∀ i, f i ≠ .nan) → ∀ i, ¬ f i < f (t.smallest f) ∧ (i < t.smallest f → f (t.smallest f) < f i)
  largest : ∀ f, (∀ i, f i ≠ .nan) → ∀ i, ¬ f (t.largest f) < f i ∧ (i < t.largest f → f i < f (t.largest f))
  second : ∀ f, (∀ i, f i ≠ .nan) → ∀ i, i ≠ t.largest f →
    t.second f ≠ t.largest f ∧ ¬ f (t.second f) < f i

/-- NaN comes first when the smallest entry is asked for. -/
def NanComesFirst (t : TopK n) : Prop := ∀ f : Fin n → XR, (∃ i, f i = .nan) → f (t.smallest f) = .nan

/-- NaN comes last: only an array of NaNs has NaN as its smallest entry. -/
def NanComesLast (t : TopK n) : Prop := ∀ f : Fin n → XR, (∃ i, f i ≠ .nan) → f (t.smallest f) ≠ .nan

end Verif.Spec
