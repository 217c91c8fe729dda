import Verif.Spec.Trace
import Verif.Model.Misc

/-!
Independent problems solved together: two functions packed into one, as a user does who puts several problems into one PyTree.
-/

namespace Verif.Spec

variable {ι ι' κ κ' A A' : Type}

/-- Two vectors side by side. -/
def both {X : Type} (a : ι → X) (b : ι' → X) : ι ⊕ ι' → X := Sum.elim a b

/-- Two functions side by side: each sees its own unknowns only. -/
def together (f : (ι → ℝ) → (κ → ℝ) × A) (g : (ι' → ℝ) → (κ' → ℝ) × A') (y : ι ⊕ ι' → ℝ) : (κ ⊕ κ' → ℝ) × (A × A') :=
  (both (f fun i => y (.inl i)).1 (g fun i => y (.inr i)).1, (f fun i => y (.inl i)).2, (g fun i => y (.inr i)).2)

/-- The sum of two objectives, each of its own unknowns. -/
noncomputable def summed (f : (ι → ℝ) → ℝ × A) (g : (ι' → ℝ) → ℝ × A') (y : ι ⊕ ι' → ℝ) : ℝ × (A × A') :=
  ((f fun i => y (.inl i)).1 + (g fun i => y (.inr i)).1, (f fun i => y (.inl i)).2, (g fun i => y (.inr i)).2)

/-- The solver `S` on a problem made of two runs exactly as `S₁` and `S₂` run on the parts: after every number of steps its iterate is the two
iterates side by side, and its stopping test holds if and only if both tests hold. -/
structure SideBySide {Out Out₁ Out₂ St St₁ St₂ Stats Stats₁ Stats₂ : Type} {Aux Aux₁ Aux₂ : Type}
    (S : Solver (ι ⊕ ι' → ℝ) Out Aux St Stats) (fn : (ι ⊕ ι' → ℝ) → Out × Aux) (aux0 : Aux) (st0 : St)
    (S₁ : Solver (ι → ℝ) Out₁ Aux₁ St₁ Stats₁) (fn₁ : (ι → ℝ) → Out₁ × Aux₁) (aux₁ : Aux₁) (y₁ : ι → ℝ) (st₁ : St₁)
    (S₂ : Solver (ι' → ℝ) Out₂ Aux₂ St₂ Stats₂) (fn₂ : (ι' → ℝ) → Out₂ × Aux₂) (aux₂ : Aux₂) (y₂ : ι' → ℝ) (st₂ : St₂) : Prop where
  iterate : ∀ k, iterateAt S fn aux0 (both y₁ y₂) st0 k = both (iterateAt S₁ fn₁ aux₁ y₁ st₁ k) (iterateAt S₂ fn₂ aux₂ y₂ st₂ k)
  verdict : ∀ k, (verdictAt S fn aux0 (both y₁ y₂) st0 k).1 =
    ((verdictAt S₁ fn₁ aux₁ y₁ st₁ k).1 && (verdictAt S₂ fn₂ aux₂ y₂ st₂ k).1)
  fine : ∀ k, (verdictAt S fn aux0 (both y₁ y₂) st0 k).2 = .successful
  fine₁ : ∀ k, (verdictAt S₁ fn₁ aux₁ y₁ st₁ k).2 = .successful
  fine₂ : ∀ k, (verdictAt S₂ fn₂ aux₂ y₂ st₂ k).2 = .successful

end Verif.Spec
