import Verif.Model.XR

/-!
What is assumed of norms when NaN and infinities are in play.
-/

namespace Verif

/-- A norm that cannot hide a special value: if the norm is finite so is every entry, and it is never `-inf`. -/
structure HonestNorm {ι : Type} (norm : (ι → XR) → XR) : Prop where
  finite : ∀ x, (norm x).isFinite = true → ∀ i, (x i).isFinite = true
  notNinf : ∀ x, norm x ≠ .ninf

/-- The real number of a finite value. -/
def XR.toReal : XR → ℝ
  | .fin r => r
  | _ => 0

open Classical in
/-- What `max_norm`, `rms_norm` and `two_norm` (`_misc.py:39-44`) do with special values: NaN if there is one, otherwise
`inf` if there is an infinity, otherwise the norm of the numbers. -/
noncomputable def liftNorm {ι : Type} (norm : (ι → ℝ) → ℝ) (x : ι → XR) : XR :=
  if ∃ i, x i = .nan then .nan
  else if ∃ i, (x i).isFinite = false then .pinf
  else .fin (norm fun i => (x i).toReal)

end Verif
