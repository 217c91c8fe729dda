import Verif.Spec.Finite
import Verif.Model.Misc

/-!
Finite results of `XR` arithmetic need finite inputs.
-/

namespace Verif

theorem liftNorm_honest {ι : Type} (norm : (ι → ℝ) → ℝ) : HonestNorm (liftNorm norm) := by
  constructor
  · intro x h i
    unfold liftNorm at h
    split_ifs at h with h1 h2
    · cases h
    · cases h
    · by_contra h3
      exact h2 ⟨i, by simpa using h3⟩
  · intro x h
    unfold liftNorm at h
    split_ifs at h

theorem HonestNorm.small {ι : Type} {norm : (ι → XR) → XR} (hn : HonestNorm norm) (x : ι → XR) (b : ℝ)
    (h : norm x < .fin b) (i : ι) : (x i).isFinite = true := by
  refine hn.finite x ?_ i
  cases hx : norm x with
  | fin r => rfl
  | pinf => rw [hx] at h; exact absurd h (XR.not_pinf_lt _)
  | ninf => exact absurd hx (hn.notNinf x)
  | nan => rw [hx] at h; exact absurd h (XR.not_nan_lt _)

/-! ### Arithmetic: a finite result needs finite inputs -/

theorem XR.finite_add {a b : XR} (h : (a + b).isFinite = true) : a.isFinite = true ∧ b.isFinite = true := by
  cases a <;> cases b <;> first | exact ⟨rfl, rfl⟩ | (exact absurd h Bool.false_ne_true)

theorem XR.finite_add' {a b : XR} (ha : a.isFinite = true) (hb : b.isFinite = true) : (a + b).isFinite = true := by
  cases a <;> cases b <;> first | rfl | exact absurd ha Bool.false_ne_true | exact absurd hb Bool.false_ne_true

theorem XR.finite_neg {a : XR} : (-a).isFinite = a.isFinite := by cases a <;> rfl

theorem XR.finite_sub {a b : XR} (h : (a - b).isFinite = true) : a.isFinite = true ∧ b.isFinite = true := by
  have := XR.finite_add (a := a) (b := -b) h
  exact ⟨this.1, XR.finite_neg ▸ this.2⟩

theorem XR.finite_sub' {a b : XR} (ha : a.isFinite = true) (hb : b.isFinite = true) : (a - b).isFinite = true :=
  XR.finite_add' ha (XR.finite_neg.trans hb)

theorem XR.finite_mul' {a b : XR} (ha : a.isFinite = true) (hb : b.isFinite = true) : (a * b).isFinite = true := by
  cases a <;> cases b <;> first | rfl | exact absurd ha Bool.false_ne_true | exact absurd hb Bool.false_ne_true

theorem XR.finite_abs {a : XR} : (HasAbs.abs a : XR).isFinite = a.isFinite := by cases a <;> rfl

theorem XR.infTimes_not_finite (r : ℝ) : (XR.infTimes r).isFinite = false := by
  unfold XR.infTimes; split_ifs <;> rfl

/-- A finite quotient has a finite numerator. -/
theorem XR.finite_div {a b : XR} (h : (a / b).isFinite = true) : a.isFinite = true := by
  cases a with
  | fin r => rfl
  | nan => rw [XR.nan_div] at h; cases h
  | pinf =>
    cases b with
    | fin c =>
      have h' : (if c < 0 then XR.ninf else XR.pinf).isFinite = true := h
      split_ifs at h' <;> cases h'
    | _ => cases h
  | ninf =>
    cases b with
    | fin c =>
      have h' : (if c < 0 then XR.pinf else XR.ninf).isFinite = true := h
      split_ifs at h' <;> cases h'
    | _ => cases h

/-- The two halves of a passed Cauchy test. -/
theorem cauchy_split {ι κ : Type} {rtol atol : XR} {normY : (ι → XR) → XR} {normF : (κ → XR) → XR}
    {y yDiff : ι → XR} {f fDiff : κ → XR} (h : cauchyTermination rtol atol normY normF y yDiff f fDiff = true) :
    normY (scaledDiff rtol atol y yDiff) < 1 ∧ normF (scaledDiff rtol atol f fDiff) < 1 := by
  unfold cauchyTermination at h
  rw [Bool.and_eq_true, decide_eq_true_eq, decide_eq_true_eq] at h
  exact h

/-- A passed Cauchy test means that all differences are finite. -/
theorem cauchy_finite {ι κ : Type} {rtol atol : XR} {normY : (ι → XR) → XR} {normF : (κ → XR) → XR}
    (hY : HonestNorm normY) (hF : HonestNorm normF)
    {y yDiff : ι → XR} {f fDiff : κ → XR} (h : cauchyTermination rtol atol normY normF y yDiff f fDiff = true) :
    (∀ i, (yDiff i).isFinite = true) ∧ ∀ j, (fDiff j).isFinite = true := by
  obtain ⟨h1, h2⟩ := cauchy_split h
  exact ⟨fun i => XR.finite_abs ▸ XR.finite_div (hY.small _ 1 h1 i),
    fun j => XR.finite_abs ▸ XR.finite_div (hF.small _ 1 h2 j)⟩

end Verif
