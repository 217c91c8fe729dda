import Verif.Model.Misc
import Mathlib.Tactic.Linarith
import Mathlib.Tactic.Positivity
import Mathlib.Tactic.FieldSimp

namespace Verif

variable {ι : Type} [Fintype ι]

/-- What the solvers need of a norm on real trees: it is absolutely homogeneous and monotone in the absolute values of
the entries.  `max_norm`, `two_norm` and `rms_norm` all qualify. -/
structure GoodNorm (norm : (ι → ℝ) → ℝ) : Prop where
  nonneg : ∀ x, 0 ≤ norm x
  mono : ∀ x y, (∀ i, |x i| ≤ |y i|) → norm x ≤ norm y
  smul : ∀ (c : ℝ) x, norm (fun i => c * x i) = |c| * norm x

theorem maxNorm_le_iff (x : ι → ℝ) (c : ℝ) : maxNorm x ≤ c ↔ 0 ≤ c ∧ ∀ i, |x i| ≤ c := by
  unfold maxNorm
  rw [Finset.sup'_le_iff]
  constructor
  · intro h
    exact ⟨h none (Finset.mem_univ _), fun i => h (some i) (Finset.mem_univ _)⟩
  · rintro ⟨h0, h⟩ o _
    cases o with
    | none => exact h0
    | some i => exact h i

theorem maxNorm_lt_iff (x : ι → ℝ) (c : ℝ) : maxNorm x < c ↔ 0 < c ∧ ∀ i, |x i| < c := by
  unfold maxNorm
  rw [Finset.sup'_lt_iff]
  constructor
  · intro h
    exact ⟨h none (Finset.mem_univ _), fun i => h (some i) (Finset.mem_univ _)⟩
  · rintro ⟨h0, h⟩ o _
    cases o with
    | none => exact h0
    | some i => exact h i

theorem maxNorm_nonneg (x : ι → ℝ) : 0 ≤ maxNorm x := ((maxNorm_le_iff x _).1 le_rfl).1

theorem abs_le_maxNorm (x : ι → ℝ) (i : ι) : |x i| ≤ maxNorm x := ((maxNorm_le_iff x _).1 le_rfl).2 i

theorem sumSquares_nonneg (x : ι → ℝ) : 0 ≤ sumSquares x :=
  Finset.sum_nonneg fun _ _ => mul_self_nonneg _

theorem sumSquares_eq_zero (x : ι → ℝ) : sumSquares x = 0 ↔ ∀ i, x i = 0 := by
  unfold sumSquares
  rw [Finset.sum_eq_zero_iff_of_nonneg (fun i _ => mul_self_nonneg _)]
  simp

theorem sumSquares_mono (x y : ι → ℝ) (h : ∀ i, |x i| ≤ |y i|) : sumSquares x ≤ sumSquares y := by
  unfold sumSquares
  refine Finset.sum_le_sum fun i _ => ?_
  have := mul_self_le_mul_self (abs_nonneg (x i)) (h i)
  rwa [abs_mul_abs_self, abs_mul_abs_self] at this

theorem sumSquares_smul (c : ℝ) (x : ι → ℝ) : sumSquares (fun i => c * x i) = c ^ 2 * sumSquares x := by
  unfold sumSquares
  rw [Finset.mul_sum]
  exact Finset.sum_congr rfl fun i _ => by ring

theorem goodNorm_maxNorm : GoodNorm (maxNorm (ι := ι)) where
  nonneg := maxNorm_nonneg
  mono x y h := (maxNorm_le_iff _ _).2 ⟨maxNorm_nonneg _, fun i => (h i).trans (abs_le_maxNorm y i)⟩
  smul c x := by
    have key : ∀ (c : ℝ) (x : ι → ℝ), maxNorm (fun i => c * x i) ≤ |c| * maxNorm x := fun c x =>
      (maxNorm_le_iff _ _).2 ⟨mul_nonneg (abs_nonneg _) (maxNorm_nonneg _), fun i => by
        rw [abs_mul]; exact mul_le_mul_of_nonneg_left (abs_le_maxNorm x i) (abs_nonneg _)⟩
    refine le_antisymm (key c x) ?_
    by_cases hc : c = 0
    · subst hc; simp only [abs_zero, zero_mul]; exact maxNorm_nonneg _
    · have h := key c⁻¹ (fun i => c * x i)
      have hx : (fun i => c⁻¹ * (c * x i)) = x := by
        funext i; field_simp
      rw [hx, abs_inv] at h
      have hc' : 0 < |c| := abs_pos.2 hc
      rw [← div_eq_inv_mul, le_div_iff₀ hc'] at h
      linarith

theorem goodNorm_twoNorm : GoodNorm (twoNorm (ι := ι)) where
  nonneg x := Real.sqrt_nonneg _
  mono x y h := Real.sqrt_le_sqrt (sumSquares_mono x y h)
  smul c x := by
    unfold twoNorm
    rw [sumSquares_smul, Real.sqrt_mul (sq_nonneg _), Real.sqrt_sq_eq_abs]

theorem goodNorm_rmsNorm : GoodNorm (rmsNorm (ι := ι)) where
  nonneg x := Real.sqrt_nonneg _
  mono x y h := Real.sqrt_le_sqrt (div_le_div_of_nonneg_right (sumSquares_mono x y h) (Nat.cast_nonneg _))
  smul c x := by
    unfold rmsNorm
    rw [sumSquares_smul, mul_div_assoc, Real.sqrt_mul (sq_nonneg _), Real.sqrt_sq_eq_abs]

omit [Fintype ι] in
theorem GoodNorm.zero {norm : (ι → ℝ) → ℝ} (h : GoodNorm norm) : norm (fun _ => 0) = 0 := by
  have := h.smul 0 (fun _ => 0)
  simpa using this

theorem maxNorm_add (x y : ι → ℝ) : maxNorm (fun i => x i + y i) ≤ maxNorm x + maxNorm y :=
  (maxNorm_le_iff _ _).2 ⟨add_nonneg (maxNorm_nonneg x) (maxNorm_nonneg y), fun i =>
    (abs_add_le _ _).trans (add_le_add (abs_le_maxNorm x i) (abs_le_maxNorm y i))⟩

theorem twoNorm_sq (x : ι → ℝ) : twoNorm x ^ 2 = sumSquares x := by
  unfold twoNorm
  rw [Real.sq_sqrt (sumSquares_nonneg x)]

end Verif
