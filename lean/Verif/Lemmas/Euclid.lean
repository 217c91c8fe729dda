import Mathlib.Analysis.InnerProductSpace.PiL2
import Mathlib.Tactic.Linarith

/-! The Euclidean length of a vector of reals, and the few facts about it that convergence proofs need. -/

namespace Verif

variable {ι κ : Type} [Fintype ι] [Fintype κ]

/-- Euclidean length. -/
noncomputable def euclid (x : ι → ℝ) : ℝ := Real.sqrt (∑ i, x i ^ 2)

theorem euclid_eq (x : ι → ℝ) : euclid x = ‖(WithLp.toLp 2 x : EuclideanSpace ℝ ι)‖ := by
  rw [EuclideanSpace.norm_eq]
  unfold euclid
  congr 1
  exact Finset.sum_congr rfl fun i _ => by rw [Real.norm_eq_abs, sq_abs]

theorem euclid_nonneg (x : ι → ℝ) : 0 ≤ euclid x := Real.sqrt_nonneg _

theorem euclid_sq (x : ι → ℝ) : euclid x ^ 2 = ∑ i, x i ^ 2 := Real.sq_sqrt (Finset.sum_nonneg fun _ _ => sq_nonneg _)

theorem euclid_add (x y : ι → ℝ) : euclid (fun i => x i + y i) ≤ euclid x + euclid y := by
  rw [euclid_eq, euclid_eq, euclid_eq]
  exact norm_add_le (WithLp.toLp 2 x : EuclideanSpace ℝ ι) (WithLp.toLp 2 y)

theorem euclid_sub (x y : ι → ℝ) : euclid (fun i => x i - y i) ≤ euclid x + euclid y := by
  rw [euclid_eq, euclid_eq, euclid_eq]
  exact norm_sub_le (WithLp.toLp 2 x : EuclideanSpace ℝ ι) (WithLp.toLp 2 y)

theorem euclid_dot (x y : ι → ℝ) : ∑ i, x i * y i ≤ euclid x * euclid y := by
  have h := Finset.sum_mul_sq_le_sq_mul_sq Finset.univ x y
  rw [← euclid_sq, ← euclid_sq, ← mul_pow] at h
  exact le_of_abs_le (abs_le_of_sq_le_sq h (mul_nonneg (euclid_nonneg _) (euclid_nonneg _)))

theorem abs_le_euclid (x : ι → ℝ) (i : ι) : |x i| ≤ euclid x := by
  refine Real.abs_le_sqrt ?_
  exact Finset.single_le_sum (f := fun i => x i ^ 2) (fun _ _ => sq_nonneg _) (Finset.mem_univ i)

theorem euclid_le (x : ι → ℝ) (c : ℝ) (hc : 0 ≤ c) (h : ∀ i, |x i| ≤ c) : euclid x ≤ (Fintype.card ι + 1) * c := by
  have hcard : (0 : ℝ) ≤ Fintype.card ι := Nat.cast_nonneg _
  have h1 : ∑ i, x i ^ 2 ≤ ((Fintype.card ι + 1) * c) ^ 2 := by
    calc ∑ i, x i ^ 2 ≤ ∑ _i : ι, c ^ 2 := Finset.sum_le_sum fun i _ => sq_le_sq' (abs_le.1 (h i)).1 (abs_le.1 (h i)).2
      _ = Fintype.card ι * c ^ 2 := by rw [Finset.sum_const, Finset.card_univ, nsmul_eq_mul]
      _ ≤ ((Fintype.card ι + 1) * c) ^ 2 := by nlinarith [sq_nonneg c, mul_nonneg hcard (sq_nonneg c), mul_nonneg (mul_nonneg hcard hcard) (sq_nonneg c)]
  exact Real.sqrt_le_iff.2 ⟨by positivity, h1⟩

/-- A matrix with small entries is small. -/
theorem euclid_mulVec_le (M : Matrix κ ι ℝ) (ε : ℝ) (hε : 0 ≤ ε) (h : ∀ m i, |M m i| ≤ ε) (x : ι → ℝ) :
    euclid (M.mulVec x) ≤ ((Fintype.card κ + 1) * (Fintype.card ι)) * ε * euclid x := by
  have h0 := euclid_nonneg x
  refine (euclid_le _ (Fintype.card ι * (ε * euclid x)) (by positivity) fun m => ?_).trans (le_of_eq (by ring))
  refine (Finset.abs_sum_le_sum_abs _ _).trans ?_
  calc ∑ i, |M m i * x i| ≤ ∑ _i : ι, ε * euclid x := Finset.sum_le_sum fun i _ => by
        rw [abs_mul]; exact mul_le_mul (h m i) (abs_le_euclid x i) (abs_nonneg _) hε
    _ = _ := by rw [Finset.sum_const, Finset.card_univ, nsmul_eq_mul]

/-- Every matrix is bounded. -/
theorem euclid_mulVec_bounded (M : Matrix κ ι ℝ) : ∃ B, 0 ≤ B ∧ ∀ x, euclid (M.mulVec x) ≤ B * euclid x := by
  have hb : ∀ m i, |M m i| ≤ ∑ m', ∑ i', |M m' i'| := fun m i =>
    (Finset.single_le_sum (f := fun i' => |M m i'|) (fun _ _ => abs_nonneg _) (Finset.mem_univ i)).trans
      (Finset.single_le_sum (f := fun m' => ∑ i', |M m' i'|) (fun _ _ => Finset.sum_nonneg fun _ _ => abs_nonneg _)
        (Finset.mem_univ m))
  have h0 : 0 ≤ ∑ m', ∑ i', |M m' i'| := Finset.sum_nonneg fun _ _ => Finset.sum_nonneg fun _ _ => abs_nonneg _
  exact ⟨_, by positivity, euclid_mulVec_le M _ h0 hb⟩

end Verif
