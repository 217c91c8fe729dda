import Verif.Lemmas.Rank
import Mathlib.Analysis.InnerProductSpace.Projection.Minimal
import Mathlib.Analysis.InnerProductSpace.PiL2

/-! Linear least squares: existence, uniqueness of the image, normal equations, and the damped problem. -/

namespace Verif.Props

open Verif Verif.Spec Verif.Rank

variable {ι κ : Type} [Fintype ι] [Fintype κ]

theorem least_squares_step (M : Matrix κ ι ℝ) (b : κ → ℝ) (y d : ι → ℝ)
    (h : IsLeastSquares M (fun j => M.mulVec y j + b j) d) (z : ι → ℝ) :
    ∑ j, (M.mulVec (fun i => y i - d i) j + b j) ^ 2 ≤ ∑ j, (M.mulVec z j + b j) ^ 2 := by
  have hsub : ∀ u v : ι → ℝ, ∀ j, M.mulVec (fun i => u i - v i) j = M.mulVec u j - M.mulVec v j := by
    intro u v j
    exact congrFun (Matrix.mulVec_sub M u v) j
  have := h fun i => y i - z i
  have e1 : ∀ j, (M.mulVec d j - (M.mulVec y j + b j)) ^ 2 = (M.mulVec (fun i => y i - d i) j + b j) ^ 2 := by
    intro j; rw [hsub]; ring
  have e2 : ∀ j, (M.mulVec (fun i => y i - z i) j - (M.mulVec y j + b j)) ^ 2 = (M.mulVec z j + b j) ^ 2 := by
    intro j; rw [hsub]; ring
  simp only [e1, e2] at this
  exact this

/-- Two least-squares solutions have the same residual. -/
theorem least_squares_image (M : Matrix κ ι ℝ) (r : κ → ℝ) (d e : ι → ℝ) (hd : IsLeastSquares M r d)
    (he : IsLeastSquares M r e) : M.mulVec d = M.mulVec e := by
  have h1 := hd e
  have h2 := he d
  have h3 := hd fun i => (d i + e i) / 2
  have hmid : ∀ j, M.mulVec (fun i => (d i + e i) / 2) j = (M.mulVec d j + M.mulVec e j) / 2 := by
    intro j
    simp only [Matrix.mulVec, dotProduct]
    rw [← Finset.sum_add_distrib, Finset.sum_div]
    exact Finset.sum_congr rfl fun i _ => by ring
  have hpar : ∑ j, (M.mulVec (fun i => (d i + e i) / 2) j - r j) ^ 2 =
      (∑ j, (M.mulVec d j - r j) ^ 2) / 2 + (∑ j, (M.mulVec e j - r j) ^ 2) / 2 -
        (∑ j, (M.mulVec d j - M.mulVec e j) ^ 2) / 4 := by
    rw [Finset.sum_div, Finset.sum_div, Finset.sum_div, ← Finset.sum_add_distrib, ← Finset.sum_sub_distrib]
    refine Finset.sum_congr rfl fun j _ => ?_
    rw [hmid]; ring
  have h0 : ∑ j, (M.mulVec d j - M.mulVec e j) ^ 2 ≤ 0 := by linarith
  have h0' : ∑ j, (M.mulVec d j - M.mulVec e j) ^ 2 = 0 :=
    le_antisymm h0 (Finset.sum_nonneg fun j _ => sq_nonneg _)
  rw [Finset.sum_eq_zero_iff_of_nonneg fun j _ => sq_nonneg _] at h0'
  funext j
  have := h0' j (Finset.mem_univ j)
  have := pow_eq_zero_iff (two_ne_zero) |>.1 this
  linarith


/-- Least-squares solutions exist for all matrices and right-hand sides. -/
theorem least_squares_exists (M : Matrix κ ι ℝ) (r : κ → ℝ) : ∃ d, IsLeastSquares M r d := by
  classical
  let T : (ι → ℝ) →ₗ[ℝ] EuclideanSpace ℝ κ := (WithLp.linearEquiv 2 ℝ (κ → ℝ)).symm.toLinearMap ∘ₗ M.mulVecLin
  have hc : IsComplete (LinearMap.range T : Set (EuclideanSpace ℝ κ)) := (Submodule.complete_of_finiteDimensional _)
  obtain ⟨v, ⟨d, rfl⟩, hv⟩ := Submodule.exists_norm_eq_iInf_of_complete_subspace (LinearMap.range T) hc
    (WithLp.toLp 2 r)
  refine ⟨d, fun d' => ?_⟩
  have hle : ‖WithLp.toLp 2 r - T d‖ ≤ ‖WithLp.toLp 2 r - T d'‖ := by
    rw [hv]
    exact ciInf_le (f := fun w : LinearMap.range T => ‖WithLp.toLp 2 r - (w : EuclideanSpace ℝ κ)‖)
      ⟨0, by rintro _ ⟨w, rfl⟩; exact norm_nonneg _⟩ ⟨T d', d', rfl⟩
  have hs := pow_le_pow_left₀ (norm_nonneg _) hle 2
  have e : ∀ x, ‖WithLp.toLp 2 r - T x‖ ^ 2 = ∑ j, (M.mulVec x j - r j) ^ 2 := by
    intro x
    rw [EuclideanSpace.norm_sq_eq]
    refine Finset.sum_congr rfl fun j _ => ?_
    have : (WithLp.toLp 2 r - T x).ofLp j = r j - M.mulVec x j := rfl
    rw [this, Real.norm_eq_abs, sq_abs]; ring
  rw [e, e] at hs
  exact hs

/-- Normal equations. -/
theorem normal_equations (M : Matrix κ ι ℝ) (r : κ → ℝ) (d : ι → ℝ) (h : IsLeastSquares M r d) (i : ι) :
    ∑ j, M j i * (M.mulVec d j - r j) = 0 := by
  classical
  set s := ∑ j, M j i * (M.mulVec d j - r j) with hs
  set q := ∑ j, M j i ^ 2 with hq
  have hq0 : 0 ≤ q := Finset.sum_nonneg fun _ _ => sq_nonneg _
  have key : ∀ t : ℝ, 0 ≤ 2 * t * s + t ^ 2 * q := by
    intro t
    have := h fun k => d k + t * (if k = i then 1 else 0)
    have hm : ∀ j, M.mulVec (fun k => d k + t * (if k = i then 1 else 0)) j = M.mulVec d j + t * M j i := by
      intro j
      simp only [Matrix.mulVec, dotProduct, mul_add, Finset.sum_add_distrib]
      congr 1
      simp [mul_comm]
    simp only [hm] at this
    have e : ∑ j, (M.mulVec d j + t * M j i - r j) ^ 2 =
        ∑ j, (M.mulVec d j - r j) ^ 2 + (2 * t * s + t ^ 2 * q) := by
      rw [hs, hq, Finset.mul_sum, Finset.mul_sum, ← Finset.sum_add_distrib, ← Finset.sum_add_distrib]
      exact Finset.sum_congr rfl fun j _ => by ring
    rw [e] at this
    linarith
  by_contra hne
  have h1 := key (-s / (q + 1))
  have hp : 0 < q + 1 := by linarith
  have : 2 * (-s / (q + 1)) * s + (-s / (q + 1)) ^ 2 * q = -(s ^ 2) * (q + 2) / (q + 1) ^ 2 := by
    field_simp; ring
  rw [this] at h1
  have hs2 : 0 < s ^ 2 := by positivity
  have : -(s ^ 2) * (q + 2) / (q + 1) ^ 2 < 0 := by
    apply div_neg_of_neg_of_pos _ (by positivity)
    nlinarith
  linarith

end Verif.Props
