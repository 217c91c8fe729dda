import Verif.Lemmas.LeastSquares
import Verif.Model.LevenbergMarquardt

/-! The damped (Levenberg-Marquardt) problem `|J p + r|² + l |p|²`. -/

namespace Verif.Props

open Verif Verif.Spec Verif.Rank

variable {ι κ : Type} [Fintype ι] [Fintype κ]

/-- The regularised objective `|J p + r|² + l |p|²`. -/
noncomputable def regularised (J : Matrix κ ι ℝ) (r : κ → ℝ) (l : ℝ) (p : ι → ℝ) : ℝ :=
  ∑ k, (J.mulVec p k + r k) ^ 2 + l * ∑ i, p i ^ 2

theorem mulVec_neg' (J : Matrix κ ι ℝ) (p : ι → ℝ) (k : κ) : J.mulVec (fun i => -p i) k = -J.mulVec p k :=
  congrFun (Matrix.mulVec_neg p J) k

theorem damped_residual [DecidableEq ι] (J : Matrix κ ι ℝ) (r : κ → ℝ) (l : ℝ) (hl : 0 ≤ l) (d : ι → ℝ) :
    ∑ s, ((dampedOperator J l).mulVec d s - dampedVector r s) ^ 2 = regularised J r l fun i => -d i := by
  rw [Fintype.sum_sum_type, regularised, Finset.mul_sum]
  congr 1
  · refine Finset.sum_congr rfl fun k _ => ?_
    have : (dampedOperator J l).mulVec d (Sum.inl k) = J.mulVec d k := rfl
    rw [this, mulVec_neg']
    show (_ - r k) ^ 2 = _
    ring
  · refine Finset.sum_congr rfl fun i _ => ?_
    have : (dampedOperator J l).mulVec d (Sum.inr i) = Real.sqrt l * d i := by
      simp [Matrix.mulVec, dotProduct, dampedOperator]
    rw [this]
    show (_ - 0) ^ 2 = _
    rw [sub_zero, mul_pow, Real.sq_sqrt hl]; ring

theorem damped_minimiser [DecidableEq ι] (J : Matrix κ ι ℝ) (r : κ → ℝ) (l : ℝ) (hl : 0 ≤ l) (d : ι → ℝ)
    (h : IsLeastSquares (dampedOperator J l) (dampedVector r) d) (q : ι → ℝ) :
    regularised J r l (fun i => -d i) ≤ regularised J r l q := by
  have := h fun i => -q i
  rw [damped_residual J r l hl, damped_residual J r l hl] at this
  simpa using this

/-- Optimality: `Jᵀ (J p + r) + l p = 0`. -/
theorem regularised_stationary (J : Matrix κ ι ℝ) (r : κ → ℝ) (l : ℝ) (hl : 0 ≤ l) (p : ι → ℝ)
    (h : ∀ q, regularised J r l p ≤ regularised J r l q) (i : ι) :
    ∑ k, J k i * (J.mulVec p k + r k) + l * p i = 0 := by
  classical
  have hls : IsLeastSquares (dampedOperator J l) (dampedVector r) fun i => -p i := by
    intro d'
    rw [damped_residual J r l hl, damped_residual J r l hl]
    simpa using h _
  have := normal_equations _ _ _ hls i
  rw [Fintype.sum_sum_type] at this
  have e1 : ∑ k, dampedOperator J l (Sum.inl k) i *
      ((dampedOperator J l).mulVec (fun i => -p i) (Sum.inl k) - dampedVector (ι := ι) r (Sum.inl k)) =
      -∑ k, J k i * (J.mulVec p k + r k) := by
    rw [← Finset.sum_neg_distrib]
    refine Finset.sum_congr rfl fun k _ => ?_
    have : (dampedOperator J l).mulVec (fun i => -p i) (Sum.inl k) = J.mulVec (fun i => -p i) k := rfl
    rw [this, mulVec_neg']
    show J k i * (_ - r k) = _
    ring
  have e2 : ∑ j, dampedOperator J l (Sum.inr j) i *
      ((dampedOperator J l).mulVec (fun i => -p i) (Sum.inr j) - dampedVector (ι := ι) r (Sum.inr j)) = -(l * p i) := by
    have hm : ∀ j, (dampedOperator J l).mulVec (fun i => -p i) (Sum.inr j) = -(Real.sqrt l * p j) := by
      intro j; simp [Matrix.mulVec, dotProduct, dampedOperator]
    have : ∀ j, dampedOperator J l (Sum.inr j) i *
      ((dampedOperator J l).mulVec (fun i => -p i) (Sum.inr j) - dampedVector (ι := ι) r (Sum.inr j)) =
        if j = i then -(l * p i) else 0 := by
      intro j
      rw [hm]
      show (if j = i then Real.sqrt l else 0) * (_ - 0) = _
      split
      · rename_i h; subst h
        rw [sub_zero]
        linear_combination (-(p j)) * Real.mul_self_sqrt hl
      · simp
    simp [this]
  rw [e1, e2] at this
  linarith

/-- The regularised objective is strictly convex, expanded about a stationary point. -/
theorem regularised_expand (J : Matrix κ ι ℝ) (r : κ → ℝ) (l : ℝ) (p q : ι → ℝ)
    (h : ∀ i, ∑ k, J k i * (J.mulVec p k + r k) + l * p i = 0) :
    regularised J r l q = regularised J r l p + ∑ k, (J.mulVec q k - J.mulVec p k) ^ 2 + l * ∑ i, (q i - p i) ^ 2 := by
  have hdot : ∑ i, (q i - p i) * (∑ k, J k i * (J.mulVec p k + r k) + l * p i) = 0 :=
    Finset.sum_eq_zero fun i _ => by rw [h, mul_zero]
  have hcross : ∑ i, (q i - p i) * ∑ k, J k i * (J.mulVec p k + r k) =
      ∑ k, (J.mulVec q k - J.mulVec p k) * (J.mulVec p k + r k) := by
    simp only [Finset.mul_sum]
    rw [Finset.sum_comm]
    refine Finset.sum_congr rfl fun k _ => ?_
    have : J.mulVec q k - J.mulVec p k = ∑ i, J k i * (q i - p i) := by
      simp only [Matrix.mulVec, dotProduct, ← Finset.sum_sub_distrib]
      exact Finset.sum_congr rfl fun i _ => by ring
    rw [this, Finset.sum_mul]
    exact Finset.sum_congr rfl fun i _ => by ring
  simp only [mul_add, Finset.sum_add_distrib] at hdot hcross
  have e1 : ∑ k, (J.mulVec q k + r k) ^ 2 = ∑ k, (J.mulVec p k + r k) ^ 2 +
      2 * ∑ k, (J.mulVec q k - J.mulVec p k) * (J.mulVec p k + r k) + ∑ k, (J.mulVec q k - J.mulVec p k) ^ 2 := by
    rw [Finset.mul_sum, ← Finset.sum_add_distrib, ← Finset.sum_add_distrib]
    exact Finset.sum_congr rfl fun k _ => by ring
  have e2 : ∑ i, q i ^ 2 = ∑ i, p i ^ 2 + 2 * ∑ i, (q i - p i) * p i + ∑ i, (q i - p i) ^ 2 := by
    rw [Finset.mul_sum, ← Finset.sum_add_distrib, ← Finset.sum_add_distrib]
    exact Finset.sum_congr rfl fun k _ => by ring
  have e3 : ∑ i, (q i - p i) * (l * p i) = l * ∑ i, (q i - p i) * p i := by
    rw [Finset.mul_sum]; exact Finset.sum_congr rfl fun i _ => by ring
  have e4 : ∑ k, (J.mulVec q k - J.mulVec p k) * (J.mulVec p k + r k) =
    ∑ k, (J.mulVec q k - J.mulVec p k) * J.mulVec p k + ∑ k, (J.mulVec q k - J.mulVec p k) * r k := by
    rw [← Finset.sum_add_distrib]; exact Finset.sum_congr rfl fun k _ => by ring
  unfold regularised
  rw [e1, e2]
  rw [hcross, e3] at hdot
  linear_combination 2 * hdot + 2 * e4

theorem sum_sq_pos_of_ne {α : Type} [Fintype α] (p q : α → ℝ) (h : q ≠ p) : 0 < ∑ i, (q i - p i) ^ 2 := by
  obtain ⟨i, hi⟩ : ∃ i, q i ≠ p i := by
    by_contra hc; push Not at hc; exact h (funext hc)
  refine Finset.sum_pos' (fun _ _ => sq_nonneg _) ⟨i, Finset.mem_univ i, ?_⟩
  have : q i - p i ≠ 0 := sub_ne_zero.2 hi
  positivity

/-- Uniqueness of the minimiser. -/
theorem regularised_unique (J : Matrix κ ι ℝ) (r : κ → ℝ) (l : ℝ) (hl : 0 < l) (p q : ι → ℝ)
    (h : ∀ q, regularised J r l p ≤ regularised J r l q) (hne : q ≠ p) :
    regularised J r l p < regularised J r l q := by
  rw [regularised_expand J r l p q (regularised_stationary J r l hl.le p h)]
  have h1 : 0 ≤ ∑ k, (J.mulVec q k - J.mulVec p k) ^ 2 := Finset.sum_nonneg fun _ _ => sq_nonneg _
  have h2 := mul_pos hl (sum_sq_pos_of_ne p q hne)
  linarith

/-- More damping, shorter minimiser. -/
theorem regularised_shrinks (J : Matrix κ ι ℝ) (r : κ → ℝ) (l m : ℝ) (hlm : l < m) (p q : ι → ℝ)
    (hp : ∀ x, regularised J r l p ≤ regularised J r l x) (hq : ∀ x, regularised J r m q ≤ regularised J r m x) :
    ∑ i, q i ^ 2 ≤ ∑ i, p i ^ 2 := by
  have h1 := hp q
  have h2 := hq p
  unfold regularised at h1 h2
  nlinarith

/-- The strict version: the minimisers differ in length unless they vanish. -/
theorem regularised_strict (J : Matrix κ ι ℝ) (r : κ → ℝ) (l m : ℝ) (hl : 0 ≤ l) (hlm : l < m) (p q : ι → ℝ)
    (hp : ∀ x, regularised J r l p ≤ regularised J r l x) (hq : ∀ x, regularised J r m q ≤ regularised J r m x)
    (hne : ∃ i, q i ≠ 0) : ∑ i, q i ^ 2 < ∑ i, p i ^ 2 := by
  rcases lt_or_eq_of_le (regularised_shrinks J r l m hlm p q hp hq) with h | h
  · exact h
  exfalso
  -- then q also minimises at l, so it is stationary for both
  have hmin : ∀ x, regularised J r l q ≤ regularised J r l x := by
    intro x
    have h1 := hq p
    have h2 := hp x
    unfold regularised at h1 h2 ⊢
    rw [h] at h1 ⊢
    linarith
  obtain ⟨i, hi⟩ := hne
  have s1 := regularised_stationary J r l hl q hmin i
  have s2 := regularised_stationary J r m (by linarith) q hq i
  have : (m - l) * q i = 0 := by linarith
  rcases mul_eq_zero.1 this with h | h
  · linarith
  · exact hi h

end Verif.Props
