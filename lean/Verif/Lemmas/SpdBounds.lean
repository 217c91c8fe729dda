import Verif.Lemmas.Rank
import Mathlib.Topology.MetricSpace.Pseudo.Pi
import Mathlib.Analysis.Normed.Group.Basic
import Mathlib.Topology.Algebra.Monoid
import Mathlib.Topology.Instances.Real.Lemmas
import Mathlib.Topology.Order.Compact
import Mathlib.Algebra.Order.Chebyshev

/-! Bounds on the quadratic form and the image of symmetric positive definite matrices: proof devices. -/

namespace Verif.Props

open Verif Verif.Spec Verif.Rank

variable {ι : Type} [Fintype ι]

/-- A symmetric positive definite matrix is bounded away from zero. -/
theorem spd_lower {M : Matrix ι ι ℝ} (h : SPD M) : ∃ a, 0 < a ∧ ∀ x : ι → ℝ, a * ∑ i, x i ^ 2 ≤ treeDot x (M.mulVec x) := by
  have hq : Continuous fun x : ι → ℝ => treeDot x (M.mulVec x) := by
    simp only [treeDot, Matrix.mulVec, dotProduct]
    fun_prop
  have hn : Continuous fun x : ι → ℝ => ∑ i, x i ^ 2 := by fun_prop
  by_cases hne : Nonempty ι
  · have hK : IsCompact {x : ι → ℝ | ∑ i, x i ^ 2 = 1} := by
      refine Metric.isCompact_of_isClosed_isBounded (isClosed_eq hn continuous_const) ?_
      refine (Metric.isBounded_closedBall (x := (0 : ι → ℝ)) (r := 1)).subset fun x hx => ?_
      rw [Metric.mem_closedBall, dist_pi_le_iff zero_le_one]
      intro i
      have h1 : x i ^ 2 ≤ 1 := by
        have hx' : ∑ i, x i ^ 2 = 1 := hx
        rw [← hx']
        exact Finset.single_le_sum (f := fun i => x i ^ 2) (fun i _ => sq_nonneg _) (Finset.mem_univ i)
      rw [Real.dist_eq, Pi.zero_apply, sub_zero]
      exact abs_le_one_iff_mul_self_le_one.2 (by nlinarith)
    have hKn : ({x : ι → ℝ | ∑ i, x i ^ 2 = 1}).Nonempty := by
      classical
      obtain ⟨i0⟩ := hne
      refine ⟨fun i => if i = i0 then 1 else 0, ?_⟩
      simp
    obtain ⟨x0, hx0, hmin⟩ := hK.exists_isMinOn hKn hq.continuousOn
    have hx0' : ∑ i, x0 i ^ 2 = 1 := hx0
    have hx0n : ∃ i, x0 i ≠ 0 := by
      by_contra hc
      simp only [not_exists, not_not] at hc
      simp [hc] at hx0'
    refine ⟨treeDot x0 (M.mulVec x0), ((spd_iff M).1 h).2 x0 hx0n, fun x => ?_⟩
    set Q := ∑ i, x i ^ 2 with hQ
    have hQ0 : 0 ≤ Q := Finset.sum_nonneg fun i _ => sq_nonneg _
    rcases hQ0.eq_or_lt with hz | hpos
    · rw [← hz, mul_zero]; exact spd_nonneg h x
    · set c := 1 / Real.sqrt Q with hc
      have hsq : Real.sqrt Q ^ 2 = Q := Real.sq_sqrt hQ0
      have hs0 : 0 < Real.sqrt Q := Real.sqrt_pos.2 hpos
      have hc2 : c ^ 2 * Q = 1 := by rw [hc, div_pow, hsq]; field_simp
      have hin : (fun i => c * x i) ∈ {x : ι → ℝ | ∑ i, x i ^ 2 = 1} := by
        show ∑ i, (c * x i) ^ 2 = 1
        rw [← hc2, hQ, Finset.mul_sum]
        exact Finset.sum_congr rfl fun i _ => by ring
      have h1 : treeDot x0 (M.mulVec x0) ≤ treeDot (fun i => c * x i) (M.mulVec fun i => c * x i) := hmin hin
      rw [mulVec_smul', dot_smul, dot_comm (fun i => c * x i), dot_smul, dot_comm (M.mulVec x)] at h1
      calc treeDot x0 (M.mulVec x0) * Q ≤ c * (c * treeDot x (M.mulVec x)) * Q := mul_le_mul_of_nonneg_right h1 hQ0
        _ = (c ^ 2 * Q) * treeDot x (M.mulVec x) := by ring
        _ = _ := by rw [hc2, one_mul]
  · rw [not_nonempty_iff] at hne
    exact ⟨1, one_pos, fun x => by simp [treeDot]⟩

/-- Every matrix is bounded. -/
theorem mulVec_upper (M : Matrix ι ι ℝ) : ∃ b, 0 < b ∧ ∀ x : ι → ℝ, ∑ i, M.mulVec x i ^ 2 ≤ b * ∑ i, x i ^ 2 := by
  refine ⟨(∑ i, ∑ j, M i j ^ 2) + 1, by have : 0 ≤ ∑ i, ∑ j, M i j ^ 2 := Finset.sum_nonneg fun i _ => Finset.sum_nonneg fun j _ => sq_nonneg _
                                        linarith, fun x => ?_⟩
  have h0 : 0 ≤ ∑ i, x i ^ 2 := Finset.sum_nonneg fun i _ => sq_nonneg _
  have h1 : ∑ i, M.mulVec x i ^ 2 ≤ ∑ i, (∑ j, M i j ^ 2) * ∑ j, x j ^ 2 :=
    Finset.sum_le_sum fun i _ => Finset.sum_mul_sq_le_sq_mul_sq _ _ _
  rw [← Finset.sum_mul] at h1
  linarith

/-- The (quasi-)Newton direction of a symmetric positive definite matrix (`b`: of its inverse) is related to the gradient. -/
theorem spd_related (b : Bool) {M : Matrix ι ι ℝ} (h : SPD M) : ∃ σ ρ, 0 < σ ∧ 0 < ρ ∧ ∀ g q : ι → ℝ,
    (if b then q = M.mulVec g else M.mulVec q = g) → σ * ∑ i, g i ^ 2 ≤ ∑ i, g i * q i ∧
      ∑ i, q i ^ 2 ≤ ρ * ∑ i, g i ^ 2 := by
  obtain ⟨a, ha, hl⟩ := spd_lower h
  obtain ⟨c, hc, hu⟩ := mulVec_upper M
  cases b
  · refine ⟨a / c, 1 / a ^ 2, by positivity, by positivity, fun g q hq => ?_⟩
    have hq' : M.mulVec q = g := hq
    have h1 := hl q
    have h2 := hu q
    rw [hq'] at h1 h2
    have h1' : a * ∑ i, q i ^ 2 ≤ ∑ i, g i * q i := by rw [dot_comm] at h1; exact h1
    constructor
    · rw [div_mul_eq_mul_div, div_le_iff₀ hc]
      nlinarith
    · have h3 : ∑ i, g i * q i ≤ ∑ i, (a / 2 * q i ^ 2 + 1 / (2 * a) * g i ^ 2) := by
        refine Finset.sum_le_sum fun i _ => ?_
        have : 0 ≤ (a * q i - g i) ^ 2 / (2 * a) := by positivity
        have e : (a * q i - g i) ^ 2 / (2 * a) = a / 2 * q i ^ 2 + 1 / (2 * a) * g i ^ 2 - g i * q i := by
          field_simp; ring
        linarith
      rw [Finset.sum_add_distrib, ← Finset.mul_sum, ← Finset.mul_sum] at h3
      have h4 : a / 2 * ∑ i, q i ^ 2 ≤ 1 / (2 * a) * ∑ i, g i ^ 2 := by linarith
      have h5 := mul_le_mul_of_nonneg_left h4 (by positivity : 0 ≤ 2 / a)
      calc ∑ i, q i ^ 2 = 2 / a * (a / 2 * ∑ i, q i ^ 2) := by field_simp
        _ ≤ _ := h5
        _ = _ := by field_simp
  · refine ⟨a, c, ha, hc, fun g q hq => ?_⟩
    have hq' : q = M.mulVec g := hq
    subst hq'
    exact ⟨hl g, hu g⟩

/-- Finitely many such matrices have common constants. -/
theorem spd_related_upto (b : Bool) (M : Nat → Matrix ι ι ℝ) (h : ∀ k, SPD (M k)) (K : Nat) :
    ∃ σ ρ, 0 < σ ∧ 0 < ρ ∧ ∀ k, k ≤ K → ∀ g q : ι → ℝ,
    (if b then q = (M k).mulVec g else (M k).mulVec q = g) → σ * ∑ i, g i ^ 2 ≤ ∑ i, g i * q i ∧
      ∑ i, q i ^ 2 ≤ ρ * ∑ i, g i ^ 2 := by
  induction K with
  | zero =>
    obtain ⟨σ, ρ, h1, h2, h3⟩ := spd_related b (h 0)
    exact ⟨σ, ρ, h1, h2, fun k hk => by rw [Nat.le_zero.1 hk]; exact h3⟩
  | succ K ih =>
    obtain ⟨σ, ρ, h1, h2, h3⟩ := spd_related b (h (K + 1))
    obtain ⟨σ', ρ', h1', h2', h3'⟩ := ih
    refine ⟨min σ σ', max ρ ρ', lt_min h1 h1', lt_max_of_lt_left h2, fun k hk g q hq => ?_⟩
    have hg : 0 ≤ ∑ i, g i ^ 2 := Finset.sum_nonneg fun i _ => sq_nonneg _
    rcases Nat.lt_or_ge K k with hk' | hk'
    · obtain rfl : k = K + 1 := by omega
      obtain ⟨h4, h5⟩ := h3 g q hq
      exact ⟨(mul_le_mul_of_nonneg_right (min_le_left _ _) hg).trans h4,
        h5.trans (mul_le_mul_of_nonneg_right (le_max_left _ _) hg)⟩
    · obtain ⟨h4, h5⟩ := h3' k hk' g q hq
      exact ⟨(mul_le_mul_of_nonneg_right (min_le_right _ _) hg).trans h4,
        h5.trans (mul_le_mul_of_nonneg_right (le_max_right _ _) hg)⟩

end Verif.Props
