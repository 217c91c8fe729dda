import Verif.Props.Dogleg
import Verif.Props.TrustConvergence

/-!
Property C66: `Dogleg` makes progress at every point that is not stationary, and converges from every starting point.
-/

namespace Verif.Props

open Verif Verif.Spec Verif.Driver Verif.SearchLoop Filter Topology

variable {ι κ A : Type} [Fintype ι] [Fintype κ]

/-- The descent of `Dogleg` depends on the current residuals and Jacobian only. -/
theorem dogleg_memoryless (eps : ℝ) (ls : LinSolve ι κ) :
    Memoryless (Dogleg.descent eps ls .twoNorm)
      fun t r J => Dogleg.step eps .twoNorm t (Dogleg.query eps ls .twoNorm (.residualJac r J)) :=
  fun _ _ _ _ _ => rfl

/-- The linearised change is slope plus curvature. -/
theorem linearisedChange_eq (J : Matrix κ ι ℝ) (r : κ → ℝ) (p : ι → ℝ) :
    linearisedChange J r p = ∑ i, (∑ m, J m i * r m) * p i + (∑ m, (∑ i, J m i * p i) ^ 2) / 2 := by
  have h : ∑ k, r k * (∑ i, J k i * p i) = ∑ i, (∑ m, J m i * r m) * p i := by
    simp only [Finset.mul_sum, Finset.sum_mul]
    rw [Finset.sum_comm]
    exact Finset.sum_congr rfl fun i _ => Finset.sum_congr rfl fun k _ => by ring
  show (∑ k, ((∑ i, J k i * p i) + r k) ^ 2) / 2 - (∑ k, r k ^ 2) / 2 = _
  have e : ∑ k, ((∑ i, J k i * p i) + r k) ^ 2 =
      (∑ k, (∑ i, J k i * p i) ^ 2) + 2 * ∑ k, r k * (∑ i, J k i * p i) + ∑ k, r k ^ 2 := by
    rw [Finset.mul_sum, ← Finset.sum_add_distrib, ← Finset.sum_add_distrib]
    exact Finset.sum_congr rfl fun k _ => by ring
  rw [e, h]; ring

/-- The linearised change along a direction. -/
theorem linearisedChange_smul (J : Matrix κ ι ℝ) (r : κ → ℝ) (p : ι → ℝ) (w : ℝ) :
    linearisedChange J r (fun i => w * p i) =
      w * ∑ i, (∑ m, J m i * r m) * p i + w ^ 2 * (∑ m, (∑ i, J m i * p i) ^ 2) / 2 := by
  rw [linearisedChange_eq]
  congr 1
  · rw [Finset.mul_sum]
    exact Finset.sum_congr rfl fun i _ => by ring
  · congr 1
    rw [Finset.mul_sum]
    refine Finset.sum_congr rfl fun m _ => ?_
    rw [← mul_pow, Finset.mul_sum]
    congr 1
    exact Finset.sum_congr rfl fun i _ => by ring

/-- The Newton step: slope, and bounds from the size of the Jacobian. -/
theorem newton_facts (ls : LinSolve ι κ) (hls : SolvesLeastSquares ls) (J : Matrix κ ι ℝ) (r : κ → ℝ) :
    let n := fun i => -(ls.rect J r).1 i
    let g := fun i => ∑ m, J m i * r m
    let Q := ∑ m, (∑ i, J m i * n i) ^ 2
    ∑ i, g i * n i = -Q ∧ (∀ q, linearisedChange J r n ≤ linearisedChange J r q) ∧
    (∀ B, 0 ≤ B → (∀ p : ι → ℝ, ∑ m, (∑ i, J m i * p i) ^ 2 ≤ B * ∑ i, p i ^ 2) →
      ∑ i, g i ^ 2 ≤ B * Q ∧ Q ≤ B * ∑ i, n i ^ 2) ∧
    ∀ σ, 0 < σ → (∀ p : ι → ℝ, σ * ∑ i, p i ^ 2 ≤ ∑ m, (∑ i, J m i * p i) ^ 2) →
      σ * ∑ i, n i ^ 2 ≤ Q ∧ σ ^ 2 * ∑ i, n i ^ 2 ≤ ∑ i, g i ^ 2 := by
  intro n g Q
  have hne : ∀ i, ∑ k, J k i * (∑ j, J k j * n j) = -g i := by
    intro i
    have := normal_equations J r _ (hls J r) i
    have e : ∑ k, J k i * (J.mulVec (ls.rect J r).1 k - r k) = -∑ k, J k i * (∑ j, J k j * n j) - g i := by
      rw [← Finset.sum_neg_distrib, ← Finset.sum_sub_distrib]
      refine Finset.sum_congr rfl fun k _ => ?_
      have : ∑ j, J k j * n j = -J.mulVec (ls.rect J r).1 k := by
        simp only [n, Matrix.mulVec, dotProduct, mul_neg, Finset.sum_neg_distrib]
      rw [this]; ring
    linarith
  have hgn : ∑ i, g i * n i = -Q := by
    have e1 : ∑ i, (∑ k, J k i * (∑ j, J k j * n j)) * n i = Q := by
      simp only [Finset.sum_mul]
      rw [Finset.sum_comm]
      refine Finset.sum_congr rfl fun k _ => ?_
      rw [sq, Finset.mul_sum]
      exact Finset.sum_congr rfl fun i _ => by ring
    rw [← e1, ← Finset.sum_neg_distrib]
    exact Finset.sum_congr rfl fun i _ => by rw [hne]; ring
  refine ⟨hgn, ?_, ?_, ?_⟩
  · intro q
    have h := hls J r fun i => -q i
    unfold linearisedChange
    have e : ∀ x : ι → ℝ, ∑ k, (J.mulVec (fun i => -x i) k - r k) ^ 2 = ∑ k, (J.mulVec x k + r k) ^ 2 :=
      fun x => Finset.sum_congr rfl fun k _ => by rw [mulVec_neg']; ring
    have e2 : ∑ k, (J.mulVec (ls.rect J r).1 k - r k) ^ 2 = ∑ k, (J.mulVec n k + r k) ^ 2 := by
      rw [← e n]
      refine Finset.sum_congr rfl fun k _ => ?_
      simp only [n, neg_neg]
    rw [e, e2] at h
    linarith
  · intro B hB hJ
    refine ⟨?_, hJ n⟩
    have := transpose_bound J B hB hJ fun k => ∑ j, J k j * n j
    simp only [hne, neg_sq] at this
    exact this
  · intro σ hσ hJ
    have h1 := hJ n
    refine ⟨h1, ?_⟩
    have hcs := Finset.sum_mul_sq_le_sq_mul_sq Finset.univ g n
    rw [hgn] at hcs
    have hN : 0 ≤ ∑ i, n i ^ 2 := Finset.sum_nonneg fun i _ => sq_nonneg _
    have h1' : σ * ∑ i, n i ^ 2 ≤ Q := h1
    rcases hN.eq_or_lt with h0 | h0
    · rw [← h0, mul_zero]; exact Finset.sum_nonneg fun i _ => sq_nonneg _
    · refine le_of_mul_le_mul_right ?_ h0
      have h2 : (σ * ∑ i, n i ^ 2) ^ 2 ≤ Q ^ 2 := pow_le_pow_left₀ (by positivity) h1' 2
      nlinarith

section
variable (eps t : ℝ) (ls : LinSolve ι κ) (J : Matrix κ ι ℝ) (r : κ → ℝ)

/-- The step at step size `t`. -/
noncomputable abbrev doglegStep : ι → ℝ := (Dogleg.step eps .twoNorm t (Dogleg.query eps ls .twoNorm (.residualJac r J))).1

/-- The shapes of the step. -/
theorem dogleg_cases (he : 0 ≤ eps) (ht : 0 < t) (hls : SolvesLeastSquares ls) :
    let p := doglegStep eps t ls J r
    let n := fun i => -(ls.rect J r).1 i
    let g := fun i => ∑ m, J m i * r m
    let C := ∑ m, (∑ i, J m i * g i) ^ 2
    (C ≤ eps ∧ ((t < 1 ∧ p = fun i => t * n i) ∨ (1 ≤ t ∧ p = n))) ∨
    ∃ τ, 0 ≤ τ ∧ eps < C ∧ τ * C = ∑ i, g i ^ 2 ∧ τ * twoNorm g ≤ twoNorm n ∧
      ((t * twoNorm n < τ * twoNorm g ∧ τ * twoNorm g ≤ eps ∧ p = fun _ => 0) ∨
       (t * twoNorm n < τ * twoNorm g ∧ eps < τ * twoNorm g ∧ p = fun i => -(t * twoNorm n / twoNorm g) * g i) ∨
       (τ * twoNorm g ≤ t * twoNorm n ∧ ∃ u, 0 ≤ u ∧ u ≤ 1 ∧ p = fun i => -τ * g i + u * (n i - -τ * g i))) := by
  intro p n g C
  obtain ⟨h1, h2, h3, _, h5, h6⟩ := C42_base_points eps ls J r he (fun _ => 0) (Dogleg.query eps ls .twoNorm (.residualJac r J))
  have hst : (Dogleg.descent eps ls .twoNorm).query (fun _ => 0) (.residualJac r J)
    (Dogleg.query eps ls .twoNorm (.residualJac r J)) = Dogleg.query eps ls .twoNorm (.residualJac r J) := rfl
  rw [hst] at h1 h2 h3 h5 h6
  have hp : p = (Dogleg.step eps .twoNorm t (Dogleg.query eps ls .twoNorm (.residualJac r J))).1 := rfl
  generalize Dogleg.query eps ls .twoNorm (.residualJac r J) = st at *
  have h1' : st.newton = n := h1
  obtain ⟨hon, hA, hB, hCr, hD⟩ := C42_dogleg_step_partial eps st t he ht.le h3 h2
  rw [← hp, h1'] at hon hA hB hCr hD
  by_cases hc : C ≤ eps
  · left
    refine ⟨hc, ?_⟩
    have hz : st.cauchy = fun _ => 0 := h5 hc
    have hz0 : twoNorm (fun _ : ι => (0:ℝ)) = 0 := by simp [twoNorm, sumSquares]
    have hle : twoNorm st.cauchy ≤ t * twoNorm n := by
      rw [hz, hz0]; exact mul_nonneg ht.le (twoNorm_nonneg _)
    rcases lt_or_ge t 1 with h | h
    · refine .inl ⟨h, ?_⟩
      by_cases hn0 : n = fun _ => 0
      · have hon' : ∀ i, p i = 0 := by
          rcases hon with ⟨u, _, _, hu⟩ | ⟨u, _, _, hu⟩
          · intro i; rw [hu, hz]; ring
          · intro i; rw [hu, hz, hn0]; ring
        funext i; rw [hon', hn0, mul_zero]
      · have hNpos : 0 < twoNorm n := by
          refine lt_of_le_of_ne (twoNorm_nonneg _) fun h0 => hn0 ?_
          have := twoNorm_sq n
          rw [← h0] at this
          have hz := (Finset.sum_eq_zero_iff_of_nonneg fun i (_ : i ∈ (Finset.univ : Finset ι)) => sq_nonneg (n i)).1
            (by rw [← this]; norm_num)
          funext i
          exact pow_eq_zero_iff two_ne_zero |>.1 (hz i (Finset.mem_univ i))
        have hnd : ¬ CrossingDegenerate st.cauchy n (t * twoNorm n) := by
          rintro (h' | ⟨_, h'⟩)
          · exact hn0 (h'.trans hz)
          · rw [hz] at h'
            have e : ∑ i, (2 * (0:ℝ) - n i) ^ 2 = ∑ i, n i ^ 2 := Finset.sum_congr rfl fun i _ => by ring
            rw [e, ← twoNorm_sq, mul_pow] at h'
            have hN2 : 0 < twoNorm n ^ 2 := by positivity
            have ht2 : t ^ 2 < 1 := by nlinarith
            nlinarith
        obtain ⟨hlen, u, hu0, _, hu⟩ := hCr hle h hnd
        have e : p = fun i => u * n i := by
          funext i; rw [hu, hz]; ring
        rw [e, twoNorm_smul u hu0] at hlen
        rw [e, mul_right_cancel₀ hNpos.ne' hlen]
    · exact .inr ⟨h, hD hle h⟩
  · right
    push Not at hc
    obtain ⟨τ, hτ, hcau, hτC, _⟩ := h6 hc
    have hCpos : 0 < C := lt_of_le_of_lt he hc
    have hcn : twoNorm st.cauchy = τ * twoNorm g := by
      rw [hcau, ← twoNorm_smul τ hτ, ← twoNorm_neg]
      congr 1
      funext i
      ring
    have hcl := cauchy_le_newton ls J r hls τ hτ hτC hCpos
    rw [hcn] at hA hB hCr hD
    refine ⟨τ, hτ, hc, hτC, ?_, ?_⟩
    · rw [← hcn, hcau]; exact hcl
    · rcases lt_or_ge (t * twoNorm n) (τ * twoNorm g) with h | h
      · rcases le_or_gt (τ * twoNorm g) eps with h' | h'
        · exact .inl ⟨h, h', hB h h'⟩
        · refine .inr (.inl ⟨h, h', ?_⟩)
          have := (hA h h').2
          rw [this, hcau]
          funext i
          have hpos : 0 < τ * twoNorm g := lt_of_le_of_lt he h'
          have hτ0 : 0 < τ := pos_of_mul_pos_left hpos (twoNorm_nonneg _)
          have hg0 : 0 < twoNorm g := pos_of_mul_pos_right hpos hτ
          show t * twoNorm n / (τ * twoNorm g) * (-τ * g i) = _
          field_simp
      · refine .inr (.inr ⟨h, ?_⟩)
        rw [hcau] at hon hCr
        rcases lt_or_ge t 1 with h' | h'
        · have hno : ¬ st.newtonNorm * t < st.cauchyNorm := by
            rw [h2, h3, mul_comm, hcn, h1']; exact not_lt.2 h
          have hpi : p = Dogleg.interpolate st.cauchy st.newton (Dogleg.interpParam
              (Dogleg.coefficients st (st.newtonNorm * t)).1 (Dogleg.coefficients st (st.newtonNorm * t)).2.1
              (Dogleg.coefficients st (st.newtonNorm * t)).2.2) := by
            rw [hp]
            simp only [Dogleg.step, if_neg hno, if_pos h']
          obtain ⟨m1, m2⟩ := interpParam_mem (Dogleg.coefficients st (st.newtonNorm * t)).1
            (Dogleg.coefficients st (st.newtonNorm * t)).2.1 (Dogleg.coefficients st (st.newtonNorm * t)).2.2
          refine ⟨_, sub_nonneg.2 m1, by linarith, ?_⟩
          rw [hpi, hcau, h1']
          rfl
        · exact ⟨1, zero_le_one, le_rfl, by rw [hD h h']; funext i; ring⟩

/-- Cauchy step: scalar form. `G` the length of the gradient. -/
theorem cauchy_scalar (τ C G B : ℝ) (hC : 0 < C) (hG : 0 ≤ G) (hτC : τ * C = G ^ 2) (hCB : C ≤ B * G ^ 2) :
    0 < G ∧ 1 ≤ τ * B := by
  have hG0 : 0 < G := by
    refine lt_of_le_of_ne hG fun h => ?_
    rw [← h] at hCB; norm_num at hCB; linarith
  refine ⟨hG0, ?_⟩
  have hB : 0 < B := by
    have : 0 < G ^ 2 := by positivity
    by_contra hB; push Not at hB; nlinarith
  have h0 : 0 ≤ τ := by
    have : 0 < G ^ 2 := by positivity
    by_contra h; push Not at h; nlinarith
  have h1 : τ * C ≤ τ * (B * G ^ 2) := mul_le_mul_of_nonneg_left hCB h0
  have : 0 < G ^ 2 := by positivity
  nlinarith

theorem second_leg_length (c n : ι → ℝ) (u : ℝ) (h0 : 0 ≤ u) (h1 : u ≤ 1) (h : ∑ i, c i ^ 2 ≤ ∑ i, n i ^ 2) :
    ∑ i, (c i + u * (n i - c i)) ^ 2 ≤ ∑ i, n i ^ 2 := by
  have h2 : ∑ i, (c i + u * (n i - c i)) ^ 2 ≤ (1 - u) * ∑ i, c i ^ 2 + u * ∑ i, n i ^ 2 := by
    rw [Finset.mul_sum, Finset.mul_sum, ← Finset.sum_add_distrib]
    refine Finset.sum_le_sum fun i _ => ?_
    nlinarith [mul_nonneg (mul_nonneg h0 (sub_nonneg.2 h1)) (sq_nonneg (c i - n i))]
  have := mul_le_mul_of_nonneg_left h (sub_nonneg.2 h1)
  linarith

theorem scaled_scalar (t Q : ℝ) (ht : 0 ≤ t) (h1 : t ≤ 1) (hQ : 0 ≤ Q) : t * -Q + t ^ 2 * Q / 2 ≤ -(t / 2 * Q) := by
  have := mul_nonneg (mul_nonneg ht (sub_nonneg.2 h1)) hQ
  nlinarith

/-- Predicted change, length and, for full-rank Jacobians, sufficient descent of the steps. -/
theorem dogleg_facts (he : 0 ≤ eps) (ht : 0 < t) (hls : SolvesLeastSquares ls) (B : ℝ) (hB : 0 < B)
    (hJ : ∀ p : ι → ℝ, ∑ m, (∑ i, J m i * p i) ^ 2 ≤ B * ∑ i, p i ^ 2) :
    let p := doglegStep eps t ls J r
    let n := fun i => -(ls.rect J r).1 i
    let g := fun i => ∑ m, J m i * r m
    ∑ i, p i ^ 2 ≤ ∑ i, n i ^ 2 ∧
    ((p = (fun _ => 0) ∧ ∑ i, g i ^ 2 ≤ (B * eps) ^ 2 ∧
        ∃ τ, τ * ∑ m, (∑ i, J m i * g i) ^ 2 = ∑ i, g i ^ 2 ∧ τ * twoNorm g ≤ eps ∧ eps < ∑ m, (∑ i, J m i * g i) ^ 2) ∨ linearisedChange J r p ≤ -(min t 1 / (2 * B) * ∑ i, g i ^ 2)) ∧
    ∀ σ, 0 < σ → (∀ p : ι → ℝ, σ * ∑ i, p i ^ 2 ≤ ∑ m, (∑ i, J m i * p i) ^ 2) → t * B < σ → t < 1 →
      σ * ∑ i, p i ^ 2 ≤ 2 * t * -linearisedChange J r p := by
  intro p n g
  obtain ⟨hgn, hmin, hbd, hrk⟩ := newton_facts ls hls J r
  obtain ⟨hgQ, hQN⟩ := hbd B hB.le hJ
  have hsm : ∀ w : ℝ, ∑ i, (w * n i) ^ 2 = w ^ 2 * ∑ i, n i ^ 2 := by
    intro w; rw [Finset.mul_sum]; exact Finset.sum_congr rfl fun i _ => by ring
  have hsg : ∀ w : ℝ, ∑ i, (w * g i) ^ 2 = w ^ 2 * ∑ i, g i ^ 2 := by
    intro w; rw [Finset.mul_sum]; exact Finset.sum_congr rfl fun i _ => by ring
  have hls' := linearisedChange_smul J r n
  have hlg := linearisedChange_smul J r g
  have hgg : ∑ i, g i * g i = ∑ i, g i ^ 2 := Finset.sum_congr rfl fun i _ => by ring
  change ∀ w : ℝ, linearisedChange J r (fun i => w * n i) = w * ∑ i, g i * n i + w ^ 2 * (∑ m, (∑ i, J m i * n i) ^ 2) / 2 at hls'
  change ∀ w : ℝ, linearisedChange J r (fun i => w * g i) = w * ∑ i, g i * g i + w ^ 2 * (∑ m, (∑ i, J m i * g i) ^ 2) / 2 at hlg
  change ∑ i, g i * n i = -∑ m, (∑ i, J m i * n i) ^ 2 at hgn
  change ∑ i, g i ^ 2 ≤ B * ∑ m, (∑ i, J m i * n i) ^ 2 at hgQ
  change ∑ m, (∑ i, J m i * n i) ^ 2 ≤ B * ∑ i, n i ^ 2 at hQN
  change ∀ q, linearisedChange J r n ≤ linearisedChange J r q at hmin
  change ∀ σ, 0 < σ → (∀ p : ι → ℝ, σ * ∑ i, p i ^ 2 ≤ ∑ m, (∑ i, J m i * p i) ^ 2) →
    σ * ∑ i, n i ^ 2 ≤ ∑ m, (∑ i, J m i * n i) ^ 2 ∧ σ ^ 2 * ∑ i, n i ^ 2 ≤ ∑ i, g i ^ 2 at hrk
  rw [hgn] at hls'
  rw [hgg] at hlg
  have hN0 : 0 ≤ ∑ i, n i ^ 2 := Finset.sum_nonneg fun i _ => sq_nonneg _
  have hG0 : 0 ≤ ∑ i, g i ^ 2 := Finset.sum_nonneg fun i _ => sq_nonneg _
  have hQ0 : 0 ≤ ∑ m, (∑ i, J m i * n i) ^ 2 := Finset.sum_nonneg fun i _ => sq_nonneg _
  have hJg := hJ g
  have hfin : ∀ x w : ℝ, 0 ≤ w → w ≤ 1 → min t 1 ≤ w → x ≤ -(w / 2 * ∑ m, (∑ i, J m i * n i) ^ 2) →
      x ≤ -(min t 1 / (2 * B) * ∑ i, g i ^ 2) := by
    intro x w hw0 hw1 hw hx
    refine hx.trans (neg_le_neg ?_)
    rw [div_mul_eq_mul_div, div_le_iff₀ (by positivity)]
    have h1 : min t 1 * ∑ i, g i ^ 2 ≤ w * ∑ i, g i ^ 2 := mul_le_mul_of_nonneg_right hw hG0
    have h2 := mul_le_mul_of_nonneg_left hgQ hw0
    nlinarith
  rcases dogleg_cases eps t ls J r he ht hls with ⟨_, ⟨ht1, hp⟩ | ⟨ht1, hp⟩⟩ | ⟨τ, hτ, hCe, hτC, hτn, hcase⟩
  · -- zero Cauchy step, scaled Newton step
    have hp' : p = fun i => t * n i := hp
    rw [hp', hsm, hls']
    refine ⟨mul_le_of_le_one_left hN0 (pow_le_one₀ ht.le ht1.le),
      .inr (hfin _ t ht.le ht1.le (min_le_left _ _) (scaled_scalar t _ ht.le ht1.le hQ0)), fun σ hσ hfr hts _ => ?_⟩
    have := (hrk σ hσ hfr).1
    have h2 := mul_le_mul_of_nonneg_left this (sq_nonneg t)
    have h3 := mul_le_mul_of_nonneg_left (neg_le_neg (scaled_scalar t _ ht.le ht1.le hQ0)) (mul_nonneg zero_le_two ht.le)
    linarith
  · -- zero Cauchy step, Newton step
    have hp' : p = n := hp
    have h1 := hls' 1
    simp only [one_mul] at h1
    rw [hp', h1]
    refine ⟨le_rfl, .inr (hfin _ 1 zero_le_one le_rfl (min_le_right _ _) (by nlinarith)), fun σ _ _ _ h => absurd h (not_lt.2 ht1)⟩
  · change eps < ∑ m, (∑ i, J m i * g i) ^ 2 at hCe
    have hC := lt_of_le_of_lt he hCe
    change τ * ∑ m, (∑ i, J m i * g i) ^ 2 = ∑ i, g i ^ 2 at hτC
    have hGt : 0 ≤ twoNorm g := twoNorm_nonneg _
    have hNt : 0 ≤ twoNorm n := twoNorm_nonneg _
    have hGs := twoNorm_sq g
    have hNs := twoNorm_sq n
    change (t * twoNorm n < τ * twoNorm g ∧ τ * twoNorm g ≤ eps ∧ p = fun _ => 0) ∨
       (t * twoNorm n < τ * twoNorm g ∧ eps < τ * twoNorm g ∧ p = fun i => -(t * twoNorm n / twoNorm g) * g i) ∨
       (τ * twoNorm g ≤ t * twoNorm n ∧ ∃ u, 0 ≤ u ∧ u ≤ 1 ∧ p = fun i => -τ * g i + u * (n i - -τ * g i)) at hcase
    change τ * twoNorm g ≤ twoNorm n at hτn
    rw [← hGs] at hτC
    obtain ⟨hGpos, hτB⟩ := cauchy_scalar τ _ (twoNorm g) B hC hGt hτC (by rw [hGs]; exact hJg)
    have hNB : twoNorm g ≤ B * twoNorm n := by
      have h1 : twoNorm g ^ 2 ≤ (B * twoNorm n) ^ 2 := by
        rw [hGs, mul_pow, hNs]
        have := mul_le_mul_of_nonneg_left hQN hB.le
        nlinarith
      exact (pow_le_pow_iff_left₀ hGt (by positivity) two_ne_zero).1 h1
    rcases hcase with ⟨hlt, hle, hp⟩ | ⟨hlt, _, hp⟩ | ⟨hge, u, hu0, hu1, hp⟩
    · -- the zero step
      have hz : linearisedChange J r (fun _ => 0) = 0 := by
        have := hls' 0
        simpa using this
      rw [hp, hz]
      refine ⟨by simpa using hN0, .inl ⟨rfl, ?_, τ, hτC.trans hGs, hle, hCe⟩, fun σ hσ _ _ _ => by simp⟩
      rw [← hGs]
      refine pow_le_pow_left₀ hGt ?_ 2
      have h1 : twoNorm g ≤ (τ * B) * twoNorm g := le_mul_of_one_le_left hGt hτB
      have h2 := mul_le_mul_of_nonneg_left hle hB.le
      linarith
    · -- the truncated Cauchy step
      have ht1 : t < 1 := by
        by_contra h
        push Not at h
        have := mul_le_mul_of_nonneg_right h hNt
        linarith
      set w := t * twoNorm n / twoNorm g with hw
      have hwG : w * twoNorm g = t * twoNorm n := by rw [hw]; field_simp
      have hw0 : 0 ≤ w := by positivity
      have hwτ : w ≤ τ := by
        have : w * twoNorm g ≤ τ * twoNorm g := by rw [hwG]; exact hlt.le
        exact le_of_mul_le_mul_right this hGpos
      have hlin : linearisedChange J r p ≤ -(t * twoNorm n * twoNorm g / 2) := by
        rw [hp, hlg, ← hGs]
        have h1 : w ^ 2 * ∑ m, (∑ i, J m i * g i) ^ 2 ≤ w * twoNorm g ^ 2 := by
          rw [← hτC, sq, mul_assoc]
          exact mul_le_mul_of_nonneg_left (mul_le_mul_of_nonneg_right hwτ hC.le) hw0
        have h2 : w * twoNorm g ^ 2 = t * twoNorm n * twoNorm g := by rw [← hwG]; ring
        rw [neg_sq]
        nlinarith
      have hlen : ∑ i, p i ^ 2 = t ^ 2 * ∑ i, n i ^ 2 := by
        rw [hp, hsg, ← hGs, neg_sq, ← mul_pow, hwG, mul_pow, hNs]
      refine ⟨by rw [hlen]; exact mul_le_of_le_one_left hN0 (pow_le_one₀ ht.le ht1.le), .inr (hlin.trans (neg_le_neg ?_)), fun σ hσ hfr hts _ => ?_⟩
      · rw [min_eq_left ht1.le, ← hGs, div_mul_eq_mul_div, div_le_iff₀ (by positivity)]
        have := mul_le_mul_of_nonneg_left hNB (mul_nonneg ht.le hGt)
        nlinarith
      · rw [hlen, ← hNs]
        have h2 := (hrk σ hσ hfr).2
        rw [← hNs, ← hGs, ← mul_pow] at h2
        have h3 : σ * twoNorm n ≤ twoNorm g := (pow_le_pow_iff_left₀ (by positivity) hGt two_ne_zero).1 h2
        have h4 := mul_le_mul_of_nonneg_left h3 (mul_nonneg (sq_nonneg t) hNt)
        have h5 := mul_le_mul_of_nonneg_left (neg_le_neg hlin) ht.le
        nlinarith
    · -- second leg
      have hcv := linearisedChange_convex J r (fun i => -τ * g i) n u hu0 hu1
      have hcau := hlg (-τ)
      have hnc := hmin fun i => -τ * g i
      have hlin : linearisedChange J r p ≤ -(τ * ∑ i, g i ^ 2) / 2 := by
        rw [hp]
        refine hcv.trans ?_
        have e : linearisedChange J r (fun i => -τ * g i) = -(τ * ∑ i, g i ^ 2) / 2 := by
          rw [hcau, neg_sq, sq τ, mul_assoc τ τ, hτC, hGs]; ring
        rw [e] at hnc ⊢
        have := mul_le_mul_of_nonneg_left hnc hu0
        linarith
      refine ⟨?_, .inr (hlin.trans ?_), fun σ hσ hfr hts _ => ?_⟩
      · rw [hp]
        refine second_leg_length (fun i => -τ * g i) n u hu0 hu1 ?_
        rw [hsg, neg_sq, ← hGs, ← hNs, ← mul_pow]
        exact pow_le_pow_left₀ (by positivity) hτn 2
      · rw [neg_div]
        refine neg_le_neg ?_
        rw [div_mul_eq_mul_div, div_le_iff₀ (by positivity)]
        have h1 : min t 1 * ∑ i, g i ^ 2 ≤ 1 * ∑ i, g i ^ 2 := mul_le_mul_of_nonneg_right (min_le_right _ _) hG0
        have h2 : ∑ i, g i ^ 2 ≤ (τ * B) * ∑ i, g i ^ 2 := le_mul_of_one_le_left hG0 hτB
        linarith
      · exfalso
        have h2 := (hrk σ hσ hfr).2
        rw [← hNs, ← hGs, ← mul_pow] at h2
        have h3 : σ * twoNorm n ≤ twoNorm g := (pow_le_pow_iff_left₀ (by positivity) hGt two_ne_zero).1 h2
        have hn0 : 0 < twoNorm n := by
          refine lt_of_lt_of_le ?_ hτn
          have : 0 < τ := pos_of_mul_pos_left (lt_of_lt_of_le one_pos hτB) hB.le
          positivity
        have h4 := mul_le_mul_of_nonneg_left hge hB.le
        have h5 : twoNorm g ≤ (τ * B) * twoNorm g := le_mul_of_one_le_left hGt hτB
        have h6 := mul_lt_mul_of_pos_right hts hn0
        linarith

end

/-- At this step size the closed formula for the crossing of the second leg would divide zero by zero (C42): the code then
computes NaN, the model over the reals a point of the path. -/
def AtDegenerateCrossing (eps t : ℝ) (ls : LinSolve ι κ) (J : Matrix κ ι ℝ) (r : κ → ℝ) : Prop :=
  let st := Dogleg.query eps ls .twoNorm (.residualJac r J)
  t < 1 ∧ twoNorm st.cauchy ≤ t * twoNorm st.newton ∧ CrossingDegenerate st.cauchy st.newton (t * twoNorm st.newton)

/-- Scalar form of the acceptance argument. -/
theorem dogleg_accept_scalar (L B μ t lin slope Q N D : ℝ) (hL : 0 ≤ L) (hB : 0 < B) (hμ : 0 < μ) (ht : 0 < t)
    (hle : t ≤ μ / (2 * (B + (L + 1) + μ))) (hN : 0 ≤ N) (hQ : 0 ≤ Q) (hlin : lin = slope + N / 2) (hD : D ≤ slope + L / 2 * Q)
    (hs : μ * Q ≤ 2 * t * -lin) : D ≤ 1 / 100 * lin := by
  rw [le_div_iff₀ (by positivity)] at hle
  have hneg : 0 ≤ -lin := by
    by_contra h
    push Not at h
    have h1 : 0 ≤ μ * Q := by positivity
    have h2 : t * -lin < 0 := mul_neg_of_pos_of_neg ht h
    nlinarith
  have h1 : L * (μ * Q) ≤ L * (2 * t * -lin) := mul_le_mul_of_nonneg_left hs hL
  have h2 : 2 * (t * L) ≤ μ := by nlinarith
  have h3 : 2 * (t * L) * -lin ≤ μ * -lin := mul_le_mul_of_nonneg_right h2 hneg
  have h4 : μ * (L * Q) ≤ μ * -lin := by nlinarith
  have h5 : L * Q ≤ -lin := le_of_mul_le_mul_left h4 hμ
  linarith

/-- Steps with a small enough radius pass the test of the default search. -/
theorem dogleg_trial_taken (eps : ℝ) (he : 0 ≤ eps) (ls : LinSolve ι κ) (hls : SolvesLeastSquares ls)
    (jac : (ι → ℝ) → Matrix κ ι ℝ) (fn : (ι → ℝ) → (κ → ℝ) × A)
    (L B μ : ℝ) (hS : SmoothResiduals (fun y => (fn y).1) jac L B) (hB : 0 < B) (hμ : 0 < μ)
    (hrank : ∀ (y p : ι → ℝ), μ * ∑ i, p i ^ 2 ≤ ∑ m, (∑ i, jac y m i * p i) ^ 2) (y : ι → ℝ) (s : ℝ) (hs0 : 0 < s)
    (hs : s ≤ μ / (2 * (B + (L + 1) + μ))) :
    (∑ m, (fn fun i => y i + doglegStep eps s ls (jac y) (fn y).1 i).1 m ^ 2) / 2 - (∑ m, (fn y).1 m ^ 2) / 2 ≤
      1 / 100 * linearisedChange (jac y) (fn y).1 (doglegStep eps s ls (jac y) (fn y).1) := by
  obtain ⟨hL0, _⟩ := hS.nonneg
  obtain ⟨_, _, hsuff⟩ := dogleg_facts eps s ls (jac y) (fn y).1 he hs0 hls B hB (hS.bounded y)
  have hs' := hs
  rw [le_div_iff₀ (by positivity)] at hs'
  have hsL : 0 ≤ s * L := by positivity
  have h2 := hsuff μ hμ (hrank y) (by nlinarith) (by nlinarith)
  have hb := hS.gradient.bound y fun i => y i + doglegStep eps s ls (jac y) (fn y).1 i
  simp only [add_sub_cancel_left] at hb
  have e2 : sumSquares (fun i => doglegStep eps s ls (jac y) (fn y).1 i) =
      ∑ i, doglegStep eps s ls (jac y) (fn y).1 i ^ 2 := by
    unfold sumSquares; exact Finset.sum_congr rfl fun _ _ => by ring
  rw [e2] at hb
  exact dogleg_accept_scalar L B μ s _ (treeDot (fun i => ∑ m, jac y m i * (fn y).1 m) fun i =>
    doglegStep eps s ls (jac y) (fn y).1 i) _ _ _ hL0 hB hμ hs0 hs
    (Finset.sum_nonneg fun m _ => sq_nonneg (∑ i, jac y m i * doglegStep eps s ls (jac y) (fn y).1 i))
    (Finset.sum_nonneg fun i _ => sq_nonneg (doglegStep eps s ls (jac y) (fn y).1 i)) (linearisedChange_eq _ _ _)
    (by linarith) h2

/-- **C66**, convergence.  If the Jacobian is bounded and of full column rank, uniformly, and `½|r|²` has a Lipschitz gradient,
then along every run of `Dogleg` that meets no degenerate crossing the length of the gradient `Jᵀr` tends to zero up to
rounding level: its excess over `B·eps` (`eps` machine epsilon, `√B` the bound on the Jacobian) tends to zero, from every
starting point; and the solve stops by itself and reports success, with every sufficiently large budget and with none. -/
theorem C66_converges (eps rtol atol : ℝ) (he : 0 ≤ eps) (nY : (ι → ℝ) → ℝ) (nF : (κ → ℝ) → ℝ) (ls : LinSolve ι κ)
    (hls : SolvesLeastSquares ls) (jac : (ι → ℝ) → Matrix κ ι ℝ) (aux0 : A) (fn : (ι → ℝ) → (κ → ℝ) × A) (y0 : ι → ℝ)
    (L B μ : ℝ) (hS : SmoothResiduals (fun y => (fn y).1) jac L B) (hB : 0 < B) (hμ : 0 < μ)
    (hrank : ∀ (y p : ι → ℝ), μ * ∑ i, p i ^ 2 ≤ ∑ m, (∑ i, jac y m i * p i) ^ 2) :
    let S := GaussNewton.solver (GaussNewton.dogleg eps rtol atol nY nF ls jac) aux0
    ∃ st0, S.init fn y0 = .ok st0 ∧
      ((∀ k, ¬ AtDegenerateCrossing eps (stateAt S fn aux0 y0 st0 (k + 1)).searchState ls
          (jac (iterateAt S fn aux0 y0 st0 (k + 1))) (fn (iterateAt S fn aux0 y0 st0 (k + 1))).1) →
      Tendsto (fun k => max 0 ((∑ i, (∑ m, jac (iterateAt S fn aux0 y0 st0 k) m i *
        (fn (iterateAt S fn aux0 y0 st0 k)).1 m) ^ 2) - (B * eps) ^ 2)) atTop (𝓝 0) ∧
      ((∀ M v, (ls.rect M v).2 = .successful) → 0 < atol → 0 ≤ rtol → GoodNorm nY → GoodNorm nF →
        ∃ N, ∀ ms throw, (∀ n, ms = some n → N ≤ n) →
          ∃ sol, iterativeSolve S (fun _ => true) fn aux0 y0 ms throw = some (.ok sol) ∧ sol.result = .successful ∧
            sol.numSteps ≤ N)) := by
  intro S
  obtain ⟨st0, hi⟩ : ∃ st0, S.init fn y0 = .ok st0 := ⟨_, rfl⟩
  refine ⟨st0, hi, fun _ => ?_⟩
  set c : TrustRegion.Cfg ℝ := TrustRegion.defaults with hc
  have c1 : c.lowCutoff = 1 / 100 := by norm_num [hc, TrustRegion.defaults]
  have c2 : c.lowConstant = 1 / 4 := by norm_num [hc, TrustRegion.defaults]
  have c3 : 1 ≤ c.highConstant := by norm_num [hc, TrustRegion.defaults]
  obtain ⟨R, hY1, ht1, _⟩ := gn_trust_run c (by rw [c2]; norm_num) (by linarith)
    (GaussNewton.dogleg eps rtol atol nY nF ls jac) rfl _ (dogleg_memoryless eps ls) aux0 fn y0 st0 hi
  set Y := iterateAt S fn aux0 y0 st0 with hYd
  set St := stateAt S fn aux0 y0 st0 with hSt
  obtain ⟨hL0, _⟩ := hS.nonneg
  set g := fun y i => ∑ m, jac y m i * (fn y).1 m with hg
  set τ := μ / (2 * (B + (L + 1) + μ)) with hτd
  have hτ : 0 < τ := by positivity
  -- short enough steps are taken
  have hacc : ∀ y s, 0 < s → s ≤ τ →
      (∑ m, (fn fun i => y i + doglegStep eps s ls (jac y) (fn y).1 i).1 m ^ 2) / 2 - (∑ m, (fn y).1 m ^ 2) / 2 ≤
        c.lowCutoff * linearisedChange (jac y) (fn y).1 (doglegStep eps s ls (jac y) (fn y).1) := fun y s h0 h1 => by
    rw [c1]; exact dogleg_trial_taken eps he ls hls jac fn L B μ hS hB hμ hrank y s h0 h1
  set tmin := min ((fun k => (St (k + 1)).searchState) 0) (c.lowConstant * τ) with htmin
  have htm : 0 < tmin := by
    refine lt_min ?_ ?_
    · show 0 < (St 1).searchState
      rw [ht1]; norm_num
    · rw [c2]; positivity
  have htm1 : tmin ≤ 1 := (min_le_left _ _).trans (le_of_eq ht1)
  have hzero : ∀ y, linearisedChange (jac y) (fn y).1 (fun _ => 0) = 0 := fun y => by
    rw [linearisedChange_eq]; simp
  have hdich : ∀ y s, tmin ≤ s → (doglegStep eps s ls (jac y) (fn y).1 = (fun _ => 0) ∧ ∑ i, g y i ^ 2 ≤ (B * eps) ^ 2) ∨
      linearisedChange (jac y) (fn y).1 (doglegStep eps s ls (jac y) (fn y).1) ≤ -(tmin / (2 * B) * ∑ i, g y i ^ 2) := by
    intro y s hs
    obtain ⟨_, hd, _⟩ := dogleg_facts eps s ls (jac y) (fn y).1 he (htm.trans_le hs) hls B hB (hS.bounded y)
    refine hd.imp (fun h => ⟨h.1, h.2.1⟩) fun h => h.trans (neg_le_neg ?_)
    exact mul_le_mul_of_nonneg_right (div_le_div_of_nonneg_right (le_min hs htm1) (by positivity))
      (Finset.sum_nonneg fun i _ => sq_nonneg _)
  obtain ⟨s1, s2, s3⟩ := R.settles (by rw [c1]; norm_num) (by rw [c2]; norm_num) (by rw [c2]; norm_num) c3 τ hτ
    (fun k s h1 h2 => hacc _ s h1 h2) 0 (fun y => by positivity) (fun y => max 0 (∑ i, g y i ^ 2 - (B * eps) ^ 2))
    (fun y => le_max_left _ _) (tmin / (2 * B)) (by positivity) (fun y s h => by
      rcases hdich y s h with ⟨hp, hg0⟩ | hlt
      · show linearisedChange (jac y) (fn y).1 (doglegStep eps s ls (jac y) (fn y).1) ≤ _
        rw [hp, hzero, max_eq_left (by linarith)]; simp
      · refine hlt.trans (neg_le_neg ?_)
        refine mul_le_mul_of_nonneg_left (max_le ?_ ?_) (by positivity)
        · exact Finset.sum_nonneg fun i _ => sq_nonneg _
        · linarith [sq_nonneg (B * eps)])
  refine ⟨(tendsto_add_atTop_iff_nat 1).1 s1, ?_⟩
  intro hok hat hrt hnY hnF
  refine gn_trust_stops c (by rw [c2]; norm_num) (by linarith)
    (GaussNewton.dogleg eps rtol atol nY nF ls jac) rfl _ (dogleg_memoryless eps ls)
    (fun t r J _ => ?_) hat hrt hnY hnF aux0 fn y0 st0 hi ?_
  · have hres : (Dogleg.query eps ls .twoNorm (.residualJac r J)).result = .successful := hok _ _
    simp only [Dogleg.step, hres, if_true]
    split_ifs <;> rfl
  intro δ hδ
  have hrad := R.radius (by rw [c2]; norm_num) c3 τ (fun k s h1 h2 => hacc _ s h1 h2)
  -- at late accepted steps the gradient, hence the step, is small
  set η := δ ^ 2 * μ ^ 2 / (B + 1) * (tmin / (2 * B)) / 100 with hη
  have hη0 : 0 < η := by positivity
  obtain ⟨K, hK⟩ := eventually_atTop.1 (s2.eventually (Metric.ball_mem_nhds 0 hη0))
  obtain ⟨k, hk, ha, hyk⟩ := s3 K
  have hsm := hK k hk
  rw [Real.dist_eq, sub_zero] at hsm
  refine ⟨k, ha, ?_⟩
  have hrk : tmin ≤ (St (k + 1)).searchState := hrad k
  change (∑ m, (fn fun i => Y (k + 1) i + doglegStep eps (St (k + 1)).searchState ls (jac (Y (k + 1))) (fn (Y (k + 1))).1 i).1 m ^ 2) / 2 -
    (∑ m, (fn (Y (k + 1))).1 m ^ 2) / 2 ≤ c.lowCutoff * linearisedChange (jac (Y (k + 1))) (fn (Y (k + 1))).1
      (doglegStep eps (St (k + 1)).searchState ls (jac (Y (k + 1))) (fn (Y (k + 1))).1) at ha
  have hdec : (∑ m, (fn (Y (k + 1))).1 m ^ 2) / 2 - (∑ m, (fn fun i => Y (k + 1) i +
      doglegStep eps (St (k + 1)).searchState ls (jac (Y (k + 1))) (fn (Y (k + 1))).1 i).1 m ^ 2) / 2 < η := by
    have := (abs_lt.1 hsm).2
    rw [hyk] at this
    exact this
  show (∀ i, |doglegStep eps (St (k + 1)).searchState ls (jac (Y (k + 1))) (fn (Y (k + 1))).1 i| ≤ δ) ∧
    ∀ m, |(fn fun i => Y (k + 1) i + doglegStep eps (St (k + 1)).searchState ls (jac (Y (k + 1))) (fn (Y (k + 1))).1 i).1 m -
      (fn (Y (k + 1))).1 m| ≤ δ
  have hQs' : (B + 1) * ∑ i, doglegStep eps (St (k + 1)).searchState ls (jac (Y (k + 1))) (fn (Y (k + 1))).1 i ^ 2 ≤ δ ^ 2 := by
    rcases hdich (Y (k + 1)) _ hrk with ⟨hp, _⟩ | hlt
    · rw [hp]; simp; positivity
    · obtain ⟨hlen, _, _⟩ := dogleg_facts eps _ ls (jac (Y (k + 1))) (fn (Y (k + 1))).1 he (htm.trans_le hrk) hls B hB
        (hS.bounded (Y (k + 1)))
      have hnn := ((newton_facts ls hls (jac (Y (k + 1))) (fn (Y (k + 1))).1).2.2.2 μ hμ (hrank (Y (k + 1)))).2
      change μ ^ 2 * _ ≤ ∑ i, g (Y (k + 1)) i ^ 2 at hnn
      have h1 : μ ^ 2 * ∑ i, doglegStep eps (St (k + 1)).searchState ls (jac (Y (k + 1))) (fn (Y (k + 1))).1 i ^ 2 ≤
        ∑ i, g (Y (k + 1)) i ^ 2 := (mul_le_mul_of_nonneg_left hlen (sq_nonneg μ)).trans hnn
      rw [c1] at ha
      have h2 : tmin / (2 * B) * ∑ i, g (Y (k + 1)) i ^ 2 ≤ tmin / (2 * B) * (δ ^ 2 * μ ^ 2 / (B + 1)) := by
        have e : tmin / (2 * B) * (δ ^ 2 * μ ^ 2 / (B + 1)) = 100 * η := by rw [hη]; ring
        rw [e]
        linarith
      have h3 := le_of_mul_le_mul_left h2 (by positivity)
      rw [le_div_iff₀ (by positivity)] at h3
      have h4 := mul_le_mul_of_nonneg_right h1 (by positivity : 0 ≤ B + 1)
      have hμ2 : 0 < μ ^ 2 := by positivity
      refine le_of_mul_le_mul_left ?_ hμ2
      linarith
  generalize doglegStep eps (St (k + 1)).searchState ls (jac (Y (k + 1))) (fn (Y (k + 1))).1 = p at *
  have hQ : 0 ≤ ∑ i, p i ^ 2 := Finset.sum_nonneg fun i _ => sq_nonneg _
  have hBQ : 0 ≤ B * ∑ i, p i ^ 2 := mul_nonneg hB.le hQ
  rw [add_mul, one_mul] at hQs'
  refine ⟨fun i => ?_, fun m => ?_⟩
  · refine abs_le_of_sq_le_sq ?_ hδ.le
    have h1 : p i ^ 2 ≤ ∑ i, p i ^ 2 :=
      Finset.single_le_sum (f := fun i => p i ^ 2) (fun i _ => sq_nonneg _) (Finset.mem_univ i)
    exact h1.trans (by linarith)
  · refine abs_le_of_sq_le_sq ?_ hδ.le
    exact (hS.change (Y (k + 1)) p m).trans (by linarith)

/-- The Cauchy step at a point, `-(|g|²/|Jg|²) g`, is set to zero by `Dogleg` if `|Jg|² ≤ eps`, and steps cut back to it are set
to zero if its length is at most `eps`.  This says the latter does not happen. -/
def CauchyVisible (eps : ℝ) (J : Matrix κ ι ℝ) (r : κ → ℝ) : Prop :=
  let g := fun i => ∑ m, J m i * r m
  let C := ∑ m, (∑ i, J m i * g i) ^ 2
  C ≤ eps ∨ eps < (∑ i, g i ^ 2) / C * twoNorm g

theorem dogleg_negative (eps t : ℝ) (ls : LinSolve ι κ) (J : Matrix κ ι ℝ) (r : κ → ℝ) (he : 0 ≤ eps) (ht : 0 < t)
    (hls : SolvesLeastSquares ls) (hg : ∃ i, ∑ m, J m i * r m ≠ 0) (hv : CauchyVisible eps J r) :
    linearisedChange J r (doglegStep eps t ls J r) < 0 := by
  obtain ⟨i0, hi0⟩ := hg
  have hpos : 0 < ∑ i, (∑ m, J m i * r m) ^ 2 := by
    refine lt_of_lt_of_le (sq_pos_of_ne_zero hi0) ?_
    exact Finset.single_le_sum (f := fun i => (∑ m, J m i * r m) ^ 2) (fun i _ => sq_nonneg _) (Finset.mem_univ i0)
  obtain ⟨B, hB0, hB⟩ := matrix_bounded J
  obtain ⟨_, hd, _⟩ := dogleg_facts eps t ls J r he ht hls (B + 1) (by linarith) (fun p => (hB p).trans (by
    have : 0 ≤ ∑ i, p i ^ 2 := Finset.sum_nonneg fun i _ => sq_nonneg _
    linarith))
  rcases hd with ⟨_, _, τ, h1, h2, h3⟩ | h
  · exfalso
    rcases hv with hv | hv
    · exact absurd h3 (not_lt.2 hv)
    · rw [← h1, mul_div_cancel_right₀ _ (lt_of_le_of_lt he h3).ne'] at hv
      exact absurd hv (not_lt.2 h2)
  · refine lt_of_le_of_lt h (neg_neg_of_pos (mul_pos ?_ hpos))
    have : 0 < min t 1 := lt_min ht one_pos
    positivity

/-- At a point that is not stationary all short enough steps of `Dogleg` are taken. -/
theorem dogleg_accepted (eps : ℝ) (he : 0 ≤ eps) (ls : LinSolve ι κ) (hls : SolvesLeastSquares ls) (r : (ι → ℝ) → κ → ℝ)
    (J : Matrix κ ι ℝ) (y : ι → ℝ) (hd : HasFDerivAt r (LinearMap.toContinuousLinearMap J.mulVecLin) y)
    (hg : ∃ i, ∑ m, J m i * r y m ≠ 0) (hv : CauchyVisible eps J (r y)) :
    ∃ T, 0 < T ∧ ∀ s, 0 < s → s ≤ T →
        (∑ m, r (fun i => y i + doglegStep eps s ls J (r y) i) m ^ 2) / 2 - (∑ m, r y m ^ 2) / 2 ≤
        1 / 100 * linearisedChange J (r y) (doglegStep eps s ls J (r y)) := by
  obtain ⟨hgn, _, hbd, _⟩ := newton_facts ls hls J (r y)
  obtain ⟨B, hB0, hB⟩ := matrix_bounded J
  obtain ⟨hgQ, hQN⟩ := hbd B hB0 hB
  have hcs := fun s (hs : 0 < s) => dogleg_cases eps s ls J (r y) he hs hls
  have hsq : ∀ x : ι → ℝ, Real.sqrt (∑ i, x i ^ 2) = twoNorm x := by
    intro x; rw [← twoNorm_sq, Real.sqrt_sq (twoNorm_nonneg _)]
  set n : ι → ℝ := fun i => -(ls.rect J (r y)).1 i with hn
  set g : ι → ℝ := fun i => ∑ m, J m i * r y m with hgd
  have hlin : ∀ p : ι → ℝ, linearisedChange J (r y) p = ∑ i, g i * p i + (∑ m, (∑ i, J m i * p i) ^ 2) / 2 :=
    linearisedChange_eq J (r y)
  have hex : ∀ ε, 0 < ε → ∃ δ, 0 < δ ∧ ∀ p : ι → ℝ, twoNorm p < δ →
      (∑ m, r (fun i => y i + p i) m ^ 2) / 2 - (∑ m, r y m ^ 2) / 2 ≤ ∑ i, g i * p i + ε * twoNorm p := by
    intro ε hε
    obtain ⟨δ, hδ, h⟩ := half_square_expansion r J y hd ε hε
    exact ⟨δ, hδ, fun p hp => by rw [← hsq]; exact h p (by rw [hsq]; exact hp)⟩
  -- it suffices that the slope along the step is at most -k times its length, up to half of it
  have hsuff : ∀ (p : ι → ℝ) (D K : ℝ), 0 ≤ K → ∑ i, g i * p i = -K → D ≤ ∑ i, g i * p i + K / 2 →
      D ≤ 1 / 100 * linearisedChange J (r y) p := by
    intro p D K hK h1 h2
    have h3 : 0 ≤ ∑ m, (∑ i, J m i * p i) ^ 2 := Finset.sum_nonneg fun m _ => sq_nonneg _
    rw [hlin]
    linarith
  obtain ⟨i0, hi0⟩ := hg
  have hpos : 0 < ∑ i, g i ^ 2 := by
    refine lt_of_lt_of_le (sq_pos_of_ne_zero hi0) ?_
    exact Finset.single_le_sum (f := fun i => g i ^ 2) (fun i _ => sq_nonneg _) (Finset.mem_univ i0)
  have hQ : 0 < ∑ m, (∑ i, J m i * n i) ^ 2 := by
    by_contra h
    push Not at h
    have := mul_nonpos_of_nonneg_of_nonpos hB0 h
    linarith
  have hN2 : 0 < twoNorm n ^ 2 := by
    rw [twoNorm_sq]
    by_contra h
    push Not at h
    have := mul_nonpos_of_nonneg_of_nonpos hB0 h
    linarith
  have hN : 0 < twoNorm n := lt_of_le_of_ne (twoNorm_nonneg _) fun h => by rw [← h] at hN2; norm_num at hN2
  have hG2 : 0 < twoNorm g ^ 2 := by rw [twoNorm_sq]; exact hpos
  have hG : 0 < twoNorm g := lt_of_le_of_ne (twoNorm_nonneg _) fun h => by rw [← h] at hG2; norm_num at hG2
  by_cases hc : ∑ m, (∑ i, J m i * g i) ^ 2 ≤ eps
  · obtain ⟨δ, hδ, hexp⟩ := hex ((∑ m, (∑ i, J m i * n i) ^ 2) / (2 * twoNorm n)) (by positivity)
    refine ⟨min (1 / 2) (δ / (2 * twoNorm n)), by positivity, fun s hs0 hs => ?_⟩
    have hs1 : s ≤ 1 / 2 := hs.trans (min_le_left _ _)
    have hs2 : s ≤ δ / (2 * twoNorm n) := hs.trans (min_le_right _ _)
    rw [le_div_iff₀ (by positivity)] at hs2
    rcases hcs s hs0 with ⟨_, ⟨_, hp⟩ | ⟨h1, _⟩⟩ | ⟨_, _, hC, _⟩
    · have hp' : doglegStep eps s ls J (r y) = fun i => s * n i := hp
      rw [hp']
      have hlen := twoNorm_smul s hs0.le n
      have hslope : ∑ i, g i * (s * n i) = -(s * ∑ m, (∑ i, J m i * n i) ^ 2) := by
        rw [← mul_neg, ← hgn, Finset.mul_sum]
        exact Finset.sum_congr rfl fun i _ => by ring
      refine hsuff _ _ _ (by positivity) hslope ((hexp _ (by rw [hlen]; linarith)).trans (le_of_eq ?_))
      rw [hlen]
      congr 1
      field_simp
    · linarith
    · exact absurd hc (not_le.2 hC)
  · have hc' := not_le.1 hc
    have hv' : eps < (∑ i, g i ^ 2) / (∑ m, (∑ i, J m i * g i) ^ 2) * twoNorm g := by
      rcases hv with h | h
      · exact absurd h hc
      · exact h
    have hCpos := lt_of_le_of_lt he hc'
    obtain ⟨δ, hδ, hexp⟩ := hex (twoNorm g / 2) (by positivity)
    set W := (∑ i, g i ^ 2) / (∑ m, (∑ i, J m i * g i) ^ 2) * twoNorm g with hW
    have hW0 : 0 < W := lt_of_le_of_lt he hv'
    refine ⟨min (W / (2 * twoNorm n)) (δ / (2 * twoNorm n)), by positivity, fun s hs0 hs => ?_⟩
    have hs1 : s ≤ W / (2 * twoNorm n) := hs.trans (min_le_left _ _)
    have hs2 : s ≤ δ / (2 * twoNorm n) := hs.trans (min_le_right _ _)
    rw [le_div_iff₀ (by positivity)] at hs1 hs2
    rcases hcs s hs0 with ⟨h, _⟩ | ⟨τ, hτ, _, hτC, _, hcase⟩
    · exact absurd h hc
    · have hτW : τ * twoNorm g = W := by
        rw [hW]
        congr 1
        rw [eq_div_iff hCpos.ne']
        exact hτC
      rcases hcase with ⟨_, h, _⟩ | ⟨_, _, hp⟩ | ⟨h, _⟩
      · rw [show τ * twoNorm _ = W from hτW] at h
        exact absurd h (not_le.2 hv')
      · have hp' : doglegStep eps s ls J (r y) = fun i => -(s * twoNorm n / twoNorm g) * g i := hp
        rw [hp']
        have hlen : twoNorm (fun i => -(s * twoNorm n / twoNorm g) * g i) = s * twoNorm n := by
          have e1 := twoNorm_smul (s * twoNorm n / twoNorm g) (by positivity) g
          have e2 := twoNorm_neg fun i => s * twoNorm n / twoNorm g * g i
          have e3 : (fun i => -(s * twoNorm n / twoNorm g) * g i) = fun i => -(s * twoNorm n / twoNorm g * g i) := by
            funext i; ring
          rw [e3, e2, e1]
          field_simp
        have hslope : ∑ i, g i * (-(s * twoNorm n / twoNorm g) * g i) = -(s * twoNorm n * twoNorm g) := by
          have e1 : ∑ i, g i * (-(s * twoNorm n / twoNorm g) * g i) = -(s * twoNorm n / twoNorm g) * ∑ i, g i ^ 2 := by
            rw [Finset.mul_sum]
            exact Finset.sum_congr rfl fun i _ => by ring
          rw [e1, ← twoNorm_sq]
          field_simp
        refine hsuff _ _ _ (by positivity) hslope ((hexp _ (by rw [hlen]; linarith)).trans (le_of_eq ?_))
        rw [hlen]
        ring
      · rw [show τ * twoNorm _ = W from hτW] at h
        have h' : W ≤ s * twoNorm n := h
        linarith

/-- **C66**, progress.  At every point where the residuals are differentiable, the gradient `Jᵀr` does not vanish and the Cauchy
step is not shorter than machine epsilon, `Dogleg` does not get stuck: whichever way a run got there, after finitely many
rejected trials it moves to a point with a smaller sum of squares. -/
theorem C66_progress (jac : (ι → ℝ) → Matrix κ ι ℝ) (fn : (ι → ℝ) → (κ → ℝ) × A) (y : ι → ℝ)
    (hd : HasFDerivAt (fun z => (fn z).1) (LinearMap.toContinuousLinearMap (jac y).mulVecLin) y)
    (hg : ∃ i, ∑ m, jac y m i * (fn y).1 m ≠ 0) (eps rtol atol : ℝ) (he : 0 ≤ eps) (hv : CauchyVisible eps (jac y) (fn y).1)
    (nY : (ι → ℝ) → ℝ) (nF : (κ → ℝ) → ℝ) (ls : LinSolve ι κ) (hls : SolvesLeastSquares ls) (aux0 : A) (y0 : ι → ℝ) st0 :
    let S := GaussNewton.solver (GaussNewton.dogleg eps rtol atol nY nF ls jac) aux0
    S.init fn y0 = .ok st0 → ∀ k, 1 ≤ k → iterateAt S fn aux0 y0 st0 k = y →
      ∃ j, k ≤ j ∧ iterateAt S fn aux0 y0 st0 j = y ∧
        ∑ m, (fn (iterateAt S fn aux0 y0 st0 (j + 1))).1 m ^ 2 < ∑ m, (fn y).1 m ^ 2 := by
  intro S hi k hk hky
  obtain ⟨T, hT, hacc⟩ := dogleg_accepted eps he ls hls (fun z => (fn z).1) (jac y) y hd hg hv
  obtain _ | k := k
  · omega
  have c1 : (TrustRegion.defaults : TrustRegion.Cfg ℝ).lowCutoff = 1 / 100 := by norm_num [TrustRegion.defaults]
  have c2 : (TrustRegion.defaults : TrustRegion.Cfg ℝ).lowConstant = 1 / 4 := by norm_num [TrustRegion.defaults]
  have c3 : 0 < (TrustRegion.defaults : TrustRegion.Cfg ℝ).highConstant := by norm_num [TrustRegion.defaults]
  obtain ⟨R, _⟩ := gn_trust_run TrustRegion.defaults (by rw [c2]; norm_num) c3
    (GaussNewton.dogleg eps rtol atol nY nF ls jac) rfl _ (dogleg_memoryless eps ls) aux0 fn y0 st0 hi
  rw [c1, c2] at R
  obtain ⟨j, h1, h2, h3, _⟩ := R.progress (by norm_num) (by norm_num) k T hT (by
    intro s hs0 hs1
    show _ ≤ 1 / 100 * _
    have := hacc s hs0 hs1
    rw [← hky] at this
    exact this)
  refine ⟨k + j + 1, by omega, h1.trans hky, ?_⟩
  rw [← hky]
  rw [← hky] at hg hv
  have hn := dogleg_negative eps (stateAt S fn aux0 y0 st0 (k + j + 1)).searchState ls _ _ he (R.pos (k + j)) hls hg hv
  have h2' := lt_of_le_of_lt h2 (mul_neg_of_pos_of_neg (by norm_num) hn)
  rw [show iterateAt S fn aux0 y0 st0 (k + j + 1 + 1) = _ from h3]
  linarith

/-! ### The hypotheses are met -/

/-- Residuals `y - 3`, of one unknown. -/
def shiftResiduals (y : Unit → ℝ) : Unit → ℝ := fun _ => y () - 3
def shiftJac (_ : Unit → ℝ) : Matrix Unit Unit ℝ := Matrix.of fun _ _ => 1

theorem shift_smooth : SmoothResiduals shiftResiduals shiftJac 1 1 where
  deriv y p m := by
    have h := ((hasDerivAt_mul_const (p ()) (x := (0:ℝ))).const_add (y ())).sub_const 3
    simpa [shiftResiduals, shiftJac] using h
  lipschitz y z := by simp [shiftResiduals, shiftJac]
  bounded y p := by simp [shiftJac]
  nonneg := ⟨by norm_num, by norm_num⟩

/-- C66 applies to the residuals `y - 3`: no run meets a degenerate crossing (every trial is as good as predicted, so the step
size never falls below one), and the solve returns successfully, from every starting point. -/
example (ls : LinSolve Unit Unit) (hls : SolvesLeastSquares ls) (hok : ∀ M v, (ls.rect M v).2 = .successful) (y0 : Unit → ℝ) :
    ∃ sol, iterativeSolve (GaussNewton.solver (GaussNewton.dogleg (2⁻¹ ^ 52) (1/10) (1/10) maxNorm maxNorm ls shiftJac) ())
      (fun _ => true) (fun y => (shiftResiduals y, ())) () y0 none true = some (.ok sol) ∧ sol.result = .successful := by
  obtain ⟨st0, hi, h⟩ := C66_converges (2⁻¹ ^ 52) (1/10) (1/10) (by positivity) maxNorm maxNorm ls hls
    shiftJac () (fun y => (shiftResiduals y, ())) y0 1 1 1 shift_smooth one_pos one_pos (fun y p => by simp [shiftJac])
  have c1 : (TrustRegion.defaults : TrustRegion.Cfg ℝ).lowCutoff = 1 / 100 := by norm_num [TrustRegion.defaults]
  have c2 : (TrustRegion.defaults : TrustRegion.Cfg ℝ).lowConstant = 1 / 4 := by norm_num [TrustRegion.defaults]
  have c3 : 1 ≤ (TrustRegion.defaults : TrustRegion.Cfg ℝ).highConstant := by norm_num [TrustRegion.defaults]
  obtain ⟨R, _, ht1, _⟩ := gn_trust_run TrustRegion.defaults (by rw [c2]; norm_num) (by linarith)
    (GaussNewton.dogleg (2⁻¹ ^ 52) (1/10) (1/10) maxNorm maxNorm ls shiftJac) rfl _ (dogleg_memoryless (2⁻¹ ^ 52) ls) ()
    (fun y => (shiftResiduals y, ())) y0 st0 hi
  have hlin : ∀ y p : Unit → ℝ, (∑ m, shiftResiduals (fun i => y i + p i) m ^ 2) / 2 - (∑ m, shiftResiduals y m ^ 2) / 2 =
      linearisedChange (shiftJac y) (shiftResiduals y) p := by
    intro y p
    simp only [shiftResiduals, shiftJac, linearisedChange, Matrix.mulVec, dotProduct, Finset.univ_unique, Finset.sum_singleton,
      Matrix.of_apply, PUnit.default_eq_unit]
    ring
  have hge := R.radius (by rw [c2]; norm_num) c3 4 (by
    intro k s hs0 _
    rw [c1]
    have key : ∀ x : ℝ, x ≤ 0 → x ≤ 1 / 100 * x := fun x hx => by linarith
    refine (le_of_eq (hlin _ _)).trans ?_
    have hneg := C42_predicted_decrease (2⁻¹ ^ 52) ls
      (shiftJac (iterateAt (GaussNewton.solver (GaussNewton.dogleg (2⁻¹ ^ 52) (1/10) (1/10) maxNorm maxNorm ls shiftJac) ())
        (fun y => (shiftResiduals y, ())) () y0 st0 (k + 1)))
      (shiftResiduals (iterateAt (GaussNewton.solver (GaussNewton.dogleg (2⁻¹ ^ 52) (1/10) (1/10) maxNorm maxNorm ls shiftJac) ())
        (fun y => (shiftResiduals y, ())) () y0 st0 (k + 1))) (by positivity) hls (fun _ => 0)
      (Dogleg.query (2⁻¹ ^ 52) ls .twoNorm (.residualJac (fun _ => 0) (shiftJac y0))) s hs0.le
    exact key _ hneg)
  obtain ⟨N, hN⟩ := (h (fun k => by
    rintro ⟨hlt, _⟩
    have := hge k
    rw [c2, show (stateAt (GaussNewton.solver (GaussNewton.dogleg (2⁻¹ ^ 52) (1/10) (1/10) maxNorm maxNorm ls shiftJac) ())
      (fun y => (shiftResiduals y, ())) () y0 st0 (0 + 1)).searchState = 1 from ht1] at this
    norm_num at this
    linarith)).2 hok (by norm_num) (by norm_num) goodNorm_maxNorm goodNorm_maxNorm
  obtain ⟨sol, h1, h2, _⟩ := hN none true (fun n h => by cases h)
  exact ⟨sol, h1, h2⟩

/-- The progress theorem applies to the nonlinear residuals `(y, sin y)` at `y = 0.7`, say, for every `eps < 1/10`. -/
example (eps : ℝ) (he : eps < 1 / 10) (y : Unit → ℝ) (hy : 2 / 5 < y ()) (hy1 : y () ≤ 1) :
    (∃ i, ∑ m, waveJac y m i * waveResiduals y m ≠ 0) ∧ CauchyVisible eps (waveJac y) (waveResiduals y) := by
  have h1 : 0 < Real.sin (y ()) := Real.sin_pos_of_pos_of_le_one (by linarith) hy1
  have h2 : 0 < Real.cos (y ()) := Real.cos_pos_of_le_one (by rw [abs_le]; constructor <;> linarith)
  have h3 := Real.cos_le_one (y ())
  have hsc : 0 < Real.cos (y ()) * Real.sin (y ()) := by positivity
  constructor
  · refine ⟨(), ?_⟩
    simp only [waveResiduals, waveJac, Matrix.of_apply, Fintype.sum_bool, if_true, Bool.false_eq_true, if_false, one_mul]
    positivity
  · right
    simp only [waveResiduals, waveJac, Matrix.of_apply, Fintype.sum_bool, if_true, Bool.false_eq_true, if_false, one_mul,
      Finset.univ_unique, Finset.sum_singleton, twoNorm, sumSquares]
    set g := y () + Real.cos (y ()) * Real.sin (y ())
    have hg : 2 / 5 < g := by show _ < y () + _; linarith
    rw [Real.sqrt_mul_self (by linarith)]
    have e : g ^ 2 / (g ^ 2 + (Real.cos (y ()) * g) ^ 2) = 1 / (1 + Real.cos (y ()) ^ 2) := by
      have : g ≠ 0 := by linarith
      field_simp
    rw [e, one_div_mul_eq_div, lt_div_iff₀ (by positivity)]
    have hc2 : Real.cos (y ()) ^ 2 ≤ 1 := Real.cos_sq_le_one _
    have : 0 ≤ Real.cos (y ()) ^ 2 := sq_nonneg _
    nlinarith

/-- Degenerate crossings do occur: at an exact solution, with a step size below one, both steps are zero. -/
example (ls : LinSolve Unit Unit) (h : (ls.rect (shiftJac fun _ => 3) (shiftResiduals fun _ => 3)).1 = fun _ => 0) :
    AtDegenerateCrossing (2⁻¹ ^ 52) (1 / 4) ls (shiftJac fun _ => 3) (shiftResiduals fun _ => 3) := by
  have hr : shiftResiduals (fun _ => 3) = fun _ => 0 := by funext; simp [shiftResiduals]
  have h1 : (Dogleg.query (2⁻¹ ^ 52) ls .twoNorm (.residualJac (shiftResiduals fun _ => 3) (shiftJac fun _ => 3))).newton =
      fun _ => 0 := by
    show (fun i => -(ls.rect (shiftJac fun _ => 3) (shiftResiduals fun _ => 3)).1 i) = _
    rw [h]; funext; simp
  have h2 : (Dogleg.query (2⁻¹ ^ 52) ls .twoNorm (.residualJac (shiftResiduals fun _ => 3) (shiftJac fun _ => 3))).cauchy =
      fun _ => 0 := by
    funext i
    simp [Dogleg.query, Dogleg.gradAndCurvature, hr, Matrix.mulVec, dotProduct]
  refine ⟨by norm_num, ?_, .inl (h1.trans h2.symm)⟩
  rw [h1, h2]
  simp [twoNorm, sumSquares]

end Verif.Props
