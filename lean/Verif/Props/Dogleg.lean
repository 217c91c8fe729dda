import Verif.Props.LevenbergMarquardt
import Verif.Model.Dogleg

/-! Property C42 (the dogleg step) and the dogleg part of C41. -/

namespace Verif.Props

open Verif Verif.Spec Verif.Driver Verif.SearchLoop Verif.Rank

variable {ι κ A : Type} [Fintype ι] [Fintype κ]

/-! ### The quadratic equation -/

theorem clipTo_real (lo hi x : ℝ) (h1 : lo ≤ x) (h2 : x ≤ hi) : clipTo lo hi x = x := by
  simp only [clipTo]
  rw [if_neg (not_lt.2 h1), if_neg (not_lt.2 h2)]

theorem clipTo_mem (lo hi x : ℝ) (h : lo ≤ hi) : lo ≤ clipTo lo hi x ∧ clipTo lo hi x ≤ hi := by
  simp only [clipTo]
  split_ifs with h1 h2 h3
  · exact ⟨h, le_rfl⟩
  · exact ⟨le_rfl, h⟩
  · exact ⟨h, le_rfl⟩
  · exact ⟨not_lt.1 h1, not_lt.1 h3⟩

theorem interpParam_mem (a b c : ℝ) : 1 ≤ Dogleg.interpParam a b c ∧ Dogleg.interpParam a b c ≤ 2 := by
  simp only [Dogleg.interpParam]
  split <;> exact clipTo_mem _ _ _ (by norm_num)

/-- A quadratic with `q(1) ≤ 0 ≤ q(2)` and positive leading coefficient: `interpParam` is a root of it in `[1, 2]`, unless
the formula divides zero by zero. -/
theorem interpParam_root (a b c : ℝ) (ha : 0 < a) (h1 : a + b + c ≤ 0) (h2 : 0 ≤ 4 * a + 2 * b + c)
    (hnd : ¬ (b < 0 ∧ c = 0)) :
    let t := Dogleg.interpParam a b c
    a * t ^ 2 + b * t + c = 0 := by
  intro t
  have hdisc : 0 ≤ b * b - 4.0 * a * c := by
    -- q(1) ≤ 0 with positive leading coefficient
    have : 0 ≤ (b + 2 * a) ^ 2 - 4 * a * (a + b + c) := by nlinarith [sq_nonneg (b + 2 * a)]
    norm_num
    nlinarith
  set s := Real.sqrt (b * b - 4.0 * a * c) with hs
  have hs0 : 0 ≤ s := Real.sqrt_nonneg _
  have hss : s * s = b * b - 4 * a * c := by
    have := Real.mul_self_sqrt hdisc
    rw [hs, this]; norm_num
  -- the larger root
  set u := (-b + s) / (2 * a) with hu
  have hroot : a * u ^ 2 + b * u + c = 0 := by
    rw [hu]
    field_simp
    nlinarith
  have hu1 : 1 ≤ u := by
    rw [hu, le_div_iff₀ (by linarith)]
    -- 2a + b ≤ s
    by_contra hc
    push Not at hc
    have : s < 2 * a + b := by linarith
    nlinarith
  have hu2 : u ≤ 2 := by
    rw [hu, div_le_iff₀ (by linarith)]
    -- s ≤ 4a + b
    have hb : 0 ≤ 4 * a + b := by
      by_contra hc
      push Not at hc
      nlinarith
    nlinarith
  have ht : t = u := by
    show (if (0:ℝ) ≤ b then clipTo 1 2 (0.5 * (-b + s) / a) else clipTo 1 2 (2 * c / (-b - s))) = u
    split
    · have : 0.5 * (-b + s) / a = u := by rw [hu]; field_simp; norm_num; ring
      rw [this, clipTo_real _ _ _ hu1 hu2]
    · rename_i hb
      push Not at hb
      have hc : c ≠ 0 := fun h => hnd ⟨hb, h⟩
      have hne : -b - s ≠ 0 := by
        intro h
        have : s = -b := by linarith
        rw [this] at hss
        have : 4 * a * c = 0 := by nlinarith
        rcases mul_eq_zero.1 this with h | h
        · linarith
        · exact hc h
      have : 2 * c / (-b - s) = u := by
        rw [div_eq_iff hne, hu]
        field_simp
        nlinarith
      rw [this, clipTo_real _ _ _ hu1 hu2]
  rw [ht]; exact hroot

/-- Over `XR` (IEEE rules) the same formula gives the same number, as long as nothing is divided by zero. -/
theorem interpParam_XR (a b c : ℝ) (ha : 0 < a) (h1 : a + b + c ≤ 0) (hnd : ¬ (b < 0 ∧ c = 0)) :
    Dogleg.interpParam (XR.fin a) (XR.fin b) (XR.fin c) = XR.fin (Dogleg.interpParam a b c) := by
  have hdisc : 0 ≤ b * b - 4.0 * a * c := by
    norm_num
    nlinarith [sq_nonneg (b + 2 * a)]
  have hsq : HasSqrt.sqrt (XR.fin (b * b - 4.0 * a * c)) = XR.fin (Real.sqrt (b * b - 4.0 * a * c)) := by
    show (if b * b - 4.0 * a * c < 0 then XR.nan else XR.fin _) = _
    rw [if_neg (not_lt.2 hdisc)]
  have hclip : ∀ x : ℝ, clipTo (1 : XR) 2 (XR.fin x) = XR.fin (clipTo 1 2 x) := by
    intro x
    simp only [clipTo, XR.one_def, XR.two_def, XR.lt_fin]
    split_ifs with h1 h2 h3 h4 h5 <;> first | rfl | (simp only [XR.lt_fin] at *; linarith)
  have e4 : (4.0 : XR) = XR.fin 4.0 := rfl
  have e5 : (0.5 : XR) = XR.fin 0.5 := rfl
  unfold Dogleg.interpParam
  simp only [e4, e5, XR.mul_fin, XR.sub_fin, hsq, XR.neg_fin, XR.add_fin, XR.zero_def, XR.le_fin, XR.two_def]
  rw [XR.div_fin _ _ ha.ne']
  by_cases hb : 0 ≤ b
  · rw [if_pos hb, if_pos hb]
    exact hclip _
  · rw [if_neg hb, if_neg hb]
    push Not at hb
    have hc : c ≠ 0 := fun h => hnd ⟨hb, h⟩
    have hne : -b - Real.sqrt (b * b - 4.0 * a * c) ≠ 0 := by
      intro h
      have hs : Real.sqrt (b * b - 4.0 * a * c) = -b := by linarith
      have hss := Real.mul_self_sqrt hdisc
      rw [hs] at hss
      have : 4 * a * c = 0 := by norm_num at hss; nlinarith
      rcases mul_eq_zero.1 this with h | h
      · linarith
      · exact hc h
    rw [XR.div_fin _ _ hne]
    exact hclip _

/-! ### C42 -/

theorem twoNorm_sq (x : ι → ℝ) : twoNorm x ^ 2 = ∑ i, x i ^ 2 := by
  unfold twoNorm sumSquares
  rw [Real.sq_sqrt (Finset.sum_nonneg fun i _ => mul_self_nonneg _)]
  exact Finset.sum_congr rfl fun i _ => by ring

theorem twoNorm_nonneg (x : ι → ℝ) : 0 ≤ twoNorm x := Real.sqrt_nonneg _

theorem twoNorm_neg (x : ι → ℝ) : twoNorm (fun i => -x i) = twoNorm x := by
  unfold twoNorm sumSquares
  congr 1
  exact Finset.sum_congr rfl fun i _ => by ring

theorem twoNorm_smul (t : ℝ) (ht : 0 ≤ t) (x : ι → ℝ) : twoNorm (fun i => t * x i) = t * twoNorm x := by
  have h : twoNorm (fun i => t * x i) ^ 2 = (t * twoNorm x) ^ 2 := by
    rw [mul_pow, twoNorm_sq, twoNorm_sq, Finset.mul_sum]
    exact Finset.sum_congr rfl fun i _ => by ring
  exact (pow_left_inj₀ (twoNorm_nonneg _) (mul_nonneg ht (twoNorm_nonneg _)) two_ne_zero).1 h

/-- On the dogleg path `0 → cauchy → newton`. -/
def OnDogleg (cauchy newton p : ι → ℝ) : Prop :=
  (∃ u, 0 ≤ u ∧ u ≤ 1 ∧ ∀ i, p i = u * cauchy i) ∨
  (∃ u, 0 ≤ u ∧ u ≤ 1 ∧ ∀ i, p i = cauchy i + u * (newton i - cauchy i))

/-- The two cases in which the closed formula for the crossing divides zero by zero: Cauchy and Newton step coincide
(only possible on this branch if both are zero), or the circle passes through the reflection of the Newton step at the
Cauchy step. -/
def CrossingDegenerate (cauchy newton : ι → ℝ) (radius : ℝ) : Prop :=
  newton = cauchy ∨
    (∑ i, cauchy i * (newton i - cauchy i) < ∑ i, (newton i - cauchy i) ^ 2 ∧
      ∑ i, (2 * cauchy i - newton i) ^ 2 = radius ^ 2)

section
variable (eps : ℝ) (st : Dogleg.State ι) (s : ℝ)

/-- The value of the quadratic at a point of the second leg is the squared length minus the squared radius. -/
theorem quadratic_value (hc : st.cauchyNorm = twoNorm st.cauchy) (R t : ℝ) :
    let q := Dogleg.coefficients st R
    q.1 * t ^ 2 + q.2.1 * t + q.2.2 = ∑ i, Dogleg.interpolate st.cauchy st.newton t i ^ 2 - R ^ 2 := by
  intro q
  have e : ∑ i, Dogleg.interpolate st.cauchy st.newton t i ^ 2 =
      ∑ i, st.cauchy i ^ 2 + 2 * (t - 1) * treeDot st.cauchy (fun i => st.newton i - st.cauchy i) +
      (t - 1) ^ 2 * ∑ i, (st.newton i - st.cauchy i) * (st.newton i - st.cauchy i) := by
    unfold treeDot Dogleg.interpolate
    rw [Finset.mul_sum, Finset.mul_sum, ← Finset.sum_add_distrib, ← Finset.sum_add_distrib]
    exact Finset.sum_congr rfl fun i _ => by ring
  rw [e, ← twoNorm_sq, ← hc]
  simp only [q, Dogleg.coefficients]
  ring

/-- **C42** (the rule).  With the Euclidean norm, at any state whose recorded norms are right and any non-negative step
size, with `R = step_size·|newton|`:
 * the step is on the path `0 → Cauchy → Newton`;
 * Cauchy point outside the region (and longer than machine epsilon): the step is the Cauchy step cut back to length `R`
   (shorter Cauchy steps give the zero step);
 * Cauchy point inside and `step_size < 1`: the step has length exactly `R`, unless the crossing is degenerate;
 * otherwise it is the Newton step. -/
theorem C42_dogleg_step_partial (heps : 0 ≤ eps) (hs : 0 ≤ s) (hc : st.cauchyNorm = twoNorm st.cauchy)
    (hn : st.newtonNorm = twoNorm st.newton) :
    let p := (Dogleg.step eps .twoNorm s st).1
    let R := s * twoNorm st.newton
    OnDogleg st.cauchy st.newton p ∧
    (R < twoNorm st.cauchy → eps < twoNorm st.cauchy →
      twoNorm p = R ∧ p = fun i => R / twoNorm st.cauchy * st.cauchy i) ∧
    (R < twoNorm st.cauchy → twoNorm st.cauchy ≤ eps → p = fun _ => 0) ∧
    (twoNorm st.cauchy ≤ R → s < 1 → ¬ CrossingDegenerate st.cauchy st.newton R → twoNorm p = R ∧
      ∃ u, 0 ≤ u ∧ u ≤ 1 ∧ ∀ i, p i = st.cauchy i + u * (st.newton i - st.cauchy i)) ∧
    (twoNorm st.cauchy ≤ R → 1 ≤ s → p = st.newton) := by
  intro p R
  have hR : st.newtonNorm * s = R := by rw [hn]; exact mul_comm _ _
  have hR0 : 0 ≤ R := mul_nonneg hs (twoNorm_nonneg _)
  have hp : p = (if R < twoNorm st.cauchy then (Dogleg.scaledCauchy eps st R, Result.successful)
      else if s < 1 then (Dogleg.interpolate st.cauchy st.newton (Dogleg.interpParam (Dogleg.coefficients st R).1
        (Dogleg.coefficients st R).2.1 (Dogleg.coefficients st R).2.2), Result.successful)
      else (st.newton, Result.successful)).1 := by
    show (Dogleg.step eps .twoNorm s st).1 = _
    unfold Dogleg.step
    simp only [hR, hc]
  set t := Dogleg.interpParam (Dogleg.coefficients st R).1 (Dogleg.coefficients st R).2.1
    (Dogleg.coefficients st R).2.2 with ht
  have htm : 1 ≤ t ∧ t ≤ 2 := interpParam_mem _ _ _
  have h1 : R < twoNorm st.cauchy → eps < twoNorm st.cauchy → p = fun i => R / twoNorm st.cauchy * st.cauchy i := by
    intro h he
    rw [hp, if_pos h]
    show Dogleg.scaledCauchy eps st R = _
    unfold Dogleg.scaledCauchy
    rw [hc, if_pos he]
    funext i; ring
  have h2 : R < twoNorm st.cauchy → twoNorm st.cauchy ≤ eps → p = fun _ => 0 := by
    intro h he
    rw [hp, if_pos h]
    show Dogleg.scaledCauchy eps st R = _
    unfold Dogleg.scaledCauchy
    rw [hc, if_neg (not_lt.2 he)]
  have h3 : twoNorm st.cauchy ≤ R → s < 1 → p = Dogleg.interpolate st.cauchy st.newton t := by
    intro h hs1
    rw [hp, if_neg (not_lt.2 h), if_pos hs1]
  have h4 : twoNorm st.cauchy ≤ R → 1 ≤ s → p = st.newton := by
    intro h hs1
    rw [hp, if_neg (not_lt.2 h), if_neg (not_lt.2 hs1)]
  have h3' : twoNorm st.cauchy ≤ R → s < 1 →
      ∃ u, 0 ≤ u ∧ u ≤ 1 ∧ ∀ i, p i = st.cauchy i + u * (st.newton i - st.cauchy i) := by
    intro h hs1
    exact ⟨t - 1, by linarith, by linarith, fun i => by rw [h3 h hs1]; rfl⟩
  refine ⟨?_, ?_, h2, ?_, h4⟩
  · by_cases h : R < twoNorm st.cauchy
    · left
      by_cases he : eps < twoNorm st.cauchy
      · have hpos : 0 < twoNorm st.cauchy := lt_of_le_of_lt heps he
        exact ⟨R / twoNorm st.cauchy, by positivity, (div_le_one hpos).2 h.le, fun i => by rw [h1 h he]⟩
      · exact ⟨0, le_rfl, by norm_num, fun i => by rw [h2 h (not_lt.1 he)]; ring⟩
    · right
      by_cases hs1 : s < 1
      · exact h3' (not_lt.1 h) hs1
      · exact ⟨1, by norm_num, le_rfl, fun i => by rw [h4 (not_lt.1 h) (not_lt.1 hs1)]; ring⟩
  · intro h he
    refine ⟨?_, h1 h he⟩
    have hpos : 0 < twoNorm st.cauchy := lt_of_le_of_lt heps he
    rw [h1 h he, twoNorm_smul _ (by positivity)]
    field_simp
  · intro h hs1 hnd
    refine ⟨?_, h3' h hs1⟩
    rw [CrossingDegenerate, not_or] at hnd
    have ha : 0 < (Dogleg.coefficients st R).1 := by
      have := sum_sq_pos_of_ne st.cauchy st.newton hnd.1
      simp only [Dogleg.coefficients]
      refine lt_of_lt_of_eq this (Finset.sum_congr rfl fun i _ => by ring)
    have q := quadratic_value st hc R
    simp only at q
    have q1 := q 1
    have q2 := q 2
    have i1 : Dogleg.interpolate st.cauchy st.newton 1 = st.cauchy := by
      funext i; simp [Dogleg.interpolate]
    have i2 : Dogleg.interpolate st.cauchy st.newton 2 = st.newton := by
      funext i; simp only [Dogleg.interpolate]; ring
    rw [i1, ← twoNorm_sq] at q1
    rw [i2, ← twoNorm_sq] at q2
    have e1 : twoNorm st.cauchy ^ 2 ≤ R ^ 2 := pow_le_pow_left₀ (twoNorm_nonneg _) h 2
    have e2 : R ^ 2 ≤ twoNorm st.newton ^ 2 := by
      apply pow_le_pow_left₀ hR0
      show s * twoNorm st.newton ≤ _
      have := mul_le_mul_of_nonneg_right hs1.le (twoNorm_nonneg st.newton)
      linarith
    have hnd' : ¬((Dogleg.coefficients st R).2.1 < 0 ∧ (Dogleg.coefficients st R).2.2 = 0) := by
      rintro ⟨hb, hcz⟩
      apply hnd.2
      have q0 := q 0
      have i0 : ∑ i, Dogleg.interpolate st.cauchy st.newton 0 i ^ 2 = ∑ i, (2 * st.cauchy i - st.newton i) ^ 2 :=
        Finset.sum_congr rfl fun i _ => by simp only [Dogleg.interpolate]; ring
      rw [i0, hcz] at q0
      refine ⟨?_, by linarith⟩
      have hb' : 2 * (treeDot st.cauchy (fun i => st.newton i - st.cauchy i) -
        ∑ i, (st.newton i - st.cauchy i) * (st.newton i - st.cauchy i)) < 0 := hb
      have e : ∑ i, (st.newton i - st.cauchy i) * (st.newton i - st.cauchy i) =
          ∑ i, (st.newton i - st.cauchy i) ^ 2 := Finset.sum_congr rfl fun i _ => by ring
      rw [e] at hb'
      unfold treeDot at hb'
      linarith
    have hroot := interpParam_root _ _ _ ha (by linarith) (by linarith) hnd'
    simp only [← ht] at hroot
    rw [q t] at hroot
    have : twoNorm p ^ 2 = R ^ 2 := by
      rw [h3 h hs1, twoNorm_sq]; linarith
    exact (pow_left_inj₀ (twoNorm_nonneg _) hR0 two_ne_zero).1 this

omit [Fintype ι] in
/-- The missing part of C42 is false of the code: at a stationary point (Newton and Cauchy step both zero) with
`step_size < 1`, the crossing parameter, computed with IEEE arithmetic, is NaN, hence so is the whole step. -/
theorem C42_stationary_is_nan (st : Dogleg.State ι) [Fintype ι] (hn : st.newton = fun _ => 0)
    (hc : st.cauchy = fun _ => 0) (R : ℝ) :
    let q := Dogleg.coefficients st R
    Dogleg.interpParam (XR.fin q.1) (XR.fin q.2.1) (XR.fin q.2.2) = XR.nan := by
  intro q
  have h1 : q.1 = 0 := by simp [q, Dogleg.coefficients, hn, hc]
  have h2 : q.2.1 = 0 := by simp [q, Dogleg.coefficients, hn, hc, treeDot]
  rw [h1, h2]
  unfold Dogleg.interpParam
  have e4 : (4.0 : XR) = XR.fin 4.0 := rfl
  have e5 : (0.5 : XR) = XR.fin 0.5 := rfl
  have hsq : HasSqrt.sqrt (XR.fin (0 * 0 - 4.0 * 0 * q.2.2)) = XR.fin 0 := by
    show (if (0:ℝ) * 0 - 4.0 * 0 * q.2.2 < 0 then XR.nan else XR.fin _) = _
    norm_num
  simp only [e4, e5, XR.mul_fin, XR.sub_fin]
  rw [hsq]
  simp only [XR.mul_fin, XR.sub_fin, XR.neg_fin, XR.add_fin, XR.zero_def, XR.le_fin, le_refl, if_true,
    neg_zero, add_zero, mul_zero]
  have hd : XR.fin 0 / XR.fin 0 = XR.nan := by
    show (if (0:ℝ) = 0 then XR.infTimes 0 else _) = _
    simp [XR.infTimes]
  rw [hd]
  simp [clipTo]

/-- Likewise when the circle passes through the reflected Newton step: NaN although the crossing exists. -/
theorem C42_reflection_is_nan (hc : st.cauchyNorm = twoNorm st.cauchy) (R : ℝ)
    (hb : ∑ i, st.cauchy i * (st.newton i - st.cauchy i) < ∑ i, (st.newton i - st.cauchy i) ^ 2)
    (hr : ∑ i, (2 * st.cauchy i - st.newton i) ^ 2 = R ^ 2) :
    let q := Dogleg.coefficients st R
    Dogleg.interpParam (XR.fin q.1) (XR.fin q.2.1) (XR.fin q.2.2) = XR.nan := by
  intro q
  have hq := quadratic_value st hc R 0
  have i0 : ∑ i, Dogleg.interpolate st.cauchy st.newton 0 i ^ 2 = ∑ i, (2 * st.cauchy i - st.newton i) ^ 2 :=
    Finset.sum_congr rfl fun i _ => by simp only [Dogleg.interpolate]; ring
  have h3 : q.2.2 = 0 := by
    rw [i0, hr] at hq
    simp only at hq
    simpa using hq
  have h2 : q.2.1 < 0 := by
    show 2 * (treeDot st.cauchy (fun i => st.newton i - st.cauchy i) -
        ∑ i, (st.newton i - st.cauchy i) * (st.newton i - st.cauchy i)) < 0
    have e : ∑ i, (st.newton i - st.cauchy i) * (st.newton i - st.cauchy i) =
        ∑ i, (st.newton i - st.cauchy i) ^ 2 := Finset.sum_congr rfl fun i _ => by ring
    rw [e]
    unfold treeDot
    linarith
  rw [h3]
  unfold Dogleg.interpParam
  have e4 : (4.0 : XR) = XR.fin 4.0 := rfl
  have e5 : (0.5 : XR) = XR.fin 0.5 := rfl
  have hsq : HasSqrt.sqrt (XR.fin (q.2.1 * q.2.1 - 4.0 * q.1 * 0)) = XR.fin (-q.2.1) := by
    show (if q.2.1 * q.2.1 - 4.0 * q.1 * 0 < 0 then XR.nan else XR.fin _) = _
    rw [mul_zero, sub_zero, if_neg (not_lt.2 (mul_self_nonneg _)), Real.sqrt_mul_self_eq_abs, abs_of_neg h2]
  simp only [e4, e5, XR.mul_fin, XR.sub_fin]
  rw [hsq]
  simp only [XR.mul_fin, XR.sub_fin, XR.neg_fin, XR.add_fin, XR.zero_def, XR.le_fin, XR.two_def,
    if_neg (not_le.2 h2), mul_zero, sub_self]
  have hd : XR.fin 0 / XR.fin 0 = XR.nan := by
    show (if (0:ℝ) = 0 then XR.infTimes 0 else _) = _
    simp [XR.infTimes]
  rw [hd]
  simp [clipTo]

end

/-- **C42**, other trust-region shapes: the crossing is found by an inner root find on `[1, 2]`.  If that stays in its
bracket the step is on the dogleg path; if it is exact the step has norm `step_size·|newton|`; and its failure is reported.-/
theorem C42_other_norm (eps : ℝ) (norm : (ι → ℝ) → ℝ) (rootFind : (ℝ → ℝ) → ℝ × Result) (st : Dogleg.State ι) (s : ℝ)
    (hin : st.cauchyNorm ≤ st.newtonNorm * s) (hs : s < 1)
    (hbr : ∀ f, 1 ≤ (rootFind f).1 ∧ (rootFind f).1 ≤ 2) :
    let p := Dogleg.step eps (.other norm rootFind) s st
    let path := fun t i => st.cauchy i + (t - 1) * (st.newton i - st.cauchy i)
    OnDogleg st.cauchy st.newton p.1 ∧
    ∃ gap : ℝ → ℝ, (∀ t, gap t = norm (path t) - st.newtonNorm * s) ∧ p.1 = path (rootFind gap).1 ∧
      (gap (rootFind gap).1 = 0 → norm p.1 = st.newtonNorm * s) ∧
      p.2 = if st.result = .successful then (rootFind gap).2 else st.result := by
  intro p path
  have hp : p = (path (rootFind fun t => norm (path t) - st.newtonNorm * s).1,
      if st.result = .successful then (rootFind fun t => norm (path t) - st.newtonNorm * s).2 else st.result) := by
    show Dogleg.step eps (.other norm rootFind) s st = _
    unfold Dogleg.step
    simp only [if_neg (not_lt.2 hin), if_pos hs]
    rfl
  refine ⟨?_, fun t => norm (path t) - st.newtonNorm * s, fun t => rfl, by rw [hp], ?_, by rw [hp]⟩
  · right
    obtain ⟨h1, h2⟩ := hbr fun t => norm (path t) - st.newtonNorm * s
    exact ⟨(rootFind fun t => norm (path t) - st.newtonNorm * s).1 - 1, by linarith, by linarith, fun i => by rw [hp]⟩
  · intro h0
    rw [hp]
    have h0' : norm (path (rootFind fun t => norm (path t) - st.newtonNorm * s).1) - st.newtonNorm * s = 0 := h0
    show norm (path (rootFind fun t => norm (path t) - st.newtonNorm * s).1) = _
    linarith

/-! #### The two base points -/

section
variable (eps : ℝ) (ls : LinSolve ι κ) (J : Matrix κ ι ℝ) (r : κ → ℝ)

/-- `|J g|²` for the gradient `g = Jᵀ r`. -/
noncomputable def curvatureAlongGradient : ℝ := ∑ k, J.mulVec (fun i => ∑ m, J m i * r m) k ^ 2

/-- **C42.** What the descent records for a residual problem: the Newton step is the negated least-squares solution, the
Cauchy step is `-τ g` with the `τ` minimising the linearised objective along the negated gradient `g = Jᵀr` (unless the
curvature `|Jg|²` is below machine epsilon, in which case it is zero), and both recorded norms are right. -/
theorem C42_base_points (heps : 0 ≤ eps) (y : ι → ℝ) (old : Dogleg.State ι) :
    let D := Dogleg.descent eps ls .twoNorm
    let st := D.query y (.residualJac r J) old
    let g := fun i => ∑ m, J m i * r m
    st.newton = (fun i => -(ls.rect J r).1 i) ∧ st.newtonNorm = twoNorm st.newton ∧
    st.cauchyNorm = twoNorm st.cauchy ∧ st.result = (ls.rect J r).2 ∧
    (curvatureAlongGradient J r ≤ eps → st.cauchy = fun _ => 0) ∧
    (eps < curvatureAlongGradient J r → ∃ τ, 0 ≤ τ ∧ st.cauchy = (fun i => -τ * g i) ∧
      τ * curvatureAlongGradient J r = ∑ i, g i ^ 2 ∧
      ∀ u, linearisedChange J r st.cauchy ≤ linearisedChange J r fun i => -u * g i) := by
  intro D st g
  have hg : J.transpose.mulVec r = g := by
    funext i; simp [Matrix.mulVec, dotProduct, g]
  have hcur : (∑ k, J.mulVec (J.transpose.mulVec r) k * J.mulVec (J.transpose.mulVec r) k) =
      curvatureAlongGradient J r := by
    rw [hg]; unfold curvatureAlongGradient
    exact Finset.sum_congr rfl fun k _ => by ring
  have hcau : st.cauchy = fun i => -(if eps < curvatureAlongGradient J r then
      sumSquares g / curvatureAlongGradient J r else 0) * g i := by
    show (fun i => -(if eps < ∑ k, J.mulVec (J.transpose.mulVec r) k * J.mulVec (J.transpose.mulVec r) k then
      sumSquares (J.transpose.mulVec r) / ∑ k, J.mulVec (J.transpose.mulVec r) k * J.mulVec (J.transpose.mulVec r) k
      else 0) * J.transpose.mulVec r i) = _
    rw [hcur, hg]
  refine ⟨rfl, (twoNorm_neg _).symm, rfl, rfl, ?_, ?_⟩
  · intro h
    rw [hcau, if_neg (not_lt.2 h)]
    funext i; ring
  · intro h
    have hpos : 0 < curvatureAlongGradient J r := lt_of_le_of_lt heps h
    have hss : sumSquares g = ∑ i, g i ^ 2 := by
      unfold sumSquares; exact Finset.sum_congr rfl fun i _ => by ring
    rw [if_pos h, hss] at hcau
    set C := curvatureAlongGradient J r with hC
    set G := ∑ i, g i ^ 2
    have hG : 0 ≤ G := Finset.sum_nonneg fun _ _ => sq_nonneg _
    refine ⟨G / C, div_nonneg hG hpos.le, hcau, by field_simp, ?_⟩
    have hval : ∀ u, linearisedChange J r (fun i => -u * g i) = -u * G + u ^ 2 * C / 2 := by
      intro u
      have hm : ∀ k, J.mulVec (fun i => -u * g i) k = -u * J.mulVec g k := by
        intro k
        simp only [Matrix.mulVec, dotProduct, Finset.mul_sum]
        exact Finset.sum_congr rfl fun i _ => by ring
      have hcross : ∑ k, J.mulVec g k * r k = G := by
        show _ = ∑ i, g i ^ 2
        have : ∀ i, g i ^ 2 = ∑ m, g i * (J m i * r m) := by
          intro i
          rw [← Finset.mul_sum, sq]
        simp only [this]
        rw [Finset.sum_comm]
        refine Finset.sum_congr rfl fun k _ => ?_
        simp only [Matrix.mulVec, dotProduct, Finset.sum_mul]
        exact Finset.sum_congr rfl fun i _ => by ring
      unfold linearisedChange
      have e : ∑ k, (J.mulVec (fun i => -u * g i) k + r k) ^ 2 =
          u ^ 2 * C - 2 * u * ∑ k, J.mulVec g k * r k + ∑ k, r k ^ 2 := by
        rw [hC, curvatureAlongGradient, Finset.mul_sum, Finset.mul_sum, ← Finset.sum_sub_distrib,
          ← Finset.sum_add_distrib]
        exact Finset.sum_congr rfl fun k _ => by rw [hm]; ring
      rw [e, hcross]; ring
    intro u
    rw [hcau, hval, hval]
    have : -u * G + u ^ 2 * C / 2 - (-(G / C) * G + (G / C) ^ 2 * C / 2) = (u - G / C) ^ 2 * C / 2 := by
      field_simp; ring
    have h0 : 0 ≤ (u - G / C) ^ 2 * C / 2 := by positivity
    linarith

/-- The Cauchy step is never longer than the Newton step. -/
theorem cauchy_le_newton (hls : SolvesLeastSquares ls) (τ : ℝ) (hτ : 0 ≤ τ)
    (h : τ * curvatureAlongGradient J r = ∑ i, (∑ m, J m i * r m) ^ 2) (hpos : 0 < curvatureAlongGradient J r) :
    twoNorm (fun i => -τ * ∑ m, J m i * r m) ≤ twoNorm fun i => -(ls.rect J r).1 i := by
  set g := fun i => ∑ m, J m i * r m with hg
  set n := fun i => -(ls.rect J r).1 i with hn
  set C := curvatureAlongGradient J r
  set G := ∑ i, g i ^ 2
  have hτ' : τ * C = G := h
  have hG : 0 ≤ G := Finset.sum_nonneg fun _ _ => sq_nonneg _
  -- normal equations: Jᵀ J n = -g
  have hne : ∀ i, ∑ k, J k i * J.mulVec n k = -g i := by
    intro i
    have := normal_equations J r _ (hls J r) i
    have e : ∑ k, J k i * (J.mulVec (ls.rect J r).1 k - r k) = -∑ k, J k i * J.mulVec n k - g i := by
      rw [← Finset.sum_neg_distrib, hg, ← Finset.sum_sub_distrib]
      refine Finset.sum_congr rfl fun k _ => ?_
      rw [hn, mulVec_neg']; ring
    linarith
  have hcross : ∀ x : ι → ℝ, ∑ k, J.mulVec x k * J.mulVec n k = -∑ i, x i * g i := by
    intro x
    rw [← Finset.sum_neg_distrib]
    have : ∀ i, -(x i * g i) = ∑ k, x i * (J k i * J.mulVec n k) := by
      intro i
      rw [← Finset.mul_sum, hne]; ring
    simp only [this]
    rw [Finset.sum_comm]
    refine Finset.sum_congr rfl fun k _ => ?_
    have hmx : J.mulVec x k = ∑ i, J k i * x i := rfl
    rw [hmx, Finset.sum_mul]
    exact Finset.sum_congr rfl fun i _ => by ring
  set Q := ∑ k, J.mulVec n k ^ 2
  have hQ : 0 ≤ Q := Finset.sum_nonneg fun _ _ => sq_nonneg _
  set N := ∑ i, n i ^ 2
  have hN : 0 ≤ N := Finset.sum_nonneg fun _ _ => sq_nonneg _
  -- (Jg)·(Jn) = -|g|², |Jn|² = -(n·g)
  have k1 : (∑ k, J.mulVec g k * J.mulVec n k) = -G := by
    rw [hcross]; congr 1; exact Finset.sum_congr rfl fun i _ => by ring
  have k2 : Q = -∑ i, n i * g i := by
    rw [← hcross]; exact Finset.sum_congr rfl fun i _ => by ring
  have c1 := Finset.sum_mul_sq_le_sq_mul_sq Finset.univ (J.mulVec g) (J.mulVec n)
  have c2 := Finset.sum_mul_sq_le_sq_mul_sq Finset.univ n g
  have c1' : G ^ 2 ≤ C * Q := by
    have : (∑ k, J.mulVec g k * J.mulVec n k) ^ 2 ≤ C * Q := c1
    rw [k1] at this; nlinarith
  have c2' : Q ^ 2 ≤ N * G := by
    have : (∑ i, n i * g i) ^ 2 ≤ N * G := c2
    rw [k2]; nlinarith
  -- τ² G ≤ N
  have key : τ ^ 2 * G ≤ N := by
    have h1 : τ * G ≤ Q := by
      have : C * (τ * G) ≤ C * Q := by nlinarith
      exact le_of_mul_le_mul_left this hpos
    have h2 : (τ * G) ^ 2 ≤ N * G := le_trans (pow_le_pow_left₀ (mul_nonneg hτ hG) h1 2) c2'
    rcases eq_or_lt_of_le hG with h0 | h0
    · rw [← h0]; simpa using hN
    · have : G * (τ ^ 2 * G) ≤ G * N := by nlinarith
      exact le_of_mul_le_mul_left this h0
  unfold twoNorm
  apply Real.sqrt_le_sqrt
  have e1 : sumSquares (fun i => -τ * g i) = τ ^ 2 * G := by
    unfold sumSquares
    rw [Finset.mul_sum]
    exact Finset.sum_congr rfl fun i _ => by ring
  have e2 : sumSquares n = N := by
    unfold sumSquares; exact Finset.sum_congr rfl fun i _ => by ring
  show sumSquares (fun i => -τ * g i) ≤ sumSquares n
  rw [e1, e2]
  exact key

/-- **C42.** With an exact linear solver the descent takes the full Newton step for every step size `≥ 1`. -/
theorem C42_newton_accepted (heps : 0 ≤ eps) (hls : SolvesLeastSquares ls) (y : ι → ℝ) (old : Dogleg.State ι) (s : ℝ)
    (hs : 1 ≤ s) :
    let D := Dogleg.descent eps ls .twoNorm
    D.step s (D.query y (.residualJac r J) old) = (fun i => -(ls.rect J r).1 i, (ls.rect J r).2) := by
  intro D
  obtain ⟨h1, h2, h3, h4, h5, h6⟩ := C42_base_points eps ls J r heps y old
  set st := D.query y (.residualJac r J) old
  have hle : twoNorm st.cauchy ≤ twoNorm st.newton := by
    by_cases hc : eps < curvatureAlongGradient J r
    · obtain ⟨τ, hτ, hcau, hτC, _⟩ := h6 hc
      have := cauchy_le_newton ls J r hls τ hτ hτC (lt_of_le_of_lt heps hc)
      have e1 : st.cauchy = fun i => -τ * ∑ m, J m i * r m := hcau
      have e2 : st.newton = fun i => -(ls.rect J r).1 i := h1
      rw [e1, e2]
      exact this
    · have e1 : st.cauchy = fun _ => 0 := h5 (not_lt.1 hc)
      rw [e1]
      have : twoNorm (fun _ : ι => (0:ℝ)) = 0 := by simp [twoNorm, sumSquares]
      rw [this]; exact twoNorm_nonneg _
  have hR : twoNorm st.cauchy ≤ s * twoNorm st.newton :=
    hle.trans (le_mul_of_one_le_left (twoNorm_nonneg _) hs)
  have hp := (C42_dogleg_step_partial eps st s heps (by linarith) h3 h2).2.2.2.2 hR hs
  have hres : (D.step s st).2 = (ls.rect J r).2 := by
    have hno : ¬ st.newtonNorm * s < st.cauchyNorm := by
      have e2 : st.newtonNorm = twoNorm st.newton := h2
      have e3 : st.cauchyNorm = twoNorm st.cauchy := h3
      rw [e2, e3, mul_comm]; exact not_lt.2 hR
    have h4' : st.result = (ls.rect J r).2 := h4
    show (Dogleg.step eps .twoNorm s st).2 = _
    unfold Dogleg.step
    simp only [if_neg hno, if_neg (not_lt.2 hs), h4']
    split
    · rename_i h; rw [h]
    · rfl
  have hp' : (D.step s st).1 = fun i => -(ls.rect J r).1 i := hp
  exact Prod.ext hp' hres

/-! ### C41 for the dogleg solver -/

omit [Fintype ι] in
theorem linearisedChange_convex [Fintype ι] (p q : ι → ℝ) (u : ℝ) (h0 : 0 ≤ u) (h1 : u ≤ 1) :
    linearisedChange J r (fun i => p i + u * (q i - p i)) ≤
      (1 - u) * linearisedChange J r p + u * linearisedChange J r q := by
  have hm : ∀ k, J.mulVec (fun i => p i + u * (q i - p i)) k = (1 - u) * J.mulVec p k + u * J.mulVec q k := by
    intro k
    simp only [Matrix.mulVec, dotProduct, Finset.mul_sum, ← Finset.sum_add_distrib]
    exact Finset.sum_congr rfl fun i _ => by ring
  unfold linearisedChange
  have e : ∑ k, (J.mulVec (fun i => p i + u * (q i - p i)) k + r k) ^ 2 ≤
      (1 - u) * ∑ k, (J.mulVec p k + r k) ^ 2 + u * ∑ k, (J.mulVec q k + r k) ^ 2 := by
    rw [Finset.mul_sum, Finset.mul_sum, ← Finset.sum_add_distrib]
    refine Finset.sum_le_sum fun k _ => ?_
    rw [hm]
    nlinarith [mul_nonneg (mul_nonneg h0 (sub_nonneg.2 h1)) (sq_nonneg (J.mulVec p k - J.mulVec q k))]
  nlinarith

/-- **C42.** Every dogleg step has non-positive predicted change (exact linear solver, non-negative step size). -/
theorem C42_predicted_decrease (heps : 0 ≤ eps) (hls : SolvesLeastSquares ls) (y : ι → ℝ) (old : Dogleg.State ι) (s : ℝ)
    (hs : 0 ≤ s) :
    let D := Dogleg.descent eps ls .twoNorm
    linearisedChange J r (D.step s (D.query y (.residualJac r J) old)).1 ≤ 0 := by
  intro D
  obtain ⟨h1, h2, h3, h4, h5, h6⟩ := C42_base_points eps ls J r heps y old
  set st := D.query y (.residualJac r J) old
  have hz : J.mulVec (fun _ => (0:ℝ)) = 0 := Matrix.mulVec_zero J
  have hzero : linearisedChange J r (fun _ => 0) = 0 := by
    unfold linearisedChange; simp [hz]
  have hnew : linearisedChange J r st.newton ≤ 0 := by
    have e : st.newton = fun i => -(ls.rect J r).1 i := h1
    rw [e]
    have := hls J r fun _ => 0
    unfold linearisedChange
    simp only [hz, Pi.zero_apply, zero_sub, neg_sq] at this
    have e2 : ∑ k, (J.mulVec (fun i => -(ls.rect J r).1 i) k + r k) ^ 2 =
        ∑ k, (J.mulVec (ls.rect J r).1 k - r k) ^ 2 :=
      Finset.sum_congr rfl fun k _ => by rw [mulVec_neg']; ring
    rw [e2]
    linarith
  have hcau : linearisedChange J r st.cauchy ≤ 0 := by
    by_cases hc : eps < curvatureAlongGradient J r
    · obtain ⟨τ, hτ, hcau, hτC, hmin⟩ := h6 hc
      have := hmin 0
      simp only [neg_zero, zero_mul] at this
      rw [hzero] at this
      exact this
    · have e1 : st.cauchy = fun _ => 0 := h5 (not_lt.1 hc)
      rw [e1, hzero]
  rcases (C42_dogleg_step_partial eps st s heps hs h3 h2).1 with ⟨u, hu0, hu1, hp⟩ | ⟨u, hu0, hu1, hp⟩
  · have := linearisedChange_convex J r (fun _ => 0) st.cauchy u hu0 hu1
    rw [hzero] at this
    have e : (D.step s st).1 = fun i => 0 + u * (st.cauchy i - 0) := by
      funext i; rw [zero_add, sub_zero]; exact hp i
    rw [e]
    nlinarith
  · have := linearisedChange_convex J r st.cauchy st.newton u hu0 hu1
    have e : (D.step s st).1 = fun i => st.cauchy i + u * (st.newton i - st.cauchy i) := funext hp
    rw [e]
    nlinarith

end

/-- **C41** for `Dogleg`.  (The degenerate crossings of C42, where the code computes NaN, are here the Cauchy step; a trial
with NaN objective is rejected, C29, so the claim is not affected.) -/
theorem C41_dogleg (eps rtol atol : ℝ) (he : 0 ≤ eps) (nY : (ι → ℝ) → ℝ) (nF : (κ → ℝ) → ℝ) (ls : LinSolve ι κ)
    (hls : SolvesLeastSquares ls) (jac : (ι → ℝ) → Matrix κ ι ℝ) (aux0 : A) (fn : (ι → ℝ) → (κ → ℝ) × A) (y0 : ι → ℝ) :
    let S := GaussNewton.solver (GaussNewton.dogleg eps rtol atol nY nF ls jac) aux0
    (∀ st0, S.init fn y0 = .ok st0 → ∀ j k, j ≤ k →
      ∑ m, (fn (iterateAt S fn aux0 y0 st0 k)).1 m ^ 2 ≤ ∑ m, (fn (iterateAt S fn aux0 y0 st0 j)).1 m ^ 2) ∧
    ∀ af ms throw sol, iterativeSolve S af fn aux0 y0 ms throw = some (.ok sol) →
      ∑ m, (fn sol.value).1 m ^ 2 ≤ ∑ m, (fn y0).1 m ^ 2 :=
  C41_monotone TrustRegion.defaults (by norm_num [TrustRegion.defaults]) (by norm_num [TrustRegion.defaults])
    (by norm_num [TrustRegion.defaults]) _ (GaussNewton.dogleg eps rtol atol nY nF ls jac) rfl
    (fun y' d' t r J ht => C42_predicted_decrease eps ls J r he hls y' d' t ht.le) aux0 fn y0

/-- C42 is not vacuous: Cauchy step `(1, 0)`, Newton step `(0, 4)` at step size `1/2`, so `R = 2`; the crossing is not
degenerate. -/
example : ¬ CrossingDegenerate ![(1:ℝ), 0] ![0, 4] 2 ∧ twoNorm ![(1:ℝ), 0] ≤ 2 ∧ (2:ℝ) ≤ twoNorm ![(0:ℝ), 4] := by
  refine ⟨?_, ?_, ?_⟩
  · rintro (h | ⟨_, h⟩)
    · have := congrFun h 0; norm_num at this
    · norm_num [Fin.sum_univ_two] at h
  · rw [twoNorm, Real.sqrt_le_left (by norm_num)]; norm_num [sumSquares, Fin.sum_univ_two]
  · apply Real.le_sqrt_of_sq_le; norm_num [sumSquares, Fin.sum_univ_two]

/-- And the degenerate case occurs: Cauchy `(3, 6)`, Newton `(0, 20)`, step size `1/2`, so `R = 10`. -/
example : CrossingDegenerate ![(3:ℝ), 6] ![0, 20] (1 / 2 * 20) ∧ twoNorm ![(3:ℝ), 6] ≤ 10 := by
  refine ⟨Or.inr ⟨?_, ?_⟩, ?_⟩
  · norm_num [Fin.sum_univ_two]
  · norm_num [Fin.sum_univ_two]
  · rw [twoNorm, Real.sqrt_le_left (by norm_num)]; norm_num [sumSquares, Fin.sum_univ_two]

end Verif.Props
