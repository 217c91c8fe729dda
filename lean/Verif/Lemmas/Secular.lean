import Verif.Model.Misc
import Mathlib.LinearAlgebra.Matrix.Adjugate
import Mathlib.LinearAlgebra.Matrix.NonsingularInverse
import Mathlib.LinearAlgebra.Matrix.ToLinearEquiv
import Mathlib.Analysis.Calculus.Deriv.Mul
import Mathlib.Analysis.Calculus.Deriv.Inv
import Mathlib.Analysis.Calculus.FDeriv.Mul
import Mathlib.Analysis.Calculus.LocalExtr.Basic
import Mathlib.Analysis.SpecialFunctions.Sqrt

/-!
Proof devices for the inner root find of `IndirectDampedNewtonDescent`: the length `N(l) = |p(l)|` of the damped step, where
`(A + l) p(l) = -g`, as a function of the damping `l > 0`.
-/

namespace Verif.Secular

open Verif Matrix

variable {ι : Type} [Fintype ι]

/-- `A` is symmetric and positive semidefinite. -/
structure Psd (A : Matrix ι ι ℝ) : Prop where
  symm : ∀ x y : ι → ℝ, x ⬝ᵥ A *ᵥ y = A *ᵥ x ⬝ᵥ y
  nonneg : ∀ x : ι → ℝ, 0 ≤ x ⬝ᵥ A *ᵥ x

/-- `(A + l) p = v`. -/
def Solves (A : Matrix ι ι ℝ) (l : ℝ) (p v : ι → ℝ) : Prop := A *ᵥ p + l • p = v

theorem self_nonneg (x : ι → ℝ) : 0 ≤ x ⬝ᵥ x := Finset.sum_nonneg fun i _ => mul_self_nonneg _

theorem self_eq_zero {x : ι → ℝ} (h : x ⬝ᵥ x = 0) : x = 0 := by
  have := (Finset.sum_eq_zero_iff_of_nonneg fun i _ => mul_self_nonneg (x i)).1 h
  funext i
  exact mul_self_eq_zero.1 (this i (Finset.mem_univ i))

theorem self_pos {x : ι → ℝ} (h : x ≠ 0) : 0 < x ⬝ᵥ x :=
  lt_of_le_of_ne (self_nonneg x) fun h0 => h (self_eq_zero h0.symm)

theorem cs (x y : ι → ℝ) : (x ⬝ᵥ y) ^ 2 ≤ (x ⬝ᵥ x) * (y ⬝ᵥ y) := by
  have := Finset.sum_mul_sq_le_sq_mul_sq Finset.univ x y
  simpa only [dotProduct, sq] using this

theorem cs_sqrt (x y : ι → ℝ) : x ⬝ᵥ y ≤ Real.sqrt (x ⬝ᵥ x) * Real.sqrt (y ⬝ᵥ y) := by
  rw [← Real.sqrt_mul (self_nonneg x)]
  exact Real.le_sqrt_of_sq_le (cs x y)

/-- `|(A + l) e|²`-type identity. -/
theorem two_shifts {A : Matrix ι ι ℝ} (hA : Psd A) (l m : ℝ) (hl : 0 ≤ l) (hm : 0 ≤ m) (e : ι → ℝ) :
    0 ≤ (A *ᵥ e + l • e) ⬝ᵥ (A *ᵥ e + m • e) := by
  simp only [add_dotProduct, dotProduct_add, smul_dotProduct, dotProduct_smul, smul_eq_mul]
  have h1 := self_nonneg (A *ᵥ e)
  have h2 := hA.nonneg e
  have h3 := self_nonneg e
  have h4 : A *ᵥ e ⬝ᵥ e = e ⬝ᵥ A *ᵥ e := dotProduct_comm _ _
  rw [h4]
  have := mul_nonneg hl h2
  have := mul_nonneg hm h2
  have := mul_nonneg hl (mul_nonneg hm h3)
  linarith

/-- Shifts of `A` are symmetric. -/
theorem shift_symm {A : Matrix ι ι ℝ} (hA : Psd A) (l : ℝ) (x y : ι → ℝ) :
    x ⬝ᵥ (A *ᵥ y + l • y) = (A *ᵥ x + l • x) ⬝ᵥ y := by
  simp only [add_dotProduct, dotProduct_add, smul_dotProduct, dotProduct_smul, hA.symm]

/-- The shifted matrix is invertible. -/
theorem exists_solves [DecidableEq ι] {A : Matrix ι ι ℝ} (hA : Psd A) (l : ℝ) (hl : 0 < l) : (A + l • (1 : Matrix ι ι ℝ)).det ≠ 0 := by
  intro h
  obtain ⟨x, hx, h0⟩ := Matrix.exists_mulVec_eq_zero_iff.2 h
  rw [Matrix.add_mulVec, Matrix.smul_mulVec, Matrix.one_mulVec] at h0
  have h1 : x ⬝ᵥ (A *ᵥ x + l • x) = 0 := by rw [h0, dotProduct_zero]
  simp only [dotProduct_add, dotProduct_smul, smul_eq_mul] at h1
  have := hA.nonneg x
  have := mul_pos hl (self_pos hx)
  linarith

theorem solves_exists {A : Matrix ι ι ℝ} (hA : Psd A) (l : ℝ) (hl : 0 < l) (v : ι → ℝ) : ∃ p, Solves A l p v := by
  classical
  have hd := exists_solves hA l hl
  refine ⟨(A + l • (1 : Matrix ι ι ℝ))⁻¹ *ᵥ v, ?_⟩
  have h : (A + l • (1 : Matrix ι ι ℝ)) *ᵥ ((A + l • (1 : Matrix ι ι ℝ))⁻¹ *ᵥ v) = v := by
    rw [Matrix.mulVec_mulVec, Matrix.mul_nonsing_inv _ (isUnit_iff_ne_zero.2 hd), Matrix.one_mulVec]
  rw [Matrix.add_mulVec, Matrix.smul_mulVec, Matrix.one_mulVec] at h
  exact h

theorem solves_eq [DecidableEq ι] {A : Matrix ι ι ℝ} (hA : Psd A) (l : ℝ) (hl : 0 < l) (p v : ι → ℝ) (h : Solves A l p v) :
    p = ((A + l • (1 : Matrix ι ι ℝ)).det)⁻¹ • ((A + l • (1 : Matrix ι ι ℝ)).adjugate *ᵥ v) := by
  have hd := exists_solves hA l hl
  have h' : (A + l • (1 : Matrix ι ι ℝ)) *ᵥ p = v := by
    rw [Matrix.add_mulVec, Matrix.smul_mulVec, Matrix.one_mulVec]; exact h
  rw [← h', Matrix.mulVec_mulVec, Matrix.adjugate_mul, Matrix.smul_mulVec, Matrix.one_mulVec, smul_smul, inv_mul_cancel₀ hd,
    one_smul]

/-- The length of the solution lies above a line of negative slope, at least `-N(l)/l`, that touches it at `l`. -/
theorem tangent {A : Matrix ι ι ℝ} (hA : Psd A) (l : ℝ) (hl : 0 < l) (p v : ι → ℝ) (hp : Solves A l p v) (hv : v ≠ 0) :
    ∃ c, c < 0 ∧ -(Real.sqrt (p ⬝ᵥ p) / l) ≤ c ∧
      ∀ m q, 0 < m → Solves A m q v → Real.sqrt (p ⬝ᵥ p) + c * (m - l) ≤ Real.sqrt (q ⬝ᵥ q) := by
  have hp0 : p ≠ 0 := by
    rintro rfl
    apply hv
    rw [← hp]; simp
  have hpp := self_pos hp0
  set P := Real.sqrt (p ⬝ᵥ p) with hP
  have hP0 : 0 < P := Real.sqrt_pos.2 hpp
  have hP2 : P ^ 2 = p ⬝ᵥ p := Real.sq_sqrt hpp.le
  obtain ⟨w, hw⟩ := solves_exists hA l hl p
  have hw' : A *ᵥ w + l • w = p := hw
  have hw0 : w ≠ 0 := by
    rintro rfl
    apply hp0
    rw [← hw]; simp
  have hpw : p ⬝ᵥ w = w ⬝ᵥ A *ᵥ w + l * (w ⬝ᵥ w) := by
    rw [dotProduct_comm]
    nth_rewrite 1 [← hw']
    simp only [dotProduct_add, dotProduct_smul, smul_eq_mul]
  have hww := self_pos hw0
  have hpw0 : l * (w ⬝ᵥ w) ≤ p ⬝ᵥ w := by rw [hpw]; linarith [hA.nonneg w]
  have hpw1 : 0 < p ⬝ᵥ w := lt_of_lt_of_le (mul_pos hl hww) hpw0
  refine ⟨-(p ⬝ᵥ w / P), by simp only [neg_neg_iff_pos]; positivity, ?_, ?_⟩
  · rw [neg_le_neg_iff, div_le_div_iff₀ hP0 hl]
    have h := cs p w
    have h2 : (p ⬝ᵥ w) * l ≤ p ⬝ᵥ p := by
      have : (p ⬝ᵥ w) ^ 2 * l ≤ (p ⬝ᵥ p) * (p ⬝ᵥ w) := by
        calc (p ⬝ᵥ w) ^ 2 * l ≤ (p ⬝ᵥ p) * (w ⬝ᵥ w) * l := mul_le_mul_of_nonneg_right h hl.le
          _ = (p ⬝ᵥ p) * (l * (w ⬝ᵥ w)) := by ring
          _ ≤ _ := mul_le_mul_of_nonneg_left hpw0 hpp.le
      refine le_of_mul_le_mul_right ?_ hpw1
      linarith
    linarith [hP2]
  · intro m q hm hq
    have hq' : A *ᵥ q + m • q = v := hq
    have hp' : A *ᵥ p + l • p = v := hp
    set d := p - q with hd
    have hd1 : A *ᵥ d + m • d = (m - l) • p := by
      rw [hd, Matrix.mulVec_sub, smul_sub, sub_smul]
      have : A *ᵥ p = v - l • p := eq_sub_of_add_eq hp'
      have h2 : A *ᵥ q = v - m • q := eq_sub_of_add_eq hq'
      rw [this, h2]; abel
    set e := (m - l) • w - d with he
    have he1 : A *ᵥ e + l • e = (m - l) • d := by
      have h1 : A *ᵥ d = (m - l) • p - m • d := eq_sub_of_add_eq hd1
      have h2 : A *ᵥ w = p - l • w := eq_sub_of_add_eq hw'
      rw [he, Matrix.mulVec_sub, Matrix.mulVec_smul, h1, h2]
      funext i
      simp only [Pi.add_apply, Pi.sub_apply, Pi.smul_apply, smul_eq_mul]
      ring
    -- (m - l)² e·p ≥ 0
    have hep : 0 ≤ (m - l) ^ 2 * (e ⬝ᵥ p) := by
      have h1 := two_shifts hA l m hl.le hm.le e
      rw [he1, smul_dotProduct, shift_symm hA m d e, hd1, smul_dotProduct, smul_eq_mul, smul_eq_mul] at h1
      rw [dotProduct_comm e p]
      linarith
    have hqp : q ⬝ᵥ p = p ⬝ᵥ p - d ⬝ᵥ p := by rw [hd, sub_dotProduct]; ring
    have hle : d ⬝ᵥ p ≤ (m - l) * (p ⬝ᵥ w) := by
      rcases eq_or_ne m l with rfl | hne
      · have : d ⬝ᵥ d = 0 := by
          have h1 : d ⬝ᵥ (A *ᵥ d + m • d) = 0 := by rw [hd1]; simp
          simp only [dotProduct_add, dotProduct_smul, smul_eq_mul] at h1
          have := hA.nonneg d
          have h3 := self_nonneg d
          have : m * (d ⬝ᵥ d) ≤ 0 := by linarith
          by_contra hc
          have := mul_pos hm (lt_of_le_of_ne h3 (Ne.symm hc))
          linarith
        rw [self_eq_zero this]; simp
      · have hpos : 0 < (m - l) ^ 2 := by
          have : m - l ≠ 0 := sub_ne_zero.2 hne
          positivity
        have h1 : 0 ≤ e ⬝ᵥ p := by
          by_contra hc
          push Not at hc
          have := mul_neg_of_pos_of_neg hpos hc
          linarith
        rw [he, sub_dotProduct, smul_dotProduct, smul_eq_mul, dotProduct_comm w p] at h1
        linarith
    have hcs := cs_sqrt q p
    rw [hqp] at hcs
    set Qn := Real.sqrt (q ⬝ᵥ q)
    have h2 : (P + -(p ⬝ᵥ w / P) * (m - l)) * P ≤ Qn * P := by
      have e1 : (P + -(p ⬝ᵥ w / P) * (m - l)) * P = P ^ 2 - (m - l) * (p ⬝ᵥ w) := by field_simp; ring
      rw [e1, hP2]
      linarith
    exact le_of_mul_le_mul_right h2 hP0

/-- Length of the solution: at most `|v|/l`, at least `|v|/(B + l)`. -/
theorem length_le {A : Matrix ι ι ℝ} (hA : Psd A) (l : ℝ) (hl : 0 ≤ l) (p v : ι → ℝ) (hp : Solves A l p v) :
    l * Real.sqrt (p ⬝ᵥ p) ≤ Real.sqrt (v ⬝ᵥ v) := by
  rcases (Real.sqrt_nonneg (p ⬝ᵥ p)).eq_or_lt with h0 | h0
  · rw [← h0, mul_zero]; exact Real.sqrt_nonneg _
  have h1 : l * (p ⬝ᵥ p) ≤ v ⬝ᵥ p := by
    rw [dotProduct_comm v p, ← show A *ᵥ p + l • p = v from hp]
    simp only [dotProduct_add, dotProduct_smul, smul_eq_mul]
    linarith [hA.nonneg p]
  have h2 := cs_sqrt v p
  have h3 := Real.mul_self_sqrt (self_nonneg p)
  refine le_of_mul_le_mul_right ?_ h0
  calc l * Real.sqrt (p ⬝ᵥ p) * Real.sqrt (p ⬝ᵥ p) = l * (p ⬝ᵥ p) := by rw [mul_assoc, h3]
    _ ≤ _ := h1.trans h2

theorem length_ge {A : Matrix ι ι ℝ} (B : ℝ) (hB : 0 ≤ B) (hAB : ∀ x : ι → ℝ, Real.sqrt (A *ᵥ x ⬝ᵥ A *ᵥ x) ≤ B * Real.sqrt (x ⬝ᵥ x))
    (l : ℝ) (hl : 0 ≤ l) (p v : ι → ℝ) (hp : Solves A l p v) :
    Real.sqrt (v ⬝ᵥ v) ≤ (B + l) * Real.sqrt (p ⬝ᵥ p) := by
  have h1 := hAB p
  have h2 := cs_sqrt (A *ᵥ p) p
  have h3 := Real.sq_sqrt (self_nonneg p)
  have h4 := Real.sq_sqrt (self_nonneg (A *ᵥ p))
  have h5 := Real.sqrt_nonneg (p ⬝ᵥ p)
  have h6 := Real.sqrt_nonneg (A *ᵥ p ⬝ᵥ A *ᵥ p)
  have hvv : v ⬝ᵥ v = A *ᵥ p ⬝ᵥ A *ᵥ p + 2 * l * (A *ᵥ p ⬝ᵥ p) + l ^ 2 * (p ⬝ᵥ p) := by
    rw [← show A *ᵥ p + l • p = v from hp]
    simp only [add_dotProduct, dotProduct_add, smul_dotProduct, dotProduct_smul, smul_eq_mul]
    rw [dotProduct_comm p (A *ᵥ p)]
    ring
  refine Real.sqrt_le_iff.2 ⟨by positivity, ?_⟩
  rw [hvv, ← h4]
  set a := Real.sqrt (A *ᵥ p ⬝ᵥ A *ᵥ p)
  set b := Real.sqrt (p ⬝ᵥ p)
  rw [← h3]
  have h7 : a * b ≤ B * b * b := mul_le_mul_of_nonneg_right h1 h5
  have h8 : a ^ 2 ≤ (B * b) ^ 2 := pow_le_pow_left₀ h6 h1 2
  have h9 := mul_le_mul_of_nonneg_left (h2.trans h7) hl
  nlinarith

/-- Determinants of matrices that depend differentiably on a number do so too. -/
theorem differentiableAt_det [DecidableEq ι] (M : ℝ → Matrix ι ι ℝ) (x : ℝ) (h : ∀ i j, DifferentiableAt ℝ (fun t => M t i j) x) :
    DifferentiableAt ℝ (fun t => (M t).det) x := by
  simp only [Matrix.det_apply]
  refine DifferentiableAt.fun_sum fun σ _ => ?_
  refine DifferentiableAt.fun_const_smul ?_ _
  exact DifferentiableAt.fun_finset_prod fun i _ => h _ _

/-- The length of the solution is a differentiable function of the shift. -/
theorem differentiableAt_length {A : Matrix ι ι ℝ} (hA : Psd A) (v : ι → ℝ) (hv : v ≠ 0) (N : ℝ → ℝ) (E : ℝ)
    (hN : ∀ l, 0 < l → l < E → ∃ p, Solves A l p v ∧ N l = Real.sqrt (p ⬝ᵥ p)) (l : ℝ) (hl : 0 < l) (hE : l < E) :
    DifferentiableAt ℝ N l := by
  classical
  set M : ℝ → Matrix ι ι ℝ := fun t => A + t • (1 : Matrix ι ι ℝ) with hM
  set q : ℝ → ι → ℝ := fun t => ((M t).det)⁻¹ • ((M t).adjugate *ᵥ v) with hq
  have hMd : ∀ i j, DifferentiableAt ℝ (fun t => M t i j) l := by
    intro i j
    simp only [hM, Matrix.add_apply, Matrix.smul_apply, smul_eq_mul]
    fun_prop
  have hadj : ∀ i j, DifferentiableAt ℝ (fun t => (M t).adjugate i j) l := by
    intro i j
    simp only [Matrix.adjugate_apply]
    refine differentiableAt_det _ _ fun a b => ?_
    simp only [Matrix.updateRow_apply]
    split
    · exact differentiableAt_const _
    · exact hMd _ _
  have hdet : (M l).det ≠ 0 := exists_solves hA l hl
  have hqd : ∀ i, DifferentiableAt ℝ (fun t => q t i) l := by
    intro i
    simp only [hq, Pi.smul_apply, smul_eq_mul, Matrix.mulVec, dotProduct]
    refine DifferentiableAt.fun_mul ((differentiableAt_det M l hMd).fun_inv hdet) ?_
    refine DifferentiableAt.fun_sum fun j _ => ?_
    exact (hadj i j).mul_const _
  have hqq : DifferentiableAt ℝ (fun t => q t ⬝ᵥ q t) l := by
    simp only [dotProduct]
    exact DifferentiableAt.fun_sum fun i _ => (hqd i).fun_mul (hqd i)
  have hql : q l ⬝ᵥ q l ≠ 0 := by
    obtain ⟨p, hp, _⟩ := hN l hl hE
    have e : p = q l := solves_eq hA l hl p v hp
    rw [← e]
    refine (self_pos ?_).ne'
    rintro rfl
    apply hv
    rw [← hp]; simp
  refine (hqq.sqrt hql).congr_of_eventuallyEq ?_
  filter_upwards [Ioo_mem_nhds hl hE] with t ht
  obtain ⟨p, hp, hNp⟩ := hN t ht.1 ht.2
  rw [hNp, solves_eq hA t ht.1 p v hp]

/-- One Newton step on `N(l) = Δ`.  It does not pass any point with `N ≤ Δ`; and it multiplies `l` by at least
`2 - Δ/N(l)`. -/
theorem newton_step {A : Matrix ι ι ℝ} (hA : Psd A) (v : ι → ℝ) (hv : v ≠ 0) (N : ℝ → ℝ) (E : ℝ)
    (hN : ∀ l, 0 < l → l < E → ∃ p, Solves A l p v ∧ N l = Real.sqrt (p ⬝ᵥ p)) (l : ℝ) (hl : 0 < l) (hE : l < E) (Δ : ℝ) :
    deriv N l < 0 ∧
    (∀ U, 0 < U → U < E → N U ≤ Δ → l - (N l - Δ) / deriv N l ≤ U) ∧
    (0 < N l) ∧ (Δ ≤ N l → l * (2 - Δ / N l) ≤ l - (N l - Δ) / deriv N l) := by
  obtain ⟨p, hp, hNp⟩ := hN l hl hE
  obtain ⟨c, hc0, hc1, hc⟩ := tangent hA l hl p v hp hv
  rw [← hNp] at hc1 hc
  have hdiff := differentiableAt_length hA v hv N E hN l hl hE
  -- the slope is the derivative
  have hder : deriv N l = c := by
    have hmin : IsLocalMin (fun m => N m - (N l + c * (m - l))) l := by
      filter_upwards [Ioo_mem_nhds hl hE] with m hm
      obtain ⟨q, hq, hNq⟩ := hN m hm.1 hm.2
      have := hc m q hm.1 hq
      rw [← hNq] at this
      simp only [sub_self, mul_zero, add_zero]
      linarith
    have hd : HasDerivAt (fun m => N m - (N l + c * (m - l))) (deriv N l - c) l := by
      have h1 : HasDerivAt (fun m => N l + c * (m - l)) c l := by
        have := (((hasDerivAt_id l).sub_const l).const_mul c).const_add (N l)
        simpa using this
      exact hdiff.hasDerivAt.fun_sub h1
    have := hmin.hasDerivAt_eq_zero hd
    linarith
  have hNl : 0 < N l := by
    rw [hNp]
    refine Real.sqrt_pos.2 (self_pos ?_)
    rintro rfl
    apply hv
    rw [← hp]; simp
  rw [hder]
  refine ⟨hc0, ?_, hNl, ?_⟩
  · intro U hU hUE hUΔ
    obtain ⟨q, hq, hNq⟩ := hN U hU hUE
    have h1 := hc U q hU hq
    rw [← hNq] at h1
    have h2 : c * (U - l) ≤ -(N l - Δ) := by linarith
    rw [sub_le_iff_le_add, ← sub_le_iff_le_add', le_div_iff_of_neg hc0]
    linarith
  · intro hle
    have e : l * (2 - Δ / N l) = l + l * ((N l - Δ) / N l) := by field_simp; ring
    rw [e, show l - (N l - Δ) / c = l + (N l - Δ) / -c by rw [div_neg]; ring]
    refine add_le_add_right ?_ l
    rw [le_div_iff₀ (by linarith)]
    have h1 : -c ≤ N l / l := by linarith
    have h2 : 0 ≤ l * ((N l - Δ) / N l) := mul_nonneg hl.le (div_nonneg (by linarith) hNl.le)
    calc l * ((N l - Δ) / N l) * -c ≤ l * ((N l - Δ) / N l) * (N l / l) := mul_le_mul_of_nonneg_left h1 h2
      _ = N l - Δ := by field_simp

end Verif.Secular
