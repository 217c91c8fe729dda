import Verif.Model.QuasiNewton
import Verif.Spec.Matrix
import Mathlib.Tactic.FieldSimp
import Mathlib.Tactic.LinearCombination
import Mathlib.LinearAlgebra.Matrix.NonsingularInverse

/-! Dot products, rank-one matrices and quadratic forms. -/

namespace Verif.Rank

open Verif Verif.Spec Verif.QuasiNewton

variable {ι : Type} [Fintype ι]

theorem dot_comm (x y : ι → ℝ) : treeDot x y = treeDot y x :=
  Finset.sum_congr rfl fun i _ => mul_comm _ _

theorem dot_add (x y z : ι → ℝ) : treeDot x (fun i => y i + z i) = treeDot x y + treeDot x z := by
  unfold treeDot; rw [← Finset.sum_add_distrib]; exact Finset.sum_congr rfl fun i _ => by ring

theorem dot_sub (x y z : ι → ℝ) : treeDot x (fun i => y i - z i) = treeDot x y - treeDot x z := by
  unfold treeDot; rw [← Finset.sum_sub_distrib]; exact Finset.sum_congr rfl fun i _ => by ring

theorem dot_smul (c : ℝ) (x y : ι → ℝ) : treeDot x (fun i => c * y i) = c * treeDot x y := by
  unfold treeDot; rw [Finset.mul_sum]; exact Finset.sum_congr rfl fun i _ => by ring

theorem mulVec_apply (M : Matrix ι ι ℝ) (x : ι → ℝ) (i : ι) : M.mulVec x i = treeDot (M i) x := rfl

theorem mulVec_add' (M : Matrix ι ι ℝ) (x y : ι → ℝ) :
    M.mulVec (fun i => x i + y i) = fun i => M.mulVec x i + M.mulVec y i := by
  funext i; simp only [mulVec_apply, dot_add]

theorem mulVec_sub' (M : Matrix ι ι ℝ) (x y : ι → ℝ) :
    M.mulVec (fun i => x i - y i) = fun i => M.mulVec x i - M.mulVec y i := by
  funext i; simp only [mulVec_apply, dot_sub]

theorem mulVec_smul' (M : Matrix ι ι ℝ) (c : ℝ) (x : ι → ℝ) :
    M.mulVec (fun i => c * x i) = fun i => c * M.mulVec x i := by
  funext i; simp only [mulVec_apply, dot_smul]

/-- Symmetric matrices are self-adjoint. -/
theorem symm_dot (M : Matrix ι ι ℝ) (h : ∀ i j, M i j = M j i) (x y : ι → ℝ) :
    treeDot x (M.mulVec y) = treeDot y (M.mulVec x) := by
  simp only [treeDot, Matrix.mulVec, dotProduct, Finset.mul_sum]
  rw [Finset.sum_comm]
  refine Finset.sum_congr rfl fun i _ => Finset.sum_congr rfl fun j _ => ?_
  rw [h i j]; ring

theorem quad_eq (M : Matrix ι ι ℝ) (x : ι → ℝ) : ∑ i, ∑ j, x i * M i j * x j = treeDot x (M.mulVec x) := by
  simp only [treeDot, Matrix.mulVec, dotProduct, Finset.mul_sum]
  exact Finset.sum_congr rfl fun i _ => Finset.sum_congr rfl fun j _ => by ring

theorem spd_iff (M : Matrix ι ι ℝ) : SPD M ↔
    (∀ i j, M i j = M j i) ∧ ∀ x : ι → ℝ, (∃ i, x i ≠ 0) → 0 < treeDot x (M.mulVec x) := by
  simp only [SPD, quad_eq]

theorem spd_nonneg {M : Matrix ι ι ℝ} (h : SPD M) (x : ι → ℝ) : 0 ≤ treeDot x (M.mulVec x) := by
  by_cases hx : ∃ i, x i ≠ 0
  · exact (((spd_iff M).1 h).2 x hx).le
  · simp only [not_exists, not_not] at hx
    have : treeDot x (M.mulVec x) = 0 := by unfold treeDot; exact Finset.sum_eq_zero fun i _ => by rw [hx i, zero_mul]
    rw [this]

theorem spd_one [DecidableEq ι] : SPD (1 : Matrix ι ι ℝ) := by
  rw [spd_iff]
  constructor
  · intro i j
    simp only [Matrix.one_apply, eq_comm]
  · intro x ⟨i, hi⟩
    rw [Matrix.one_mulVec]
    unfold treeDot
    exact Finset.sum_pos' (fun i _ => mul_self_nonneg _) ⟨i, Finset.mem_univ i, mul_self_pos.2 hi⟩

theorem quad_sub (M : Matrix ι ι ℝ) (h : ∀ i j, M i j = M j i) (x g : ι → ℝ) (a : ℝ) :
    treeDot (fun i => x i - a * g i) (M.mulVec fun i => x i - a * g i) =
      treeDot x (M.mulVec x) - 2 * a * treeDot x (M.mulVec g) + a ^ 2 * treeDot g (M.mulVec g) := by
  rw [mulVec_sub' M x fun i => a * g i, mulVec_smul', dot_sub, dot_smul,
    dot_comm (fun i => x i - a * g i) (M.mulVec x), dot_comm (fun i => x i - a * g i) (M.mulVec g),
    dot_sub, dot_sub, dot_smul, dot_smul, dot_comm (M.mulVec x) x, dot_comm (M.mulVec x) g,
    dot_comm (M.mulVec g) x, dot_comm (M.mulVec g) g, symm_dot M h g x]
  ring

/-! The two update formulas acting on a vector. -/

theorem bfgsInv_mulVec (H : Matrix ι ι ℝ) (g s x : ι → ℝ) (r : ℝ) (i : ι) :
    (bfgsInv H g s r).mulVec x i = H.mulVec x i +
      (r + treeDot g (H.mulVec g)) * treeDot s x / r ^ 2 * s i -
      (treeDot s x / r * H.mulVec g i + treeDot (H.mulVec g) x / r * s i) := by
  have e1 : ∀ j, bfgsInv H g s r i j * x j = H i j * x j +
      (r + treeDot g (H.mulVec g)) / r ^ 2 * s i * (s j * x j) -
      (1 / r * H.mulVec g i * (s j * x j) + 1 / r * s i * (H.mulVec g j * x j)) := by
    intro j
    simp only [bfgsInv, outer, Matrix.sub_apply, Matrix.add_apply, Matrix.of_apply]
    ring
  show ∑ j, bfgsInv H g s r i j * x j = _
  simp only [e1]
  rw [Finset.sum_sub_distrib, Finset.sum_add_distrib, Finset.sum_add_distrib, ← Finset.mul_sum, ← Finset.mul_sum,
    ← Finset.mul_sum]
  simp only [treeDot, Matrix.mulVec, dotProduct]
  ring

theorem bfgsDirect_mulVec (B : Matrix ι ι ℝ) (g s x : ι → ℝ) (r : ℝ) (i : ι) :
    (bfgsDirect B g s r).mulVec x i = B.mulVec x i + treeDot g x / r * g i -
      treeDot (B.mulVec s) x / treeDot s (B.mulVec s) * B.mulVec s i := by
  have e1 : ∀ j, bfgsDirect B g s r i j * x j = B i j * x j + 1 / r * g i * (g j * x j) -
      1 / treeDot s (B.mulVec s) * B.mulVec s i * (B.mulVec s j * x j) := by
    intro j
    simp only [bfgsDirect, outer, Matrix.sub_apply, Matrix.add_apply, Matrix.of_apply]
    ring
  show ∑ j, bfgsDirect B g s r i j * x j = _
  simp only [e1]
  rw [Finset.sum_sub_distrib, Finset.sum_add_distrib, ← Finset.mul_sum, ← Finset.mul_sum]
  simp only [treeDot, Matrix.mulVec, dotProduct]
  ring

theorem bfgsInv_secant (H : Matrix ι ι ℝ) (g s : ι → ℝ) (hr : treeDot g s ≠ 0) :
    (bfgsInv H g s (treeDot g s)).mulVec g = s := by
  funext i
  rw [bfgsInv_mulVec, dot_comm s g, dot_comm (H.mulVec g) g]
  field_simp
  ring

theorem bfgsDirect_secant (B : Matrix ι ι ℝ) (g s : ι → ℝ) (hr : treeDot g s ≠ 0)
    (hq : treeDot s (B.mulVec s) ≠ 0) :
    (bfgsDirect B g s (treeDot g s)).mulVec s = g := by
  funext i
  rw [bfgsDirect_mulVec, dot_comm (B.mulVec s) s, div_self hr, div_self hq]
  ring

theorem bfgsInv_symm (H : Matrix ι ι ℝ) (hH : ∀ i j, H i j = H j i) (g s : ι → ℝ) (r : ℝ) (i j : ι) :
    bfgsInv H g s r i j = bfgsInv H g s r j i := by
  simp only [bfgsInv, outer, Matrix.sub_apply, Matrix.add_apply, Matrix.of_apply]
  rw [hH i j]; ring

theorem bfgsDirect_symm (B : Matrix ι ι ℝ) (hB : ∀ i j, B i j = B j i) (g s : ι → ℝ) (r : ℝ) (i j : ι) :
    bfgsDirect B g s r i j = bfgsDirect B g s r j i := by
  simp only [bfgsDirect, outer, Matrix.sub_apply, Matrix.add_apply, Matrix.of_apply]
  rw [hB i j]; ring

theorem bfgsInv_spd (H : Matrix ι ι ℝ) (hH : SPD H) (g s : ι → ℝ) (hr : 0 < treeDot g s) :
    SPD (bfgsInv H g s (treeDot g s)) := by
  obtain ⟨hs, hp⟩ := (spd_iff H).1 hH
  rw [spd_iff]
  refine ⟨bfgsInv_symm H hs g s _, fun x hx => ?_⟩
  set r := treeDot g s with hrd
  set a := treeDot s x / r with ha
  have e : treeDot x ((bfgsInv H g s r).mulVec x) =
      treeDot (fun i => x i - a * g i) (H.mulVec fun i => x i - a * g i) + a ^ 2 * r := by
    have e1 : (bfgsInv H g s r).mulVec x = fun i => H.mulVec x i +
      ((r + treeDot g (H.mulVec g)) * treeDot s x / r ^ 2 - treeDot (H.mulVec g) x / r) * s i -
      a * H.mulVec g i := by
      funext i; rw [bfgsInv_mulVec, ha]; ring
    rw [e1, quad_sub H hs, dot_sub, dot_add, dot_smul, dot_smul, dot_comm (H.mulVec g) x, dot_comm x s]
    rw [ha]
    field_simp
    ring
  rw [e]
  by_cases hz : ∃ i, x i - a * g i ≠ 0
  · have := hp _ hz
    positivity
  · simp only [not_exists, not_not, sub_eq_zero] at hz
    have ha0 : a ≠ 0 := by
      intro h0
      obtain ⟨i, hi⟩ := hx
      exact hi (by rw [hz i, h0, zero_mul])
    have := spd_nonneg hH fun i => x i - a * g i
    have : 0 < a ^ 2 * r := by positivity
    linarith

theorem bfgsDirect_spd (B : Matrix ι ι ℝ) (hB : SPD B) (g s : ι → ℝ) (hr : 0 < treeDot g s) :
    SPD (bfgsDirect B g s (treeDot g s)) := by
  obtain ⟨hs, hp⟩ := (spd_iff B).1 hB
  rw [spd_iff]
  refine ⟨bfgsDirect_symm B hs g s _, fun x hx => ?_⟩
  have hs0 : ∃ i, s i ≠ 0 := by
    by_contra h
    simp only [not_exists, not_not] at h
    have : treeDot g s = 0 := by unfold treeDot; exact Finset.sum_eq_zero fun i _ => by rw [h i, mul_zero]
    linarith
  have hq := hp s hs0
  set q := treeDot s (B.mulVec s) with hqd
  set r := treeDot g s with hrd
  set a := treeDot (B.mulVec s) x / q with ha
  have e : treeDot x ((bfgsDirect B g s r).mulVec x) =
      treeDot (fun i => x i - a * s i) (B.mulVec fun i => x i - a * s i) + treeDot g x ^ 2 / r := by
    have e1 : (bfgsDirect B g s r).mulVec x = fun i => B.mulVec x i + treeDot g x / r * g i - a * B.mulVec s i := by
      funext i; rw [bfgsDirect_mulVec]
    rw [e1, quad_sub B hs, dot_sub, dot_add, dot_smul, dot_smul, dot_comm x g, ← hqd]
    have hax : treeDot x (B.mulVec s) = a * q := by
      rw [ha, dot_comm x]; field_simp
    rw [hax]
    ring
  rw [e]
  by_cases hz : ∃ i, x i - a * s i ≠ 0
  · have := hp _ hz
    positivity
  · simp only [not_exists, not_not, sub_eq_zero] at hz
    have ha0 : a ≠ 0 := by
      intro h0
      obtain ⟨i, hi⟩ := hx
      exact hi (by rw [hz i, h0, zero_mul])
    have hgx : treeDot g x = a * r := by
      rw [show x = fun i => a * s i from funext hz, dot_smul]
    have := spd_nonneg hB fun i => x i - a * s i
    have : 0 < treeDot g x ^ 2 / r := by rw [hgx]; positivity
    linarith

/-- The two BFGS updates are inverse to each other (Sherman-Morrison-Woodbury), acting on vectors. -/
theorem bfgs_inverse_apply (H B : Matrix ι ι ℝ) (hH : ∀ i j, H i j = H j i) (hB : ∀ i j, B i j = B j i)
    (hHB : ∀ x, H.mulVec (B.mulVec x) = x) (g s : ι → ℝ) (hr : treeDot g s ≠ 0) (hq : treeDot s (B.mulVec s) ≠ 0)
    (x : ι → ℝ) :
    (bfgsInv H g s (treeDot g s)).mulVec ((bfgsDirect B g s (treeDot g s)).mulVec x) = x := by
  set r := treeDot g s with hrd
  set q := treeDot s (B.mulVec s) with hqd
  set v := (bfgsDirect B g s r).mulVec x with hv
  have hvd : v = fun i => B.mulVec x i + treeDot g x / r * g i - treeDot (B.mulVec s) x / q * B.mulVec s i := by
    funext i; rw [hv, bfgsDirect_mulVec]
  have hsv : treeDot s v = treeDot g x := by
    rw [hvd, dot_sub, dot_add, dot_smul, dot_smul, dot_comm s g, ← hrd, ← hqd, dot_comm (B.mulVec s) x,
      symm_dot B hB x s]
    field_simp
    ring
  have hHv : H.mulVec v = fun i => x i + treeDot g x / r * H.mulVec g i - treeDot (B.mulVec s) x / q * s i := by
    rw [hvd, mulVec_sub' H (fun i => B.mulVec x i + treeDot g x / r * g i), mulVec_add', mulVec_smul', mulVec_smul']
    funext i
    rw [show H.mulVec (fun i => B.mulVec x i) = x from hHB x, hHB s]
  have hgv : treeDot (H.mulVec g) v = treeDot g x + treeDot g x / r * treeDot g (H.mulVec g) -
      treeDot (B.mulVec s) x / q * r := by
    rw [dot_comm, symm_dot H hH v g, hHv, dot_sub, dot_add, dot_smul, dot_smul]
  funext i
  rw [bfgsInv_mulVec, hsv, hgv, hHv]
  field_simp
  ring

end Verif.Rank
