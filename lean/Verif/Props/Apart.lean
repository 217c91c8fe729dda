import Verif.Props.GradientMethods
import Verif.Props.FixedPoint
import Verif.Props.Damping
import Verif.Lemmas.Norms

/-!
C154: on convex problems, solves do not move apart.

With a learning rate of at most `2 / L` on a convex `L`-smooth objective, two runs of `GradientDescent` never get further apart
than their starting points are, no run gets further from any minimiser, and the gradient never gets longer.
-/

namespace Verif.Props

open Verif.Spec Verif.Driver

variable {ι A : Type} [Fintype ι]

/-- The gradient of a convex `L`-smooth function is co-coercive. -/
theorem cocoercive {f : (ι → ℝ) → ℝ} {grad : (ι → ℝ) → ι → ℝ} {L : ℝ} (hL : 0 < L)
    (hsmooth : ∀ y z, f z ≤ f y + (∑ i, grad y i * (z i - y i)) + L / 2 * ∑ i, (z i - y i) ^ 2)
    (hconv : ∀ y z, f y + ∑ i, grad y i * (z i - y i) ≤ f z) (x y : ι → ℝ) :
    ∑ i, (grad x i - grad y i) ^ 2 ≤ L * ∑ i, (grad x i - grad y i) * (x i - y i) := by
  have half : ∀ x y : ι → ℝ, f y + (∑ i, grad y i * (x i - y i)) + (∑ i, (grad x i - grad y i) ^ 2) / (2 * L) ≤ f x := by
    intro x y
    have h1 := hsmooth x fun i => x i - (grad x i - grad y i) / L
    have h2 := hconv y fun i => x i - (grad x i - grad y i) / L
    have e1 : ∑ i, grad x i * (x i - (grad x i - grad y i) / L - x i) = -(∑ i, grad x i * (grad x i - grad y i)) / L := by
      rw [← Finset.sum_neg_distrib, Finset.sum_div]
      exact Finset.sum_congr rfl fun i _ => by ring
    have e2 : ∑ i, grad y i * (x i - (grad x i - grad y i) / L - y i) =
        (∑ i, grad y i * (x i - y i)) - (∑ i, grad y i * (grad x i - grad y i)) / L := by
      rw [Finset.sum_div, ← Finset.sum_sub_distrib]
      exact Finset.sum_congr rfl fun i _ => by ring
    have e3 : ∑ i, (x i - (grad x i - grad y i) / L - x i) ^ 2 = (∑ i, (grad x i - grad y i) ^ 2) / L ^ 2 := by
      rw [Finset.sum_div]
      exact Finset.sum_congr rfl fun i _ => by ring
    have e4 : ∑ i, (grad x i - grad y i) ^ 2 =
        (∑ i, grad x i * (grad x i - grad y i)) - ∑ i, grad y i * (grad x i - grad y i) := by
      rw [← Finset.sum_sub_distrib]
      exact Finset.sum_congr rfl fun i _ => by ring
    rw [e1, e3] at h1
    rw [e2] at h2
    have e5 : L / 2 * ((∑ i, (grad x i - grad y i) ^ 2) / L ^ 2) = (∑ i, (grad x i - grad y i) ^ 2) / (2 * L) := by
      field_simp
    rw [e5] at h1
    have e6 : (∑ i, (grad x i - grad y i) ^ 2) / L =
        (∑ i, grad x i * (grad x i - grad y i)) / L - (∑ i, grad y i * (grad x i - grad y i)) / L := by
      rw [e4, sub_div]
    have e7 : (∑ i, (grad x i - grad y i) ^ 2) / L = 2 * ((∑ i, (grad x i - grad y i) ^ 2) / (2 * L)) := by
      field_simp
    rw [neg_div] at h1
    linarith
  have h1 := half x y
  have h2 := half y x
  have e1 : ∑ i, (grad y i - grad x i) ^ 2 = ∑ i, (grad x i - grad y i) ^ 2 := Finset.sum_congr rfl fun i _ => by ring
  have e2 : (∑ i, grad y i * (x i - y i)) + ∑ i, grad x i * (y i - x i) = -∑ i, (grad x i - grad y i) * (x i - y i) := by
    rw [← Finset.sum_add_distrib, ← Finset.sum_neg_distrib]
    exact Finset.sum_congr rfl fun i _ => by ring
  rw [e1] at h2
  have h3 : (∑ i, (grad x i - grad y i) ^ 2) / L ≤ ∑ i, (grad x i - grad y i) * (x i - y i) := by
    have e3 : (∑ i, (grad x i - grad y i) ^ 2) / L = 2 * ((∑ i, (grad x i - grad y i) ^ 2) / (2 * L)) := by field_simp
    linarith
  rw [div_le_iff₀ hL] at h3
  linarith

/-- The gradient vanishes at a minimiser. -/
theorem minimiser_gradient {f : (ι → ℝ) → ℝ} {grad : (ι → ℝ) → ι → ℝ} {L : ℝ} (hL : 0 < L)
    (hsmooth : ∀ y z, f z ≤ f y + (∑ i, grad y i * (z i - y i)) + L / 2 * ∑ i, (z i - y i) ^ 2)
    (xs : ι → ℝ) (hxs : ∀ y, f xs ≤ f y) : ∀ i, grad xs i = 0 := by
  have h1 := hsmooth xs fun i => xs i - grad xs i / L
  have h2 := hxs fun i => xs i - grad xs i / L
  have e1 : ∑ i, grad xs i * (xs i - grad xs i / L - xs i) = -((∑ i, grad xs i ^ 2) / L) := by
    rw [Finset.sum_div, ← Finset.sum_neg_distrib]
    exact Finset.sum_congr rfl fun i _ => by ring
  have e2 : L / 2 * ∑ i, (xs i - grad xs i / L - xs i) ^ 2 = (∑ i, grad xs i ^ 2) / L / 2 := by
    rw [show ∑ i, (xs i - grad xs i / L - xs i) ^ 2 = (∑ i, grad xs i ^ 2) / L ^ 2 by
      rw [Finset.sum_div]
      exact Finset.sum_congr rfl fun i _ => by ring]
    field_simp
  rw [e1, e2] at h1
  have h3 : (∑ i, grad xs i ^ 2) / L ≤ 0 := by linarith
  have h4 : ∑ i, grad xs i ^ 2 ≤ 0 := by
    rwa [div_le_iff₀ hL, zero_mul] at h3
  intro i
  have h5 := Finset.single_le_sum (f := fun i => grad xs i ^ 2) (fun i _ => sq_nonneg _) (Finset.mem_univ i)
  have h6 : grad xs i ^ 2 ≤ 0 := h5.trans h4
  exact pow_eq_zero_iff (two_ne_zero) |>.1 (le_antisymm h6 (sq_nonneg _))

section
variable {rate L : ℝ} {grad : (ι → ℝ) → ι → ℝ} {f : (ι → ℝ) → ℝ} (hr0 : 0 ≤ rate) (hL : 0 < L) (hrL : rate * L ≤ 2)
  (hsmooth : ∀ y z, f z ≤ f y + (∑ i, grad y i * (z i - y i)) + L / 2 * ∑ i, (z i - y i) ^ 2)
  (hconv : ∀ y z, f y + ∑ i, grad y i * (z i - y i) ≤ f z)

include hr0 hL hrL hsmooth hconv

/-- One step, from two points. -/
theorem gd_step_apart (x y : ι → ℝ) :
    ∑ i, (gdMap rate grad x i - gdMap rate grad y i) ^ 2 ≤ ∑ i, (x i - y i) ^ 2 := by
  have h := cocoercive hL hsmooth hconv x y
  have e : ∑ i, (gdMap rate grad x i - gdMap rate grad y i) ^ 2 =
      (∑ i, (x i - y i) ^ 2) - 2 * rate * (∑ i, (grad x i - grad y i) * (x i - y i)) +
        rate ^ 2 * ∑ i, (grad x i - grad y i) ^ 2 := by
    rw [Finset.mul_sum, Finset.mul_sum, ← Finset.sum_sub_distrib, ← Finset.sum_add_distrib]
    exact Finset.sum_congr rfl fun i _ => by simp only [gdMap]; ring
  have h0 : 0 ≤ ∑ i, (grad x i - grad y i) ^ 2 := Finset.sum_nonneg fun i _ => sq_nonneg _
  have h1 : 0 ≤ ∑ i, (grad x i - grad y i) * (x i - y i) := by
    by_contra hneg
    push Not at hneg
    have := mul_neg_of_pos_of_neg hL hneg
    linarith
  have h2 : rate ^ 2 * ∑ i, (grad x i - grad y i) ^ 2 ≤ rate ^ 2 * (L * ∑ i, (grad x i - grad y i) * (x i - y i)) :=
    mul_le_mul_of_nonneg_left h (sq_nonneg _)
  have h3 : rate * (rate * L) * ∑ i, (grad x i - grad y i) * (x i - y i) ≤
      rate * 2 * ∑ i, (grad x i - grad y i) * (x i - y i) :=
    mul_le_mul_of_nonneg_right (mul_le_mul_of_nonneg_left hrL hr0) h1
  rw [e]
  nlinarith

theorem gd_apart (x y : ι → ℝ) (k : ℕ) :
    ∑ i, ((gdMap rate grad)^[k] x i - (gdMap rate grad)^[k] y i) ^ 2 ≤ ∑ i, (x i - y i) ^ 2 := by
  induction k with
  | zero => exact le_rfl
  | succ k ih =>
    rw [Function.iterate_succ_apply', Function.iterate_succ_apply']
    exact (gd_step_apart hr0 hL hrL hsmooth hconv _ _).trans ih

/-- The gradient after a step is not longer than before. -/
theorem gd_gradient_step (x : ι → ℝ) (hr : 0 < rate) : ∑ i, grad (gdMap rate grad x) i ^ 2 ≤ ∑ i, grad x i ^ 2 := by
  have h := gd_step_apart hr0 hL hrL hsmooth hconv (gdMap rate grad x) x
  have e1 : ∑ i, (gdMap rate grad (gdMap rate grad x) i - gdMap rate grad x i) ^ 2 =
      rate ^ 2 * ∑ i, grad (gdMap rate grad x) i ^ 2 := by
    rw [Finset.mul_sum]
    refine Finset.sum_congr rfl fun i _ => ?_
    rw [show gdMap rate grad (gdMap rate grad x) i = gdMap rate grad x i - rate * grad (gdMap rate grad x) i from rfl]
    ring
  have e2 : ∑ i, (gdMap rate grad x i - x i) ^ 2 = rate ^ 2 * ∑ i, grad x i ^ 2 := by
    rw [Finset.mul_sum]
    exact Finset.sum_congr rfl fun i _ => by simp only [gdMap]; ring
  rw [e1, e2] at h
  exact le_of_mul_le_mul_left h (by positivity)

end

section
variable {rate L : ℝ} {grad : (ι → ℝ) → ι → ℝ} {fn : (ι → ℝ) → ℝ × A} (hr0 : 0 < rate) (hL : 0 < L) (hrL : rate * L ≤ 2)
  (hsmooth : ∀ y z, (fn z).1 ≤ (fn y).1 + (∑ i, grad y i * (z i - y i)) + L / 2 * ∑ i, (z i - y i) ^ 2)
  (hconv : ∀ y z, (fn y).1 + ∑ i, grad y i * (z i - y i) ≤ (fn z).1) (rtol atol : ℝ) (nY : (ι → ℝ) → ℝ)
  (nF : (Unit → ℝ) → ℝ) (aux0 : A) (af : (ι → ℝ) → Bool)

include hr0 hL hrL hsmooth hconv

/-- **C154.** Two solves from different starting points that took equally many steps, whatever their result codes, have answers
that are not further apart than the starting points. -/
theorem C154_two_starts (y0 z0 : ι → ℝ) (ms ms' : Option ℕ) (throw throw' : Bool)
    (sol sol' : Solution (ι → ℝ) A (GradientDescent.State ι A Unit (ι → ℝ)) Unit)
    (h : iterativeSolve (gdSolver rate rtol atol nY nF grad aux0) af fn aux0 y0 ms throw = some (.ok sol))
    (h' : iterativeSolve (gdSolver rate rtol atol nY nF grad aux0) af fn aux0 z0 ms' throw' = some (.ok sol'))
    (hk : sol.numSteps = sol'.numSteps) :
    ∑ i, (sol.value i - sol'.value i) ^ 2 ≤ ∑ i, (y0 i - z0 i) ^ 2 := by
  rw [C31_value rate rtol atol nY nF grad aux0 fn y0 af ms throw sol h,
    C31_value rate rtol atol nY nF grad aux0 fn z0 af ms' throw' sol' h', hk]
  exact gd_apart hr0.le hL hrL hsmooth hconv y0 z0 _

/-- **C154.** No answer, whatever its result code, is further from any minimiser than the starting point; a larger budget brings
it no further away. -/
theorem C154_never_further (xs : ι → ℝ) (hxs : ∀ y, (fn xs).1 ≤ (fn y).1) (y0 : ι → ℝ) (ms ms' : Option ℕ) (throw throw' : Bool)
    (sol sol' : Solution (ι → ℝ) A (GradientDescent.State ι A Unit (ι → ℝ)) Unit)
    (h : iterativeSolve (gdSolver rate rtol atol nY nF grad aux0) af fn aux0 y0 ms throw = some (.ok sol))
    (h' : iterativeSolve (gdSolver rate rtol atol nY nF grad aux0) af fn aux0 y0 ms' throw' = some (.ok sol'))
    (hk : sol.numSteps ≤ sol'.numSteps) :
    (∑ i, (sol.value i - xs i) ^ 2 ≤ ∑ i, (y0 i - xs i) ^ 2) ∧
      ∑ i, (sol'.value i - xs i) ^ 2 ≤ ∑ i, (sol.value i - xs i) ^ 2 := by
  have hg := minimiser_gradient (f := fun y => (fn y).1) hL hsmooth xs hxs
  have hfix : ∀ k, (gdMap rate grad)^[k] xs = xs := fun k =>
    Function.iterate_fixed (funext fun i => by simp [gdMap, hg]) k
  have hfar : ∀ (x : ι → ℝ) k, ∑ i, ((gdMap rate grad)^[k] x i - xs i) ^ 2 ≤ ∑ i, (x i - xs i) ^ 2 := fun x k => by
    have := gd_apart hr0.le hL hrL hsmooth hconv x xs k
    rwa [hfix] at this
  rw [C31_value rate rtol atol nY nF grad aux0 fn y0 af ms throw sol h,
    C31_value rate rtol atol nY nF grad aux0 fn y0 af ms' throw' sol' h']
  refine ⟨hfar y0 _, ?_⟩
  obtain ⟨d, hd⟩ : ∃ d, sol'.numSteps - 1 = d + (sol.numSteps - 1) := ⟨sol'.numSteps - 1 - (sol.numSteps - 1), by omega⟩
  show ∑ i, ((gdMap rate grad)^[sol'.numSteps - 1] y0 i - xs i) ^ 2 ≤ ∑ i, ((gdMap rate grad)^[sol.numSteps - 1] y0 i - xs i) ^ 2
  rw [hd, Function.iterate_add_apply]
  exact hfar _ d

/-- **C154.** The gradient at the answer, whatever its result code, is not longer than at the starting point, and a larger budget
does not make it longer. -/
theorem C154_gradient (y0 : ι → ℝ) (ms ms' : Option ℕ) (throw throw' : Bool)
    (sol sol' : Solution (ι → ℝ) A (GradientDescent.State ι A Unit (ι → ℝ)) Unit)
    (h : iterativeSolve (gdSolver rate rtol atol nY nF grad aux0) af fn aux0 y0 ms throw = some (.ok sol))
    (h' : iterativeSolve (gdSolver rate rtol atol nY nF grad aux0) af fn aux0 y0 ms' throw' = some (.ok sol'))
    (hk : sol.numSteps ≤ sol'.numSteps) :
    (∑ i, grad sol.value i ^ 2 ≤ ∑ i, grad y0 i ^ 2) ∧ ∑ i, grad sol'.value i ^ 2 ≤ ∑ i, grad sol.value i ^ 2 := by
  have hmono : ∀ (x : ι → ℝ) k, ∑ i, grad ((gdMap rate grad)^[k] x) i ^ 2 ≤ ∑ i, grad x i ^ 2 := by
    intro x k
    induction k with
    | zero => exact le_rfl
    | succ k ih =>
      rw [Function.iterate_succ_apply']
      exact (gd_gradient_step hr0.le hL hrL hsmooth hconv _ hr0).trans ih
  rw [C31_value rate rtol atol nY nF grad aux0 fn y0 af ms throw sol h,
    C31_value rate rtol atol nY nF grad aux0 fn y0 af ms' throw' sol' h']
  refine ⟨hmono y0 _, ?_⟩
  obtain ⟨d, hd⟩ : ∃ d, sol'.numSteps - 1 = d + (sol.numSteps - 1) := ⟨sol'.numSteps - 1 - (sol.numSteps - 1), by omega⟩
  show ∑ i, grad ((gdMap rate grad)^[sol'.numSteps - 1] y0) i ^ 2 ≤ ∑ i, grad ((gdMap rate grad)^[sol.numSteps - 1] y0) i ^ 2
  rw [hd, Function.iterate_add_apply]
  exact hmono _ d

/-- **C154.** How small the gradient at the answer is, whatever the result code: after `n` steps
`(n - 1) rate (2 / L - rate) |gradient|² ≤ |y0 - x|²` for every minimiser `x`. -/
theorem C154_gradient_rate (xs : ι → ℝ) (hxs : ∀ y, (fn xs).1 ≤ (fn y).1) (y0 : ι → ℝ) (ms : Option ℕ) (throw : Bool)
    (sol : Solution (ι → ℝ) A (GradientDescent.State ι A Unit (ι → ℝ)) Unit)
    (h : iterativeSolve (gdSolver rate rtol atol nY nF grad aux0) af fn aux0 y0 ms throw = some (.ok sol)) :
    ((sol.numSteps - 1 : ℕ) : ℝ) * (rate * (2 / L - rate)) * ∑ i, grad sol.value i ^ 2 ≤ ∑ i, (y0 i - xs i) ^ 2 := by
  have hg := minimiser_gradient (f := fun y => (fn y).1) hL hsmooth xs hxs
  have hc : 0 ≤ rate * (2 / L - rate) := mul_nonneg hr0.le (by rw [sub_nonneg, le_div_iff₀ hL]; exact hrL)
  rw [C31_value rate rtol atol nY nF grad aux0 fn y0 af ms throw sol h]
  have hone : ∀ x : ι → ℝ, ∑ i, (gdMap rate grad x i - xs i) ^ 2 ≤
      ∑ i, (x i - xs i) ^ 2 - rate * (2 / L - rate) * ∑ i, grad x i ^ 2 := by
    intro x
    have h1 := cocoercive (f := fun y => (fn y).1) hL hsmooth hconv x xs
    simp only [hg, sub_zero] at h1
    have e : ∑ i, (gdMap rate grad x i - xs i) ^ 2 =
        (∑ i, (x i - xs i) ^ 2) - 2 * rate * (∑ i, grad x i * (x i - xs i)) + rate ^ 2 * ∑ i, grad x i ^ 2 := by
      rw [Finset.mul_sum, Finset.mul_sum, ← Finset.sum_sub_distrib, ← Finset.sum_add_distrib]
      exact Finset.sum_congr rfl fun i _ => by simp only [gdMap]; ring
    have h2 : (∑ i, grad x i ^ 2) / L ≤ ∑ i, grad x i * (x i - xs i) := by
      rw [div_le_iff₀ hL]; linarith
    have h3 := mul_le_mul_of_nonneg_left h2 (by positivity : (0:ℝ) ≤ 2 * rate)
    have e2 : rate * (2 / L - rate) * ∑ i, grad x i ^ 2 = 2 * rate * ((∑ i, grad x i ^ 2) / L) - rate ^ 2 * ∑ i, grad x i ^ 2 := by
      ring
    rw [e, e2]; linarith
  have key : ∀ N : ℕ, (N : ℝ) * (rate * (2 / L - rate)) * ∑ i, grad ((gdMap rate grad)^[N] y0) i ^ 2 +
      ∑ i, ((gdMap rate grad)^[N] y0 i - xs i) ^ 2 ≤ ∑ i, (y0 i - xs i) ^ 2 := by
    intro N
    induction N with
    | zero => simp
    | succ N ih =>
      rw [Function.iterate_succ_apply']
      generalize (gdMap rate grad)^[N] y0 = x at ih ⊢
      have h1 := hone x
      have h2 := gd_gradient_step hr0.le hL hrL hsmooth hconv x hr0
      have h3 : ((N : ℝ) + 1) * (rate * (2 / L - rate)) * ∑ i, grad (gdMap rate grad x) i ^ 2 ≤
          ((N : ℝ) + 1) * (rate * (2 / L - rate)) * ∑ i, grad x i ^ 2 := mul_le_mul_of_nonneg_left h2 (by positivity)
      push_cast
      linarith
  have h1 := key (sol.numSteps - 1)
  have h2 : 0 ≤ ∑ i, ((gdMap rate grad)^[sol.numSteps - 1] y0 i - xs i) ^ 2 := Finset.sum_nonneg fun i _ => sq_nonneg _
  show _ * ∑ i, grad ((gdMap rate grad)^[sol.numSteps - 1] y0) i ^ 2 ≤ _
  linarith

end

section
variable {rate L : ℝ} {grad : (ι → ℝ) → ι → ℝ} {fn : (ι → ℝ) → ℝ × A}

/-- The iterates converge to a minimiser. -/
theorem gd_limit (hr0 : 0 < rate) (hL : 0 < L) (hrL : rate * L < 2)
    (hsmooth : ∀ y z, (fn z).1 ≤ (fn y).1 + (∑ i, grad y i * (z i - y i)) + L / 2 * ∑ i, (z i - y i) ^ 2)
    (hconv : ∀ y z, (fn y).1 + ∑ i, grad y i * (z i - y i) ≤ (fn z).1) (hmin : ∃ xs, ∀ y, (fn xs).1 ≤ (fn y).1) (y0 : ι → ℝ) :
    ∃ q, (∀ y, (fn q).1 ≤ (fn y).1) ∧ Filter.Tendsto (fun k => (gdMap rate grad)^[k] y0) Filter.atTop (nhds q) := by
  obtain ⟨xs, hxs⟩ := hmin
  have hg := minimiser_gradient (f := fun y => (fn y).1) hL hsmooth xs hxs
  set T : (ι → ℝ) → (ι → ℝ) × Unit := fun y => (gdMap (2 / L) grad y, ()) with hT
  set cfg : FixedPointIter.Cfg ι ℝ := { rtol := 1, atol := 1, norm := maxNorm, damp := 1 - rate * L / 2 } with hcfg
  have hne : NonExpansive fun z => (T z).1 := fun x y =>
    gd_step_apart (rate := 2 / L) (by positivity) hL (by rw [div_mul_cancel₀ _ hL.ne']) hsmooth hconv x y
  have hmap : dampedMap cfg.damp (fun z => (T z).1) = gdMap rate grad := by
    funext y i
    simp only [dampedMap, hT, hcfg, gdMap]
    field_simp
    ring
  obtain ⟨-, -, ⟨q, hq, hlim⟩, -⟩ := C102_damping cfg goodNorm_maxNorm (by norm_num [hcfg]) (by norm_num [hcfg])
    (by show 0 < 1 - rate * L / 2; linarith) (by show 1 - rate * L / 2 < 1; have := mul_pos hr0 hL; linarith) T hne xs
    (funext fun i => by simp [hT, gdMap, hg]) () y0
  have hgq : ∀ i, grad q i = 0 := by
    intro i
    have h1 := congrFun hq i
    simp only [hT, gdMap] at h1
    have h2 : 2 / L * grad q i = 0 := by linarith
    exact (mul_eq_zero.1 h2).resolve_left (by positivity)
  refine ⟨q, fun y => by simpa [hgq] using hconv q y, tendsto_pi_nhds.2 fun i => ?_⟩
  have h1 := hlim i
  simp only [fp_iterate_eq, hmap] at h1
  exact h1

/-- **C154.** With a learning rate below `2 / L` and if there are minimisers at all, the answers of solves with larger and larger
numbers of steps, whatever their result codes, converge to one of them (which one depends on the starting point only). -/
theorem C154_converges (hr0 : 0 < rate) (hL : 0 < L) (hrL : rate * L < 2)
    (hsmooth : ∀ y z, (fn z).1 ≤ (fn y).1 + (∑ i, grad y i * (z i - y i)) + L / 2 * ∑ i, (z i - y i) ^ 2)
    (hconv : ∀ y z, (fn y).1 + ∑ i, grad y i * (z i - y i) ≤ (fn z).1) (hmin : ∃ xs, ∀ y, (fn xs).1 ≤ (fn y).1) (y0 : ι → ℝ) :
    ∃ q, (∀ y, (fn q).1 ≤ (fn y).1) ∧ ∀ ε, 0 < ε → ∃ N, ∀ rtol atol nY nF (aux0 : A) af ms throw sol,
      iterativeSolve (gdSolver rate rtol atol nY nF grad aux0) af fn aux0 y0 ms throw = some (.ok sol) → N ≤ sol.numSteps →
        ∀ i, |sol.value i - q i| < ε := by
  obtain ⟨q, hq, hlim⟩ := gd_limit hr0 hL hrL hsmooth hconv hmin y0
  refine ⟨q, hq, fun ε hε => ?_⟩
  have hev : ∀ᶠ k in Filter.atTop, ∀ i, |(gdMap rate grad)^[k] y0 i - q i| < ε := by
    refine Filter.eventually_all.2 fun i => ?_
    filter_upwards [(tendsto_pi_nhds.1 hlim i) (Metric.ball_mem_nhds _ hε)] with k hk
    simpa [Real.dist_eq] using hk
  obtain ⟨N, hN⟩ := Filter.eventually_atTop.1 hev
  refine ⟨N + 1, fun rtol atol nY nF aux0 af ms throw sol h hn => ?_⟩
  rw [C31_value rate rtol atol nY nF grad aux0 fn y0 af ms throw sol h]
  exact hN _ (by omega)

end

/-- **C154** for `FixedPointIteration` with any damping in `[0, 1]`, on maps that do not increase distances in `max_norm`: two
solves that took equally many steps have answers that are not further apart than their starting points. -/
theorem C154_fixed_point (c : FixedPointIter.Cfg ι ℝ) (hd0 : 0 ≤ c.damp) (hd1 : c.damp ≤ 1) {fn : (ι → ℝ) → (ι → ℝ) × A}
    (hfn : ∀ x y, maxNorm (fun i => (fn x).1 i - (fn y).1 i) ≤ maxNorm fun i => x i - y i) (aux0 : A) (af : (ι → ℝ) → Bool)
    (y0 z0 : ι → ℝ) (ms ms' : Option ℕ) (throw throw' : Bool) (sol sol' : Solution (ι → ℝ) A (Option ℝ) Unit)
    (h : iterativeSolve (FixedPointIter.solver c) af fn aux0 y0 ms throw = some (.ok sol))
    (h' : iterativeSolve (FixedPointIter.solver c) af fn aux0 z0 ms' throw' = some (.ok sol'))
    (hk : sol.numSteps = sol'.numSteps) :
    maxNorm (fun i => sol.value i - sol'.value i) ≤ maxNorm fun i => y0 i - z0 i := by
  have hval : ∀ (y0 : ι → ℝ) (ms : Option ℕ) (throw : Bool) (sol : Solution (ι → ℝ) A (Option ℝ) Unit),
      iterativeSolve (FixedPointIter.solver c) af fn aux0 y0 ms throw = some (.ok sol) →
      sol.value = (dampedMap c.damp fun z => (fn z).1)^[sol.numSteps] y0 := by
    intro y0 ms throw sol h
    obtain ⟨st0, hi, _, _, _, _, hv, _⟩ := solve_spec _ _ _ _ _ _ _ _ h
    have : st0 = none := by
      have e : (FixedPointIter.solver (A := A) c).init fn y0 = .ok none := rfl
      rw [e] at hi; cases hi; rfl
    subst this
    rw [← fp_iterate_eq c fn aux0 y0]
    exact congrArg Prod.fst hv
  rw [hval y0 ms throw sol h, hval z0 ms' throw' sol' h', hk]
  generalize sol'.numSteps = k
  induction k with
  | zero => exact le_rfl
  | succ k ih =>
    rw [Function.iterate_succ_apply', Function.iterate_succ_apply']
    generalize (dampedMap c.damp fun z => (fn z).1)^[k] y0 = x at *
    generalize (dampedMap c.damp fun z => (fn z).1)^[k] z0 = y at *
    refine le_trans ?_ ih
    rw [maxNorm_le_iff]
    refine ⟨maxNorm_nonneg _, fun i => ?_⟩
    have h1 := (abs_le_maxNorm (fun i => (fn x).1 i - (fn y).1 i) i).trans (hfn x y)
    have h2 := abs_le_maxNorm (fun i => x i - y i) i
    simp only [dampedMap]
    rw [show (1 - c.damp) * (fn x).1 i + c.damp * x i - ((1 - c.damp) * (fn y).1 i + c.damp * y i) =
      (1 - c.damp) * ((fn x).1 i - (fn y).1 i) + c.damp * (x i - y i) by ring]
    refine (abs_add_le _ _).trans ?_
    rw [abs_mul, abs_mul, abs_of_nonneg hd0, abs_of_nonneg (sub_nonneg.2 hd1)]
    have h3 := mul_le_mul_of_nonneg_left h1 (sub_nonneg.2 hd1)
    have h4 := mul_le_mul_of_nonneg_left h2 hd0
    linarith

/-! ### The hypotheses are met -/

/-- `y₁² / 2`, a function of two unknowns with a line of minimisers, and the learning rate `2`. -/
example : let f : (Fin 2 → ℝ) → ℝ := fun y => y 0 ^ 2 / 2
    let g : (Fin 2 → ℝ) → Fin 2 → ℝ := fun y => ![y 0, 0]
    (∀ y z, f z ≤ f y + (∑ i, g y i * (z i - y i)) + 1 / 2 * ∑ i, (z i - y i) ^ 2) ∧
      (∀ y z, f y + ∑ i, g y i * (z i - y i) ≤ f z) ∧ (2 : ℝ) * 1 ≤ 2 ∧ ∀ t y, f ![0, t] ≤ f y := by
  refine ⟨fun y z => ?_, fun y z => ?_, by norm_num, fun t y => ?_⟩
  · simp only [Fin.sum_univ_two, Matrix.cons_val_zero, Matrix.cons_val_one]
    nlinarith [sq_nonneg (z 1 - y 1)]
  · simp only [Fin.sum_univ_two, Matrix.cons_val_zero, Matrix.cons_val_one]
    nlinarith [sq_nonneg (z 0 - y 0)]
  · simp only [Matrix.cons_val_zero]
    nlinarith [sq_nonneg (y 0)]

/-- Swapping the two unknowns is a map that keeps distances; without damping the iteration goes to and fro. -/
example (x y : Fin 2 → ℝ) :
    maxNorm (fun i => (![x 1, x 0] : Fin 2 → ℝ) i - (![y 1, y 0] : Fin 2 → ℝ) i) ≤ maxNorm fun i => x i - y i := by
  rw [maxNorm_le_iff]
  refine ⟨maxNorm_nonneg _, fun i => ?_⟩
  fin_cases i
  · exact abs_le_maxNorm (fun i => x i - y i) 1
  · exact abs_le_maxNorm (fun i => x i - y i) 0

end Verif.Props
