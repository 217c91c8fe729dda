import Verif.Props.BacktrackingRates
import Verif.Props.GradientMethods
import Mathlib.Analysis.SpecialFunctions.Trigonometric.Bounds
import Mathlib.Analysis.SpecialFunctions.Trigonometric.Deriv

/-!
C108: how small gradients get within a budget, on objectives that need not be convex, and how large a learning rate may be.
-/

namespace Verif.Props

open Verif Verif.Spec Verif.Driver Verif.SearchLoop

variable {ι A : Type} [Fintype ι]

/-- **C108.** `GradientDescent` on an `L`-smooth objective bounded below by `m`, not necessarily convex, with learning rate
below `2/L`: whatever the outcome of the solve, one of the points visited in its `n` steps has a gradient with
`‖grad‖² ≤ (f(y0) - m) / (rate (1 - rate L / 2) (n - 1))`, and the value returned is no worse than `y0`. -/
theorem C108_gradient_descent (rate rtol atol L m : ℝ) (nY : (ι → ℝ) → ℝ) (nF : (Unit → ℝ) → ℝ)
    (grad : (ι → ℝ) → (ι → ℝ)) (aux0 : A) (fn : (ι → ℝ) → ℝ × A) (y0 : ι → ℝ)
    (hL : LipschitzGradient (fun y => (fn y).1) grad L) (hlow : ∀ y, m ≤ (fn y).1) (hr0 : 0 < rate) (hr2 : rate * L < 2)
    (af : (ι → ℝ) → Bool) (ms : Option Nat) (throw : Bool)
    (sol : Solution (ι → ℝ) A (GradientDescent.State ι A Unit (ι → ℝ)) Unit)
    (h : iterativeSolve (gdSolver rate rtol atol nY nF grad aux0) af fn aux0 y0 ms throw = some (.ok sol))
    (hn : 2 ≤ sol.numSteps) :
    ∃ st0, (gdSolver rate rtol atol nY nF grad aux0).init fn y0 = .ok st0 ∧
      (∃ k, 1 ≤ k ∧ k < sol.numSteps ∧
        ∑ i, grad (iterateAt (gdSolver rate rtol atol nY nF grad aux0) fn aux0 y0 st0 k) i ^ 2 ≤
          ((fn y0).1 - m) / (rate * (1 - rate * L / 2) * ((sol.numSteps : ℝ) - 1))) ∧
      (fn sol.value).1 ≤ (fn y0).1 := by
  obtain ⟨st0, hi⟩ : ∃ st0, (gdSolver rate rtol atol nY nF grad aux0).init fn y0 = .ok st0 := ⟨_, rfl⟩
  refine ⟨st0, hi, ?_⟩
  have hit := gd_state rate rtol atol nY nF grad aux0 fn y0 st0 hi
  set x : Nat → ι → ℝ := fun k => (gdMap rate grad)^[k] y0 with hx
  set c := rate * (1 - rate * L / 2) with hc
  have hcpos : 0 < c := mul_pos hr0 (by linarith)
  have hdec : ∀ k, c * ∑ i, grad (x k) i ^ 2 ≤ (fn (x k)).1 - (fn (x (k + 1))).1 := by
    intro k
    have h := hL.bound (x k) (x (k + 1))
    unfold treeDot at h
    rw [sumSquares_pow] at h
    have e : ∀ i, x (k + 1) i - x k i = -rate * grad (x k) i := by
      intro i
      simp only [hx]
      rw [Function.iterate_succ_apply']
      show (_ - rate * _) - _ = _
      ring
    simp only [e] at h
    have e1 : ∑ i, grad (x k) i * (-rate * grad (x k) i) = -rate * ∑ i, grad (x k) i ^ 2 := by
      rw [Finset.mul_sum]; exact Finset.sum_congr rfl fun i _ => by ring
    have e2 : ∑ i, (-rate * grad (x k) i) ^ 2 = rate ^ 2 * ∑ i, grad (x k) i ^ 2 := by
      rw [Finset.mul_sum]; exact Finset.sum_congr rfl fun i _ => by ring
    rw [e1, e2] at h
    rw [hc]
    nlinarith
  have hsq : ∀ k, 0 ≤ ∑ i, grad (x k) i ^ 2 := fun k => Finset.sum_nonneg fun i _ => sq_nonneg _
  have hval : sol.value = x (sol.numSteps - 1) := C31_value rate rtol atol nY nF grad aux0 fn y0 af ms throw sol h
  obtain ⟨N, hN⟩ : ∃ N, sol.numSteps = N + 2 := ⟨sol.numSteps - 2, by omega⟩
  have hcast : (sol.numSteps : ℝ) - 1 = N + 1 := by rw [hN]; push_cast; ring
  have hanti : Antitone fun k => (fn (x k)).1 := antitone_nat_of_succ_le fun k => by
    have := mul_nonneg hcpos.le (hsq k)
    have := hdec k
    linarith
  refine ⟨?_, ?_⟩
  · by_contra hno
    simp only [not_exists, not_and, not_le] at hno
    have hbig : ∀ k, k ≤ N → ((fn y0).1 - m) / (c * (N + 1)) < ∑ i, grad (x k) i ^ 2 := by
      intro k hk
      have := hno (k + 1) (by omega) (by omega)
      rw [hcast] at this
      rw [(hit k).1] at this
      exact this
    have htel : ∀ n : Nat, n ≤ N + 1 → c * (n * (((fn y0).1 - m) / (c * (N + 1)))) ≤ (fn (x 0)).1 - (fn (x n)).1 ∧
        (n ≠ 0 → c * (n * (((fn y0).1 - m) / (c * (N + 1)))) < (fn (x 0)).1 - (fn (x n)).1) := by
      intro n
      induction n with
      | zero => intro _; simp
      | succ n ih =>
        intro hn
        have h1 := (ih (by omega)).1
        have h2 := hdec n
        have h3 := mul_lt_mul_of_pos_left (hbig n (by omega)) hcpos
        have : c * (((n + 1 : ℕ) : ℝ) * (((fn y0).1 - m) / (c * (N + 1)))) < (fn (x 0)).1 - (fn (x (n + 1))).1 := by
          push_cast
          linarith
        exact ⟨this.le, fun _ => this⟩
    have h1 := (htel (N + 1) le_rfl).2 (by omega)
    have h2 := hlow (x (N + 1))
    have e : c * (((N + 1 : ℕ) : ℝ) * (((fn y0).1 - m) / (c * (N + 1)))) = (fn y0).1 - m := by
      have : (N : ℝ) + 1 ≠ 0 := by positivity
      push_cast
      field_simp
    rw [e] at h1
    have e0 : x 0 = y0 := rfl
    rw [e0] at h1
    linarith
  · rw [hval]
    exact hanti (Nat.zero_le _)

/-- **C108.** Steepest descent with backtracking on an `L`-smooth objective bounded below by `m`, not necessarily convex.  `q`
trials always suffice for an accepted step; so for every `N ≥ 1`, one of the first `q N` points has a gradient with
`‖grad‖² ≤ (f(y0) - m) / (N slope smallestStep)`, and the objective never increases. -/
theorem C108_backtracking (d s i : ℝ) (a : Armijo.Cfg ℝ) (ha : Armijo.new d s i = .ok a)
    (rtol atol : ℝ) (nY : (ι → ℝ) → ℝ) (nF : (Unit → ℝ) → ℝ) (grad : (ι → ℝ) → (ι → ℝ)) (aux0 : A)
    (fn : (ι → ℝ) → ℝ × A) (y0 : ι → ℝ) (L m : ℝ) (hL0 : 0 < L) (hL : LipschitzGradient (fun y => (fn y).1) grad L)
    (hlow : ∀ y, m ≤ (fn y).1) (q : ℕ) (hq : a.stepInit * a.decreaseFactor ^ q < smallestStep a L) :
    let S := GradientDescent.solver (backtrackingDescent a rtol atol nY nF grad) aux0
    ∃ st0, S.init fn y0 = .ok st0 ∧
      let Y := iterateAt S fn aux0 y0 st0
      Y 1 = y0 ∧ (∀ k, (fn (Y (k + 2))).1 ≤ (fn (Y (k + 1))).1) ∧
      ∀ N : ℕ, 1 ≤ N → ∃ k, k < q * N ∧
        sumSquares (grad (Y (k + 1))) ≤ ((fn y0).1 - m) / (N * (a.slope * smallestStep a L)) := by
  intro S
  obtain ⟨rfl, hd0, hd1, hs0, hs1, hi0⟩ := armijo_new d s i a ha
  have htm0 : 0 < smallestStep ⟨d, s, i⟩ L := by
    unfold smallestStep
    refine lt_min hi0 ?_
    have : 0 < 1 - s := by linarith
    show 0 < d * (2 * (1 - s) / L)
    positivity
  obtain ⟨st0, hi⟩ : ∃ st0, S.init fn y0 = .ok st0 := ⟨_, rfl⟩
  refine ⟨st0, hi, ?_⟩
  intro Y
  set cfg := backtrackingDescent ⟨d, s, i⟩ rtol atol nY nF grad with hcfg
  have LL := gd_laws cfg aux0 fn
  have LA : Laws S fn (fun y => (fn y).1) (Armijo.search ⟨d, s, i⟩) cfg.descent (gdView fn) _ := LL
  have hG : ∀ y (i : FnInfo ι Unit), i = .evalGrad (fn y).1 (cfg.grad y) → i.grad? = some (cfg.grad y) := by
    rintro y i rfl; rfl
  have hrel := steepest_related ⟨d, s, i⟩ rtol atol nY nF grad aux0 fn y0 st0 hi
  obtain ⟨p1, p2, p3⟩ := armijo_progress (G := grad) LA hG aux0 y0 st0 hi hd0 hd1 hs0 hs1 hi0 L L 1 1 one_pos hL0 hL0.le
    (by rw [mul_one]) hL.bound (fun k => ⟨fun c => -grad (Y (k + 1)) c, fun t => congrArg Prod.fst (hrel (k + 1) (by omega) t), by
      rw [one_mul]
      unfold treeDot sumSquares
      rw [← Finset.sum_neg_distrib]
      exact (Finset.sum_congr rfl fun c _ => by ring).le, by
      rw [one_mul]
      unfold sumSquares
      exact (Finset.sum_congr rfl fun c _ => by ring).le⟩) (smallestStep ⟨d, s, i⟩ L)
      (by unfold smallestStep; rw [mul_one]) q hq
  have hY1 : Y 1 = y0 := (armijo_start LA aux0 y0 st0 hi).1
  refine ⟨hY1, p1, fun N hN => ?_⟩
  have hanti : Antitone fun k => (fn (Y (k + 1))).1 := antitone_nat_of_succ_le p1
  have hNpos : (0 : ℝ) < N := by exact_mod_cast hN
  set c := s * smallestStep ⟨d, s, i⟩ L with hc
  have hcpos : 0 < c := mul_pos hs0 htm0
  have hqpos : 0 < q := by
    rcases Nat.eq_zero_or_pos q with rfl | h
    · have h1 : smallestStep ⟨d, s, i⟩ L ≤ i := min_le_left _ _
      simp only [pow_zero, mul_one] at hq
      exact absurd hq (not_lt.2 h1)
    · exact h
  by_contra hno
  simp only [not_exists, not_and, not_le] at hno
  have htel : ∀ n : ℕ, n ≤ N → (n : ℝ) * (((fn y0).1 - m) / N) ≤ (fn (Y 1)).1 - (fn (Y (q * n + 1))).1 ∧
      (n ≠ 0 → (n : ℝ) * (((fn y0).1 - m) / N) < (fn (Y 1)).1 - (fn (Y (q * n + 1))).1) := by
    intro n
    induction n with
    | zero => intro _; simp
    | succ n ih =>
      intro hn
      have h1 := (ih (by omega)).1
      obtain ⟨j, hj, _, _, hg⟩ := p3 (q * n)
      have hlt : q * n < q * N := Nat.mul_lt_mul_of_pos_left (by omega) hqpos
      have h2 := mul_lt_mul_of_pos_left (hno (q * n) hlt) hcpos
      have e : c * (((fn y0).1 - m) / (N * c)) = ((fn y0).1 - m) / N := by field_simp
      rw [e] at h2
      rw [mul_one] at hg
      have h3 : (fn (Y (q * (n + 1) + 1))).1 ≤ (fn (Y (q * n + j + 1 + 1))).1 := hanti (by
        have : q * (n + 1) = q * n + q := by ring
        omega)
      have h4 : (fn (Y (q * n + j + 1 + 1))).1 = (fn (Y (q * n + j + 2))).1 := rfl
      have hg' : c * sumSquares (grad (Y (q * n + 1))) ≤ (fn (Y (q * n + 1))).1 - (fn (Y (q * n + j + 2))).1 := hg
      have : ((n + 1 : ℕ) : ℝ) * (((fn y0).1 - m) / N) < (fn (Y 1)).1 - (fn (Y (q * (n + 1) + 1))).1 := by
        push_cast
        linarith
      exact ⟨this.le, fun _ => this⟩
  have h1 := (htel N le_rfl).2 (by omega)
  rw [mul_div_cancel₀ _ hNpos.ne', hY1] at h1
  have h2 := hlow (Y (q * N + 1))
  linarith

/-- The quadratic `L/2 x²`. -/
noncomputable def parabola (L : ℝ) (y : Unit → ℝ) : ℝ × Unit := (L / 2 * y () ^ 2, ())

theorem parabola_lipschitz (L : ℝ) (hL : 0 ≤ L) :
    LipschitzGradient (fun y => (parabola L y).1) (fun y _ => L * y ()) L := by
  refine ⟨fun y p => ?_, fun y z => ?_, hL⟩
  · have h1 : HasDerivAt (fun t : ℝ => y () + t * p ()) (p ()) 0 := by
      simpa using ((hasDerivAt_id (0 : ℝ)).mul_const (p ())).const_add (y ())
    have h2 := (h1.pow 2).const_mul (L / 2)
    refine h2.congr_deriv ?_
    simp
    ring
  · simp only [Finset.univ_unique, Finset.sum_singleton]
    apply le_of_eq
    show (L * y () - L * z ()) ^ 2 = L ^ 2 * (y () - z ()) ^ 2
    ring

/-- **C108.** The bound `2/L` for the learning rate is sharp: on `L/2 x²` with `rate ≥ 2/L`, no solve from a start at least
`atol` away from the minimum ever reports success (with `rtol ≤ 1`), and the iterates move away from the minimum by the factor
`rate L - 1` each step. -/
theorem C108_rate_too_large (rate rtol atol L : ℝ) (hL : 0 < L) (hr : 2 ≤ rate * L) (ha : 0 < atol) (hr0 : 0 ≤ rtol)
    (hr1 : rtol ≤ 1) (y0 : ℝ) (hy : atol ≤ |y0|) (af : (Unit → ℝ) → Bool) (ms : Option Nat) (throw : Bool)
    (sol : Solution (Unit → ℝ) Unit (GradientDescent.State Unit Unit Unit (Unit → ℝ)) Unit)
    (h : iterativeSolve (gdSolver rate rtol atol maxNorm maxNorm (fun y _ => L * y ()) ()) af (parabola L) () (fun _ => y0) ms
      throw = some (.ok sol)) :
    sol.result ≠ .successful ∧ |sol.value ()| = (rate * L - 1) ^ (sol.numSteps - 1) * |y0| := by
  have hmap : ∀ k, |((fun (y : Unit → ℝ) (i : Unit) => y i - rate * (L * y ()))^[k] fun _ => y0) ()| =
      (rate * L - 1) ^ k * |y0| := by
    intro k
    induction k with
    | zero => simp
    | succ k ih =>
      rw [Function.iterate_succ_apply']
      set z := ((fun (y : Unit → ℝ) (i : Unit) => y i - rate * (L * y ()))^[k] fun _ => y0) () with hz
      show |z - rate * (L * z)| = _
      have e : z - rate * (L * z) = -((rate * L - 1) * z) := by ring
      rw [e, abs_neg, abs_mul, abs_of_nonneg (by linarith), ih, pow_succ]
      ring
  have hv := C31_value rate rtol atol maxNorm maxNorm (fun (y : Unit → ℝ) (_ : Unit) => L * y ()) () (parabola L)
    (fun _ => y0) af ms throw sol h
  refine ⟨fun hs => ?_, by rw [hv]; exact hmap _⟩
  obtain ⟨x, hx, hsmall, _⟩ := C31_success_small_gradient rate rtol atol (fun (y : Unit → ℝ) (_ : Unit) => L * y ()) ()
    (parabola L) (fun _ => y0) ha hr0 af ms throw sol h hs
  have h1 := hsmall ()
  have h2 : |sol.value ()| = (rate * L - 1) * |x ()| := by
    rw [hx]
    show |x () - rate * (L * x ())| = _
    have e : x () - rate * (L * x ()) = -((rate * L - 1) * x ()) := by ring
    rw [e, abs_neg, abs_mul, abs_of_nonneg (by linarith)]
  obtain ⟨_, k, _, hk, hn, _⟩ := C58_gradient_family _ (fun _ _ _ _ _ => rfl) () (parabola L) af (fun _ => y0) ms throw sol h hs
  have h3 : (rate * L - 1) * |y0| ≤ |sol.value ()| := by
    rw [hv, hmap]
    refine mul_le_mul_of_nonneg_right ?_ (abs_nonneg _)
    exact le_self_pow₀ (by linarith) (by omega)
  have h4 : |rate * (L * x ())| = rate * L * |x ()| := by
    rw [← mul_assoc, abs_mul, abs_of_nonneg (by linarith)]
  rw [h4] at h1
  have hx0 := abs_nonneg (x ())
  have h5 : |y0| ≤ |x ()| := by
    rw [h2] at h3
    exact le_of_mul_le_mul_left h3 (by linarith)
  have h6 : rtol * |sol.value ()| ≤ |sol.value ()| := mul_le_of_le_one_left (abs_nonneg _) hr1
  rw [h2] at h1 h6
  linarith

/-- The hypotheses of `C108_gradient_descent` and of `C108_backtracking` are met by the parabola (here with `L = 1`), and solves
with two steps or more exist: from `5`, with learning rate `1/2` and a budget of `10` steps. -/
example : LipschitzGradient (fun y => (parabola 1 y).1) (fun y _ => 1 * y ()) 1 ∧ (∀ y, 0 ≤ (parabola 1 y).1) ∧
    (0 : ℝ) < 1 / 2 ∧ (1 / 2 : ℝ) * 1 < 2 :=
  ⟨parabola_lipschitz 1 zero_le_one, fun y => by unfold parabola; positivity, by norm_num, by norm_num⟩

/-- Nonconvex objectives are covered: `-cos` is bounded below and its gradient `sin` is 1-Lipschitz. -/
example : ∃ grad, LipschitzGradient (fun y : Unit → ℝ => -Real.cos (y ())) grad 1 ∧ ∀ y : Unit → ℝ, -1 ≤ -Real.cos (y ()) := by
  refine ⟨fun y _ => Real.sin (y ()), ⟨fun y p => ?_, fun y z => ?_, zero_le_one⟩, fun y => by linarith [Real.cos_le_one (y ())]⟩
  · have h1 : HasDerivAt (fun t : ℝ => y () + t * p ()) (p ()) 0 := by
      simpa using ((hasDerivAt_id (0 : ℝ)).mul_const (p ())).const_add (y ())
    have h2 := (h1.cos).neg
    refine h2.congr_deriv ?_
    simp
  · simp only [Finset.univ_unique, Finset.sum_singleton, one_pow, one_mul]
    exact sq_le_sq.2 (Real.abs_sin_sub_sin_le (y ()) (z ()))

/-- Rate `3` on `x²/2` from `1`: a case of `C108_rate_too_large`. -/
example : (0 : ℝ) < 1 ∧ (2 : ℝ) ≤ 3 * 1 ∧ (0 : ℝ) < 1 / 8 ∧ (1 / 8 : ℝ) ≤ |1| := by norm_num

end Verif.Props
