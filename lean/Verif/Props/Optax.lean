import Verif.Model.Optax
import Verif.Props.GradientMethods

/-! Properties of `OptaxMinimiser` (C49). -/

namespace Verif.Props

open Verif Verif.Spec Verif.Driver

variable {ι A OS : Type}

/-- The optax training loop "on paper": parameters and optimiser state after `k` updates. -/
def optaxLoop (o : Optax.Optim ι OS) (f : (ι → ℝ) → ℝ) (grad : (ι → ℝ) → (ι → ℝ)) (y0 : ι → ℝ) : Nat → (ι → ℝ) × OS
  | 0 => (y0, o.init y0)
  | k + 1 =>
    let p := optaxLoop o f grad y0 k
    let u := o.update (grad p.1) p.2 p.1 (f p.1) f
    (fun i => p.1 i + u.1 i, u.2)

section
variable (cfg : Optax.Cfg ι OS) (aux0 : A) (fn : (ι → ℝ) → ℝ × A) (y0 : ι → ℝ)

/-- **C49.** For every optimiser, objective, gradient and start, the iterates of `minimise` with `OptaxMinimiser` are those of
the training loop `updates, s = optim.update(grads, s, y, …); y = apply_updates(y, updates)`; the optimiser state is that
of the loop; the stored objective value is that of the last point stepped from; the aux output of a step is that of the
point it steps from. -/
theorem C49_recursion (st0 : Optax.State OS) (hi : (Optax.solver (A := A) cfg).init fn y0 = .ok st0) (k : Nat) :
    let P := optaxLoop cfg.optim (fun y => (fn y).1) cfg.grad y0
    iterateAt (Optax.solver cfg) fn aux0 y0 st0 k = (P k).1 ∧
    (stateAt (Optax.solver cfg) fn aux0 y0 st0 k).optState = (P k).2 ∧
    (stateAt (Optax.solver cfg) fn aux0 y0 st0 k).step = k ∧
    (stateAt (Optax.solver cfg) fn aux0 y0 st0 k).f = (if k = 0 then cfg.fmax else (fn (P (k - 1)).1).1) ∧
    (∀ j, k = j + 1 → auxAt (Optax.solver cfg) fn aux0 y0 st0 k = (fn (P j).1).2) := by
  intro P
  cases hi
  induction k with
  | zero => exact ⟨rfl, rfl, rfl, rfl, fun j h => by omega⟩
  | succ k ih =>
    obtain ⟨h1, h2, h3, _, _⟩ := ih
    have e1 : iterateAt (Optax.solver cfg) fn aux0 y0 (Optax.init cfg y0) (k + 1) =
        (Optax.step cfg fn (iterateAt (Optax.solver cfg) fn aux0 y0 (Optax.init cfg y0) k)
          (stateAt (Optax.solver cfg) fn aux0 y0 (Optax.init cfg y0) k)).1 := rfl
    have e2 : stateAt (Optax.solver cfg) fn aux0 y0 (Optax.init cfg y0) (k + 1) =
        (Optax.step cfg fn (iterateAt (Optax.solver cfg) fn aux0 y0 (Optax.init cfg y0) k)
          (stateAt (Optax.solver cfg) fn aux0 y0 (Optax.init cfg y0) k)).2.1 := rfl
    have e3 : auxAt (Optax.solver cfg) fn aux0 y0 (Optax.init cfg y0) (k + 1) =
        (Optax.step cfg fn (iterateAt (Optax.solver cfg) fn aux0 y0 (Optax.init cfg y0) k)
          (stateAt (Optax.solver cfg) fn aux0 y0 (Optax.init cfg y0) k)).2.2 := rfl
    rw [e1, e2, e3]
    simp only [Optax.step, h1, h2, h3]
    refine ⟨rfl, rfl, trivial, ?_, ?_⟩
    · rw [if_neg (Nat.succ_ne_zero k)]; rfl
    · intro j hj
      obtain rfl : j = k := by omega
      rfl

/-- **C49.** The value, aux and number of steps of any solve. -/
theorem C49_value (af : (ι → ℝ) → Bool) (ms : Option Nat) (throw : Bool) (sol : Solution (ι → ℝ) A (Optax.State OS) Unit)
    (h : iterativeSolve (Optax.solver cfg) af fn aux0 y0 ms throw = some (.ok sol)) :
    let P := optaxLoop cfg.optim (fun y => (fn y).1) cfg.grad y0
    sol.value = (P sol.numSteps).1 ∧ ∀ j, sol.numSteps = j + 1 → sol.aux = (fn (P j).1).2 := by
  intro P
  obtain ⟨_, _, st0, hi, _, hp⟩ := C01_step_budget _ _ _ _ _ _ _ _ h
  have hr := C49_recursion cfg aux0 fn y0 st0 hi sol.numSteps
  have hv : sol.value = iterateAt (Optax.solver cfg) fn aux0 y0 st0 sol.numSteps := congrArg Prod.fst hp
  have ha : sol.aux = auxAt (Optax.solver cfg) fn aux0 y0 st0 sol.numSteps := congrArg (·.2.1) hp
  exact ⟨hv.trans hr.1, fun j hj => ha.trans (hr.2.2.2.2 j hj)⟩

/-- **C49.** What success means (default norm): at least two function evaluations were made, unless the objective at `y0` is
within tolerance of the largest floating-point number; the last update `value - x` is small entry by entry relative to the
point `x` it was made from, and the objective at `x` differs little from that at the point before.  The objective at the
returned value itself plays no role. -/
theorem C49_success_partial [Fintype ι] (hY : cfg.normY = maxNorm) (hF : cfg.normF = maxNorm) (ha : 0 < cfg.atol)
    (hr : 0 ≤ cfg.rtol) (hfirst : cfg.atol + cfg.rtol * |(fn y0).1| ≤ cfg.fmax - (fn y0).1) (af : (ι → ℝ) → Bool)
    (ms : Option Nat) (throw : Bool) (sol : Solution (ι → ℝ) A (Optax.State OS) Unit)
    (h : iterativeSolve (Optax.solver cfg) af fn aux0 y0 ms throw = some (.ok sol)) (hs : sol.result = .successful) :
    ∃ k, sol.numSteps = k + 2 ∧
      let P := optaxLoop cfg.optim (fun y => (fn y).1) cfg.grad y0
      let x := (P (k + 1)).1
      let w := (P k).1
      sol.value = (P (k + 2)).1 ∧ (∀ i, |sol.value i - x i| < cfg.atol + cfg.rtol * |x i|) ∧
      |(fn x).1 - (fn w).1| < cfg.atol + cfg.rtol * |(fn x).1| := by
  obtain ⟨_, _, st0, hi, hst, hp⟩ := C01_step_budget _ _ _ _ _ _ _ _ h
  obtain ⟨st0', hi', hterm, _⟩ := C02_success_is_certificate _ _ _ _ _ _ _ _ h hs
  rw [hi] at hi'; cases hi'
  have ht : sol.state.terminate = true := congrArg Prod.fst hterm
  have hv := (C49_value cfg aux0 fn y0 af ms throw sol h).1
  rw [hst] at ht
  have step : ∀ k, (stateAt (Optax.solver cfg) fn aux0 y0 st0 (k + 1)).terminate = cauchyTermination cfg.rtol cfg.atol cfg.normY
      cfg.normF (iterateAt (Optax.solver cfg) fn aux0 y0 st0 k)
      (cfg.optim.update (cfg.grad (iterateAt (Optax.solver cfg) fn aux0 y0 st0 k))
        (stateAt (Optax.solver cfg) fn aux0 y0 st0 k).optState (iterateAt (Optax.solver cfg) fn aux0 y0 st0 k)
        (fn (iterateAt (Optax.solver cfg) fn aux0 y0 st0 k)).1 fun y => (fn y).1).1
      (fun _ => (fn (iterateAt (Optax.solver cfg) fn aux0 y0 st0 k)).1)
      (fun _ => (fn (iterateAt (Optax.solver cfg) fn aux0 y0 st0 k)).1 -
        (stateAt (Optax.solver cfg) fn aux0 y0 st0 k).f) := fun k => rfl
  rcases hn : sol.numSteps with _ | _ | k
  · rw [hn] at ht
    cases hi
    cases ht
  · rw [hn, step 0, hY, hF, C46_cauchy_iff_all_entries _ _ ha hr] at ht
    exfalso
    have h2 := ht.2 ()
    have e : (stateAt (Optax.solver cfg) fn aux0 y0 st0 0).f = cfg.fmax :=
      (C49_recursion cfg aux0 fn y0 st0 hi 0).2.2.2.1
    rw [e] at h2
    have e0 : iterateAt (Optax.solver cfg) fn aux0 y0 st0 0 = y0 := rfl
    rw [e0, abs_sub_comm] at h2
    have := le_abs_self (cfg.fmax - (fn y0).1)
    linarith
  · rw [hn, step (k + 1), hY, hF, C46_cauchy_iff_all_entries _ _ ha hr] at ht
    obtain ⟨h1, h2, _, h4, _⟩ := C49_recursion cfg aux0 fn y0 st0 hi (k + 1)
    rw [h1, h2, h4, if_neg (Nat.succ_ne_zero k)] at ht
    rw [hn] at hv
    refine ⟨k, rfl, hv, ?_, ht.2 ()⟩
    intro i
    have := ht.1 i
    rw [hv]
    have e : (optaxLoop cfg.optim (fun y => (fn y).1) cfg.grad y0 (k + 2)).1 i -
        (optaxLoop cfg.optim (fun y => (fn y).1) cfg.grad y0 (k + 1)).1 i =
        (cfg.optim.update (cfg.grad (optaxLoop cfg.optim (fun y => (fn y).1) cfg.grad y0 (k + 1)).1)
        (optaxLoop cfg.optim (fun y => (fn y).1) cfg.grad y0 (k + 1)).2
        (optaxLoop cfg.optim (fun y => (fn y).1) cfg.grad y0 (k + 1)).1
        (fn (optaxLoop cfg.optim (fun y => (fn y).1) cfg.grad y0 (k + 1)).1).1 fun y => (fn y).1).1 i := by
      show _ + _ - _ = _
      ring
    rw [e]; exact this

end

/-- **C49.** With `optax.sgd(rate)`, `OptaxMinimiser` makes exactly the steps of the built-in `GradientDescent(rate)` - which
spends its first step on evaluating `y0`. -/
theorem C49_sgd_is_gradient_descent (rate rtol atol fmax : ℝ) (nY : (ι → ℝ) → ℝ) (nF : (Unit → ℝ) → ℝ)
    (grad : (ι → ℝ) → (ι → ℝ)) (aux0 : A) (fn : (ι → ℝ) → ℝ × A) (y0 : ι → ℝ)
    (st0 : Optax.State Unit)
    (hi : (Optax.solver (A := A) ⟨Optax.sgd rate, rtol, atol, nY, nF, grad, fmax⟩).init fn y0 = .ok st0)
    (gd0 : GradientDescent.State ι A Unit (ι → ℝ))
    (hg : (GradientDescent.solver (GradientDescent.gradientDescent rate rtol atol nY nF grad) aux0).init fn y0 = .ok gd0)
    (k : Nat) :
    iterateAt (Optax.solver ⟨Optax.sgd rate, rtol, atol, nY, nF, grad, fmax⟩) fn aux0 y0 st0 k =
      iterateAt (GradientDescent.solver (GradientDescent.gradientDescent rate rtol atol nY nF grad) aux0) fn aux0 y0 gd0
        (k + 1) := by
  rw [(C49_recursion _ aux0 fn y0 st0 hi k).1, (gd_state rate rtol atol nY nF grad aux0 fn y0 gd0 hg k).1]
  induction k with
  | zero => rfl
  | succ k ih =>
    rw [Function.iterate_succ_apply', ← ih]
    funext i
    show _ + -rate * _ = _ - rate * _
    ring

/-- **C49**, the corner left out above: if the objective at `y0` is the largest floating-point number (or within tolerance of
it) and the first update is small, the very first step "succeeds" without any two values having been compared: here with
`fn y = fmax + y`, whose gradient is `1` everywhere, from `0`. -/
theorem C49_first_step_spurious (fmax : ℝ) :
    ∃ (sol : Solution (Unit → ℝ) Unit (Optax.State Unit) Unit),
      iterativeSolve (Optax.solver ⟨Optax.sgd 0.1, 1, 1, maxNorm, maxNorm, fun _ _ => 1, fmax⟩) (fun _ => true)
        (fun y => (fmax + y (), ())) () (fun _ => 0) (some 256) true = some (.ok sol) ∧
      sol.result = .successful ∧ sol.numSteps = 1 := by
  have hterm : (stateAt (Optax.solver (A := Unit) ⟨Optax.sgd 0.1, 1, 1, maxNorm, maxNorm, fun _ _ => 1, fmax⟩)
      (fun y : Unit → ℝ => (fmax + y (), ())) () (fun _ => 0)
      (Optax.init (ι := Unit) ⟨Optax.sgd 0.1, 1, 1, maxNorm, maxNorm, fun _ _ => 1, fmax⟩ (fun _ => 0)) 1).terminate = true :=
    (C46_cauchy_iff_all_entries (ι := Unit) (κ := Unit) 1 1 one_pos zero_le_one _ _ _ _).2 (by
      constructor
      · intro i
        show |(-0.1 * 1 : ℝ)| < 1 + 1 * |(0 : ℝ)|
        norm_num
      · intro i
        show |fmax + 0 - fmax| < 1 + 1 * |fmax + 0|
        have := abs_nonneg (fmax + 0)
        rw [add_zero] at *
        rw [sub_self, abs_zero]
        linarith)
  exact C02_success_complete _ _ _ _ _ _ rfl _ _ 1 (by
    intro j hj
    obtain rfl : j = 0 := by omega
    exact ⟨rfl, rfl⟩) rfl (by
      exact Prod.ext hterm rfl) (by intro n hn; cases hn; omega)

/-- The hypothesis on the first value holds for every realistic problem: e.g. tolerances `1e-3`, an objective that starts
below `1e30` in absolute value, and the largest `float32`. -/
example (f0 : ℝ) (h : |f0| ≤ 1e30) : (1e-3 : ℝ) + 1e-3 * |f0| ≤ 3.4e38 - f0 := by
  have := le_abs_self f0
  norm_num at *
  linarith

/-- A successful run (`y²/2` with rate `1`: the first step reaches `0`, the second stays there). -/
example : (optaxLoop (Optax.sgd 1) (fun y : Unit → ℝ => y () ^ 2 / 2) (fun y => y) (fun _ => 5) 2).1 = fun _ => 0 := by
  funext i
  show (5 + -1 * 5 + -1 * (5 + -1 * 5) : ℝ) = 0
  norm_num

end Verif.Props
