import Verif.Props.FixedPoint
import Verif.Lemmas.Norms
import Mathlib.Analysis.SpecificLimits.Basic

/-!
C152: a feedback loop may be cut open anywhere.

Two processes feed each other: `z = P x` and `x = Q z`.  One can solve for `x` (the fixed points of `Q ∘ P`) or for `z` (those of
`P ∘ Q`).  `FixedPointIteration` does the same either way, and a contraction guarantee for one way of cutting the loop open
carries over to the other, although `P ∘ Q` need not be a contraction itself.
-/

namespace Verif.Props

open Verif.Driver Verif.Spec FixedPointIter

variable {ι κ A B : Type}

/-- Distances, in `max_norm`, grow by at most the factor `L`. -/
def Stretches [Fintype ι] [Fintype κ] (L : ℝ) (P : (ι → ℝ) → κ → ℝ) : Prop :=
  ∀ x x', maxNorm (fun i => P x i - P x' i) ≤ L * maxNorm fun i => x i - x' i

theorem loop_undamped (g : (ι → ℝ) → ι → ℝ) : dampedMap 0 g = g := by
  funext y i; simp [dampedMap]

theorem loop_iterate (P : (ι → ℝ) → κ → ℝ) (Q : (κ → ℝ) → ι → ℝ) (y : ι → ℝ) (k : ℕ) :
    (fun z => P (Q z))^[k] (P y) = P ((fun x => Q (P x))^[k] y) := by
  induction k with
  | zero => rfl
  | succ k ih => rw [Function.iterate_succ_apply', Function.iterate_succ_apply', ih]

/-- **C152.** Without damping, the iterates of the loop cut open at `z`, started at `P y0`, are the images under `P` of those of
the loop cut open at `x`, started at `y0`. -/
theorem C152_iterates (P : (ι → ℝ) → κ → ℝ) (Q : (κ → ℝ) → ι → ℝ) (c : Cfg ι ℝ) (c' : Cfg κ ℝ) (hd : c.damp = 0)
    (hd' : c'.damp = 0) (fn : (ι → ℝ) → (ι → ℝ) × A) (hfn : ∀ x, (fn x).1 = Q (P x)) (fn' : (κ → ℝ) → (κ → ℝ) × B)
    (hfn' : ∀ z, (fn' z).1 = P (Q z)) (aux0 : A) (aux0' : B) (y0 : ι → ℝ) (k : ℕ) :
    iterateAt (solver c') fn' aux0' (P y0) none k = P (iterateAt (solver c) fn aux0 y0 none k) := by
  rw [fp_iterate_eq, fp_iterate_eq, hd, hd', loop_undamped, loop_undamped, funext hfn, funext hfn', loop_iterate]

/-- **C152.** With damping they are if `P` is affine. -/
theorem C152_damped_iterates (P : (ι → ℝ) → κ → ℝ)
    (hP : ∀ (t : ℝ) (x x' : ι → ℝ), P (fun i => (1 - t) * x i + t * x' i) = fun i => (1 - t) * P x i + t * P x' i)
    (Q : (κ → ℝ) → ι → ℝ) (c : Cfg ι ℝ) (c' : Cfg κ ℝ) (hd : c'.damp = c.damp) (fn : (ι → ℝ) → (ι → ℝ) × A)
    (hfn : ∀ x, (fn x).1 = Q (P x)) (fn' : (κ → ℝ) → (κ → ℝ) × B) (hfn' : ∀ z, (fn' z).1 = P (Q z)) (aux0 : A) (aux0' : B)
    (y0 : ι → ℝ) (k : ℕ) :
    iterateAt (solver c') fn' aux0' (P y0) none k = P (iterateAt (solver c) fn aux0 y0 none k) := by
  induction k with
  | zero => rfl
  | succ k ih =>
    rw [fp_iterate_succ, fp_iterate_succ, ih, hd]
    generalize iterateAt (solver c) fn aux0 y0 none k = x
    funext i
    have := congrFun (hP c.damp (Q (P x)) x) i
    simp only [dampedMap, hfn', hfn]
    exact this.symm

section
variable [Fintype ι] [Fintype κ]

theorem loop_updates {P : (ι → ℝ) → κ → ℝ} {Q : (κ → ℝ) → ι → ℝ} {q L : ℝ} (hq0 : 0 ≤ q) (hL : 0 ≤ L)
    (hqp : Stretches q fun x => Q (P x)) (hP : Stretches L P) (z0 : κ → ℝ) (k : ℕ) :
    maxNorm (fun i => (fun z => P (Q z))^[k + 1] z0 i - (fun z => P (Q z))^[k + 2] z0 i) ≤
      L * q ^ k * maxNorm fun i => Q z0 i - Q (P (Q z0)) i := by
  have hx : ∀ k, maxNorm (fun i => (fun x => Q (P x))^[k] (Q z0) i - (fun x => Q (P x))^[k + 1] (Q z0) i) ≤
      q ^ k * maxNorm fun i => Q z0 i - Q (P (Q z0)) i := by
    intro k
    induction k with
    | zero => simp
    | succ k ih =>
      have := hqp ((fun x => Q (P x))^[k] (Q z0)) ((fun x => Q (P x))^[k + 1] (Q z0))
      rw [Function.iterate_succ_apply' _ (k + 1), Function.iterate_succ_apply' _ k] at *
      refine this.trans ?_
      calc _ ≤ q * (q ^ k * _) := mul_le_mul_of_nonneg_left ih hq0
        _ = _ := by ring
  have e : ∀ k, (fun z => P (Q z))^[k + 1] z0 = P ((fun x => Q (P x))^[k] (Q z0)) := fun k => by
    rw [Function.iterate_succ_apply, loop_iterate]
  rw [e, e]
  refine (hP _ _).trans ?_
  rw [mul_assoc]
  exact mul_le_mul_of_nonneg_left (hx k) hL

/-- **C152.** If the loop cut open at `x` is a contraction and `P` is Lipschitz, the solve of the loop cut open at `z` succeeds,
from every starting point, within every sufficiently large budget. -/
theorem C152_succeeds {P : (ι → ℝ) → κ → ℝ} {Q : (κ → ℝ) → ι → ℝ} {q L : ℝ} (hq0 : 0 ≤ q) (hq1 : q < 1) (hL : 0 ≤ L)
    (hqp : Stretches q fun x => Q (P x)) (hP : Stretches L P) (c : Cfg κ ℝ) (hn : c.norm = maxNorm) (hd : c.damp = 0)
    (ha : 0 < c.atol) (hr : 0 ≤ c.rtol) (fn : (κ → ℝ) → (κ → ℝ) × A) (hfn : ∀ z, (fn z).1 = P (Q z)) (aux0 : A) (z0 : κ → ℝ) :
    ∃ N, ∀ (ms : Option ℕ) (throw : Bool), (∀ n, ms = some n → N ≤ n) →
      ∃ sol, iterativeSolve (solver c) (fun _ => true) fn aux0 z0 ms throw = some (.ok sol) ∧ sol.result = .successful := by
  set d := maxNorm fun i => Q z0 i - Q (P (Q z0)) i
  have hlim : Filter.Tendsto (fun k => L * q ^ k * d) Filter.atTop (nhds 0) := by
    simpa using ((tendsto_pow_atTop_nhds_zero_of_lt_one hq0 hq1).const_mul L).mul_const d
  obtain ⟨k, hk⟩ := (hlim.eventually (gt_mem_nhds ha)).exists
  refine ⟨k + 2, fun ms throw hb => ?_⟩
  obtain ⟨sol, h1, h2, _⟩ := fp_succeeds c fn aux0 z0 ms throw (k + 1) (by
    rw [fp_iterate_eq, fp_iterate_eq, hd, loop_undamped, funext hfn, hn, maxNorm_lt_iff]
    refine ⟨one_pos, fun i => ?_⟩
    have hsc : 0 < c.atol + c.rtol * |(fun z => P (Q z))^[k + 1 + 1] z0 i| :=
      add_pos_of_pos_of_nonneg ha (mul_nonneg hr (abs_nonneg _))
    rw [abs_div, abs_of_pos hsc, div_lt_one hsc]
    have hi := (abs_le_maxNorm (fun i => (fun z => P (Q z))^[k + 1] z0 i - (fun z => P (Q z))^[k + 2] z0 i) i).trans
      (loop_updates hq0 hL hqp hP z0 k)
    have h0 : 0 ≤ c.rtol * |(fun z => P (Q z))^[k + 1 + 1] z0 i| := mul_nonneg hr (abs_nonneg _)
    exact lt_of_le_of_lt hi (by linarith)) (fun n hn => by have := hb n hn; omega)
  exact ⟨sol, h1, h2⟩

/-- **C152.** And every successful answer is close to `P x*`, where `x*` is the fixed point of the loop cut open at `x`, also if
`P ∘ Q` is not a contraction: within `L M / (1 - q)` times the tolerance, if distances grow by at most `L` under `P` and by at
most `M` under `Q`. -/
theorem C152_accuracy {P : (ι → ℝ) → κ → ℝ} {Q : (κ → ℝ) → ι → ℝ} {q L M : ℝ} (hq1 : q < 1) (hL : 0 ≤ L) (hM : 0 ≤ M)
    (hqp : Stretches q fun x => Q (P x)) (hP : Stretches L P) (hQ : Stretches M Q) (xs : ι → ℝ) (hxs : Q (P xs) = xs) (c : Cfg κ ℝ)
    (hn : c.norm = maxNorm) (hd : c.damp = 0) (ha : 0 < c.atol) (hr : 0 ≤ c.rtol) (fn : (κ → ℝ) → (κ → ℝ) × A)
    (hfn : ∀ z, (fn z).1 = P (Q z)) (aux0 : A) (z0 : κ → ℝ) (af : (κ → ℝ) → Bool) (ms : Option ℕ) (throw : Bool)
    (sol : Solution (κ → ℝ) A (Option ℝ) Unit) (h : iterativeSolve (solver c) af fn aux0 z0 ms throw = some (.ok sol))
    (hs : sol.result = .successful) :
    P (Q (P xs)) = P xs ∧
      maxNorm (fun i => sol.value i - P xs i) ≤ L * M / (1 - q) * (c.atol + c.rtol * maxNorm sol.value) := by
  refine ⟨by rw [hxs], ?_⟩
  obtain ⟨k, _, hv, _, hlt⟩ := C20_success_certificate c fn aux0 z0 af ms throw sol h hs
  set z := (dampedMap c.damp fun z => (fn z).1)^[k] z0
  have hv' : sol.value = P (Q z) := by
    rw [hv, hd, hfn]; funext i; simp
  have hδ : maxNorm (fun i => z i - sol.value i) ≤ c.atol + c.rtol * maxNorm sol.value := by
    have h0 : 0 ≤ c.rtol * maxNorm sol.value := mul_nonneg hr (maxNorm_nonneg _)
    rw [maxNorm_le_iff]
    refine ⟨by linarith, fun i => ?_⟩
    rw [hn] at hlt
    have h1 := ((maxNorm_lt_iff _ _).1 hlt).2 i
    have hsc : 0 < c.atol + c.rtol * |sol.value i| := add_pos_of_pos_of_nonneg ha (mul_nonneg hr (abs_nonneg _))
    rw [abs_div, abs_of_pos hsc, div_lt_one hsc] at h1
    have h2 := mul_le_mul_of_nonneg_left (abs_le_maxNorm sol.value i) hr
    linarith
  set δ := c.atol + c.rtol * maxNorm sol.value
  -- the distance of `Q z` from the fixed point
  have hy : maxNorm (fun i => Q z i - xs i) ≤ M * δ / (1 - q) := by
    rw [le_div_iff₀ (by linarith)]
    have h1 := hqp (Q z) xs
    have h2 := hQ z sol.value
    have h3 : maxNorm (fun i => Q z i - xs i) ≤
        maxNorm (fun i => Q z i - Q sol.value i) + maxNorm fun i => Q (P (Q z)) i - Q (P xs) i := by
      rw [maxNorm_le_iff]
      refine ⟨add_nonneg (maxNorm_nonneg _) (maxNorm_nonneg _), fun i => ?_⟩
      have a1 := abs_le_maxNorm (fun i => Q z i - Q sol.value i) i
      have a2 := abs_le_maxNorm (fun i => Q (P (Q z)) i - Q (P xs) i) i
      have e : Q z i - xs i = (Q z i - Q sol.value i) + (Q (P (Q z)) i - Q (P xs) i) := by
        rw [hv', hxs]; ring
      rw [e]
      exact (abs_add_le _ _).trans (add_le_add a1 a2)
    have h4 := h2.trans (mul_le_mul_of_nonneg_left hδ hM)
    have e1 : maxNorm (fun i => Q z i - xs i) * (1 - q) =
        maxNorm (fun i => Q z i - xs i) - q * maxNorm fun i => Q z i - xs i := by ring
    rw [e1]
    linarith
  rw [hv']
  refine (hP (Q z) xs).trans ((mul_le_mul_of_nonneg_left hy hL).trans (le_of_eq ?_))
  ring

end

/-! ### The hypotheses are met, by a loop that is a contraction only if it is cut open at the right place -/

/-- `z = (x, 10 x)`. -/
def wideP : (Unit → ℝ) → Fin 2 → ℝ := fun x => ![x (), 10 * x ()]

/-- `x = z₁ / 2 + 1`. -/
noncomputable def halfQ : (Fin 2 → ℝ) → Unit → ℝ := fun z _ => z 0 / 2 + 1

example : (Stretches (1 / 2) fun x => halfQ (wideP x)) ∧ Stretches 10 wideP ∧ Stretches (1 / 2) halfQ ∧
    halfQ (wideP fun _ => 2) = (fun _ => 2) ∧ ¬∃ q < 1, Stretches q fun z => wideP (halfQ z) := by
  refine ⟨fun x x' => ?_, fun x x' => ?_, fun z z' => ?_, ?_, ?_⟩
  · have h := abs_le_maxNorm (fun i => x i - x' i) ()
    rw [maxNorm_le_iff]
    refine ⟨by have := maxNorm_nonneg (fun i => x i - x' i); positivity, fun i => ?_⟩
    simp only [halfQ, wideP, Matrix.cons_val_zero]
    rw [show x () / 2 + 1 - (x' () / 2 + 1) = 1 / 2 * (x () - x' ()) by ring, abs_mul, abs_of_pos (by norm_num : (0 : ℝ) < 1 / 2)]
    linarith
  · have h := abs_le_maxNorm (fun i => x i - x' i) ()
    have h0 := maxNorm_nonneg (fun i => x i - x' i)
    rw [maxNorm_le_iff]
    refine ⟨by positivity, fun i => ?_⟩
    fin_cases i
    · show |x () - x' ()| ≤ _
      linarith
    · show |10 * x () - 10 * x' ()| ≤ _
      rw [← mul_sub, abs_mul, abs_of_pos (by norm_num : (0 : ℝ) < 10)]
      linarith
  · have h := abs_le_maxNorm (fun i => z i - z' i) 0
    rw [maxNorm_le_iff]
    refine ⟨by have := maxNorm_nonneg (fun i => z i - z' i); positivity, fun i => ?_⟩
    simp only [halfQ]
    rw [show z 0 / 2 + 1 - (z' 0 / 2 + 1) = 1 / 2 * (z 0 - z' 0) by ring, abs_mul, abs_of_pos (by norm_num : (0 : ℝ) < 1 / 2)]
    linarith
  · funext i
    norm_num [halfQ, wideP]
  · rintro ⟨q, hq, h⟩
    have h1 := h ![2, 0] ![0, 0]
    have h2 := (abs_le_maxNorm (fun i => wideP (halfQ ![2, 0]) i - wideP (halfQ ![0, 0]) i) 1).trans h1
    have h3 : maxNorm (fun i => (![2, 0] : Fin 2 → ℝ) i - (![0, 0] : Fin 2 → ℝ) i) ≤ 2 := by
      rw [maxNorm_le_iff]
      refine ⟨by norm_num, fun i => ?_⟩
      fin_cases i <;> norm_num
    have h4 := maxNorm_nonneg (fun i => (![2, 0] : Fin 2 → ℝ) i - (![0, 0] : Fin 2 → ℝ) i)
    have h5 : |wideP (halfQ ![2, 0]) 1 - wideP (halfQ ![0, 0]) 1| = 10 := by
      norm_num [wideP, halfQ]
    rw [h5] at h2
    nlinarith

end Verif.Props
