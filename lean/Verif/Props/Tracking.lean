import Verif.Props.FixedPoint
import Verif.Props.ConvexRates
import Verif.Lemmas.Euclid

/-!
Property C144: a sequence of solves with `FixedPointIteration` or `GradientDescent`, each started at the answer of the one before, tracks a moving
solution with a bounded number of steps per solve.  Also the step bound of C21 for every number of steps that is large enough.
-/

namespace Verif.Props

open Verif.Spec Verif.Driver Verif.FixedPointIter

variable {ι A : Type}

/-- **C21.** Every number of steps that brings the geometric sequence below `atol` suffices. -/
theorem C21_step_bound (cfg : Cfg ι ℝ) (hN : GoodNorm cfg.norm)
    (htri : ∀ x y : ι → ℝ, cfg.norm (fun i => x i + y i) ≤ cfg.norm x + cfg.norm y)
    (hat : 0 < cfg.atol) (hrt : 0 ≤ cfg.rtol) (hd0 : 0 ≤ cfg.damp) (hd1 : cfg.damp < 1)
    (fn : (ι → ℝ) → (ι → ℝ) × A) (q : ℝ) (hq0 : 0 ≤ q) (hc : ContractionFor cfg.norm q fun z => (fn z).1) (aux0 : A) (y0 : ι → ℝ) (n : ℕ)
    (hn : ((1 - cfg.damp) * q + cfg.damp) ^ n * cfg.norm (fun i => dampedMap cfg.damp (fun z => (fn z).1) y0 i - y0 i) < cfg.atol)
    (ms : Option ℕ) (throw : Bool) (hms : ∀ m, ms = some m → n + 1 ≤ m) :
    ∃ sol, iterativeSolve (solver cfg) (fun _ => true) fn aux0 y0 ms throw = some (.ok sol) ∧
      sol.result = .successful ∧ sol.numSteps ≤ n + 1 := by
  set T := dampedMap cfg.damp fun z => (fn z).1 with hT
  set r := (1 - cfg.damp) * q + cfg.damp with hr
  have hr0 : 0 ≤ r := by have := mul_nonneg (by linarith : (0:ℝ) ≤ 1 - cfg.damp) hq0; linarith
  have hTc : ContractionFor cfg.norm r T := damped_contraction _ hN htri q _ hd0 hd1 _ hc
  refine fp_succeeds cfg fn aux0 y0 ms throw n ?_ hms
  rw [fp_iterate_eq, fp_iterate_eq, ← hT]
  have h1 := contraction_iterate cfg.norm r hr0 T hTc y0 n
  have h2 : cfg.norm (fun i => (T^[n] y0 i - T^[n + 1] y0 i) / (cfg.atol + cfg.rtol * |T^[n + 1] y0 i|)) ≤
      cfg.norm (fun i => cfg.atol⁻¹ * (T^[n + 1] y0 i - T^[n] y0 i)) := by
    refine hN.mono _ _ fun i => ?_
    have hsc : cfg.atol ≤ cfg.atol + cfg.rtol * |T^[n + 1] y0 i| :=
      le_add_of_nonneg_right (mul_nonneg hrt (abs_nonneg _))
    rw [abs_div, abs_mul, abs_sub_comm, abs_of_pos (hat.trans_le hsc), abs_inv, abs_of_pos hat, div_eq_inv_mul]
    exact mul_le_mul_of_nonneg_right (inv_anti₀ hat hsc) (abs_nonneg _)
  rw [hN.smul, abs_inv, abs_of_pos hat] at h2
  refine h2.trans_lt ?_
  rw [inv_mul_lt_iff₀ hat, mul_one]
  exact h1.trans_lt hn

theorem norm_triangle {N : (ι → ℝ) → ℝ} (htri : ∀ x y : ι → ℝ, N (fun i => x i + y i) ≤ N x + N y) (x y z : ι → ℝ) :
    N (fun i => x i - z i) ≤ N (fun i => x i - y i) + N (fun i => y i - z i) := by
  have := htri (fun i => x i - y i) fun i => y i - z i
  simpa using this

/-- One problem of the sequence. -/
theorem tracking_step (cfg : Cfg ι ℝ) (hN : GoodNorm cfg.norm)
    (htri : ∀ x y : ι → ℝ, cfg.norm (fun i => x i + y i) ≤ cfg.norm x + cfg.norm y)
    (hat : 0 < cfg.atol) (hrt : cfg.rtol = 0) (hd0 : 0 ≤ cfg.damp) (hd1 : cfg.damp < 1)
    (fn : (ι → ℝ) → (ι → ℝ) × A) (q ρ : ℝ) (hq0 : 0 ≤ q) (hq1 : q < 1) (hρ : ρ = (1 - cfg.damp) * q + cfg.damp)
    (hc : ContractionFor cfg.norm q fun z => (fn z).1) (aux0 : A) (r : ι → ℝ) (hfix : (fn r).1 = r) (y0 : ι → ℝ) (a : ℝ)
    (hy0 : cfg.norm (fun i => y0 i - r i) ≤ a) (n : ℕ) (hn : ρ ^ n * ((1 + ρ) * a) < cfg.atol)
    (ms : Option ℕ) (throw : Bool) (hms : ∀ m, ms = some m → n + 1 ≤ m) :
    ∃ sol, iterativeSolve (solver cfg) (fun _ => true) fn aux0 y0 ms throw = some (.ok sol) ∧
      sol.result = .successful ∧ sol.numSteps ≤ n + 1 ∧ cfg.norm (fun i => sol.value i - r i) ≤ ρ / (1 - ρ) * cfg.atol := by
  have hρ0 : 0 ≤ ρ := by have := mul_nonneg (by linarith : (0:ℝ) ≤ 1 - cfg.damp) hq0; linarith
  have hρ1 : ρ < 1 := by nlinarith
  have hTc : ContractionFor cfg.norm ρ (dampedMap cfg.damp fun z => (fn z).1) := by
    rw [hρ]; exact damped_contraction cfg.norm hN htri q _ hd0 hd1 _ hc
  have hTr : dampedMap cfg.damp (fun z => (fn z).1) r = r := (C20_same_fixed_points cfg.damp hd1.ne _ r).2 hfix
  have hstart : cfg.norm (fun i => dampedMap cfg.damp (fun z => (fn z).1) y0 i - y0 i) ≤ (1 + ρ) * a := by
    have h1 := norm_triangle htri (dampedMap cfg.damp (fun z => (fn z).1) y0) r y0
    have h2 := hTc y0 r
    rw [hTr] at h2
    rw [goodNorm_sub_comm hN r y0] at h1
    have h3 := mul_le_mul_of_nonneg_left hy0 hρ0
    nlinarith
  obtain ⟨sol, s1, s2, s3⟩ := C21_step_bound cfg hN htri hat hrt.ge hd0 hd1 fn q hq0 hc aux0 y0 n (by
    rw [← hρ]
    exact (mul_le_mul_of_nonneg_left hstart (pow_nonneg hρ0 n)).trans_lt hn) ms throw hms
  refine ⟨sol, s1, s2, s3, ?_⟩
  obtain ⟨k, -, hv, -, hcert⟩ := C20_success_certificate cfg fn aux0 y0 _ ms throw sol s1 s2
  set y := (dampedMap cfg.damp fun z => (fn z).1)^[k] y0
  have hv' : sol.value = dampedMap cfg.damp (fun z => (fn z).1) y := hv
  have hD : cfg.norm (fun i => y i - sol.value i) < cfg.atol := by
    have e : (fun i => (y i - sol.value i) / (cfg.atol + cfg.rtol * |sol.value i|)) = fun i => cfg.atol⁻¹ * (y i - sol.value i) := by
      funext i; rw [hrt, zero_mul, add_zero, div_eq_inv_mul]
    rw [e, hN.smul, abs_inv, abs_of_pos hat, inv_mul_lt_iff₀ hat, mul_one] at hcert
    exact hcert
  have h1 := hTc y r
  rw [hTr, ← hv'] at h1
  have h2 := norm_triangle htri y sol.value r
  rw [div_mul_eq_mul_div, le_div_iff₀ (by linarith)]
  have h3 := mul_le_mul_of_nonneg_left h2 hρ0
  have h4 := mul_le_mul_of_nonneg_left hD.le hρ0
  linarith

/-- **C144.** The functions `fn 0, fn 1, …` are contractions with the same factor whose fixed points move by no more than `δ`.  Every solve is started
at the answer of the one before.  Then for ever every solve succeeds within the same number of steps `N + 1`, and every answer is as close
to its fixed point as the tolerance says; the errors do not add up. -/
theorem C144_fixed_point (cfg : Cfg ι ℝ) (hN : GoodNorm cfg.norm)
    (htri : ∀ x y : ι → ℝ, cfg.norm (fun i => x i + y i) ≤ cfg.norm x + cfg.norm y)
    (hat : 0 < cfg.atol) (hrt : cfg.rtol = 0) (hd0 : 0 ≤ cfg.damp) (hd1 : cfg.damp < 1)
    (fn : ℕ → (ι → ℝ) → (ι → ℝ) × A) (q ρ : ℝ) (hq0 : 0 ≤ q) (hq1 : q < 1) (hρ : ρ = (1 - cfg.damp) * q + cfg.damp)
    (hc : ∀ n, ContractionFor cfg.norm q fun z => (fn n z).1) (aux0 : A) (r : ℕ → ι → ℝ) (hfix : ∀ n, (fn n (r n)).1 = r n)
    (δ : ℝ) (hmove : ∀ n, cfg.norm (fun i => r n i - r (n + 1) i) ≤ δ) (y0 : ι → ℝ)
    (hy0 : cfg.norm (fun i => y0 i - r 0 i) ≤ ρ / (1 - ρ) * cfg.atol + δ) (N : ℕ)
    (hNs : ρ ^ N * ((1 + ρ) * (ρ / (1 - ρ) * cfg.atol + δ)) < cfg.atol) (ms : Option ℕ) (throw : Bool)
    (hms : ∀ m, ms = some m → N + 1 ≤ m) :
    ∃ answer : ℕ → ι → ℝ, answer 0 = y0 ∧ ∀ n,
      ∃ sol, iterativeSolve (solver cfg) (fun _ => true) (fn n) aux0 (answer n) ms throw = some (.ok sol) ∧ sol.result = .successful ∧
        sol.numSteps ≤ N + 1 ∧ sol.value = answer (n + 1) ∧ cfg.norm (fun i => answer (n + 1) i - r n i) ≤ ρ / (1 - ρ) * cfg.atol := by
  have one : ∀ n (y : ι → ℝ), cfg.norm (fun i => y i - r n i) ≤ ρ / (1 - ρ) * cfg.atol + δ → ∃ sol,
      iterativeSolve (solver cfg) (fun _ => true) (fn n) aux0 y ms throw = some (.ok sol) ∧ sol.result = .successful ∧
      sol.numSteps ≤ N + 1 ∧ cfg.norm (fun i => sol.value i - r n i) ≤ ρ / (1 - ρ) * cfg.atol := fun n y hy =>
    tracking_step cfg hN htri hat hrt hd0 hd1 (fn n) q ρ hq0 hq1 hρ (hc n) aux0 (r n) (hfix n) y _ hy N hNs ms throw hms
  have : Nonempty (Solution (ι → ℝ) A (Option ℝ) Unit) := ⟨(one 0 y0 hy0).choose⟩
  choose! sol hsol using one
  let answer : ℕ → ι → ℝ := fun n => Nat.rec y0 (fun n y => (sol n y).value) n
  have hans : ∀ n, answer (n + 1) = (sol n (answer n)).value := fun n => rfl
  have hnear : ∀ n, cfg.norm (fun i => answer n i - r n i) ≤ ρ / (1 - ρ) * cfg.atol + δ := by
    intro n
    induction n with
    | zero => exact hy0
    | succ n ih =>
      have h1 := (hsol n _ ih).2.2.2
      rw [← hans] at h1
      exact (norm_triangle htri (answer (n + 1)) (r n) (r (n + 1))).trans (add_le_add h1 (hmove n))
  refine ⟨answer, rfl, fun n => ⟨sol n (answer n), ?_⟩⟩
  obtain ⟨h1, h2, h3, h4⟩ := hsol n _ (hnear n)
  exact ⟨h1, h2, h3, (hans n).symm, by rw [hans]; exact h4⟩

/-- Concrete case: `y ↦ y/2 + t n` in one variable, whose fixed point `2 t n` moves by at most `1/100`; with `atol = 1/100` three steps are always
enough. -/
example (t : ℕ → ℝ) (ht : ∀ n, |t n - t (n + 1)| ≤ 1 / 200) :
    ∃ answer : ℕ → Unit → ℝ, answer 0 = (fun _ => 2 * t 0) ∧ ∀ n,
      ∃ sol, iterativeSolve (solver ⟨0, 1/100, maxNorm, 0⟩) (fun _ => true) (fun y : Unit → ℝ => ((fun i => y i / 2 + t n), ())) () (answer n)
          (some 256) true = some (.ok sol) ∧ sol.result = .successful ∧ sol.numSteps ≤ 3 ∧ sol.value = answer (n + 1) ∧
        maxNorm (fun i => answer (n + 1) i - 2 * t n) ≤ 1 / 100 := by
  have := C144_fixed_point (ι := Unit) (A := Unit) ⟨0, 1/100, maxNorm, 0⟩ (goodNorm_maxNorm (ι := Unit)) (maxNorm_add (ι := Unit)) (by norm_num) rfl
    le_rfl one_pos (fun n y => ((fun i => y i / 2 + t n), ())) (1/2) (1/2) (by norm_num) (by norm_num) (by norm_num)
    (fun n x y => by
      have e : (fun i => x i / 2 + t n - (y i / 2 + t n)) = fun i => (1/2 : ℝ) * (x i - y i) := by funext i; ring
      show maxNorm (fun i => x i / 2 + t n - (y i / 2 + t n)) ≤ 1/2 * maxNorm fun i => x i - y i
      rw [e, (goodNorm_maxNorm (ι := Unit)).smul]
      norm_num) () (fun n _ => 2 * t n) (fun n => by funext i; ring) (1/100) (fun n => by
      rw [maxNorm_le_iff]
      refine ⟨by norm_num, fun i => ?_⟩
      rw [← mul_sub, abs_mul]
      have := ht n
      norm_num
      linarith) (fun _ => 2 * t 0) (by
      rw [maxNorm_le_iff]
      exact ⟨by norm_num, fun i => by norm_num⟩) 2 (by norm_num) (some 256) true (by rintro m ⟨⟩; norm_num)
  norm_num at this ⊢
  exact this

/-! ### Moving minima -/

open Verif in
/-- **C144**, `GradientDescent`: the objectives are `μ`-strongly convex and `L`-smooth, and their minimisers move by no more than `δ`.  With a learning rate of at most `1 / L`,
every solve started at the answer of the one before succeeds within `N + 2` steps, where `N` is the same for all, and every answer is as close to its
minimiser as the tolerance says. -/
theorem C144_gradient_descent [Fintype ι] (rate atol L μ : ℝ) (hr0 : 0 < rate) (hL : 0 ≤ L) (hrL : rate * L ≤ 1) (hμ : 0 < μ)
    (ha : 0 < atol) (fn : ℕ → (ι → ℝ) → ℝ × A) (grad : ℕ → (ι → ℝ) → (ι → ℝ)) (aux0 : A)
    (hsmooth : ∀ n y z, (fn n z).1 ≤ (fn n y).1 + (∑ i, grad n y i * (z i - y i)) + L / 2 * ∑ i, (z i - y i) ^ 2)
    (hconv : ∀ n y z, (fn n y).1 + (∑ i, grad n y i * (z i - y i)) + μ / 2 * ∑ i, (z i - y i) ^ 2 ≤ (fn n z).1)
    (r : ℕ → ι → ℝ) (hmin : ∀ n i, grad n (r n) i = 0) (δ : ℝ) (hmove : ∀ n, Real.sqrt (∑ i, (r n i - r (n + 1) i) ^ 2) ≤ δ) (y0 : ι → ℝ)
    (e : ℝ) (he : e = Real.sqrt (Fintype.card ι) * (atol / (rate * μ)))
    (hy0 : Real.sqrt (∑ i, (y0 i - r 0 i) ^ 2) ≤ e + δ) (N : ℕ) (h1 : L / 2 * (e + δ) ^ 2 < N * (atol ^ 2 / (2 * rate)))
    (h2 : L / 2 * (e + δ) ^ 2 < N * atol) (ms : Option ℕ) (throw : Bool) (hms : ∀ m, ms = some m → N + 2 ≤ m) :
    ∃ answer : ℕ → ι → ℝ, answer 0 = y0 ∧ ∀ n,
      ∃ sol, iterativeSolve (gdSolver rate 0 atol maxNorm maxNorm (grad n) aux0) (fun _ => true) (fn n) aux0 (answer n) ms throw = some (.ok sol) ∧
        sol.result = .successful ∧ sol.numSteps ≤ N + 2 ∧ sol.value = answer (n + 1) ∧
        Real.sqrt (∑ i, (answer (n + 1) i - r n i) ^ 2) ≤ e := by
  have hlow : ∀ n y, (fn n (r n)).1 ≤ (fn n y).1 := fun n y => by
    have h := hconv n (r n) y
    simp only [hmin, zero_mul, Finset.sum_const_zero, add_zero] at h
    have h0 : 0 ≤ ∑ i, (y i - r n i) ^ 2 := Finset.sum_nonneg fun i _ => sq_nonneg _
    nlinarith
  have he0 : 0 ≤ e := by rw [he]; positivity
  have hδ0 : 0 ≤ δ := (Real.sqrt_nonneg _).trans (hmove 0)
  have one : ∀ n (y : ι → ℝ), euclid (fun i => y i - r n i) ≤ e + δ → ∃ sol,
      iterativeSolve (gdSolver rate 0 atol maxNorm maxNorm (grad n) aux0) (fun _ => true) (fn n) aux0 y ms throw = some (.ok sol) ∧
      sol.result = .successful ∧ sol.numSteps ≤ N + 2 ∧ euclid (fun i => sol.value i - r n i) ≤ e := by
    intro n y hy
    have hstart : (fn n y).1 - (fn n (r n)).1 ≤ L / 2 * (e + δ) ^ 2 := by
      have h := hsmooth n (r n) y
      simp only [hmin, zero_mul, Finset.sum_const_zero, add_zero] at h
      rw [← euclid_sq] at h
      have h3 := pow_le_pow_left₀ (euclid_nonneg _) hy 2
      nlinarith
    obtain ⟨sol, s1, s2, s3⟩ := C95_step_bound rate 0 atol L (grad n) aux0 (fn n) y (fun _ => true) (fn n (r n)).1 hr0 hrL ha le_rfl (hsmooth n)
      (hlow n) (fun _ => rfl) N (hstart.trans_lt h1) (hstart.trans_lt h2) ms throw hms
    refine ⟨sol, s1, s2, s3, ?_⟩
    have h := C95_success_distance rate 0 atol L (grad n) aux0 (fn n) y (fun _ => true) hr0 hrL μ hμ ha le_rfl (hsmooth n) (hconv n) (r n)
      (hmin n) ms throw sol s1 s2
    rw [← euclid_sq] at h
    simp only [zero_mul, add_zero, Finset.sum_const, Finset.card_univ, nsmul_eq_mul] at h
    have hrm : 0 < rate * μ := mul_pos hr0 hμ
    refine abs_le_of_sq_le_sq' ?_ he0 |>.2
    rw [he, mul_pow, Real.sq_sqrt (Nat.cast_nonneg _), div_pow, mul_div_assoc', le_div_iff₀ (by positivity)]
    linarith
  have : Nonempty (Solution (ι → ℝ) A (GradientDescent.State ι A Unit (ι → ℝ)) Unit) := ⟨(one 0 y0 hy0).choose⟩
  choose! sol hsol using one
  let answer : ℕ → ι → ℝ := fun n => Nat.rec y0 (fun n y => (sol n y).value) n
  have hans : ∀ n, answer (n + 1) = (sol n (answer n)).value := fun n => rfl
  have hnear : ∀ n, euclid (fun i => answer n i - r n i) ≤ e + δ := by
    intro n
    induction n with
    | zero => exact hy0
    | succ n ih =>
      have h3 := (hsol n _ ih).2.2.2
      rw [← hans] at h3
      exact (norm_triangle euclid_add (answer (n + 1)) (r n) (r (n + 1))).trans (add_le_add h3 (hmove n))
  refine ⟨answer, rfl, fun n => ⟨sol n (answer n), ?_⟩⟩
  obtain ⟨h3, h4, h5, h6⟩ := hsol n _ (hnear n)
  exact ⟨h3, h4, h5, (hans n).symm, by rw [hans]; exact h6⟩

/-- Concrete case: `(y - t n)²`, where the minimiser `t n` moves by at most `1/10`; learning rate `1/4`, `atol = 1/10`. -/
example (t : ℕ → ℝ) (ht : ∀ n, |t n - t (n + 1)| ≤ 1 / 10) :
    ∃ answer : ℕ → Unit → ℝ, answer 0 = (fun _ => t 0) ∧ ∀ n,
      ∃ sol, iterativeSolve (gdSolver (1/4) 0 (1/10) maxNorm maxNorm (fun (y : Unit → ℝ) i => 2 * (y i - t n)) ()) (fun _ => true)
          (fun y => ((y () - t n) ^ 2, ())) () (answer n) (some 256) true = some (.ok sol) ∧
        sol.result = .successful ∧ sol.numSteps ≤ 9 ∧ sol.value = answer (n + 1) ∧
        Real.sqrt (∑ i, (answer (n + 1) i - t n) ^ 2) ≤ 1 / 5 := by
  refine C144_gradient_descent (ι := Unit) (1/4) (1/10) 2 2 (by norm_num) (by norm_num) (by norm_num) (by norm_num) (by norm_num)
    (fun n y => ((y () - t n) ^ 2, ())) (fun n y i => 2 * (y i - t n)) () (fun n y z => ?_) (fun n y z => ?_) (fun n _ => t n)
    (fun n i => by simp) (1/10) (fun n => ?_) (fun _ => t 0) (1/5) (by norm_num) (by norm_num) 7 (by norm_num) (by norm_num) _ _
    (by rintro m ⟨⟩; norm_num)
  · simp only [Finset.univ_unique, Finset.sum_singleton]
    exact le_of_eq (by ring_nf)
  · simp only [Finset.univ_unique, Finset.sum_singleton]
    exact le_of_eq (by ring_nf)
  · simp only [Finset.univ_unique, Finset.sum_singleton, Real.sqrt_sq_eq_abs]
    exact ht n

end Verif.Props
