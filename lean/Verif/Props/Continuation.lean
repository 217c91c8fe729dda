import Verif.Props.NewtonBudget
import Verif.Spec.Branch

/-!
Property C128: a sequence of solves with `Newton`, each started at the answer of the one before, follows a branch of solutions.
-/

namespace Verif.Props

open Verif.Spec Verif.Driver Verif.NewtonChord Filter Topology

variable {ι A : Type} [Fintype ι]

/-- One problem of the sequence: from every point within `a` of the root, `Newton` finds this root. -/
theorem branch_step (cfg : Cfg ι ι ℝ (Op ι)) (hN : cfg.isNewton = true) (hls : SolvesInvertible cfg.linearSolve)
    (hcau : cfg.cauchy = true) (hnY : cfg.normY = maxNorm) (hnF : cfg.normF = maxNorm) (hat : 0 < cfg.atol) (hrt : 0 ≤ cfg.rtol)
    (hfin : ∀ x, cfg.isfinite x = true) (fn : (ι → ℝ) → (ι → ℝ) × A) (aux0 : A) (r : ι → ℝ) (R M β K a : ℝ) (ha : 0 ≤ a)
    (hM : 0 ≤ M) (hβ : 0 ≤ β) (hK : 0 ≤ K) (hroot : (fn r).1 = 0)
    (hderiv : ∀ y, ‖y - r‖ ≤ R → HasFDerivAt (fun y => (fn y).1) (cfg.jac y) y) (hbd : ∀ y, ‖y - r‖ ≤ R → ‖cfg.jac y‖ ≤ M)
    (hlip : ∀ y z, ‖y - r‖ ≤ R → ‖z - r‖ ≤ R → ‖cfg.jac y - cfg.jac z‖ ≤ K * ‖y - z‖)
    (hinv : ∀ y, ‖y - r‖ ≤ R → (cfg.jac y).IsInvertible ∧ ∀ v, ‖v‖ ≤ β * ‖cfg.jac y v‖)
    (hlower : ∀ l, cfg.lower = some l → ∀ y, ‖y - r‖ ≤ R → ∀ i, l i ≤ y i)
    (hupper : ∀ u, cfg.upper = some u → ∀ y, ‖y - r‖ ≤ R → ∀ i, y i ≤ u i)
    (hsmall : 2 * β ^ 2 * K * M * a ≤ 1) (hroom : a + 2 * β * M * a ≤ R) (y0 : ι → ℝ) (hy0 : ‖y0 - r‖ ≤ a)
    (hinit : (terminate cfg y0 (init cfg y0)).1 = false) (N : ℕ) (hN1 : 1 ≤ N)
    (hNs : max 1 β * ((1 / 4) ^ (2 ^ N - 1) * (M * a)) < cfg.atol) (ms : Option ℕ) (throw : Bool)
    (hms : ∀ n, ms = some n → N + 1 ≤ n) :
    ∃ sol, iterativeSolve (solver cfg) (fun _ => true) fn aux0 y0 ms throw = some (.ok sol) ∧ sol.result = .successful ∧
      sol.numSteps ≤ N + 1 ∧ ‖sol.value - r‖ ≤ β * cfg.atol := by
  set ρ := 2 * β * M * a with hρ
  have hρ0 : 0 ≤ ρ := by positivity
  have haR : a ≤ R := by linarith
  have hR : 0 ≤ R := ha.trans haR
  have hin : ∀ z, ‖z - y0‖ ≤ ρ → ‖z - r‖ ≤ R := by
    intro z hz
    have e : z - r = (z - y0) + (y0 - r) := by abel
    rw [e]
    refine (norm_add_le _ _).trans ?_
    linarith
  have hball : NewtonBall (fun y => (fn y).1) cfg.jac y0 ρ β K :=
    ⟨fun y hy => hderiv y (hin y hy), fun y z hy hz => hlip y z (hin y hy) (hin z hz), fun y hy => hinv y (hin y hy), hρ0, hβ, hK⟩
  have hF : ‖(fn y0).1‖ ≤ M * a := by
    have hconv : Convex ℝ (Metric.closedBall r R) := convex_closedBall r R
    have h1 := hconv.norm_image_sub_le_of_norm_hasFDerivWithin_le (f := fun y => (fn y).1) (f' := cfg.jac) (C := M)
      (fun y hy => (hderiv y (by rwa [Metric.mem_closedBall, dist_eq_norm] at hy)).hasFDerivWithinAt)
      (fun y hy => hbd y (by rwa [Metric.mem_closedBall, dist_eq_norm] at hy))
      (Metric.mem_closedBall_self hR) (y := y0) (by rw [Metric.mem_closedBall, dist_eq_norm]; exact hy0.trans haR)
    simp only [hroot, sub_zero] at h1
    exact h1.trans (mul_le_mul_of_nonneg_left hy0 hM)
  have hF0 := norm_nonneg (fn y0).1
  have hθ : β ^ 2 * K * ‖(fn y0).1‖ / 2 ≤ 1 / 4 := by
    have := mul_le_mul_of_nonneg_left hF (by positivity : 0 ≤ β ^ 2 * K)
    have e : β ^ 2 * K * (M * a) = (2 * β ^ 2 * K * M * a) / 2 := by ring
    rw [e] at this
    linarith
  have hrad : β * ‖(fn y0).1‖ ≤ (1 - 1 / 4) * ρ := by
    have := mul_le_mul_of_nonneg_left hF hβ
    have h0 : 0 ≤ β * (M * a) := by positivity
    rw [hρ]
    nlinarith
  have hl' : ∀ l, cfg.lower = some l → ∀ y, ‖y - y0‖ ≤ ρ → ∀ i, l i ≤ y i := fun l hl y hy => hlower l hl y (hin y hy)
  have hu' : ∀ u, cfg.upper = some u → ∀ y, ‖y - y0‖ ≤ ρ → ∀ i, y i ≤ u i := fun u hu y hy => hupper u hu y (hin y hy)
  obtain ⟨hY, ⟨x, hx1, hx2, _, hx4⟩, hstop⟩ := C112_newton_steps cfg hN hls fn aux0 y0 ρ β K (1 / 4) hball hl' hu' hθ (by norm_num) hrad
  -- the root found is the given one
  have hxr : x = r := by
    have hxR := hin x hx1
    set s := ‖x - r‖ with hs
    have hs0 : 0 ≤ s := norm_nonneg _
    have hsa : s ≤ a + ρ := by
      have e : x - r = (x - y0) + (y0 - r) := by abel
      rw [hs, e]
      refine (norm_add_le _ _).trans ?_
      linarith
    by_contra hne
    have hspos : 0 < s := norm_pos_iff.2 (sub_ne_zero.2 hne)
    have h1 := taylor_ball (fun y => (fn y).1) cfg.jac r R K hderiv hlip r (x - r) (by rw [sub_self, norm_zero]; exact hR)
      (by rw [add_sub_cancel]; exact hxR)
    rw [add_sub_cancel] at h1
    simp only [hx2, hroot, sub_zero, zero_sub, norm_neg] at h1
    have h2 := (hinv r (by rw [sub_self, norm_zero]; exact hR)).2 (x - r)
    have h3 : ‖cfg.jac r (x - r)‖ ≤ M * s :=
      (ContinuousLinearMap.le_opNorm _ _).trans (mul_le_mul_of_nonneg_right (hbd r (by rw [sub_self, norm_zero]; exact hR)) hs0)
    have h4 : 1 ≤ β * M := by
      have : s ≤ β * (M * s) := h2.trans (mul_le_mul_of_nonneg_left h3 hβ)
      by_contra hcon
      push Not at hcon
      nlinarith
    have h5 : s ≤ β * (K / 2 * s ^ 2) := h2.trans (mul_le_mul_of_nonneg_left h1 hβ)
    have h6 : 1 ≤ β * K / 2 * s := by
      by_contra hcon
      push Not at hcon
      nlinarith
    have h7 : β * K / 2 * s ≤ β * K / 2 * (a + ρ) := mul_le_mul_of_nonneg_left hsa (by positivity)
    have h8 : β * K * a ≤ β ^ 2 * K * M * a := by
      have := mul_le_mul_of_nonneg_right h4 (by positivity : 0 ≤ β * K * a)
      nlinarith
    have e : β * K / 2 * (a + ρ) = β * K * a / 2 + β ^ 2 * K * M * a := by rw [hρ]; ring
    rw [e] at h7
    nlinarith
  -- success, and where
  have hpow : ‖(fn y0).1‖ * 1 ≤ M * a := by rw [mul_one]; exact hF
  have hbound : ∀ c, 0 ≤ c → c ≤ max 1 β → c * ((1 / 4) ^ (2 ^ N - 1) * ‖(fn y0).1‖) < cfg.atol := by
    intro c hc0 hc
    have p0 : (0 : ℝ) ≤ (1 / 4) ^ (2 ^ N - 1) := by positivity
    refine lt_of_le_of_lt ?_ hNs
    exact mul_le_mul hc (mul_le_mul_of_nonneg_left hF p0) (by positivity) (by positivity)
  obtain ⟨sol, h1, h2, h3⟩ := hstop hnY hnF hat hrt hfin (Or.inl hcau) N hN1 (by
      rw [if_pos hcau, mul_one]; exact hbound β hβ (le_max_right _ _))
    (fun _ => by have := hbound 1 zero_le_one (le_max_left _ _); rwa [one_mul] at this) ms throw hms
  refine ⟨sol, h1, h2, h3, ?_⟩
  obtain ⟨y, hy, hres, -, -⟩ := C57_cauchy_success_small_residual_partial cfg fn aux0 y0 hcau hinit (fun _ => true) ms throw sol h1 h2
  obtain ⟨st0, hi, ht, _⟩ := C02_success_is_certificate _ _ _ _ _ _ _ _ h1 h2
  obtain ⟨_, _, st0', hi', hst, hp⟩ := C01_step_budget _ _ _ _ _ _ _ _ h1
  cases hi; cases hi'
  have hv : sol.value = iterateAt (solver cfg) fn aux0 y0 (init cfg y0) sol.numSteps := congrArg Prod.fst hp
  have hpos : sol.numSteps ≠ 0 := by
    intro h0
    rw [hst, h0] at ht
    have : (terminate cfg y0 (init cfg y0)).1 = true := congrArg Prod.fst ht
    rw [hinit] at this; cases this
  obtain ⟨k, hk⟩ := Nat.exists_eq_succ_of_ne_zero hpos
  rw [hk, Nat.succ_eq_add_one, Nat.add_sub_cancel] at hy
  rw [hk, Nat.succ_eq_add_one] at hv
  have hfk : ‖(fn y).1‖ ≤ cfg.atol := by
    rw [hnF, maxNorm_eq_norm, pi_norm_lt_iff one_pos] at hres
    refine (pi_norm_le_iff_of_nonneg hat.le).2 fun i => ?_
    have := hres i
    rw [norm_div, Real.norm_of_nonneg hat.le, Real.norm_eq_abs, abs_abs, div_lt_one hat] at this
    exact this.le
  have hnext := (hY k).2.2
  rw [← hy, ← hv] at hnext
  have herr := hx4 (k + 1)
  rw [← hv, hxr] at herr
  have e : β / (1 - 1 / 4) = β * (4 / 3) := by norm_num [div_eq_mul_inv]
  rw [e] at herr
  refine herr.trans ?_
  have q : ‖(fn sol.value).1‖ ≤ 1 / 4 * cfg.atol := hnext.trans (by linarith)
  calc β * (4 / 3) * ‖(fn sol.value).1‖ ≤ β * (4 / 3) * (1 / 4 * cfg.atol) := mul_le_mul_of_nonneg_left q (by positivity)
    _ = β * cfg.atol * (1 / 3) := by ring
    _ ≤ β * cfg.atol := by
      have : 0 ≤ β * cfg.atol := by positivity
      linarith

/-- **C128.**  A sequence of problems with a branch of roots is solved one after the other with `Newton` and Cauchy termination, each
solve being started at the answer of the one before (a warm start).  If the roots move by at most `δ` from one problem to the next and
the accuracy `β atol` together with `δ` is small compared with the curvature (`2 β² K M (β atol + δ) ≤ 1`), then all of the solves
succeed, none takes more than `N + 1` steps, and all answers are within `β atol` of the branch: errors do not pile up, and the
solver never changes to another branch. -/
theorem C128_follows_branch (cfg : ℕ → Cfg ι ι ℝ (Op ι)) (atol : ℝ) (hat : 0 < atol)
    (hN : ∀ n, (cfg n).isNewton = true ∧ (cfg n).cauchy = true ∧ (cfg n).atol = atol ∧ 0 ≤ (cfg n).rtol)
    (hls : ∀ n, SolvesInvertible (cfg n).linearSolve) (hnorm : ∀ n, (cfg n).normY = maxNorm ∧ (cfg n).normF = maxNorm)
    (hfin : ∀ n x, (cfg n).isfinite x = true) (hinit : ∀ n y, (terminate (cfg n) y (init (cfg n) y)).1 = false)
    (fn : ℕ → (ι → ℝ) → (ι → ℝ) × A) (aux0 : A) (r : ℕ → ι → ℝ) (R M β K δ : ℝ)
    (hbr : SolutionBranch (fun n y => (fn n y).1) (fun n => (cfg n).jac) r R M β K δ)
    (hlower : ∀ n l, (cfg n).lower = some l → ∀ y, ‖y - r n‖ ≤ R → ∀ i, l i ≤ y i)
    (hupper : ∀ n u, (cfg n).upper = some u → ∀ y, ‖y - r n‖ ≤ R → ∀ i, y i ≤ u i)
    (hsmall : 2 * β ^ 2 * K * M * (β * atol + δ) ≤ 1) (hroom : (β * atol + δ) * (1 + 2 * β * M) ≤ R)
    (y0 : ι → ℝ) (hy0 : ‖y0 - r 0‖ ≤ β * atol + δ) (N : ℕ) (hN1 : 1 ≤ N)
    (hNs : max 1 β * ((1 / 4) ^ (2 ^ N - 1) * (M * (β * atol + δ))) < atol) (ms : Option ℕ) (throw : Bool)
    (hms : ∀ n, ms = some n → N + 1 ≤ n) :
    ∃ answer : ℕ → ι → ℝ, answer 0 = y0 ∧ ∀ n,
      ∃ sol, iterativeSolve (solver (cfg n)) (fun _ => true) (fn n) aux0 (answer n) ms throw = some (.ok sol) ∧
        sol.result = .successful ∧ sol.numSteps ≤ N + 1 ∧ sol.value = answer (n + 1) ∧ ‖answer (n + 1) - r n‖ ≤ β * atol := by
  classical
  obtain ⟨_, hM, hβ, hK, hδ⟩ := hbr.nonneg
  have ha : 0 ≤ β * atol + δ := by positivity
  have one : ∀ n (y : ι → ℝ), ‖y - r n‖ ≤ β * atol + δ → ∃ sol,
      iterativeSolve (solver (cfg n)) (fun _ => true) (fn n) aux0 y ms throw = some (.ok sol) ∧ sol.result = .successful ∧
      sol.numSteps ≤ N + 1 ∧ ‖sol.value - r n‖ ≤ β * atol := by
    intro n y hy
    obtain ⟨c1, c2, c3, c4⟩ := hN n
    have := branch_step (cfg n) c1 (hls n) c2 (hnorm n).1 (hnorm n).2 (by rw [c3]; exact hat) c4 (hfin n) (fn n) aux0 (r n) R M β K
      (β * atol + δ) ha hM hβ hK (hbr.root n) (hbr.deriv n) (hbr.bounded n) (hbr.lipschitz n) (hbr.inverse n) (hlower n) (hupper n)
      hsmall (by linarith) y hy (hinit n y) N hN1 (by rw [c3]; exact hNs) ms throw hms
    rwa [c3] at this
  have : Nonempty (Solution (ι → ℝ) A (State ι ι ℝ (Op ι)) Unit) := ⟨(one 0 y0 hy0).choose⟩
  choose! sol hsol using one
  let answer : ℕ → ι → ℝ := fun n => Nat.rec y0 (fun n y => (sol n y).value) n
  have hans : ∀ n, answer (n + 1) = (sol n (answer n)).value := fun n => rfl
  have hnear : ∀ n, ‖answer n - r n‖ ≤ β * atol + δ := by
    intro n
    induction n with
    | zero => exact hy0
    | succ n ih =>
      have h1 := (hsol n _ ih).2.2.2
      rw [← hans] at h1
      have e : answer (n + 1) - r (n + 1) = (answer (n + 1) - r n) - (r (n + 1) - r n) := by abel
      rw [e]
      exact (norm_sub_le _ _).trans (add_le_add h1 (hbr.near n))
  refine ⟨answer, rfl, fun n => ⟨sol n (answer n), ?_⟩⟩
  obtain ⟨h1, h2, h3, h4⟩ := hsol n _ (hnear n)
  exact ⟨h1, h2, h3, (hans n).symm, by rw [hans]; exact h4⟩

/-! Concrete case: `y² = t²` in each of two variables, where `t` moves between 1.5 and 1.51 in any way whatsoever. -/

example (t : ℕ → ℝ) (ht : ∀ n, 3 / 2 ≤ t n ∧ t n ≤ 151 / 100) :
    ∃ answer : ℕ → Fin 2 → ℝ, answer 0 = (fun _ => t 0) ∧ ∀ n,
      ∃ sol, iterativeSolve (solver (squaresCfg true (1 / 1000))) (fun _ => true)
          (fun y : Fin 2 → ℝ => ((fun i => y i ^ 2 - t n ^ 2), ())) () (answer n) (some 256) true = some (.ok sol) ∧
        sol.result = .successful ∧ sol.numSteps ≤ 3 ∧ sol.value = answer (n + 1) ∧
        ‖answer (n + 1) - fun _ => t n‖ ≤ 2 / 5 * (1 / 1000) := by
  have hlow : ∀ n (y : Fin 2 → ℝ), ‖y - (fun _ => t n)‖ ≤ 1 / 4 → ∀ i, 5 / 4 ≤ y i ∧ y i ≤ 176 / 100 := by
    intro n y hy i
    have h1 : |y i - t n| ≤ 1 / 4 := (norm_le_pi_norm _ i).trans hy
    obtain ⟨h2, h3⟩ := abs_le.1 h1
    obtain ⟨h4, h5⟩ := ht n
    constructor <;> linarith
  refine C128_follows_branch (fun _ => squaresCfg true (1 / 1000)) (1 / 1000) (by norm_num) (fun _ => ⟨rfl, rfl, rfl, le_rfl⟩)
    (fun _ => by rintro J ⟨e, rfl⟩ b; simp [squaresCfg]) (fun _ => ⟨rfl, rfl⟩) (fun _ _ => rfl) (fun n y => ?_)
    (fun n y => ((fun i => y i ^ 2 - t n ^ 2), ())) () (fun n _ => t n) (1 / 4) (88 / 25) (2 / 5) 2 (1 / 100) ?_
    (by rintro n l ⟨⟩) (by rintro n u ⟨⟩) (by norm_num) (by norm_num) _ (by rw [sub_self, norm_zero]; norm_num) 2 (by norm_num)
    (by norm_num) _ _ (by rintro n ⟨⟩; norm_num)
  · have h : cauchyTermination (0 : ℝ) (1 / 1000) (maxNorm (ι := Fin 2)) (maxNorm (ι := Fin 2)) y (fun _ => (1 : ℝ)) (fun _ => 0)
        (fun _ => (1 : ℝ)) = false := by
      unfold cauchyTermination scaledDiff
      rw [Bool.and_eq_false_iff]
      right
      rw [decide_eq_false_iff_not, maxNorm_eq_norm, not_lt]
      refine le_trans ?_ (norm_le_pi_norm _ (0 : Fin 2))
      norm_num [HasAbs.abs]
    simpa [terminate, init, squaresCfg] using h
  · refine ⟨fun n => by funext i; simp, fun n => ?_, fun n y _ => ?_, fun n y hy => ?_, fun n y z _ _ => squaresJac_lipschitz y z,
      fun n y hy => ?_, by norm_num⟩
    · refine (pi_norm_le_iff_of_nonneg (by norm_num)).2 fun i => ?_
      show |t (n + 1) - t n| ≤ 1 / 100
      obtain ⟨h1, h2⟩ := ht n
      obtain ⟨h3, h4⟩ := ht (n + 1)
      rw [abs_le]
      constructor <;> linarith
    · have := (squaresJac_deriv y).add_const (fun _ => 2 - t n ^ 2)
      refine this.congr_of_eventuallyEq (Filter.Eventually.of_forall fun z => ?_)
      funext i
      simp
    · refine ContinuousLinearMap.opNorm_le_bound _ (by norm_num) fun v => ?_
      refine (pi_norm_le_iff_of_nonneg (by positivity)).2 fun i => ?_
      show ‖squaresJac y v i‖ ≤ _
      obtain ⟨h1, h2⟩ := hlow n y hy i
      rw [squaresJac_apply, norm_mul, Real.norm_of_nonneg (by linarith)]
      exact mul_le_mul (by linarith) (norm_le_pi_norm v i) (norm_nonneg _) (by norm_num)
    · have := squaresJac_inverse y (5 / 4) (by norm_num) (fun i => (hlow n y hy i).1)
      norm_num at this ⊢
      exact this

end Verif.Props
