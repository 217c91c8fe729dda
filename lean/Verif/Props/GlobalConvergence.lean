import Verif.Lemmas.Converge
import Verif.Props.QuasiNewton
import Verif.Props.GradientMethods
import Mathlib.Analysis.Calculus.Deriv.MeanValue
import Mathlib.Algebra.Order.Chebyshev

/-!
Property C62: backtracking minimisers converge from every starting point.
-/

namespace Verif.Props

open Verif Verif.Spec Verif.Driver Verif.SearchLoop Filter Topology

variable {ι A DS HS : Type} [Fintype ι]

/-- `grad` is the gradient of `f` (along every line) and is Lipschitz with constant `L` in the Euclidean norm. -/
structure LipschitzGradient (f : (ι → ℝ) → ℝ) (grad : (ι → ℝ) → (ι → ℝ)) (L : ℝ) : Prop where
  deriv : ∀ y p : ι → ℝ, HasDerivAt (fun t : ℝ => f fun i => y i + t * p i) (∑ i, grad y i * p i) 0
  lipschitz : ∀ y z, ∑ i, (grad y i - grad z i) ^ 2 ≤ L ^ 2 * ∑ i, (y i - z i) ^ 2
  nonneg : 0 ≤ L

/-- The quadratic upper bound. -/
theorem LipschitzGradient.bound {f : (ι → ℝ) → ℝ} {grad : (ι → ℝ) → (ι → ℝ)} {L : ℝ} (h : LipschitzGradient f grad L)
    (y z : ι → ℝ) : f z ≤ f y + treeDot (grad y) (fun i => z i - y i) + L / 2 * sumSquares fun i => z i - y i := by
  set p : ι → ℝ := fun i => z i - y i with hp
  set Q : ℝ := ∑ i, p i ^ 2 with hQ
  have hQ0 : 0 ≤ Q := Finset.sum_nonneg fun i _ => sq_nonneg _
  have hd : ∀ t : ℝ, HasDerivAt (fun t : ℝ => f fun i => y i + t * p i) (∑ i, grad (fun i => y i + t * p i) i * p i) t := by
    intro t
    have h0 := h.deriv (fun i => y i + t * p i) p
    have h1 : HasDerivAt (fun u : ℝ => u - t) 1 t := (hasDerivAt_id t).sub_const t
    have h2 : HasDerivAt (fun t : ℝ => f fun i => y i + t * p i)
        (∑ i, grad (fun i => y i + t * p i) i * p i) t := by
      have h0' : HasDerivAt (fun s : ℝ => f fun i => (y i + t * p i) + s * p i)
          (∑ i, grad (fun i => y i + t * p i) i * p i) (t - t) := by rw [sub_self]; exact h0
      have := HasDerivAt.comp (h := fun u : ℝ => u - t) t h0' h1
      rw [mul_one] at this
      refine this.congr_of_eventuallyEq (Eventually.of_forall fun u => ?_)
      show f _ = f _
      congr 1
      funext i
      ring
    exact h2
  have hslope : ∀ t, 0 ≤ t → ∑ i, grad (fun i => y i + t * p i) i * p i ≤ treeDot (grad y) p + L * t * Q := by
    intro t ht
    have hcs := Finset.sum_mul_sq_le_sq_mul_sq Finset.univ (fun i => grad (fun i => y i + t * p i) i - grad y i) p
    have hl := h.lipschitz (fun i => y i + t * p i) y
    have e : ∑ i, ((y i + t * p i) - y i) ^ 2 = t ^ 2 * Q := by
      rw [hQ, Finset.mul_sum]; exact Finset.sum_congr rfl fun i _ => by ring
    rw [e] at hl
    have h3 : (∑ i, (grad (fun i => y i + t * p i) i - grad y i) * p i) ^ 2 ≤ (L * t * Q) ^ 2 := by
      refine hcs.trans ?_
      calc _ ≤ (L ^ 2 * (t ^ 2 * Q)) * Q := mul_le_mul_of_nonneg_right hl hQ0
        _ = _ := by ring
    have h4 := abs_le_of_sq_le_sq h3 (mul_nonneg (mul_nonneg h.nonneg ht) hQ0)
    have h5 : ∑ i, (grad (fun i => y i + t * p i) i - grad y i) * p i =
        ∑ i, grad (fun i => y i + t * p i) i * p i - treeDot (grad y) p := by
      unfold treeDot
      rw [← Finset.sum_sub_distrib]
      exact Finset.sum_congr rfl fun i _ => by ring
    linarith [(abs_le.1 h4).2]
  have hanti : AntitoneOn (fun t : ℝ => f (fun i => y i + t * p i) - t * treeDot (grad y) p - L / 2 * Q * t ^ 2)
      (Set.Icc 0 1) := by
    have hder : ∀ t : ℝ, HasDerivAt
        (fun t : ℝ => f (fun i => y i + t * p i) - t * treeDot (grad y) p - L / 2 * Q * t ^ 2)
        (∑ i, grad (fun i => y i + t * p i) i * p i - treeDot (grad y) p - L / 2 * Q * (2 * t)) t := by
      intro t
      have h1 := hasDerivAt_mul_const (treeDot (grad y) p) (x := t)
      have h2 : HasDerivAt (fun t : ℝ => L / 2 * Q * t ^ 2) (L / 2 * Q * (2 * t)) t := by
        have := (hasDerivAt_pow 2 t).const_mul (L / 2 * Q)
        simpa using this
      exact ((hd t).sub h1).sub h2
    refine antitoneOn_of_deriv_nonpos (convex_Icc 0 1)
      (fun t _ => (hder t).continuousAt.continuousWithinAt)
      (fun t _ => (hder t).differentiableAt.differentiableWithinAt) ?_
    intro t ht
    rw [interior_Icc] at ht
    rw [(hder t).deriv]
    have := hslope t ht.1.le
    linarith
  have h1 := hanti (Set.left_mem_Icc.2 zero_le_one) (Set.right_mem_Icc.2 zero_le_one) zero_le_one
  simp only [one_mul, zero_mul, add_zero, sub_zero, one_pow, mul_one, ne_eq, OfNat.ofNat_ne_zero, not_false_eq_true,
    zero_pow, mul_zero] at h1
  have ez : (fun i => y i + p i) = z := by funext i; simp [hp]
  have ey : (fun i => y i) = y := rfl
  have eQ : sumSquares p = Q := by
    rw [hQ]; unfold sumSquares; exact Finset.sum_congr rfl fun i _ => by ring
  rw [ez, ey] at h1
  rw [eQ]
  linarith

/-- A tolerance small enough for two norms. -/
theorem small_enough {κ : Type} {nY : (ι → ℝ) → ℝ} {nF : (κ → ℝ) → ℝ} (hY : GoodNorm nY) (hF : GoodNorm nF) (atol : ℝ)
    (ha : 0 < atol) : ∃ δ, 0 < δ ∧ δ * nY (fun _ => 1) < atol ∧ δ * nF (fun _ => 1) < atol := by
  have h1 := hY.nonneg fun _ => 1
  have h2 := hF.nonneg fun _ => 1
  refine ⟨atol / (nY (fun _ => 1) + nF (fun _ => 1) + 1), by positivity, ?_, ?_⟩
  · rw [div_mul_eq_mul_div, div_lt_iff₀ (by positivity)]
    exact mul_lt_mul_of_pos_left (by linarith) ha
  · rw [div_mul_eq_mul_div, div_lt_iff₀ (by positivity)]
    exact mul_lt_mul_of_pos_left (by linarith) ha

theorem entry_small {x : ι → ℝ} {δ : ℝ} (hδ : 0 < δ) (h : sumSquares x < δ ^ 2) (i : ι) : |x i| ≤ δ := by
  have h1 : x i ^ 2 ≤ sumSquares x := by
    rw [sq]
    exact Finset.single_le_sum (f := fun i => x i * x i) (fun i _ => mul_self_nonneg _) (Finset.mem_univ i)
  exact (abs_lt_of_sq_lt_sq (h1.trans_lt h) hδ.le).le

/-- What the directions of a run have to satisfy: steps of size `t` are `t` times a direction of length comparable to the
gradient's and making an angle with it that stays away from the right angle; and the descent never fails. -/
def GradientRelated (desc : Descent ι Unit DS) (σ ρ : ℝ) (grad : ι → ℝ) (ds : DS) : Prop :=
  ∃ p : ι → ℝ, (∀ t, desc.step t ds = (fun c => t * p c, .successful)) ∧
    ∑ i, grad i * p i ≤ -(σ * ∑ i, grad i ^ 2) ∧ ∑ i, p i ^ 2 ≤ ρ * ∑ i, grad i ^ 2

/-- **C62**, gradient family (`GradientDescent`, `NonlinearCG` and subclasses with `BacktrackingArmijo`).  If the objective is
bounded below and has a Lipschitz gradient, then along directions that stay related to the gradient the gradients at the
iterates tend to zero, from every starting point, and the solve stops by itself and reports success, with every sufficiently
large budget and with none. -/
theorem C62_gradient_family (d s i : ℝ) (a : Armijo.Cfg ℝ) (ha : Armijo.new d s i = .ok a)
    (cfg : GradientDescent.Cfg ι ℝ DS) (hs : cfg.search = Armijo.search a) (aux0 : A) (fn : (ι → ℝ) → ℝ × A)
    (y0 : ι → ℝ) (L m σ ρ : ℝ) (hL : LipschitzGradient (fun y => (fn y).1) cfg.grad L) (hlow : ∀ y, m ≤ (fn y).1)
    (hat : 0 < cfg.atol) (hrt : 0 ≤ cfg.rtol) (hY : GoodNorm cfg.normY) (hF : GoodNorm cfg.normF)
    (hσ : 0 < σ) (hρ : 0 < ρ) (st0 : GradientDescent.State ι A ℝ DS)
    (hi : (GradientDescent.solver cfg aux0).init fn y0 = .ok st0)
    (hdir : ∀ k, 1 ≤ k → GradientRelated cfg.descent σ ρ
      (cfg.grad (iterateAt (GradientDescent.solver cfg aux0) fn aux0 y0 st0 k))
      (stateAt (GradientDescent.solver cfg aux0) fn aux0 y0 st0 k).descentState) :
    Tendsto (fun k => ∑ i, cfg.grad (iterateAt (GradientDescent.solver cfg aux0) fn aux0 y0 st0 k) i ^ 2) atTop (𝓝 0) ∧
    ∃ N, ∀ ms throw, (∀ n, ms = some n → N ≤ n) →
      ∃ sol, iterativeSolve (GradientDescent.solver cfg aux0) (fun _ => true) fn aux0 y0 ms throw = some (.ok sol) ∧
        sol.result = .successful ∧ sol.numSteps ≤ N := by
  obtain ⟨rfl, hd0, hd1, hs0, hs1, hi0⟩ := armijo_new d s i a ha
  have hss : ∀ x : ι → ℝ, sumSquares x = ∑ i, x i ^ 2 := by
    intro x; unfold sumSquares; exact Finset.sum_congr rfl fun _ _ => by ring
  have LL := gd_laws cfg aux0 fn
  rw [hs] at LL
  have hG : ∀ y (i : FnInfo ι Unit), i = .evalGrad (fn y).1 (cfg.grad y) → i.grad? = some (cfg.grad y) := by
    rintro y i rfl; rfl
  have C := armijo_converges (G := cfg.grad) LL hG aux0 y0 st0 hi hd0 hd1 hs0 hs1 hi0 L m σ ρ hσ hρ (fun _ => hL.bound _) hlow (by
    intro k
    obtain ⟨p, h1, h2, h3⟩ := hdir (k + 1) (by omega)
    exact ⟨p, fun t => congrArg Prod.fst (h1 t), by rw [hss]; exact h2, by rw [hss, hss]; exact h3⟩)
  set Y := iterateAt (GradientDescent.solver cfg aux0) fn aux0 y0 st0 with hYd
  set St := stateAt (GradientDescent.solver cfg aux0) fn aux0 y0 st0 with hSt
  obtain ⟨c1, c2, c3, c4⟩ := C
  refine ⟨by simpa only [hss] using c1, ?_⟩
  obtain ⟨δ, hδ, hδY, hδF⟩ := small_enough hY hF cfg.atol hat
  obtain ⟨K, hK⟩ := eventually_atTop.1
    ((c2.eventually (Metric.ball_mem_nhds 0 hδ)).and (c3.eventually (gt_mem_nhds (by positivity : (0:ℝ) < δ ^ 2))))
  obtain ⟨k, hk, hacc⟩ := c4 K
  obtain ⟨h1, h2⟩ := hK (k + 1) (by omega)
  have hinfo := (stored LL (armijo_first _) aux0 y0 st0 hi k).1
  have hyn : Y (k + 1 + 1) = (St (k + 1)).yEval := (LL.accept _ _ hacc).1
  rw [hyn] at h1 h2
  rw [Real.dist_eq, sub_zero] at h1
  refine ⟨k + 2, fun ms throw hb => ?_⟩
  obtain ⟨sol, s1, s2, s3, _⟩ := solve_succeeds_by (GradientDescent.solver cfg aux0) (fun _ => true) fn aux0 y0 st0 hi ms
    throw (k + 2) (fun _ _ => rfl) (by
      intro j _
      show (St j).result = .successful
      obtain _ | j := j
      · show st0.result = .successful
        simp only [GradientDescent.solver, GradientDescent.init] at hi
        split at hi
        · cases hi
        · cases hi; rfl
      · have hr := LL.result (Y j) (St j)
        obtain ⟨p, hp, _⟩ := hdir (j + 1) (by omega)
        have hr' : (St (j + 1)).result = if ((gdView fn).ask (Armijo.search ⟨d, s, i⟩) (Y j) (St j)).2.2.1 = .successful
          then (cfg.descent.step ((gdView fn).ask (Armijo.search ⟨d, s, i⟩) (Y j) (St j)).1 (St (j + 1)).descentState).2
          else ((gdView fn).ask (Armijo.search ⟨d, s, i⟩) (Y j) (St j)).2.2.1 := hr
        rw [hr', hp]
        rfl) (by
      show (St (k + 1 + 1)).terminate = true
      have hst : St (k + 1 + 1) = (GradientDescent.step cfg fn (Y (k + 1)) (St (k + 1))).2.1 := rfl
      have hacc' : (cfg.search.step (St (k + 1)).firstStep (Y (k + 1)) (St (k + 1)).yEval (St (k + 1)).fInfo
        (.eval (fn (St (k + 1)).yEval).1) (St (k + 1)).searchState).2.1 = true := by rw [hs]; exact hacc
      have hfirst : (St (k + 1)).firstStep = false := first_at LL aux0 y0 st0 k
      have hf : GradientDescent.fOf (St (k + 1)).fInfo = (fn (Y (k + 1))).1 := by
        rw [show (St (k + 1)).fInfo = _ from hinfo]; rfl
      rw [hfirst] at hacc'
      have hgoal : cauchyTermination cfg.rtol cfg.atol cfg.normY cfg.normF (St (k + 1)).yEval
          (fun i => (St (k + 1)).yEval i - Y (k + 1) i) (fun _ => (fn (St (k + 1)).yEval).1)
          (fun _ => (fn (St (k + 1)).yEval).1 - (fn (Y (k + 1))).1) = true := by
        simp only [cauchyTermination, Bool.and_eq_true, decide_eq_true_eq]
        refine ⟨norm_small hY cfg.rtol cfg.atol δ hat hrt _ _ (fun c => entry_small hδ h2 c) hδY,
          norm_small hF cfg.rtol cfg.atol δ hat hrt _ _ (fun _ => ?_) hδF⟩
        rw [abs_sub_comm]; exact h1.le
      rw [hst]
      simp only [GradientDescent.step, hacc', if_true, hfirst, Bool.false_eq_true, if_false, hf]
      exact hgoal) hb
  exact ⟨sol, s1, s2, s3⟩

/-- **C62**, quasi-Newton family (`BFGS`, `DFP`, `LBFGS` and subclasses with `BacktrackingArmijo`): the same statement. -/
theorem C62_quasi_newton_family (d s i : ℝ) (a : Armijo.Cfg ℝ) (ha : Armijo.new d s i = .ok a)
    (cfg : QuasiNewton.Cfg ι ℝ DS HS) (hs : cfg.search = Armijo.search a) (hr : RecordsPoint cfg.hess) (aux0 : A)
    (fn : (ι → ℝ) → ℝ × A)
    (y0 : ι → ℝ) (L m σ ρ : ℝ) (hL : LipschitzGradient (fun y => (fn y).1) cfg.grad L) (hlow : ∀ y, m ≤ (fn y).1)
    (hat : 0 < cfg.atol) (hrt : 0 ≤ cfg.rtol) (hY : GoodNorm cfg.normY) (hF : GoodNorm cfg.normF)
    (hσ : 0 < σ) (hρ : 0 < ρ) (st0 : QuasiNewton.State ι A ℝ DS HS)
    (hi : (QuasiNewton.solver cfg aux0).init fn y0 = .ok st0)
    (hdir : ∀ k, 1 ≤ k → GradientRelated cfg.descent σ ρ
      (cfg.grad (iterateAt (QuasiNewton.solver cfg aux0) fn aux0 y0 st0 k))
      (stateAt (QuasiNewton.solver cfg aux0) fn aux0 y0 st0 k).descentState) :
    Tendsto (fun k => ∑ i, cfg.grad (iterateAt (QuasiNewton.solver cfg aux0) fn aux0 y0 st0 k) i ^ 2) atTop (𝓝 0) ∧
    ∃ N, ∀ ms throw, (∀ n, ms = some n → N ≤ n) →
      ∃ sol, iterativeSolve (QuasiNewton.solver cfg aux0) (fun _ => true) fn aux0 y0 ms throw = some (.ok sol) ∧
        sol.result = .successful ∧ sol.numSteps ≤ N := by
  obtain ⟨rfl, hd0, hd1, hs0, hs1, hi0⟩ := armijo_new d s i a ha
  have hss : ∀ x : ι → ℝ, sumSquares x = ∑ i, x i ^ 2 := by
    intro x; unfold sumSquares; exact Finset.sum_congr rfl fun _ _ => by ring
  have LL := qn_laws cfg aux0 fn hr
  rw [hs] at LL
  have hG : ∀ y (i : FnInfo ι Unit), (i.asMin = (fn y).1 ∧ i.grad? = some (cfg.grad y)) →
      i.grad? = some (cfg.grad y) := fun y i h => h.2
  have C := armijo_converges (G := cfg.grad) LL hG aux0 y0 st0 hi hd0 hd1 hs0 hs1 hi0 L m σ ρ hσ hρ (fun _ => hL.bound _) hlow (by
    intro k
    obtain ⟨p, h1, h2, h3⟩ := hdir (k + 1) (by omega)
    exact ⟨p, fun t => congrArg Prod.fst (h1 t), by rw [hss]; exact h2, by rw [hss, hss]; exact h3⟩)
  set Y := iterateAt (QuasiNewton.solver cfg aux0) fn aux0 y0 st0 with hYd
  set St := stateAt (QuasiNewton.solver cfg aux0) fn aux0 y0 st0 with hSt
  obtain ⟨c1, c2, c3, c4⟩ := C
  refine ⟨by simpa only [hss] using c1, ?_⟩
  obtain ⟨δ, hδ, hδY, hδF⟩ := small_enough hY hF cfg.atol hat
  obtain ⟨K, hK⟩ := eventually_atTop.1
    ((c2.eventually (Metric.ball_mem_nhds 0 hδ)).and (c3.eventually (gt_mem_nhds (by positivity : (0:ℝ) < δ ^ 2))))
  obtain ⟨k, hk, hacc⟩ := c4 K
  obtain ⟨h1, h2⟩ := hK (k + 1) (by omega)
  have hinfo := (stored LL (armijo_first _) aux0 y0 st0 hi k).1
  have hyn : Y (k + 1 + 1) = (St (k + 1)).yEval := (LL.accept _ _ hacc).1
  rw [hyn] at h1 h2
  rw [Real.dist_eq, sub_zero] at h1
  refine ⟨k + 2, fun ms throw hb => ?_⟩
  obtain ⟨sol, s1, s2, s3, _⟩ := solve_succeeds_by (QuasiNewton.solver cfg aux0) (fun _ => true) fn aux0 y0 st0 hi ms
    throw (k + 2) (fun _ _ => rfl) (by
      intro j _
      show (St j).result = .successful
      obtain _ | j := j
      · show st0.result = .successful
        simp only [QuasiNewton.solver, QuasiNewton.init] at hi
        split at hi
        · cases hi
        · cases hi; rfl
      · have hr := LL.result (Y j) (St j)
        obtain ⟨p, hp, _⟩ := hdir (j + 1) (by omega)
        have hr' : (St (j + 1)).result = if ((qnView fn).ask (Armijo.search ⟨d, s, i⟩) (Y j) (St j)).2.2.1 = .successful
          then (cfg.descent.step ((qnView fn).ask (Armijo.search ⟨d, s, i⟩) (Y j) (St j)).1 (St (j + 1)).descentState).2
          else ((qnView fn).ask (Armijo.search ⟨d, s, i⟩) (Y j) (St j)).2.2.1 := hr
        rw [hr', hp]
        rfl) (by
      show (St (k + 1 + 1)).terminate = true
      have hst : St (k + 1 + 1) = (QuasiNewton.step cfg fn (Y (k + 1)) (St (k + 1))).2.1 := rfl
      have hacc' : (cfg.search.step (St (k + 1)).firstStep (Y (k + 1)) (St (k + 1)).yEval (St (k + 1)).fInfo
        (.eval (fn (St (k + 1)).yEval).1) (St (k + 1)).searchState).2.1 = true := by rw [hs]; exact hacc
      have hfirst : (St (k + 1)).firstStep = false := first_at LL aux0 y0 st0 k
      have hf : GradientDescent.fOf (St (k + 1)).fInfo = (fn (Y (k + 1))).1 := by
        rw [fOf_eq]; exact hinfo.1
      rw [hfirst] at hacc'
      have hgoal : cauchyTermination cfg.rtol cfg.atol cfg.normY cfg.normF (St (k + 1)).yEval
          (fun i => (St (k + 1)).yEval i - Y (k + 1) i) (fun _ => (fn (St (k + 1)).yEval).1)
          (fun _ => (fn (St (k + 1)).yEval).1 - (fn (Y (k + 1))).1) = true := by
        simp only [cauchyTermination, Bool.and_eq_true, decide_eq_true_eq]
        refine ⟨norm_small hY cfg.rtol cfg.atol δ hat hrt _ _ (fun c => entry_small hδ h2 c) hδY,
          norm_small hF cfg.rtol cfg.atol δ hat hrt _ _ (fun _ => ?_) hδF⟩
        rw [abs_sub_comm]; exact h1.le
      rw [hst]
      simp only [QuasiNewton.step, hacc', if_true, hfirst, Bool.false_eq_true, if_false, hf]
      exact hgoal) hb
  exact ⟨sol, s1, s2, s3⟩

/-- `GradientDescent` with `BacktrackingArmijo` in place of the constant learning rate. -/
noncomputable def backtrackingDescent (a : Armijo.Cfg ℝ) (rtol atol : ℝ) (nY : (ι → ℝ) → ℝ) (nF : (Unit → ℝ) → ℝ)
    (grad : (ι → ℝ) → (ι → ℝ)) : GradientDescent.Cfg ι ℝ (ι → ℝ) :=
  { rtol := rtol, atol := atol, normY := nY, normF := nF, descent := steepestDescent none, search := Armijo.search a,
    grad := grad }

/-- **C62** for steepest descent with backtracking: no condition on the run is left. -/
theorem C62_steepest_descent (d s i : ℝ) (a : Armijo.Cfg ℝ) (ha : Armijo.new d s i = .ok a)
    (rtol atol : ℝ) (nY : (ι → ℝ) → ℝ) (nF : (Unit → ℝ) → ℝ) (grad : (ι → ℝ) → (ι → ℝ)) (aux0 : A)
    (fn : (ι → ℝ) → ℝ × A) (y0 : ι → ℝ) (L m : ℝ) (hL : LipschitzGradient (fun y => (fn y).1) grad L)
    (hlow : ∀ y, m ≤ (fn y).1) (hat : 0 < atol) (hrt : 0 ≤ rtol) (hY : GoodNorm nY) (hF : GoodNorm nF) :
    let S := GradientDescent.solver (backtrackingDescent a rtol atol nY nF grad) aux0
    ∃ st0, S.init fn y0 = .ok st0 ∧
      Tendsto (fun k => ∑ i, grad (iterateAt S fn aux0 y0 st0 k) i ^ 2) atTop (𝓝 0) ∧
      ∃ N, ∀ ms throw, (∀ n, ms = some n → N ≤ n) →
        ∃ sol, iterativeSolve S (fun _ => true) fn aux0 y0 ms throw = some (.ok sol) ∧ sol.result = .successful ∧
          sol.numSteps ≤ N := by
  intro S
  obtain ⟨st0, hi⟩ : ∃ st0, S.init fn y0 = .ok st0 := ⟨_, rfl⟩
  refine ⟨st0, hi, C62_gradient_family d s i a ha (backtrackingDescent a rtol atol nY nF grad) rfl aux0 fn y0 L m 1 1 hL hlow hat hrt hY hF one_pos one_pos st0 hi ?_⟩
  intro k hk
  obtain _ | k := k
  · omega
  have LL := gd_laws (backtrackingDescent a rtol atol nY nF grad) aux0 fn
  obtain ⟨⟨y', d', hq⟩, _⟩ := queried LL (armijo_first _) aux0 y0 st0 hi k
  have hinfo := (stored LL (armijo_first _) aux0 y0 st0 hi k).1
  rw [hinfo] at hq
  have hq' : (stateAt S fn aux0 y0 st0 (k + 1)).descentState = grad (iterateAt S fn aux0 y0 st0 (k + 1)) := hq
  refine ⟨fun c => -grad (iterateAt S fn aux0 y0 st0 (k + 1)) c, fun t => ?_, ?_, ?_⟩
  · show (steepestDescent none).step t (stateAt S fn aux0 y0 st0 (k + 1)).descentState = _
    rw [hq']
    simp [steepestDescent]
  · show ∑ i, grad (iterateAt S fn aux0 y0 st0 (k + 1)) i * -grad (iterateAt S fn aux0 y0 st0 (k + 1)) i ≤
      -(1 * ∑ i, grad (iterateAt S fn aux0 y0 st0 (k + 1)) i ^ 2)
    rw [one_mul, ← Finset.sum_neg_distrib]
    exact (Finset.sum_congr rfl fun c _ => by ring).le
  · show ∑ i, (-grad (iterateAt S fn aux0 y0 st0 (k + 1)) i) ^ 2 ≤
      1 * ∑ i, grad (iterateAt S fn aux0 y0 st0 (k + 1)) i ^ 2
    rw [one_mul]
    exact (Finset.sum_congr rfl fun c _ => by ring).le

/-- `Σ yᵢ²` has the gradient `2y`, which is Lipschitz. -/
theorem square_lipschitz : LipschitzGradient (fun y : ι → ℝ => ∑ i, y i ^ 2) (fun y i => 2 * y i) 2 := by
  refine ⟨fun y p => ?_, fun y z => ?_, by norm_num⟩
  · have : ∀ i ∈ (Finset.univ : Finset ι), HasDerivAt (fun t : ℝ => (y i + t * p i) ^ 2) (2 * y i * p i) 0 := by
      intro i _
      have h := ((hasDerivAt_mul_const (p i) (x := (0:ℝ))).const_add (y i)).fun_pow 2
      simpa using h
    have h := HasDerivAt.fun_sum this
    exact h
  · rw [Finset.mul_sum]
    exact (Finset.sum_congr rfl fun i _ => by ring).le

/-- The hypotheses of C62 are met by `f(y) = Σ yᵢ²` in any number of unknowns, from any starting point, with the default
backtracking parameters: the solve returns, successfully. -/
example (y0 : ι → ℝ) :
    ∃ sol, iterativeSolve (GradientDescent.solver (backtrackingDescent ⟨1/2, 1/10, 1⟩ (1/10) (1/10) maxNorm maxNorm
      fun y i => 2 * y i) ()) (fun _ => true) (fun y : ι → ℝ => (∑ i, y i ^ 2, ())) () y0 none true = some (.ok sol) ∧
      sol.result = .successful := by
  obtain ⟨_, _, _, N, hN⟩ := C62_steepest_descent (ι := ι) (1/2) (1/10) 1 ⟨1/2, 1/10, 1⟩ (by norm_num [Armijo.new])
    (1/10) (1/10) maxNorm maxNorm (fun y i => 2 * y i) () (fun y => (∑ i, y i ^ 2, ())) y0 2 0 square_lipschitz
    (fun y => Finset.sum_nonneg fun i _ => sq_nonneg _) (by norm_num) (by norm_num) goodNorm_maxNorm goodNorm_maxNorm
  obtain ⟨sol, h1, h2, _⟩ := hN none true (fun n h => by cases h)
  exact ⟨sol, h1, h2⟩

end Verif.Props
