import Verif.Props.GaussNewton
import Verif.Lemmas.Damped

/-!
Properties C40 (damped Newton step), C41 (least-squares runs with the classical trust region are monotone) and C53 (the
indirect Levenberg-Marquardt descent).  The dogleg part of C41 is in `Props/Dogleg.lean`.
-/

namespace Verif.Props

open Verif Verif.Spec Verif.Driver Verif.SearchLoop Verif.Rank

variable {ι κ A SS HS : Type} [Fintype ι] [Fintype κ]

/-- The linear solver solves linear least-squares problems (of the given shape). -/
def SolvesLeastSquares (ls : LinSolve ι κ) : Prop := ∀ M v, IsLeastSquares M v (ls.rect M v).1

/-- The predicted change of `½|r|²` for the linearised residuals. -/
noncomputable def linearisedChange (J : Matrix κ ι ℝ) (r : κ → ℝ) (p : ι → ℝ) : ℝ :=
  (∑ k, (J.mulVec p k + r k) ^ 2) / 2 - (∑ k, r k ^ 2) / 2

theorem lmParam_pos (eps fmax s : ℝ) (he : 0 ≤ eps) (hf : 0 < fmax) : 0 < lmParam eps fmax s := by
  unfold lmParam
  split
  · rename_i h; exact one_div_pos.2 (lt_of_le_of_lt he h)
  · exact hf

/-! ### C40 -/

/-- **C40.** Residual problems, any shape and rank of the Jacobian: the step of `DampedNewtonDescent` at step size `s` is
the unique minimiser of `|J p + r|² + λ|p|²` with `λ = 1/s` (for step sizes above machine epsilon, else the largest
float), i.e. the solution of `(JᵀJ + λ) p = -Jᵀr`; its predicted change is at most `-λ/2 |p|²`, so never positive, and it is a
descent direction for `½|r|²` unless it vanishes, which happens only where the gradient does. -/
theorem C40_damped_step [DecidableEq ι] (eps fmax s : ℝ) (he : 0 ≤ eps) (hf : 0 < fmax) (ls : LinSolve ι (κ ⊕ ι))
    (hls : SolvesLeastSquares ls) (J : Matrix κ ι ℝ) (r : κ → ℝ) :
    let l := if eps < s then 1 / s else fmax
    let p := ((dampedNewtonDescent eps fmax ls).step s (.residualJac r J)).1
    let gradient := fun i => ∑ k, J k i * r k
    0 < l ∧
    (∀ q, q ≠ p → ∑ k, (J.mulVec p k + r k) ^ 2 + l * ∑ i, p i ^ 2 < ∑ k, (J.mulVec q k + r k) ^ 2 + l * ∑ i, q i ^ 2) ∧
    (∀ i, ∑ k, J k i * J.mulVec p k + l * p i = -gradient i) ∧
    linearisedChange J r p ≤ -(l / 2 * ∑ i, p i ^ 2) ∧
    ∑ i, gradient i * p i ≤ -(l * ∑ i, p i ^ 2) ∧
    (p = (fun _ => 0) ↔ ∀ i, gradient i = 0) := by
  intro l p gradient
  have hl : 0 < l := lmParam_pos eps fmax s he hf
  have hmin : ∀ q, regularised J r l p ≤ regularised J r l q := fun q =>
    damped_minimiser J r l hl.le _ (hls _ _) q
  have hstat := regularised_stationary J r l hl.le p hmin
  have hne : ∀ i, ∑ k, J k i * J.mulVec p k + l * p i = -gradient i := by
    intro i
    have := hstat i
    have e : ∑ k, J k i * (J.mulVec p k + r k) = ∑ k, J k i * J.mulVec p k + gradient i := by
      rw [← Finset.sum_add_distrib]; exact Finset.sum_congr rfl fun k _ => by ring
    linarith
  refine ⟨hl, fun q hq => regularised_unique J r l hl p q hmin hq, hne, ?_, ?_, ?_⟩
  · have h0 := hmin fun _ => 0
    have hz : J.mulVec (fun _ => (0:ℝ)) = 0 := Matrix.mulVec_zero J
    simp only [regularised, hz, Pi.zero_apply, zero_add, ne_eq, OfNat.ofNat_ne_zero, not_false_eq_true, zero_pow,
      Finset.sum_const_zero, mul_zero, add_zero] at h0
    unfold linearisedChange
    linarith
  · have h1 : ∑ i, p i * (∑ k, J k i * J.mulVec p k + l * p i) = ∑ k, J.mulVec p k ^ 2 + l * ∑ i, p i ^ 2 := by
      simp only [mul_add, Finset.sum_add_distrib, Finset.mul_sum]
      rw [Finset.sum_comm]
      congr 1
      · refine Finset.sum_congr rfl fun k _ => ?_
        rw [sq]
        conv_rhs => rw [Matrix.mulVec, dotProduct, Finset.sum_mul]
        exact Finset.sum_congr rfl fun i _ => by
          show p i * (J k i * J.mulVec p k) = J k i * p i * J.mulVec p k
          ring
      · exact Finset.sum_congr rfl fun i _ => by ring
    have h2 : ∑ i, p i * (∑ k, J k i * J.mulVec p k + l * p i) = -∑ i, gradient i * p i := by
      rw [← Finset.sum_neg_distrib]
      exact Finset.sum_congr rfl fun i _ => by rw [hne]; ring
    have h3 : 0 ≤ ∑ k, J.mulVec p k ^ 2 := Finset.sum_nonneg fun _ _ => sq_nonneg _
    linarith
  · constructor
    · intro hp i
      have := hne i
      rw [hp] at this
      have hz : J.mulVec (fun _ => (0:ℝ)) = 0 := Matrix.mulVec_zero J
      simp [hz] at this
      linarith
    · intro hg
      by_contra hpne
      have hz : ∀ i, ∑ k, J k i * (J.mulVec (fun _ => (0:ℝ)) k + r k) + l * (0:ℝ) = 0 := by
        intro i
        have : J.mulVec (fun _ => (0:ℝ)) = 0 := Matrix.mulVec_zero J
        simp only [this, Pi.zero_apply, zero_add, mul_zero, add_zero]
        exact hg i
      have := regularised_expand J r l (fun _ => 0) p hz
      have h0 := hmin fun _ => 0
      have hp := mul_pos hl (sum_sq_pos_of_ne (fun _ => 0) p hpne)
      have h3 : 0 ≤ ∑ k, (J.mulVec p k - J.mulVec (fun _ => 0) k) ^ 2 := Finset.sum_nonneg fun _ _ => sq_nonneg _
      linarith

/-- **C40.** Smaller step sizes (more damping) give shorter steps. -/
theorem C40_shrinks [DecidableEq ι] (eps fmax : ℝ) (he : 0 < eps) (hf : 1 / eps ≤ fmax) (ls : LinSolve ι (κ ⊕ ι))
    (hls : SolvesLeastSquares ls) (J : Matrix κ ι ℝ) (r : κ → ℝ) (s t : ℝ) (hst : s ≤ t) :
    ∑ i, ((dampedNewtonDescent eps fmax ls).step s (.residualJac r J)).1 i ^ 2 ≤
      ∑ i, ((dampedNewtonDescent eps fmax ls).step t (.residualJac r J)).1 i ^ 2 := by
  have hf0 : 0 < fmax := lt_of_lt_of_le (one_div_pos.2 he) hf
  have hmin : ∀ u q, regularised J r (lmParam eps fmax u)
      ((dampedNewtonDescent eps fmax ls).step u (.residualJac r J)).1 ≤ regularised J r (lmParam eps fmax u) q :=
    fun u q => damped_minimiser J r _ (lmParam_pos eps fmax u he.le hf0).le _ (hls _ _) q
  have hle : lmParam eps fmax t ≤ lmParam eps fmax s := by
    unfold lmParam
    split_ifs with h1 h2
    · exact one_div_le_one_div_of_le (he.trans h2) hst
    · exact (one_div_le_one_div_of_le he h1.le).trans hf
    · linarith
    · exact le_rfl
  rcases eq_or_lt_of_le hle with h | h
  · have : (dampedNewtonDescent eps fmax ls).step s (.residualJac r J) =
        (dampedNewtonDescent eps fmax ls).step t (.residualJac r J) := by
      simp only [dampedNewtonDescent, dampedNewtonStep, h]
    rw [this]
  · exact regularised_shrinks J r _ _ h _ _ (hmin t) (hmin s)

/-- **C40**, the step is never longer than `step_size * |gradient|` (step sizes above machine epsilon). -/
theorem C40_bounded [DecidableEq ι] (eps fmax : ℝ) (he : 0 ≤ eps) (hf : 0 < fmax) (ls : LinSolve ι (κ ⊕ ι))
    (hls : SolvesLeastSquares ls) (J : Matrix κ ι ℝ) (r : κ → ℝ) (s : ℝ) (hs : eps < s) :
    ∑ i, ((dampedNewtonDescent eps fmax ls).step s (.residualJac r J)).1 i ^ 2 ≤
      s ^ 2 * ∑ i, (∑ k, J k i * r k) ^ 2 := by
  obtain ⟨hl, _, _, _, hd, _⟩ := C40_damped_step eps fmax s he hf ls hls J r
  set p := ((dampedNewtonDescent eps fmax ls).step s (.residualJac r J)).1
  set g := fun i => ∑ k, J k i * r k
  rw [if_pos hs] at hd
  have hs0 : 0 < s := lt_of_le_of_lt he hs
  have cs := Finset.sum_mul_sq_le_sq_mul_sq Finset.univ g p
  set P := ∑ i, p i ^ 2
  set G := ∑ i, g i ^ 2
  set D := ∑ i, g i * p i
  have hP : 0 ≤ P := Finset.sum_nonneg fun _ _ => sq_nonneg _
  have hD : P / s ≤ -D := by
    have : 1 / s * P = P / s := by ring
    have hd' : D ≤ -(1 / s * P) := hd
    linarith
  have h2 : (P / s) ^ 2 ≤ G * P := by
    have h0 : 0 ≤ P / s := by positivity
    nlinarith
  rcases eq_or_lt_of_le hP with h | h
  · show P ≤ s ^ 2 * G
    rw [← h]
    exact mul_nonneg (sq_nonneg _) (Finset.sum_nonneg fun _ _ => sq_nonneg _)
  · show P ≤ s ^ 2 * G
    rw [div_pow, div_le_iff₀ (by positivity)] at h2
    have : P * P ≤ P * (s ^ 2 * G) := by nlinarith
    exact le_of_mul_le_mul_left this h

/-- **C40**, problems with a Hessian approximation `H` (symmetric positive semidefinite): the step is the unique minimiser
of `gᵀp + ½ pᵀHp + λ/2 |p|²`. -/
theorem C40_damped_step_hessian [DecidableEq ι] (eps fmax s f : ℝ) (he : 0 ≤ eps) (hf : 0 < fmax)
    (ls : LinSolve ι (κ ⊕ ι)) (hls : ∀ B g, SPD B → B.mulVec (ls.square B g).1 = g) (H : Matrix ι ι ℝ) (hH : SPSD H)
    (g : ι → ℝ) :
    let l := if eps < s then 1 / s else fmax
    let p := ((dampedNewtonDescent eps fmax ls).step s (.evalGradHessian f g H)).1
    let model := fun q : ι → ℝ => ∑ i, g i * q i + (∑ i, ∑ j, q i * H i j * q j) / 2
    0 < l ∧ (∀ i, ∑ j, H i j * p j + l * p i = -g i) ∧
    (∀ q, q ≠ p → model p + l / 2 * ∑ i, p i ^ 2 < model q + l / 2 * ∑ i, q i ^ 2) ∧
    model p ≤ -(l / 2 * ∑ i, p i ^ 2) := by
  intro l p model
  have hl : 0 < l := lmParam_pos eps fmax s he hf
  set B := H + l • (1 : Matrix ι ι ℝ) with hB
  have hquadB : ∀ x : ι → ℝ, ∑ i, ∑ j, x i * B i j * x j = ∑ i, ∑ j, x i * H i j * x j + l * ∑ i, x i ^ 2 := by
    intro x
    rw [Finset.mul_sum, ← Finset.sum_add_distrib]
    refine Finset.sum_congr rfl fun i _ => ?_
    have : ∀ j, x i * B i j * x j = x i * H i j * x j + (if i = j then l * x i ^ 2 else 0) := by
      intro j
      simp only [hB, Matrix.add_apply, Matrix.smul_apply, smul_eq_mul, Matrix.one_apply]
      split
      · rename_i h; subst h; ring
      · ring
    simp [this, Finset.sum_add_distrib]
  have hspd : SPD B := by
    constructor
    · intro i j
      simp only [hB, Matrix.add_apply, Matrix.smul_apply, smul_eq_mul, Matrix.one_apply, hH.1 i j, eq_comm (a := i)]
    · intro x hx
      rw [hquadB]
      have := sum_sq_pos_of_ne (fun _ => 0) x (by
        intro h; obtain ⟨i, hi⟩ := hx; exact hi (congrFun h i))
      simp only [sub_zero] at this
      have := mul_pos hl this
      linarith [hH.2 x]
  have hsolve : ∀ i, ∑ j, H i j * p j + l * p i = -g i := by
    intro i
    have h1 := congrFun (hls B g hspd) i
    have hp : ∀ j, p j = -(ls.square B g).1 j := fun j => rfl
    have h2 : B.mulVec (ls.square B g).1 i = ∑ j, H i j * (ls.square B g).1 j + l * (ls.square B g).1 i := by
      simp only [hB, Matrix.mulVec, dotProduct, Matrix.add_apply, Matrix.smul_apply, smul_eq_mul, add_mul,
        Finset.sum_add_distrib, Matrix.one_apply]
      congr 1
      simp
    simp only [hp]
    have e : ∑ j, H i j * -(ls.square B g).1 j = -∑ j, H i j * (ls.square B g).1 j := by
      rw [← Finset.sum_neg_distrib]; exact Finset.sum_congr rfl fun j _ => by ring
    rw [e]; linarith
  -- expansion of the damped model about p
  have hexp : ∀ q, model q + l / 2 * ∑ i, q i ^ 2 = model p + l / 2 * ∑ i, p i ^ 2 +
      (∑ i, ∑ j, (q i - p i) * H i j * (q j - p j)) / 2 + l / 2 * ∑ i, (q i - p i) ^ 2 := by
    intro q
    have hdot : ∑ i, (q i - p i) * (∑ j, H i j * p j + l * p i + g i) = 0 :=
      Finset.sum_eq_zero fun i _ => by rw [hsolve]; ring
    have e0 : ∑ i, (q i - p i) * (∑ j, H i j * p j + l * p i + g i) =
        ∑ i, ∑ j, (q i - p i) * H i j * p j + l * ∑ i, (q i - p i) * p i + ∑ i, (q i - p i) * g i := by
      simp only [mul_add, Finset.sum_add_distrib, Finset.mul_sum]
      congr 1
      congr 1
      · exact Finset.sum_congr rfl fun i _ => Finset.sum_congr rfl fun j _ => by ring
      · exact Finset.sum_congr rfl fun i _ => by ring
    have esym : ∑ i, ∑ j, p i * H i j * (q j - p j) = ∑ i, ∑ j, (q i - p i) * H i j * p j := by
      rw [Finset.sum_comm]
      exact Finset.sum_congr rfl fun i _ => Finset.sum_congr rfl fun j _ => by rw [hH.1 j i]; ring
    have e1 : ∑ i, ∑ j, q i * H i j * q j = ∑ i, ∑ j, p i * H i j * p j + ∑ i, ∑ j, (q i - p i) * H i j * p j +
        ∑ i, ∑ j, p i * H i j * (q j - p j) + ∑ i, ∑ j, (q i - p i) * H i j * (q j - p j) := by
      simp only [← Finset.sum_add_distrib]
      exact Finset.sum_congr rfl fun i _ => Finset.sum_congr rfl fun j _ => by ring
    have e2 : ∑ i, q i ^ 2 = ∑ i, p i ^ 2 + 2 * ∑ i, (q i - p i) * p i + ∑ i, (q i - p i) ^ 2 := by
      rw [Finset.mul_sum, ← Finset.sum_add_distrib, ← Finset.sum_add_distrib]
      exact Finset.sum_congr rfl fun k _ => by ring
    have e3 : ∑ i, g i * q i = ∑ i, g i * p i + ∑ i, (q i - p i) * g i := by
      rw [← Finset.sum_add_distrib]; exact Finset.sum_congr rfl fun k _ => by ring
    rw [esym] at e1
    simp only [model]
    rw [e1, e2, e3]
    linear_combination hdot - e0
  refine ⟨hl, hsolve, fun q hq => ?_, ?_⟩
  · rw [hexp q]
    have h1 := hH.2 fun i => q i - p i
    have h2 := mul_pos hl (sum_sq_pos_of_ne p q hq)
    linarith
  · have h0 := hexp fun _ => 0
    have h1 := hH.2 p
    simp only [model, mul_zero, zero_mul, Finset.sum_const_zero, zero_div, add_zero, ne_eq, OfNat.ofNat_ne_zero,
      not_false_eq_true, zero_pow, zero_sub, neg_sq] at h0
    have e : ∑ i, ∑ j, -p i * H i j * -p j = ∑ i, ∑ j, p i * H i j * p j :=
      Finset.sum_congr rfl fun i _ => Finset.sum_congr rfl fun j _ => by ring
    rw [e] at h0
    show ∑ i, g i * p i + (∑ i, ∑ j, p i * H i j * p j) / 2 ≤ _
    have h2 : 0 ≤ l / 2 * ∑ i, p i ^ 2 := mul_nonneg (by positivity) (Finset.sum_nonneg fun _ _ => sq_nonneg _)
    linarith

/-! ### C41 -/

/-- At every least-squares iterate from the first step on, the proposed change is the descent's answer to a query with the
residuals and the Jacobian at that iterate, at the current trust-region radius. -/
theorem trust_region_trial (c : TrustRegion.Cfg ℝ) (DS : Type) (cfg : GaussNewton.Cfg ι κ ℝ DS)
    (hs : cfg.search = TrustRegion.classical c) (aux0 : A) (fn : (ι → ℝ) → (κ → ℝ) × A) (y0 : ι → ℝ)
    (st0 : GaussNewton.State ι κ A ℝ DS) (hi : (GaussNewton.solver cfg aux0).init fn y0 = .ok st0) (k : Nat) :
    let Y := iterateAt (GaussNewton.solver cfg aux0) fn aux0 y0 st0
    let St := stateAt (GaussNewton.solver cfg aux0) fn aux0 y0 st0
    (∃ y' d', (St (k + 1)).descentState =
      cfg.descent.query y' (.residualJac (fn (Y (k + 1))).1 (cfg.jac (Y (k + 1)))) d') ∧
    ∀ i, (St (k + 1)).yEval i - Y (k + 1) i =
      (cfg.descent.step (St (k + 1)).searchState (St (k + 1)).descentState).1 i := by
  intro Y St
  have L := gn_laws cfg aux0 fn
  rw [hs] at L
  obtain ⟨⟨y', d', hq⟩, _⟩ := queried L (tr_first _ _ _) aux0 y0 st0 hi k
  have hinfo := (stored L (tr_first _ _ _) aux0 y0 st0 hi k).1
  rw [hinfo] at hq
  refine ⟨⟨y', d', hq⟩, fun i => ?_⟩
  have hy : (St (k + 1)).yEval =
      fun i => Y (k + 1) i + (cfg.descent.step (St (k + 1)).searchState (St (k + 1)).descentState).1 i := by
    cases k with
    | zero =>
      have h := tr_start L aux0 y0 st0 hi
      have h1 : Y 1 = y0 := (first_iterate L (tr_first _ _ _) aux0 y0 st0 hi).1
      have h2 : (St 1).searchState = 1 := h.2.1
      rw [h1, h2]
      exact h.2.2
    | succ k => exact (tr_run L aux0 y0 st0 hi k).1
  rw [hy]; ring

/-- **C41**, general form: any descent whose steps (at positive radii) have non-positive predicted change.  The objective
`½Σr²` never increases along a run, and the value of a solution is never worse than `y0`. -/
theorem C41_monotone (c : TrustRegion.Cfg ℝ) (hl : 0 < c.lowConstant) (hh : 0 < c.highConstant)
    (hc : 0 ≤ c.lowCutoff) (DS : Type) (cfg : GaussNewton.Cfg ι κ ℝ DS) (hs : cfg.search = TrustRegion.classical c)
    (hd : ∀ y' d' t r J, 0 < t →
      linearisedChange J r (cfg.descent.step t (cfg.descent.query y' (.residualJac r J) d')).1 ≤ 0)
    (aux0 : A) (fn : (ι → ℝ) → (κ → ℝ) × A) (y0 : ι → ℝ) :
    (∀ st0, (GaussNewton.solver cfg aux0).init fn y0 = .ok st0 → ∀ j k, j ≤ k →
      ∑ m, (fn (iterateAt (GaussNewton.solver cfg aux0) fn aux0 y0 st0 k)).1 m ^ 2 ≤
        ∑ m, (fn (iterateAt (GaussNewton.solver cfg aux0) fn aux0 y0 st0 j)).1 m ^ 2) ∧
    ∀ af ms throw sol, iterativeSolve (GaussNewton.solver cfg aux0) af fn aux0 y0 ms throw = some (.ok sol) →
      ∑ m, (fn sol.value).1 m ^ 2 ≤ ∑ m, (fn y0).1 m ^ 2 := by
  have hmain : ∀ st0, (GaussNewton.solver cfg aux0).init fn y0 = .ok st0 → ∀ j k, j ≤ k →
      ∑ m, (fn (iterateAt (GaussNewton.solver cfg aux0) fn aux0 y0 st0 k)).1 m ^ 2 ≤
        ∑ m, (fn (iterateAt (GaussNewton.solver cfg aux0) fn aux0 y0 st0 j)).1 m ^ 2 := by
    intro st0 hi
    have hstep : ∀ k, ∑ m, (fn (iterateAt (GaussNewton.solver cfg aux0) fn aux0 y0 st0 (k + 1))).1 m ^ 2 ≤
        ∑ m, (fn (iterateAt (GaussNewton.solver cfg aux0) fn aux0 y0 st0 k)).1 m ^ 2 := by
      intro k
      obtain ⟨hpos, _, _, hrule⟩ := C29_run_gauss_newton c hl hh cfg hs aux0 fn y0 st0 hi
      cases k with
      | zero =>
        have L := gn_laws cfg aux0 fn
        rw [hs] at L
        rw [(first_iterate L (tr_first _ _ _) aux0 y0 st0 hi).1]
        exact le_rfl
      | succ k =>
        obtain ⟨⟨y', d', hq⟩, htr⟩ := trust_region_trial c DS cfg hs aux0 fn y0 st0 hi k
        set Y := iterateAt (GaussNewton.solver cfg aux0) fn aux0 y0 st0
        set St := stateAt (GaussNewton.solver cfg aux0) fn aux0 y0 st0
        have hp := hd y' d' (St (k + 1)).searchState (fn (Y (k + 1))).1 (cfg.jac (Y (k + 1))) (hpos (k + 1))
        rw [← hq] at hp
        obtain ⟨hacc, hrej⟩ := hrule (k + 1) (by omega)
        have hpred : (∑ m, ((fn (Y (k + 1))).1 m +
            ∑ i, cfg.jac (Y (k + 1)) m i * ((St (k + 1)).yEval i - Y (k + 1) i)) ^ 2) / 2 -
            (∑ m, (fn (Y (k + 1))).1 m ^ 2) / 2 ≤ 0 := by
          refine le_trans (le_of_eq ?_) hp
          unfold linearisedChange
          congr 2
          refine Finset.sum_congr rfl fun m _ => ?_
          rw [add_comm]
          congr 2
          simp only [Matrix.mulVec, dotProduct]
          exact Finset.sum_congr rfl fun i _ => by rw [htr]
        set pred := (∑ m, ((fn (Y (k + 1))).1 m +
            ∑ i, cfg.jac (Y (k + 1)) m i * ((St (k + 1)).yEval i - Y (k + 1) i)) ^ 2) / 2 -
            (∑ m, (fn (Y (k + 1))).1 m ^ 2) / 2
        by_cases ha : sumSquares (fn (St (k + 1)).yEval).1 / 2 - sumSquares (fn (Y (k + 1))).1 / 2 ≤ c.lowCutoff * pred
        · rw [(hacc ha).1]
          have h0 : c.lowCutoff * pred ≤ 0 := mul_nonpos_of_nonneg_of_nonpos hc hpred
          have hss : ∀ x : κ → ℝ, sumSquares x = ∑ m, x m ^ 2 := by
            intro x; unfold sumSquares; exact Finset.sum_congr rfl fun m _ => by ring
          rw [hss, hss] at ha
          linarith
        · rw [(hrej ha).1]
    intro j k hjk
    induction hjk with
    | refl => exact le_rfl
    | step _ ih => exact (hstep _).trans ih
  refine ⟨hmain, ?_⟩
  intro af ms throw sol h
  obtain ⟨_, _, st0, hi, _, hp⟩ := C01_step_budget _ _ _ _ _ _ _ _ h
  have hv : sol.value = iterateAt (GaussNewton.solver cfg aux0) fn aux0 y0 st0 sol.numSteps := congrArg Prod.fst hp
  rw [hv]
  exact hmain st0 hi 0 _ (Nat.zero_le _)

/-- Numbers `0 ≤ eps`, `0 < fmax` and a linear solver solving least-squares problems exist, whatever the shape. -/
theorem exact_least_squares_exists : ∃ ls : LinSolve ι κ, SolvesLeastSquares ls := by
  classical
  exact ⟨⟨fun M v => (Classical.choose (least_squares_exists M v), .successful), fun _ g => (g, .successful)⟩,
    fun M v => Classical.choose_spec (least_squares_exists M v)⟩

/-- **C41** for `LevenbergMarquardt`: `Σr²` never increases, and `fn(value)` is never worse than `fn(y0)`. -/
theorem C41_levenberg_marquardt [DecidableEq ι] (eps fmax rtol atol : ℝ) (he : 0 ≤ eps) (hf : 0 < fmax)
    (nY : (ι → ℝ) → ℝ) (nF : (κ → ℝ) → ℝ) (ls : LinSolve ι (κ ⊕ ι)) (hls : SolvesLeastSquares ls)
    (jac : (ι → ℝ) → Matrix κ ι ℝ) (aux0 : A) (fn : (ι → ℝ) → (κ → ℝ) × A) (y0 : ι → ℝ) :
    let S := GaussNewton.solver (GaussNewton.levenbergMarquardt eps fmax rtol atol nY nF ls jac) aux0
    (∀ st0, S.init fn y0 = .ok st0 → ∀ j k, j ≤ k →
      ∑ m, (fn (iterateAt S fn aux0 y0 st0 k)).1 m ^ 2 ≤ ∑ m, (fn (iterateAt S fn aux0 y0 st0 j)).1 m ^ 2) ∧
    ∀ af ms throw sol, iterativeSolve S af fn aux0 y0 ms throw = some (.ok sol) →
      ∑ m, (fn sol.value).1 m ^ 2 ≤ ∑ m, (fn y0).1 m ^ 2 := by
  refine C41_monotone TrustRegion.defaults (by norm_num [TrustRegion.defaults]) (by norm_num [TrustRegion.defaults])
    (by norm_num [TrustRegion.defaults]) _ (GaussNewton.levenbergMarquardt eps fmax rtol atol nY nF ls jac) rfl ?_ aux0
    fn y0
  intro y' d' t r J _
  obtain ⟨hl, _, _, h, _⟩ := C40_damped_step eps fmax t he hf ls hls J r
  refine le_trans h (neg_nonpos.2 (mul_nonneg (by positivity) (Finset.sum_nonneg fun _ _ => sq_nonneg _)))

/-- **C40** in a run of `LevenbergMarquardt`: from the first step on, the point tried next is the current iterate plus
the unique minimiser of `|J p + r|² + λ|p|²`, with the Jacobian and residuals at the current iterate and `λ` one over the
current trust-region radius. -/
theorem C40_run [DecidableEq ι] (eps fmax rtol atol : ℝ) (he : 0 ≤ eps) (hf : 0 < fmax)
    (nY : (ι → ℝ) → ℝ) (nF : (κ → ℝ) → ℝ) (ls : LinSolve ι (κ ⊕ ι)) (hls : SolvesLeastSquares ls)
    (jac : (ι → ℝ) → Matrix κ ι ℝ) (aux0 : A) (fn : (ι → ℝ) → (κ → ℝ) × A) (y0 : ι → ℝ)
    (st0 : GaussNewton.State ι κ A ℝ (FnInfo ι κ)) :
    let S := GaussNewton.solver (GaussNewton.levenbergMarquardt eps fmax rtol atol nY nF ls jac) aux0
    S.init fn y0 = .ok st0 → ∀ k, 1 ≤ k →
      let y := iterateAt S fn aux0 y0 st0 k
      let st := stateAt S fn aux0 y0 st0 k
      let l := if eps < st.searchState then 1 / st.searchState else fmax
      let p := fun i => st.yEval i - y i
      ∀ q, q ≠ p → ∑ m, ((jac y).mulVec p m + (fn y).1 m) ^ 2 + l * ∑ i, p i ^ 2 <
        ∑ m, ((jac y).mulVec q m + (fn y).1 m) ^ 2 + l * ∑ i, q i ^ 2 := by
  intro S hi k hk
  obtain _ | k := k
  · omega
  intro y st l p q hq
  obtain ⟨⟨y', d', hds⟩, htr⟩ := trust_region_trial TrustRegion.defaults _
    (GaussNewton.levenbergMarquardt eps fmax rtol atol nY nF ls jac) rfl aux0 fn y0 st0 hi k
  have hp : p = ((dampedNewtonDescent eps fmax ls).step st.searchState (.residualJac (fn y).1 (jac y))).1 := by
    funext i
    show st.yEval i - y i = _
    rw [htr, hds]; rfl
  rw [hp] at hq ⊢
  exact (C40_damped_step eps fmax st.searchState he hf ls hls (jac y) (fn y).1).2.1 q hq

/-! ### C53 -/

section
variable [DecidableEq ι] (eps fmax : ℝ) (ls : LinSolve ι κ) (lsD : LinSolve ι (κ ⊕ ι)) (findLambda : (ℝ → ℝ) → ℝ × Result)

/-- The minimiser of `|J p + r|² + l|p|²`, as a specification. -/
def IsDamped (J : Matrix κ ι ℝ) (r : κ → ℝ) (l : ℝ) (p : ι → ℝ) : Prop :=
  ∀ q : ι → ℝ, ∑ k, (J.mulVec p k + r k) ^ 2 + l * ∑ i, p i ^ 2 ≤ ∑ k, (J.mulVec q k + r k) ^ 2 + l * ∑ i, q i ^ 2

/-- **C53.** What the indirect descent returns.  With a successful Newton solve: for `step_size ≥ 1` the Newton step
(the negated least-squares solution); otherwise the damped step for the `λ` found by the inner root find on
`λ ↦ |p(λ)| - step_size·|newton|`; if that root find is exact, the length of the step is exactly `step_size·|newton|`.  With a
failed Newton solve: that failure. -/
theorem C53_indirect_step (he : 0 ≤ eps) (hf : 0 < fmax) (hlsD : SolvesLeastSquares lsD)
    (norm : (ι → ℝ) → ℝ) (hnorm : ∀ x, norm (fun i => -x i) = norm x) (J : Matrix κ ι ℝ) (r : κ → ℝ) (s : ℝ)
    (y : ι → ℝ) (old : IndirectState ι κ) :
    let D := indirectDescent eps fmax ls lsD norm findLambda
    let st := D.query y (.residualJac r J) old
    let newton := (ls.rect J r).1
    ((ls.rect J r).2 ≠ .successful → (D.step s st).2 = (ls.rect J r).2) ∧
    (1 ≤ s → D.step s st = (fun i => -newton i, (ls.rect J r).2)) ∧
    (s < 1 → (ls.rect J r).2 = .successful → ∃ compare : ℝ → ℝ,
      (∀ l, 0 < l → 1 / l > eps → ∃ q, IsDamped J r l q ∧ compare l = norm q - s * norm newton) ∧
      (0 < (findLambda compare).1 → 1 / (findLambda compare).1 > eps → IsDamped J r (findLambda compare).1 (D.step s st).1 ∧
        (compare (findLambda compare).1 = 0 → norm (D.step s st).1 = s * norm newton))) := by
  intro D st newton
  refine ⟨?_, ?_, ?_⟩
  · intro h
    have hn : ¬((ls.rect J r).2 = .successful ∧ s < 1) := fun hh => h hh.1
    show (if (ls.rect J r).2 = .successful ∧ s < 1 then _ else _ : (ι → ℝ) × Result).2 = _
    rw [if_neg hn]
    rfl
  · intro h
    have hn : ¬((ls.rect J r).2 = .successful ∧ s < 1) := fun hh => absurd hh.2 (not_lt.2 h)
    show (fun i => -(if (ls.rect J r).2 = .successful ∧ s < 1 then _ else _ : (ι → ℝ) × Result).1 i,
      (if (ls.rect J r).2 = .successful ∧ s < 1 then _ else _ : (ι → ℝ) × Result).2) = _
    rw [if_neg hn]
    rfl
  · intro hs hok
    have hdamp : ∀ l, 0 < l → 1 / l > eps →
        IsDamped J r l fun i => -(dampedNewtonStep eps fmax lsD (1 / l) (.residualJac r J)).1 i := by
      intro l hl hle q
      have hpar : lmParam eps fmax (1 / l) = l := by
        unfold lmParam; rw [if_pos hle]; simp
      have := damped_minimiser J r (lmParam eps fmax (1 / l)) (lmParam_pos _ _ _ he hf).le _ (hlsD _ _) q
      rw [hpar] at this
      have e : (dampedNewtonStep eps fmax lsD (1 / l) (.residualJac r J)).1 =
        (lsD.rect (dampedOperator J l) (dampedVector r)).1 := by
        show (lsD.rect (dampedOperator J (lmParam eps fmax (1 / l))) (dampedVector r)).1 = _
        rw [hpar]
      rw [e]
      exact this
    have hstep : D.step s st = (fun i => -(dampedNewtonStep eps fmax lsD (1 / (findLambda fun l =>
        norm (dampedNewtonStep eps fmax lsD (1 / l) (.residualJac r J)).1 - norm newton * s).1) (.residualJac r J)).1 i,
        (dampedNewtonStep eps fmax lsD (1 / (findLambda fun l =>
        norm (dampedNewtonStep eps fmax lsD (1 / l) (.residualJac r J)).1 - norm newton * s).1) (.residualJac r J)).2) := by
      show (fun i => -(if (ls.rect J r).2 = .successful ∧ s < 1 then _ else _ : (ι → ℝ) × Result).1 i,
        (if (ls.rect J r).2 = .successful ∧ s < 1 then _ else _ : (ι → ℝ) × Result).2) = _
      rw [if_pos ⟨hok, hs⟩]
      rfl
    refine ⟨fun l => norm (dampedNewtonStep eps fmax lsD (1 / l) (.residualJac r J)).1 - norm newton * s, ?_, ?_⟩
    · intro l hl hle
      refine ⟨_, hdamp l hl hle, ?_⟩
      rw [hnorm]; ring
    · intro hl hle
      rw [hstep]
      refine ⟨hdamp _ hl hle, fun h0 => ?_⟩
      show norm (fun i => -_) = _
      rw [hnorm]
      linarith

omit [DecidableEq ι] in
/-- **C53.** The length of the damped step strictly decreases with `λ` (away from stationary points), so at most one `λ`
puts the step on the trust-region boundary. -/
theorem C53_length_strictly_decreasing (J : Matrix κ ι ℝ) (r : κ → ℝ) (l m : ℝ) (hl : 0 ≤ l) (hlm : l < m)
    (p q : ι → ℝ) (hp : IsDamped J r l p) (hq : IsDamped J r m q) (hg : ∃ i, ∑ k, J k i * r k ≠ 0) :
    twoNorm q < twoNorm p := by
  have hne : ∃ i, q i ≠ 0 := by
    by_contra hc
    push Not at hc
    obtain ⟨i, hi⟩ := hg
    have := regularised_stationary J r m (by linarith) q hq i
    have hq0 : q = fun _ => 0 := funext hc
    have hz : J.mulVec (fun _ => (0:ℝ)) = 0 := Matrix.mulVec_zero J
    rw [hq0, hz] at this
    simp at this
    exact hi this
  have h := regularised_strict J r l m hl hlm p q hp hq hne
  have hss : ∀ x : ι → ℝ, sumSquares x = ∑ i, x i ^ 2 := by
    intro x; unfold sumSquares; exact Finset.sum_congr rfl fun m _ => by ring
  unfold twoNorm
  rw [hss, hss]
  exact Real.sqrt_lt_sqrt (Finset.sum_nonneg fun _ _ => sq_nonneg _) h

/-- **C41** for `IndirectLevenbergMarquardt`, with any inner root find whatsoever. -/
theorem C41_indirect (he : 0 ≤ eps) (hf : 0 < fmax) (hls : SolvesLeastSquares ls) (hlsD : SolvesLeastSquares lsD)
    (rtol atol : ℝ) (nY : (ι → ℝ) → ℝ) (nF : (κ → ℝ) → ℝ)
    (jac : (ι → ℝ) → Matrix κ ι ℝ) (aux0 : A) (fn : (ι → ℝ) → (κ → ℝ) × A) (y0 : ι → ℝ) :
    let S := GaussNewton.solver (GaussNewton.indirectLevenbergMarquardt eps fmax rtol atol nY nF ls lsD findLambda jac)
      aux0
    (∀ st0, S.init fn y0 = .ok st0 → ∀ j k, j ≤ k →
      ∑ m, (fn (iterateAt S fn aux0 y0 st0 k)).1 m ^ 2 ≤ ∑ m, (fn (iterateAt S fn aux0 y0 st0 j)).1 m ^ 2) ∧
    ∀ af ms throw sol, iterativeSolve S af fn aux0 y0 ms throw = some (.ok sol) →
      ∑ m, (fn sol.value).1 m ^ 2 ≤ ∑ m, (fn y0).1 m ^ 2 := by
  refine C41_monotone TrustRegion.defaults (by norm_num [TrustRegion.defaults]) (by norm_num [TrustRegion.defaults])
    (by norm_num [TrustRegion.defaults]) _
    (GaussNewton.indirectLevenbergMarquardt eps fmax rtol atol nY nF ls lsD findLambda jac) rfl ?_ aux0 fn y0
  intro y' d' t r J _
  have hz : J.mulVec (fun _ => (0:ℝ)) = 0 := Matrix.mulVec_zero J
  by_cases hc : (ls.rect J r).2 = .successful ∧ t < 1
  · have e : ∃ u, ((GaussNewton.indirectLevenbergMarquardt eps fmax rtol atol nY nF ls lsD findLambda jac).descent.step t
        ((GaussNewton.indirectLevenbergMarquardt eps fmax rtol atol nY nF ls lsD findLambda jac).descent.query y'
          (.residualJac r J) d')).1 = ((dampedNewtonDescent eps fmax lsD).step u (.residualJac r J)).1 := by
      refine ⟨1 / (findLambda fun l => twoNorm (dampedNewtonStep eps fmax lsD (1 / l) (.residualJac r J)).1 -
        twoNorm (ls.rect J r).1 * t).1, ?_⟩
      show (fun i => -(if (ls.rect J r).2 = .successful ∧ t < 1 then _ else _ : (ι → ℝ) × Result).1 i) = _
      rw [if_pos hc]
      rfl
    obtain ⟨u, e⟩ := e
    rw [e]
    obtain ⟨hl, _, _, h, _⟩ := C40_damped_step eps fmax u he hf lsD hlsD J r
    refine le_trans h (neg_nonpos.2 (mul_nonneg (by positivity) (Finset.sum_nonneg fun _ _ => sq_nonneg _)))
  · have e : ((GaussNewton.indirectLevenbergMarquardt eps fmax rtol atol nY nF ls lsD findLambda jac).descent.step t
        ((GaussNewton.indirectLevenbergMarquardt eps fmax rtol atol nY nF ls lsD findLambda jac).descent.query y'
          (.residualJac r J) d')).1 = fun i => -(ls.rect J r).1 i := by
      show (fun i => -(if (ls.rect J r).2 = .successful ∧ t < 1 then _ else _ : (ι → ℝ) × Result).1 i) = _
      rw [if_neg hc]
      rfl
    rw [e]
    have := hls J r fun _ => 0
    unfold linearisedChange
    simp only [hz, Pi.zero_apply, zero_sub, neg_sq] at this
    have e2 : ∑ k, (J.mulVec (fun i => -(ls.rect J r).1 i) k + r k) ^ 2 =
        ∑ k, (J.mulVec (ls.rect J r).1 k - r k) ^ 2 :=
      Finset.sum_congr rfl fun k _ => by rw [mulVec_neg']; ring
    rw [e2]
    linarith

end

/-- The assumptions of C40, C41 and C53 are met by some solver, for all shapes; and the objects are not trivial: with
`J = 1`, `r = 2` and step size `1` (so `λ = 1`) the damped step is `-1`, half the Newton step. -/
example : (∃ ls : LinSolve (Fin 2) (Fin 3 ⊕ Fin 2), SolvesLeastSquares ls) ∧
    IsDamped (ι := Unit) (κ := Unit) 1 (fun _ => 2) 1 fun _ => -1 := by
  refine ⟨exact_least_squares_exists, fun q => ?_⟩
  simp only [Matrix.one_mulVec, Finset.univ_unique, Finset.sum_singleton]
  nlinarith [sq_nonneg (q default + 1)]

end Verif.Props
