import Verif.Props.GradientDominated
import Verif.Props.Problems
import Verif.Spec.LipschitzJacobian
import Verif.Props.Search

/-!
Property C116: root finding with Levenberg-Marquardt from everywhere.
-/

namespace Verif.Props

open Verif Verif.Spec Verif.Driver Verif.SearchLoop Filter Topology

variable {ι κ A : Type} [Fintype ι] [Fintype κ]

/-- A weighted sum of the residuals has a Lipschitz gradient. -/
theorem LipschitzJacobian.weighted {r : (ι → ℝ) → κ → ℝ} {jac : (ι → ℝ) → Matrix κ ι ℝ} {K : ℝ} (h : LipschitzJacobian r jac K)
    (e : κ → ℝ) : LipschitzGradient (fun y => ∑ m, e m * r y m) (fun y i => ∑ m, jac y m i * e m) (K * euclid e) where
  deriv y p := by
    have h1 := HasDerivAt.fun_sum fun m (_ : m ∈ (Finset.univ : Finset κ)) => (h.deriv y p m).const_mul (e m)
    refine h1.congr_deriv ?_
    simp only [Finset.mul_sum, Finset.sum_mul]
    rw [Finset.sum_comm]
    exact Finset.sum_congr rfl fun i _ => Finset.sum_congr rfl fun m _ => by ring
  lipschitz y z := by
    have hB : 0 ≤ K ^ 2 * ∑ i, (y i - z i) ^ 2 := mul_nonneg (sq_nonneg _) (Finset.sum_nonneg fun i _ => sq_nonneg _)
    have h1 := transpose_bound (fun m i => jac y m i - jac z m i) _ hB (h.lipschitz y z) e
    have h2 : ∀ i, ∑ m, jac y m i * e m - ∑ m, jac z m i * e m = ∑ m, (jac y m i - jac z m i) * e m := by
      intro i
      rw [← Finset.sum_sub_distrib]
      exact Finset.sum_congr rfl fun m _ => by ring
    simp only [h2]
    rw [mul_pow, euclid_sq]
    linarith
  nonneg := mul_nonneg h.nonneg (euclid_nonneg _)

/-- Taylor's formula for the residuals. -/
theorem LipschitzJacobian.taylor {r : (ι → ℝ) → κ → ℝ} {jac : (ι → ℝ) → Matrix κ ι ℝ} {K : ℝ} (h : LipschitzJacobian r jac K)
    (y p : ι → ℝ) : euclid (fun m => r (fun i => y i + p i) m - r y m - ∑ i, jac y m i * p i) ≤ K / 2 * ∑ i, p i ^ 2 := by
  set e : κ → ℝ := fun m => r (fun i => y i + p i) m - r y m - ∑ i, jac y m i * p i with he
  have h1 := (weighted h e).bound y fun i => y i + p i
  simp only [add_sub_cancel_left] at h1
  have e1 : treeDot (fun i => ∑ m, jac y m i * e m) (fun i => p i) = ∑ m, e m * ∑ i, jac y m i * p i := by
    unfold treeDot
    simp only [Finset.mul_sum, Finset.sum_mul]
    rw [Finset.sum_comm]
    exact Finset.sum_congr rfl fun m _ => Finset.sum_congr rfl fun i _ => by ring
  have e2 : sumSquares (fun i => p i) = ∑ i, p i ^ 2 := Finset.sum_congr rfl fun i _ => by ring
  have e3 : euclid e ^ 2 = ∑ m, e m * r (fun i => y i + p i) m - ∑ m, e m * r y m - ∑ m, e m * ∑ i, jac y m i * p i := by
    rw [euclid_sq, ← Finset.sum_sub_distrib, ← Finset.sum_sub_distrib]
    refine Finset.sum_congr rfl fun m _ => ?_
    rw [← mul_sub, ← mul_sub, sq]
  rw [e1, e2] at h1
  have h2 : euclid e ^ 2 ≤ K * euclid e / 2 * ∑ i, p i ^ 2 := by linarith
  rcases (euclid_nonneg e).eq_or_lt with h0 | h0
  · rw [← h0]
    exact mul_nonneg (div_nonneg h.nonneg (by norm_num)) (Finset.sum_nonneg fun i _ => sq_nonneg _)
  · have : euclid e * euclid e ≤ euclid e * (K / 2 * ∑ i, p i ^ 2) := by nlinarith
    exact le_of_mul_le_mul_left this h0

/-- The Levenberg-Marquardt step for a Jacobian that maps onto the residuals: what is left of the linearised residuals, and how long
the step is. -/
theorem onto_facts [DecidableEq ι] (eps fmax t : ℝ) (he : 0 ≤ eps) (hf : 0 < fmax) (ls : LinSolve ι (κ ⊕ ι))
    (hls : SolvesLeastSquares ls) (J : Matrix κ ι ℝ) (r : κ → ℝ) (μ : ℝ) (hμ : 0 < μ)
    (honto : ∀ v : κ → ℝ, μ * ∑ m, v m ^ 2 ≤ ∑ i, (∑ m, J m i * v m) ^ 2) :
    let l := lmParam eps fmax t
    let p := ((dampedNewtonDescent eps fmax ls).step t (.residualJac r J)).1
    let D := -linearisedChange J r p
    let E := ∑ m, (r m + ∑ i, J m i * p i) ^ 2
    let Q := ∑ i, p i ^ 2
    0 < l ∧ 0 ≤ Q ∧ 0 ≤ D ∧ l * Q ≤ D ∧ μ * Q ≤ 2 * D ∧ μ * ∑ m, r m ^ 2 ≤ (2 * μ + l) * D ∧ E = ∑ m, r m ^ 2 - 2 * D := by
  intro l p D E Q
  obtain ⟨hl, hN, hQ, hgp, hlin, _⟩ := damped_facts eps fmax t he hf ls hls J r
  obtain ⟨_, _, hstat, _⟩ := C40_damped_step eps fmax t he hf ls hls J r
  set N := ∑ m, (∑ i, J m i * p i) ^ 2 with hNd
  have hD : D = N / 2 + l * Q := by
    show -linearisedChange J r p = _
    rw [show linearisedChange J r p = _ from hlin]; ring
  have hED : E = ∑ m, r m ^ 2 - 2 * D := by
    show E = ∑ m, r m ^ 2 - 2 * -((∑ k, ((∑ i, J k i * p i) + r k) ^ 2) / 2 - (∑ k, r k ^ 2) / 2)
    have : E = ∑ k, ((∑ i, J k i * p i) + r k) ^ 2 := Finset.sum_congr rfl fun m _ => by rw [add_comm]
    rw [this]; ring
  set u : κ → ℝ := fun m => r m + ∑ i, J m i * p i with hu
  have hJu : ∀ i, ∑ m, J m i * u m = -(l * p i) := by
    intro i
    have h1 : ∑ k, J k i * (∑ j, J k j * p j) + l * p i = -∑ k, J k i * r k := hstat i
    have h2 : ∑ m, J m i * u m = ∑ k, J k i * r k + ∑ k, J k i * (∑ j, J k j * p j) := by
      rw [← Finset.sum_add_distrib]
      exact Finset.sum_congr rfl fun m _ => by rw [hu]; ring
    rw [h2]; linarith
  have hE : μ * E ≤ l ^ 2 * Q := by
    have h1 := honto u
    simp only [hJu] at h1
    have h2 : ∑ i, (-(l * p i)) ^ 2 = l ^ 2 * Q := by
      rw [Finset.mul_sum]; exact Finset.sum_congr rfl fun i _ => by ring
    rw [h2] at h1
    exact h1
  have hcs : (l * Q) ^ 2 ≤ E * N := by
    have h1 := Finset.sum_mul_sq_le_sq_mul_sq Finset.univ u fun m => ∑ i, J m i * p i
    have h2 : ∑ m, u m * ∑ i, J m i * p i = -(l * Q) := by
      have : ∑ m, u m * ∑ i, J m i * p i = ∑ i, (∑ m, J m i * u m) * p i := by
        simp only [Finset.mul_sum, Finset.sum_mul]
        rw [Finset.sum_comm]
        exact Finset.sum_congr rfl fun i _ => Finset.sum_congr rfl fun m _ => by ring
      rw [this]
      simp only [hJu]
      rw [Finset.mul_sum, ← Finset.sum_neg_distrib]
      exact Finset.sum_congr rfl fun i _ => by ring
    rw [h2, neg_sq] at h1
    exact h1
  have hl' : 0 < l := hl
  have hQ' : 0 ≤ Q := hQ
  have hN' : 0 ≤ N := hN
  have hE0 : 0 ≤ E := Finset.sum_nonneg fun i _ => sq_nonneg _
  have hQN : μ * Q ≤ N := by
    rcases hQ'.eq_or_lt with h0 | h0
    · rw [← h0, mul_zero]; exact hN'
    · have h1 : μ * (l * Q) ^ 2 ≤ l ^ 2 * Q * N := by
        calc μ * (l * Q) ^ 2 ≤ μ * (E * N) := mul_le_mul_of_nonneg_left hcs hμ.le
          _ = μ * E * N := by ring
          _ ≤ _ := mul_le_mul_of_nonneg_right hE hN'
      have h2 : (l ^ 2 * Q) * (μ * Q) ≤ (l ^ 2 * Q) * N := by nlinarith
      exact le_of_mul_le_mul_left h2 (by positivity)
  have hlQ := mul_nonneg hl'.le hQ'
  refine ⟨hl', hQ', by rw [hD]; positivity, by rw [hD]; linarith, by rw [hD]; linarith, ?_, hED⟩
  have h1 : ∑ m, r m ^ 2 = E + 2 * D := by rw [hED]; ring
  have h2 : l * (l * Q) ≤ l * D := mul_le_mul_of_nonneg_left (by rw [hD]; linarith) hl'.le
  rw [h1]
  nlinarith

/-- Steps from radius at most `1 / (K R + 1)`, where `|r| ≤ R`, pass the test of the default search. -/
theorem onto_trial_taken [DecidableEq ι] (eps fmax : ℝ) (he : 0 ≤ eps) (hf : 0 < fmax) (ls : LinSolve ι (κ ⊕ ι))
    (hls : SolvesLeastSquares ls) (jac : (ι → ℝ) → Matrix κ ι ℝ) (f : (ι → ℝ) → κ → ℝ) (K μ R : ℝ)
    (hJ : LipschitzJacobian f jac K) (hO : UniformlyOnto jac μ) (hR0 : 0 ≤ R) (hfK : K * R ≤ fmax) (y : ι → ℝ)
    (hy : ∑ m, f y m ^ 2 ≤ R ^ 2) (s : ℝ) (hs0 : 0 < s) (hs : s ≤ 1 / (K * R + 1)) :
    (∑ m, f (fun i => y i + ((dampedNewtonDescent (κ := κ) eps fmax ls).step s (.residualJac (f y) (jac y))).1 i) m ^ 2) / 2 -
      (∑ m, f y m ^ 2) / 2 ≤
      1 / 100 * linearisedChange (jac y) (f y)
        ((dampedNewtonDescent (κ := κ) eps fmax ls).step s (.residualJac (f y) (jac y))).1 := by
  obtain ⟨hl, hQ, hD, hlQ, _, _, hE⟩ := onto_facts eps fmax s he hf ls hls (jac y) (f y) μ hO.pos (hO.onto y)
  have hKR : 0 ≤ K * R := mul_nonneg hJ.nonneg hR0
  have hlam : K * R ≤ lmParam eps fmax s := by
    refine lmParam_ge eps fmax s (K * R) hs0 ?_ hfK
    calc K * R * s ≤ K * R * (1 / (K * R + 1)) := mul_le_mul_of_nonneg_left hs hKR
      _ ≤ 1 := by rw [mul_one_div, div_le_one (by linarith)]; linarith
  set l := lmParam eps fmax s with hld
  set p := ((dampedNewtonDescent (κ := κ) eps fmax ls).step s (.residualJac (f y) (jac y))).1 with hp
  set Q := ∑ i, p i ^ 2 with hQd
  set D := -linearisedChange (jac y) (f y) p with hDd
  set u : κ → ℝ := fun m => f y m + ∑ i, jac y m i * p i with hu
  set e : κ → ℝ := fun m => f (fun i => y i + p i) m - f y m - ∑ i, jac y m i * p i with hed
  have hte : euclid e ≤ K / 2 * Q := LipschitzJacobian.taylor hJ y p
  have hsum : ∑ m, f (fun i => y i + p i) m ^ 2 = euclid u ^ 2 + 2 * ∑ m, u m * e m + euclid e ^ 2 := by
    rw [euclid_sq, euclid_sq, Finset.mul_sum, ← Finset.sum_add_distrib, ← Finset.sum_add_distrib]
    exact Finset.sum_congr rfl fun m _ => by rw [hu, hed]; ring
  have hE' : euclid u ^ 2 = ∑ m, f y m ^ 2 - 2 * D := by rw [euclid_sq]; exact hE
  have huR : euclid u ≤ R := by
    refine abs_le_of_sq_le_sq' ?_ hR0 |>.2
    rw [hE']; linarith
  have hdot : ∑ m, u m * e m ≤ R * (K / 2 * Q) :=
    (euclid_dot u e).trans (mul_le_mul huR hte (euclid_nonneg _) hR0)
  have he2 : euclid e ^ 2 ≤ (K / 2 * Q) ^ 2 := pow_le_pow_left₀ (euclid_nonneg _) hte 2
  have hlQ' : l * Q ≤ D := hlQ
  have hl' : 0 < l := hl
  have hQ' : 0 ≤ Q := hQ
  have hDR : 2 * D ≤ R ^ 2 := by nlinarith [sq_nonneg (euclid u)]
  have h1 : R * (K / 2 * Q) ≤ D / 2 := by
    have := mul_le_mul_of_nonneg_right hlam hQ'
    nlinarith
  have h2 : (K / 2 * Q) ^ 2 ≤ D / 8 := by
    -- multiply by `l`
    have h3 : l * (K / 2 * Q) ^ 2 ≤ l * (D / 8) := by
      have h4 : l * (K / 2 * Q) ^ 2 = K ^ 2 / 4 * Q * (l * Q) := by ring
      have h5 : K ^ 2 / 4 * Q * (l * Q) ≤ K ^ 2 / 4 * Q * (R ^ 2 / 2) :=
        mul_le_mul_of_nonneg_left (by linarith) (by positivity)
      have h6 : (K * R) ^ 2 ≤ l ^ 2 := pow_le_pow_left₀ hKR hlam 2
      have h7 : K ^ 2 / 4 * Q * (R ^ 2 / 2) ≤ l ^ 2 / 8 * Q := by
        have := mul_le_mul_of_nonneg_right h6 hQ'
        nlinarith
      have h8 : l ^ 2 / 8 * Q ≤ l * (D / 8) := by
        have := mul_le_mul_of_nonneg_left hlQ' hl'.le
        nlinarith
      linarith
    exact le_of_mul_le_mul_left h3 hl'
  rw [hsum, hE']
  have hlin : linearisedChange (jac y) (f y) p = -D := by rw [hDd, neg_neg]
  rw [hlin]
  have hD' : 0 ≤ D := hD
  linarith

section
variable [DecidableEq ι] (eps fmax rtol atol : ℝ) (he : 0 ≤ eps) (hf : 0 < fmax) (nY : (ι → ℝ) → ℝ) (nF : (κ → ℝ) → ℝ)
  (ls : LinSolve ι (κ ⊕ ι)) (hls : SolvesLeastSquares ls) (jac : (ι → ℝ) → Matrix κ ι ℝ) (aux0 : A)
  (fn : (ι → ℝ) → (κ → ℝ) × A) (y0 : ι → ℝ) (K μ R : ℝ) (hJ : LipschitzJacobian (fun y => (fn y).1) jac K)
  (hO : UniformlyOnto jac μ) (hR0 : 0 ≤ R) (hR : ∑ m, (fn y0).1 m ^ 2 ≤ R ^ 2) (hfK : K * R ≤ fmax)
  (heps : eps * (4 * (K * R + 1)) < 1)
include he hf hls hJ hO hR0 hR hfK heps

/-- Runs of Levenberg-Marquardt on such systems. -/
theorem lm_onto_run (st0 : GaussNewton.State ι κ A ℝ (FnInfo ι κ))
    (hi : (GaussNewton.solver (GaussNewton.levenbergMarquardt eps fmax rtol atol nY nF ls jac) aux0).init fn y0 = .ok st0) :
    let S := GaussNewton.solver (GaussNewton.levenbergMarquardt eps fmax rtol atol nY nF ls jac) aux0
    let Y := iterateAt S fn aux0 y0 st0
    let St := stateAt S fn aux0 y0 st0
    let L := 4 * (K * R + 1)
    let p := fun k => ((dampedNewtonDescent (κ := κ) eps fmax ls).step (St (k + 1)).searchState
      (.residualJac (fn (Y (k + 1))).1 (jac (Y (k + 1))))).1
    (∀ q : ℕ, (1 / 4 : ℝ) ^ q < 1 / L → ∀ N, ∃ a b : ℕ, a + b = N ∧ b ≤ a + q ∧
      ∑ m, (fn (Y (N + 1))).1 m ^ 2 ≤ (1 - μ / (50 * (2 * μ + L))) ^ a * ∑ m, (fn y0).1 m ^ 2) ∧
    (∃ x, (∀ m, (fn x).1 m = 0) ∧ Tendsto Y atTop (𝓝 x) ∧
      ∀ k, ∑ i, (Y k i - x i) ^ 2 ≤ 20000 * (2 * μ + L) / μ ^ 2 * ∑ m, (fn (Y k)).1 m ^ 2) ∧
    (∀ k, ∑ m, (fn (Y (k + 1))).1 m ^ 2 ≤ ∑ m, (fn (Y k)).1 m ^ 2) ∧
    ∀ δ, 0 < δ → ∃ k, (∑ m, (fn fun i => Y (k + 1) i + p k i).1 m ^ 2) / 2 - (∑ m, (fn (Y (k + 1))).1 m ^ 2) / 2 ≤
        1 / 100 * linearisedChange (jac (Y (k + 1))) (fn (Y (k + 1))).1 (p k) ∧ (∀ i, |p k i| ≤ δ) ∧
      (∀ m, |(fn fun i => Y (k + 1) i + p k i).1 m - (fn (Y (k + 1))).1 m| ≤ δ) ∧ ∀ m, |(fn (Y (k + 1))).1 m| ≤ δ := by
  intro S Y St L p
  have hμ := hO.pos
  have hK0 := hJ.nonneg
  have hKR : 0 ≤ K * R := mul_nonneg hK0 hR0
  have hL : 0 < L := by positivity
  set c : TrustRegion.Cfg ℝ := TrustRegion.defaults with hc
  have c1 : c.lowCutoff = 1 / 100 := by norm_num [hc, TrustRegion.defaults]
  have c2 : c.lowConstant = 1 / 4 := by norm_num [hc, TrustRegion.defaults]
  have c3 : c.highConstant = 7 / 2 := by norm_num [hc, TrustRegion.defaults]
  obtain ⟨T, hY1, ht1, _⟩ := gn_trust_run c (by rw [c2]; norm_num) (by rw [c3]; norm_num)
    (GaussNewton.levenbergMarquardt eps fmax rtol atol nY nF ls jac) rfl _ (damped_memoryless eps fmax ls) aux0 fn y0 st0 hi
  have hjac : (GaussNewton.levenbergMarquardt eps fmax rtol atol nY nF ls jac).jac = jac := rfl
  rw [hjac, c1, c2, c3] at T
  set step := fun t r J => ((dampedNewtonDescent (κ := κ) eps fmax ls).step t (.residualJac r J)).1 with hstep
  set F := fun y => (∑ m, (fn y).1 m ^ 2) / 2 with hFd
  set pred := fun y t => linearisedChange (jac y) (fn y).1 (step t (fn y).1 (jac y)) with hpd
  have T' : TrustRun F (fun y t => fun i => y i + step t (fn y).1 (jac y) i) pred (1 / 100) (1 / 4) (7 / 2)
    (fun k => Y (k + 1)) (fun k => (St (k + 1)).searchState) := T
  have facts := fun y t => onto_facts eps fmax t he hf ls hls (jac y) (fn y).1 μ hμ (hO.onto y)
  have hpred0 : ∀ y t, pred y t ≤ 0 := fun y t => by
    have : 0 ≤ -pred y t := (facts y t).2.2.1
    linarith
  have hmono : ∀ k, F (Y (k + 1 + 1)) ≤ F (Y (k + 1)) := by
    intro k
    rcases T'.rule k with ⟨a1, a2, _⟩ | ⟨_, b2, _⟩
    · have a2' : Y (k + 1 + 1) = _ := a2
      rw [a2']
      have := hpred0 (Y (k + 1)) (St (k + 1)).searchState
      linarith
    · have b2' : Y (k + 1 + 1) = Y (k + 1) := b2
      rw [b2']
  have hanti : Antitone fun k => F (Y (k + 1)) := antitone_nat_of_succ_le hmono
  have hFR : ∀ k, ∑ m, (fn (Y (k + 1))).1 m ^ 2 ≤ R ^ 2 := by
    intro k
    have h1 := hanti (Nat.zero_le k)
    have h2 : F (Y (k + 1)) ≤ F y0 := by rw [← hY1]; exact h1
    have h3 : (∑ m, (fn (Y (k + 1))).1 m ^ 2) / 2 ≤ (∑ m, (fn y0).1 m ^ 2) / 2 := h2
    linarith
  have hacc : ∀ k s, 0 < s → s ≤ 1 / (K * R + 1) →
      F (fun i => Y (k + 1) i + step s (fn (Y (k + 1))).1 (jac (Y (k + 1))) i) - F (Y (k + 1)) ≤ 1 / 100 * pred (Y (k + 1)) s :=
    fun k s h0 h1 => onto_trial_taken eps fmax he hf ls hls jac (fun y => (fn y).1) K μ R hJ hO hR0 hfK (Y (k + 1)) (hFR k) s h0 h1
  have ht0 : (St (0 + 1)).searchState = 1 := ht1
  have htm : min ((St (0 + 1)).searchState) (1 / 4 * (1 / (K * R + 1))) = 1 / L := by
    rw [ht0]
    have h1 : 1 / 4 * (1 / (K * R + 1)) = 1 / L := by
      show _ = 1 / (4 * (K * R + 1))
      rw [one_div_mul_one_div]
    rw [h1, min_eq_right]
    rw [div_le_one hL]
    show 1 ≤ 4 * (K * R + 1)
    linarith
  have hrad : ∀ k, 1 / L ≤ (St (k + 1)).searchState := fun k => by
    rw [← htm]
    exact T'.radius (by norm_num) (by norm_num) (1 / (K * R + 1)) hacc k
  have hlam : ∀ s, 1 / L ≤ s → lmParam eps fmax s ≤ L := by
    intro s hs
    have hpos : 0 < s := lt_of_lt_of_le (by positivity) hs
    have h1 : eps < s := by
      refine lt_of_lt_of_le ?_ hs
      rw [lt_div_iff₀ hL]; exact heps
    unfold lmParam
    rw [if_pos h1, div_le_iff₀ hpos]
    rw [div_le_iff₀ hL] at hs
    linarith
  have hD : ∀ y s, 1 / L ≤ s → μ * ∑ m, (fn y).1 m ^ 2 ≤ (2 * μ + L) * -pred y s := by
    intro y s hs
    obtain ⟨hl, hQ, hD0, _, _, h6, _⟩ := facts y s
    refine h6.trans ?_
    exact mul_le_mul_of_nonneg_right (by linarith [hlam s hs]) hD0
  set Λ := 2 * μ + L with hΛ
  have hΛ0 : 0 < Λ := by positivity
  -- the rate
  refine ⟨fun q hq N => ?_, ?_⟩
  · have h := trust_run_rate T' (by norm_num) (by norm_num) (by norm_num) (1 / L) hrad 0 (fun k => by
      show 0 ≤ (∑ m, (fn (Y (k + 1))).1 m ^ 2) / 2
      exact div_nonneg (Finset.sum_nonneg fun i _ => sq_nonneg _) (by norm_num)) (μ / (50 * Λ)) (fun k h => h.trans (by
        have h1 := hD (Y (k + 1)) _ (hrad k)
        show 1 / 100 * pred (Y (k + 1)) (St (k + 1)).searchState ≤ -(μ / (50 * Λ) * ((∑ m, (fn (Y (k + 1))).1 m ^ 2) / 2 - 0))
        have h2 : μ / (50 * Λ) * ((∑ m, (fn (Y (k + 1))).1 m ^ 2) / 2 - 0) = 1 / 100 * (μ * ∑ m, (fn (Y (k + 1))).1 m ^ 2) / Λ := by
          field_simp
          ring
        rw [h2, le_neg, div_le_iff₀ hΛ0]
        linarith)) 1 q (by norm_num) (by
        show (1 / 4 : ℝ) ^ q * (St (0 + 1)).searchState < 1 / L
        rw [ht0, mul_one]; exact hq) N
    obtain ⟨a, b, h1, h2, h3⟩ := h
    refine ⟨a, b, h1, by omega, ?_⟩
    have h3' : (∑ m, (fn (Y (N + 1))).1 m ^ 2) / 2 - 0 ≤ (1 - μ / (50 * Λ)) ^ a * ((∑ m, (fn (Y (0 + 1))).1 m ^ 2) / 2 - 0) := h3
    rw [zero_add, show Y 1 = y0 from hY1] at h3'
    linarith
  -- the residuals tend to zero, and trials are taken again and again
  obtain ⟨s1, _, s3⟩ := T'.settles (by norm_num) (by norm_num) (by norm_num) (by norm_num) (1 / (K * R + 1)) (by positivity) hacc 0
    (fun x => by
      show 0 ≤ (∑ m, (fn x).1 m ^ 2) / 2
      exact div_nonneg (Finset.sum_nonneg fun i _ => sq_nonneg _) (by norm_num)) (fun y => ∑ m, (fn y).1 m ^ 2)
    (fun y => Finset.sum_nonneg fun i _ => sq_nonneg _) (μ / Λ) (by positivity) (fun y s hs => by
      have hs' : 1 / L ≤ s := by rw [← htm]; exact hs
      have h1 := hD y s hs'
      rw [le_neg, div_mul_eq_mul_div, div_le_iff₀ hΛ0]
      linarith)
  have hres0 : ∀ k, 0 ≤ ∑ m, (fn (Y (k + 1))).1 m ^ 2 := fun k => Finset.sum_nonneg fun i _ => sq_nonneg _
  have hQ : ∀ y t, μ * ∑ i, step t (fn y).1 (jac y) i ^ 2 ≤ ∑ m, (fn y).1 m ^ 2 := by
    intro y t
    obtain ⟨_, _, _, _, h5, _, h7⟩ := facts y t
    have hE : (0:ℝ) ≤ ∑ m, ((fn y).1 m + ∑ i, jac y m i * step t (fn y).1 (jac y) i) ^ 2 :=
      Finset.sum_nonneg fun i _ => sq_nonneg _
    rw [show ∑ m, ((fn y).1 m + ∑ i, jac y m i * step t (fn y).1 (jac y) i) ^ 2 = _ from h7] at hE
    exact h5.trans (by linarith)
  refine ⟨?_, fun k => ?_, ?_⟩
  · set σ := μ / (100 * Real.sqrt Λ) with hσ
    have hsΛ : 0 < Real.sqrt Λ := Real.sqrt_pos.2 hΛ0
    have hσ0 : 0 < σ := by positivity
    obtain ⟨x, hx, hdist⟩ := path_converges (fun k => Y (k + 1)) (fun k => F (Y (k + 1))) σ hσ0 (fun k => by
        show 0 ≤ (∑ m, (fn (Y (k + 1))).1 m ^ 2) / 2
        linarith [hres0 k]) (fun k => by
        rcases T'.rule k with ⟨a1, a2, _⟩ | ⟨_, b2, _⟩
        · have a2' : Y (k + 1 + 1) = fun i => Y (k + 1) i + step (St (k + 1)).searchState (fn (Y (k + 1))).1 (jac (Y (k + 1))) i := a2
          have a1' : F (fun i => Y (k + 1) i + step (St (k + 1)).searchState (fn (Y (k + 1))).1 (jac (Y (k + 1))) i) - F (Y (k + 1)) ≤
            1 / 100 * pred (Y (k + 1)) (St (k + 1)).searchState := a1
          obtain ⟨_, hQ0, hD0, _, h5, _, _⟩ := facts (Y (k + 1)) (St (k + 1)).searchState
          have h6 := hD (Y (k + 1)) _ (hrad k)
          set D := -pred (Y (k + 1)) (St (k + 1)).searchState with hDd
          set P := step (St (k + 1)).searchState (fn (Y (k + 1))).1 (jac (Y (k + 1))) with hP
          have e1 : (fun i => Y (k + 1 + 1) i - Y (k + 1) i) = P := by rw [a2']; funext i; ring
          show σ * Real.sqrt (F (Y (k + 1))) * euclid (fun i => Y (k + 1 + 1) i - Y (k + 1) i) ≤ F (Y (k + 1)) - F (Y (k + 1 + 1))
          rw [e1, a2']
          have hD0' : 0 ≤ D := hD0
          refine le_trans ?_ (show 1 / 100 * D ≤ _ by rw [hDd]; linarith)
          have hFk : 0 ≤ F (Y (k + 1)) := by
            show 0 ≤ (∑ m, (fn (Y (k + 1))).1 m ^ 2) / 2
            linarith [hres0 k]
          refine abs_le_of_sq_le_sq' ?_ (by positivity) |>.2
          rw [mul_pow, mul_pow, mul_pow, Real.sq_sqrt hFk, euclid_sq, hσ, div_pow, mul_pow, Real.sq_sqrt hΛ0.le]
          have h7 : (μ * ∑ m, (fn (Y (k + 1))).1 m ^ 2) * (μ * ∑ i, P i ^ 2) ≤ (Λ * D) * (2 * D) :=
            mul_le_mul h6 h5 (mul_nonneg hμ.le hQ0) (mul_nonneg hΛ0.le hD0')
          show μ ^ 2 / (100 ^ 2 * Λ) * ((∑ m, (fn (Y (k + 1))).1 m ^ 2) / 2) * ∑ i, P i ^ 2 ≤ (1 / 100) ^ 2 * D ^ 2
          rw [div_mul_eq_mul_div, div_mul_eq_mul_div, div_le_iff₀ (by positivity)]
          nlinarith
        · have b2' : Y (k + 1 + 1) = Y (k + 1) := b2
          show σ * Real.sqrt (F (Y (k + 1))) * euclid (fun i => Y (k + 1 + 1) i - Y (k + 1) i) ≤ F (Y (k + 1)) - F (Y (k + 1 + 1))
          rw [b2']; simp [euclid]) (fun k hk => by
        rcases T'.rule k with ⟨_, a2, _⟩ | ⟨_, b2, _⟩
        · have a2' : Y (k + 1 + 1) = fun i => Y (k + 1) i + step (St (k + 1)).searchState (fn (Y (k + 1))).1 (jac (Y (k + 1))) i := a2
          have hk' : (∑ m, (fn (Y (k + 1))).1 m ^ 2) / 2 = 0 := hk
          have h1 := hQ (Y (k + 1)) (St (k + 1)).searchState
          have h2 : ∑ i, step (St (k + 1)).searchState (fn (Y (k + 1))).1 (jac (Y (k + 1))) i ^ 2 = 0 := by
            refine le_antisymm ?_ (Finset.sum_nonneg fun i _ => sq_nonneg _)
            by_contra hlt
            push Not at hlt
            have := mul_pos hμ hlt
            linarith
          show Y (k + 1 + 1) = Y (k + 1)
          rw [a2']
          funext i
          have := (Finset.sum_eq_zero_iff_of_nonneg fun i _ => sq_nonneg _).1 h2 i (Finset.mem_univ i)
          rw [pow_eq_zero_iff (by norm_num)] at this
          rw [this, add_zero]
        · exact b2) (by
        have := s1.div_const 2
        rw [zero_div] at this
        exact this)
    have hsq : ∀ k, ∑ i, (Y (k + 1) i - x i) ^ 2 ≤ 20000 * Λ / μ ^ 2 * ∑ m, (fn (Y (k + 1))).1 m ^ 2 := by
      intro k
      have h1 := hdist k
      have h0 : 0 ≤ σ * euclid (fun i => Y (k + 1) i - x i) := mul_nonneg hσ0.le (euclid_nonneg _)
      have h2 := pow_le_pow_left₀ h0 h1 2
      have hFk : 0 ≤ F (Y (k + 1)) := by
        show 0 ≤ (∑ m, (fn (Y (k + 1))).1 m ^ 2) / 2
        linarith [hres0 k]
      rw [mul_pow, mul_pow, Real.sq_sqrt hFk, euclid_sq, hσ, div_pow, mul_pow, Real.sq_sqrt hΛ0.le, div_mul_eq_mul_div,
        div_le_iff₀ (by positivity)] at h2
      have h2' : μ ^ 2 * ∑ i, (Y (k + 1) i - x i) ^ 2 ≤ 2 ^ 2 * ((∑ m, (fn (Y (k + 1))).1 m ^ 2) / 2) * (100 ^ 2 * Λ) := h2
      rw [div_mul_eq_mul_div, le_div_iff₀ (by positivity)]
      linarith
    have hxY : Tendsto Y atTop (𝓝 x) := (tendsto_add_atTop_iff_nat 1).1 hx
    refine ⟨x, fun m => ?_, hxY, fun k => ?_⟩
    · -- the residuals are continuous at the limit
      have hdz : Tendsto (fun k => ∑ i, (Y k i - x i) ^ 2) atTop (𝓝 0) := by
        have h1 : Tendsto (fun k => ∑ i, (Y k i - x i) ^ 2) atTop (𝓝 (∑ i, (x i - x i) ^ 2)) :=
          tendsto_finsetSum _ fun i _ => (((continuous_apply i).continuousAt.tendsto.comp hxY).sub tendsto_const_nhds).pow 2
        simpa using h1
      have hlin : Tendsto (fun k => ∑ i, jac x m i * (Y k i - x i)) atTop (𝓝 0) := by
        have h1 : Tendsto (fun k => ∑ i, jac x m i * (Y k i - x i)) atTop (𝓝 (∑ i, jac x m i * (x i - x i))) :=
          tendsto_finsetSum _ fun i _ => (((continuous_apply i).continuousAt.tendsto.comp hxY).sub tendsto_const_nhds).const_mul _
        simpa using h1
      have hrz : Tendsto (fun k => |(fn (Y k)).1 m|) atTop (𝓝 0) := by
        refine (tendsto_add_atTop_iff_nat 1).1 ?_
        have h1 : Tendsto (fun k => Real.sqrt (∑ m, (fn (Y (k + 1))).1 m ^ 2)) atTop (𝓝 0) := by
          have := (Real.continuous_sqrt.tendsto 0).comp s1
          rw [Real.sqrt_zero] at this
          exact this
        exact squeeze_zero (fun k => abs_nonneg _) (fun k => abs_le_euclid (fn (Y (k + 1))).1 m) h1
      have hb : ∀ k, |(fn x).1 m| ≤ |(fn (Y k)).1 m| + |∑ i, jac x m i * (Y k i - x i)| + K / 2 * ∑ i, (Y k i - x i) ^ 2 := by
        intro k
        have h1 := LipschitzJacobian.taylor hJ x fun i => Y k i - x i
        have h2 := (abs_le_euclid (fun m => (fn fun i => x i + (Y k i - x i)).1 m - (fn x).1 m - ∑ i, jac x m i * (Y k i - x i)) m).trans h1
        have e : (fun i => x i + (Y k i - x i)) = Y k := by funext i; ring
        rw [e] at h2
        have h3 : (fn x).1 m = (fn (Y k)).1 m - (∑ i, jac x m i * (Y k i - x i)) -
          ((fn (Y k)).1 m - (fn x).1 m - ∑ i, jac x m i * (Y k i - x i)) := by ring
        rw [h3]
        refine (abs_sub _ _).trans ?_
        exact add_le_add (abs_sub _ _) h2
      have hlim := (hrz.add hlin.abs).add (hdz.const_mul (K / 2))
      rw [abs_zero, mul_zero, add_zero, add_zero] at hlim
      exact abs_nonpos_iff.1 (ge_of_tendsto' hlim hb)
    · obtain _ | k := k
      · have e : Y 0 = Y 1 := by rw [show Y 1 = y0 from hY1]; rfl
        rw [e]; exact hsq 0
      · exact hsq k
  · obtain _ | k := k
    · rw [zero_add, show Y 1 = y0 from hY1]; exact le_of_eq rfl
    · have h1 : (∑ m, (fn (Y (k + 1 + 1))).1 m ^ 2) / 2 ≤ (∑ m, (fn (Y (k + 1))).1 m ^ 2) / 2 := hmono k
      linarith
  · intro δ hδ
    have hε : 0 < min (μ * δ ^ 2) ((δ / 2) ^ 2) := lt_min (by positivity) (by positivity)
    obtain ⟨K', hK'⟩ := eventually_atTop.1 (s1.eventually (gt_mem_nhds hε))
    obtain ⟨k, hk, h1, h2⟩ := s3 K'
    have hsmall : ∑ m, (fn (Y (k + 1))).1 m ^ 2 < min (μ * δ ^ 2) ((δ / 2) ^ 2) := hK' k hk
    have hs1 := hsmall.trans_le (min_le_left _ _)
    have hs2 := hsmall.trans_le (min_le_right _ _)
    have hent : ∀ (v : κ → ℝ), ∑ m, v m ^ 2 ≤ (δ / 2) ^ 2 → ∀ m, |v m| ≤ δ / 2 := by
      intro v hv m
      refine (abs_le_euclid v m).trans ?_
      unfold euclid
      exact (Real.sqrt_le_sqrt hv).trans (le_of_eq (Real.sqrt_sq (by positivity)))
    have h0 : ∀ m, |(fn (Y (k + 1))).1 m| ≤ δ / 2 := hent _ hs2.le
    have h1' : (∑ m, (fn fun i => Y (k + 1) i + p k i).1 m ^ 2) / 2 - (∑ m, (fn (Y (k + 1))).1 m ^ 2) / 2 ≤
        1 / 100 * linearisedChange (jac (Y (k + 1))) (fn (Y (k + 1))).1 (p k) := h1
    have hdec := hpred0 (Y (k + 1)) (St (k + 1)).searchState
    have h3 : ∀ m, |(fn fun i => Y (k + 1) i + p k i).1 m| ≤ δ / 2 := by
      refine hent _ ?_
      have : 1 / 100 * linearisedChange (jac (Y (k + 1))) (fn (Y (k + 1))).1 (p k) ≤ 0 :=
        mul_nonpos_of_nonneg_of_nonpos (by norm_num) hdec
      linarith
    refine ⟨k, h1', fun i => ?_, fun m => ?_, fun m => (h0 m).trans (by linarith)⟩
    · have h4 := hQ (Y (k + 1)) (St (k + 1)).searchState
      have h5 : ∑ i, p k i ^ 2 ≤ δ ^ 2 := by
        have : μ * ∑ i, p k i ^ 2 ≤ μ * δ ^ 2 := h4.trans hs1.le
        exact le_of_mul_le_mul_left this hμ
      refine (abs_le_euclid (p k) i).trans ?_
      unfold euclid
      exact (Real.sqrt_le_sqrt h5).trans (le_of_eq (Real.sqrt_sq hδ.le))
    · exact (abs_sub _ _).trans (by linarith [h0 m, h3 m])

/-- **C116**, the run: the residuals shrink by a fixed factor with every accepted trial, at most `a + q` trials are rejected while `a`
are accepted, and the iterates converge to a root (which therefore exists); the distance still to go is at all times bounded by a
multiple of the residuals. -/
theorem C116_run (q : ℕ) (hq : (1 / 4 : ℝ) ^ q < 1 / (4 * (K * R + 1))) :
    let S := GaussNewton.solver (GaussNewton.levenbergMarquardt eps fmax rtol atol nY nF ls jac) aux0
    let L := 4 * (K * R + 1)
    ∃ st0, S.init fn y0 = .ok st0 ∧
      let Y := iterateAt S fn aux0 y0 st0
      (∀ N, ∃ a b : ℕ, a + b = N ∧ b ≤ a + q ∧
        ∑ m, (fn (Y (N + 1))).1 m ^ 2 ≤ (1 - μ / (50 * (2 * μ + L))) ^ a * ∑ m, (fn y0).1 m ^ 2) ∧
      ∃ x, (∀ m, (fn x).1 m = 0) ∧ Tendsto Y atTop (𝓝 x) ∧
        ∀ k, ∑ i, (Y k i - x i) ^ 2 ≤ 20000 * (2 * μ + L) / μ ^ 2 * ∑ m, (fn (Y k)).1 m ^ 2 := by
  intro S L
  obtain ⟨st0, hi⟩ : ∃ st0, S.init fn y0 = .ok st0 := ⟨_, rfl⟩
  obtain ⟨h1, h2, _⟩ := lm_onto_run eps fmax rtol atol he hf nY nF ls hls jac aux0 fn y0 K μ R hJ hO hR0 hR hfK heps st0 hi
  exact ⟨st0, hi, h1 q hq, h2⟩

/-- **C116**, `root_find` with `LevenbergMarquardt`: from every starting point the solve stops by itself and reports success, with
every sufficiently large budget and with none. -/
theorem C116_root_find (hok : ∀ M v, (ls.rect M v).2 = .successful) (hat : 0 < atol) (hrt : 0 ≤ rtol) (hY : GoodNorm nY)
    (hF : GoodNorm nF) (fInf : κ → ℝ) (auxF : (κ → ℝ) × A) :
    ∃ N, ∀ ms throw, (∀ n, ms = some n → N ≤ n) →
      ∃ sol, rootFindViaLeastSquares (GaussNewton.solver (GaussNewton.levenbergMarquardt eps fmax rtol atol nY nF ls jac) auxF)
          nF atol fInf (fun _ => true) fn auxF y0 ms throw = some (.ok sol) ∧
        sol.result = .successful ∧ sol.numSteps ≤ N := by
  set S := GaussNewton.solver (GaussNewton.levenbergMarquardt eps fmax rtol atol nY nF ls jac) auxF with hS
  obtain ⟨st0, hi⟩ : ∃ st0, S.init (toLstsqFn fn) y0 = .ok st0 := ⟨_, rfl⟩
  obtain ⟨_, _, _, hsmall⟩ := lm_onto_run eps fmax rtol atol he hf nY nF ls hls jac auxF (toLstsqFn fn) y0 K μ R hJ hO hR0 hR hfK heps st0 hi
  obtain ⟨δ, hδ, hδY, hδF⟩ := small_enough hY hF atol hat
  obtain ⟨k, h1, h2, h3, h4⟩ := hsmall δ hδ
  have c1 : (TrustRegion.defaults : TrustRegion.Cfg ℝ).lowCutoff = 1 / 100 := by norm_num [TrustRegion.defaults]
  obtain ⟨f1, f2⟩ := gn_trust_flag (TrustRegion.defaults : TrustRegion.Cfg ℝ) (by norm_num [TrustRegion.defaults])
    (by norm_num [TrustRegion.defaults]) (GaussNewton.levenbergMarquardt eps fmax rtol atol nY nF ls jac) rfl _
    (damped_memoryless eps fmax ls) hat hrt hY hF auxF (toLstsqFn fn) y0 st0 hi (fun j => hok _ _) δ hδY hδF k
    ⟨by rw [c1]; exact h1, h2, h3⟩
  have htrace := toRoot_trace S nF atol fInf (toLstsqFn fn) auxF y0 st0
  have hiR : (toRoot nF atol fInf S).init (toLstsqFn fn) y0 = .ok (st0, fInf) := by
    simp only [toRoot, hi]
  refine ⟨k + 2, fun ms throw hb => ?_⟩
  obtain ⟨sol, s1, s2, s3, _⟩ := solve_succeeds_by (toRoot nF atol fInf S) (fun _ => true) (toLstsqFn fn) auxF y0 (st0, fInf) hiR ms
    throw (k + 2) (fun _ _ => rfl) (fun j _ => by
      rw [toRoot_terminate]
      dsimp only
      rw [(htrace j).2.1]
      exact f1 j) (by
      rw [toRoot_terminate]
      dsimp only
      rw [(htrace (k + 2)).2.1, (htrace (k + 2)).2.2, if_neg (by omega)]
      rw [Bool.and_eq_true]
      refine ⟨f2, decide_eq_true ?_⟩
      -- what is reported is the value at the point before
      have haux : (auxAt S (toLstsqFn fn) auxF y0 st0 (k + 2)).1 = (fn (iterateAt S (toLstsqFn fn) auxF y0 st0 (k + 1))).1 :=
        congrArg Prod.fst (C30_aux_gauss_newton_family _ (fun y z i j s => by simp [GaussNewton.levenbergMarquardt, TrustRegion.classical, tr_first]) auxF (toLstsqFn fn) y0 st0 hi (k + 1))
      rw [haux]
      have h5 := hF.mono (fn (iterateAt S (toLstsqFn fn) auxF y0 st0 (k + 1))).1 (fun _ => δ * 1) (fun m => by
        rw [mul_one, abs_of_pos hδ]; exact h4 m)
      have h6 := hF.smul δ (fun _ => 1)
      rw [abs_of_pos hδ] at h6
      exact (h5.trans_eq h6).trans_lt hδF) hb
  refine ⟨sol.dropF, ?_, s2, s3⟩
  rw [rootFindViaLeastSquares, s1]; rfl

/-- **C116**, accuracy: whenever such a solve reports success, a true root lies within a multiple of `atol` of the value returned. -/
theorem C116_accuracy (fInf : κ → ℝ) (auxF : (κ → ℝ) × A) (hinf : ¬ nF fInf < atol) (hN : ∀ (v : κ → ℝ) m, |v m| ≤ nF v)
    (af : (ι → ℝ) → Bool) (ms : Option ℕ) (throw : Bool)
    (sol : Solution (ι → ℝ) A (GaussNewton.State ι κ ((κ → ℝ) × A) ℝ (FnInfo ι κ) × (κ → ℝ)) Unit)
    (h : rootFindViaLeastSquares (GaussNewton.solver (GaussNewton.levenbergMarquardt eps fmax rtol atol nY nF ls jac) auxF)
      nF atol fInf af fn auxF y0 ms throw = some (.ok sol)) (hs : sol.result = .successful) :
    ∃ x, (∀ m, (fn x).1 m = 0) ∧
      ∑ i, (sol.value i - x i) ^ 2 ≤ 20000 * (2 * μ + 4 * (K * R + 1)) / μ ^ 2 * (Fintype.card κ * atol ^ 2) := by
  set S := GaussNewton.solver (GaussNewton.levenbergMarquardt eps fmax rtol atol nY nF ls jac) auxF with hS
  obtain ⟨st0, n, hi, hn, _, hnorm⟩ := C10_root_via_least_squares_certificate S nF atol fInf hinf af fn auxF y0 ms throw sol h hs
    (fun st0 hi => C30_aux_gauss_newton_family _ (fun y z i j s => by simp [GaussNewton.levenbergMarquardt, TrustRegion.classical, tr_first]) auxF (toLstsqFn fn) y0 st0 hi)
  obtain ⟨_, ⟨x, hx, _, hdist⟩, hmono, _⟩ := lm_onto_run eps fmax rtol atol he hf nY nF ls hls jac auxF (toLstsqFn fn) y0 K μ R hJ hO hR0
    hR hfK heps st0 hi
  have hv : sol.value = iterateAt S (toLstsqFn fn) auxF y0 st0 (n + 1) := by
    simp only [rootFindViaLeastSquares, Option.map_eq_some_iff] at h
    obtain ⟨r, hr, hr2⟩ := h
    cases r with
    | error e => cases hr2
    | ok sol' =>
      cases hr2
      obtain ⟨_, _, st1, hi1, _, hp⟩ := C01_step_budget _ _ _ _ _ _ _ _ hr
      have hi2 : (toRoot nF atol fInf S).init (toLstsqFn fn) y0 = .ok (st0, fInf) := by simp only [toRoot, hi]
      rw [hi2] at hi1
      cases hi1
      have h1 : sol'.value = iterateAt (toRoot nF atol fInf S) (toLstsqFn fn) auxF y0 (st0, fInf) sol'.numSteps := congrArg Prod.fst hp
      show sol'.value = _
      rw [h1, show sol'.numSteps = n + 1 from hn, (toRoot_trace S nF atol fInf (toLstsqFn fn) auxF y0 st0 (n + 1)).1]
  refine ⟨x, hx, ?_⟩
  rw [hv]
  have hμ := hO.pos
  have hKR : 0 ≤ K * R := mul_nonneg hJ.nonneg hR0
  refine (hdist (n + 1)).trans (mul_le_mul_of_nonneg_left ?_ (by positivity))
  refine (hmono n).trans ?_
  calc ∑ m, ((toLstsqFn fn) (iterateAt S (toLstsqFn fn) auxF y0 st0 n)).1 m ^ 2 ≤ ∑ _m : κ, atol ^ 2 := by
        refine Finset.sum_le_sum fun m _ => ?_
        rw [← sq_abs]
        exact pow_le_pow_left₀ (abs_nonneg _) ((hN _ m).trans hnorm.le) 2
    _ = Fintype.card κ * atol ^ 2 := by rw [Finset.sum_const, Finset.card_univ, nsmul_eq_mul]

end

/-! ## The hypotheses are met -/

/-- `x + z + sin(x)/2`: one equation in two unknowns. -/
noncomputable def slanted (y : Fin 2 → ℝ) : Unit → ℝ := fun _ => y 0 + y 1 + Real.sin (y 0) / 2
/-- Its Jacobian. -/
noncomputable def slantedJac (y : Fin 2 → ℝ) : Matrix Unit (Fin 2) ℝ := Matrix.of fun _ i => if i = 0 then 1 + Real.cos (y 0) / 2 else 1

theorem cos_lipschitz (a b : ℝ) : (Real.cos a - Real.cos b) ^ 2 ≤ (a - b) ^ 2 := by
  have h := Real.abs_cos_sub_cos_le a b
  rw [← sq_abs, ← sq_abs (a - b)]
  exact pow_le_pow_left₀ (abs_nonneg _) h 2

theorem slanted_lipschitz : LipschitzJacobian slanted slantedJac (1 / 2) where
  deriv y p m := by
    have h : ∀ j, HasDerivAt (fun t : ℝ => y j + t * p j) (p j) 0 := fun j => by
      simpa using ((hasDerivAt_id (0:ℝ)).mul_const (p j)).const_add (y j)
    have h2 := (((h 0).add (h 1)).add ((h 0).sin.div_const 2))
    refine h2.congr_deriv ?_
    simp [Fin.sum_univ_two, slantedJac]
    ring
  lipschitz y z p := by
    simp only [Finset.univ_unique, Finset.sum_singleton, Fin.sum_univ_two, slantedJac, Matrix.of_apply, if_true,
      if_neg (show ¬ (1 : Fin 2) = 0 by decide)]
    have h := cos_lipschitz (y 0) (z 0)
    have h1 : ((1 + Real.cos (y 0) / 2 - (1 + Real.cos (z 0) / 2)) * p 0 + (1 - 1) * p 1) ^ 2 =
      (Real.cos (y 0) - Real.cos (z 0)) ^ 2 * p 0 ^ 2 / 4 := by ring
    rw [h1]
    have h2 : (Real.cos (y 0) - Real.cos (z 0)) ^ 2 * p 0 ^ 2 ≤ (y 0 - z 0) ^ 2 * p 0 ^ 2 :=
      mul_le_mul_of_nonneg_right h (sq_nonneg _)
    have h3 : (y 0 - z 0) ^ 2 * p 0 ^ 2 ≤ ((y 0 - z 0) ^ 2 + (y 1 - z 1) ^ 2) * (p 0 ^ 2 + p 1 ^ 2) :=
      mul_le_mul (by linarith [sq_nonneg (y 1 - z 1)]) (by linarith [sq_nonneg (p 1)]) (sq_nonneg _) (by positivity)
    linarith
  nonneg := by norm_num

theorem slanted_onto : UniformlyOnto slantedJac 1 where
  pos := one_pos
  onto y v := by
    simp only [Finset.univ_unique, Finset.sum_singleton, Fin.sum_univ_two, slantedJac, Matrix.of_apply, if_true,
      if_neg (show ¬ (1 : Fin 2) = 0 by decide)]
    nlinarith [sq_nonneg ((1 + Real.cos (y 0) / 2) * v default)]

/-- One equation in two unknowns is solved from everywhere, and to within a multiple of the tolerance. -/
example (y0 : Fin 2 → ℝ) : ∃ (ls : LinSolve (Fin 2) (Unit ⊕ Fin 2)) (fmax : ℝ)
    (sol : Solution (Fin 2 → ℝ) Unit (GaussNewton.State (Fin 2) Unit ((Unit → ℝ) × Unit) ℝ (FnInfo (Fin 2) Unit) × (Unit → ℝ)) Unit),
    rootFindViaLeastSquares (GaussNewton.solver (GaussNewton.levenbergMarquardt 0 fmax (1/10) (1/10) maxNorm maxNorm ls slantedJac)
      (fun _ => 0, ())) maxNorm (1/10) (fun _ => 1) (fun _ => true) (fun y => (slanted y, ())) (fun _ => 0, ()) y0 none true =
      some (.ok sol) ∧ sol.result = .successful ∧ ∃ x : Fin 2 → ℝ, x 0 + x 1 + Real.sin (x 0) / 2 = 0 ∧
      ∑ i, (sol.value i - x i) ^ 2 ≤ 20000 * (2 * 1 + 4 * (1/2 * |slanted y0 ()| + 1)) / 1 ^ 2 * (Fintype.card Unit * (1/10) ^ 2) := by
  classical
  set R := |slanted y0 ()| with hRd
  have hR0 : 0 ≤ R := abs_nonneg _
  have hR : ∑ m, slanted y0 m ^ 2 ≤ R ^ 2 := by simp [hRd]
  set ls : LinSolve (Fin 2) (Unit ⊕ Fin 2) :=
    ⟨fun M v => (Classical.choose (least_squares_exists M v), .successful), fun _ g => (g, .successful)⟩ with hlsd
  have hls : SolvesLeastSquares ls := fun M v => Classical.choose_spec (least_squares_exists M v)
  have h1 := C116_root_find 0 (R + 1) (1/10) (1/10) le_rfl (by linarith) (maxNorm (ι := Fin 2)) (maxNorm (ι := Unit)) ls hls slantedJac
    (fun y => (slanted y, ())) y0 (1/2) 1 R slanted_lipschitz slanted_onto hR0 hR (by linarith) (by linarith)
    (fun _ _ => rfl) (by norm_num) (by norm_num) goodNorm_maxNorm goodNorm_maxNorm (fun _ => 1) (fun _ => 0, ())
  obtain ⟨N, hN⟩ := h1
  obtain ⟨sol, s1, s2, _⟩ := hN none true (by simp)
  obtain ⟨x, hx, hd⟩ := C116_accuracy 0 (R + 1) (1/10) (1/10) le_rfl (by linarith) (maxNorm (ι := Fin 2)) (maxNorm (ι := Unit)) ls hls
    slantedJac (fun y => (slanted y, ())) y0 (1/2) 1 R slanted_lipschitz slanted_onto hR0 hR (by linarith) (by linarith)
    (fun _ => 1) (fun _ => 0, ()) (by
      have := abs_le_maxNorm (ι := Unit) (fun _ => 1) ()
      rw [abs_one] at this
      linarith) abs_le_maxNorm _ _ _ sol s1 s2
  exact ⟨ls, R + 1, sol, s1, s2, x, hx (), hd⟩

/-- And the run converges to a root. -/
example (y0 : Fin 2 → ℝ) (ls : LinSolve (Fin 2) (Unit ⊕ Fin 2)) (hls : SolvesLeastSquares ls) (hy : |slanted y0 ()| ≤ 2) :
    ∃ st0, ∃ x : Fin 2 → ℝ, x 0 + x 1 + Real.sin (x 0) / 2 = 0 ∧ Tendsto (iterateAt (GaussNewton.solver
      (GaussNewton.levenbergMarquardt (1/100) 2 (1/10) (1/10) maxNorm maxNorm ls slantedJac) ()) (fun y => (slanted y, ())) () y0 st0)
        atTop (𝓝 x) := by
  have hR : ∑ m, slanted y0 m ^ 2 ≤ (2 : ℝ) ^ 2 := by
    simp only [Finset.univ_unique, Finset.sum_singleton]
    rw [← sq_abs]
    exact pow_le_pow_left₀ (abs_nonneg _) hy 2
  obtain ⟨st0, _, _, x, hx, ht, _⟩ := C116_run (1/100) 2 (1/10) (1/10) (by norm_num) (by norm_num) (maxNorm (ι := Fin 2))
    (maxNorm (ι := Unit)) ls hls slantedJac () (fun y => (slanted y, ())) y0 (1/2) 1 2 slanted_lipschitz slanted_onto (by norm_num) hR
    (by norm_num) (by norm_num) 2 (by norm_num)
  exact ⟨st0, x, hx (), ht⟩

end Verif.Props
