import Verif.Props.RootFindDogleg
import Verif.Props.RootFindLM
import Verif.Props.IndirectLM

/-!
Property C126: root finding with `IndirectLevenbergMarquardt` from everywhere.
-/

namespace Verif.Props

open Verif Verif.Spec Verif.Driver Verif.SearchLoop Verif.Secular Filter Topology

variable {ι A : Type} [Fintype ι]

/-- A full Newton step on a square system: it solves the linearised equations, so that all of the residual is promised to go. -/
theorem full_newton_facts (J : Matrix ι ι ℝ) (r p : ι → ℝ) (μ : ℝ)
    (h : ∀ p : ι → ℝ, μ * ∑ i, p i ^ 2 ≤ ∑ m, (∑ i, J m i * p i) ^ 2) (hp : ∀ m, ∑ i, J m i * p i = -r m) :
    linearisedChange J r p = -((∑ m, r m ^ 2) / 2) ∧ μ * ∑ i, p i ^ 2 ≤ ∑ m, r m ^ 2 := by
  constructor
  · show (∑ k, ((∑ i, J k i * p i) + r k) ^ 2) / 2 - (∑ k, r k ^ 2) / 2 = _
    simp only [hp, neg_add_cancel]
    simp
  · have hQ := h p
    simp only [hp, neg_sq] at hQ
    exact hQ

/-- Near a root, for every descent whose step is the Newton step when the radius is at least one. -/
theorem full_newton_run {DS : Type} (cfg : GaussNewton.Cfg ι ι ℝ DS) (hs : cfg.search = TrustRegion.classical TrustRegion.defaults)
    (stepAt : ℝ → (ι → ℝ) → Matrix ι ι ℝ → (ι → ℝ) × Result) (hd : Memoryless cfg.descent stepAt)
    (ls : LinSolve ι ι) (hls : SolvesLeastSquares ls) (hfull : ∀ t r J, 1 ≤ t → (stepAt t r J).1 = fun i => -(ls.rect J r).1 i)
    (aux0 : A) (fn : (ι → ℝ) → (ι → ℝ) × A) (y0 : ι → ℝ) (K μ B R : ℝ)
    (hJ : LipschitzJacobian (fun y => (fn y).1) cfg.jac K) (hI : UniformlyInvertible cfg.jac μ B) (hR0 : 0 ≤ R)
    (hR : ∑ m, (fn y0).1 m ^ 2 ≤ R ^ 2) (hKR : K * R ≤ μ) (st0 : GaussNewton.State ι ι A ℝ DS)
    (hi : (GaussNewton.solver cfg aux0).init fn y0 = .ok st0) (k : ℕ) :
    let S := GaussNewton.solver cfg aux0
    (∀ m, ∑ i, cfg.jac (iterateAt S fn aux0 y0 st0 (k + 1)) m i *
      (iterateAt S fn aux0 y0 st0 (k + 2) i - iterateAt S fn aux0 y0 st0 (k + 1) i) = -(fn (iterateAt S fn aux0 y0 st0 (k + 1))).1 m) ∧
    ∑ m, (fn (iterateAt S fn aux0 y0 st0 (k + 2))).1 m ^ 2 ≤ 1 / 4 * ∑ m, (fn (iterateAt S fn aux0 y0 st0 (k + 1))).1 m ^ 2 ∧
    ∑ m, (fn (iterateAt S fn aux0 y0 st0 (k + 2))).1 m ^ 2 ≤
      (K / (2 * μ)) ^ 2 * (∑ m, (fn (iterateAt S fn aux0 y0 st0 (k + 1))).1 m ^ 2) ^ 2 := by
  intro S
  have hμ := hI.pos
  have hK := hJ.nonneg
  set c : TrustRegion.Cfg ℝ := TrustRegion.defaults with hc
  have c1 : c.lowCutoff = 1 / 100 := by norm_num [hc, TrustRegion.defaults]
  have c2 : c.lowConstant = 1 / 4 := by norm_num [hc, TrustRegion.defaults]
  have c3 : c.highConstant = 7 / 2 := by norm_num [hc, TrustRegion.defaults]
  obtain ⟨T, hY1, ht1, _⟩ := gn_trust_run c (by rw [c2]; norm_num) (by rw [c3]; norm_num) cfg hs stepAt hd aux0 fn y0 st0 hi
  rw [c1, c2, c3] at T
  set jac := cfg.jac with hjac
  set step := fun t r J => (stepAt t r J).1 with hstepd
  have hnewt : ∀ (y : ι → ℝ) t, 1 ≤ t → ∑ m, (fn y).1 m ^ 2 ≤ R ^ 2 →
      let p := step t (fn y).1 (jac y)
      (∀ m, ∑ i, jac y m i * p i = -(fn y).1 m) ∧ linearisedChange (jac y) (fn y).1 p = -((∑ m, (fn y).1 m ^ 2) / 2) ∧
      ∑ m, (fn fun i => y i + p i).1 m ^ 2 ≤ 1 / 4 * ∑ m, (fn y).1 m ^ 2 ∧
      ∑ m, (fn fun i => y i + p i).1 m ^ 2 ≤ (K / (2 * μ)) ^ 2 * (∑ m, (fn y).1 m ^ 2) ^ 2 := by
    intro y t ht hy p
    have hpn : p = fun i => -(ls.rect (jac y) (fn y).1).1 i := hfull t _ _ ht
    have hJp' := square_newton ls hls (jac y) (fn y).1 μ hμ (hI.below y)
    have hJp : ∀ m, ∑ i, jac y m i * p i = -(fn y).1 m := fun m => by rw [hpn]; exact hJp' m
    have hQ := hI.below y p
    simp only [hJp, neg_sq] at hQ
    have hte : euclid (fun m => (fn fun i => y i + p i).1 m - (fn y).1 m - ∑ i, jac y m i * p i) ≤ K / 2 * ∑ i, p i ^ 2 :=
      LipschitzJacobian.taylor hJ y p
    simp only [hJp, sub_neg_eq_add, sub_add_cancel] at hte
    set E := ∑ m, (fn y).1 m ^ 2 with hE
    have hE0 : 0 ≤ E := Finset.sum_nonneg fun i _ => sq_nonneg _
    have hte2 : euclid (fn fun i => y i + p i).1 ≤ K / (2 * μ) * E := by
      refine hte.trans ?_
      rw [div_mul_eq_mul_div, div_mul_eq_mul_div, div_le_div_iff₀ (by norm_num) (by positivity)]
      nlinarith
    have hq : ∑ m, (fn fun i => y i + p i).1 m ^ 2 ≤ (K / (2 * μ)) ^ 2 * E ^ 2 := by
      rw [← euclid_sq, ← mul_pow]
      exact pow_le_pow_left₀ (euclid_nonneg _) hte2 2
    refine ⟨hJp, ?_, hq.trans ?_, hq⟩
    · show (∑ k, ((∑ i, jac y k i * p i) + (fn y).1 k) ^ 2) / 2 - (∑ k, (fn y).1 k ^ 2) / 2 = _
      simp only [hJp, neg_add_cancel]
      simp [hE]
    · have h1 : (K / (2 * μ)) ^ 2 * E ≤ 1 / 4 := by
        have h2 : (K * R) ^ 2 ≤ μ ^ 2 := pow_le_pow_left₀ (mul_nonneg hK hR0) hKR 2
        have h3 : K ^ 2 * E ≤ μ ^ 2 := by
          refine le_trans ?_ h2
          rw [mul_pow]
          exact mul_le_mul_of_nonneg_left hy (sq_nonneg K)
        rw [div_pow, div_mul_eq_mul_div, div_le_iff₀ (by positivity)]
        nlinarith
      calc (K / (2 * μ)) ^ 2 * E ^ 2 = (K / (2 * μ)) ^ 2 * E * E := by ring
        _ ≤ 1 / 4 * E := mul_le_mul_of_nonneg_right h1 hE0
  have hinv : ∀ k, 1 ≤ (stateAt S fn aux0 y0 st0 (k + 1)).searchState ∧
      ∑ m, (fn (iterateAt S fn aux0 y0 st0 (k + 1))).1 m ^ 2 ≤ R ^ 2 ∧
      iterateAt S fn aux0 y0 st0 (k + 2) = fun i => iterateAt S fn aux0 y0 st0 (k + 1) i +
        step (stateAt S fn aux0 y0 st0 (k + 1)).searchState (fn (iterateAt S fn aux0 y0 st0 (k + 1))).1 (jac (iterateAt S fn aux0 y0 st0 (k + 1))) i := by
    have hstep : ∀ k, 1 ≤ (stateAt S fn aux0 y0 st0 (k + 1)).searchState →
        ∑ m, (fn (iterateAt S fn aux0 y0 st0 (k + 1))).1 m ^ 2 ≤ R ^ 2 →
        (iterateAt S fn aux0 y0 st0 (k + 2) = fun i => iterateAt S fn aux0 y0 st0 (k + 1) i +
          step (stateAt S fn aux0 y0 st0 (k + 1)).searchState (fn (iterateAt S fn aux0 y0 st0 (k + 1))).1 (jac (iterateAt S fn aux0 y0 st0 (k + 1))) i) ∧ 1 ≤ (stateAt S fn aux0 y0 st0 (k + 2)).searchState := by
      intro k h1 h2
      obtain ⟨_, n2, n3, _⟩ := hnewt _ _ h1 h2
      rcases T.rule k with ⟨_, a2, a3⟩ | ⟨b1, _, _⟩
      · refine ⟨a2, ?_⟩
        rcases a3 with a3 | a3
        · rw [show (stateAt S fn aux0 y0 st0 (k + 2)).searchState = _ from a3]
          have : (stateAt S fn aux0 y0 st0 (k + 1)).searchState ≤ 7 / 2 * (stateAt S fn aux0 y0 st0 (k + 1)).searchState := by linarith
          exact h1.trans this
        · rw [show (stateAt S fn aux0 y0 st0 (k + 2)).searchState = _ from a3]
          exact h1
      · refine absurd ?_ b1
        have hE0 : 0 ≤ ∑ m, (fn (iterateAt S fn aux0 y0 st0 (k + 1))).1 m ^ 2 := Finset.sum_nonneg fun i _ => sq_nonneg _
        have e : 1 / 100 * linearisedChange (jac (iterateAt S fn aux0 y0 st0 (k + 1))) (fn (iterateAt S fn aux0 y0 st0 (k + 1))).1
          (step (stateAt S fn aux0 y0 st0 (k + 1)).searchState (fn (iterateAt S fn aux0 y0 st0 (k + 1))).1 (jac (iterateAt S fn aux0 y0 st0 (k + 1)))) = 1 / 100 * _ := congrArg _ n2
        refine le_trans ?_ (le_of_eq e.symm)
        refine le_trans (sub_le_sub_right (div_le_div_of_nonneg_right n3 two_pos.le) _) ?_
        linarith
    intro k
    induction k with
    | zero =>
      have h1 : 1 ≤ (stateAt S fn aux0 y0 st0 (0 + 1)).searchState := le_of_eq ht1.symm
      have h2 : ∑ m, (fn (iterateAt S fn aux0 y0 st0 (0 + 1))).1 m ^ 2 ≤ R ^ 2 := by
        rw [show iterateAt S fn aux0 y0 st0 (0 + 1) = y0 from hY1]; exact hR
      exact ⟨h1, h2, (hstep 0 h1 h2).1⟩
    | succ k ih =>
      obtain ⟨h1, h2, h3⟩ := ih
      have h4 := (hstep k h1 h2).2
      have h5 : ∑ m, (fn (iterateAt S fn aux0 y0 st0 (k + 1 + 1))).1 m ^ 2 ≤ R ^ 2 := by
        obtain ⟨_, _, n3, _⟩ := hnewt _ _ h1 h2
        rw [show iterateAt S fn aux0 y0 st0 (k + 1 + 1) = _ from h3]
        refine n3.trans (le_trans ?_ h2)
        have hE0 : 0 ≤ ∑ m, (fn (iterateAt S fn aux0 y0 st0 (k + 1))).1 m ^ 2 := Finset.sum_nonneg fun i _ => sq_nonneg _
        linarith
      exact ⟨h4, h5, (hstep (k + 1) h4 h5).1⟩
  obtain ⟨h1, h2, h3⟩ := hinv k
  obtain ⟨n1, _, n3, n4⟩ := hnewt _ _ h1 h2
  refine ⟨fun m => ?_, ?_, ?_⟩
  · rw [h3]
    simp only [add_sub_cancel_left]
    exact n1 m
  · rw [h3]; exact n3
  · rw [h3]; exact n4


section
variable [DecidableEq ι] (eps fmax rtol atol : ℝ) (he : 0 < eps) (hf : 0 < fmax) (nY nF : (ι → ℝ) → ℝ)
  (ls : LinSolve ι ι) (hls : SolvesLeastSquares ls) (lsD : LinSolve ι (ι ⊕ ι)) (hlsD : SolvesLeastSquares lsD)
  (env : InnerEnv) (henv : ExactInner env)
  (jac : (ι → ℝ) → Matrix ι ι ℝ) (aux0 : A) (fn : (ι → ℝ) → (ι → ℝ) × A) (y0 : ι → ℝ) (K μ B R : ℝ)
  (hJ : LipschitzJacobian (fun y => (fn y).1) jac K) (hI : UniformlyInvertible jac μ B) (hμB : μ ≤ B) (hR0 : 0 ≤ R)
  (hR : ∑ m, (fn y0).1 m ^ 2 ≤ R ^ 2) (hfK : K * R ≤ fmax) (hL : K * R ≤ 10 ^ 8) (hcond : eps * (40 * B * (B + K * R + 1)) < μ)
  (hok : ∀ M v, (ls.rect M v).2 = .successful)
include he hf hls hlsD henv hJ hI hμB hR0 hR hfK hL hcond hok

set_option maxHeartbeats 1000000 in
/-- Runs of `IndirectLevenbergMarquardt` on such systems. -/
theorem indirect_root_run (st0 : GaussNewton.State ι ι A ℝ _)
    (hi : (GaussNewton.solver (GaussNewton.indirectLevenbergMarquardt eps fmax rtol atol nY nF ls lsD
      (findLambdaNewton env 1) jac) aux0).init fn y0 = .ok st0) :
    let S := GaussNewton.solver (GaussNewton.indirectLevenbergMarquardt eps fmax rtol atol nY nF ls lsD
      (findLambdaNewton env 1) jac) aux0
    let Y := iterateAt S fn aux0 y0 st0
    let St := stateAt S fn aux0 y0 st0
    let p := fun k => (indirectStep eps fmax ls lsD env (St (k + 1)).searchState (fn (Y (k + 1))).1 (jac (Y (k + 1)))).1
    (∀ q : ℕ, (1 / 4 : ℝ) ^ q < μ / (40 * (B + K * R + 1)) → ∀ N, ∃ a b : ℕ, a + b = N ∧ b ≤ a + q ∧
      ∑ m, (fn (Y (N + 1))).1 m ^ 2 ≤
        (1 - μ ^ 2 / (2100 * B * (B + K * R + 1))) ^ a * ∑ m, (fn y0).1 m ^ 2) ∧
    ∀ δ, 0 < δ → ∃ k, (∑ m, (fn fun i => Y (k + 1) i + p k i).1 m ^ 2) / 2 - (∑ m, (fn (Y (k + 1))).1 m ^ 2) / 2 ≤
        1 / 100 * linearisedChange (jac (Y (k + 1))) (fn (Y (k + 1))).1 (p k) ∧ (∀ i, |p k i| ≤ δ) ∧
      (∀ m, |(fn fun i => Y (k + 1) i + p k i).1 m - (fn (Y (k + 1))).1 m| ≤ δ) ∧
      ∀ m, |(fn (Y (k + 1))).1 m| ≤ δ := by
  intro S Y St p
  have hμ := hI.pos
  have hK := hJ.nonneg
  have hB0 : 0 < B := hμ.trans_le hμB
  have hKR : 0 ≤ K * R := mul_nonneg hK hR0
  set c : TrustRegion.Cfg ℝ := TrustRegion.defaults with hc
  have c1 : c.lowCutoff = 1 / 100 := by norm_num [hc, TrustRegion.defaults]
  have c2 : c.lowConstant = 1 / 4 := by norm_num [hc, TrustRegion.defaults]
  have c3 : c.highConstant = 7 / 2 := by norm_num [hc, TrustRegion.defaults]
  have hmem := indirect_memoryless (κ := ι) eps fmax ls lsD env
  obtain ⟨T, hY1, ht1, _⟩ := gn_trust_run c (by rw [c2]; norm_num) (by rw [c3]; norm_num)
    (GaussNewton.indirectLevenbergMarquardt eps fmax rtol atol nY nF ls lsD (findLambdaNewton env 1) jac) rfl _ hmem aux0 fn y0 st0 hi
  have hjac : (GaussNewton.indirectLevenbergMarquardt eps fmax rtol atol nY nF ls lsD (findLambdaNewton env 1) jac).jac = jac := rfl
  rw [hjac, c1, c2, c3] at T
  set F := fun y => (∑ m, (fn y).1 m ^ 2) / 2 with hFd
  set step := fun t y => (indirectStep (κ := ι) eps fmax ls lsD env t (fn y).1 (jac y)).1 with hstep
  set pred := fun y t => linearisedChange (jac y) (fn y).1 (step t y) with hpd
  have T' : TrustRun F (fun y t => fun i => y i + step t y i) pred (1 / 100) (1 / 4) (7 / 2)
    (fun k => Y (k + 1)) (fun k => (St (k + 1)).searchState) := T
  have hres0 : ∀ y, 0 ≤ ∑ m, (fn y).1 m ^ 2 := fun y => Finset.sum_nonneg fun i _ => sq_nonneg _
  have honto := fun y => square_onto (jac y) μ hμ (hI.below y)
  -- the damping that suffices, and the radius that leads to it
  set L := K * R + 1 with hLd
  have hL1 : 1 ≤ L := by linarith
  have hL2 : L ≤ 1.9 ^ 32 := (by linarith : L ≤ 10 ^ 8 + 1).trans (by norm_num)
  have hBL : B + K * R + 1 = B + L := by rw [hLd]; ring
  rw [hBL] at hcond ⊢
  have hBL0 : 0 < B + L := by linarith
  set τ := μ / (10 * (B + L)) with hτd
  have hτ0 : 0 < τ := by positivity
  have hτ1 : τ < 1 := by rw [hτd, div_lt_one (by positivity)]; linarith
  have hτe : τ * (10 * (B + L)) = μ := by rw [hτd]; field_simp
  have ht0 : (St (0 + 1)).searchState = 1 := ht1
  have htmin : min ((fun k => (St (k + 1)).searchState) 0) (1 / 4 * τ) = τ / 4 := by
    show min (St (0 + 1)).searchState (1 / 4 * τ) = τ / 4
    rw [ht0, min_eq_right (by linarith)]; ring
  have hE : ∀ s, τ / 4 ≤ s → max (L + B) (B / s) < 1 / eps := by
    intro s hs
    have hs0 : 0 < s := lt_of_lt_of_le (by positivity) hs
    rw [lt_div_iff₀ he]
    have h1 : 40 * B * (B + L) * eps < μ := by linarith
    rcases max_choice (L + B) (B / s) with h | h
    · rw [h]
      have h2 : 40 * ((B + L) * eps) * B < 1 * B := by
        calc 40 * ((B + L) * eps) * B = 40 * B * (B + L) * eps := by ring
          _ < μ := h1
          _ ≤ 1 * B := by linarith
      have h3 := lt_of_mul_lt_mul_right h2 hB0.le
      have h4 : 0 < (B + L) * eps := by positivity
      linarith
    · rw [h]
      have h2 : B / s ≤ 40 * B * (B + L) / μ := by
        rw [div_le_div_iff₀ hs0 hμ]
        have : μ ≤ 40 * (B + L) * s := by
          have h4 : τ / 4 * (40 * (B + L)) ≤ s * (40 * (B + L)) := mul_le_mul_of_nonneg_right hs (by positivity)
          linarith
        nlinarith
      calc B / s * eps ≤ 40 * B * (B + L) / μ * eps := mul_le_mul_of_nonneg_right h2 he.le
        _ = (40 * B * (B + L) * eps) / μ := by ring
        _ < 1 := by rw [div_lt_one hμ]; exact h1
  have hgne : ∀ y, 0 < ∑ m, (fn y).1 m ^ 2 → ∃ i, ∑ k, jac y k i * (fn y).1 k ≠ 0 := by
    intro y hy
    by_contra hn
    push Not at hn
    have h1 := honto y (fn y).1
    simp only [hn] at h1
    have h2 := mul_pos hμ hy
    simp at h1
    linarith
  have hdamped : ∀ y s, s < 1 → step s y = ((dampedNewtonDescent eps fmax lsD).step
      (1 / (findLambdaNewton env 1 (comparison eps fmax ls lsD (jac y) (fn y).1 s)).1) (.residualJac (fn y).1 (jac y))).1 := by
    intro y s hs
    show (indirectStep eps fmax ls lsD env s (fn y).1 (jac y)).1 = _
    unfold indirectStep
    rw [if_pos ⟨hok _ _, hs⟩]
  have hfull : ∀ y s, ¬ s < 1 → step s y = fun i => -(ls.rect (jac y) (fn y).1).1 i := by
    intro y s hs
    show (indirectStep eps fmax ls lsD env s (fn y).1 (jac y)).1 = _
    unfold indirectStep
    rw [if_neg fun h => hs h.2]
  have hdamping := fun y s (hy : 0 < ∑ m, (fn y).1 m ^ 2) (h1 : τ / 4 ≤ s) (h2 : s < 1) =>
    indirect_damping eps fmax he hf ls hls lsD hlsD env henv (jac y) (fn y).1 (hgne y hy) B μ L hμ hμB (hI.above y) (hI.below y) hL1 hL2
      s (lt_of_lt_of_le (by positivity) h1) h2 (hE s h1)
  -- what a trial promises, and how long it is
  set M := 40 * B * (B + L) / μ with hM
  have hBM : B / (τ / 4) = M := by rw [hM, hτd]; field_simp; norm_num
  have hM1 : 1 ≤ M := by
    rw [hM, one_le_div hμ]
    nlinarith
  have hpromise : ∀ y s, τ / 4 ≤ s → pred y s ≤ 0 ∧ μ * ∑ m, (fn y).1 m ^ 2 ≤ (2 * μ + M) * -pred y s ∧
      μ * ∑ i, step s y i ^ 2 ≤ 2 * -pred y s := by
    intro y s hs
    by_cases hs1 : s < 1
    · have hst := hdamped y s hs1
      show linearisedChange (jac y) (fn y).1 (step s y) ≤ 0 ∧ _ ≤ (2 * μ + M) * -linearisedChange (jac y) (fn y).1 (step s y) ∧
        _ ≤ 2 * -linearisedChange (jac y) (fn y).1 (step s y)
      rw [hst]
      obtain ⟨hl, hQ, hD, _, hμQ, hall, _⟩ := onto_facts eps fmax
        (1 / (findLambdaNewton env 1 (comparison eps fmax ls lsD (jac y) (fn y).1 s)).1) he.le hf lsD hlsD (jac y) (fn y).1 μ hμ (honto y)
      refine ⟨by linarith, ?_, hμQ⟩
      rcases (hres0 y).eq_or_lt with h0 | h0
      · rw [← h0, mul_zero]
        exact mul_nonneg (by linarith) hD
      · obtain ⟨hl0, hlE, hlU, _⟩ := hdamping y s h0 hs hs1
        rw [damped_param eps fmax he hf lsD hlsD _ hl0 hlE] at hall
        refine hall.trans (mul_le_mul_of_nonneg_right ?_ hD)
        have h1 := hlU.trans (max_le hM1 (le_trans (div_le_div_of_nonneg_left hB0.le (by positivity) hs) hBM.le))
        linarith
    · have hst := hfull y s hs1
      obtain ⟨h1, h2⟩ := full_newton_facts (jac y) (fn y).1 _ μ (hI.below y) (square_newton ls hls (jac y) (fn y).1 μ hμ (hI.below y))
      have hpr : pred y s = -((∑ m, (fn y).1 m ^ 2) / 2) := by
        show linearisedChange (jac y) (fn y).1 (step s y) = _
        rw [hst]; exact h1
      have h3 := hres0 y
      rw [hpr, hst]
      refine ⟨by linarith, ?_, by linarith⟩
      have : 0 ≤ M * ∑ m, (fn y).1 m ^ 2 := mul_nonneg (by linarith) h3
      linarith
  -- the residuals never grow
  have hlow : ∀ k, (∀ j, j ≤ k → τ / 4 ≤ (St (j + 1)).searchState) → ∑ m, (fn (Y (k + 1))).1 m ^ 2 ≤ R ^ 2 := by
    intro k
    induction k with
    | zero => intro _; rw [show Y (0 + 1) = y0 from hY1]; exact hR
    | succ k ih =>
      intro hj
      have h0 := ih fun j hjk => hj j (by omega)
      rcases T'.rule k with ⟨a1, a2, _⟩ | ⟨_, b2, _⟩
      · have a2' : Y (k + 1 + 1) = _ := a2
        rw [a2']
        have h1 := (hpromise (Y (k + 1)) _ (hj k (by omega))).1
        have h2 : (∑ m, (fn fun i => Y (k + 1) i + step (St (k + 1)).searchState (Y (k + 1)) i).1 m ^ 2) / 2 -
          (∑ m, (fn (Y (k + 1))).1 m ^ 2) / 2 ≤ 1 / 100 * pred (Y (k + 1)) (St (k + 1)).searchState := a1
        linarith
      · have b2' : Y (k + 1 + 1) = Y (k + 1) := b2
        rw [b2']; exact h0
  -- short enough steps are taken
  have htaken : ∀ y s, ∑ m, (fn y).1 m ^ 2 ≤ R ^ 2 → τ / 4 ≤ s → s ≤ τ →
      F (fun i => y i + step s y i) - F y ≤ 1 / 100 * pred y s := by
    intro y s hy hs0 hs
    have hs1 : s < 1 := by linarith
    rcases (hres0 y).eq_or_lt with h0 | h0
    · have h1 := hpromise y s hs0
      rw [← h0] at h1
      have hz : ∀ m, (fn y).1 m = 0 := fun m => by
        have := (Finset.sum_eq_zero_iff_of_nonneg fun i _ => sq_nonneg _).1 h0.symm m (Finset.mem_univ m)
        exact pow_eq_zero_iff two_ne_zero |>.1 this
      have hst : step s y = fun _ => 0 := by
        rw [hdamped y s hs1]
        exact (C40_damped_step eps fmax _ he.le hf lsD hlsD (jac y) (fn y).1).2.2.2.2.2.2 fun i => by simp [hz]
      have hpr : pred y s = 0 := by
        show linearisedChange (jac y) (fn y).1 (step s y) = 0
        rw [hst, linearisedChange_eq]; simp
      rw [hpr, hst]; simp
    · obtain ⟨hl0, hlE, _, hlL⟩ := hdamping y s h0 hs0 hs1
      have hlL' := hlL (by
        have := mul_le_mul_of_nonneg_right hs (by positivity : 0 ≤ 10 * (B + L))
        linarith)
      show (∑ m, (fn fun i => y i + step s y i).1 m ^ 2) / 2 - (∑ m, (fn y).1 m ^ 2) / 2 ≤
        1 / 100 * linearisedChange (jac y) (fn y).1 (step s y)
      rw [hdamped y s hs1]
      exact onto_trial_taken eps fmax he.le hf lsD hlsD jac (fun y => (fn y).1) K μ R hJ ⟨hμ, honto⟩ hR0 hfK y hy _
        (by positivity) (one_div_le_one_div_of_le (by linarith) hlL')
  have hrad : ∀ k, τ / 4 ≤ (St (k + 1)).searchState := by
    intro k
    induction k using Nat.strong_induction_on with
    | _ k ih =>
      rcases k with _ | k
      · rw [ht0]; linarith
      · have ihk := ih k (by omega)
        have hyk := hlow k fun j hj => ih j (by omega)
        rcases T'.rule k with ⟨_, _, a3⟩ | ⟨b1, _, b3⟩
        · have hp0 := T'.pos k
          have hp0' : 0 < (St (k + 1)).searchState := hp0
          rcases a3 with a3 | a3
          · have a3' : (St (k + 1 + 1)).searchState = _ := a3
            rw [a3']
            show τ / 4 ≤ 7 / 2 * (St (k + 1)).searchState
            linarith
          · have a3' : (St (k + 1 + 1)).searchState = _ := a3
            rw [a3']; exact ihk
        · have hlt : τ < (St (k + 1)).searchState := by
            by_contra hle
            exact b1 (htaken _ _ hyk ihk (not_lt.1 hle))
          have b3' : (St (k + 1 + 1)).searchState = 1 / 4 * (St (k + 1)).searchState := b3
          rw [b3']; linarith
  have hFR : ∀ k, ∑ m, (fn (Y (k + 1))).1 m ^ 2 ≤ R ^ 2 := fun k => hlow k fun j _ => hrad j
  refine ⟨fun q hq N => ?_, fun δ hδ => ?_⟩
  · obtain ⟨a, b, h1, h2, h3⟩ := trust_run_rate T' (by norm_num) (by norm_num) (by norm_num) (τ / 4) hrad 0
      (fun k => by
        show 0 ≤ (∑ m, (fn (Y (k + 1))).1 m ^ 2) / 2
        linarith [hres0 (Y (k + 1))]) (μ ^ 2 / (2100 * B * (B + L))) (fun k h => by
        refine h.trans ?_
        obtain ⟨p1, p2, _⟩ := hpromise (Y (k + 1)) _ (hrad k)
        show 1 / 100 * pred (Y (k + 1)) (St (k + 1)).searchState ≤
          -(μ ^ 2 / (2100 * B * (B + L)) * ((∑ m, (fn (Y (k + 1))).1 m ^ 2) / 2 - 0))
        set D := -pred (Y (k + 1)) (St (k + 1)).searchState with hD
        set E := ∑ m, (fn (Y (k + 1))).1 m ^ 2 with hEd
        have hpD : pred (Y (k + 1)) (St (k + 1)).searchState = -D := by rw [hD, neg_neg]
        have hD0 : 0 ≤ D := by linarith
        have h4 : (2 * μ + M) * μ ≤ 42 * B * (B + L) := by
          have : M * μ = 40 * B * (B + L) := by rw [hM]; field_simp
          nlinarith
        have h5 : μ ^ 2 * E ≤ 42 * B * (B + L) * D := by
          calc μ ^ 2 * E = μ * (μ * E) := by ring
            _ ≤ μ * ((2 * μ + M) * D) := mul_le_mul_of_nonneg_left p2 hμ.le
            _ = (2 * μ + M) * μ * D := by ring
            _ ≤ _ := mul_le_mul_of_nonneg_right h4 hD0
        rw [hpD, sub_zero, mul_neg, neg_le_neg_iff, div_mul_eq_mul_div, div_le_iff₀ (by positivity)]
        linarith) 1 q (by norm_num) (by
        show (1 / 4 : ℝ) ^ q * (St (0 + 1)).searchState < τ / 4
        rw [ht0, mul_one]
        refine hq.trans_eq ?_
        rw [hτd]; field_simp; norm_num) N
    refine ⟨a, b, h1, by omega, ?_⟩
    have h3' : (∑ m, (fn (Y (N + 1))).1 m ^ 2) / 2 - 0 ≤
      (1 - μ ^ 2 / (2100 * B * (B + L))) ^ a * ((∑ m, (fn (Y (0 + 1))).1 m ^ 2) / 2 - 0) := h3
    rw [zero_add, show Y 1 = y0 from hY1] at h3'
    linarith
  · obtain ⟨_, s2, _, s3⟩ := T'.settles_between (by norm_num) (by norm_num) (by norm_num) (by norm_num) τ hτ0
      (fun k s h1 h2 => htaken _ s (hFR k) (by rw [htmin] at h1; exact h1) h2) 0
      (fun x => by
        show 0 ≤ (∑ m, (fn x).1 m ^ 2) / 2
        linarith [hres0 x]) (fun y => ∑ m, (fn y).1 m ^ 2) hres0 (μ / (2 * μ + M)) (by positivity)
      (fun y s hs => by
        rw [htmin] at hs
        obtain ⟨_, p2, _⟩ := hpromise y s hs
        rw [div_mul_eq_mul_div, le_neg, div_le_iff₀ (by linarith)]
        linarith)
    -- late accepted trials
    set η := min (μ * δ ^ 2) ((δ / 2) ^ 2) with hη
    have hη0 : 0 < η := lt_min (by positivity) (by positivity)
    have hη1 : 0 < μ / (2 * μ + M) * η / 100 := by
      have : 0 < 2 * μ + M := by linarith
      positivity
    obtain ⟨K', hK'⟩ := eventually_atTop.1 (s2.eventually (gt_mem_nhds hη1))
    obtain ⟨k, hk, ha, hyk⟩ := s3 K'
    have hsm : F (Y (k + 1)) - F (Y (k + 1 + 1)) < μ / (2 * μ + M) * η / 100 := hK' k hk
    have hyk' : Y (k + 1 + 1) = fun i => Y (k + 1) i + p k i := hyk
    rw [hyk'] at hsm
    have ha' : F (fun i => Y (k + 1) i + p k i) - F (Y (k + 1)) ≤ 1 / 100 * pred (Y (k + 1)) (St (k + 1)).searchState := ha
    obtain ⟨p1, p2, p3⟩ := hpromise (Y (k + 1)) _ (hrad k)
    set D := -pred (Y (k + 1)) (St (k + 1)).searchState with hD
    have hpD : pred (Y (k + 1)) (St (k + 1)).searchState = -D := by rw [hD, neg_neg]
    rw [hpD] at ha'
    have hM2 : 0 < 2 * μ + M := by linarith
    have hDs : D < μ / (2 * μ + M) * η := by linarith
    have hDη : 2 * D ≤ η := by
      have h1 : μ / (2 * μ + M) ≤ 1 / 2 := by
        rw [div_le_div_iff₀ hM2 two_pos]; linarith
      have := mul_le_mul_of_nonneg_right h1 hη0.le
      linarith
    have hsmall : ∑ m, (fn (Y (k + 1))).1 m ^ 2 ≤ η := by
      refine le_of_mul_le_mul_left ?_ hμ
      refine p2.trans ?_
      have := mul_lt_mul_of_pos_left hDs hM2
      refine this.le.trans (le_of_eq ?_)
      field_simp
    have hent : ∀ (v : ι → ℝ), ∑ m, v m ^ 2 ≤ (δ / 2) ^ 2 → ∀ m, |v m| ≤ δ / 2 := by
      intro v hv m
      refine (abs_le_euclid v m).trans ?_
      unfold euclid
      exact (Real.sqrt_le_sqrt hv).trans (le_of_eq (Real.sqrt_sq (by positivity)))
    have h0 : ∀ m, |(fn (Y (k + 1))).1 m| ≤ δ / 2 := hent _ (hsmall.trans (min_le_right _ _))
    have h4 : ∀ m, |(fn fun i => Y (k + 1) i + p k i).1 m| ≤ δ / 2 := by
      refine hent _ (le_trans ?_ (hsmall.trans (min_le_right _ _)))
      have h6 : (∑ m, (fn fun i => Y (k + 1) i + p k i).1 m ^ 2) / 2 - (∑ m, (fn (Y (k + 1))).1 m ^ 2) / 2 ≤
        1 / 100 * -D := ha'
      linarith
    have hpl : ∑ i, p k i ^ 2 ≤ δ ^ 2 := by
      refine le_of_mul_le_mul_left ?_ hμ
      have h7 : μ * ∑ i, p k i ^ 2 ≤ 2 * D := p3
      exact h7.trans (hDη.trans (min_le_left _ _))
    refine ⟨k, ha, fun i => ?_, fun m => ?_, fun m => (h0 m).trans (by linarith)⟩
    · refine (abs_le_euclid (p k) i).trans ?_
      unfold euclid
      exact (Real.sqrt_le_sqrt hpl).trans (le_of_eq (Real.sqrt_sq hδ.le))
    · exact (abs_sub _ _).trans (by linarith [h0 m, h4 m])

/-- **C126.** From every starting point the residual falls geometrically to zero, and every iterate has a true root nearby.  `N + 1`
iterations make `N` trials (the first one is spent on the placeholders of the search), `a` of them accepted and `b` rejected. -/
theorem C126_run :
    let S := GaussNewton.solver (GaussNewton.indirectLevenbergMarquardt eps fmax rtol atol nY nF ls lsD
      (findLambdaNewton env 1) jac) aux0
    ∃ st0, S.init fn y0 = .ok st0 ∧
      (∀ q : ℕ, (1 / 4 : ℝ) ^ q < μ / (40 * (B + K * R + 1)) → ∀ N, ∃ a b : ℕ, a + b = N ∧ b ≤ a + q ∧
        ∑ m, (fn (iterateAt S fn aux0 y0 st0 (N + 1))).1 m ^ 2 ≤
          (1 - μ ^ 2 / (2100 * B * (B + K * R + 1))) ^ a * ∑ m, (fn y0).1 m ^ 2) ∧
      ∀ N, ∃ x, (∀ m, (fn x).1 m = 0) ∧
        μ * ∑ i, (x i - iterateAt S fn aux0 y0 st0 N i) ^ 2 ≤ ∑ m, (fn (iterateAt S fn aux0 y0 st0 N)).1 m ^ 2 := by
  intro S
  obtain ⟨st0, hi⟩ : ∃ st0, S.init fn y0 = .ok st0 := ⟨_, rfl⟩
  refine ⟨st0, hi, ?_, fun N => ?_⟩
  · exact (indirect_root_run eps fmax rtol atol he hf nY nF ls hls lsD hlsD env henv jac aux0 fn y0 K μ B R hJ hI hμB hR0 hR hfK hL
      hcond hok st0 hi).1
  · exact invertible_near_root (fun y => (fn y).1) jac K μ B hJ hI _

/-- **C126**, `root_find`: it succeeds, from every starting point, with every sufficiently large budget and with none. -/
theorem C126_root_find (hokD : ∀ M v, (lsD.rect M v).2 = .successful) (hat : 0 < atol) (hrt : 0 ≤ rtol) (hY : GoodNorm nY)
    (hF : GoodNorm nF) (fInf : ι → ℝ) (auxF : (ι → ℝ) × A) :
    let S := GaussNewton.solver (GaussNewton.indirectLevenbergMarquardt eps fmax rtol atol nY nF ls lsD
      (findLambdaNewton env 1) jac) auxF
    ∃ N, ∀ ms throw, (∀ n, ms = some n → N ≤ n) →
      ∃ sol, rootFindViaLeastSquares S nF atol fInf (fun _ => true) fn auxF y0 ms throw = some (.ok sol) ∧
        sol.result = .successful ∧ sol.numSteps ≤ N := by
  intro S
  obtain ⟨st0, hi⟩ : ∃ st0, S.init (toLstsqFn fn) y0 = .ok st0 := ⟨_, rfl⟩
  obtain ⟨_, hsmall⟩ := indirect_root_run eps fmax rtol atol he hf nY nF ls hls lsD hlsD env henv jac auxF (toLstsqFn fn) y0 K μ B R hJ
    hI hμB hR0 hR hfK hL hcond hok st0 hi
  obtain ⟨δ, hδ, hδY, hδF⟩ := small_enough hY hF atol hat
  obtain ⟨k, h1, h2, h3, h4⟩ := hsmall δ hδ
  have c1 : (TrustRegion.defaults : TrustRegion.Cfg ℝ).lowCutoff = 1 / 100 := by norm_num [TrustRegion.defaults]
  obtain ⟨f1, f2⟩ := gn_trust_flag (TrustRegion.defaults : TrustRegion.Cfg ℝ) (by norm_num [TrustRegion.defaults])
    (by norm_num [TrustRegion.defaults])
    (GaussNewton.indirectLevenbergMarquardt eps fmax rtol atol nY nF ls lsD (findLambdaNewton env 1) jac) rfl _
    (indirect_memoryless eps fmax ls lsD env) hat hrt hY hF auxF (toLstsqFn fn) y0 st0 hi (fun j => by
      dsimp only
      unfold indirectStep
      split
      · exact hokD _ _
      · exact hok _ _) δ hδY hδF k
    ⟨by rw [c1]; exact h1, h2, h3⟩
  have htrace := toRoot_trace S nF atol fInf (toLstsqFn fn) auxF y0 st0
  have hiR : (toRoot nF atol fInf S).init (toLstsqFn fn) y0 = .ok (st0, fInf) := by
    simp only [toRoot, hi]
  refine ⟨k + 2, fun ms throw hb => ?_⟩
  obtain ⟨sol, s1, s2, s3, _⟩ := solve_succeeds_by (toRoot nF atol fInf S) (fun _ => true) (toLstsqFn fn) auxF y0 (st0, fInf) hiR ms
    throw (k + 2) (fun _ _ => rfl) (fun j _ => by
      rw [toRoot_terminate]
      dsimp only
      rw [(htrace j).2.1]
      exact f1 j) (by
      rw [toRoot_terminate]
      dsimp only
      rw [(htrace (k + 2)).2.1, (htrace (k + 2)).2.2, if_neg (by omega)]
      rw [Bool.and_eq_true]
      refine ⟨f2, decide_eq_true ?_⟩
      -- what is reported is the value at the point before
      have haux : (auxAt S (toLstsqFn fn) auxF y0 st0 (k + 2)).1 = (fn (iterateAt S (toLstsqFn fn) auxF y0 st0 (k + 1))).1 :=
        congrArg Prod.fst (C30_aux_gauss_newton_family _ (fun y z i j s => by
          simp [GaussNewton.indirectLevenbergMarquardt, TrustRegion.classical, tr_first]) auxF (toLstsqFn fn) y0 st0 hi (k + 1))
      rw [haux]
      have h5 := hF.mono (fn (iterateAt S (toLstsqFn fn) auxF y0 st0 (k + 1))).1 (fun _ => δ * 1) (fun m => by
        rw [mul_one, abs_of_pos hδ]; exact h4 m)
      have h6 := hF.smul δ (fun _ => 1)
      rw [abs_of_pos hδ] at h6
      exact (h5.trans_eq h6).trans_lt hδF) hb
  refine ⟨sol.dropF, ?_, s2, s3⟩
  rw [rootFindViaLeastSquares, s1]; rfl

omit he hf hlsD henv hμB hfK hL hcond hok in
/-- **C126**, near a root: if the residual at the starting point is at most `μ/K`, then every trial is the full Newton step and is
accepted, the residual is at least halved each time and converges to zero quadratically. -/
theorem C126_quadratic (hKR : K * R ≤ μ) :
    let S := GaussNewton.solver (GaussNewton.indirectLevenbergMarquardt eps fmax rtol atol nY nF ls lsD
      (findLambdaNewton env 1) jac) aux0
    ∃ st0, S.init fn y0 = .ok st0 ∧ ∀ k,
      (∀ m, ∑ i, jac (iterateAt S fn aux0 y0 st0 (k + 1)) m i *
        (iterateAt S fn aux0 y0 st0 (k + 2) i - iterateAt S fn aux0 y0 st0 (k + 1) i) = -(fn (iterateAt S fn aux0 y0 st0 (k + 1))).1 m) ∧
      ∑ m, (fn (iterateAt S fn aux0 y0 st0 (k + 2))).1 m ^ 2 ≤ 1 / 4 * ∑ m, (fn (iterateAt S fn aux0 y0 st0 (k + 1))).1 m ^ 2 ∧
      ∑ m, (fn (iterateAt S fn aux0 y0 st0 (k + 2))).1 m ^ 2 ≤
        (K / (2 * μ)) ^ 2 * (∑ m, (fn (iterateAt S fn aux0 y0 st0 (k + 1))).1 m ^ 2) ^ 2 := by
  intro S
  obtain ⟨st0, hi⟩ : ∃ st0, S.init fn y0 = .ok st0 := ⟨_, rfl⟩
  exact ⟨st0, hi, full_newton_run
    (GaussNewton.indirectLevenbergMarquardt eps fmax rtol atol nY nF ls lsD (findLambdaNewton env 1) jac) rfl _
    (indirect_memoryless eps fmax ls lsD env) ls hls (fun t r J ht => by
      unfold indirectStep
      rw [if_neg fun h => absurd h.2 (not_lt.2 ht)]) aux0 fn y0 K μ B R hJ hI hR0 hR hKR st0 hi⟩

end

/-- From every starting point with `|f(y0)| ≤ 2`, `root_find` with `IndirectLevenbergMarquardt` solves `x + sin x / 4 = 0`. -/
example (ls : LinSolve Unit Unit) (hls : SolvesLeastSquares ls) (hok : ∀ M v, (ls.rect M v).2 = .successful)
    (lsD : LinSolve Unit (Unit ⊕ Unit)) (hlsD : SolvesLeastSquares lsD) (hokD : ∀ M v, (lsD.rect M v).2 = .successful)
    (env : InnerEnv) (henv : ExactInner env) (y0 : Unit → ℝ) (hy : |wavyLine y0 ()| ≤ 2) :
    ∃ sol, rootFindViaLeastSquares (GaussNewton.solver (GaussNewton.indirectLevenbergMarquardt (2⁻¹ ^ 52) (2 ^ 1023) (1/10) (1/10)
        maxNorm maxNorm ls lsD (findLambdaNewton env 1) wavyLineJac)
        (fun _ => 0, ())) maxNorm (1/10) (fun _ => 1) (fun _ => true) (fun y => (wavyLine y, ())) (fun _ => 0, ()) y0 none true =
          some (.ok sol) ∧ sol.result = .successful := by
  have hR : ∑ m, wavyLine y0 m ^ 2 ≤ (2 : ℝ) ^ 2 := by
    simp only [Finset.univ_unique, Finset.sum_singleton]
    rw [← sq_abs]
    exact pow_le_pow_left₀ (abs_nonneg _) hy 2
  obtain ⟨N, h⟩ := C126_root_find (2⁻¹ ^ 52) (2 ^ 1023) (1/10) (1/10) (by positivity) (by positivity) (maxNorm (ι := Unit))
    (maxNorm (ι := Unit)) ls hls lsD hlsD env henv
    wavyLineJac (fun y => (wavyLine y, ())) y0 (1/4) (9/16) (25/16) 2 wavyLine_lipschitz wavyLine_invertible (by norm_num) (by norm_num) hR
    (le_trans (by norm_num) (one_le_pow₀ one_le_two)) (by norm_num) (by norm_num) hok hokD
    (by norm_num) (by norm_num) goodNorm_maxNorm goodNorm_maxNorm (fun _ => 1) (fun _ => 0, ())
  obtain ⟨sol, s1, s2, _⟩ := h none true (by simp)
  exact ⟨sol, s1, s2⟩

end Verif.Props
