import Verif.Props.TrustComplexity
import Verif.Props.DoglegConvergence
import Verif.Props.IndirectLM

/-!
Property C111 for `Dogleg` and `IndirectLevenbergMarquardt`.
-/

namespace Verif.Props

open Verif Verif.Spec Verif.Driver Verif.SearchLoop Filter Topology

variable {ι κ A : Type} [Fintype ι] [Fintype κ]

/-- **C111**, `Dogleg`: gradients longer than `√e` are seen at most so many times in a row, where `e` is not below the level
`(B eps)²` of the guard of the Cauchy step. -/
theorem C111_dogleg (eps rtol atol : ℝ) (he : 0 ≤ eps) (nY : (ι → ℝ) → ℝ) (nF : (κ → ℝ) → ℝ) (ls : LinSolve ι κ)
    (hls : SolvesLeastSquares ls) (jac : (ι → ℝ) → Matrix κ ι ℝ) (aux0 : A) (fn : (ι → ℝ) → (κ → ℝ) × A) (y0 : ι → ℝ)
    (L B μ : ℝ) (hS : SmoothResiduals (fun y => (fn y).1) jac L B) (hB : 0 < B) (hμ : 0 < μ)
    (hrank : ∀ (y p : ι → ℝ), μ * ∑ i, p i ^ 2 ≤ ∑ m, (∑ i, jac y m i * p i) ^ 2) :
    let S := GaussNewton.solver (GaussNewton.dogleg eps rtol atol nY nF ls jac) aux0
    ∃ st0, S.init fn y0 = .ok st0 ∧ ∀ (q : Nat) (e : ℝ) (N : Nat), (1 / 4 : ℝ) ^ q < μ / (8 * (B + (L + 1) + μ)) → 0 < e →
      (B * eps) ^ 2 ≤ e →
      (∀ k, 1 ≤ k → k ≤ N → ¬ AtDegenerateCrossing eps (stateAt S fn aux0 y0 st0 k).searchState ls
        (jac (iterateAt S fn aux0 y0 st0 k)) (fn (iterateAt S fn aux0 y0 st0 k)).1) →
      (∀ k, 1 ≤ k → k ≤ N →
        e < ∑ i, (∑ m, jac (iterateAt S fn aux0 y0 st0 k) m i * (fn (iterateAt S fn aux0 y0 st0 k)).1 m) ^ 2) →
      (N : ℝ) ≤ 1600 * B * (B + (L + 1) + μ) / μ * (∑ m, (fn y0).1 m ^ 2) / e + q := by
  intro S
  obtain ⟨st0, hi⟩ : ∃ st0, S.init fn y0 = .ok st0 := ⟨_, rfl⟩
  refine ⟨st0, hi, ?_⟩
  intro q e N hq he0 hge _ hN
  set c : TrustRegion.Cfg ℝ := TrustRegion.defaults with hc
  have c1 : c.lowCutoff = 1 / 100 := by norm_num [hc, TrustRegion.defaults]
  have c2 : c.lowConstant = 1 / 4 := by norm_num [hc, TrustRegion.defaults]
  have c3 : c.highConstant = 7 / 2 := by norm_num [hc, TrustRegion.defaults]
  obtain ⟨R, hY1, ht1, _⟩ := gn_trust_run c (by rw [c2]; norm_num) (by rw [c3]; norm_num)
    (GaussNewton.dogleg eps rtol atol nY nF ls jac) rfl _ (dogleg_memoryless eps ls) aux0 fn y0 st0 hi
  set Y := iterateAt S fn aux0 y0 st0 with hYd
  set St := stateAt S fn aux0 y0 st0 with hSt
  obtain ⟨hL0, _⟩ := hS.nonneg
  set g := fun y i => ∑ m, jac y m i * (fn y).1 m with hg
  set τ := μ / (2 * (B + (L + 1) + μ)) with hτd
  have hτ : 0 < τ := by positivity
  have hτ1 : τ ≤ 1 := by rw [hτd, div_le_one (by positivity)]; linarith
  have hacc : ∀ y s, 0 < s → s ≤ τ →
      (∑ m, (fn fun i => y i + doglegStep eps s ls (jac y) (fn y).1 i).1 m ^ 2) / 2 - (∑ m, (fn y).1 m ^ 2) / 2 ≤
        1 / 100 * linearisedChange (jac y) (fn y).1 (doglegStep eps s ls (jac y) (fn y).1) :=
    fun y s h0 h1 => dogleg_trial_taken eps he ls hls jac fn L B μ hS hB hμ hrank y s h0 h1
  set tmin := μ / (8 * (B + (L + 1) + μ)) with htm
  have htm0 : 0 < tmin := by positivity
  have htmin : min ((fun k => (St (k + 1)).searchState) 0) (c.lowConstant * τ) = tmin := by
    show min (St 1).searchState (c.lowConstant * τ) = tmin
    rw [ht1, c2, min_eq_right (by linarith), htm, hτd]
    field_simp
    norm_num
  have htm1 : tmin ≤ 1 := by rw [← htmin]; exact (min_le_left _ _).trans (le_of_eq ht1)
  have hzero : ∀ y, linearisedChange (jac y) (fn y).1 (fun _ => 0) = 0 := fun y => by
    rw [linearisedChange_eq]; simp
  have h := trust_run_steps R (by rw [c1]; norm_num) (by rw [c2]; norm_num) (by rw [c2]; norm_num) (by rw [c3]; norm_num)
    τ (fun k s h0 h1 => by rw [c1]; exact hacc _ s h0 h1)
    0 (fun y => by positivity) (fun y => if ∑ i, g y i ^ 2 ≤ (B * eps) ^ 2 then 0 else ∑ i, g y i ^ 2) (tmin / (2 * B)) (by positivity)
    (fun y s hs => by
      rw [htmin] at hs
      show linearisedChange (jac y) (fn y).1 (doglegStep eps s ls (jac y) (fn y).1) ≤ _
      obtain ⟨_, hd, _⟩ := dogleg_facts eps s ls (jac y) (fn y).1 he (htm0.trans_le hs) hls B hB (hS.bounded y)
      have hG0 : 0 ≤ ∑ i, g y i ^ 2 := Finset.sum_nonneg fun i _ => sq_nonneg _
      rcases hd with ⟨h1, h2, _⟩ | h1
      · rw [h1, hzero, if_pos h2]; simp
      · have h2 : tmin / (2 * B) * ∑ i, g y i ^ 2 ≤ min s 1 / (2 * B) * ∑ i, g y i ^ 2 :=
          mul_le_mul_of_nonneg_right (div_le_div_of_nonneg_right (le_min hs htm1) (by positivity)) hG0
        refine h1.trans (neg_le_neg (le_trans (mul_le_mul_of_nonneg_left ?_ (by positivity)) h2))
        split
        · exact hG0
        · exact le_rfl) 1 q (by rw [c2, c3]; norm_num) (by
      rw [htmin]
      show c.lowConstant ^ q * (St 1).searchState < _
      rw [ht1, c2, mul_one]; exact hq) e he0 N (fun k hk => by
      have h1 := hN (k + 1) (by omega) (by omega)
      show e < if ∑ i, g (Y (k + 1)) i ^ 2 ≤ (B * eps) ^ 2 then 0 else ∑ i, g (Y (k + 1)) i ^ 2
      rw [if_neg (by
        have h1' : e < ∑ i, g (Y (k + 1)) i ^ 2 := h1
        exact not_le.2 (by linarith))]
      exact h1)
  simp only [zero_add] at h
  rw [hY1, c1] at h
  refine h.trans (le_of_eq ?_)
  rw [htm]
  push_cast
  field_simp
  ring

/-- **C111**, `IndirectLevenbergMarquardt`. -/
theorem C111_indirect [DecidableEq ι] (eps fmax rtol atol : ℝ) (he : 0 < eps) (hf : 0 < fmax)
    (nY : (ι → ℝ) → ℝ) (nF : (κ → ℝ) → ℝ) (ls : LinSolve ι κ) (hls : SolvesLeastSquares ls)
    (lsD : LinSolve ι (κ ⊕ ι)) (hlsD : SolvesLeastSquares lsD) (env : InnerEnv) (henv : ExactInner env)
    (jac : (ι → ℝ) → Matrix κ ι ℝ) (aux0 : A) (fn : (ι → ℝ) → (κ → ℝ) × A) (y0 : ι → ℝ) (L B μ : ℝ)
    (hS : SmoothResiduals (fun y => (fn y).1) jac L B) (hμ0 : 0 < μ) (hμB : μ ≤ B)
    (hrank : ∀ (y p : ι → ℝ), μ * ∑ i, p i ^ 2 ≤ ∑ m, (∑ i, jac y m i * p i) ^ 2)
    (hL : L ≤ 10 ^ 8) (hcond : eps * (40 * B * (B + L + 1)) < μ) (hok : ∀ M v, (ls.rect M v).2 = .successful) :
    let S := GaussNewton.solver (GaussNewton.indirectLevenbergMarquardt eps fmax rtol atol nY nF ls lsD
      (findLambdaNewton env 1) jac) aux0
    ∃ st0, S.init fn y0 = .ok st0 ∧ ∀ (q : Nat) (e : ℝ) (N : Nat), (1 / 4 : ℝ) ^ q < μ / (40 * (B + max L 1)) → 0 < e →
      (∀ k, 1 ≤ k → k ≤ N →
        e < ∑ i, (∑ m, jac (iterateAt S fn aux0 y0 st0 k) m i * (fn (iterateAt S fn aux0 y0 st0 k)).1 m) ^ 2) →
      (N : ℝ) ≤ 400 * (B + 40 * B * (B + max L 1) / μ) * (∑ m, (fn y0).1 m ^ 2) / e + q := by
  intro S
  obtain ⟨st0, hi⟩ : ∃ st0, S.init fn y0 = .ok st0 := ⟨_, rfl⟩
  refine ⟨st0, hi, ?_⟩
  intro q e N hq he0 hN
  set c : TrustRegion.Cfg ℝ := TrustRegion.defaults with hc
  have c1 : c.lowCutoff = 1 / 100 := by norm_num [hc, TrustRegion.defaults]
  have c2 : c.lowConstant = 1 / 4 := by norm_num [hc, TrustRegion.defaults]
  have c3 : c.highConstant = 7 / 2 := by norm_num [hc, TrustRegion.defaults]
  obtain ⟨R, hY1, ht1, _⟩ := gn_trust_run c (by rw [c2]; norm_num) (by rw [c3]; norm_num)
    (GaussNewton.indirectLevenbergMarquardt eps fmax rtol atol nY nF ls lsD (findLambdaNewton env 1) jac) rfl _
    (indirect_memoryless (κ := κ) eps fmax ls lsD env) aux0 fn y0 st0 hi
  set Y := iterateAt S fn aux0 y0 st0 with hYd
  set St := stateAt S fn aux0 y0 st0 with hSt
  have hB0 : 0 < B := hμ0.trans_le hμB
  have hm1 := le_max_right L 1
  obtain ⟨hacc, hpred⟩ := indirect_trial_facts eps fmax he hf ls hls lsD hlsD env henv jac fn L B μ hS hμ0 hμB hrank hL hcond hok
  set L' := max L 1 with hL'
  have hBL : 0 < B + L' := by linarith
  have hτ1 : μ / (10 * (B + L')) < 1 := by rw [div_lt_one (by positivity)]; linarith
  have hM : max 1 (B / (μ / (10 * (B + L')) / 4)) = 40 * B * (B + L') / μ := by
    have e1 : B / (μ / (10 * (B + L')) / 4) = 40 * B * (B + L') / μ := by field_simp; norm_num
    rw [e1, max_eq_right]
    rw [one_le_div hμ0]
    nlinarith
  rw [hM] at hpred
  have htm : μ / (10 * (B + L')) / 4 = μ / (40 * (B + L')) := by field_simp; norm_num
  have hτ0 : 0 < μ / (10 * (B + L')) := by positivity
  have htmin : min ((fun k => (St (k + 1)).searchState) 0) (c.lowConstant * (μ / (10 * (B + L')))) = μ / (10 * (B + L')) / 4 := by
    show min (St 1).searchState _ = _
    rw [ht1, c2, min_eq_right (by linarith)]; ring
  obtain ⟨_, _, srad, _⟩ := R.settles_between (by rw [c1]; norm_num) (by rw [c2]; norm_num) (by rw [c2]; norm_num)
    (by rw [c3]; norm_num) (μ / (10 * (B + L'))) hτ0
    (fun k s h1 h2 => by rw [c1]; exact hacc _ s (by rw [htmin] at h1; exact h1) h2) 0 (fun y => by positivity)
    (fun y => ∑ i, (∑ m, jac y m i * (fn y).1 m) ^ 2)
    (fun y => Finset.sum_nonneg fun i _ => sq_nonneg _) (1 / (4 * (B + 40 * B * (B + L') / μ))) (by positivity)
    (fun y s h => (hpred y s (by rw [htmin] at h; exact h)).1)
  rw [htmin] at srad
  have h := trust_run_count R (by rw [c1]; norm_num) (by rw [c2]; norm_num) (by rw [c2]; norm_num) (by rw [c3]; norm_num)
    (μ / (10 * (B + L')) / 4) srad 0 (fun y => by positivity) (fun y => ∑ i, (∑ m, jac y m i * (fn y).1 m) ^ 2)
    (1 / (4 * (B + 40 * B * (B + L') / μ))) (by positivity) (fun y s hs => (hpred y s hs).1) 1 q (by rw [c2, c3]; norm_num) (by
      show c.lowConstant ^ q * (St 1).searchState < _
      rw [ht1, c2, mul_one, htm]; exact hq) e he0 N (fun k hk => hN (k + 1) (by omega) (by omega))
  simp only [zero_add] at h
  rw [hY1, c1] at h
  refine h.trans (le_of_eq ?_)
  push_cast
  field_simp
  ring

theorem wave_rank (y p : Unit → ℝ) : 1 * ∑ i, p i ^ 2 ≤ ∑ m, (∑ i, waveJac y m i * p i) ^ 2 := by
  simp only [waveJac, Matrix.of_apply, Fintype.sum_bool, if_true, Bool.false_eq_true, if_false,
    Finset.univ_unique, Finset.sum_singleton, PUnit.default_eq_unit, one_mul]
  nlinarith [sq_nonneg (Real.cos (y ()) * p ())]

/-- On the residuals `(y, sin y)`: `Dogleg` sees a squared gradient of at most `1/100` within `1920000 |r(y0)|² + 3` steps (if it meets
no degenerate crossing before). -/
example (ls : LinSolve Unit Bool) (hls : SolvesLeastSquares ls) (y0 : Unit → ℝ) :
    let S := GaussNewton.solver (GaussNewton.dogleg (2⁻¹ ^ 52) (1/10) (1/10) maxNorm maxNorm ls waveJac) ()
    let fn := fun y => (waveResiduals y, ())
    ∃ st0, S.init fn y0 = .ok st0 ∧ ∀ N : Nat,
      (∀ k, 1 ≤ k → k ≤ N → ¬ AtDegenerateCrossing (2⁻¹ ^ 52) (stateAt S fn () y0 st0 k).searchState ls
        (waveJac (iterateAt S fn () y0 st0 k)) (waveResiduals (iterateAt S fn () y0 st0 k))) →
      (∀ k, 1 ≤ k → k ≤ N →
        1 / 100 < ∑ i, (∑ m, waveJac (iterateAt S fn () y0 st0 k) m i * waveResiduals (iterateAt S fn () y0 st0 k) m) ^ 2) →
      (N : ℝ) ≤ 1920000 * (∑ m, waveResiduals y0 m ^ 2) + 3 := by
  intro S fn
  obtain ⟨st0, hi, h⟩ := C111_dogleg (2⁻¹ ^ 52) (1/10) (1/10) (by positivity) maxNorm maxNorm ls hls waveJac () fn y0 2 2 1 wave_smooth
    (by norm_num) one_pos wave_rank
  refine ⟨st0, hi, fun N h1 h2 => (h 3 (1/100) N (by norm_num) (by norm_num) (by norm_num) h1 h2).trans (le_of_eq ?_)⟩
  show _ = 1920000 * (∑ m, (fn y0).1 m ^ 2) + 3
  push_cast
  ring

/-- The same residuals with `IndirectLevenbergMarquardt`, in double precision. -/
example (ls : LinSolve Unit Bool) (hls : SolvesLeastSquares ls) (hok : ∀ M v, (ls.rect M v).2 = .successful)
    (lsD : LinSolve Unit (Bool ⊕ Unit)) (hlsD : SolvesLeastSquares lsD) (env : InnerEnv) (henv : ExactInner env) (y0 : Unit → ℝ) :
    let S := GaussNewton.solver (GaussNewton.indirectLevenbergMarquardt (2⁻¹ ^ 52) (2 ^ 1023) (1/10) (1/10) maxNorm
      maxNorm ls lsD (findLambdaNewton env 1) waveJac) ()
    let fn := fun y => (waveResiduals y, ())
    ∃ st0, S.init fn y0 = .ok st0 ∧ ∀ N : Nat,
      (∀ k, 1 ≤ k → k ≤ N →
        1 / 100 < ∑ i, (∑ m, waveJac (iterateAt S fn () y0 st0 k) m i * waveResiduals (iterateAt S fn () y0 st0 k) m) ^ 2) →
      (N : ℝ) ≤ 12880000 * (∑ m, waveResiduals y0 m ^ 2) + 4 := by
  intro S fn
  have hm : max (2:ℝ) 1 = 2 := by norm_num
  obtain ⟨st0, hi, h⟩ := C111_indirect (2⁻¹ ^ 52) (2 ^ 1023) (1/10) (1/10) (by positivity) (by positivity) maxNorm maxNorm ls hls
    lsD hlsD env henv waveJac () fn y0 2 2 1 wave_smooth one_pos (by norm_num) wave_rank (by norm_num) (by norm_num) hok
  refine ⟨st0, hi, fun N h2 => (h 4 (1/100) N (by rw [hm]; norm_num) (by norm_num) h2).trans (le_of_eq ?_)⟩
  show _ = 12880000 * (∑ m, (fn y0).1 m ^ 2) + 4
  rw [hm]
  push_cast
  ring

end Verif.Props
