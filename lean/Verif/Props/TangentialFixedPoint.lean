import Verif.Props.FixedPointSpectral

/-!
**C159.** Fixed-point iteration at tangential fixed points.

Where the function touches the diagonal (`f'(r) = 1`) the iteration is no contraction.  It still converges to `r` from the side on
which it approaches, more slowly than every geometric sequence, and stops with success.  But the answer is then much less accurate
than the tolerance: its error is of the order of the `m`-th root of the tolerance.
-/

namespace Verif.Props

open Verif Verif.Spec Verif.Driver Verif.FixedPointIter Filter Topology

variable {A : Type}

/-- **C159.** `FixedPointIteration` in one unknown for `f(y) = y - (y - r)^m h(y)`, where `m ≥ 2` and `h` is continuous at `r` with
`h(r) > 0`, with a damping factor in `[0, 1)`.  For every `ε < h(r)` there is an interval to the right of `r` such that, from every
starting point in it,
* the iterates decrease and stay to the right of `r`; in every step the distance is multiplied by
  `1 - (1 - damp) c (y - r)^(m-1)`, where `c` is nearly `h(r)`;
* they converge to `r`, but the factors tend to one;
* the solve stops with success, given a sufficient budget;
* the `m`-th power of the error of a successful answer is at most about one tolerance, divided by `(1 - damp) h(r)`;
* and unless the solve stopped after its first step, the `m`-th power of four times the error is at least about
  `atol / ((1 - damp) h(r))`. -/
theorem C159_tangential (damp : ℝ) (hd0 : 0 ≤ damp) (hd1 : damp < 1) (h : ℝ → ℝ) (r : ℝ) (m : ℕ) (hm : 2 ≤ m) (hh : ContinuousAt h r)
    (hr0 : 0 < h r) (fn : (Unit → ℝ) → (Unit → ℝ) × A) (hfn : ∀ y, (fn y).1 = fun _ => y () - (y () - r) ^ m * h (y ())) (aux0 : A)
    (ε : ℝ) (hε : 0 < ε) (hε1 : ε < h r) : ∃ δ, 0 < δ ∧ ∀ y0 : Unit → ℝ, r < y0 () → y0 () ≤ r + δ →
    ∀ rtol atol : ℝ, 0 ≤ rtol → 0 < atol →
    let S := FixedPointIter.solver (A := A) { rtol, atol, norm := maxNorm (ι := Unit), damp }
    let Y := iterateAt S fn aux0 y0 none
    (∀ k, r < Y (k + 1) () ∧ Y (k + 1) () < Y k () ∧
      ∃ c, |c - h r| ≤ ε ∧ Y (k + 1) () - r = (1 - (1 - damp) * c * (Y k () - r) ^ (m - 1)) * (Y k () - r)) ∧
    Tendsto (fun k => Y k ()) atTop (𝓝 r) ∧ Tendsto (fun k => (Y (k + 1) () - r) / (Y k () - r)) atTop (𝓝 1) ∧
    (∃ N, ∀ (ms : Option ℕ) (throw : Bool), (∀ n, ms = some n → N ≤ n) →
      ∃ sol, iterativeSolve S (fun _ => true) fn aux0 y0 ms throw = some (.ok sol) ∧ sol.result = .successful) ∧
    ∀ ms throw sol, iterativeSolve S (fun _ => true) fn aux0 y0 ms throw = some (.ok sol) → sol.result = .successful →
      0 < sol.value () - r ∧ (1 - damp) * (h r - ε) * (sol.value () - r) ^ m ≤ atol + rtol * |sol.value ()| ∧
      (2 ≤ sol.numSteps → atol ≤ (1 - damp) * (h r + ε) * (4 * (sol.value () - r)) ^ m) := by
  have hw : 0 < 1 - damp := by linarith
  obtain ⟨δ₁, hδ₁, hball⟩ := Metric.eventually_nhds_iff.1 (hh.eventually (Metric.ball_mem_nhds _ hε))
  have hH : 0 < h r + ε := by linarith
  refine ⟨min (δ₁ / 2) (min 1 (1 / (2 * (h r + ε)))), by positivity, fun y0 hy0 hclose rtol atol hrt hat => ?_⟩
  set δ := min (δ₁ / 2) (min 1 (1 / (2 * (h r + ε)))) with hδd
  have d1 : δ ≤ δ₁ / 2 := min_le_left _ _
  have d2 : δ ≤ 1 := (min_le_right _ _).trans (min_le_left _ _)
  have d3 : δ ≤ 1 / (2 * (h r + ε)) := (min_le_right _ _).trans (min_le_right _ _)
  have hδ0 : 0 < δ := by positivity
  intro S Y
  have hm1 : m - 1 ≠ 0 := by omega
  have hpm : ∀ x : ℝ, x ^ m = x ^ (m - 1) * x := fun x => by rw [← pow_succ, Nat.sub_add_cancel (by omega)]
  -- one step
  have hnext : ∀ k, Y (k + 1) () = Y k () - (1 - damp) * ((Y k () - r) ^ m * h (Y k ())) := by
    intro k
    have e : Y (k + 1) () = (1 - damp) * (fn (Y k)).1 () + damp * Y k () := rfl
    rw [e, hfn]; ring
  have hcb : ∀ x, r < x → x ≤ r + δ → |h x - h r| ≤ ε ∧ 0 < h x ∧ (1 - damp) * h x * (x - r) ^ (m - 1) ≤ 1 / 2 ∧
      0 < (1 - damp) * h x * (x - r) ^ (m - 1) := by
    intro x hx hxδ
    have h1 : |h x - h r| < ε := by
      have := hball (y := x) (by rw [Real.dist_eq, abs_of_pos (by linarith)]; linarith)
      exact this
    obtain ⟨h2, h3⟩ := abs_lt.1 h1
    have h4 : 0 < h x := by linarith
    have h5 : 0 < x - r := by linarith
    have h6 : (x - r) ^ (m - 1) ≤ x - r := pow_le_of_le_one h5.le (by linarith) hm1
    have h7 : (x - r) ^ (m - 1) ≤ 1 / (2 * (h r + ε)) := by linarith
    refine ⟨h1.le, h4, ?_, by positivity⟩
    calc (1 - damp) * h x * (x - r) ^ (m - 1) ≤ (1 * (h r + ε)) * (1 / (2 * (h r + ε))) :=
          mul_le_mul (mul_le_mul (by linarith) (by linarith) h4.le zero_le_one) h7 (pow_nonneg h5.le _) (by linarith)
      _ = 1 / 2 := by field_simp
  have hfac : ∀ k, Y (k + 1) () - r = (1 - (1 - damp) * h (Y k ()) * (Y k () - r) ^ (m - 1)) * (Y k () - r) := by
    intro k
    rw [hnext, hpm]; ring
  have all : ∀ k, r < Y k () ∧ Y k () ≤ r + δ := by
    intro k
    induction k with
    | zero => exact ⟨hy0, hclose⟩
    | succ k ih =>
      obtain ⟨_, _, h3, h4⟩ := hcb _ ih.1 ih.2
      have h5 : 0 < Y k () - r := by linarith [ih.1]
      have h6 := hfac k
      constructor
      · have := mul_pos (show 0 < 1 - (1 - damp) * h (Y k ()) * (Y k () - r) ^ (m - 1) by linarith) h5
        linarith
      · have := mul_le_of_le_one_left h5.le (show 1 - (1 - damp) * h (Y k ()) * (Y k () - r) ^ (m - 1) ≤ 1 by linarith)
        linarith [ih.2]
  have hpos : ∀ k, 0 < Y k () - r := fun k => by linarith [(all k).1]
  have hdec : ∀ k, Y (k + 1) () < Y k () := by
    intro k
    obtain ⟨_, _, _, h4⟩ := hcb _ (all k).1 (all k).2
    have := mul_pos h4 (hpos k)
    linarith [hfac k]
  have hhalf : ∀ k, (Y k () - r) ≤ 2 * (Y (k + 1) () - r) := by
    intro k
    obtain ⟨_, _, h3, _⟩ := hcb _ (all k).1 (all k).2
    have := mul_le_mul_of_nonneg_right (show 1 / 2 ≤ 1 - (1 - damp) * h (Y k ()) * (Y k () - r) ^ (m - 1) by linarith) (hpos k).le
    linarith [hfac k]
  -- convergence
  set p := fun k => Y k () - r with hp
  have hp0 : Tendsto p atTop (𝓝 0) := by
    have hanti : Antitone p := antitone_nat_of_succ_le fun k => by
      have := hdec k; simp only [hp]; linarith
    have hbdd : BddBelow (Set.range p) := ⟨0, by rintro _ ⟨k, rfl⟩; exact (hpos k).le⟩
    have hL := tendsto_atTop_ciInf hanti hbdd
    set L := ⨅ k, p k
    have hLk : ∀ k, L ≤ p k := fun k => ciInf_le hbdd k
    rcases (le_ciInf fun k => (hpos k).le : (0:ℝ) ≤ L).eq_or_lt with h0 | h0
    · rw [h0]; exact hL
    · exfalso
      set q := 1 - (1 - damp) * (h r - ε) * L ^ (m - 1) with hqd
      have hLp : 0 < L ^ (m - 1) := pow_pos h0 _
      have hle : ∀ k, (1 - damp) * (h r - ε) * L ^ (m - 1) ≤ (1 - damp) * h (Y k ()) * (Y k () - r) ^ (m - 1) := by
        intro k
        obtain ⟨h1, h2, _, _⟩ := hcb _ (all k).1 (all k).2
        have h3 := (abs_le.1 h1).1
        exact mul_le_mul (mul_le_mul_of_nonneg_left (by linarith) hw.le) (pow_le_pow_left₀ h0.le (hLk k) _) hLp.le
          (mul_nonneg hw.le h2.le)
      have hq1 : q < 1 := by
        have := mul_pos (mul_pos hw (sub_pos.2 hε1)) hLp
        linarith
      have hq0 : 0 ≤ q := by
        have h1 := hle 0
        obtain ⟨_, _, h3, _⟩ := hcb _ (all 0).1 (all 0).2
        linarith
      have hgeo : ∀ k, p k ≤ q ^ k * p 0 := by
        intro k
        induction k with
        | zero => rw [pow_zero, one_mul]
        | succ k ih =>
          have h1 : p (k + 1) = (1 - (1 - damp) * h (Y k ()) * (Y k () - r) ^ (m - 1)) * p k := hfac k
          rw [h1, pow_succ, mul_comm (q ^ k), mul_assoc q]
          exact mul_le_mul (by simp only [hqd]; linarith [hle k]) ih (hpos k).le hq0
      have h1 := (tendsto_pow_atTop_nhds_zero_of_lt_one hq0 hq1).mul_const (p 0)
      rw [zero_mul] at h1
      have := le_of_tendsto_of_tendsto' tendsto_const_nhds h1 (fun k => (hLk k).trans (hgeo k))
      linarith
  have hlim : Tendsto (fun k => Y k ()) atTop (𝓝 r) := by
    have h1 := hp0.add_const r
    rw [zero_add] at h1
    exact h1.congr fun k => by simp only [hp]; ring
  refine ⟨fun k => ⟨(all (k + 1)).1, hdec k, h (Y k ()), (hcb _ (all k).1 (all k).2).1, hfac k⟩, hlim, ?_, ?_, ?_⟩
  · have hpm0 : Tendsto (fun k => 1 - (h r + ε) * p k ^ (m - 1)) atTop (𝓝 1) := by
      have h1 := ((hp0.pow (m - 1)).const_mul (h r + ε)).const_sub 1
      rwa [zero_pow hm1, mul_zero, sub_zero] at h1
    refine tendsto_of_tendsto_of_tendsto_of_le_of_le hpm0 tendsto_const_nhds (fun k => ?_) (fun k => ?_) <;>
    · obtain ⟨h1, h2, h3, h4⟩ := hcb _ (all k).1 (all k).2
      have h5 := (abs_le.1 h1).2
      have h6 : (1 - damp) * h (Y k ()) ≤ 1 * (h r + ε) := mul_le_mul (by linarith) (by linarith) h2.le zero_le_one
      have h7 := mul_le_mul_of_nonneg_right h6 (pow_nonneg (hpos k).le (m - 1))
      simp only [hp]
      rw [hfac, mul_div_assoc, div_self (hpos k).ne', mul_one]
      linarith
  · exact fp_stops { rtol, atol, norm := maxNorm (ι := Unit), damp } fn aux0 (goodNorm_maxNorm (ι := Unit)) hat hrt y0 (fun _ => r)
      (tendsto_pi_nhds.2 fun _ => hlim)
  · intro ms throw sol hsol hs
    -- what a passed test says
    have htest : ∀ k, maxNorm (fun i => (Y k i - Y (k + 1) i) / (atol + rtol * |Y (k + 1) i|)) < 1 ↔
        (1 - damp) * h (Y k ()) * (Y k () - r) ^ m < atol + rtol * |Y (k + 1) ()| := by
      intro k
      have hsc : 0 < atol + rtol * |Y (k + 1) ()| := add_pos_of_pos_of_nonneg hat (mul_nonneg hrt (abs_nonneg _))
      have e : Y k () - Y (k + 1) () = (1 - damp) * h (Y k ()) * (Y k () - r) ^ m := by rw [hnext]; ring
      rw [maxNorm_lt_iff]
      constructor
      · rintro ⟨_, h1⟩
        have h2 := h1 ()
        rw [abs_div, abs_of_pos hsc, abs_of_pos (by linarith [hdec k]), div_lt_one hsc, e] at h2
        exact h2
      · intro h1
        refine ⟨one_pos, fun i => ?_⟩
        rw [abs_div, abs_of_pos hsc, abs_of_pos (by linarith [hdec k]), div_lt_one hsc]
        show Y k () - Y (k + 1) () < _
        rw [e]; exact h1
    obtain ⟨k, hk, hv, _, hlt⟩ := C20_success_certificate _ fn aux0 y0 _ ms throw sol hsol hs
    rw [← fp_iterate_eq { rtol, atol, norm := maxNorm (ι := Unit), damp } fn aux0 y0 k] at hv hlt
    have hv' : sol.value = Y (k + 1) := hv
    have hlt' : maxNorm (fun i => (Y k i - Y (k + 1) i) / (atol + rtol * |Y (k + 1) i|)) < 1 := by
      rw [hv'] at hlt; exact hlt
    rw [htest] at hlt'
    rw [hv']
    refine ⟨hpos (k + 1), ?_, fun h2 => ?_⟩
    · obtain ⟨h1, h2, _, _⟩ := hcb _ (all k).1 (all k).2
      have h3 := (abs_le.1 h1).1
      refine le_trans ?_ hlt'.le
      exact mul_le_mul (mul_le_mul_of_nonneg_left (by linarith) hw.le)
        (pow_le_pow_left₀ (hpos (k + 1)).le (by linarith [hdec k]) m) (pow_nonneg (hpos (k + 1)).le _) (mul_nonneg hw.le h2.le)
    · obtain ⟨j, rfl⟩ : ∃ j, k = j + 1 := ⟨k - 1, by omega⟩
      have hnot : ¬ maxNorm (fun i => (Y j i - Y (j + 1) i) / (atol + rtol * |Y (j + 1) i|)) < 1 := by
        intro hj
        obtain ⟨sol', h1, _, h3⟩ := fp_succeeds { rtol, atol, norm := maxNorm (ι := Unit), damp } fn aux0 y0 ms throw j hj (fun n hn => by
          have := (C01_step_budget _ _ _ _ _ _ _ _ hsol).1 n hn
          omega)
        have h4 : some (Except.ok sol) = some (Except.ok sol') := hsol.symm.trans h1
        have h5 : sol = sol' := by injection h4 with h4; injection h4
        rw [← h5] at h3
        omega
      rw [htest, not_lt] at hnot
      obtain ⟨h1, h2, _, _⟩ := hcb _ (all j).1 (all j).2
      have h3 := (abs_le.1 h1).2
      have h4 : Y j () - r ≤ 4 * (Y (j + 1 + 1) () - r) := by linarith [hhalf j, hhalf (j + 1)]
      calc atol ≤ atol + rtol * |Y (j + 1) ()| := by linarith [mul_nonneg hrt (abs_nonneg (Y (j + 1) ()))]
        _ ≤ _ := hnot
        _ ≤ _ := mul_le_mul (mul_le_mul_of_nonneg_left (by linarith) hw.le) (pow_le_pow_left₀ (hpos j).le h4 m)
            (pow_nonneg (hpos j).le _) (mul_nonneg hw.le hH.le)

/-- **C159.** The other side, for even `m`: from every starting point to the left of `r` and near enough, `FixedPointIteration` moves away
from `r` in every step until it has left a neighbourhood of `r` which does not depend on the starting point. -/
theorem C159_repelled (damp : ℝ) (hd1 : damp < 1) (h : ℝ → ℝ) (r : ℝ) (m : ℕ) (hm : Even m) (hh : ContinuousAt h r)
    (hr0 : 0 < h r) (fn : (Unit → ℝ) → (Unit → ℝ) × A) (hfn : ∀ y, (fn y).1 = fun _ => y () - (y () - r) ^ m * h (y ())) (aux0 : A) :
    ∃ δ, 0 < δ ∧ ∀ y0 : Unit → ℝ, y0 () < r → r - δ ≤ y0 () → ∀ (rtol atol : ℝ) (norm : (Unit → ℝ) → ℝ),
    let Y := iterateAt (FixedPointIter.solver (A := A) { rtol, atol, norm, damp }) fn aux0 y0 none
    ∃ n, Y n () < r - δ ∧ ∀ k < n, r - δ ≤ Y k () ∧ Y (k + 1) () < Y k () := by
  have hw : 0 < 1 - damp := by linarith
  obtain ⟨δ₁, hδ₁, hball⟩ := Metric.eventually_nhds_iff.1 (hh.eventually (Metric.ball_mem_nhds _ (half_pos hr0)))
  refine ⟨δ₁ / 2, half_pos hδ₁, fun y0 hy0 hclose rtol atol norm => ?_⟩
  intro Y
  have hnext : ∀ k, Y (k + 1) () = Y k () - (1 - damp) * ((Y k () - r) ^ m * h (Y k ())) := by
    intro k
    have e : Y (k + 1) () = (1 - damp) * (fn (Y k)).1 () + damp * Y k () := rfl
    rw [e, hfn]; ring
  set s := (1 - damp) * ((r - y0 ()) ^ m * (h r / 2)) with hs
  have hs0 : 0 < s := mul_pos hw (mul_pos (pow_pos (by linarith) _) (half_pos hr0))
  have hstep : ∀ k, r - δ₁ / 2 ≤ Y k () → Y k () ≤ y0 () → Y (k + 1) () ≤ Y k () - s := by
    intro k h1 h2
    have h3 := hball (y := Y k ()) (by rw [Real.dist_eq, abs_of_neg (by linarith)]; linarith)
    change |h (Y k ()) - h r| < h r / 2 at h3
    have h4 := (abs_lt.1 h3).1
    have h5 : (r - y0 ()) ^ m ≤ (Y k () - r) ^ m := by
      rw [← hm.neg_pow (Y k () - r), neg_sub]
      exact pow_le_pow_left₀ (by linarith) (by linarith) m
    have h6 : (r - y0 ()) ^ m * (h r / 2) ≤ (Y k () - r) ^ m * h (Y k ()) :=
      mul_le_mul h5 (by linarith) (by linarith) (hm.pow_nonneg _)
    rw [hnext]
    linarith [mul_le_mul_of_nonneg_left h6 hw.le]
  have hex : ∃ n, Y n () < r - δ₁ / 2 := by
    by_contra hno
    push Not at hno
    have hall : ∀ k : ℕ, Y k () ≤ y0 () - k * s := by
      intro k
      induction k with
      | zero => simp only [Nat.cast_zero, zero_mul, sub_zero]; exact le_refl (y0 ())
      | succ k ih =>
        have := hstep k (hno k) (ih.trans (by linarith [mul_nonneg (Nat.cast_nonneg (α := ℝ) k) hs0.le]))
        push_cast
        linarith
    obtain ⟨N, hN⟩ := exists_nat_gt (δ₁ / s)
    rw [div_lt_iff₀ hs0] at hN
    linarith [hall N, hno N]
  classical
  refine ⟨Nat.find hex, Nat.find_spec hex, ?_⟩
  have hin : ∀ k < Nat.find hex, r - δ₁ / 2 ≤ Y k () := fun k hk => not_lt.1 (Nat.find_min hex hk)
  have hle : ∀ k ≤ Nat.find hex, Y k () ≤ y0 () := by
    intro k
    induction k with
    | zero => exact fun _ => le_refl (y0 ())
    | succ k ih => exact fun hk => by linarith [hstep k (hin k (by omega)) (ih (by omega)), ih (by omega)]
  exact fun k hk => ⟨hin k hk, by linarith [hstep k (hin k hk) (hle k hk.le)]⟩

/-! ### The hypotheses are met -/

/-- For `f(y) = y - y²` the error of an answer with the tolerance `atol` is at least about `√atol / 5`; and there are starting points and
tolerances for which the solve succeeds after two or more steps. -/
example : ∃ δ : ℝ, 0 < δ ∧ (∀ y0 : Unit → ℝ, 0 < y0 () → y0 () ≤ 0 + δ → ∀ atol : ℝ, 0 < atol → ∀ ms throw sol,
    iterativeSolve (FixedPointIter.solver { rtol := 0, atol, norm := maxNorm (ι := Unit), damp := 0 }) (fun _ => true)
      (fun y => ((fun _ => y () - (y () - 0) ^ 2 * 1), ())) () y0 ms throw = some (.ok sol) → sol.result = .successful →
    2 ≤ sol.numSteps → atol ≤ 24 * (sol.value () - 0) ^ 2) ∧
    ∃ y0 : Unit → ℝ, 0 < y0 () ∧ y0 () ≤ 0 + δ ∧ ∃ atol : ℝ, 0 < atol ∧ ∃ sol,
    iterativeSolve (FixedPointIter.solver { rtol := 0, atol, norm := maxNorm (ι := Unit), damp := 0 }) (fun _ => true)
      (fun y => ((fun _ => y () - (y () - 0) ^ 2 * 1), ())) () y0 none false = some (.ok sol) ∧ sol.result = .successful ∧
    2 ≤ sol.numSteps := by
  obtain ⟨δ, hδ, h⟩ := C159_tangential 0 le_rfl zero_lt_one (fun _ => 1) 0 2 le_rfl continuousAt_const one_pos
    (fun y => ((fun _ => y () - (y () - 0) ^ 2 * 1), ())) (fun _ => rfl) () (1 / 2) (by norm_num) (by norm_num)
  refine ⟨δ, hδ, fun y0 h1 h2 atol ha ms throw sol hsol hs hn => ?_, ?_⟩
  · obtain ⟨_, _, _, _, h3⟩ := h y0 h1 h2 0 atol le_rfl ha
    have h4 := (h3 ms throw sol hsol hs).2.2 hn
    nlinarith [h4]
  · set e := min δ (1 / 2) with he
    have he0 : 0 < e := by positivity
    have he1 : e ≤ 1 / 2 := min_le_right _ _
    have he2 : e ≤ 0 + δ := by rw [zero_add]; exact min_le_left _ _
    obtain ⟨_, _, _, ⟨N, h4⟩, h5⟩ := h (fun _ => e) he0 he2 0 (e ^ 2 / 16) le_rfl (by positivity)
    obtain ⟨sol, h6, h7⟩ := h4 none false (fun n hn => by simp at hn)
    refine ⟨fun _ => e, he0, he2, e ^ 2 / 16, by positivity, sol, h6, h7, ?_⟩
    obtain ⟨k, hk, hv, -, -⟩ := C20_success_certificate _ _ _ _ _ _ _ _ h6 h7
    by_contra hlt
    obtain rfl : k = 0 := by omega
    have h8 := (h5 none false sol h6 h7).2.1
    have h9 : sol.value () = e - e ^ 2 := by
      rw [hv]
      simp
    rw [h9] at h8
    have h10 : e / 2 ≤ e - e ^ 2 := by nlinarith
    have h11 : (e / 2) ^ 2 ≤ (e - e ^ 2) ^ 2 := pow_le_pow_left₀ (by positivity) h10 2
    nlinarith [sq_nonneg e, pow_pos he0 2]

/-- `f(y) = y - y²` from a negative starting point, with damping. -/
example : ∃ δ : ℝ, 0 < δ ∧ ∃ n, iterateAt (FixedPointIter.solver { rtol := 0, atol := 1, norm := maxNorm (ι := Unit), damp := 1 / 2 })
    (fun y => ((fun _ => y () - (y () - 0) ^ 2 * 1), ())) () (fun _ => -δ / 2) none n () < 0 - δ := by
  obtain ⟨δ, hδ, h⟩ := C159_repelled (1 / 2) (by norm_num) (fun _ => 1) 0 2 (by decide) continuousAt_const one_pos
    (fun y => ((fun _ => y () - (y () - 0) ^ 2 * 1), ())) (fun _ => rfl) ()
  obtain ⟨n, h1, _⟩ := h (fun _ => -δ / 2) (by show -δ / 2 < 0; linarith) (by show 0 - δ ≤ -δ / 2; linarith) 0 1 (maxNorm (ι := Unit))
  exact ⟨δ, hδ, n, h1⟩

end Verif.Props
