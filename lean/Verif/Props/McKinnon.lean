import Verif.Props.NelderMeadMoves
import Verif.Props.NelderMeadSimplex
import Verif.Props.Curvature

/-!
Property C101: does a successful `NelderMead` solve of a strongly convex problem end near the minimum?

It does not: McKinnon's example (SIAM J. Optim. 9, 1998) applies to the code.  From an initial simplex of the ordinary kind the
solver makes inner contractions only, towards a vertex at which the gradient is not zero, which is the starting point.
-/

namespace Verif.Props

open Verif Verif.Spec Verif.Driver Verif.NelderMead Filter Topology

section contraction

variable {ι A : Type} (fn : (ι → ℝ) → Val × A) (O : ι → ℝ) (P : ℕ → ι → ℝ)

/-- The position of the `k`-th point in the simplex. -/
def slot (k : ℕ) : Fin 3 := if k % 2 = 0 then 1 else 2

theorem slot_succ_ne (k : ℕ) : slot (k + 1) ≠ slot k ∧ slot k ≠ 0 ∧ slot (k + 1) ≠ 0 ∧ slot (k + 2) = slot k := by
  unfold slot
  rcases Nat.mod_two_eq_zero_or_one k with h | h
  · have h1 : (k + 1) % 2 = 1 := by omega
    have h2 : (k + 2) % 2 = 0 := by omega
    simp [h, h1, h2]
  · have h1 : (k + 1) % 2 = 0 := by omega
    have h2 : (k + 2) % 2 = 1 := by omega
    simp [h, h1, h2]

theorem slot_cases (k : ℕ) (j : Fin 3) : j = 0 ∨ j = slot k ∨ j = slot (k + 1) := by
  unfold slot
  rcases Nat.mod_two_eq_zero_or_one k with h | h
  · have h1 : (k + 1) % 2 = 1 := by omega
    simp only [h, h1]
    fin_cases j <;> simp
  · have h1 : (k + 1) % 2 = 0 := by omega
    simp only [h, h1]
    fin_cases j <;> simp

/-- The simplex consists of `O` and of two consecutive points of the sequence. -/
structure Contracting (st : State 3 ι A) (k : ℕ) : Prop where
  inv : NMInv fn st
  zero : st.simplex 0 = O
  high : st.simplex (slot k) = P k
  low : st.simplex (slot (k + 1)) = P (k + 1)
  worst : st.worst = P k
  best : st.best = O

variable (hO : ∀ k, (fn O).1 < (fn (P k)).1) (hdec : ∀ k, (fn (P (k + 1))).1 < (fn (P k)).1)

include hO hdec in
theorem contracting_indices (st : State 3 ι A) (k : ℕ) (inv : NMInv fn st) (h0 : st.simplex 0 = O)
    (h1 : st.simplex (slot k) = P k) (h2 : st.simplex (slot (k + 1)) = P (k + 1)) :
    st.bestIndex = 0 ∧ st.worstIndex = slot k := by
  constructor
  · rw [inv.bestIndex]
    apply topMin_unique
    intro j hj
    rw [inv.values, inv.values, h0]
    rcases slot_cases k j with rfl | rfl | rfl
    · exact absurd rfl hj
    · rw [h1]; exact hO _
    · rw [h2]; exact hO _
  · rw [inv.worstIndex]
    apply topMax_unique
    intro j hj
    rw [inv.values, inv.values, h1]
    rcases slot_cases k j with rfl | rfl | rfl
    · rw [h0]; exact hO _
    · exact absurd rfl hj
    · rw [h2]; exact hdec _

theorem sum_slots (k : ℕ) (g : Fin 3 → ℝ) : ∑ j, g j = g 0 + g (slot k) + g (slot (k + 1)) := by
  rw [Fin.sum_univ_three]
  unfold slot
  rcases Nat.mod_two_eq_zero_or_one k with h | h
  · have h1 : (k + 1) % 2 = 1 := by omega
    simp [h, h1]
  · have h1 : (k + 1) % 2 = 0 := by omega
    simp only [h, h1]
    simp; ring

include hO hdec in
theorem contracting_step (hP : ∀ k c, P (k + 2) c = O c / 4 + P (k + 1) c / 4 + P k c / 2)
    (hrefl : ∀ k, (fn (P k)).1 < (fn fun c => O c + P (k + 1) c - P k c).1)
    (st : State 3 ι A) (y : ι → ℝ) (k : ℕ) (h : Contracting fn O P st k) :
    Contracting fn O P (NelderMead.step fn y st).2.1 (k + 1) ∧ (NelderMead.step fn y st).1 = O := by
  obtain ⟨hs1, hs2, hs3, hs4⟩ := slot_succ_ne k
  obtain ⟨hb, hw⟩ := contracting_indices fn O P hO hdec st k h.inv h.zero h.high h.low
  have hfb : st.fBest = (fn O).1 := by rw [h.inv.best, hb, h.inv.values, h.zero]
  have hfw : st.fWorst = (fn (P k)).1 := by rw [h.inv.worst, hw, h.inv.values, h.high]
  have hdir : ∀ t, along st.worst (searchDirection st.simplex st.worst) t =
      fun c => P k c + t * ((O c + P (k + 1) c - 2 * P k c) / 2) := by
    intro t
    funext c
    unfold along searchDirection
    rw [sum_slots k, h.worst, h.zero, h.high, h.low]
    push_cast
    field_simp
    ring
  have hr : reflectionOf st = fun c => O c + P (k + 1) c - P k c := by
    rw [reflectionOf, hdir]; funext c; ring
  have htr : trialOf fn st = P (k + 2) := by
    rw [trial_rule fn (by norm_num) st h.inv, hdir]
    have hlt := hrefl k
    have c1 : ¬ (fn (reflectionOf st)).1 < st.fBest := by rw [hr, hfb]; exact not_lt.2 ((hO k).trans hlt).le
    have c3 : ¬ (fn (reflectionOf st)).1 ≤ st.fWorst := by rw [hr, hfw]; exact not_le.2 hlt
    have c2 : ¬ (fn (reflectionOf st)).1 ≤ st.fSecondWorst :=
      fun hc => c3 (hc.trans (nm_second_le_worst fn (by norm_num) st h.inv))
    rw [moveFactor, if_neg c1, if_neg c2, if_neg c3]
    funext c
    rw [hP]; ring
  have hns : ¬ Shrinks fn st := by
    unfold Shrinks
    rw [htr, hfw]
    exact not_lt.2 ((hdec (k + 1)).trans (hdec k)).le
  obtain ⟨h1, -, h3⟩ := nm_update fn st y h.inv hns
  rw [hw, htr] at h1
  have e0 : (NelderMead.step fn y st).2.1.simplex 0 = O := by rw [h1]; simp only [if_neg hs2.symm]; exact h.zero
  have e1 : (NelderMead.step fn y st).2.1.simplex (slot (k + 1)) = P (k + 1) := by
    rw [h1]; simp only [if_neg hs1]; exact h.low
  have e2 : (NelderMead.step fn y st).2.1.simplex (slot (k + 1 + 1)) = P (k + 1 + 1) := by
    rw [h1]
    exact if_pos hs4
  obtain ⟨hb', hw'⟩ := contracting_indices fn O P hO hdec _ (k + 1) h3 e0 e1 e2
  have hy : (NelderMead.step fn y st).1 = O := by rw [nm_iterate, hb', h.zero]
  refine ⟨⟨h3, e0, e1, e2, ?_, ?_⟩, hy⟩
  · show st.simplex (NelderMead.step fn y st).2.1.worstIndex = _
    rw [hw', h.low]
  · show st.simplex (NelderMead.step fn y st).2.1.bestIndex = _
    rw [hb', h.zero]

include hO hdec in
/-- From such an initial simplex the solver contracts for ever. -/
theorem contracting_run (hP : ∀ k c, P (k + 2) c = O c / 4 + P (k + 1) c / 4 + P k c / 2)
    (hrefl : ∀ k, (fn (P k)).1 < (fn fun c => O c + P (k + 1) c - P k c).1)
    (cfg : Cfg 3 ι) (aux0 : A) (y0 : ι → ℝ) (st0 : State 3 ι A) (hi : (NelderMead.solver cfg aux0).init fn y0 = .ok st0)
    (h0 : cfg.mkSimplex y0 0 = O) (h1 : cfg.mkSimplex y0 1 = P 0) (h2 : cfg.mkSimplex y0 2 = P 1) (k : ℕ) :
    Contracting fn O P (stateAt (NelderMead.solver cfg aux0) fn aux0 y0 st0 (k + 1)) k ∧
    iterateAt (NelderMead.solver cfg aux0) fn aux0 y0 st0 (k + 1) = O := by
  induction k with
  | zero =>
    obtain ⟨-, hfp, hsx, -⟩ := nm_init cfg aux0 fn y0 st0 hi
    obtain ⟨f1, f2, f3, -⟩ := nm_first fn st0 y0 hfp
    have e0 : (NelderMead.step fn y0 st0).2.1.simplex 0 = O := by rw [f1, hsx, h0]
    have e1 : (NelderMead.step fn y0 st0).2.1.simplex (slot 0) = P 0 := by rw [f1, hsx]; exact h1
    have e2 : (NelderMead.step fn y0 st0).2.1.simplex (slot (0 + 1)) = P (0 + 1) := by rw [f1, hsx]; exact h2
    obtain ⟨hb, hw⟩ := contracting_indices fn O P hO hdec _ 0 f2 e0 e1 e2
    refine ⟨⟨f2, e0, e1, e2, ?_, ?_⟩, ?_⟩
    · show st0.simplex (NelderMead.step fn y0 st0).2.1.worstIndex = _
      rw [hw, hsx]; exact h1
    · show st0.simplex (NelderMead.step fn y0 st0).2.1.bestIndex = _
      rw [hb, hsx, h0]
    · show (NelderMead.step fn y0 st0).1 = O
      rw [f3, hb, hsx, h0]
  | succ k ih =>
    exact contracting_step fn O P hO hdec hP hrefl _ (iterateAt (NelderMead.solver cfg aux0) fn aux0 y0 st0 (k + 1)) k ih.1

/-- If moreover the points converge to `O` and their values to that of `O`, the solver stops and returns `O`. -/
theorem contracting_solve [Fintype ι] {n : ℕ} [NeZero n] (hn : n = 3) (cfg : Cfg n ι) (aux0 : A) (hX : GoodNorm cfg.normX)
    (hF : GoodNorm cfg.normF) (ha : 0 < cfg.atol) (hr : 0 ≤ cfg.rtol) (g : (ι → ℝ) → ℝ) (hg : ∀ y, (fn y).1 = (g y : Val))
    (hO : ∀ k, g O < g (P k)) (hdec : ∀ k, g (P (k + 1)) < g (P k))
    (hP : ∀ k c, P (k + 2) c = O c / 4 + P (k + 1) c / 4 + P k c / 2)
    (hrefl : ∀ k, g (P k) < g fun c => O c + P (k + 1) c - P k c)
    (hlim : ∀ c, Tendsto (fun k => P k c) atTop (𝓝 (O c))) (hglim : Tendsto (fun k => g (P k)) atTop (𝓝 (g O)))
    (h0 : ∀ v : Fin n, v.1 = 0 → cfg.mkSimplex O v = O) (h1 : ∀ v : Fin n, v.1 = 1 → cfg.mkSimplex O v = P 0)
    (h2 : ∀ v : Fin n, v.1 = 2 → cfg.mkSimplex O v = P 1) (af : (ι → ℝ) → Bool) (haf : af O = true) :
    ∃ N, ∀ (ms : Option ℕ) (throw : Bool), (∀ m, ms = some m → N ≤ m) →
      ∃ sol, iterativeSolve (NelderMead.solver cfg aux0) af fn aux0 O ms throw = some (.ok sol) ∧
        sol.result = .successful ∧ sol.value = O := by
  subst hn
  have hO' : ∀ k, (fn O).1 < (fn (P k)).1 := fun k => by rw [hg, hg]; exact WithTop.coe_lt_coe.2 (hO k)
  have hdec' : ∀ k, (fn (P (k + 1))).1 < (fn (P k)).1 := fun k => by rw [hg, hg]; exact WithTop.coe_lt_coe.2 (hdec k)
  have hrefl' : ∀ k, (fn (P k)).1 < (fn fun c => O c + P (k + 1) c - P k c).1 := fun k => by
    rw [hg, hg]; exact WithTop.coe_lt_coe.2 (hrefl k)
  obtain ⟨st0, hi⟩ : ∃ st0, (NelderMead.solver cfg aux0).init fn O = .ok st0 := by
    show ∃ st0, init cfg aux0 O = .ok st0
    unfold init
    rw [if_neg (by norm_num)]
    exact ⟨_, rfl⟩
  have hrun := contracting_run fn O P hO' hdec' hP hrefl' cfg aux0 O st0 hi (h0 0 rfl) (h1 1 rfl) (h2 2 rfl)
  have hit : ∀ j, iterateAt (NelderMead.solver cfg aux0) fn aux0 O st0 j = O := by
    intro j
    cases j with
    | zero => rfl
    | succ j => exact (hrun j).2
  have hfb : ∀ k, (stateAt (NelderMead.solver cfg aux0) fn aux0 O st0 (k + 1)).fBest = (g O : Val) := by
    intro k
    have h := (hrun k).1
    obtain ⟨hb, -⟩ := contracting_indices fn O P hO' hdec' _ k h.inv h.zero h.high h.low
    rw [h.inv.best, hb, h.inv.values, h.zero, hg]
  obtain ⟨δ, hδ, hδX, hδF⟩ := small_enough hX hF cfg.atol ha
  have ev : ∀ᶠ k in atTop, (∀ c, |P k c - O c| ≤ δ) ∧ |g (P k) - g O| ≤ δ := by
    refine (eventually_all.2 fun c => ?_).and ?_
    · filter_upwards [Metric.tendsto_nhds.1 (hlim c) δ hδ] with k hk
      rw [Real.dist_eq] at hk; exact hk.le
    · filter_upwards [Metric.tendsto_nhds.1 hglim δ hδ] with k hk
      rw [Real.dist_eq] at hk; exact hk.le
  obtain ⟨K, hK⟩ := eventually_atTop.1 ev
  have hstop : (NelderMead.terminate cfg (stateAt (NelderMead.solver cfg aux0) fn aux0 O st0 (K + 1))).1 = true := by
    have h := (hrun K).1
    have hv := hfb K
    set st := stateAt (NelderMead.solver cfg aux0) fn aux0 O st0 (K + 1) with hst
    have c1 : cfg.normX (fun p => |st.simplex p.1 p.2 - st.best p.2| / (cfg.atol + cfg.rtol * |st.best p.2|)) < 1 := by
      rw [h.best]
      refine norm_small hX cfg.rtol cfg.atol δ ha hr (fun p => O p.2) (fun p => st.simplex p.1 p.2 - O p.2) ?_ hδX
      rintro ⟨j, c⟩
      show |st.simplex j c - O c| ≤ δ
      rcases slot_cases K j with rfl | rfl | rfl
      · rw [h.zero, sub_self, abs_zero]; exact hδ.le
      · rw [h.high]; exact (hK K le_rfl).1 c
      · rw [h.low]; exact (hK (K + 1) (Nat.le_succ K)).1 c
    have c2 : ∀ i, st.fSimplex i ≠ ⊤ := fun i => by rw [h.inv.values, hg]; exact WithTop.coe_ne_top
    have c3 : st.fBest ≠ ⊤ := by rw [hv]; exact WithTop.coe_ne_top
    have c4 : cfg.normF (fun i => |(st.fSimplex i).untopD 0 - st.fBest.untopD 0| /
        (cfg.atol + cfg.rtol * |st.fBest.untopD 0|)) < 1 := by
      refine norm_small hF cfg.rtol cfg.atol δ ha hr (fun _ => st.fBest.untopD 0)
        (fun i => (st.fSimplex i).untopD 0 - st.fBest.untopD 0) ?_ hδF
      intro j
      show |(st.fSimplex j).untopD 0 - st.fBest.untopD 0| ≤ δ
      rw [hv, h.inv.values, hg, WithTop.untopD_coe, WithTop.untopD_coe]
      rcases slot_cases K j with rfl | rfl | rfl
      · rw [h.zero, sub_self, abs_zero]; exact hδ.le
      · rw [h.high]; exact (hK K le_rfl).2
      · rw [h.low]; exact (hK (K + 1) (Nat.le_succ K)).2
    unfold NelderMead.terminate
    simp [c1, c2, c3, c4]
  refine ⟨K + 1, fun ms throw hb => ?_⟩
  obtain ⟨sol, hs, hsucc, -, -⟩ := solve_succeeds_by (NelderMead.solver cfg aux0) af fn aux0 O st0 hi ms throw (K + 1)
    (fun j _ => by rw [hit]; exact haf)
    (fun j _ => by
      show (NelderMead.terminate cfg _).2 = .successful
      have hne : (stateAt (NelderMead.solver cfg aux0) fn aux0 O st0 j).fBest ≠ ⊤ := by
        cases j with
        | zero =>
          have e : init cfg aux0 O = .ok st0 := hi
          rw [init, if_neg (by norm_num)] at e
          injection e with e
          show st0.fBest ≠ ⊤
          rw [← e]
          exact WithTop.coe_ne_top
        | succ j => rw [hfb]; exact WithTop.coe_ne_top
      unfold NelderMead.terminate
      simp [hne])
    hstop hb
  refine ⟨sol, hs, hsucc, ?_⟩
  obtain ⟨st0', hi', -, -, -, -, hpost, -⟩ := solve_spec _ _ _ _ _ _ _ _ hs
  rw [hi] at hi'; cases hi'
  have : sol.value = iterateAt (NelderMead.solver cfg aux0) fn aux0 O st0 sol.numSteps := congrArg Prod.fst hpost
  rw [this, hit]

end contraction

/-! ### McKinnon's function -/

/-- `6x²` to the right of zero and `360x²` to the left. -/
noncomputable def bent (x : ℝ) : ℝ := 6 * x ^ 2 + 354 * (min x 0) ^ 2

noncomputable def bentSlope (x : ℝ) : ℝ := 12 * x + 708 * min x 0

theorem min_square (a b : ℝ) : 0 ≤ (min b 0) ^ 2 - (min a 0) ^ 2 - 2 * min a 0 * (b - a) ∧
    (min b 0) ^ 2 - (min a 0) ^ 2 - 2 * min a 0 * (b - a) ≤ (b - a) ^ 2 := by
  rcases le_total a 0 with ha | ha <;> rcases le_total b 0 with hb | hb
  · rw [min_eq_left ha, min_eq_left hb]; constructor <;> nlinarith [sq_nonneg (a - b)]
  · rw [min_eq_left ha, min_eq_right hb]; constructor <;> nlinarith [mul_nonneg (neg_nonneg.2 ha) hb, sq_nonneg a, sq_nonneg b]
  · rw [min_eq_right ha, min_eq_left hb]; constructor <;> nlinarith [mul_nonneg ha (neg_nonneg.2 hb), sq_nonneg a, sq_nonneg b]
  · rw [min_eq_right ha, min_eq_right hb]; constructor <;> nlinarith [sq_nonneg (a - b)]

theorem bent_deriv (a : ℝ) : HasDerivAt bent (bentSlope a) a := by
  have h1 : HasDerivAt (fun b : ℝ => (min b 0) ^ 2 - (min a 0) ^ 2 - 2 * min a 0 * (b - a)) 0 a := by
    have : (fun b : ℝ => (min b 0) ^ 2 - (min a 0) ^ 2 - 2 * min a 0 * (b - a)) =O[𝓝 a] fun b => ‖b - a‖ ^ 2 := by
      refine Asymptotics.IsBigO.of_bound 1 (Eventually.of_forall fun b => ?_)
      obtain ⟨h1, h2⟩ := min_square a b
      rw [Real.norm_of_nonneg h1, Real.norm_of_nonneg (by positivity), one_mul, Real.norm_eq_abs, sq_abs]
      exact h2
    have h := (this.hasFDerivAt (by norm_num : 1 < 2)).hasDerivAt
    simpa using h
  have h2 : HasDerivAt (fun b : ℝ => 6 * b ^ 2 + 354 * ((min a 0) ^ 2 + 2 * min a 0 * (b - a)))
      (6 * (2 * a) + 354 * (2 * min a 0)) a := by
    have q : HasDerivAt (fun b : ℝ => b ^ 2) (2 * a) a := by simpa using hasDerivAt_pow 2 a
    have l : HasDerivAt (fun b : ℝ => (min a 0) ^ 2 + 2 * min a 0 * (b - a)) (2 * min a 0) a := by
      have := (((hasDerivAt_id a).sub_const a).const_mul (2 * min a 0)).const_add ((min a 0) ^ 2)
      simpa using this
    exact (q.const_mul 6).add (l.const_mul 354)
  have h3 := h2.add (h1.const_mul 354)
  have e1 : (6 * (2 * a) + 354 * (2 * min a 0)) + 354 * 0 = bentSlope a := by unfold bentSlope; ring
  rw [e1] at h3
  refine h3.congr_of_eventuallyEq (Eventually.of_forall fun b => ?_)
  simp only [Pi.add_apply, bent]
  ring

theorem bent_lower (a b : ℝ) : bent a + bentSlope a * (b - a) + 6 * (b - a) ^ 2 ≤ bent b := by
  have := (min_square a b).1
  unfold bent bentSlope
  nlinarith

theorem bentSlope_lipschitz (a b : ℝ) : (bentSlope a - bentSlope b) ^ 2 ≤ 720 ^ 2 * (a - b) ^ 2 := by
  have h1 : |min a 0 - min b 0| ≤ |a - b| := by
    have := abs_min_sub_min_le_max a 0 b 0
    simpa using this
  have h2 : |bentSlope a - bentSlope b| ≤ 720 * |a - b| := by
    have : bentSlope a - bentSlope b = 12 * (a - b) + 708 * (min a 0 - min b 0) := by unfold bentSlope; ring
    rw [this]
    calc _ ≤ |12 * (a - b)| + |708 * (min a 0 - min b 0)| := abs_add_le _ _
      _ = 12 * |a - b| + 708 * |min a 0 - min b 0| := by rw [abs_mul, abs_mul]; norm_num
      _ ≤ _ := by linarith
  calc (bentSlope a - bentSlope b) ^ 2 = |bentSlope a - bentSlope b| ^ 2 := (sq_abs _).symm
    _ ≤ (720 * |a - b|) ^ 2 := by gcongr
    _ = _ := by rw [mul_pow, sq_abs]

/-- The two roots of `λ² = λ/4 + 1/2`. -/
noncomputable def root1 : ℝ := (1 + √33) / 8
noncomputable def root2 : ℝ := (1 - √33) / 8

theorem roots : root1 ^ 2 = root1 / 4 + 1 / 2 ∧ root2 ^ 2 = root2 / 4 + 1 / 2 ∧ 0.843 < root1 ∧ root1 < 0.8432 ∧
    -0.5932 < root2 ∧ root2 < -0.593 := by
  have h : √33 ^ 2 = 33 := Real.sq_sqrt (by norm_num)
  have h1 : 5.744 < √33 := Real.lt_sqrt_of_sq_lt (by norm_num)
  have h2 : √33 < 5.745 := (Real.sqrt_lt' (by norm_num)).2 (by norm_num)
  unfold root1 root2
  refine ⟨by nlinarith, by nlinarith, ?_, ?_, ?_, ?_⟩ <;> linarith

theorem roots_quadratic (u v : ℝ) : (u ^ 2 + v ^ 2) / 2 ≤ 6 * (u + root1 * v) ^ 2 + (u + root2 * v) ^ 2 := by
  obtain ⟨r1, r2, a1, a2, b1, b2⟩ := roots
  have k1 : root1 * root1 = root1 / 4 + 1 / 2 := by rw [← sq]; exact r1
  have k2 : root2 * root2 = root2 / 4 + 1 / 2 := by rw [← sq]; exact r2
  have expand : 6 * (u + root1 * v) ^ 2 + (u + root2 * v) ^ 2 - (u ^ 2 + v ^ 2) / 2 =
      13 / 2 * u ^ 2 + (12 * root1 + 2 * root2) * (u * v) + (6 * (root1 * root1) + root2 * root2 - 1 / 2) * v ^ 2 := by ring
  rw [k1, k2] at expand
  have : 0 ≤ 13 / 2 * u ^ 2 + (12 * root1 + 2 * root2) * (u * v) +
      (6 * (root1 / 4 + 1 / 2) + (root2 / 4 + 1 / 2) - 1 / 2) * v ^ 2 := by
    have hc : (12 * root1 + 2 * root2) * (u * v) ≥ -(9 * |u * v|) := by
      have h1 : |(12 * root1 + 2 * root2) * (u * v)| ≤ 9 * |u * v| := by
        rw [abs_mul]
        refine mul_le_mul_of_nonneg_right ?_ (abs_nonneg _)
        rw [abs_le]; constructor <;> linarith
      linarith [neg_abs_le ((12 * root1 + 2 * root2) * (u * v))]
    have hv2 : (6 * (root1 / 4 + 1 / 2) + (root2 / 4 + 1 / 2) - 1 / 2) * v ^ 2 ≥ 4.1 * v ^ 2 :=
      mul_le_mul_of_nonneg_right (by linarith) (sq_nonneg v)
    have habs : |u * v| = |u| * |v| := abs_mul u v
    rw [habs] at hc
    rw [← sq_abs u]
    rw [← sq_abs v] at hv2 ⊢
    nlinarith [sq_nonneg (|u| - 9 / 13 * |v|), sq_nonneg |v|]
  linarith

theorem gradient_bounds (H u v : ℝ) (hl : H ^ 2 ≤ 720 ^ 2 * (u + root1 * v) ^ 2) :
    (H + 2 * (u + root2 * v)) ^ 2 ≤ 2880 ^ 2 * (u ^ 2 + v ^ 2) ∧
    (root1 * H + root2 * (2 * (u + root2 * v))) ^ 2 ≤ 2880 ^ 2 * (u ^ 2 + v ^ 2) := by
  obtain ⟨r1, r2, a1, a2, b1, b2⟩ := roots
  have q1 : (root1 : ℝ) ^ 2 ≤ 1 := by rw [r1]; linarith
  have q2 : (root2 : ℝ) ^ 2 ≤ 1 := by rw [r2]; linarith
  have hsum : ∀ a b : ℝ, (a + b) ^ 2 ≤ 2 * a ^ 2 + 2 * b ^ 2 := fun a b => by linarith [sq_nonneg (a - b)]
  have hle : ∀ r a : ℝ, r ^ 2 ≤ 1 → (r * a) ^ 2 ≤ a ^ 2 := fun r a h => by
    rw [mul_pow]; exact (mul_le_mul_of_nonneg_right h (sq_nonneg a)).trans_eq (one_mul _)
  have hXu : (u + root1 * v) ^ 2 ≤ 2 * (u ^ 2 + v ^ 2) := by linarith [hsum u (root1 * v), hle root1 v q1]
  have hZu : (u + root2 * v) ^ 2 ≤ 2 * (u ^ 2 + v ^ 2) := by linarith [hsum u (root2 * v), hle root2 v q2]
  generalize u + root2 * v = w at *
  generalize u + root1 * v = x at *
  have hw : (2 * w) ^ 2 = 4 * w ^ 2 := by ring
  have hn : 0 ≤ u ^ 2 + v ^ 2 := by positivity
  have h1 := hsum H (2 * w)
  have h2 := hsum (root1 * H) (root2 * (2 * w))
  have h3 := hle root1 H q1
  have h4 := hle root2 (2 * w) q2
  rw [hw] at h1 h4
  constructor <;> linarith

/-- Two scalar unknowns. -/
abbrev Two := Entry fun _ : Fin 2 => 1

def two0 : Two := ⟨0, 0⟩
def two1 : Two := ⟨1, 0⟩

theorem two_cases (e : Two) : e = two0 ∨ e = two1 := by
  obtain ⟨l, i⟩ := e
  have hi : i = (0 : Fin 1) := Subsingleton.elim (α := Fin 1) _ _
  subst hi
  fin_cases l
  · exact Or.inl rfl
  · exact Or.inr rfl

theorem two_sum (F : Two → ℝ) : ∑ e, F e = F two0 + F two1 := by
  rw [Fintype.sum_sigma, Fin.sum_univ_two]
  have h : ∀ l : Fin 2, ∑ i : Fin 1, F ⟨l, i⟩ = F ⟨l, (0 : Fin 1)⟩ := fun l => Fin.sum_univ_one _
  exact congrArg₂ (· + ·) (h 0) (h 1)

section

variable (s δ : Two → ℝ)

/-- Coordinates in which the points of the sequence are `(λ₁ᵏ, λ₂ᵏ)`. -/
noncomputable def coordX (y : Two → ℝ) : ℝ := (y two0 - s two0) / δ two0 + root1 * ((y two1 - s two1) / δ two1)
noncomputable def coordZ (y : Two → ℝ) : ℝ := (y two0 - s two0) / δ two0 + root2 * ((y two1 - s two1) / δ two1)

/-- McKinnon's function with `τ = 2`, `θ = 6`, `φ = 60`, in these coordinates. -/
noncomputable def mcKinnon (y : Two → ℝ) : ℝ := bent (coordX s δ y) + (coordZ s δ y + coordZ s δ y ^ 2)

noncomputable def mcKinnonGrad (y : Two → ℝ) (e : Two) : ℝ :=
  if e.1 = 0 then (bentSlope (coordX s δ y) + (1 + 2 * coordZ s δ y)) / δ two0
  else (root1 * bentSlope (coordX s δ y) + root2 * (1 + 2 * coordZ s δ y)) / δ two1

theorem mcKinnonGrad0 (y : Two → ℝ) : mcKinnonGrad s δ y two0 = (bentSlope (coordX s δ y) + (1 + 2 * coordZ s δ y)) / δ two0 := rfl

theorem mcKinnonGrad1 (y : Two → ℝ) :
    mcKinnonGrad s δ y two1 = (root1 * bentSlope (coordX s δ y) + root2 * (1 + 2 * coordZ s δ y)) / δ two1 := rfl

theorem coordX_sub (y z : Two → ℝ) : coordX s δ z - coordX s δ y =
    (z two0 - y two0) / δ two0 + root1 * ((z two1 - y two1) / δ two1) := by unfold coordX; ring

theorem coordZ_sub (y z : Two → ℝ) : coordZ s δ z - coordZ s δ y =
    (z two0 - y two0) / δ two0 + root2 * ((z two1 - y two1) / δ two1) := by unfold coordZ; ring

variable (hδ0 : δ two0 ≠ 0) (hδ1 : δ two1 ≠ 0)

include hδ0 hδ1 in
theorem mcKinnon_convex : StronglyConvex (mcKinnon s δ) (mcKinnonGrad s δ) (1 / (δ two0 ^ 2 + δ two1 ^ 2)) where
  pos := by positivity
  lower y z := by
    obtain ⟨r1, r2, a1, a2, b1, b2⟩ := roots
    rw [two_sum, two_sum, mcKinnonGrad0, mcKinnonGrad1]
    have hX := coordX_sub s δ y z
    have hZ := coordZ_sub s δ y z
    have hl := bent_lower (coordX s δ y) (coordX s δ z)
    unfold mcKinnon
    obtain ⟨u, hu⟩ : ∃ u, u = (z two0 - y two0) / δ two0 := ⟨_, rfl⟩
    obtain ⟨v, hv⟩ : ∃ v, v = (z two1 - y two1) / δ two1 := ⟨_, rfl⟩
    rw [← hu, ← hv] at hX hZ
    have hu' : z two0 - y two0 = δ two0 * u := by rw [hu]; field_simp
    have hv' : z two1 - y two1 = δ two1 * v := by rw [hv]; field_simp
    rw [hu', hv']
    have e1 : (bentSlope (coordX s δ y) + (1 + 2 * coordZ s δ y)) / δ two0 * (δ two0 * u) =
        (bentSlope (coordX s δ y) + (1 + 2 * coordZ s δ y)) * u := by field_simp
    have e2 : (root1 * bentSlope (coordX s δ y) + root2 * (1 + 2 * coordZ s δ y)) / δ two1 * (δ two1 * v) =
        (root1 * bentSlope (coordX s δ y) + root2 * (1 + 2 * coordZ s δ y)) * v := by field_simp
    rw [e1, e2]
    have hquad : 1 / (δ two0 ^ 2 + δ two1 ^ 2) / 2 * ((δ two0 * u) ^ 2 + (δ two1 * v) ^ 2) ≤ (u ^ 2 + v ^ 2) / 2 := by
      rw [div_div, div_mul_eq_mul_div, div_le_div_iff₀ (by positivity) (by norm_num)]
      nlinarith [mul_nonneg (sq_nonneg (δ two0)) (sq_nonneg v), mul_nonneg (sq_nonneg (δ two1)) (sq_nonneg u)]
    have hXZ := roots_quadratic u v
    have hz : coordZ s δ z = coordZ s δ y + (u + root2 * v) := by linarith
    rw [hX] at hl
    rw [hz]
    linarith

include hδ0 hδ1 in
theorem mcKinnon_lipschitz : LipschitzGradient (mcKinnon s δ) (mcKinnonGrad s δ)
    (2880 * (1 / δ two0 ^ 2 + 1 / δ two1 ^ 2)) where
  nonneg := by positivity
  deriv y p := by
    have hx : HasDerivAt (fun t : ℝ => coordX s δ fun i => y i + t * p i) (p two0 / δ two0 + root1 * (p two1 / δ two1)) 0 := by
      have e : (fun t : ℝ => coordX s δ fun i => y i + t * p i) =
          fun t => coordX s δ y + t * (p two0 / δ two0 + root1 * (p two1 / δ two1)) := by
        funext t; unfold coordX; ring
      rw [e]
      simpa using ((hasDerivAt_id (0 : ℝ)).mul_const (p two0 / δ two0 + root1 * (p two1 / δ two1))).const_add (coordX s δ y)
    have hz : HasDerivAt (fun t : ℝ => coordZ s δ fun i => y i + t * p i) (p two0 / δ two0 + root2 * (p two1 / δ two1)) 0 := by
      have e : (fun t : ℝ => coordZ s δ fun i => y i + t * p i) =
          fun t => coordZ s δ y + t * (p two0 / δ two0 + root2 * (p two1 / δ two1)) := by
        funext t; unfold coordZ; ring
      rw [e]
      simpa using ((hasDerivAt_id (0 : ℝ)).mul_const (p two0 / δ two0 + root2 * (p two1 / δ two1))).const_add (coordZ s δ y)
    have y0 : (fun i => y i + 0 * p i) = y := by funext i; ring
    have hb : HasDerivAt (fun t : ℝ => bent (coordX s δ fun i => y i + t * p i))
        (bentSlope (coordX s δ y) * (p two0 / δ two0 + root1 * (p two1 / δ two1))) 0 := by
      have h := bent_deriv (coordX s δ fun i => y i + 0 * p i)
      have h2 := HasDerivAt.comp (h := fun t : ℝ => coordX s δ fun i => y i + t * p i) 0 h hx
      rw [y0] at h2
      exact h2
    have h := hb.add (hz.add (hz.pow 2))
    rw [y0] at h
    rw [two_sum, mcKinnonGrad0, mcKinnonGrad1]
    have e : (bentSlope (coordX s δ y) + (1 + 2 * coordZ s δ y)) / δ two0 * p two0 +
        (root1 * bentSlope (coordX s δ y) + root2 * (1 + 2 * coordZ s δ y)) / δ two1 * p two1 =
        bentSlope (coordX s δ y) * (p two0 / δ two0 + root1 * (p two1 / δ two1)) +
        ((p two0 / δ two0 + root2 * (p two1 / δ two1)) +
          ((2 : ℕ) : ℝ) * coordZ s δ y ^ (2 - 1) * (p two0 / δ two0 + root2 * (p two1 / δ two1))) := by
      push_cast
      ring
    rw [e]
    exact h
  lipschitz y z := by
    obtain ⟨r1, r2, a1, a2, b1, b2⟩ := roots
    rw [two_sum, two_sum, mcKinnonGrad0, mcKinnonGrad1, mcKinnonGrad0, mcKinnonGrad1]
    have hX := coordX_sub s δ z y
    have hZ := coordZ_sub s δ z y
    have hl := bentSlope_lipschitz (coordX s δ y) (coordX s δ z)
    obtain ⟨u, hu⟩ : ∃ u, u = (y two0 - z two0) / δ two0 := ⟨_, rfl⟩
    obtain ⟨v, hv⟩ : ∃ v, v = (y two1 - z two1) / δ two1 := ⟨_, rfl⟩
    rw [← hu, ← hv] at hX hZ
    obtain ⟨H, hH⟩ : ∃ H, H = bentSlope (coordX s δ y) - bentSlope (coordX s δ z) := ⟨_, rfl⟩
    rw [← hH] at hl
    obtain ⟨D, hD⟩ : ∃ D, D = 1 / δ two0 ^ 2 + 1 / δ two1 ^ 2 := ⟨_, rfl⟩
    rw [← hD]
    have hD0 : 0 ≤ D := by rw [hD]; positivity
    have e1 : ((bentSlope (coordX s δ y) + (1 + 2 * coordZ s δ y)) / δ two0 -
        (bentSlope (coordX s δ z) + (1 + 2 * coordZ s δ z)) / δ two0) ^ 2 = (H + 2 * (u + root2 * v)) ^ 2 * (1 / δ two0 ^ 2) := by
      rw [← hZ, hH]; field_simp; ring
    have e2 : ((root1 * bentSlope (coordX s δ y) + root2 * (1 + 2 * coordZ s δ y)) / δ two1 -
        (root1 * bentSlope (coordX s δ z) + root2 * (1 + 2 * coordZ s δ z)) / δ two1) ^ 2 =
        (root1 * H + root2 * (2 * (u + root2 * v))) ^ 2 * (1 / δ two1 ^ 2) := by
      rw [← hZ, hH]; field_simp; ring
    rw [e1, e2]
    rw [hX] at hl
    obtain ⟨hA, hB⟩ := gradient_bounds H u v hl
    have huv : u ^ 2 + v ^ 2 ≤ D * ((y two0 - z two0) ^ 2 + (y two1 - z two1) ^ 2) := by
      have d0 : (0:ℝ) ≤ 1 / δ two0 ^ 2 := by positivity
      have d1 : (0:ℝ) ≤ 1 / δ two1 ^ 2 := by positivity
      have f1 : u ^ 2 = 1 / δ two0 ^ 2 * (y two0 - z two0) ^ 2 := by rw [hu]; field_simp
      have f2 : v ^ 2 = 1 / δ two1 ^ 2 * (y two1 - z two1) ^ 2 := by rw [hv]; field_simp
      rw [f1, f2, hD]
      linarith [mul_nonneg d0 (sq_nonneg (y two1 - z two1)), mul_nonneg d1 (sq_nonneg (y two0 - z two0))]
    calc _ ≤ 2880 ^ 2 * (u ^ 2 + v ^ 2) * (1 / δ two0 ^ 2) + 2880 ^ 2 * (u ^ 2 + v ^ 2) * (1 / δ two1 ^ 2) :=
          add_le_add (mul_le_mul_of_nonneg_right hA (by positivity))
            (mul_le_mul_of_nonneg_right hB (by positivity))
      _ = 2880 ^ 2 * D * (u ^ 2 + v ^ 2) := by rw [hD]; ring
      _ ≤ 2880 ^ 2 * D * (D * ((y two0 - z two0) ^ 2 + (y two1 - z two1) ^ 2)) :=
          mul_le_mul_of_nonneg_left huv (by positivity)
      _ = _ := by ring

/-- The sequence of vertices. -/
noncomputable def mcPoint (k : ℕ) (e : Two) : ℝ :=
  if e.1 = 0 then s two0 + δ two0 * ((root1 * root2 ^ k - root2 * root1 ^ k) / (root1 - root2))
  else s two1 + δ two1 * ((root1 ^ k - root2 ^ k) / (root1 - root2))

theorem mcPoint0 (k : ℕ) : mcPoint s δ k two0 =
    s two0 + δ two0 * ((root1 * root2 ^ k - root2 * root1 ^ k) / (root1 - root2)) := rfl

theorem mcPoint1 (k : ℕ) : mcPoint s δ k two1 = s two1 + δ two1 * ((root1 ^ k - root2 ^ k) / (root1 - root2)) := rfl

theorem mcPoint_next (k : ℕ) (e : Two) : mcPoint s δ (k + 2) e = s e / 4 + mcPoint s δ (k + 1) e / 4 + mcPoint s δ k e / 2 := by
  obtain ⟨r1, r2, -⟩ := roots
  have p1 : root1 ^ (k + 2) = root1 ^ (k + 1) / 4 + root1 ^ k / 2 := by rw [pow_add, r1]; ring
  have p2 : root2 ^ (k + 2) = root2 ^ (k + 1) / 4 + root2 ^ k / 2 := by rw [pow_add, r2]; ring
  rcases two_cases e with rfl | rfl
  · rw [mcPoint0, mcPoint0, mcPoint0, p1, p2]; ring
  · rw [mcPoint1, mcPoint1, mcPoint1, p1, p2]; ring

theorem roots_ne : root1 - root2 ≠ 0 := by
  obtain ⟨-, -, a1, a2, b1, b2⟩ := roots
  linarith

include hδ0 hδ1 in
theorem mcPoint_coords (k : ℕ) : coordX s δ (mcPoint s δ k) = root1 ^ k ∧ coordZ s δ (mcPoint s δ k) = root2 ^ k := by
  have h := roots_ne
  unfold coordX coordZ
  rw [mcPoint0, mcPoint1]
  constructor
  · field_simp; ring
  · field_simp; ring

include hδ0 hδ1 in
theorem mcReflect_coords (k : ℕ) :
    coordX s δ (fun c => s c + mcPoint s δ (k + 1) c - mcPoint s δ k c) = root1 ^ k * (root1 - 1) ∧
    coordZ s δ (fun c => s c + mcPoint s δ (k + 1) c - mcPoint s δ k c) = root2 ^ k * (root2 - 1) := by
  obtain ⟨x1, z1⟩ := mcPoint_coords s δ hδ0 hδ1 k
  obtain ⟨x2, z2⟩ := mcPoint_coords s δ hδ0 hδ1 (k + 1)
  constructor
  · calc _ = coordX s δ (mcPoint s δ (k + 1)) - coordX s δ (mcPoint s δ k) := by unfold coordX; ring
      _ = _ := by rw [x1, x2]; ring
  · calc _ = coordZ s δ (mcPoint s δ (k + 1)) - coordZ s δ (mcPoint s δ k) := by unfold coordZ; ring
      _ = _ := by rw [z1, z2]; ring

include hδ0 hδ1 in
theorem mcPoint_value (k : ℕ) : mcKinnon s δ (mcPoint s δ k) = 6 * (root1 ^ k) ^ 2 + (root2 ^ k + (root2 ^ k) ^ 2) := by
  obtain ⟨x1, z1⟩ := mcPoint_coords s δ hδ0 hδ1 k
  have : 0 ≤ root1 ^ k := pow_nonneg (by have := roots; linarith [this.2.2.1]) k
  rw [mcKinnon, x1, z1, bent, min_eq_right this]
  ring

theorem mcKinnon_start : mcKinnon s δ s = 0 := by
  simp [mcKinnon, coordX, coordZ, bent]

/-- `|λ₂|ᵏ ≤ λ₁²ᵏ`. -/
theorem roots_pow (k : ℕ) : 0 < (root1 ^ k) ^ 2 ∧ |root2 ^ k| ≤ (root1 ^ k) ^ 2 := by
  obtain ⟨r1, r2, a1, a2, b1, b2⟩ := roots
  refine ⟨by have : (0:ℝ) < root1 := by linarith
             positivity, ?_⟩
  rw [abs_pow, ← pow_mul, mul_comm k 2, pow_mul]
  refine pow_le_pow_left₀ (abs_nonneg _) ?_ k
  rw [abs_le, r1]
  constructor <;> linarith

include hδ0 hδ1 in
theorem mcKinnon_order (k : ℕ) :
    mcKinnon s δ s < mcKinnon s δ (mcPoint s δ k) ∧ mcKinnon s δ (mcPoint s δ (k + 1)) < mcKinnon s δ (mcPoint s δ k) ∧
    mcKinnon s δ (mcPoint s δ k) < mcKinnon s δ (fun c => s c + mcPoint s δ (k + 1) c - mcPoint s δ k c) := by
  obtain ⟨r1, r2, a1, a2, b1, b2⟩ := roots
  obtain ⟨ha, hb⟩ := roots_pow k
  obtain ⟨x3, z3⟩ := mcReflect_coords s δ hδ0 hδ1 k
  have hneg : root1 ^ k * (root1 - 1) ≤ 0 :=
    mul_nonpos_of_nonneg_of_nonpos (pow_nonneg (by linarith) k) (by linarith)
  have e3 : mcKinnon s δ (fun c => s c + mcPoint s δ (k + 1) c - mcPoint s δ k c) =
      360 * ((root1 ^ k) ^ 2 * (root1 - 1) ^ 2) + (root2 ^ k * (root2 - 1) + (root2 ^ k) ^ 2 * (root2 - 1) ^ 2) := by
    rw [mcKinnon, x3, z3, bent, min_eq_left hneg]; ring
  have e2 : mcKinnon s δ (mcPoint s δ (k + 1)) =
      6 * ((root1 ^ k) ^ 2 * root1 ^ 2) + (root2 ^ k * root2 + (root2 ^ k) ^ 2 * root2 ^ 2) := by
    rw [mcPoint_value s δ hδ0 hδ1]; ring
  rw [mcKinnon_start, e3, e2, mcPoint_value s δ hδ0 hδ1]
  obtain ⟨hb1, hb2⟩ := abs_le.1 hb
  generalize (root1 ^ k) ^ 2 = a at *
  generalize root2 ^ k = b at *
  have hb0 := sq_nonneg b
  refine ⟨by nlinarith, ?_, ?_⟩
  · have t1 : a * root1 ^ 2 ≤ a * 0.7109 := mul_le_mul_of_nonneg_left (by rw [r1]; linarith) ha.le
    have t2 : b ^ 2 * root2 ^ 2 ≤ b ^ 2 * 1 := mul_le_mul_of_nonneg_left (by rw [r2]; linarith) hb0
    have t3 : b * root2 - b ≤ 1.5932 * a := by
      have : b * root2 - b = (-b) * (1 - root2) := by ring
      rw [this]
      nlinarith [mul_nonneg (by linarith : 0 ≤ a + b) (by linarith : 0 ≤ 1 - root2)]
    linarith
  · have t1 : a * 0.0245 ≤ a * (root1 - 1) ^ 2 := mul_le_mul_of_nonneg_left (by nlinarith) ha.le
    have t2 : b ^ 2 * 1 ≤ b ^ 2 * (root2 - 1) ^ 2 := mul_le_mul_of_nonneg_left (by nlinarith) hb0
    have t3 : -(2.5932 * a) ≤ b * (root2 - 1) - b := by
      have : b * (root2 - 1) - b = -(b * (2 - root2)) := by ring
      rw [this]
      nlinarith [mul_nonneg (by linarith : 0 ≤ a - b) (by linarith : 0 ≤ 2 - root2)]
    linarith

theorem mcPoint_limit (e : Two) : Tendsto (fun k => mcPoint s δ k e) atTop (𝓝 (s e)) := by
  obtain ⟨-, -, a1, a2, b1, b2⟩ := roots
  have t1 : Tendsto (fun k : ℕ => root1 ^ k) atTop (𝓝 0) :=
    tendsto_pow_atTop_nhds_zero_of_abs_lt_one (by rw [abs_lt]; constructor <;> linarith)
  have t2 : Tendsto (fun k : ℕ => root2 ^ k) atTop (𝓝 0) :=
    tendsto_pow_atTop_nhds_zero_of_abs_lt_one (by rw [abs_lt]; constructor <;> linarith)
  rcases two_cases e with rfl | rfl
  · have := ((((t2.const_mul root1).sub (t1.const_mul root2)).div_const (root1 - root2)).const_mul (δ two0)).const_add (s two0)
    simpa [mcPoint0] using this
  · have := (((t1.sub t2).div_const (root1 - root2)).const_mul (δ two1)).const_add (s two1)
    simpa [mcPoint1] using this

include hδ0 hδ1 in
theorem mcKinnon_limit : Tendsto (fun k => mcKinnon s δ (mcPoint s δ k)) atTop (𝓝 (mcKinnon s δ s)) := by
  obtain ⟨-, -, a1, a2, b1, b2⟩ := roots
  have t1 : Tendsto (fun k : ℕ => root1 ^ k) atTop (𝓝 0) :=
    tendsto_pow_atTop_nhds_zero_of_abs_lt_one (by rw [abs_lt]; constructor <;> linarith)
  have t2 : Tendsto (fun k : ℕ => root2 ^ k) atTop (𝓝 0) :=
    tendsto_pow_atTop_nhds_zero_of_abs_lt_one (by rw [abs_lt]; constructor <;> linarith)
  have := ((t1.pow 2).const_mul 6).add (t2.add (t2.pow 2))
  simp only [mcPoint_value s δ hδ0 hδ1, mcKinnon_start]
  simpa using this

/-- The minimiser: `(0, -1/2)` in the coordinates. -/
noncomputable def mcMin (e : Two) : ℝ :=
  if e.1 = 0 then s two0 + δ two0 * (-(root1 / 2) / (root1 - root2)) else s two1 + δ two1 * (1 / 2 / (root1 - root2))

include hδ0 hδ1 in
theorem mcMin_spec : mcKinnon s δ (mcMin s δ) = -(1 / 4) ∧ ∀ y, mcKinnon s δ (mcMin s δ) ≤ mcKinnon s δ y := by
  have h := roots_ne
  have m0 : mcMin s δ two0 = s two0 + δ two0 * (-(root1 / 2) / (root1 - root2)) := rfl
  have m1 : mcMin s δ two1 = s two1 + δ two1 * (1 / 2 / (root1 - root2)) := rfl
  have hx : coordX s δ (mcMin s δ) = 0 := by
    unfold coordX; rw [m0, m1]; field_simp; ring
  have hz : coordZ s δ (mcMin s δ) = -(1 / 2) := by
    unfold coordZ; rw [m0, m1]; field_simp; ring
  have hv : mcKinnon s δ (mcMin s δ) = -(1 / 4) := by rw [mcKinnon, hx, hz, bent]; norm_num
  refine ⟨hv, fun y => ?_⟩
  rw [hv, mcKinnon, bent]
  nlinarith [sq_nonneg (coordX s δ y), sq_nonneg (min (coordX s δ y) 0), sq_nonneg (coordZ s δ y + 1 / 2)]

end

/-- **C101**, McKinnon's example.  From every starting point of two scalars with a non-degenerate initial simplex (C45), and for every
`gap > 0`, there is a strongly convex objective with a Lipschitz gradient, whose value at the starting point exceeds its minimum by
`gap`, such that `NelderMead` with any tolerances `rtol ≥ 0`, `atol > 0` and any of the norms stops after finitely many steps,
reports success, and returns the starting point. -/
theorem C101_nelder_mead_stops_at_the_start (rdelta adelta : ℝ) (y0 : Entry (fun _ : Fin 2 => 1) → ℝ)
    (hδ : ∀ e, adelta + rdelta * y0 e ≠ 0) (gap : ℝ) (hgap : 0 < gap) :
    ∃ (f : (Entry (fun _ : Fin 2 => 1) → ℝ) → ℝ) (grad : (Entry (fun _ : Fin 2 => 1) → ℝ) → (Entry (fun _ : Fin 2 => 1) → ℝ))
      (L μ : ℝ) (x : Entry (fun _ : Fin 2 => 1) → ℝ),
      LipschitzGradient f grad L ∧ StronglyConvex f grad μ ∧ (∀ y, f x ≤ f y) ∧ f x = f y0 - gap ∧
      ∀ (rtol atol : ℝ) (normX : (Fin (totalSize (fun _ : Fin 2 => 1) + 1) × Entry (fun _ : Fin 2 => 1) → ℝ) → ℝ)
        (normF : (Fin (totalSize (fun _ : Fin 2 => 1) + 1) → ℝ) → ℝ),
        0 ≤ rtol → 0 < atol → GoodNorm normX → GoodNorm normF →
        ∃ N, ∀ (ms : Option ℕ) (throw : Bool), (∀ m, ms = some m → N ≤ m) →
          ∃ sol, iterativeSolve (NelderMead.solver (cfgFor (fun _ : Fin 2 => 1) rtol atol normX normF rdelta adelta) ())
              (fun _ => true) (fun y => ((f y : Val), ())) () y0 ms throw = some (.ok sol) ∧
            sol.result = .successful ∧ sol.value = y0 := by
  set δ : Two → ℝ := fun e => adelta + rdelta * y0 e with hδd
  have h0 := hδ two0
  have h1 := hδ two1
  have hc : 0 < 4 * gap := by positivity
  obtain ⟨m1, m2⟩ := mcMin_spec y0 δ h0 h1
  refine ⟨fun y => 4 * gap * mcKinnon y0 δ y, fun y e => 4 * gap * mcKinnonGrad y0 δ y e, _, _, mcMin y0 δ,
    (mcKinnon_lipschitz y0 δ h0 h1).scale _ hc.le, (mcKinnon_convex y0 δ h0 h1).scale _ hc,
    fun y => mul_le_mul_of_nonneg_left (m2 y) hc.le, ?_, ?_⟩
  · show 4 * gap * mcKinnon y0 δ (mcMin y0 δ) = 4 * gap * mcKinnon y0 δ y0 - gap
    rw [m1, mcKinnon_start]; ring
  intro rtol atol normX normF hr ha hX hF
  have hn : totalSize (fun _ : Fin 2 => 1) + 1 = 3 := by simp [totalSize]
  have hs := (C45_scalars_partial rdelta adelta 2 y0).1
  have hne := roots_ne
  refine contracting_solve (fun y => ((4 * gap * mcKinnon y0 δ y : ℝ), ())) y0 (mcPoint y0 δ) hn
    (cfgFor (fun _ : Fin 2 => 1) rtol atol normX normF rdelta adelta) () hX hF ha hr
    (fun y => 4 * gap * mcKinnon y0 δ y) (fun y => rfl)
    (fun k => mul_lt_mul_of_pos_left (mcKinnon_order y0 δ h0 h1 k).1 hc)
    (fun k => mul_lt_mul_of_pos_left (mcKinnon_order y0 δ h0 h1 k).2.1 hc)
    (mcPoint_next y0 δ)
    (fun k => mul_lt_mul_of_pos_left (mcKinnon_order y0 δ h0 h1 k).2.2 hc)
    (mcPoint_limit y0 δ) ((mcKinnon_limit y0 δ h0 h1).const_mul _) ?_ ?_ ?_ _ rfl
  · intro v hv
    funext e
    show initialSimplex (fun _ : Fin 2 => 1) rdelta adelta y0 v e = _
    rw [hs, hv, if_neg (by omega), add_zero]
  · intro v hv
    funext e
    show initialSimplex (fun _ : Fin 2 => 1) rdelta adelta y0 v e = _
    rw [hs, hv]
    rcases two_cases e with rfl | rfl
    · rw [mcPoint0]
      simp only [pow_zero, mul_one, div_self hne]
      rfl
    · rw [mcPoint1]
      simp only [pow_zero, sub_self, zero_div, mul_zero]
      rfl
  · intro v hv
    funext e
    show initialSimplex (fun _ : Fin 2 => 1) rdelta adelta y0 v e = _
    rw [hs, hv]
    rcases two_cases e with rfl | rfl
    · rw [mcPoint0]
      rw [show root1 * root2 ^ 1 - root2 * root1 ^ 1 = 0 by ring, zero_div, mul_zero]
      rfl
    · rw [mcPoint1]
      simp only [pow_one, div_self hne, mul_one]
      rfl

/-- The hypotheses are met by the default `rdelta` and `adelta` from the origin. -/
example : ∀ e : Entry (fun _ : Fin 2 => 1), (0.0025 : ℝ) + 0.05 * (fun _ => (0 : ℝ)) e ≠ 0 := fun e => by norm_num

/-- **C101** (partial), what success does say about an objective with an `L`-Lipschitz gradient.  Some vertex `b` of the final
simplex is within tolerance of the returned point; no vertex is better; and the slope of the objective at `b` towards any
other vertex `v` is not below `-L/2 |v - b|²`.  If the objective is strongly convex the slope is also below the tolerance on values.
Missing: the gradient at `b` need not be small, since it is only tested along the edges, and the simplex may be flat
(`C101_nelder_mead_stops_at_the_start`). -/
theorem C101_edges_partial {n : ℕ} [NeZero n] {ι : Type} [Fintype ι] (cfg : Cfg n ι) (hx : cfg.normX = maxNorm)
    (hf : cfg.normF = maxNorm) (ha : 0 < cfg.atol) (hr : 0 ≤ cfg.rtol) (f : (ι → ℝ) → ℝ) (grad : (ι → ℝ) → (ι → ℝ)) (L : ℝ)
    (hL : LipschitzGradient f grad L) (y0 : ι → ℝ) (ms : Option ℕ) (throw : Bool)
    (sol : Solution (ι → ℝ) Unit (State n ι Unit) Stats)
    (h : iterativeSolve (NelderMead.solver cfg ()) (fun _ => true) (fun y => ((f y : Val), ())) () y0 ms throw = some (.ok sol))
    (hsucc : sol.result = .successful) :
    ∃ b : Fin n, (∀ c, |sol.state.simplex b c - sol.value c| < cfg.atol + cfg.rtol * |sol.value c|) ∧
      (∀ i, f (sol.state.simplex b) ≤ f (sol.state.simplex i)) ∧
      (∀ i, -(L / 2 * ∑ c, (sol.state.simplex i c - sol.state.simplex b c) ^ 2) ≤
        ∑ c, grad (sol.state.simplex b) c * (sol.state.simplex i c - sol.state.simplex b c)) ∧
      ∀ μ, StronglyConvex f grad μ → ∀ i, ∑ c, grad (sol.state.simplex b) c * (sol.state.simplex i c - sol.state.simplex b c) <
        cfg.atol + cfg.rtol * |f (sol.state.simplex b)| := by
  obtain ⟨-, h2, m, ⟨b, hb⟩, h3⟩ := C44_success cfg () (fun y => ((f y : Val), ())) y0 hx hf ha hr _ ms throw sol h hsucc
  have hb' : f (sol.state.simplex b) = m := WithTop.coe_injective hb
  have hle : ∀ i, f (sol.state.simplex b) ≤ f (sol.state.simplex i) ∧
      f (sol.state.simplex i) - f (sol.state.simplex b) < cfg.atol + cfg.rtol * |f (sol.state.simplex b)| := by
    intro i
    obtain ⟨v, hv, hv1, hv2⟩ := h3 i
    have hv' : f (sol.state.simplex i) = v := WithTop.coe_injective hv
    rw [hb', hv']
    exact ⟨hv1, hv2⟩
  refine ⟨b, h2 b, fun i => (hle i).1, fun i => ?_, fun μ hμ i => ?_⟩
  · have h4 := hL.bound (sol.state.simplex b) (sol.state.simplex i)
    have h5 := (hle i).1
    have e1 : treeDot (grad (sol.state.simplex b)) (fun c => sol.state.simplex i c - sol.state.simplex b c) =
        ∑ c, grad (sol.state.simplex b) c * (sol.state.simplex i c - sol.state.simplex b c) := rfl
    have e2 : sumSquares (fun c => sol.state.simplex i c - sol.state.simplex b c) =
        ∑ c, (sol.state.simplex i c - sol.state.simplex b c) ^ 2 := Finset.sum_congr rfl fun c _ => by ring
    rw [e1, e2] at h4
    linarith
  · have h4 := hμ.lower (sol.state.simplex b) (sol.state.simplex i)
    have h5 : 0 ≤ μ / 2 * ∑ c, (sol.state.simplex i c - sol.state.simplex b c) ^ 2 := by
      have := hμ.pos
      exact mul_nonneg (by positivity) (Finset.sum_nonneg fun c _ => sq_nonneg _)
    linarith [(hle i).2]

end Verif.Props
