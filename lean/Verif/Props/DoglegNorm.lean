import Verif.Model.DoglegNorm
import Verif.Props.Bisection
import Verif.Lemmas.Norms
import Mathlib.Analysis.Seminorm

/-!
C72: `DoglegDescent` with trust regions of any shape.
-/

namespace Verif.Props

open Verif Driver Spec

variable {ι : Type}

/-- Lengths along the second leg differ by at most the length of the leg times the difference of the parameters. -/
theorem leg_lipschitz (p : Seminorm ℝ (ι → ℝ)) (cauchy newton : ι → ℝ) (s t : ℝ) :
    |p (Dogleg.interpolate cauchy newton s) - p (Dogleg.interpolate cauchy newton t)| ≤ |s - t| * p (newton - cauchy) := by
  have e : Dogleg.interpolate cauchy newton s - Dogleg.interpolate cauchy newton t = (s - t) • (newton - cauchy) := by
    funext i
    simp only [Dogleg.interpolate, Pi.sub_apply, Pi.smul_apply, smul_eq_mul]
    ring
  have := abs_sub_map_le_sub p (Dogleg.interpolate cauchy newton s) (Dogleg.interpolate cauchy newton t)
  rw [e, map_smul_eq_mul, Real.norm_eq_abs] at this
  exact this

/-- What the inner root find does with a gap function that is negative at one, positive at two and Lipschitz. -/
theorem crossing_found (gap : ℝ → ℝ) (M : ℝ) (hM : M ≤ 2 ^ 200) (hL : ∀ s t, |gap s - gap t| ≤ |s - t| * M) (h1 : gap 1 < 0)
    (h2 : 0 ≤ gap 2) :
    ∃ t, Dogleg.findCrossing gap = .ok (t, .successful) ∧ 1 ≤ t ∧ t ≤ 2 ∧ |gap t| ≤ 0.0015 * M := by
  set cfg := Dogleg.innerBisection with hcfg
  set fn : ℝ → ℝ × Unit := fun t => (gap t, ()) with hfn
  set S := Bisection.solver (A := Unit) cfg with hS
  have hM0 : 0 ≤ M := by
    have := (abs_nonneg _).trans (hL 1 0)
    norm_num at this
    exact this
  obtain ⟨st0, hi⟩ : ∃ st0, S.init fn 1.5 = .ok st0 :=
    (C16_accepts_iff_partial cfg rfl rfl rfl ⟨_, rfl⟩ fn 1.5).1.2 (Or.inl ⟨h1, h2⟩)
  have hflip : ∀ b, cfg.flip = .fixed b → Brackets (fun x => (fn x).1) b cfg.lower cfg.upper := fun b hb => by cases hb
  have hcont : Continuous gap := by
    rw [Metric.continuous_iff]
    intro b ε hε
    refine ⟨ε / (M + 1), by positivity, fun a ha => ?_⟩
    rw [Real.dist_eq] at ha ⊢
    refine lt_of_le_of_lt (hL a b) ?_
    rw [lt_div_iff₀ (by positivity)] at ha
    have := abs_nonneg (a - b)
    nlinarith
  have hstay := C13_stays_in_interval cfg rfl fn () 1.5 st0 hi (by norm_num [hcfg, Dogleg.innerBisection])
    (by norm_num [hcfg, Dogleg.innerBisection])
  have hl0 : st0.lower ∈ Set.Icc (1:ℝ) 2 := (hstay 0).1
  have hu0 : st0.upper ∈ Set.Icc (1:ℝ) 2 := (hstay 0).2.1
  have hat : cfg.atol = 1 / 1000 := by norm_num [hcfg, Dogleg.innerBisection]
  have hrt : cfg.rtol = 1 / 1000 := by norm_num [hcfg, Dogleg.innerBisection]
  -- the bracket after 255 steps
  have hw := bisection_width cfg fn () 1.5 st0 254
  have hw1 : |(stateAt S fn () 1.5 st0 1).upper - (stateAt S fn () 1.5 st0 1).lower| ≤ 1 := by
    obtain ⟨a1, a2, _⟩ := hstay 1
    have b1 := a1.1; have b2 := a1.2; have b3 := a2.1; have b4 := a2.2
    have e1 : cfg.lower = 1 := rfl
    have e2 : cfg.upper = 2 := rfl
    rw [e1] at b1 b3
    rw [e2] at b2 b4
    rw [abs_le]
    exact ⟨by linarith, by linarith⟩
  have hw2 : |(stateAt S fn () 1.5 st0 255).upper - (stateAt S fn () 1.5 st0 255).lower| ≤ 1 / 2 ^ 254 := by
    refine hw.le.trans ?_
    exact div_le_div_of_nonneg_right hw1 (by positivity)
  have htest := bisection_test_true cfg (by rw [hrt]; norm_num) fn () 1.5 st0 hi hflip (Set.Icc 1 2) Set.ordConnected_Icc
    hcont.continuousOn (by norm_num) hl0 hu0 254 (1 / 2 ^ 254) (fun a _ b _ hab => by
      refine lt_of_le_of_lt (hL a b) ?_
      refine lt_of_le_of_lt (mul_le_mul hab hM hM0 (by positivity)) ?_
      rw [hat]
      norm_num) hw2 (lt_of_le_of_lt hw2 (by rw [hat]; norm_num))
  obtain ⟨sol, hsol, hres, hn⟩ := bisection_succeeds cfg fn () 1.5 st0 hi 255 htest (some 256)
    (fun n hn => by cases hn; norm_num) false
  obtain ⟨st1, n, hi1, hnum, hsmall, root, hroot, hdist, _⟩ := C14_answer_near_root cfg fn () 1.5 _ (some 256) false sol hflip
    (Set.Icc 1 2) Set.ordConnected_Icc hcont.continuousOn (by norm_num) (fun st hst => by
      rw [hi] at hst; cases hst; exact ⟨hl0, hu0⟩) hsol hres
  rw [hi] at hi1
  cases hi1
  have hval : sol.value = iterateAt S fn () 1.5 st0 sol.numSteps := by
    obtain ⟨_, _, st0', hi', hstate, hp⟩ := C01_step_budget _ _ _ _ _ _ _ _ hsol
    rw [hi] at hi'
    cases hi'
    exact congrArg Prod.fst hp
  refine ⟨sol.value, ?_, ?_, ?_, ?_⟩
  · unfold Dogleg.findCrossing
    rw [hsol]
    simp only
    rw [hres]
  · rw [hval]; exact (hstay _).2.2.1
  · rw [hval]; exact (hstay _).2.2.2
  · have hy := (hstay n).2.2
    have h4 : |iterateAt S fn () 1.5 st0 n| ≤ 2 := by
      rw [abs_le]
      have b1 : (1:ℝ) ≤ _ := hy.1
      have b2 : _ ≤ (2:ℝ) := hy.2
      exact ⟨by linarith, b2⟩
    have hroot' : gap root = 0 := hroot
    have h5 := hL sol.value root
    rw [hroot', sub_zero, abs_sub_comm] at h5
    refine h5.trans (mul_le_mul_of_nonneg_right ?_ hM0)
    rw [hat, hrt] at hdist
    refine hdist.le.trans ?_
    have : |iterateAt (Bisection.solver cfg) fn () 1.5 st0 n| ≤ 2 := h4
    norm_num
    linarith

/-- **C72.** `DoglegDescent` with a trust region of any shape (any seminorm `p` as `trust_region_norm`) and its default
root finder, for base points not absurdly far apart: with the radius `R = step_size·p(newton)`,
* if the Cauchy step is longer than `R`, the step is the Cauchy step shortened to length `R` (zero if it is shorter than
  machine epsilon);
* otherwise, if `step_size ≥ 1`, the Newton step;
* otherwise, if the Cauchy step is strictly shorter than `R`, the inner root find succeeds and the step lies on the second leg,
  its length within `0.15 %` of the length of the leg of `R`. -/
theorem C72_any_shape_partial (eps : ℝ) (heps : 0 ≤ eps) (p : Seminorm ℝ (ι → ℝ)) (st : Dogleg.State ι)
    (hc : st.cauchyNorm = p st.cauchy) (hn : st.newtonNorm = p st.newton) (hok : st.result = .successful)
    (hbig : p (st.newton - st.cauchy) ≤ 2 ^ 200) (s : ℝ) (hs : 0 ≤ s) :
    let R := s * p st.newton
    let out := Dogleg.stepOther eps p s st
    (R < p st.cauchy → eps < p st.cauchy →
      ∃ step, out = .ok (step, .successful) ∧ p step = R ∧ ∀ i, step i = R / p st.cauchy * st.cauchy i) ∧
    (R < p st.cauchy → p st.cauchy ≤ eps → out = .ok (fun _ => 0, .successful)) ∧
    (p st.cauchy ≤ R → 1 ≤ s → out = .ok (st.newton, .successful)) ∧
    (p st.cauchy < R → s < 1 → ∃ step, out = .ok (step, .successful) ∧
      (∃ u, 0 ≤ u ∧ u ≤ 1 ∧ ∀ i, step i = st.cauchy i + u * (st.newton i - st.cauchy i)) ∧
      |p step - R| ≤ 0.0015 * p (st.newton - st.cauchy)) := by
  intro R out
  have hR : st.newtonNorm * s = R := by rw [hn]; exact mul_comm _ _
  have hR0 : 0 ≤ R := mul_nonneg hs (apply_nonneg p _)
  have hout : out = match (if R < p st.cauchy then .ok (Dogleg.scaledCauchy eps st R, .successful)
      else if s < 1 then
        match Dogleg.findCrossing fun t => p (Dogleg.interpolate st.cauchy st.newton t) - R with
        | .ok s => .ok (Dogleg.interpolate st.cauchy st.newton s.1, s.2)
        | .error e => .error e
      else .ok (st.newton, .successful) : Except Err ((ι → ℝ) × Result)) with
      | .ok r => .ok (r.1, if st.result = .successful then r.2 else st.result)
      | .error e => .error e := by
    show Dogleg.stepOther eps p s st = _
    unfold Dogleg.stepOther
    simp only [hR, hc]
    rfl
  refine ⟨fun h1 h2 => ?_, fun h1 h2 => ?_, fun h1 h2 => ?_, fun h1 h2 => ?_⟩
  · have hpos : 0 < p st.cauchy := lt_of_le_of_lt heps h2
    refine ⟨fun i => R / p st.cauchy * st.cauchy i, ?_, ?_, fun i => rfl⟩
    · rw [hout, if_pos h1]
      have : Dogleg.scaledCauchy eps st R = fun i => R / p st.cauchy * st.cauchy i := by
        unfold Dogleg.scaledCauchy
        rw [hc, if_pos h2]
        funext i
        ring
      simp only [this, hok, if_true]
    · have := map_smul_eq_mul p (R / p st.cauchy) st.cauchy
      rw [Real.norm_eq_abs, abs_of_nonneg (div_nonneg hR0 hpos.le), div_mul_cancel₀ _ hpos.ne'] at this
      exact this
  · rw [hout, if_pos h1]
    have : Dogleg.scaledCauchy eps st R = fun _ => 0 := by
      unfold Dogleg.scaledCauchy
      rw [hc, if_neg (not_lt.2 h2)]
    simp only [this, hok, if_true]
  · rw [hout, if_neg (not_lt.2 h1), if_neg (not_lt.2 h2)]
    simp only [hok, if_true]
  · have hi1 : Dogleg.interpolate st.cauchy st.newton 1 = st.cauchy := by
      funext i; simp [Dogleg.interpolate]
    have hi2 : Dogleg.interpolate st.cauchy st.newton 2 = st.newton := by
      funext i; simp only [Dogleg.interpolate]; ring
    obtain ⟨t, hf, ht1, ht2, hgap⟩ := crossing_found (fun t => p (Dogleg.interpolate st.cauchy st.newton t) - R)
      (p (st.newton - st.cauchy)) hbig (fun a b => by
        have := leg_lipschitz p st.cauchy st.newton a b
        rwa [sub_sub_sub_cancel_right]) (by simp only [hi1]; linarith) (by
        simp only [hi2]
        have : R ≤ 1 * p st.newton := mul_le_mul_of_nonneg_right h2.le (apply_nonneg p _)
        linarith)
    refine ⟨Dogleg.interpolate st.cauchy st.newton t, ?_, ⟨t - 1, by linarith, by linarith, fun i => rfl⟩, hgap⟩
    rw [hout, if_neg (not_lt.2 h1.le), if_pos h2, hf]
    simp only [hok, if_true]

/-- **C72 is false of the code** where the Cauchy step is exactly as long as the radius: the inner root find raises "the root is
not contained in [lower, upper]", whatever `throw` the user chose.  In particular at every stationary point (`newton = cauchy = 0`)
while `step_size < 1`. -/
theorem C72_boundary_raises (eps : ℝ) (p : Seminorm ℝ (ι → ℝ)) (st : Dogleg.State ι)
    (hc : st.cauchyNorm = p st.cauchy) (hn : st.newtonNorm = p st.newton) (s : ℝ) (hs1 : s < 1)
    (hb : p st.cauchy = s * p st.newton) :
    ∃ m, Dogleg.stepOther eps p s st = .error (.valueError m) := by
  have hR : st.newtonNorm * s = p st.cauchy := by rw [hn, hb]; exact mul_comm _ _
  set gap : ℝ → ℝ := fun t => p (Dogleg.interpolate st.cauchy st.newton t) - p st.cauchy with hgap
  have hi1 : Dogleg.interpolate st.cauchy st.newton 1 = st.cauchy := by
    funext i; simp [Dogleg.interpolate]
  have hi2 : Dogleg.interpolate st.cauchy st.newton 2 = st.newton := by
    funext i; simp only [Dogleg.interpolate]; ring
  have g1 : 0 ≤ gap 1 := by simp only [hgap, hi1]; linarith
  have g2 : 0 ≤ gap 2 := by
    simp only [hgap, hi2, hb]
    have : s * p st.newton ≤ 1 * p st.newton := mul_le_mul_of_nonneg_right hs1.le (apply_nonneg p _)
    linarith
  obtain ⟨m, hm⟩ := (C16_accepts_iff_partial (A := Unit) Dogleg.innerBisection rfl rfl rfl ⟨_, rfl⟩ (fun t => (gap t, ())) 1.5).2.2
    (Or.inr ⟨g1, g2⟩)
  refine ⟨m, ?_⟩
  have hf : Dogleg.findCrossing gap = .error (.valueError m) := by
    unfold Dogleg.findCrossing rootFind iterativeSolve iterate
    rw [hm]
    rfl
  unfold Dogleg.stepOther
  simp only [hR, hc, lt_irrefl, if_false, hs1, if_true]
  rw [hf]

/-- `max_norm`, largest absolute value, is one of the norms `C72_any_shape_partial` speaks about. -/
noncomputable def maxSeminorm [Fintype ι] : Seminorm ℝ (ι → ℝ) :=
  Seminorm.of maxNorm (fun x y => maxNorm_add x y) (fun c x => goodNorm_maxNorm.smul c x)

/-- `C72_any_shape_partial` on a box-shaped trust region: a Cauchy step `(1, 0)`, a Newton step `(2, 2)` and three quarters of its
length as radius. -/
example : ∃ step, Dogleg.stepOther 0 (maxNorm (ι := Fin 2)) (3 / 4)
      { newton := ![2, 2], cauchy := ![1, 0], newtonNorm := 2, cauchyNorm := 1, result := .successful } =
        .ok (step, .successful) ∧
    (∃ u, 0 ≤ u ∧ u ≤ 1 ∧ ∀ i, step i = ![1, 0] i + u * (![2, 2] i - ![1, 0] i)) ∧
    |maxNorm step - 3 / 2| ≤ 0.003 := by
  have e1 : maxNorm (![1, 0] : Fin 2 → ℝ) = 1 := by
    refine le_antisymm ((maxNorm_le_iff _ _).2 ⟨by norm_num, fun i => by fin_cases i <;> simp⟩) ?_
    have := abs_le_maxNorm (![1, 0] : Fin 2 → ℝ) 0
    simpa using this
  have e2 : maxNorm (![2, 2] : Fin 2 → ℝ) = 2 := by
    refine le_antisymm ((maxNorm_le_iff _ _).2 ⟨by norm_num, fun i => by fin_cases i <;> simp⟩) ?_
    have := abs_le_maxNorm (![2, 2] : Fin 2 → ℝ) 0
    simpa using this
  have e3 : maxNorm ((![2, 2] : Fin 2 → ℝ) - ![1, 0]) ≤ 2 := by
    refine (maxNorm_le_iff _ _).2 ⟨by norm_num, fun i => by fin_cases i <;> norm_num⟩
  obtain ⟨-, -, -, h⟩ := C72_any_shape_partial 0 le_rfl (maxSeminorm (ι := Fin 2))
    { newton := ![2, 2], cauchy := ![1, 0], newtonNorm := 2, cauchyNorm := 1, result := .successful } e1.symm e2.symm rfl
    (e3.trans (by norm_num)) (3 / 4) (by norm_num)
  have e4 : (3 / 4 : ℝ) * maxSeminorm (![2, 2] : Fin 2 → ℝ) = 3 / 2 := by
    show (3 / 4 : ℝ) * maxNorm (![2, 2] : Fin 2 → ℝ) = 3 / 2
    rw [e2]; norm_num
  simp only [e4] at h
  obtain ⟨step, g1, g2, g3⟩ := h (by
    show maxNorm (![1, 0] : Fin 2 → ℝ) < _
    rw [e1]; norm_num) (by norm_num)
  refine ⟨step, g1, g2, ?_⟩
  refine le_trans (show _ ≤ (0.0015 : ℝ) * maxNorm ((![2, 2] : Fin 2 → ℝ) - ![1, 0]) from g3) ?_
  linarith

/-- `C72_boundary_raises` at a stationary point. -/
example : ∃ m, Dogleg.stepOther 0 (maxNorm (ι := Fin 2)) (1 / 4)
      { newton := fun _ => 0, cauchy := fun _ => 0, newtonNorm := 0, cauchyNorm := 0, result := .successful } =
        .error (.valueError m) := by
  have e : maxNorm (fun _ : Fin 2 => (0 : ℝ)) = 0 :=
    le_antisymm ((maxNorm_le_iff _ _).2 ⟨le_rfl, fun _ => by simp⟩) (maxNorm_nonneg _)
  exact C72_boundary_raises 0 (maxSeminorm (ι := Fin 2)) _ e.symm e.symm (1 / 4) (by norm_num) (by
    show maxNorm (fun _ : Fin 2 => (0 : ℝ)) = 1 / 4 * maxNorm (fun _ : Fin 2 => (0 : ℝ))
    rw [e, mul_zero])

end Verif.Props
