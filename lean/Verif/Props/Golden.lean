import Verif.Props.Driver
import Verif.Model.Golden
import Mathlib.Topology.UniformSpace.HeineCantor
import Mathlib.Topology.Instances.Real.Lemmas
import Mathlib.Topology.Order.Compact
import Mathlib.Tactic.LinearCombination

/-!
Properties C18, C19: golden-section search.
-/

namespace Verif.Props
open Verif.Driver Verif.Spec

variable {A : Type}

/-! ### Helpers -/

/-- `1/phi` and its only needed properties. -/
theorem golden_inv_props : ∃ q : ℝ, q = Real.goldenRatio⁻¹ ∧ q * q = 1 - q ∧ 1 / 2 < q ∧ q < 1 ∧
    ∀ w : ℝ, w / ((1 + Real.sqrt 5) / 2 + 1) = (1 - q) * w := by
  have h := Real.goldenRatio_sq
  have h0 := Real.goldenRatio_pos
  have h1 := Real.one_lt_goldenRatio
  have h2 := Real.goldenRatio_lt_two
  have he : (1 + Real.sqrt 5) / 2 + 1 = Real.goldenRatio ^ 2 := by rw [h]
  rw [he]
  generalize Real.goldenRatio = p at *
  have hq : p⁻¹ = p - 1 := by
    rw [inv_eq_iff_eq_inv, eq_comm, inv_eq_of_mul_eq_one_left]
    linarith
  refine ⟨p⁻¹, rfl, ?_, ?_, inv_lt_one_of_one_lt₀ h1, ?_⟩
  · rw [hq]; linarith
  · rw [lt_inv_comm₀ (by norm_num) h0]
    linarith
  · intro w
    have h3 : (1 : ℝ) - p⁻¹ = (p ^ 2)⁻¹ := by
      rw [eq_comm, inv_eq_of_mul_eq_one_left]
      rw [hq]
      linear_combination (1 - p) * h
    rw [h3, div_eq_inv_mul]

/-- The middle point divides the interval in golden ratio. -/
def IsGolden (l m u : ℝ) : Prop :=
  l < u ∧ (m - l = (1 - Real.goldenRatio⁻¹) * (u - l) ∨ u - m = (1 - Real.goldenRatio⁻¹) * (u - l))

/-- The probe of a state: the mirror image of the middle point. -/
def probe (st : Golden.State) : ℝ := st.lower + (st.upper - st.middle)

theorem golden_probe_inside {l m u : ℝ} (h : IsGolden l m u) :
    l < m ∧ m < u ∧ l < l + (u - m) ∧ l + (u - m) < u ∧ l + (u - m) ≠ m := by
  obtain ⟨q, hq0, hq1, hq2, hq3, _⟩ := golden_inv_props
  obtain ⟨hlu, h⟩ := h
  rw [← hq0] at h
  have hw : 0 < u - l := by linarith
  have h1 : 0 < (1 - q) * (u - l) := mul_pos (by linarith) hw
  have h2 : (1 - q) * (u - l) < (1 / 2) * (u - l) := mul_lt_mul_of_pos_right (by linarith) hw
  rcases h with h | h
  · refine ⟨by linarith, by linarith, by linarith, by linarith, ?_⟩
    intro h'; linarith
  · refine ⟨by linarith, by linarith, by linarith, by linarith, ?_⟩
    intro h'; linarith

/-- The four cases of a step. -/
theorem golden_step_cases (cfg : Golden.Cfg) (fn : ℝ → ℝ × A) (y : ℝ) (st : Golden.State)
    (hg : IsGolden st.lower st.middle st.upper) (hy : st.first = true ∨ y = probe st)
    (hf : st.fMiddle = (fn st.middle).1) :
    let st' := (Golden.step cfg fn y st).2.1
    (Golden.step cfg fn y st).1 = probe st' ∧ st'.first = false ∧ (Golden.step cfg fn y st).2.2 = (fn (probe st)).2 ∧
    st'.terminate = cauchyTermination (ι := Unit) (κ := Unit) cfg.rtol cfg.atol (fun v => |v ()|) (fun v => |v ()|)
      (fun _ => st.middle) (fun _ => st.middle - probe st) (fun _ => (fn st.middle).1)
      (fun _ => (fn st.middle).1 - (fn (probe st)).1) ∧
    st'.fMiddle = (fn st'.middle).1 ∧
    ((st.middle < probe st ∧ (fn (probe st)).1 < (fn st.middle).1 ∧
        st'.lower = st.middle ∧ st'.middle = probe st ∧ st'.upper = st.upper) ∨
     (probe st < st.middle ∧ (fn (probe st)).1 < (fn st.middle).1 ∧
        st'.lower = st.lower ∧ st'.middle = probe st ∧ st'.upper = st.middle) ∨
     (st.middle < probe st ∧ (fn st.middle).1 ≤ (fn (probe st)).1 ∧
        st'.lower = st.lower ∧ st'.middle = st.middle ∧ st'.upper = probe st) ∨
     (probe st < st.middle ∧ (fn st.middle).1 ≤ (fn (probe st)).1 ∧
        st'.lower = probe st ∧ st'.middle = st.middle ∧ st'.upper = st.upper)) := by
  obtain ⟨hm1, hm2, hp1, hp2, hpm⟩ := golden_probe_inside hg
  have hy' : (if st.first = true then st.lower + (st.upper - st.middle) else y) = probe st := by
    split
    · rfl
    · rcases hy with hy | hy
      · rename_i h; exact absurd hy h
      · exact hy
  unfold Golden.step
  dsimp only
  rw [hy', hf]
  have hpm' : probe st ≠ st.middle := hpm
  by_cases hmin : (fn (probe st)).1 < (fn st.middle).1
  · simp only [if_pos hmin]
    refine ⟨rfl, trivial, trivial, trivial, trivial, ?_⟩
    rcases lt_or_gt_of_ne hpm' with hlt | hgt
    · simp only [if_pos hlt]
      exact Or.inr (Or.inl ⟨hlt, hmin, trivial, trivial, trivial⟩)
    · simp only [if_neg (not_lt.2 (le_of_lt hgt))]
      exact Or.inl ⟨hgt, hmin, trivial, trivial, trivial⟩
  · simp only [if_neg hmin]
    refine ⟨rfl, trivial, trivial, trivial, trivial, ?_⟩
    rcases lt_or_gt_of_ne hpm' with hlt | hgt
    · simp only [if_pos hlt]
      exact Or.inr (Or.inr (Or.inr ⟨hlt, not_lt.1 hmin, trivial, trivial, trivial⟩))
    · simp only [if_neg (not_lt.2 (le_of_lt hgt))]
      exact Or.inr (Or.inr (Or.inl ⟨hgt, not_lt.1 hmin, trivial, trivial, trivial⟩))

/-- The golden ratio is kept and the width shrinks by `1/phi`. -/
theorem golden_step_inv (cfg : Golden.Cfg) (fn : ℝ → ℝ × A) (y : ℝ) (st : Golden.State)
    (hg : IsGolden st.lower st.middle st.upper) (hy : st.first = true ∨ y = probe st)
    (hf : st.fMiddle = (fn st.middle).1) :
    let st' := (Golden.step cfg fn y st).2.1
    IsGolden st'.lower st'.middle st'.upper ∧
    st'.upper - st'.lower = Real.goldenRatio⁻¹ * (st.upper - st.lower) ∧
    st.lower ≤ st'.lower ∧ st'.upper ≤ st.upper ∧
    |st.middle - probe st| = Real.goldenRatio⁻¹ * (1 - Real.goldenRatio⁻¹) * (st.upper - st.lower) := by
  obtain ⟨q, hq0, hq1, hq2, hq3, _⟩ := golden_inv_props
  obtain ⟨hm1, hm2, hp1, hp2, hpm⟩ := golden_probe_inside hg
  have hcases := golden_step_cases cfg fn y st hg hy hf
  dsimp only at hcases
  obtain ⟨_, _, _, _, _, hcases⟩ := hcases
  obtain ⟨hlu, hg⟩ := hg
  have hprobe : probe st = st.lower + (st.upper - st.middle) := rfl
  have hsmall : (1 - q) * (st.upper - st.lower) < (1 / 2) * (st.upper - st.lower) :=
    mul_lt_mul_of_pos_right (by linarith) (by linarith)
  dsimp only
  unfold IsGolden
  rw [← hq0] at hg ⊢
  rcases hcases with ⟨h1, _, e1, e2, e3⟩ | ⟨h1, _, e1, e2, e3⟩ | ⟨h1, _, e1, e2, e3⟩ | ⟨h1, _, e1, e2, e3⟩ <;>
    rw [e1, e2, e3] <;> rw [hprobe] at h1 ⊢
  · have hg' : st.middle - st.lower = (1 - q) * (st.upper - st.lower) := by
      rcases hg with hg | hg
      · exact hg
      · exfalso; linarith
    refine ⟨⟨by linarith, Or.inl ?_⟩, by linear_combination -hg', by linarith, le_rfl, ?_⟩
    · linear_combination (-1 - q) * hg' + (st.upper - st.lower) * hq1
    · rw [abs_of_neg (by linarith)]
      linear_combination (-2) * hg' + (st.upper - st.lower) * hq1
  · have hg' : st.upper - st.middle = (1 - q) * (st.upper - st.lower) := by
      rcases hg with hg | hg
      · exfalso; linarith
      · exact hg
    refine ⟨⟨by linarith, Or.inr ?_⟩, by linear_combination -hg', le_rfl, by linarith, ?_⟩
    · linear_combination (-1 - q) * hg' + (st.upper - st.lower) * hq1
    · rw [abs_of_pos (by linarith)]
      linear_combination (-2) * hg' + (st.upper - st.lower) * hq1
  · have hg' : st.middle - st.lower = (1 - q) * (st.upper - st.lower) := by
      rcases hg with hg | hg
      · exact hg
      · exfalso; linarith
    refine ⟨⟨by linarith, Or.inr ?_⟩, by linear_combination -hg', le_rfl, by linarith, ?_⟩
    · linear_combination (-1 - q) * hg' + (st.upper - st.lower) * hq1
    · rw [abs_of_neg (by linarith)]
      linear_combination (-2) * hg' + (st.upper - st.lower) * hq1
  · have hg' : st.upper - st.middle = (1 - q) * (st.upper - st.lower) := by
      rcases hg with hg | hg
      · exfalso; linarith
      · exact hg
    refine ⟨⟨by linarith, Or.inl ?_⟩, by linear_combination -hg', by linarith, le_rfl, ?_⟩
    · linear_combination (-1 - q) * hg' + (st.upper - st.lower) * hq1
    · rw [abs_of_pos (by linarith)]
      linear_combination (-2) * hg' + (st.upper - st.lower) * hq1

/-- The termination flag in terms of differences. -/
theorem golden_cauchy (rtol atol : ℝ) (ha : 0 < atol) (hr : 0 ≤ rtol) (m d fm fd : ℝ) :
    cauchyTermination (ι := Unit) (κ := Unit) rtol atol (fun v => |v ()|) (fun v => |v ()|)
      (fun _ => m) (fun _ => d) (fun _ => fm) (fun _ => fd) = true ↔
    |d| < atol + rtol * |m| ∧ |fd| < atol + rtol * |fm| := by
  have h1 : 0 < atol + rtol * |m| := by positivity
  have h2 : 0 < atol + rtol * |fm| := by positivity
  unfold cauchyTermination
  rw [Bool.and_eq_true, decide_eq_true_eq, decide_eq_true_eq]
  simp only [scaledDiff, HasAbs.abs_real]
  rw [abs_of_nonneg (div_nonneg (abs_nonneg d) h1.le), abs_of_nonneg (div_nonneg (abs_nonneg fd) h2.le), div_lt_one h1,
    div_lt_one h2]

/-- What `init` produces. -/
theorem golden_init (cfg : Golden.Cfg) (fn : ℝ → ℝ × A) (y0 : ℝ) (st0 : Golden.State)
    (hi : (Golden.solver cfg).init fn y0 = .ok st0) :
    st0.lower = cfg.lower ∧ st0.upper = cfg.upper ∧
      st0.middle = (1 - Real.goldenRatio⁻¹) * (cfg.upper - cfg.lower) ∧ st0.fMiddle = (fn st0.middle).1 ∧
      st0.first = true ∧ st0.terminate = false := by
  obtain ⟨q, hq0, _, _, _, hq⟩ := golden_inv_props
  replace hi : Golden.init cfg fn y0 = .ok st0 := hi
  unfold Golden.init at hi
  split at hi
  · cases hi
  split at hi
  · cases hi
    refine ⟨rfl, rfl, ?_, rfl, rfl, rfl⟩
    rw [← hq0]
    exact hq _
  · cases hi

/-- The invariant of a run started on `[0, upper]`. -/
theorem golden_run (cfg : Golden.Cfg) (h0 : cfg.lower = 0) (hu : 0 < cfg.upper) (fn : ℝ → ℝ × A) (aux0 : A)
    (y0 : ℝ) (st0 : Golden.State) (hi : (Golden.solver cfg).init fn y0 = .ok st0) (k : Nat) :
    let st := stateAt (Golden.solver cfg) fn aux0 y0 st0 k
    IsGolden st.lower st.middle st.upper ∧ st.fMiddle = (fn st.middle).1 ∧
      (st.first = true ∨ iterateAt (Golden.solver cfg) fn aux0 y0 st0 k = probe st) ∧
      st.upper - st.lower = Real.goldenRatio⁻¹ ^ k * cfg.upper ∧ 0 ≤ st.lower ∧ st.upper ≤ cfg.upper := by
  induction k with
  | zero =>
    obtain ⟨h1, h2, h3, h4, h5, _⟩ := golden_init cfg fn y0 st0 hi
    show IsGolden st0.lower st0.middle st0.upper ∧ st0.fMiddle = (fn st0.middle).1 ∧
      (st0.first = true ∨ _) ∧ st0.upper - st0.lower = _ ∧ 0 ≤ st0.lower ∧ st0.upper ≤ _
    refine ⟨⟨?_, Or.inl ?_⟩, h4, Or.inl h5, ?_, ?_, ?_⟩
    · rw [h1, h2, h0]; exact hu
    · rw [h3, h1, h2, h0]; ring
    · rw [h1, h2, h0]; ring
    · rw [h1, h0]
    · rw [h2]
  | succ k ih =>
    obtain ⟨ig, ifm, iy, iw, il, iu⟩ := ih
    obtain ⟨c1, c2, c3, c4, c5, c6⟩ := golden_step_cases cfg fn _ _ ig iy ifm
    obtain ⟨d1, d2, d3, d4, d5⟩ := golden_step_inv cfg fn _ _ ig iy ifm
    refine ⟨d1, c5, Or.inr c1, ?_, il.trans d3, d4.trans iu⟩
    rw [iw] at d2
    rw [pow_succ, mul_comm (Real.goldenRatio⁻¹ ^ k), mul_assoc]
    exact d2

/-! ### C18 -/

/-- **C18 is false of the code.**  For `lower = 10`, `upper = 11` the initial middle point and the first probe both lie
outside `[10, 11]`, for every function. -/
theorem C18_probes_outside :
    ∃ cfg : Golden.Cfg, cfg.lower = 10 ∧ cfg.upper = 11 ∧ cfg.scalarArgs = true ∧ cfg.fStruct = .leaf [] true ∧
      ∀ (A : Type) (fn : ℝ → ℝ × A) (y0 : ℝ) (aux0 : A), ∃ st0, (Golden.solver cfg).init fn y0 = .ok st0 ∧
        st0.middle < 1 ∧ 20 < probe st0 ∧
        auxAt (Golden.solver cfg) fn aux0 y0 st0 1 = (fn (probe st0)).2 := by
  obtain ⟨q, hq0, hq1, hq2, hq3, hq⟩ := golden_inv_props
  refine ⟨⟨0.1, 0.1, 10, 11, true, .leaf [] true⟩, rfl, rfl, rfl, rfl, fun A fn y0 aux0 => ⟨_, rfl, ?_, ?_, ?_⟩⟩
  · show (11 - 10 : ℝ) / _ < 1
    rw [hq]; linarith
  · show (20 : ℝ) < 10 + (11 - (11 - 10 : ℝ) / _)
    rw [hq]; linarith
  · rfl

/-- **C18_partial.** On intervals `[0, upper]`: at every step the bracket stays inside the user's interval, its middle
point and the next probe lie strictly inside the bracket, the bracket shrinks by exactly `1/phi` per step and the middle
point always divides it in golden ratio.  Every iterate is such a probe.
(Missing: `lower ≠ 0`, for which the statement is false, see `C18_probes_outside`.) -/
theorem C18_probes_inside_partial (cfg : Golden.Cfg) (h0 : cfg.lower = 0) (hu : 0 < cfg.upper) (fn : ℝ → ℝ × A)
    (aux0 : A) (y0 : ℝ) (st0 : Golden.State) (hi : (Golden.solver cfg).init fn y0 = .ok st0) (k : Nat) :
    let st := stateAt (Golden.solver cfg) fn aux0 y0 st0 k
    cfg.lower ≤ st.lower ∧ st.upper ≤ cfg.upper ∧ st.lower < st.middle ∧ st.middle < st.upper ∧
      st.upper - st.lower = (cfg.upper - cfg.lower) / Real.goldenRatio ^ k ∧
      ((st.upper - st.middle) = Real.goldenRatio * (st.middle - st.lower) ∨
        (st.middle - st.lower) = Real.goldenRatio * (st.upper - st.middle)) ∧
      st.lower < iterateAt (Golden.solver cfg) fn aux0 y0 st0 (k + 1) ∧
      iterateAt (Golden.solver cfg) fn aux0 y0 st0 (k + 1) < st.upper := by
  obtain ⟨ig, ifm, iy, iw, il, iu⟩ := golden_run cfg h0 hu fn aux0 y0 st0 hi k
  obtain ⟨ig', _, _, _, _, _⟩ := golden_run cfg h0 hu fn aux0 y0 st0 hi (k + 1)
  obtain ⟨c1, c2, c3, c4, c5, c6⟩ := golden_step_cases cfg fn _ _ ig iy ifm
  obtain ⟨_, _, d3, d4, _⟩ := golden_step_inv cfg fn _ _ ig iy ifm
  obtain ⟨p1, p2, p3, p4, _⟩ := golden_probe_inside ig
  obtain ⟨_, _, p3', p4', _⟩ := golden_probe_inside ig'
  have hgr := Real.goldenRatio_pos
  refine ⟨by rw [h0]; exact il, iu, p1, p2, ?_, ?_, ?_, ?_⟩
  · rw [iw, h0, sub_zero, inv_pow, div_eq_inv_mul]
  · have hsq := Real.goldenRatio_sq
    rcases ig.2 with hg | hg
    · left
      have e : (stateAt (Golden.solver cfg) fn aux0 y0 st0 k).upper - (stateAt (Golden.solver cfg) fn aux0 y0 st0 k).middle
        = Real.goldenRatio⁻¹ * ((stateAt (Golden.solver cfg) fn aux0 y0 st0 k).upper -
          (stateAt (Golden.solver cfg) fn aux0 y0 st0 k).lower) := by linear_combination -hg
      rw [e, hg]
      generalize (stateAt (Golden.solver cfg) fn aux0 y0 st0 k).upper -
          (stateAt (Golden.solver cfg) fn aux0 y0 st0 k).lower = w
      generalize Real.goldenRatio = p at *
      field_simp
      linear_combination (-w) * hsq
    · right
      have e : (stateAt (Golden.solver cfg) fn aux0 y0 st0 k).middle - (stateAt (Golden.solver cfg) fn aux0 y0 st0 k).lower
        = Real.goldenRatio⁻¹ * ((stateAt (Golden.solver cfg) fn aux0 y0 st0 k).upper -
          (stateAt (Golden.solver cfg) fn aux0 y0 st0 k).lower) := by linear_combination -hg
      rw [e, hg]
      generalize (stateAt (Golden.solver cfg) fn aux0 y0 st0 k).upper -
          (stateAt (Golden.solver cfg) fn aux0 y0 st0 k).lower = w
      generalize Real.goldenRatio = p at *
      field_simp
      linear_combination (-w) * hsq
  · exact lt_of_le_of_lt d3 (lt_of_lt_of_eq p3' c1.symm)
  · exact lt_of_lt_of_le (lt_of_eq_of_lt c1 p4') d4

/-- **C18** (`y0` is ignored).  As documented, after at least one step nothing depends on the initial value. -/
theorem C18_y0_ignored (cfg : Golden.Cfg) (fn : ℝ → ℝ × A) (aux0 aux1 : A) (y0 y1 : ℝ) (st0 : Golden.State)
    (hi : (Golden.solver cfg).init fn y0 = .ok st0) (k : Nat) :
    (Golden.solver cfg).init fn y1 = .ok st0 ∧
    trace (Golden.solver cfg) fn aux0 y0 st0 (k + 1) = trace (Golden.solver cfg) fn aux1 y1 st0 (k + 1) := by
  refine ⟨hi, ?_⟩
  induction k with
  | zero =>
    obtain ⟨_, _, _, _, h5, _⟩ := golden_init cfg fn y0 st0 hi
    show Golden.step cfg fn y0 st0 = Golden.step cfg fn y1 st0
    unfold Golden.step
    rw [h5]; rfl
  | succ k ih =>
    show Golden.step cfg fn (trace (Golden.solver cfg) fn aux0 y0 st0 (k + 1)).1 (trace (Golden.solver cfg) fn aux0 y0 st0 (k + 1)).2.1 = _
    rw [ih]; rfl

/-! ### C19 -/

/-- Specification: `f` is unimodal on `[a, b]` with minimiser `x`. -/
def Unimodal (f : ℝ → ℝ) (a b x : ℝ) : Prop :=
  x ∈ Set.Icc a b ∧ StrictAntiOn f (Set.Icc a x) ∧ StrictMonoOn f (Set.Icc x b)

/-- **C19_partial** (the minimiser is never lost).  On `[0, upper]`, for every unimodal function, the minimiser is in
the bracket after any number of steps.  (Missing: `lower ≠ 0`; see `C19_never_converges`.) -/
theorem C19_minimiser_kept_partial (cfg : Golden.Cfg) (h0 : cfg.lower = 0) (hu : 0 < cfg.upper) (fn : ℝ → ℝ × A)
    (aux0 : A) (y0 : ℝ) (st0 : Golden.State) (hi : (Golden.solver cfg).init fn y0 = .ok st0) (x : ℝ)
    (hx : Unimodal (fun t => (fn t).1) cfg.lower cfg.upper x) (k : Nat) :
    (stateAt (Golden.solver cfg) fn aux0 y0 st0 k).lower ≤ x ∧
      x ≤ (stateAt (Golden.solver cfg) fn aux0 y0 st0 k).upper := by
  obtain ⟨⟨hx1, hx2⟩, hdec, hinc⟩ := hx
  induction k with
  | zero =>
    obtain ⟨h1, h2, _⟩ := golden_init cfg fn y0 st0 hi
    show st0.lower ≤ x ∧ x ≤ st0.upper
    rw [h1, h2]; exact ⟨hx1, hx2⟩
  | succ k ih =>
    obtain ⟨ig, ifm, iy, iw, il, iu⟩ := golden_run cfg h0 hu fn aux0 y0 st0 hi k
    obtain ⟨c1, c2, c3, c4, c5, c6⟩ := golden_step_cases cfg fn _ _ ig iy ifm
    obtain ⟨p1, p2, p3, p4, _⟩ := golden_probe_inside ig
    rw [h0] at hdec
    have hmx : ∀ a b, a < b → 0 ≤ a → b ≤ cfg.upper → (fn b).1 < (fn a).1 → a ≤ x := by
      intro a b hab ha hb hf
      by_contra hlt
      have := hinc ⟨(not_le.1 hlt).le, hab.le.trans hb⟩ ⟨(not_le.1 hlt).le.trans hab.le, hb⟩ hab
      exact absurd hf (not_lt.2 this.le)
    have hxm : ∀ a b, a < b → 0 ≤ a → b ≤ cfg.upper → (fn a).1 ≤ (fn b).1 → x ≤ b := by
      intro a b hab ha hb hf
      by_contra hlt
      have := hdec ⟨ha, hab.le.trans (not_le.1 hlt).le⟩ ⟨ha.trans hab.le, (not_le.1 hlt).le⟩ hab
      exact absurd hf (not_le.2 this)
    have hst : stateAt (Golden.solver cfg) fn aux0 y0 st0 (k + 1) =
      (Golden.step cfg fn (iterateAt (Golden.solver cfg) fn aux0 y0 st0 k)
        (stateAt (Golden.solver cfg) fn aux0 y0 st0 k)).2.1 := rfl
    rw [hst]
    obtain ⟨ih1, ih2⟩ := ih
    have q3 : (stateAt (Golden.solver cfg) fn aux0 y0 st0 k).lower < probe (stateAt (Golden.solver cfg) fn aux0 y0 st0 k) := p3
    have q4 : probe (stateAt (Golden.solver cfg) fn aux0 y0 st0 k) < (stateAt (Golden.solver cfg) fn aux0 y0 st0 k).upper := p4
    rcases c6 with ⟨h1, h2, e1, e2, e3⟩ | ⟨h1, h2, e1, e2, e3⟩ | ⟨h1, h2, e1, e2, e3⟩ | ⟨h1, h2, e1, e2, e3⟩
    · rw [e1, e3]
      exact ⟨hmx _ _ h1 (by linarith) (by linarith) h2, ih2⟩
    · rw [e1, e3]
      exact ⟨ih1, hxm _ _ h1 (by linarith) (by linarith) h2.le⟩
    · rw [e1, e3]
      exact ⟨ih1, hxm _ _ h1 (by linarith) (by linarith) h2⟩
    · rw [e1, e3]
      refine ⟨?_, ih2⟩
      by_contra hlt
      have := hinc ⟨(not_le.1 hlt).le, by linarith⟩ ⟨(not_le.1 hlt).le.trans h1.le, by linarith⟩ h1
      exact absurd h2 (not_le.2 this)

/-- **C19_partial** (accuracy on success).  On `[0, upper]`: a successful solve of a unimodal function returns a value
whose distance to the minimiser is less than `phi^2 * (atol + rtol*|m|)`, where `m` is the best point known before the
last step. -/
theorem C19_answer_near_minimiser_partial (cfg : Golden.Cfg) (h0 : cfg.lower = 0) (hu : 0 < cfg.upper)
    (ha : 0 < cfg.atol) (hr : 0 ≤ cfg.rtol) (fn : ℝ → ℝ × A) (aux0 : A) (y0 : ℝ) (af : ℝ → Bool)
    (ms : Option Nat) (throw : Bool) (sol : Solution ℝ A Golden.State Unit) (x : ℝ)
    (hx : Unimodal (fun t => (fn t).1) cfg.lower cfg.upper x)
    (h : minimise (Golden.solver cfg) cfg.fStruct af fn aux0 y0 ms throw = some (.ok sol))
    (hs : sol.result = .successful) :
    ∃ st0 n, (Golden.solver cfg).init fn y0 = .ok st0 ∧ sol.numSteps = n + 1 ∧
      |sol.value - x| < Real.goldenRatio ^ 2 *
        (cfg.atol + cfg.rtol * |(stateAt (Golden.solver cfg) fn aux0 y0 st0 n).middle|) := by
  unfold minimise at h
  split at h
  swap
  · cases h
  obtain ⟨st0, hi, ht, _, _, _⟩ := C02_success_is_certificate _ _ _ _ _ _ _ _ h hs
  obtain ⟨_, _, st0', hi', hstate, hp⟩ := C01_step_budget _ _ _ _ _ _ _ _ h
  rw [hi] at hi'; cases hi'
  replace ht : (sol.state.terminate, Result.successful) = _ := ht
  rw [Prod.mk.injEq] at ht
  have hval : sol.value = iterateAt (Golden.solver cfg) fn aux0 y0 st0 sol.numSteps := congrArg Prod.fst hp
  cases hn : sol.numSteps with
  | zero =>
    exfalso
    rw [hstate, hn] at ht
    have : st0.terminate = true := ht.1
    rw [(golden_init cfg fn y0 st0 hi).2.2.2.2.2] at this
    cases this
  | succ n =>
    refine ⟨st0, n, hi, rfl, ?_⟩
    obtain ⟨ig, ifm, iy, iw, il, iu⟩ := golden_run cfg h0 hu fn aux0 y0 st0 hi n
    obtain ⟨c1, c2, c3, c4, c5, c6⟩ := golden_step_cases cfg fn _ _ ig iy ifm
    obtain ⟨d1, d2, d3, d4, d5⟩ := golden_step_inv cfg fn _ _ ig iy ifm
    obtain ⟨ig', ifm', iy', iw', il', iu'⟩ := golden_run cfg h0 hu fn aux0 y0 st0 hi (n + 1)
    obtain ⟨_, _, p3', p4', _⟩ := golden_probe_inside ig'
    obtain ⟨k1, k2⟩ := C19_minimiser_kept_partial cfg h0 hu fn aux0 y0 st0 hi x hx (n + 1)
    have hst : stateAt (Golden.solver cfg) fn aux0 y0 st0 (n + 1) =
      (Golden.step cfg fn (iterateAt (Golden.solver cfg) fn aux0 y0 st0 n)
        (stateAt (Golden.solver cfg) fn aux0 y0 st0 n)).2.1 := rfl
    have hv : sol.value = probe (stateAt (Golden.solver cfg) fn aux0 y0 st0 (n + 1)) := by
      rw [hval, hn]; exact c1
    have htt := ht.1
    rw [hstate, hn, hst, c4, golden_cauchy _ _ ha hr, d5] at htt
    have hlt := htt.1
    obtain ⟨q, hq0, hq1, hq2, hq3, _⟩ := golden_inv_props
    rw [← hst, ← hq0] at d2
    rw [← hq0] at hlt
    have hφ : Real.goldenRatio ^ 2 * (1 - q) = 1 := by
      have hsq := Real.goldenRatio_sq
      have hp0 := Real.goldenRatio_pos.ne'
      rw [hq0]
      generalize Real.goldenRatio = p at *
      field_simp
      linear_combination hsq
    have hφ0 : 0 < Real.goldenRatio ^ 2 := by have := Real.goldenRatio_pos; positivity
    have hw : (stateAt (Golden.solver cfg) fn aux0 y0 st0 (n + 1)).upper -
        (stateAt (Golden.solver cfg) fn aux0 y0 st0 (n + 1)).lower < Real.goldenRatio ^ 2 *
        (cfg.atol + cfg.rtol * |(stateAt (Golden.solver cfg) fn aux0 y0 st0 n).middle|) := by
      rw [d2]
      have := mul_lt_mul_of_pos_left hlt hφ0
      refine lt_of_eq_of_lt ?_ this
      linear_combination (-q * ((stateAt (Golden.solver cfg) fn aux0 y0 st0 n).upper -
        (stateAt (Golden.solver cfg) fn aux0 y0 st0 n).lower)) * hφ
    refine lt_of_le_of_lt ?_ hw
    rw [hv, abs_le]
    unfold probe
    constructor <;> linarith

/-- **C19_partial** (liveness).  On `[0, upper]` every solve of a continuous function (unimodal or not) succeeds, given a
large enough budget or none. -/
theorem C19_terminates_partial (cfg : Golden.Cfg) (h0 : cfg.lower = 0) (hu : 0 < cfg.upper)
    (ha : 0 < cfg.atol) (hr : 0 ≤ cfg.rtol) (hstr : cfg.fStruct = .leaf [] true) (hsc : cfg.scalarArgs = true)
    (fn : ℝ → ℝ × A) (hc : ContinuousOn (fun t => (fn t).1) (Set.Icc 0 cfg.upper)) (aux0 : A) (y0 : ℝ) :
    ∃ N, ∀ (ms : Option Nat) (throw : Bool), (∀ n, ms = some n → N ≤ n) →
      ∃ sol, minimise (Golden.solver cfg) cfg.fStruct (fun _ => true) fn aux0 y0 ms throw = some (.ok sol) ∧
        sol.result = .successful ∧ sol.numSteps ≤ N := by
  classical
  obtain ⟨st0, hi⟩ : ∃ st0, (Golden.solver cfg).init fn y0 = .ok st0 := by
    show ∃ st0, Golden.init cfg fn y0 = .ok st0
    unfold Golden.init
    rw [hsc, hstr]
    exact ⟨_, rfl⟩
  have huc := isCompact_Icc.uniformContinuousOn_of_continuous hc
  rw [Metric.uniformContinuousOn_iff] at huc
  obtain ⟨δ, hδ0, hδ⟩ := huc cfg.atol ha
  obtain ⟨q, hq0, hq1, hq2, hq3, _⟩ := golden_inv_props
  obtain ⟨k, hk⟩ : ∃ k : Nat, q ^ k * cfg.upper < min δ cfg.atol := by
    have hpos : 0 < min δ cfg.atol / cfg.upper := div_pos (lt_min hδ0 ha) hu
    obtain ⟨k, hk⟩ := exists_pow_lt_of_lt_one hpos hq3
    exact ⟨k, by rwa [lt_div_iff₀ hu] at hk⟩
  have hterm : (Golden.solver cfg).terminate fn (iterateAt (Golden.solver cfg) fn aux0 y0 st0 k)
      (stateAt (Golden.solver cfg) fn aux0 y0 st0 (k + 1)) = (true, .successful) := by
    obtain ⟨ig, ifm, iy, iw, il, iu⟩ := golden_run cfg h0 hu fn aux0 y0 st0 hi k
    obtain ⟨c1, c2, c3, c4, c5, c6⟩ := golden_step_cases cfg fn _ _ ig iy ifm
    obtain ⟨p1, p2, p3, p4, _⟩ := golden_probe_inside ig
    have hst : stateAt (Golden.solver cfg) fn aux0 y0 st0 (k + 1) =
      (Golden.step cfg fn (iterateAt (Golden.solver cfg) fn aux0 y0 st0 k)
        (stateAt (Golden.solver cfg) fn aux0 y0 st0 k)).2.1 := rfl
    refine Prod.ext ?_ rfl
    show (stateAt (Golden.solver cfg) fn aux0 y0 st0 (k + 1)).terminate = true
    rw [hst, c4, golden_cauchy _ _ ha hr]
    rw [← hq0] at iw
    have hw : (stateAt (Golden.solver cfg) fn aux0 y0 st0 k).upper - (stateAt (Golden.solver cfg) fn aux0 y0 st0 k).lower
      < min δ cfg.atol := by rw [iw]; exact hk
    have hwδ := hw.trans_le (min_le_left _ _)
    have hwa := hw.trans_le (min_le_right _ _)
    have hd : |(stateAt (Golden.solver cfg) fn aux0 y0 st0 k).middle - probe (stateAt (Golden.solver cfg) fn aux0 y0 st0 k)| ≤
      (stateAt (Golden.solver cfg) fn aux0 y0 st0 k).upper - (stateAt (Golden.solver cfg) fn aux0 y0 st0 k).lower := by
      rw [abs_le]; unfold probe; constructor <;> linarith
    have hn1 : 0 ≤ cfg.rtol * |(stateAt (Golden.solver cfg) fn aux0 y0 st0 k).middle| := by positivity
    have hn2 : 0 ≤ cfg.rtol * |(fn (stateAt (Golden.solver cfg) fn aux0 y0 st0 k).middle).1| := by positivity
    refine ⟨by linarith, ?_⟩
    have := hδ (stateAt (Golden.solver cfg) fn aux0 y0 st0 k).middle ⟨by linarith, by linarith⟩ (probe (stateAt (Golden.solver cfg) fn aux0 y0 st0 k))
      ⟨by unfold probe; linarith, by unfold probe; linarith⟩
      (lt_of_le_of_lt (by rw [Real.dist_eq]; exact hd) hwδ)
    rw [Real.dist_eq] at this
    linarith
  refine ⟨k + 1, fun ms throw hms => ?_⟩
  let P : Nat → Prop := fun k => (Golden.solver cfg).terminate fn
    (iterateAt (Golden.solver cfg) fn aux0 y0 st0 (k - 1)) (stateAt (Golden.solver cfg) fn aux0 y0 st0 k) =
      (true, .successful)
  have hex : ∃ k, P k := ⟨k + 1, hterm⟩
  have hle : Nat.find hex ≤ k + 1 := Nat.find_min' hex hterm
  have hmin : ∀ j, j < Nat.find hex → (fun _ : ℝ => true)
      (iterateAt (Golden.solver cfg) fn aux0 y0 st0 (j - 1)) = true ∧
      (Golden.solver cfg).terminate fn (iterateAt (Golden.solver cfg) fn aux0 y0 st0 (j - 1))
      (stateAt (Golden.solver cfg) fn aux0 y0 st0 j) = (false, .successful) := by
    intro j hj
    refine ⟨rfl, ?_⟩
    have hnot := Nat.find_min hex hj
    refine Prod.ext ?_ rfl
    by_contra hne
    exact hnot (Prod.ext (by simpa using hne) rfl)
  obtain ⟨sol, h1, h2, h3⟩ := C02_success_complete (Golden.solver cfg) (fun _ => true) fn aux0 y0 st0 hi ms throw
    (Nat.find hex) hmin rfl (Nat.find_spec hex) (fun n hn => hle.trans (hms n hn))
  refine ⟨sol, ?_, h2, h3 ▸ hle⟩
  unfold minimise
  rw [if_pos hstr]; exact h1

/-- Non-vacuity of the partial theorems: `t ↦ (t-1)^2` is unimodal on `[0, 3]`, and the solve succeeds. -/
example : ∃ sol, minimise (Golden.solver ⟨0, 0.1, 0, 3, true, .leaf [] true⟩) (.leaf [] true) (fun _ => true)
    (fun t : ℝ => ((t - 1) ^ 2, ())) () 0 none true = some (.ok sol) ∧ sol.result = .successful := by
  obtain ⟨N, hN⟩ := C19_terminates_partial (A := Unit) ⟨0, 0.1, 0, 3, true, .leaf [] true⟩ rfl (by norm_num)
    (by norm_num) le_rfl rfl rfl (fun t => ((t - 1) ^ 2, ())) (by fun_prop) () 0
  obtain ⟨sol, h1, h2, _⟩ := hN none true (by simp)
  exact ⟨sol, h1, h2⟩

example : Unimodal (fun t : ℝ => (t - 1) ^ 2) 0 3 1 := by
  refine ⟨by norm_num, fun a ha b hb hab => ?_, fun a ha b hb hab => ?_⟩
  · have := hb.2; simp only; nlinarith
  · have := ha.1; simp only; nlinarith

/-- **C19 is false of the code.**  `t ↦ (t + 10.4)^2` is unimodal on `[-11, -10]`, but with these bounds (and any
tolerances below 1) the bracket runs away towards minus infinity and no budget is ever enough. -/
theorem C19_never_converges (rtol atol : ℝ) (ha : 0 < atol) (hr : 0 ≤ rtol) (ht : atol + rtol < 1) :
    let cfg : Golden.Cfg := ⟨rtol, atol, -11, -10, true, .leaf [] true⟩
    let fn : ℝ → ℝ × Unit := fun t => ((t + 10.4) ^ 2, ())
    Unimodal (fun t => (fn t).1) cfg.lower cfg.upper (-10.4) ∧
    ∀ (y0 : ℝ) (ms : Option Nat) (sol : Solution ℝ Unit Golden.State Unit),
      minimise (Golden.solver cfg) cfg.fStruct (fun _ => true) fn () y0 ms false = some (.ok sol) →
        sol.result = .nonlinearMaxStepsReached := by
  intro cfg fn
  obtain ⟨q, hq0, hq1, hq2, hq3, hq⟩ := golden_inv_props
  refine ⟨⟨by norm_num [cfg], fun a ha b hb hab => ?_, fun a ha b hb hab => ?_⟩, ?_⟩
  · have := hb.2; simp only [fn] at *; nlinarith
  · have := ha.1; simp only [fn] at *; nlinarith
  · intro y0 ms sol h
    unfold minimise at h
    rw [if_pos rfl] at h
    obtain ⟨st0, hi, hlt, hst, hstate, hm, hp, hres⟩ := solve_spec _ _ _ _ _ _ _ _ h
    obtain ⟨i1, i2, i3, i4, i5, i6⟩ := golden_init cfg fn y0 st0 hi
    rw [← hq0] at i3
    have hmid : st0.middle = 1 - q := by rw [i3]; simp only [cfg]; ring
    have key : ∀ k, let st := stateAt (Golden.solver cfg) fn () y0 st0 k
        st.upper = -10 ∧ st.middle = 1 - q ∧ st.fMiddle = (1 - q + 10.4) ^ 2 ∧ st.lower ≤ -11 ∧
        (st.first = true ∨ iterateAt (Golden.solver cfg) fn () y0 st0 k = st.lower + (st.upper - st.middle)) ∧
        st.terminate = false := by
      intro k
      induction k with
      | zero =>
        refine ⟨i2, hmid, ?_, i1.le, Or.inl i5, i6⟩
        show st0.fMiddle = _
        rw [i4, hmid]
      | succ k ih =>
        obtain ⟨e1, e2, e3, e4, e5, e6⟩ := ih
        have hstep : trace (Golden.solver cfg) fn () y0 st0 (k + 1) = Golden.step cfg fn
          (iterateAt (Golden.solver cfg) fn () y0 st0 k) (stateAt (Golden.solver cfg) fn () y0 st0 k) := rfl
        simp only [stateAt, iterateAt] at *
        rw [hstep]
        generalize (trace (Golden.solver cfg) fn () y0 st0 k).2.1 = st at *
        generalize (trace (Golden.solver cfg) fn () y0 st0 k).1 = y at *
        have hy' : (if st.first = true then st.lower + (st.upper - st.middle) else y) =
            st.lower + (-10 - (1 - q)) := by
          split
          · rw [e1, e2]
          · rcases e5 with e5 | e5
            · rename_i hne; exact absurd e5 hne
            · rw [e5, e1, e2]
        unfold Golden.step
        dsimp only
        rw [hy', e2, e3, e1]
        have hlow : st.lower + (-10 - (1 - q)) < 1 - q := by linarith
        have hnmin : ¬ ((fn (st.lower + (-10 - (1 - q)))).1 < (1 - q + 10.4) ^ 2) := by
          simp only [fn]
          rw [not_lt]
          nlinarith
        rw [if_neg hnmin]
        simp only [if_pos hlow]
        refine ⟨trivial, trivial, trivial, by linarith, Or.inr trivial, ?_⟩
        rw [← Bool.not_eq_true, golden_cauchy _ _ ha hr]
        intro hcon
        have h1 := hcon.1
        rw [abs_of_pos (by linarith), abs_of_pos (by linarith)] at h1
        nlinarith
    have hcont : ∀ k, Continues (Golden.solver cfg) (fun _ => true) fn () y0 st0 k := by
      intro k
      refine ⟨rfl, ?_⟩
      have := (key k).2.2.2.2.2
      show ((stateAt (Golden.solver cfg) fn () y0 st0 k).terminate, Result.successful) = _
      rw [this]
    rw [hres, if_pos (hcont _)]

end Verif.Props
