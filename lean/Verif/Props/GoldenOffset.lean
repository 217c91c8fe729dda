import Verif.Props.Golden

/-!
Properties C18 and C19 on intervals that do not start at zero.  The first middle point is `(upper - lower) / (phi + 1)`, without
`lower +`, so it divides the interval in the golden ratio only if `lower = 0`.  Where it still lies inside the interval the search
is a valid bracketing method (its widths follow Euclid's algorithm instead of the golden ratio), but its stopping test no longer
measures the width of the bracket.
-/

namespace Verif.Props
open Verif.Driver Verif.Spec

variable {A : Type}

/-- The middle point is inside, and divides the interval in an irrational ratio. -/
def IsIrr (l m u : ℝ) : Prop := l < m ∧ m < u ∧ Irrational ((m - l) / (u - m))

theorem irr_probe {l m u : ℝ} (h : IsIrr l m u) : l < l + (u - m) ∧ l + (u - m) < u ∧ l + (u - m) ≠ m := by
  obtain ⟨h1, h2, h3⟩ := h
  refine ⟨by linarith, by linarith, fun e => h3 ⟨1, ?_⟩⟩
  have : m - l = u - m := by linarith
  rw [this, div_self (by linarith)]
  simp

/-- Subtracting the smaller part from the larger one keeps the ratio irrational. -/
theorem irr_sub {a b : ℝ} (ha : 0 < a) (hb : 0 < b) (h : Irrational (a / b)) :
    Irrational (b / a) ∧ Irrational ((a - b) / b) ∧ Irrational (b / (a - b)) := by
  have h2 : Irrational ((a - b) / b) := by
    rw [sub_div, div_self hb.ne']
    simpa using h.sub_ratCast 1
  refine ⟨?_, h2, ?_⟩
  · rw [← inv_div]; exact h.inv
  · rw [← inv_div]; exact h2.inv

/-- The four cases of a step, whatever the ratio. -/
theorem golden_cases (cfg : Golden.Cfg) (fn : ℝ → ℝ × A) (y : ℝ) (st : Golden.State)
    (hg : IsIrr st.lower st.middle st.upper) (hy : st.first = true ∨ y = probe st)
    (hf : st.fMiddle = (fn st.middle).1) :
    let st' := (Golden.step cfg fn y st).2.1
    (Golden.step cfg fn y st).1 = probe st' ∧ st'.first = false ∧
    st'.terminate = cauchyTermination (ι := Unit) (κ := Unit) cfg.rtol cfg.atol (fun v => |v ()|) (fun v => |v ()|)
      (fun _ => st.middle) (fun _ => st.middle - probe st) (fun _ => (fn st.middle).1)
      (fun _ => (fn st.middle).1 - (fn (probe st)).1) ∧
    st'.fMiddle = (fn st'.middle).1 ∧
    ((st.middle < probe st ∧ (fn (probe st)).1 < (fn st.middle).1 ∧
        st'.lower = st.middle ∧ st'.middle = probe st ∧ st'.upper = st.upper) ∨
     (probe st < st.middle ∧ (fn (probe st)).1 < (fn st.middle).1 ∧
        st'.lower = st.lower ∧ st'.middle = probe st ∧ st'.upper = st.middle) ∨
     (st.middle < probe st ∧ (fn st.middle).1 ≤ (fn (probe st)).1 ∧
        st'.lower = st.lower ∧ st'.middle = st.middle ∧ st'.upper = probe st) ∨
     (probe st < st.middle ∧ (fn st.middle).1 ≤ (fn (probe st)).1 ∧
        st'.lower = probe st ∧ st'.middle = st.middle ∧ st'.upper = st.upper)) := by
  obtain ⟨hp1, hp2, hpm⟩ := irr_probe hg
  have hy' : (if st.first = true then st.lower + (st.upper - st.middle) else y) = probe st := by
    split
    · rfl
    · rcases hy with hy | hy
      · rename_i h; exact absurd hy h
      · exact hy
  unfold Golden.step
  dsimp only
  rw [hy', hf]
  have hpm' : probe st ≠ st.middle := hpm
  by_cases hmin : (fn (probe st)).1 < (fn st.middle).1
  · simp only [if_pos hmin]
    refine ⟨rfl, trivial, trivial, trivial, ?_⟩
    rcases lt_or_gt_of_ne hpm' with hlt | hgt
    · simp only [if_pos hlt]
      exact Or.inr (Or.inl ⟨hlt, hmin, trivial, trivial, trivial⟩)
    · simp only [if_neg (not_lt.2 (le_of_lt hgt))]
      exact Or.inl ⟨hgt, hmin, trivial, trivial, trivial⟩
  · simp only [if_neg hmin]
    refine ⟨rfl, trivial, trivial, trivial, ?_⟩
    rcases lt_or_gt_of_ne hpm' with hlt | hgt
    · simp only [if_pos hlt]
      exact Or.inr (Or.inr (Or.inr ⟨hlt, not_lt.1 hmin, trivial, trivial, trivial⟩))
    · simp only [if_neg (not_lt.2 (le_of_lt hgt))]
      exact Or.inr (Or.inr (Or.inl ⟨hgt, not_lt.1 hmin, trivial, trivial, trivial⟩))

/-- One step of Euclid's algorithm: the two parts of the bracket become the smaller part and the difference. -/
theorem golden_euclid (cfg : Golden.Cfg) (fn : ℝ → ℝ × A) (y : ℝ) (st : Golden.State)
    (hg : IsIrr st.lower st.middle st.upper) (hy : st.first = true ∨ y = probe st)
    (hf : st.fMiddle = (fn st.middle).1) :
    let st' := (Golden.step cfg fn y st).2.1
    IsIrr st'.lower st'.middle st'.upper ∧ st.lower ≤ st'.lower ∧ st'.upper ≤ st.upper ∧
    min (st'.middle - st'.lower) (st'.upper - st'.middle) =
      min (min (st.middle - st.lower) (st.upper - st.middle))
        (max (st.middle - st.lower) (st.upper - st.middle) - min (st.middle - st.lower) (st.upper - st.middle)) ∧
    st'.upper - st'.lower = max (st.middle - st.lower) (st.upper - st.middle) := by
  obtain ⟨hp1, hp2, hpm⟩ := irr_probe hg
  have hcases := golden_cases cfg fn y st hg hy hf
  dsimp only at hcases
  obtain ⟨_, _, _, _, hcases⟩ := hcases
  obtain ⟨hl, hu, hirr⟩ := hg
  have hprobe : probe st = st.lower + (st.upper - st.middle) := rfl
  obtain ⟨i1, i2, i3⟩ := irr_sub (sub_pos.2 hl) (sub_pos.2 hu) hirr
  obtain ⟨_, j2, j3⟩ := irr_sub (sub_pos.2 hu) (sub_pos.2 hl) i1
  dsimp only
  unfold IsIrr
  rcases hcases with ⟨h1, _, e1, e2, e3⟩ | ⟨h1, _, e1, e2, e3⟩ | ⟨h1, _, e1, e2, e3⟩ | ⟨h1, _, e1, e2, e3⟩ <;>
    rw [e1, e2, e3] <;> rw [hprobe] at h1 ⊢
  · have hlt : st.middle - st.lower ≤ st.upper - st.middle := by linarith
    rw [min_eq_left hlt, max_eq_right hlt]
    have ea : st.lower + (st.upper - st.middle) - st.middle = (st.upper - st.middle) - (st.middle - st.lower) := by ring
    have eb : st.upper - (st.lower + (st.upper - st.middle)) = st.middle - st.lower := by ring
    rw [ea, eb]
    exact ⟨⟨h1, by linarith, j2⟩, hl.le, le_rfl, min_comm _ _, rfl⟩
  · have hlt : st.upper - st.middle ≤ st.middle - st.lower := by linarith
    rw [min_eq_right hlt, max_eq_left hlt]
    have ea : st.lower + (st.upper - st.middle) - st.lower = st.upper - st.middle := by ring
    have eb : st.middle - (st.lower + (st.upper - st.middle)) = (st.middle - st.lower) - (st.upper - st.middle) := by ring
    rw [ea, eb]
    exact ⟨⟨hp1, h1, i3⟩, le_rfl, hu.le, rfl, rfl⟩
  · have hlt : st.middle - st.lower ≤ st.upper - st.middle := by linarith
    rw [min_eq_left hlt, max_eq_right hlt]
    have eb : st.lower + (st.upper - st.middle) - st.middle = (st.upper - st.middle) - (st.middle - st.lower) := by ring
    rw [eb]
    exact ⟨⟨hl, h1, j3⟩, le_rfl, hp2.le, rfl, by ring⟩
  · have hlt : st.upper - st.middle ≤ st.middle - st.lower := by linarith
    rw [min_eq_right hlt, max_eq_left hlt]
    have ea : st.middle - (st.lower + (st.upper - st.middle)) = (st.middle - st.lower) - (st.upper - st.middle) := by ring
    rw [ea]
    exact ⟨⟨h1, hu, i2⟩, hp1.le, le_rfl, min_comm _ _, by ring⟩

/-- The bounds are rational (as all floating-point numbers are) and the first middle point lies between them. -/
structure MiddleInside (cfg : Golden.Cfg) : Prop where
  rationalLower : ∃ q : ℚ, cfg.lower = q
  rationalUpper : ∃ q : ℚ, cfg.upper = q
  above : cfg.lower < (cfg.upper - cfg.lower) / (Real.goldenRatio + 1)
  below : (cfg.upper - cfg.lower) / (Real.goldenRatio + 1) < cfg.upper

theorem middle_inside (cfg : Golden.Cfg) (hin : MiddleInside cfg) (fn : ℝ → ℝ × A) (y0 : ℝ) (st0 : Golden.State)
    (hi : (Golden.solver cfg).init fn y0 = .ok st0) : IsIrr st0.lower st0.middle st0.upper := by
  obtain ⟨h1, h2, h3, _⟩ := golden_init cfg fn y0 st0 hi
  obtain ⟨⟨a, ha⟩, ⟨b, hb⟩, hl, hu⟩ := hin
  obtain ⟨q, hq0, _, _, _, hq⟩ := golden_inv_props
  have hm : st0.middle = (cfg.upper - cfg.lower) / (Real.goldenRatio + 1) := by
    rw [h3, ← hq0, ← hq]
  have hl' : st0.lower < st0.middle := by rw [h1, hm]; exact hl
  have hu' : st0.middle < st0.upper := by rw [h2, hm]; exact hu
  refine ⟨hl', hu', ?_⟩
  rintro ⟨r, hr⟩
  -- then the middle point would be rational, and so the golden ratio
  have hpos : 0 < st0.upper - st0.middle := sub_pos.2 hu'
  have hr0 : (0 : ℝ) < r := by rw [hr]; exact div_pos (sub_pos.2 hl') hpos
  have e : st0.middle - st0.lower = r * (st0.upper - st0.middle) := by
    rw [hr]; field_simp
  rw [h1, h2, ha, hb] at e
  have hab : (b : ℝ) - a ≠ 0 := by rw [← ha, ← hb]; linarith
  have e1 : st0.middle * (1 + r) = a + r * b := by linarith
  rw [hm, ha, hb] at e1
  have hφ1 : (0 : ℝ) < Real.goldenRatio + 1 := by have := Real.goldenRatio_pos; linarith
  have e2 : ((b : ℝ) - a) * (1 + r) = (a + r * b) * (Real.goldenRatio + 1) := by
    rw [div_mul_eq_mul_div, div_eq_iff hφ1.ne'] at e1
    exact e1
  have hne : (a : ℝ) + r * b ≠ 0 := by
    intro h0
    rw [h0, zero_mul] at e2
    rcases mul_eq_zero.1 e2 with h | h
    · exact hab h
    · linarith
  apply Real.goldenRatio_irrational
  refine ⟨(b - a) * (1 + r) / (a + r * b) - 1, ?_⟩
  push_cast
  rw [e2, mul_div_cancel_left₀ _ hne]
  ring

/-- The invariant of a run whose first middle point is inside. -/
theorem offset_run (cfg : Golden.Cfg) (hin : MiddleInside cfg) (fn : ℝ → ℝ × A) (aux0 : A)
    (y0 : ℝ) (st0 : Golden.State) (hi : (Golden.solver cfg).init fn y0 = .ok st0) (k : Nat) :
    let st := stateAt (Golden.solver cfg) fn aux0 y0 st0 k
    IsIrr st.lower st.middle st.upper ∧ st.fMiddle = (fn st.middle).1 ∧
      (st.first = true ∨ iterateAt (Golden.solver cfg) fn aux0 y0 st0 k = probe st) ∧
      cfg.lower ≤ st.lower ∧ st.upper ≤ cfg.upper := by
  induction k with
  | zero =>
    obtain ⟨h1, h2, h3, h4, h5, _⟩ := golden_init cfg fn y0 st0 hi
    exact ⟨middle_inside cfg hin fn y0 st0 hi, h4, Or.inl h5, h1.ge, h2.le⟩
  | succ k ih =>
    obtain ⟨ig, ifm, iy, il, iu⟩ := ih
    obtain ⟨c1, c2, c3, c4, _⟩ := golden_cases cfg fn _ _ ig iy ifm
    obtain ⟨d1, d2, d3, _⟩ := golden_euclid cfg fn _ _ ig iy ifm
    exact ⟨d1, c4, Or.inr c1, il.trans d2, d3.trans iu⟩

/-- Euclid's algorithm on incommensurable lengths converges to zero. -/
theorem euclid_tendsto (w s : ℕ → ℝ) (hs : ∀ k, 0 < s k) (hw : ∀ k, s k ≤ w k / 2) (hw1 : ∀ k, w (k + 1) = w k - s k)
    (hs1 : ∀ k, s (k + 1) = min (s k) (w k - s k - s k)) : ∀ ε > 0, ∃ k, ∀ j ≥ k, w j < ε := by
  have hanti : Antitone w := antitone_nat_of_succ_le fun k => by rw [hw1]; linarith [hs k]
  intro ε hε
  suffices h : ∃ k, w k < ε by
    obtain ⟨k, hk⟩ := h
    exact ⟨k, fun j hj => (hanti hj).trans_lt hk⟩
  by_contra hno
  simp only [not_exists, not_lt] at hno
  -- some `s k` is small, since they add up to at most `w 0`
  have hsum : ∀ n, ∑ k ∈ Finset.range n, s k = w 0 - w n := by
    intro n
    induction n with
    | zero => simp
    | succ n ih => rw [Finset.sum_range_succ, ih, hw1]; ring
  obtain ⟨n, hn⟩ := exists_nat_gt (w 0 / (ε / 4))
  have hn' : w 0 < n * (ε / 4) := by rwa [div_lt_iff₀ (by positivity)] at hn
  have hsmall : ∃ k, s k < ε / 4 := by
    by_contra hb
    simp only [not_exists, not_lt] at hb
    have h1 : (n : ℝ) * (ε / 4) ≤ ∑ k ∈ Finset.range n, s k := by
      rw [← nsmul_eq_mul, ← Finset.card_range n, ← Finset.sum_const, Finset.card_range]
      exact Finset.sum_le_sum fun k _ => hb k
    have h2 := hno n
    rw [hsum] at h1
    linarith
  obtain ⟨k, hk⟩ := hsmall
  -- from then on it never changes, and the widths decrease without bound
  have hconst : ∀ j, s (k + j) = s k := by
    intro j
    induction j with
    | zero => rfl
    | succ j ih =>
      rw [← add_assoc, hs1, ih]
      have h1 := hno (k + j + 1)
      rw [hw1, ih] at h1
      exact min_eq_left (by linarith)
  have hlin : ∀ j : ℕ, w (k + j) = w k - j * s k := by
    intro j
    induction j with
    | zero => simp
    | succ j ih => rw [← add_assoc, hw1, ih, hconst]; push_cast; ring
  obtain ⟨m, hm⟩ := exists_nat_gt (w k / s k)
  rw [div_lt_iff₀ (hs k)] at hm
  have h1 := hno (k + m)
  rw [hlin] at h1
  linarith

/-- **C18_partial**, intervals not starting at zero.  If the bounds are rational and the first middle point happens to lie
between them, the bracket stays inside the user's interval and is never left, its middle point and all probes are strictly inside,
and it shrinks to a point.  (Missing: the factor `1/phi` per step, which only holds for `lower = 0`; and intervals whose first
middle point is outside, for which the statement is false, see `C18_probes_outside`.) -/
theorem C18_offset_inside_partial (cfg : Golden.Cfg) (hin : MiddleInside cfg) (fn : ℝ → ℝ × A)
    (aux0 : A) (y0 : ℝ) (st0 : Golden.State) (hi : (Golden.solver cfg).init fn y0 = .ok st0) :
    let st := stateAt (Golden.solver cfg) fn aux0 y0 st0
    (∀ k, cfg.lower ≤ (st k).lower ∧ (st k).upper ≤ cfg.upper ∧ (st k).lower < (st k).middle ∧ (st k).middle < (st k).upper ∧
      (st k).lower ≤ (st (k + 1)).lower ∧ (st (k + 1)).upper ≤ (st k).upper ∧
      (st k).lower < iterateAt (Golden.solver cfg) fn aux0 y0 st0 (k + 1) ∧
      iterateAt (Golden.solver cfg) fn aux0 y0 st0 (k + 1) < (st k).upper) ∧
    ∀ ε > 0, ∃ k, ∀ j ≥ k, (st j).upper - (st j).lower < ε := by
  intro st
  refine ⟨fun k => ?_, ?_⟩
  · obtain ⟨ig, ifm, iy, il, iu⟩ := offset_run cfg hin fn aux0 y0 st0 hi k
    obtain ⟨ig', ifm', iy', il', iu'⟩ := offset_run cfg hin fn aux0 y0 st0 hi (k + 1)
    obtain ⟨c1, c2, c3, c4, _⟩ := golden_cases cfg fn _ _ ig iy ifm
    obtain ⟨d1, d2, d3, _⟩ := golden_euclid cfg fn _ _ ig iy ifm
    obtain ⟨p1, p2, _⟩ := irr_probe ig'
    exact ⟨il, iu, ig.1, ig.2.1, d2, d3, lt_of_le_of_lt d2 (lt_of_lt_of_eq p1 c1.symm),
      lt_of_lt_of_le (lt_of_eq_of_lt c1 p2) d3⟩
  · refine euclid_tendsto _ (fun k => min ((st k).middle - (st k).lower) ((st k).upper - (st k).middle)) ?_ ?_ ?_ ?_
    · intro k
      obtain ⟨ig, _⟩ := offset_run cfg hin fn aux0 y0 st0 hi k
      exact lt_min (sub_pos.2 ig.1) (sub_pos.2 ig.2.1)
    · intro k
      rcases le_total ((st k).middle - (st k).lower) ((st k).upper - (st k).middle) with h | h
      · simp only [min_eq_left h]; linarith
      · simp only [min_eq_right h]; linarith
    · intro k
      obtain ⟨ig, ifm, iy, il, iu⟩ := offset_run cfg hin fn aux0 y0 st0 hi k
      obtain ⟨d1, d2, d3, d4, d5⟩ := golden_euclid cfg fn _ _ ig iy ifm
      refine Eq.trans d5 ?_
      show max ((st k).middle - (st k).lower) ((st k).upper - (st k).middle) = _
      have := min_add_max ((st k).middle - (st k).lower) ((st k).upper - (st k).middle)
      linarith
    · intro k
      obtain ⟨ig, ifm, iy, il, iu⟩ := offset_run cfg hin fn aux0 y0 st0 hi k
      obtain ⟨d1, d2, d3, d4, d5⟩ := golden_euclid cfg fn _ _ ig iy ifm
      refine Eq.trans d4 ?_
      show min (min ((st k).middle - (st k).lower) ((st k).upper - (st k).middle))
        (max ((st k).middle - (st k).lower) ((st k).upper - (st k).middle) - _) = _
      have := min_add_max ((st k).middle - (st k).lower) ((st k).upper - (st k).middle)
      congr 1
      linarith

/-- **C19_partial**, intervals not starting at zero: whenever the first middle point is inside (and the bounds are rational), the
minimiser of a unimodal function is in the bracket after any number of steps. -/
theorem C19_offset_kept_partial (cfg : Golden.Cfg) (hin : MiddleInside cfg) (fn : ℝ → ℝ × A)
    (aux0 : A) (y0 : ℝ) (st0 : Golden.State) (hi : (Golden.solver cfg).init fn y0 = .ok st0) (x : ℝ)
    (hx : Unimodal (fun t => (fn t).1) cfg.lower cfg.upper x) (k : Nat) :
    (stateAt (Golden.solver cfg) fn aux0 y0 st0 k).lower ≤ x ∧
      x ≤ (stateAt (Golden.solver cfg) fn aux0 y0 st0 k).upper := by
  obtain ⟨⟨hx1, hx2⟩, hdec, hinc⟩ := hx
  induction k with
  | zero =>
    obtain ⟨h1, h2, _⟩ := golden_init cfg fn y0 st0 hi
    show st0.lower ≤ x ∧ x ≤ st0.upper
    rw [h1, h2]; exact ⟨hx1, hx2⟩
  | succ k ih =>
    obtain ⟨ig, ifm, iy, il, iu⟩ := offset_run cfg hin fn aux0 y0 st0 hi k
    obtain ⟨c1, c2, c3, c4, c6⟩ := golden_cases cfg fn _ _ ig iy ifm
    obtain ⟨p3, p4, _⟩ := irr_probe ig
    obtain ⟨p1, p2, _⟩ := ig
    have hmx : ∀ a b, a < b → cfg.lower ≤ a → b ≤ cfg.upper → (fn b).1 ≤ (fn a).1 → a ≤ x := by
      intro a b hab ha hb hf
      by_contra hlt
      have := hinc ⟨(not_le.1 hlt).le, hab.le.trans hb⟩ ⟨(not_le.1 hlt).le.trans hab.le, hb⟩ hab
      exact absurd hf (not_le.2 this)
    have hxm : ∀ a b, a < b → cfg.lower ≤ a → b ≤ cfg.upper → (fn a).1 ≤ (fn b).1 → x ≤ b := by
      intro a b hab ha hb hf
      by_contra hlt
      have := hdec ⟨ha, hab.le.trans (not_le.1 hlt).le⟩ ⟨ha.trans hab.le, (not_le.1 hlt).le⟩ hab
      exact absurd hf (not_le.2 this)
    have hst : stateAt (Golden.solver cfg) fn aux0 y0 st0 (k + 1) =
      (Golden.step cfg fn (iterateAt (Golden.solver cfg) fn aux0 y0 st0 k)
        (stateAt (Golden.solver cfg) fn aux0 y0 st0 k)).2.1 := rfl
    rw [hst]
    obtain ⟨ih1, ih2⟩ := ih
    have q3 : (stateAt (Golden.solver cfg) fn aux0 y0 st0 k).lower < probe (stateAt (Golden.solver cfg) fn aux0 y0 st0 k) := p3
    have q4 : probe (stateAt (Golden.solver cfg) fn aux0 y0 st0 k) < (stateAt (Golden.solver cfg) fn aux0 y0 st0 k).upper := p4
    rcases c6 with ⟨h1, h2, e1, e2, e3⟩ | ⟨h1, h2, e1, e2, e3⟩ | ⟨h1, h2, e1, e2, e3⟩ | ⟨h1, h2, e1, e2, e3⟩
    · rw [e1, e3]
      exact ⟨hmx _ _ h1 (by linarith) (by linarith) h2.le, ih2⟩
    · rw [e1, e3]
      exact ⟨ih1, hxm _ _ h1 (by linarith) (by linarith) h2.le⟩
    · rw [e1, e3]
      exact ⟨ih1, hxm _ _ h1 (by linarith) (by linarith) h2⟩
    · rw [e1, e3]
      exact ⟨hmx _ _ h1 (by linarith) (by linarith) h2, ih2⟩

/-- **C19_partial**, intervals not starting at zero: whenever the first middle point is inside (and the bounds are rational),
every solve of a continuous function succeeds, given a large enough budget or none. -/
theorem C19_offset_terminates_partial (cfg : Golden.Cfg) (hin : MiddleInside cfg)
    (ha : 0 < cfg.atol) (hr : 0 ≤ cfg.rtol) (hstr : cfg.fStruct = .leaf [] true) (hsc : cfg.scalarArgs = true)
    (fn : ℝ → ℝ × A) (hc : ContinuousOn (fun t => (fn t).1) (Set.Icc cfg.lower cfg.upper)) (aux0 : A) (y0 : ℝ) :
    ∃ N, ∀ (ms : Option Nat) (throw : Bool), (∀ n, ms = some n → N ≤ n) →
      ∃ sol, minimise (Golden.solver cfg) cfg.fStruct (fun _ => true) fn aux0 y0 ms throw = some (.ok sol) ∧
        sol.result = .successful ∧ sol.numSteps ≤ N := by
  classical
  obtain ⟨st0, hi⟩ : ∃ st0, (Golden.solver cfg).init fn y0 = .ok st0 := by
    show ∃ st0, Golden.init cfg fn y0 = .ok st0
    unfold Golden.init
    rw [hsc, hstr]
    exact ⟨_, rfl⟩
  have huc := isCompact_Icc.uniformContinuousOn_of_continuous hc
  rw [Metric.uniformContinuousOn_iff] at huc
  obtain ⟨δ, hδ0, hδ⟩ := huc cfg.atol ha
  obtain ⟨hinside, hwidth⟩ := C18_offset_inside_partial cfg hin fn aux0 y0 st0 hi
  obtain ⟨k, hk⟩ := hwidth (min δ cfg.atol) (lt_min hδ0 ha)
  have hw := hk k le_rfl
  obtain ⟨ig, ifm, iy, il, iu⟩ := offset_run cfg hin fn aux0 y0 st0 hi k
  obtain ⟨c1, c2, c3, c4, c6⟩ := golden_cases cfg fn _ _ ig iy ifm
  obtain ⟨p3, p4, _⟩ := irr_probe ig
  obtain ⟨p1, p2, _⟩ := ig
  have hterm : (Golden.solver cfg).terminate fn (iterateAt (Golden.solver cfg) fn aux0 y0 st0 (k + 1 - 1))
      (stateAt (Golden.solver cfg) fn aux0 y0 st0 (k + 1)) = (true, .successful) := by
    refine Prod.ext (c3.trans ?_) rfl
    rw [golden_cauchy _ _ ha hr]
    have hwδ := hw.trans_le (min_le_left _ _)
    have hwa := hw.trans_le (min_le_right _ _)
    have hd : |(stateAt (Golden.solver cfg) fn aux0 y0 st0 k).middle - probe (stateAt (Golden.solver cfg) fn aux0 y0 st0 k)| ≤
      (stateAt (Golden.solver cfg) fn aux0 y0 st0 k).upper - (stateAt (Golden.solver cfg) fn aux0 y0 st0 k).lower := by
      rw [abs_le]; unfold probe; constructor <;> linarith
    have hn1 : 0 ≤ cfg.rtol * |(stateAt (Golden.solver cfg) fn aux0 y0 st0 k).middle| := by positivity
    have hn2 : 0 ≤ cfg.rtol * |(fn (stateAt (Golden.solver cfg) fn aux0 y0 st0 k).middle).1| := by positivity
    refine ⟨by linarith, ?_⟩
    have := hδ (stateAt (Golden.solver cfg) fn aux0 y0 st0 k).middle ⟨by linarith, by linarith⟩ (probe (stateAt (Golden.solver cfg) fn aux0 y0 st0 k))
      ⟨by unfold probe; linarith, by unfold probe; linarith⟩
      (lt_of_le_of_lt (by rw [Real.dist_eq]; exact hd) hwδ)
    rw [Real.dist_eq] at this
    linarith
  refine ⟨k + 1, fun ms throw hms => ?_⟩
  let P : Nat → Prop := fun k => (Golden.solver cfg).terminate fn
    (iterateAt (Golden.solver cfg) fn aux0 y0 st0 (k - 1)) (stateAt (Golden.solver cfg) fn aux0 y0 st0 k) =
      (true, .successful)
  have hex : ∃ k, P k := ⟨k + 1, hterm⟩
  have hle : Nat.find hex ≤ k + 1 := Nat.find_min' hex hterm
  have hmin : ∀ j, j < Nat.find hex → (fun _ : ℝ => true)
      (iterateAt (Golden.solver cfg) fn aux0 y0 st0 (j - 1)) = true ∧
      (Golden.solver cfg).terminate fn (iterateAt (Golden.solver cfg) fn aux0 y0 st0 (j - 1))
      (stateAt (Golden.solver cfg) fn aux0 y0 st0 j) = (false, .successful) := by
    intro j hj
    refine ⟨rfl, ?_⟩
    have hnot := Nat.find_min hex hj
    refine Prod.ext ?_ rfl
    by_contra hne
    exact hnot (Prod.ext (by simpa using hne) rfl)
  obtain ⟨sol, h1, h2, h3⟩ := C02_success_complete (Golden.solver cfg) (fun _ => true) fn aux0 y0 st0 hi ms throw
    (Nat.find hex) hmin rfl (Nat.find_spec hex) (fun n hn => hle.trans (hms n hn))
  refine ⟨sol, ?_, h2, h3 ▸ hle⟩
  unfold minimise
  rw [if_pos hstr]; exact h1

/-- Which intervals have their first middle point inside: those with `lower (phi + 2) < upper` and `-lower < phi upper`.  So
`[-1, 1]` has, but `[-2, 1]` and `[1, 2]` have not. -/
theorem C18_middle_inside_iff (lower upper : ℝ) :
    (lower < (upper - lower) / (Real.goldenRatio + 1) ↔ lower * (Real.goldenRatio + 2) < upper) ∧
    ((upper - lower) / (Real.goldenRatio + 1) < upper ↔ -lower < Real.goldenRatio * upper) := by
  have h : (0 : ℝ) < Real.goldenRatio + 1 := by have := Real.goldenRatio_pos; linarith
  rw [lt_div_iff₀ h, div_lt_iff₀ h]
  constructor <;> constructor <;> intro h' <;> linarith

/-- Bounds for the golden ratio. -/
theorem golden_bounds : (1.618 : ℝ) < Real.goldenRatio ∧ Real.goldenRatio < 1.6181 := by
  have h := Real.goldenRatio_sq
  have h1 := Real.one_lt_goldenRatio
  constructor
  · by_contra hlt
    nlinarith
  · by_contra hlt
    nlinarith

/-- **C19 is false of the code**, also where the minimiser is never lost: success can be reported after a single step, at a point
far from the minimiser.  `(t - 0.6)^2` on `[-0.134, 1]`, with any tolerances as long as `atol ≥ 0.001`: the first probe falls next
to the middle point, which the stopping test takes for convergence, and the value returned is above `0.99`. -/
theorem C19_false_success (rtol atol : ℝ) (ha : 1 / 1000 ≤ atol) (hr : 0 ≤ rtol) :
    let cfg : Golden.Cfg := ⟨rtol, atol, -0.134, 1, true, .leaf [] true⟩
    let fn : ℝ → ℝ × Unit := fun t => ((t - 0.6) ^ 2, ())
    MiddleInside cfg ∧ Unimodal (fun t => (fn t).1) cfg.lower cfg.upper 0.6 ∧
    ∀ (y0 : ℝ) (ms : Option Nat) (throw : Bool), (∀ n, ms = some n → 1 ≤ n) →
      ∃ sol, minimise (Golden.solver cfg) cfg.fStruct (fun _ => true) fn () y0 ms throw = some (.ok sol) ∧
        sol.result = .successful ∧ sol.numSteps = 1 ∧ 0.99 < sol.value := by
  intro cfg fn
  obtain ⟨b1, b2⟩ := golden_bounds
  have hin : MiddleInside cfg := by
    refine ⟨⟨-0.134, by norm_num [cfg]⟩, ⟨1, by norm_num [cfg]⟩, ?_, ?_⟩
    · exact (C18_middle_inside_iff _ _).1.2 (by show (-0.134 : ℝ) * _ < 1; linarith)
    · exact (C18_middle_inside_iff _ _).2.2 (by show -(-0.134 : ℝ) < _ * 1; linarith)
  refine ⟨hin, ⟨by norm_num [cfg], fun a ha b hb hab => ?_, fun a ha b hb hab => ?_⟩, fun y0 ms throw hms => ?_⟩
  · have := hb.2; simp only [fn] at *; nlinarith
  · have := ha.1; simp only [fn] at *; nlinarith
  · obtain ⟨st0, hi⟩ : ∃ st0, (Golden.solver cfg).init fn y0 = .ok st0 := ⟨_, rfl⟩
    obtain ⟨i1, i2, i3, i4, i5, i6⟩ := golden_init cfg fn y0 st0 hi
    obtain ⟨q, hq0, _, _, _, hq⟩ := golden_inv_props
    have hm : st0.middle = 1.134 / (Real.goldenRatio + 1) := by
      rw [i3, ← hq0, ← hq]
      show (1 - -0.134 : ℝ) / (Real.goldenRatio + 1) = _
      norm_num
    have m1 : 0.4331 < st0.middle := by
      rw [hm, lt_div_iff₀ (by linarith)]; linarith
    have m2 : st0.middle < 0.4332 := by
      rw [hm, div_lt_iff₀ (by linarith)]; linarith
    have hg := middle_inside cfg hin fn y0 st0 hi
    obtain ⟨c1, c2, c3, c4, c6⟩ := golden_cases cfg fn y0 st0 hg (Or.inl i5) i4
    have hprobe : probe st0 = 0.866 - st0.middle := by
      unfold probe; rw [i1, i2]
      show (-0.134 : ℝ) + (1 - _) = _
      ring
    have hterm : (Golden.step cfg fn y0 st0).2.1.terminate = true := by
      rw [c3, golden_cauchy _ _ (by show 0 < atol; linarith) hr]
      have n1 : 0 ≤ rtol * |st0.middle| := by positivity
      have n2 : 0 ≤ rtol * |(fn st0.middle).1| := by positivity
      constructor
      · refine lt_of_lt_of_le (b := 1 / 1000) ?_ (by show _ ≤ atol + rtol * _; linarith)
        rw [hprobe, abs_lt]; constructor <;> linarith
      · refine lt_of_lt_of_le (b := 1 / 1000) ?_ (by show _ ≤ atol + rtol * _; linarith)
        show |(st0.middle - 0.6) ^ 2 - (probe st0 - 0.6) ^ 2| < _
        rw [hprobe, abs_lt]
        constructor <;> nlinarith
    obtain ⟨sol, h1, h2, h3⟩ := C02_success_complete (Golden.solver cfg) (fun _ => true) fn () y0 st0 hi ms throw 1
      (fun j hj => ⟨rfl, by
        obtain rfl : j = 0 := by omega
        exact Prod.ext i6 rfl⟩) rfl (Prod.ext hterm rfl) hms
    refine ⟨sol, ?_, h2, h3, ?_⟩
    · unfold minimise
      rw [if_pos rfl]; exact h1
    · obtain ⟨_, _, st0', hi', hstate, hp⟩ := C01_step_budget _ _ _ _ _ _ _ _ h1
      rw [hi] at hi'; cases hi'
      have hval : sol.value = iterateAt (Golden.solver cfg) fn () y0 st0 sol.numSteps := congrArg Prod.fst hp
      rw [hval, h3]
      show 0.99 < (Golden.step cfg fn y0 st0).1
      rw [c1]
      have hlt : probe st0 < st0.middle := by rw [hprobe]; linarith
      have hge : (fn st0.middle).1 ≤ (fn (probe st0)).1 := by
        show (st0.middle - 0.6) ^ 2 ≤ (probe st0 - 0.6) ^ 2
        rw [hprobe]; nlinarith
      rcases c6 with ⟨h, _⟩ | ⟨_, h, _⟩ | ⟨h, _⟩ | ⟨_, _, e1, e2, e3⟩
      · linarith
      · linarith
      · linarith
      · unfold probe
        rw [e1, e2, e3, hprobe, i2]
        show 0.99 < 0.866 - st0.middle + ((1 : ℝ) - st0.middle)
        linarith

/-- Non-vacuity of the partial theorems: `[-1, 1]` has its first middle point inside, `(t + 1/2)^2` is unimodal on it, and the
solve succeeds. -/
example : ∃ sol, minimise (Golden.solver ⟨0, 0.1, -1, 1, true, .leaf [] true⟩) (.leaf [] true) (fun _ => true)
    (fun t : ℝ => ((t + 1 / 2) ^ 2, ())) () 0 none true = some (.ok sol) ∧ sol.result = .successful := by
  obtain ⟨b1, b2⟩ := golden_bounds
  obtain ⟨N, hN⟩ := C19_offset_terminates_partial (A := Unit) ⟨0, 0.1, -1, 1, true, .leaf [] true⟩
    ⟨⟨-1, by norm_num⟩, ⟨1, by norm_num⟩, (C18_middle_inside_iff _ _).1.2 (by simp only; linarith),
      (C18_middle_inside_iff _ _).2.2 (by simp only; linarith)⟩
    (by norm_num) le_rfl rfl rfl (fun t => ((t + 1 / 2) ^ 2, ())) (by fun_prop) () 0
  obtain ⟨sol, h1, h2, _⟩ := hN none true (by simp)
  exact ⟨sol, h1, h2⟩

example : Unimodal (fun t : ℝ => (t + 1 / 2) ^ 2) (-1) 1 (-1 / 2) := by
  refine ⟨by norm_num, fun a ha b hb hab => ?_, fun a ha b hb hab => ?_⟩
  · have := hb.2; simp only; nlinarith
  · have := ha.1; simp only; nlinarith

end Verif.Props
