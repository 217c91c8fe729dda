import Verif.Lemmas.Norms
import Mathlib.Tactic.NormNum

/-!
Properties C46 (`cauchy_termination`) and C47 (`feasible_step_length`, `tree_clip`).
-/

namespace Verif.Props
open Verif

variable {ι κ : Type} [Fintype ι] [Fintype κ]

/-! ### C46 -/

/-- **C46.** With the default `max_norm` and `atol > 0`, `rtol ≥ 0`: the test is true iff *every* entry of the update is
below `atol + rtol*|y|` and *every* entry of the change of `f` is below `atol + rtol*|f|`. -/
theorem C46_cauchy_iff_all_entries (rtol atol : ℝ) (ha : 0 < atol) (hr : 0 ≤ rtol)
    (y yd : ι → ℝ) (f fd : κ → ℝ) :
    cauchyTermination rtol atol maxNorm maxNorm y yd f fd = true ↔
      (∀ i, |yd i| < atol + rtol * |y i|) ∧ (∀ j, |fd j| < atol + rtol * |f j|) := by
  have key : ∀ {α : Type} [Fintype α] (x d : α → ℝ),
      maxNorm (scaledDiff rtol atol x d) < 1 ↔ ∀ i, |d i| < atol + rtol * |x i| := by
    intro α _ x d
    rw [maxNorm_lt_iff]
    simp only [zero_lt_one, true_and, scaledDiff, HasAbs.abs_real]
    refine forall_congr' fun i => ?_
    have hpos : 0 < atol + rtol * |x i| := by positivity
    rw [abs_div, abs_abs, abs_of_pos hpos, div_lt_one hpos]
  simp [cauchyTermination, key]

omit [Fintype ι] [Fintype κ] in
/-- **C46.** Both halves are necessary, for every norm. -/
theorem C46_cauchy_needs_both (rtol atol : ℝ) (nY : (ι → ℝ) → ℝ) (nF : (κ → ℝ) → ℝ)
    (y yd : ι → ℝ) (f fd : κ → ℝ) :
    cauchyTermination rtol atol nY nF y yd f fd = true ↔
      nY (fun i => |yd i| / (atol + rtol * |y i|)) < 1 ∧ nF (fun j => |fd j| / (atol + rtol * |f j|)) < 1 := by
  simp only [cauchyTermination, Bool.and_eq_true, decide_eq_true_eq]
  rfl

/-- **C46.** Larger tolerances never turn a "converged" into a "not converged" (any monotone norm). -/
theorem C46_cauchy_monotone_tol (rtol atol rtol' atol' : ℝ) (ha : 0 < atol) (hr : 0 ≤ rtol)
    (hrr : rtol ≤ rtol') (haa : atol ≤ atol') (nY : (ι → ℝ) → ℝ) (nF : (κ → ℝ) → ℝ)
    (hY : GoodNorm nY) (hF : GoodNorm nF) (y yd : ι → ℝ) (f fd : κ → ℝ)
    (h : cauchyTermination rtol atol nY nF y yd f fd = true) :
    cauchyTermination rtol' atol' nY nF y yd f fd = true := by
  have key : ∀ {α : Type} (x d : α → ℝ) (i : α),
      |scaledDiff rtol' atol' x d i| ≤ |scaledDiff rtol atol x d i| := by
    intro α x d i
    simp only [scaledDiff, HasAbs.abs_real]
    have h1 : 0 < atol + rtol * |x i| := by positivity
    have h2 : atol + rtol * |x i| ≤ atol' + rtol' * |x i| :=
      add_le_add haa (mul_le_mul_of_nonneg_right hrr (abs_nonneg _))
    rw [abs_div, abs_div, abs_of_pos h1, abs_of_pos (h1.trans_le h2)]
    exact div_le_div_of_nonneg_left (abs_nonneg _) h1 h2
  rw [C46_cauchy_needs_both] at h ⊢
  exact ⟨(hY.mono _ _ (key y yd)).trans_lt h.1, (hF.mono _ _ (key f fd)).trans_lt h.2⟩

/-- **C46.** In floating point: if any entry of `y`, the update, `f` or its change is NaN, or an entry of the update or
of the change of `f` is infinite (at a finite point), the test is false - for every norm that is not fooled by
non-finite entries, i.e. never returns something `< 1` for them. -/
theorem C46_cauchy_nonfinite_false (rtol atol : ℝ)
    (nY : (ι → XR) → XR) (nF : (κ → XR) → XR)
    (hY : ∀ x, (∃ i, (x i).isFinite = false) → ¬ nY x < 1)
    (hF : ∀ x, (∃ i, (x i).isFinite = false) → ¬ nF x < 1)
    (y yd : ι → XR) (f fd : κ → XR)
    (h : (∃ i, (yd i).isFinite = false ∧ (y i).isFinite = true) ∨ (∃ i, y i = .nan ∨ yd i = .nan) ∨
         (∃ j, (fd j).isFinite = false ∧ (f j).isFinite = true) ∨ (∃ j, f j = .nan ∨ fd j = .nan)) :
    cauchyTermination (XR.fin rtol) (XR.fin atol) nY nF y yd f fd = false := by
  have key : ∀ {α : Type} (x d : α → XR) (i : α),
      ((d i).isFinite = false ∧ (x i).isFinite = true) ∨ x i = .nan ∨ d i = .nan →
      (scaledDiff (XR.fin rtol) (XR.fin atol) x d i).isFinite = false := by
    intro α x d i hi
    unfold scaledDiff
    rcases hi with ⟨h1, h2⟩ | h1 | h1
    · cases hx : x i with
      | fin r =>
        simp only [XR.abs_fin, XR.mul_fin, XR.add_fin]
        cases hd : d i with
        | fin s => rw [hd] at h1; cases h1
        | nan => simp; rfl
        | pinf =>
          show (if _ < (0:ℝ) then XR.ninf else XR.pinf).isFinite = false
          split <;> rfl
        | ninf =>
          show (if _ < (0:ℝ) then XR.ninf else XR.pinf).isFinite = false
          split <;> rfl
      | pinf => rw [hx] at h2; cases h2
      | ninf => rw [hx] at h2; cases h2
      | nan => rw [hx] at h2; cases h2
    · rw [h1]; simp; rfl
    · rw [h1]; simp; rfl
  have hY' : ∀ i, (scaledDiff (XR.fin rtol) (XR.fin atol) y yd i).isFinite = false →
      decide (nY (scaledDiff (XR.fin rtol) (XR.fin atol) y yd) < 1) = false :=
    fun i hi => decide_eq_false (hY _ ⟨i, hi⟩)
  have hF' : ∀ i, (scaledDiff (XR.fin rtol) (XR.fin atol) f fd i).isFinite = false →
      decide (nF (scaledDiff (XR.fin rtol) (XR.fin atol) f fd) < 1) = false :=
    fun i hi => decide_eq_false (hF _ ⟨i, hi⟩)
  unfold cauchyTermination
  rcases h with ⟨i, hi⟩ | ⟨i, hi⟩ | ⟨i, hi⟩ | ⟨i, hi⟩
  · rw [hY' i (key _ _ _ (Or.inl hi))]; rfl
  · rw [hY' i (key _ _ _ (Or.inr hi))]; rfl
  · rw [hF' i (key _ _ _ (Or.inl hi)), Bool.and_false]
  · rw [hF' i (key _ _ _ (Or.inr hi)), Bool.and_false]

/-- `max_norm` in the presence of NaN/inf: NaN if an entry is NaN, else `+inf` if an entry is infinite, else the
largest absolute value. -/
noncomputable def xMaxNorm (x : ι → XR) : XR :=
  open Classical in
  if ∃ i, x i = .nan then .nan
  else if ∃ i, (x i).isFinite = false then .pinf
  else .fin (maxNorm fun i => match x i with | .fin r => r | _ => 0)

/-- The hypothesis on the norm in `C46_cauchy_nonfinite_false` holds for `max_norm`. -/
example (x : ι → XR) (h : ∃ i, (x i).isFinite = false) : ¬ xMaxNorm x < 1 := by
  unfold xMaxNorm
  split
  · simp
  · simp

/-- A case where the test is true: a zero update and a zero change with `atol = 1`, `rtol = 0`. -/
example : cauchyTermination (ι := Fin 2) (κ := Fin 1) (0:ℝ) 1 maxNorm maxNorm ![5, 7] ![0, 1/2] ![3] ![0] = true := by
  rw [C46_cauchy_iff_all_entries _ _ (by norm_num) (by norm_num)]
  constructor
  · intro i; fin_cases i <;> norm_num [abs_of_pos]
  · intro i; fin_cases i; norm_num

/-- A case where it is false because only `f` has not settled. -/
example : cauchyTermination (ι := Fin 2) (κ := Fin 1) (0:ℝ) 1 maxNorm maxNorm ![5, 7] ![0, 0] ![3] ![2] = false := by
  rw [Bool.eq_false_iff, ne_eq, C46_cauchy_iff_all_entries _ _ (by norm_num) (by norm_num)]
  rintro ⟨_, h⟩
  have := h 0
  norm_num at this

/-! ### C47 -/

/-- `t * dx` moves a coordinate `x`; `lo`/`hi` may be infinite. -/
def InBox (lo hi : XR) (x : ℝ) : Prop := lo ≤ XR.fin x ∧ XR.fin x ≤ hi

/-- A lower bound is a real or `-inf`. -/
def IsLower (lo : XR) : Prop := lo = .ninf ∨ ∃ l, lo = .fin l
/-- An upper bound is a real or `+inf`. -/
def IsUpper (hi : XR) : Prop := hi = .pinf ∨ ∃ u, hi = .fin u

theorem clip01_fin (t : ℝ) : XR.clip 0 1 (.fin t) = .fin (min (max t 0) 1) := by
  unfold XR.clip
  by_cases h : t < 0
  · have h1 : max t 0 = 0 := max_eq_right h.le
    have h2 : ¬ (1 : XR) < 0 := by simp [not_lt]
    rw [if_pos (show XR.fin t < 0 from h), if_neg h2, h1]; simp
  · have h1 : max t 0 = t := max_eq_left (not_lt.1 h)
    rw [if_neg (show ¬ XR.fin t < 0 from h), h1]
    by_cases h2 : 1 < t
    · rw [if_pos (show (1 : XR) < .fin t from h2), min_eq_right h2.le]; rfl
    · rw [if_neg (show ¬ (1 : XR) < .fin t from h2), min_eq_left (not_lt.1 h2)]

theorem clip01_pinf : XR.clip 0 1 .pinf = .fin 1 := by
  unfold XR.clip
  rw [if_neg (XR.not_pinf_lt 0), if_pos (show (1 : XR) < .pinf from trivial)]; rfl

/-- The step-length for one coordinate in closed form (finite offset `o < 1`). -/
theorem maxStep_eq (o x dx : ℝ) (ho : o < 1) (lo hi : XR) (hlo : IsLower lo) (hhi : IsUpper hi) :
    ∃ t, maxStep (.fin o) (.fin x) (.fin dx) lo hi = .fin t ∧ 0 ≤ t ∧ t ≤ 1 ∧
      (dx < 0 → ∀ l, lo = .fin l → t = min (max ((1 - o) * (x - l) / (-dx)) 0) 1) ∧
      (0 < dx → ∀ u, hi = .fin u → t = min (max ((1 - o) * (u - x) / dx) 0) 1) ∧
      (dx < 0 → lo = .ninf → t = 1) ∧ (0 < dx → hi = .pinf → t = 1) ∧ (dx = 0 → t = 1) := by
  have ho' : (0:ℝ) < 1 - o := by linarith
  have hb : ∀ a : ℝ, 0 ≤ min (max a 0) 1 ∧ min (max a 0) 1 ≤ 1 := fun a =>
    ⟨le_min (le_max_right _ _) zero_le_one, min_le_right _ _⟩
  have hone : (1 : XR) - .fin o = .fin (1 - o) := by simp
  unfold maxStep
  dsimp only
  rw [hone]
  rcases lt_trichotomy dx 0 with hdx | hdx | hdx
  · have h1 : ¬ (0:ℝ) < dx := not_lt.2 hdx.le
    rw [if_pos (show XR.fin dx < 0 from hdx), if_neg (show ¬ 0 < XR.fin dx from h1), clip01_pinf]
    rcases hlo with rfl | ⟨l, rfl⟩
    · refine ⟨1, ?_, by norm_num, le_refl _, by simp, by simp [h1], by simp, by simp, by simp⟩
      rw [XR.fin_sub_ninf, XR.fin_mul_pinf _ ho', XR.neg_pinf, XR.ninf_div_fin _ hdx, clip01_pinf, ite_self]
    · refine ⟨min (max ((1 - o) * (x - l) / (-dx)) 0) 1, ?_, (hb _).1, (hb _).2, ?_, ?_, ?_, ?_, ?_⟩
      · rw [XR.sub_fin, XR.mul_fin, XR.neg_fin, XR.div_fin _ _ hdx.ne, clip01_fin]
        have : -((1 - o) * (x - l)) / dx = (1 - o) * (x - l) / (-dx) := by rw [div_neg, neg_div]
        rw [this]
        split
        · rfl
        · rename_i h2
          have h3 := (hb ((1 - o) * (x - l) / (-dx))).2
          rw [XR.lt_fin] at h2
          congr 1
          linarith
      · intro _ l' hl'; cases hl'; rfl
      · intro h; exact absurd h h1
      · intro _ h; cases h
      · intro h; exact absurd h h1
      · intro h; exact absurd h hdx.ne
  · subst hdx
    refine ⟨1, ?_, by norm_num, le_refl _, by simp, by simp, by simp, by simp, by simp⟩
    have h0 : ¬ (XR.fin 0) < 0 := lt_irrefl (0:ℝ)
    have h0' : ¬ 0 < (XR.fin 0) := lt_irrefl (0:ℝ)
    rw [if_neg h0, if_neg h0', clip01_pinf, ite_self]
  · have h1 : ¬ dx < (0:ℝ) := not_lt.2 hdx.le
    rw [if_neg (show ¬ XR.fin dx < 0 from h1), if_pos (show 0 < XR.fin dx from hdx), clip01_pinf]
    rcases hhi with rfl | ⟨u, rfl⟩
    · refine ⟨1, ?_, by norm_num, le_refl _, by simp [h1], by simp, by simp, by simp, by simp⟩
      rw [XR.pinf_sub_fin, XR.fin_mul_pinf _ ho', XR.pinf_div_fin _ hdx.le, clip01_pinf, ite_self]
    · refine ⟨min (max ((1 - o) * (u - x) / dx) 0) 1, ?_, (hb _).1, (hb _).2, ?_, ?_, ?_, ?_, ?_⟩
      · rw [XR.sub_fin, XR.mul_fin, XR.div_fin _ _ hdx.ne', clip01_fin]
        split
        · rename_i h2
          have h3 := (hb ((1 - o) * (u - x) / dx)).2
          rw [XR.lt_fin] at h2
          linarith
        · rfl
      · intro h; exact absurd h h1
      · intro _ u' hu'; cases hu'; rfl
      · intro h; exact absurd h h1
      · intro _ h; cases h
      · intro h; exact absurd h hdx.ne'

/-- **C47.** Every returned length is a number in `[0,1]`, and moving a feasible coordinate by any fraction up to it
keeps it feasible (bounds may be infinite, any `offset` in `[0,1)`). -/
theorem C47_feasible_step_keeps_box {α : Type} (y dy : α → ℝ) (lo hi : α → XR) (o : Option ℝ)
    (ho : ∀ v, o = some v → 0 ≤ v ∧ v < 1) (hlo : ∀ i, IsLower (lo i)) (hhi : ∀ i, IsUpper (hi i)) (i : α) :
    ∃ t, feasibleStepLength (fun i => .fin (y i)) (fun i => .fin (dy i)) lo hi (o.map .fin) i = .fin t ∧
      0 ≤ t ∧ t ≤ 1 ∧
      (InBox (lo i) (hi i) (y i) → ∀ s, 0 ≤ s → s ≤ t → InBox (lo i) (hi i) (y i + s * dy i)) := by
  obtain ⟨v, hv, hv0, hv1⟩ : ∃ v : ℝ, (o.map XR.fin).getD 0 = .fin v ∧ 0 ≤ v ∧ v < 1 := by
    cases o with
    | none => exact ⟨0, rfl, le_refl _, by norm_num⟩
    | some v => exact ⟨v, rfl, ho v rfl⟩
  obtain ⟨t, ht, h0, h1, hl, hu, _⟩ := maxStep_eq v (y i) (dy i) hv1 (lo i) (hi i) (hlo i) (hhi i)
  refine ⟨t, by unfold feasibleStepLength; rw [hv]; exact ht, h0, h1, ?_⟩
  rintro ⟨hb1, hb2⟩ s hs0 hst
  constructor
  · rcases hlo i with h | ⟨l, h⟩
    · rw [h]; simp
    · rw [h] at hb1 ⊢
      simp only [XR.le_fin] at hb1 ⊢
      rcases lt_or_ge (dy i) 0 with hd | hd
      · have htv := hl hd l h
        have h3 : s ≤ (1 - v) * (y i - l) / (-dy i) := by
          have : 0 ≤ (1 - v) * (y i - l) / (-dy i) := by
            apply div_nonneg (mul_nonneg (by linarith) (by linarith)); linarith
          rw [max_eq_left this] at htv
          exact hst.trans (htv.le.trans (min_le_left _ _))
        have hd' : 0 < -dy i := by linarith
        rw [le_div_iff₀ hd'] at h3
        have : (1 - v) * (y i - l) ≤ y i - l := by nlinarith
        linarith
      · have := mul_nonneg hs0 hd; linarith
  · rcases hhi i with h | ⟨u, h⟩
    · rw [h]; simp
    · rw [h] at hb2 ⊢
      simp only [XR.le_fin] at hb2 ⊢
      rcases lt_or_ge 0 (dy i) with hd | hd
      · have htv := hu hd u h
        have h3 : s ≤ (1 - v) * (u - y i) / dy i := by
          have : 0 ≤ (1 - v) * (u - y i) / dy i := by
            apply div_nonneg (mul_nonneg (by linarith) (by linarith)); linarith
          rw [max_eq_left this] at htv
          exact hst.trans (htv.le.trans (min_le_left _ _))
        rw [le_div_iff₀ hd] at h3
        have : (1 - v) * (u - y i) ≤ u - y i := by nlinarith
        linarith
      · have := mul_nonneg_of_nonpos_of_nonpos (by linarith : -s ≤ 0) hd
        linarith

/-- **C47.** The length is the largest feasible one: without offset, if it is below 1 then the coordinate moved by it
lies exactly on (or was already beyond) the bound in the direction of travel, so a full step that stays in the box is
never shortened. -/
theorem C47_feasible_step_maximal {α : Type} (y dy : α → ℝ) (lo hi : α → XR)
    (hlo : ∀ i, IsLower (lo i)) (hhi : ∀ i, IsUpper (hi i)) (i : α)
    (hfull : InBox (lo i) (hi i) (y i + dy i)) :
    feasibleStepLength (fun i => .fin (y i)) (fun i => .fin (dy i)) lo hi none i = .fin 1 := by
  obtain ⟨t, ht, h0, h1, hl, hu, hl', hu', hz⟩ :=
    maxStep_eq 0 (y i) (dy i) (by norm_num) (lo i) (hi i) (hlo i) (hhi i)
  have : feasibleStepLength (fun i => .fin (y i)) (fun i => .fin (dy i)) lo hi none i = .fin t := ht
  rw [this]
  congr 1
  rcases lt_trichotomy (dy i) 0 with hd | hd | hd
  · rcases hlo i with h | ⟨l, h⟩
    · exact hl' hd h
    · rw [hl hd l h]
      have hb := hfull.1
      rw [h] at hb
      simp only [XR.le_fin] at hb
      have : 1 ≤ (1 - 0) * (y i - l) / (-dy i) := by
        rw [le_div_iff₀ (by linarith)]; linarith
      rw [max_eq_left (by linarith), min_eq_right this]
  · exact hz hd
  · rcases hhi i with h | ⟨u, h⟩
    · exact hu' hd h
    · rw [hu hd u h]
      have hb := hfull.2
      rw [h] at hb
      simp only [XR.le_fin] at hb
      have : 1 ≤ (1 - 0) * (u - y i) / dy i := by
        rw [le_div_iff₀ (by linarith)]; linarith
      rw [max_eq_left (by linarith), min_eq_right this]

/-- **C47.** A coordinate that is already outside the box is never pushed further out, and may move back in at full
length: if `y` is above the upper bound, the length is `0` for outward steps. -/
theorem C47_feasible_step_outside {α : Type} (y dy : α → ℝ) (lo hi : α → XR)
    (hlo : ∀ i, IsLower (lo i)) (hhi : ∀ i, IsUpper (hi i)) (i : α) :
    (∀ u, hi i = .fin u → u ≤ y i → 0 < dy i →
      feasibleStepLength (fun i => .fin (y i)) (fun i => .fin (dy i)) lo hi none i = .fin 0) ∧
    (∀ l, lo i = .fin l → y i ≤ l → dy i < 0 →
      feasibleStepLength (fun i => .fin (y i)) (fun i => .fin (dy i)) lo hi none i = .fin 0) := by
  obtain ⟨t, ht, h0, h1, hl, hu, _⟩ :=
    maxStep_eq 0 (y i) (dy i) (by norm_num) (lo i) (hi i) (hlo i) (hhi i)
  have : feasibleStepLength (fun i => .fin (y i)) (fun i => .fin (dy i)) lo hi none i = .fin t := ht
  rw [this]
  constructor
  · intro u h hy hd
    rw [hu hd u h]
    have : (1 - 0) * (u - y i) / dy i ≤ 0 := div_nonpos_of_nonpos_of_nonneg (by linarith) hd.le
    rw [max_eq_right this]; simp
  · intro l h hy hd
    rw [hl hd l h]
    have : (1 - 0) * (y i - l) / (-dy i) ≤ 0 := div_nonpos_of_nonpos_of_nonneg (by linarith) (by linarith)
    rw [max_eq_right this]; simp

/-- **C47.** With a positive offset, a strictly interior coordinate stays strictly interior. -/
theorem C47_feasible_step_strict_interior {α : Type} (y dy l u : α → ℝ) (o : ℝ) (ho : 0 < o) (ho1 : o < 1)
    (i : α) (hl : l i < y i) (hu : y i < u i) :
    ∃ t, feasibleStepLength (fun i => .fin (y i)) (fun i => .fin (dy i)) (fun i => .fin (l i))
        (fun i => .fin (u i)) (some (.fin o)) i = .fin t ∧ 0 < t ∧
      l i < y i + t * dy i ∧ y i + t * dy i < u i := by
  obtain ⟨t, ht, h0, h1, h2, h3, _, _, hz⟩ :=
    maxStep_eq o (y i) (dy i) ho1 (.fin (l i)) (.fin (u i)) (Or.inr ⟨_, rfl⟩) (Or.inr ⟨_, rfl⟩)
  refine ⟨t, ht, ?_⟩
  rcases lt_trichotomy (dy i) 0 with hd | hd | hd
  · have htv := h2 hd _ rfl
    have hd' : 0 < -dy i := by linarith
    have hpos : 0 < (1 - o) * (y i - l i) / (-dy i) :=
      div_pos (mul_pos (by linarith) (by linarith)) hd'
    rw [max_eq_left hpos.le] at htv
    have ht0 : 0 < t := by rw [htv]; exact lt_min hpos one_pos
    have h4 : t ≤ (1 - o) * (y i - l i) / (-dy i) := by rw [htv]; exact min_le_left _ _
    rw [le_div_iff₀ hd'] at h4
    have := mul_pos ho (by linarith : 0 < y i - l i)
    have := mul_pos ht0 hd'
    exact ⟨ht0, by linarith, by linarith⟩
  · rw [hz hd, hd]; exact ⟨one_pos, by linarith, by linarith⟩
  · have htv := h3 hd _ rfl
    have hpos : 0 < (1 - o) * (u i - y i) / dy i :=
      div_pos (mul_pos (by linarith) (by linarith)) hd
    rw [max_eq_left hpos.le] at htv
    have ht0 : 0 < t := by rw [htv]; exact lt_min hpos one_pos
    have h4 : t ≤ (1 - o) * (u i - y i) / dy i := by rw [htv]; exact min_le_left _ _
    rw [le_div_iff₀ hd] at h4
    have := mul_pos ho (by linarith : 0 < u i - y i)
    have := mul_pos ht0 hd
    exact ⟨ht0, by linarith, by linarith⟩

/-- **C47.** `tree_clip` lands in the box when `lower ≤ upper`, leaves points of the box alone, and prefers the upper
bound when the bounds are in the wrong order. -/
theorem C47_tree_clip {α : Type} (y l u : α → ℝ) (i : α) :
    ∃ c, treeClip (fun i => .fin (y i)) (fun i => .fin (l i)) (fun i => .fin (u i)) i = .fin c ∧
      c ≤ u i ∧ (l i ≤ u i → l i ≤ c) ∧ (l i ≤ y i → y i ≤ u i → c = y i) ∧ (u i ≤ l i → c = u i) := by
  unfold treeClip XR.clip
  simp only [XR.lt_fin]
  split
  · simp only [XR.lt_fin]
    split
    · exact ⟨_, rfl, le_refl _, fun h => h, fun _ _ => by linarith, fun _ => rfl⟩
    · exact ⟨_, rfl, by linarith, fun _ => le_refl _, fun _ _ => by linarith, fun _ => by linarith⟩
  · simp only [XR.lt_fin]
    split
    · exact ⟨_, rfl, le_refl _, fun h => h, fun _ _ => by linarith, fun _ => rfl⟩
    · exact ⟨_, rfl, by linarith, fun _ => by linarith, fun _ _ => rfl, fun _ => by linarith⟩

/-- Hypotheses of C47 are met by a half-bounded box; here the step is cut to one half. -/
example : feasibleStepLength (fun _ : Fin 1 => .fin 1) (fun _ => .fin 4) (fun _ => .ninf) (fun _ => .fin 3) none 0
    = .fin (1/2) := by
  obtain ⟨t, ht, _, _, _, hu, _⟩ := maxStep_eq 0 1 4 (by norm_num) .ninf (.fin 3) (Or.inl rfl) (Or.inr ⟨3, rfl⟩)
  have := hu (by norm_num) 3 rfl
  show maxStep _ _ _ _ _ = _
  refine ht.trans ?_
  rw [this]; norm_num

end Verif.Props
