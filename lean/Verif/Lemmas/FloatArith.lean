import Verif.Lemmas.Float
import Verif.Lemmas.XR
import Verif.Lemmas.Norms
import Verif.Spec.Float

/-!
What can be said about the exact numbers from tests made in floating-point arithmetic.
-/

namespace Verif

namespace Format

variable (F : Format)

theorem round_le {x r : ℝ} (hr : F.Rep r) (h : x ≤ r) : F.round x ≤ .fin r := by
  have := F.mono h; rwa [hr] at this

theorem le_round {x r : ℝ} (hr : F.Rep r) (h : r ≤ x) : .fin r ≤ F.round x := by
  have := F.mono h; rwa [hr] at this

theorem not_nan (x : ℝ) : F.round x ≠ .nan := by
  intro h
  have := F.mono (le_refl x)
  rw [h] at this
  exact XR.not_nan_le _ this

theorem lt_of_round_lt {x r : ℝ} (hr : F.Rep r) (h : F.round x < .fin r) : x < r := by
  by_contra h1
  have h2 := F.le_round hr (not_lt.1 h1)
  revert h h2
  cases F.round x with
  | fin v => rw [XR.lt_fin, XR.le_fin]; intro a b; linarith
  | pinf => intro h; exact absurd h (XR.not_pinf_lt _)
  | ninf => intro _ h; exact absurd h (XR.not_fin_le_ninf _)
  | nan => intro h; exact absurd h (XR.not_nan_lt _)

theorem lt_of_lt_round {x r : ℝ} (hr : F.Rep r) (h : .fin r < F.round x) : r < x := by
  by_contra h1
  have h2 := F.round_le hr (not_lt.1 h1)
  revert h h2
  cases F.round x with
  | fin v => rw [XR.lt_fin, XR.le_fin]; intro a b; linarith
  | pinf => intro _ h; exact absurd h (XR.not_pinf_le_fin _)
  | ninf => intro h; exact absurd h (XR.not_lt_ninf _)
  | nan => intro h; exact absurd h (XR.not_lt_nan _)

theorem abs_lt_of_round {x s : ℝ} (hs : F.Rep s) (h : HasAbs.abs (F.round x) < XR.fin s) : |x| < s := by
  have h' : F.round x < .fin s ∧ .fin (-s) < F.round x := by
    revert h
    cases F.round x with
    | fin v =>
      rw [XR.abs_fin, XR.lt_fin, XR.lt_fin, XR.lt_fin, abs_lt]
      exact fun h => ⟨h.2, h.1⟩
    | pinf => intro h; exact absurd h (XR.not_pinf_lt _)
    | ninf => intro h; exact absurd h (XR.not_pinf_lt _)
    | nan => intro h; exact absurd h (XR.not_nan_lt _)
  exact abs_lt.2 ⟨F.lt_of_lt_round (F.neg hs) h'.2, F.lt_of_round_lt hs h'.1⟩

end Format

namespace Fl

variable {F : Format}

theorem sub_val (a b : Fl F) : (a - b).val = F.roundXR (a.val - b.val) := rfl
theorem add_val (a b : Fl F) : (a + b).val = F.roundXR (a.val + b.val) := rfl
theorem mul_val (a b : Fl F) : (a * b).val = F.roundXR (a.val * b.val) := rfl
theorem div_val (a b : Fl F) : (a / b).val = F.roundXR (a.val / b.val) := rfl
theorem abs_val (a : Fl F) : (HasAbs.abs a : Fl F).val = HasAbs.abs a.val := rfl
theorem lt_def (a b : Fl F) : a < b ↔ a.val < b.val := Iff.rfl
theorem le_def (a b : Fl F) : a ≤ b ↔ a.val ≤ b.val := Iff.rfl
theorem ext {a b : Fl F} (h : a.val = b.val) : a = b := by cases a; cases b; cases h; rfl

theorem finite_iff {a : Fl F} : a.isFinite = true ↔ ∃ r, a.val = .fin r := by
  unfold isFinite
  cases a.val with
  | fin r => exact ⟨fun _ => ⟨r, rfl⟩, fun _ => rfl⟩
  | _ => exact ⟨fun h => (nomatch h), fun h => nomatch h⟩

theorem real_of {a : Fl F} {r : ℝ} (h : a.val = .fin r) : a.real = r := by
  unfold real; rw [h]

theorem val_of_finite {a : Fl F} (h : a.isFinite = true) : a.val = .fin a.real := by
  obtain ⟨r, hr⟩ := finite_iff.1 h
  rw [real_of hr, hr]

theorem rep_real {a : Fl F} (h : a.isFinite = true) : F.Rep a.real := a.rep _ (val_of_finite h)

theorem roundXR_fin {x : XR} {r : ℝ} (h : F.roundXR x = .fin r) : ∃ a, x = .fin a ∧ F.round a = .fin r := by
  cases x with
  | fin a => exact ⟨a, rfl, h⟩
  | _ => cases h

theorem roundXR_finite {x : XR} (h : (F.roundXR x).isFinite = true) : x.isFinite = true := by
  cases x <;> first | rfl | exact h

/-- A finite difference has finite arguments. -/
theorem finite_sub {a b : Fl F} (h : (a - b).isFinite = true) : a.isFinite = true ∧ b.isFinite = true :=
  XR.finite_sub (roundXR_finite h)

theorem finite_div {a b : Fl F} (h : (a / b).isFinite = true) : a.isFinite = true :=
  XR.finite_div (roundXR_finite h)

theorem finite_abs {a : Fl F} : (HasAbs.abs a : Fl F).isFinite = a.isFinite := XR.finite_abs

theorem finite_of_abs_lt {a b : Fl F} (h : HasAbs.abs a < b) : a.isFinite = true := by
  rw [lt_def, abs_val] at h
  unfold isFinite
  cases hv : a.val with
  | fin r => rfl
  | nan => rw [hv] at h; exact absurd h (XR.not_nan_lt _)
  | pinf => rw [hv] at h; exact absurd h (XR.not_pinf_lt _)
  | ninf => rw [hv] at h; exact absurd h (XR.not_pinf_lt _)

/-- A small difference, as computed, is a small difference. -/
theorem abs_sub_lt {a b s : Fl F} (h : HasAbs.abs (a - b) < s) (hs : s.isFinite = true) :
    a.isFinite = true ∧ b.isFinite = true ∧ |a.real - b.real| < s.real := by
  obtain ⟨ha, hb⟩ := finite_sub (finite_of_abs_lt h)
  refine ⟨ha, hb, ?_⟩
  rw [lt_def, abs_val, sub_val, val_of_finite ha, val_of_finite hb, XR.sub_fin, val_of_finite hs] at h
  exact F.abs_lt_of_round (rep_real hs) h

/-- A quotient below one, as computed, has a numerator smaller than its denominator. -/
theorem abs_lt_of_div {a b : Fl F} (hb : ¬ b < 0) (h : HasAbs.abs (a / b) < 1) : HasAbs.abs a < b := by
  have ha := finite_div (finite_of_abs_lt h)
  have hq := finite_of_abs_lt h
  rw [lt_def, abs_val, div_val, val_of_finite ha] at h
  rw [lt_def, abs_val, val_of_finite ha, XR.abs_fin]
  rw [lt_def] at hb
  unfold isFinite at hq
  rw [div_val, val_of_finite ha] at hq
  cases hv : b.val with
  | fin s =>
    rw [hv] at h hb hq
    have hs : ¬ s < 0 := hb
    have hs' : s ≠ 0 := by
      rintro rfl
      have e : XR.fin a.real / XR.fin 0 = XR.infTimes a.real := if_pos rfl
      rw [e] at hq
      have := roundXR_finite hq
      rw [XR.infTimes_not_finite] at this; cases this
    have hs'' : 0 < s := lt_of_le_of_ne (not_lt.1 hs) (Ne.symm hs')
    rw [XR.div_fin _ _ hs'] at h
    have := F.abs_lt_of_round F.one h
    rw [abs_div, abs_of_pos hs'', div_lt_one hs''] at this
    exact this
  | pinf => exact XR.fin_lt_pinf _
  | ninf =>
    rw [hv] at hb
    exact absurd (XR.ninf_lt_fin 0) hb
  | nan =>
    rw [hv] at hq
    rw [XR.div_nan] at hq
    cases hq

theorem abs_abs (a : Fl F) : (HasAbs.abs (HasAbs.abs a) : Fl F) = HasAbs.abs a := by
  apply ext
  rw [abs_val, abs_val]
  cases a.val <;> simp [HasAbs.abs, XR.abs]

/-- Computed tolerances are not negative. -/
theorem scale_nonneg {rtol atol y : Fl F} (hr : 0 ≤ rtol) (ha : 0 ≤ atol) : ¬ atol + rtol * HasAbs.abs y < 0 := by
  have pos : ∀ x : XR, (∀ r, x = .fin r → 0 ≤ r) → x ≠ .ninf → (∀ r, F.roundXR x = .fin r → 0 ≤ r) ∧ F.roundXR x ≠ .ninf := by
    intro x h1 h2
    cases x with
    | fin a =>
      have h3 := F.le_round F.zero (h1 a rfl)
      show (∀ r, F.round a = .fin r → 0 ≤ r) ∧ F.round a ≠ .ninf
      constructor
      · intro r hr; rw [hr] at h3; exact h3
      · intro hr; rw [hr] at h3; exact h3
    | ninf => exact absurd rfl h2
    | _ => exact ⟨fun r h => (nomatch h), fun h => by cases h⟩
  have hmul : (∀ r, (rtol.val * HasAbs.abs y.val) = .fin r → 0 ≤ r) ∧ rtol.val * HasAbs.abs y.val ≠ .ninf := by
    rw [le_def] at hr
    change XR.fin 0 ≤ rtol.val at hr
    cases h1 : rtol.val with
    | fin a =>
      rw [h1] at hr
      have ha : 0 ≤ a := hr
      cases h2 : y.val with
      | fin b =>
        rw [XR.abs_fin, XR.mul_fin]
        exact ⟨fun r h => by cases h; positivity, fun h => by cases h⟩
      | nan => rw [XR.abs_nan, XR.mul_nan]; exact ⟨fun r h => (nomatch h), fun h => by cases h⟩
      | _ =>
        have e : XR.fin a * XR.pinf = XR.infTimes a := rfl
        show (∀ r, XR.fin a * XR.pinf = .fin r → 0 ≤ r) ∧ XR.fin a * XR.pinf ≠ .ninf
        rw [e]; unfold XR.infTimes
        split_ifs <;> first | (exfalso; linarith) | exact ⟨fun r h => (nomatch h), fun h => by cases h⟩
    | pinf =>
      cases h2 : y.val with
      | fin b =>
        have e : XR.pinf * HasAbs.abs (XR.fin b) = XR.infTimes |b| := rfl
        rw [e]; unfold XR.infTimes
        have := abs_nonneg b
        split_ifs <;> first | (exfalso; linarith) | exact ⟨fun r h => (nomatch h), fun h => by cases h⟩
      | _ => exact ⟨fun r h => (nomatch h), fun h => by cases h⟩
    | ninf => rw [h1] at hr; exact absurd hr (XR.not_fin_le_ninf _)
    | nan => rw [h1] at hr; exact absurd hr (XR.not_le_nan _)
  obtain ⟨h1, h2⟩ := pos _ hmul.1 hmul.2
  have hadd : (∀ r, atol.val + F.roundXR (rtol.val * HasAbs.abs y.val) = .fin r → 0 ≤ r) ∧
      atol.val + F.roundXR (rtol.val * HasAbs.abs y.val) ≠ .ninf := by
    rw [le_def] at ha
    change XR.fin 0 ≤ atol.val at ha
    revert h1 h2
    generalize F.roundXR (rtol.val * HasAbs.abs y.val) = z
    intro h1 h2
    cases h3 : atol.val with
    | fin a =>
      rw [h3] at ha
      have ha : 0 ≤ a := ha
      cases z with
      | fin b => rw [XR.add_fin]; exact ⟨fun r h => by cases h; exact add_nonneg ha (h1 b rfl), fun h => by cases h⟩
      | ninf => exact absurd rfl h2
      | _ => exact ⟨fun r h => (nomatch h), fun h => by cases h⟩
    | pinf => cases z <;> exact ⟨fun r h => (nomatch h), fun h => by cases h⟩
    | ninf => rw [h3] at ha; exact absurd ha (XR.not_fin_le_ninf _)
    | nan => rw [h3] at ha; exact absurd ha (XR.not_le_nan _)
  obtain ⟨h3, h4⟩ := pos _ hadd.1 hadd.2
  intro h
  have h5 : F.roundXR (atol.val + F.roundXR (rtol.val * HasAbs.abs y.val)) < XR.fin 0 := h
  revert h3 h4 h5
  cases F.roundXR (atol.val + F.roundXR (rtol.val * HasAbs.abs y.val)) with
  | fin r => intro h3 _ h5; exact absurd h5 (not_lt.2 (h3 r rfl))
  | ninf => intro _ h4; exact absurd rfl h4
  | pinf => intro _ _ h; exact XR.not_pinf_lt _ h
  | nan => intro _ _ h; exact XR.not_nan_lt _ h

theorem scale_real {rtol atol y : Fl F} (h : (atol + rtol * HasAbs.abs y).isFinite = true) (hr : rtol.isFinite = true)
    (hy : y.isFinite = true) :
    atol.isFinite = true ∧ ∃ m, F.round (rtol.real * |y.real|) = .fin m ∧
      F.round (atol.real + m) = .fin (atol + rtol * HasAbs.abs y).real := by
  have h1 := roundXR_finite h
  obtain ⟨ha, hm⟩ := XR.finite_add h1
  have hv := val_of_finite h
  have e : (rtol * HasAbs.abs y).val = F.round (rtol.real * |y.real|) := by
    rw [mul_val, abs_val, val_of_finite hr, val_of_finite hy, XR.abs_fin, XR.mul_fin]; rfl
  rw [e] at hm
  cases hm' : F.round (rtol.real * |y.real|) with
  | fin m =>
    refine ⟨ha, m, rfl, ?_⟩
    rw [add_val, val_of_finite ha, e, hm', XR.add_fin] at hv
    exact hv
  | _ => rw [hm'] at hm; cases hm

/-- How much larger than it should be a computed tolerance can be. -/
theorem scale_bound {u η : ℝ} (hF : F.Accurate u η) {rtol atol y : Fl F}
    (h : (atol + rtol * HasAbs.abs y).isFinite = true) (hrf : rtol.isFinite = true) (hy : y.isFinite = true)
    (hr : 0 ≤ rtol) (ha : 0 ≤ atol) :
    (atol + rtol * HasAbs.abs y).real ≤ (1 + u) * (atol.real + ((1 + u) * (rtol.real * |y.real|) + η)) + η := by
  obtain ⟨haf, m, h1, h2⟩ := scale_real h hrf hy
  have hr0 : 0 ≤ rtol.real := by
    rw [le_def, val_of_finite hrf] at hr; exact hr
  have ha0 : 0 ≤ atol.real := by
    rw [le_def, val_of_finite haf] at ha; exact ha
  have e1 := hF.error h1
  have e2 := hF.error h2
  have hp : 0 ≤ rtol.real * |y.real| := mul_nonneg hr0 (abs_nonneg _)
  have hm : 0 ≤ m := by
    have := F.le_round F.zero hp
    rw [h1] at this; exact this
  rw [abs_of_nonneg hp] at e1
  rw [abs_of_nonneg (add_nonneg ha0 hm)] at e2
  have u0 := hF.u_nonneg
  have h3 : m ≤ (1 + u) * (rtol.real * |y.real|) + η := by linarith [(abs_le.1 e1).2]
  have h4 : (atol + rtol * HasAbs.abs y).real ≤ (1 + u) * (atol.real + m) + η := by linarith [(abs_le.1 e2).2]
  refine h4.trans ?_
  gcongr

end Fl

/-! ### Norms -/

theorem flNorm_dominates {F : Format} {ι : Type} (norm : (ι → ℝ) → ℝ) (h : ∀ x i, |x i| ≤ norm x) :
    Dominates (flNorm (F := F) norm) := by
  intro x hx i
  have hx' : F.roundXR (liftNorm norm fun i => (x i).val) < XR.fin 1 := hx
  unfold liftNorm at hx'
  split_ifs at hx' with h1 h2
  · exact absurd hx' (XR.not_nan_lt _)
  · exact absurd hx' (XR.not_pinf_lt _)
  · have h3 : norm (fun i => (x i).val.toReal) < 1 := F.lt_of_round_lt F.one hx'
    have hfin : (x i).isFinite = true := by
      by_contra h4
      exact h2 ⟨i, by simpa [Fl.isFinite] using h4⟩
    rw [Fl.lt_def, Fl.abs_val, Fl.val_of_finite hfin, XR.abs_fin]
    have h4 := h (fun i => (x i).val.toReal) i
    have e : (x i).val.toReal = (x i).real := by rw [Fl.val_of_finite hfin]; rfl
    simp only [e] at h4
    have h5 : |(x i).real| < 1 := lt_of_le_of_lt h4 h3
    exact h5

/-! ### The formats of IEEE 754 -/

namespace Binary

theorem accurate (p : Nat) (emin emax : ℤ) (hp : 1 ≤ p) (hmin : emin ≤ 0) (hmax : 1 ≤ emax) :
    (Format.binary p emin emax hp hmin hmax).Accurate (2 ^ (-(p : ℤ))) (2 ^ (emin - p)) where
  u_nonneg := (two_pos' _).le
  η_nonneg := (two_pos' _).le
  error {x r} h := by
    obtain ⟨_, h2⟩ := roundTo_fin p emin emax h
    have := roundPos_error p emin (abs_nonneg x)
    split_ifs at h2 with h0
    · rw [h2]
      rw [abs_of_neg h0] at this ⊢
      rw [show -roundPos p emin (-x) - x = -(roundPos p emin (-x) - -x) by ring, abs_neg]
      exact this
    · rw [h2]
      rw [abs_of_nonneg (not_lt.1 h0)] at this ⊢
      exact this

theorem rep_multiple (p : Nat) (emin emax : ℤ) {r : ℝ} (h : roundTo p emin emax r = .fin r) :
    ∃ k : ℤ, r = k * 2 ^ (emin - (p - 1)) := by
  obtain ⟨h1, _⟩ := roundTo_rep p emin emax h
  obtain ⟨k, hk⟩ := roundPos_multiple p emin |r|
  rw [h1] at hk
  rcases abs_choice r with e | e
  · exact ⟨k, e ▸ hk⟩
  · refine ⟨-k, ?_⟩
    rw [e] at hk
    push_cast
    linarith

theorem gradual (p : Nat) (emin emax : ℤ) (hp : 1 ≤ p) (hmin : emin ≤ 0) (hmax : 1 ≤ emax) :
    (Format.binary p emin emax hp hmin hmax).Gradual := by
  intro a b ha hb h
  obtain ⟨k, hk⟩ := rep_multiple p emin emax ha
  obtain ⟨l, hl⟩ := rep_multiple p emin emax hb
  have h0 := two_pos' (emin - (p - 1))
  have hrep : (Format.binary p emin emax hp hmin hmax).Rep (2 ^ (emin - ((p : ℤ) - 1))) :=
    roundTo_pow p hp emin emax _ le_rfl (by omega)
  have e : a - b = ((k - l : ℤ) : ℝ) * 2 ^ (emin - ((p : ℤ) - 1)) := by rw [hk, hl]; push_cast; ring
  rcases lt_trichotomy k l with h1 | h1 | h1
  · exfalso
    have h2 : a - b ≤ -2 ^ (emin - ((p : ℤ) - 1)) := by
      rw [e]
      have : ((k - l : ℤ) : ℝ) ≤ -1 := by exact_mod_cast (by omega : k - l ≤ -1)
      nlinarith
    have h3 := (Format.binary p emin emax hp hmin hmax).round_le
      ((Format.binary p emin emax hp hmin hmax).neg hrep) h2
    rw [h, XR.le_fin] at h3
    linarith
  · rw [hk, hl, h1]
  · exfalso
    have h2 : 2 ^ (emin - ((p : ℤ) - 1)) ≤ a - b := by
      rw [e]
      have : (1 : ℝ) ≤ ((k - l : ℤ) : ℝ) := by exact_mod_cast (by omega : 1 ≤ k - l)
      nlinarith
    have h3 := (Format.binary p emin emax hp hmin hmax).le_round hrep h2
    rw [h, XR.le_fin] at h3
    linarith

theorem halves (p : Nat) (emin emax : ℤ) (hp : 2 ≤ p) (hmin : emin ≤ 0) (hmax : 1 ≤ emax) :
    (Format.binary p emin emax (by omega) hmin hmax).Halves := by
  set F := Format.binary p emin emax (by omega) hmin hmax with hF
  intro a b d h ha hb hab hd hh
  have hw : 0 ≤ b - a := by linarith
  have hd0 : 0 ≤ d := by
    have := F.le_round F.zero hw
    rw [hd] at this; exact this
  have hdr : F.Rep d := F.fix hd
  rcases le_or_gt ((2 : ℝ) ^ (emin + 1)) (b - a) with hbig | hsmall
  · have hacc := accurate p emin emax (by omega) hmin hmax
    have e1 := (abs_le.1 (hacc.error hd)).2
    have e2 := (abs_le.1 (hacc.error hh)).2
    rw [abs_of_nonneg hw] at e1
    rw [abs_of_nonneg (by positivity)] at e2
    have hu : (2 : ℝ) ^ (-(p : ℤ)) ≤ 1 / 4 := by
      have : (2 : ℝ) ^ (-(p : ℤ)) ≤ 2 ^ (-2 : ℤ) := zpow_le_zpow_right₀ (by norm_num) (by omega)
      norm_num at this ⊢; exact this
    have hη : (2 : ℝ) ^ (emin - p) ≤ 1 / 8 * (b - a) := by
      have h1 : (2 : ℝ) ^ (emin - p) ≤ 2 ^ ((emin + 1) + (-3)) := zpow_le_zpow_right₀ (by norm_num) (by omega)
      rw [zpow_add₀ (by norm_num) (emin + 1) (-3)] at h1
      norm_num at h1
      linarith
    have u0 := two_pos' (-(p : ℤ))
    have h1 : (2 : ℝ) ^ (-(p : ℤ)) * (b - a) ≤ 1 / 4 * (b - a) := mul_le_mul_of_nonneg_right hu hw
    have h2 : (2 : ℝ) ^ (-(p : ℤ)) * (1 / 2 * d) ≤ 1 / 4 * (1 / 2 * d) := mul_le_mul_of_nonneg_right hu (by positivity)
    linarith
  · -- the difference is exact
    have hrep : F.Rep (b - a) := by
      obtain ⟨k, hk⟩ := rep_multiple p emin emax ha
      obtain ⟨l, hl⟩ := rep_multiple p emin emax hb
      refine roundTo_of p emin emax ?_ ?_
      · rw [abs_of_nonneg hw]
        rcases hw.eq_or_lt with h0 | h0
        · rw [← h0, roundPos_zero]
        · refine roundPos_grid p emin (l - k) (emin - (p - 1)) (by rw [hk, hl]; push_cast; ring) ?_
          have : Int.log 2 (b - a) < emin + 1 := by
            rw [← Int.lt_zpow_iff_log_lt one_lt_two h0]; exact_mod_cast hsmall
          unfold lastDigit
          omega
      · rw [abs_of_nonneg hw]
        exact hsmall.trans_le (zpow_le_zpow_right₀ (by norm_num) (by omega))
    rw [hrep] at hd
    cases hd
    have h1 := F.round_le hdr (show 1 / 2 * (b - a) ≤ b - a by linarith)
    rw [hh, XR.le_fin] at h1
    linarith

theorem half (p : Nat) (emin emax : ℤ) (hp : 1 ≤ p) (hmin : emin ≤ -1) (hmax : 1 ≤ emax) :
    (Format.binary p emin emax hp (by omega) hmax).Rep (1 / 2) := by
  have := roundTo_pow p hp emin emax (-1) (by omega) (by omega)
  show roundTo p emin emax (1 / 2) = .fin (1 / 2)
  rw [show (1 / 2 : ℝ) = 2 ^ (-1 : ℤ) by norm_num]
  exact this

/-- Above one, numbers are `2 ^ (1 - p)` apart. -/
theorem neighbours (p : Nat) (emin emax : ℤ) (hp : 2 ≤ p) (hmin : emin ≤ 0) (hmax : 1 ≤ emax) :
    Neighbours (Format.binary p emin emax (by omega) hmin hmax) 1 (1 + 2 ^ (-((p : ℤ) - 1))) := by
  have hq := two_pos' (-((p : ℤ) - 1))
  have hq1 : (2 : ℝ) ^ (-((p : ℤ) - 1)) ≤ 1 / 2 := by
    have : (2 : ℝ) ^ (-((p : ℤ) - 1)) ≤ 2 ^ (-1 : ℤ) := zpow_le_zpow_right₀ (by norm_num) (by omega)
    norm_num at this ⊢; exact this
  have hld : ∀ x : ℝ, 1 ≤ x → x < 2 → lastDigit p emin x = -((p : ℤ) - 1) := by
    intro x h1 h2
    have e : Int.log 2 x = 0 := by
      apply le_antisymm
      · have : Int.log 2 x < 1 := by
          rw [← Int.lt_zpow_iff_log_lt one_lt_two (by linarith)]; simpa using h2
        omega
      · rw [← Int.zpow_le_iff_le_log one_lt_two (by linarith)]; simpa using h1
    unfold lastDigit
    rw [e]; omega
  have e1 : (1 : ℝ) = ((2 ^ (p - 1) : ℕ) : ℝ) * 2 ^ (-((p : ℤ) - 1)) := by
    push_cast
    rw [← zpow_natCast, ← zpow_add₀ (by norm_num)]
    rw [show ((p - 1 : ℕ) : ℤ) + -((p : ℤ) - 1) = 0 by omega, zpow_zero]
  refine ⟨Format.one _, ?_, by linarith, ?_⟩
  · refine roundTo_of p emin emax ?_ ?_
    · rw [abs_of_pos (by linarith)]
      refine roundPos_grid p emin ((2 ^ (p - 1) : ℕ) + 1) (-((p : ℤ) - 1)) ?_ (hld _ (by linarith) (by linarith)).le
      conv_lhs => rw [e1]
      push_cast; ring
    · rw [abs_of_pos (by linarith)]
      have : (2 : ℝ) ^ (2 : ℤ) ≤ 2 ^ (emax + 1) := zpow_le_zpow_right₀ (by norm_num) (by omega)
      norm_num at this
      linarith
  · intro r hr h1 h2
    obtain ⟨h3, _⟩ := roundTo_rep p emin emax hr
    rw [abs_of_pos (by linarith)] at h3
    unfold roundPos at h3
    rw [hld r h1 (by linarith)] at h3
    generalize nearest (r / 2 ^ (-((p : ℤ) - 1))) = n at h3
    have h4 : ((2 ^ (p - 1) : ℕ) : ℤ) ≤ n := by
      have : ((2 ^ (p - 1) : ℕ) : ℝ) * 2 ^ (-((p : ℤ) - 1)) ≤ n * 2 ^ (-((p : ℤ) - 1)) := by rw [← e1, h3]; exact h1
      exact_mod_cast le_of_mul_le_mul_right this hq
    have h5 : n ≤ ((2 ^ (p - 1) : ℕ) : ℤ) + 1 := by
      have : (n : ℝ) * 2 ^ (-((p : ℤ) - 1)) ≤ (((2 ^ (p - 1) : ℕ) : ℝ) + 1) * 2 ^ (-((p : ℤ) - 1)) := by
        rw [h3, add_mul, ← e1, one_mul]; exact h2
      exact_mod_cast le_of_mul_le_mul_right this hq
    rcases (by omega : n = ((2 ^ (p - 1) : ℕ) : ℤ) ∨ n = ((2 ^ (p - 1) : ℕ) : ℤ) + 1) with e | e
    · left; rw [← h3, e]; conv_rhs => rw [e1]
      push_cast; ring
    · right; rw [← h3, e]; conv_rhs => rw [e1]
      push_cast; ring

/-! ### Without gradual underflow -/

theorem flushTo_zero_or (p : Nat) (emin emax : ℤ) {x r : ℝ} (h : flushTo p emin emax x = .fin r) :
    ∃ v, roundTo p emin emax x = .fin v ∧ ((|v| < 2 ^ emin ∧ r = 0) ∨ (¬ |v| < 2 ^ emin ∧ r = v)) := by
  unfold flushTo at h
  cases hv : roundTo p emin emax x with
  | fin v =>
    rw [hv] at h
    dsimp only at h
    split_ifs at h with h1
    · cases h; exact ⟨v, rfl, Or.inl ⟨h1, rfl⟩⟩
    · cases h; exact ⟨_, rfl, Or.inr ⟨h1, rfl⟩⟩
  | _ => rw [hv] at h; cases h

theorem flushTo_of (p : Nat) (emin emax : ℤ) {x v : ℝ} (h : roundTo p emin emax x = .fin v) :
    flushTo p emin emax x = if |v| < 2 ^ emin then .fin 0 else .fin v := by
  unfold flushTo; rw [h]

theorem flushTo_mono (p : Nat) (hp : 1 ≤ p) (emin emax : ℤ) {a b : ℝ} (h : a ≤ b) :
    flushTo p emin emax a ≤ flushTo p emin emax b := by
  have h1 := roundTo_mono p hp emin emax h
  have h0 := two_pos' emin
  unfold flushTo
  revert h1
  cases roundTo p emin emax a with
  | nan => intro h; exact absurd h (XR.not_nan_le _)
  | pinf =>
    cases roundTo p emin emax b with
    | fin w => intro h; exact absurd h (XR.not_pinf_le_fin _)
    | _ => exact id
  | ninf =>
    cases roundTo p emin emax b with
    | fin w => intro _; dsimp only; split_ifs <;> exact XR.ninf_le_fin _
    | _ => exact id
  | fin v =>
    cases roundTo p emin emax b with
    | fin w =>
      intro h
      rw [XR.le_fin] at h
      dsimp only
      split_ifs with h2 h3 h3
      · rw [XR.le_fin]
      · rw [XR.le_fin]
        rw [abs_lt] at h2
        rcases le_abs.1 (not_lt.1 h3) with h4 | h4 <;> linarith
      · rw [XR.le_fin]
        rw [abs_lt] at h3
        rcases le_abs.1 (not_lt.1 h2) with h4 | h4 <;> linarith
      · rw [XR.le_fin]; exact h
    | pinf => intro _; dsimp only; split_ifs <;> exact XR.fin_le_pinf _
    | ninf => intro h; exact absurd h (XR.not_fin_le_ninf _)
    | nan => intro h; exact absurd h (XR.not_le_nan _)

theorem flushTo_pow (p : Nat) (hp : 1 ≤ p) (emin emax e : ℤ) (he : emin ≤ e) (he' : e ≤ emax) :
    flushTo p emin emax (2 ^ e) = .fin (2 ^ e) := by
  rw [flushTo_of _ _ _ (roundTo_pow p hp emin emax e (by omega) he'), if_neg]
  rw [abs_of_pos (two_pos' e), not_lt]
  exact zpow_le_zpow_right₀ (by norm_num) he

/-- A number of the format without gradual underflow is one of the format with it. -/
theorem rep_of_flush (p : Nat) (emin emax : ℤ) {r : ℝ} (h : flushTo p emin emax r = .fin r) :
    roundTo p emin emax r = .fin r := by
  obtain ⟨v, h1, ⟨_, h3⟩ | ⟨_, h3⟩⟩ := flushTo_zero_or p emin emax h
  · rw [h3]
    exact roundTo_of p emin emax (by rw [abs_zero, roundPos_zero]) (by rw [abs_zero]; positivity)
  · rw [h1, h3]

end Binary

/-- The binary format without gradual underflow. -/
noncomputable def Format.flushed (p : Nat) (emin emax : ℤ) (hp : 1 ≤ p) (hmin : emin ≤ 0) (hmax : 1 ≤ emax) : Format where
  round := Binary.flushTo p emin emax
  mono := Binary.flushTo_mono p hp emin emax
  fix {a r} h := by
    have hz : Binary.roundTo p emin emax 0 = .fin 0 :=
      Binary.roundTo_of p emin emax (by rw [abs_zero, Binary.roundPos_zero]) (by rw [abs_zero]; positivity)
    obtain ⟨v, h1, ⟨_, h3⟩ | ⟨h2, h3⟩⟩ := Binary.flushTo_zero_or p emin emax h
    · rw [h3, Binary.flushTo_of _ _ _ hz]; split_ifs <;> rfl
    · rw [h3, Binary.flushTo_of _ _ _ (Binary.roundTo_fix p hp emin emax h1), if_neg h2]
  neg {r} h := by
    have hr := Binary.rep_of_flush p emin emax h
    have hr' : Binary.roundTo p emin emax (-r) = .fin (-r) := (Format.binary p emin emax hp hmin hmax).neg hr
    rw [Binary.flushTo_of _ _ _ hr] at h
    rw [Binary.flushTo_of _ _ _ hr', abs_neg]
    split_ifs at h ⊢ with h1
    · cases h; rw [neg_zero]
    · rfl
  zero := by
    have hz : Binary.roundTo p emin emax 0 = .fin 0 :=
      Binary.roundTo_of p emin emax (by rw [abs_zero, Binary.roundPos_zero]) (by rw [abs_zero]; positivity)
    rw [Binary.flushTo_of _ _ _ hz]; split_ifs <;> rfl
  one := by simpa using Binary.flushTo_pow p hp emin emax 0 (by omega) (by omega)
  two := by simpa using Binary.flushTo_pow p hp emin emax 1 (by omega) (by omega)

namespace Binary

theorem flush_accurate (p : Nat) (emin emax : ℤ) (hp : 1 ≤ p) (hmin : emin ≤ 0) (hmax : 1 ≤ emax) :
    (Format.flushed p emin emax hp hmin hmax).Accurate (2 ^ (-(p : ℤ))) (2 ^ emin + 2 ^ (emin - p)) where
  u_nonneg := (two_pos' _).le
  η_nonneg := (add_pos (two_pos' _) (two_pos' _)).le
  error {x r} h := by
    obtain ⟨v, h1, h2⟩ := flushTo_zero_or p emin emax h
    have e := (accurate p emin emax hp hmin hmax).error h1
    have h0 := two_pos' emin
    rcases h2 with ⟨h2, h3⟩ | ⟨_, h3⟩
    · rw [h3]
      have : |0 - x| ≤ |v - x| + |v| := by
        rw [show (0 : ℝ) - x = (v - x) - v by ring]; exact abs_sub _ _
      linarith
    · rw [h3]; linarith

theorem flush_halves (p : Nat) (emin emax : ℤ) (hp : 2 ≤ p) (hmin : emin ≤ 0) (hmax : 1 ≤ emax) :
    (Format.flushed p emin emax (by omega) hmin hmax).Halves := by
  intro a b d h ha hb hab hd hh
  have hz : (Format.flushed p emin emax (by omega) hmin hmax).round 0 = .fin 0 := Format.zero _
  obtain ⟨v, h1, ⟨_, h3⟩ | ⟨_, h3⟩⟩ := flushTo_zero_or p emin emax hd
  · rw [h3, mul_zero, hz] at hh
    cases hh
    linarith
  · obtain ⟨w, h4, ⟨_, h6⟩ | ⟨_, h6⟩⟩ := flushTo_zero_or p emin emax hh
    · rw [h6]; linarith
    · rw [h6]
      rw [h3] at h4
      exact halves p emin emax hp hmin hmax (rep_of_flush p emin emax ha) (rep_of_flush p emin emax hb) hab h1 h4

theorem flush_half (p : Nat) (emin emax : ℤ) (hp : 1 ≤ p) (hmin : emin ≤ -1) (hmax : 1 ≤ emax) :
    (Format.flushed p emin emax hp (by omega) hmax).Rep (1 / 2) := by
  have := flushTo_pow p hp emin emax (-1) (by omega) (by omega)
  show flushTo p emin emax (1 / 2) = .fin (1 / 2)
  rw [show (1 / 2 : ℝ) = 2 ^ (-1 : ℤ) by norm_num]
  exact this

end Binary

end Verif
