import Verif.Props.RoundingSearch
import Verif.Props.Bisection

/-!
C87: bisection in floating-point arithmetic.
-/

namespace Verif.Props

open Verif Verif.Spec Verif.Driver

variable {F : Format} {A : Type}

/-! ### Midpoints -/

theorem round_between {a b x : ℝ} (ha : F.Rep a) (hb : F.Rep b) (h1 : a ≤ x) (h2 : x ≤ b) :
    ∃ r, F.round x = .fin r ∧ a ≤ r ∧ r ≤ b := by
  have h3 := F.le_round ha h1
  have h4 := F.round_le hb h2
  cases hr : F.round x with
  | fin r => rw [hr, XR.le_fin] at h3 h4; exact ⟨r, rfl, h3, h4⟩
  | pinf => rw [hr] at h4; exact absurd h4 (XR.not_pinf_le_fin _)
  | ninf => rw [hr] at h3; exact absurd h3 (XR.not_fin_le_ninf _)
  | nan => rw [hr] at h3; exact absurd h3 (XR.not_le_nan _)

theorem half_val (hh : F.Rep (1 / 2)) : (0.5 : Fl F).val = .fin (1 / 2) := by
  show F.round (0.5 : ℝ) = _
  rw [show (0.5 : ℝ) = 1 / 2 by norm_num]
  exact hh

/-- The computed midpoint, in real numbers. -/
theorem midpoint_steps (hh : F.Rep (1 / 2)) {l u : Fl F} (hl : l.isFinite = true) (hu : u.isFinite = true)
    (hle : l.real ≤ u.real) (hw : NoOverflow F (u.real - l.real)) :
    ∃ d h, F.round (u.real - l.real) = .fin d ∧ 0 ≤ d ∧ F.round (1 / 2 * d) = .fin h ∧ 0 ≤ h ∧
      (l + 0.5 * (u - l)).val = F.round (l.real + h) := by
  obtain ⟨B, hB, hwB⟩ := hw
  obtain ⟨d, hd, hd0, _⟩ := round_between F.zero hB (sub_nonneg.2 hle) hwB
  obtain ⟨h, hh', hh0, _⟩ := round_between F.zero (F.fix hd : F.Rep d) (show (0 : ℝ) ≤ 1 / 2 * d by linarith)
    (show 1 / 2 * d ≤ d by linarith)
  refine ⟨d, h, hd, hd0, hh', hh0, ?_⟩
  rw [Fl.add_val, Fl.mul_val, half_val hh, Fl.sub_val, Fl.val_of_finite hl, Fl.val_of_finite hu, XR.sub_fin]
  show F.roundXR (XR.fin l.real + F.roundXR (XR.fin (1 / 2) * F.round (u.real - l.real))) = _
  rw [hd, XR.mul_fin]
  show F.roundXR (XR.fin l.real + F.round (1 / 2 * d)) = _
  rw [hh', XR.add_fin]
  rfl

theorem midpoint_between (hH : F.Halves) (hh : F.Rep (1 / 2)) {l u : Fl F} (hl : l.isFinite = true)
    (hu : u.isFinite = true) (hle : l.real ≤ u.real) (hw : NoOverflow F (u.real - l.real)) :
    (l + 0.5 * (u - l)).isFinite = true ∧ l.real ≤ (l + 0.5 * (u - l)).real ∧ (l + 0.5 * (u - l)).real ≤ u.real := by
  obtain ⟨d, h, hd, _, hh', hh0, hv⟩ := midpoint_steps hh hl hu hle hw
  obtain ⟨r, hr, h1, h2⟩ := round_between (Fl.rep_real hl) (Fl.rep_real hu) (show l.real ≤ l.real + h by linarith)
    (hH (Fl.rep_real hl) (Fl.rep_real hu) hle hd hh')
  rw [hr] at hv
  rw [Fl.real_of hv]
  exact ⟨Fl.finite_iff.2 ⟨r, hv⟩, h1, h2⟩

/-- How far the computed midpoint is from the middle. -/
theorem midpoint_error {μ η M : ℝ} (hF : F.Accurate μ η) (hμ : μ ≤ 1 / 4) (hH : F.Halves) (hh : F.Rep (1 / 2)) {l u : Fl F}
    (hl : l.isFinite = true) (hu : u.isFinite = true) (hle : l.real ≤ u.real) (hw : NoOverflow F (u.real - l.real))
    (hlM : |l.real| ≤ M) (huM : |u.real| ≤ M) :
    |(l + 0.5 * (u - l)).real - (l.real + u.real) / 2| ≤ 4 * μ * M + 3 * η := by
  obtain ⟨d, h, hd, hd0, hh', hh0, hv⟩ := midpoint_steps hh hl hu hle hw
  have hfin := (midpoint_between hH hh hl hu hle hw).1
  have hv' := hv
  rw [Fl.val_of_finite hfin] at hv'
  have e1 := hF.error hd
  have e2 := hF.error hh'
  have e3 := hF.error hv'.symm
  have hb := hH (Fl.rep_real hl) (Fl.rep_real hu) hle hd hh'
  have hx : |l.real + h| ≤ M := by
    rw [abs_le] at hlM huM ⊢
    constructor <;> linarith
  rw [abs_of_nonneg (sub_nonneg.2 hle)] at e1
  rw [abs_of_nonneg (by linarith : 0 ≤ 1 / 2 * d)] at e2
  have u0 := hF.u_nonneg
  have η0 := hF.η_nonneg
  have hM : 0 ≤ M := (abs_nonneg _).trans hlM
  have hwM : u.real - l.real ≤ 2 * M := by linarith [(abs_le.1 hlM).1, (abs_le.1 huM).2]
  have f1 : μ * (u.real - l.real) ≤ μ * (2 * M) := mul_le_mul_of_nonneg_left hwM u0
  have hdM : d ≤ 2 * M + 1 / 4 * (2 * M) + η := by
    have := mul_le_mul_of_nonneg_right hμ (by linarith : 0 ≤ 2 * M)
    linarith [(abs_le.1 e1).2]
  have f2 : μ * (1 / 2 * d) ≤ 3 / 2 * (μ * M) + 1 / 4 * η := by
    have h1 : μ * (1 / 2 * d) ≤ μ * (1 / 2 * (2 * M + 1 / 4 * (2 * M) + η)) := by gcongr
    have h2 : μ * η ≤ 1 / 4 * η := mul_le_mul_of_nonneg_right hμ η0
    have h3 : 0 ≤ μ * M := mul_nonneg u0 hM
    nlinarith
  have f3 : μ * |l.real + h| ≤ μ * M := mul_le_mul_of_nonneg_left hx u0
  have h3 : 0 ≤ μ * M := mul_nonneg u0 hM
  rw [abs_le] at e1 e2 e3 ⊢
  constructor <;> nlinarith [e1.1, e1.2, e2.1, e2.2, e3.1, e3.2]

/-! ### The invariant -/

/-- The bracket and the iterate are numbers, in order, within the given ends. -/
structure Inside (lo hi : ℝ) (l u y : Fl F) : Prop where
  l_fin : l.isFinite = true
  u_fin : u.isFinite = true
  y_fin : y.isFinite = true
  lo_le : lo ≤ l.real
  l_le : l.real ≤ y.real
  y_le : y.real ≤ u.real
  le_hi : u.real ≤ hi

theorem inside_step (hH : F.Halves) (hh : F.Rep (1 / 2)) {lo hi : ℝ} (hw : NoOverflow F (hi - lo)) (fn : Fl F → Fl F × A)
    (y : Fl F) (st : Bisection.State (Fl F)) (h : Inside lo hi st.lower st.upper y) :
    Inside lo hi (Bisection.step fn y st).2.1.lower (Bisection.step fn y st).2.1.upper (Bisection.step fn y st).1 := by
  obtain ⟨B, hB, hwB⟩ := hw
  unfold Bisection.step
  dsimp only
  have key : ∀ l u : Fl F, l.isFinite = true → u.isFinite = true → lo ≤ l.real → l.real ≤ u.real → u.real ≤ hi →
      Inside lo hi l u (l + 0.5 * (u - l)) := by
    intro l u h1 h2 h3 h4 h5
    obtain ⟨h6, h7, h8⟩ := midpoint_between hH hh h1 h2 h4 ⟨B, hB, by linarith⟩
    exact ⟨h1, h2, h6, h3, h7, h8, h5⟩
  cases hn : (st.flip ^^ decide ((fn y).1 < 0)) with
  | true =>
    rw [if_pos rfl, if_pos rfl]
    exact key _ _ h.y_fin h.u_fin (h.lo_le.trans h.l_le) h.y_le h.le_hi
  | false =>
    rw [if_neg Bool.false_ne_true, if_neg Bool.false_ne_true]
    exact key _ _ h.l_fin h.y_fin h.lo_le h.l_le (h.y_le.trans h.le_hi)

theorem inside_run (hH : F.Halves) (hh : F.Rep (1 / 2)) (cfg : Bisection.Cfg (Fl F)) (fn : Fl F → Fl F × A) (aux0 : A)
    (y0 : Fl F) (st0 : Bisection.State (Fl F)) (hw : NoOverflow F (st0.upper.real - st0.lower.real))
    (h0 : Inside st0.lower.real st0.upper.real st0.lower st0.upper y0) (k : Nat) :
    Inside st0.lower.real st0.upper.real (stateAt (Bisection.solver cfg) fn aux0 y0 st0 k).lower
      (stateAt (Bisection.solver cfg) fn aux0 y0 st0 k).upper (iterateAt (Bisection.solver cfg) fn aux0 y0 st0 k) := by
  induction k with
  | zero => exact h0
  | succ k ih => exact inside_step hH hh hw fn _ _ ih

/-- **C87, containment.**  In every floating-point format in which halving works (every binary format with at least two digits): if
the initial ends and the initial guess are numbers in this order, and the width does not overflow, then every point at which
bisection evaluates the function, and every end of every bracket, is an ordinary number within the initial interval; no rounding
ever takes it outside, and nothing overflows on the way. -/
theorem C87_stays_inside (hH : F.Halves) (hh : F.Rep (1 / 2)) (cfg : Bisection.Cfg (Fl F)) (fn : Fl F → Fl F × A) (aux0 : A)
    (y0 : Fl F) (st0 : Bisection.State (Fl F)) (_hi : (Bisection.solver cfg).init fn y0 = .ok st0)
    (hl : st0.lower.isFinite = true) (hu : st0.upper.isFinite = true) (hy : y0.isFinite = true)
    (h1 : st0.lower.real ≤ y0.real) (h2 : y0.real ≤ st0.upper.real)
    (hw : NoOverflow F (st0.upper.real - st0.lower.real)) (k : Nat) :
    let y := iterateAt (Bisection.solver cfg) fn aux0 y0 st0 k
    let st := stateAt (Bisection.solver cfg) fn aux0 y0 st0 k
    y.isFinite = true ∧ st.lower.isFinite = true ∧ st.upper.isFinite = true ∧
    st0.lower.real ≤ st.lower.real ∧ st.lower.real ≤ y.real ∧ y.real ≤ st.upper.real ∧ st.upper.real ≤ st0.upper.real := by
  have h := inside_run hH hh cfg fn aux0 y0 st0 hw ⟨hl, hu, hy, le_rfl, h1, h2, le_rfl⟩ k
  exact ⟨h.y_fin, h.l_fin, h.u_fin, h.lo_le, h.l_le, h.y_le, h.le_hi⟩

/-! ### Signs -/

theorem fl_le_of_lt {a b : Fl F} (h : a < b) : a ≤ b := by
  rw [Fl.lt_def] at h; rw [Fl.le_def]
  revert h
  cases a.val <;> cases b.val <;> intro h <;>
    first | exact trivial | exact h.elim | (rw [XR.lt_fin] at h; rw [XR.le_fin]; linarith)

theorem fl_le_of_not_lt {a b : Fl F} (ha : a.val ≠ .nan) (hb : b.val ≠ .nan) (h : ¬ a < b) : b ≤ a := by
  rw [Fl.lt_def] at h; rw [Fl.le_def]
  revert h ha hb
  cases a.val <;> cases b.val <;> intro ha hb h <;>
    first
      | exact trivial
      | exact absurd rfl ha
      | exact absurd rfl hb
      | exact absurd trivial h
      | (rw [XR.lt_fin, not_lt] at h; rw [XR.le_fin]; exact h)

theorem fl_lt_trans {a b c : Fl F} (h1 : a < b) (h2 : b < c) : a < c := by
  rw [Fl.lt_def] at *
  revert h1 h2
  cases a.val <;> cases b.val <;> cases c.val <;> intro h1 h2 <;>
    first | exact trivial | exact h1.elim | exact h2.elim | (rw [XR.lt_fin] at *; linarith)

theorem fl_lt_of_lt_of_le {a b c : Fl F} (h1 : a < b) (h2 : b ≤ c) : a < c := by
  rw [Fl.lt_def] at *
  rw [Fl.le_def] at h2
  revert h1 h2
  cases a.val <;> cases b.val <;> cases c.val <;> intro h1 h2 <;>
    first | exact trivial | exact h1.elim | exact h2.elim | (rw [XR.lt_fin] at *; rw [XR.le_fin] at h2; linarith)

theorem step_brackets_fl (fn : Fl F → Fl F × A) (y : Fl F) (hnan : (fn y).1.val ≠ .nan) (st : Bisection.State (Fl F))
    (h : Brackets (fun x => (fn x).1) st.flip st.lower st.upper) :
    Brackets (fun x => (fn x).1) (Bisection.step fn y st).2.1.flip (Bisection.step fn y st).2.1.lower
      (Bisection.step fn y st).2.1.upper := by
  have hz : (0 : Fl F).val ≠ .nan := fun h => nomatch h
  unfold Bisection.step
  by_cases h1 : (fn y).1 < 0
  · have h2 := fl_le_of_lt h1
    cases hf : st.flip <;> simp_all [Brackets]
  · have h2 := fl_le_of_not_lt hnan hz h1
    cases hf : st.flip <;> simp_all [Brackets]

theorem fl_zero_not_nan : (0 : Fl F).val ≠ .nan := fun h => nomatch h

theorem expand_sound_fl (lower upper : Fl F) (fn : Fl F → Fl F × A) (l u : Fl F)
    (hnl : (fn l).1.val ≠ .nan) (hnu : (fn u).1.val ≠ .nan)
    (h : Bisection.expandRepeatedly lower upper (fn upper).1 (fn lower).1 (decide ((fn lower).1 < 0)) fn = some (l, u)) :
    Brackets (fun x => (fn x).1) (decide ((fn lower).1 > (fn upper).1)) l u := by
  unfold Bisection.expandRepeatedly at h
  obtain ⟨k, hd, hlt, hk⟩ := (whileForever_spec _ _ _ _).1 h
  cases k with
  | zero =>
    simp only [Function.iterate_zero, id_eq, Prod.mk.injEq] at hd hk
    obtain ⟨rfl, rfl⟩ := hd
    unfold Bisection.keepExpanding at hk
    by_cases h1 : (fn l).1 < 0 <;> by_cases h2 : (fn u).1 < (fn l).1 <;>
      simp_all [Brackets] <;> 
      (have hz := fl_zero_not_nan (F := F)
       have b1 := fl_le_of_not_lt hnl hz
       have b2 := fl_le_of_not_lt hnu hz
       have b3 := fl_le_of_not_lt hz hnl
       have b4 := fl_le_of_not_lt hz hnu
       have b5 := fl_le_of_not_lt hnl hnu
       have b6 := fl_le_of_not_lt hnu hnl
       have t1 : ∀ a b : Fl F, a < b → a ≤ b := fun a b h => fl_le_of_lt h
       have t2 : ∀ a b c : Fl F, a ≤ b → b ≤ c → a ≤ c := fun a b c h1 h2 => fl_le_trans h1 h2
       have t3 : ∀ a b c : Fl F, a < b → b ≤ c → a < c := fun a b c h1 h2 => fl_lt_of_lt_of_le h1 h2
       have t4 : ∀ a b c : Fl F, a < b → b < c → a < c := fun a b c h1 h2 => fl_lt_trans h1 h2
       grind)
  | succ k =>
    have hprev := hlt k (Nat.lt_succ_self k)
    rw [Function.iterate_succ_apply'] at hd hk
    generalize (Bisection.expandInterval (K := Fl F)
      (decide ((fn lower).1 < 0) ^^ decide ((fn upper).1 < (fn lower).1)))^[k] (lower, upper) = c at hd hk hprev
    obtain ⟨cl, cu⟩ := c
    clear hlt h
    unfold Bisection.keepExpanding at hk hprev
    unfold Bisection.expandInterval at hd hk
    by_cases h1 : (fn lower).1 < 0 <;> by_cases h2 : (fn upper).1 < (fn lower).1 <;>
      simp_all [Brackets] <;> 
      (have hz := fl_zero_not_nan (F := F)
       have b1 := fl_le_of_not_lt hnl hz
       have b2 := fl_le_of_not_lt hnu hz
       have b3 := fl_le_of_not_lt hz hnl
       have b4 := fl_le_of_not_lt hz hnu
       have b5 := fl_le_of_not_lt hnl hnu
       have b6 := fl_le_of_not_lt hnu hnl
       have t1 : ∀ a b : Fl F, a < b → a ≤ b := fun a b h => fl_le_of_lt h
       have t2 : ∀ a b c : Fl F, a ≤ b → b ≤ c → a ≤ c := fun a b c h1 h2 => fl_le_trans h1 h2
       have t3 : ∀ a b c : Fl F, a < b → b ≤ c → a < c := fun a b c h1 h2 => fl_lt_of_lt_of_le h1 h2
       have t4 : ∀ a b c : Fl F, a < b → b < c → a < c := fun a b c h1 h2 => fl_lt_trans h1 h2
       grind)

theorem init_brackets_fl (cfg : Bisection.Cfg (Fl F)) (fn : Fl F → Fl F × A) (y0 : Fl F)
    (st0 : Bisection.State (Fl F)) (hi : Bisection.init cfg fn y0 = .ok st0)
    (hnl : (fn st0.lower).1.val ≠ .nan) (hnu : (fn st0.upper).1.val ≠ .nan)
    (hflip : ∀ b, cfg.flip = .fixed b → Brackets (fun x => (fn x).1) b cfg.lower cfg.upper) :
    Brackets (fun x => (fn x).1) st0.flip st0.lower st0.upper := by
  unfold Bisection.init at hi
  split at hi
  · cases hi
  split at hi
  · split at hi
    · rename_i b hb
      cases hi
      exact hflip b hb
    · dsimp only at hi
      split at hi
      · split at hi
        · cases hi
        · rename_i lu hlu
          cases hi
          exact expand_sound_fl _ _ _ _ _ hnl hnu hlu
      · split at hi
        · cases hi
        · rename_i hne
          cases hi
          dsimp only at hnl hnu ⊢
          by_cases h1 : (fn cfg.lower).1 < 0 <;> by_cases h2 : (fn cfg.upper).1 < 0 <;>
            simp_all [Brackets] <;> 
      (have hz := fl_zero_not_nan (F := F)
       have b1 := fl_le_of_not_lt hnl hz
       have b2 := fl_le_of_not_lt hnu hz
       have b3 := fl_le_of_not_lt hz hnl
       have b4 := fl_le_of_not_lt hz hnu
       have b5 := fl_le_of_not_lt hnl hnu
       have b6 := fl_le_of_not_lt hnu hnl
       have t1 : ∀ a b : Fl F, a < b → a ≤ b := fun a b h => fl_le_of_lt h
       have t2 : ∀ a b c : Fl F, a ≤ b → b ≤ c → a ≤ c := fun a b c h1 h2 => fl_le_trans h1 h2
       have t3 : ∀ a b c : Fl F, a < b → b ≤ c → a < c := fun a b c h1 h2 => fl_lt_of_lt_of_le h1 h2
       have t4 : ∀ a b c : Fl F, a < b → b < c → a < c := fun a b c h1 h2 => fl_lt_trans h1 h2
       grind)
    · cases hi
  · cases hi

/-- **C87, signs.**  In every floating-point format, whatever the rounding, with or without expansion: as long as the function does not
return NaN at the ends of the initial bracket and at the iterates, its values at the ends of the bracket, as computed, have opposite
signs (or are zero). -/
theorem C87_bracket (cfg : Bisection.Cfg (Fl F)) (fn : Fl F → Fl F × A) (aux0 : A)
    (y0 : Fl F) (st0 : Bisection.State (Fl F)) (hi : (Bisection.solver cfg).init fn y0 = .ok st0)
    (hflip : ∀ b, cfg.flip = .fixed b → Brackets (fun x => (fn x).1) b cfg.lower cfg.upper)
    (hnl : (fn st0.lower).1.val ≠ .nan) (hnu : (fn st0.upper).1.val ≠ .nan) (k : Nat)
    (hnan : ∀ j, j < k → (fn (iterateAt (Bisection.solver cfg) fn aux0 y0 st0 j)).1.val ≠ .nan) :
    Brackets (fun x => (fn x).1) st0.flip (stateAt (Bisection.solver cfg) fn aux0 y0 st0 k).lower
      (stateAt (Bisection.solver cfg) fn aux0 y0 st0 k).upper := by
  have key : ∀ m, m ≤ k → Brackets (fun x => (fn x).1) (stateAt (Bisection.solver cfg) fn aux0 y0 st0 m).flip
      (stateAt (Bisection.solver cfg) fn aux0 y0 st0 m).lower
      (stateAt (Bisection.solver cfg) fn aux0 y0 st0 m).upper ∧
      (stateAt (Bisection.solver cfg) fn aux0 y0 st0 m).flip = st0.flip := by
    intro m hm
    induction m with
    | zero => exact ⟨init_brackets_fl cfg fn y0 st0 hi hnl hnu hflip, rfl⟩
    | succ m ih =>
      have := ih (by omega)
      exact ⟨step_brackets_fl fn _ (hnan m (by omega)) _ this.1, this.2⟩
  exact (key k le_rfl).2 ▸ (key k le_rfl).1

/-! ### Answers -/

/-- Between two ends of opposite signs up to `ε` there is a zero up to `ε`. -/
theorem zero_up_to {g : ℝ → ℝ} {ε a b : ℝ} (hε : 0 ≤ ε) (hab : a ≤ b) (hg : ContinuousOn g (Set.Icc a b))
    (h : (g a ≤ ε ∧ -ε ≤ g b) ∨ (-ε ≤ g a ∧ g b ≤ ε)) : ∃ r ∈ Set.Icc a b, |g r| ≤ ε := by
  rcases h with ⟨h1, h2⟩ | ⟨h1, h2⟩
  · by_cases h3 : -ε ≤ g a
    · exact ⟨a, ⟨le_rfl, hab⟩, abs_le.2 ⟨h3, h1⟩⟩
    · obtain ⟨r, hr, hgr⟩ := intermediate_value_Icc hab hg (⟨(not_le.1 h3).le, h2⟩ : -ε ∈ Set.Icc (g a) (g b))
      exact ⟨r, hr, by rw [hgr, abs_neg, abs_of_nonneg hε]⟩
  · by_cases h3 : -ε ≤ g b
    · exact ⟨b, ⟨hab, le_rfl⟩, abs_le.2 ⟨h3, h2⟩⟩
    · obtain ⟨r, hr, hgr⟩ := intermediate_value_Icc' hab hg (⟨(not_le.1 h3).le, h1⟩ : -ε ∈ Set.Icc (g b) (g a))
      exact ⟨r, hr, by rw [hgr, abs_neg, abs_of_nonneg hε]⟩

/-- **C87, answers.**  Let the computed function tell the sign of a continuous function `g`, up to `ε`.  Then success means that the
returned value is, as an exact number, within the tolerance of a point where `|g| ≤ ε` — for `ε = 0`, of a root — and that the
function value computed at the point before was smaller than `atol`. -/
theorem C87_answer {μ η : ℝ} (hF : F.Accurate μ η) (hH : F.Halves) (hh : F.Rep (1 / 2)) (cfg : Bisection.Cfg (Fl F))
    (hr : 0 ≤ cfg.rtol) (hrf : cfg.rtol.isFinite = true) (ha : 0 ≤ cfg.atol) (haf : cfg.atol.isFinite = true)
    (fn : Fl F → Fl F × A) (aux0 : A) (y0 : Fl F) (ms : Option Nat) (throw : Bool)
    (st0 : Bisection.State (Fl F)) (hi : (Bisection.solver cfg).init fn y0 = .ok st0)
    (hflip : ∀ b, cfg.flip = .fixed b → Brackets (fun x => (fn x).1) b cfg.lower cfg.upper)
    (hl : st0.lower.isFinite = true) (hu : st0.upper.isFinite = true) (hy : y0.isFinite = true)
    (h1 : st0.lower.real ≤ y0.real) (h2 : y0.real ≤ st0.upper.real)
    (hw : NoOverflow F (st0.upper.real - st0.lower.real))
    (hnan : ∀ x : Fl F, x.isFinite = true → (fn x).1.val ≠ .nan)
    (g : ℝ → ℝ) (ε : ℝ) (hε : 0 ≤ ε) (hg : ContinuousOn g (Set.Icc st0.lower.real st0.upper.real))
    (hsign : TellsSign fn g ε st0.lower.real st0.upper.real) (sol)
    (h : iterativeSolve (Bisection.solver cfg) (fun y => y.isFinite) fn aux0 y0 ms throw = some (.ok sol))
    (hs : sol.result = .successful) :
    ∃ y : Fl F, y.isFinite = true ∧ |(fn y).1.real| < cfg.atol.real ∧ (fn y).1.isFinite = true ∧
      ((cfg.atol + cfg.rtol * HasAbs.abs y).isFinite = true →
        ∃ r, st0.lower.real ≤ r ∧ r ≤ st0.upper.real ∧ |g r| ≤ ε ∧
          |sol.value.real - r| < allowed μ η cfg.rtol.real cfg.atol.real y.real) := by
  obtain ⟨st, hi', ht, _, _, _⟩ := C02_success_is_certificate _ _ _ _ _ _ _ _ h hs
  obtain ⟨_, _, st', hi'', hst, hp⟩ := C01_step_budget _ _ _ _ _ _ _ _ h
  have e1 : st = st0 := by rw [hi] at hi'; cases hi'; rfl
  have e2 : st' = st0 := by rw [hi] at hi''; cases hi''; rfl
  rw [e1] at ht
  rw [e2] at hst hp
  have hins := inside_run hH hh cfg fn aux0 y0 st0 hw ⟨hl, hu, hy, le_rfl, h1, h2, le_rfl⟩
  cases hk : sol.numSteps with
  | zero =>
    exfalso
    rw [hst, hk] at ht
    have he : st0.error = none := by
      have hi2 : Bisection.init cfg fn y0 = .ok st0 := hi
      unfold Bisection.init at hi2
      split at hi2
      · cases hi2
      split at hi2
      · split at hi2
        · cases hi2; rfl
        · dsimp only at hi2
          split at hi2
          · split at hi2
            · cases hi2
            · cases hi2; rfl
          · split at hi2
            · cases hi2
            · cases hi2; rfl
        · cases hi2
      · cases hi2
    have := congrArg Prod.fst ht
    have h3 : (Bisection.terminate cfg y0 st0).1 = true := this
    unfold Bisection.terminate at h3
    rw [he] at h3
    simp at h3
  | succ k =>
    rw [hst, hk] at ht
    rw [hk] at hp
    have hins1 := hins (k + 1)
    have hbr := C87_bracket cfg fn aux0 y0 st0 hi hflip (hnan _ hl) (hnan _ hu) (k + 1)
      (fun j _ => hnan _ (hins j).y_fin)
    have hv : sol.value = iterateAt (Bisection.solver cfg) fn aux0 y0 st0 (k + 1) := congrArg Prod.fst hp
    have ht1 : (Bisection.terminate cfg (iterateAt (Bisection.solver cfg) fn aux0 y0 st0 k)
      (stateAt (Bisection.solver cfg) fn aux0 y0 st0 (k + 1))).1 = true := congrArg Prod.fst ht
    have herr : (stateAt (Bisection.solver cfg) fn aux0 y0 st0 (k + 1)).error =
      some (fn (iterateAt (Bisection.solver cfg) fn aux0 y0 st0 k)).1 := rfl
    unfold Bisection.terminate at ht1
    rw [herr] at ht1
    simp only [Bool.and_eq_true, decide_eq_true_eq] at ht1
    refine ⟨iterateAt (Bisection.solver cfg) fn aux0 y0 st0 k, (hins k).y_fin, ?_, Fl.finite_of_abs_lt ht1.2, ?_⟩
    · have h3 := ht1.2
      rw [Fl.lt_def, Fl.abs_val, Fl.val_of_finite (Fl.finite_of_abs_lt ht1.2), Fl.val_of_finite haf, XR.abs_fin] at h3
      exact h3
    · intro ho
      obtain ⟨_, _, h3⟩ := Fl.abs_sub_lt ht1.1 ho
      have h4 := h3.trans_le (Fl.scale_bound hF ho hrf (hins k).y_fin hr ha)
      have hle := hins1.l_le.trans hins1.y_le
      have sl := hsign _ hins1.l_fin hins1.lo_le (hle.trans hins1.le_hi)
      have su := hsign _ hins1.u_fin (hins1.lo_le.trans hle) hins1.le_hi
      obtain ⟨r, hr1, hr2⟩ := zero_up_to hε hle (hg.mono (Set.Icc_subset_Icc hins1.lo_le hins1.le_hi)) (by
        cases hf : st0.flip with
        | false => rw [hf] at hbr; exact Or.inl ⟨sl.1 hbr.1, su.2 hbr.2⟩
        | true => rw [hf] at hbr; exact Or.inr ⟨sl.2 hbr.1, su.1 hbr.2⟩)
      refine ⟨r, hins1.lo_le.trans hr1.1, hr1.2.trans hins1.le_hi, hr2, lt_of_le_of_lt ?_ h4⟩
      rw [hv]
      have a1 := hins1.l_le
      have a2 := hins1.y_le
      have a3 := hr1.1
      have a4 := hr1.2
      rw [abs_sub_comm (stateAt (Bisection.solver cfg) fn aux0 y0 st0 (k + 1)).lower.real]
      rw [abs_of_nonneg (sub_nonneg.2 hle), abs_le]
      constructor <;> linarith

/-! ### Stopping -/

theorem scale_exceeds {rtol atol y : Fl F} (hr : 0 ≤ rtol) (hrf : rtol.isFinite = true) (haf : atol.isFinite = true)
    (hy : y.isFinite = true) {r : ℝ} (h : r < atol.real) : XR.fin r < (atol + rtol * HasAbs.abs y).val := by
  have hr0 : 0 ≤ rtol.real := by
    rw [Fl.le_def, Fl.val_of_finite hrf] at hr; exact hr
  rw [Fl.add_val, Fl.mul_val, Fl.abs_val, Fl.val_of_finite haf, Fl.val_of_finite hrf, Fl.val_of_finite hy, XR.abs_fin, XR.mul_fin]
  have h1 := F.le_round F.zero (mul_nonneg hr0 (abs_nonneg y.real))
  show XR.fin r < F.roundXR (XR.fin atol.real + F.round (rtol.real * |y.real|))
  cases hm : F.round (rtol.real * |y.real|) with
  | fin m =>
    rw [hm, XR.le_fin] at h1
    rw [XR.add_fin]
    have h2 := F.le_round (Fl.rep_real haf) (show atol.real ≤ atol.real + m by linarith)
    show XR.fin r < F.round (atol.real + m)
    cases hv : F.round (atol.real + m) with
    | fin v => rw [hv, XR.le_fin] at h2; rw [XR.lt_fin]; linarith
    | pinf => exact trivial
    | ninf => rw [hv] at h2; exact absurd h2 (XR.not_fin_le_ninf _)
    | nan => rw [hv] at h2; exact absurd h2 (XR.not_le_nan _)
  | pinf => exact trivial
  | ninf => rw [hm] at h1; exact absurd h1 (XR.not_fin_le_ninf _)
  | nan => rw [hm] at h1; exact absurd h1 (XR.not_le_nan _)

/-- A short interval passes the test. -/
theorem sub_small {μ η : ℝ} (hF : F.Accurate μ η) {l u s : Fl F} (hl : l.isFinite = true) (hu : u.isFinite = true)
    (hle : l.real ≤ u.real) (hw : NoOverflow F (u.real - l.real)) {t : ℝ}
    (hs : ∀ r, r < t → XR.fin r < s.val) (h : (1 + μ) * (u.real - l.real) + η < t) : HasAbs.abs (l - u) < s := by
  obtain ⟨B, hB, hwB⟩ := hw
  obtain ⟨r, hr, h1, h2⟩ := round_between (F.neg hB) F.zero (show -B ≤ l.real - u.real by linarith)
    (show l.real - u.real ≤ 0 by linarith)
  rw [Fl.lt_def, Fl.abs_val, Fl.sub_val, Fl.val_of_finite hl, Fl.val_of_finite hu, XR.sub_fin]
  show HasAbs.abs (F.round (l.real - u.real)) < s.val
  rw [hr, XR.abs_fin]
  apply hs
  have e := hF.error hr
  rw [abs_of_nonpos (by linarith : l.real - u.real ≤ 0)] at e
  rw [abs_of_nonpos h2]
  linarith [(abs_le.1 e).1]

/-- **C87, stopping.**  Let the function be computed with error at most `ε` from a function `g` with Lipschitz constant `L`, on an
interval within `[-M, M]`.  Bisection, in floating-point arithmetic with relative error `μ`, reaches brackets of width
`W / 2 ^ N + 2 * (4 * μ * M + 3 * η)`; if `atol` is not below what such a bracket can guarantee, it stops, successfully, within
`N + 2` steps. -/
theorem C87_stops {μ η : ℝ} (hF : F.Accurate μ η) (hμ : μ ≤ 1 / 4) (hH : F.Halves) (hh : F.Rep (1 / 2))
    (cfg : Bisection.Cfg (Fl F)) (hr : 0 ≤ cfg.rtol) (hrf : cfg.rtol.isFinite = true) (haf : cfg.atol.isFinite = true)
    (fn : Fl F → Fl F × A) (aux0 : A) (y0 : Fl F) (ms : Option Nat) (throw : Bool)
    (st0 : Bisection.State (Fl F)) (hi : (Bisection.solver cfg).init fn y0 = .ok st0)
    (hflip : ∀ b, cfg.flip = .fixed b → Brackets (fun x => (fn x).1) b cfg.lower cfg.upper)
    (hl : st0.lower.isFinite = true) (hu : st0.upper.isFinite = true) (hy : y0.isFinite = true)
    (h1 : st0.lower.real ≤ y0.real) (h2 : y0.real ≤ st0.upper.real)
    (hw : NoOverflow F (st0.upper.real - st0.lower.real))
    (M : ℝ) (hM1 : -M ≤ st0.lower.real) (hM2 : st0.upper.real ≤ M)
    (g : ℝ → ℝ) (ε L : ℝ)
    (hfn : ∀ x : Fl F, x.isFinite = true → st0.lower.real ≤ x.real → x.real ≤ st0.upper.real →
      (fn x).1.isFinite = true ∧ |(fn x).1.real - g x.real| ≤ ε)
    (hL : ∀ a b, st0.lower.real ≤ a → a ≤ b → b ≤ st0.upper.real → |g a - g b| ≤ L * (b - a)) (hL0 : 0 ≤ L)
    (N : Nat) (hms : ∀ n, ms = some n → N + 2 ≤ n)
    (hatol1 : (1 + μ) * ((st0.upper.real - st0.lower.real) / 2 ^ N + 2 * (4 * μ * M + 3 * η)) + η < cfg.atol.real)
    (hatol2 : L * ((st0.upper.real - st0.lower.real) / 2 ^ N + 2 * (4 * μ * M + 3 * η)) + 2 * ε < cfg.atol.real) :
    ∃ sol, iterativeSolve (Bisection.solver cfg) (fun y => y.isFinite) fn aux0 y0 ms throw = some (.ok sol) ∧
      sol.result = .successful ∧ sol.numSteps ≤ N + 2 := by
  have hins := inside_run hH hh cfg fn aux0 y0 st0 hw ⟨hl, hu, hy, le_rfl, h1, h2, le_rfl⟩
  obtain ⟨B, hB, hwB⟩ := hw
  have hno : ∀ k, NoOverflow F ((stateAt (Bisection.solver cfg) fn aux0 y0 st0 k).upper.real -
      (stateAt (Bisection.solver cfg) fn aux0 y0 st0 k).lower.real) := fun k =>
    ⟨B, hB, by linarith [(hins k).lo_le, (hins k).le_hi]⟩
  have hstep : ∀ k,
      ((stateAt (Bisection.solver cfg) fn aux0 y0 st0 (k + 1)).lower = iterateAt (Bisection.solver cfg) fn aux0 y0 st0 k ∧
        (stateAt (Bisection.solver cfg) fn aux0 y0 st0 (k + 1)).upper = (stateAt (Bisection.solver cfg) fn aux0 y0 st0 k).upper) ∨
      ((stateAt (Bisection.solver cfg) fn aux0 y0 st0 (k + 1)).lower = (stateAt (Bisection.solver cfg) fn aux0 y0 st0 k).lower ∧
        (stateAt (Bisection.solver cfg) fn aux0 y0 st0 (k + 1)).upper = iterateAt (Bisection.solver cfg) fn aux0 y0 st0 k) := by
    intro k
    have hst : stateAt (Bisection.solver cfg) fn aux0 y0 st0 (k + 1) =
      (Bisection.step fn (iterateAt (Bisection.solver cfg) fn aux0 y0 st0 k)
        (stateAt (Bisection.solver cfg) fn aux0 y0 st0 k)).2.1 := rfl
    rw [hst]
    unfold Bisection.step
    dsimp only
    split
    · exact Or.inl ⟨rfl, rfl⟩
    · exact Or.inr ⟨rfl, rfl⟩
  have hmid : ∀ k, iterateAt (Bisection.solver cfg) fn aux0 y0 st0 (k + 1) =
      (stateAt (Bisection.solver cfg) fn aux0 y0 st0 (k + 1)).lower + 0.5 *
        ((stateAt (Bisection.solver cfg) fn aux0 y0 st0 (k + 1)).upper -
          (stateAt (Bisection.solver cfg) fn aux0 y0 st0 (k + 1)).lower) := fun k => rfl
  generalize hsta : stateAt (Bisection.solver cfg) fn aux0 y0 st0 = sta at *
  generalize hita : iterateAt (Bisection.solver cfg) fn aux0 y0 st0 = it at *
  have hmono : ∀ k, (sta (k + 1)).upper.real - (sta (k + 1)).lower.real ≤ (sta k).upper.real - (sta k).lower.real := by
    intro k
    have := hins k
    rcases hstep k with ⟨e1, e2⟩ | ⟨e1, e2⟩ <;> rw [e1, e2] <;> linarith [this.l_le, this.y_le]
  have η0 := hF.η_nonneg
  have u0 := hF.u_nonneg
  have hM0 : 0 ≤ M := by linarith
  set E := 4 * μ * M + 3 * η with hE
  have hE0 : 0 ≤ E := by positivity
  set W := st0.upper.real - st0.lower.real with hW
  have hsta0 : sta 0 = st0 := by rw [← hsta]; rfl
  have hwidth : ∀ k, (sta (k + 1)).upper.real - (sta (k + 1)).lower.real ≤ W / 2 ^ k + 2 * E := by
    intro k
    induction k with
    | zero =>
      have := hmono 0
      rw [hsta0] at this
      simp only [pow_zero, div_one]
      linarith
    | succ k ih =>
      have h3 := hins (k + 1)
      have herr := midpoint_error (M := M) hF hμ hH hh h3.l_fin h3.u_fin (h3.l_le.trans h3.y_le) (hno (k + 1))
        (abs_le.2 ⟨by linarith [h3.lo_le], by linarith [h3.l_le, h3.y_le, h3.le_hi]⟩)
        (abs_le.2 ⟨by linarith [h3.l_le, h3.y_le, h3.lo_le], by linarith [h3.le_hi]⟩)
      rw [← hmid, ← hE, abs_le] at herr
      have e3 : W / 2 ^ (k + 1) = W / 2 ^ k / 2 := by rw [pow_succ]; field_simp
      rcases hstep (k + 1) with ⟨e1, e2⟩ | ⟨e1, e2⟩ <;> rw [e1, e2, e3] <;> linarith [herr.1, herr.2]
  refine (solve_succeeds_by _ _ fn aux0 y0 st0 hi ms throw (N + 2) ?_ ?_ ?_ hms).imp fun sol h => ⟨h.1, h.2.1, h.2.2.1⟩
  · intro j _
    rw [hita]
    exact (hins (j - 1)).y_fin
  · intro j _; rfl
  · rw [hita, hsta]
    have h3 := hins (N + 1)
    have h4 := hins (N + 2)
    have hle := h4.l_le.trans h4.y_le
    have w1 := hwidth N
    have w2 := hmono (N + 1)
    have herr : (sta (N + 2)).error = some (fn (it (N + 1))).1 := by
      rw [← hsta, ← hita]; rfl
    show (Bisection.terminate cfg (it (N + 1)) (sta (N + 2))).1 = true
    unfold Bisection.terminate
    rw [herr]
    simp only [Bool.and_eq_true, decide_eq_true_eq]
    refine ⟨sub_small hF h4.l_fin h4.u_fin hle (hno (N + 2)) (fun r hlt => scale_exceeds hr hrf haf h3.y_fin hlt) ?_, ?_⟩
    · refine lt_of_le_of_lt ?_ hatol1
      have : (1 + μ) * ((sta (N + 2)).upper.real - (sta (N + 2)).lower.real) ≤ (1 + μ) * (W / 2 ^ N + 2 * E) :=
        mul_le_mul_of_nonneg_left (w2.trans w1) (by linarith)
      linarith
    · -- the value at the iterate is small
      have hnan : ∀ x : Fl F, x.isFinite = true → st0.lower.real ≤ x.real → x.real ≤ st0.upper.real → (fn x).1.val ≠ .nan := by
        intro x a1 a2 a3 a4
        have := (hfn x a1 a2 a3).1
        unfold Fl.isFinite at this
        rw [a4] at this
        cases this
      have hbr := C87_bracket cfg fn aux0 y0 st0 hi hflip (hnan _ hl le_rfl (h1.trans h2)) (hnan _ hu (h1.trans h2) le_rfl) (N + 1)
        (fun j _ => by
          rw [hita]
          exact hnan _ (hins j).y_fin ((hins j).lo_le.trans (hins j).l_le) ((hins j).y_le.trans (hins j).le_hi))
      rw [hsta] at hbr
      have fl := hfn _ h3.l_fin h3.lo_le (h3.l_le.trans (h3.y_le.trans h3.le_hi))
      have fu := hfn _ h3.u_fin (h3.lo_le.trans (h3.l_le.trans h3.y_le)) h3.le_hi
      have fy := hfn _ h3.y_fin (h3.lo_le.trans h3.l_le) (h3.y_le.trans h3.le_hi)
      have ll := hL _ _ h3.lo_le h3.l_le (h3.y_le.trans h3.le_hi)
      have lu := hL _ _ (h3.lo_le.trans h3.l_le) h3.y_le h3.le_hi
      have b1 : L * ((it (N + 1)).real - (sta (N + 1)).lower.real) ≤ L * (W / 2 ^ N + 2 * E) :=
        mul_le_mul_of_nonneg_left (by linarith [h3.y_le]) hL0
      have b2 : L * ((sta (N + 1)).upper.real - (it (N + 1)).real) ≤ L * (W / 2 ^ N + 2 * E) :=
        mul_le_mul_of_nonneg_left (by linarith [h3.l_le]) hL0
      rw [Fl.lt_def, Fl.abs_val, Fl.val_of_finite fy.1, Fl.val_of_finite haf, XR.abs_fin, XR.lt_fin]
      have pos : ∀ x : Fl F, x.isFinite = true → (0 ≤ x ↔ 0 ≤ x.real) := by
        intro x hx; rw [Fl.le_def, Fl.val_of_finite hx]; exact Iff.rfl
      have neg : ∀ x : Fl F, x.isFinite = true → (x ≤ 0 ↔ x.real ≤ 0) := by
        intro x hx; rw [Fl.le_def, Fl.val_of_finite hx]; exact Iff.rfl
      obtain ⟨fl1, fl2⟩ := fl
      obtain ⟨fu1, fu2⟩ := fu
      obtain ⟨fy1, fy2⟩ := fy
      rw [abs_le] at fl2 fu2 fy2 ll lu
      rw [abs_lt]
      cases hf : st0.flip with
      | false =>
        rw [hf] at hbr
        have c1 := (neg _ fl1).1 hbr.1
        have c2 := (pos _ fu1).1 hbr.2
        constructor <;> linarith [fl2.1, fl2.2, fu2.1, fu2.2, fy2.1, fy2.2, ll.1, ll.2, lu.1, lu.2]
      | true =>
        rw [hf] at hbr
        have c1 := (pos _ fl1).1 hbr.1
        have c2 := (neg _ fu1).1 hbr.2
        constructor <;> linarith [fl2.1, fl2.2, fu2.1, fu2.2, fy2.1, fy2.2, ll.1, ll.2, lu.1, lu.2]

/-! ### Not stopping -/

theorem fl_real_inj {a b : Fl F} (ha : a.isFinite = true) (hb : b.isFinite = true) (h : a.real = b.real) : a = b := by
  apply Fl.ext
  rw [Fl.val_of_finite ha, Fl.val_of_finite hb, h]

/-- **C87, a limit of the method.**  If the sign changes between two neighbouring numbers and the width of this interval, as computed,
is not below the tolerance, then bisection never stops: every budget is exhausted, and without a budget the solve hangs. -/
theorem C87_too_fine (hH : F.Halves) (hh : F.Rep (1 / 2)) (cfg : Bisection.Cfg (Fl F)) (fn : Fl F → Fl F × A) (aux0 : A)
    (y0 : Fl F) (st0 : Bisection.State (Fl F)) (hi : (Bisection.solver cfg).init fn y0 = .ok st0)
    (hflip : st0.flip = false) (hl : st0.lower.isFinite = true) (hu : st0.upper.isFinite = true)
    (hnb : Neighbours F st0.lower.real st0.upper.real) (hy : y0 = st0.lower ∨ y0 = st0.upper)
    (hfl : (fn st0.lower).1 < 0) (hfu : ¬ (fn st0.upper).1 < 0)
    (hw : NoOverflow F (st0.upper.real - st0.lower.real))
    (ht1 : ¬ HasAbs.abs (st0.lower - st0.upper) < cfg.atol + cfg.rtol * HasAbs.abs st0.lower)
    (ht2 : ¬ HasAbs.abs (st0.lower - st0.upper) < cfg.atol + cfg.rtol * HasAbs.abs st0.upper) :
    iterativeSolve (Bisection.solver cfg) (fun y => y.isFinite) fn aux0 y0 none false = none ∧
    ∀ n, ∃ sol, iterativeSolve (Bisection.solver cfg) (fun y => y.isFinite) fn aux0 y0 (some n) false = some (.ok sol) ∧
      sol.result = .nonlinearMaxStepsReached ∧ sol.numSteps = n := by
  have hinv : ∀ k, (stateAt (Bisection.solver cfg) fn aux0 y0 st0 k).lower = st0.lower ∧
      (stateAt (Bisection.solver cfg) fn aux0 y0 st0 k).upper = st0.upper ∧
      (stateAt (Bisection.solver cfg) fn aux0 y0 st0 k).flip = false ∧
      (iterateAt (Bisection.solver cfg) fn aux0 y0 st0 k = st0.lower ∨
        iterateAt (Bisection.solver cfg) fn aux0 y0 st0 k = st0.upper) := by
    intro k
    induction k with
    | zero => exact ⟨rfl, rfl, hflip, hy⟩
    | succ k ih =>
      obtain ⟨i1, i2, i3, i4⟩ := ih
      have hst : stateAt (Bisection.solver cfg) fn aux0 y0 st0 (k + 1) =
        (Bisection.step fn (iterateAt (Bisection.solver cfg) fn aux0 y0 st0 k)
          (stateAt (Bisection.solver cfg) fn aux0 y0 st0 k)).2.1 := rfl
      have hit : iterateAt (Bisection.solver cfg) fn aux0 y0 st0 (k + 1) =
        (Bisection.step fn (iterateAt (Bisection.solver cfg) fn aux0 y0 st0 k)
          (stateAt (Bisection.solver cfg) fn aux0 y0 st0 k)).1 := rfl
      have hm := midpoint_between hH hh hl hu hnb.2.2.1.le hw
      have hmid : st0.lower + 0.5 * (st0.upper - st0.lower) = st0.lower ∨
          st0.lower + 0.5 * (st0.upper - st0.lower) = st0.upper := by
        rcases hnb.2.2.2 _ (Fl.rep_real hm.1) hm.2.1 hm.2.2 with e | e
        · exact Or.inl (fl_real_inj hm.1 hl e)
        · exact Or.inr (fl_real_inj hm.1 hu e)
      rw [hst, hit]
      unfold Bisection.step
      dsimp only
      rw [i1, i2, i3]
      rcases i4 with e | e
      · rw [e]
        simp only [hfl, decide_true, Bool.false_xor, if_true]
        exact ⟨trivial, trivial, trivial, hmid⟩
      · rw [e]
        simp only [hfu, decide_false, Bool.false_xor, Bool.false_eq_true, if_false]
        exact ⟨trivial, trivial, trivial, hmid⟩
  have hcont : ∀ k, Continues (Bisection.solver cfg) (fun y => y.isFinite) fn aux0 y0 st0 k := by
    have key : ∀ y st, (y = st0.lower ∨ y = st0.upper) → st.lower = st0.lower → st.upper = st0.upper →
        y.isFinite = true ∧ Bisection.terminate cfg y st = (false, .successful) := by
      intro y st h1 h2 h3
      unfold Bisection.terminate
      rw [h2, h3]
      rcases h1 with e | e <;> rw [e]
      · exact ⟨hl, by simp [ht1]⟩
      · exact ⟨hu, by simp [ht2]⟩
    intro k
    obtain ⟨h1, h2, _, h3⟩ := hinv k
    cases k with
    | zero => exact key _ _ hy h1 h2
    | succ k => exact key _ _ (hinv k).2.2.2 h1 h2
  have hall : ∀ n, ∃ sol, iterativeSolve (Bisection.solver cfg) (fun y => y.isFinite) fn aux0 y0 (some n) false =
      some (.ok sol) ∧ sol.result = .nonlinearMaxStepsReached ∧ sol.numSteps = n := by
    intro n
    obtain ⟨sol, h1, h2⟩ := solve_exists (Bisection.solver cfg) (fun y => y.isFinite) fn aux0 y0 st0 hi (some n) n
      (fun j _ => hcont j) (Or.inr rfl)
    refine ⟨sol, h1, ?_, h2⟩
    obtain ⟨st', hi', _, _, _, _, _, hres⟩ := solve_spec _ _ _ _ _ _ _ _ h1
    have e : st' = st0 := by rw [hi] at hi'; cases hi'; rfl
    rw [e, if_pos (hcont _)] at hres
    exact hres
  refine ⟨(C08_unbounded_diverges_iff _ _ fn aux0 y0 st0 hi (fun y st h => nomatch h)).2 fun n => ?_, hall⟩
  obtain ⟨sol, h1, h2, _⟩ := hall n
  exact ⟨sol, h1, h2⟩

/-! ### The hypotheses can be met, in `float64` -/

/-- A number of the format. -/
def lit {r : ℝ} (h : F.Rep r) : Fl F := ⟨.fin r, fun s hs => by cases hs; exact h⟩

theorem rep_pow {e : ℤ} (h1 : -1074 ≤ e) (h2 : e ≤ 1023) : Format.float64.Rep (2 ^ e) :=
  Binary.roundTo_pow 53 (by norm_num) (-1022) 1023 e (by omega) h2

theorem float64_halves : Format.float64.Halves := Binary.halves 53 (-1022) 1023 (by norm_num) (by norm_num) (by norm_num)
theorem float64_half : Format.float64.Rep (1 / 2) := Binary.half 53 (-1022) 1023 (by norm_num) (by norm_num) (by norm_num)
theorem float64_accurate : Format.float64.Accurate (2 ^ (-53 : ℤ)) (2 ^ (-1022 - 53 : ℤ)) :=
  Binary.accurate 53 (-1022) 1023 (by norm_num) (by norm_num) (by norm_num)

/-- The root `0` of the identity, from `[-1, 2]`, with tolerance `2 ^ (-10)`. -/
noncomputable def flIdentity : Bisection.Cfg (Fl .float64) :=
  { rtol := 0, atol := lit (rep_pow (e := -10) (by norm_num) (by norm_num)), flip := .detect, expand := false,
    lower := lit (Format.neg _ (Format.one _)), upper := 2, scalarArgs := true, fStruct := .leaf [] true }

theorem flIdentity_init (y : Fl .float64) : (Bisection.solver flIdentity).init (fun x => (x, ())) y =
    .ok { lower := lit (Format.neg _ (Format.one _)), upper := 2, flip := false, error := none } := by
  have h1 : (lit (Format.neg _ (Format.one .float64)) : Fl .float64) < 0 := by
    rw [Fl.lt_def]; show (-1 : ℝ) < 0; norm_num
  have h2 : ¬ (2 : Fl .float64) < 0 := by
    rw [Fl.lt_def]; show ¬ (2 : ℝ) < 0; norm_num
  have h3 : ¬ (2 : Fl .float64) < lit (Format.neg _ (Format.one .float64)) := by
    rw [Fl.lt_def]; show ¬ (2 : ℝ) < -1; norm_num
  simp [Bisection.solver, Bisection.init, flIdentity, h1, h2, h3]

/-- The run stops, within 15 steps. -/
example : ∃ sol, iterativeSolve (Bisection.solver flIdentity) (fun y => y.isFinite) (fun x => (x, ())) () 1 (some 256) true =
    some (.ok sol) ∧ sol.result = .successful ∧ sol.numSteps ≤ 15 := by
  have hM : (2 : ℝ) ^ (-53 : ℤ) ≤ 1 / 1000000 := by norm_num
  have hη : (2 : ℝ) ^ (-1022 - 53 : ℤ) ≤ 1 / 1000000 := by
    have : (2 : ℝ) ^ (-1022 - 53 : ℤ) ≤ 2 ^ (-53 : ℤ) := zpow_le_zpow_right₀ (by norm_num) (by norm_num)
    exact this.trans hM
  have hη0 : (0 : ℝ) < 2 ^ (-1022 - 53 : ℤ) := by positivity
  refine C87_stops float64_accurate (by norm_num) float64_halves float64_half flIdentity ?_ rfl rfl _ () 1 _ _ _
    (flIdentity_init 1) ?_ rfl rfl rfl ?_ ?_ ?_ 2 ?_ ?_ id 0 1 ?_ ?_ (by norm_num) 13 ?_ ?_ ?_
  · rw [Fl.le_def]; exact le_refl (0 : ℝ)
  · intro b h; cases h
  · show (-1 : ℝ) ≤ 1; norm_num
  · show (1 : ℝ) ≤ 2; norm_num
  · refine ⟨2 ^ (2 : ℤ), rep_pow (by norm_num) (by norm_num), ?_⟩
    show (2 : ℝ) - -1 ≤ _; norm_num
  · show (-2 : ℝ) ≤ -1; norm_num
  · show (2 : ℝ) ≤ 2; norm_num
  · intro x hx _ _
    exact ⟨hx, by simp⟩
  · intro a b _ hab _
    rw [id, id, abs_sub_comm, abs_of_nonneg (by linarith), one_mul]
  · intro n hn; cases hn; norm_num
  · show (1 + (2 : ℝ) ^ (-53 : ℤ)) * ((2 - -1) / 2 ^ 13 + 2 * (4 * 2 ^ (-53 : ℤ) * 2 + 3 * 2 ^ (-1022 - 53 : ℤ))) +
      2 ^ (-1022 - 53 : ℤ) < 2 ^ (-10 : ℤ)
    generalize (2 : ℝ) ^ (-1022 - 53 : ℤ) = η at *
    norm_num
    linarith
  · show (1 : ℝ) * ((2 - -1) / 2 ^ 13 + 2 * (4 * 2 ^ (-53 : ℤ) * 2 + 3 * 2 ^ (-1022 - 53 : ℤ))) + 2 * 0 < 2 ^ (-10 : ℤ)
    generalize (2 : ℝ) ^ (-1022 - 53 : ℤ) = η at *
    norm_num
    linarith

/-- Such a run meets the hypotheses of `C87_answer`: the identity tells its own sign. -/
example : TellsSign (F := .float64) (fun x => (x, ())) id 0 (-1) 2 := by
  intro x hx _ _
  rw [Fl.le_def, Fl.le_def, Fl.val_of_finite hx]
  refine ⟨fun h => ?_, fun h => ?_⟩
  · have : x.real ≤ 0 := h
    simpa using this
  · have : 0 ≤ x.real := h
    simpa using this

/-- A jump between `1` and the next number of `float64`, with `atol = 2 ^ (-60)`: bisection never stops. -/
example : ∃ (cfg : Bisection.Cfg (Fl .float64)) (fn : Fl .float64 → Fl .float64 × Unit) (y0 : Fl .float64),
    iterativeSolve (Bisection.solver cfg) (fun y => y.isFinite) fn () y0 none false = none := by
  have hnb : Neighbours .float64 1 (1 + 2 ^ (-(((53 : ℕ) : ℤ) - 1))) :=
    Binary.neighbours 53 (-1022) 1023 (by norm_num) (by norm_num) (by norm_num)
  have hm : (lit (Format.neg _ (Format.one .float64)) : Fl .float64) < 0 := by
    rw [Fl.lt_def]; show (-1 : ℝ) < 0; norm_num
  have hp : ¬ (1 : Fl .float64) < 0 := by
    rw [Fl.lt_def]; show ¬ (1 : ℝ) < 0; norm_num
  have hne : ¬ (lit hnb.2.1 : Fl .float64) ≤ 1 := by
    rw [Fl.le_def]
    exact not_le.2 hnb.2.2.1
  have h11 : (1 : Fl .float64) ≤ 1 := by rw [Fl.le_def]; exact le_refl (1 : ℝ)
  let cfg : Bisection.Cfg (Fl .float64) :=
    { rtol := 0, atol := lit (rep_pow (e := -60) (by norm_num) (by norm_num)), flip := .fixed false, expand := false,
      lower := 1, upper := lit hnb.2.1, scalarArgs := true, fStruct := .leaf [] true }
  let fn : Fl .float64 → Fl .float64 × Unit := fun x => (if x ≤ 1 then lit (Format.neg _ (Format.one .float64)) else 1, ())
  have hgap : (lit hnb.2.1 : Fl .float64).real - (1 : Fl .float64).real = 2 ^ (-52 : ℤ) := by
    show ((1 : ℝ) + 2 ^ (-(((53 : ℕ) : ℤ) - 1))) - 1 = 2 ^ (-52 : ℤ)
    norm_num
  have htest : ∀ y : Fl .float64, y.isFinite = true →
      ¬ HasAbs.abs ((1 : Fl .float64) - lit hnb.2.1) < cfg.atol + cfg.rtol * HasAbs.abs y := by
    intro y hy
    have e : cfg.atol + cfg.rtol * HasAbs.abs y = cfg.atol := by
      apply Fl.ext
      rw [Fl.add_val, Fl.mul_val, Fl.abs_val, Fl.val_of_finite hy, XR.abs_fin]
      show Format.float64.roundXR (XR.fin (2 ^ (-60 : ℤ)) + Format.float64.roundXR (XR.fin 0 * XR.fin |y.real|)) = _
      rw [XR.mul_fin, zero_mul]
      show Format.float64.roundXR (XR.fin (2 ^ (-60 : ℤ)) + Format.float64.round 0) = _
      rw [Format.zero, XR.add_fin, add_zero]
      exact rep_pow (by norm_num) (by norm_num)
    rw [e, Fl.lt_def, Fl.abs_val, Fl.sub_val]
    show ¬ HasAbs.abs (Format.float64.roundXR (XR.fin 1 - XR.fin (1 + 2 ^ (-(((53 : ℕ) : ℤ) - 1))))) < XR.fin (2 ^ (-60 : ℤ))
    rw [XR.sub_fin]
    have e2 : (1 : ℝ) - (1 + 2 ^ (-(((53 : ℕ) : ℤ) - 1))) = -(2 ^ (-52 : ℤ)) := by norm_num
    rw [e2]
    have e3 : Format.float64.roundXR (XR.fin (-(2 ^ (-52 : ℤ)))) = XR.fin (-(2 ^ (-52 : ℤ))) :=
      Format.neg _ (rep_pow (by norm_num) (by norm_num))
    rw [e3, XR.abs_fin, XR.lt_fin]
    norm_num
  refine ⟨cfg, fn, 1, (C87_too_fine float64_halves float64_half cfg fn () 1 _ rfl rfl rfl rfl hnb (Or.inl rfl) ?_ ?_ ?_
    (htest 1 rfl) (htest _ rfl)).1⟩
  · show (if (1 : Fl .float64) ≤ 1 then _ else _ : Fl .float64) < 0
    rw [if_pos h11]; exact hm
  · show ¬ (if (lit hnb.2.1 : Fl .float64) ≤ 1 then _ else _ : Fl .float64) < 0
    rw [if_neg hne]; exact hp
  · refine ⟨1, Format.one _, ?_⟩
    rw [hgap]; norm_num

end Verif.Props
