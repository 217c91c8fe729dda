import Verif.Model.Float
import Mathlib.Tactic.FieldSimp
import Mathlib.Tactic.NormNum

/-!
Facts about rounding, and that the binary formats of IEEE 754 are formats.
-/

namespace Verif

namespace Binary

theorem nearest_mono {s t : ℝ} (h : s ≤ t) : nearest s ≤ nearest t := by
  have hf := Int.floor_mono h
  have up : ∀ s : ℝ, nearest s ≤ ⌊s⌋ + 1 := by intro s; unfold nearest; split_ifs <;> omega
  have lo : ∀ s : ℝ, ⌊s⌋ ≤ nearest s := by intro s; unfold nearest; split_ifs <;> omega
  rcases hf.lt_or_eq with hlt | heq
  · have := up s; have := lo t; omega
  · have hs : Int.fract s ≤ Int.fract t := by
      unfold Int.fract; rw [heq]; linarith
    unfold nearest
    rw [heq]
    split_ifs <;> first | omega | (exfalso; linarith)

theorem nearest_int (k : ℤ) : nearest (k : ℝ) = k := by
  unfold nearest; rw [Int.fract_intCast, Int.floor_intCast]; norm_num

theorem nearest_error (t : ℝ) : |(nearest t : ℝ) - t| ≤ 1 / 2 := by
  have h1 : (⌊t⌋ : ℝ) = t - Int.fract t := by unfold Int.fract; ring
  have h0 := Int.fract_nonneg t
  have h2 := Int.fract_lt_one t
  unfold nearest
  rw [abs_le]
  split_ifs <;> push_cast <;> constructor <;> linarith

theorem two_pos' (k : ℤ) : (0 : ℝ) < 2 ^ k := by positivity

theorem roundPos_nonneg (p : Nat) (emin : ℤ) {x : ℝ} (hx : 0 ≤ x) : 0 ≤ roundPos p emin x := by
  unfold roundPos
  have h0 : (0 : ℝ) ≤ x / 2 ^ lastDigit p emin x := by positivity
  have h1 := nearest_mono h0
  rw [show (0 : ℝ) = ((0 : ℤ) : ℝ) by norm_num, nearest_int] at h1
  have : (0 : ℝ) ≤ (nearest (x / 2 ^ lastDigit p emin x) : ℝ) := by exact_mod_cast h1
  have := two_pos' (lastDigit p emin x)
  positivity

/-- Numbers whose last digit is not too fine are not changed. -/
theorem roundPos_grid (p : Nat) (emin : ℤ) {x : ℝ} (k : ℤ) (q : ℤ) (hx : x = k * 2 ^ q) (hq : lastDigit p emin x ≤ q) :
    roundPos p emin x = x := by
  have h2 := two_pos' (lastDigit p emin x)
  have e : x / 2 ^ lastDigit p emin x = ((k * 2 ^ (q - lastDigit p emin x).toNat : ℤ) : ℝ) := by
    have e1 : (2 : ℝ) ^ q = 2 ^ (q - lastDigit p emin x).toNat * 2 ^ lastDigit p emin x := by
      rw [← zpow_natCast, ← zpow_add₀ (by norm_num)]
      congr 1; omega
    rw [div_eq_iff h2.ne']
    push_cast
    rw [mul_assoc, ← e1]; exact hx
  unfold roundPos
  rw [e, nearest_int, ← e, div_mul_cancel₀ _ h2.ne']

theorem roundPos_zero (p : Nat) (emin : ℤ) : roundPos p emin 0 = 0 := by
  unfold roundPos; rw [zero_div, show (0 : ℝ) = ((0 : ℤ) : ℝ) by norm_num, nearest_int]; norm_num

theorem log_lt {x : ℝ} (hx : 0 ≤ x) (emin : ℤ) : x < 2 ^ (max (Int.log 2 x) emin + 1) := by
  rcases hx.eq_or_lt with rfl | hx
  · exact two_pos' _
  · refine (Int.lt_zpow_succ_log_self (R := ℝ) one_lt_two x).trans_le ?_
    have : Int.log 2 x + 1 ≤ max (Int.log 2 x) emin + 1 := by omega
    exact_mod_cast zpow_le_zpow_right₀ (a := (2 : ℝ)) (by norm_num) this

/-- Rounding does not leave the range with one exponent. -/
theorem roundPos_le_pow (p : Nat) (hp : 1 ≤ p) (emin : ℤ) {x : ℝ} (hx : 0 ≤ x) (e : ℤ) (he : emin ≤ e) (h : x ≤ 2 ^ e) :
    roundPos p emin x ≤ 2 ^ e := by
  rcases hx.eq_or_lt with rfl | hx
  · rw [roundPos_zero]; exact (two_pos' e).le
  have h2 := two_pos' (lastDigit p emin x)
  by_cases hl : lastDigit p emin x ≤ e
  · have e1 : (2 : ℝ) ^ e / 2 ^ lastDigit p emin x = ((2 ^ (e - lastDigit p emin x).toNat : ℤ) : ℝ) := by
      push_cast
      rw [div_eq_iff h2.ne', ← zpow_natCast, ← zpow_add₀ (by norm_num)]
      congr 1; omega
    have h3 : x / 2 ^ lastDigit p emin x ≤ (2 : ℝ) ^ e / 2 ^ lastDigit p emin x := div_le_div_of_nonneg_right h h2.le
    have h4 := nearest_mono h3
    rw [e1, nearest_int] at h4
    unfold roundPos
    rw [← le_div_iff₀ h2, e1]
    exact_mod_cast h4
  · exfalso
    apply hl
    unfold lastDigit
    have h3 : Int.log 2 x ≤ e := by
      by_contra h4
      have h5 := Int.zpow_log_le_self (R := ℝ) one_lt_two hx
      have h6 : (2 : ℝ) ^ (e + 1) ≤ 2 ^ Int.log 2 x := zpow_le_zpow_right₀ (by norm_num) (by omega)
      have h7 : (2 : ℝ) ^ e < 2 ^ (e + 1) := zpow_lt_zpow_right₀ (by norm_num) (by omega)
      push_cast at h5
      linarith
    omega

theorem roundPos_mono (p : Nat) (hp : 1 ≤ p) (emin : ℤ) {x y : ℝ} (hx : 0 ≤ x) (h : x ≤ y) :
    roundPos p emin x ≤ roundPos p emin y := by
  have h2 := two_pos' (lastDigit p emin y)
  by_cases he : max (Int.log 2 x) emin = max (Int.log 2 y) emin
  · have e : lastDigit p emin x = lastDigit p emin y := by unfold lastDigit; rw [he]
    unfold roundPos
    rw [e]
    have := nearest_mono (div_le_div_of_nonneg_right h h2.le)
    exact mul_le_mul_of_nonneg_right (by exact_mod_cast this) h2.le
  · rcases hx.eq_or_lt with rfl | hx0
    · rw [roundPos_zero]
      exact roundPos_nonneg p emin h
    · have hy0 : 0 < y := hx0.trans_le h
      have hlog : Int.log 2 x ≤ Int.log 2 y := Int.log_mono_right hx0 h
      have hlt : max (Int.log 2 x) emin + 1 ≤ Int.log 2 y ∧ emin ≤ Int.log 2 y := by omega
      have h3 := roundPos_le_pow p hp emin hx (Int.log 2 y) hlt.2
        ((log_lt hx emin).le.trans (zpow_le_zpow_right₀ (by norm_num) hlt.1))
      refine h3.trans ?_
      have h4 := Int.zpow_log_le_self (R := ℝ) one_lt_two hy0
      push_cast at h4
      have hq : lastDigit p emin y ≤ Int.log 2 y := by unfold lastDigit; omega
      have e1 : (2 : ℝ) ^ Int.log 2 y / 2 ^ lastDigit p emin y =
          ((2 ^ (Int.log 2 y - lastDigit p emin y).toNat : ℤ) : ℝ) := by
        push_cast
        rw [div_eq_iff h2.ne', ← zpow_natCast, ← zpow_add₀ (by norm_num)]
        congr 1; omega
      have h5 := nearest_mono (div_le_div_of_nonneg_right h4 h2.le)
      rw [e1, nearest_int] at h5
      unfold roundPos
      rw [← div_le_iff₀ h2, e1]
      exact_mod_cast h5

theorem roundPos_fix (p : Nat) (hp : 1 ≤ p) (emin : ℤ) {x : ℝ} (hx : 0 ≤ x) :
    roundPos p emin (roundPos p emin x) = roundPos p emin x := by
  set v := roundPos p emin x with hv
  have hv0 : 0 ≤ v := roundPos_nonneg p emin hx
  rcases hv0.eq_or_lt with h0 | h0
  · rw [← h0, roundPos_zero]
  set e := max (Int.log 2 x) emin with he
  have h1 : v ≤ 2 ^ (e + 1) := roundPos_le_pow p hp emin hx (e + 1) (by omega) (log_lt hx emin).le
  rcases h1.lt_or_eq with hlt | heq
  · refine roundPos_grid p emin (nearest (x / 2 ^ lastDigit p emin x)) (lastDigit p emin x) rfl ?_
    unfold lastDigit
    rw [← he]
    have : Int.log 2 v < e + 1 := by
      rw [← Int.lt_zpow_iff_log_lt one_lt_two h0]; exact_mod_cast hlt
    omega
  · refine roundPos_grid p emin 1 (e + 1) (by rw [heq]; push_cast; ring) ?_
    have : Int.log 2 v = e + 1 := by
      rw [heq]
      have := Int.log_zpow (R := ℝ) one_lt_two (e + 1)
      exact_mod_cast this
    unfold lastDigit
    omega

/-- Small powers of two are numbers of the format. -/
theorem roundPos_pow (p : Nat) (hp : 1 ≤ p) (emin e : ℤ) (he : emin - (p - 1) ≤ e) : roundPos p emin (2 ^ e) = 2 ^ e := by
  refine roundPos_grid p emin 1 e (by push_cast; ring) ?_
  have : Int.log 2 ((2 : ℝ) ^ e) = e := by exact_mod_cast Int.log_zpow (R := ℝ) one_lt_two e
  unfold lastDigit
  omega

/-- All numbers of the format are multiples of the smallest one. -/
theorem roundPos_multiple (p : Nat) (emin : ℤ) (x : ℝ) : ∃ k : ℤ, roundPos p emin x = k * 2 ^ (emin - (p - 1)) := by
  refine ⟨nearest (x / 2 ^ lastDigit p emin x) * 2 ^ (lastDigit p emin x - (emin - (p - 1))).toNat, ?_⟩
  unfold roundPos
  push_cast
  rw [mul_assoc, ← zpow_natCast, ← zpow_add₀ (by norm_num)]
  congr 2
  unfold lastDigit
  omega

/-- How far a number is moved. -/
theorem roundPos_error (p : Nat) (emin : ℤ) {x : ℝ} (hx : 0 ≤ x) :
    |roundPos p emin x - x| ≤ 2 ^ (-(p : ℤ)) * x + 2 ^ (emin - p) := by
  rcases hx.eq_or_lt with rfl | hx
  · rw [roundPos_zero, sub_zero, abs_zero, mul_zero, zero_add]; exact (two_pos' _).le
  have h2 := two_pos' (lastDigit p emin x)
  have h1 : |roundPos p emin x - x| ≤ 1 / 2 * 2 ^ lastDigit p emin x := by
    have e : roundPos p emin x - x =
        ((nearest (x / 2 ^ lastDigit p emin x) : ℝ) - x / 2 ^ lastDigit p emin x) * 2 ^ lastDigit p emin x := by
      unfold roundPos; rw [sub_mul, div_mul_cancel₀ _ h2.ne']
    rw [e, abs_mul, abs_of_pos h2]
    exact mul_le_mul_of_nonneg_right (nearest_error _) h2.le
  refine h1.trans ?_
  have e2 : (1 : ℝ) / 2 * 2 ^ lastDigit p emin x = 2 ^ (-(p : ℤ)) * 2 ^ max (Int.log 2 x) emin := by
    rw [show (1 : ℝ) / 2 = 2 ^ (-1 : ℤ) by norm_num, ← zpow_add₀ (by norm_num), ← zpow_add₀ (by norm_num)]
    congr 1; unfold lastDigit; omega
  rw [e2]
  have hp0 := two_pos' (-(p : ℤ))
  have e3 : (2 : ℝ) ^ (emin - p) = 2 ^ (-(p : ℤ)) * 2 ^ emin := by rw [← zpow_add₀ (by norm_num)]; congr 1; omega
  rw [e3, ← mul_add]
  refine mul_le_mul_of_nonneg_left ?_ hp0.le
  have he0 := two_pos' emin
  have h4 := Int.zpow_log_le_self (R := ℝ) one_lt_two hx
  push_cast at h4
  rcases max_choice (Int.log 2 x) emin with h | h <;> rw [h] <;> linarith

theorem roundTo_mono (p : Nat) (hp : 1 ≤ p) (emin emax : ℤ) {a b : ℝ} (h : a ≤ b) :
    roundTo p emin emax a ≤ roundTo p emin emax b := by
  have ha := roundPos_nonneg p emin (abs_nonneg a)
  have hb := roundPos_nonneg p emin (abs_nonneg b)
  unfold roundTo
  by_cases ha0 : a < 0 <;> by_cases hb0 : b < 0
  · have h1 : roundPos p emin |b| ≤ roundPos p emin |a| :=
      roundPos_mono p hp emin (abs_nonneg b) (by rw [abs_of_neg ha0, abs_of_neg hb0]; linarith)
    simp only [if_pos ha0, if_pos hb0]
    split_ifs with h2 h3 h3
    · rw [XR.le_fin]; linarith
    · exact absurd (h1.trans_lt h2) h3
    · exact XR.ninf_le_fin _
    · exact XR.ninf_le_ninf
  · simp only [if_pos ha0, if_neg hb0]
    split_ifs with h2 h3 h3
    · rw [XR.le_fin]; linarith
    · exact XR.fin_le_pinf _
    · exact XR.ninf_le_fin _
    · exact trivial
  · exact absurd (h.trans_lt hb0) ha0
  · have h1 : roundPos p emin |a| ≤ roundPos p emin |b| :=
      roundPos_mono p hp emin (abs_nonneg a) (by rw [abs_of_nonneg (not_lt.1 ha0), abs_of_nonneg (not_lt.1 hb0)]; exact h)
    simp only [if_neg ha0, if_neg hb0]
    split_ifs with h2 h3 h3
    · rw [XR.le_fin]; exact h1
    · exact XR.fin_le_pinf _
    · exact absurd (h1.trans_lt h3) h2
    · exact XR.pinf_le_pinf

theorem roundTo_fin (p : Nat) (emin emax : ℤ) {a r : ℝ} (h : roundTo p emin emax a = .fin r) :
    roundPos p emin |a| < 2 ^ (emax + 1) ∧ r = if a < 0 then -roundPos p emin |a| else roundPos p emin |a| := by
  unfold roundTo at h
  split_ifs at h with h1 h2 h2
  · cases h; exact ⟨h1, (if_pos h2).symm⟩
  · cases h; exact ⟨h1, (if_neg h2).symm⟩

theorem roundTo_of (p : Nat) (emin emax : ℤ) {r : ℝ} (h : roundPos p emin |r| = |r|) (hr : |r| < 2 ^ (emax + 1)) :
    roundTo p emin emax r = .fin r := by
  unfold roundTo
  rw [h, if_pos hr]
  congr 1
  split_ifs with h0
  · rw [abs_of_neg h0, neg_neg]
  · exact abs_of_nonneg (not_lt.1 h0)

theorem roundTo_rep (p : Nat) (emin emax : ℤ) {r : ℝ} (h : roundTo p emin emax r = .fin r) :
    roundPos p emin |r| = |r| ∧ |r| < 2 ^ (emax + 1) := by
  obtain ⟨h1, h2⟩ := roundTo_fin p emin emax h
  have e : roundPos p emin |r| = |r| := by
    have h0 := roundPos_nonneg p emin (abs_nonneg r)
    conv_rhs => rw [h2]
    split_ifs with h3
    · rw [abs_neg, abs_of_nonneg h0]
    · rw [abs_of_nonneg h0]
  exact ⟨e, e ▸ h1⟩

theorem roundTo_fix (p : Nat) (hp : 1 ≤ p) (emin emax : ℤ) {a r : ℝ} (h : roundTo p emin emax a = .fin r) :
    roundTo p emin emax r = .fin r := by
  obtain ⟨h1, h2⟩ := roundTo_fin p emin emax h
  have h0 := roundPos_nonneg p emin (abs_nonneg a)
  have e : |r| = roundPos p emin |a| := by
    rw [h2]; split_ifs
    · rw [abs_neg, abs_of_nonneg h0]
    · rw [abs_of_nonneg h0]
  refine roundTo_of p emin emax ?_ (e ▸ h1)
  rw [e]; exact roundPos_fix p hp emin (abs_nonneg a)

theorem roundTo_pow (p : Nat) (hp : 1 ≤ p) (emin emax e : ℤ) (he : emin - (p - 1) ≤ e) (he' : e ≤ emax) :
    roundTo p emin emax (2 ^ e) = .fin (2 ^ e) := by
  have h0 := two_pos' e
  refine roundTo_of p emin emax ?_ ?_
  · rw [abs_of_pos h0]; exact roundPos_pow p hp emin e he
  · rw [abs_of_pos h0]; exact zpow_lt_zpow_right₀ (by norm_num) (by omega)

end Binary

/-- The binary format with `p` digits and exponents from `emin` to `emax`, rounding to nearest with ties to even, gradual
underflow, and overflow to infinity. -/
noncomputable def Format.binary (p : Nat) (emin emax : ℤ) (hp : 1 ≤ p) (hmin : emin ≤ 0) (hmax : 1 ≤ emax) : Format where
  round := Binary.roundTo p emin emax
  mono := Binary.roundTo_mono p hp emin emax
  fix := Binary.roundTo_fix p hp emin emax
  neg h := by
    obtain ⟨h1, h2⟩ := Binary.roundTo_rep p emin emax h
    exact Binary.roundTo_of p emin emax (by rw [abs_neg]; exact h1) (by rw [abs_neg]; exact h2)
  zero := Binary.roundTo_of p emin emax (by rw [abs_zero, Binary.roundPos_zero]) (by rw [abs_zero]; positivity)
  one := by simpa using Binary.roundTo_pow p hp emin emax 0 (by omega) (by omega)
  two := by simpa using Binary.roundTo_pow p hp emin emax 1 (by omega) (by omega)

/-- `jnp.float32`. -/
noncomputable def Format.float32 : Format := .binary 24 (-126) 127 (by norm_num) (by norm_num) (by norm_num)

/-- `jnp.float64`. -/
noncomputable def Format.float64 : Format := .binary 53 (-1022) 1023 (by norm_num) (by norm_num) (by norm_num)

end Verif
