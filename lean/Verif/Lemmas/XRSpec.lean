import Verif.Model.XR
import Mathlib.Data.EReal.Inv
import Mathlib.Data.EReal.Operations

/-!
Validation of `XR` (the numbers with NaN and infinities used by the model) against Mathlib's extended reals: away from the
operations that IEEE 754 declares invalid the results are those of `EReal`; the invalid operations, and only these, give NaN.
Division by zero, where `EReal` says `0`, is spelled out separately.
-/

namespace Verif.XR

/-- The extended real that is meant; NaN has none. -/
noncomputable def toEReal? : XR → Option EReal
  | fin r => some (r : EReal)
  | pinf => some ⊤
  | ninf => some ⊥
  | nan => none

theorem toEReal?_injective : Function.Injective toEReal? := by
  intro a b h
  cases a <;> cases b <;> simp_all [toEReal?]

theorem toEReal?_fin (r : ℝ) : toEReal? (fin r) = some (r : EReal) := rfl

/-- Comparisons. -/
theorem lt_spec (a b : XR) : a < b ↔ ∃ x y, toEReal? a = some x ∧ toEReal? b = some y ∧ x < y := by
  cases a <;> cases b <;> simp [toEReal?, EReal.coe_lt_top, EReal.bot_lt_coe] <;> first | trivial | exact id

theorem le_spec (a b : XR) : a ≤ b ↔ ∃ x y, toEReal? a = some x ∧ toEReal? b = some y ∧ x ≤ y := by
  cases a <;> cases b <;> simp [toEReal?] <;> first | trivial | exact id

theorem neg_spec (a : XR) : toEReal? (-a) = (toEReal? a).map fun x => -x := by
  cases a <;> simp [toEReal?]

theorem isNan_spec (a : XR) : a.isNan = true ↔ toEReal? a = none := by
  cases a <;> simp [toEReal?, isNan]

theorem isFinite_spec (a : XR) : a.isFinite = true ↔ ∃ r : ℝ, toEReal? a = some (r : EReal) := by
  cases a <;> simp [toEReal?, isFinite]

/-- Addition: invalid for infinities of opposite signs. -/
theorem add_spec (a b : XR) :
    toEReal? (a + b) = match toEReal? a, toEReal? b with
      | some x, some y => if (x = ⊤ ∧ y = ⊥) ∨ (x = ⊥ ∧ y = ⊤) then none else some (x + y)
      | _, _ => none := by
  cases a <;> cases b <;> simp [toEReal?] <;> rfl

theorem infTimes_pos {r : ℝ} (h : 0 < r) : infTimes r = pinf := if_pos h

theorem infTimes_neg {r : ℝ} (h : r < 0) : infTimes r = ninf := by
  unfold infTimes; rw [if_neg (not_lt.2 h.le), if_pos h]

theorem infTimes_zero : infTimes 0 = nan := by unfold infTimes; simp

/-- Multiplication: invalid for zero times an infinity. -/
theorem mul_spec (a b : XR) :
    toEReal? (a * b) = match toEReal? a, toEReal? b with
      | some x, some y => if (x = 0 ∧ (y = ⊤ ∨ y = ⊥)) ∨ ((x = ⊤ ∨ x = ⊥) ∧ y = 0) then none else some (x * y)
      | _, _ => none := by
  cases a with
  | nan => simp [toEReal?]
  | fin a =>
    cases b with
    | nan => simp [toEReal?]
    | fin b => simp [toEReal?]
    | pinf =>
      show toEReal? (infTimes a) = _
      rcases lt_trichotomy a 0 with h | h | h
      · rw [infTimes_neg h]; simp [toEReal?, h.ne, EReal.coe_mul_top_of_neg h]
      · subst h; rw [infTimes_zero]; simp [toEReal?]
      · rw [infTimes_pos h]; simp [toEReal?, h.ne', EReal.coe_mul_top_of_pos h]
    | ninf =>
      show toEReal? (infTimes (-a)) = _
      rcases lt_trichotomy a 0 with h | h | h
      · rw [infTimes_pos (by linarith)]; simp [toEReal?, h.ne, EReal.coe_mul_bot_of_neg h]
      · subst h; rw [neg_zero, infTimes_zero]; simp [toEReal?]
      · rw [infTimes_neg (by linarith)]; simp [toEReal?, h.ne', EReal.coe_mul_bot_of_pos h]
  | pinf =>
    cases b with
    | nan => simp [toEReal?]
    | fin b =>
      show toEReal? (infTimes b) = _
      rcases lt_trichotomy b 0 with h | h | h
      · rw [infTimes_neg h]; simp [toEReal?, h.ne, EReal.top_mul_coe_of_neg h]
      · subst h; rw [infTimes_zero]; simp [toEReal?]
      · rw [infTimes_pos h]; simp [toEReal?, h.ne', EReal.top_mul_coe_of_pos h]
    | pinf => show toEReal? pinf = _; simp [toEReal?]
    | ninf => show toEReal? ninf = _; simp [toEReal?]
  | ninf =>
    cases b with
    | nan => simp [toEReal?]
    | fin b =>
      show toEReal? (infTimes (-b)) = _
      rcases lt_trichotomy b 0 with h | h | h
      · rw [infTimes_pos (by linarith)]; simp [toEReal?, h.ne, EReal.bot_mul_coe_of_neg h]
      · subst h; rw [neg_zero, infTimes_zero]; simp [toEReal?]
      · rw [infTimes_neg (by linarith)]; simp [toEReal?, h.ne', EReal.bot_mul_coe_of_pos h]
    | pinf => show toEReal? ninf = _; simp [toEReal?]
    | ninf => show toEReal? pinf = _; simp [toEReal?]

/-- Division by something other than zero: invalid for two infinities. -/
theorem div_spec (a b : XR) (hb : b ≠ 0) :
    toEReal? (a / b) = match toEReal? a, toEReal? b with
      | some x, some y => if (x = ⊤ ∨ x = ⊥) ∧ (y = ⊤ ∨ y = ⊥) then none else some (x / y)
      | _, _ => none := by
  cases b with
  | nan => simp [toEReal?]
  | fin b =>
    have hb : b ≠ 0 := fun h => hb (by rw [h]; rfl)
    cases a with
    | nan => simp [toEReal?]
    | fin a => rw [div_fin _ _ hb]; simp [toEReal?, EReal.coe_div]
    | pinf =>
      show toEReal? (if b < 0 then ninf else pinf) = _
      rcases lt_or_gt_of_ne hb with h | h
      · rw [if_pos h]; simp [toEReal?, EReal.top_div_of_neg_ne_bot (EReal.coe_neg'.2 h) (EReal.coe_ne_bot b)]
      · rw [if_neg h.le.not_gt]; simp [toEReal?, EReal.top_div_of_pos_ne_top (EReal.coe_pos.2 h) (EReal.coe_ne_top b)]
    | ninf =>
      show toEReal? (if b < 0 then pinf else ninf) = _
      rcases lt_or_gt_of_ne hb with h | h
      · rw [if_pos h]; simp [toEReal?, EReal.bot_div_of_neg_ne_bot (EReal.coe_neg'.2 h) (EReal.coe_ne_bot b)]
      · rw [if_neg h.le.not_gt]; simp [toEReal?, EReal.bot_div_of_pos_ne_top (EReal.coe_pos.2 h) (EReal.coe_ne_top b)]
  | pinf =>
    cases a with
    | nan => simp [toEReal?]
    | fin a => show toEReal? (fin 0) = _; simp [toEReal?]
    | pinf => show toEReal? nan = _; simp [toEReal?]
    | ninf => show toEReal? nan = _; simp [toEReal?]
  | ninf =>
    cases a with
    | nan => simp [toEReal?]
    | fin a => show toEReal? (fin 0) = _; simp [toEReal?]
    | pinf => show toEReal? nan = _; simp [toEReal?]
    | ninf => show toEReal? nan = _; simp [toEReal?]

/-- Division by (positive) zero: invalid for zero, else the infinity with the sign of the numerator. -/
theorem div_zero_spec (a : XR) :
    a / 0 = match toEReal? a with
      | some x => if x = 0 then nan else if 0 < x then pinf else ninf
      | none => nan := by
  cases a with
  | nan => simp [toEReal?]
  | fin a =>
    show (if (0 : ℝ) = 0 then infTimes a else _) = _
    rw [if_pos rfl]
    rcases lt_trichotomy a 0 with h | h | h
    · rw [infTimes_neg h]; simp [toEReal?, h.ne, h.le.not_gt]
    · subst h; rw [infTimes_zero]; simp [toEReal?]
    · rw [infTimes_pos h]; simp [toEReal?, h.ne', h]
  | pinf => rw [zero_def, pinf_div_fin 0 le_rfl]; simp [toEReal?]
  | ninf =>
    show (if (0 : ℝ) < 0 then pinf else ninf) = _
    simp [toEReal?]

/-- Absolute value. -/
theorem abs_spec (a : XR) :
    toEReal? (HasAbs.abs a) = (toEReal? a).map fun x => max x (-x) := by
  cases a with
  | nan => rfl
  | fin a =>
    show some ((|a| : ℝ) : EReal) = some (max (a : EReal) (-(a : EReal)))
    rw [abs_eq_max_neg, ← EReal.coe_neg]; rfl
  | pinf => show some (⊤ : EReal) = some (max ⊤ (-⊤)); simp
  | ninf => show some (⊤ : EReal) = some (max ⊥ (-⊥)); simp

/-- Subtraction is adding the opposite. -/
theorem sub_spec (a b : XR) : a - b = a + -b := rfl

end Verif.XR
