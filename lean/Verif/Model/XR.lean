import Mathlib.Data.Real.Basic
import Mathlib.Algebra.Order.Field.Basic
import Mathlib.Algebra.Field.Defs

/-!
`XR`: real numbers extended by `+inf`, `-inf` and `nan` with the IEEE-754 rules for the special values.
Used wherever the behaviour of the code in the presence of non-finite values matters.
Simplifications: finite arithmetic is exact (no rounding, no overflow of finite values to infinity) and zero has no sign:
a division of a non-zero number by zero gives the infinity with the sign of the numerator (as for `+0.0`).
-/

namespace Verif

/-- Absolute value, for both exact reals and `XR` (models `jnp.abs`).  Called in e.g. `_misc.py:306-309`, `bisection.py:196-198`. -/
class HasAbs (K : Type) where
  abs : K → K

noncomputable instance : HasAbs ℝ := ⟨fun x => |x|⟩

@[simp] theorem HasAbs.abs_real (x : ℝ) : HasAbs.abs x = |x| := rfl

/-- Numbers with the special values (the dtype of the arrays, e.g. `_misc.py:281-288`; see above). -/
inductive XR where
  | fin (r : ℝ)
  | pinf
  | ninf
  | nan

namespace XR

noncomputable section

open Classical

instance : Zero XR := ⟨fin 0⟩
instance : One XR := ⟨fin 1⟩
instance : OfNat XR 2 := ⟨fin 2⟩

/-- Is the value an ordinary number (`jnp.isfinite`)?  Called in `_misc.py:86`, `newton_chord.py:33`, `cauchy_point.py:42`. -/
def isFinite : XR → Bool
  | fin _ => true
  | _ => false

/-- Is the value NaN (`jnp.isnan`)?  (For the rules of `jnp.minimum`, `cauchy_point.py:50`.) -/
def isNan : XR → Bool
  | nan => true
  | _ => false

/-- IEEE negation (e.g. `_misc.py:194`). -/
def neg : XR → XR
  | fin r => fin (-r)
  | pinf => ninf
  | ninf => pinf
  | nan => nan

/-- IEEE addition (e.g. `_misc.py:306`). -/
def add : XR → XR → XR
  | fin a, fin b => fin (a + b)
  | nan, _ => nan
  | _, nan => nan
  | pinf, ninf => nan
  | ninf, pinf => nan
  | pinf, _ => pinf
  | _, pinf => pinf
  | ninf, _ => ninf
  | _, ninf => ninf

/-- infinity times the sign of `r` (`inf * 0 = nan`).  (For `mul` and `div`; e.g. `_misc.py:194-195`.) -/
def infTimes (r : ℝ) : XR := if 0 < r then pinf else if r < 0 then ninf else nan

/-- IEEE multiplication (e.g. `_misc.py:306`). -/
def mul : XR → XR → XR
  | fin a, fin b => fin (a * b)
  | nan, _ => nan
  | _, nan => nan
  | pinf, fin b => infTimes b
  | fin a, pinf => infTimes a
  | ninf, fin b => infTimes (-b)
  | fin a, ninf => infTimes (-a)
  | pinf, pinf => pinf
  | ninf, ninf => pinf
  | pinf, ninf => ninf
  | ninf, pinf => ninf

/-- IEEE division (e.g. `_misc.py:194-195`). -/
def div : XR → XR → XR
  | fin a, fin b => if b = 0 then infTimes a else fin (a / b)
  | nan, _ => nan
  | _, nan => nan
  | fin _, pinf => fin 0
  | fin _, ninf => fin 0
  | pinf, fin b => if b < 0 then ninf else pinf
  | ninf, fin b => if b < 0 then pinf else ninf
  | _, _ => nan

/-- `jnp.abs` (e.g. `_misc.py:306-309`). -/
def abs : XR → XR
  | fin r => fin |r|
  | pinf => pinf
  | ninf => pinf
  | nan => nan

/-- IEEE `<`: false whenever an argument is NaN.  (E.g. `_misc.py:205`.) -/
def lt : XR → XR → Prop
  | fin a, fin b => a < b
  | fin _, pinf => True
  | ninf, fin _ => True
  | ninf, pinf => True
  | _, _ => False

/-- IEEE `<=`: false whenever an argument is NaN.  (E.g. `cauchy_point.py:38`.) -/
def le : XR → XR → Prop
  | fin a, fin b => a ≤ b
  | fin _, pinf => True
  | ninf, fin _ => True
  | ninf, pinf => True
  | pinf, pinf => True
  | ninf, ninf => True
  | _, _ => False

instance : Neg XR := ⟨neg⟩
instance : Add XR := ⟨add⟩
instance : Sub XR := ⟨fun a b => add a (neg b)⟩
instance : Mul XR := ⟨mul⟩
instance : Div XR := ⟨div⟩
instance : LT XR := ⟨lt⟩
instance : LE XR := ⟨le⟩
instance : HasAbs XR := ⟨abs⟩
instance : OfScientific XR := ⟨fun m s e => fin (OfScientific.ofScientific m s e)⟩
instance : DecidableLT XR := fun _ _ => Classical.propDecidable _
instance : DecidableLE XR := fun _ _ => Classical.propDecidable _

@[simp] theorem zero_def : (0 : XR) = fin 0 := rfl
@[simp] theorem one_def : (1 : XR) = fin 1 := rfl
@[simp] theorem two_def : (2 : XR) = fin 2 := rfl
@[simp] theorem neg_fin (a : ℝ) : -(fin a) = fin (-a) := rfl
@[simp] theorem add_fin (a b : ℝ) : fin a + fin b = fin (a + b) := rfl
@[simp] theorem sub_fin (a b : ℝ) : fin a - fin b = fin (a - b) := by
  show fin (a + -b) = _; rw [sub_eq_add_neg]
@[simp] theorem mul_fin (a b : ℝ) : fin a * fin b = fin (a * b) := rfl
theorem div_fin (a b : ℝ) (h : b ≠ 0) : fin a / fin b = fin (a / b) := by
  show (if b = 0 then infTimes a else fin (a / b)) = _; rw [if_neg h]
@[simp] theorem abs_fin (a : ℝ) : HasAbs.abs (fin a) = fin |a| := rfl
@[simp] theorem lt_fin (a b : ℝ) : fin a < fin b ↔ a < b := Iff.rfl
@[simp] theorem le_fin (a b : ℝ) : fin a ≤ fin b ↔ a ≤ b := Iff.rfl
@[simp] theorem not_nan_lt (a : XR) : ¬ nan < a := by
  intro h; cases a <;> exact h
@[simp] theorem not_lt_nan (a : XR) : ¬ a < nan := by
  intro h; cases a <;> exact h
@[simp] theorem not_nan_le (a : XR) : ¬ nan ≤ a := by
  intro h; cases a <;> exact h
@[simp] theorem not_le_nan (a : XR) : ¬ a ≤ nan := by
  intro h; cases a <;> exact h
@[simp] theorem nan_add (a : XR) : nan + a = nan := by cases a <;> rfl
@[simp] theorem add_nan (a : XR) : a + nan = nan := by cases a <;> rfl
@[simp] theorem nan_sub (a : XR) : nan - a = nan := by cases a <;> rfl
@[simp] theorem sub_nan (a : XR) : a - nan = nan := by cases a <;> rfl
@[simp] theorem nan_mul (a : XR) : nan * a = nan := by cases a <;> rfl
@[simp] theorem mul_nan (a : XR) : a * nan = nan := by cases a <;> rfl
@[simp] theorem nan_div (a : XR) : nan / a = nan := by cases a <;> rfl
@[simp] theorem div_nan (a : XR) : a / nan = nan := by cases a <;> rfl
@[simp] theorem abs_nan : HasAbs.abs nan = nan := rfl
@[simp] theorem neg_pinf : -pinf = ninf := rfl
@[simp] theorem neg_ninf : -ninf = pinf := rfl
@[simp] theorem neg_nan : -nan = nan := rfl
@[simp] theorem not_pinf_lt (a : XR) : ¬ pinf < a := by
  intro h; cases a <;> exact h
@[simp] theorem not_lt_ninf (a : XR) : ¬ a < ninf := by
  intro h; cases a <;> exact h
@[simp] theorem fin_lt_pinf (a : ℝ) : fin a < pinf := trivial
@[simp] theorem ninf_lt_fin (a : ℝ) : ninf < fin a := trivial
@[simp] theorem fin_le_pinf (a : ℝ) : fin a ≤ pinf := trivial
@[simp] theorem ninf_le_fin (a : ℝ) : ninf ≤ fin a := trivial
@[simp] theorem not_pinf_le_fin (a : ℝ) : ¬ pinf ≤ fin a := id
@[simp] theorem not_fin_le_ninf (a : ℝ) : ¬ fin a ≤ ninf := id
@[simp] theorem pinf_le_pinf : pinf ≤ pinf := trivial
@[simp] theorem ninf_le_ninf : ninf ≤ ninf := trivial
@[simp] theorem pinf_sub_fin (a : ℝ) : pinf - fin a = pinf := rfl
@[simp] theorem fin_sub_ninf (a : ℝ) : fin a - ninf = pinf := rfl
@[simp] theorem fin_sub_pinf (a : ℝ) : fin a - pinf = ninf := rfl
theorem fin_mul_pinf (a : ℝ) (h : 0 < a) : fin a * pinf = pinf := by
  show infTimes a = _; simp [infTimes, h]
theorem pinf_div_fin (b : ℝ) (h : 0 ≤ b) : pinf / fin b = pinf := by
  show (if b < 0 then ninf else pinf) = _; rw [if_neg (not_lt.2 h)]
theorem ninf_div_fin (b : ℝ) (h : b < 0) : ninf / fin b = pinf := by
  show (if b < 0 then pinf else ninf) = _; rw [if_pos h]
@[simp] theorem isFinite_fin (a : ℝ) : isFinite (fin a) = true := rfl

/-- `jnp.minimum`/`jnp.maximum` style clip of a scalar, `jnp.clip(x, min=lo, max=hi)`: first the maximum with `lo`,
then the minimum with `hi`; NaN is propagated (comparisons with NaN are false, so `x` is kept).  Called in `_misc.py:124, 201-202`. -/
def clip (lo hi x : XR) : XR :=
  let a := if x < lo then lo else x
  if hi < a then hi else a

end

end XR
end Verif
