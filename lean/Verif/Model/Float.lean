import Verif.Model.Misc
import Mathlib.Data.Int.Log
import Mathlib.Algebra.Order.Round
import Mathlib.Tactic.Linarith
import Mathlib.Tactic.Positivity

/-!
Floating-point numbers: the arithmetic in which `jnp` arrays of a floating dtype are computed.  Nothing in `/repo` defines it;
it is the number system below every file of the package.

A `Format` is a way of rounding real numbers.  `Fl F` are the numbers of the format, with the infinities and NaN of `XR`; each
arithmetic operation is the exact one of `XR`, rounded.  All models that are generic in the scalar type `K` can be run on `Fl F`.

Simplifications: zero has no sign (as in `XR`); every operation is rounded by itself, so that fused multiply-adds and
reassociations by the compiler are not modelled.
-/

namespace Verif

/-- Rounding to a floating-point format.  Values that are too large are rounded to an infinity.
(Below every file, see above; `jnp.finfo` is asked for in e.g. `levenberg_marquardt.py:57`.) -/
structure Format where
  round : ℝ → XR
  mono : ∀ {a b : ℝ}, a ≤ b → round a ≤ round b
  fix : ∀ {a r : ℝ}, round a = .fin r → round r = .fin r
  neg : ∀ {r : ℝ}, round r = .fin r → round (-r) = .fin (-r)
  zero : round 0 = .fin 0
  one : round 1 = .fin 1
  two : round 2 = .fin 2

namespace Format

variable (F : Format)

/-- Is this number one of the format?  (Not in `/repo`: floating-point arithmetic.) -/
def Rep (r : ℝ) : Prop := F.round r = .fin r

/-- Special values are kept.  (Not in `/repo`: floating-point arithmetic.) -/
noncomputable def roundXR : XR → XR
  | .fin r => F.round r
  | x => x

end Format

/-- The numbers of a format, the infinities and NaN.  (The dtype of the arrays, e.g. `_misc.py:281-288`.) -/
structure Fl (F : Format) where
  val : XR
  rep : ∀ r, val = .fin r → F.Rep r

namespace Fl

variable {F : Format}

noncomputable section

open Classical

/-- The rounded value.  (Not in `/repo`: floating-point arithmetic.) -/
def of (F : Format) (x : XR) : Fl F :=
  ⟨F.roundXR x, fun r h => by
    cases x with
    | fin a => exact F.fix h
    | _ => cases h⟩

instance : Zero (Fl F) := ⟨⟨.fin 0, fun r h => by cases h; exact F.zero⟩⟩
instance : One (Fl F) := ⟨⟨.fin 1, fun r h => by cases h; exact F.one⟩⟩
instance : OfNat (Fl F) 2 := ⟨⟨.fin 2, fun r h => by cases h; exact F.two⟩⟩
instance : OfScientific (Fl F) := ⟨fun m s e => of F (.fin (OfScientific.ofScientific m s e))⟩
instance : Neg (Fl F) := ⟨fun a => ⟨-a.val, fun r h => by
  cases hv : a.val with
  | fin b =>
    rw [hv] at h; cases h
    exact F.neg (a.rep b hv)
  | _ => rw [hv] at h; cases h⟩⟩
instance : Add (Fl F) := ⟨fun a b => of F (a.val + b.val)⟩
instance : Sub (Fl F) := ⟨fun a b => of F (a.val - b.val)⟩
instance : Mul (Fl F) := ⟨fun a b => of F (a.val * b.val)⟩
instance : Div (Fl F) := ⟨fun a b => of F (a.val / b.val)⟩
instance : LT (Fl F) := ⟨fun a b => a.val < b.val⟩
instance : LE (Fl F) := ⟨fun a b => a.val ≤ b.val⟩
instance : DecidableLT (Fl F) := fun _ _ => Classical.propDecidable _
instance : DecidableLE (Fl F) := fun _ _ => Classical.propDecidable _
instance : HasAbs (Fl F) := ⟨fun a => ⟨HasAbs.abs a.val, fun r h => by
  cases hv : a.val with
  | fin b =>
    rw [hv] at h; cases h
    rcases abs_choice b with e | e <;> rw [e]
    · exact a.rep b hv
    · exact F.neg (a.rep b hv)
  | _ => rw [hv] at h; cases h⟩⟩

/-- Is the value an ordinary number (`jnp.isfinite`)?  Called in `_misc.py:86`, `newton_chord.py:33`. -/
def isFinite (a : Fl F) : Bool := a.val.isFinite

/-- The number itself, as a real number.  (Not in `/repo`; used to state properties.) -/
def real (a : Fl F) : ℝ := match a.val with
  | .fin r => r
  | _ => 0

/-- `optimistix/_misc.py:85-87`, `tree_allfinite`. -/
def allfinite {ι : Type} (y : ι → Fl F) : Bool := decide (∀ i, (y i).isFinite = true)

end

end Fl

/-! ### IEEE 754 binary formats -/

namespace Binary

noncomputable section

/-- The nearest integer; of two nearest ones the even one.  (Not in `/repo`: IEEE 754.) -/
def nearest (t : ℝ) : ℤ :=
  if Int.fract t < 1 / 2 then ⌊t⌋ else if 1 / 2 < Int.fract t then ⌊t⌋ + 1 else if Even ⌊t⌋ then ⌊t⌋ else ⌊t⌋ + 1

/-- The exponent of the last digit of the numbers around `x ≥ 0`: `p` binary digits, and exponents from `emin` on.
(Not in `/repo`: IEEE 754.) -/
def lastDigit (p : Nat) (emin : ℤ) (x : ℝ) : ℤ := max (Int.log 2 x) emin - (p - 1)

/-- Rounding of `x ≥ 0` to nearest, without a largest number.  (Not in `/repo`: IEEE 754.) -/
def roundPos (p : Nat) (emin : ℤ) (x : ℝ) : ℝ := nearest (x / 2 ^ lastDigit p emin x) * 2 ^ lastDigit p emin x

/-- Rounding to nearest with `p` binary digits and exponents from `emin` to `emax`.  (Not in `/repo`: IEEE 754.) -/
def roundTo (p : Nat) (emin emax : ℤ) (x : ℝ) : XR :=
  if roundPos p emin |x| < 2 ^ (emax + 1) then .fin (if x < 0 then -roundPos p emin |x| else roundPos p emin |x|)
  else if x < 0 then .ninf else .pinf

/-- The same without gradual underflow: results below the smallest normal number become zero (XLA does this on the CPU).
(Not in `/repo`: XLA.) -/
def flushTo (p : Nat) (emin emax : ℤ) (x : ℝ) : XR :=
  match roundTo p emin emax x with
  | .fin r => if |r| < 2 ^ emin then .fin 0 else .fin r
  | z => z

end

end Binary

end Verif
