import Verif.Model.Float
import Verif.Spec.Finite

/-!
What may be asked of a floating-point format and of norms computed in it.  The formats of IEEE 754 have all of these properties
(`Lemmas/Float.lean`, `Lemmas/FloatArith.lean`).
-/

namespace Verif

/-- Results are within the relative error `u`, and the absolute error `η` that underflow may add. -/
structure Format.Accurate (F : Format) (u η : ℝ) : Prop where
  u_nonneg : 0 ≤ u
  η_nonneg : 0 ≤ η
  error : ∀ {x r : ℝ}, F.round x = .fin r → |r - x| ≤ u * |x| + η

/-- Gradual underflow: the difference of two different numbers is not rounded to zero. -/
def Format.Gradual (F : Format) : Prop := ∀ {a b : ℝ}, F.Rep a → F.Rep b → F.round (a - b) = .fin 0 → a = b

/-- Half of an interval, as computed, is not longer than the interval. -/
def Format.Halves (F : Format) : Prop :=
  ∀ {a b d h : ℝ}, F.Rep a → F.Rep b → a ≤ b → F.round (b - a) = .fin d → F.round (1 / 2 * d) = .fin h → a + h ≤ b

/-- If the norm is below one, then so is every entry. -/
def Dominates {F : Format} {ι : Type} (norm : (ι → Fl F) → Fl F) : Prop :=
  ∀ x, norm x < 1 → ∀ i, HasAbs.abs (x i) < 1

/-- A norm of `_misc.py:39-44` of floating-point numbers: NaN and infinities as in `liftNorm`, otherwise the norm of the
numbers, rounded.  (For `max_norm` there is nothing to round.) -/
noncomputable def flNorm {F : Format} {ι : Type} (norm : (ι → ℝ) → ℝ) (x : ι → Fl F) : Fl F :=
  .of F (liftNorm norm fun i => (x i).val)

/-- The tolerance `atol + rtol * |y|`, with an allowance for computing it with relative error `u` and underflow `η` in each of
the two operations. -/
def allowed (u η rtol atol y : ℝ) : ℝ := (1 + u) * (atol + ((1 + u) * (rtol * |y|) + η)) + η

/-- Nothing up to this size overflows. -/
def NoOverflow (F : Format) (w : ℝ) : Prop := ∃ B, F.Rep B ∧ w ≤ B

/-- Two numbers of the format with none between them. -/
def Neighbours (F : Format) (a b : ℝ) : Prop := F.Rep a ∧ F.Rep b ∧ a < b ∧ ∀ r, F.Rep r → a ≤ r → r ≤ b → r = a ∨ r = b

/-- The computed function tells the sign of `g` on `[lo, hi]`, up to values below `ε`. -/
def TellsSign {F : Format} {A : Type} (fn : Fl F → Fl F × A) (g : ℝ → ℝ) (ε lo hi : ℝ) : Prop :=
  ∀ x : Fl F, x.isFinite = true → lo ≤ x.real → x.real ≤ hi →
    ((fn x).1 ≤ 0 → g x.real ≤ ε) ∧ (0 ≤ (fn x).1 → -ε ≤ g x.real)

/-- `a` is not larger than `b`, up to `t`. -/
def AtMost {F : Format} (t : ℝ) (a b : Fl F) : Prop :=
  a ≤ b ∨ (a.isFinite = true ∧ b.isFinite = true ∧ a.real ≤ b.real + t)

/-- Finite numbers, each within `d` of the one in `p`. -/
def Near {F : Format} {ι : Type} (y : ι → Fl F) (p : ι → ℝ) (d : ℝ) : Prop :=
  ∀ i, (y i).isFinite = true ∧ |(y i).real - p i| ≤ d

/-- Up to the distance `ρ` from `p`, the function `g` brings points closer to `p` by the factor `q`. -/
def PullsTowards {ι : Type} (g : (ι → ℝ) → ι → ℝ) (p : ι → ℝ) (q ρ : ℝ) : Prop :=
  ∀ (x : ι → ℝ) (d : ℝ), d ≤ ρ → (∀ i, |x i - p i| ≤ d) → ∀ i, |g x i - p i| ≤ q * d

/-- Up to the distance `ρ` from `p`, the computed function is within `ε` of `g`. -/
def Computes {F : Format} {ι A : Type} (fn : (ι → Fl F) → (ι → Fl F) × A) (g : (ι → ℝ) → ι → ℝ) (p : ι → ℝ) (ρ ε : ℝ) : Prop :=
  ∀ x : ι → Fl F, Near x p ρ → Near (fn x).1 (g fun i => (x i).real) ε

/-- The error that computing `(1 - damp) * f + damp * y` adds, for numbers up to the size `M`; nothing is added without damping. -/
noncomputable def dampingError {F : Format} (μ η M : ℝ) (damp : Fl F) : ℝ :=
  open Classical in if damp = 0 then 0 else 5 * μ * M + η * M + 3 * η

/-- The value of an objective that can be improved: a number or `-inf`, not NaN or `+inf`. -/
def Defined {F : Format} (v : Fl F) : Prop := v.val ≠ .nan ∧ v.val ≠ .pinf

end Verif
