import Verif.Model.GaussNewton
import Verif.Model.NewtonChord
import Verif.Spec.Relabel
import Mathlib.Data.Matrix.Mul

/-!
Specification for C79: the same problem in other affine coordinates (for example in other units), with its equations combined
in another way.
-/

namespace Verif.Units

variable {ι ι' κ κ' A : Type}

/-- New coordinates: `x = P y + shift`, where `P` is invertible.  (Other units: `P` is diagonal and `shift` is zero, or not, as
for degrees Celsius.) -/
structure Change (ι ι' : Type) [Fintype ι] [Fintype ι'] [DecidableEq ι] [DecidableEq ι'] where
  P : Matrix ι' ι ℝ
  inv : Matrix ι ι' ℝ
  left : inv * P = 1
  right : P * inv = 1
  shift : ι' → ℝ

variable [Fintype ι] [Fintype ι'] [DecidableEq ι] [DecidableEq ι'] [Fintype κ] [Fintype κ'] [DecidableEq κ] [DecidableEq κ']

namespace Change

/-- The new coordinates of the point `y`. -/
def point (m : Change ι ι') (y : ι → ℝ) : ι' → ℝ := fun i => m.P.mulVec y i + m.shift i

/-- The old coordinates of the point `x`. -/
def back (m : Change ι ι') (x : ι' → ℝ) : ι → ℝ := m.inv.mulVec fun i => x i - m.shift i

end Change

/-- The functions `f` in the new coordinates, combined by the matrix `M`. -/
def combined (m : Change ι ι') (M : Matrix κ' κ ℝ) (f : (ι → ℝ) → (κ → ℝ) × A) : (ι' → ℝ) → (κ' → ℝ) × A :=
  fun x => (M.mulVec (f (m.back x)).1, (f (m.back x)).2)

/-- Their Jacobian (see `C79_jacobian`). -/
def jacobian (m : Change ι ι') (M : Matrix κ' κ ℝ) (j : (ι → ℝ) → Matrix κ ι ℝ) : (ι' → ℝ) → Matrix κ' ι' ℝ :=
  fun x => M * j (m.back x) * m.inv

/-- The iteration function of a fixed-point problem in the new coordinates. -/
def iteration (m : Change ι ι') (f : (ι → ℝ) → (ι → ℝ) × A) : (ι' → ℝ) → (ι' → ℝ) × A :=
  fun x => (m.point (f (m.back x)).1, (f (m.back x)).2)

/-- The outcome of a solve, with the answer in the new coordinates. -/
def moved (m : Change ι ι') (o : Option (Except Err ((ι → ℝ) × Result × A × Nat))) :
    Option (Except Err ((ι' → ℝ) × Result × A × Nat)) :=
  o.map fun r => r.map fun s => (m.point s.1, s.2)

/-- The size of an update `d` leading to `y`, relative to the tolerances, is the same in both coordinates. -/
def SameSize (m : Change ι ι') (rtol atol : ℝ) (n : (ι → ℝ) → ℝ) (n' : (ι' → ℝ) → ℝ) : Prop :=
  ∀ y d, n' (fun i => m.P.mulVec d i / (atol + rtol * |m.point y i|)) = n fun i => d i / (atol + rtol * |y i|)

/-- A norm that only depends on the absolute values of the entries, as `max_norm`, `rms_norm` and `two_norm` do. -/
def Absolute (n : (ι → ℝ) → ℝ) : Prop := ∀ v, n (fun i => |v i|) = n v

/-- Other units: the entry `i` is multiplied by `s i`. -/
noncomputable def scaling (s : ι → ℝ) (hs : ∀ i, 0 < s i) : Change ι ι where
  P := Matrix.diagonal s
  inv := Matrix.diagonal fun i => (s i)⁻¹
  left := by rw [Matrix.diagonal_mul_diagonal, ← Matrix.diagonal_one]; congr 1; funext i; exact inv_mul_cancel₀ (hs i).ne'
  right := by rw [Matrix.diagonal_mul_diagonal, ← Matrix.diagonal_one]; congr 1; funext i; exact mul_inv_cancel₀ (hs i).ne'
  shift := 0

/-- The old coordinates, unchanged. -/
def same : Change ι ι where
  P := 1
  inv := 1
  left := by simp
  right := by simp
  shift := 0

/-- The linear solver solves every system that has exactly one solution, and says so. -/
def SolvesUnique (ls : Matrix κ ι ℝ → (κ → ℝ) → (ι → ℝ) × Result) : Prop :=
  ∀ M b, (∃! x, M.mulVec x = b) → M.mulVec (ls M b).1 = b ∧ (ls M b).2 = .successful

/-- A rotation (or reflection) of the residuals and a change of their common unit; there may be further residuals, which
vanish. -/
def Conformal (M : Matrix κ' κ ℝ) : Prop := ∃ a : ℝ, 0 < a ∧ M.transpose * M = a • (1 : Matrix κ κ ℝ)

/-- The size of a change `d` of the residuals leading to `r`, relative to the tolerances, is the same in both problems. -/
def SameResidualSize (M : Matrix κ' κ ℝ) (rtol atol : ℝ) (n : (κ → ℝ) → ℝ) (n' : (κ' → ℝ) → ℝ) : Prop :=
  ∀ r d, n' (scaledDiff rtol atol (M.mulVec r) (M.mulVec d)) = n (scaledDiff rtol atol r d)

open NewtonChord in
/-- `c'` is the `Newton` or `Chord` solver with the settings of `c`, applied to the problem in the new coordinates. -/
structure SameNewton (m : Change ι ι') (M : Matrix κ' κ ℝ) (c : NewtonChord.Cfg ι κ ℝ (Matrix κ ι ℝ))
    (c' : NewtonChord.Cfg ι' κ' ℝ (Matrix κ' ι' ℝ)) : Prop where
  rtol : c'.rtol = c.rtol
  atol : c'.atol = c.atol
  kappa : c'.kappa = c.kappa
  cauchy : c'.cauchy = c.cauchy
  isNewton : c'.isNewton = c.isNewton
  inf : c'.inf = c.inf
  isfinite : c'.isfinite = c.isfinite
  resolution : c'.resolution = c.resolution
  jac : c'.jac = jacobian m M c.jac

end Verif.Units
