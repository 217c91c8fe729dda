import Verif.Model.Complex
import Verif.Spec.Rigid
import Mathlib.Data.Matrix.Block
import Mathlib.Analysis.Calculus.Deriv.Basic

/-!
Specification for C92 and C93: the same problem with real unknowns, the real and imaginary parts of the complex ones.
-/

namespace Verif.Cx

variable {ι κ A : Type}

/-- The real and the imaginary parts. -/
def split (z : ι → ℂ) : ι ⊕ ι → ℝ
  | .inl i => (z i).re
  | .inr i => (z i).im

/-- The complex numbers with these real and imaginary parts. -/
def join (v : ι ⊕ ι → ℝ) : ι → ℂ := fun i => ⟨v (.inl i), v (.inr i)⟩

/-- The function, on and with real and imaginary parts. -/
def splitFn (fn : (ι → ℂ) → (κ → ℂ) × A) : (ι ⊕ ι → ℝ) → (κ ⊕ κ → ℝ) × A :=
  fun v => (split (fn (join v)).1, (fn (join v)).2)

/-- A complex matrix `P + i Q` acting on real and imaginary parts: `P`, `-Q`; `Q`, `P`. -/
def splitMatrix (M : Matrix κ ι ℂ) : Matrix (κ ⊕ κ) (ι ⊕ ι) ℝ :=
  Matrix.fromBlocks (M.map Complex.re) (-(M.map Complex.im)) (M.map Complex.im) (M.map Complex.re)

/-- The Jacobian of the function on real and imaginary parts (see `C92_split_jacobian`). -/
def splitJac (jac : (ι → ℂ) → Matrix κ ι ℂ) : (ι ⊕ ι → ℝ) → Matrix (κ ⊕ κ) (ι ⊕ ι) ℝ := fun v => splitMatrix (jac (join v))

/-- The outcome of a solve, with the answer in real and imaginary parts. -/
def splitOutcome (o : Option (Except Err ((ι → ℂ) × Result × A × Nat))) : Option (Except Err ((ι ⊕ ι → ℝ) × Result × A × Nat)) :=
  o.map fun r => r.map fun s => (split s.1, s.2)

/-- The norms measure changes alike in both forms: in the form in which the stopping test `cauchy_termination` uses them, and in
the form in which `FixedPointIteration`, `Newton` and `Chord` use them. -/
structure SameTest (rtol atol : ℝ) (n : (ι → ℝ) → ℝ) (n' : (ι ⊕ ι → ℝ) → ℝ) : Prop where
  test : ∀ y d, n' (Verif.scaledDiff rtol atol (split y) (split d)) = n (scaledDiff rtol atol y d)
  size : ∀ y d : ι → ℂ, n' (fun s => split d s / (atol + rtol * |split y s|)) = n fun i => ‖d i / ((atol + rtol * ‖y i‖ : ℝ) : ℂ)‖

/-- The same method on real and imaginary parts, with other norms and another linear solver. -/
def NewtonChord.Cfg.splitCfg (c : NewtonChord.Cfg ι κ) (nY : (ι ⊕ ι → ℝ) → ℝ) (nF : (κ ⊕ κ → ℝ) → ℝ)
    (ls : Matrix (κ ⊕ κ) (ι ⊕ ι) ℝ → (κ ⊕ κ → ℝ) → (ι ⊕ ι → ℝ) × Result) :
    Verif.NewtonChord.Cfg (ι ⊕ ι) (κ ⊕ κ) ℝ (Matrix (κ ⊕ κ) (ι ⊕ ι) ℝ) :=
  { rtol := c.rtol, atol := c.atol, normY := nY, normF := nF, kappa := c.kappa, cauchy := c.cauchy, isNewton := c.isNewton,
    lower := none, upper := none, jac := splitJac c.jac, linearSolve := ls, inf := c.inf, isfinite := c.isfinite,
    resolution := c.resolution }

variable [Fintype ι] [Fintype κ]

/-- A linear solver (over the real or the complex numbers) that solves all systems with an injective operator that have a
solution. -/
def SolvesInjective {K : Type} [NonUnitalNonAssocSemiring K] (ls : Matrix κ ι K → (κ → K) → (ι → K) × Result) : Prop :=
  ∀ M x, (∀ z, M.mulVec z = 0 → z = 0) → ls M (M.mulVec x) = (x, .successful)

/-- A linear solver that always finds the least-squares solution of smallest length. -/
def SolvesMinimal (ls : LinSolve ι κ) : Prop :=
  ∀ M b, M.conjTranspose.mulVec (M.mulVec (ls M b).1) = M.conjTranspose.mulVec b ∧
    (∃ w, (ls M b).1 = M.conjTranspose.mulVec w) ∧ (ls M b).2 = .successful

/-- A linear solver that finds the least-squares solution (by the normal equations) for operators of full column rank. -/
def SolvesFullRank (ls : LinSolve ι κ) : Prop :=
  ∀ M b, (∀ z, M.mulVec z = 0 → z = 0) →
    M.conjTranspose.mulVec (M.mulVec (ls M b).1) = M.conjTranspose.mulVec b ∧ (ls M b).2 = .successful

/-- `g` is the gradient of the real function `F` at `z` in the convention of JAX, `du/dx - i du/dy`: the derivative of `F` along `v`
is the real part of `∑ g v`. -/
def JaxGradient (F : (ι → ℂ) → ℝ) (z g : ι → ℂ) : Prop :=
  ∀ v : ι → ℂ, HasDerivAt (fun t : ℝ => F fun i => z i + t * v i) (∑ i, g i * v i).re 0

/-- The function with residuals `r` has the (complex) Jacobian `J` at `z`. -/
def HasJacobian (r : (ι → ℂ) → κ → ℂ) (z : ι → ℂ) (J : Matrix κ ι ℂ) : Prop :=
  ∀ (v : ι → ℂ) (k : κ), HasDerivAt (fun t : ℝ => r (fun i => z i + t * v i) k) (J.mulVec v k) 0

end Verif.Cx
