import Verif.Model.XR
import Mathlib.Analysis.SpecialFunctions.Pow.NNReal
import Mathlib.Data.Matrix.Mul

/-!
Model of the numerical helpers of `optimistix/_misc.py`.

A PyTree of real arrays is a function `ι → K` from the finite set `ι` of its scalar entries to the scalars `K`
(`ℝ` for exact arithmetic, `XR` where NaN/inf matters).  This forgets the tree structure, which all of these functions
treat leaf by leaf.
-/

namespace Verif

open Classical in
/-- `optimistix/_misc.py:85-87`, `tree_allfinite`. -/
noncomputable def treeAllfinite {ι : Type} (y : ι → XR) : Bool := decide (∀ i, (y i).isFinite = true)

/-- `optimistix/_misc.py:306-309`: `|diff| / (atol + rtol * |x|)`, entry by entry. -/
def scaledDiff {ι K : Type} [Add K] [Mul K] [Div K] [HasAbs K] (rtol atol : K) (x diff : ι → K) : ι → K :=
  fun i => HasAbs.abs (diff i) / (atol + rtol * HasAbs.abs (x i))

/-- `optimistix/_misc.py:291-310`, `cauchy_termination`.  The one polymorphic `norm` of the code appears as two
arguments, one for each tree structure it is used at. -/
noncomputable def cauchyTermination {ι κ K : Type} [Add K] [Mul K] [Div K] [HasAbs K] [LT K] [DecidableLT K] [One K]
    (rtol atol : K) (normY : (ι → K) → K) (normF : (κ → K) → K)
    (y yDiff : ι → K) (f fDiff : κ → K) : Bool :=
  decide (normY (scaledDiff rtol atol y yDiff) < 1) && decide (normF (scaledDiff rtol atol f fDiff) < 1)

/-- `optimistix/_misc.py:189-205`, `max_step` inside `feasible_step_length`, for one entry. -/
noncomputable def maxStep (offset x dx lower upper : XR) : XR :=
  let distanceToLower := (1 - offset) * (x - lower)
  let distanceToUpper := (1 - offset) * (upper - x)
  let maxToLower := if dx < 0 then -distanceToLower / dx else XR.pinf
  let maxToUpper := if 0 < dx then distanceToUpper / dx else XR.pinf
  let maxToLower := XR.clip 0 1 maxToLower
  let maxToUpper := XR.clip 0 1 maxToUpper
  if maxToLower < maxToUpper then maxToLower else maxToUpper

/-- `optimistix/_misc.py:137-208`, `feasible_step_length`; `offset=None` means `0` (186-187). -/
noncomputable def feasibleStepLength {ι : Type} (current step lower upper : ι → XR) (offset : Option XR) :
    ι → XR :=
  fun i => maxStep (offset.getD 0) (current i) (step i) (lower i) (upper i)

/-- `optimistix/_misc.py:116-124`, `tree_clip`, `jnp.clip` entry by entry. -/
noncomputable def treeClip {ι : Type} (tree lower upper : ι → XR) : ι → XR :=
  fun i => XR.clip (lower i) (upper i) (tree i)

/-! Norms (`optimistix/_misc.py:40-45`, imported from `lineax.internal`; their definitions are trusted). -/

/-- `sum_squares`.  (`_misc.py:40-45`.) -/
noncomputable def sumSquares {ι : Type} [Fintype ι] (x : ι → ℝ) : ℝ := ∑ i, x i * x i

/-- `two_norm`.  (`_misc.py:40-45`.) -/
noncomputable def twoNorm {ι : Type} [Fintype ι] (x : ι → ℝ) : ℝ := Real.sqrt (sumSquares x)

/-- `rms_norm`: `two_norm` divided by the square root of the number of entries.  (`_misc.py:40-45`.) -/
noncomputable def rmsNorm {ι : Type} [Fintype ι] (x : ι → ℝ) : ℝ :=
  Real.sqrt (sumSquares x / Fintype.card ι)

/-- `max_norm`: the largest absolute value, `0` for an empty tree.  (`_misc.py:40-45`.) -/
noncomputable def maxNorm {ι : Type} [Fintype ι] (x : ι → ℝ) : ℝ :=
  Finset.univ.sup' (α := ℝ) (Finset.univ_nonempty (α := Option ι)) fun o => o.elim 0 fun i => |x i|

/-- `tree_dot` for real trees.  (`_misc.py:40-45`.) -/
def treeDot {ι : Type} [Fintype ι] (x y : ι → ℝ) : ℝ := ∑ i, x i * y i

/-- `optimistix/_misc.py:127-129`, `tree_min` over a non-empty tree. -/
noncomputable def treeMin {ι : Type} [Fintype ι] [Nonempty ι] (x : ι → ℝ) : ℝ :=
  Finset.univ.inf' Finset.univ_nonempty x

end Verif
