import Verif.Lemmas.ComplexSolvers
import Verif.Props.FixedPoint
import Mathlib.Analysis.Calculus.FDeriv.Linear
import Mathlib.Analysis.Calculus.FDeriv.Comp
import Mathlib.Analysis.Calculus.FDeriv.RestrictScalars
import Mathlib.Topology.Algebra.Module.FiniteDimension

/-!
Property C92: root finding, fixed-point and least-squares solves with complex unknowns do what they do on the real and imaginary
parts, which is what the warning of `_iterate.py:333-338` recommends as the alternative.
-/

namespace Verif.Cx

open ComplexConjugate Matrix Driver Spec Relabel

variable {ι κ A : Type} [Fintype ι] [Fintype κ]

/-! ### The real problem -/

/-- Real and imaginary parts, as a linear map. -/
def splitLin : (ι → ℂ) →ₗ[ℝ] (ι ⊕ ι → ℝ) where
  toFun := split
  map_add' a b := split_add a b
  map_smul' c a := by
    have := split_smul c a
    simpa [Pi.smul_def] using this

/-- The complex numbers with given real and imaginary parts, as a linear map. -/
def joinLin : (ι ⊕ ι → ℝ) →ₗ[ℝ] (ι → ℂ) where
  toFun := join
  map_add' a b := by apply split_injective; rw [split_join, show split (join a + join b) = _ from split_add _ _]; simp; rfl
  map_smul' c a := by
    apply split_injective
    rw [split_join, show split ((RingHom.id ℝ) c • join a) = split (fun i => (c : ℂ) * join a i) from rfl, split_smul, split_join]
    rfl

/-- **C92.** The matrix used in the real problem is the Jacobian there: if `J` is the (complex) Jacobian of `f` at `y`, then
`splitMatrix J` is the Jacobian of `f` on real and imaginary parts. -/
theorem C92_split_jacobian (f : (ι → ℂ) → (κ → ℂ) × A) (J : Matrix κ ι ℂ) (y : ι → ℂ)
    (h : HasFDerivAt (fun y => (f y).1) (LinearMap.toContinuousLinearMap J.mulVecLin) y) :
    HasFDerivAt (fun v => (splitFn f v).1) (LinearMap.toContinuousLinearMap (splitMatrix J).mulVecLin) (split y) := by
  have hj := (LinearMap.toContinuousLinearMap (joinLin (ι := ι))).hasFDerivAt (x := split y)
  have hs := (LinearMap.toContinuousLinearMap (splitLin (ι := κ))).hasFDerivAt (x := (f y).1)
  have hm : HasFDerivAt (fun y => (f y).1) ((LinearMap.toContinuousLinearMap J.mulVecLin).restrictScalars ℝ)
      (LinearMap.toContinuousLinearMap (joinLin (ι := ι)) (split y)) := by
    have e : LinearMap.toContinuousLinearMap (joinLin (ι := ι)) (split y) = y := join_split y
    rw [e]
    exact h.restrictScalars ℝ
  have e : (f (LinearMap.toContinuousLinearMap (joinLin (ι := ι)) (split y))).1 = (f y).1 := by
    rw [show LinearMap.toContinuousLinearMap (joinLin (ι := ι)) (split y) = y from join_split y]
  rw [← e] at hs
  have hc := hs.comp (split y) (hm.comp (split y) hj)
  rw [show LinearMap.toContinuousLinearMap (splitMatrix J).mulVecLin = _ from ?_]
  · exact hc
  refine ContinuousLinearMap.ext fun v => ?_
  show (splitMatrix J).mulVec v = split (J.mulVec (join v))
  rw [← split_mulVec, split_join]

omit [Fintype κ] in
/-- **C92.** With `rtol=0` and `two_norm` both forms measure changes alike (for `max_norm` see `C92_max_norm_differs`). -/
theorem C92_same_test (atol : ℝ) : SameTest (ι := ι) 0 atol Verif.twoNorm Verif.twoNorm := by
  have key : ∀ d : ι → ℂ, ∀ a : ℝ, Verif.twoNorm (fun s => split d s / a) = Verif.twoNorm fun i => ‖d i‖ / a := by
    intro d a
    simp only [Verif.twoNorm, Verif.sumSquares, Fintype.sum_sum_type, split, ← Finset.sum_add_distrib]
    congr 1
    refine Finset.sum_congr rfl fun i _ => ?_
    have := Complex.sq_norm (d i)
    rw [Complex.normSq_apply] at this
    simp only [div_mul_div_comm, ← add_div, ← this, sq]
  constructor
  · intro y d
    have h := key d atol
    have e : Verif.twoNorm (Verif.scaledDiff 0 atol (split y) (split d)) = Verif.twoNorm (fun s => split d s / atol) := by
      simp only [Verif.twoNorm, Verif.sumSquares]
      congr 1
      refine Finset.sum_congr rfl fun s _ => ?_
      show |split d s| / (atol + 0 * |split y s|) * (|split d s| / (atol + 0 * |split y s|)) = _
      rw [zero_mul, add_zero, div_mul_div_comm, abs_mul_abs_self, div_mul_div_comm]
    rw [e, h]
    refine congrArg _ (funext fun i => ?_)
    simp only [scaledDiff, zero_mul, add_zero]
  · intro y d
    have e : ∀ (z : ι → ℂ) (s : ι ⊕ ι), atol + 0 * |split z s| = atol := fun z s => by ring
    have e' : ∀ (z : ι → ℂ) (i : ι), atol + 0 * ‖z i‖ = atol := fun z s => by ring
    simp only [e, e']
    rw [key]
    simp only [norm_div, Complex.norm_real, Real.norm_eq_abs, Verif.twoNorm, Verif.sumSquares]
    congr 1
    refine Finset.sum_congr rfl fun i _ => ?_
    rw [div_mul_div_comm, div_mul_div_comm, abs_mul_abs_self]

/-- **C92** (limit): with `max_norm` the stopping tests are not the same: a change of `1 + i` has modulus `√2`, its real and
imaginary parts are at most one. -/
theorem C92_max_norm_differs : ¬SameTest (ι := Unit) 0 1 Verif.maxNorm Verif.maxNorm := by
  intro h
  have h1 := h.test (fun _ => 0) (fun _ => ⟨1, 1⟩)
  have e1 : Verif.maxNorm (Verif.scaledDiff (0 : ℝ) 1 (split (fun _ : Unit => (0 : ℂ))) (split fun _ => ⟨1, 1⟩)) ≤ 1 := by
    rw [maxNorm_le_iff]
    refine ⟨zero_le_one, fun s => ?_⟩
    cases s <;> simp [Verif.scaledDiff, split, HasAbs.abs]
  rw [h1, maxNorm_le_iff] at e1
  have e2 := e1.2 ()
  simp only [scaledDiff, zero_mul, add_zero, div_one, abs_norm] at e2
  have e3 := Complex.sq_norm (⟨1, 1⟩ : ℂ)
  rw [Complex.normSq_apply] at e3
  nlinarith [norm_nonneg (⟨1, 1⟩ : ℂ)]

/-! ### Fixed-point iteration -/

section fp

variable (c : Verif.FixedPointIter.Cfg ι ℝ) (c' : Verif.FixedPointIter.Cfg (ι ⊕ ι) ℝ) (hd : c'.damp = c.damp)
  (fn : (ι → ℂ) → (ι → ℂ) × A) (aux0 : A) (y0 : ι → ℂ)

omit [Fintype ι] [Fintype κ] in
include hd in
/-- **C92** for `FixedPointIteration`: the iterates are those of the problem in real and imaginary parts, whatever the tolerances
and norms. -/
theorem C92_fixed_point_iterates (k : ℕ) :
    iterateAt (Verif.FixedPointIter.solver c') (splitFn fn) aux0 (split y0) none k =
      split (iterateAt (FixedPointIter.solver c) fn aux0 y0 none k) :=
  (trace_rel (S := FixedPointIter.solver c) (fn := fn) (S' := Verif.FixedPointIter.solver c') (fn' := splitFn fn) (m := split)
    (R := fun _ _ => True) aux0 y0 none none k
    (fun j _ st' _ => ⟨(fp_step c c' hd fn _ none st').1, trivial, (fp_step c c' hd fn _ none st').2⟩) trivial k le_rfl).1

omit [Fintype ι] [Fintype κ] in
include hd in
/-- **C92** for `FixedPointIteration`: the outcome is that of the problem in real and imaginary parts, if the stopping tests
agree. -/
theorem C92_fixed_point (hr : c'.rtol = c.rtol) (ha : c'.atol = c.atol) (hn : SameTest c.rtol c.atol c.norm c'.norm)
    {fin : (ι → ℂ) → Bool} {fin' : (ι ⊕ ι → ℝ) → Bool} (hfin : ∀ y, fin' (split y) = fin y) (ms : Option ℕ) (throw : Bool) :
    outcome (iterativeSolve (Verif.FixedPointIter.solver c') fin' (splitFn fn) aux0 (split y0) ms throw) =
      splitOutcome (outcome (iterativeSolve (FixedPointIter.solver c) fin fn aux0 y0 ms throw)) :=
  (fp_follows c c' hd hr ha hn fn).solve hfin aux0 y0 ms throw

end fp

/-! ### Newton and Chord -/

section newton

variable (c : NewtonChord.Cfg ι ι) (nY nF : (ι ⊕ ι → ℝ) → ℝ)
  (ls : Matrix (ι ⊕ ι) (ι ⊕ ι) ℝ → (ι ⊕ ι → ℝ) → (ι ⊕ ι → ℝ) × Result)
  (hls : SolvesInjective c.linearSolve) (hls' : SolvesInjective ls) (fn : (ι → ℂ) → (ι → ℂ) × A) (aux0 : A) (y0 : ι → ℂ)

include hls hls'

omit [Fintype κ] in
theorem newton_trace {T : Prop} (hY : T → SameTest c.rtol c.atol c.normY nY)
    (hc : c.isNewton = false → Function.Bijective (c.jac y0).mulVec) (n : ℕ)
    (hj : ∀ k < n, c.isNewton = true →
      Function.Bijective (c.jac (iterateAt (NewtonChord.solver c) fn aux0 y0 (NewtonChord.init c y0) k)).mulVec) :
    ∀ k ≤ n, iterateAt (Verif.NewtonChord.solver (c.splitCfg nY nF ls)) (splitFn fn) aux0 (split y0)
        (Verif.NewtonChord.init (c.splitCfg nY nF ls) (split y0)) k =
      split (iterateAt (NewtonChord.solver c) fn aux0 y0 (NewtonChord.init c y0) k) ∧
    NewtonRel T c (c.splitCfg nY nF ls) (stateAt (NewtonChord.solver c) fn aux0 y0 (NewtonChord.init c y0) k)
      (stateAt (Verif.NewtonChord.solver (c.splitCfg nY nF ls)) (splitFn fn) aux0 (split y0)
        (Verif.NewtonChord.init (c.splitCfg nY nF ls) (split y0)) k) ∧
    auxAt (Verif.NewtonChord.solver (c.splitCfg nY nF ls)) (splitFn fn) aux0 (split y0)
        (Verif.NewtonChord.init (c.splitCfg nY nF ls) (split y0)) k =
      auxAt (NewtonChord.solver c) fn aux0 y0 (NewtonChord.init c y0) k :=
  trace_rel (S := NewtonChord.solver c) (fn := fn) (S' := Verif.NewtonChord.solver (c.splitCfg nY nF ls)) (fn' := splitFn fn)
    (m := split) aux0 y0 _ _ n (fun k hk st' h => newton_step hls hls' hY fn _ (hj k hk) _ st' h) (newton_init T y0 hc)

omit [Fintype κ] in
/-- **C92** for `Newton`: the iterates are those of the problem in real and imaginary parts, whatever the tolerances and norms, as
long as the Jacobians met are nonsingular. -/
theorem C92_newton_iterates (hN : c.isNewton = true) (n : ℕ)
    (hj : ∀ k < n, Function.Bijective (c.jac (iterateAt (NewtonChord.solver c) fn aux0 y0 (NewtonChord.init c y0) k)).mulVec) :
    iterateAt (Verif.NewtonChord.solver (c.splitCfg nY nF ls)) (splitFn fn) aux0 (split y0)
        (Verif.NewtonChord.init (c.splitCfg nY nF ls) (split y0)) n =
      split (iterateAt (NewtonChord.solver c) fn aux0 y0 (NewtonChord.init c y0) n) :=
  (newton_trace c nY nF ls hls hls' fn aux0 y0 (T := False) (fun h => h.elim) (fun h => by rw [hN] at h; cases h) n
    (fun k hk _ => hj k hk) n le_rfl).1

omit [Fintype κ] in
/-- **C92** for `Chord`: only the Jacobian at `y0` matters. -/
theorem C92_chord_iterates (hN : c.isNewton = false) (hj : Function.Bijective (c.jac y0).mulVec) (n : ℕ) :
    iterateAt (Verif.NewtonChord.solver (c.splitCfg nY nF ls)) (splitFn fn) aux0 (split y0)
        (Verif.NewtonChord.init (c.splitCfg nY nF ls) (split y0)) n =
      split (iterateAt (NewtonChord.solver c) fn aux0 y0 (NewtonChord.init c y0) n) :=
  (newton_trace c nY nF ls hls hls' fn aux0 y0 (T := False) (fun h => h.elim) (fun _ => hj) n
    (fun k hk h => by rw [hN] at h; cases h) n le_rfl).1

omit [Fintype κ] in
/-- **C92** for `Newton` and `Chord`: the outcome is that of the problem in real and imaginary parts, if the stopping tests agree.
(`hi`, `hi'`: neither form stops before the first step; the initial differences are infinite in the code.) -/
theorem C92_newton_chord (hY : SameTest c.rtol c.atol c.normY nY) (hF : SameTest c.rtol c.atol c.normF nF)
    (hi : ∀ y, (NewtonChord.terminate c y (NewtonChord.init c y)).1 = false)
    (hi' : ∀ y, (Verif.NewtonChord.terminate (c.splitCfg nY nF ls) y (Verif.NewtonChord.init (c.splitCfg nY nF ls) y)).1 = false)
    (hc : c.isNewton = false → Function.Bijective (c.jac y0).mulVec)
    (hj : c.isNewton = true →
      ∀ k, Function.Bijective (c.jac (iterateAt (NewtonChord.solver c) fn aux0 y0 (NewtonChord.init c y0) k)).mulVec)
    {fin : (ι → ℂ) → Bool} {fin' : (ι ⊕ ι → ℝ) → Bool} (hfin : ∀ y, fin' (split y) = fin y) (ms : Option ℕ) (throw : Bool) :
    outcome (iterativeSolve (Verif.NewtonChord.solver (c.splitCfg nY nF ls)) fin' (splitFn fn) aux0 (split y0) ms throw) =
      splitOutcome (outcome (iterativeSolve (NewtonChord.solver c) fin fn aux0 y0 ms throw)) := by
  have t := fun n => newton_trace c nY nF ls hls hls' fn aux0 y0 (T := True) (fun _ => hY) hc n (fun k _ h => hj h k)
  refine outcome_of_traces (m := split) hfin rfl rfl (fun k => (t k k le_rfl).1) (fun k => (t k k le_rfl).2.2) (fun k => ?_)
    (fun _ _ _ _ => ⟨rfl, rfl⟩) (fun _ _ _ _ => ⟨rfl, rfl⟩) ms throw
  simp only [verdictAt, testedAt, (t k (k - 1) (Nat.sub_le k 1)).1]
  exact newton_verdict hY hF hi hi' _ _ _ (t k k le_rfl).2.1

end newton

/-! ### Gauss-Newton methods -/

section gn

variable (f : (ι → ℂ) → (κ → ℂ) × A) (jac : (ι → ℂ) → Matrix κ ι ℂ) (rtol atol : ℝ) (nY : (ι → ℝ) → ℝ) (nF : (κ → ℝ) → ℝ)
  (nY' : (ι ⊕ ι → ℝ) → ℝ) (nF' : (κ ⊕ κ → ℝ) → ℝ) (aux0 : A) (y0 : ι → ℂ)

/-- The iterates of two configurations of a Gauss-Newton method, one in real and imaginary parts, correspond. -/
def SameIterates {SS DS DS' : Type} (c : GaussNewton.Cfg ι κ SS DS) (c' : Verif.GaussNewton.Cfg (ι ⊕ ι) (κ ⊕ κ) SS DS')
    (f : (ι → ℂ) → (κ → ℂ) × A) (aux0 : A) (y0 : ι → ℂ) : Prop :=
  ∃ st0', (Verif.GaussNewton.solver c' aux0).init (splitFn f) (split y0) = .ok st0' ∧
    ∀ k, iterateAt (Verif.GaussNewton.solver c' aux0) (splitFn f) aux0 (split y0) st0' k =
      split (iterateAt (GaussNewton.solver c aux0) f aux0 y0 (GaussNewton.init c aux0 y0) k)

theorem gn_iterates {SS DS DS' : Type} {R : DS → DS' → Prop} {c : GaussNewton.Cfg ι κ SS DS}
    {c' : Verif.GaussNewton.Cfg (ι ⊕ ι) (κ ⊕ κ) SS DS'} (hD : DescentSplits c.descent c'.descent R)
    (hS : SearchSplits c.search c'.search) (hj : c'.jac = splitJac c.jac) : SameIterates c c' f aux0 y0 := by
  obtain ⟨st', h1, h2⟩ := gn_init hD hS False aux0 y0
  refine ⟨st', h1, fun k => ?_⟩
  exact (trace_rel (S := GaussNewton.solver c aux0) (fn := f) (S' := Verif.GaussNewton.solver c' aux0) (fn' := splitFn f)
    (m := split) aux0 y0 _ st' k
    (fun j _ st' h => gn_step hD hS hj (fun h => h.elim) f _ _ st' h) h2 k le_rfl).1

/-- **C92** for `GaussNewton`: the iterates are those of the problem in real and imaginary parts, whatever the tolerances and norms
and whatever the rank of the Jacobians. -/
theorem C92_gauss_newton_iterates (rtol' atol' : ℝ) {ls : LinSolve ι κ} {ls' : Verif.LinSolve (ι ⊕ ι) (κ ⊕ κ)}
    (hls : SolvesMinimal ls) (hls' : Rigid.SolvesMinimal ls') :
    SameIterates (GaussNewton.gaussNewton rtol atol nY nF ls jac)
      (Verif.GaussNewton.gaussNewton rtol' atol' nY' nF' ls' (splitJac jac)) f aux0 y0 :=
  gn_iterates f aux0 y0 (newton_splits hls hls') (learningRate_splits 1) rfl

variable {nY nF nY' nF'} in
/-- **C92** for `GaussNewton`: the outcome is that of the problem in real and imaginary parts, if the stopping tests agree. -/
theorem C92_gauss_newton {ls : LinSolve ι κ} {ls' : Verif.LinSolve (ι ⊕ ι) (κ ⊕ κ)}
    (hls : SolvesMinimal ls) (hls' : Rigid.SolvesMinimal ls') (hY : SameTest rtol atol nY nY') (hF : SameTest rtol atol nF nF')
    {fin : (ι → ℂ) → Bool} {fin' : (ι ⊕ ι → ℝ) → Bool} (hfin : ∀ y, fin' (split y) = fin y) (ms : Option ℕ) (throw : Bool) :
    outcome (iterativeSolve (Verif.GaussNewton.solver (Verif.GaussNewton.gaussNewton rtol atol nY' nF' ls' (splitJac jac)) aux0)
        fin' (splitFn f) aux0 (split y0) ms throw) =
      splitOutcome (outcome (iterativeSolve (GaussNewton.solver (GaussNewton.gaussNewton rtol atol nY nF ls jac) aux0)
        fin f aux0 y0 ms throw)) :=
  (gn_follows (c := GaussNewton.gaussNewton rtol atol nY nF ls jac)
    (c' := Verif.GaussNewton.gaussNewton rtol atol nY' nF' ls' (splitJac jac)) (newton_splits hls hls') (learningRate_splits 1) rfl
    ⟨rfl, rfl, hY, hF⟩ f aux0).solve hfin aux0 y0 ms throw

variable [DecidableEq ι] (eps fmax : ℝ) (he : 0 ≤ eps) (hf : 0 < fmax)

include he hf in
/-- **C92** for `LevenbergMarquardt`: the iterates are those of the problem in real and imaginary parts. -/
theorem C92_levenberg_marquardt_iterates (rtol' atol' : ℝ) {ls : LinSolve ι (κ ⊕ ι)}
    {ls' : Verif.LinSolve (ι ⊕ ι) ((κ ⊕ κ) ⊕ (ι ⊕ ι))} (hls : SolvesFullRank ls) (hls' : Props.SolvesFullRank ls') :
    SameIterates (GaussNewton.levenbergMarquardt eps fmax rtol atol nY nF ls jac)
      (Verif.GaussNewton.levenbergMarquardt eps fmax rtol' atol' nY' nF' ls' (splitJac jac)) f aux0 y0 :=
  gn_iterates f aux0 y0 (damped_splits he hf hls hls') (classical_splits TrustRegion.defaults) rfl

variable {nY nF nY' nF'} in
include he hf in
/-- **C92** for `LevenbergMarquardt`: the outcome is that of the problem in real and imaginary parts, if the stopping tests
agree. -/
theorem C92_levenberg_marquardt {ls : LinSolve ι (κ ⊕ ι)}
    {ls' : Verif.LinSolve (ι ⊕ ι) ((κ ⊕ κ) ⊕ (ι ⊕ ι))} (hls : SolvesFullRank ls) (hls' : Props.SolvesFullRank ls')
    (hY : SameTest rtol atol nY nY') (hF : SameTest rtol atol nF nF')
    {fin : (ι → ℂ) → Bool} {fin' : (ι ⊕ ι → ℝ) → Bool} (hfin : ∀ y, fin' (split y) = fin y) (ms : Option ℕ) (throw : Bool) :
    outcome (iterativeSolve (Verif.GaussNewton.solver
        (Verif.GaussNewton.levenbergMarquardt eps fmax rtol atol nY' nF' ls' (splitJac jac)) aux0) fin' (splitFn f) aux0 (split y0)
        ms throw) =
      splitOutcome (outcome (iterativeSolve (GaussNewton.solver
        (GaussNewton.levenbergMarquardt eps fmax rtol atol nY nF ls jac) aux0) fin f aux0 y0 ms throw)) :=
  (gn_follows (c := GaussNewton.levenbergMarquardt eps fmax rtol atol nY nF ls jac)
    (c' := Verif.GaussNewton.levenbergMarquardt eps fmax rtol atol nY' nF' ls' (splitJac jac)) (damped_splits he hf hls hls')
    (classical_splits TrustRegion.defaults) rfl ⟨rfl, rfl, hY, hF⟩ f aux0).solve hfin aux0 y0 ms throw

include he hf in
/-- **C92** for `IndirectLevenbergMarquardt`: the iterates are those of the problem in real and imaginary parts. -/
theorem C92_indirect_levenberg_marquardt_iterates (rtol' atol' : ℝ) {ls : LinSolve ι κ} {lsD : LinSolve ι (κ ⊕ ι)}
    {ls' : Verif.LinSolve (ι ⊕ ι) (κ ⊕ κ)} {lsD' : Verif.LinSolve (ι ⊕ ι) ((κ ⊕ κ) ⊕ (ι ⊕ ι))} (hls : SolvesMinimal ls)
    (hls' : Rigid.SolvesMinimal ls') (hlsD : SolvesFullRank lsD) (hlsD' : Props.SolvesFullRank lsD')
    (findLambda : (ℝ → ℝ) → ℝ × Result) :
    SameIterates (GaussNewton.indirectLevenbergMarquardt eps fmax rtol atol nY nF ls lsD findLambda jac)
      (Verif.GaussNewton.indirectLevenbergMarquardt eps fmax rtol' atol' nY' nF' ls' lsD' findLambda (splitJac jac)) f aux0 y0 :=
  gn_iterates f aux0 y0 (indirect_splits he hf hls hls' hlsD hlsD' findLambda) (classical_splits TrustRegion.defaults) rfl

variable {nY nF nY' nF'} in
include he hf in
/-- **C92** for `IndirectLevenbergMarquardt`: the outcome is that of the problem in real and imaginary parts, if the stopping tests
agree. -/
theorem C92_indirect_levenberg_marquardt {ls : LinSolve ι κ} {lsD : LinSolve ι (κ ⊕ ι)}
    {ls' : Verif.LinSolve (ι ⊕ ι) (κ ⊕ κ)} {lsD' : Verif.LinSolve (ι ⊕ ι) ((κ ⊕ κ) ⊕ (ι ⊕ ι))} (hls : SolvesMinimal ls)
    (hls' : Rigid.SolvesMinimal ls') (hlsD : SolvesFullRank lsD) (hlsD' : Props.SolvesFullRank lsD')
    (findLambda : (ℝ → ℝ) → ℝ × Result) (hY : SameTest rtol atol nY nY') (hF : SameTest rtol atol nF nF')
    {fin : (ι → ℂ) → Bool} {fin' : (ι ⊕ ι → ℝ) → Bool} (hfin : ∀ y, fin' (split y) = fin y) (ms : Option ℕ) (throw : Bool) :
    outcome (iterativeSolve (Verif.GaussNewton.solver (Verif.GaussNewton.indirectLevenbergMarquardt eps fmax rtol atol nY' nF' ls'
        lsD' findLambda (splitJac jac)) aux0) fin' (splitFn f) aux0 (split y0) ms throw) =
      splitOutcome (outcome (iterativeSolve (GaussNewton.solver
        (GaussNewton.indirectLevenbergMarquardt eps fmax rtol atol nY nF ls lsD findLambda jac) aux0) fin f aux0 y0 ms throw)) :=
  (gn_follows (c := GaussNewton.indirectLevenbergMarquardt eps fmax rtol atol nY nF ls lsD findLambda jac)
    (c' := Verif.GaussNewton.indirectLevenbergMarquardt eps fmax rtol atol nY' nF' ls' lsD' findLambda (splitJac jac))
    (indirect_splits he hf hls hls' hlsD hlsD' findLambda) (classical_splits TrustRegion.defaults) rfl ⟨rfl, rfl, hY, hF⟩ f
    aux0).solve hfin aux0 y0 ms throw

end gn

/-! ### What success means -/

omit [Fintype ι] [Fintype κ] in
/-- **C92.** If `FixedPointIteration` succeeds on complex unknowns (in a norm that is at least every entry, such as `max_norm`), the
answer is one damped application of the function to a point which that moves by less than the tolerance, in modulus. -/
theorem C92_fixed_point_certificate (c : Verif.FixedPointIter.Cfg ι ℝ) (ha : 0 < c.atol) (hr : 0 ≤ c.rtol)
    (hn : ∀ v i, |v i| ≤ c.norm v) (fin : (ι → ℂ) → Bool) (fn : (ι → ℂ) → (ι → ℂ) × A) (aux0 : A) (y0 : ι → ℂ) (ms : Option ℕ)
    (throw : Bool) (sol : Solution (ι → ℂ) A (Option ℝ) Unit)
    (h : iterativeSolve (FixedPointIter.solver c) fin fn aux0 y0 ms throw = some (.ok sol)) (hs : sol.result = .successful) :
    ∃ x, (∀ i, sol.value i = (1 - c.damp) * (fn x).1 i + c.damp * x i) ∧
      ∀ i, |1 - c.damp| * ‖x i - (fn x).1 i‖ < c.atol + c.rtol * ‖sol.value i‖ := by
  obtain ⟨st0, h1, h2, -⟩ := Props.C02_success_is_certificate _ _ _ _ _ _ _ _ h hs
  obtain ⟨st0', h1', -, -, h3, -, h4, -⟩ := Props.solve_spec _ _ _ _ _ _ _ _ h
  obtain rfl : st0' = st0 := Except.ok.inj (h1'.symm.trans h1)
  have hv : sol.value = iterateAt (FixedPointIter.solver c) fn aux0 y0 st0' sol.numSteps := congrArg Prod.fst h4
  rw [h3] at h2
  cases hk : sol.numSteps with
  | zero =>
    rw [hk] at h2
    obtain rfl : none = st0' := Except.ok.inj h1
    exact (Bool.false_ne_true (congrArg Prod.fst h2)).elim
  | succ k =>
    rw [hk] at h2 hv
    refine ⟨iterateAt (FixedPointIter.solver c) fn aux0 y0 st0' k, fun i => by rw [hv]; rfl, fun i => ?_⟩
    have h5 : c.norm (fun i => ‖(iterateAt (FixedPointIter.solver c) fn aux0 y0 st0' k i - sol.value i) /
        ((c.atol + c.rtol * ‖sol.value i‖ : ℝ) : ℂ)‖) < 1 := by
      rw [hv]
      have := congrArg Prod.fst h2
      exact of_decide_eq_true this
    have hpos : 0 < c.atol + c.rtol * ‖sol.value i‖ := by positivity
    have h6 := (hn _ i).trans_lt h5
    rw [abs_norm, norm_div, Complex.norm_real, Real.norm_eq_abs, abs_of_pos hpos, div_lt_one hpos] at h6
    refine lt_of_eq_of_lt ?_ h6
    rw [hv, show iterateAt (FixedPointIter.solver c) fn aux0 y0 st0' (k + 1) i =
      (1 - c.damp) * (fn (iterateAt (FixedPointIter.solver c) fn aux0 y0 st0' k)).1 i +
        c.damp * iterateAt (FixedPointIter.solver c) fn aux0 y0 st0' k i from rfl, ← Real.norm_eq_abs, ← Complex.norm_real,
      ← norm_mul]
    congr 1
    push_cast
    ring

omit [Fintype ι] [Fintype κ] in
/-- **C92.** If `Newton` or `Chord` with Cauchy termination succeeds on complex unknowns (in a norm that is at least every entry),
the last point before the answer has residuals smaller than `atol` in modulus, and the answer is close to it. -/
theorem C92_newton_certificate (c : NewtonChord.Cfg ι κ) (hc : c.cauchy = true) (ha : 0 < c.atol) (hr : 0 ≤ c.rtol)
    (hY : ∀ v i, |v i| ≤ c.normY v) (hF : ∀ v i, |v i| ≤ c.normF v)
    (hi : ∀ y, (NewtonChord.terminate c y (NewtonChord.init c y)).1 = false) (fin : (ι → ℂ) → Bool)
    (fn : (ι → ℂ) → (κ → ℂ) × A) (aux0 : A) (y0 : ι → ℂ) (ms : Option ℕ) (throw : Bool)
    (sol : Solution (ι → ℂ) A (NewtonChord.State ι κ) Unit)
    (h : iterativeSolve (NewtonChord.solver c) fin fn aux0 y0 ms throw = some (.ok sol)) (hs : sol.result = .successful) :
    ∃ x, (∀ k, ‖(fn x).1 k‖ < c.atol) ∧ ∀ i, ‖x i - sol.value i‖ < c.atol + c.rtol * ‖x i‖ := by
  obtain ⟨st0, h1, h2, -⟩ := Props.C02_success_is_certificate _ _ _ _ _ _ _ _ h hs
  obtain ⟨st0', h1', -, -, h3, -, h4, -⟩ := Props.solve_spec _ _ _ _ _ _ _ _ h
  obtain rfl : st0' = st0 := Except.ok.inj (h1'.symm.trans h1)
  have hv : sol.value = iterateAt (NewtonChord.solver c) fn aux0 y0 st0' sol.numSteps := congrArg Prod.fst h4
  rw [h3] at h2
  obtain rfl : NewtonChord.init c y0 = st0' := Except.ok.inj h1
  cases hk : sol.numSteps with
  | zero =>
    rw [hk] at h2
    have := congrArg Prod.fst h2
    exact absurd this (by rw [show ((NewtonChord.solver c).terminate fn (iterateAt (NewtonChord.solver c) fn aux0 y0
      (NewtonChord.init c y0) (0 - 1)) (stateAt (NewtonChord.solver c) fn aux0 y0 (NewtonChord.init c y0) 0)).1 = _ from hi y0]; simp)
  | succ k =>
    rw [hk] at h2 hv
    rw [Nat.add_sub_cancel] at h2
    set x := iterateAt (NewtonChord.solver c) fn aux0 y0 (NewtonChord.init c y0) k with hx
    have hst : stateAt (NewtonChord.solver c) fn aux0 y0 (NewtonChord.init c y0) (k + 1) =
      (NewtonChord.step c fn x (stateAt (NewtonChord.solver c) fn aux0 y0 (NewtonChord.init c y0) k)).2.1 := rfl
    have hval : sol.value =
      (NewtonChord.step c fn x (stateAt (NewtonChord.solver c) fn aux0 y0 (NewtonChord.init c y0) k)).1 := hv
    rw [hst] at h2
    generalize stateAt (NewtonChord.solver c) fn aux0 y0 (NewtonChord.init c y0) k = st at h2 hval
    have h6 : NewtonChord.terminate c x (NewtonChord.step c fn x st).2.1 = (true, .successful) := h2
    simp only [NewtonChord.terminate, NewtonChord.step, hc, if_true, Prod.mk.injEq] at h6
    have hres : (NewtonChord.linSol c x (fn x).1 st).2 = .successful := by
      by_contra hne
      have := h6.2
      simp [hne] at this
    have h5 := h6.1
    rw [hres] at h5
    simp only [ne_eq, not_true_eq_false, decide_false, Bool.false_or, cauchyTermination, Bool.and_eq_true, decide_eq_true_eq] at h5
    refine ⟨x, fun j => ?_, fun i => ?_⟩
    · have := (hF _ j).trans_lt h5.2
      simp only [scaledDiff, norm_zero, mul_zero, add_zero, abs_div, abs_norm, abs_of_pos ha] at this
      rwa [div_lt_one ha] at this
    · have := (hY _ i).trans_lt h5.1
      have hpos : 0 < c.atol + c.rtol * ‖x i‖ := by positivity
      simp only [scaledDiff, abs_div, abs_norm, abs_of_pos hpos] at this
      rw [div_lt_one hpos] at this
      refine lt_of_eq_of_lt ?_ this
      rw [hval]
      simp only [NewtonChord.step]
      congr 1
      ring

/-! ### The hypotheses can be met -/

theorem injective_solver_exists {K : Type} [Ring K] :
    ∃ ls : Matrix κ ι K → (κ → K) → (ι → K) × Result, SolvesInjective ls := by
  classical
  refine ⟨fun M b => if h : ∃ x, M.mulVec x = b then (Classical.choose h, .successful) else (0, Result.linear 0), fun M x hM => ?_⟩
  have h : ∃ x', M.mulVec x' = M.mulVec x := ⟨x, rfl⟩
  show (if h : ∃ x', M.mulVec x' = M.mulVec x then (Classical.choose h, Result.successful) else (0, Result.linear 0)) = _
  rw [dif_pos h]
  refine Prod.ext (sub_eq_zero.1 (hM _ ?_)) rfl
  rw [mulVec_sub, Classical.choose_spec h, sub_self]

theorem minimal_solver_exists : ∃ ls : LinSolve ι κ, SolvesMinimal ls := by
  have key : ∀ (M : Matrix κ ι ℂ) (b : κ → ℂ), ∃ x, M.conjTranspose.mulVec (M.mulVec x) = M.conjTranspose.mulVec b ∧
      ∃ w, x = M.conjTranspose.mulVec w := by
    intro M b
    obtain ⟨x, h, w, hw⟩ := Rigid.minimal_exists (splitMatrix M) (split b)
    refine ⟨join x, split_injective ?_, join w, split_injective ?_⟩
    · rw [← split_mulVec, ← split_mulVec, ← split_mulVec, ← split_transpose, split_join, h]
    · rw [← split_mulVec, ← split_transpose, split_join, split_join, hw]
  exact ⟨fun M b => (Classical.choose (key M b), .successful), fun M b => ⟨(Classical.choose_spec (key M b)).1,
    (Classical.choose_spec (key M b)).2, rfl⟩⟩

theorem full_rank_solver_exists : ∃ ls : LinSolve ι κ, SolvesFullRank ls := by
  obtain ⟨ls, h⟩ := minimal_solver_exists (ι := ι) (κ := κ)
  exact ⟨ls, fun M b _ => ⟨(h M b).1, (h M b).2.2⟩⟩

/-- `z ↦ i z / 2 + 1` iterated in complex numbers and in real and imaginary parts. -/
example (ms : Option ℕ) (throw : Bool) :
    outcome (iterativeSolve (Verif.FixedPointIter.solver { rtol := 0, atol := 1e-3, norm := Verif.twoNorm, damp := 0 })
        (fun _ => true) (splitFn fun z : Unit → ℂ => (fun i => Complex.I / 2 * z i + 1, ())) () (split fun _ => 3) ms throw) =
      splitOutcome (outcome (iterativeSolve (FixedPointIter.solver { rtol := 0, atol := 1e-3, norm := Verif.twoNorm, damp := 0 })
        (fun _ => true) (fun z : Unit → ℂ => (fun i => Complex.I / 2 * z i + 1, ())) () (fun _ => 3) ms throw)) :=
  C92_fixed_point _ _ rfl _ _ _ rfl rfl (C92_same_test _) (fun _ => rfl) ms throw

/-- Chord on `z² + 1` from `1 + i` (where the derivative is not zero): no real start would find the roots `±i`. -/
example (ls : Matrix Unit Unit ℂ → (Unit → ℂ) → (Unit → ℂ) × Result) (hls : SolvesInjective ls)
    (ls' : Matrix (Unit ⊕ Unit) (Unit ⊕ Unit) ℝ → (Unit ⊕ Unit → ℝ) → (Unit ⊕ Unit → ℝ) × Result) (hls' : SolvesInjective ls')
    (ms : Option ℕ) :
    let c : NewtonChord.Cfg Unit Unit :=
      { rtol := 0, atol := 1e-3, normY := Verif.twoNorm, normF := Verif.twoNorm, kappa := 1e-2,
        cauchy := false, isNewton := false, jac := (fun z => Matrix.of fun _ _ => 2 * z ()), linearSolve := ls, inf := 10 ^ 300,
        isfinite := (fun _ => true), resolution := 1e-13 }
    outcome (iterativeSolve (Verif.NewtonChord.solver (c.splitCfg Verif.twoNorm Verif.twoNorm ls')) (fun _ => true)
        (splitFn fun z : Unit → ℂ => (fun i => z i ^ 2 + 1, ())) () (split fun _ => 1 + Complex.I) ms true) =
      splitOutcome (outcome (iterativeSolve (NewtonChord.solver c) (fun _ => true)
        (fun z : Unit → ℂ => (fun i => z i ^ 2 + 1, ())) () (fun _ => 1 + Complex.I) ms true)) := by
  intro c
  have hne : (2 * (1 + Complex.I) : ℂ) ≠ 0 := by
    intro h
    have := congrArg Complex.re h
    norm_num at this
  refine C92_newton_chord c _ _ ls' hls hls' _ _ _ (C92_same_test _) (C92_same_test _) (fun y => ?_) (fun y => ?_)
    (fun _ => ⟨fun a b h => ?_, fun b => ⟨fun _ => b () / (2 * (1 + Complex.I)), ?_⟩⟩) (fun h => (nomatch h)) (fun _ => rfl) ms true
  · simp [NewtonChord.terminate, NewtonChord.init, c]
  · simp [Verif.NewtonChord.terminate, Verif.NewtonChord.init, NewtonChord.Cfg.splitCfg, c]
  · have := congrFun h ()
    simp only [c, mulVec, dotProduct, of_apply, Finset.univ_unique, Finset.sum_singleton] at this
    funext u
    exact mul_left_cancel₀ hne this
  · funext u
    simp only [c, mulVec, dotProduct, of_apply, Finset.univ_unique, Finset.sum_singleton]
    exact mul_div_cancel₀ (b ()) hne

/-- Levenberg-Marquardt on `z² + 1` in complex numbers. -/
example : ∃ (ls : LinSolve Unit (Unit ⊕ Unit)) (ls' : Verif.LinSolve (Unit ⊕ Unit) ((Unit ⊕ Unit) ⊕ (Unit ⊕ Unit))),
    SameIterates (GaussNewton.levenbergMarquardt (2⁻¹ ^ 52) (2 ^ 1000) 1e-3 1e-6 Verif.maxNorm Verif.maxNorm ls
        (fun z => Matrix.of fun _ _ => 2 * z ()))
      (Verif.GaussNewton.levenbergMarquardt (2⁻¹ ^ 52) (2 ^ 1000) 1e-3 1e-6 Verif.maxNorm Verif.maxNorm ls'
        (splitJac fun z => Matrix.of fun _ _ => 2 * z ()))
      (fun z : Unit → ℂ => (fun i => z i ^ 2 + 1, ())) () (fun _ => 1 + Complex.I) := by
  obtain ⟨ls, h⟩ := full_rank_solver_exists (ι := Unit) (κ := Unit ⊕ Unit)
  obtain ⟨ls', h'⟩ := Props.full_rank_solver_exists (ι := Unit ⊕ Unit) (κ := (Unit ⊕ Unit) ⊕ (Unit ⊕ Unit))
  exact ⟨ls, ls', C92_levenberg_marquardt_iterates (he := by positivity) (hf := by positivity) (hls := h) (hls' := h') ..⟩

/-- Gauss-Newton on `z² + 1`, with the stopping tests agreeing. -/
example (ms : Option ℕ) : ∃ (ls : LinSolve Unit Unit) (ls' : Verif.LinSolve (Unit ⊕ Unit) (Unit ⊕ Unit)),
    outcome (iterativeSolve (Verif.GaussNewton.solver (Verif.GaussNewton.gaussNewton 0 1e-6 Verif.twoNorm Verif.twoNorm ls'
        (splitJac fun z => Matrix.of fun _ _ => 2 * z ())) ()) (fun _ => true) (splitFn fun z : Unit → ℂ => (fun i => z i ^ 2 + 1, ())) ()
        (split fun _ => 1 + Complex.I) ms true) =
      splitOutcome (outcome (iterativeSolve (GaussNewton.solver (GaussNewton.gaussNewton 0 1e-6 Verif.twoNorm Verif.twoNorm ls
        (fun z => Matrix.of fun _ _ => 2 * z ())) ()) (fun _ => true) (fun z : Unit → ℂ => (fun i => z i ^ 2 + 1, ())) ()
        (fun _ => 1 + Complex.I) ms true)) := by
  obtain ⟨ls, h⟩ := minimal_solver_exists (ι := Unit) (κ := Unit)
  obtain ⟨ls', h'⟩ := Rigid.minimal_solver_exists (ι := Unit ⊕ Unit) (κ := Unit ⊕ Unit)
  exact ⟨ls, ls', C92_gauss_newton _ _ _ _ _ _ h h' (C92_same_test _) (C92_same_test _) (fun _ => rfl) ms true⟩

end Verif.Cx
