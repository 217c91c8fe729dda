import Verif.Model.Tags
import Verif.Lemmas.RelabelSolvers
import Verif.Props.Ad
import Verif.Props.Driver
import Verif.Props.LBFGSCompact
import Mathlib.LinearAlgebra.Matrix.NonsingularInverse

/-!
The `tags` argument: a promise about the structure of a matrix, made so that linear solves are cheaper.
-/

namespace Verif.Props

open Spec Driver Verif.Tags QuasiNewton LBFGS

variable {n : ℕ} {A R μ : Type} {κ ο : Type}

/-- All that is assumed of the linear solver: for an invertible operator of which every promise is true it returns the
solution and reports success.  Nothing is assumed when a promise is false. -/
def Trustworthy (solve : TaggedSolve n) : Prop :=
  ∀ tags M, Truthful tags M → IsUnit M.det → ∀ v,
    M.mulVec (solve tags M v).1 = v ∧ (solve tags M v).2 = .successful

theorem truthful_nil (M : Matrix (Fin n) (Fin n) ℝ) : Truthful [] M := fun _ h => by cases h

theorem trustworthy_same {solve : TaggedSolve n} (h : Trustworthy solve) {tags tags' : List Tag}
    {M : Matrix (Fin n) (Fin n) ℝ} (ht : Truthful tags M) (ht' : Truthful tags' M) (hM : IsUnit M.det) (v : Fin n → ℝ) :
    solve tags M v = solve tags' M v := by
  obtain ⟨h1, h2⟩ := h tags M ht hM v
  obtain ⟨h3, h4⟩ := h tags' M ht' hM v
  refine Prod.ext ?_ (h2.trans h4.symm)
  have hinj : Function.Injective M.mulVec := Matrix.mulVec_injective_iff_isUnit.2 ((Matrix.isUnit_iff_isUnit_det M).2 hM)
  exact hinj (h1.trans h3.symm)

/-- A solver that makes use of the promises: told that the operator is diagonal it looks only at the diagonal, and told in
addition that the diagonal is one it does not look at the operator at all. -/
noncomputable def frugal (n : ℕ) : TaggedSolve n := fun tags M v =>
  (if .diagonal ∈ tags then (if .unitDiagonal ∈ tags then v else fun i => v i / M i i) else M⁻¹.mulVec v, .successful)

theorem frugal_trustworthy : Trustworthy (frugal n) := by
  intro tags M ht hM v
  refine ⟨?_, rfl⟩
  simp only [frugal]
  split_ifs with hd hu
  · have h1 := ht _ hd
    have h2 := ht _ hu
    have : M = 1 := by
      ext i j
      by_cases hij : i = j
      · subst hij; rw [Matrix.one_apply_eq]; exact h2 i
      · rw [Matrix.one_apply_ne hij]; exact h1 i j hij
    rw [this, Matrix.one_mulVec]
  · have h1 := ht _ hd
    have hdiag : M = Matrix.diagonal fun i => M i i := by
      ext i j
      by_cases hij : i = j
      · subst hij; rw [Matrix.diagonal_apply_eq]
      · rw [Matrix.diagonal_apply_ne _ hij]; exact h1 i j hij
    have hne : ∀ i, M i i ≠ 0 := by
      rw [hdiag, Matrix.det_diagonal] at hM
      intro i
      exact Finset.prod_ne_zero_iff.1 hM.ne_zero i (Finset.mem_univ i)
    rw [hdiag]
    ext i
    rw [Matrix.mulVec_diagonal, Matrix.diagonal_apply_eq]
    field_simp [hne i]
  · rw [Matrix.mulVec_mulVec, Matrix.mul_nonsing_inv _ hM, Matrix.one_mulVec]

/-! ### Root finding -/

/-- **C117.** `root_find` with `Newton` or `Chord` (any tolerances, norms, stopping rule and bounds): promises that are true
of the Jacobian of the function change nothing.  The outcome (the error, or the value, result code, auxiliary output and
number of steps) is that of the same call without promises. -/
theorem C117_root_find_newton (solve : TaggedSolve n) (hs : Trustworthy solve) (tags : List Tag)
    (cfg : NewtonChord.Cfg (Fin n) (Fin n) ℝ (Matrix (Fin n) (Fin n) ℝ)) (fn : (Fin n → ℝ) → (Fin n → ℝ) × A)
    (hjac : ∀ y, cfg.jac y = jacobianMatrix (fun z => (fn z).1) y)
    (htags : ∀ y, Truthful tags (jacobianMatrix (fun z => (fn z).1) y))
    (hinv : ∀ y, IsUnit (jacobianMatrix (fun z => (fn z).1) y).det)
    (af : (Fin n → ℝ) → Bool) (aux0 : A) (y0 : Fin n → ℝ) (ms : Option ℕ) (throw : Bool) :
    Relabel.outcome (rootFind (NewtonChord.solver (newtonCfg solve (forwarded tags .rootFind .rootFinder) cfg)) af fn aux0
      y0 ms throw) =
    Relabel.outcome (rootFind (NewtonChord.solver (newtonCfg solve [] cfg)) af fn aux0 y0 ms throw) := by
  let J := {M : Matrix (Fin n) (Fin n) ℝ // Truthful tags M ∧ IsUnit M.det}
  let c : NewtonChord.Cfg (Fin n) (Fin n) ℝ J :=
    { rtol := cfg.rtol, atol := cfg.atol, normY := cfg.normY, normF := cfg.normF, kappa := cfg.kappa,
      cauchy := cfg.cauchy, isNewton := cfg.isNewton, lower := cfg.lower, upper := cfg.upper,
      jac := fun y => ⟨jacobianMatrix (fun z => (fn z).1) y, htags y, hinv y⟩,
      linearSolve := fun M v => solve [] M.1 v, inf := cfg.inf, isfinite := cfg.isfinite,
      resolution := cfg.resolution }
  have hvec : ∀ (x : Fin n → ℝ), Relabel.vec (Equiv.refl (Fin n)) x = x := fun x => rfl
  have hmap : ∀ o : Option (Fin n → ℝ), o.map (Relabel.vec (Equiv.refl (Fin n))) = o := by
    intro o; cases o <;> rfl
  have key : ∀ tags', (∀ M : J, ∀ v, solve tags' M.1 v = solve [] M.1 v) →
      Relabel.outcome (iterativeSolve (NewtonChord.solver (newtonCfg solve tags' cfg)) af fn aux0 y0 ms throw) =
      (Relabel.outcome (iterativeSolve (NewtonChord.solver c) af fn aux0 y0 ms throw)).map
        fun r => r.map fun s => (s.1, s.2.1, s.2.2.1, s.2.2.2) := by
    intro tags' h
    have hsim := Relabel.newton_simulates (e := Equiv.refl (Fin n)) (k := Equiv.refl (Fin n)) (mJ := fun M : J => M.1)
      (mA := fun a : A => a) (c := c) (c' := newtonCfg solve tags' cfg) rfl rfl (fun _ => rfl) (fun _ => rfl) rfl rfl rfl
      (hmap _).symm (hmap _).symm (fun y => hjac y) (fun M v => h M v) rfl rfl rfl (f := fn) (f' := fn) (fun _ => rfl)
    exact hsim.solve (allfinite := af) (allfinite' := af) (fun _ => rfl) aux0 y0 ms throw
  show Relabel.outcome (iterativeSolve _ _ _ _ _ _ _) = Relabel.outcome (iterativeSolve _ _ _ _ _ _ _)
  rw [key [] fun _ _ => rfl]
  exact key _ fun M v => trustworthy_same hs M.2.1 (truthful_nil _) M.2.2 v

theorem newtonStep_tags {solve : TaggedSolve n} (hs : Trustworthy solve) {tags : List Tag}
    (sq : Matrix (Fin n) (Fin n) ℝ → (Fin n → ℝ) → (Fin n → ℝ) × Result) {M : Matrix (Fin n) (Fin n) ℝ}
    (ht : Truthful tags M) (hM : IsUnit M.det) (r : Fin n → ℝ) :
    newtonStep (jacobianSolve solve tags sq) (.residualJac r M) = newtonStep (jacobianSolve solve [] sq) (.residualJac r M) :=
  trustworthy_same hs ht (truthful_nil _) hM r

theorem gn_query_only {SS DS : Type} (cfg cfg' : GaussNewton.Cfg (Fin n) (Fin n) SS DS) (h1 : cfg'.rtol = cfg.rtol)
    (h2 : cfg'.atol = cfg.atol) (h3 : cfg'.normY = cfg.normY) (h4 : cfg'.normF = cfg.normF)
    (h5 : cfg'.search = cfg.search) (h6 : cfg'.jac = cfg.jac) (h7 : cfg'.descent.accepts = cfg.descent.accepts)
    (h8 : cfg'.descent.init = cfg.descent.init) (h9 : cfg'.descent.step = cfg.descent.step)
    (h10 : ∀ y z r st, cfg'.descent.query z (.residualJac r (cfg.jac y)) st = cfg.descent.query z (.residualJac r (cfg.jac y)) st)
    (aux0 : A) : GaussNewton.solver cfg' aux0 = GaussNewton.solver cfg aux0 := by
  have hinit : ∀ y : Fin n → ℝ, GaussNewton.init cfg' aux0 y = GaussNewton.init cfg aux0 y := by
    intro y; simp only [GaussNewton.init, h5, h7, h8]
  have hstep : ∀ (fn : (Fin n → ℝ) → (Fin n → ℝ) × A) y st, GaussNewton.step cfg' fn y st = GaussNewton.step cfg fn y st := by
    intro fn y st
    simp only [GaussNewton.step, h1, h2, h3, h4, h5, h6, h9, h10]
  simp only [GaussNewton.solver, hinit]
  congr 1
  funext fn y st
  exact hstep fn y st

theorem gn_tags {solve : TaggedSolve n} (hs : Trustworthy solve) (tags : List Tag)
    (sq : Matrix (Fin n) (Fin n) ℝ → (Fin n → ℝ) → (Fin n → ℝ) × Result) (rtol atol : ℝ) (nY nF : (Fin n → ℝ) → ℝ)
    (jac : (Fin n → ℝ) → Matrix (Fin n) (Fin n) ℝ) (ht : ∀ y, Truthful tags (jac y)) (hM : ∀ y, IsUnit (jac y).det)
    (aux0 : A) :
    GaussNewton.solver (GaussNewton.gaussNewton rtol atol nY nF (jacobianSolve solve tags sq) jac) aux0 =
      GaussNewton.solver (GaussNewton.gaussNewton rtol atol nY nF (jacobianSolve solve [] sq) jac) aux0 :=
  gn_query_only (GaussNewton.gaussNewton rtol atol nY nF (jacobianSolve solve [] sq) jac)
    (GaussNewton.gaussNewton rtol atol nY nF (jacobianSolve solve tags sq) jac) rfl rfl rfl rfl rfl rfl rfl rfl rfl
    (fun y _ r _ => newtonStep_tags hs sq (ht y) (hM y) r) aux0

theorem dogleg_tags {solve : TaggedSolve n} (hs : Trustworthy solve) (tags : List Tag)
    (sq : Matrix (Fin n) (Fin n) ℝ → (Fin n → ℝ) → (Fin n → ℝ) × Result) (eps rtol atol : ℝ) (nY nF : (Fin n → ℝ) → ℝ)
    (jac : (Fin n → ℝ) → Matrix (Fin n) (Fin n) ℝ) (ht : ∀ y, Truthful tags (jac y)) (hM : ∀ y, IsUnit (jac y).det)
    (aux0 : A) :
    GaussNewton.solver (GaussNewton.dogleg eps rtol atol nY nF (jacobianSolve solve tags sq) jac) aux0 =
      GaussNewton.solver (GaussNewton.dogleg eps rtol atol nY nF (jacobianSolve solve [] sq) jac) aux0 := by
  refine gn_query_only (GaussNewton.dogleg eps rtol atol nY nF (jacobianSolve solve [] sq) jac)
    (GaussNewton.dogleg eps rtol atol nY nF (jacobianSolve solve tags sq) jac) rfl rfl rfl rfl rfl rfl rfl rfl rfl
    (fun y _ r _ => ?_) aux0
  show Dogleg.query eps _ _ (.residualJac r (jac y)) = Dogleg.query eps _ _ (.residualJac r (jac y))
  simp only [Dogleg.query, newtonStep_tags hs sq (ht y) (hM y) r]

/-- **C117.** `root_find` with the least-squares solvers `GaussNewton` and `Dogleg`: promises that are true of the Jacobian of
the function change nothing at all, not even the solver's state. -/
theorem C117_root_find_least_squares (solve : TaggedSolve n) (hs : Trustworthy solve) (tags : List Tag)
    (sq : Matrix (Fin n) (Fin n) ℝ → (Fin n → ℝ) → (Fin n → ℝ) × Result) (eps rtol atol : ℝ) (nY nF : (Fin n → ℝ) → ℝ)
    (fn : (Fin n → ℝ) → (Fin n → ℝ) × A) (jac : (Fin n → ℝ) → Matrix (Fin n) (Fin n) ℝ)
    (hjac : ∀ y, jac y = jacobianMatrix (fun z => (fn z).1) y)
    (htags : ∀ y, Truthful tags (jacobianMatrix (fun z => (fn z).1) y))
    (hinv : ∀ y, IsUnit (jacobianMatrix (fun z => (fn z).1) y).det)
    (norm : (Fin n → ℝ) → ℝ) (atol' : ℝ) (fInf : Fin n → ℝ)
    (af : (Fin n → ℝ) → Bool) (aux0 : (Fin n → ℝ) × A) (y0 : Fin n → ℝ) (ms : Option ℕ) (throw : Bool) :
    let ls := fun ts => jacobianSolve solve ts sq
    let given := forwarded tags .rootFind .leastSquaresSolver
    rootFindViaLeastSquares (GaussNewton.solver (GaussNewton.gaussNewton rtol atol nY nF (ls given) jac) aux0) norm atol' fInf
      af fn aux0 y0 ms throw =
    rootFindViaLeastSquares (GaussNewton.solver (GaussNewton.gaussNewton rtol atol nY nF (ls []) jac) aux0) norm atol' fInf
      af fn aux0 y0 ms throw ∧
    rootFindViaLeastSquares (GaussNewton.solver (GaussNewton.dogleg eps rtol atol nY nF (ls given) jac) aux0) norm atol' fInf
      af fn aux0 y0 ms throw =
    rootFindViaLeastSquares (GaussNewton.solver (GaussNewton.dogleg eps rtol atol nY nF (ls []) jac) aux0) norm atol' fInf
      af fn aux0 y0 ms throw := by
  obtain rfl : jac = jacobianMatrix (fun z => (fn z).1) := funext hjac
  intro ls given
  simp only [given, forwarded, ls]
  rw [gn_tags hs tags sq rtol atol nY nF _ htags hinv, dogleg_tags hs tags sq eps rtol atol nY nF _ htags hinv]
  exact ⟨rfl, rfl⟩

/-! ### Least squares -/

/-- **C117 (partial).** `least_squares` with `GaussNewton` and `Dogleg`: promises change nothing provided that they are true
of the *Jacobian of the residuals*.  Missing: the documentation asks for promises about the Hessian of the sum of squares,
and promises true of that matrix can be false of the Jacobian, see `C117_gauss_newton_wrong`. -/
theorem C117_least_squares_partial (solve : TaggedSolve n) (hs : Trustworthy solve) (tags : List Tag)
    (sq : Matrix (Fin n) (Fin n) ℝ → (Fin n → ℝ) → (Fin n → ℝ) × Result) (eps rtol atol : ℝ) (nY nF : (Fin n → ℝ) → ℝ)
    (fn : (Fin n → ℝ) → (Fin n → ℝ) × A) (jac : (Fin n → ℝ) → Matrix (Fin n) (Fin n) ℝ)
    (hjac : ∀ y, jac y = jacobianMatrix (fun z => (fn z).1) y)
    (htags : ∀ y, Truthful tags (jacobianMatrix (fun z => (fn z).1) y))
    (hinv : ∀ y, IsUnit (jacobianMatrix (fun z => (fn z).1) y).det)
    (af : (Fin n → ℝ) → Bool) (aux0 : A) (y0 : Fin n → ℝ) (ms : Option ℕ) (throw : Bool) :
    let ls := fun ts => jacobianSolve solve ts sq
    let given := forwarded tags .leastSquares .leastSquaresSolver
    leastSquares (GaussNewton.solver (GaussNewton.gaussNewton rtol atol nY nF (ls given) jac) aux0) af fn aux0 y0 ms throw =
    leastSquares (GaussNewton.solver (GaussNewton.gaussNewton rtol atol nY nF (ls []) jac) aux0) af fn aux0 y0 ms throw ∧
    leastSquares (GaussNewton.solver (GaussNewton.dogleg eps rtol atol nY nF (ls given) jac) aux0) af fn aux0 y0 ms throw =
    leastSquares (GaussNewton.solver (GaussNewton.dogleg eps rtol atol nY nF (ls []) jac) aux0) af fn aux0 y0 ms throw := by
  obtain rfl : jac = jacobianMatrix (fun z => (fn z).1) := funext hjac
  intro ls given
  simp only [given, forwarded, ls]
  rw [gn_tags hs tags sq rtol atol nY nF _ htags hinv, dogleg_tags hs tags sq eps rtol atol nY nF _ htags hinv]
  exact ⟨rfl, rfl⟩

/-- Residuals whose Jacobian is a quarter turn; they vanish at `(0, 1)` only. -/
def quarterTurn (y : Fin 2 → ℝ) : Fin 2 → ℝ := ![y 1 - 1, -y 0]

theorem quarterTurn_deriv (y : Fin 2 → ℝ) : HasFDerivAt quarterTurn
    (ContinuousLinearMap.pi ![ContinuousLinearMap.proj 1, -ContinuousLinearMap.proj 0] : (Fin 2 → ℝ) →L[ℝ] (Fin 2 → ℝ)) y := by
  rw [hasFDerivAt_pi']
  intro i
  fin_cases i
  · exact (ContinuousLinearMap.proj (R := ℝ) (φ := fun _ : Fin 2 => ℝ) 1).hasFDerivAt.sub_const 1
  · exact (ContinuousLinearMap.proj (R := ℝ) (φ := fun _ : Fin 2 => ℝ) 0).hasFDerivAt.neg

theorem quarterTurn_jacobian (y : Fin 2 → ℝ) : jacobianMatrix quarterTurn y = !![0, 1; -1, 0] := by
  ext i j
  rw [jacobianMatrix, (quarterTurn_deriv y).fderiv]
  fin_cases i <;> fin_cases j <;> simp

theorem quarterTurn_objective (y : Fin 2 → ℝ) : ∑ j, quarterTurn y j ^ 2 = (y 1 - 1) ^ 2 + y 0 ^ 2 := by
  simp [quarterTurn, Fin.sum_univ_two]

theorem quarterTurn_hessian (y : Fin 2 → ℝ) : hessianMatrix (fun z => ∑ j, quarterTurn z j ^ 2) y = (2 : ℝ) • 1 := by
  have hp : ∀ (i : Fin 2) (z : Fin 2 → ℝ), HasFDerivAt (fun w : Fin 2 → ℝ => w i)
      (ContinuousLinearMap.proj (R := ℝ) (φ := fun _ : Fin 2 => ℝ) i) z := fun i z =>
    (ContinuousLinearMap.proj (R := ℝ) (φ := fun _ : Fin 2 => ℝ) i).hasFDerivAt
  have h1 : ∀ z v : Fin 2 → ℝ, fderiv ℝ (fun z => ∑ j, quarterTurn z j ^ 2) z v =
      2 * (z 1 - 1) * v 1 + 2 * z 0 * v 0 := by
    intro z v
    rw [show (fun z => ∑ j, quarterTurn z j ^ 2) = fun z => (z 1 - 1) ^ 2 + z 0 ^ 2 from funext quarterTurn_objective]
    have := (((hp 1 z).sub_const 1).pow 2).add ((hp 0 z).pow 2)
    rw [HasFDerivAt.fderiv (f := fun z : Fin 2 → ℝ => (z 1 - 1) ^ 2 + z 0 ^ 2) this]
    simp
  rw [hessianMatrix]
  have h2 : (fun z (i : Fin 2) => fderiv ℝ (fun z => ∑ j, quarterTurn z j ^ 2) z (Pi.single i 1)) =
      fun z i => (fun z : Fin 2 → ℝ => ![2 * z 0, 2 * (z 1 - 1)]) z i := by
    funext z i
    rw [h1]
    fin_cases i <;> simp
  rw [h2]
  have h3 : HasFDerivAt (fun z : Fin 2 → ℝ => ![2 * z 0, 2 * (z 1 - 1)])
      (ContinuousLinearMap.pi ![(2 : ℝ) • ContinuousLinearMap.proj 0, (2 : ℝ) • ContinuousLinearMap.proj 1] :
        (Fin 2 → ℝ) →L[ℝ] (Fin 2 → ℝ)) y := by
    rw [hasFDerivAt_pi']
    intro i
    fin_cases i
    · exact (hp 0 y).const_mul 2
    · exact ((hp 1 y).sub_const 1).const_mul 2
  ext i j
  rw [jacobianMatrix, h3.fderiv]
  fin_cases i <;> fin_cases j <;> simp

/-- **C117, negated.** `least_squares` with `GaussNewton`, given promises that are true in the documented sense (the Hessian
of the sum of squares is diagonal: it is twice the identity, at every point) and a linear solver that answers correctly
whenever it is told the truth, reports success at the starting point, whatever that is.  The sum of squares has one minimum,
of value zero, elsewhere. -/
theorem C117_gauss_newton_wrong (rtol atol : ℝ) (y0 : Fin 2 → ℝ)
    (sq : Matrix (Fin 2) (Fin 2) ℝ → (Fin 2 → ℝ) → (Fin 2 → ℝ) × Result) (ms : Option ℕ) (hms : ∀ k, ms = some k → 2 ≤ k)
    (throw : Bool) :
    Trustworthy (frugal 2) ∧
    (∀ y, Truthful [.diagonal, .symmetric, .positiveSemidefinite] (hessianMatrix (fun z => ∑ j, quarterTurn z j ^ 2) y)) ∧
    (∀ y, ∑ j, quarterTurn y j ^ 2 = 0 ↔ y = ![0, 1]) ∧
    ∃ sol, leastSquares (GaussNewton.solver (GaussNewton.gaussNewton rtol atol maxNorm maxNorm
        (jacobianSolve (frugal 2) (forwarded [.diagonal, .symmetric, .positiveSemidefinite] .leastSquares .leastSquaresSolver) sq)
        (jacobianMatrix quarterTurn)) ()) (fun _ => true) (fun y => (quarterTurn y, ())) () y0 ms throw = some (.ok sol) ∧
      sol.result = .successful ∧ sol.value = y0 := by
  refine ⟨frugal_trustworthy, ?_, ?_, ?_⟩
  · intro y t ht
    rw [quarterTurn_hessian]
    simp only [List.mem_cons, List.not_mem_nil, or_false] at ht
    rcases ht with rfl | rfl | rfl
    · intro i j hij
      rw [Matrix.smul_apply, Matrix.one_apply_ne hij, smul_zero]
    · intro i j
      fin_cases i <;> fin_cases j <;> simp
    · refine ⟨fun i j => by fin_cases i <;> fin_cases j <;> simp, fun x => ?_⟩
      simp [Fin.sum_univ_two]
      nlinarith [sq_nonneg (x 0), sq_nonneg (x 1)]
  · intro y
    rw [quarterTurn_objective]
    constructor
    · intro h
      have h0 : y 0 = 0 := by nlinarith [sq_nonneg (y 1 - 1), sq_nonneg (y 0)]
      have h1 : y 1 - 1 = 0 := by nlinarith [sq_nonneg (y 1 - 1), sq_nonneg (y 0)]
      funext i
      fin_cases i
      · exact h0
      · simp; linarith
    · rintro rfl
      simp
  · set cfg := GaussNewton.gaussNewton rtol atol maxNorm maxNorm
      (jacobianSolve (frugal 2) (forwarded [.diagonal, .symmetric, .positiveSemidefinite] .leastSquares .leastSquaresSolver) sq)
      (jacobianMatrix quarterTurn) with hcfg
    set S := GaussNewton.solver cfg () with hS
    set fn : (Fin 2 → ℝ) → (Fin 2 → ℝ) × Unit := fun y => (quarterTurn y, ()) with hfn
    have hq : ∀ z r st y, cfg.descent.query z (.residualJac r (jacobianMatrix quarterTurn y)) st = (fun _ => 0, .successful) := by
      intro z r st y
      show (frugal 2 _ _ _) = _
      rw [quarterTurn_jacobian]
      refine Prod.ext (funext fun i => ?_) rfl
      fin_cases i <;> simp [frugal, forwarded]
    have hstep : ∀ st, st.yEval = y0 → (S.step fn y0 st).1 = y0 ∧ (S.step fn y0 st).2.1.yEval = y0 ∧
        (S.step fn y0 st).2.1.result = .successful ∧ (S.step fn y0 st).2.1.residual = quarterTurn y0 ∧
        (st.residual = quarterTurn y0 → (S.step fn y0 st).2.1.terminate = true) := by
      intro st hst
      have e : S.step fn y0 st = GaussNewton.step cfg fn y0 st := rfl
      rw [e]
      have hd : ∀ a : ℝ, cfg.descent.step a (fun _ => 0, .successful) = (fun _ => 0, .successful) := by
        intro a
        show ((fun i => -a * 0 : Fin 2 → ℝ), Result.successful) = _
        simp
      have hsrch : ∀ a b c d e f, cfg.search.step a b c d e f = (1, true, .successful, ()) := fun _ _ _ _ _ _ => rfl
      refine ⟨?_, ?_, ?_, ?_, ?_⟩
      · simp [GaussNewton.step, hsrch, hst]
      · have hj : cfg.jac = jacobianMatrix quarterTurn := rfl
        simp [GaussNewton.step, hsrch, hst, hj, hq, hd]
      · have hj : cfg.jac = jacobianMatrix quarterTurn := rfl
        simp [GaussNewton.step, hsrch, hst, hj, hq, hd]
      · simp [GaussNewton.step, hsrch, hst, hfn]
      · intro hres
        simp only [GaussNewton.step, hsrch, hst, hfn, hres, if_true]
        have hz : ∀ w : Fin 2 → ℝ, scaledDiff rtol atol w (fun i => w i - w i) = fun _ => 0 := by
          intro w; funext i; simp [scaledDiff]
        have h0 : maxNorm (fun _ : Fin 2 => (0 : ℝ)) = 0 := (goodNorm_maxNorm (ι := Fin 2)).zero
        show cauchyTermination rtol atol (maxNorm (ι := Fin 2)) (maxNorm (ι := Fin 2)) _ _ _ _ = true
        rw [cauchyTermination]
        erw [hz, hz]
        rw [h0]
        simp
    obtain ⟨st0, hi⟩ : ∃ st0, S.init fn y0 = .ok st0 := ⟨_, rfl⟩
    have hst0 : st0.yEval = y0 ∧ st0.result = .successful := by
      have : S.init fn y0 = .ok _ := hi
      cases hi
      exact ⟨rfl, rfl⟩
    have hinv : ∀ k, iterateAt S fn () y0 st0 k = y0 ∧ (stateAt S fn () y0 st0 k).yEval = y0 ∧
        (stateAt S fn () y0 st0 k).result = .successful := by
      intro k
      induction k with
      | zero => exact ⟨rfl, hst0⟩
      | succ k ih =>
        obtain ⟨h1, h2, _⟩ := ih
        obtain ⟨s1, s2, s3, _⟩ := hstep _ h2
        have e1 : iterateAt S fn () y0 st0 (k + 1) = (S.step fn (iterateAt S fn () y0 st0 k) (stateAt S fn () y0 st0 k)).1 := rfl
        have e2 : stateAt S fn () y0 st0 (k + 1) = (S.step fn (iterateAt S fn () y0 st0 k) (stateAt S fn () y0 st0 k)).2.1 := rfl
        rw [e1, e2, h1]
        exact ⟨s1, s2, s3⟩
    have hterm : (stateAt S fn () y0 st0 2).terminate = true := by
      have e2 : ∀ k, stateAt S fn () y0 st0 (k + 1) =
        (S.step fn (iterateAt S fn () y0 st0 k) (stateAt S fn () y0 st0 k)).2.1 := fun _ => rfl
      rw [e2 1, (hinv 1).1]
      refine (hstep _ (hinv 1).2.1).2.2.2.2 ?_
      rw [e2 0, (hinv 0).1]
      exact (hstep _ (hinv 0).2.1).2.2.2.1
    obtain ⟨sol, h1, h2, h3, _⟩ := solve_succeeds_by S (fun _ => true) fn () y0 st0 hi ms throw 2 (fun _ _ => rfl)
      (fun j _ => (hinv j).2.2) hterm hms
    refine ⟨sol, h1, h2, ?_⟩
    obtain ⟨st0', hi', _, _, _, _, hv, _⟩ := solve_spec _ _ _ _ _ _ _ _ h1
    rw [hi] at hi'; cases hi'
    exact (congrArg Prod.fst hv).trans (hinv _).1

/-! ### Implicit differentiation -/

theorem adjoint_inverse {solve : TaggedSolve n} (hs : Trustworthy solve) {tags : List Tag}
    {L : (Fin n → ℝ) →L[ℝ] (Fin n → ℝ)} (ht : Truthful tags (LinearMap.toMatrix' L.toLinearMap)) (hL : L.IsInvertible)
    (b : Fin n → ℝ) : adjointSolve solve tags L b = L.inverse b := by
  have hdet : IsUnit (LinearMap.toMatrix' L.toLinearMap).det := by
    obtain ⟨e, rfl⟩ := hL
    rw [LinearMap.det_toMatrix']
    exact (LinearEquiv.isUnit_det' e.toLinearEquiv)
  have h := (hs tags _ ht hdet b).1
  apply hL.injective
  have h1 : L (adjointSolve solve tags L b) = b := by
    have := LinearMap.toMatrix'_mulVec L.toLinearMap (solve tags (LinearMap.toMatrix' L.toLinearMap) b).1
    exact this.symm.trans h
  rw [h1]
  obtain ⟨e, rfl⟩ := hL
  simp

/-- The exact solver, for comparison. -/
noncomputable def exactSolve (n : ℕ) : Ad.Solve (Fin n) (Fin n) := fun L b => L.inverse b

theorem exactSolve_exact : Exact (exactSolve n) := by
  intro L hL b
  obtain ⟨e, rfl⟩ := hL
  simp [exactSolve]

theorem implicit_tags {κ' : Type} [Fintype κ'] {solve : TaggedSolve n} (hs : Trustworthy solve) {tags : List Tag}
    (primal : (κ' → ℝ) → (Fin n → ℝ) × R) (rewrite : (Fin n → ℝ) → R → (κ' → ℝ) → (Fin n → ℝ)) (inputs : κ' → ℝ)
    (ht : Truthful tags (jacobianMatrix (fun y => rewrite y (primal inputs).2 inputs) (primal inputs).1))
    (hL : (fderiv ℝ (fun y => rewrite y (primal inputs).2 inputs) (primal inputs).1).IsInvertible) (t : κ' → Option ℝ) :
    Ad.implicitJvp (adjointSolve solve tags) primal rewrite inputs t = Ad.implicitJvp (exactSolve n) primal rewrite inputs t := by
  have hm : LinearMap.toMatrix' (fderiv ℝ (fun y => rewrite y (primal inputs).2 inputs) (primal inputs).1).toLinearMap =
      jacobianMatrix (fun y => rewrite y (primal inputs).2 inputs) (primal inputs).1 := by
    ext i j
    rw [LinearMap.toMatrix'_apply]
    rfl
  simp only [Ad.implicitJvp, adjoint_inverse hs (hm ▸ ht) hL, exactSolve]

variable [Fintype κ] [Fintype μ] [Fintype ο]

/-- **C117.** Differentiating `root_find` (with a root finder or a least-squares solver) through the implicit function theorem:
if the promises are true of the Jacobian of the function at the root, the derivative returned is the derivative of the branch
of roots. -/
theorem C117_root_find_derivative (solve : TaggedSolve n) (hs : Trustworthy solve) (tags : List Tag) (kind : Kind)
    (hkind : kind ≠ .minimiser) (primal : Ad.Inputs κ μ → (Fin n → ℝ) × R) (inputs : Ad.Inputs κ μ)
    (a0 : κ → ℝ) (ha : (fun k => inputs (.inl k)) = a0) (root : Fin n → ℝ) (hr : (primal inputs).1 = root)
    (fn : (Fin n → ℝ) → (κ → ℝ) → (Fin n → ℝ))
    (hfn : ContDiffAt ℝ 1 (fun p : (Fin n → ℝ) × (κ → ℝ) => fn p.1 p.2) (root, a0))
    (hinv : (fderiv ℝ (fun y => fn y a0) root).IsInvertible)
    (htags : Truthful tags (jacobianMatrix (fun y => fn y a0) root))
    (y : (κ → ℝ) → (Fin n → ℝ)) (hy : IsBranch (fun a z => fn z a = 0) y a0 root) :
    ∃ D : (κ → ℝ) →L[ℝ] (Fin n → ℝ), HasFDerivAt y D a0 ∧ ∀ t : κ ⊕ μ → Option ℝ,
      (Ad.implicitJvp (adjointSolve solve (forwarded tags .rootFind kind)) primal (Ad.rewriteRootFind fn) inputs t).2.1 =
        D fun k => (t (.inl k)).getD 0 := by
  obtain ⟨D, hD, h⟩ := C12_root_find_partial (exactSolve n) exactSolve_exact primal inputs a0 ha root hr fn hfn hinv y hy
  refine ⟨D, hD, fun t => ?_⟩
  subst ha hr
  have hf : forwarded tags .rootFind kind = tags := by cases kind <;> first | rfl | exact absurd rfl hkind
  rw [hf, ← h t]
  exact congrArg (fun x => x.2.1) (implicit_tags hs primal (Ad.rewriteRootFind fn) inputs htags hinv t)

/-- **C117.** Differentiating `fixed_point` (with any solver but a minimiser): if the promises are true of the Jacobian of the
function minus the identity, the derivative returned is the derivative of the branch of fixed points. -/
theorem C117_fixed_point_derivative (solve : TaggedSolve n) (hs : Trustworthy solve) (tags : List Tag) (kind : Kind)
    (primal : Ad.Inputs κ μ → (Fin n → ℝ) × R) (inputs : Ad.Inputs κ μ)
    (a0 : κ → ℝ) (ha : (fun k => inputs (.inl k)) = a0) (point : Fin n → ℝ) (hr : (primal inputs).1 = point)
    (fn : (Fin n → ℝ) → (κ → ℝ) → (Fin n → ℝ))
    (hfn : ContDiffAt ℝ 1 (fun p : (Fin n → ℝ) × (κ → ℝ) => fn p.1 p.2) (point, a0))
    (hinv : (fderiv ℝ (fun y => fn y a0) point - ContinuousLinearMap.id ℝ (Fin n → ℝ)).IsInvertible)
    (htags : Truthful tags (jacobianMatrix (fun y => fn y a0) point - 1))
    (y : (κ → ℝ) → (Fin n → ℝ)) (hy : IsBranch (fun a z => fn z a = z) y a0 point) :
    ∃ D : (κ → ℝ) →L[ℝ] (Fin n → ℝ), HasFDerivAt y D a0 ∧ ∀ t : κ ⊕ μ → Option ℝ,
      (Ad.implicitJvp (adjointSolve solve (forwarded tags .fixedPoint kind)) primal (Ad.rewriteFixedPoint fn) inputs t).2.1 =
        D fun k => (t (.inl k)).getD 0 := by
  obtain ⟨D, hD, h⟩ := C12_fixed_point (exactSolve n) exactSolve_exact primal inputs a0 ha point hr fn hfn hinv y hy
  refine ⟨D, hD, fun t => ?_⟩
  subst ha hr
  set a0 : κ → ℝ := fun k => inputs (.inl k)
  have hd1 : DifferentiableAt ℝ (fun y => fn y a0) (primal inputs).1 := by
    have h := hfn.differentiableAt one_ne_zero
    exact DifferentiableAt.comp (g := fun p : (Fin n → ℝ) × (κ → ℝ) => fn p.1 p.2) (f := fun y => (y, a0)) (primal inputs).1 h
      (differentiableAt_id.prodMk (differentiableAt_const a0))
  have hder : fderiv ℝ (fun y i => fn y a0 i - y i) (primal inputs).1 =
      fderiv ℝ (fun y => fn y a0) (primal inputs).1 - ContinuousLinearMap.id ℝ (Fin n → ℝ) :=
    (hd1.hasFDerivAt.sub (hasFDerivAt_id (primal inputs).1)).fderiv
  have hj : jacobianMatrix (fun y i => fn y a0 i - y i) (primal inputs).1 = jacobianMatrix (fun y => fn y a0) (primal inputs).1 - 1 := by
    ext i j
    simp only [jacobianMatrix, hder, Matrix.sub_apply]
    by_cases hij : i = j
    · subst hij; simp
    · simp [Matrix.one_apply_ne hij, hij]
  have hf : Truthful (forwarded tags .fixedPoint kind) (jacobianMatrix (fun y i => fn y a0 i - y i) (primal inputs).1) := by
    cases kind <;> first | exact hj ▸ htags | exact truthful_nil _
  rw [← h t]
  exact congrArg (fun x => x.2.1) (implicit_tags hs primal (Ad.rewriteFixedPoint fn) inputs hf (hder.symm ▸ hinv) t)

/-- **C117.** Differentiating `minimise`: if the promises are true of the Hessian of the objective at the minimum, the
derivative returned is the derivative of the branch of local minima. -/
theorem C117_minimise_derivative (solve : TaggedSolve n) (hs : Trustworthy solve) (tags : List Tag)
    (primal : Ad.Inputs κ μ → (Fin n → ℝ) × R) (inputs : Ad.Inputs κ μ)
    (a0 : κ → ℝ) (ha : (fun k => inputs (.inl k)) = a0) (minimum : Fin n → ℝ) (hr : (primal inputs).1 = minimum)
    (fn : (Fin n → ℝ) → (κ → ℝ) → ℝ) (hfn : ContDiffAt ℝ 2 (fun p : (Fin n → ℝ) × (κ → ℝ) => fn p.1 p.2) (minimum, a0))
    (hinv : (fderiv ℝ (Ad.grad fun x => fn x a0) minimum).IsInvertible)
    (htags : Truthful tags (hessianMatrix (fun x => fn x a0) minimum))
    (y : (κ → ℝ) → (Fin n → ℝ)) (hy : IsBranch (fun a z => IsLocalMin (fun x => fn x a) z) y a0 minimum) :
    ∃ D : (κ → ℝ) →L[ℝ] (Fin n → ℝ), HasFDerivAt y D a0 ∧ ∀ t : κ ⊕ μ → Option ℝ,
      (Ad.implicitJvp (adjointSolve solve (forwarded tags .minimise .minimiser)) primal (Ad.rewriteMinimise fn) inputs t).2.1 =
        D fun k => (t (.inl k)).getD 0 := by
  obtain ⟨D, hD, h⟩ := C12_minimise (exactSolve n) exactSolve_exact primal inputs a0 ha minimum hr fn hfn hinv y hy
  refine ⟨D, hD, fun t => ?_⟩
  subst ha hr
  rw [← h t]
  exact congrArg (fun x => x.2.1) (implicit_tags hs primal (Ad.rewriteMinimise fn) inputs htags hinv t)

theorem holds_scaled {M : Matrix (Fin n) (Fin n) ℝ} {c : ℝ} (hc : 0 ≤ c) {t : Tag} (ht : t ≠ .unitDiagonal)
    (h : t.Holds M) : t.Holds (c • M) := by
  have hq : ∀ N : Matrix (Fin n) (Fin n) ℝ, SPSD N → SPSD (c • N) := by
    intro N hN
    refine ⟨fun i j => by simp [hN.1 i j], fun x => ?_⟩
    have : ∑ i, ∑ j, x i * (c • N) i j * x j = c * ∑ i, ∑ j, x i * N i j * x j := by
      rw [Finset.mul_sum]
      refine Finset.sum_congr rfl fun i _ => ?_
      rw [Finset.mul_sum]
      exact Finset.sum_congr rfl fun j _ => by rw [Matrix.smul_apply, smul_eq_mul]; ring
    rw [this]
    exact mul_nonneg hc (hN.2 x)
  cases t with
  | symmetric => intro i j; simp [h i j]
  | diagonal => intro i j hij; simp [h i j hij]
  | tridiagonal => intro i j hij; simp [h i j hij]
  | unitDiagonal => exact absurd rfl ht
  | lowerTriangular => intro i j hij; simp [h i j hij]
  | upperTriangular => intro i j hij; simp [h i j hij]
  | positiveSemidefinite => exact hq M h
  | negativeSemidefinite =>
    show SPSD (-(c • M))
    rw [← smul_neg]
    exact hq (-M) h

theorem half_hessian (g : (Fin n → ℝ) → ℝ) (y : Fin n → ℝ) :
    hessianMatrix (fun x => (0.5 : ℝ) * g x) y = (0.5 : ℝ) • hessianMatrix g y := by
  have h1 : ∀ z : Fin n → ℝ, fderiv ℝ (fun x => (0.5 : ℝ) * g x) z = (0.5 : ℝ) • fderiv ℝ g z := by
    intro z
    have e : (fun x => (0.5 : ℝ) * g x) = (0.5 : ℝ) • g := rfl
    rw [e, fderiv_const_smul_field]
    rfl
  have h2 : (fun (z : Fin n → ℝ) (i : Fin n) => fderiv ℝ (fun x => (0.5 : ℝ) * g x) z (Pi.single i 1)) =
      (0.5 : ℝ) • fun z i => fderiv ℝ g z (Pi.single i 1) := by
    funext z i
    rw [h1]
    rfl
  ext i j
  simp only [hessianMatrix, jacobianMatrix, Matrix.smul_apply]
  rw [h2, fderiv_const_smul_field]
  rfl

/-- **C117 (partial).** Differentiating `least_squares` (with a least-squares solver or a minimiser): if the promises are true
of the Hessian of the sum of squares at the optimum (as documented) and "the diagonal is one" is not among them, the derivative
returned is the derivative of the branch of local minima.  Missing: that promise, see `C117_unit_diagonal_wrong`. -/
theorem C117_least_squares_derivative_partial (solve : TaggedSolve n) (hs : Trustworthy solve) (tags : List Tag)
    (kind : Kind) (hunit : .unitDiagonal ∉ tags) (primal : Ad.Inputs κ μ → (Fin n → ℝ) × R) (inputs : Ad.Inputs κ μ)
    (a0 : κ → ℝ) (ha : (fun k => inputs (.inl k)) = a0) (optimum : Fin n → ℝ) (hr : (primal inputs).1 = optimum)
    (fn : (Fin n → ℝ) → (κ → ℝ) → (ο → ℝ)) (hfn : ContDiffAt ℝ 2 (fun p : (Fin n → ℝ) × (κ → ℝ) => fn p.1 p.2) (optimum, a0))
    (hinv : (fderiv ℝ (Ad.grad fun x => 1 / 2 * ∑ j, fn x a0 j ^ 2) optimum).IsInvertible)
    (htags : Truthful tags (hessianMatrix (fun x => ∑ j, fn x a0 j ^ 2) optimum))
    (y : (κ → ℝ) → (Fin n → ℝ)) (hy : IsBranch (fun a z => IsLocalMin (fun x => ∑ j, fn x a j ^ 2) z) y a0 optimum) :
    ∃ D : (κ → ℝ) →L[ℝ] (Fin n → ℝ), HasFDerivAt y D a0 ∧ ∀ t : κ ⊕ μ → Option ℝ,
      (Ad.implicitJvp (adjointSolve solve (forwarded tags .leastSquares kind)) primal (Ad.rewriteLeastSquares fn) inputs t).2.1 =
        D fun k => (t (.inl k)).getD 0 := by
  obtain ⟨D, hD, h⟩ := C12_least_squares (exactSolve n) exactSolve_exact primal inputs a0 ha optimum hr fn hfn hinv y hy
  refine ⟨D, hD, fun t => ?_⟩
  subst ha hr
  set a0 : κ → ℝ := fun k => inputs (.inl k)
  have hobj : (fun x : Fin n → ℝ => (0.5 : ℝ) * ∑ j, fn x a0 j * fn x a0 j) = fun x => 0.5 * ∑ j, fn x a0 j ^ 2 := by
    funext x
    congr 1
    exact Finset.sum_congr rfl fun j _ => by ring
  have hm : jacobianMatrix (fun y => Ad.rewriteLeastSquares (μ := μ) fn y (primal inputs).2 inputs) (primal inputs).1 =
      (0.5 : ℝ) • hessianMatrix (fun x => ∑ j, fn x a0 j ^ 2) (primal inputs).1 := by
    rw [← half_hessian, ← hobj]
    rfl
  have hf : Truthful (forwarded tags .leastSquares kind)
      (jacobianMatrix (fun y => Ad.rewriteLeastSquares (μ := μ) fn y (primal inputs).2 inputs) (primal inputs).1) := by
    have hT : Truthful tags ((0.5 : ℝ) • hessianMatrix (fun x => ∑ j, fn x a0 j ^ 2) (primal inputs).1) := fun t ht =>
      holds_scaled (by norm_num) (fun e => hunit (e ▸ ht)) (htags t ht)
    rw [hm]
    cases kind <;> first | exact hT | exact truthful_nil _
  have hL : (fderiv ℝ (fun y => Ad.rewriteLeastSquares (μ := μ) fn y (primal inputs).2 inputs) (primal inputs).1).IsInvertible := by
    have e : (fun y => Ad.rewriteLeastSquares (μ := μ) fn y (primal inputs).2 inputs) =
        Ad.grad fun x => 1 / 2 * ∑ j, fn x a0 j ^ 2 := by
      show (fun y => Ad.grad (fun x : Fin n → ℝ => (0.5 : ℝ) * ∑ j, fn x a0 j * fn x a0 j) y) = _
      rw [hobj, show (0.5 : ℝ) = 1 / 2 by norm_num]
    rw [e]
    exact hinv
  rw [← h t]
  exact congrArg (fun x => x.2.1) (implicit_tags hs primal (Ad.rewriteLeastSquares fn) inputs hf hL t)

/-- Two residuals whose sum of squares is `(y - a)² / 2`: its Hessian is the `1 × 1` identity, its minimum is `a`. -/
noncomputable def halves (y a : Fin 1 → ℝ) : Fin 2 → ℝ := fun _ => (y 0 - a 0) / 2

theorem halves_hessian (a y : Fin 1 → ℝ) : hessianMatrix (fun x => ∑ j, halves x a j ^ 2) y = 1 := by
  have hp : ∀ z : Fin 1 → ℝ, HasFDerivAt (fun w : Fin 1 → ℝ => w 0)
      (ContinuousLinearMap.proj (R := ℝ) (φ := fun _ : Fin 1 => ℝ) 0) z := fun z =>
    (ContinuousLinearMap.proj (R := ℝ) (φ := fun _ : Fin 1 => ℝ) 0).hasFDerivAt
  have h1 : ∀ z v : Fin 1 → ℝ, fderiv ℝ (fun x => ∑ j, halves x a j ^ 2) z v = (z 0 - a 0) * v 0 := by
    intro z v
    rw [show (fun x => ∑ j, halves x a j ^ 2) = fun x : Fin 1 → ℝ => 1 / 2 * (x 0 - a 0) ^ 2 by
      funext x; simp [halves]; ring]
    have := (((hp z).sub_const (a 0)).pow 2).const_mul (1 / 2)
    rw [HasFDerivAt.fderiv (f := fun x : Fin 1 → ℝ => 1 / 2 * (x 0 - a 0) ^ 2) this]
    simp
    ring
  have h2 : (fun (z : Fin 1 → ℝ) (i : Fin 1) => fderiv ℝ (fun x => ∑ j, halves x a j ^ 2) z (Pi.single i 1)) =
      fun z => z - a := by
    funext z i
    rw [h1, Subsingleton.elim i 0]
    simp
  have h3 : HasFDerivAt (fun z : Fin 1 → ℝ => z - a) (ContinuousLinearMap.id ℝ (Fin 1 → ℝ)) y :=
    (hasFDerivAt_id y).sub_const a
  ext i j
  rw [hessianMatrix, h2, jacobianMatrix, h3.fderiv, Subsingleton.elim i j]
  simp

/-- **C117, negated.** Differentiating `least_squares` through the implicit function theorem, given promises that are true
in the documented sense (the Hessian of the sum of squares is the identity, for every `y` and every parameter) and a linear
solver that answers correctly whenever it is told the truth, returns half of the derivative: the solution is the parameter
itself.  The matrix the code solves with is the Hessian of *half* the sum of squares. -/
theorem C117_unit_diagonal_wrong (a0 : Fin 1 → ℝ) :
    let tags : List Tag := [.diagonal, .unitDiagonal]
    Trustworthy (frugal 1) ∧ (∀ a y, Truthful tags (hessianMatrix (fun x => ∑ j, halves x a j ^ 2) y)) ∧
    IsBranch (fun a z => ∀ x, ∑ j, halves z a j ^ 2 ≤ ∑ j, halves x a j ^ 2) (fun a => a) a0 a0 ∧
    ∀ (t : ℝ), (Ad.implicitJvp (adjointSolve (frugal 1) (forwarded tags .leastSquares .leastSquaresSolver))
      (fun inputs : Ad.Inputs (Fin 1) Empty => ((fun k => inputs (.inl k)), ())) (Ad.rewriteLeastSquares halves)
      (Sum.elim a0 fun e => e.elim) (Sum.elim (fun _ => some t) fun e => e.elim)).2.1 = fun _ => t / 2 := by
  intro tags
  refine ⟨frugal_trustworthy, fun a y t ht => ?_, ⟨continuousAt_id, rfl, ?_⟩, fun t => ?_⟩
  · rw [halves_hessian]
    simp only [tags, List.mem_cons, List.not_mem_nil, or_false] at ht
    rcases ht with rfl | rfl
    · intro i j hij; exact Matrix.one_apply_ne hij
    · intro i; exact Matrix.one_apply_eq i
  · refine Filter.Eventually.of_forall fun a x => ?_
    have : ∑ j, halves a a j ^ 2 = 0 := by simp [halves]
    rw [this]
    exact Finset.sum_nonneg fun j _ => sq_nonneg _
  · have hg : ∀ (z a : Fin 1 → ℝ), Ad.grad (fun x : Fin 1 → ℝ => (0.5 : ℝ) * ∑ j, halves x a j * halves x a j) z =
        fun i => (z i - a i) / 2 := by
      intro z a
      funext i
      have hp : HasFDerivAt (fun w : Fin 1 → ℝ => w 0)
        (ContinuousLinearMap.proj (R := ℝ) (φ := fun _ : Fin 1 => ℝ) 0) z :=
        (ContinuousLinearMap.proj (R := ℝ) (φ := fun _ : Fin 1 => ℝ) 0).hasFDerivAt
      rw [Ad.grad, show (fun x : Fin 1 → ℝ => (0.5 : ℝ) * ∑ j, halves x a j * halves x a j) =
        fun x => 1 / 4 * (x 0 - a 0) ^ 2 by funext x; simp [halves]; ring]
      have := ((hp.sub_const (a 0)).pow 2).const_mul (1 / 4)
      rw [HasFDerivAt.fderiv (f := fun x : Fin 1 → ℝ => 1 / 4 * (x 0 - a 0) ^ 2) this, Subsingleton.elim i 0]
      simp
      ring
    funext i
    simp only [Ad.implicitJvp, Ad.rewriteLeastSquares, hg, adjointSolve, frugal, tags, forwarded]
    simp only [List.mem_cons, true_or, or_true, if_true]
    have hc : ∀ (diff : Fin 1 ⊕ Empty → ℝ) (k : Fin 1), Ad.combine (Sum.elim (fun _ => some t) fun e => e.elim) diff
        (Sum.elim a0 fun e => e.elim) (Sum.inl k) = diff (.inl k) := by
      intro diff k; simp [Ad.combine]
    have hder : HasFDerivAt (fun (diff : Fin 1 ⊕ Empty → ℝ) (i : Fin 1) => (a0 i - diff (.inl i)) / 2)
        (ContinuousLinearMap.pi fun i => (-(1 / 2 : ℝ)) • ContinuousLinearMap.proj (Sum.inl i) :
          (Fin 1 ⊕ Empty → ℝ) →L[ℝ] (Fin 1 → ℝ)) (Sum.elim a0 fun e => e.elim) := by
      rw [hasFDerivAt_pi']
      intro i
      have hq := (ContinuousLinearMap.proj (R := ℝ) (φ := fun _ : Fin 1 ⊕ Empty => ℝ) (Sum.inl i)).hasFDerivAt
        (x := (Sum.elim a0 fun e => e.elim : Fin 1 ⊕ Empty → ℝ))
      have := (hq.const_sub (a0 i)).mul_const (1 / 2)
      refine HasFDerivAt.congr_fderiv (f := fun diff : Fin 1 ⊕ Empty → ℝ => (a0 i - diff (.inl i)) / 2)
        (f' := ((1 / 2 : ℝ) • (-ContinuousLinearMap.proj (Sum.inl i)))) ?_ ?_
      · refine this.congr_of_eventuallyEq (Filter.Eventually.of_forall fun d => ?_)
        simp [div_eq_mul_inv]
      · ext v; simp
    simp only [hc, Sum.elim_inl]
    rw [hder.fderiv]
    simp
    ring

/-! ### The library's own promises -/

theorem spd_promise {M : Matrix (Fin n) (Fin n) ℝ} (hM : SPD M) : Truthful [.positiveSemidefinite, .symmetric] M := by
  intro t ht
  simp only [List.mem_cons, List.not_mem_nil, or_false] at ht
  rcases ht with rfl | rfl
  · refine ⟨hM.1, fun x => ?_⟩
    by_cases hx : ∃ i, x i ≠ 0
    · exact (hM.2 x hx).le
    · push Not at hx
      simp [hx]
  · exact hM.1

/-- **C117.** The operators that BFGS and DFP mark as positive semidefinite are so (and symmetric), after every step of every
run. -/
theorem C117_quasi_newton_promise (eps : ℝ) (heps : 0 ≤ eps) (b : Bool) {SS DS : Type}
    (cfg : QuasiNewton.Cfg (Fin n) SS DS Unit) (hcfg : cfg.hess = bfgs eps b ∨ cfg.hess = dfp eps b)
    (hf : ∀ y z i j s, (cfg.search.step true y z i j s).2.1 = true) (aux0 : A) (fn : (Fin n → ℝ) → ℝ × A) (y0 : Fin n → ℝ)
    (st0 : QuasiNewton.State (Fin n) A SS DS Unit) (hi : (QuasiNewton.solver cfg aux0).init fn y0 = .ok st0) (k : ℕ) :
    ∃ M, Stores b (stateAt (QuasiNewton.solver cfg aux0) fn aux0 y0 st0 (k + 1)).fInfo M ∧
      Truthful [.positiveSemidefinite, .symmetric] M := by
  rcases hcfg with hcfg | hcfg
  · obtain ⟨M, _, h1, _, h2, _⟩ := (C34_run eps heps b cfg hcfg hf aux0 fn y0 st0 hi).2 k
    exact ⟨M, h1, spd_promise h2⟩
  · obtain ⟨M, _, h1, _, h2, _⟩ := (C35_run eps heps b cfg hcfg hf aux0 fn y0 st0 hi).2 k
    exact ⟨M, h1, spd_promise h2⟩

/-- **C117.** So are the operators of L-BFGS (both forms, any history length, exact small dense factorisations). -/
theorem C117_lbfgs_promise (eps : ℝ) (heps : 0 ≤ eps) (h : ℕ) [NeZero h] {SS DS : Type} (aux0 : A)
    (fn : (Fin n → ℝ) → ℝ × A) (y0 : Fin n → ℝ) (k : ℕ) :
    (∀ (cfg : QuasiNewton.Cfg (Fin n) SS DS (InvState (Fin n) h)) (_ : cfg.hess = LBFGS.inverse eps h)
      (_ : ∀ y z i j s, (cfg.search.step true y z i j s).2.1 = true) (st0 : QuasiNewton.State (Fin n) A SS DS _),
      (QuasiNewton.solver cfg aux0).init fn y0 = .ok st0 →
      ∃ M, Stores true (stateAt (QuasiNewton.solver cfg aux0) fn aux0 y0 st0 (k + 1)).fInfo M ∧
        Truthful [.positiveSemidefinite, .symmetric] M) ∧
    (∀ (la : DenseLA h) (_ : ExactLA la) (cfg : QuasiNewton.Cfg (Fin n) SS DS (DirState (Fin n) h))
      (_ : cfg.hess = LBFGS.direct eps h la)
      (_ : ∀ y z i j s, (cfg.search.step true y z i j s).2.1 = true) (st0 : QuasiNewton.State (Fin n) A SS DS _),
      (QuasiNewton.solver cfg aux0).init fn y0 = .ok st0 →
      ∃ M, Stores false (stateAt (QuasiNewton.solver cfg aux0) fn aux0 y0 st0 (k + 1)).fInfo M ∧
        Truthful [.positiveSemidefinite, .symmetric] M) := by
  refine ⟨fun cfg hcfg hf st0 hi => ?_, fun la hla cfg hcfg hf st0 hi => ?_⟩
  · obtain ⟨h1, _, h2, _⟩ := C38_run eps heps h cfg hcfg hf aux0 fn y0 st0 hi k
    exact ⟨_, h1, spd_promise h2⟩
  · obtain ⟨h1, _, h2, _⟩ := C39_run eps heps h la hla cfg hcfg hf aux0 fn y0 st0 hi k
    exact ⟨_, h1, spd_promise h2⟩

/-- **C117.** Damping keeps the promise: Levenberg-Marquardt marks `B + λ I` as positive semidefinite when `B` is so marked. -/
theorem C117_damped_promise (B : Matrix (Fin n) (Fin n) ℝ) (lam : ℝ) (hl : 0 ≤ lam)
    (hB : Truthful [.positiveSemidefinite] B) : Truthful [.positiveSemidefinite] (B + lam • 1) := by
  intro t ht
  rw [List.mem_singleton] at ht
  subst ht
  have h := hB _ (List.mem_singleton.2 rfl)
  refine ⟨fun i j => ?_, fun x => ?_⟩
  · rw [Matrix.add_apply, Matrix.add_apply, h.1 i j, Matrix.smul_apply, Matrix.smul_apply,
      show (1 : Matrix (Fin n) (Fin n) ℝ) i j = (1 : Matrix (Fin n) (Fin n) ℝ) j i by
        by_cases hij : i = j
        · rw [hij]
        · rw [Matrix.one_apply_ne hij, Matrix.one_apply_ne (Ne.symm hij)]]
  · have e : ∑ i, ∑ j, x i * (B + lam • (1 : Matrix (Fin n) (Fin n) ℝ)) i j * x j =
        ∑ i, ∑ j, x i * B i j * x j + lam * ∑ i, x i ^ 2 := by
      rw [Finset.mul_sum, ← Finset.sum_add_distrib]
      refine Finset.sum_congr rfl fun i _ => ?_
      have : ∑ j, x i * (lam • (1 : Matrix (Fin n) (Fin n) ℝ)) i j * x j = lam * x i ^ 2 := by
        rw [Finset.sum_eq_single i]
        · rw [Matrix.smul_apply, Matrix.one_apply_eq, smul_eq_mul]; ring
        · intro j _ hj
          rw [Matrix.smul_apply, Matrix.one_apply_ne (Ne.symm hj), smul_zero, mul_zero, zero_mul]
        · intro hi; exact absurd (Finset.mem_univ i) hi
      rw [← this, ← Finset.sum_add_distrib]
      exact Finset.sum_congr rfl fun j _ => by rw [Matrix.add_apply]; ring
    rw [e]
    exact add_nonneg (h.2 x) (mul_nonneg hl (Finset.sum_nonneg fun i _ => sq_nonneg _))

/-! ### The hypotheses can be met -/

/-- A diagonal linear map, scaled by two and three. -/
def stretched (y a : Fin 2 → ℝ) : Fin 2 → ℝ := ![2 * y 0 - a 0, 3 * y 1 - a 1]

theorem stretched_deriv (a y : Fin 2 → ℝ) : HasFDerivAt (fun z => stretched z a)
    (ContinuousLinearMap.pi ![(2 : ℝ) • ContinuousLinearMap.proj 0, (3 : ℝ) • ContinuousLinearMap.proj 1] :
      (Fin 2 → ℝ) →L[ℝ] (Fin 2 → ℝ)) y := by
  rw [hasFDerivAt_pi']
  intro i
  fin_cases i
  · exact ((ContinuousLinearMap.proj (R := ℝ) (φ := fun _ : Fin 2 => ℝ) 0).hasFDerivAt.const_mul 2).sub_const (a 0)
  · exact ((ContinuousLinearMap.proj (R := ℝ) (φ := fun _ : Fin 2 => ℝ) 1).hasFDerivAt.const_mul 3).sub_const (a 1)

theorem stretched_jacobian (a y : Fin 2 → ℝ) : jacobianMatrix (fun z => stretched z a) y = !![2, 0; 0, 3] := by
  ext i j
  rw [jacobianMatrix, (stretched_deriv a y).fderiv]
  fin_cases i <;> fin_cases j <;> simp

theorem stretched_truthful (a y : Fin 2 → ℝ) : Truthful [.diagonal, .symmetric] (jacobianMatrix (fun z => stretched z a) y) := by
  intro t ht
  rw [stretched_jacobian]
  simp only [List.mem_cons, List.not_mem_nil, or_false] at ht
  rcases ht with rfl | rfl
  · intro i j hij
    fin_cases i <;> fin_cases j <;> simp at hij ⊢
  · intro i j
    fin_cases i <;> fin_cases j <;> simp

theorem stretched_det (a y : Fin 2 → ℝ) : IsUnit (jacobianMatrix (fun z => stretched z a) y).det := by
  rw [stretched_jacobian, Matrix.det_fin_two]
  norm_num

/-- Newton's method on `stretched`, told that the Jacobian is diagonal, with a solver that looks only at the diagonal. -/
example (a y0 : Fin 2 → ℝ) (cfg : NewtonChord.Cfg (Fin 2) (Fin 2) ℝ (Matrix (Fin 2) (Fin 2) ℝ))
    (hj : cfg.jac = jacobianMatrix fun z => stretched z a) :
    Relabel.outcome (rootFind (NewtonChord.solver (newtonCfg (frugal 2) [.diagonal, .symmetric] cfg)) (fun _ => true)
      (fun y => (stretched y a, ())) () y0 none false) =
    Relabel.outcome (rootFind (NewtonChord.solver (newtonCfg (frugal 2) [] cfg)) (fun _ => true)
      (fun y => (stretched y a, ())) () y0 none false) :=
  C117_root_find_newton (frugal 2) frugal_trustworthy [.diagonal, .symmetric] cfg (fun y => (stretched y a, ()))
    (fun y => congrFun hj y) (stretched_truthful a) (stretched_det a) _ _ _ _ _

example (a y0 : Fin 2 → ℝ) :=
  C117_root_find_least_squares (frugal 2) frugal_trustworthy [.diagonal, .symmetric] (frugal 2 []) 0 1e-3 1e-3 maxNorm maxNorm
    (fun y => (stretched y a, ())) _ (fun _ => rfl) (stretched_truthful a) (stretched_det a) maxNorm 1e-3 (fun _ => 0)
    (fun _ => true) (fun _ => 0, ()) y0 none false

example (a y0 : Fin 2 → ℝ) :=
  C117_least_squares_partial (frugal 2) frugal_trustworthy [.diagonal, .symmetric] (frugal 2 []) 0 1e-3 1e-3 maxNorm maxNorm
    (fun y => (stretched y a, ())) _ (fun _ => rfl) (stretched_truthful a) (stretched_det a) (fun _ => true) () y0 none false

theorem toMatrix_invertible {L : (Fin n → ℝ) →L[ℝ] (Fin n → ℝ)} (h : IsUnit (LinearMap.toMatrix' L.toLinearMap).det) :
    L.IsInvertible := by
  rw [LinearMap.det_toMatrix'] at h
  have hu : IsUnit (LinearMap.det L.toLinearMap) := h
  let e := (LinearEquiv.ofIsUnitDet (f := L.toLinearMap) (v := Pi.basisFun ℝ (Fin n)) (v' := Pi.basisFun ℝ (Fin n)) (by
    rw [LinearMap.det_toMatrix]; exact hu)).toContinuousLinearEquiv
  exact ⟨e, by ext v; rfl⟩

theorem stretched_invertible (a y : Fin 2 → ℝ) : (fderiv ℝ (fun z => stretched z a) y).IsInvertible := by
  apply toMatrix_invertible
  have := stretched_det a y
  convert this using 2
  ext i j
  rw [LinearMap.toMatrix'_apply]
  rfl

/-- The derivative of the root of `stretched` with respect to its parameters. -/
example (a0 : Fin 2 → ℝ) :=
  C117_root_find_derivative (μ := Empty) (R := Unit) (frugal 2) frugal_trustworthy [.diagonal, .symmetric] .rootFinder
    (by decide) (fun inputs => (![inputs (.inl 0) / 2, inputs (.inl 1) / 3], ())) (Sum.elim a0 fun e => e.elim) a0 rfl _ rfl
    stretched (by
      refine ContDiff.contDiffAt (contDiff_pi.2 fun i => ?_)
      fin_cases i
      · show ContDiff ℝ 1 fun p : (Fin 2 → ℝ) × (Fin 2 → ℝ) => 2 * p.1 0 - p.2 0
        fun_prop
      · show ContDiff ℝ 1 fun p : (Fin 2 → ℝ) × (Fin 2 → ℝ) => 3 * p.1 1 - p.2 1
        fun_prop)
    (stretched_invertible a0 _) (stretched_truthful a0 _) (fun a => ![a 0 / 2, a 1 / 3]) ⟨by
      apply Continuous.continuousAt
      refine continuous_pi fun i => ?_
      fin_cases i
      · show Continuous fun a : Fin 2 → ℝ => a 0 / 2
        fun_prop
      · show Continuous fun a : Fin 2 → ℝ => a 1 / 3
        fun_prop, rfl, Filter.Eventually.of_forall fun a => by
      funext i
      fin_cases i <;> simp [stretched] <;> ring⟩

theorem stretched_objective (a y : Fin 2 → ℝ) : ∑ j, stretched y a j ^ 2 = (2 * y 0 - a 0) ^ 2 + (3 * y 1 - a 1) ^ 2 := by
  simp [stretched, Fin.sum_univ_two]

theorem stretched_smooth {m : WithTop ℕ∞} :
    ContDiff ℝ m fun p : (Fin 2 → ℝ) × (Fin 2 → ℝ) => stretched p.1 p.2 := by
  refine contDiff_pi.2 fun i => ?_
  fin_cases i
  · show ContDiff ℝ m fun p : (Fin 2 → ℝ) × (Fin 2 → ℝ) => 2 * p.1 0 - p.2 0
    fun_prop
  · show ContDiff ℝ m fun p : (Fin 2 → ℝ) × (Fin 2 → ℝ) => 3 * p.1 1 - p.2 1
    fun_prop

theorem stretched_gradient (a z : Fin 2 → ℝ) (c : ℝ) : Ad.grad (fun x => c * ∑ j, stretched x a j ^ 2) z =
    ![c * (4 * (2 * z 0 - a 0)), c * (6 * (3 * z 1 - a 1))] := by
  have hp : ∀ (i : Fin 2) (z : Fin 2 → ℝ), HasFDerivAt (fun w : Fin 2 → ℝ => w i)
      (ContinuousLinearMap.proj (R := ℝ) (φ := fun _ : Fin 2 => ℝ) i) z := fun i z =>
    (ContinuousLinearMap.proj (R := ℝ) (φ := fun _ : Fin 2 => ℝ) i).hasFDerivAt
  funext i
  rw [Ad.grad, show (fun x => c * ∑ j, stretched x a j ^ 2) = fun x => c * ((2 * x 0 - a 0) ^ 2 + (3 * x 1 - a 1) ^ 2) from
    funext fun x => by rw [stretched_objective]]
  have := (((((hp 0 z).const_mul 2).sub_const (a 0)).pow 2).add ((((hp 1 z).const_mul 3).sub_const (a 1)).pow 2)).const_mul c
  rw [HasFDerivAt.fderiv (f := fun x : Fin 2 → ℝ => c * ((2 * x 0 - a 0) ^ 2 + (3 * x 1 - a 1) ^ 2)) this]
  fin_cases i
  · simp; left; ring
  · simp; left; ring

theorem stretched_second (a y : Fin 2 → ℝ) (c : ℝ) : HasFDerivAt (Ad.grad fun x => c * ∑ j, stretched x a j ^ 2)
    (ContinuousLinearMap.pi ![(c * 8) • ContinuousLinearMap.proj 0, (c * 18) • ContinuousLinearMap.proj 1] :
      (Fin 2 → ℝ) →L[ℝ] (Fin 2 → ℝ)) y := by
  rw [show (Ad.grad fun x => c * ∑ j, stretched x a j ^ 2) = fun z => ![c * (4 * (2 * z 0 - a 0)), c * (6 * (3 * z 1 - a 1))]
    from funext fun z => stretched_gradient a z c, hasFDerivAt_pi']
  have hp : ∀ (i : Fin 2) (z : Fin 2 → ℝ), HasFDerivAt (fun w : Fin 2 → ℝ => w i)
      (ContinuousLinearMap.proj (R := ℝ) (φ := fun _ : Fin 2 => ℝ) i) z := fun i z =>
    (ContinuousLinearMap.proj (R := ℝ) (φ := fun _ : Fin 2 => ℝ) i).hasFDerivAt
  intro i
  fin_cases i
  · refine HasFDerivAt.congr_fderiv ((((((hp 0 y).const_mul 2).sub_const (a 0)).const_mul 4).const_mul c)) ?_
    ext v; simp; ring
  · refine HasFDerivAt.congr_fderiv ((((((hp 1 y).const_mul 3).sub_const (a 1)).const_mul 6).const_mul c)) ?_
    ext v; simp; ring

theorem stretched_second_matrix (a y : Fin 2 → ℝ) (c : ℝ) :
    LinearMap.toMatrix' (fderiv ℝ (Ad.grad fun x => c * ∑ j, stretched x a j ^ 2) y).toLinearMap = !![c * 8, 0; 0, c * 18] := by
  ext i j
  rw [(stretched_second a y c).fderiv, LinearMap.toMatrix'_apply]
  fin_cases i <;> fin_cases j <;> simp

theorem stretched_second_invertible (a y : Fin 2 → ℝ) {c : ℝ} (hc : c ≠ 0) :
    (fderiv ℝ (Ad.grad fun x => c * ∑ j, stretched x a j ^ 2) y).IsInvertible := by
  apply toMatrix_invertible
  rw [stretched_second_matrix, Matrix.det_fin_two]
  simpa using hc

theorem stretched_hessian_truthful (a y : Fin 2 → ℝ) :
    Truthful [.diagonal, .positiveSemidefinite] (hessianMatrix (fun x => ∑ j, stretched x a j ^ 2) y) := by
  have e : hessianMatrix (fun x => ∑ j, stretched x a j ^ 2) y = !![8, 0; 0, 18] := by
    have h := stretched_second_matrix a y 1
    simp only [one_mul] at h
    rw [← h]
    ext i j
    rw [LinearMap.toMatrix'_apply]
    rfl
  rw [e]
  intro t ht
  simp only [List.mem_cons, List.not_mem_nil, or_false] at ht
  rcases ht with rfl | rfl
  · intro i j hij
    fin_cases i <;> fin_cases j <;> simp at hij ⊢
  · refine ⟨fun i j => by fin_cases i <;> fin_cases j <;> simp, fun x => ?_⟩
    simp [Fin.sum_univ_two]
    nlinarith [sq_nonneg (x 0), sq_nonneg (x 1)]

theorem stretched_branch (a0 : Fin 2 → ℝ) : IsBranch (fun a z => IsLocalMin (fun x => ∑ j, stretched x a j ^ 2) z)
    (fun a => ![a 0 / 2, a 1 / 3]) a0 ![a0 0 / 2, a0 1 / 3] := by
  refine ⟨?_, rfl, Filter.Eventually.of_forall fun a => Filter.Eventually.of_forall fun x => ?_⟩
  · apply Continuous.continuousAt
    refine continuous_pi fun i => ?_
    fin_cases i
    · show Continuous fun a : Fin 2 → ℝ => a 0 / 2
      fun_prop
    · show Continuous fun a : Fin 2 → ℝ => a 1 / 3
      fun_prop
  · have : ∑ j, stretched ![a 0 / 2, a 1 / 3] a j ^ 2 = 0 := by
      rw [stretched_objective]
      simp
      ring
    show ∑ j, stretched ![a 0 / 2, a 1 / 3] a j ^ 2 ≤ ∑ j, stretched x a j ^ 2
    rw [this]
    exact Finset.sum_nonneg fun j _ => sq_nonneg _

/-- The derivatives of the minimum of the sum of squares of `stretched`, as a minimisation and as a least-squares problem. -/
example (a0 : Fin 2 → ℝ) :=
  C117_minimise_derivative (μ := Empty) (R := Unit) (frugal 2) frugal_trustworthy [.diagonal, .positiveSemidefinite]
    (fun inputs => (![inputs (.inl 0) / 2, inputs (.inl 1) / 3], ())) (Sum.elim a0 fun e => e.elim) a0 rfl _ rfl
    (fun y a => ∑ j, stretched y a j ^ 2)
    (ContDiff.contDiffAt (ContDiff.sum fun j _ => (contDiff_pi.1 stretched_smooth j).pow 2))
    (by have h := stretched_second_invertible a0 ![a0 0 / 2, a0 1 / 3] (c := 1) one_ne_zero
        simp only [one_mul] at h
        exact h)
    (stretched_hessian_truthful a0 _) _ (stretched_branch a0)

example (a0 : Fin 2 → ℝ) :=
  C117_least_squares_derivative_partial (μ := Empty) (R := Unit) (frugal 2) frugal_trustworthy
    [.diagonal, .positiveSemidefinite] .leastSquaresSolver (by decide)
    (fun inputs => (![inputs (.inl 0) / 2, inputs (.inl 1) / 3], ())) (Sum.elim a0 fun e => e.elim) a0 rfl _ rfl stretched
    stretched_smooth.contDiffAt (stretched_second_invertible a0 _ (by norm_num)) (stretched_hessian_truthful a0 _) _
    (stretched_branch a0)

/-- The derivative of the fixed point of `y ↦ stretched y a + y`. -/
example (a0 : Fin 2 → ℝ) :=
  C117_fixed_point_derivative (μ := Empty) (R := Unit) (frugal 2) frugal_trustworthy [.diagonal] .fixedPointSolver
    (fun inputs => (![inputs (.inl 0) / 2, inputs (.inl 1) / 3], ())) (Sum.elim a0 fun e => e.elim) a0 rfl _ rfl
    (fun y a => stretched y a + y)
    (ContDiff.contDiffAt (stretched_smooth.add contDiff_fst))
    (by have h : HasFDerivAt (fun y => stretched y a0 + y) _ ![a0 0 / 2, a0 1 / 3] :=
          (stretched_deriv a0 ![a0 0 / 2, a0 1 / 3]).add (hasFDerivAt_id _)
        show (fderiv ℝ (fun y => stretched y a0 + y) ![a0 0 / 2, a0 1 / 3] - ContinuousLinearMap.id ℝ _).IsInvertible
        rw [h.fderiv, add_sub_cancel_right, ← (stretched_deriv a0 ![a0 0 / 2, a0 1 / 3]).fderiv]
        exact stretched_invertible a0 _)
    (by have h : HasFDerivAt (fun y => stretched y a0 + y) _ ![a0 0 / 2, a0 1 / 3] :=
          (stretched_deriv a0 ![a0 0 / 2, a0 1 / 3]).add (hasFDerivAt_id _)
        intro t ht
        rw [List.mem_singleton] at ht
        subst ht
        intro i j hij
        rw [Matrix.sub_apply, Matrix.one_apply_ne hij, sub_zero]
        show fderiv ℝ (fun y => stretched y a0 + y) ![a0 0 / 2, a0 1 / 3] (Pi.single j 1) i = 0
        rw [h.fderiv]
        fin_cases i <;> fin_cases j <;> simp at hij ⊢)
    (fun a => ![a 0 / 2, a 1 / 3]) ⟨(stretched_branch a0).1, rfl, Filter.Eventually.of_forall fun a => by
      funext i
      fin_cases i <;> simp [stretched] <;> ring⟩

end Verif.Props
