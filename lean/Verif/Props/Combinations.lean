import Verif.Props.Driver
import Verif.Model.LBFGS
import Verif.Model.Dogleg
import Verif.Model.LevenbergMarquardt

/-! Property C76: which searches and descents can be combined with which solvers. -/

namespace Verif.Props

open Verif Verif.Spec Verif.Driver

/-- The public searches. -/
inductive SearchName where
  | learningRate | backtrackingArmijo | linearTrustRegion | classicalTrustRegion

/-- The public descents. -/
inductive DescentName where
  | steepest | nonlinearCG | newton | dampedNewton | indirectDampedNewton | dogleg

/-- What a family of solvers knows about the function to be minimised: its gradient; also an approximation to the Hessian
(`use_inverse=False`); also an approximation to the inverse of the Hessian (`use_inverse=True`); residuals and their Jacobian. -/
inductive Knows where
  | gradient | hessian | inverseHessian | residuals

/-- The documented requirements of the searches: `ClassicalTrustRegion` needs an approximation to the Hessian, the others do not. -/
def SearchName.works : SearchName → Knows → Prop
  | .classicalTrustRegion, .gradient => False
  | .classicalTrustRegion, .inverseHessian => False
  | _, _ => True

/-- The documented requirements of the descents: Newton descents need (inverse) Hessians or Jacobians, damped and dogleg descents
need Hessians or Jacobians. -/
def DescentName.works : DescentName → Knows → Prop
  | .steepest, _ => True
  | .nonlinearCG, _ => True
  | .newton, .gradient => False
  | .newton, _ => True
  | _, .hessian => True
  | _, .residuals => True
  | _, _ => False

variable {ι κ A : Type} [Fintype ι] [DecidableEq ι] [Fintype κ]

/-- The parameters of searches and descents, all arbitrary. -/
structure Choices (ι κ : Type) where
  rate : ℝ
  armijo : Armijo.Cfg ℝ
  trust : TrustRegion.Cfg ℝ
  normalise : Option ((ι → ℝ) → ℝ)
  beta : (ι → ℝ) → (ι → ℝ) → (ι → ℝ) → ℝ
  eps : ℝ
  fmax : ℝ
  ls : LinSolve ι κ
  lsDamped : LinSolve ι (κ ⊕ ι)
  trustNorm : (ι → ℝ) → ℝ
  findLambda : (ℝ → ℝ) → ℝ × Result
  shape : Dogleg.Shape ι

/-- The search of a given name. -/
noncomputable def SearchName.get (p : Choices ι κ) : SearchName → Σ SS : Type, Search ι κ SS
  | .learningRate => ⟨_, Verif.learningRate p.rate⟩
  | .backtrackingArmijo => ⟨_, Armijo.search p.armijo⟩
  | .linearTrustRegion => ⟨_, TrustRegion.linear p.trust⟩
  | .classicalTrustRegion => ⟨_, TrustRegion.classical p.trust⟩

/-- The descent of a given name. -/
noncomputable def DescentName.get (p : Choices ι κ) : DescentName → Σ DS : Type, Descent ι κ DS
  | .steepest => ⟨_, steepestDescent p.normalise⟩
  | .nonlinearCG => ⟨_, NonlinearCG.descent p.beta⟩
  | .newton => ⟨_, newtonDescent p.ls p.normalise⟩
  | .dampedNewton => ⟨_, dampedNewtonDescent p.eps p.fmax p.lsDamped⟩
  | .indirectDampedNewton => ⟨_, indirectDescent p.eps p.fmax p.ls p.lsDamped p.trustNorm p.findLambda⟩
  | .dogleg => ⟨_, Dogleg.descent p.eps p.ls p.shape⟩

/-- A solve is refused: it raises a `ValueError`, whatever the function, the starting point, the budget and `throw`. -/
def Refused {Y Out Aux St Stats : Type} (S : Solver Y Out Aux St Stats) : Prop :=
  ∀ af fn aux0 y0 ms throw, ∃ msg, iterativeSolve S af fn aux0 y0 ms throw = some (.error (.valueError msg))

/-- A solve is run: it never raises a `ValueError`. -/
def Accepted {Y Out Aux St Stats : Type} (S : Solver Y Out Aux St Stats) : Prop :=
  ∀ af fn aux0 y0 ms throw msg, iterativeSolve S af fn aux0 y0 ms throw ≠ some (.error (.valueError msg))

/-- The combination is accepted exactly if both parts work with what the solver knows, and refused otherwise. -/
def RunsIff {Y Out Aux St Stats : Type} (S : Solver Y Out Aux St Stats) (s : SearchName) (d : DescentName) (k : Knows) : Prop :=
  (s.works k ∧ d.works k → Accepted S) ∧ (¬ (s.works k ∧ d.works k) → Refused S)

theorem refused_of {Y Out Aux St Stats : Type} {S : Solver Y Out Aux St Stats}
    (h : ∀ fn y0, ∃ msg, S.init fn y0 = .error (.valueError msg)) : Refused S := by
  intro af fn aux0 y0 ms throw
  obtain ⟨msg, hm⟩ := h fn y0
  exact ⟨msg, by simp [iterativeSolve, iterate, hm]⟩

theorem accepted_of {Y Out Aux St Stats : Type} {S : Solver Y Out Aux St Stats} (h : ∀ fn y0, ∃ st, S.init fn y0 = .ok st) :
    Accepted S := by
  intro af fn aux0 y0 ms throw msg hc
  obtain ⟨st, hst⟩ := h fn y0
  simp only [iterativeSolve, iterate, hst, Option.map_map, Option.map_eq_some_iff, Function.comp] at hc
  obtain ⟨c, _, hc⟩ := hc
  split_ifs at hc
  cases hc

theorem search_accepts (p : Choices ι κ) (s : SearchName) :
    (∀ f g, (s.get p).2.accepts (.evalGrad f g) = true ↔ s.works .gradient) ∧
    (∀ f g h, (s.get p).2.accepts (.evalGradHessian f g h) = true ↔ s.works .hessian) ∧
    (∀ f g h, (s.get p).2.accepts (.evalGradHessianInv f g h) = true ↔ s.works .inverseHessian) ∧
    (∀ r J, (s.get p).2.accepts (.residualJac r J) = true ↔ s.works .residuals) := by
  cases s <;> simp [SearchName.get, SearchName.works, learningRate, Armijo.search, TrustRegion.linear, TrustRegion.classical,
    TrustRegion.search, FnInfo.grad?]

theorem descent_accepts (p : Choices ι κ) (d : DescentName) :
    (∀ f g, (d.get p).2.accepts (.evalGrad f g) = true ↔ d.works .gradient) ∧
    (∀ f g h, (d.get p).2.accepts (.evalGradHessian f g h) = true ↔ d.works .hessian) ∧
    (∀ f g h, (d.get p).2.accepts (.evalGradHessianInv f g h) = true ↔ d.works .inverseHessian) ∧
    (∀ r J, (d.get p).2.accepts (.residualJac r J) = true ↔ d.works .residuals) := by
  cases d <;> simp [DescentName.get, DescentName.works, steepestDescent, NonlinearCG.descent, newtonDescent, newtonAccepts,
    dampedNewtonDescent, dampedAccepts, indirectDescent, Dogleg.descent, FnInfo.grad?]

/-- **C76.** Solvers that know the gradient (`AbstractGradientDescent`) run with every search but `ClassicalTrustRegion` and with
steepest and conjugate-gradient descents; every other combination is refused, before anything is computed. -/
theorem C76_gradient_descent (rtol atol : ℝ) (nY : (ι → ℝ) → ℝ) (nF : (Unit → ℝ) → ℝ) (p : Choices ι Unit) (s : SearchName)
    (d : DescentName) (grad : (ι → ℝ) → ι → ℝ) (aux0 : A) :
    RunsIff (GradientDescent.solver { rtol, atol, normY := nY, normF := nF, descent := (d.get p).2, search := (s.get p).2, grad }
      aux0) s d .gradient := by
  have hs := (search_accepts p s).1
  have hd := (descent_accepts p d).1
  refine ⟨fun h => accepted_of fun fn y0 => ?_, fun h => refused_of fun fn y0 => ?_⟩
  · simp only [GradientDescent.solver, GradientDescent.init, (hs _ _).2 h.1, (hd _ _).2 h.2]
    exact ⟨_, rfl⟩
  · refine ⟨"incompatible search or descent", ?_⟩
    simp only [GradientDescent.solver, GradientDescent.init]
    rw [if_pos]
    rw [← hs 0 y0, ← hd 0 y0] at h
    simpa [imp_iff_not_or] using h

/-- **C76.** Least-squares solvers (`AbstractGaussNewton`) run with every search and every descent. -/
theorem C76_gauss_newton (rtol atol : ℝ) (nY : (ι → ℝ) → ℝ) (nF : (κ → ℝ) → ℝ) (p : Choices ι κ) (s : SearchName)
    (d : DescentName) (jac : (ι → ℝ) → Matrix κ ι ℝ) (aux0 : A) :
    RunsIff (GaussNewton.solver { rtol, atol, normY := nY, normF := nF, descent := (d.get p).2, search := (s.get p).2, jac }
      aux0) s d .residuals ∧ s.works .residuals ∧ d.works .residuals := by
  have hs := (search_accepts p s).2.2.2
  have hd := (descent_accepts p d).2.2.2
  have hsw : s.works .residuals := by cases s <;> exact trivial
  have hdw : d.works .residuals := by cases d <;> exact trivial
  refine ⟨⟨fun h => accepted_of fun fn y0 => ?_, fun h => absurd ⟨hsw, hdw⟩ h⟩, hsw, hdw⟩
  simp only [GaussNewton.solver, GaussNewton.init, (hs _ _).2 h.1, (hd _ _).2 h.2]
  exact ⟨_, rfl⟩

/-- The Hessian updates of the library: `BFGS`, `DFP` and `LBFGS` (of any history length), with or without `use_inverse`. -/
inductive UpdateName where
  | bfgs (useInverse : Bool) | dfp (useInverse : Bool) | lbfgs (useInverse : Bool) (history : Nat)

def UpdateName.knows : UpdateName → Knows
  | .bfgs b => if b then .inverseHessian else .hessian
  | .dfp b => if b then .inverseHessian else .hessian
  | .lbfgs b _ => if b then .inverseHessian else .hessian

noncomputable def UpdateName.get (eps : ℝ) (la : ∀ h, LBFGS.DenseLA h) : UpdateName → Σ HS : Type, QuasiNewton.HessianUpdate ι HS
  | .bfgs b => ⟨_, QuasiNewton.bfgs eps b⟩
  | .dfp b => ⟨_, QuasiNewton.dfp eps b⟩
  | .lbfgs true h => ⟨_, LBFGS.inverse eps (h + 1)⟩
  | .lbfgs false h => ⟨_, LBFGS.direct eps (h + 1) (la (h + 1))⟩

/-- **C76.** Quasi-Newton solvers with `use_inverse=False` run with every search and every descent; with `use_inverse=True` they
run with every search but `ClassicalTrustRegion` and with steepest, conjugate-gradient and Newton descents, and every other
combination is refused. -/
theorem C76_quasi_newton (rtol atol eps : ℝ) (la : ∀ h, LBFGS.DenseLA h) (nY : (ι → ℝ) → ℝ) (nF : (Unit → ℝ) → ℝ)
    (p : Choices ι Unit) (s : SearchName) (d : DescentName) (u : UpdateName) (grad : (ι → ℝ) → ι → ℝ) (aux0 : A) :
    RunsIff (QuasiNewton.solver ⟨rtol, atol, nY, nF, (d.get p).2, (s.get p).2, (u.get eps la).2, grad⟩ aux0) s d u.knows := by
  obtain ⟨_, hs1, hs2, _⟩ := search_accepts p s
  obtain ⟨_, hd1, hd2, _⟩ := descent_accepts p d
  have hk : ∀ y : ι → ℝ, ((s.get p).2.accepts ((u.get eps la).2.initHessian y 0 fun _ => 0).1 = true ↔ s.works u.knows) ∧
      ((d.get p).2.accepts ((u.get eps la).2.initHessian y 0 fun _ => 0).1 = true ↔ d.works u.knows) := by
    intro y
    rcases u with b | b | ⟨b, h⟩ <;> cases b
    · exact ⟨hs1 _ _ _, hd1 _ _ _⟩
    · exact ⟨hs2 _ _ _, hd2 _ _ _⟩
    · exact ⟨hs1 _ _ _, hd1 _ _ _⟩
    · exact ⟨hs2 _ _ _, hd2 _ _ _⟩
    · exact ⟨hs1 _ _ _, hd1 _ _ _⟩
    · exact ⟨hs2 _ _ _, hd2 _ _ _⟩
  refine ⟨fun h => accepted_of fun fn y0 => ?_, fun h => refused_of fun fn y0 => ?_⟩
  · simp only [QuasiNewton.solver, QuasiNewton.init, (hk y0).1.2 h.1, (hk y0).2.2 h.2]
    exact ⟨_, rfl⟩
  · refine ⟨"incompatible search or descent", ?_⟩
    simp only [QuasiNewton.solver, QuasiNewton.init]
    rw [if_pos]
    rw [← (hk y0).1, ← (hk y0).2] at h
    simpa [imp_iff_not_or] using h

/-- **C76.** The documented example of a custom solver - dogleg descent, a BFGS update with `use_inverse=True`, a fixed learning
rate of `0.1` - is refused, on every problem. -/
theorem C76_documented_hybrid (rtol atol eps : ℝ) (la : ∀ h, LBFGS.DenseLA h) (nY : (ι → ℝ) → ℝ) (nF : (Unit → ℝ) → ℝ)
    (p : Choices ι Unit) (grad : (ι → ℝ) → ι → ℝ) (aux0 : A) :
    Refused (QuasiNewton.solver ⟨rtol, atol, nY, nF, Dogleg.descent p.eps p.ls p.shape, learningRate 0.1,
      QuasiNewton.bfgs eps true, grad⟩ aux0) :=
  (C76_quasi_newton rtol atol eps la nY nF { p with rate := 0.1 } .learningRate .dogleg (.bfgs true) grad aux0).2
    fun h => h.2

/-- Both outcomes occur in each family that can refuse. -/
example : SearchName.works .linearTrustRegion .gradient ∧ DescentName.works .nonlinearCG .gradient ∧
    ¬ SearchName.works .classicalTrustRegion .gradient ∧ DescentName.works .newton .inverseHessian ∧
    ¬ DescentName.works .dampedNewton .inverseHessian ∧ DescentName.works .dogleg .hessian :=
  ⟨trivial, trivial, id, trivial, id, trivial⟩

end Verif.Props
