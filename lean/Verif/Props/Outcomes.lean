import Verif.Props.Failures
import Verif.Props.NelderMead
import Verif.Props.LBFGSCompact
import Verif.Props.Optax
import Verif.Props.Golden
import Verif.Props.Bisection
import Verif.Props.BestSoFar
import Verif.Props.IndirectLM

/-! Property C105: no failure is invented.  For every solver, what the result of a solve can be. -/

namespace Verif.Props

open Verif Verif.Spec Verif.Driver Verif.SearchLoop

variable {ι κ A SS DS HS St Out Stats Y Aux : Type}

/-- The ways in which a finished solve can have ended: success; the budget was used up; the iterate from which the last
step was made is not finite; or a failure `r` of the solver's own, of which `own r` holds. -/
inductive Outcome (S : Solver Y Out Aux St Stats) (af : Y → Bool) (fn : Y → Out × Aux) (aux0 : Aux) (y0 : Y) (st0 : St)
    (ms : Option Nat) (sol : Solution Y Aux St Stats) (own : Result → Prop) : Prop
  | success : sol.result = .successful → Outcome S af fn aux0 y0 st0 ms sol own
  | outOfSteps : sol.result = .nonlinearMaxStepsReached → ms = some sol.numSteps → Outcome S af fn aux0 y0 st0 ms sol own
  | nonfinite : sol.result = .nonfinite → af (iterateAt S fn aux0 y0 st0 (sol.numSteps - 1)) = false →
      Outcome S af fn aux0 y0 st0 ms sol own
  | failure : sol.result ≠ .successful → own sol.result → Outcome S af fn aux0 y0 st0 ms sol own

/-- Nothing but the solver's own code, the budget and the finiteness test decides the result. -/
theorem outcome_of (S : Solver Y Out Aux St Stats) (af : Y → Bool) (fn : Y → Out × Aux) (aux0 : Aux) (y0 : Y) (st0 : St)
    (hi : S.init fn y0 = .ok st0) (ms : Option Nat) (throw : Bool) (sol : Solution Y Aux St Stats)
    (h : iterativeSolve S af fn aux0 y0 ms throw = some (.ok sol)) (own : Result → Prop)
    (hv : (verdictAt S fn aux0 y0 st0 sol.numSteps).2 ≠ .successful → own (verdictAt S fn aux0 y0 st0 sol.numSteps).2) :
    Outcome S af fn aux0 y0 st0 ms sol own := by
  obtain ⟨st0', hi', _, hst, _, _, _, hr⟩ := solve_spec _ _ _ _ _ _ _ _ h
  rw [hi] at hi'; cases hi'
  by_cases hc : Continues S af fn aux0 y0 st0 sol.numSteps
  · rw [if_pos hc] at hr
    rcases hst with ⟨h1, _⟩ | h1
    · exact absurd hc h1
    · exact .outOfSteps hr h1
  · rw [if_neg hc] at hr
    by_cases haf : af (testedAt S fn aux0 y0 st0 sol.numSteps) = true
    · rw [if_pos haf] at hr
      by_cases hs : (verdictAt S fn aux0 y0 st0 sol.numSteps).2 = .successful
      · exact .success (hr.trans hs)
      · exact .failure (by rw [hr]; exact hs) (by rw [hr]; exact hv hs)
    · rw [if_neg haf] at hr
      exact .nonfinite hr (Bool.eq_false_iff.2 haf)

/-! ### Solvers without failures of their own -/

section
variable (ms : Option Nat) (throw : Bool)

/-- **C105.** Bisection has no failures of its own: a solve that gets past the initial checks ends with success, by running
out of steps, or because an iterate is not finite.  Over any type of scalars, so also in floating point. -/
theorem C105_bisection {K : Type} [Add K] [Sub K] [Mul K] [OfScientific K] [Zero K] [LT K] [DecidableLT K] [HasAbs K]
    (cfg : Bisection.Cfg K) (af : K → Bool) (fn : K → K × A) (aux0 : A) (y0 : K) (st0)
    (hi : (Bisection.solver cfg).init fn y0 = .ok st0) (sol)
    (h : iterativeSolve (Bisection.solver cfg) af fn aux0 y0 ms throw = some (.ok sol)) :
    Outcome (Bisection.solver cfg) af fn aux0 y0 st0 ms sol fun _ => False :=
  outcome_of _ af fn aux0 y0 st0 hi ms throw sol h _ fun hv => hv rfl

/-- **C105.** Golden-section search: likewise. -/
theorem C105_golden (cfg : Golden.Cfg) (af : ℝ → Bool) (fn : ℝ → ℝ × A) (aux0 : A) (y0 : ℝ) (st0)
    (hi : (Golden.solver cfg).init fn y0 = .ok st0) (sol)
    (h : iterativeSolve (Golden.solver cfg) af fn aux0 y0 ms throw = some (.ok sol)) :
    Outcome (Golden.solver cfg) af fn aux0 y0 st0 ms sol fun _ => False :=
  outcome_of _ af fn aux0 y0 st0 hi ms throw sol h _ fun hv => hv rfl

/-- **C105.** Fixed-point iteration: likewise (any scalars). -/
theorem C105_fixed_point {K : Type} [Add K] [Sub K] [Mul K] [Div K] [One K] [LT K] [DecidableLT K] [HasAbs K]
    (cfg : FixedPointIter.Cfg ι K) (af : (ι → K) → Bool) (fn : (ι → K) → (ι → K) × A) (aux0 : A) (y0 : ι → K) (st0)
    (hi : (FixedPointIter.solver cfg).init fn y0 = .ok st0) (sol)
    (h : iterativeSolve (FixedPointIter.solver cfg) af fn aux0 y0 ms throw = some (.ok sol)) :
    Outcome (FixedPointIter.solver cfg) af fn aux0 y0 st0 ms sol fun _ => False :=
  outcome_of _ af fn aux0 y0 st0 hi ms throw sol h _ fun hv => hv rfl

/-- **C105.** `OptaxMinimiser`: likewise, for every optimiser. -/
theorem C105_optax {OS : Type} (cfg : Optax.Cfg ι OS) (af : (ι → ℝ) → Bool) (fn : (ι → ℝ) → ℝ × A) (aux0 : A)
    (y0 : ι → ℝ) (st0) (hi : (Optax.solver cfg).init fn y0 = .ok st0) (sol)
    (h : iterativeSolve (Optax.solver cfg) af fn aux0 y0 ms throw = some (.ok sol)) :
    Outcome (Optax.solver cfg) af fn aux0 y0 st0 ms sol fun _ => False :=
  outcome_of _ af fn aux0 y0 st0 hi ms throw sol h _ fun hv => hv rfl

end

/-! ### Search-based solvers -/

/-- A search-based solver whose search never fails can only fail with a code of its descent. -/
theorem loop_outcome [Fintype κ] {S : Solver (ι → ℝ) Out A St Unit} {fn : (ι → ℝ) → Out × A} {obj : (ι → ℝ) → ℝ}
    {srch : Search ι κ SS} {desc : Descent ι κ DS} {v : View ι κ A SS DS St} {Good : (ι → ℝ) → FnInfo ι κ → Prop}
    (L : Laws S fn obj srch desc v Good) (hb : Benign srch) (af : (ι → ℝ) → Bool)
    (aux0 : A) (y0 : ι → ℝ) (st0 : St) (hi : S.init fn y0 = .ok st0) (h0 : v.result st0 = .successful)
    (ms : Option Nat) (throw : Bool) (sol) (h : iterativeSolve S af fn aux0 y0 ms throw = some (.ok sol))
    (own : Result → Prop)
    (hd : ∀ k, sol.numSteps = k + 1 → ∀ t y' d',
      let r := (desc.step t (desc.query y' (v.fInfo (stateAt S fn aux0 y0 st0 (k + 1))) d')).2
      r ≠ .successful → own r) :
    Outcome S af fn aux0 y0 st0 ms sol own := by
  refine outcome_of _ af fn aux0 y0 st0 hi ms throw sol h _ ?_
  cases hn : sol.numSteps with
  | zero =>
    intro hv
    exact absurd (show (S.terminate fn _ st0).2 = _ by rw [L.terminate]; exact h0) hv
  | succ k =>
    obtain ⟨y', d', hv⟩ := loop_verdict L hb.first aux0 y0 st0 hi k
    have hok : (v.ask srch (iterateAt S fn aux0 y0 st0 k) (stateAt S fn aux0 y0 st0 k)).2.2.1 = .successful :=
      hb.ok _ _ _ _ _ _
    rw [hok, if_pos rfl] at hv
    rw [hv]
    exact hd k hn _ _ _

section
variable [Fintype ι] [Fintype κ] (aux0 : A) (fn : (ι → ℝ) → (κ → ℝ) × A) (y0 : ι → ℝ)
  (af : (ι → ℝ) → Bool) (ms : Option Nat) (throw : Bool)

theorem gn_outcome (cfg : GaussNewton.Cfg ι κ SS DS) (hb : Benign cfg.search) (st0)
    (hi : (GaussNewton.solver cfg aux0).init fn y0 = .ok st0) (sol)
    (h : iterativeSolve (GaussNewton.solver cfg aux0) af fn aux0 y0 ms throw = some (.ok sol)) (own : Result → Prop)
    (hd : let z := iterateAt (GaussNewton.solver cfg aux0) fn aux0 y0 st0 sol.numSteps
      ∀ t y' d', let r := (cfg.descent.step t (cfg.descent.query y' (.residualJac (fn z).1 (cfg.jac z)) d')).2
        r ≠ .successful → own r) :
    Outcome (GaussNewton.solver cfg aux0) af fn aux0 y0 st0 ms sol own := by
  have L := gn_laws cfg aux0 fn
  refine loop_outcome L hb af aux0 y0 st0 hi ?_ ms throw sol h own ?_
  · simp only [GaussNewton.solver, GaussNewton.init] at hi
    split at hi
    · cases hi
    · cases hi; rfl
  · intro k hk t y' d'
    rw [(stored L hb.first aux0 y0 st0 hi k).1, ← hk]
    exact hd t y' d'

/-- **C105.** Gauss-Newton: the only failure of its own is the one which the linear solver reports for the Jacobian and the
residual at the last iterate. -/
theorem C105_gauss_newton (ls : LinSolve ι κ) (norm : Option ((ι → ℝ) → ℝ))
    (cfg : GaussNewton.Cfg ι κ SS ((ι → ℝ) × Result)) (hc : cfg.descent = newtonDescent ls norm) (hb : Benign cfg.search)
    (st0) (hi : (GaussNewton.solver cfg aux0).init fn y0 = .ok st0) (sol)
    (h : iterativeSolve (GaussNewton.solver cfg aux0) af fn aux0 y0 ms throw = some (.ok sol)) :
    let z := iterateAt (GaussNewton.solver cfg aux0) fn aux0 y0 st0 sol.numSteps
    Outcome (GaussNewton.solver cfg aux0) af fn aux0 y0 st0 ms sol fun r => (ls.rect (cfg.jac z) (fn z).1).2 = r := by
  refine gn_outcome aux0 fn y0 af ms throw cfg hb st0 hi sol h _ fun t y' d' _ => ?_
  rw [hc]
  cases norm <;> rfl

theorem dogleg_code (eps : ℝ) (shape : Dogleg.Shape ι) (t : ℝ) (st : Dogleg.State ι) :
    (Dogleg.step eps shape t st).2 = Result.successful ∨ (Dogleg.step eps shape t st).2 = st.result ∨
      ∃ norm rf f, shape = .other norm rf ∧ (Dogleg.step eps shape t st).2 = (rf f).2 := by
  by_cases hs : st.result = .successful
  · have e : (Dogleg.step eps shape t st).2 = _ := if_pos hs
    rw [e]
    split
    · exact .inl rfl
    · split
      · cases shape with
        | twoNorm => exact .inl rfl
        | other norm rf => exact .inr (.inr ⟨norm, rf, _, rfl, rfl⟩)
      · exact .inl rfl
  · exact .inr (.inl (if_neg hs))

/-- **C105.** Dogleg with the two-norm (the default): likewise. -/
theorem C105_dogleg (eps : ℝ) (ls : LinSolve ι κ)
    (cfg : GaussNewton.Cfg ι κ SS (Dogleg.State ι)) (hc : cfg.descent = Dogleg.descent eps ls .twoNorm)
    (hb : Benign cfg.search)
    (st0) (hi : (GaussNewton.solver cfg aux0).init fn y0 = .ok st0) (sol)
    (h : iterativeSolve (GaussNewton.solver cfg aux0) af fn aux0 y0 ms throw = some (.ok sol)) :
    let z := iterateAt (GaussNewton.solver cfg aux0) fn aux0 y0 st0 sol.numSteps
    Outcome (GaussNewton.solver cfg aux0) af fn aux0 y0 st0 ms sol fun r => (ls.rect (cfg.jac z) (fn z).1).2 = r := by
  refine gn_outcome aux0 fn y0 af ms throw cfg hb st0 hi sol h _ fun t y' d' hr => ?_
  rw [hc] at hr ⊢
  rcases dogleg_code eps .twoNorm t (Dogleg.query eps ls .twoNorm (.residualJac (fn _).1 (cfg.jac _))) with h1 | h1 | ⟨norm, rf, f, h1, -⟩
  · exact absurd h1 hr
  · exact h1.symm
  · cases h1

/-- **C105.** Dogleg with any other norm: in addition, what the inner root find reports. -/
theorem C105_dogleg_other (eps : ℝ) (ls : LinSolve ι κ) (norm : (ι → ℝ) → ℝ) (rootFind : (ℝ → ℝ) → ℝ × Result)
    (cfg : GaussNewton.Cfg ι κ SS (Dogleg.State ι)) (hc : cfg.descent = Dogleg.descent eps ls (.other norm rootFind))
    (hb : Benign cfg.search)
    (st0) (hi : (GaussNewton.solver cfg aux0).init fn y0 = .ok st0) (sol)
    (h : iterativeSolve (GaussNewton.solver cfg aux0) af fn aux0 y0 ms throw = some (.ok sol)) :
    let z := iterateAt (GaussNewton.solver cfg aux0) fn aux0 y0 st0 sol.numSteps
    Outcome (GaussNewton.solver cfg aux0) af fn aux0 y0 st0 ms sol fun r =>
      (ls.rect (cfg.jac z) (fn z).1).2 = r ∨ ∃ f, (rootFind f).2 = r := by
  refine gn_outcome aux0 fn y0 af ms throw cfg hb st0 hi sol h _ fun t y' d' hr => ?_
  rw [hc] at hr ⊢
  rcases dogleg_code eps (.other norm rootFind) t
      (Dogleg.query eps ls (.other norm rootFind) (.residualJac (fn _).1 (cfg.jac _))) with h1 | h1 | ⟨norm', rf, f, h1, h2⟩
  · exact absurd h1 hr
  · exact .inl h1.symm
  · cases h1
    exact .inr ⟨f, h2.symm⟩

/-- **C105.** Levenberg-Marquardt: the only failure of its own is the one which the linear solver reports for a damped
system at the last iterate. -/
theorem C105_levenberg_marquardt [DecidableEq ι] (eps fmax : ℝ) (ls : LinSolve ι (κ ⊕ ι))
    (cfg : GaussNewton.Cfg ι κ SS (FnInfo ι κ)) (hc : cfg.descent = dampedNewtonDescent eps fmax ls)
    (hb : Benign cfg.search)
    (st0) (hi : (GaussNewton.solver cfg aux0).init fn y0 = .ok st0) (sol)
    (h : iterativeSolve (GaussNewton.solver cfg aux0) af fn aux0 y0 ms throw = some (.ok sol)) :
    let z := iterateAt (GaussNewton.solver cfg aux0) fn aux0 y0 st0 sol.numSteps
    Outcome (GaussNewton.solver cfg aux0) af fn aux0 y0 st0 ms sol fun r =>
      ∃ t, (ls.rect (dampedOperator (cfg.jac z) (lmParam eps fmax t)) (dampedVector (fn z).1)).2 = r := by
  refine gn_outcome aux0 fn y0 af ms throw cfg hb st0 hi sol h _ fun t y' d' _ => ?_
  rw [hc]
  exact ⟨t, rfl⟩

/-- **C105.** Indirect Levenberg-Marquardt: one which a linear solver reports for the undamped or a damped system at the last
iterate. -/
theorem C105_indirect [DecidableEq ι] (eps fmax : ℝ) (ls : LinSolve ι κ) (lsD : LinSolve ι (κ ⊕ ι))
    (norm : (ι → ℝ) → ℝ) (findLambda : (ℝ → ℝ) → ℝ × Result)
    (cfg : GaussNewton.Cfg ι κ SS (IndirectState ι κ))
    (hc : cfg.descent = indirectDescent eps fmax ls lsD norm findLambda) (hb : Benign cfg.search)
    (st0) (hi : (GaussNewton.solver cfg aux0).init fn y0 = .ok st0) (sol)
    (h : iterativeSolve (GaussNewton.solver cfg aux0) af fn aux0 y0 ms throw = some (.ok sol)) :
    let z := iterateAt (GaussNewton.solver cfg aux0) fn aux0 y0 st0 sol.numSteps
    Outcome (GaussNewton.solver cfg aux0) af fn aux0 y0 st0 ms sol fun r =>
      (ls.rect (cfg.jac z) (fn z).1).2 = r ∨
      ∃ t, (lsD.rect (dampedOperator (cfg.jac z) (lmParam eps fmax t)) (dampedVector (fn z).1)).2 = r := by
  refine gn_outcome aux0 fn y0 af ms throw cfg hb st0 hi sol h _ fun t y' d' _ => ?_
  rw [hc]
  simp only [indirectDescent, newtonStep, dampedNewtonStep]
  split
  · exact .inr ⟨_, rfl⟩
  · exact .inl rfl

end

section
variable [Fintype ι] (aux0 : A) (fn : (ι → ℝ) → ℝ × A) (y0 : ι → ℝ) (af : (ι → ℝ) → Bool) (ms : Option Nat)
  (throw : Bool)

theorem gd_outcome (cfg : GradientDescent.Cfg ι SS DS) (hb : Benign cfg.search)
    (hd : ∀ t d, (cfg.descent.step t d).2 = .successful) (st0)
    (hi : (GradientDescent.solver cfg aux0).init fn y0 = .ok st0) (sol)
    (h : iterativeSolve (GradientDescent.solver cfg aux0) af fn aux0 y0 ms throw = some (.ok sol)) :
    Outcome (GradientDescent.solver cfg aux0) af fn aux0 y0 st0 ms sol fun _ => False := by
  refine loop_outcome (gd_laws cfg aux0 fn) hb af aux0 y0 st0 hi ?_ ms throw sol h _ fun _ _ t y' d' hr => hr (hd _ _)
  simp only [GradientDescent.solver, GradientDescent.init] at hi
  split at hi
  · cases hi
  · cases hi; rfl

/-- **C105.** Gradient descent, normalised or not, with any search of the library, has no failures of its own. -/
theorem C105_gradient_descent (norm : Option ((ι → ℝ) → ℝ)) (cfg : GradientDescent.Cfg ι SS (ι → ℝ))
    (hc : cfg.descent = steepestDescent norm) (hb : Benign cfg.search) (st0)
    (hi : (GradientDescent.solver cfg aux0).init fn y0 = .ok st0) (sol)
    (h : iterativeSolve (GradientDescent.solver cfg aux0) af fn aux0 y0 ms throw = some (.ok sol)) :
    Outcome (GradientDescent.solver cfg aux0) af fn aux0 y0 st0 ms sol fun _ => False :=
  gd_outcome aux0 fn y0 af ms throw cfg hb (by rw [hc]; exact fun _ _ => rfl) st0 hi sol h

/-- **C105.** Nonlinear CG with any formula for `beta` and any search of the library: likewise. -/
theorem C105_nonlinear_cg (rtol atol : ℝ) (normY : (ι → ℝ) → ℝ) (normF : (Unit → ℝ) → ℝ)
    (method : (ι → ℝ) → (ι → ℝ) → (ι → ℝ) → ℝ) (search : Search ι Unit SS) (grad : (ι → ℝ) → ι → ℝ)
    (hb : Benign search) (st0)
    (hi : (GradientDescent.solver (NonlinearCG.cfg rtol atol normY normF method search grad) aux0).init fn y0 = .ok st0)
    (sol) (h : iterativeSolve (GradientDescent.solver (NonlinearCG.cfg rtol atol normY normF method search grad) aux0)
      af fn aux0 y0 ms throw = some (.ok sol)) :
    Outcome (GradientDescent.solver (NonlinearCG.cfg rtol atol normY normF method search grad) aux0)
      af fn aux0 y0 st0 ms sol fun _ => False :=
  gd_outcome aux0 fn y0 af ms throw _ hb (fun _ _ => rfl) st0 hi sol h

/-- The Hessian update always hands on an approximation of the inverse Hessian. -/
def GivesInverse (h : QuasiNewton.HessianUpdate ι HS) : Prop :=
  (∀ y f g, ∃ M, (h.initHessian y f g).1 = .evalGradHessianInv f g M) ∧
  ∀ y z f g M f' g' hs, ∃ M', (h.updateHessian y z (.evalGradHessianInv f g M) f' g' hs).1 = .evalGradHessianInv f' g' M'

theorem inverse_updates [DecidableEq ι] (eps : ℝ) :
    GivesInverse (QuasiNewton.bfgs (ι := ι) eps true) ∧ GivesInverse (QuasiNewton.dfp (ι := ι) eps true) ∧
    ∀ (n : Nat) [NeZero n], GivesInverse (LBFGS.inverse (ι := ι) eps n) := by
  refine ⟨⟨fun y f g => ⟨_, rfl⟩, fun y z f g M f' g' hs => ⟨_, rfl⟩⟩,
    ⟨fun y f g => ⟨_, rfl⟩, fun y z f g M f' g' hs => ⟨_, rfl⟩⟩,
    fun n _ => ⟨fun y f g => ⟨_, rfl⟩, fun y z f g M f' g' hs => ?_⟩⟩
  simp only [LBFGS.inverse]
  split
  · exact ⟨_, rfl⟩
  · exact ⟨_, rfl⟩

/-- The Hessian update always hands on an approximation of the Hessian itself. -/
def GivesHessian (h : QuasiNewton.HessianUpdate ι HS) : Prop :=
  (∀ y f g, ∃ M, (h.initHessian y f g).1 = .evalGradHessian f g M) ∧
  ∀ y z f g M f' g' hs, ∃ M', (h.updateHessian y z (.evalGradHessian f g M) f' g' hs).1 = .evalGradHessian f' g' M'

theorem direct_updates [DecidableEq ι] (eps : ℝ) :
    GivesHessian (QuasiNewton.bfgs (ι := ι) eps false) ∧ GivesHessian (QuasiNewton.dfp (ι := ι) eps false) ∧
    ∀ (n : Nat) [NeZero n] (la : LBFGS.DenseLA n), GivesHessian (LBFGS.direct (ι := ι) eps n la) := by
  refine ⟨⟨fun y f g => ⟨_, rfl⟩, fun y z f g M f' g' hs => ⟨_, rfl⟩⟩,
    ⟨fun y f g => ⟨_, rfl⟩, fun y z f g M f' g' hs => ⟨_, rfl⟩⟩,
    fun n _ la => ⟨fun y f g => ⟨_, rfl⟩, fun y z f g M f' g' hs => ?_⟩⟩
  simp only [LBFGS.direct]
  split
  · exact ⟨_, rfl⟩
  · exact ⟨_, rfl⟩

theorem qn_form (cfg : QuasiNewton.Cfg ι SS DS HS) (P : FnInfo ι Unit → Prop)
    (h0 : ∀ y f g, P (cfg.hess.initHessian y f g).1)
    (h1 : ∀ y z i f' g' hs, P i → P (cfg.hess.updateHessian y z i f' g' hs).1) (st0)
    (hi : (QuasiNewton.solver cfg aux0).init fn y0 = .ok st0) (k : Nat) :
    P (stateAt (QuasiNewton.solver cfg aux0) fn aux0 y0 st0 k).fInfo := by
  induction k with
  | zero =>
    show P st0.fInfo
    simp only [QuasiNewton.solver, QuasiNewton.init] at hi
    split at hi
    · cases hi
    · cases hi
      exact h0 _ _ _
  | succ k ih =>
    show P (QuasiNewton.step cfg fn _ (stateAt (QuasiNewton.solver cfg aux0) fn aux0 y0 st0 k)).2.1.fInfo
    simp only [QuasiNewton.step]
    split
    · exact h1 _ _ _ _ _ _ ih
    · exact ih

theorem qn_outcome (cfg : QuasiNewton.Cfg ι SS DS HS) (hrec : RecordsPoint cfg.hess) (hb : Benign cfg.search) (st0)
    (hi : (QuasiNewton.solver cfg aux0).init fn y0 = .ok st0) (sol)
    (h : iterativeSolve (QuasiNewton.solver cfg aux0) af fn aux0 y0 ms throw = some (.ok sol)) (own : Result → Prop)
    (hd : ∀ k, sol.numSteps = k + 1 → ∀ t y' d',
      let r := (cfg.descent.step t (cfg.descent.query y'
        (stateAt (QuasiNewton.solver cfg aux0) fn aux0 y0 st0 (k + 1)).fInfo d')).2
      r ≠ .successful → own r) :
    Outcome (QuasiNewton.solver cfg aux0) af fn aux0 y0 st0 ms sol own := by
  refine loop_outcome (qn_laws cfg aux0 fn hrec) hb af aux0 y0 st0 hi ?_ ms throw sol h own hd
  simp only [QuasiNewton.solver, QuasiNewton.init] at hi
  split at hi
  · cases hi
  · cases hi; rfl

/-- **C105.** Quasi-Newton solvers that approximate the inverse Hessian (BFGS, DFP and L-BFGS with `use_inverse=True`, see
`inverse_updates`), with any search of the library, have no failures of their own: they solve no linear systems. -/
theorem C105_quasi_newton_inverse (ls : LinSolve ι Unit) (norm : Option ((ι → ℝ) → ℝ))
    (cfg : QuasiNewton.Cfg ι SS ((ι → ℝ) × Result) HS) (hc : cfg.descent = newtonDescent ls norm)
    (hrec : RecordsPoint cfg.hess) (hinv : GivesInverse cfg.hess) (hb : Benign cfg.search) (st0)
    (hi : (QuasiNewton.solver cfg aux0).init fn y0 = .ok st0) (sol)
    (h : iterativeSolve (QuasiNewton.solver cfg aux0) af fn aux0 y0 ms throw = some (.ok sol)) :
    Outcome (QuasiNewton.solver cfg aux0) af fn aux0 y0 st0 ms sol fun _ => False := by
  have hform := qn_form aux0 fn y0 cfg (fun i => ∃ f g M, i = .evalGradHessianInv f g M)
    (fun y f g => let ⟨M, hM⟩ := hinv.1 y f g; ⟨_, _, M, hM⟩)
    (fun y z i f' g' hs => by rintro ⟨f, g, M, rfl⟩; obtain ⟨M', hM'⟩ := hinv.2 y z f g M f' g' hs; exact ⟨_, _, M', hM'⟩)
    st0 hi
  refine qn_outcome aux0 fn y0 af ms throw cfg hrec hb st0 hi sol h _ fun k _ t y' d' hr => hr ?_
  obtain ⟨f, g, M, hM⟩ := hform (k + 1)
  rw [hM, hc]
  cases norm <;> rfl

/-- **C105.** Quasi-Newton solvers that approximate the Hessian itself (`use_inverse=False`, see `direct_updates`): the only
failure of their own is one which the linear solver reports for an operator and the gradient at the last iterate. -/
theorem C105_quasi_newton (ls : LinSolve ι Unit) (norm : Option ((ι → ℝ) → ℝ))
    (cfg : QuasiNewton.Cfg ι SS ((ι → ℝ) × Result) HS) (hc : cfg.descent = newtonDescent ls norm)
    (hrec : RecordsPoint cfg.hess) (hdir : GivesHessian cfg.hess) (hb : Benign cfg.search) (st0)
    (hi : (QuasiNewton.solver cfg aux0).init fn y0 = .ok st0) (sol)
    (h : iterativeSolve (QuasiNewton.solver cfg aux0) af fn aux0 y0 ms throw = some (.ok sol)) :
    let z := iterateAt (QuasiNewton.solver cfg aux0) fn aux0 y0 st0 sol.numSteps
    Outcome (QuasiNewton.solver cfg aux0) af fn aux0 y0 st0 ms sol fun r =>
      ∃ B, (ls.square B (cfg.grad z)).2 = r := by
  refine qn_outcome aux0 fn y0 af ms throw cfg hrec hb st0 hi sol h _ fun k hk t y' d' hr => ?_
  have hs := (stored (qn_laws cfg aux0 fn hrec) hb.first aux0 y0 st0 hi k).1.2
  rw [hk]
  obtain ⟨f, g, B, hB⟩ := qn_form aux0 fn y0 cfg (fun i => ∃ f g M, i = .evalGradHessian f g M)
    (fun y f g => let ⟨M, hM⟩ := hdir.1 y f g; ⟨_, _, M, hM⟩)
    (fun y z i f' g' hs => by rintro ⟨f, g, M, rfl⟩; obtain ⟨M', hM'⟩ := hdir.2 y z f g M f' g' hs; exact ⟨_, _, M', hM'⟩)
    st0 hi (k + 1)
  have hs' : (stateAt (QuasiNewton.solver cfg aux0) fn aux0 y0 st0 (k + 1)).fInfo.grad? =
    some (cfg.grad (iterateAt (QuasiNewton.solver cfg aux0) fn aux0 y0 st0 (k + 1))) := hs
  rw [hB] at hs'
  refine ⟨B, ?_⟩
  rw [← Option.some.inj hs', hB, hc]
  cases norm <;> rfl

end

/-! ### Root finding -/

theorem newton_code {K J : Type} [Add K] [Sub K] [Mul K] [Div K] [Zero K] [One K] [OfNat K 2] [LT K]
    [DecidableLT K] [HasAbs K] (cfg : NewtonChord.Cfg ι κ K J) (y : ι → K) (st : NewtonChord.State ι κ K J)
    (hf : st.f.isSome = cfg.cauchy) :
    (NewtonChord.terminate cfg y st).2 = .successful ∨
    ((NewtonChord.terminate cfg y st).2 = st.result ∧ st.result ≠ .successful) ∨
    (cfg.cauchy = false ∧ 2 ≤ st.step ∧ (NewtonChord.terminate cfg y st).2 = .nonlinearDivergence) := by
  by_cases hs : st.result = .successful
  · cases hc : cfg.cauchy with
    | true =>
      rw [hc] at hf
      obtain ⟨f, hf⟩ := Option.isSome_iff_exists.1 hf
      left
      simp [NewtonChord.terminate, hs, hc, hf]
    | false =>
      by_cases h2 : 2 ≤ st.step
      · by_cases h3 : (!NewtonChord.small cfg st.diffsize && NewtonChord.diverged cfg (st.diffsize / st.diffsizePrev)) = true
        · right; right
          refine ⟨rfl, h2, ?_⟩
          simp only [Bool.and_eq_true, Bool.not_eq_true'] at h3
          simp [NewtonChord.terminate, hs, hc, h2, h3.1, h3.2]
        · left
          simp only [Bool.and_eq_true, Bool.not_eq_true', not_and] at h3
          simp only [NewtonChord.terminate, hs, hc, h2]
          simp
          exact fun h => Bool.eq_false_iff.2 (h3 h)
      · left
        simp [NewtonChord.terminate, hs, hc, h2]
  · right; left
    refine ⟨?_, hs⟩
    simp [NewtonChord.terminate, hs]

/-- **C105.** Newton and Chord: their own failures are one which the linear solver reports for the residual at the point from
which the last step was made, and divergence - the latter only after two steps, and never with
`cauchy_termination=True` (the default).  (Any scalars.) -/
theorem C105_newton {K J : Type} [Add K] [Sub K] [Mul K] [Div K] [Zero K] [One K] [OfNat K 2] [LT K]
    [DecidableLT K] [HasAbs K] (cfg : NewtonChord.Cfg ι κ K J) (af : (ι → K) → Bool)
    (fn : (ι → K) → (κ → K) × A) (aux0 : A) (y0 : ι → K) (ms : Option Nat) (throw : Bool) (st0)
    (hi : (NewtonChord.solver cfg).init fn y0 = .ok st0) (sol)
    (h : iterativeSolve (NewtonChord.solver cfg) af fn aux0 y0 ms throw = some (.ok sol)) :
    let z := iterateAt (NewtonChord.solver cfg) fn aux0 y0 st0 (sol.numSteps - 1)
    Outcome (NewtonChord.solver cfg) af fn aux0 y0 st0 ms sol fun r =>
      (∃ j, (cfg.linearSolve j (fn z).1).2 = r) ∨ (cfg.cauchy = false ∧ 2 ≤ sol.numSteps ∧ r = .nonlinearDivergence) := by
  cases hi
  refine outcome_of _ af fn aux0 y0 _ rfl ms throw sol h _ ?_
  intro hv
  have hf : ∀ k, (stateAt (NewtonChord.solver cfg) fn aux0 y0 (NewtonChord.init cfg y0) k).f.isSome = cfg.cauchy := by
    intro k
    cases k with
    | zero =>
      show (NewtonChord.init cfg y0).f.isSome = _
      simp only [NewtonChord.init]; cases cfg.cauchy <;> rfl
    | succ k =>
      show (NewtonChord.step cfg fn _ _).2.1.f.isSome = _
      simp only [NewtonChord.step]; cases cfg.cauchy <;> rfl
  have hstep : ∀ k, (stateAt (NewtonChord.solver cfg) fn aux0 y0 (NewtonChord.init cfg y0) k).step = k := by
    intro k
    induction k with
    | zero => rfl
    | succ k ih =>
      show (NewtonChord.step cfg fn _ (stateAt (NewtonChord.solver cfg) fn aux0 y0 (NewtonChord.init cfg y0) k)).2.1.step = _
      simp only [NewtonChord.step, ih]
  rcases newton_code cfg (testedAt (NewtonChord.solver cfg) fn aux0 y0 (NewtonChord.init cfg y0) sol.numSteps)
    (stateAt (NewtonChord.solver cfg) fn aux0 y0 (NewtonChord.init cfg y0) sol.numSteps) (hf _) with h1 | ⟨h1, h2⟩ | ⟨h1, h2, h3⟩
  · exact absurd h1 hv
  · refine .inl ?_
    have h1' : (verdictAt (NewtonChord.solver cfg) fn aux0 y0 (NewtonChord.init cfg y0) sol.numSteps).2 = _ := h1
    rw [h1']
    cases hn : sol.numSteps with
    | zero => rw [hn] at h2; exact absurd rfl h2
    | succ k =>
      show ∃ j, _ = (NewtonChord.step cfg fn _ _).2.1.result
      simp only [NewtonChord.step, NewtonChord.linSol]
      split
      · exact ⟨_, rfl⟩
      · exact ⟨_, rfl⟩
  · rw [hstep] at h2
    exact .inr ⟨h1, h2, h3⟩

/-- **C105.** Nelder-Mead: the only failure of its own is divergence, reported only if the objective is infinite at every vertex
of the last simplex. -/
theorem C105_nelder_mead {n : Nat} [NeZero n] (cfg : NelderMead.Cfg n ι) (aux0 : A)
    (fn : (ι → ℝ) → NelderMead.Val × A) (y0 : ι → ℝ) (af : (ι → ℝ) → Bool) (ms : Option Nat) (throw : Bool) (st0)
    (hi : (NelderMead.solver cfg aux0).init fn y0 = .ok st0) (sol)
    (h : iterativeSolve (NelderMead.solver cfg aux0) af fn aux0 y0 ms throw = some (.ok sol)) :
    Outcome (NelderMead.solver cfg aux0) af fn aux0 y0 st0 ms sol fun r =>
      r = .nonlinearDivergence ∧ ∀ i, (fn (sol.state.simplex i)).1 = ⊤ := by
  obtain ⟨st0', hi', _, _, hstate, _⟩ := solve_spec _ _ _ _ _ _ _ _ h
  rw [hi] at hi'; cases hi'
  refine outcome_of _ af fn aux0 y0 st0 hi ms throw sol h _ ?_
  intro hv
  rw [hstate]
  cases hn : sol.numSteps with
  | zero =>
    rw [hn] at hv
    refine absurd ?_ hv
    show (NelderMead.terminate cfg st0).2 = _
    simp only [NelderMead.solver, NelderMead.init] at hi
    split at hi
    · cases hi
    · cases hi; simp [NelderMead.terminate]
  | succ k =>
    have h1 := (C44_divergence cfg aux0 fn y0 st0 hi k).1
    have h1' : (verdictAt (NelderMead.solver cfg aux0) fn aux0 y0 st0 (k + 1)).2 = _ := h1
    rw [hn, h1'] at hv
    rw [h1']
    split at hv
    · rename_i h2
      exact ⟨if_pos h2, h2⟩
    · exact absurd rfl hv

/-- **C105.** The best-so-far wrappers add no failures: they can only end as the wrapped solver says. -/
theorem C105_best_so_far {L : Type} [LT L] [DecidableLT L] (S : Solver Y Out (Out × A) St Stats) (toLoss : Y → Out → L)
    (inf : L) (auxZero : A) (af : Y → Bool) (fn : Y → Out × A) (aux0 : A) (y0 : Y) (ms : Option Nat) (throw : Bool) (st0)
    (hi : (BestSoFar.solver S toLoss inf auxZero).init fn y0 = .ok st0) (sol)
    (h : iterativeSolve (BestSoFar.solver S toLoss inf auxZero) af fn aux0 y0 ms throw = some (.ok sol))
    (own : Result → Prop)
    (hS : ∀ y st, (S.terminate (BestSoFar.auxmented fn) y st).2 ≠ .successful →
      own (S.terminate (BestSoFar.auxmented fn) y st).2) :
    Outcome (BestSoFar.solver S toLoss inf auxZero) af fn aux0 y0 st0 ms sol own :=
  outcome_of _ af fn aux0 y0 st0 hi ms throw sol h _ fun hv => hS _ _ hv

/-! ### What this means for a user -/

/-- **C105.** In particular: a solver without failures of its own, all of whose iterates are finite, run without a budget,
succeeds if it returns. -/
theorem C105_unbounded_success (S : Solver Y Out Aux St Stats) (af : Y → Bool) (fn : Y → Out × Aux) (aux0 : Aux) (y0 : Y)
    (st0 : St) (sol : Solution Y Aux St Stats)
    (ho : Outcome S af fn aux0 y0 st0 none sol fun _ => False)
    (hf : ∀ k, af (iterateAt S fn aux0 y0 st0 k) = true) : sol.result = .successful := by
  cases ho with
  | success h => exact h
  | outOfSteps _ h => cases h
  | nonfinite _ h => rw [hf] at h; cases h
  | failure _ h => exact h.elim

/-- A concrete case: nonlinear CG (Polak-Ribière, backtracking) on `y²` from `1`, with a budget of ten steps, does return, and so
ends in one of the ways listed. -/
example : ∃ st0 sol, iterativeSolve (GradientDescent.solver (A := Unit) (NonlinearCG.cfg (ι := Unit) 1e-3 1e-3 maxNorm maxNorm
      (NonlinearCG.polakRibiere 1e-16) (Armijo.search ⟨0.5, 0.1, 1⟩) fun y i => 2 * y i) ())
      (fun _ => true) (fun y => (y () ^ 2, ())) () (fun _ => 1) (some 10) false = some (.ok sol) ∧
    Outcome (GradientDescent.solver (A := Unit) (NonlinearCG.cfg (ι := Unit) 1e-3 1e-3 maxNorm maxNorm
      (NonlinearCG.polakRibiere 1e-16) (Armijo.search ⟨0.5, 0.1, 1⟩) fun y i => 2 * y i) ())
      (fun _ => true) (fun y => (y () ^ 2, ())) () (fun _ => 1) st0 (some 10) sol fun _ => False := by
  obtain ⟨sol, h⟩ := C05_bounded_returns (GradientDescent.solver (A := Unit) (NonlinearCG.cfg (ι := Unit) 1e-3 1e-3 maxNorm maxNorm
      (NonlinearCG.polakRibiere 1e-16) (Armijo.search ⟨0.5, 0.1, 1⟩) fun y i => 2 * y i) ())
      (fun _ => true) (fun y => (y () ^ 2, ())) () (fun _ => 1) _ rfl 10
  exact ⟨_, sol, h, C105_nonlinear_cg () _ _ _ _ _ _ _ _ _ _ _ _ (searches_benign _ TrustRegion.defaults 1).1 _ rfl sol h⟩

/-- The fourth way does occur: Gauss-Newton with a linear solver that fails ends with that failure (the run shown in
`Verif.Props.Failures`), and `C105_gauss_newton` says that nothing else could have been reported. -/
example (sol) (h : iterativeSolve (gnSolver (ι := Unit) (κ := Unit) 0 0 (fun _ => 0) (fun _ => 0)
      ⟨fun _ _ => (fun _ => 0, .linear 1), fun _ _ => (fun _ => 0, .linear 1)⟩ (fun _ => 1) ())
      (fun _ => true) (fun y => (y, ())) () (fun _ => 1) none false = some (.ok sol)) :
    sol.result = .successful ∨ sol.result = .linear 1 := by
  have ho := C105_gauss_newton () (fun y : Unit → ℝ => (y, ())) (fun _ => 1) (fun _ => true) none false
    ⟨fun _ _ => (fun _ => 0, .linear 1), fun _ _ => (fun _ => 0, .linear 1)⟩ none _ rfl
    (searches_benign ⟨0.5, 0.1, 1⟩ TrustRegion.defaults 1).2.2.2 _ rfl sol h
  cases ho with
  | success h => exact .inl h
  | outOfSteps _ h => cases h
  | nonfinite _ h => cases h
  | failure _ h => exact .inr h.symm

end Verif.Props
