import Verif.Model.QuasiNewton
import Verif.Props.Driver
import Verif.Spec.Search
import Mathlib.Analysis.Calculus.Deriv.Slope
import Mathlib.Analysis.SpecificLimits.Basic

/-!
Proof device: what the three search-based solvers (`AbstractGradientDescent`, `AbstractQuasiNewton`,
`AbstractGaussNewton`) have in common.  Their models are separate; here each is shown to satisfy the same step laws.
-/

namespace Verif.SearchLoop

open Verif Verif.Spec

variable {ι κ A SS DS St HS Out Stats : Type}

/-- Projections of a solver state. -/
structure View (ι κ A SS DS St : Type) where
  first : St → Bool
  yEval : St → (ι → ℝ)
  fInfo : St → FnInfo ι κ
  aux : St → A
  ss : St → SS
  ds : St → DS
  term : St → Bool
  result : St → Result
  trial : (ι → ℝ) → FnInfo ι κ

/-- The search's answer at a state. -/
def View.ask (v : View ι κ A SS DS St) (srch : Search ι κ SS) (y : ι → ℝ) (st : St) : ℝ × Bool × Result × SS :=
  srch.step (v.first st) y (v.yEval st) (v.fInfo st) (v.trial (v.yEval st)) (v.ss st)

/-- The common step laws; `Good y i` says that `i` is the function information at `y`. -/
structure Laws [Fintype κ] (S : Solver (ι → ℝ) Out A St Unit) (fn : (ι → ℝ) → Out × A) (obj : (ι → ℝ) → ℝ)
    (srch : Search ι κ SS) (desc : Descent ι κ DS) (v : View ι κ A SS DS St)
    (Good : (ι → ℝ) → FnInfo ι κ → Prop) : Prop where
  good : ∀ y i, Good y i → i.asMin = obj y
  init : ∀ y st, S.init fn y = .ok st → v.first st = true ∧ v.yEval st = y ∧ v.ss st = srch.init ∧ v.term st = false
  trial : ∀ z, (v.trial z).asMin = obj z
  step_first : ∀ y st, v.first (S.step fn y st).2.1 = false
  accept : ∀ y st, (v.ask srch y st).2.1 = true →
    (S.step fn y st).1 = v.yEval st ∧ Good (v.yEval st) (v.fInfo (S.step fn y st).2.1) ∧
      v.aux (S.step fn y st).2.1 = (fn (v.yEval st)).2 ∧
      v.ds (S.step fn y st).2.1 = desc.query (v.yEval st) (v.fInfo (S.step fn y st).2.1) (v.ds st)
  reject : ∀ y st, (v.ask srch y st).2.1 = false →
    (S.step fn y st).1 = y ∧ v.fInfo (S.step fn y st).2.1 = v.fInfo st ∧ v.aux (S.step fn y st).2.1 = v.aux st ∧
      v.ds (S.step fn y st).2.1 = v.ds st ∧ v.term (S.step fn y st).2.1 = false
  ss : ∀ y st, v.ss (S.step fn y st).2.1 = (v.ask srch y st).2.2.2
  yEval : ∀ y st, v.yEval (S.step fn y st).2.1 =
    fun i => (S.step fn y st).1 i + (desc.step (v.ask srch y st).1 (v.ds (S.step fn y st).2.1)).1 i
  result : ∀ y st, v.result (S.step fn y st).2.1 =
    if (v.ask srch y st).2.2.1 = .successful then
      (desc.step (v.ask srch y st).1 (v.ds (S.step fn y st).2.1)).2 else (v.ask srch y st).2.2.1
  auxOut : ∀ y st, (S.step fn y st).2.2 = if v.first st then v.aux (S.step fn y st).2.1 else v.aux st
  terminate : ∀ y st, S.terminate fn y st = (v.term st, v.result st)
  postprocess : ∀ y aux st res, S.postprocess fn y aux st res = (y, aux, ())

/-! ### The three solvers satisfy the laws -/

def gdView (fn : (ι → ℝ) → ℝ × A) : View ι Unit A SS DS (GradientDescent.State ι A SS DS) where
  first := (·.firstStep)
  yEval := (·.yEval)
  fInfo := (·.fInfo)
  aux := (·.aux)
  ss := (·.searchState)
  ds := (·.descentState)
  term := (·.terminate)
  result := (·.result)
  trial z := .eval (fn z).1

theorem gd_laws (cfg : GradientDescent.Cfg ι SS DS) (aux0 : A) (fn : (ι → ℝ) → ℝ × A) :
    Laws (GradientDescent.solver cfg aux0) fn (fun y => (fn y).1) cfg.search cfg.descent (gdView fn)
      (fun y i => i = .evalGrad (fn y).1 (cfg.grad y)) where
  good y i h := by rw [h]; rfl
  init y st h := by
    simp only [GradientDescent.solver, GradientDescent.init] at h
    split at h
    · cases h
    · cases h; exact ⟨rfl, rfl, rfl, rfl⟩
  trial z := rfl
  step_first y st := rfl
  accept y st h := by
    have h' : (cfg.search.step st.firstStep y st.yEval st.fInfo (.eval (fn st.yEval).1) st.searchState).2.1 = true := h
    refine ⟨?_, ?_, ?_, ?_⟩ <;>
      simp only [GradientDescent.solver, GradientDescent.step, gdView, h', if_true]
  reject y st h := by
    have h' : (cfg.search.step st.firstStep y st.yEval st.fInfo (.eval (fn st.yEval).1) st.searchState).2.1 = false := h
    refine ⟨?_, ?_, ?_, ?_, ?_⟩ <;>
      simp only [GradientDescent.solver, GradientDescent.step, gdView, h', Bool.false_eq_true, if_false]
  ss y st := rfl
  yEval y st := rfl
  result y st := rfl
  auxOut y st := rfl
  terminate y st := rfl
  postprocess y aux st res := rfl

def qnView (fn : (ι → ℝ) → ℝ × A) : View ι Unit A SS DS (QuasiNewton.State ι A SS DS HS) where
  first := (·.firstStep)
  yEval := (·.yEval)
  fInfo := (·.fInfo)
  aux := (·.aux)
  ss := (·.searchState)
  ds := (·.descentState)
  term := (·.terminate)
  result := (·.result)
  trial z := .eval (fn z).1

theorem qn_laws (cfg : QuasiNewton.Cfg ι SS DS HS) (aux0 : A) (fn : (ι → ℝ) → ℝ × A) 
    (hv : ∀ y yEval i f g hs, (cfg.hess.updateHessian y yEval i f g hs).1.asMin = f ∧
      (cfg.hess.updateHessian y yEval i f g hs).1.grad? = some g) :
    Laws (QuasiNewton.solver cfg aux0) fn (fun y => (fn y).1) cfg.search cfg.descent (qnView fn)
      (fun y i => i.asMin = (fn y).1 ∧ i.grad? = some (cfg.grad y)) where
  good y i h := h.1
  init y st h := by
    simp only [QuasiNewton.solver, QuasiNewton.init] at h
    split at h
    · cases h
    · cases h; exact ⟨rfl, rfl, rfl, rfl⟩
  trial z := rfl
  step_first y st := rfl
  accept y st h := by
    have h' : (cfg.search.step st.firstStep y st.yEval st.fInfo (.eval (fn st.yEval).1) st.searchState).2.1 = true := h
    refine ⟨?_, ?_, ?_, ?_⟩ <;>
      simp only [QuasiNewton.solver, QuasiNewton.step, qnView, h', if_true, hv, and_self]
  reject y st h := by
    have h' : (cfg.search.step st.firstStep y st.yEval st.fInfo (.eval (fn st.yEval).1) st.searchState).2.1 = false := h
    refine ⟨?_, ?_, ?_, ?_, ?_⟩ <;>
      simp only [QuasiNewton.solver, QuasiNewton.step, qnView, h', Bool.false_eq_true, if_false]
  ss y st := rfl
  yEval y st := rfl
  result y st := rfl
  auxOut y st := rfl
  terminate y st := rfl
  postprocess y aux st res := rfl

def gnView (cfg : GaussNewton.Cfg ι κ SS DS) (fn : (ι → ℝ) → (κ → ℝ) × A) :
    View ι κ A SS DS (GaussNewton.State ι κ A SS DS) where
  first := (·.firstStep)
  yEval := (·.yEval)
  fInfo st := .residualJac st.residual st.jac
  aux := (·.aux)
  ss := (·.searchState)
  ds := (·.descentState)
  term := (·.terminate)
  result := (·.result)
  trial z := .residualJac (fn z).1 (cfg.jac z)

theorem gn_laws [Fintype κ] (cfg : GaussNewton.Cfg ι κ SS DS) (aux0 : A) (fn : (ι → ℝ) → (κ → ℝ) × A) :
    Laws (GaussNewton.solver cfg aux0) fn (fun y => 0.5 * sumSquares (fn y).1) cfg.search cfg.descent
      (gnView cfg fn) (fun y i => i = .residualJac (fn y).1 (cfg.jac y)) where
  good y i h := by rw [h]; rfl
  init y st h := by
    simp only [GaussNewton.solver, GaussNewton.init] at h
    split at h
    · cases h
    · cases h; exact ⟨rfl, rfl, rfl, rfl⟩
  trial z := rfl
  step_first y st := rfl
  accept y st h := by
    have h' : (cfg.search.step st.firstStep y st.yEval (.residualJac st.residual st.jac)
      (.residualJac (fn st.yEval).1 (cfg.jac st.yEval)) st.searchState).2.1 = true := h
    refine ⟨?_, ?_, ?_, ?_⟩ <;>
      simp only [GaussNewton.solver, GaussNewton.step, gnView, h', if_true]
  reject y st h := by
    have h' : (cfg.search.step st.firstStep y st.yEval (.residualJac st.residual st.jac)
      (.residualJac (fn st.yEval).1 (cfg.jac st.yEval)) st.searchState).2.1 = false := h
    refine ⟨?_, ?_, ?_, ?_, ?_⟩ <;>
      simp only [GaussNewton.solver, GaussNewton.step, gnView, h', Bool.false_eq_true, if_false]
  ss y st := rfl
  yEval y st := rfl
  result y st := rfl
  auxOut y st := rfl
  terminate y st := rfl
  postprocess y aux st res := rfl

/-! ### Consequences -/

section
variable [Fintype κ] {S : Solver (ι → ℝ) Out A St Unit} {fn : (ι → ℝ) → Out × A} {obj : (ι → ℝ) → ℝ}
  {srch : Search ι κ SS} {desc : Descent ι κ DS} {v : View ι κ A SS DS St}
  {Good : (ι → ℝ) → FnInfo ι κ → Prop}

theorem first_at (L : Laws S fn obj srch desc v Good) (aux0 : A) (y0 : ι → ℝ) (st0 : St) (k : Nat) :
    v.first (stateAt S fn aux0 y0 st0 (k + 1)) = false := L.step_first _ _

/-- The first step does not move. -/
theorem first_iterate (L : Laws S fn obj srch desc v Good) (hf : ∀ y z i j s, (srch.step true y z i j s).2.1 = true)
    (aux0 : A) (y0 : ι → ℝ) (st0 : St) (hi : S.init fn y0 = .ok st0) :
    iterateAt S fn aux0 y0 st0 1 = y0 ∧ Good y0 (v.fInfo (stateAt S fn aux0 y0 st0 1)) ∧
      v.aux (stateAt S fn aux0 y0 st0 1) = (fn y0).2 := by
  obtain ⟨h1, h2, h3, h4⟩ := L.init y0 st0 hi
  have ha : (v.ask srch y0 st0).2.1 = true := by rw [View.ask, h1]; exact hf _ _ _ _ _
  have := L.accept y0 st0 ha
  rw [h2] at this
  exact ⟨this.1, this.2.1, this.2.2.1⟩

/-- From the first step on, the stored value and aux are those of the current iterate. -/
theorem stored (L : Laws S fn obj srch desc v Good) (hf : ∀ y z i j s, (srch.step true y z i j s).2.1 = true)
    (aux0 : A) (y0 : ι → ℝ) (st0 : St) (hi : S.init fn y0 = .ok st0) (k : Nat) :
    Good (iterateAt S fn aux0 y0 st0 (k + 1)) (v.fInfo (stateAt S fn aux0 y0 st0 (k + 1))) ∧
      v.aux (stateAt S fn aux0 y0 st0 (k + 1)) = (fn (iterateAt S fn aux0 y0 st0 (k + 1))).2 := by
  induction k with
  | zero =>
    obtain ⟨h1, h2, h3⟩ := first_iterate L hf aux0 y0 st0 hi
    rw [h1]; exact ⟨h2, h3⟩
  | succ k ih =>
    have hst : stateAt S fn aux0 y0 st0 (k + 1 + 1) =
      (S.step fn (iterateAt S fn aux0 y0 st0 (k + 1)) (stateAt S fn aux0 y0 st0 (k + 1))).2.1 := rfl
    have hy : iterateAt S fn aux0 y0 st0 (k + 1 + 1) =
      (S.step fn (iterateAt S fn aux0 y0 st0 (k + 1)) (stateAt S fn aux0 y0 st0 (k + 1))).1 := rfl
    rw [hst, hy]
    cases ha : (v.ask srch (iterateAt S fn aux0 y0 st0 (k + 1)) (stateAt S fn aux0 y0 st0 (k + 1))).2.1 with
    | true =>
      have := L.accept _ _ ha
      rw [this.1]; exact ⟨this.2.1, this.2.2.1⟩
    | false =>
      have := L.reject _ _ ha
      rw [this.1, this.2.1, this.2.2.1]; exact ih

/-- From the first step on, the descent was queried at the stored function information, and the point to be evaluated next
is the current iterate plus the descent's step. -/
theorem queried (L : Laws S fn obj srch desc v Good) (hf : ∀ y z i j s, (srch.step true y z i j s).2.1 = true)
    (aux0 : A) (y0 : ι → ℝ) (st0 : St) (hi : S.init fn y0 = .ok st0) (k : Nat) :
    (∃ y' d', v.ds (stateAt S fn aux0 y0 st0 (k + 1)) = desc.query y' (v.fInfo (stateAt S fn aux0 y0 st0 (k + 1))) d') ∧
    ∃ t, t = (v.ask srch (iterateAt S fn aux0 y0 st0 k) (stateAt S fn aux0 y0 st0 k)).1 ∧
      v.yEval (stateAt S fn aux0 y0 st0 (k + 1)) =
        fun i => iterateAt S fn aux0 y0 st0 (k + 1) i + (desc.step t (v.ds (stateAt S fn aux0 y0 st0 (k + 1)))).1 i := by
  refine ⟨?_, _, rfl, L.yEval _ _⟩
  induction k with
  | zero =>
    have ha : (v.ask srch y0 st0).2.1 = true := by rw [View.ask, (L.init y0 st0 hi).1]; exact hf _ _ _ _ _
    exact ⟨_, _, (L.accept y0 st0 ha).2.2.2⟩
  | succ k ih =>
    have hst : stateAt S fn aux0 y0 st0 (k + 1 + 1) =
      (S.step fn (iterateAt S fn aux0 y0 st0 (k + 1)) (stateAt S fn aux0 y0 st0 (k + 1))).2.1 := rfl
    rw [hst]
    cases ha : (v.ask srch (iterateAt S fn aux0 y0 st0 (k + 1)) (stateAt S fn aux0 y0 st0 (k + 1))).2.1 with
    | true => exact ⟨_, _, (L.accept _ _ ha).2.2.2⟩
    | false =>
      have := L.reject _ _ ha
      rw [this.2.1, this.2.2.2.1]; exact ih

/-- These solvers report the user's aux at the point stepped from. -/
theorem reports_aux (L : Laws S fn obj srch desc v Good) (hf : ∀ y z i j s, (srch.step true y z i j s).2.1 = true)
    (aux0 : A) (y0 : ι → ℝ) (st0 : St) (hi : S.init fn y0 = .ok st0) : ReportsAux S fn aux0 y0 st0 := by
  intro k
  have hk : auxAt S fn aux0 y0 st0 (k + 1) =
    (S.step fn (iterateAt S fn aux0 y0 st0 k) (stateAt S fn aux0 y0 st0 k)).2.2 := rfl
  rw [hk, L.auxOut]
  cases k with
  | zero =>
    have h0 : v.first (stateAt S fn aux0 y0 st0 0) = true := (L.init y0 st0 hi).1
    rw [h0, if_pos rfl]
    exact (first_iterate L hf aux0 y0 st0 hi).2.2
  | succ k =>
    rw [first_at L aux0 y0 st0 k]
    simp only [Bool.false_eq_true, if_false]
    exact (stored L hf aux0 y0 st0 hi k).2

/-- If every acceptance (after the first step) is a non-increase of the objective, so is every step. -/
theorem monotone (L : Laws S fn obj srch desc v Good) (hf : ∀ y z i j s, (srch.step true y z i j s).2.1 = true)
    (aux0 : A) (y0 : ι → ℝ) (st0 : St) (hi : S.init fn y0 = .ok st0)
    (hm : ∀ k, let y := iterateAt S fn aux0 y0 st0 (k + 1)
      let st := stateAt S fn aux0 y0 st0 (k + 1)
      (srch.step false y (v.yEval st) (v.fInfo st) (v.trial (v.yEval st)) (v.ss st)).2.1 = true →
        (v.trial (v.yEval st)).asMin ≤ (v.fInfo st).asMin) (k : Nat) :
    obj (iterateAt S fn aux0 y0 st0 (k + 1)) ≤ obj (iterateAt S fn aux0 y0 st0 k) := by
  cases k with
  | zero =>
    have h := (first_iterate L hf aux0 y0 st0 hi).1
    rw [h]; exact le_rfl
  | succ k =>
    have hy : iterateAt S fn aux0 y0 st0 (k + 1 + 1) =
      (S.step fn (iterateAt S fn aux0 y0 st0 (k + 1)) (stateAt S fn aux0 y0 st0 (k + 1))).1 := rfl
    rw [hy]
    cases ha : (v.ask srch (iterateAt S fn aux0 y0 st0 (k + 1)) (stateAt S fn aux0 y0 st0 (k + 1))).2.1 with
    | true =>
      rw [(L.accept _ _ ha).1]
      rw [View.ask, first_at L] at ha
      have := hm k ha
      rw [L.trial] at this
      rw [← L.good _ _ (stored L hf aux0 y0 st0 hi k).1]
      exact this
    | false => rw [(L.reject _ _ ha).1]

theorem monotone_le (L : Laws S fn obj srch desc v Good) (hf : ∀ y z i j s, (srch.step true y z i j s).2.1 = true)
    (aux0 : A) (y0 : ι → ℝ) (st0 : St) (hi : S.init fn y0 = .ok st0)
    (hm : ∀ k, let y := iterateAt S fn aux0 y0 st0 (k + 1)
      let st := stateAt S fn aux0 y0 st0 (k + 1)
      (srch.step false y (v.yEval st) (v.fInfo st) (v.trial (v.yEval st)) (v.ss st)).2.1 = true →
        (v.trial (v.yEval st)).asMin ≤ (v.fInfo st).asMin) (j k : Nat) (hjk : j ≤ k) :
    obj (iterateAt S fn aux0 y0 st0 k) ≤ obj (iterateAt S fn aux0 y0 st0 j) := by
  induction k, hjk using Nat.le_induction with
  | base => exact le_rfl
  | succ k _ ih => exact (monotone L hf aux0 y0 st0 hi hm k).trans ih

/-- The search is asked about the stored value of the current iterate and the value at the trial point. -/
theorem accepted_or_rejected (L : Laws S fn obj srch desc v Good) (aux0 : A) (y0 : ι → ℝ) (st0 : St) (k : Nat) :
    ((v.ask srch (iterateAt S fn aux0 y0 st0 k) (stateAt S fn aux0 y0 st0 k)).2.1 = true ∧
      iterateAt S fn aux0 y0 st0 (k + 1) = v.yEval (stateAt S fn aux0 y0 st0 k)) ∨
    ((v.ask srch (iterateAt S fn aux0 y0 st0 k) (stateAt S fn aux0 y0 st0 k)).2.1 = false ∧
      iterateAt S fn aux0 y0 st0 (k + 1) = iterateAt S fn aux0 y0 st0 k) := by
  cases ha : (v.ask srch (iterateAt S fn aux0 y0 st0 k) (stateAt S fn aux0 y0 st0 k)).2.1 with
  | true => exact .inl ⟨rfl, (L.accept _ _ ha).1⟩
  | false => exact .inr ⟨rfl, (L.reject _ _ ha).1⟩

end

end Verif.SearchLoop

namespace Verif.SearchLoop

open Verif Verif.Spec

variable {ι κ A SS DS St HS Out Stats : Type}

theorem grad_gradDot [Fintype ι] [Fintype κ] (i : FnInfo ι κ) (g d : ι → ℝ) (h : i.grad? = some g) :
    i.gradDot? d = some (treeDot g d) := by
  cases i with
  | eval f => cases h
  | residual r => cases h
  | evalGrad f g' => cases h; rfl
  | evalGradHessian f g' h' => cases h; rfl
  | evalGradHessianInv f g' h' => cases h; rfl
  | residualJac r jac =>
    cases h
    simp only [FnInfo.gradDot?, treeDot, Matrix.mulVec, dotProduct, Matrix.transpose_apply, Finset.sum_mul]
    rw [Finset.sum_comm]
    exact congrArg some (Finset.sum_congr rfl fun i _ => Finset.sum_congr rfl fun j _ => by ring)

theorem armijo_first [Fintype ι] [Fintype κ] (a : Armijo.Cfg ℝ) (y z : ι → ℝ) (i j : FnInfo ι κ) (s : ℝ) :
    ((Armijo.search a).step true y z i j s).2.1 = true := by simp [Armijo.search, Armijo.decide']

theorem armijo_first_size [Fintype ι] [Fintype κ] (a : Armijo.Cfg ℝ) (y z : ι → ℝ) (i j : FnInfo ι κ) (s : ℝ) :
    ((Armijo.search a).step true y z i j s).1 = a.stepInit ∧
    ((Armijo.search a).step true y z i j s).2.2.2 = a.stepInit := by simp [Armijo.search, Armijo.decide']

theorem armijo_step [Fintype ι] [Fintype κ] (a : Armijo.Cfg ℝ) (y z : ι → ℝ) (i j : FnInfo ι κ) (s : ℝ)
    (obj : (ι → ℝ) → ℝ) (g : ι → ℝ) (hi : i.asMin = obj y) (hj : j.asMin = obj z) (hg : i.grad? = some g) :
    (((Armijo.search a).step false y z i j s).2.1 = true ↔ ArmijoHolds a.slope obj g y z) ∧
    (ArmijoHolds a.slope obj g y z → ((Armijo.search a).step false y z i j s).1 = a.stepInit ∧
      ((Armijo.search a).step false y z i j s).2.2.2 = a.stepInit) ∧
    (¬ ArmijoHolds a.slope obj g y z → ((Armijo.search a).step false y z i j s).1 = a.decreaseFactor * s ∧
      ((Armijo.search a).step false y z i j s).2.2.2 = a.decreaseFactor * s) := by
  have key : ((Armijo.search a).step false y z i j s).2.1 = true ↔ ArmijoHolds a.slope obj g y z := by
    simp only [Armijo.search, Armijo.decide', grad_gradDot i g _ hg, hi, hj, Option.getD_some, Bool.false_or,
      Bool.and_eq_true, decide_eq_true_eq, ArmijoHolds]
    rw [sub_le_iff_le_add']
  have size : ∀ b, ((Armijo.search a).step false y z i j s).2.1 = b →
      ((Armijo.search a).step false y z i j s).1 = (if b then a.stepInit else a.decreaseFactor * s) ∧
      ((Armijo.search a).step false y z i j s).2.2.2 = (if b then a.stepInit else a.decreaseFactor * s) := by
    rintro b rfl
    exact ⟨rfl, rfl⟩
  refine ⟨key, fun h => ?_, fun h => ?_⟩
  · have := size _ (key.2 h)
    simpa using this
  · have := size false (Bool.eq_false_iff.2 fun h' => h (key.1 h'))
    simpa using this

theorem armijo_new (d s i : ℝ) (a : Armijo.Cfg ℝ) (h : Armijo.new d s i = .ok a) :
    a = ⟨d, s, i⟩ ∧ 0 < d ∧ d < 1 ∧ 0 < s ∧ s < 1 ∧ 0 < i := by
  unfold Armijo.new at h
  split at h
  · cases h
  · split at h
    · cases h
    · split at h
      · cases h
      · rename_i h1 h2 h3
        cases h
        simp only [not_or, not_le] at h1 h2 h3
        exact ⟨rfl, h1.1, h1.2, h2.1, h2.2, h3⟩

section
variable [Fintype ι] [Fintype κ] {S : Solver (ι → ℝ) Out A St Unit} {fn : (ι → ℝ) → Out × A} {obj : (ι → ℝ) → ℝ}
  {a : Armijo.Cfg ℝ} {desc : Descent ι κ DS} {v : View ι κ A ℝ DS St}
  {Good : (ι → ℝ) → FnInfo ι κ → Prop} {G : (ι → ℝ) → (ι → ℝ)}

/-- One step of a run with Armijo backtracking, after the first. -/
theorem armijo_run (L : Laws S fn obj (Armijo.search a) desc v Good) (hG : ∀ y i, Good y i → i.grad? = some (G y))
    (aux0 : A) (y0 : ι → ℝ) (st0 : St) (hi : S.init fn y0 = .ok st0) (k : Nat) :
    let y := iterateAt S fn aux0 y0 st0 (k + 1)
    let st := stateAt S fn aux0 y0 st0 (k + 1)
    let y' := iterateAt S fn aux0 y0 st0 (k + 2)
    let st' := stateAt S fn aux0 y0 st0 (k + 2)
    v.yEval st' = (fun i => y' i + (desc.step (v.ss st') (v.ds st')).1 i) ∧
    ((ArmijoHolds a.slope obj (G y) y (v.yEval st) ∧ y' = v.yEval st ∧ v.ss st' = a.stepInit) ∨
     (¬ ArmijoHolds a.slope obj (G y) y (v.yEval st) ∧ y' = y ∧ v.ss st' = a.decreaseFactor * v.ss st ∧
        v.ds st' = v.ds st)) := by
  intro y st y' st'
  have hst : st' = (S.step fn y st).2.1 := rfl
  have hy : y' = (S.step fn y st).1 := rfl
  have hstored := stored L (armijo_first a) aux0 y0 st0 hi k
  have hf := first_at L aux0 y0 st0 k
  have hask : v.ask (Armijo.search a) y st = (Armijo.search a).step false y (v.yEval st) (v.fInfo st)
      (v.trial (v.yEval st)) (v.ss st) := by
    show (Armijo.search a).step (v.first st) _ _ _ _ _ = _
    rw [show v.first st = false from hf]
  have A := armijo_step a y (v.yEval st) (v.fInfo st) (v.trial (v.yEval st)) (v.ss st) obj (G y)
    (L.good _ _ hstored.1) (L.trial _) (hG _ _ hstored.1)
  rw [← hask] at A
  obtain ⟨h1, h2, h3⟩ := A
  have hss : v.ss st' = (v.ask (Armijo.search a) y st).2.2.2 := L.ss _ _
  by_cases hh : ArmijoHolds a.slope obj (G y) y (v.yEval st)
  · have hacc := L.accept y st (h1.2 hh)
    refine ⟨?_, .inl ⟨hh, hacc.1, by rw [hss, (h2 hh).2]⟩⟩
    rw [hss, (h2 hh).2]
    have := L.yEval y st
    rw [(h2 hh).1] at this
    exact this
  · have hrej := L.reject y st (Bool.eq_false_iff.2 fun h => hh (h1.1 h))
    refine ⟨?_, .inr ⟨hh, hrej.1, by rw [hss, (h3 hh).2], hrej.2.2.2.1⟩⟩
    rw [hss, (h3 hh).2]
    have := L.yEval y st
    rw [(h3 hh).1] at this
    exact this

/-- The first step: no move, and the first trial uses the initial step size. -/
theorem armijo_start (L : Laws S fn obj (Armijo.search a) desc v Good)
    (aux0 : A) (y0 : ι → ℝ) (st0 : St) (hi : S.init fn y0 = .ok st0) :
    iterateAt S fn aux0 y0 st0 1 = y0 ∧ v.ss (stateAt S fn aux0 y0 st0 1) = a.stepInit ∧
    v.yEval (stateAt S fn aux0 y0 st0 1) =
      fun i => y0 i + (desc.step a.stepInit (v.ds (stateAt S fn aux0 y0 st0 1))).1 i := by
  have h0 := first_iterate L (armijo_first a) aux0 y0 st0 hi
  have hfirst := (L.init y0 st0 hi).1
  have hask : v.ask (Armijo.search a) y0 st0 = (Armijo.search a).step true y0 (v.yEval st0) (v.fInfo st0)
      (v.trial (v.yEval st0)) (v.ss st0) := by
    unfold View.ask; rw [hfirst]
  have hst : stateAt S fn aux0 y0 st0 1 = (S.step fn y0 st0).2.1 := rfl
  have hy : (S.step fn y0 st0).1 = y0 := h0.1
  refine ⟨h0.1, ?_, ?_⟩
  · rw [hst, L.ss, hask]; exact (armijo_first_size a _ _ _ _ _).2
  · rw [hst, L.yEval, hask, (armijo_first_size a _ _ _ _ _).1, hy]

/-- After `j` rejections in a row. -/
theorem armijo_rejections (L : Laws S fn obj (Armijo.search a) desc v Good)
    (hG : ∀ y i, Good y i → i.grad? = some (G y))
    (aux0 : A) (y0 : ι → ℝ) (st0 : St) (hi : S.init fn y0 = .ok st0) (k : Nat)
    (hstart : v.ss (stateAt S fn aux0 y0 st0 (k + 1)) = a.stepInit)
    (j : Nat) (hrej : ∀ i, i < j → ¬ ArmijoHolds a.slope obj (G (iterateAt S fn aux0 y0 st0 (k + 1)))
      (iterateAt S fn aux0 y0 st0 (k + 1))
      (fun c => iterateAt S fn aux0 y0 st0 (k + 1) c +
        (desc.step (a.stepInit * a.decreaseFactor ^ i) (v.ds (stateAt S fn aux0 y0 st0 (k + 1)))).1 c)) :
    iterateAt S fn aux0 y0 st0 (k + 1 + j) = iterateAt S fn aux0 y0 st0 (k + 1) ∧
    v.ds (stateAt S fn aux0 y0 st0 (k + 1 + j)) = v.ds (stateAt S fn aux0 y0 st0 (k + 1)) ∧
    v.ss (stateAt S fn aux0 y0 st0 (k + 1 + j)) = a.stepInit * a.decreaseFactor ^ j ∧
    v.yEval (stateAt S fn aux0 y0 st0 (k + 1 + j)) = fun c => iterateAt S fn aux0 y0 st0 (k + 1) c +
      (desc.step (a.stepInit * a.decreaseFactor ^ j) (v.ds (stateAt S fn aux0 y0 st0 (k + 1)))).1 c := by
  induction j with
  | zero =>
    refine ⟨rfl, rfl, by simpa using hstart, ?_⟩
    simp only [Nat.add_zero, pow_zero, mul_one]
    cases k with
    | zero =>
      have := armijo_start L aux0 y0 st0 hi
      rw [this.1]
      exact this.2.2
    | succ k =>
      have := (armijo_run L hG aux0 y0 st0 hi k).1
      rw [← hstart]; exact this
  | succ j ih =>
    obtain ⟨h1, h2, h3, h4⟩ := ih fun i hi' => hrej i (Nat.lt_succ_of_lt hi')
    have R := armijo_run L hG aux0 y0 st0 hi (k + j)
    have e1 : k + j + 1 = k + 1 + j := by omega
    have e2 : k + j + 2 = k + 1 + (j + 1) := by omega
    rw [e1, e2] at R
    obtain ⟨R1, R2⟩ := R
    rw [h1, h4] at R2
    rcases R2 with ⟨hh, _⟩ | ⟨_, r1, r2, r3⟩
    · exact absurd hh (hrej j (Nat.lt_succ_self j))
    · rw [h3] at r2
      have r2' : v.ss (stateAt S fn aux0 y0 st0 (k + 1 + (j + 1))) = a.stepInit * a.decreaseFactor ^ (j + 1) := by
        rw [r2, pow_succ]; ring
      refine ⟨r1, r3.trans h2, r2', ?_⟩
      rw [R1, r2', r1, r3, h2]

end

/-- Along a direction with negative slope, Armijo's condition holds for some geometric step size. -/
theorem armijo_eventually [Fintype ι] (slope d t0 : ℝ) (hs : slope < 1) (hd0 : 0 < d) (hd1 : d < 1) (ht : 0 < t0)
    (obj : (ι → ℝ) → ℝ) (g y p : ι → ℝ) (hneg : treeDot g p < 0)
    (hder : HasDerivAt (fun t : ℝ => obj fun i => y i + t * p i) (treeDot g p) 0) :
    ∃ j : Nat, ArmijoHolds slope obj g y fun i => y i + (t0 * d ^ j) * p i := by
  have hm : treeDot g p < slope * treeDot g p := by nlinarith
  have hlim : Filter.Tendsto (fun j : Nat => t0 * d ^ j) Filter.atTop (nhdsWithin 0 {0}ᶜ) := by
    rw [tendsto_nhdsWithin_iff]
    constructor
    · simpa using (tendsto_pow_atTop_nhds_zero_of_lt_one hd0.le hd1).const_mul t0
    · exact Filter.Eventually.of_forall fun j => by
        simp only [Set.mem_compl_iff, Set.mem_singleton_iff]; positivity
  have hslope := (hasDerivAt_iff_tendsto_slope.1 hder).comp hlim
  obtain ⟨j, hj⟩ := (hslope.eventually (gt_mem_nhds hm)).exists
  refine ⟨j, ?_⟩
  have htj : 0 < t0 * d ^ j := by positivity
  have hdot : treeDot g (fun i => (y i + t0 * d ^ j * p i) - y i) = (t0 * d ^ j) * treeDot g p := by
    unfold treeDot
    rw [Finset.mul_sum]
    exact Finset.sum_congr rfl fun i _ => by ring
  unfold ArmijoHolds
  rw [hdot]
  refine ⟨?_, (mul_neg_of_pos_of_neg htj hneg).le⟩
  simp only [Function.comp, slope_def_field, sub_zero, zero_mul, add_zero] at hj
  rw [div_lt_iff₀ htj] at hj
  linarith

/-! ### Trust regions -/

theorem tr_first [Fintype κ] (c : TrustRegion.Cfg ℝ) (acc : FnInfo ι κ → Bool) (pred : (ι → ℝ) → FnInfo ι κ → ℝ)
    (y z : ι → ℝ) (i j : FnInfo ι κ) (s : ℝ) :
    ((TrustRegion.search c acc pred).step true y z i j s).2.1 = true := by
  simp [TrustRegion.search, TrustRegion.decide']

theorem tr_first_size [Fintype κ] (c : TrustRegion.Cfg ℝ) (acc : FnInfo ι κ → Bool)
    (pred : (ι → ℝ) → FnInfo ι κ → ℝ) (y z : ι → ℝ) (i j : FnInfo ι κ) (s : ℝ) :
    ((TrustRegion.search c acc pred).step true y z i j s).1 = s ∧
    ((TrustRegion.search c acc pred).step true y z i j s).2.2.2 = s := by
  simp [TrustRegion.search, TrustRegion.decide']

/-- The rule, as a function of actual and predicted change. -/
theorem tr_step [Fintype κ] (c : TrustRegion.Cfg ℝ) (acc : FnInfo ι κ → Bool) (pred : (ι → ℝ) → FnInfo ι κ → ℝ)
    (y z : ι → ℝ) (i j : FnInfo ι κ) (s : ℝ) :
    let P := pred (fun k => z k - y k) i
    let D := j.asMin - i.asMin
    let r := (TrustRegion.search c acc pred).step false y z i j s
    r.1 = r.2.2.2 ∧
    ((D ≤ c.lowCutoff * P ∧ r.2.1 = true ∧ D < c.highCutoff * P ∧ P < 0 ∧ r.1 = c.highConstant * s) ∨
     (D ≤ c.lowCutoff * P ∧ r.2.1 = true ∧ ¬ (D < c.highCutoff * P ∧ P < 0) ∧ r.1 = s) ∨
     (¬ D ≤ c.lowCutoff * P ∧ r.2.1 = false ∧ r.1 = c.lowConstant * s)) := by
  intro P D r
  have hr : r = (TrustRegion.search c acc pred).step false y z i j s := rfl
  refine ⟨rfl, ?_⟩
  simp only [TrustRegion.search, TrustRegion.decide'] at hr
  by_cases h1 : D ≤ c.lowCutoff * P
  · have h1' : j.asMin - i.asMin ≤ c.lowCutoff * pred (fun k => z k - y k) i := h1
    by_cases h2 : D < c.highCutoff * P ∧ P < 0
    · left
      have h2' : j.asMin - i.asMin < c.highCutoff * pred (fun k => z k - y k) i := h2.1
      have h2'' : pred (fun k => z k - y k) i < 0 := h2.2
      rw [hr]
      simp [h1, h1', h2', h2'', h2.1, h2.2]
    · right; left
      have h2' : ¬ (j.asMin - i.asMin < c.highCutoff * pred (fun k => z k - y k) i ∧
        pred (fun k => z k - y k) i < 0) := h2
      rw [hr]
      simp only [h1, h1', h2, decide_true, Bool.or_false, if_true, not_false_eq_true, true_and, Bool.not_false,
        Bool.and_true]
      rw [if_neg (by rw [Bool.and_eq_true, decide_eq_true_eq, decide_eq_true_eq]; exact h2'), one_mul]
  · right; right
    have h1' : ¬ j.asMin - i.asMin ≤ c.lowCutoff * pred (fun k => z k - y k) i := h1
    rw [hr]
    simp [h1, h1']

section
variable [Fintype κ] {S : Solver (ι → ℝ) Out A St Unit} {fn : (ι → ℝ) → Out × A} {obj : (ι → ℝ) → ℝ}
  {c : TrustRegion.Cfg ℝ} {acc : FnInfo ι κ → Bool} {pred : (ι → ℝ) → FnInfo ι κ → ℝ}
  {desc : Descent ι κ DS} {v : View ι κ A ℝ DS St} {Good : (ι → ℝ) → FnInfo ι κ → Prop}

/-- One step of a run with a trust region, after the first. -/
theorem tr_run (L : Laws S fn obj (TrustRegion.search c acc pred) desc v Good)
    (aux0 : A) (y0 : ι → ℝ) (st0 : St) (hi : S.init fn y0 = .ok st0) (k : Nat) :
    let y := iterateAt S fn aux0 y0 st0 (k + 1)
    let st := stateAt S fn aux0 y0 st0 (k + 1)
    let y' := iterateAt S fn aux0 y0 st0 (k + 2)
    let st' := stateAt S fn aux0 y0 st0 (k + 2)
    let P := pred (fun i => v.yEval st i - y i) (v.fInfo st)
    let D := obj (v.yEval st) - obj y
    v.yEval st' = (fun i => y' i + (desc.step (v.ss st') (v.ds st')).1 i) ∧
    ((D ≤ c.lowCutoff * P ∧ D < c.highCutoff * P ∧ P < 0 ∧ y' = v.yEval st ∧ v.ss st' = c.highConstant * v.ss st) ∨
     (D ≤ c.lowCutoff * P ∧ ¬ (D < c.highCutoff * P ∧ P < 0) ∧ y' = v.yEval st ∧ v.ss st' = v.ss st) ∨
     (¬ D ≤ c.lowCutoff * P ∧ y' = y ∧ v.ss st' = c.lowConstant * v.ss st ∧ v.ds st' = v.ds st)) := by
  intro y st y' st' P D
  have hstored := stored L (tr_first c acc pred) aux0 y0 st0 hi k
  have hf := first_at L aux0 y0 st0 k
  have hask : v.ask (TrustRegion.search c acc pred) y st = (TrustRegion.search c acc pred).step false y (v.yEval st)
      (v.fInfo st) (v.trial (v.yEval st)) (v.ss st) := by
    show (TrustRegion.search c acc pred).step (v.first st) _ _ _ _ _ = _
    rw [show v.first st = false from hf]
  have T := tr_step c acc pred y (v.yEval st) (v.fInfo st) (v.trial (v.yEval st)) (v.ss st)
  rw [← hask] at T
  dsimp only at T
  rw [L.trial, L.good _ _ hstored.1] at T
  obtain ⟨T0, T⟩ := T
  have hss : v.ss st' = (v.ask (TrustRegion.search c acc pred) y st).1 := (L.ss _ _).trans T0.symm
  refine ⟨?_, ?_⟩
  · rw [hss]; exact L.yEval y st
  · rcases T with ⟨t1, t2, t3, t4, t5⟩ | ⟨t1, t2, t3, t4⟩ | ⟨t1, t2, t3⟩
    · exact .inl ⟨t1, t3, t4, (L.accept y st t2).1, hss.trans t5⟩
    · exact .inr (.inl ⟨t1, t3, (L.accept y st t2).1, hss.trans t4⟩)
    · have := L.reject y st t2
      exact .inr (.inr ⟨t1, this.1, hss.trans t3, this.2.2.2.1⟩)

theorem tr_start (L : Laws S fn obj (TrustRegion.search c acc pred) desc v Good)
    (aux0 : A) (y0 : ι → ℝ) (st0 : St) (hi : S.init fn y0 = .ok st0) :
    v.ss (stateAt S fn aux0 y0 st0 0) = 1 ∧ v.ss (stateAt S fn aux0 y0 st0 1) = 1 ∧
    v.yEval (stateAt S fn aux0 y0 st0 1) =
      fun i => y0 i + (desc.step 1 (v.ds (stateAt S fn aux0 y0 st0 1))).1 i := by
  obtain ⟨hfirst, _, hs, _⟩ := L.init y0 st0 hi
  have hs' : v.ss st0 = 1 := hs
  have h0 := first_iterate L (tr_first c acc pred) aux0 y0 st0 hi
  have hy : (S.step fn y0 st0).1 = y0 := h0.1
  have hask : v.ask (TrustRegion.search c acc pred) y0 st0 = (TrustRegion.search c acc pred).step true y0
      (v.yEval st0) (v.fInfo st0) (v.trial (v.yEval st0)) (v.ss st0) := by
    unfold View.ask; rw [hfirst]
  have hst : stateAt S fn aux0 y0 st0 1 = (S.step fn y0 st0).2.1 := rfl
  refine ⟨hs', ?_, ?_⟩
  · rw [hst, L.ss, hask, (tr_first_size c acc pred _ _ _ _ _).2, hs']
  · rw [hst, L.yEval, hask, (tr_first_size c acc pred _ _ _ _ _).1, hs', hy]

theorem tr_pos (L : Laws S fn obj (TrustRegion.search c acc pred) desc v Good)
    (hl : 0 < c.lowConstant) (hh : 0 < c.highConstant)
    (aux0 : A) (y0 : ι → ℝ) (st0 : St) (hi : S.init fn y0 = .ok st0) (k : Nat) :
    0 < v.ss (stateAt S fn aux0 y0 st0 k) := by
  have h1 : ∀ k, 0 < v.ss (stateAt S fn aux0 y0 st0 (k + 1)) := by
    intro k
    induction k with
    | zero => rw [(tr_start L aux0 y0 st0 hi).2.1]; norm_num
    | succ k ih =>
      obtain ⟨_, ⟨_, _, _, _, h⟩ | ⟨_, _, _, h⟩ | ⟨_, _, h, _⟩⟩ := tr_run L aux0 y0 st0 hi k
      · rw [h]; positivity
      · rw [h]; exact ih
      · rw [h]; positivity
  cases k with
  | zero => rw [(tr_start L aux0 y0 st0 hi).1]; norm_num
  | succ k => exact h1 k

end

end Verif.SearchLoop
