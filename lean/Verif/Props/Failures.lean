import Verif.Props.Dogleg

/-! Property C59: failures of the linear solves, inner root finds and searches inside a solver are reported. -/

namespace Verif.Props

open Verif Verif.Spec Verif.Driver Verif.SearchLoop

variable {ι κ A SS DS HS St Out Stats Y Aux : Type}

/-- What "the failure `r`, which occurred in the `k`-th step, is reported" means for a finished solve: that step was the
last one and `r` is the reported result - unless the point that step started from is not finite, in which case that is
reported instead.  In particular the result is not `successful`. -/
def ReportedAt (S : Solver Y Out Aux St Stats) (af : Y → Bool) (fn : Y → Out × Aux) (aux0 : Aux) (y0 : Y) (st0 : St)
    (sol : Solution Y Aux St Stats) (k : Nat) (r : Result) : Prop :=
  k = sol.numSteps ∧ sol.result ≠ .successful ∧
    sol.result = if af (iterateAt S fn aux0 y0 st0 (k - 1)) then r else .nonfinite

/-- Any failure code of a solver's own test ends the solve and is reported. -/
theorem failure_is_last (S : Solver Y Out Aux St Stats) (af : Y → Bool) (fn : Y → Out × Aux) (aux0 : Aux) (y0 : Y)
    (ms : Option Nat) (throw : Bool) (sol : Solution Y Aux St Stats)
    (h : iterativeSolve S af fn aux0 y0 ms throw = some (.ok sol)) (st0 : St) (hi : S.init fn y0 = .ok st0)
    (k : Nat) (hk : k ≤ sol.numSteps) (r : Result) (hr : r ≠ .successful)
    (hv : (verdictAt S fn aux0 y0 st0 k).2 = r) : ReportedAt S af fn aux0 y0 st0 sol k r := by
  obtain ⟨st0', hi', hlt, _, _, _, _, hres⟩ := solve_spec _ _ _ _ _ _ _ _ h
  rw [hi] at hi'; cases hi'
  have hn : ¬Continues S af fn aux0 y0 st0 k := by
    rintro ⟨_, h2⟩
    rw [h2] at hv
    exact hr hv.symm
  have hkn : k = sol.numSteps := by
    rcases Nat.lt_or_ge k sol.numSteps with h1 | h1
    · exact absurd (hlt k h1) hn
    · omega
  rw [← hkn, if_neg hn, hv] at hres
  refine ⟨hkn, ?_, hres⟩
  rw [hres]
  split
  · exact hr
  · simp

/-- The code of the `k`-th step of a search-based solver: the search's, if that is a failure, else the descent's. -/
theorem loop_verdict [Fintype κ] {S : Solver (ι → ℝ) Out A St Unit} {fn : (ι → ℝ) → Out × A} {obj : (ι → ℝ) → ℝ}
    {srch : Search ι κ SS} {desc : Descent ι κ DS} {v : View ι κ A SS DS St} {Good : (ι → ℝ) → FnInfo ι κ → Prop}
    (L : Laws S fn obj srch desc v Good) (hf : ∀ y z i j s, (srch.step true y z i j s).2.1 = true)
    (aux0 : A) (y0 : ι → ℝ) (st0 : St) (hi : S.init fn y0 = .ok st0) (k : Nat) :
    let a := v.ask srch (iterateAt S fn aux0 y0 st0 k) (stateAt S fn aux0 y0 st0 k)
    ∃ y' d', (verdictAt S fn aux0 y0 st0 (k + 1)).2 =
      if a.2.2.1 = .successful then
        (desc.step a.1 (desc.query y' (v.fInfo (stateAt S fn aux0 y0 st0 (k + 1))) d')).2 else a.2.2.1 := by
  intro a
  obtain ⟨⟨y', d', hq⟩, _⟩ := queried L hf aux0 y0 st0 hi k
  refine ⟨y', d', ?_⟩
  have h1 : (verdictAt S fn aux0 y0 st0 (k + 1)).2 = v.result (stateAt S fn aux0 y0 st0 (k + 1)) := by
    show (S.terminate fn _ _).2 = _
    rw [L.terminate]
  rw [h1, ← hq]
  exact L.result _ _

/-- The searches of the library never fail, and accept the first step. -/
structure Benign (srch : Search ι κ SS) : Prop where
  first : ∀ y z i j s, (srch.step true y z i j s).2.1 = true
  ok : ∀ b y z i j s, (srch.step b y z i j s).2.2.1 = .successful

theorem searches_benign [Fintype ι] [Fintype κ] (ac : Armijo.Cfg ℝ) (tc : TrustRegion.Cfg ℝ) (rate : ℝ) :
    Benign (Armijo.search ac : Search ι κ ℝ) ∧ Benign (TrustRegion.classical tc : Search ι κ ℝ) ∧
    Benign (TrustRegion.linear tc : Search ι κ ℝ) ∧ Benign (learningRate rate : Search ι κ Unit) := by
  refine ⟨⟨fun y z i j s => ?_, fun _ _ _ _ _ _ => rfl⟩, ⟨fun y z i j s => ?_, fun _ _ _ _ _ _ => rfl⟩,
    ⟨fun y z i j s => ?_, fun _ _ _ _ _ _ => rfl⟩, ⟨fun y z i j s => rfl, fun _ _ _ _ _ _ => rfl⟩⟩
  · simp [Armijo.search, Armijo.decide']
  · simp [TrustRegion.classical, TrustRegion.search, TrustRegion.decide']
  · simp [TrustRegion.linear, TrustRegion.search, TrustRegion.decide']

/-! ### Least squares -/

section
variable [Fintype κ] (cfg : GaussNewton.Cfg ι κ SS DS) (aux0 : A) (fn : (ι → ℝ) → (κ → ℝ) × A) (y0 : ι → ℝ)
  (af : (ι → ℝ) → Bool) (ms : Option Nat) (throw : Bool)
  (sol : Solution (ι → ℝ) A (GaussNewton.State ι κ A SS DS) Unit) (st0 : GaussNewton.State ι κ A SS DS)

theorem gn_failure (hb : Benign cfg.search)
    (h : iterativeSolve (GaussNewton.solver cfg aux0) af fn aux0 y0 ms throw = some (.ok sol))
    (hi : (GaussNewton.solver cfg aux0).init fn y0 = .ok st0) (k : Nat) (hk : k + 1 ≤ sol.numSteps)
    (r : Result) (hr : r ≠ .successful)
    (hd : let z := iterateAt (GaussNewton.solver cfg aux0) fn aux0 y0 st0 (k + 1)
      ∀ y' d', (cfg.descent.step (cfg.search.step (stateAt (GaussNewton.solver cfg aux0) fn aux0 y0 st0 k).firstStep
          (iterateAt (GaussNewton.solver cfg aux0) fn aux0 y0 st0 k)
          (stateAt (GaussNewton.solver cfg aux0) fn aux0 y0 st0 k).yEval
          (.residualJac (stateAt (GaussNewton.solver cfg aux0) fn aux0 y0 st0 k).residual
            (stateAt (GaussNewton.solver cfg aux0) fn aux0 y0 st0 k).jac)
          (.residualJac (fn (stateAt (GaussNewton.solver cfg aux0) fn aux0 y0 st0 k).yEval).1
            (cfg.jac (stateAt (GaussNewton.solver cfg aux0) fn aux0 y0 st0 k).yEval))
          (stateAt (GaussNewton.solver cfg aux0) fn aux0 y0 st0 k).searchState).1
          (cfg.descent.query y' (.residualJac (fn z).1 (cfg.jac z)) d')).2 = r) :
    ReportedAt (GaussNewton.solver cfg aux0) af fn aux0 y0 st0 sol (k + 1) r := by
  have L := gn_laws cfg aux0 fn
  obtain ⟨y', d', hv⟩ := loop_verdict L hb.first aux0 y0 st0 hi k
  have hok : ((gnView cfg fn).ask cfg.search (iterateAt (GaussNewton.solver cfg aux0) fn aux0 y0 st0 k)
    (stateAt (GaussNewton.solver cfg aux0) fn aux0 y0 st0 k)).2.2.1 = .successful := hb.ok _ _ _ _ _ _
  rw [hok, if_pos rfl, (stored L hb.first aux0 y0 st0 hi k).1] at hv
  exact failure_is_last _ af fn aux0 y0 ms throw sol h st0 hi (k + 1) hk r hr (hv.trans (hd y' d'))


end

section
variable [Fintype ι] [Fintype κ] (aux0 : A) (fn : (ι → ℝ) → (κ → ℝ) × A) (y0 : ι → ℝ)
  (af : (ι → ℝ) → Bool) (ms : Option Nat) (throw : Bool)

/-- **C59.** Gauss-Newton type solvers: with a Newton descent (normalised or not), if the linear solve at an iterate
`y_k`, `1 ≤ k ≤ num_steps`, fails then this is the last step, and the failure is reported. -/
theorem C59_newton (ls : LinSolve ι κ) (norm : Option ((ι → ℝ) → ℝ))
    (cfg : GaussNewton.Cfg ι κ SS ((ι → ℝ) × Result)) (hc : cfg.descent = newtonDescent ls norm) (hb : Benign cfg.search)
    (sol) (h : iterativeSolve (GaussNewton.solver cfg aux0) af fn aux0 y0 ms throw = some (.ok sol)) (st0)
    (hi : (GaussNewton.solver cfg aux0).init fn y0 = .ok st0) (k : Nat) (hk1 : 1 ≤ k) (hk : k ≤ sol.numSteps)
    (hr : let z := iterateAt (GaussNewton.solver cfg aux0) fn aux0 y0 st0 k
      (ls.rect (cfg.jac z) (fn z).1).2 ≠ .successful) :
    let z := iterateAt (GaussNewton.solver cfg aux0) fn aux0 y0 st0 k
    ReportedAt (GaussNewton.solver cfg aux0) af fn aux0 y0 st0 sol k (ls.rect (cfg.jac z) (fn z).1).2 := by
  obtain ⟨k, rfl⟩ : ∃ m, k = m + 1 := ⟨k - 1, by omega⟩
  refine gn_failure cfg aux0 fn y0 af ms throw sol st0 hb h hi k hk _ hr fun y' d' => ?_
  rw [hc]
  cases norm <;> rfl

/-- **C59.** Dogleg: likewise for the linear solve that computes the Newton step, whatever the step size. -/
theorem C59_dogleg (eps : ℝ) (ls : LinSolve ι κ) (shape : Dogleg.Shape ι)
    (cfg : GaussNewton.Cfg ι κ SS (Dogleg.State ι)) (hc : cfg.descent = Dogleg.descent eps ls shape)
    (hb : Benign cfg.search)
    (sol) (h : iterativeSolve (GaussNewton.solver cfg aux0) af fn aux0 y0 ms throw = some (.ok sol)) (st0)
    (hi : (GaussNewton.solver cfg aux0).init fn y0 = .ok st0) (k : Nat) (hk1 : 1 ≤ k) (hk : k ≤ sol.numSteps)
    (hr : let z := iterateAt (GaussNewton.solver cfg aux0) fn aux0 y0 st0 k
      (ls.rect (cfg.jac z) (fn z).1).2 ≠ .successful) :
    let z := iterateAt (GaussNewton.solver cfg aux0) fn aux0 y0 st0 k
    ReportedAt (GaussNewton.solver cfg aux0) af fn aux0 y0 st0 sol k (ls.rect (cfg.jac z) (fn z).1).2 := by
  obtain ⟨k, rfl⟩ : ∃ m, k = m + 1 := ⟨k - 1, by omega⟩
  refine gn_failure cfg aux0 fn y0 af ms throw sol st0 hb h hi k hk _ hr fun y' d' => ?_
  rw [hc]
  exact if_neg hr

/-- **C59.** Indirect Levenberg-Marquardt: likewise for the Newton step.  Missing (and false, see
`C59_indirect_inner_ignored`): failures of the inner root find. -/
theorem C59_indirect_partial [DecidableEq ι] (eps fmax : ℝ) (ls : LinSolve ι κ) (lsD : LinSolve ι (κ ⊕ ι))
    (norm : (ι → ℝ) → ℝ) (findLambda : (ℝ → ℝ) → ℝ × Result)
    (cfg : GaussNewton.Cfg ι κ SS (IndirectState ι κ)) (hc : cfg.descent = indirectDescent eps fmax ls lsD norm findLambda)
    (hb : Benign cfg.search)
    (sol) (h : iterativeSolve (GaussNewton.solver cfg aux0) af fn aux0 y0 ms throw = some (.ok sol)) (st0)
    (hi : (GaussNewton.solver cfg aux0).init fn y0 = .ok st0) (k : Nat) (hk1 : 1 ≤ k) (hk : k ≤ sol.numSteps)
    (hr : let z := iterateAt (GaussNewton.solver cfg aux0) fn aux0 y0 st0 k
      (ls.rect (cfg.jac z) (fn z).1).2 ≠ .successful) :
    let z := iterateAt (GaussNewton.solver cfg aux0) fn aux0 y0 st0 k
    ReportedAt (GaussNewton.solver cfg aux0) af fn aux0 y0 st0 sol k (ls.rect (cfg.jac z) (fn z).1).2 := by
  obtain ⟨k, rfl⟩ : ∃ m, k = m + 1 := ⟨k - 1, by omega⟩
  refine gn_failure cfg aux0 fn y0 af ms throw sol st0 hb h hi k hk _ hr fun y' d' => ?_
  rw [hc]
  generalize iterateAt (GaussNewton.solver cfg aux0) fn aux0 y0 st0 (k + 1) = z at hr
  generalize (cfg.search.step _ _ _ _ _ _).1 = t
  have hn : ¬((ls.rect (cfg.jac z) (fn z).1).2 = .successful ∧ t < 1) := fun hh => hr hh.1
  show (if (ls.rect (cfg.jac z) (fn z).1).2 = .successful ∧ t < 1 then _ else _ : (ι → ℝ) × Result).2 = _
  rw [if_neg hn]
  rfl

/-- **C59.** Levenberg-Marquardt: likewise for the damped linear solve; its damping is the one of the step size for which
the next point to be evaluated was computed. -/
theorem C59_damped [DecidableEq ι] (eps fmax : ℝ) (ls : LinSolve ι (κ ⊕ ι))
    (cfg : GaussNewton.Cfg ι κ SS (FnInfo ι κ)) (hc : cfg.descent = dampedNewtonDescent eps fmax ls)
    (hb : Benign cfg.search)
    (sol) (h : iterativeSolve (GaussNewton.solver cfg aux0) af fn aux0 y0 ms throw = some (.ok sol)) (st0)
    (hi : (GaussNewton.solver cfg aux0).init fn y0 = .ok st0) (k : Nat) (hk1 : 1 ≤ k) (hk : k ≤ sol.numSteps) :
    let z := iterateAt (GaussNewton.solver cfg aux0) fn aux0 y0 st0 k
    ∃ stepSize : ℝ,
      let d := ls.rect (dampedOperator (cfg.jac z) (lmParam eps fmax stepSize)) (dampedVector (fn z).1)
      (stateAt (GaussNewton.solver cfg aux0) fn aux0 y0 st0 k).yEval = (fun i => z i - d.1 i) ∧
      (d.2 ≠ .successful → ReportedAt (GaussNewton.solver cfg aux0) af fn aux0 y0 st0 sol k d.2) := by
  obtain ⟨k, rfl⟩ : ∃ m, k = m + 1 := ⟨k - 1, by omega⟩
  have L := gn_laws cfg aux0 fn
  obtain ⟨⟨y', d', hq⟩, t, ht, hy⟩ := queried L hb.first aux0 y0 st0 hi k
  refine ⟨t, ?_, fun hr => ?_⟩
  · have hy' : (stateAt (GaussNewton.solver cfg aux0) fn aux0 y0 st0 (k + 1)).yEval = _ := hy
    rw [hy', hq, (stored L hb.first aux0 y0 st0 hi k).1, hc]
    funext i
    show _ + -(ls.rect _ _).1 i = _
    rw [sub_eq_add_neg]
  · refine gn_failure cfg aux0 fn y0 af ms throw sol st0 hb h hi k hk _ hr fun y' d' => ?_
    rw [hc]
    have ht' : t = (cfg.search.step _ _ _ _ _ _).1 := ht
    rw [ht']
    rfl

/-- **C59.** A failure reported by the search itself (no search of the library does, but a user's may) ends the solve
and is reported; for all three families of solvers. -/
theorem C59_search (cfg : GaussNewton.Cfg ι κ SS DS)
    (hf : ∀ y z i j s, (cfg.search.step true y z i j s).2.1 = true)
    (sol) (h : iterativeSolve (GaussNewton.solver cfg aux0) af fn aux0 y0 ms throw = some (.ok sol)) (st0)
    (hi : (GaussNewton.solver cfg aux0).init fn y0 = .ok st0) (k : Nat) (hk : k + 1 ≤ sol.numSteps) (r : Result)
    (hr : r ≠ .successful)
    (hs : let y := iterateAt (GaussNewton.solver cfg aux0) fn aux0 y0 st0 k
      let st := stateAt (GaussNewton.solver cfg aux0) fn aux0 y0 st0 k
      (cfg.search.step st.firstStep y st.yEval (.residualJac st.residual st.jac)
        (.residualJac (fn st.yEval).1 (cfg.jac st.yEval)) st.searchState).2.2.1 = r) :
    ReportedAt (GaussNewton.solver cfg aux0) af fn aux0 y0 st0 sol (k + 1) r := by
  have L := gn_laws cfg aux0 fn
  obtain ⟨y', d', hv⟩ := loop_verdict L hf aux0 y0 st0 hi k
  have hs' : ((gnView cfg fn).ask cfg.search (iterateAt (GaussNewton.solver cfg aux0) fn aux0 y0 st0 k)
    (stateAt (GaussNewton.solver cfg aux0) fn aux0 y0 st0 k)).2.2.1 = r := hs
  rw [hs', if_neg hr] at hv
  exact failure_is_last _ af fn aux0 y0 ms throw sol h st0 hi (k + 1) hk r hr hv

end

/-! ### Minimisation -/

section
variable [Fintype ι] (aux0 : A) (fn : (ι → ℝ) → ℝ × A) (y0 : ι → ℝ) (af : (ι → ℝ) → Bool) (ms : Option Nat)
  (throw : Bool)

/-- **C59.** Quasi-Newton solvers that store the Hessian approximation `B` itself: if the linear solve `B d = g` at an
iterate fails then this is the last step, and the failure is reported. -/
theorem C59_quasi_newton (ls : LinSolve ι Unit) (norm : Option ((ι → ℝ) → ℝ))
    (cfg : QuasiNewton.Cfg ι SS ((ι → ℝ) × Result) HS) (hc : cfg.descent = newtonDescent ls norm)
    (hrec : RecordsPoint cfg.hess) (hb : Benign cfg.search)
    (sol) (h : iterativeSolve (QuasiNewton.solver cfg aux0) af fn aux0 y0 ms throw = some (.ok sol)) (st0)
    (hi : (QuasiNewton.solver cfg aux0).init fn y0 = .ok st0) (k : Nat) (hk1 : 1 ≤ k) (hk : k ≤ sol.numSteps)
    (f : ℝ) (g : ι → ℝ) (B : Matrix ι ι ℝ)
    (hB : (stateAt (QuasiNewton.solver cfg aux0) fn aux0 y0 st0 k).fInfo = .evalGradHessian f g B)
    (hr : (ls.square B g).2 ≠ .successful) :
    g = cfg.grad (iterateAt (QuasiNewton.solver cfg aux0) fn aux0 y0 st0 k) ∧
    ReportedAt (QuasiNewton.solver cfg aux0) af fn aux0 y0 st0 sol k (ls.square B g).2 := by
  obtain ⟨k, rfl⟩ : ∃ m, k = m + 1 := ⟨k - 1, by omega⟩
  have L := qn_laws cfg aux0 fn hrec
  obtain ⟨y', d', hv⟩ := loop_verdict L hb.first aux0 y0 st0 hi k
  have hok : ((qnView fn).ask cfg.search (iterateAt (QuasiNewton.solver cfg aux0) fn aux0 y0 st0 k)
    (stateAt (QuasiNewton.solver cfg aux0) fn aux0 y0 st0 k)).2.2.1 = .successful := hb.ok _ _ _ _ _ _
  have hB' : (qnView fn).fInfo (stateAt (QuasiNewton.solver cfg aux0) fn aux0 y0 st0 (k + 1)) =
    .evalGradHessian f g B := hB
  constructor
  · have := (stored L hb.first aux0 y0 st0 hi k).1.2
    rw [hB'] at this
    exact Option.some.inj this
  · rw [hok, if_pos rfl, hB', hc] at hv
    refine failure_is_last _ af fn aux0 y0 ms throw sol h st0 hi (k + 1) hk _ hr ?_
    rw [hv]
    cases norm <;> rfl

/-- **C59.** As `C59_search`, for gradient-descent and nonlinear-CG type solvers. -/
theorem C59_search_gradient (cfg : GradientDescent.Cfg ι SS DS)
    (hf : ∀ y z i j s, (cfg.search.step true y z i j s).2.1 = true)
    (sol) (h : iterativeSolve (GradientDescent.solver cfg aux0) af fn aux0 y0 ms throw = some (.ok sol)) (st0)
    (hi : (GradientDescent.solver cfg aux0).init fn y0 = .ok st0) (k : Nat) (hk : k + 1 ≤ sol.numSteps) (r : Result)
    (hr : r ≠ .successful)
    (hs : let y := iterateAt (GradientDescent.solver cfg aux0) fn aux0 y0 st0 k
      let st := stateAt (GradientDescent.solver cfg aux0) fn aux0 y0 st0 k
      (cfg.search.step st.firstStep y st.yEval st.fInfo (.eval (fn st.yEval).1) st.searchState).2.2.1 = r) :
    ReportedAt (GradientDescent.solver cfg aux0) af fn aux0 y0 st0 sol (k + 1) r := by
  have L := gd_laws cfg aux0 fn
  obtain ⟨y', d', hv⟩ := loop_verdict L hf aux0 y0 st0 hi k
  have hs' : ((gdView fn).ask cfg.search (iterateAt (GradientDescent.solver cfg aux0) fn aux0 y0 st0 k)
    (stateAt (GradientDescent.solver cfg aux0) fn aux0 y0 st0 k)).2.2.1 = r := hs
  rw [hs', if_neg hr] at hv
  exact failure_is_last _ af fn aux0 y0 ms throw sol h st0 hi (k + 1) hk r hr hv

/-- **C59.** As `C59_search`, for quasi-Newton solvers. -/
theorem C59_search_quasi_newton (cfg : QuasiNewton.Cfg ι SS DS HS) (hrec : RecordsPoint cfg.hess)
    (hf : ∀ y z i j s, (cfg.search.step true y z i j s).2.1 = true)
    (sol) (h : iterativeSolve (QuasiNewton.solver cfg aux0) af fn aux0 y0 ms throw = some (.ok sol)) (st0)
    (hi : (QuasiNewton.solver cfg aux0).init fn y0 = .ok st0) (k : Nat) (hk : k + 1 ≤ sol.numSteps) (r : Result)
    (hr : r ≠ .successful)
    (hs : let y := iterateAt (QuasiNewton.solver cfg aux0) fn aux0 y0 st0 k
      let st := stateAt (QuasiNewton.solver cfg aux0) fn aux0 y0 st0 k
      (cfg.search.step st.firstStep y st.yEval st.fInfo (.eval (fn st.yEval).1) st.searchState).2.2.1 = r) :
    ReportedAt (QuasiNewton.solver cfg aux0) af fn aux0 y0 st0 sol (k + 1) r := by
  have L := qn_laws cfg aux0 fn hrec
  obtain ⟨y', d', hv⟩ := loop_verdict L hf aux0 y0 st0 hi k
  have hs' : ((qnView fn).ask cfg.search (iterateAt (QuasiNewton.solver cfg aux0) fn aux0 y0 st0 k)
    (stateAt (QuasiNewton.solver cfg aux0) fn aux0 y0 st0 k)).2.2.1 = r := hs
  rw [hs', if_neg hr] at hv
  exact failure_is_last _ af fn aux0 y0 ms throw sol h st0 hi (k + 1) hk r hr hv

end

/-! ### What is not reported -/

/-- C59 is false for the inner root find of `IndirectDampedNewtonDescent`: whether it fails or not makes no difference
to anything the descent (hence the solve) returns. -/
theorem C59_indirect_inner_ignored [Fintype ι] [DecidableEq ι] (eps fmax : ℝ) (ls : LinSolve ι κ)
    (lsD : LinSolve ι (κ ⊕ ι)) (norm : (ι → ℝ) → ℝ) (findLambda : (ℝ → ℝ) → ℝ × Result) (code : Result) :
    indirectDescent eps fmax ls lsD norm (fun f => ((findLambda f).1, code)) =
      indirectDescent eps fmax ls lsD norm findLambda := rfl

/-- A concrete run to which `C59_newton` applies: the linear solver always fails, and after one step this is reported. -/
example : ∃ sol, iterativeSolve (gnSolver (ι := Unit) (κ := Unit) 0 0 (fun _ => 0) (fun _ => 0)
      ⟨fun _ _ => (fun _ => 0, .linear 1), fun _ _ => (fun _ => 0, .linear 1)⟩ (fun _ => 1) ())
      (fun _ => true) (fun y => (y, ())) () (fun _ => 1) (some 5) false = some (.ok sol) ∧
    sol.numSteps = 1 ∧ sol.result = .linear 1 := by
  obtain ⟨sol, h1, h2, h3⟩ := C03_failure_reported (gnSolver (ι := Unit) (κ := Unit) 0 0 (fun _ => 0) (fun _ => 0)
      ⟨fun _ _ => (fun _ => 0, .linear 1), fun _ _ => (fun _ => 0, .linear 1)⟩ (fun _ => 1) ())
      (fun _ => true) (fun y => (y, ())) () (fun _ => 1) _ rfl (some 5) 1 _ (.linear 1) (by simp)
      (fun j hj => by obtain rfl : j = 0 := by omega
                      exact ⟨rfl, rfl⟩) rfl rfl (fun n hn => by cases hn; omega)
  exact ⟨sol, h1, h3, h2⟩

end Verif.Props
