import Verif.Props.QuasiNewton

/-!
Property C29 for whole runs of all three solver families with both trust-region searches.
-/

namespace Verif.Props

open Verif Verif.Spec Verif.Driver Verif.SearchLoop

variable {ι κ A DS HS : Type}

/-- Specification: a history of iterates `Y`, trial points and radii follows the trust-region rule with the constants `c`, given
the actual and the predicted change of the objective between `Y k` and the trial point.  The radius starts at `1` and is always
positive.  From step 1 on, the step moves to the trial point iff `actual ≤ low_cutoff * predicted`, and then the radius grows by
`high_constant` if the step was good (`actual < high_cutoff * predicted`, and `predicted < 0`) and is kept otherwise; else the
iterate is kept and the radius shrinks by `low_constant`. -/
structure TrustRule (c : TrustRegion.Cfg ℝ) (Y trial : Nat → ι → ℝ) (radius actual predicted : Nat → ℝ) : Prop where
  positive : ∀ k, 0 < radius k
  start : radius 0 = 1 ∧ radius 1 = 1
  accept : ∀ k, 1 ≤ k → actual k ≤ c.lowCutoff * predicted k → Y (k + 1) = trial k ∧
    ((actual k < c.highCutoff * predicted k ∧ predicted k < 0) → radius (k + 1) = c.highConstant * radius k) ∧
    (¬(actual k < c.highCutoff * predicted k ∧ predicted k < 0) → radius (k + 1) = radius k)
  reject : ∀ k, 1 ≤ k → ¬actual k ≤ c.lowCutoff * predicted k → Y (k + 1) = Y k ∧ radius (k + 1) = c.lowConstant * radius k

/-- Under the rule, where the prediction is not positive and `low_cutoff ≥ 0`, no step increases the objective. -/
theorem TrustRule.monotone {c : TrustRegion.Cfg ℝ} {Y trial : Nat → ι → ℝ} {radius predicted : Nat → ℝ} {obj : (ι → ℝ) → ℝ}
    (h : TrustRule c Y trial radius (fun k => obj (trial k) - obj (Y k)) predicted) (hc : 0 ≤ c.lowCutoff) (k : Nat) (hk : 1 ≤ k)
    (hp : predicted k ≤ 0) : obj (Y (k + 1)) ≤ obj (Y k) := by
  by_cases ha : obj (trial k) - obj (Y k) ≤ c.lowCutoff * predicted k
  · rw [(h.accept k hk ha).1]
    have := mul_nonpos_of_nonneg_of_nonpos hc hp
    linarith
  · rw [(h.reject k hk ha).1]

section
variable {Out St SS : Type} [Fintype κ] {S : Solver (ι → ℝ) Out A St Unit} {fn : (ι → ℝ) → Out × A} {obj : (ι → ℝ) → ℝ}
  {desc : Descent ι κ DS} {v : View ι κ A ℝ DS St} {Good : (ι → ℝ) → FnInfo ι κ → Prop}
  {c : TrustRegion.Cfg ℝ} {acc : FnInfo ι κ → Bool} {pred : (ι → ℝ) → FnInfo ι κ → ℝ}

theorem trust_rule (L : Laws S fn obj (TrustRegion.search c acc pred) desc v Good) (hl : 0 < c.lowConstant)
    (hh : 0 < c.highConstant) (aux0 : A) (y0 : ι → ℝ) (st0 : St) (hi : S.init fn y0 = .ok st0) (predicted : Nat → ℝ)
    (hpred : ∀ k, pred (fun i => v.yEval (stateAt S fn aux0 y0 st0 (k + 1)) i - iterateAt S fn aux0 y0 st0 (k + 1) i)
      (v.fInfo (stateAt S fn aux0 y0 st0 (k + 1))) = predicted (k + 1)) :
    TrustRule c (iterateAt S fn aux0 y0 st0) (fun k => v.yEval (stateAt S fn aux0 y0 st0 k))
      (fun k => v.ss (stateAt S fn aux0 y0 st0 k))
      (fun k => obj (v.yEval (stateAt S fn aux0 y0 st0 k)) - obj (iterateAt S fn aux0 y0 st0 k)) predicted := by
  have hstart := tr_start L aux0 y0 st0 hi
  refine ⟨tr_pos L hl hh aux0 y0 st0 hi, ⟨hstart.1, hstart.2.1⟩, fun k hk ha => ?_, fun k hk ha => ?_⟩
  all_goals
    obtain _ | k := k
    · omega
    have run := (tr_run L aux0 y0 st0 hi k).2
    rw [hpred k] at run
    rcases run with ⟨r1, r2, r3, r4, r5⟩ | ⟨r1, r2, r3, r4⟩ | ⟨r1, r2, r3, _⟩
  · exact ⟨r4, fun _ => r5, fun h => absurd ⟨r2, r3⟩ h⟩
  · exact ⟨r3, fun h => absurd h r2, fun _ => r4⟩
  · exact absurd ha r1
  · exact absurd r1 ha
  · exact absurd r1 ha
  · exact ⟨r2, r3⟩

end

variable [Fintype ι]

/-- **C29**, gradient methods with `LinearTrustRegion`: whole runs follow the rule, the prediction being the linear one,
`grad · (trial - y)`. -/
theorem C29_run_gradient_linear (c : TrustRegion.Cfg ℝ) (hl : 0 < c.lowConstant) (hh : 0 < c.highConstant)
    (cfg : GradientDescent.Cfg ι ℝ DS) (hs : cfg.search = TrustRegion.linear c) (aux0 : A) (fn : (ι → ℝ) → ℝ × A) (y0 : ι → ℝ)
    (st0 : GradientDescent.State ι A ℝ DS) (hi : (GradientDescent.solver cfg aux0).init fn y0 = .ok st0) :
    let Y := iterateAt (GradientDescent.solver cfg aux0) fn aux0 y0 st0
    let St := stateAt (GradientDescent.solver cfg aux0) fn aux0 y0 st0
    TrustRule c Y (fun k => (St k).yEval) (fun k => (St k).searchState)
      (fun k => (fn (St k).yEval).1 - (fn (Y k)).1) (fun k => ∑ i, cfg.grad (Y k) i * ((St k).yEval i - Y k i)) := by
  intro Y St
  have L := gd_laws cfg aux0 fn
  rw [hs] at L
  refine trust_rule L hl hh aux0 y0 st0 hi _ fun k => ?_
  have hinfo := (stored L (tr_first _ _ _) aux0 y0 st0 hi k).1
  rw [hinfo, C54_linear]
  rfl

/-- **C29**, quasi-Newton methods with `LinearTrustRegion`. -/
theorem C29_run_quasi_newton_linear (c : TrustRegion.Cfg ℝ) (hl : 0 < c.lowConstant) (hh : 0 < c.highConstant)
    (cfg : QuasiNewton.Cfg ι ℝ DS HS) (hs : cfg.search = TrustRegion.linear c) (hr : RecordsPoint cfg.hess) (aux0 : A)
    (fn : (ι → ℝ) → ℝ × A) (y0 : ι → ℝ) (st0 : QuasiNewton.State ι A ℝ DS HS)
    (hi : (QuasiNewton.solver cfg aux0).init fn y0 = .ok st0) :
    let Y := iterateAt (QuasiNewton.solver cfg aux0) fn aux0 y0 st0
    let St := stateAt (QuasiNewton.solver cfg aux0) fn aux0 y0 st0
    TrustRule c Y (fun k => (St k).yEval) (fun k => (St k).searchState)
      (fun k => (fn (St k).yEval).1 - (fn (Y k)).1) (fun k => ∑ i, cfg.grad (Y k) i * ((St k).yEval i - Y k i)) := by
  intro Y St
  have L := qn_laws cfg aux0 fn hr
  rw [hs] at L
  refine trust_rule L hl hh aux0 y0 st0 hi _ fun k => ?_
  have hinfo := (stored L (tr_first _ _ _) aux0 y0 st0 hi k).1
  rw [C54_linear, hinfo.2]
  rfl

/-- **C29**, quasi-Newton methods with `ClassicalTrustRegion` (so with direct Hessian approximations `B k`): the prediction is
that of the quadratic model, `grad · d + ½ d · B d`. -/
theorem C29_run_quasi_newton_classical (c : TrustRegion.Cfg ℝ) (hl : 0 < c.lowConstant) (hh : 0 < c.highConstant)
    (cfg : QuasiNewton.Cfg ι ℝ DS HS) (hs : cfg.search = TrustRegion.classical c) (hr : RecordsPoint cfg.hess) (aux0 : A)
    (fn : (ι → ℝ) → ℝ × A) (y0 : ι → ℝ) (st0 : QuasiNewton.State ι A ℝ DS HS)
    (hi : (QuasiNewton.solver cfg aux0).init fn y0 = .ok st0) (B : Nat → Matrix ι ι ℝ)
    (hB : ∀ k, 1 ≤ k → Stores false (stateAt (QuasiNewton.solver cfg aux0) fn aux0 y0 st0 k).fInfo (B k)) :
    let Y := iterateAt (QuasiNewton.solver cfg aux0) fn aux0 y0 st0
    let St := stateAt (QuasiNewton.solver cfg aux0) fn aux0 y0 st0
    TrustRule c Y (fun k => (St k).yEval) (fun k => (St k).searchState) (fun k => (fn (St k).yEval).1 - (fn (Y k)).1)
      (fun k => let d := fun i => (St k).yEval i - Y k i
        (∑ i, cfg.grad (Y k) i * d i) + (∑ i, ∑ j, d i * B k i j * d j) / 2) := by
  intro Y St
  have L := qn_laws cfg aux0 fn hr
  rw [hs] at L
  refine trust_rule L hl hh aux0 y0 st0 hi _ fun k => ?_
  have hinfo := (stored L (tr_first _ _ _) aux0 y0 st0 hi k).1
  obtain ⟨f, g, h⟩ := hB (k + 1) (by omega)
  have hv : (qnView (A := A) (HS := HS) fn).fInfo (stateAt (QuasiNewton.solver cfg aux0) fn aux0 y0 st0 (k + 1)) =
      .evalGradHessian f g (B (k + 1)) := h
  have hg : g = cfg.grad (Y (k + 1)) := by
    have := hinfo.2
    rw [hv] at this
    exact Option.some.inj this
  rw [hv, C54_classical_hessian, hg]
  simp only [quadModel, Option.getD_some]
  simp only [mul_zero, zero_mul, Finset.sum_const_zero, add_zero, zero_div]
  rw [add_sub_right_comm, add_sub_cancel_left]
  rfl

/-- **C29**, least-squares methods with `LinearTrustRegion`: the prediction is `grad · (trial - y)` for the gradient `Jᵀ r` of
`½Σr²`. -/
theorem C29_run_gauss_newton_linear [Fintype κ] (c : TrustRegion.Cfg ℝ) (hl : 0 < c.lowConstant) (hh : 0 < c.highConstant)
    (cfg : GaussNewton.Cfg ι κ ℝ DS) (hs : cfg.search = TrustRegion.linear c) (aux0 : A) (fn : (ι → ℝ) → (κ → ℝ) × A)
    (y0 : ι → ℝ) (st0 : GaussNewton.State ι κ A ℝ DS) (hi : (GaussNewton.solver cfg aux0).init fn y0 = .ok st0) :
    let Y := iterateAt (GaussNewton.solver cfg aux0) fn aux0 y0 st0
    let St := stateAt (GaussNewton.solver cfg aux0) fn aux0 y0 st0
    TrustRule c Y (fun k => (St k).yEval) (fun k => (St k).searchState)
      (fun k => (∑ m, (fn (St k).yEval).1 m ^ 2) / 2 - (∑ m, (fn (Y k)).1 m ^ 2) / 2)
      (fun k => ∑ i, (∑ m, cfg.jac (Y k) m i * (fn (Y k)).1 m) * ((St k).yEval i - Y k i)) := by
  intro Y St
  have L := gn_laws cfg aux0 fn
  rw [hs] at L
  have hpred : ∀ k, (TrustRegion.linearPredict (fun i => (St (k + 1)).yEval i - Y (k + 1) i)
      ((gnView (A := A) cfg fn).fInfo (St (k + 1)))).getD 0 =
      ∑ i, (∑ m, cfg.jac (Y (k + 1)) m i * (fn (Y (k + 1))).1 m) * ((St (k + 1)).yEval i - Y (k + 1) i) := by
    intro k
    have hinfo := (stored L (tr_first _ _ _) aux0 y0 st0 hi k).1
    rw [hinfo, C54_linear]
    simp only [FnInfo.grad?, Option.map_some, Option.getD_some]
    refine Finset.sum_congr rfl fun i _ => ?_
    congr 1
  have h := trust_rule L hl hh aux0 y0 st0 hi
    (fun k => ∑ i, (∑ m, cfg.jac (Y k) m i * (fn (Y k)).1 m) * ((St k).yEval i - Y k i)) hpred
  have e : (fun k => 0.5 * sumSquares (fn (St k).yEval).1 - 0.5 * sumSquares (fn (Y k)).1) =
      fun k => (∑ m, (fn (St k).yEval).1 m ^ 2) / 2 - (∑ m, (fn (Y k)).1 m ^ 2) / 2 := by
    funext k
    simp only [sumSquares, pow_two]
    norm_num
    ring
  exact e ▸ h

/-- The matrices `B k` of `C29_run_quasi_newton_classical` exist in every run with the direct BFGS update, and are symmetric
positive definite. -/
theorem direct_hessians_exist [DecidableEq ι] (eps : ℝ) (heps : 0 ≤ eps) (c : TrustRegion.Cfg ℝ)
    (cfg : QuasiNewton.Cfg ι ℝ DS Unit) (hs : cfg.search = TrustRegion.classical c) (hcfg : cfg.hess = QuasiNewton.bfgs eps false)
    (aux0 : A) (fn : (ι → ℝ) → ℝ × A) (y0 : ι → ℝ) (st0 : QuasiNewton.State ι A ℝ DS Unit)
    (hi : (QuasiNewton.solver cfg aux0).init fn y0 = .ok st0) :
    ∃ B : Nat → Matrix ι ι ℝ, ∀ k, 1 ≤ k →
      Stores false (stateAt (QuasiNewton.solver cfg aux0) fn aux0 y0 st0 k).fInfo (B k) ∧ SPD (B k) := by
  have h := (C34_run eps heps false cfg hcfg (by rw [hs]; exact tr_first _ _ _) aux0 fn y0 st0 hi).2
  have : ∀ k, ∃ M, 1 ≤ k → Stores false (stateAt (QuasiNewton.solver cfg aux0) fn aux0 y0 st0 k).fInfo M ∧ SPD M := by
    intro k
    obtain _ | k := k
    · exact ⟨1, fun h => absurd h (by omega)⟩
    · obtain ⟨M, _, h1, _, h2, _⟩ := h k
      exact ⟨M, fun _ => ⟨h1, h2⟩⟩
  exact ⟨fun k => (this k).choose, fun k => (this k).choose_spec⟩

/-- The direct BFGS method with the classical trust region and its default constants, on `y₁² + 3 y₂²` from `(1, 1)`. -/
example : ∃ (cfg : QuasiNewton.Cfg (Fin 2) ℝ ((Fin 2 → ℝ) × Result) Unit)
    (st0 : QuasiNewton.State (Fin 2) Unit ℝ ((Fin 2 → ℝ) × Result) Unit) (B : Nat → Matrix (Fin 2) (Fin 2) ℝ),
    cfg.search = TrustRegion.classical TrustRegion.defaults ∧ RecordsPoint cfg.hess ∧
    0 < (TrustRegion.defaults : TrustRegion.Cfg ℝ).lowConstant ∧ 0 < (TrustRegion.defaults : TrustRegion.Cfg ℝ).highConstant ∧
    (QuasiNewton.solver cfg ()).init (fun y => (y 0 ^ 2 + 3 * y 1 ^ 2, ())) ![1, 1] = .ok st0 ∧
    ∀ k, 1 ≤ k → Stores false (stateAt (QuasiNewton.solver cfg ()) (fun y => (y 0 ^ 2 + 3 * y 1 ^ 2, ())) () ![1, 1] st0 k).fInfo
      (B k) := by
  obtain ⟨B, hB⟩ := direct_hessians_exist (A := Unit) 0.001 (by norm_num) TrustRegion.defaults
    { exQN false with search := TrustRegion.classical TrustRegion.defaults } rfl rfl ()
    (fun y => (y 0 ^ 2 + 3 * y 1 ^ 2, ())) ![1, 1] _ rfl
  exact ⟨_, _, B, rfl, bfgs_records _ _, by norm_num [TrustRegion.defaults], by norm_num [TrustRegion.defaults], rfl,
    fun k hk => (hB k hk).1⟩

/-- The same with `LinearTrustRegion`. -/
example : ∃ (cfg : QuasiNewton.Cfg (Fin 2) ℝ ((Fin 2 → ℝ) × Result) Unit)
    (st0 : QuasiNewton.State (Fin 2) Unit ℝ ((Fin 2 → ℝ) × Result) Unit),
    cfg.search = TrustRegion.linear TrustRegion.defaults ∧ RecordsPoint cfg.hess ∧
    (QuasiNewton.solver cfg ()).init (fun y => (y 0 ^ 2 + 3 * y 1 ^ 2, ())) ![1, 1] = .ok st0 :=
  ⟨{ exQN false with search := TrustRegion.linear TrustRegion.defaults }, _, rfl, bfgs_records _ _, rfl⟩

/-- Gradient descent with `LinearTrustRegion` on `y²`. -/
example : ∃ (cfg : GradientDescent.Cfg Unit ℝ (Unit → ℝ)) (st0 : GradientDescent.State Unit Unit ℝ (Unit → ℝ)),
    cfg.search = TrustRegion.linear TrustRegion.defaults ∧
    (GradientDescent.solver cfg ()).init (fun y => (y () ^ 2, ())) (fun _ => 1) = .ok st0 :=
  ⟨{ exGD with search := TrustRegion.linear TrustRegion.defaults }, _, rfl, rfl⟩

/-- Gauss-Newton with `LinearTrustRegion` on the residual `y - 3`. -/
example : ∃ (cfg : GaussNewton.Cfg Unit Unit ℝ ((Unit → ℝ) × Result))
    (st0 : GaussNewton.State Unit Unit Unit ℝ ((Unit → ℝ) × Result)),
    cfg.search = TrustRegion.linear TrustRegion.defaults ∧
    (GaussNewton.solver cfg ()).init (fun y => (fun m => y m - 3, ())) (fun _ => 1) = .ok st0 :=
  ⟨{ rtol := 0.1, atol := 0.1, normY := maxNorm, normF := maxNorm, search := TrustRegion.linear TrustRegion.defaults,
     descent := newtonDescent
      { rect := fun J r => (fun _ => r () / J () (), .successful), square := fun _ _ => (fun _ => 0, .successful) } none,
     jac := fun _ _ _ => 1 }, _, rfl, rfl⟩

end Verif.Props
