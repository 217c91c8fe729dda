import Verif.Props.TrustRuns
import Verif.Props.TrustConvergence
import Verif.Props.DoglegHessian
import Verif.Props.LBFGSCompact

/-!
Properties C109 and C110: minimisation with a trust-region search.  C109 is false for Newton steps with the classical model
(`C109_newton_overshoots`), so the theorems for the other combinations are partial.
-/

namespace Verif.Props

open Verif Verif.Spec Verif.Driver Verif.SearchLoop Filter Topology

variable {ι A DS HS : Type} [Fintype ι]

/-- What "the objective never increases" means for a solver: it does not along the iterates of any run, and the value returned
is not above the one at the starting point. -/
def NeverIncreases {Y St Stats : Type} (S : Solver Y ℝ A St Stats) (fn : Y → ℝ × A) (aux0 : A) (y0 : Y) : Prop :=
  (∀ st0, S.init fn y0 = .ok st0 → ∀ j k, j ≤ k → (fn (iterateAt S fn aux0 y0 st0 k)).1 ≤ (fn (iterateAt S fn aux0 y0 st0 j)).1) ∧
  ∀ af ms throw sol, iterativeSolve S af fn aux0 y0 ms throw = some (.ok sol) → (fn sol.value).1 ≤ (fn y0).1

theorem neverIncreases_of_step {Y St Stats : Type} (S : Solver Y ℝ A St Stats) (fn : Y → ℝ × A) (aux0 : A) (y0 : Y)
    (hpost : ∀ y a st r, (S.postprocess fn y a st r).1 = y)
    (h : ∀ st0, S.init fn y0 = .ok st0 → ∀ k, (fn (iterateAt S fn aux0 y0 st0 (k + 1))).1 ≤ (fn (iterateAt S fn aux0 y0 st0 k)).1) :
    NeverIncreases S fn aux0 y0 := by
  have hmain : ∀ st0, S.init fn y0 = .ok st0 → ∀ j k, j ≤ k →
      (fn (iterateAt S fn aux0 y0 st0 k)).1 ≤ (fn (iterateAt S fn aux0 y0 st0 j)).1 := by
    intro st0 hi j k hjk
    induction hjk with
    | refl => exact le_rfl
    | step _ ih => exact (h st0 hi _).trans ih
  refine ⟨hmain, fun af ms throw sol hs => ?_⟩
  obtain ⟨_, _, st0, hi, _, hp⟩ := C01_step_budget _ _ _ _ _ _ _ _ hs
  have hv : sol.value = iterateAt S fn aux0 y0 st0 sol.numSteps :=
    (congrArg Prod.fst hp).trans (hpost _ _ _ _)
  rw [hv]
  exact hmain st0 hi 0 _ (Nat.zero_le _)

/-! ### Every search direction that does not point uphill -/

section
variable {κ St Out : Type} [Fintype κ] {S : Solver (ι → ℝ) Out A St Unit} {fn : (ι → ℝ) → Out × A} {obj : (ι → ℝ) → ℝ}
  {desc : Descent ι κ DS} {v : View ι κ A ℝ DS St} {Good : (ι → ℝ) → FnInfo ι κ → Prop}
  {c : TrustRegion.Cfg ℝ} {acc : FnInfo ι κ → Bool} {pred : (ι → ℝ) → FnInfo ι κ → ℝ}

/-- The trial point of a trust-region run: the descent's step of length `radius` from the current iterate, with a descent state
that came from the information at that iterate. -/
theorem trust_trial (L : Laws S fn obj (TrustRegion.search c acc pred) desc v Good) (aux0 : A) (y0 : ι → ℝ) (st0 : St)
    (hi : S.init fn y0 = .ok st0) (k : Nat) :
    let st := stateAt S fn aux0 y0 st0 (k + 1)
    (∃ y' d', v.ds st = desc.query y' (v.fInfo st) d') ∧
    v.yEval st = fun i => iterateAt S fn aux0 y0 st0 (k + 1) i + (desc.step (v.ss st) (v.ds st)).1 i := by
  intro st
  refine ⟨(queried L (tr_first _ _ _) aux0 y0 st0 hi k).1, ?_⟩
  obtain _ | k := k
  · have h := tr_start L aux0 y0 st0 hi
    have h1 := (first_iterate L (tr_first _ _ _) aux0 y0 st0 hi).1
    show v.yEval (stateAt S fn aux0 y0 st0 1) = fun i => iterateAt S fn aux0 y0 st0 1 i +
      (desc.step (v.ss (stateAt S fn aux0 y0 st0 1)) (v.ds (stateAt S fn aux0 y0 st0 1))).1 i
    rw [h.2.1, h.2.2, h1]
  · exact (tr_run L aux0 y0 st0 hi k).1

/-- If the predicted change is never positive the objective never increases. -/
theorem trust_monotone (L : Laws S fn obj (TrustRegion.search c acc pred) desc v Good) (hl : 0 < c.lowConstant)
    (hh : 0 < c.highConstant) (hc : 0 ≤ c.lowCutoff) (aux0 : A) (y0 : ι → ℝ) (st0 : St) (hi : S.init fn y0 = .ok st0)
    (hp : ∀ k y' d', let st := stateAt S fn aux0 y0 st0 (k + 1)
      Good (iterateAt S fn aux0 y0 st0 (k + 1)) (v.fInfo st) → 0 < v.ss st →
      pred (desc.step (v.ss st) (desc.query y' (v.fInfo st) d')).1 (v.fInfo st) ≤ 0) (k : Nat) :
    obj (iterateAt S fn aux0 y0 st0 (k + 1)) ≤ obj (iterateAt S fn aux0 y0 st0 k) := by
  obtain _ | k := k
  · rw [(first_iterate L (tr_first _ _ _) aux0 y0 st0 hi).1]
    exact le_rfl
  · obtain ⟨⟨y', d', hq⟩, ht⟩ := trust_trial L aux0 y0 st0 hi k
    have hpos := tr_pos L hl hh aux0 y0 st0 hi (k + 1)
    have h1 := hp k y' d' (stored L (tr_first _ _ _) aux0 y0 st0 hi k).1 hpos
    have e : (fun i => v.yEval (stateAt S fn aux0 y0 st0 (k + 1)) i - iterateAt S fn aux0 y0 st0 (k + 1) i) =
        (desc.step (v.ss (stateAt S fn aux0 y0 st0 (k + 1))) (v.ds (stateAt S fn aux0 y0 st0 (k + 1)))).1 := by
      rw [ht]
      funext i
      simp
    rw [← hq, ← e] at h1
    have R := (tr_run L aux0 y0 st0 hi k).2
    have h2 := mul_nonpos_of_nonneg_of_nonpos hc h1
    rcases R with ⟨r1, _, _, r4, _⟩ | ⟨r1, _, r3, _⟩ | ⟨_, r2, _⟩
    · rw [r4]; linarith
    · rw [r3]; linarith
    · rw [r2]

end

/-- **C109**, gradient descent with `LinearTrustRegion`, with or without a norm for the direction. -/
theorem C109_steepest_descent_partial (c : TrustRegion.Cfg ℝ) (hl : 0 < c.lowConstant) (hh : 0 < c.highConstant) (hc : 0 ≤ c.lowCutoff)
    (norm : Option ((ι → ℝ) → ℝ)) (hn : ∀ n, norm = some n → ∀ x, 0 ≤ n x) (cfg : GradientDescent.Cfg ι ℝ (ι → ℝ))
    (hs : cfg.search = TrustRegion.linear c) (hd : cfg.descent = steepestDescent norm) (aux0 : A) (fn : (ι → ℝ) → ℝ × A)
    (y0 : ι → ℝ) : NeverIncreases (GradientDescent.solver cfg aux0) fn aux0 y0 := by
  refine neverIncreases_of_step _ _ _ _ (fun _ _ _ _ => rfl) fun st0 hi k => ?_
  have L := gd_laws cfg aux0 fn
  rw [hs] at L
  refine trust_monotone L hl hh hc aux0 y0 st0 hi (fun k y' d' => ?_) k
  intro st hg ht
  rw [hg, C54_linear, hd]
  simp only [FnInfo.grad?, Option.map_some, Option.getD_some, steepestDescent]
  set t := (gdView (A := A) fn).ss st
  set g := cfg.grad (iterateAt (GradientDescent.solver cfg aux0) fn aux0 y0 st0 (k + 1))
  cases norm with
  | none =>
    refine Finset.sum_nonpos fun i _ => ?_
    show g i * (-t * g i) ≤ 0
    nlinarith [mul_nonneg ht.le (mul_self_nonneg (g i))]
  | some n =>
    refine Finset.sum_nonpos fun i _ => ?_
    show g i * (-t * (g i / n g)) ≤ 0
    have : g i * (-t * (g i / n g)) = -(t * (g i * g i / n g)) := by ring
    rw [this]
    have h2 := mul_nonneg ht.le (div_nonneg (mul_self_nonneg (g i)) (hn n rfl g))
    linarith

/-- **C109**, nonlinear conjugate gradients with `LinearTrustRegion`, for every choice of `beta`. -/
theorem C109_nonlinear_cg_partial (c : TrustRegion.Cfg ℝ) (hl : 0 < c.lowConstant) (hh : 0 < c.highConstant) (hc : 0 ≤ c.lowCutoff)
    (rtol atol : ℝ) (nY : (ι → ℝ) → ℝ) (nF : (Unit → ℝ) → ℝ) (method : (ι → ℝ) → (ι → ℝ) → (ι → ℝ) → ℝ)
    (grad : (ι → ℝ) → (ι → ℝ)) (aux0 : A) (fn : (ι → ℝ) → ℝ × A) (y0 : ι → ℝ) :
    NeverIncreases (GradientDescent.solver (NonlinearCG.cfg rtol atol nY nF method (TrustRegion.linear c) grad) aux0) fn aux0 y0 := by
  refine neverIncreases_of_step _ _ _ _ (fun _ _ _ _ => rfl) fun st0 hi k => ?_
  have L := gd_laws (NonlinearCG.cfg rtol atol nY nF method (TrustRegion.linear c) grad) aux0 fn
  rw [show (NonlinearCG.cfg rtol atol nY nF method (TrustRegion.linear c) grad).search = TrustRegion.linear c from rfl] at L
  refine trust_monotone L hl hh hc aux0 y0 st0 hi (fun k y' d' => ?_) k
  intro st hg ht
  rw [hg, C54_linear]
  simp only [FnInfo.grad?, Option.map_some, Option.getD_some]
  set t := (gdView (A := A) fn).ss st
  set z := iterateAt (GradientDescent.solver (NonlinearCG.cfg rtol atol nY nF method (TrustRegion.linear c) grad) aux0) fn aux0
    y0 st0 (k + 1)
  obtain ⟨h1, h2, _⟩ := C32_query_descent (κ := Unit) method y' (grad z) (.evalGrad (fn z).1 (grad z)) rfl d'
  set d := ((NonlinearCG.descent method).query y' (.evalGrad (fn z).1 (grad z) : FnInfo ι Unit) d').yDiff with hd
  have e : ∑ i, grad z i * (t * d i) = t * treeDot (grad z) d := by
    unfold treeDot
    rw [Finset.mul_sum]
    exact Finset.sum_congr rfl fun i _ => by ring
  refine le_trans (le_of_eq e) ?_
  by_cases hz : ∃ i, grad z i ≠ 0
  · exact mul_nonpos_of_nonneg_of_nonpos ht.le (h1 hz).le
  · push Not at hz
    have : treeDot (grad z) d = 0 := Finset.sum_eq_zero fun i _ => by rw [hz i, zero_mul]
    rw [this, mul_zero]

/-! ### Quasi-Newton methods -/

/-- The Hessian approximation keeps its matrix in the form `useInverse` and symmetric positive definite, in every run. -/
def KeepsSPD (b : Bool) (cfg : QuasiNewton.Cfg ι ℝ DS HS) (aux0 : A) (fn : (ι → ℝ) → ℝ × A) (y0 : ι → ℝ) : Prop :=
  ∀ st0, (QuasiNewton.solver cfg aux0).init fn y0 = .ok st0 → ∀ k, ∃ M,
    Stores b (stateAt (QuasiNewton.solver cfg aux0) fn aux0 y0 st0 (k + 1)).fInfo M ∧ SPD M

theorem bfgs_keeps_spd [DecidableEq ι] (eps : ℝ) (heps : 0 ≤ eps) (b : Bool) (cfg : QuasiNewton.Cfg ι ℝ DS Unit)
    (hcfg : cfg.hess = QuasiNewton.bfgs eps b ∨ cfg.hess = QuasiNewton.dfp eps b)
    (hf : ∀ y z i j s, (cfg.search.step true y z i j s).2.1 = true) (aux0 : A) (fn : (ι → ℝ) → ℝ × A) (y0 : ι → ℝ) :
    KeepsSPD b cfg aux0 fn y0 ∧ RecordsPoint cfg.hess := by
  constructor
  · intro st0 hi k
    rcases hcfg with h | h
    · obtain ⟨M, _, h1, _, h2, _⟩ := (C34_run eps heps b cfg h hf aux0 fn y0 st0 hi).2 k
      exact ⟨M, h1, h2⟩
    · obtain ⟨M, _, h1, _, h2, _⟩ := (C35_run eps heps b cfg h hf aux0 fn y0 st0 hi).2 k
      exact ⟨M, h1, h2⟩
  · rcases hcfg with h | h
    · rw [h]; exact bfgs_records eps b
    · rw [h]; exact dfp_records eps b

theorem lbfgs_inverse_keeps_spd [DecidableEq ι] (eps : ℝ) (heps : 0 ≤ eps) (h : Nat) [NeZero h]
    (cfg : QuasiNewton.Cfg ι ℝ DS (LBFGS.InvState ι h)) (hcfg : cfg.hess = LBFGS.inverse eps h)
    (hf : ∀ y z i j s, (cfg.search.step true y z i j s).2.1 = true) (aux0 : A) (fn : (ι → ℝ) → ℝ × A) (y0 : ι → ℝ) :
    KeepsSPD true cfg aux0 fn y0 ∧ RecordsPoint cfg.hess := by
  refine ⟨fun st0 hi k => ?_, by rw [hcfg]; exact inverse_records eps h⟩
  obtain ⟨h1, _, h2, _⟩ := C38_run eps heps h cfg hcfg hf aux0 fn y0 st0 hi k
  exact ⟨_, h1, h2⟩

theorem lbfgs_direct_keeps_spd [DecidableEq ι] (eps : ℝ) (heps : 0 ≤ eps) (h : Nat) [NeZero h] (la : LBFGS.DenseLA h)
    (hla : ExactLA la) (cfg : QuasiNewton.Cfg ι ℝ DS (LBFGS.DirState ι h)) (hcfg : cfg.hess = LBFGS.direct eps h la)
    (hf : ∀ y z i j s, (cfg.search.step true y z i j s).2.1 = true) (aux0 : A) (fn : (ι → ℝ) → ℝ × A) (y0 : ι → ℝ) :
    KeepsSPD false cfg aux0 fn y0 ∧ RecordsPoint cfg.hess := by
  refine ⟨fun st0 hi k => ?_, by rw [hcfg]; exact direct_records eps h la⟩
  obtain ⟨h1, _, h2, _⟩ := C39_run eps heps h la hla cfg hcfg hf aux0 fn y0 st0 hi k
  exact ⟨_, h1, h2⟩

/-- **C109**, quasi-Newton methods with Newton steps and `LinearTrustRegion`, in the inverse and in the direct form. -/
theorem C109_newton_linear_partial (c : TrustRegion.Cfg ℝ) (hl : 0 < c.lowConstant) (hh : 0 < c.highConstant)
    (hc : 0 ≤ c.lowCutoff) (b : Bool) (ls : LinSolve ι Unit) (hls : b = false → SolvesSPD ls)
    (cfg : QuasiNewton.Cfg ι ℝ ((ι → ℝ) × Result) HS) (hs : cfg.search = TrustRegion.linear c)
    (norm : Option ((ι → ℝ) → ℝ)) (hnorm : ∀ nm ∈ norm, ∀ x, 0 ≤ nm x)
    (hd : cfg.descent = newtonDescent ls norm) (hr : RecordsPoint cfg.hess) (aux0 : A) (fn : (ι → ℝ) → ℝ × A) (y0 : ι → ℝ)
    (hspd : KeepsSPD b cfg aux0 fn y0) : NeverIncreases (QuasiNewton.solver cfg aux0) fn aux0 y0 := by
  refine neverIncreases_of_step _ _ _ _ (fun _ _ _ _ => rfl) fun st0 hi k => ?_
  have L := qn_laws cfg aux0 fn hr
  rw [hs] at L
  refine trust_monotone L hl hh hc aux0 y0 st0 hi (fun k y' d' => ?_) k
  intro st hg ht
  obtain ⟨M, hM, hp⟩ := hspd st0 hi k
  set i := (qnView (A := A) (HS := HS) fn).fInfo st with hidef
  have hM' : Stores b i M := hM
  set t := (qnView (A := A) (HS := HS) fn).ss st
  set g := cfg.grad (iterateAt (QuasiNewton.solver cfg aux0) fn aux0 y0 st0 (k + 1))
  have hgi : i.grad? = some g := hg.2
  have hnn : 0 ≤ treeDot g (newtonStep ls i).1 := by
    by_cases hz : ∃ j, g j ≠ 0
    · exact (newton_descends ls b hls i M hM' hp g hgi hz).1.le
    · push Not at hz
      exact (Finset.sum_eq_zero fun j _ => by rw [hz j, zero_mul]).ge
  rw [C54_linear, hgi, hd]
  simp only [Option.map_some, Option.getD_some, newtonDescent]
  cases norm with
  | none =>
    have e : ∑ j, g j * (-t * (newtonStep ls i).1 j) = -(t * treeDot g (newtonStep ls i).1) := by
      unfold treeDot
      rw [Finset.mul_sum, ← Finset.sum_neg_distrib]
      exact Finset.sum_congr rfl fun j _ => by ring
    refine le_trans (le_of_eq e) ?_
    have := mul_nonneg ht.le hnn
    linarith
  | some nm =>
    have e : ∑ j, g j * (-t * ((newtonStep ls i).1 j / nm (newtonStep ls i).1)) =
        -(t * (treeDot g (newtonStep ls i).1 / nm (newtonStep ls i).1)) := by
      unfold treeDot
      rw [Finset.sum_div, Finset.mul_sum, ← Finset.sum_neg_distrib]
      exact Finset.sum_congr rfl fun j _ => by ring
    refine le_trans (le_of_eq e) ?_
    have := mul_nonneg ht.le (div_nonneg hnn (hnorm nm rfl (newtonStep ls i).1))
    linarith

theorem spd_sum_nonneg {B : Matrix ι ι ℝ} (hB : SPD B) (x : ι → ℝ) : 0 ≤ ∑ i, ∑ j, x i * B i j * x j := by
  by_cases hx : ∃ i, x i ≠ 0
  · exact (hB.2 x hx).le
  · push Not at hx
    exact (Finset.sum_eq_zero fun i _ => Finset.sum_eq_zero fun j _ => by rw [hx i]; ring).ge

/-- Both trust regions, with a descent whose steps do not increase the quadratic model: what `LinearTrustRegion` predicts is
below what the model predicts, so it is not positive either. -/
theorem model_monotone (c : TrustRegion.Cfg ℝ) (hl : 0 < c.lowConstant) (hh : 0 < c.highConstant)
    (hc : 0 ≤ c.lowCutoff) (cfg : QuasiNewton.Cfg ι ℝ DS HS)
    (hs : cfg.search = TrustRegion.classical c ∨ cfg.search = TrustRegion.linear c)
    (hr : RecordsPoint cfg.hess) (aux0 : A) (fn : (ι → ℝ) → ℝ × A) (y0 : ι → ℝ) (hspd : KeepsSPD false cfg aux0 fn y0)
    (hd : ∀ y' d' t f g B, 0 < t → SPD B →
      modelChange B g (cfg.descent.step t (cfg.descent.query y' (.evalGradHessian f g B) d')).1 ≤ 0) :
    NeverIncreases (QuasiNewton.solver cfg aux0) fn aux0 y0 := by
  refine neverIncreases_of_step _ _ _ _ (fun _ _ _ _ => rfl) fun st0 hi k => ?_
  have L := qn_laws cfg aux0 fn hr
  rcases hs with hs | hs
  · rw [hs] at L
    refine trust_monotone L hl hh hc aux0 y0 st0 hi (fun k y' d' => ?_) k
    intro st hg ht
    obtain ⟨M, ⟨f, g, hM⟩, hp⟩ := hspd st0 hi k
    have hM' : (qnView (A := A) (HS := HS) fn).fInfo st = .evalGradHessian f g M := hM
    have h := hd y' d' _ f g M ht hp
    rw [hM', C54_classical_hessian]
    simp only [quadModel, Option.getD_some]
    unfold modelChange at h
    simp only [mul_zero, zero_mul, Finset.sum_const_zero, add_zero]
    linarith
  · rw [hs] at L
    refine trust_monotone L hl hh hc aux0 y0 st0 hi (fun k y' d' => ?_) k
    intro st hg ht
    obtain ⟨M, ⟨f, g, hM⟩, hp⟩ := hspd st0 hi k
    have hM' : (qnView (A := A) (HS := HS) fn).fInfo st = .evalGradHessian f g M := hM
    have h := hd y' d' _ f g M ht hp
    rw [hM', C54_linear]
    simp only [FnInfo.grad?, Option.map_some, Option.getD_some]
    unfold modelChange at h
    have := spd_sum_nonneg hp (cfg.descent.step ((qnView (A := A) (HS := HS) fn).ss st)
      (cfg.descent.query y' (.evalGradHessian f g M) d')).1
    linarith

/-- **C109**, direct quasi-Newton methods with `DoglegDescent` and either trust region. -/
theorem C109_dogleg_partial (c : TrustRegion.Cfg ℝ) (hl : 0 < c.lowConstant) (hh : 0 < c.highConstant) (hc : 0 ≤ c.lowCutoff)
    (eps : ℝ) (heps : 0 ≤ eps) (ls : LinSolve ι Unit) (hls : SolvesSPD ls) (cfg : QuasiNewton.Cfg ι ℝ (Dogleg.State ι) HS)
    (hs : cfg.search = TrustRegion.classical c ∨ cfg.search = TrustRegion.linear c) (hd : cfg.descent = Dogleg.descent eps ls .twoNorm) (hr : RecordsPoint cfg.hess)
    (aux0 : A) (fn : (ι → ℝ) → ℝ × A) (y0 : ι → ℝ) (hspd : KeepsSPD false cfg aux0 fn y0) :
    NeverIncreases (QuasiNewton.solver cfg aux0) fn aux0 y0 := by
  refine model_monotone c hl hh hc cfg hs hr aux0 fn y0 hspd fun y' d' t f g B ht hB => ?_
  rw [hd]
  exact C42_predicted_decrease_hessian eps ls B f g heps hB hls y' d' t ht.le

theorem damped_model_decrease [DecidableEq ι] (eps fmax : ℝ) (heps : 0 ≤ eps) (hf : 0 < fmax) (ls : LinSolve ι (Unit ⊕ ι))
    (hls : ∀ B g, SPD B → B.mulVec (ls.square B g).1 = g) (t f : ℝ) (g : ι → ℝ) (B : Matrix ι ι ℝ) (hB : SPD B) :
    modelChange B g ((dampedNewtonDescent eps fmax ls).step t (.evalGradHessian f g B : FnInfo ι Unit)).1 ≤ 0 := by
  have hl0 : 0 < lmParam eps fmax t := lmParam_pos eps fmax t heps hf
  obtain ⟨h1, _, _, h4⟩ := C40_damped_step_hessian (κ := Unit) eps fmax t f heps hf ls hls B ⟨hB.1, spd_sum_nonneg hB⟩ g
  unfold modelChange
  have h5 : 0 ≤ (if eps < t then 1 / t else fmax) / 2 * ∑ i, ((dampedNewtonDescent eps fmax ls).step t
      (.evalGradHessian f g B : FnInfo ι Unit)).1 i ^ 2 :=
    mul_nonneg (by linarith) (Finset.sum_nonneg fun i _ => sq_nonneg _)
  linarith

/-- **C109**, direct quasi-Newton methods with `DampedNewtonDescent` (Levenberg-Marquardt steps) and either trust region. -/
theorem C109_damped_partial [DecidableEq ι] (c : TrustRegion.Cfg ℝ) (hl : 0 < c.lowConstant) (hh : 0 < c.highConstant)
    (hc : 0 ≤ c.lowCutoff) (eps fmax : ℝ) (heps : 0 ≤ eps) (hf : 0 < fmax) (ls : LinSolve ι (Unit ⊕ ι))
    (hls : ∀ B g, SPD B → B.mulVec (ls.square B g).1 = g) (cfg : QuasiNewton.Cfg ι ℝ (FnInfo ι Unit) HS)
    (hs : cfg.search = TrustRegion.classical c ∨ cfg.search = TrustRegion.linear c) (hd : cfg.descent = dampedNewtonDescent eps fmax ls) (hr : RecordsPoint cfg.hess)
    (aux0 : A) (fn : (ι → ℝ) → ℝ × A) (y0 : ι → ℝ) (hspd : KeepsSPD false cfg aux0 fn y0) :
    NeverIncreases (QuasiNewton.solver cfg aux0) fn aux0 y0 := by
  refine model_monotone c hl hh hc cfg hs hr aux0 fn y0 hspd fun y' d' t f g B ht hB => ?_
  rw [hd]
  exact damped_model_decrease eps fmax heps hf ls hls t f g B hB

/-- **C109**, direct quasi-Newton methods with `IndirectDampedNewtonDescent` and either trust region, whatever damping the
inner root find comes back with and whether it succeeded or not. -/
theorem C109_indirect_partial [DecidableEq ι] (c : TrustRegion.Cfg ℝ) (hl : 0 < c.lowConstant) (hh : 0 < c.highConstant)
    (hc : 0 ≤ c.lowCutoff) (eps fmax : ℝ) (heps : 0 ≤ eps) (hf : 0 < fmax) (ls : LinSolve ι Unit) (hls : SolvesSPD ls)
    (lsD : LinSolve ι (Unit ⊕ ι)) (hlsD : ∀ B g, SPD B → B.mulVec (lsD.square B g).1 = g) (trNorm : (ι → ℝ) → ℝ)
    (findLambda : (ℝ → ℝ) → ℝ × Result) (cfg : QuasiNewton.Cfg ι ℝ (IndirectState ι Unit) HS)
    (hs : cfg.search = TrustRegion.classical c ∨ cfg.search = TrustRegion.linear c)
    (hd : cfg.descent = indirectDescent eps fmax ls lsD trNorm findLambda) (hr : RecordsPoint cfg.hess)
    (aux0 : A) (fn : (ι → ℝ) → ℝ × A) (y0 : ι → ℝ) (hspd : KeepsSPD false cfg aux0 fn y0) :
    NeverIncreases (QuasiNewton.solver cfg aux0) fn aux0 y0 := by
  refine model_monotone c hl hh hc cfg hs hr aux0 fn y0 hspd fun y' d' t f g B ht hB => ?_
  rw [hd]
  simp only [indirectDescent]
  split_ifs with h
  · exact damped_model_decrease eps fmax heps hf lsD hlsD _ f g B hB
  · have hn : B.mulVec (newtonStep ls (.evalGradHessian f g B : FnInfo ι Unit)).1 = g := (hls B g hB).2
    set n := (newtonStep ls (.evalGradHessian f g B : FnInfo ι Unit)).1
    have e : ∑ i, ∑ j, n i * B i j * n j = ∑ i, g i * n i := by
      refine Finset.sum_congr rfl fun i _ => ?_
      rw [← hn, Matrix.mulVec, dotProduct, Finset.sum_mul]
      exact Finset.sum_congr rfl fun j _ => by ring
    have h0 := spd_sum_nonneg hB n
    unfold modelChange
    simp only [mul_neg, neg_mul, neg_neg, Finset.sum_neg_distrib]
    linarith

/-- The library's BFGS with `DoglegDescent` and the default `ClassicalTrustRegion` on `y₁² + 3 y₂²` never increases it. -/
example (y0 : Fin 2 → ℝ) :
    let ls : LinSolve (Fin 2) Unit :=
      { rect := fun _ _ => (fun _ => 0, .successful), square := fun B g => (B⁻¹.mulVec g, .successful) }
    NeverIncreases (QuasiNewton.solver (A := Unit) (HS := Unit)
      { rtol := 0.1, atol := 0.1, normY := maxNorm, normF := maxNorm, descent := Dogleg.descent 1e-16 ls .twoNorm,
        search := TrustRegion.classical TrustRegion.defaults, hess := QuasiNewton.bfgs 0.001 false,
        grad := fun y => ![2 * y 0, 6 * y 1] } ()) (fun y => (y 0 ^ 2 + 3 * y 1 ^ 2, ())) () y0 := by
  intro ls
  obtain ⟨h1, h2⟩ := bfgs_keeps_spd (A := Unit) 0.001 (by norm_num) false
    { rtol := 0.1, atol := 0.1, normY := maxNorm, normF := maxNorm, descent := Dogleg.descent 1e-16 ls .twoNorm,
      search := TrustRegion.classical TrustRegion.defaults, hess := QuasiNewton.bfgs 0.001 false,
      grad := fun y => ![2 * y 0, 6 * y 1] } (.inl rfl)
    (fun y z i j s => by simp [TrustRegion.classical, TrustRegion.linear, TrustRegion.search, TrustRegion.decide']) () (fun y : Fin 2 → ℝ => (y 0 ^ 2 + 3 * y 1 ^ 2, ())) y0
  exact C109_dogleg_partial TrustRegion.defaults (by norm_num [TrustRegion.defaults]) (by norm_num [TrustRegion.defaults])
    (by norm_num [TrustRegion.defaults]) 1e-16 (by norm_num) ls exact_solver_exists _ (.inl rfl) rfl h2 () _ y0 h1

/-- The same with `DampedNewtonDescent`. -/
example (y0 : Fin 2 → ℝ) :
    let ls : LinSolve (Fin 2) (Unit ⊕ Fin 2) :=
      { rect := fun _ _ => (fun _ => 0, .successful), square := fun B g => (B⁻¹.mulVec g, .successful) }
    NeverIncreases (QuasiNewton.solver (A := Unit) (HS := Unit)
      { rtol := 0.1, atol := 0.1, normY := maxNorm, normF := maxNorm, descent := dampedNewtonDescent 1e-16 1e38 ls,
        search := TrustRegion.classical TrustRegion.defaults, hess := QuasiNewton.dfp 0.001 false,
        grad := fun y => ![2 * y 0, 6 * y 1] } ()) (fun y => (y 0 ^ 2 + 3 * y 1 ^ 2, ())) () y0 := by
  intro ls
  obtain ⟨h1, h2⟩ := bfgs_keeps_spd (A := Unit) 0.001 (by norm_num) false
    { rtol := 0.1, atol := 0.1, normY := maxNorm, normF := maxNorm, descent := dampedNewtonDescent 1e-16 1e38 ls,
      search := TrustRegion.classical TrustRegion.defaults, hess := QuasiNewton.dfp 0.001 false,
      grad := fun y => ![2 * y 0, 6 * y 1] } (.inr rfl)
    (fun y z i j s => by simp [TrustRegion.classical, TrustRegion.linear, TrustRegion.search, TrustRegion.decide']) () (fun y : Fin 2 → ℝ => (y 0 ^ 2 + 3 * y 1 ^ 2, ())) y0
  refine C109_damped_partial TrustRegion.defaults (by norm_num [TrustRegion.defaults]) (by norm_num [TrustRegion.defaults])
    (by norm_num [TrustRegion.defaults]) 1e-16 1e38 (by norm_num) (by norm_num) ls (fun B g hB => ?_) _ (.inl rfl) rfl h2 () _ y0 h1
  show B.mulVec (B⁻¹.mulVec g) = g
  rw [Matrix.mulVec_mulVec, Matrix.mul_nonsing_inv _ ((Matrix.isUnit_iff_isUnit_det B).1 (spd_unit B hB)), Matrix.one_mulVec]

/-- Newton steps from the inverse BFGS approximation with `LinearTrustRegion`. -/
example (y0 : Fin 2 → ℝ) (ls : LinSolve (Fin 2) Unit) :
    NeverIncreases (QuasiNewton.solver (A := Unit) (HS := Unit)
      { rtol := 0.1, atol := 0.1, normY := maxNorm, normF := maxNorm, descent := newtonDescent ls none,
        search := TrustRegion.linear TrustRegion.defaults, hess := QuasiNewton.bfgs 0.001 true,
        grad := fun y => ![2 * y 0, 6 * y 1] } ()) (fun y => (y 0 ^ 2 + 3 * y 1 ^ 2, ())) () y0 := by
  obtain ⟨h1, h2⟩ := bfgs_keeps_spd (A := Unit) 0.001 (by norm_num) true
    { rtol := 0.1, atol := 0.1, normY := maxNorm, normF := maxNorm, descent := newtonDescent ls none,
      search := TrustRegion.linear TrustRegion.defaults, hess := QuasiNewton.bfgs 0.001 true,
      grad := fun y => ![2 * y 0, 6 * y 1] } (.inl rfl)
    (fun y z i j s => by simp [TrustRegion.classical, TrustRegion.linear, TrustRegion.search, TrustRegion.decide']) () (fun y : Fin 2 → ℝ => (y 0 ^ 2 + 3 * y 1 ^ 2, ())) y0
  exact C109_newton_linear_partial TrustRegion.defaults (by norm_num [TrustRegion.defaults])
    (by norm_num [TrustRegion.defaults]) (by norm_num [TrustRegion.defaults]) true ls (by simp) _ rfl none (by simp) rfl h2 () _ y0 h1

/-- `IndirectDampedNewtonDescent` and `LinearTrustRegion`, with an inner root find that always answers `3` and fails. -/
example (y0 : Fin 2 → ℝ) :
    let ls : LinSolve (Fin 2) Unit :=
      { rect := fun _ _ => (fun _ => 0, .successful), square := fun B g => (B⁻¹.mulVec g, .successful) }
    let lsD : LinSolve (Fin 2) (Unit ⊕ Fin 2) :=
      { rect := fun _ _ => (fun _ => 0, .successful), square := fun B g => (B⁻¹.mulVec g, .successful) }
    NeverIncreases (QuasiNewton.solver (A := Unit) (HS := Unit)
      { rtol := 0.1, atol := 0.1, normY := maxNorm, normF := maxNorm,
        descent := indirectDescent 0 1000 ls lsD maxNorm (fun _ => (3, .nonlinearMaxStepsReached)),
        search := TrustRegion.linear TrustRegion.defaults, hess := QuasiNewton.dfp 0.001 false,
        grad := fun y => ![2 * y 0, 6 * y 1] } ()) (fun y => (y 0 ^ 2 + 3 * y 1 ^ 2, ())) () y0 := by
  intro ls lsD
  obtain ⟨h1, h2⟩ := bfgs_keeps_spd (A := Unit) 0.001 (by norm_num) false
    { rtol := 0.1, atol := 0.1, normY := maxNorm, normF := maxNorm,
      descent := indirectDescent 0 1000 ls lsD maxNorm (fun _ => (3, .nonlinearMaxStepsReached)),
      search := TrustRegion.linear TrustRegion.defaults, hess := QuasiNewton.dfp 0.001 false,
      grad := fun y => ![2 * y 0, 6 * y 1] } (.inr rfl)
    (fun y z i j s => by simp [TrustRegion.classical, TrustRegion.linear, TrustRegion.search, TrustRegion.decide']) () (fun y : Fin 2 → ℝ => (y 0 ^ 2 + 3 * y 1 ^ 2, ())) y0
  refine C109_indirect_partial TrustRegion.defaults (by norm_num [TrustRegion.defaults]) (by norm_num [TrustRegion.defaults])
    (by norm_num [TrustRegion.defaults]) 0 1000 le_rfl (by norm_num) ls exact_solver_exists lsD (fun B g hB => ?_)
    maxNorm (fun _ => (3, .nonlinearMaxStepsReached)) _ (.inr rfl) rfl h2 () _ y0 h1
  show B.mulVec (B⁻¹.mulVec g) = g
  rw [Matrix.mulVec_mulVec, Matrix.mul_nonsing_inv _ ((Matrix.isUnit_iff_isUnit_det B).1 (spd_unit B hB)), Matrix.one_mulVec]

/-! ### Newton steps with the classical trust region -/

/-- The objective of the counterexample, `-x + 0.0142 x² (x - 1)²`. -/
noncomputable def bump (x : ℝ) : ℝ := -x + 0.0142 * x ^ 2 * (x - 1) ^ 2

/-- Its derivative. -/
noncomputable def bumpGrad (x : ℝ) : ℝ := -1 + 0.0142 * (2 * x * (x - 1) ^ 2 + 2 * x ^ 2 * (x - 1))

theorem bump_deriv (x : ℝ) : HasDerivAt bump (bumpGrad x) x := by
  have h1 : HasDerivAt (fun x : ℝ => x - 1) 1 x := (hasDerivAt_id x).sub_const 1
  have h2 : HasDerivAt (fun x : ℝ => x ^ 2) (2 * x) x := by simpa using hasDerivAt_pow 2 x
  have h := ((hasDerivAt_id x).neg).add (((h2.const_mul 0.0142).mul (h1.pow 2)))
  refine h.congr_deriv ?_
  unfold bumpGrad
  simp
  ring

/-- `BFGS` with the direct update, Newton steps and the classical trust region, on one unknown. -/
noncomputable def newtonClassical : QuasiNewton.Cfg Unit ℝ ((Unit → ℝ) × Result) Unit :=
  { rtol := 1e-8, atol := 1e-8, normY := maxNorm, normF := maxNorm,
    descent := newtonDescent
      { rect := fun _ _ => (fun _ => 0, .successful), square := fun B g => (fun _ => g () / B () (), .successful) } none,
    search := TrustRegion.classical TrustRegion.defaults, hess := QuasiNewton.bfgs 0.001 false,
    grad := fun y _ => bumpGrad (y ()) }

/-- **C109, negation.**  With Newton steps and `ClassicalTrustRegion` (default constants) a run can accept a step that increases
the objective: the radius has grown to 3.5, at which the quadratic model predicts an increase, and an increase of at most 0.01
times that is taken.  The objective is the polynomial `bump`; its value goes from `-1` up to `-0.9775`. -/
theorem C109_newton_overshoots : ∃ st0, (QuasiNewton.solver newtonClassical ()).init (fun y => (bump (y ()), ())) (fun _ => 0) =
      .ok st0 ∧
    let Y := iterateAt (QuasiNewton.solver newtonClassical ()) (fun y => (bump (y ()), ())) () (fun _ => 0) st0
    Y 2 () = 1 ∧ Y 3 () = 4.5 ∧ bump (Y 2 ()) < bump (Y 3 ()) := by
  set S := QuasiNewton.solver (A := Unit) newtonClassical () with hS
  set fn : (Unit → ℝ) → ℝ × Unit := fun y => (bump (y ()), ()) with hfn
  set y0 : Unit → ℝ := fun _ => 0 with hy0
  obtain ⟨st0, hi⟩ : ∃ st0, S.init fn y0 = .ok st0 := ⟨_, rfl⟩
  refine ⟨st0, hi, ?_⟩
  intro Y
  have hrec : RecordsPoint newtonClassical.hess := bfgs_records _ _
  have L := qn_laws newtonClassical () fn hrec
  rw [show newtonClassical.search = TrustRegion.classical TrustRegion.defaults from rfl] at L
  have hY1 : Y 1 = y0 := (first_iterate L (tr_first _ _ _) () y0 st0 hi).1
  obtain ⟨hM1, hrun⟩ := C34_run 0.001 (by norm_num) false newtonClassical rfl
    (by rw [show newtonClassical.search = TrustRegion.classical TrustRegion.defaults from rfl]; exact tr_first _ _ _) () fn y0 st0 hi
  obtain ⟨B, hB⟩ := direct_hessians_exist (A := Unit) 0.001 (by norm_num) TrustRegion.defaults newtonClassical rfl rfl () fn y0
    st0 hi
  have T := C29_run_quasi_newton_classical TrustRegion.defaults (by norm_num [TrustRegion.defaults])
    (by norm_num [TrustRegion.defaults]) newtonClassical rfl hrec () fn y0 st0 hi B (fun k hk => (hB k hk).1)
  set St := stateAt S fn () y0 st0 with hSt
  -- the trial point, where the stored matrix is the identity
  have trial : ∀ k, B (k + 1) = 1 → (St (k + 1)).yEval () = Y (k + 1) () - (St (k + 1)).searchState * bumpGrad (Y (k + 1) ()) := by
    intro k hk
    obtain ⟨⟨y', d', hq⟩, ht⟩ := trust_trial L () y0 st0 hi k
    obtain ⟨f, g, hst⟩ := (hB (k + 1) (by omega)).1
    have hst' : (qnView (A := Unit) (HS := Unit) fn).fInfo (St (k + 1)) = .evalGradHessian f g 1 := by rw [← hk]; exact hst
    have hg : g = fun _ => bumpGrad (Y (k + 1) ()) := by
      have := (stored L (tr_first _ _ _) () y0 st0 hi k).1.2
      rw [hst'] at this
      exact Option.some.inj this
    rw [hst'] at hq
    have h1 := congrFun ht ()
    rw [hq] at h1
    have h2 : (St (k + 1)).yEval () = Y (k + 1) () + -(St (k + 1)).searchState * (g () / (1 : Matrix Unit Unit ℝ) () ()) := h1
    rw [h2, hg]
    simp
    ring
  have hB1 : B 1 = 1 := stores_unique (hB 1 le_rfl).1 hM1
  have r1 : (St 1).searchState = 1 := T.start.2
  have g0 : bumpGrad 0 = -1 := by norm_num [bumpGrad]
  have g1 : bumpGrad 1 = -1 := by norm_num [bumpGrad]
  have hY10 : Y 1 () = 0 := by rw [hY1]
  have t1 : (St 1).yEval () = 1 := by rw [trial 0 hB1, r1, hY10, g0]; norm_num
  have sumU : ∀ f : Unit → ℝ, ∑ i, f i = f () := fun f => by simp
  have p1 : ((bump 1 - bump 0 : ℝ) ≤ 0.01 * (-1/2)) ∧ ((bump 1 - bump 0 : ℝ) < 0.99 * (-1/2)) := by
    constructor <;> norm_num [bump]
  obtain ⟨a1, a2, _⟩ := T.accept 1 le_rfl (by
    simp only [sumU, hB1, Matrix.one_apply_eq, t1, newtonClassical, TrustRegion.defaults]
    show bump ((St 1).yEval ()) - bump (Y 1 ()) ≤ _
    rw [t1]
    show bump 1 - bump (Y 1 ()) ≤ _ * (bumpGrad (Y 1 ()) * (1 - Y 1 ()) + (1 - Y 1 ()) * 1 * (1 - Y 1 ()) / 2)
    rw [hY10, g0]
    refine p1.1.trans (le_of_eq ?_)
    norm_num)
  have hY2 : Y 2 () = 1 := by
    have : Y 2 = (St 1).yEval := a1
    rw [this, t1]
  have r2 : (St 2).searchState = 3.5 := by
    have h := a2 (by
      simp only [sumU, hB1, Matrix.one_apply_eq]
      have e1 : (fn (St 1).yEval).1 - (fn (Y 1)).1 = bump 1 - bump 0 := by
        show bump ((St 1).yEval ()) - bump (Y 1 ()) = _
        rw [t1, hY10]
      have e2 : bumpGrad (Y 1 ()) * ((St 1).yEval () - Y 1 ()) + ((St 1).yEval () - Y 1 ()) * 1 * ((St 1).yEval () - Y 1 ()) / 2 =
          -1 / 2 := by rw [t1, hY10, g0]; norm_num
      refine ⟨?_, ?_⟩
      · refine lt_of_eq_of_lt e1 (lt_of_lt_of_eq p1.2 ?_)
        exact congrArg (fun x => (0.99 : ℝ) * x) e2.symm
      · exact lt_of_eq_of_lt e2 (by norm_num))
    have h' : (St 2).searchState = (TrustRegion.defaults : TrustRegion.Cfg ℝ).highConstant * (St 1).searchState := h
    rw [h', r1]
    norm_num [TrustRegion.defaults]
  have hB2 : B 2 = 1 := by
    obtain ⟨M, M', m1, m2, _, _, _, m3⟩ := hrun 0
    have e : M' = M := m3 (by
      simp only [sumU]
      show ¬ _ < (bumpGrad (Y 2 ()) - bumpGrad (Y 1 ())) * (Y 2 () - Y 1 ())
      rw [hY2, hY10, g0, g1]
      norm_num)
    rw [stores_unique (hB 2 (by omega)).1 m2, e, stores_unique m1 hM1]
  have t2 : (St 2).yEval () = 4.5 := by rw [trial 1 hB2, r2, hY2, g1]; norm_num
  obtain ⟨b1, _, _⟩ := T.accept 2 (by omega) (by
    simp only [sumU, hB2, Matrix.one_apply_eq]
    have e1 : (fn (St 2).yEval).1 - (fn (Y 2)).1 = bump 4.5 - bump 1 := by
      show bump ((St 2).yEval ()) - bump (Y 2 ()) = _
      rw [t2, hY2]
    have e2 : bumpGrad (Y 2 ()) * ((St 2).yEval () - Y 2 ()) + ((St 2).yEval () - Y 2 ()) * 1 * ((St 2).yEval () - Y 2 ()) / 2 =
        2.625 := by rw [t2, hY2, g1]; norm_num
    refine le_trans (le_of_eq e1) (le_trans (b := 0.01 * 2.625) (by norm_num [bump]) (le_of_eq ?_))
    exact congrArg (fun x => (0.01 : ℝ) * x) e2.symm)
  have hY3 : Y 3 () = 4.5 := by
    have : Y 3 = (St 2).yEval := b1
    rw [this, t2]
  exact ⟨hY2, hY3, by rw [hY2, hY3]; norm_num [bump]⟩

/-! ### Convergence -/

/-- Runs of gradient descent with `LinearTrustRegion`. -/
theorem gd_trust_run (c : TrustRegion.Cfg ℝ) (hl : 0 < c.lowConstant) (hh : 0 < c.highConstant)
    (cfg : GradientDescent.Cfg ι ℝ (ι → ℝ)) (hs : cfg.search = TrustRegion.linear c) (hd : cfg.descent = steepestDescent none)
    (aux0 : A) (fn : (ι → ℝ) → ℝ × A) (y0 : ι → ℝ) (st0 : GradientDescent.State ι A ℝ (ι → ℝ))
    (hi : (GradientDescent.solver cfg aux0).init fn y0 = .ok st0) :
    let Y := iterateAt (GradientDescent.solver cfg aux0) fn aux0 y0 st0
    let St := stateAt (GradientDescent.solver cfg aux0) fn aux0 y0 st0
    TrustRun (fun y => (fn y).1) (fun y t => fun i => y i - t * cfg.grad y i) (fun y t => -(t * ∑ i, cfg.grad y i ^ 2))
      c.lowCutoff c.lowConstant c.highConstant (fun k => Y (k + 1)) (fun k => (St (k + 1)).searchState) ∧
    Y 1 = y0 ∧ (St 1).searchState = 1 ∧
    ∀ k, (St (k + 1)).yEval = fun i => Y (k + 1) i - (St (k + 1)).searchState * cfg.grad (Y (k + 1)) i := by
  intro Y St
  have L := gd_laws cfg aux0 fn
  rw [hs] at L
  have hy : ∀ k, (St (k + 1)).yEval = fun i => Y (k + 1) i - (St (k + 1)).searchState * cfg.grad (Y (k + 1)) i := by
    intro k
    obtain ⟨⟨y', d', hq⟩, ht⟩ := trust_trial L aux0 y0 st0 hi k
    rw [(stored L (tr_first _ _ _) aux0 y0 st0 hi k).1, hd] at hq
    funext i
    have h := congrFun ht i
    rw [hq, hd] at h
    refine h.trans ?_
    show Y (k + 1) i + -(St (k + 1)).searchState * cfg.grad (Y (k + 1)) i = _
    ring
  have T := C29_run_gradient_linear c hl hh cfg hs aux0 fn y0 st0 hi
  have hpred : ∀ k, ∑ i, cfg.grad (Y (k + 1)) i * ((St (k + 1)).yEval i - Y (k + 1) i) =
      -((St (k + 1)).searchState * ∑ i, cfg.grad (Y (k + 1)) i ^ 2) := by
    intro k
    rw [hy k, Finset.mul_sum, ← Finset.sum_neg_distrib]
    exact Finset.sum_congr rfl fun i _ => by ring
  refine ⟨⟨fun k => T.positive (k + 1), fun k => ?_⟩, (first_iterate L (tr_first _ _ _) aux0 y0 st0 hi).1, T.start.2, hy⟩
  have ha := T.accept (k + 1) (by omega)
  have hr := T.reject (k + 1) (by omega)
  rw [hpred k] at ha hr
  rw [← hy k]
  by_cases h : (fn (St (k + 1)).yEval).1 - (fn (Y (k + 1))).1 ≤
      c.lowCutoff * -((St (k + 1)).searchState * ∑ i, cfg.grad (Y (k + 1)) i ^ 2)
  · obtain ⟨a1, a2, a3⟩ := ha h
    refine .inl ⟨h, a1, ?_⟩
    by_cases h2 : (fn (St (k + 1)).yEval).1 - (fn (Y (k + 1))).1 <
      c.highCutoff * -((St (k + 1)).searchState * ∑ i, cfg.grad (Y (k + 1)) i ^ 2) ∧
      -((St (k + 1)).searchState * ∑ i, cfg.grad (Y (k + 1)) i ^ 2) < 0
    · exact .inl (a2 h2)
    · exact .inr (a3 h2)
  · exact .inr ⟨h, hr h⟩

/-- **C110.** Gradient descent with `LinearTrustRegion`, for an objective that is bounded below and has a Lipschitz gradient: from
every starting point the gradients tend to zero, the objective does not increase, and the radius never falls below
`min 1 (low_constant * 2 (1 - low_cutoff) / L)`. -/
theorem C110_gradient_vanishes (c : TrustRegion.Cfg ℝ) (hc0 : 0 < c.lowCutoff) (hc1 : c.lowCutoff < 1) (hl0 : 0 < c.lowConstant)
    (hl1 : c.lowConstant < 1) (hh : 1 ≤ c.highConstant) (cfg : GradientDescent.Cfg ι ℝ (ι → ℝ))
    (hs : cfg.search = TrustRegion.linear c) (hd : cfg.descent = steepestDescent none) (aux0 : A) (fn : (ι → ℝ) → ℝ × A)
    (y0 : ι → ℝ) (L m : ℝ) (hL : LipschitzGradient (fun y => (fn y).1) cfg.grad L) (hL0 : 0 < L) (hlow : ∀ y, m ≤ (fn y).1)
    (st0 : GradientDescent.State ι A ℝ (ι → ℝ)) (hi : (GradientDescent.solver cfg aux0).init fn y0 = .ok st0) :
    let Y := iterateAt (GradientDescent.solver cfg aux0) fn aux0 y0 st0
    let St := stateAt (GradientDescent.solver cfg aux0) fn aux0 y0 st0
    Tendsto (fun k => ∑ i, cfg.grad (Y k) i ^ 2) atTop (𝓝 0) ∧
    (∀ k, min 1 (c.lowConstant * (2 * (1 - c.lowCutoff) / L)) ≤ (St k).searchState) ∧
    (∀ k, (fn (Y (k + 1))).1 ≤ (fn (Y k)).1) ∧
    ∀ K, ∃ k, K ≤ k ∧ Y (k + 2) = (fun i => Y (k + 1) i - (St (k + 1)).searchState * cfg.grad (Y (k + 1)) i) ∧
      (fn (Y (k + 2))).1 - (fn (Y (k + 1))).1 ≤
        -(c.lowCutoff * ((St (k + 1)).searchState * ∑ i, cfg.grad (Y (k + 1)) i ^ 2)) := by
  intro Y St
  obtain ⟨R, hY1, hr1, hy⟩ := gd_trust_run c hl0 (by linarith) cfg hs hd aux0 fn y0 st0 hi
  set τ := 2 * (1 - c.lowCutoff) / L with hτ
  have hτ0 : 0 < τ := by have := sub_pos.2 hc1; positivity
  have hacc : ∀ (y : ι → ℝ) s, 0 < s → s ≤ τ → (fn fun i => y i - s * cfg.grad y i).1 - (fn y).1 ≤
      c.lowCutoff * -(s * ∑ i, cfg.grad y i ^ 2) := by
    intro y s h0 h1
    have hb := hL.bound y fun i => y i - s * cfg.grad y i
    have e1 : treeDot (cfg.grad y) (fun i => (y i - s * cfg.grad y i) - y i) = -(s * ∑ i, cfg.grad y i ^ 2) := by
      unfold treeDot
      rw [Finset.mul_sum, ← Finset.sum_neg_distrib]
      exact Finset.sum_congr rfl fun i _ => by ring
    have e2 : sumSquares (fun i => (y i - s * cfg.grad y i) - y i) = s ^ 2 * ∑ i, cfg.grad y i ^ 2 := by
      unfold sumSquares
      rw [Finset.mul_sum]
      exact Finset.sum_congr rfl fun i _ => by ring
    rw [e1, e2] at hb
    have hG : 0 ≤ ∑ i, cfg.grad y i ^ 2 := Finset.sum_nonneg fun i _ => sq_nonneg _
    set G := ∑ i, cfg.grad y i ^ 2
    have h2 : L * s ≤ 2 * (1 - c.lowCutoff) := by
      rw [hτ, le_div_iff₀ hL0] at h1
      linarith
    have h3 : L / 2 * (s ^ 2 * G) ≤ (1 - c.lowCutoff) * (s * G) := by
      have := mul_le_mul_of_nonneg_right h2 (mul_nonneg h0.le hG)
      nlinarith
    nlinarith
  have hrad := R.radius hl0 hh τ fun k => hacc (Y (k + 1))
  simp only [zero_add] at hrad
  rw [hr1] at hrad
  have hmin : 0 < min 1 (c.lowConstant * τ) := lt_min one_pos (mul_pos hl0 hτ0)
  obtain ⟨s1, _, s3⟩ := R.settles hc0 hl0 hl1 hh τ hτ0 (fun k => hacc (Y (k + 1))) m hlow (fun y => ∑ i, cfg.grad y i ^ 2)
    (fun y => Finset.sum_nonneg fun i _ => sq_nonneg _) (min 1 (c.lowConstant * τ)) hmin (by
      intro y s hs'
      simp only [zero_add] at hs'
      rw [hr1] at hs'
      have hG : 0 ≤ ∑ i, cfg.grad y i ^ 2 := Finset.sum_nonneg fun i _ => sq_nonneg _
      exact neg_le_neg (mul_le_mul_of_nonneg_right hs' hG))
  refine ⟨(tendsto_add_atTop_iff_nat 1).1 s1, fun k => ?_, ?_, fun K => ?_⟩
  · obtain _ | k := k
    · have h0 : (St 0).searchState = 1 := (C29_run_gradient_linear c hl0 (by linarith) cfg hs aux0 fn y0 st0 hi).start.1
      rw [h0]
      exact min_le_left _ _
    · exact hrad k
  · exact fun k => (C109_steepest_descent_partial c hl0 (by linarith) hc0.le none (by simp) cfg hs hd aux0 fn y0).1 st0 hi k (k + 1)
      (Nat.le_succ k)
  · obtain ⟨k, h1, h2, h3⟩ := s3 K
    have h3' : Y (k + 2) = fun i => Y (k + 1) i - (St (k + 1)).searchState * cfg.grad (Y (k + 1)) i := h3
    refine ⟨k, h1, h3', ?_⟩
    rw [h3']
    exact h2.trans (le_of_eq (by ring))

/-- **C110**, stopping.  If moreover the distance to the lower bound `m` is controlled by the gradient, `2μ (f - m) ≤ |∇f|²` (as it
is for every strongly convex objective with minimum `m`), the solve stops by itself and reports success, with every sufficiently
large budget and with none. -/
theorem C110_success (c : TrustRegion.Cfg ℝ) (hc0 : 0 < c.lowCutoff) (hc1 : c.lowCutoff < 1) (hl0 : 0 < c.lowConstant)
    (hl1 : c.lowConstant < 1) (hh : 1 ≤ c.highConstant) (cfg : GradientDescent.Cfg ι ℝ (ι → ℝ))
    (hs : cfg.search = TrustRegion.linear c) (hd : cfg.descent = steepestDescent none) (aux0 : A) (fn : (ι → ℝ) → ℝ × A)
    (y0 : ι → ℝ) (L m μ : ℝ) (hL : LipschitzGradient (fun y => (fn y).1) cfg.grad L) (hL0 : 0 < L) (hlow : ∀ y, m ≤ (fn y).1)
    (hμ : 0 < μ) (hPL : ∀ y, 2 * μ * ((fn y).1 - m) ≤ ∑ i, cfg.grad y i ^ 2)
    (hat : 0 < cfg.atol) (hrt : 0 ≤ cfg.rtol) (hY : GoodNorm cfg.normY) (hF : GoodNorm cfg.normF)
    (st0 : GradientDescent.State ι A ℝ (ι → ℝ)) (hi : (GradientDescent.solver cfg aux0).init fn y0 = .ok st0) :
    ∃ N, ∀ ms throw, (∀ n, ms = some n → N ≤ n) →
      ∃ sol, iterativeSolve (GradientDescent.solver cfg aux0) (fun _ => true) fn aux0 y0 ms throw = some (.ok sol) ∧
        sol.result = .successful ∧ sol.numSteps ≤ N := by
  obtain ⟨g1, _, _, g4⟩ := C110_gradient_vanishes c hc0 hc1 hl0 hl1 hh cfg hs hd aux0 fn y0 L m hL hL0 hlow st0 hi
  obtain ⟨R, _, _, hyE⟩ := gd_trust_run c hl0 (by linarith) cfg hs hd aux0 fn y0 st0 hi
  have LL := gd_laws cfg aux0 fn
  rw [hs] at LL
  set Y := iterateAt (GradientDescent.solver cfg aux0) fn aux0 y0 st0 with hYd
  set St := stateAt (GradientDescent.solver cfg aux0) fn aux0 y0 st0 with hSt
  obtain ⟨δ, hδ, hδY, hδF⟩ := small_enough hY hF cfg.atol hat
  have hε : 0 < min ((2 * μ * c.lowCutoff * δ) ^ 2) (2 * μ * δ) := lt_min (by positivity) (by positivity)
  obtain ⟨K, hK⟩ := eventually_atTop.1 (g1.eventually (gt_mem_nhds hε))
  obtain ⟨k, hk, a1, a2⟩ := g4 K
  have hG := hK (k + 1) (by omega)
  have hpos : 0 < (St (k + 1)).searchState := R.pos k
  set t := (St (k + 1)).searchState with ht
  set G := ∑ i, cfg.grad (Y (k + 1)) i ^ 2 with hGd
  have hG0 : 0 ≤ G := Finset.sum_nonneg fun i _ => sq_nonneg _
  have hpl := hPL (Y (k + 1))
  rw [← hGd] at hpl
  have hlo := hlow (Y (k + 2))
  have hstep : t ^ 2 * G ≤ δ ^ 2 := by
    rcases hG0.eq_or_lt with h0 | h0
    · rw [← h0]; simp [sq_nonneg]
    · have h1 : 2 * μ * (c.lowCutoff * (t * G)) ≤ G :=
        le_trans (mul_le_mul_of_nonneg_left (by linarith) (by positivity)) hpl
      have h2 : t * (2 * μ * c.lowCutoff) ≤ 1 := by
        by_contra hlt
        push Not at hlt
        nlinarith
      have h3 : (t * (2 * μ * c.lowCutoff)) ^ 2 ≤ 1 := pow_le_one₀ (by positivity) h2
      have h4 := (hG.le.trans (min_le_left _ _))
      have h5 : (0:ℝ) < (2 * μ * c.lowCutoff) ^ 2 := by positivity
      have h6 : (2 * μ * c.lowCutoff) ^ 2 * (t ^ 2 * G) ≤ (2 * μ * c.lowCutoff) ^ 2 * δ ^ 2 := by
        calc (2 * μ * c.lowCutoff) ^ 2 * (t ^ 2 * G) = (t * (2 * μ * c.lowCutoff)) ^ 2 * G := by ring
          _ ≤ 1 * G := mul_le_mul_of_nonneg_right h3 hG0
          _ ≤ _ := by rw [one_mul]; exact h4.trans (le_of_eq (by ring))
      exact le_of_mul_le_mul_left h6 h5
  have hval : |(fn (Y (k + 2))).1 - (fn (Y (k + 1))).1| ≤ δ := by
    have h1 : (fn (Y (k + 1))).1 - m ≤ δ := by
      have : 2 * μ * ((fn (Y (k + 1))).1 - m) ≤ 2 * μ * δ := hpl.trans (hG.le.trans (min_le_right _ _))
      exact le_of_mul_le_mul_left this (by positivity)
    have h2 : 0 ≤ c.lowCutoff * (t * G) := by positivity
    rw [abs_le]
    exact ⟨by linarith, by linarith⟩
  have hyn : Y (k + 2) = (St (k + 1)).yEval := by rw [a1, hyE k]
  rw [hyn] at a2 hval
  have hinfo := (stored LL (tr_first _ _ _) aux0 y0 st0 hi k).1
  have hacc := (tr_ask LL aux0 y0 st0 hi k).2 (by
    show (fn (St (k + 1)).yEval).1 - (fn (Y (k + 1))).1 ≤
      c.lowCutoff * (TrustRegion.linearPredict (fun i => (St (k + 1)).yEval i - Y (k + 1) i) (St (k + 1)).fInfo).getD 0
    rw [show (St (k + 1)).fInfo = _ from hinfo, C54_linear]
    simp only [FnInfo.grad?, Option.map_some, Option.getD_some]
    refine a2.trans (le_of_eq ?_)
    rw [hyE k, ← mul_neg]
    congr 1
    rw [hGd, Finset.mul_sum, ← Finset.sum_neg_distrib]
    exact Finset.sum_congr rfl fun i _ => by ring)
  refine ⟨k + 2, fun ms throw hb => ?_⟩
  obtain ⟨sol, s1, s2, s3, _⟩ := solve_succeeds_by (GradientDescent.solver cfg aux0) (fun _ => true) fn aux0 y0 st0 hi ms
    throw (k + 2) (fun _ _ => rfl) (by
      intro j _
      show (St j).result = .successful
      obtain _ | j := j
      · show st0.result = .successful
        simp only [GradientDescent.solver, GradientDescent.init] at hi
        split at hi
        · cases hi
        · cases hi; rfl
      · have hr' : (St (j + 1)).result = if ((gdView fn).ask (TrustRegion.linear c) (Y j) (St j)).2.2.1 = .successful
          then (cfg.descent.step ((gdView fn).ask (TrustRegion.linear c) (Y j) (St j)).1 (St (j + 1)).descentState).2
          else ((gdView fn).ask (TrustRegion.linear c) (Y j) (St j)).2.2.1 := LL.result (Y j) (St j)
        rw [hr', hd]
        rfl) (by
      show (St (k + 1 + 1)).terminate = true
      have hst : St (k + 1 + 1) = (GradientDescent.step cfg fn (Y (k + 1)) (St (k + 1))).2.1 := rfl
      have hacc' : (cfg.search.step (St (k + 1)).firstStep (Y (k + 1)) (St (k + 1)).yEval (St (k + 1)).fInfo
        (.eval (fn (St (k + 1)).yEval).1) (St (k + 1)).searchState).2.1 = true := by rw [hs]; exact hacc
      have hfirst : (St (k + 1)).firstStep = false := first_at LL aux0 y0 st0 k
      have hf : GradientDescent.fOf (St (k + 1)).fInfo = (fn (Y (k + 1))).1 := by
        rw [show (St (k + 1)).fInfo = _ from hinfo]; rfl
      rw [hfirst] at hacc'
      have hgoal : cauchyTermination cfg.rtol cfg.atol cfg.normY cfg.normF (St (k + 1)).yEval
          (fun i => (St (k + 1)).yEval i - Y (k + 1) i) (fun _ => (fn (St (k + 1)).yEval).1)
          (fun _ => (fn (St (k + 1)).yEval).1 - (fn (Y (k + 1))).1) = true := by
        simp only [cauchyTermination, Bool.and_eq_true, decide_eq_true_eq]
        refine ⟨norm_small hY cfg.rtol cfg.atol δ hat hrt _ _ (fun i => ?_) hδY,
          norm_small hF cfg.rtol cfg.atol δ hat hrt _ _ (fun _ => hval) hδF⟩
        rw [hyE k]
        refine abs_le_of_sq_le_sq ?_ hδ.le |> fun h => h
        have h1 : cfg.grad (Y (k + 1)) i ^ 2 ≤ G :=
          Finset.single_le_sum (f := fun i => cfg.grad (Y (k + 1)) i ^ 2) (fun i _ => sq_nonneg _) (Finset.mem_univ i)
        calc (Y (k + 1) i - t * cfg.grad (Y (k + 1)) i - Y (k + 1) i) ^ 2 = t ^ 2 * cfg.grad (Y (k + 1)) i ^ 2 := by ring
          _ ≤ t ^ 2 * G := mul_le_mul_of_nonneg_left h1 (sq_nonneg _)
          _ ≤ δ ^ 2 := hstep
      rw [hst]
      simp only [GradientDescent.step, hacc', if_true, hfirst, Bool.false_eq_true, if_false, hf]
      exact hgoal) hb
  exact ⟨sol, s1, s2, s3⟩

/-- Gradient descent with the default `LinearTrustRegion` on `|y|²` in any dimension, from everywhere. -/
example (y0 : ι → ℝ) :
    let cfg : GradientDescent.Cfg ι ℝ (ι → ℝ) :=
      { rtol := 0.1, atol := 0.1, normY := maxNorm, normF := maxNorm, descent := steepestDescent none,
        search := TrustRegion.linear TrustRegion.defaults, grad := fun y i => 2 * y i }
    ∃ N, ∀ ms throw, (∀ n, ms = some n → N ≤ n) →
      ∃ sol, iterativeSolve (GradientDescent.solver (A := Unit) cfg ()) (fun _ => true) (fun y => (∑ i, y i ^ 2, ())) () y0 ms throw =
        some (.ok sol) ∧ sol.result = .successful ∧ sol.numSteps ≤ N := by
  intro cfg
  have hi : ∃ st0, (GradientDescent.solver (A := Unit) cfg ()).init (fun y => (∑ i, y i ^ 2, ())) y0 = .ok st0 := by
    simp only [GradientDescent.solver, GradientDescent.init]
    rw [if_neg (by simp [cfg, TrustRegion.linear, TrustRegion.search, steepestDescent, FnInfo.grad?])]
    exact ⟨_, rfl⟩
  obtain ⟨st0, hi⟩ := hi
  exact C110_success TrustRegion.defaults (by norm_num [TrustRegion.defaults]) (by norm_num [TrustRegion.defaults])
    (by norm_num [TrustRegion.defaults]) (by norm_num [TrustRegion.defaults]) (by norm_num [TrustRegion.defaults]) cfg rfl rfl ()
    _ y0 2 0 2 square_lipschitz (by norm_num) (fun y => Finset.sum_nonneg fun i _ => sq_nonneg _) (by norm_num) (fun y => by
      simp only [cfg, mul_pow, ← Finset.mul_sum]; norm_num)
    (by norm_num [cfg]) (by norm_num [cfg]) (goodNorm_maxNorm (ι := ι)) (goodNorm_maxNorm (ι := Unit)) st0 hi

end Verif.Props
