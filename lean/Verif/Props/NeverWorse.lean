import Verif.Props.Tolerances
import Verif.Props.BestSoFar
import Verif.Props.TrustMinimise
import Verif.Props.LevenbergMarquardt
import Verif.Props.Dogleg
import Verif.Spec.Budget
import Verif.Props.GradientMethods

/-!
Property C142: a larger budget or stricter tolerances never give a worse answer.
-/

namespace Verif.Props

open Verif Verif.Spec Verif.Driver Verif.SearchLoop

variable {ι κ A DS HS Y Out Aux St St' Stats : Type}

/-- **C142.** With a larger budget a solve makes at least as many steps. -/
theorem C142_more_steps (S : Solver Y Out Aux St Stats) (af : Y → Bool) (fn : Y → Out × Aux) (aux0 : Aux) (y0 : Y) (ms ms' : Option ℕ)
    (throw throw' : Bool) (hms : BudgetLe ms ms') (sol sol' : Solution Y Aux St Stats)
    (h : iterativeSolve S af fn aux0 y0 ms throw = some (.ok sol)) (h' : iterativeSolve S af fn aux0 y0 ms' throw' = some (.ok sol')) :
    sol.numSteps ≤ sol'.numSteps := by
  obtain ⟨st0, hi, hlt, hst, -⟩ := solve_spec _ _ _ _ _ _ _ _ h
  obtain ⟨st0', hi', hlt', hst', -⟩ := solve_spec _ _ _ _ _ _ _ _ h'
  rw [hi] at hi'; cases hi'
  by_contra hgt
  push Not at hgt
  rcases hst' with ⟨h1, -⟩ | h1
  · exact h1 (hlt _ hgt)
  · obtain ⟨n, hn, hle⟩ := hms _ h1
    have : sol.numSteps ≤ n := by
      rcases hst with ⟨-, h2⟩ | h2
      · exact h2 n hn
      · rw [hn] at h2; cases h2; exact le_rfl
    omega

/-- Along the iterates of every run of `S` on `fn` from `y0` the loss never increases, and the value returned is the last iterate. -/
structure Improves (S : Solver Y Out Aux St Stats) (fn : Y → Out × Aux) (aux0 : Aux) (y0 : Y) (loss : Y → ℝ) : Prop where
  antitone : ∀ st0, S.init fn y0 = .ok st0 → ∀ j k, j ≤ k → loss (iterateAt S fn aux0 y0 st0 k) ≤ loss (iterateAt S fn aux0 y0 st0 j)
  returnsLast : ∀ y a st r, (S.postprocess fn y a st r).1 = y

theorem Improves.budget {S : Solver Y Out Aux St Stats} {fn : Y → Out × Aux} {aux0 : Aux} {y0 : Y} {loss : Y → ℝ}
    (hI : Improves S fn aux0 y0 loss) (af : Y → Bool) : NeverWorseWithBudget S af fn aux0 y0 loss := by
  intro ms ms' throw throw' hms sol sol' h h'
  have hle := C142_more_steps S af fn aux0 y0 ms ms' throw throw' hms sol sol' h h'
  obtain ⟨-, -, st0, hi, -, hp⟩ := C01_step_budget _ _ _ _ _ _ _ _ h
  obtain ⟨-, -, st0', hi', -, hp'⟩ := C01_step_budget _ _ _ _ _ _ _ _ h'
  rw [hi] at hi'; cases hi'
  have e : sol.value = iterateAt S fn aux0 y0 st0 sol.numSteps := (congrArg Prod.fst hp).trans (hI.returnsLast _ _ _ _)
  have e' : sol'.value = iterateAt S fn aux0 y0 st0 sol'.numSteps := (congrArg Prod.fst hp').trans (hI.returnsLast _ _ _ _)
  rw [e, e']
  exact hI.antitone st0 hi _ _ hle

/-- **C142.** Tolerances: if `S'` only prolongs the solves of `S` (C113) and a larger budget never makes the answer of `S'` worse, then with the
same budget the answer of `S'` is never worse than that of `S`. -/
theorem C142_tolerances {S : Solver Y Out Aux St Stats} {S' : Solver Y Out Aux St' Stats} {af : Y → Bool} {fn : Y → Out × Aux} {aux0 : Aux}
    {y0 : Y} {loss : Y → ℝ} (hp : OnlyProlongs S S' af fn aux0 y0) (hb : NeverWorseWithBudget S' af fn aux0 y0 loss) (ms : Option ℕ)
    (sol : Solution Y Aux St Stats) (sol' : Solution Y Aux St' Stats) (h : iterativeSolve S af fn aux0 y0 ms false = some (.ok sol))
    (h' : iterativeSolve S' af fn aux0 y0 ms false = some (.ok sol')) : loss sol'.value ≤ loss sol.value := by
  obtain ⟨s, h1, h2, h3, -⟩ := (hp ms).2.2 sol h
  rw [← h3]
  refine hb (some sol.numSteps) ms false false (fun n hn => ⟨sol.numSteps, rfl, ?_⟩) s sol' h1 h'
  exact (C01_step_budget _ _ _ _ _ _ _ _ h).1 n hn

section
variable [Fintype ι]

theorem improves_gradient (d s i : ℝ) (a : Armijo.Cfg ℝ) (haa : Armijo.new d s i = .ok a) (cfg : GradientDescent.Cfg ι ℝ DS)
    (hs : cfg.search = Armijo.search a) (aux0 : A) (fn : (ι → ℝ) → ℝ × A) (y0 : ι → ℝ) :
    Improves (GradientDescent.solver cfg aux0) fn aux0 y0 fun y => (fn y).1 := by
  refine ⟨fun st0 hi => ?_, fun _ _ _ _ => rfl⟩
  obtain ⟨rfl, _, _, hpos, _, _⟩ := armijo_new d s i a haa
  have L := gd_laws cfg aux0 fn
  rw [hs] at L
  exact monotone_le L (armijo_first _) aux0 y0 st0 hi (fun k => armijo_accept_le _ hpos _ _ _ _ _)

/-- **C142**, gradient family with backtracking: for every two budgets, and for every two choices of tolerances one of which is stricter. -/
theorem C142_gradient_family (d s i : ℝ) (a : Armijo.Cfg ℝ) (haa : Armijo.new d s i = .ok a) (cfg : GradientDescent.Cfg ι ℝ DS)
    (hs : cfg.search = Armijo.search a) (aux0 : A) (fn : (ι → ℝ) → ℝ × A) (y0 : ι → ℝ) (af : (ι → ℝ) → Bool) :
    NeverWorseWithBudget (GradientDescent.solver cfg aux0) af fn aux0 y0 (fun y => (fn y).1) ∧
    ∀ rtol' atol' nY' nF', Stricter cfg.rtol cfg.atol cfg.normY cfg.normF rtol' atol' nY' nF' → ∀ ms sol sol',
      iterativeSolve (GradientDescent.solver cfg aux0) af fn aux0 y0 ms false = some (.ok sol) →
      iterativeSolve (GradientDescent.solver { cfg with rtol := rtol', atol := atol', normY := nY', normF := nF' } aux0) af fn aux0 y0 ms
        false = some (.ok sol') → (fn sol'.value).1 ≤ (fn sol.value).1 := by
  refine ⟨(improves_gradient d s i a haa cfg hs aux0 fn y0).budget af, fun rtol' atol' nY' nF' hst ms sol sol' h h' => ?_⟩
  exact C142_tolerances (loss := fun y => (fn y).1) (C113_gradient_descent cfg nF' hst aux0 fn af y0)
    ((improves_gradient d s i a haa { cfg with rtol := rtol', atol := atol', normY := nY', normF := nF' } hs aux0 fn y0).budget af) ms sol sol' h h'

theorem improves_quasi_newton (d s i : ℝ) (a : Armijo.Cfg ℝ) (haa : Armijo.new d s i = .ok a) (cfg : QuasiNewton.Cfg ι ℝ DS HS)
    (hs : cfg.search = Armijo.search a) (hr : RecordsPoint cfg.hess) (aux0 : A) (fn : (ι → ℝ) → ℝ × A) (y0 : ι → ℝ) :
    Improves (QuasiNewton.solver cfg aux0) fn aux0 y0 fun y => (fn y).1 := by
  refine ⟨fun st0 hi => ?_, fun _ _ _ _ => rfl⟩
  obtain ⟨rfl, _, _, hpos, _, _⟩ := armijo_new d s i a haa
  have L := qn_laws cfg aux0 fn hr
  rw [hs] at L
  exact monotone_le L (armijo_first _) aux0 y0 st0 hi (fun k => armijo_accept_le _ hpos _ _ _ _ _)

/-- **C142**, quasi-Newton family with backtracking (`BFGS`, `DFP`, `LBFGS`). -/
theorem C142_quasi_newton_family (d s i : ℝ) (a : Armijo.Cfg ℝ) (haa : Armijo.new d s i = .ok a) (cfg : QuasiNewton.Cfg ι ℝ DS HS)
    (hs : cfg.search = Armijo.search a) (hr : RecordsPoint cfg.hess) (aux0 : A) (fn : (ι → ℝ) → ℝ × A) (y0 : ι → ℝ) (af : (ι → ℝ) → Bool) :
    NeverWorseWithBudget (QuasiNewton.solver cfg aux0) af fn aux0 y0 (fun y => (fn y).1) ∧
    ∀ rtol' atol' nY' nF', Stricter cfg.rtol cfg.atol cfg.normY cfg.normF rtol' atol' nY' nF' → ∀ ms sol sol',
      iterativeSolve (QuasiNewton.solver cfg aux0) af fn aux0 y0 ms false = some (.ok sol) →
      iterativeSolve (QuasiNewton.solver { cfg with rtol := rtol', atol := atol', normY := nY', normF := nF' } aux0) af fn aux0 y0 ms
        false = some (.ok sol') → (fn sol'.value).1 ≤ (fn sol.value).1 := by
  refine ⟨(improves_quasi_newton d s i a haa cfg hs hr aux0 fn y0).budget af, fun rtol' atol' nY' nF' hst ms sol sol' h h' => ?_⟩
  exact C142_tolerances (loss := fun y => (fn y).1) (C113_quasi_newton cfg nF' hst aux0 fn af y0)
    ((improves_quasi_newton d s i a haa { cfg with rtol := rtol', atol := atol', normY := nY', normF := nF' } hs hr aux0 fn y0).budget af)
    ms sol sol' h h'

omit [Fintype ι] in
/-- **C142**, minimisers with a trust region: whenever C109 applies (`NeverIncreases`), for quasi-Newton solvers. -/
theorem C142_trust_region_quasi_newton {SS : Type} (cfg : QuasiNewton.Cfg ι SS DS HS) (aux0 : A) (fn : (ι → ℝ) → ℝ × A) (y0 : ι → ℝ)
    (hN : NeverIncreases (QuasiNewton.solver cfg aux0) fn aux0 y0) (af : (ι → ℝ) → Bool) :
    NeverWorseWithBudget (QuasiNewton.solver cfg aux0) af fn aux0 y0 (fun y => (fn y).1) :=
  Improves.budget ⟨hN.1, fun _ _ _ _ => rfl⟩ af

/-- **C142**, steepest descent with a trust region: for every two budgets, and for every two choices of tolerances one of which is stricter. -/
theorem C142_trust_region_steepest_descent (c : TrustRegion.Cfg ℝ) (hl : 0 < c.lowConstant) (hh : 0 < c.highConstant) (hc : 0 ≤ c.lowCutoff)
    (norm : Option ((ι → ℝ) → ℝ)) (hn : ∀ n, norm = some n → ∀ x, 0 ≤ n x) (cfg : GradientDescent.Cfg ι ℝ (ι → ℝ))
    (hs : cfg.search = TrustRegion.linear c) (hd : cfg.descent = steepestDescent norm) (aux0 : A) (fn : (ι → ℝ) → ℝ × A)
    (y0 : ι → ℝ) (af : (ι → ℝ) → Bool) :
    NeverWorseWithBudget (GradientDescent.solver cfg aux0) af fn aux0 y0 (fun y => (fn y).1) ∧
    ∀ rtol' atol' nY' nF', Stricter cfg.rtol cfg.atol cfg.normY cfg.normF rtol' atol' nY' nF' → ∀ ms sol sol',
      iterativeSolve (GradientDescent.solver cfg aux0) af fn aux0 y0 ms false = some (.ok sol) →
      iterativeSolve (GradientDescent.solver { cfg with rtol := rtol', atol := atol', normY := nY', normF := nF' } aux0) af fn aux0 y0 ms
        false = some (.ok sol') → (fn sol'.value).1 ≤ (fn sol.value).1 := by
  have hI : ∀ cfg : GradientDescent.Cfg ι ℝ (ι → ℝ), cfg.search = TrustRegion.linear c → cfg.descent = steepestDescent norm →
      Improves (GradientDescent.solver cfg aux0) fn aux0 y0 fun y => (fn y).1 := fun cfg hs hd =>
    ⟨(C109_steepest_descent_partial c hl hh hc norm hn cfg hs hd aux0 fn y0).1, fun _ _ _ _ => rfl⟩
  refine ⟨(hI cfg hs hd).budget af, fun rtol' atol' nY' nF' hst ms sol sol' h h' => ?_⟩
  exact C142_tolerances (loss := fun y => (fn y).1) (C113_gradient_descent cfg nF' hst aux0 fn af y0)
    ((hI { cfg with rtol := rtol', atol := atol', normY := nY', normF := nF' } hs hd).budget af) ms sol sol' h h'

variable [Fintype κ]

/-- **C142**, least squares with `LevenbergMarquardt`: the sum of squares. -/
theorem C142_levenberg_marquardt [DecidableEq ι] (eps fmax rtol atol : ℝ) (he : 0 ≤ eps) (hf : 0 < fmax)
    (nY : (ι → ℝ) → ℝ) (nF : (κ → ℝ) → ℝ) (ls : LinSolve ι (κ ⊕ ι)) (hls : SolvesLeastSquares ls)
    (jac : (ι → ℝ) → Matrix κ ι ℝ) (aux0 : A) (fn : (ι → ℝ) → (κ → ℝ) × A) (y0 : ι → ℝ) (af : (ι → ℝ) → Bool) :
    NeverWorseWithBudget (GaussNewton.solver (GaussNewton.levenbergMarquardt eps fmax rtol atol nY nF ls jac) aux0) af fn aux0 y0
      (fun y => ∑ m, (fn y).1 m ^ 2) ∧
    ∀ rtol' atol' nY' nF', Stricter rtol atol nY nF rtol' atol' nY' nF' → ∀ ms sol sol',
      iterativeSolve (GaussNewton.solver (GaussNewton.levenbergMarquardt eps fmax rtol atol nY nF ls jac) aux0) af fn aux0 y0 ms false =
        some (.ok sol) →
      iterativeSolve (GaussNewton.solver (GaussNewton.levenbergMarquardt eps fmax rtol' atol' nY' nF' ls jac) aux0) af fn aux0 y0 ms false =
        some (.ok sol') → ∑ m, (fn sol'.value).1 m ^ 2 ≤ ∑ m, (fn sol.value).1 m ^ 2 := by
  have hI : ∀ rtol atol nY nF, Improves (GaussNewton.solver (GaussNewton.levenbergMarquardt eps fmax rtol atol nY nF ls jac) aux0) fn aux0 y0
      (fun y => ∑ m, (fn y).1 m ^ 2) := fun rtol atol nY nF =>
    ⟨(C41_levenberg_marquardt eps fmax rtol atol he hf nY nF ls hls jac aux0 fn y0).1, fun _ _ _ _ => rfl⟩
  refine ⟨(hI _ _ _ _).budget af, fun rtol' atol' nY' nF' hst ms sol sol' h h' => ?_⟩
  exact C142_tolerances (loss := fun y => ∑ m, (fn y).1 m ^ 2)
    (C113_gauss_newton (GaussNewton.levenbergMarquardt eps fmax rtol atol nY nF ls jac) nF' hst aux0 fn af y0) ((hI _ _ _ _).budget af)
    ms sol sol' h h'

/-- **C142**, least squares with `Dogleg`. -/
theorem C142_dogleg (eps rtol atol : ℝ) (he : 0 ≤ eps) (nY : (ι → ℝ) → ℝ) (nF : (κ → ℝ) → ℝ) (ls : LinSolve ι κ)
    (hls : SolvesLeastSquares ls) (jac : (ι → ℝ) → Matrix κ ι ℝ) (aux0 : A) (fn : (ι → ℝ) → (κ → ℝ) × A) (y0 : ι → ℝ)
    (af : (ι → ℝ) → Bool) :
    NeverWorseWithBudget (GaussNewton.solver (GaussNewton.dogleg eps rtol atol nY nF ls jac) aux0) af fn aux0 y0
      (fun y => ∑ m, (fn y).1 m ^ 2) ∧
    ∀ rtol' atol' nY' nF', Stricter rtol atol nY nF rtol' atol' nY' nF' → ∀ ms sol sol',
      iterativeSolve (GaussNewton.solver (GaussNewton.dogleg eps rtol atol nY nF ls jac) aux0) af fn aux0 y0 ms false = some (.ok sol) →
      iterativeSolve (GaussNewton.solver (GaussNewton.dogleg eps rtol' atol' nY' nF' ls jac) aux0) af fn aux0 y0 ms false =
        some (.ok sol') → ∑ m, (fn sol'.value).1 m ^ 2 ≤ ∑ m, (fn sol.value).1 m ^ 2 := by
  have hI : ∀ rtol atol nY nF, Improves (GaussNewton.solver (GaussNewton.dogleg eps rtol atol nY nF ls jac) aux0) fn aux0 y0
      (fun y => ∑ m, (fn y).1 m ^ 2) := fun rtol atol nY nF =>
    ⟨(C41_dogleg eps rtol atol he nY nF ls hls jac aux0 fn y0).1, fun _ _ _ _ => rfl⟩
  refine ⟨(hI _ _ _ _).budget af, fun rtol' atol' nY' nF' hst ms sol sol' h h' => ?_⟩
  exact C142_tolerances (loss := fun y => ∑ m, (fn y).1 m ^ 2)
    (C113_gauss_newton (GaussNewton.dogleg eps rtol atol nY nF ls jac) nF' hst aux0 fn af y0) ((hI _ _ _ _).budget af)
    ms sol sol' h h'

/-- **C142**, least squares with `IndirectLevenbergMarquardt`. -/
theorem C142_indirect [DecidableEq ι] (eps fmax rtol atol : ℝ) (he : 0 ≤ eps) (hf : 0 < fmax) (nY : (ι → ℝ) → ℝ) (nF : (κ → ℝ) → ℝ)
    (ls : LinSolve ι κ) (hls : SolvesLeastSquares ls) (lsD : LinSolve ι (κ ⊕ ι)) (hlsD : SolvesLeastSquares lsD)
    (findLambda : (ℝ → ℝ) → ℝ × Result) (jac : (ι → ℝ) → Matrix κ ι ℝ) (aux0 : A) (fn : (ι → ℝ) → (κ → ℝ) × A) (y0 : ι → ℝ)
    (af : (ι → ℝ) → Bool) :
    NeverWorseWithBudget (GaussNewton.solver (GaussNewton.indirectLevenbergMarquardt eps fmax rtol atol nY nF ls lsD findLambda jac) aux0) af
      fn aux0 y0 (fun y => ∑ m, (fn y).1 m ^ 2) ∧
    ∀ rtol' atol' nY' nF', Stricter rtol atol nY nF rtol' atol' nY' nF' → ∀ ms sol sol',
      iterativeSolve (GaussNewton.solver (GaussNewton.indirectLevenbergMarquardt eps fmax rtol atol nY nF ls lsD findLambda jac) aux0) af fn
        aux0 y0 ms false = some (.ok sol) →
      iterativeSolve (GaussNewton.solver (GaussNewton.indirectLevenbergMarquardt eps fmax rtol' atol' nY' nF' ls lsD findLambda jac) aux0) af
        fn aux0 y0 ms false = some (.ok sol') → ∑ m, (fn sol'.value).1 m ^ 2 ≤ ∑ m, (fn sol.value).1 m ^ 2 := by
  have hI : ∀ rtol atol nY nF, Improves (GaussNewton.solver (GaussNewton.indirectLevenbergMarquardt eps fmax rtol atol nY nF ls lsD findLambda
      jac) aux0) fn aux0 y0 (fun y => ∑ m, (fn y).1 m ^ 2) := fun rtol atol nY nF =>
    ⟨(C41_indirect eps fmax ls lsD findLambda he hf hls hlsD rtol atol nY nF jac aux0 fn y0).1, fun _ _ _ _ => rfl⟩
  refine ⟨(hI _ _ _ _).budget af, fun rtol' atol' nY' nF' hst ms sol sol' h h' => ?_⟩
  exact C142_tolerances (loss := fun y => ∑ m, (fn y).1 m ^ 2)
    (C113_gauss_newton (GaussNewton.indirectLevenbergMarquardt eps fmax rtol atol nY nF ls lsD findLambda jac) nF' hst aux0 fn af y0)
    ((hI _ _ _ _).budget af) ms sol sol' h h'

end

/-- **C142**, the `BestSoFar…` wrappers around any solver that reports the output of the function at the point it steps from: with a larger
budget the loss of the answer is never larger, whatever the wrapped solver does.  The losses are real numbers, that is, below infinity. -/
theorem C142_best_so_far (S : Solver Y Out (Out × A) St Stats) (toLoss : Y → Out → WithTop ℝ) (auxZero : A) (af : Y → Bool)
    (fn : Y → Out × A) (out0 : Out) (aux0 : A) (y0 : Y)
    (hrep : ∀ st0, S.init (BestSoFar.auxmented fn) y0 = .ok st0 → ReportsAux S (BestSoFar.auxmented fn) (out0, aux0) y0 st0)
    (loss : Y → ℝ) (hloss : ∀ y, toLoss y (fn y).1 = loss y) :
    NeverWorseWithBudget (BestSoFar.solver S toLoss ⊤ auxZero) af fn aux0 y0 loss := by
  intro ms ms' throw throw' hms sol sol' h h'
  have hle := C142_more_steps _ af fn aux0 y0 ms ms' throw throw' hms sol sol' h h'
  have best := fun ms throw sol h => C25_best_of_iterates S toLoss ⊤ auxZero fn (fun _ _ _ => lt_trans) (fun _ => lt_irrefl _) af out0 aux0 y0
    ms throw hrep sol h
  obtain ⟨st0, hi, h1, h2⟩ := best ms throw sol h
  obtain ⟨st0', hi', h1', -⟩ := best ms' throw' sol' h'
  rw [hi] at hi'; cases hi'
  have htop : ∀ j, toLoss (iterateAt S (BestSoFar.auxmented fn) (out0, aux0) y0 st0 j)
      (fn (iterateAt S (BestSoFar.auxmented fn) (out0, aux0) y0 st0 j)).1 < ⊤ := fun j => by rw [hloss]; exact WithTop.coe_lt_top _
  have hle0 : ∀ i, (i < sol'.numSteps) → loss sol'.value ≤ loss (iterateAt S (BestSoFar.auxmented fn) (out0, aux0) y0 st0 i) := by
    intro i hi
    obtain ⟨j, hj, hv, -, -, hmin⟩ := h1' ⟨i, hi, htop i⟩
    have := hmin i hi
    simp only [hloss, WithTop.coe_lt_coe, not_lt] at this
    rw [hv]
    exact this
  rcases Nat.eq_zero_or_pos sol.numSteps with h0 | hpos
  · have hv : sol.value = y0 := (h2 fun i hi => by omega).1
    rw [hv]
    rcases Nat.eq_zero_or_pos sol'.numSteps with h0' | hpos'
    · obtain ⟨_, _, _, h2'⟩ := best ms' throw' sol' h'
      rw [(h2' fun i hi => by omega).1]
    · exact hle0 0 hpos'
  · obtain ⟨j, hj, hv, -⟩ := h1 ⟨0, hpos, htop 0⟩
    rw [hv]
    exact hle0 j (hj.trans_le hle)

/-- **C142**, `BestSoFar` around a solver whose tolerances are made stricter (`Tightens`, C113). -/
theorem C142_best_so_far_tolerances {S : Solver Y Out (Out × A) St Stats} {S' : Solver Y Out (Out × A) St' Stats} {R : St → St' → Prop}
    (fn : Y → Out × A) (ht : Tightens S S' (BestSoFar.auxmented fn) R) (toLoss : Y → Out → WithTop ℝ) (auxZero : A) (af : Y → Bool)
    (out0 : Out) (aux0 : A) (y0 : Y)
    (hrep : ∀ st0, S'.init (BestSoFar.auxmented fn) y0 = .ok st0 → ReportsAux S' (BestSoFar.auxmented fn) (out0, aux0) y0 st0)
    (loss : Y → ℝ) (hloss : ∀ y, toLoss y (fn y).1 = loss y) (ms : Option ℕ) (sol sol')
    (h : iterativeSolve (BestSoFar.solver S toLoss ⊤ auxZero) af fn aux0 y0 ms false = some (.ok sol))
    (h' : iterativeSolve (BestSoFar.solver S' toLoss ⊤ auxZero) af fn aux0 y0 ms false = some (.ok sol')) :
    loss sol'.value ≤ loss sol.value :=
  C142_tolerances (C113_best_so_far fn ht toLoss ⊤ auxZero aux0 af y0)
    (C142_best_so_far S' toLoss auxZero af fn out0 aux0 y0 hrep loss hloss) ms sol sol' h h'

/-- **C142** needs a search: `GradientDescent` with learning rate `2` on `y²` from `1` returns `1` with `max_steps = 1` and `-3` with
`max_steps = 2`. -/
theorem C142_fails_without_search :
    ¬ NeverWorseWithBudget (gdSolver 2 0 (1/10) maxNorm maxNorm (fun (y : Unit → ℝ) i => 2 * y i) ()) (fun _ => true)
      (fun y => (y () ^ 2, ())) () (fun _ => 1) fun y => y () ^ 2 := by
  intro hw
  set S := gdSolver (A := Unit) 2 0 (1/10) maxNorm maxNorm (fun (y : Unit → ℝ) i => 2 * y i) () with hS
  obtain ⟨st0, hi⟩ : ∃ st0, S.init (fun y => (y () ^ 2, ())) (fun _ => 1) = .ok st0 := ⟨_, rfl⟩
  have hst := gd_state 2 0 (1/10) maxNorm maxNorm (fun (y : Unit → ℝ) i => 2 * y i) () (fun y => (y () ^ 2, ())) (fun _ => 1) st0 hi
  have hc : ∀ j, j < 2 → Continues S (fun _ => true) (fun y => (y () ^ 2, ())) () (fun _ => 1) st0 j := by
    intro j hj
    refine ⟨rfl, ?_⟩
    cases hi
    interval_cases j
    · rfl
    · rfl
  obtain ⟨sol, h1, n1⟩ := solve_exists S (fun _ => true) (fun y => (y () ^ 2, ())) () (fun _ => 1) st0 hi (some 1) 1
    (fun j hj => hc j (by omega)) (Or.inr rfl)
  obtain ⟨sol', h2, n2⟩ := solve_exists S (fun _ => true) (fun y => (y () ^ 2, ())) () (fun _ => 1) st0 hi (some 2) 2 hc (Or.inr rfl)
  have hle := hw (some 1) (some 2) false false (fun n hn => ⟨1, rfl, by cases hn; norm_num⟩) sol sol' h1 h2
  have val : ∀ ms k sol, iterativeSolve S (fun _ => true) (fun y => (y () ^ 2, ())) () (fun _ => 1) ms false = some (.ok sol) →
      sol.numSteps = k + 1 → sol.value = (gdMap 2 fun (y : Unit → ℝ) i => 2 * y i)^[k] fun _ => 1 := by
    intro ms k sol h hk
    obtain ⟨-, -, st0', hi', -, hp⟩ := C01_step_budget _ _ _ _ _ _ _ _ h
    rw [hi] at hi'; cases hi'
    rw [← (hst k).1, ← hk]
    exact congrArg Prod.fst hp
  rw [val _ 0 sol h1 n1, val _ 1 sol' h2 n2] at hle
  norm_num [gdMap] at hle

/-- Steepest descent with backtracking, for `y²`. -/
noncomputable def parabolaSearch : GradientDescent.Cfg Unit ℝ (Unit → ℝ) :=
  { rtol := 0, atol := 1/10, normY := maxNorm, normF := maxNorm, descent := steepestDescent none, search := Armijo.search ⟨1/2, 1/10, 1⟩,
    grad := fun y i => 2 * y i }

/-- Steepest descent with backtracking on `y²` from any point: more steps, smaller square. -/
example (y0 : Unit → ℝ) (n n' : ℕ) (hn : n ≤ n') (sol sol')
    (h : iterativeSolve (GradientDescent.solver (A := Unit) parabolaSearch ()) (fun _ => true)
      (fun y => (y () ^ 2, ())) () y0 (some n) false = some (.ok sol))
    (h' : iterativeSolve (GradientDescent.solver (A := Unit) parabolaSearch ()) (fun _ => true)
      (fun y => (y () ^ 2, ())) () y0 (some n') false = some (.ok sol')) : sol'.value () ^ 2 ≤ sol.value () ^ 2 :=
  (C142_gradient_family (1/2) (1/10) 1 ⟨1/2, 1/10, 1⟩ (by unfold Armijo.new; norm_num) parabolaSearch rfl () (fun y => (y () ^ 2, ())) y0 (fun _ => true)).1
    (some n) (some n') false false (fun m hm => ⟨n, rfl, by cases hm; exact hn⟩) sol sol' h h'

/-- Budgets: `3 ≤ 5`, everything is at most no limit, and no limit is not at most `5`. -/
example : BudgetLe (some 3) (some 5) ∧ BudgetLe (some 3) none ∧ BudgetLe none none ∧ ¬ BudgetLe none (some 5) :=
  ⟨fun n h => ⟨3, rfl, by cases h; norm_num⟩, fun n h => (nomatch h), fun n h => (nomatch h),
    fun h => by obtain ⟨n, hn, -⟩ := h 5 rfl; cases hn⟩

/-- Two different tolerances one of which is stricter. -/
example : Stricter (ι := Unit) (κ := Unit) 0 (1/10) maxNorm maxNorm 0 (1/100) maxNorm maxNorm :=
  ⟨by norm_num, by norm_num, le_rfl, le_rfl, goodNorm_maxNorm (ι := Unit), goodNorm_maxNorm (ι := Unit), fun _ => le_rfl, fun _ => le_rfl⟩

end Verif.Props
