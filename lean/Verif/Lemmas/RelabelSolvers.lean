import Verif.Lemmas.Relabel

/-!
Each solver on the repacked problem simulates the solver on the original problem.
-/

namespace Verif.Relabel

variable {ι ι' κ κ' A A' K SS SS' DS DS' HS HS' : Type}

theorem fOf_info (e : ι ≃ ι') (i : FnInfo ι Unit) :
    GradientDescent.fOf (info e (Equiv.refl Unit) i) = GradientDescent.fOf i := by
  cases i <;> simp only [info, GradientDescent.fOf, FnInfo.asMin] <;> rfl

/-! ### Gradient methods -/

/-- The state of a gradient method, repacked. -/
def gdState (e : ι ≃ ι') (mA : A → A') (mS : SS → SS') (mD : DS → DS') (s : GradientDescent.State ι A SS DS) :
    GradientDescent.State ι' A' SS' DS' :=
  { firstStep := s.firstStep, yEval := vec e s.yEval, searchState := mS s.searchState,
    fInfo := info e (Equiv.refl Unit) s.fInfo, aux := mA s.aux, descentState := mD s.descentState,
    terminate := s.terminate, result := s.result }

theorem gd_simulates {e : ι ≃ ι'} {mA : A → A'} {mS : SS → SS'} {mD : DS → DS'} {c : GradientDescent.Cfg ι SS DS}
    {c' : GradientDescent.Cfg ι' SS' DS'} (hr : c'.rtol = c.rtol) (ha : c'.atol = c.atol) (hY : SameNorm e c.normY c'.normY)
    (hF : c'.normF = c.normF) (hD : SameDescent e (Equiv.refl Unit) c.descent c'.descent mD)
    (hS : SameSearch e (Equiv.refl Unit) c.search c'.search mS) (hg : ∀ y, c'.grad (vec e y) = vec e (c.grad y))
    {f : (ι → ℝ) → ℝ × A} {f' : (ι' → ℝ) → ℝ × A'} (hf : ∀ y, f' (vec e y) = ((f y).1, mA (f y).2)) (aux0 : A) :
    Driver.Simulates (GradientDescent.solver c aux0) f (GradientDescent.solver c' (mA aux0)) f' (vec e) mA
      (gdState e mA mS mD) where
  init y := by
    have h1 := hS.accepts (.evalGrad 0 y)
    have h2 := hD.accepts (.evalGrad 0 y)
    have h3 := hD.init y (.evalGrad 0 y)
    simp only [info] at h1 h2 h3
    simp only [GradientDescent.solver, GradientDescent.init, h1, h2, h3, hS.init]
    split <;> rfl
  step y st := by
    have hs := hS.step st.firstStep y st.yEval st.fInfo (.eval (f st.yEval).1) st.searchState
    rw [show info e (Equiv.refl Unit) (.eval (f st.yEval).1) = .eval (f st.yEval).1 from rfl] at hs
    generalize hsv : c.search.step st.firstStep y st.yEval st.fInfo (.eval (f st.yEval).1) st.searchState = s at hs
    obtain ⟨a, acc, r, ss⟩ := s
    simp only [] at hs
    simp only [GradientDescent.solver, GradientDescent.step, gdState, hf, hs, hsv]
    cases acc with
    | true =>
      have hq := hD.query st.yEval (.evalGrad (f st.yEval).1 (c.grad st.yEval)) st.descentState
      simp only [info] at hq
      simp only [if_true, hg, hq, hD.step, hr, ha, hF, fOf_info, sub_vec]
      have ht := cauchyTermination_vec (k := Equiv.refl Unit) (nF' := c.normF) hY (fun v => rfl) c.rtol c.atol st.yEval
        (fun i => st.yEval i - y i) (fun _ => (f st.yEval).1) fun _ => (f st.yEval).1 - GradientDescent.fOf st.fInfo
      have ht' : cauchyTermination c.rtol c.atol c'.normY c.normF (vec e st.yEval) (vec e fun i => st.yEval i - y i)
        (fun _ => (f st.yEval).1) (fun _ => (f st.yEval).1 - GradientDescent.fOf st.fInfo) = _ := ht
      rw [ht']
      cases st.firstStep <;> rfl
    | false =>
      simp only [Bool.false_eq_true, if_false, hD.step]
      cases st.firstStep <;> rfl
  terminate y st := rfl
  postY _ _ _ _ := rfl
  postA _ _ _ _ := rfl

/-! ### Quasi-Newton methods -/

/-- The state of a quasi-Newton method, repacked. -/
def qnState (e : ι ≃ ι') (mA : A → A') (mS : SS → SS') (mD : DS → DS') (mH : HS → HS')
    (s : QuasiNewton.State ι A SS DS HS) : QuasiNewton.State ι' A' SS' DS' HS' :=
  { firstStep := s.firstStep, yEval := vec e s.yEval, searchState := mS s.searchState,
    fInfo := info e (Equiv.refl Unit) s.fInfo, aux := mA s.aux, descentState := mD s.descentState,
    terminate := s.terminate, result := s.result, numAcceptedSteps := s.numAcceptedSteps,
    hessianUpdateState := mH s.hessianUpdateState }

theorem qn_simulates {e : ι ≃ ι'} {mA : A → A'} {mS : SS → SS'} {mD : DS → DS'} {mH : HS → HS'}
    {c : QuasiNewton.Cfg ι SS DS HS} {c' : QuasiNewton.Cfg ι' SS' DS' HS'} (hr : c'.rtol = c.rtol)
    (ha : c'.atol = c.atol) (hY : SameNorm e c.normY c'.normY) (hF : c'.normF = c.normF)
    (hD : SameDescent e (Equiv.refl Unit) c.descent c'.descent mD)
    (hS : SameSearch e (Equiv.refl Unit) c.search c'.search mS) (hH : SameHessian e c.hess c'.hess mH)
    (hg : ∀ y, c'.grad (vec e y) = vec e (c.grad y))
    {f : (ι → ℝ) → ℝ × A} {f' : (ι' → ℝ) → ℝ × A'} (hf : ∀ y, f' (vec e y) = ((f y).1, mA (f y).2)) (aux0 : A) :
    Driver.Simulates (QuasiNewton.solver c aux0) f (QuasiNewton.solver c' (mA aux0)) f' (vec e) mA
      (qnState e mA mS mD mH) where
  init y := by
    have h0 := hH.init y 0 fun _ => 0
    have h0' : c'.hess.initHessian (vec e y) 0 (fun _ => 0) = _ := h0
    simp only [QuasiNewton.solver, QuasiNewton.init, h0', hS.accepts, hD.accepts, hD.init, hS.init]
    split <;> rfl
  step y st := by
    have hs := hS.step st.firstStep y st.yEval st.fInfo (.eval (f st.yEval).1) st.searchState
    rw [show info e (Equiv.refl Unit) (.eval (f st.yEval).1) = .eval (f st.yEval).1 from rfl] at hs
    generalize hsv : c.search.step st.firstStep y st.yEval st.fInfo (.eval (f st.yEval).1) st.searchState = s at hs
    obtain ⟨a, acc, r, ss⟩ := s
    simp only [] at hs
    simp only [QuasiNewton.solver, QuasiNewton.step, qnState, hf, hs, hsv]
    cases acc with
    | true =>
      simp only [if_true, hg, hH.update, hD.query, hD.step, hr, ha, hF, fOf_info, sub_vec]
      have ht := cauchyTermination_vec (k := Equiv.refl Unit) (nF' := c.normF) hY (fun v => rfl) c.rtol c.atol st.yEval
        (fun i => st.yEval i - y i) (fun _ => (f st.yEval).1) fun _ => (f st.yEval).1 - GradientDescent.fOf st.fInfo
      have ht' : cauchyTermination c.rtol c.atol c'.normY c.normF (vec e st.yEval) (vec e fun i => st.yEval i - y i)
        (fun _ => (f st.yEval).1) (fun _ => (f st.yEval).1 - GradientDescent.fOf st.fInfo) = _ := ht
      rw [ht']
      cases st.firstStep <;> rfl
    | false =>
      simp only [Bool.false_eq_true, if_false, hD.step]
      cases st.firstStep <;> rfl
  terminate y st := rfl
  postY _ _ _ _ := rfl
  postA _ _ _ _ := rfl

/-! ### Gauss-Newton methods -/

/-- The state of a Gauss-Newton method, repacked. -/
def gnState (e : ι ≃ ι') (k : κ ≃ κ') (mA : A → A') (mS : SS → SS') (mD : DS → DS')
    (s : GaussNewton.State ι κ A SS DS) : GaussNewton.State ι' κ' A' SS' DS' :=
  { firstStep := s.firstStep, yEval := vec e s.yEval, searchState := mS s.searchState, residual := vec k s.residual,
    jac := mat k e s.jac, aux := mA s.aux, descentState := mD s.descentState, terminate := s.terminate,
    result := s.result, numSteps := s.numSteps, numAcceptedSteps := s.numAcceptedSteps,
    numStepsSinceAcceptance := s.numStepsSinceAcceptance }

theorem gn_simulates {e : ι ≃ ι'} {k : κ ≃ κ'} {mA : A → A'} {mS : SS → SS'} {mD : DS → DS'}
    {c : GaussNewton.Cfg ι κ SS DS} {c' : GaussNewton.Cfg ι' κ' SS' DS'} (hr : c'.rtol = c.rtol)
    (ha : c'.atol = c.atol) (hY : SameNorm e c.normY c'.normY) (hF : SameNorm k c.normF c'.normF)
    (hD : SameDescent e k c.descent c'.descent mD) (hS : SameSearch e k c.search c'.search mS)
    (hj : ∀ y, c'.jac (vec e y) = mat k e (c.jac y)) {f : (ι → ℝ) → (κ → ℝ) × A} {f' : (ι' → ℝ) → (κ' → ℝ) × A'}
    (hf : ∀ y, f' (vec e y) = (vec k (f y).1, mA (f y).2)) (aux0 : A) :
    Driver.Simulates (GaussNewton.solver c aux0) f (GaussNewton.solver c' (mA aux0)) f' (vec e) mA
      (gnState e k mA mS mD) where
  init y := by
    have h1 := hS.accepts (.residualJac (fun _ => 0) 0)
    have h2 := hD.accepts (.residualJac (fun _ => 0) 0)
    have h3 := hD.init y (.residualJac (fun _ => 0) 0)
    have h0 : info e k (.residualJac (fun _ => 0) 0) = .residualJac (fun _ => 0) 0 := rfl
    rw [h0] at h1 h2 h3
    simp only [GaussNewton.solver, GaussNewton.init, h1, h2, h3, hS.init]
    split <;> rfl
  step y st := by
    have hs := hS.step st.firstStep y st.yEval (.residualJac st.residual st.jac)
      (.residualJac (f st.yEval).1 (c.jac st.yEval)) st.searchState
    simp only [info] at hs
    generalize hsv : c.search.step st.firstStep y st.yEval (.residualJac st.residual st.jac)
      (.residualJac (f st.yEval).1 (c.jac st.yEval)) st.searchState = s at hs
    obtain ⟨a, acc, r, ss⟩ := s
    simp only [] at hs
    simp only [GaussNewton.solver, GaussNewton.step, gnState, hf, hj, hs, hsv]
    cases acc with
    | true =>
      have hq := hD.query st.yEval (.residualJac (f st.yEval).1 (c.jac st.yEval)) st.descentState
      simp only [info] at hq
      simp only [if_true, hq, hD.step, hr, ha]
      have ht := cauchyTermination_vec hY hF c.rtol c.atol st.yEval (fun i => st.yEval i - y i) (f st.yEval).1
        fun i => (f st.yEval).1 i - st.residual i
      have ht' : cauchyTermination c.rtol c.atol c'.normY c'.normF (vec e st.yEval)
        (fun i => vec e st.yEval i - vec e y i) (vec k (f st.yEval).1)
        (fun i => vec k (f st.yEval).1 i - vec k st.residual i) = _ := ht
      rw [ht']
      cases st.firstStep <;> rfl
    | false =>
      simp only [Bool.false_eq_true, if_false, hD.step]
      cases st.firstStep <;> rfl
  terminate y st := rfl
  postY _ _ _ _ := rfl
  postA _ _ _ _ := rfl

/-! ### Newton, Chord, fixed-point iteration -/

/-- The state of Newton's method, repacked. -/
def newtonState {J J' : Type} (e : ι ≃ ι') (k : κ ≃ κ') (mJ : J → J') (s : NewtonChord.State ι κ K J) :
    NewtonChord.State ι' κ' K J' :=
  { f := s.f.map (vec k), linearState := s.linearState.map mJ, diff := vec e s.diff, diffsize := s.diffsize,
    diffsizePrev := s.diffsizePrev, result := s.result, step := s.step }

theorem clipBounds_vec [LT K] [DecidableLT K] (e : ι ≃ ι') (l u : Option (ι → K)) (y : ι → K) :
    NewtonChord.clipBounds (l.map (vec e)) (u.map (vec e)) (vec e y) = vec e (NewtonChord.clipBounds l u y) := by
  cases l <;> cases u <;> rfl

theorem newton_simulates {J J' : Type} [Add K] [Sub K] [Mul K] [Div K] [Zero K] [One K] [OfNat K 2] [LT K] [DecidableLT K]
    [HasAbs K] {e : ι ≃ ι'} {k : κ ≃ κ'} {mJ : J → J'} {mA : A → A'} {c : NewtonChord.Cfg ι κ K J}
    {c' : NewtonChord.Cfg ι' κ' K J'} (hr : c'.rtol = c.rtol) (ha : c'.atol = c.atol) (hY : SameNorm e c.normY c'.normY)
    (hF : SameNorm k c.normF c'.normF) (hk : c'.kappa = c.kappa) (hc : c'.cauchy = c.cauchy)
    (hn : c'.isNewton = c.isNewton) (hl : c'.lower = c.lower.map (vec e)) (hu : c'.upper = c.upper.map (vec e))
    (hj : ∀ y, c'.jac (vec e y) = mJ (c.jac y))
    (hs : ∀ j b, c'.linearSolve (mJ j) (vec k b) = (vec e (c.linearSolve j b).1, (c.linearSolve j b).2))
    (hi : c'.inf = c.inf) (hfi : c'.isfinite = c.isfinite) (hre : c'.resolution = c.resolution)
    {f : (ι → K) → (κ → K) × A} {f' : (ι' → K) → (κ' → K) × A'}
    (hf : ∀ y, f' (vec e y) = (vec k (f y).1, mA (f y).2)) :
    Driver.Simulates (NewtonChord.solver c) f (NewtonChord.solver c') f' (vec e) mA (newtonState e k mJ) where
  init y := by
    simp only [NewtonChord.solver, NewtonChord.init, hc, hn, hi, hj]
    cases c.cauchy <;> cases c.isNewton <;> rfl
  step y st := by
    have hlin : NewtonChord.linSol c' (vec e y) (vec k (f y).1) (newtonState e k mJ st) =
        (vec e (NewtonChord.linSol c y (f y).1 st).1, (NewtonChord.linSol c y (f y).1 st).2) := by
      simp only [NewtonChord.linSol, newtonState, hn, hj]
      cases c.isNewton <;> cases st.linearState <;> simp only [Option.map_none, Option.map_some, hs]
    have hcl := clipBounds_vec e c.lower c.upper fun i => y i - (NewtonChord.linSol c y (f y).1 st).1 i
    have hcl' : NewtonChord.clipBounds (c.lower.map (vec e)) (c.upper.map (vec e))
      (fun i => vec e y i - vec e (NewtonChord.linSol c y (f y).1 st).1 i) = _ := hcl
    have hdiff : (if (c.lower.map (vec e)).isSome || (c.upper.map (vec e)).isSome then
          (fun i => vec e y i - vec e (NewtonChord.clipBounds c.lower c.upper
            fun i => y i - (NewtonChord.linSol c y (f y).1 st).1 i) i)
        else vec e (NewtonChord.linSol c y (f y).1 st).1) =
        vec e (if c.lower.isSome || c.upper.isSome then
          (fun i => y i - (NewtonChord.clipBounds c.lower c.upper
            fun i => y i - (NewtonChord.linSol c y (f y).1 st).1 i) i)
        else (NewtonChord.linSol c y (f y).1 st).1) := by
      rw [Option.isSome_map, Option.isSome_map]
      split <;> rfl
    have hsize : ∀ d z : ι → K, c'.normY (fun i => vec e d i / (c.atol + c.rtol * HasAbs.abs (vec e z i))) =
      c.normY fun i => d i / (c.atol + c.rtol * HasAbs.abs (z i)) := fun d z =>
        hY fun i => d i / (c.atol + c.rtol * HasAbs.abs (z i))
    simp only [NewtonChord.solver, NewtonChord.step, hf, hlin, hl, hu, hcl', hdiff, hr, ha, hsize, hc]
    cases c.cauchy <;> rfl
  terminate y st := by
    simp only [NewtonChord.solver, NewtonChord.terminate, hc, newtonState, NewtonChord.small, NewtonChord.diverged, hfi,
      hre, hk, hr, ha]
    cases c.cauchy with
    | false => rfl
    | true =>
      cases st.f with
      | none => rfl
      | some v =>
        simp only [Option.map_some]
        have ht := cauchyTermination_vec hY hF c.rtol c.atol y st.diff (fun _ => 0) v
        have ht' : cauchyTermination c.rtol c.atol c'.normY c'.normF (vec e y) (vec e st.diff) (fun _ => 0) (vec k v) = _ :=
          ht
        rw [ht']
  postY _ _ _ _ := rfl
  postA _ _ _ _ := rfl

theorem fixedPoint_simulates [Add K] [Sub K] [Mul K] [Div K] [One K] [LT K] [DecidableLT K] [HasAbs K] {e : ι ≃ ι'}
    {mA : A → A'} {rtol atol damp : K} {n : (ι → K) → K} {n' : (ι' → K) → K} (hn : SameNorm e n n')
    {f : (ι → K) → (ι → K) × A} {f' : (ι' → K) → (ι' → K) × A'}
    (hf : ∀ y, f' (vec e y) = (vec e (f y).1, mA (f y).2)) :
    Driver.Simulates (FixedPointIter.solver { rtol, atol, norm := n, damp }) f
      (FixedPointIter.solver { rtol, atol, norm := n', damp }) f' (vec e) mA id where
  init y := rfl
  step y st := by
    simp only [FixedPointIter.solver, FixedPointIter.step, hf, id]
    have h := hn fun i => (y i - ((1 - damp) * (f y).1 i + damp * y i)) /
      (atol + rtol * HasAbs.abs ((1 - damp) * (f y).1 i + damp * y i))
    have h' : n' (fun i => (vec e y i - ((1 - damp) * vec e (f y).1 i + damp * vec e y i)) /
      (atol + rtol * HasAbs.abs ((1 - damp) * vec e (f y).1 i + damp * vec e y i))) = _ := h
    rw [h']
    rfl
  terminate y st := rfl
  postY _ _ _ _ := rfl
  postA _ _ _ _ := rfl

/-! ### Best so far -/

/-- The state of a `BestSoFar` solver, repacked. -/
def bestState {Y Y' L St St' : Type} (mY : Y → Y') (mA : A → A') (mS : St → St') (s : BestSoFar.State Y A L St) :
    BestSoFar.State Y' A' L St' :=
  { bestY := mY s.bestY, bestAux := mA s.bestAux, bestLoss := s.bestLoss, state := mS s.state }

theorem best_simulates {Y Y' Out Out' L St St' Stats Stats' : Type} [LT L] [DecidableLT L]
    {S : Solver Y Out (Out × A) St Stats} {S' : Solver Y' Out' (Out' × A') St' Stats'} {f : Y → Out × A}
    {f' : Y' → Out' × A'} {mY : Y → Y'} {mO : Out → Out'} {mA : A → A'} {mS : St → St'} {loss : Y → Out → L}
    {loss' : Y' → Out' → L} (hl : ∀ y o, loss' (mY y) (mO o) = loss y o)
    (h : Driver.Simulates S (BestSoFar.auxmented f) S' (BestSoFar.auxmented f') mY (Prod.map mO mA) mS) (inf : L)
    (aux0 : A) :
    Driver.Simulates (BestSoFar.solver S loss inf aux0) f (BestSoFar.solver S' loss' inf (mA aux0)) f' mY mA
      (bestState mY mA mS) where
  init y := by
    simp only [BestSoFar.solver, BestSoFar.init, h.init]
    cases S.init (BestSoFar.auxmented f) y <;> rfl
  step y st := by
    simp only [BestSoFar.solver, BestSoFar.step, bestState, h.step, Prod.map, hl]
    generalize S.step (BestSoFar.auxmented f) y st.state = o
    by_cases hp : loss y o.2.2.1 < st.bestLoss
    · simp only [if_pos hp]
    · simp only [if_neg hp]
  terminate y st := h.terminate y st.state
  postY _ _ _ _ := rfl
  postA _ _ _ _ := rfl

/-! ### Optax -/

/-- The state of an Optax solver, with the optimiser's state repacked. -/
def optaxState {OS OS' : Type} (m : OS → OS') (s : Optax.State OS) : Optax.State OS' :=
  { step := s.step, f := s.f, optState := m s.optState, terminate := s.terminate }

theorem optax_simulates {OS OS' : Type} {e : ι ≃ ι'} {mA : A → A'} {m : OS → OS'} {c : Optax.Cfg ι OS}
    {c' : Optax.Cfg ι' OS'} (hr : c'.rtol = c.rtol) (ha : c'.atol = c.atol) (hY : SameNorm e c.normY c'.normY)
    (hF : c'.normF = c.normF) (hm : c'.fmax = c.fmax) (hg : ∀ y, c'.grad (vec e y) = vec e (c.grad y))
    (hi : ∀ y, c'.optim.init (vec e y) = m (c.optim.init y))
    (hu : ∀ g s y v (w : (ι → ℝ) → ℝ), c'.optim.update (vec e g) (m s) (vec e y) v (fun z => w (vec e.symm z)) =
      (vec e (c.optim.update g s y v w).1, m (c.optim.update g s y v w).2))
    {f : (ι → ℝ) → ℝ × A} {f' : (ι' → ℝ) → ℝ × A'} (hf : ∀ y, f' (vec e y) = ((f y).1, mA (f y).2)) :
    Driver.Simulates (Optax.solver c) f (Optax.solver c') f' (vec e) mA (optaxState m) where
  init y := by
    simp only [Optax.solver, Optax.init, hi, hm]
    rfl
  step y st := by
    have hw : (fun z => (f' z).1) = fun z => (f (vec e.symm z)).1 := by
      funext z
      conv_lhs => rw [← vec_symm' e z]
      rw [hf]
    have hw' := hu (c.grad y) st.optState y (f y).1 fun z => (f z).1
    simp only [Optax.solver, Optax.step, hf, hg, optaxState, hw, hw', hr, ha, hF]
    have ht := cauchyTermination_vec (k := Equiv.refl Unit) (nF' := c.normF) hY (fun v => rfl) c.rtol c.atol y
      (c.optim.update (c.grad y) st.optState y (f y).1 fun z => (f z).1).1 (fun _ => (f y).1) fun _ => (f y).1 - st.f
    have ht' : cauchyTermination c.rtol c.atol c'.normY c.normF (vec e y)
      (vec e (c.optim.update (c.grad y) st.optState y (f y).1 fun z => (f z).1).1) (fun _ => (f y).1)
      (fun _ => (f y).1 - st.f) = _ := ht
    rw [ht']
    rfl
  terminate y st := rfl
  postY _ _ _ _ := rfl
  postA _ _ _ _ := rfl

end Verif.Relabel
