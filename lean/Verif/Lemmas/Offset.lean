import Verif.Spec.Offset
import Verif.Lemmas.SimulateRel
import Verif.Model.LBFGS
import Verif.Model.Dogleg
import Verif.Model.GradientMethods
import Verif.Model.Golden
import Verif.Model.NelderMead

/-! Searches, descents and Hessian approximations that only look at differences of values of the objective. -/

namespace Verif.Offset

open Verif Verif.Driver

variable {ι A SS DS HS : Type}

/-- Add a constant to the value in a piece of function information. -/
noncomputable def shift (a : ℝ) : FnInfo ι Unit → FnInfo ι Unit
  | .eval f => .eval (f + a)
  | .evalGrad f g => .evalGrad (f + a) g
  | .evalGradHessian f g h => .evalGradHessian (f + a) g h
  | .evalGradHessianInv f g h => .evalGradHessianInv (f + a) g h
  | .residual r => .residual r
  | .residualJac r j => .residualJac r j

/-- The minimisers of the library keep values, not residuals. -/
def HasValue : FnInfo ι Unit → Prop
  | .residual _ => False
  | .residualJac .. => False
  | _ => True

/-- A search that only looks at differences of values, and always accepts the first step. -/
structure Relative (S : Search ι Unit SS) : Prop where
  first : ∀ a y z i j s, S.step true y z i (shift a j) s = S.step true y z i j s ∧ (S.step true y z i j s).2.1 = true
  step : ∀ a y z i j s, HasValue i → HasValue j → S.step false y z (shift a i) (shift a j) s = S.step false y z i j s

/-- A descent that does not look at values.  `R` says that two of its states differ by the constant `a`. -/
structure Blind (D : Descent ι Unit DS) (a : ℝ) (R : DS → DS → Prop) : Prop where
  init : ∀ y i, R (D.init y i) (D.init y i)
  query : ∀ y i s s', R s s' → R (D.query y i s) (D.query y (shift a i) s')
  step : ∀ c s s', R s s' → D.step c s' = D.step c s

variable [Fintype ι]

theorem shift_asMin (a : ℝ) {i : FnInfo ι Unit} (h : HasValue i) : (shift a i).asMin = i.asMin + a := by
  cases i <;> first | rfl | exact h.elim

theorem shift_gradDot (a : ℝ) (i : FnInfo ι Unit) (v : ι → ℝ) : (shift a i).gradDot? v = i.gradDot? v := by cases i <;> rfl

theorem shift_grad (a : ℝ) (i : FnInfo ι Unit) : (shift a i).grad? = i.grad? := by cases i <;> rfl

theorem shift_predict (a : ℝ) (i : FnInfo ι Unit) (v : ι → ℝ) :
    TrustRegion.classicalPredict v (shift a i) = TrustRegion.classicalPredict v i := by cases i <;> rfl

omit [Fintype ι] in
theorem learningRate_relative (rate : ℝ) : Relative (ι := ι) (learningRate rate) where
  first _ _ _ _ _ _ := ⟨rfl, rfl⟩
  step _ _ _ _ _ _ _ _ := rfl

theorem armijo_relative (c : Armijo.Cfg ℝ) : Relative (ι := ι) (Armijo.search c) where
  first a y z i j s := by simp [Armijo.search, Armijo.decide']
  step a y z i j s hi hj := by
    simp only [Armijo.search, Armijo.decide', shift_gradDot, shift_asMin a hi, shift_asMin a hj, add_sub_add_right_eq_sub]

theorem classical_relative (c : TrustRegion.Cfg ℝ) : Relative (ι := ι) (TrustRegion.classical c) where
  first a y z i j s := by simp [TrustRegion.classical, TrustRegion.search, TrustRegion.decide']
  step a y z i j s hi hj := by
    simp only [TrustRegion.classical, TrustRegion.search, TrustRegion.decide', shift_predict, shift_asMin a hi, shift_asMin a hj,
      add_sub_add_right_eq_sub]

theorem linear_relative (c : TrustRegion.Cfg ℝ) : Relative (ι := ι) (TrustRegion.linear c) where
  first a y z i j s := by simp [TrustRegion.linear, TrustRegion.search, TrustRegion.decide']
  step a y z i j s hi hj := by
    simp only [TrustRegion.linear, TrustRegion.search, TrustRegion.decide', TrustRegion.linearPredict, shift_gradDot,
      shift_asMin a hi, shift_asMin a hj, add_sub_add_right_eq_sub]
    rfl

theorem steepest_blind (norm : Option ((ι → ℝ) → ℝ)) (a : ℝ) : Blind (steepestDescent norm) a Eq where
  init _ _ := rfl
  query y i s s' h := by subst h; cases i <;> rfl
  step c s s' h := by rw [h]

theorem cg_blind (b : (ι → ℝ) → (ι → ℝ) → (ι → ℝ) → ℝ) (a : ℝ) : Blind (NonlinearCG.descent b) a Eq where
  init _ _ := rfl
  query y i s s' h := by subst h; cases i <;> rfl
  step c s s' h := by rw [h]

theorem newton_blind (ls : LinSolve ι Unit) (norm : Option ((ι → ℝ) → ℝ)) (a : ℝ) : Blind (newtonDescent ls norm) a Eq where
  init _ _ := rfl
  query y i s s' h := by subst h; cases i <;> rfl
  step c s s' h := by rw [h]

theorem dogleg_blind (eps : ℝ) (ls : LinSolve ι Unit) (shape : Dogleg.Shape ι) (a : ℝ) :
    Blind (Dogleg.descent eps ls shape) a Eq where
  init _ _ := rfl
  query y i s s' h := by subst h; cases i <;> rfl
  step c s s' h := by rw [h]

omit [Fintype ι] in
theorem damped_blind [DecidableEq ι] (eps fmax : ℝ) (ls : LinSolve ι (Unit ⊕ ι)) (a : ℝ) :
    Blind (dampedNewtonDescent eps fmax ls) a (fun s s' => s' = s ∨ s' = shift a s) where
  init _ _ := .inl rfl
  query y i s s' h := .inr rfl
  step c s s' h := by
    rcases h with h | h
    · rw [h]
    · subst h; cases s <;> rfl

theorem indirect_blind [DecidableEq ι] (eps fmax : ℝ) (ls : LinSolve ι Unit) (lsD : LinSolve ι (Unit ⊕ ι))
    (norm : (ι → ℝ) → ℝ) (find : (ℝ → ℝ) → ℝ × Result) (a : ℝ) :
    Blind (indirectDescent eps fmax ls lsD norm find) a
      (fun s s' => s'.newton = s.newton ∧ s'.newtonNorm = s.newtonNorm ∧ s'.result = s.result ∧
        (s'.fInfo = s.fInfo ∨ s'.fInfo = shift a s.fInfo)) where
  init _ _ := ⟨rfl, rfl, rfl, .inl rfl⟩
  query y i s s' h := by cases i <;> exact ⟨rfl, rfl, rfl, .inr rfl⟩
  step c s s' h := by
    obtain ⟨h1, h2, h3, h4⟩ := h
    have e : ∀ l, dampedNewtonStep eps fmax lsD l s'.fInfo = dampedNewtonStep eps fmax lsD l s.fInfo := by
      intro l
      rcases h4 with h | h
      · rw [h]
      · rw [h]; cases s.fInfo <;> rfl
    simp only [indirectDescent, e, h1, h2, h3]

/-- A Hessian approximation that does not look at values. -/
structure HessianBlind (H : QuasiNewton.HessianUpdate ι HS) : Prop where
  init : ∀ y, HasValue (H.initHessian y 0 fun _ => 0).1
  value : ∀ y z i f g s, HasValue (H.updateHessian y z i f g s).1 ∧ GradientDescent.fOf (H.updateHessian y z i f g s).1 = f
  update : ∀ a y z i f g s, H.updateHessian y z (shift a i) (f + a) g s =
    (shift a (H.updateHessian y z i f g s).1, (H.updateHessian y z i f g s).2)
  first : ∀ a y z i f g s, H.updateHessian y z i (f + a) g s =
    (shift a (H.updateHessian y z i f g s).1, (H.updateHessian y z i f g s).2)

theorem guarded_blind [DecidableEq ι] (eps : ℝ) (useInverse : Bool)
    (inv direct : Matrix ι ι ℝ → (ι → ℝ) → (ι → ℝ) → ℝ → Matrix ι ι ℝ) :
    HessianBlind { initHessian := QuasiNewton.initIdentity useInverse, updateHessian := QuasiNewton.guarded eps inv direct } where
  init y := by cases useInverse <;> trivial
  value y z i f g s := by cases i <;> exact ⟨trivial, rfl⟩
  update a y z i f g s := by cases i <;> rfl
  first a y z i f g s := by cases i <;> rfl

theorem bfgs_blind [DecidableEq ι] (eps : ℝ) (b : Bool) : HessianBlind (QuasiNewton.bfgs (ι := ι) eps b) := guarded_blind _ _ _ _

theorem dfp_blind [DecidableEq ι] (eps : ℝ) (b : Bool) : HessianBlind (QuasiNewton.dfp (ι := ι) eps b) := guarded_blind _ _ _ _

theorem lbfgs_inverse_blind [DecidableEq ι] (eps : ℝ) (h : ℕ) [NeZero h] : HessianBlind (LBFGS.inverse (ι := ι) eps h) where
  init y := trivial
  value y z i f g s := by
    cases i <;> first | exact ⟨trivial, rfl⟩ | skip
    simp only [LBFGS.inverse]
    split_ifs <;> exact ⟨trivial, rfl⟩
  update a y z i f g s := by
    cases i <;> first | rfl | skip
    rename_i f0 g0 h0
    by_cases hp : eps < treeDot (fun i => z i - y i) fun i => g i - g0 i <;>
      simp only [LBFGS.inverse, shift, QuasiNewton.gradOf, hp, if_true, if_false]
  first a y z i f g s := by
    cases i <;> first | rfl | skip
    rename_i f0 g0 h0
    by_cases hp : eps < treeDot (fun i => z i - y i) fun i => g i - g0 i <;>
      simp only [LBFGS.inverse, shift, QuasiNewton.gradOf, hp, if_true, if_false]

theorem lbfgs_direct_blind [DecidableEq ι] (eps : ℝ) (h : ℕ) [NeZero h] (la : LBFGS.DenseLA h) :
    HessianBlind (LBFGS.direct (ι := ι) eps h la) where
  init y := trivial
  value y z i f g s := by
    cases i <;> first | exact ⟨trivial, rfl⟩ | skip
    simp only [LBFGS.direct]
    split_ifs <;> exact ⟨trivial, rfl⟩
  update a y z i f g s := by
    cases i <;> first | rfl | skip
    rename_i f0 g0 h0
    by_cases hp : eps < treeDot (fun i => z i - y i) fun i => g i - g0 i <;>
      simp only [LBFGS.direct, shift, QuasiNewton.gradOf, hp, if_true, if_false]
  first a y z i f g s := by
    cases i <;> first | rfl | skip
    rename_i f0 g0 h0
    by_cases hp : eps < treeDot (fun i => z i - y i) fun i => g i - g0 i <;>
      simp only [LBFGS.direct, shift, QuasiNewton.gradOf, hp, if_true, if_false]

theorem shift_fOf (a : ℝ) {i : FnInfo ι Unit} (h : HasValue i) : GradientDescent.fOf (shift a i) = GradientDescent.fOf i + a := by
  cases i <;> first | rfl | exact h.elim

/-- Related states of the gradient methods. -/
structure GDRel (a : ℝ) (R : DS → DS → Prop) (s s' : GradientDescent.State ι A SS DS) : Prop where
  firstStep : s'.firstStep = s.firstStep
  yEval : s'.yEval = s.yEval
  searchState : s'.searchState = s.searchState
  aux : s'.aux = s.aux
  info : (s.firstStep = true ∧ s'.fInfo = s.fInfo) ∨ (s.firstStep = false ∧ HasValue s.fInfo ∧ s'.fInfo = shift a s.fInfo)
  descentState : R s.descentState s'.descentState
  terminate : s'.terminate = s.terminate
  result : s'.result = s.result

theorem gd_follows {c : GradientDescent.Cfg ι SS DS} (a : ℝ) (hs : Relative c.search) {R : DS → DS → Prop}
    (hd : Blind c.descent a R) (hv : SameVerdict a c.rtol c.atol c.normF) (f : (ι → ℝ) → ℝ × A) (aux0 : A) :
    Follows (GradientDescent.solver c aux0) f (GradientDescent.solver c aux0) (offset a f) id (GDRel a R) where
  init y := by
    simp only [GradientDescent.solver, GradientDescent.init, id]
    split
    · exact .inl ⟨_, rfl, rfl⟩
    · exact .inr ⟨_, _, rfl, rfl, rfl, rfl, rfl, rfl, .inl ⟨rfl, rfl⟩, hd.init _ _, rfl, rfl⟩
  step y st st' h := by
    have hsearch : c.search.step st'.firstStep y st'.yEval st'.fInfo (.eval (offset a f st'.yEval).1) st'.searchState =
        c.search.step st.firstStep y st.yEval st.fInfo (.eval (f st.yEval).1) st.searchState := by
      rw [h.firstStep, h.yEval, h.searchState]
      rcases h.info with ⟨h1, h2⟩ | ⟨h1, h2, h3⟩
      · rw [h1, h2]; exact (hs.first a y st.yEval st.fInfo (.eval (f st.yEval).1) _).1
      · rw [h1, h3]; exact hs.step a y st.yEval st.fInfo (.eval (f st.yEval).1) _ h2 trivial
    have hacc : st.firstStep = true →
        (c.search.step st.firstStep y st.yEval st.fInfo (.eval (f st.yEval).1) st.searchState).2.1 = true := by
      intro e; rw [e]; exact (hs.first a y st.yEval st.fInfo (.eval (f st.yEval).1) _).2
    simp only [GradientDescent.solver, GradientDescent.step, id, hsearch]
    generalize c.search.step st.firstStep y st.yEval st.fInfo (.eval (f st.yEval).1) st.searchState = s at hacc ⊢
    obtain ⟨b, acc, res, ss⟩ := s
    simp only at hacc
    have hq := hd.query st.yEval (.evalGrad (f st.yEval).1 (c.grad st.yEval)) _ _ h.descentState
    cases acc with
    | true =>
      have hst := hd.step b _ _ hq
      simp only [shift] at hst hq
      simp only [if_true, h.yEval, offset, hst]
      refine ⟨trivial, ⟨rfl, rfl, rfl, rfl, .inr ⟨rfl, trivial, rfl⟩, hq, ?_, rfl⟩, ?_⟩
      · simp only [h.firstStep]
        rcases h.info with ⟨h1, h2⟩ | ⟨h1, h2, h3⟩
        · rw [h1]; rfl
        · simp only [h1, h3, shift_fOf a h2, add_sub_add_right_eq_sub, cauchyTermination, hv _ _]
      · simp only [h.firstStep, h.aux]
    | false =>
      have hf : st.firstStep = false := by
        by_contra e; exact absurd (hacc (by simpa using e)) (by simp)
      have hst := hd.step b _ _ h.descentState
      simp only [Bool.false_eq_true, if_false, hst]
      refine ⟨trivial, ⟨rfl, rfl, rfl, h.aux, ?_, h.descentState, rfl, rfl⟩, ?_⟩
      · rcases h.info with ⟨h1, h2⟩ | ⟨h1, h2, h3⟩
        · rw [hf] at h1; simp at h1
        · exact .inr ⟨rfl, h2, h3⟩
      · simp only [h.firstStep, h.aux]
  terminate y st st' h := by simp only [GradientDescent.solver, h.terminate, h.result]
  postY _ _ _ _ _ _ := rfl
  postA _ _ _ _ _ _ := rfl

/-- Related states of the quasi-Newton methods. -/
structure QNRel (a : ℝ) (R : DS → DS → Prop) (s s' : QuasiNewton.State ι A SS DS HS) : Prop where
  firstStep : s'.firstStep = s.firstStep
  yEval : s'.yEval = s.yEval
  searchState : s'.searchState = s.searchState
  aux : s'.aux = s.aux
  hessian : s'.hessianUpdateState = s.hessianUpdateState
  info : (s.firstStep = true ∧ s'.fInfo = s.fInfo) ∨ (s.firstStep = false ∧ HasValue s.fInfo ∧ s'.fInfo = shift a s.fInfo)
  descentState : R s.descentState s'.descentState
  terminate : s'.terminate = s.terminate
  result : s'.result = s.result

theorem qn_follows {c : QuasiNewton.Cfg ι SS DS HS} (a : ℝ) (hs : Relative c.search) {R : DS → DS → Prop}
    (hd : Blind c.descent a R) (hh : HessianBlind c.hess) (hv : SameVerdict a c.rtol c.atol c.normF)
    (f : (ι → ℝ) → ℝ × A) (aux0 : A) :
    Follows (QuasiNewton.solver c aux0) f (QuasiNewton.solver c aux0) (offset a f) id (QNRel a R) where
  init y := by
    simp only [QuasiNewton.solver, QuasiNewton.init, id]
    split
    · exact .inl ⟨_, rfl, rfl⟩
    · exact .inr ⟨_, _, rfl, rfl, rfl, rfl, rfl, rfl, rfl, .inl ⟨rfl, rfl⟩, hd.init _ _, rfl, rfl⟩
  step y st st' h := by
    have hsearch : c.search.step st'.firstStep y st'.yEval st'.fInfo (.eval (offset a f st'.yEval).1) st'.searchState =
        c.search.step st.firstStep y st.yEval st.fInfo (.eval (f st.yEval).1) st.searchState := by
      rw [h.firstStep, h.yEval, h.searchState]
      rcases h.info with ⟨h1, h2⟩ | ⟨h1, h2, h3⟩
      · rw [h1, h2]; exact (hs.first a y st.yEval st.fInfo (.eval (f st.yEval).1) _).1
      · rw [h1, h3]; exact hs.step a y st.yEval st.fInfo (.eval (f st.yEval).1) _ h2 trivial
    have hacc : st.firstStep = true →
        (c.search.step st.firstStep y st.yEval st.fInfo (.eval (f st.yEval).1) st.searchState).2.1 = true := by
      intro e; rw [e]; exact (hs.first a y st.yEval st.fInfo (.eval (f st.yEval).1) _).2
    simp only [QuasiNewton.solver, QuasiNewton.step, id, hsearch]
    generalize c.search.step st.firstStep y st.yEval st.fInfo (.eval (f st.yEval).1) st.searchState = s at hacc ⊢
    obtain ⟨b, acc, res, ss⟩ := s
    simp only at hacc
    cases acc with
    | true =>
      have hu : c.hess.updateHessian y st.yEval st'.fInfo ((f st.yEval).1 + a) (c.grad st.yEval) st'.hessianUpdateState =
          (shift a (c.hess.updateHessian y st.yEval st.fInfo (f st.yEval).1 (c.grad st.yEval) st.hessianUpdateState).1,
            (c.hess.updateHessian y st.yEval st.fInfo (f st.yEval).1 (c.grad st.yEval) st.hessianUpdateState).2) := by
        rw [h.hessian]
        rcases h.info with ⟨h1, h2⟩ | ⟨h1, h2, h3⟩
        · rw [h2]; exact hh.first _ _ _ _ _ _ _
        · rw [h3]; exact hh.update _ _ _ _ _ _ _
      have hval := hh.value y st.yEval st.fInfo (f st.yEval).1 (c.grad st.yEval) st.hessianUpdateState
      have hq := hd.query st.yEval
        (c.hess.updateHessian y st.yEval st.fInfo (f st.yEval).1 (c.grad st.yEval) st.hessianUpdateState).1 _ _ h.descentState
      have hst := hd.step b _ _ hq
      simp only [if_true, h.yEval, offset, hu, hst]
      refine ⟨trivial, ⟨rfl, rfl, rfl, rfl, rfl, .inr ⟨rfl, hval.1, rfl⟩, hq, ?_, rfl⟩, ?_⟩
      · simp only [h.firstStep]
        rcases h.info with ⟨h1, h2⟩ | ⟨h1, h2, h3⟩
        · rw [h1]; rfl
        · simp only [h1, h3, shift_fOf a h2, add_sub_add_right_eq_sub, cauchyTermination, hv _ _]
      · simp only [h.firstStep, h.aux]
    | false =>
      have hf : st.firstStep = false := by
        by_contra e; exact absurd (hacc (by simpa using e)) (by simp)
      have hst := hd.step b _ _ h.descentState
      simp only [Bool.false_eq_true, if_false, hst]
      refine ⟨trivial, ⟨rfl, rfl, rfl, h.aux, h.hessian, ?_, h.descentState, rfl, rfl⟩, ?_⟩
      · rcases h.info with ⟨h1, h2⟩ | ⟨h1, h2, h3⟩
        · rw [hf] at h1; simp at h1
        · exact .inr ⟨rfl, h2, h3⟩
      · simp only [h.firstStep, h.aux]
  terminate y st st' h := by simp only [QuasiNewton.solver, h.terminate, h.result]
  postY _ _ _ _ _ _ := rfl
  postA _ _ _ _ _ _ := rfl

/-! ### Methods that only compare values -/

section
variable {φ : ℝ → ℝ}

/-- Related states of `GoldenSearch`. -/
def goldenState (φ : ℝ → ℝ) (s : Golden.State) : Golden.State := { s with fMiddle := φ s.fMiddle }

theorem golden_follows (c : Golden.Cfg) (hr : 0 ≤ c.rtol) (ha : 0 ≤ c.atol) (hφ : StrictMono φ) (hk : KeepsTest φ c.rtol c.atol) (f : ℝ → ℝ × A) :
    Follows (Golden.solver c) f (Golden.solver c) (rescaled φ f) id (fun s s' => s' = goldenState φ s) where
  init y := by
    simp only [Golden.solver, Golden.init, id]
    split_ifs
    · exact .inl ⟨_, rfl, rfl⟩
    · split
      · exact .inr ⟨_, _, rfl, rfl, rfl⟩
      · exact .inl ⟨_, rfl, rfl⟩
  step y st st' h := by
    subst h
    have ht : ∀ z : ℝ, cauchyTermination (ι := Unit) (κ := Unit) c.rtol c.atol (fun v => |v ()|) (fun v => |v ()|)
        (fun _ => st.middle) (fun _ => st.middle - z) (fun _ => φ st.fMiddle) (fun _ => φ st.fMiddle - φ (f z).1) =
        cauchyTermination (ι := Unit) (κ := Unit) c.rtol c.atol (fun v => |v ()|) (fun v => |v ()|)
        (fun _ => st.middle) (fun _ => st.middle - z) (fun _ => st.fMiddle) (fun _ => st.fMiddle - (f z).1) := by
      intro z
      have hk' := hk st.fMiddle (f z).1
      have e : ∀ w x : ℝ, (fun v : Unit → ℝ => |v ()|) (scaledDiff c.rtol c.atol (fun _ => x) fun _ => w) =
          |w| / (c.atol + c.rtol * |x|) := fun w x =>
        abs_of_nonneg (div_nonneg (abs_nonneg _) (add_nonneg ha (mul_nonneg hr (abs_nonneg _))))
      unfold cauchyTermination
      congr 1
      refine Bool.decide_congr ?_
      rw [e, e]
      exact hk'
    simp only [Golden.solver, Golden.step, id, goldenState, rescaled, ht, hφ.lt_iff_lt]
    by_cases hm : (f (if st.first then st.lower + (st.upper - st.middle) else y)).1 < st.fMiddle
    · simp only [hm, if_true]; exact ⟨trivial, trivial, trivial⟩
    · simp only [hm, if_false]; exact ⟨trivial, trivial, trivial⟩
  terminate y st st' h := by subst h; rfl
  postY _ _ _ _ _ _ := rfl
  postA _ _ _ _ _ _ := rfl

end

section
variable {φ : ℝ → ℝ} {n : ℕ} [NeZero n]

open NelderMead

theorem map_lt (hφ : StrictMono φ) (v w : Val) : v.map φ < w.map φ ↔ v < w :=
  (WithTop.strictMono_map_iff.mpr hφ).lt_iff_lt

theorem argAux_congr {X : Type} {r s : X → X → Prop} [DecidableRel r] [DecidableRel s] (h : ∀ a b, r a b ↔ s a b) :
    List.argAux r = List.argAux s := by
  funext o a
  cases o with
  | none => rfl
  | some b => by_cases hb : r a b
              · simp only [List.argAux, hb, (h a b).mp hb]
              · simp only [List.argAux, hb, mt (h a b).mpr hb]

theorem argmin_map (hφ : StrictMono φ) {X : Type} (f : X → Val) (l : List X) :
    l.argmin (fun i => (f i).map φ) = l.argmin f := by
  unfold List.argmin
  rw [argAux_congr (s := fun b c => f b < f c) fun a b => map_lt hφ _ _]

theorem argmax_map (hφ : StrictMono φ) {X : Type} (f : X → Val) (l : List X) :
    l.argmax (fun i => (f i).map φ) = l.argmax f := by
  unfold List.argmax
  rw [argAux_congr (s := fun b c => f c < f b) fun a b => map_lt hφ _ _]

theorem topMin_map (hφ : StrictMono φ) (f : Fin n → Val) : topMin (fun i => (f i).map φ) = topMin f := by
  simp only [topMin, argmin_map hφ]

theorem topMax_map (hφ : StrictMono φ) (f : Fin n → Val) : topMax (fun i => (f i).map φ) = topMax f := by
  simp only [topMax, argmax_map hφ]

theorem secondMax_map (hφ : StrictMono φ) (f : Fin n → Val) : secondMax (fun i => (f i).map φ) = (secondMax f).map φ := by
  simp only [secondMax, topMax_map hφ, argmax_map hφ]

/-- The state of the simplex method with the values on the other scale. -/
def nmState (φ : ℝ → ℝ) (s : NelderMead.State n ι A) : NelderMead.State n ι A :=
  { s with fSimplex := fun i => (s.fSimplex i).map φ, fBest := s.fBest.map φ, fWorst := s.fWorst.map φ,
           fSecondWorst := s.fSecondWorst.map φ }

/-- Before the first pass the values are placeholders. -/
def Fresh (s : NelderMead.State n ι A) : Prop := s.firstPass = true ∧ s.fBest = ((0 : ℝ) : Val) ∧ s.fSimplex = fun _ => ⊤

omit [Fintype ι] in
theorem nm_follows (c : NelderMead.Cfg n ι) (hφ : StrictMono φ) (hk : KeepsSimplexTest φ c.rtol c.atol c.normF)
    (f : (ι → ℝ) → Val × A) (aux0 : A) :
    Follows (NelderMead.solver c aux0) f (NelderMead.solver c aux0) (rescaledTop φ f) id
      (fun s s' => (Fresh s ∧ s' = s) ∨ (s.firstPass = false ∧ s' = nmState φ s)) where
  init y := by
    simp only [NelderMead.solver, NelderMead.init, id]
    split_ifs
    · exact .inl ⟨_, rfl, rfl⟩
    · exact .inr ⟨_, _, rfl, rfl, .inl ⟨⟨rfl, rfl, rfl⟩, rfl⟩⟩
  step y st st' h := by
    rcases h with ⟨⟨h1, h2, h3⟩, rfl⟩ | ⟨h1, rfl⟩
    · simp only [NelderMead.solver, NelderMead.step, h1, if_true, initStep, shrinkSimplex, rescaledTop, id, topMin_map hφ,
        topMax_map hφ, secondMax_map hφ]
      exact ⟨trivial, .inr ⟨trivial, rfl⟩, trivial⟩
    · have hm : mainStep (rescaledTop φ f) (nmState φ st) =
          ((mainStep f st).1, (mainStep f st).2.1.map φ, (mainStep f st).2.2.1, (mainStep f st).2.2.2) := by
        simp only [mainStep, nmState, internalEval, rescaledTop, map_lt hφ]
      have h1' : (nmState φ st).firstPass = false := h1
      simp only [NelderMead.solver, NelderMead.step, h1, h1', Bool.false_eq_true, if_false, hm, id]
      generalize mainStep f st = t
      obtain ⟨v, fv, ss, a⟩ := t
      have hlt1 : ((nmState φ st).fWorst < fv.map φ) ↔ (st.fWorst < fv) := map_lt hφ _ _
      have hlt2 : (fv.map φ < (nmState φ st).fBest) ↔ (fv < st.fBest) := map_lt hφ _ _
      simp only [hlt1, hlt2]
      by_cases hs : st.fWorst < fv
      · simp only [hs, decide_true, if_true, shrinkSimplex, Bool.false_eq_true, if_false, rescaledTop, topMin_map hφ,
          topMax_map hφ, secondMax_map hφ]
        exact ⟨rfl, .inr ⟨trivial, rfl⟩, trivial⟩
      · have hu : (fun i => if i = st.worstIndex then fv.map φ else (st.fSimplex i).map φ) =
            fun i => ((fun i => if i = st.worstIndex then fv else st.fSimplex i) i).map φ := by
          funext i; simp only; split_ifs <;> rfl
        have hu' : updateSimplex (nmState φ st).worstIndex v (fv.map φ) (nmState φ st).fSimplex (nmState φ st).simplex =
            (fun i => ((updateSimplex st.worstIndex v fv st.fSimplex st.simplex).1 i).map φ,
              (updateSimplex st.worstIndex v fv st.fSimplex st.simplex).2) := by
          rw [← show _ = (fun i => ((updateSimplex st.worstIndex v fv st.fSimplex st.simplex).1 i).map φ) from hu]; rfl
        simp only [hs, decide_false, Bool.false_eq_true, if_false, hu', topMin_map hφ,
          topMax_map hφ, secondMax_map hφ]
        exact ⟨rfl, .inr ⟨trivial, rfl⟩, trivial⟩
  terminate y st st' h := by
    rcases h with ⟨h1, rfl⟩ | ⟨h1, rfl⟩
    · rfl
    · have hf : (decide (∀ i, (nmState φ st).fSimplex i ≠ ⊤) && decide ((nmState φ st).fBest ≠ ⊤) &&
          decide (c.normF (fun i => |((nmState φ st).fSimplex i).untopD 0 - (nmState φ st).fBest.untopD 0| /
            (c.atol + c.rtol * |(nmState φ st).fBest.untopD 0|)) < 1)) =
          (decide (∀ i, st.fSimplex i ≠ ⊤) && decide (st.fBest ≠ ⊤) &&
          decide (c.normF (fun i => |(st.fSimplex i).untopD 0 - st.fBest.untopD 0| /
            (c.atol + c.rtol * |st.fBest.untopD 0|)) < 1)) := by
        have ht : ∀ v : Val, v.map φ ≠ ⊤ ↔ v ≠ ⊤ := fun v => not_congr WithTop.map_eq_top_iff
        have hu : ∀ v : Val, v ≠ ⊤ → (v.map φ).untopD 0 = φ (v.untopD 0) := by
          intro v hv
          induction v with
          | none => exact absurd rfl hv
          | some a => rfl
        by_cases h1 : ∀ i, st.fSimplex i ≠ ⊤
        · by_cases h2 : st.fBest ≠ ⊤
          · have h1' : ∀ i, (nmState φ st).fSimplex i ≠ ⊤ := fun i => (ht _).mpr (h1 i)
            have h2' : (nmState φ st).fBest ≠ ⊤ := (ht _).mpr h2
            rw [decide_eq_true h1, decide_eq_true h2, decide_eq_true h1', decide_eq_true h2']
            simp only [Bool.true_and]
            refine Bool.decide_congr ?_
            have e1 : ∀ i, ((nmState φ st).fSimplex i).untopD 0 = φ ((st.fSimplex i).untopD 0) := fun i => hu _ (h1 i)
            have e2 : (nmState φ st).fBest.untopD 0 = φ (st.fBest.untopD 0) := hu _ h2
            simp only [e1, e2]
            exact hk _ _
          · have h2' : ¬ (nmState φ st).fBest ≠ ⊤ := mt (ht _).mp h2
            rw [decide_eq_false h2, decide_eq_false h2']
            simp
        · have h1' : ¬ ∀ i, (nmState φ st).fSimplex i ≠ ⊤ := fun h => h1 fun i => (ht _).mp (h i)
          rw [decide_eq_false h1, decide_eq_false h1']
          simp
      have hd : ((nmState φ st).fBest = ⊤) = (st.fBest = ⊤) := propext WithTop.map_eq_top_iff
      simp only [NelderMead.solver, NelderMead.terminate, hf]
      simp only [hd]
      rfl
  postY _ _ _ _ _ _ := rfl
  postA _ _ _ _ _ _ := rfl

end

end Verif.Offset
