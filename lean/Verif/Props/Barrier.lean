import Verif.Props.RoundingSearch
import Verif.Props.FiniteAnswers
import Mathlib.Analysis.Calculus.Deriv.Slope
import Mathlib.Analysis.SpecificLimits.Basic

/-!
C90: objectives that are infinite or undefined outside of some region (barriers, logarithms, square roots, failed simulations).
-/

namespace Verif.Props

open Verif Verif.Spec Verif.Driver

variable {F : Format} {ι κ A Out I E DS HS : Type}

theorem defined_of_sub {a b c : Fl F} (h : a - b ≤ c) (hc : c.val ≠ .pinf) (hb : Defined b) : Defined a := by
  rw [Fl.le_def, Fl.sub_val] at h
  obtain ⟨b1, b2⟩ := hb
  constructor <;> intro ha <;> rw [ha] at h
  · have e : (XR.nan - b.val : XR) = XR.nan := by cases b.val <;> rfl
    rw [e] at h
    exact XR.not_nan_le _ h
  · have e : (XR.pinf - b.val : XR) = XR.pinf := by
      revert b1 b2
      cases b.val <;> intro b1 b2 <;> first | rfl | exact absurd rfl b1 | exact absurd rfl b2
    rw [e] at h
    revert h hc
    show XR.pinf ≤ c.val → _
    cases c.val <;> intro h hc <;> first | exact h | exact hc rfl

theorem nonpos_not_pinf {c : Fl F} (h : c ≤ 0) : c.val ≠ .pinf := by
  rw [Fl.le_def] at h
  intro hc
  rw [hc] at h
  exact XR.not_pinf_le_fin _ h

/-- What a step of a search-based solver does with the point and the stored information. -/
theorem sb_accepts {SS K : Type} [Add K] [Sub K] [Mul K] [Div K] [One K] [LT K] [DecidableLT K] [HasAbs K]
    (cfg : SearchBased.Cfg ι κ K Out I E SS DS HS) (fn : (ι → K) → Out × A) (y : ι → K) (st : SearchBased.State ι K I A SS DS HS)
    (h : (cfg.search st.firstStep y st.yEval st.fInfo (cfg.makeEval st.yEval (fn st.yEval).1) st.searchState).2.1 = true) :
    (SearchBased.step cfg fn y st).1 = st.yEval ∧
    (SearchBased.step cfg fn y st).2.1.fInfo = (cfg.makeInfo y st.yEval st.fInfo (fn st.yEval).1 st.hess).1 := by
  simp only [SearchBased.step, h, if_true]
  exact ⟨trivial, trivial⟩

theorem sb_rejects {SS K : Type} [Add K] [Sub K] [Mul K] [Div K] [One K] [LT K] [DecidableLT K] [HasAbs K]
    (cfg : SearchBased.Cfg ι κ K Out I E SS DS HS) (fn : (ι → K) → Out × A) (y : ι → K) (st : SearchBased.State ι K I A SS DS HS)
    (h : (cfg.search st.firstStep y st.yEval st.fInfo (cfg.makeEval st.yEval (fn st.yEval).1) st.searchState).2.1 = false) :
    (SearchBased.step cfg fn y st).1 = y ∧
    (SearchBased.step cfg fn y st).2.1.fInfo = st.fInfo ∧
    (SearchBased.step cfg fn y st).2.1.descentState = st.descentState ∧
    (SearchBased.step cfg fn y st).2.1.terminate = false := by
  simp only [SearchBased.step, h, Bool.false_eq_true, if_false]
  exact ⟨trivial, trivial, trivial, trivial⟩

theorem sb_init {SS K : Type} [Add K] [Sub K] [Mul K] [Div K] [One K] [LT K] [DecidableLT K] [HasAbs K]
    {cfg : SearchBased.Cfg ι κ K Out I E SS DS HS} {init0 : (ι → K) → Except Err (SearchBased.State ι K I A SS DS HS)}
    (hinit : ∀ y st, init0 y = .ok st → st.firstStep = true ∧ st.yEval = y)
    {fn : (ι → K) → Out × A} {y0 : ι → K} {st0} (hi : (SearchBased.solver cfg init0).init fn y0 = .ok st0) :
    st0.firstStep = true ∧ st0.yEval = y0 := by
  have hi2 : (init0 y0).map (fun st => { st with terminate := false }) = Except.ok st0 := hi
  cases hx : init0 y0 with
  | error e => rw [hx] at hi2; cases hi2
  | ok s => rw [hx] at hi2; cases hi2; exact hinit _ s hx

/-- Runs: what acceptance, other than at the first step, passes on from the objective at the current point to that at the new one,
holds along the iterates if it holds at the start. -/
theorem search_keeps {SS K : Type} [Add K] [Sub K] [Mul K] [Div K] [One K] [LT K] [DecidableLT K] [HasAbs K] (P : K → Prop)
    (cfg : SearchBased.Cfg ι κ K Out I E SS DS HS) (obj : Out → K)
    (objI : I → K) (objE : E → K) (hE : ∀ y out, objE (cfg.makeEval y out) = obj out)
    (hI : ∀ y yE i out hs, objI (cfg.makeInfo y yE i out hs).1 = obj out)
    (hfirst : ∀ y yE i e ss, (cfg.search true y yE i e ss).2.1 = true)
    (init0 : (ι → K) → Except Err (SearchBased.State ι K I A SS DS HS))
    (hinit : ∀ y st, init0 y = .ok st → st.firstStep = true ∧ st.yEval = y)
    (fn : (ι → K) → Out × A) (aux0 : A) (y0 : ι → K) (st0)
    (hi : (SearchBased.solver cfg init0).init fn y0 = .ok st0)
    (hacc : ∀ k e ss, (cfg.search false (iterateAt (SearchBased.solver cfg init0) fn aux0 y0 st0 (k + 1))
      (stateAt (SearchBased.solver cfg init0) fn aux0 y0 st0 (k + 1)).yEval
      (stateAt (SearchBased.solver cfg init0) fn aux0 y0 st0 (k + 1)).fInfo e ss).2.1 = true →
      P (objI (stateAt (SearchBased.solver cfg init0) fn aux0 y0 st0 (k + 1)).fInfo) → P (objE e))
    (h0 : P (obj (fn y0).1)) (k : Nat) :
    P (obj (fn (iterateAt (SearchBased.solver cfg init0) fn aux0 y0 st0 k)).1) := by
  obtain ⟨hf, hy⟩ := sb_init hinit hi
  have hall : ∀ k, objI (stateAt (SearchBased.solver cfg init0) fn aux0 y0 st0 (k + 1)).fInfo =
        obj (fn (iterateAt (SearchBased.solver cfg init0) fn aux0 y0 st0 (k + 1))).1 ∧
      P (obj (fn (iterateAt (SearchBased.solver cfg init0) fn aux0 y0 st0 (k + 1))).1) := by
    intro k
    induction k with
    | zero =>
      have h1 := sb_accepts cfg fn y0 st0 (by rw [hf]; exact hfirst _ _ _ _ _)
      have e1 : iterateAt (SearchBased.solver cfg init0) fn aux0 y0 st0 (0 + 1) = y0 := h1.1.trans hy
      have e2 : (stateAt (SearchBased.solver cfg init0) fn aux0 y0 st0 (0 + 1)).fInfo = _ := h1.2
      rw [e1, e2, hI, hy]
      exact ⟨rfl, h0⟩
    | succ k ih =>
      have hacc' := hacc k
      have hff : (stateAt (SearchBased.solver cfg init0) fn aux0 y0 st0 (k + 1)).firstStep = false := rfl
      have hit : iterateAt (SearchBased.solver cfg init0) fn aux0 y0 st0 (k + 1 + 1) = (SearchBased.step cfg fn
        (iterateAt (SearchBased.solver cfg init0) fn aux0 y0 st0 (k + 1))
        (stateAt (SearchBased.solver cfg init0) fn aux0 y0 st0 (k + 1))).1 := rfl
      have hst : stateAt (SearchBased.solver cfg init0) fn aux0 y0 st0 (k + 1 + 1) = (SearchBased.step cfg fn
        (iterateAt (SearchBased.solver cfg init0) fn aux0 y0 st0 (k + 1))
        (stateAt (SearchBased.solver cfg init0) fn aux0 y0 st0 (k + 1))).2.1 := rfl
      generalize iterateAt (SearchBased.solver cfg init0) fn aux0 y0 st0 (k + 1) = y at *
      generalize stateAt (SearchBased.solver cfg init0) fn aux0 y0 st0 (k + 1) = st at *
      rw [hit, hst]
      cases hb : (cfg.search st.firstStep y st.yEval st.fInfo (cfg.makeEval st.yEval (fn st.yEval).1) st.searchState).2.1 with
      | true =>
        obtain ⟨e1, e2⟩ := sb_accepts cfg fn y st hb
        rw [e1, e2, hI]
        refine ⟨rfl, ?_⟩
        rw [hff] at hb
        have := hacc' _ _ hb (by rw [ih.1]; exact ih.2)
        rwa [hE] at this
      | false =>
        obtain ⟨e1, e2, _⟩ := sb_rejects cfg fn y st hb
        rw [e1, e2]
        exact ih
  cases k with
  | zero => exact h0
  | succ k => exact (hall k).2

/-- **C90, line search.**  In every floating-point format, whatever the function, the descent direction and the way the prediction is
computed: if the objective at `y0` is a number, then a solver with `BacktrackingArmijo` never moves to a point where the objective,
as computed, is NaN or `+inf`. -/
theorem C90_line_search (a : Armijo.Cfg (Fl F)) (ha : 0 < a.slope) (ha1 : a.slope < 1)
    (cfg : SearchBased.Cfg ι κ (Fl F) Out I E (Fl F) DS HS) (obj : Out → Fl F)
    (objI : I → Fl F) (objE : E → Fl F) (hE : ∀ y out, objE (cfg.makeEval y out) = obj out)
    (hI : ∀ y yE i out hs, objI (cfg.makeInfo y yE i out hs).1 = obj out)
    (pred : (ι → Fl F) → (ι → Fl F) → I → Fl F)
    (hsearch : ∀ first y yE i e ss, cfg.search first y yE i e ss =
      (let d := Armijo.decide' a first (pred y yE i) (objI i) (objE e) ss; (d.1, d.2, .successful, d.1)))
    (init0 : (ι → Fl F) → Except Err (SearchBased.State ι (Fl F) I A (Fl F) DS HS))
    (hinit : ∀ y st, init0 y = .ok st → st.firstStep = true ∧ st.yEval = y)
    (fn : (ι → Fl F) → Out × A) (aux0 : A) (y0 : ι → Fl F) (st0)
    (hi : (SearchBased.solver cfg init0).init fn y0 = .ok st0) (h0 : Defined (obj (fn y0).1)) (k : Nat) :
    Defined (obj (fn (iterateAt (SearchBased.solver cfg init0) fn aux0 y0 st0 k)).1) := by
  refine search_keeps Defined cfg obj objI objE hE hI (fun y yE i e ss => ?_) init0 hinit fn aux0 y0 st0 hi
    (fun k e ss h hd => ?_) h0 k
  · rw [hsearch]; simp [Armijo.decide']
  · rw [hsearch] at h
    simp only [Armijo.decide', Bool.false_or, Bool.and_eq_true, decide_eq_true_eq] at h
    exact defined_of_sub (fl_le_trans h.1 (mul_nonpos_fl ha (slope_finite ha ha1) h.2)) (nonpos_not_pinf
      (by rw [Fl.le_def]; exact le_refl (0 : ℝ))) hd

/-- **C90, answers.**  In particular the objective at the returned point, whether the solve succeeds or not, is not NaN or `+inf`. -/
theorem C90_answer (a : Armijo.Cfg (Fl F)) (ha : 0 < a.slope) (ha1 : a.slope < 1)
    (cfg : SearchBased.Cfg ι κ (Fl F) Out I E (Fl F) DS HS) (obj : Out → Fl F)
    (objI : I → Fl F) (objE : E → Fl F) (hE : ∀ y out, objE (cfg.makeEval y out) = obj out)
    (hI : ∀ y yE i out hs, objI (cfg.makeInfo y yE i out hs).1 = obj out)
    (pred : (ι → Fl F) → (ι → Fl F) → I → Fl F)
    (hsearch : ∀ first y yE i e ss, cfg.search first y yE i e ss =
      (let d := Armijo.decide' a first (pred y yE i) (objI i) (objE e) ss; (d.1, d.2, .successful, d.1)))
    (init0 : (ι → Fl F) → Except Err (SearchBased.State ι (Fl F) I A (Fl F) DS HS))
    (hinit : ∀ y st, init0 y = .ok st → st.firstStep = true ∧ st.yEval = y)
    (fn : (ι → Fl F) → Out × A) (aux0 : A) (y0 : ι → Fl F) (ms : Option Nat) (throw : Bool) (af) (sol)
    (h : iterativeSolve (SearchBased.solver cfg init0) af fn aux0 y0 ms throw = some (.ok sol))
    (h0 : Defined (obj (fn y0).1)) : Defined (obj (fn sol.value).1) := by
  obtain ⟨_, _, st0, hi, _, hp⟩ := C01_step_budget _ _ _ _ _ _ _ _ h
  have hv : sol.value = iterateAt (SearchBased.solver cfg init0) fn aux0 y0 st0 sol.numSteps := congrArg Prod.fst hp
  rw [hv]
  exact C90_line_search a ha ha1 cfg obj objI objE hE hI pred hsearch init0 hinit fn aux0 y0 st0 hi h0 _

/-- **C90, trust regions.**  The same for the trust-region searches, as long as the predicted change, as computed, does not overflow
to `+inf`. -/
theorem C90_trust_region (a : TrustRegion.Cfg (Fl F))
    (cfg : SearchBased.Cfg ι κ (Fl F) Out I E (Fl F) DS HS) (obj : Out → Fl F)
    (objI : I → Fl F) (objE : E → Fl F) (hE : ∀ y out, objE (cfg.makeEval y out) = obj out)
    (hI : ∀ y yE i out hs, objI (cfg.makeInfo y yE i out hs).1 = obj out)
    (pred : (ι → Fl F) → (ι → Fl F) → I → Fl F)
    (hsearch : ∀ first y yE i e ss, cfg.search first y yE i e ss =
      (let d := TrustRegion.decide' a first (pred y yE i) (objI i) (objE e) ss; (d.1, d.2, .successful, d.1)))
    (init0 : (ι → Fl F) → Except Err (SearchBased.State ι (Fl F) I A (Fl F) DS HS))
    (hinit : ∀ y st, init0 y = .ok st → st.firstStep = true ∧ st.yEval = y)
    (fn : (ι → Fl F) → Out × A) (aux0 : A) (y0 : ι → Fl F) (st0)
    (hi : (SearchBased.solver cfg init0).init fn y0 = .ok st0) (h0 : Defined (obj (fn y0).1))
    (hpred : ∀ k, (a.lowCutoff * pred (iterateAt (SearchBased.solver cfg init0) fn aux0 y0 st0 (k + 1))
      (stateAt (SearchBased.solver cfg init0) fn aux0 y0 st0 (k + 1)).yEval
      (stateAt (SearchBased.solver cfg init0) fn aux0 y0 st0 (k + 1)).fInfo).val ≠ .pinf) (k : Nat) :
    Defined (obj (fn (iterateAt (SearchBased.solver cfg init0) fn aux0 y0 st0 k)).1) := by
  refine search_keeps Defined cfg obj objI objE hE hI (fun y yE i e ss => ?_) init0 hinit fn aux0 y0 st0 hi
    (fun k e ss h hd => ?_) h0 k
  · rw [hsearch]; simp [TrustRegion.decide']
  · rw [hsearch] at h
    simp only [TrustRegion.decide', Bool.or_false, decide_eq_true_eq] at h
    exact defined_of_sub h (hpred k) hd

/-- The condition is needed: a step to a point with the value `+inf` is accepted if the prediction is `+inf`. -/
theorem C90_trust_region_overflow (a : TrustRegion.Cfg (Fl F)) (hs : a.lowCutoff = 1) (fMin stepSize : Fl F)
    (hf : fMin.isFinite = true) :
    (TrustRegion.decide' a false ⟨.pinf, fun _ h => nomatch h⟩ fMin ⟨.pinf, fun _ h => nomatch h⟩ stepSize).2 = true := by
  simp only [TrustRegion.decide', Bool.or_false, decide_eq_true_eq]
  rw [hs, Fl.le_def, Fl.sub_val, Fl.mul_val, Fl.val_of_finite hf]
  show F.roundXR (XR.pinf - XR.fin _) ≤ F.roundXR (XR.fin 1 * XR.pinf)
  rw [XR.fin_mul_pinf 1 one_pos]
  exact trivial

/-- **C90, undefined starts.**  If the objective at `y0` is NaN, then a solver with `BacktrackingArmijo` or a trust region, or any
other search that accepts only if the difference of the objectives compares below something, stays at `y0` forever, and never
claims success.  (Gauss–Newton methods make the stopping test at the first step too; it fails if the norm propagates NaN.) -/
theorem C90_undefined_start (cfg : SearchBased.Cfg ι κ (Fl F) Out I E (Fl F) DS HS) (obj : Out → Fl F)
    (objI : I → Fl F) (objE : E → Fl F)
    (hI : ∀ y yE i out hs, objI (cfg.makeInfo y yE i out hs).1 = obj out)
    (hfirst : ∀ y yE i e ss, (cfg.search true y yE i e ss).2.1 = true)
    (hsearch : ∀ y yE i e ss, (cfg.search false y yE i e ss).2.1 = true → ∃ c, objE e - objI i ≤ c)
    (init0 : (ι → Fl F) → Except Err (SearchBased.State ι (Fl F) I A (Fl F) DS HS))
    (hinit : ∀ y st, init0 y = .ok st → st.firstStep = true ∧ st.yEval = y)
    (fn : (ι → Fl F) → Out × A) (aux0 : A) (y0 : ι → Fl F) (st0)
    (hi : (SearchBased.solver cfg init0).init fn y0 = .ok st0)
    (hskip : cfg.skipFirst = true ∨ cauchyTermination cfg.rtol cfg.atol cfg.normY cfg.normF y0 (fun i => y0 i - y0 i)
      (cfg.flat (fn y0).1) (fun j => cfg.flat (fn y0).1 j - cfg.stored st0.fInfo j) = false)
    (h0 : (obj (fn y0).1).val = .nan) :
    (∀ k, iterateAt (SearchBased.solver cfg init0) fn aux0 y0 st0 k = y0) ∧
    ∀ af ms throw sol, iterativeSolve (SearchBased.solver cfg init0) af fn aux0 y0 ms throw = some (.ok sol) →
      sol.value = y0 ∧ sol.result ≠ .successful := by
  obtain ⟨hf, hy⟩ := sb_init hinit hi
  have hall : ∀ k, iterateAt (SearchBased.solver cfg init0) fn aux0 y0 st0 (k + 1) = y0 ∧
      (objI (stateAt (SearchBased.solver cfg init0) fn aux0 y0 st0 (k + 1)).fInfo).val = .nan ∧
      (stateAt (SearchBased.solver cfg init0) fn aux0 y0 st0 (k + 1)).terminate = false := by
    intro k
    induction k with
    | zero =>
      have hacc : (cfg.search st0.firstStep y0 st0.yEval st0.fInfo (cfg.makeEval st0.yEval (fn st0.yEval).1)
          st0.searchState).2.1 = true := by rw [hf]; exact hfirst _ _ _ _ _
      have h1 := sb_accepts cfg fn y0 st0 hacc
      have e1 : iterateAt (SearchBased.solver cfg init0) fn aux0 y0 st0 (0 + 1) = y0 := h1.1.trans hy
      have e2 : (stateAt (SearchBased.solver cfg init0) fn aux0 y0 st0 (0 + 1)).fInfo = _ := h1.2
      refine ⟨e1, by rw [e2, hI, hy]; exact h0, ?_⟩
      show (SearchBased.step cfg fn y0 st0).2.1.terminate = false
      simp only [SearchBased.step, hacc, if_true]
      rw [hf, Bool.and_true, hy]
      rcases hskip with h | h
      · rw [if_pos h]
      · split
        · rfl
        · exact h
    | succ k ih =>
      have hff : (stateAt (SearchBased.solver cfg init0) fn aux0 y0 st0 (k + 1)).firstStep = false := rfl
      have hit : iterateAt (SearchBased.solver cfg init0) fn aux0 y0 st0 (k + 1 + 1) = (SearchBased.step cfg fn
        (iterateAt (SearchBased.solver cfg init0) fn aux0 y0 st0 (k + 1))
        (stateAt (SearchBased.solver cfg init0) fn aux0 y0 st0 (k + 1))).1 := rfl
      have hst : stateAt (SearchBased.solver cfg init0) fn aux0 y0 st0 (k + 1 + 1) = (SearchBased.step cfg fn
        (iterateAt (SearchBased.solver cfg init0) fn aux0 y0 st0 (k + 1))
        (stateAt (SearchBased.solver cfg init0) fn aux0 y0 st0 (k + 1))).2.1 := rfl
      generalize iterateAt (SearchBased.solver cfg init0) fn aux0 y0 st0 (k + 1) = y at *
      generalize stateAt (SearchBased.solver cfg init0) fn aux0 y0 st0 (k + 1) = st at *
      rw [hit, hst]
      cases hb : (cfg.search st.firstStep y st.yEval st.fInfo (cfg.makeEval st.yEval (fn st.yEval).1) st.searchState).2.1 with
      | true =>
        exfalso
        rw [hff] at hb
        obtain ⟨c, hc⟩ := hsearch _ _ _ _ _ hb
        rw [Fl.le_def, Fl.sub_val, ih.2.1] at hc
        have e : ((objE (cfg.makeEval st.yEval (fn st.yEval).1)).val - XR.nan : XR) = XR.nan := by
          cases (objE (cfg.makeEval st.yEval (fn st.yEval).1)).val <;> rfl
        rw [e] at hc
        exact XR.not_nan_le _ hc
      | false =>
        obtain ⟨e1, e2, _, e4⟩ := sb_rejects cfg fn y st hb
        rw [e1, e2, e4]
        exact ⟨ih.1, ih.2.1, rfl⟩
  have hit : ∀ k, iterateAt (SearchBased.solver cfg init0) fn aux0 y0 st0 k = y0 := by
    intro k
    cases k with
    | zero => rfl
    | succ k => exact (hall k).1
  refine ⟨hit, fun af ms throw sol h => ?_⟩
  obtain ⟨_, _, st', hi', hst, hp⟩ := C01_step_budget _ _ _ _ _ _ _ _ h
  have e : st' = st0 := by rw [hi] at hi'; cases hi'; rfl
  subst e
  refine ⟨(congrArg Prod.fst hp).trans (hit _), fun hs => ?_⟩
  obtain ⟨st'', hi'', ht, _⟩ := C02_success_is_certificate _ _ _ _ _ _ _ _ h hs
  rw [hst] at ht
  have ht' : (stateAt (SearchBased.solver cfg init0) fn aux0 y0 st' sol.numSteps).terminate = true := congrArg Prod.fst ht
  cases hk : sol.numSteps with
  | zero =>
    rw [hk] at ht'
    have hi2 : (init0 y0).map (fun st => { st with terminate := false }) = Except.ok st' := hi
    cases hx : init0 y0 with
    | error e => rw [hx] at hi2; cases hi2
    | ok s =>
      rw [hx] at hi2
      cases hi2
      cases ht'
  | succ k =>
    rw [hk, (hall k).2.2] at ht'
    cases ht'

/-! ### Coming back -/

/-- **C90, backtracking out of the forbidden region.**  In exact arithmetic with NaN and infinities: let the descent be along the line
`Y + t * p` and the prediction `t * m` with `m < 0`.  If, for small `t`, the objective on this line is a number `φ t`, and `m` is the
derivative of `φ` at `0`, then backtracking accepts after finitely many rejections, whatever the objective does for larger `t`: it may
be NaN or infinite there.  The accepted point has a smaller objective, by at least the fraction `slope` of the prediction. -/
theorem C90_recovers (a : Armijo.Cfg XR) (s d i : ℝ) (has : a.slope = .fin s) (had : a.decreaseFactor = .fin d)
    (hai : a.stepInit = .fin i) (hs1 : s < 1) (hd0 : 0 < d) (hd1 : d < 1) (hi0 : 0 < i)
    (cfg : SearchBased.Cfg ι κ XR Out I E XR DS HS) (obj : Out → XR)
    (objI : I → XR) (objE : E → XR) (hE : ∀ y out, objE (cfg.makeEval y out) = obj out)
    (pred : (ι → XR) → (ι → XR) → I → XR)
    (hsearch : ∀ first y yE i e ss, cfg.search first y yE i e ss =
      (let d := Armijo.decide' a first (pred y yE i) (objI i) (objE e) ss; (d.1, d.2, .successful, d.1)))
    (init0 : (ι → XR) → Except Err (SearchBased.State ι XR I A XR DS HS))
    (fn : (ι → XR) → Out × A) (aux0 : A) (y0 : ι → XR) (st0 : SearchBased.State ι XR I A XR DS HS) (k : Nat)
    (Y p : ι → ℝ) (m τ : ℝ) (φ : ℝ → ℝ) :
    let it := iterateAt (SearchBased.solver cfg init0) fn aux0 y0 st0
    let state := stateAt (SearchBased.solver cfg init0) fn aux0 y0 st0
    it (k + 1) = (fun c => .fin (Y c)) → (state (k + 1)).searchState = a.stepInit →
    objI (state (k + 1)).fInfo = .fin (φ 0) →
    (∀ t, (cfg.descend (.fin t) (state (k + 1)).descentState).1 = fun c => .fin (t * p c)) →
    (∀ t, pred (fun c => .fin (Y c)) (fun c => .fin (Y c + t * p c)) (state (k + 1)).fInfo = .fin (t * m)) → m < 0 →
    0 < τ → (∀ t, 0 < t → t < τ → obj (fn fun c => .fin (Y c + t * p c)).1 = .fin (φ t)) → HasDerivAt φ m 0 →
    ∃ j : Nat, (∀ n, n ≤ j → it (k + 1 + n) = it (k + 1)) ∧
      it (k + 1 + j + 1) = (fun c => .fin (Y c + i * d ^ j * p c)) ∧
      obj (fn (it (k + 1 + j + 1))).1 - .fin (φ 0) ≤ .fin (s * (i * d ^ j * m)) := by
  intro it state hy hss hcur hdesc hpred hm hτ hφ hder
  have hit : ∀ n, it (n + 1) = (SearchBased.step cfg fn (it n) (state n)).1 := fun n => rfl
  have hst : ∀ n, state (n + 1) = (SearchBased.step cfg fn (it n) (state n)).2.1 := fun n => rfl
  have hfirst : ∀ n, (state (n + 1)).firstStep = false := fun n => rfl
  have htrial : ∀ n, (state (n + 1)).yEval = fun c => it (n + 1) c +
      (cfg.descend (state (n + 1)).searchState (state (n + 1)).descentState).1 c := by
    intro n
    have e : (cfg.search (state n).firstStep (it n) (state n).yEval (state n).fInfo
        (cfg.makeEval (state n).yEval (fn (state n).yEval).1) (state n).searchState).1 =
      (cfg.search (state n).firstStep (it n) (state n).yEval (state n).fInfo
        (cfg.makeEval (state n).yEval (fn (state n).yEval).1) (state n).searchState).2.2.2 := by rw [hsearch]
    rw [hst, hit]
    unfold SearchBased.step
    dsimp only
    rw [e]
  generalize hI0 : (state (k + 1)).fInfo = i0 at *
  generalize hD0 : (state (k + 1)).descentState = ds at *
  -- the test at the `n`-th trial point
  let acc : Nat → Prop := fun n => obj (fn fun c => .fin (Y c + i * d ^ n * p c)).1 - .fin (φ 0) ≤ .fin (s * (i * d ^ n * m))
  have htest : ∀ n, it (k + 1 + n) = (fun c => .fin (Y c)) → (state (k + 1 + n)).fInfo = i0 →
      (state (k + 1 + n)).yEval = (fun c => .fin (Y c + i * d ^ n * p c)) → (state (k + 1 + n)).searchState = .fin (i * d ^ n) →
      ((cfg.search (state (k + 1 + n)).firstStep (it (k + 1 + n)) (state (k + 1 + n)).yEval (state (k + 1 + n)).fInfo
        (cfg.makeEval (state (k + 1 + n)).yEval (fn (state (k + 1 + n)).yEval).1) (state (k + 1 + n)).searchState).2.1 = true ↔ acc n) ∧
      (¬ acc n → (state (k + 1 + n + 1)).searchState = .fin (i * d ^ (n + 1))) := by
    intro n h1 h2 h3 h4
    have hf : (state (k + 1 + n)).firstStep = false := by
      rw [show k + 1 + n = (k + n) + 1 by omega]; exact hfirst _
    have hneg : XR.fin (i * d ^ n * m) ≤ (0 : XR) := by
      show XR.fin (i * d ^ n * m) ≤ XR.fin 0
      rw [XR.le_fin]
      exact (mul_neg_of_pos_of_neg (by positivity) hm).le
    have key : (Armijo.decide' a false (XR.fin (i * d ^ n * m)) (.fin (φ 0))
        (obj (fn fun c => .fin (Y c + i * d ^ n * p c)).1) (.fin (i * d ^ n))).2 = true ↔ acc n := by
      simp only [Armijo.decide', Bool.false_or, Bool.and_eq_true, decide_eq_true_eq]
      rw [has, XR.mul_fin]
      exact ⟨fun h => h.1, fun h => ⟨h, hneg⟩⟩
    have e : cfg.search (state (k + 1 + n)).firstStep (it (k + 1 + n)) (state (k + 1 + n)).yEval (state (k + 1 + n)).fInfo
        (cfg.makeEval (state (k + 1 + n)).yEval (fn (state (k + 1 + n)).yEval).1) (state (k + 1 + n)).searchState =
        (let d := Armijo.decide' a false (XR.fin (i * d ^ n * m)) (.fin (φ 0))
          (obj (fn fun c => .fin (Y c + i * d ^ n * p c)).1) (.fin (i * d ^ n)); (d.1, d.2, .successful, d.1)) := by
      rw [hsearch, hf, h1, h2, h3, h4, hE, hpred, hcur]
    refine ⟨by rw [e]; exact key, fun hn => ?_⟩
    have e2 : (state (k + 1 + n + 1)).searchState = (cfg.search (state (k + 1 + n)).firstStep (it (k + 1 + n))
        (state (k + 1 + n)).yEval (state (k + 1 + n)).fInfo
        (cfg.makeEval (state (k + 1 + n)).yEval (fn (state (k + 1 + n)).yEval).1) (state (k + 1 + n)).searchState).2.2.2 := rfl
    rw [e2, e]
    show (Armijo.decide' a false (XR.fin (i * d ^ n * m)) (.fin (φ 0))
          (obj (fn fun c => .fin (Y c + i * d ^ n * p c)).1) (.fin (i * d ^ n))).1 = _
    have hno := fun h => hn (key.1 h)
    simp only [Armijo.decide'] at hno ⊢
    rw [if_neg hno, had, XR.mul_fin]
    congr 1; ring
  -- some trial point passes
  have hex : ∃ n, acc n := by
    have hlim0 : Filter.Tendsto (fun j : Nat => i * d ^ j) Filter.atTop (nhds 0) := by
      simpa using (tendsto_pow_atTop_nhds_zero_of_lt_one hd0.le hd1).const_mul i
    have hlim : Filter.Tendsto (fun j : Nat => i * d ^ j) Filter.atTop (nhdsWithin 0 {0}ᶜ) := by
      rw [tendsto_nhdsWithin_iff]
      exact ⟨hlim0, Filter.Eventually.of_forall fun j => by
        simp only [Set.mem_compl_iff, Set.mem_singleton_iff]; positivity⟩
    have hslope := (hasDerivAt_iff_tendsto_slope.1 hder).comp hlim
    have hms : m < s * m := by nlinarith
    obtain ⟨j, hj, hjτ⟩ := ((hslope.eventually (gt_mem_nhds hms)).and (hlim0.eventually (gt_mem_nhds hτ))).exists
    have htj : 0 < i * d ^ j := by positivity
    refine ⟨j, ?_⟩
    show obj (fn fun c => .fin (Y c + i * d ^ j * p c)).1 - .fin (φ 0) ≤ .fin (s * (i * d ^ j * m))
    rw [hφ _ htj hjτ, XR.sub_fin, XR.le_fin]
    simp only [Function.comp, slope_def_field, sub_zero] at hj
    rw [div_lt_iff₀ htj] at hj
    linarith
  classical
  have hrun : ∀ n, n ≤ Nat.find hex → it (k + 1 + n) = (fun c => .fin (Y c)) ∧ (state (k + 1 + n)).fInfo = i0 ∧
      (state (k + 1 + n)).descentState = ds ∧ (state (k + 1 + n)).searchState = .fin (i * d ^ n) := by
    intro n
    induction n with
    | zero => intro _; exact ⟨hy, hI0, hD0, by rw [add_zero, hss, hai, pow_zero, mul_one]⟩
    | succ n ih =>
      intro hn
      obtain ⟨h1, h2, h3, h4⟩ := ih (by omega)
      have hyE : (state (k + 1 + n)).yEval = fun c => .fin (Y c + i * d ^ n * p c) := by
        have := htrial (k + n)
        rw [show k + n + 1 = k + 1 + n by omega] at this
        rw [this, h1, h3, h4, hdesc]
        funext c
        rw [XR.add_fin]
      obtain ⟨t1, t2⟩ := htest n h1 h2 hyE h4
      have hno : ¬ acc n := Nat.find_min hex (by omega)
      obtain ⟨r1, r2, r3, _⟩ := sb_rejects cfg fn (it (k + 1 + n)) (state (k + 1 + n))
        (Bool.eq_false_iff.2 fun h => hno (t1.1 h))
      exact ⟨r1.trans h1, r2.trans h2, r3.trans h3, t2 hno⟩
  refine ⟨Nat.find hex, fun n hn => (hrun n hn).1.trans hy.symm, ?_⟩
  obtain ⟨h1, h2, h3, h4⟩ := hrun _ le_rfl
  have hyE : (state (k + 1 + Nat.find hex)).yEval = fun c => .fin (Y c + i * d ^ Nat.find hex * p c) := by
    have := htrial (k + Nat.find hex)
    rw [show k + Nat.find hex + 1 = k + 1 + Nat.find hex by omega] at this
    rw [this, h1, h3, h4, hdesc]
    funext c
    rw [XR.add_fin]
  obtain ⟨t1, _⟩ := htest _ h1 h2 hyE h4
  have hspec := Nat.find_spec hex
  obtain ⟨r1, _⟩ := sb_accepts cfg fn (it (k + 1 + Nat.find hex)) (state (k + 1 + Nat.find hex)) (t1.2 hspec)
  have r1' : it (k + 1 + Nat.find hex + 1) = _ := r1
  rw [r1', hyE]
  exact ⟨rfl, hspec⟩

/-! ### The hypotheses can be met -/

/-- In `float64`, gradient descent with backtracking on `x` for `x > 0`, NaN otherwise: from `1` no iterate ever has the value NaN. -/
example (a : Armijo.Cfg (Fl .float64)) (ha : 0 < a.slope) (ha1 : a.slope < 1) (rtol atol : Fl .float64) (k : Nat) :
    let cfg := flDescent a (fun _ => 1) rtol atol
    let f := fun x : Fl .float64 => if 0 < x then x else ⟨.nan, fun _ h => nomatch h⟩
    let it := iterateAt (SearchBased.solver cfg (flDescentInit a)) (fun y => (f (y ()), ())) () (fun _ => 1)
      { firstStep := true, yEval := fun _ => 1, searchState := a.stepInit, fInfo := (0, 0), aux := (), descentState := 0,
        terminate := false, result := .successful, hess := () }
    Defined (f (it k ())) :=
  C90_line_search a ha ha1 (flDescent a (fun _ => 1) rtol atol) id
    Prod.fst id (fun _ _ => rfl) (fun _ _ _ _ _ => rfl) (fun y yE i => (yE () - y ()) * i.2) (fun _ _ _ _ _ _ => rfl)
    (flDescentInit a) (fun y st h => by cases h; exact ⟨rfl, rfl⟩) (fun y => (if 0 < y () then y () else _, ())) () (fun _ => 1) _ rfl
    (by
      have h : (0 : Fl .float64) < 1 := by rw [Fl.lt_def]; exact (one_pos : (0 : ℝ) < 1)
      show Defined (if (0 : Fl .float64) < 1 then 1 else _)
      rw [if_pos h]
      exact ⟨fun h => (nomatch h), fun h => (nomatch h)⟩) k

/-- Gradient descent on one number, in exact arithmetic with NaN and infinities, with any search. -/
noncomputable def xrDescent (search : Bool → (Unit → XR) → (Unit → XR) → XR × XR → XR → XR → XR × Bool × Result × XR) :
    SearchBased.Cfg Unit Unit XR XR (XR × XR) XR XR XR Unit where
  rtol := 0
  atol := 1
  normY x := HasAbs.abs (x ())
  normF x := HasAbs.abs (x ())
  flat f _ := f
  stored i _ := i.1
  makeEval _ f := f
  makeInfo _ _ _ f _ := ((f, 1), ())
  search := search
  query _ i _ := i.2
  descend t g := (fun _ => -(t * g), .successful)
  skipFirst := true

/-- The start of such a run, at `1`. -/
def xrStart (s : XR) : SearchBased.State Unit XR (XR × XR) Unit XR XR Unit :=
  { firstStep := true, yEval := fun _ => 1, searchState := s, fInfo := (0, 0), aux := (), descentState := 0,
    terminate := false, result := .successful, hess := () }

open Classical in
/-- The function `x` for `x > 0`, NaN otherwise; its derivative is `1`. -/
noncomputable def halfLine (y : Unit → XR) : XR × Unit := (if (0 : XR) < y () then y () else .nan, ())

/-- **C90, without a search.**  With a fixed learning rate there is no such guarantee: gradient descent on `x`, defined for `x > 0`,
from `1` with the learning rate `2`, moves to `-1`, where the objective is NaN. -/
theorem C90_fixed_rate_leaves : ∃ k,
    (halfLine (iterateAt (SearchBased.solver (xrDescent fun _ _ _ _ _ _ => (.fin 2, true, .successful, 0)) fun _ => .ok (xrStart 0))
      halfLine () (fun _ => 1) (xrStart 0) 0)).1 = 1 ∧
    (halfLine (iterateAt (SearchBased.solver (xrDescent fun _ _ _ _ _ _ => (.fin 2, true, .successful, 0)) fun _ => .ok (xrStart 0))
      halfLine () (fun _ => 1) (xrStart 0) k)).1 = .nan := by
  refine ⟨2, ?_, ?_⟩
  · show (if (0 : XR) < 1 then 1 else XR.nan) = 1
    exact if_pos (show (0 : ℝ) < 1 by norm_num)
  · have e : iterateAt (SearchBased.solver (xrDescent fun _ _ _ _ _ _ => (.fin 2, true, .successful, 0)) fun _ => .ok (xrStart 0))
      halfLine () (fun _ => 1) (xrStart 0) 2 = fun _ => 1 + -(XR.fin 2 * 1) := rfl
    rw [e]
    show (if (0 : XR) < 1 + -(XR.fin 2 * 1) then 1 + -(XR.fin 2 * 1) else XR.nan) = XR.nan
    refine if_neg ?_
    show ¬ (0 : ℝ) < 1 + -(2 * 1)
    norm_num

/-- With backtracking the same run comes back: from the trial point `-1` to `1 / 2`, say. -/
example : ∃ j : Nat,
    let a : Armijo.Cfg XR := { decreaseFactor := .fin (1 / 2), slope := .fin (1 / 10), stepInit := .fin 2 }
    let it := iterateAt (SearchBased.solver (xrDescent fun first y yE i e ss =>
      (let d := Armijo.decide' a first ((yE () - y ()) * i.2) i.1 e ss; (d.1, d.2, .successful, d.1))) fun _ => .ok (xrStart (.fin 2)))
      halfLine () (fun _ => 1) (xrStart (.fin 2))
    it (1 + j + 1) = fun _ => .fin (1 + 2 * (1 / 2) ^ j * -1) := by
  have h := C90_recovers { decreaseFactor := .fin (1 / 2), slope := .fin (1 / 10), stepInit := .fin 2 } (1 / 10) (1 / 2) 2 rfl rfl rfl
    (by norm_num) (by norm_num) (by norm_num) (by norm_num)
    (xrDescent fun first y yE i e ss =>
      (let d := Armijo.decide' { decreaseFactor := .fin (1 / 2), slope := .fin (1 / 10), stepInit := .fin 2 } first
        ((yE () - y ()) * i.2) i.1 e ss; (d.1, d.2, .successful, d.1))) id Prod.fst id (fun _ _ => rfl)
    (fun y yE i => (yE () - y ()) * i.2) (fun _ _ _ _ _ _ => rfl) (fun _ => .ok (xrStart (.fin 2))) halfLine () (fun _ => 1)
    (xrStart (.fin 2)) 0 (fun _ => 1) (fun _ => -1) (-1) 1 (fun t => 1 - t) rfl ?_ ?_ ?_ ?_ (by norm_num) (by norm_num) ?_ ?_
  · obtain ⟨j, _, h2, _⟩ := h
    exact ⟨j, h2⟩
  · simp [stateAt, trace, SearchBased.solver, SearchBased.step, xrDescent, xrStart, Armijo.decide']
  · have e : (stateAt (SearchBased.solver (xrDescent fun first y yE i e ss =>
      (let d := Armijo.decide' { decreaseFactor := .fin (1 / 2), slope := .fin (1 / 10), stepInit := .fin 2 } first
        ((yE () - y ()) * i.2) i.1 e ss; (d.1, d.2, .successful, d.1))) fun _ => .ok (xrStart (.fin 2)))
      halfLine () (fun _ => 1) (xrStart (.fin 2)) 1).fInfo = ((halfLine fun _ => 1).1, 1) := rfl
    rw [e]
    show (if (0 : XR) < 1 then 1 else XR.nan) = .fin (1 - 0)
    rw [sub_zero]
    exact if_pos (show (0 : ℝ) < 1 by norm_num)
  · intro t
    funext c
    show -(XR.fin t * XR.fin 1) = XR.fin (t * -1)
    rw [XR.mul_fin]
    show XR.fin (-(t * 1)) = _
    congr 1; ring
  · intro t
    show (XR.fin (1 + t * -1) - XR.fin 1) * XR.fin 1 = XR.fin (t * -1)
    rw [XR.sub_fin, XR.mul_fin]
    congr 1; ring
  · intro t _ ht
    show (if (0 : XR) < XR.fin (1 + t * -1) then XR.fin (1 + t * -1) else XR.nan) = .fin (1 - t)
    exact (if_pos (show (0 : ℝ) < 1 + t * -1 by linarith)).trans (by congr 1; ring)
  · simpa using (hasDerivAt_id (0 : ℝ)).const_sub 1

end Verif.Props
