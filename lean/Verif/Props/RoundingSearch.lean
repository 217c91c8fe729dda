import Verif.Props.Rounding

/-!
C86: in floating-point arithmetic a backtracking line search never accepts an increase of the computed objective.
-/

namespace Verif.Props

open Verif Verif.Spec Verif.Driver

variable {F : Format} {ι κ A : Type}

/-- With gradual underflow, a computed difference has the right sign. -/
theorem le_of_sub {a b : Fl F} (hG : F.Gradual) (h : a - b ≤ 0) : a ≤ b := by
  rw [Fl.le_def, Fl.sub_val] at h
  rw [Fl.le_def]
  have h' : F.roundXR (a.val - b.val) ≤ XR.fin 0 := h
  cases ha : a.val with
  | fin x =>
    cases hb : b.val with
    | fin y =>
      rw [ha, hb, XR.sub_fin] at h'
      rw [XR.le_fin]
      by_contra hlt
      have h1 := F.le_round F.zero (show (0 : ℝ) ≤ x - y by linarith)
      have h2 : F.round (x - y) ≤ XR.fin 0 := h'
      cases hr : F.round (x - y) with
      | fin v =>
        rw [hr, XR.le_fin] at h1 h2
        have hv : v = 0 := le_antisymm h2 h1
        rw [hv] at hr
        exact hlt (hG (a.rep x ha) (b.rep y hb) hr).le
      | pinf => rw [hr] at h2; exact XR.not_pinf_le_fin _ h2
      | ninf => rw [hr] at h1; exact XR.not_fin_le_ninf _ h1
      | nan => rw [hr] at h2; exact XR.not_nan_le _ h2
    | pinf => exact trivial
    | ninf => rw [ha, hb] at h'; exact absurd h' (XR.not_pinf_le_fin _)
    | nan => rw [ha, hb] at h'; exact absurd h' (XR.not_nan_le _)
  | pinf =>
    cases hb : b.val with
    | pinf => exact trivial
    | fin y => rw [ha, hb] at h'; exact absurd h' (XR.not_pinf_le_fin _)
    | ninf => rw [ha, hb] at h'; exact absurd h' (XR.not_pinf_le_fin _)
    | nan => rw [ha, hb] at h'; exact absurd h' (XR.not_nan_le _)
  | ninf =>
    cases hb : b.val with
    | nan => rw [ha, hb] at h'; exact absurd h' (XR.not_nan_le _)
    | _ => exact trivial
  | nan => rw [ha] at h'; exact absurd h' (by cases b.val <;> exact XR.not_nan_le _)

/-- Without gradual underflow, up to the threshold of underflow. -/
theorem le_of_sub' {u η : ℝ} (hF : F.Accurate u η) (hu : u < 1) {a b : Fl F} (h : a - b ≤ 0) : AtMost (η / (1 - u)) a b := by
  by_cases hab : a.isFinite = true ∧ b.isFinite = true
  swap
  · left
    rw [Fl.le_def, Fl.sub_val] at h
    rw [Fl.le_def]
    have h' : F.roundXR (a.val - b.val) ≤ XR.fin 0 := h
    unfold Fl.isFinite at hab
    revert h' hab
    cases a.val <;> cases b.val <;> intro hab h' <;>
      first
        | exact trivial
        | exact absurd ⟨rfl, rfl⟩ hab
        | exact absurd h' (XR.not_pinf_le_fin _)
        | exact absurd h' (XR.not_nan_le _)
  · right
    refine ⟨hab.1, hab.2, ?_⟩
    rw [Fl.le_def, Fl.sub_val, Fl.val_of_finite hab.1, Fl.val_of_finite hab.2, XR.sub_fin] at h
    have h' : F.round (a.real - b.real) ≤ XR.fin 0 := h
    have ht : 0 ≤ η / (1 - u) := div_nonneg hF.η_nonneg (by linarith)
    by_contra hlt
    have hpos : 0 < a.real - b.real := by linarith
    have h1 := F.le_round F.zero hpos.le
    cases hr : F.round (a.real - b.real) with
    | fin v =>
      rw [hr, XR.le_fin] at h1 h'
      have e := hF.error hr
      rw [le_antisymm h' h1, zero_sub, abs_neg, abs_of_pos hpos] at e
      have h3 : (a.real - b.real) ≤ η / (1 - u) := by
        rw [le_div_iff₀ (by linarith)]; linarith
      linarith
    | pinf => rw [hr] at h'; exact XR.not_pinf_le_fin _ h'
    | ninf => rw [hr] at h1; exact XR.not_fin_le_ninf _ h1
    | nan => rw [hr] at h'; exact XR.not_nan_le _ h'

/-- A positive number times a number that is not positive is, as computed, not positive. -/
theorem mul_nonpos_fl {s p : Fl F} (hs : 0 < s) (hsf : s.isFinite = true) (hp : p ≤ 0) : s * p ≤ 0 := by
  rw [Fl.lt_def, Fl.val_of_finite hsf] at hs
  have hs' : (0 : ℝ) < s.real := hs
  rw [Fl.le_def, Fl.mul_val, Fl.val_of_finite hsf]
  rw [Fl.le_def] at hp
  have hp' : p.val ≤ XR.fin 0 := hp
  show F.roundXR (XR.fin s.real * p.val) ≤ XR.fin 0
  cases hv : p.val with
  | fin x =>
    rw [hv, XR.le_fin] at hp'
    rw [XR.mul_fin]
    exact F.round_le F.zero (mul_nonpos_of_nonneg_of_nonpos hs'.le hp')
  | pinf => rw [hv] at hp'; exact absurd hp' (XR.not_pinf_le_fin _)
  | ninf =>
    have e : XR.fin s.real * XR.ninf = XR.ninf := by
      show XR.infTimes (-s.real) = XR.ninf
      unfold XR.infTimes
      split_ifs <;> first | (exfalso; linarith) | rfl
    rw [e]; exact trivial
  | nan => rw [hv] at hp'; exact absurd hp' (XR.not_nan_le _)

theorem fl_le_trans {a b c : Fl F} (h1 : a ≤ b) (h2 : b ≤ c) : a ≤ c := by
  rw [Fl.le_def] at *
  revert h1 h2
  cases a.val <;> cases b.val <;> cases c.val <;> intro h1 h2 <;>
    first | exact trivial | exact h1.elim | exact h2.elim | (rw [XR.le_fin] at *; linarith)

theorem slope_finite {s : Fl F} (ha : 0 < s) (ha1 : s < 1) : s.isFinite = true := by
  rw [Fl.lt_def] at ha ha1
  unfold Fl.isFinite
  cases hv : s.val with
  | fin r => rfl
  | pinf => rw [hv] at ha1; exact absurd ha1 (XR.not_pinf_lt _)
  | ninf => rw [hv] at ha; exact absurd ha (XR.not_lt_ninf _)
  | nan => rw [hv] at ha; exact absurd ha (XR.not_lt_nan _)

/-- What acceptance by `BacktrackingArmijo` means for the computed values. -/
theorem armijo_accepts (hG : F.Gradual) (cfg : Armijo.Cfg (Fl F)) (hs : 0 < cfg.slope) (hs1 : cfg.slope.isFinite = true)
    (pred fMin fEval stepSize : Fl F) (h : (Armijo.decide' cfg false pred fMin fEval stepSize).2 = true) :
    fEval ≤ fMin := by
  simp only [Armijo.decide', Bool.false_or, Bool.and_eq_true, decide_eq_true_eq] at h
  exact le_of_sub hG (fl_le_trans h.1 (mul_nonpos_fl hs hs1 h.2))

/-- What acceptance by a trust region means for the computed values. -/
theorem trust_accepts (hG : F.Gradual) (cfg : TrustRegion.Cfg (Fl F)) (hs : 0 < cfg.lowCutoff)
    (hs1 : cfg.lowCutoff.isFinite = true) (pred fMin fEval stepSize : Fl F) (hp : pred ≤ 0)
    (h : (TrustRegion.decide' cfg false pred fMin fEval stepSize).2 = true) : fEval ≤ fMin := by
  simp only [TrustRegion.decide', Bool.or_false, decide_eq_true_eq] at h
  exact le_of_sub hG (fl_le_trans h (mul_nonpos_fl hs hs1 hp))

variable {Out I E SS DS HS : Type}

/-- Runs: what acceptance, other than at the first step, means for the objective, as computed, holds along the iterates. -/
theorem search_never_increases (R : Fl F → Fl F → Prop) (cfg : SearchBased.Cfg ι κ (Fl F) Out I E SS DS HS) (obj : Out → Fl F)
    (objI : I → Fl F) (objE : E → Fl F) (hE : ∀ y out, objE (cfg.makeEval y out) = obj out)
    (hI : ∀ y yE i out hs, objI (cfg.makeInfo y yE i out hs).1 = obj out)
    (hfirst : ∀ y yE i e ss, (cfg.search true y yE i e ss).2.1 = true)
    (init0 : (ι → Fl F) → Except Err (SearchBased.State ι (Fl F) I A SS DS HS))
    (hinit : ∀ y st, init0 y = .ok st → st.firstStep = true)
    (fn : (ι → Fl F) → Out × A) (aux0 : A) (y0 : ι → Fl F) (st0)
    (hi : (SearchBased.solver cfg init0).init fn y0 = .ok st0) (k : Nat)
    (hacc : ∀ e ss, (cfg.search false (iterateAt (SearchBased.solver cfg init0) fn aux0 y0 st0 (k + 1))
      (stateAt (SearchBased.solver cfg init0) fn aux0 y0 st0 (k + 1)).yEval
      (stateAt (SearchBased.solver cfg init0) fn aux0 y0 st0 (k + 1)).fInfo e ss).2.1 = true →
      R (objE e) (objI (stateAt (SearchBased.solver cfg init0) fn aux0 y0 st0 (k + 1)).fInfo)) :
    let it := iterateAt (SearchBased.solver cfg init0) fn aux0 y0 st0
    it (k + 2) = it (k + 1) ∨ R (obj (fn (it (k + 2))).1) (obj (fn (it (k + 1))).1) := by
  intro it
  have hfs : st0.firstStep = true := by
    have hi2 : (init0 y0).map (fun st => { st with terminate := false }) = Except.ok st0 := hi
    cases hx : init0 y0 with
    | error e => rw [hx] at hi2; cases hi2
    | ok s => rw [hx] at hi2; cases hi2; exact hinit _ s hx
  let sta := stateAt (SearchBased.solver cfg init0) fn aux0 y0 st0
  have hit : ∀ k, it (k + 1) = (SearchBased.step cfg fn (it k) (sta k)).1 := fun k => rfl
  have hsta : ∀ k, sta (k + 1) = (SearchBased.step cfg fn (it k) (sta k)).2.1 := fun k => rfl
  have hfalse : ∀ k, (sta (k + 1)).firstStep = false := fun k => rfl
  have step1 : ∀ k, (cfg.search (sta k).firstStep (it k) (sta k).yEval (sta k).fInfo
        (cfg.makeEval (sta k).yEval (fn (sta k).yEval).1) (sta k).searchState).2.1 = true →
        it (k + 1) = (sta k).yEval ∧ objI (sta (k + 1)).fInfo = obj (fn (it (k + 1))).1 := by
    intro k hacc
    rw [hsta, hit]
    simp only [SearchBased.step, hacc, if_true]
    exact ⟨trivial, hI _ _ _ _ _⟩
  have step2 : ∀ k, ¬ (cfg.search (sta k).firstStep (it k) (sta k).yEval (sta k).fInfo
        (cfg.makeEval (sta k).yEval (fn (sta k).yEval).1) (sta k).searchState).2.1 = true →
        it (k + 1) = it k ∧ (sta (k + 1)).fInfo = (sta k).fInfo := by
    intro k hacc
    rw [hsta, hit]
    simp only [SearchBased.step, hacc, Bool.false_eq_true, if_false]
    exact ⟨trivial, trivial⟩
  have hinv : ∀ k, objI (sta (k + 1)).fInfo = obj (fn (it (k + 1))).1 := by
    intro k
    induction k with
    | zero =>
      refine (step1 0 ?_).2
      have : (sta 0).firstStep = true := hfs
      rw [this]; exact hfirst _ _ _ _ _
    | succ k ih =>
      by_cases h : (cfg.search (sta (k + 1)).firstStep (it (k + 1)) (sta (k + 1)).yEval (sta (k + 1)).fInfo
        (cfg.makeEval (sta (k + 1)).yEval (fn (sta (k + 1)).yEval).1) (sta (k + 1)).searchState).2.1 = true
      · exact (step1 _ h).2
      · rw [(step2 _ h).2, (step2 _ h).1]; exact ih
  by_cases h : (cfg.search (sta (k + 1)).firstStep (it (k + 1)) (sta (k + 1)).yEval (sta (k + 1)).fInfo
        (cfg.makeEval (sta (k + 1)).yEval (fn (sta (k + 1)).yEval).1) (sta (k + 1)).searchState).2.1 = true
  · right
    have h1 := (step1 _ h).1
    rw [hfalse] at h
    have h2 := hacc _ _ h
    rw [hE] at h2
    rw [h1]
    have h3 := hinv k
    rw [← h3]
    exact h2
  · exact Or.inl (step2 _ h).1

/-- **C86, line search.**  In every floating-point format with gradual underflow, whatever the function, the descent direction and
the way the prediction is computed: a solver with `BacktrackingArmijo` never moves, after its first point, to a point where the
objective, as computed, is larger (or NaN).  (`slope` is as the constructor demands, in `(0, 1)`.) -/
theorem C86_armijo_never_increases (hG : F.Gradual) (a : Armijo.Cfg (Fl F)) (ha : 0 < a.slope) (ha1 : a.slope < 1)
    (cfg : SearchBased.Cfg ι κ (Fl F) Out I E (Fl F) DS HS) (obj : Out → Fl F)
    (objI : I → Fl F) (objE : E → Fl F) (hE : ∀ y out, objE (cfg.makeEval y out) = obj out)
    (hI : ∀ y yE i out hs, objI (cfg.makeInfo y yE i out hs).1 = obj out)
    (pred : (ι → Fl F) → (ι → Fl F) → I → Fl F)
    (hsearch : ∀ first y yE i e ss, cfg.search first y yE i e ss =
      (let d := Armijo.decide' a first (pred y yE i) (objI i) (objE e) ss; (d.1, d.2, .successful, d.1)))
    (init0 : (ι → Fl F) → Except Err (SearchBased.State ι (Fl F) I A (Fl F) DS HS))
    (hinit : ∀ y st, init0 y = .ok st → st.firstStep = true)
    (fn : (ι → Fl F) → Out × A) (aux0 : A) (y0 : ι → Fl F) (st0)
    (hi : (SearchBased.solver cfg init0).init fn y0 = .ok st0) (k : Nat) :
    let it := iterateAt (SearchBased.solver cfg init0) fn aux0 y0 st0
    it (k + 2) = it (k + 1) ∨ obj (fn (it (k + 2))).1 ≤ obj (fn (it (k + 1))).1 := by
  refine search_never_increases (· ≤ ·) cfg obj objI objE hE hI (fun y yE i e ss => ?_) init0 hinit fn
    aux0 y0 st0 hi k (fun e ss h => ?_)
  · rw [hsearch]; simp [Armijo.decide']
  · rw [hsearch] at h
    exact armijo_accepts hG a ha (slope_finite ha ha1) _ _ _ ss h

/-- **C86, line search without gradual underflow.**  The same in formats that flush small numbers to zero, up to the size of the numbers
that are flushed. -/
theorem C86_armijo_flushing {u η : ℝ} (hF : F.Accurate u η) (hu : u < 1) (a : Armijo.Cfg (Fl F)) (ha : 0 < a.slope)
    (ha1 : a.slope < 1)
    (cfg : SearchBased.Cfg ι κ (Fl F) Out I E (Fl F) DS HS) (obj : Out → Fl F)
    (objI : I → Fl F) (objE : E → Fl F) (hE : ∀ y out, objE (cfg.makeEval y out) = obj out)
    (hI : ∀ y yE i out hs, objI (cfg.makeInfo y yE i out hs).1 = obj out)
    (pred : (ι → Fl F) → (ι → Fl F) → I → Fl F)
    (hsearch : ∀ first y yE i e ss, cfg.search first y yE i e ss =
      (let d := Armijo.decide' a first (pred y yE i) (objI i) (objE e) ss; (d.1, d.2, .successful, d.1)))
    (init0 : (ι → Fl F) → Except Err (SearchBased.State ι (Fl F) I A (Fl F) DS HS))
    (hinit : ∀ y st, init0 y = .ok st → st.firstStep = true)
    (fn : (ι → Fl F) → Out × A) (aux0 : A) (y0 : ι → Fl F) (st0)
    (hi : (SearchBased.solver cfg init0).init fn y0 = .ok st0) (k : Nat) :
    let it := iterateAt (SearchBased.solver cfg init0) fn aux0 y0 st0
    it (k + 2) = it (k + 1) ∨ AtMost (η / (1 - u)) (obj (fn (it (k + 2))).1) (obj (fn (it (k + 1))).1) := by
  refine search_never_increases (AtMost (η / (1 - u))) cfg obj objI objE hE hI (fun y yE i e ss => ?_) init0 hinit fn
    aux0 y0 st0 hi k (fun e ss h => ?_)
  · rw [hsearch]; simp [Armijo.decide']
  · rw [hsearch] at h
    simp only [Armijo.decide', Bool.false_or, Bool.and_eq_true, decide_eq_true_eq] at h
    exact le_of_sub' hF hu (fl_le_trans h.1 (mul_nonpos_fl ha (slope_finite ha ha1) h.2))

/-- **C86, trust regions.**  The same for the trust-region searches as long as the predicted reduction, as computed, is not
positive. -/
theorem C86_trust_region_never_increases (hG : F.Gradual) (a : TrustRegion.Cfg (Fl F)) (ha : 0 < a.lowCutoff)
    (ha1 : a.lowCutoff.isFinite = true)
    (cfg : SearchBased.Cfg ι κ (Fl F) Out I E (Fl F) DS HS) (obj : Out → Fl F)
    (objI : I → Fl F) (objE : E → Fl F) (hE : ∀ y out, objE (cfg.makeEval y out) = obj out)
    (hI : ∀ y yE i out hs, objI (cfg.makeInfo y yE i out hs).1 = obj out)
    (pred : (ι → Fl F) → (ι → Fl F) → I → Fl F)
    (hsearch : ∀ first y yE i e ss, cfg.search first y yE i e ss =
      (let d := TrustRegion.decide' a first (pred y yE i) (objI i) (objE e) ss; (d.1, d.2, .successful, d.1)))
    (init0 : (ι → Fl F) → Except Err (SearchBased.State ι (Fl F) I A (Fl F) DS HS))
    (hinit : ∀ y st, init0 y = .ok st → st.firstStep = true)
    (fn : (ι → Fl F) → Out × A) (aux0 : A) (y0 : ι → Fl F) (st0)
    (hi : (SearchBased.solver cfg init0).init fn y0 = .ok st0) (k : Nat)
    (hpred : pred (iterateAt (SearchBased.solver cfg init0) fn aux0 y0 st0 (k + 1))
      (stateAt (SearchBased.solver cfg init0) fn aux0 y0 st0 (k + 1)).yEval
      (stateAt (SearchBased.solver cfg init0) fn aux0 y0 st0 (k + 1)).fInfo ≤ 0) :
    let it := iterateAt (SearchBased.solver cfg init0) fn aux0 y0 st0
    it (k + 2) = it (k + 1) ∨ obj (fn (it (k + 2))).1 ≤ obj (fn (it (k + 1))).1 := by
  refine search_never_increases (· ≤ ·) cfg obj objI objE hE hI (fun y yE i e ss => ?_) init0 hinit fn
    aux0 y0 st0 hi k (fun e ss h => ?_)
  · rw [hsearch]; simp [TrustRegion.decide']
  · rw [hsearch] at h
    exact trust_accepts hG a ha ha1 _ _ _ ss hpred h

/-! ### A concrete instance -/

/-- Gradient descent in one variable in floating-point arithmetic, with backtracking: `gradient_methods.py` and `backtracking.py` with
every operation rounded. -/
noncomputable def flDescent (a : Armijo.Cfg (Fl F)) (grad : Fl F → Fl F) (rtol atol : Fl F) :
    SearchBased.Cfg Unit Unit (Fl F) (Fl F) (Fl F × Fl F) (Fl F) (Fl F) (Fl F) Unit where
  rtol := rtol
  atol := atol
  normY x := HasAbs.abs (x ())
  normF x := HasAbs.abs (x ())
  flat f := fun _ => f
  stored i := fun _ => i.1
  makeEval _ f := f
  makeInfo _ yE _ f _ := ((f, grad (yE ())), ())
  search first y yE i e ss :=
    let d := Armijo.decide' a first ((yE () - y ()) * i.2) i.1 e ss
    (d.1, d.2, .successful, d.1)
  query _ i _ := i.2
  descend s g := (fun _ => -s * g, .successful)
  skipFirst := true

/-- Its initial state. -/
noncomputable def flDescentInit (a : Armijo.Cfg (Fl F)) (y : Unit → Fl F) :
    Except Err (SearchBased.State Unit (Fl F) (Fl F × Fl F) Unit (Fl F) (Fl F) Unit) :=
  .ok { firstStep := true, yEval := y, searchState := a.stepInit, fInfo := (0, 0), aux := (), descentState := 0,
        terminate := false, result := .successful, hess := () }

/-- In `float64`, gradient descent with backtracking on `x ↦ x * x - x`, as computed, never increases it. -/
example (a : Armijo.Cfg (Fl .float64)) (ha : 0 < a.slope) (ha1 : a.slope < 1) (rtol atol y0 : Fl .float64) (k : Nat) :
    let cfg := flDescent a (fun x => x + x - 1) rtol atol
    let f := fun x : Fl .float64 => x * x - x
    let it := iterateAt (SearchBased.solver cfg (flDescentInit a)) (fun y => (f (y ()), ())) () (fun _ => y0)
      { firstStep := true, yEval := fun _ => y0, searchState := a.stepInit, fInfo := (0, 0), aux := (), descentState := 0,
        terminate := false, result := .successful, hess := () }
    it (k + 2) = it (k + 1) ∨ f (it (k + 2) ()) ≤ f (it (k + 1) ()) :=
  C86_armijo_never_increases (Binary.gradual 53 (-1022) 1023 _ _ _) a ha ha1 (flDescent a (fun x => x + x - 1) rtol atol) id
    Prod.fst id (fun _ _ => rfl) (fun _ _ _ _ _ => rfl) (fun y yE i => (yE () - y ()) * i.2) (fun _ _ _ _ _ _ => rfl)
    (flDescentInit a) (fun y st h => by cases h; rfl) (fun y => (y () * y () - y (), ())) () (fun _ => y0) _ rfl k

/-- The same in `float32` without gradual underflow, up to about the smallest normal number. -/
example (a : Armijo.Cfg (Fl (.flushed 24 (-126) 127 (by norm_num) (by norm_num) (by norm_num)))) (ha : 0 < a.slope)
    (ha1 : a.slope < 1) (rtol atol y0) (k : Nat) :
    let cfg := flDescent a (fun x => x + x - 1) rtol atol
    let f := fun x => x * x - x
    let it := iterateAt (SearchBased.solver cfg (flDescentInit a)) (fun y => (f (y ()), ())) () (fun _ => y0)
      { firstStep := true, yEval := fun _ => y0, searchState := a.stepInit, fInfo := (0, 0), aux := (), descentState := 0,
        terminate := false, result := .successful, hess := () }
    it (k + 2) = it (k + 1) ∨
      AtMost ((2 ^ (-126 : ℤ) + 2 ^ (-126 - 24 : ℤ)) / (1 - 2 ^ (-24 : ℤ))) (f (it (k + 2) ())) (f (it (k + 1) ())) :=
  C86_armijo_flushing (Binary.flush_accurate 24 (-126) 127 (by norm_num) (by norm_num) (by norm_num))
    (by norm_num) a ha ha1 (flDescent a (fun x => x + x - 1) rtol atol) id
    Prod.fst id (fun _ _ => rfl) (fun _ _ _ _ _ => rfl) (fun y yE i => (yE () - y ()) * i.2) (fun _ _ _ _ _ _ => rfl)
    (flDescentInit a) (fun y st h => by cases h; rfl) (fun y => (y () * y () - y (), ())) () (fun _ => y0) _ rfl k

end Verif.Props
