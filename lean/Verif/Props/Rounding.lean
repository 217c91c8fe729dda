import Verif.Lemmas.FloatArith
import Verif.Model.AnyScalar
import Verif.Model.FixedPoint
import Verif.Model.NewtonChord
import Verif.Props.Driver

/-!
C85: in floating-point arithmetic, with rounding, overflow and underflow, success still means that the exact numbers are as close
as the tolerances say.

The solvers are the models over an arbitrary scalar type, run on the floating-point numbers `Fl F` of an arbitrary format `F`.
-/

namespace Verif.Props

open Verif Verif.Spec Verif.Driver

variable {F : Format} {ι κ A : Type}

theorem fl_allfinite {y : ι → Fl F} : Fl.allfinite y = true ↔ ∀ i, (y i).isFinite = true := by
  classical
  unfold Fl.allfinite
  exact decide_eq_true_iff

/-- What one passed comparison says about the exact numbers. -/
theorem close_of_test {u η : ℝ} (hF : F.Accurate u η) {rtol atol a b x : Fl F} (hr : 0 ≤ rtol) (ha : 0 ≤ atol)
    (hrf : rtol.isFinite = true) (hx : x.isFinite = true) (ho : (atol + rtol * HasAbs.abs x).isFinite = true)
    (h : HasAbs.abs (HasAbs.abs (a - b) / (atol + rtol * HasAbs.abs x)) < 1) :
    a.isFinite = true ∧ b.isFinite = true ∧ |a.real - b.real| < allowed u η rtol.real atol.real x.real := by
  have h1 := Fl.abs_lt_of_div (Fl.scale_nonneg hr ha) h
  rw [Fl.abs_abs] at h1
  obtain ⟨h2, h3, h4⟩ := Fl.abs_sub_lt h1 ho
  exact ⟨h2, h3, h4.trans_le (Fl.scale_bound hF ho hrf hx hr ha)⟩

/-- The same for a signed quotient. -/
theorem close_of_test' {u η : ℝ} (hF : F.Accurate u η) {rtol atol a b x : Fl F} (hr : 0 ≤ rtol) (ha : 0 ≤ atol)
    (hrf : rtol.isFinite = true) (hx : x.isFinite = true) (ho : (atol + rtol * HasAbs.abs x).isFinite = true)
    (h : HasAbs.abs ((a - b) / (atol + rtol * HasAbs.abs x)) < 1) :
    a.isFinite = true ∧ b.isFinite = true ∧ |a.real - b.real| < allowed u η rtol.real atol.real x.real := by
  obtain ⟨h2, h3, h4⟩ := Fl.abs_sub_lt (Fl.abs_lt_of_div (Fl.scale_nonneg hr ha) h) ho
  exact ⟨h2, h3, h4.trans_le (Fl.scale_bound hF ho hrf hx hr ha)⟩

/-- Multiplying by one and adding nothing changes nothing. -/
theorem undamped (f y : Fl F) (hy : y.isFinite = true) : (1 - 0) * f + 0 * y = f := by
  have e1 : (1 - 0 : Fl F) = 1 := by
    apply Fl.ext
    rw [Fl.sub_val]
    show F.roundXR (XR.fin 1 - XR.fin 0) = XR.fin 1
    rw [XR.sub_fin, sub_zero]
    exact F.one
  have e2 : (1 : Fl F) * f = f := by
    apply Fl.ext
    rw [Fl.mul_val]
    show F.roundXR (XR.fin 1 * f.val) = f.val
    cases hf : f.val with
    | fin r => rw [XR.mul_fin, one_mul]; exact f.rep r hf
    | pinf => rw [XR.fin_mul_pinf 1 one_pos]; rfl
    | ninf =>
      have : XR.fin 1 * XR.ninf = XR.ninf := by
        show XR.infTimes (-1) = XR.ninf
        unfold XR.infTimes; norm_num
      rw [this]; rfl
    | nan => rw [XR.mul_nan]; rfl
  have e3 : (0 : Fl F) * y = 0 := by
    apply Fl.ext
    rw [Fl.mul_val, Fl.val_of_finite hy]
    show F.roundXR (XR.fin 0 * _) = XR.fin 0
    rw [XR.mul_fin, zero_mul]
    exact F.zero
  rw [e1, e2, e3]
  apply Fl.ext
  rw [Fl.add_val]
  show F.roundXR (f.val + XR.fin 0) = f.val
  cases hf : f.val with
  | fin r => rw [XR.add_fin, add_zero]; exact f.rep r hf
  | _ => rfl

/-- **C85, FixedPointIteration.**  In every floating-point format, success means: the returned value and the point `y` it was
computed from are finite and differ, as exact real numbers, by less than the tolerance; without damping the value is the function
value at `y`, as computed, so that the equation holds to this accuracy. -/
theorem C85_fixed_point {u η : ℝ} (hF : F.Accurate u η) (cfg : FixedPointIter.Cfg ι (Fl F)) (hn : Dominates cfg.norm)
    (hr : 0 ≤ cfg.rtol) (hrf : cfg.rtol.isFinite = true) (ha : 0 ≤ cfg.atol)
    (fn : (ι → Fl F) → (ι → Fl F) × A) (aux0 : A) (y0 : ι → Fl F) (ms : Option Nat) (throw : Bool) (sol)
    (h : iterativeSolve (FixedPointIter.solver cfg) Fl.allfinite fn aux0 y0 ms throw = some (.ok sol))
    (hs : sol.result = .successful)
    (ho : ∀ i, (sol.value i).isFinite = true → (cfg.atol + cfg.rtol * HasAbs.abs (sol.value i)).isFinite = true) :
    ∃ k, sol.numSteps = k + 1 ∧
      let y := iterateAt (FixedPointIter.solver cfg) fn aux0 y0 none k
      (cfg.damp = 0 → sol.value = (fn y).1) ∧
      ∀ i, (y i).isFinite = true ∧ (sol.value i).isFinite = true ∧
        |(y i).real - (sol.value i).real| < allowed u η cfg.rtol.real cfg.atol.real (sol.value i).real := by
  obtain ⟨st0, hi, ht, _, hfin, _⟩ := C02_success_is_certificate _ _ _ _ _ _ _ _ h hs
  obtain ⟨_, _, st0', hi', hst, hp⟩ := C01_step_budget _ _ _ _ _ _ _ _ h
  cases hi; cases hi'
  cases hk : sol.numSteps with
  | zero =>
    rw [hst, hk] at ht
    exact absurd (congrArg Prod.fst ht) (by simp [FixedPointIter.solver, FixedPointIter.terminate, stateAt, trace])
  | succ k =>
    refine ⟨k, rfl, ?_⟩
    intro y
    have hy : ∀ i, (y i).isFinite = true := fl_allfinite.1 (hfin k (by omega))
    rw [hst, hk] at ht
    rw [hk] at hp
    have hv : sol.value = (FixedPointIter.step cfg fn y (stateAt (FixedPointIter.solver cfg) fn aux0 y0 none k)).1 :=
      congrArg Prod.fst hp
    have ht' : decide (cfg.norm (fun i => (y i - sol.value i) / (cfg.atol + cfg.rtol * HasAbs.abs (sol.value i))) < 1) = true := by
      rw [hv]; exact congrArg Prod.fst ht
    rw [decide_eq_true_eq] at ht'
    have hd := hn _ ht'
    refine ⟨fun h0 => ?_, fun i => ?_⟩
    · rw [hv]
      funext i
      show (1 - cfg.damp) * (fn y).1 i + cfg.damp * y i = (fn y).1 i
      rw [h0]
      exact undamped _ _ (hy i)
    · have hvf : (sol.value i).isFinite = true := (Fl.finite_sub (Fl.finite_div (Fl.finite_of_abs_lt (hd i)))).2
      obtain ⟨h1, h2, h3⟩ := close_of_test' hF hr ha hrf hvf (ho i hvf) (hd i)
      exact ⟨h1, h2, h3⟩

/-- What one passed comparison says about a single number. -/
theorem small_of_test {u η : ℝ} (hF : F.Accurate u η) {rtol atol d x : Fl F} (hr : 0 ≤ rtol) (ha : 0 ≤ atol)
    (hrf : rtol.isFinite = true) (hx : x.isFinite = true) (ho : (atol + rtol * HasAbs.abs x).isFinite = true)
    (h : HasAbs.abs (HasAbs.abs d / (atol + rtol * HasAbs.abs x)) < 1) :
    d.isFinite = true ∧ |d.real| < allowed u η rtol.real atol.real x.real := by
  have h1 := Fl.abs_lt_of_div (Fl.scale_nonneg hr ha) h
  rw [Fl.abs_abs] at h1
  have hd := Fl.finite_of_abs_lt h1
  refine ⟨hd, lt_of_lt_of_le ?_ (Fl.scale_bound hF ho hrf hx hr ha)⟩
  rw [Fl.lt_def, Fl.abs_val, Fl.val_of_finite hd, Fl.val_of_finite ho, XR.abs_fin] at h1
  exact h1

/-- At the tolerance `atol + rtol * |0|` there is only `atol`. -/
theorem small_at_zero {rtol atol d : Fl F} (hrf : rtol.isFinite = true) (ha : 0 ≤ atol) (haf : atol.isFinite = true)
    (h : HasAbs.abs (HasAbs.abs d / (atol + rtol * HasAbs.abs (0 : Fl F))) < 1) :
    d.isFinite = true ∧ |d.real| < atol.real := by
  have e : atol + rtol * HasAbs.abs (0 : Fl F) = atol := by
    apply Fl.ext
    rw [Fl.add_val, Fl.mul_val, Fl.val_of_finite haf, Fl.val_of_finite hrf]
    have e0 : (HasAbs.abs (0 : Fl F) : Fl F).val = XR.fin 0 := by
      show HasAbs.abs (XR.fin 0) = _
      rw [XR.abs_fin, abs_zero]
    rw [e0, XR.mul_fin, mul_zero]
    show F.roundXR (XR.fin atol.real + F.round 0) = _
    rw [F.zero, XR.add_fin, add_zero]
    exact Fl.rep_real haf
  rw [e] at h
  have hn : ¬ atol < 0 := by
    rw [Fl.lt_def, Fl.val_of_finite haf]
    rw [Fl.le_def, Fl.val_of_finite haf] at ha
    exact not_lt.2 (show (0 : ℝ) ≤ atol.real from ha)
  have h1 := Fl.abs_lt_of_div hn h
  rw [Fl.abs_abs] at h1
  have hd := Fl.finite_of_abs_lt h1
  refine ⟨hd, ?_⟩
  rw [Fl.lt_def, Fl.abs_val, Fl.val_of_finite hd, Fl.val_of_finite haf, XR.abs_fin] at h1
  exact h1

/-- **C85, Newton and Chord with the Cauchy test.**  In every floating-point format, success means: at the point `y` from which the
last step was made, every component of the function, as computed, is smaller than `atol`; and the last step was small: with bounds
the exact distance from `y` to the returned value is below the tolerance, without bounds the value is `y` minus, up to one rounding,
something below the tolerance. -/
theorem C85_newton {J : Type} [Nonempty ι] {u η : ℝ} (hF : F.Accurate u η) (cfg : NewtonChord.Cfg ι κ (Fl F) J)
    (hc : cfg.cauchy = true) (hinf : cfg.inf.val = .pinf) (hnY : Dominates cfg.normY) (hnF : Dominates cfg.normF)
    (hr : 0 ≤ cfg.rtol) (hrf : cfg.rtol.isFinite = true) (ha : 0 ≤ cfg.atol) (haf : cfg.atol.isFinite = true)
    (fn : (ι → Fl F) → (κ → Fl F) × A) (aux0 : A) (y0 : ι → Fl F) (ms : Option Nat) (throw : Bool) (sol)
    (h : iterativeSolve (NewtonChord.solver cfg) Fl.allfinite fn aux0 y0 ms throw = some (.ok sol))
    (hs : sol.result = .successful) :
    ∃ k, sol.numSteps = k + 1 ∧
      let y := iterateAt (NewtonChord.solver cfg) fn aux0 y0 (NewtonChord.init cfg y0) k
      (∀ i, (y i).isFinite = true) ∧
      (∀ j, ((fn y).1 j).isFinite = true ∧ |((fn y).1 j).real| < cfg.atol.real) ∧
      ((cfg.lower.isSome || cfg.upper.isSome) = true →
        ∀ i, (cfg.atol + cfg.rtol * HasAbs.abs (y i)).isFinite = true →
          (sol.value i).isFinite = true ∧
          |(y i).real - (sol.value i).real| < allowed u η cfg.rtol.real cfg.atol.real (y i).real) ∧
      ((cfg.lower.isSome || cfg.upper.isSome) = false → ∃ d : ι → Fl F, (∀ i, sol.value i = y i - d i) ∧
        ∀ i, (cfg.atol + cfg.rtol * HasAbs.abs (y i)).isFinite = true →
          (d i).isFinite = true ∧ |(d i).real| < allowed u η cfg.rtol.real cfg.atol.real (y i).real) := by
  obtain ⟨st0, hi, ht, _, hfin, _⟩ := C02_success_is_certificate _ _ _ _ _ _ _ _ h hs
  obtain ⟨_, _, st0', hi', hst, hp⟩ := C01_step_budget _ _ _ _ _ _ _ _ h
  cases hi; cases hi'
  have htest : ∀ y (st : NewtonChord.State ι κ (Fl F) J) f, st.f = some f →
      NewtonChord.terminate cfg y st = (true, .successful) →
      (∀ i, HasAbs.abs (HasAbs.abs (st.diff i) / (cfg.atol + cfg.rtol * HasAbs.abs (y i))) < 1) ∧
      ∀ j, HasAbs.abs (HasAbs.abs (f j) / (cfg.atol + cfg.rtol * HasAbs.abs (0 : Fl F))) < 1 := by
    intro y st f hf ht
    have hres : st.result = .successful := by
      by_contra hne
      have := congrArg Prod.snd ht
      simp only [NewtonChord.terminate, hne, ne_eq, not_false_eq_true, decide_true, if_true] at this
    have h1 := congrArg Prod.fst ht
    simp only [NewtonChord.terminate, hc, hf, hres, ne_eq, not_true_eq_false, decide_false, Bool.false_or] at h1
    unfold cauchyTermination at h1
    rw [Bool.and_eq_true, decide_eq_true_eq, decide_eq_true_eq] at h1
    exact ⟨fun i => hnY _ h1.1 i, fun j => hnF _ h1.2 j⟩
  cases hk : sol.numSteps with
  | zero =>
    exfalso
    rw [hst, hk] at ht
    obtain ⟨i⟩ := ‹Nonempty ι›
    have hd := (htest _ _ _ (by
      show (if cfg.cauchy = true then _ else _) = _
      rw [hc]; exact if_pos rfl) ht).1 i
    have h2 := Fl.finite_div (Fl.finite_of_abs_lt hd)
    rw [Fl.finite_abs] at h2
    have h3 : cfg.inf.isFinite = true := h2
    unfold Fl.isFinite at h3
    rw [hinf] at h3
    cases h3
  | succ k =>
    refine ⟨k, rfl, ?_⟩
    intro y
    have hy : ∀ i, (y i).isFinite = true := fl_allfinite.1 (hfin k (by omega))
    rw [hst, hk] at ht
    rw [hk] at hp
    have hv : sol.value = (NewtonChord.step cfg fn y (stateAt (NewtonChord.solver cfg) fn aux0 y0 (NewtonChord.init cfg y0) k)).1 :=
      congrArg Prod.fst hp
    obtain ⟨hd, hf⟩ := htest y
      (NewtonChord.step cfg fn y (stateAt (NewtonChord.solver cfg) fn aux0 y0 (NewtonChord.init cfg y0) k)).2.1 (fn y).1
      (by show (if cfg.cauchy = true then _ else _) = _; rw [hc]; exact if_pos rfl) ht
    refine ⟨hy, fun j => small_at_zero hrf ha haf (hf j), fun hb i hoi => ?_, fun hb => ?_⟩
    · have e : (NewtonChord.step cfg fn y (stateAt (NewtonChord.solver cfg) fn aux0 y0 (NewtonChord.init cfg y0) k)).2.1.diff i =
          y i - sol.value i := by
        rw [hv]
        show (if _ then _ else _ : ι → Fl F) i = _
        rw [if_pos hb]; rfl
      have hdi := hd i
      rw [e] at hdi
      obtain ⟨_, h2, h3⟩ := close_of_test hF hr ha hrf (hy i) hoi hdi
      exact ⟨h2, h3⟩
    · refine ⟨(NewtonChord.step cfg fn y (stateAt (NewtonChord.solver cfg) fn aux0 y0 (NewtonChord.init cfg y0) k)).2.1.diff,
        fun i => ?_, fun i hoi => small_of_test hF hr ha hrf (hy i) hoi (hd i)⟩
      have hb' := Bool.or_eq_false_iff.1 hb
      have hl : cfg.lower = none := by simpa using hb'.1
      have hu : cfg.upper = none := by simpa using hb'.2
      rw [hv]
      show NewtonChord.clipBounds cfg.lower cfg.upper _ i = y i - (if _ then _ else _ : ι → Fl F) i
      rw [if_neg (by rw [hb]; exact Bool.false_ne_true), hl, hu]
      rfl

/-! ### The search-based solvers -/

section Search

variable {Out I E SS DS HS : Type}

/-- **C85, solvers with a search** (gradient descent, nonlinear CG, BFGS, DFP, L-BFGS, Gauss-Newton, Levenberg-Marquardt, Dogleg, in
the form of `Model/AnyScalar.lean`).  In every floating-point format, success after more than one step means: the returned value
and the iterate before it are finite and differ, as exact numbers, by less than the tolerance; and so do the outputs of the function
at these two points, as computed.  The hypotheses on `stored` and on the first step say that the solver keeps the output of the
accepted point, and accepts its first point. -/
theorem C85_search {u η : ℝ} (hF : F.Accurate u η) (cfg : SearchBased.Cfg ι κ (Fl F) Out I E SS DS HS)
    (hnY : Dominates cfg.normY) (hnF : Dominates cfg.normF)
    (hr : 0 ≤ cfg.rtol) (hrf : cfg.rtol.isFinite = true) (ha : 0 ≤ cfg.atol)
    (hstore : ∀ y yE i out hs, cfg.stored (cfg.makeInfo y yE i out hs).1 = cfg.flat out)
    (hfirst : ∀ y yE i e ss, (cfg.search true y yE i e ss).2.1 = true)
    (init0 : (ι → Fl F) → Except Err (SearchBased.State ι (Fl F) I A SS DS HS))
    (hinit : ∀ y st, init0 y = .ok st → st.firstStep = true)
    (fn : (ι → Fl F) → Out × A) (aux0 : A) (y0 : ι → Fl F) (ms : Option Nat) (throw : Bool) (sol)
    (h : iterativeSolve (SearchBased.solver cfg init0) Fl.allfinite fn aux0 y0 ms throw = some (.ok sol))
    (hs : sol.result = .successful) (hsteps : sol.numSteps ≠ 1 ∨ cfg.skipFirst = true) :
    ∃ st0 k, (SearchBased.solver cfg init0).init fn y0 = .ok st0 ∧ sol.numSteps = k + 2 ∧
      let y := iterateAt (SearchBased.solver cfg init0) fn aux0 y0 st0 (k + 1)
      (∀ i, (cfg.atol + cfg.rtol * HasAbs.abs (sol.value i)).isFinite = true →
        (y i).isFinite = true ∧ (sol.value i).isFinite = true ∧
        |(sol.value i).real - (y i).real| < allowed u η cfg.rtol.real cfg.atol.real (sol.value i).real) ∧
      ∀ j, (cfg.atol + cfg.rtol * HasAbs.abs (cfg.flat (fn sol.value).1 j)).isFinite = true →
        |(cfg.flat (fn sol.value).1 j).real - (cfg.flat (fn y).1 j).real| <
          allowed u η cfg.rtol.real cfg.atol.real (cfg.flat (fn sol.value).1 j).real := by
  obtain ⟨st0, hi, ht, _, hfin, _⟩ := C02_success_is_certificate _ _ _ _ _ _ _ _ h hs
  obtain ⟨_, _, st0', hi', hst, hp⟩ := C01_step_budget _ _ _ _ _ _ _ _ h
  have e0 : st0' = st0 := by rw [hi] at hi'; cases hi'; rfl
  rw [e0] at hst hp
  have hfs : st0.firstStep = true ∧ st0.terminate = false := by
    have hi2 : (init0 y0).map (fun st => { st with terminate := false }) = Except.ok st0 := hi
    cases hx : init0 y0 with
    | error e => rw [hx] at hi2; cases hi2
    | ok s => rw [hx] at hi2; cases hi2; exact ⟨hinit _ s hx, rfl⟩
  let it := iterateAt (SearchBased.solver cfg init0) fn aux0 y0 st0
  let sta := stateAt (SearchBased.solver cfg init0) fn aux0 y0 st0
  have hit : ∀ k, it (k + 1) = (SearchBased.step cfg fn (it k) (sta k)).1 := fun k => rfl
  have hsta : ∀ k, sta (k + 1) = (SearchBased.step cfg fn (it k) (sta k)).2.1 := fun k => rfl
  have hfalse : ∀ k, (sta (k + 1)).firstStep = false := fun k => rfl
  -- the stored output belongs to the current point
  have hinv : ∀ k, cfg.stored (sta (k + 1)).fInfo = cfg.flat (fn (it (k + 1))).1 := by
    intro k
    have key : (cfg.search (sta k).firstStep (it k) (sta k).yEval (sta k).fInfo
        (cfg.makeEval (sta k).yEval (fn (sta k).yEval).1) (sta k).searchState).2.1 = true →
        cfg.stored (sta (k + 1)).fInfo = cfg.flat (fn (it (k + 1))).1 := by
      intro hacc
      rw [hsta, hit]
      simp only [SearchBased.step, hacc, if_true]
      exact hstore _ _ _ _ _
    induction k with
    | zero =>
      apply key
      have : (sta 0).firstStep = true := hfs.1
      rw [this]; exact hfirst _ _ _ _ _
    | succ k ih =>
      by_cases hacc : (cfg.search (sta (k + 1)).firstStep (it (k + 1)) (sta (k + 1)).yEval (sta (k + 1)).fInfo
        (cfg.makeEval (sta (k + 1)).yEval (fn (sta (k + 1)).yEval).1) (sta (k + 1)).searchState).2.1 = true
      · exact key hacc
      · have h1 := ih (by
          intro hacc'
          rw [hsta, hit]
          simp only [SearchBased.step, hacc', if_true]
          exact hstore _ _ _ _ _)
        rw [hsta (k + 1), hit (k + 1)]
        simp only [SearchBased.step, hacc, Bool.false_eq_true, if_false]
        exact h1
  have hterm : sol.state.terminate = true := congrArg Prod.fst ht
  cases hk : sol.numSteps with
  | zero =>
    rw [hst, hk] at hterm
    have h1 : st0.terminate = true := hterm
    rw [hfs.2] at h1; cases h1
  | succ n =>
    -- the last step accepted and passed the test
    have hvn : sol.value = it (n + 1) := by rw [hk] at hp; exact congrArg Prod.fst hp
    rw [hst, hk] at hterm
    have hterm' : (SearchBased.step cfg fn (it n) (sta n)).2.1.terminate = true := hterm
    by_cases hacc : (cfg.search (sta n).firstStep (it n) (sta n).yEval (sta n).fInfo
        (cfg.makeEval (sta n).yEval (fn (sta n).yEval).1) (sta n).searchState).2.1 = true
    swap
    · simp only [SearchBased.step, hacc, Bool.false_eq_true, if_false] at hterm'
    have hval : sol.value = (sta n).yEval := by
      rw [hvn, hit]
      simp only [SearchBased.step, hacc, if_true]
    simp only [SearchBased.step, hacc, if_true] at hterm'
    cases n with
    | zero =>
      exfalso
      have h1 : (sta 0).firstStep = true := hfs.1
      rcases hsteps with h2 | h2
      · exact h2 hk
      · rw [h1, h2] at hterm'; simp at hterm'
    | succ k =>
      refine ⟨st0, k, hi, rfl, ?_⟩
      rw [hfalse k, Bool.and_false] at hterm'
      simp only [Bool.false_eq_true, if_false] at hterm'
      unfold cauchyTermination at hterm'
      rw [Bool.and_eq_true, decide_eq_true_eq, decide_eq_true_eq] at hterm'
      rw [← hval] at hterm'
      rw [hinv k] at hterm'
      refine ⟨fun i hoi => ?_, fun j hoj => ?_⟩
      · have h1 := hnY _ hterm'.1 i
        have hvf : (sol.value i).isFinite = true := by
          have := Fl.finite_div (Fl.finite_of_abs_lt h1)
          rw [Fl.finite_abs] at this
          exact (Fl.finite_sub this).1
        obtain ⟨h2, h3, h4⟩ := close_of_test hF hr ha hrf hvf hoi h1
        exact ⟨h3, h2, h4⟩
      · have h1 := hnF _ hterm'.2 j
        have hvf : (cfg.flat (fn sol.value).1 j).isFinite = true := by
          have := Fl.finite_div (Fl.finite_of_abs_lt h1)
          rw [Fl.finite_abs] at this
          exact (Fl.finite_sub this).1
        exact (close_of_test hF hr ha hrf hvf hoj h1).2.2

end Search

/-! ### The hypotheses can be met -/

/-- **C85, rounding.**  The model rounds as IEEE 754 asks by default: to a nearest integral multiple of the unit of the last digit, and of
two nearest ones to the even one. -/
theorem C85_round_to_nearest_even (t : ℝ) :
    (∀ n : ℤ, |(Binary.nearest t : ℝ) - t| ≤ |(n : ℝ) - t|) ∧
    (∀ n : ℤ, n ≠ Binary.nearest t → |(n : ℝ) - t| = |(Binary.nearest t : ℝ) - t| → Even (Binary.nearest t)) := by
  have e1 : (⌊t⌋ : ℝ) = t - Int.fract t := by unfold Int.fract; ring
  have h0 := Int.fract_nonneg t
  have h1 := Int.fract_lt_one t
  have hnear := Binary.nearest_error t
  have far : ∀ n : ℤ, n ≠ Binary.nearest t → 1 / 2 ≤ |(n : ℝ) - t| := by
    intro n hn
    have h2 : (1 : ℝ) ≤ |(n : ℝ) - Binary.nearest t| := by
      have : 1 ≤ |n - Binary.nearest t| := Int.one_le_abs (sub_ne_zero.2 hn)
      exact_mod_cast this
    have h3 := abs_sub_le (n : ℝ) t (Binary.nearest t)
    rw [abs_sub_comm t] at h3
    linarith
  refine ⟨fun n => ?_, fun n hn he => ?_⟩
  · by_cases hn : n = Binary.nearest t
    · rw [hn]
    · exact hnear.trans (far n hn)
  · have h2 := far n hn
    rw [he] at h2
    have h3 : |(Binary.nearest t : ℝ) - t| = 1 / 2 := le_antisymm hnear h2
    unfold Binary.nearest at h3 ⊢
    split_ifs at h3 ⊢ with c1 c2 c3
    · rw [e1, sub_sub_cancel_left, abs_neg, abs_of_nonneg h0] at h3
      linarith
    · push_cast at h3
      rw [e1, show t - Int.fract t + 1 - t = 1 - Int.fract t by ring, abs_of_pos (by linarith)] at h3
      linarith
    · exact c3
    · exact Int.even_add_one.2 c3

/-- The formats of `jnp.float32` and `jnp.float64` are accurate, and the maximum norm dominates the entries. -/
example : Format.float64.Accurate (2 ^ (-53 : ℤ)) (2 ^ (-1022 - 53 : ℤ)) ∧
    Format.float32.Accurate (2 ^ (-24 : ℤ)) (2 ^ (-126 - 24 : ℤ)) ∧
    Dominates (F := .float64) (ι := Unit) fun x => HasAbs.abs (x ()) :=
  ⟨Binary.accurate 53 (-1022) 1023 _ _ _, Binary.accurate 24 (-126) 127 _ _ _, fun _ h _ => h⟩

theorem fl_sub_self {x : Fl F} (hx : x.isFinite = true) : x - x = 0 := by
  apply Fl.ext
  rw [Fl.sub_val, Fl.val_of_finite hx, XR.sub_fin, sub_self]
  exact F.zero

theorem fl_zero_div {x : Fl F} (hx : x.isFinite = true) (h0 : x.real ≠ 0) : 0 / x = 0 := by
  apply Fl.ext
  rw [Fl.div_val, Fl.val_of_finite hx]
  show F.roundXR (XR.fin 0 / XR.fin x.real) = XR.fin 0
  rw [XR.div_fin _ _ h0, zero_div]
  exact F.zero

theorem fl_scale_one (x : Fl F) (hx : x.isFinite = true) : (1 : Fl F) + 0 * HasAbs.abs x = 1 := by
  apply Fl.ext
  rw [Fl.add_val, Fl.mul_val, Fl.abs_val, Fl.val_of_finite hx, XR.abs_fin]
  show F.roundXR (XR.fin 1 + F.roundXR (XR.fin 0 * XR.fin |x.real|)) = XR.fin 1
  rw [XR.mul_fin, zero_mul]
  show F.roundXR (XR.fin 1 + F.round 0) = XR.fin 1
  rw [F.zero, XR.add_fin, add_zero]
  exact F.one

/-- A run of two steps that succeeds: in any format, from `1`, towards the constant `0`. -/
example : ∃ sol, iterativeSolve (FixedPointIter.solver (A := Unit)
    { rtol := (0 : Fl F), atol := 1, norm := fun x : Unit → Fl F => HasAbs.abs (x ()), damp := 0 }) Fl.allfinite
    (fun _ => (fun _ => 0, ())) () (fun _ => 1) none true = some (.ok sol) ∧ sol.result = .successful ∧ sol.numSteps ≤ 2 := by
  set cfg : FixedPointIter.Cfg Unit (Fl F) :=
    { rtol := 0, atol := 1, norm := fun x : Unit → Fl F => HasAbs.abs (x ()), damp := 0 } with hcfg
  set fn : (Unit → Fl F) → (Unit → Fl F) × Unit := fun _ => (fun _ => 0, ()) with hfn
  have f0 : (0 : Fl F).isFinite = true := rfl
  have f1 : (1 : Fl F).isFinite = true := rfl
  have hstep : ∀ (y : Unit → Fl F) (st : Option (Fl F)), (y ()).isFinite = true →
      (FixedPointIter.step cfg fn y st).1 = fun _ => 0 := by
    intro y st hy
    funext i
    exact undamped 0 (y i) hy
  have it1 : iterateAt (FixedPointIter.solver cfg) fn () (fun _ => 1) none 1 = fun _ => 0 := hstep (fun _ => 1) none f1
  refine (solve_succeeds_by (FixedPointIter.solver cfg) Fl.allfinite fn () (fun _ => 1) none rfl none true 2 ?_ ?_ ?_ ?_).imp
    fun sol h => ⟨h.1, h.2.1, h.2.2.1⟩
  · intro j hj
    rcases (by omega : j - 1 = 0 ∨ j - 1 = 1) with e | e <;> rw [e]
    · exact fl_allfinite.2 fun _ => f1
    · rw [it1]; exact fl_allfinite.2 fun _ => f0
  · intro j hj; rfl
  · have h2 : stateAt (FixedPointIter.solver cfg) fn () (fun _ => 1) none 2 =
        (FixedPointIter.step cfg fn (iterateAt (FixedPointIter.solver cfg) fn () (fun _ => 1) none 1)
          (stateAt (FixedPointIter.solver cfg) fn () (fun _ => 1) none 1)).2.1 := rfl
    show (FixedPointIter.terminate (stateAt (FixedPointIter.solver cfg) fn () (fun _ => 1) none 2)).1 = true
    rw [h2, it1]
    have e : (FixedPointIter.step cfg fn (fun _ => 0) (stateAt (FixedPointIter.solver cfg) fn () (fun _ => 1) none 1)).2.1 =
        some (0 : Fl F) := by
      have h3 := hstep (fun _ => 0) (stateAt (FixedPointIter.solver cfg) fn () (fun _ => 1) none 1) f0
      have h4 : ∀ st, (FixedPointIter.step cfg fn (fun _ => 0) st).2.1 =
          some (HasAbs.abs (((0 : Fl F) - (FixedPointIter.step cfg fn (fun _ => 0) st).1 ()) /
            (1 + 0 * HasAbs.abs ((FixedPointIter.step cfg fn (fun _ => 0) st).1 ())))) := fun st => rfl
      rw [h4, h3]
      dsimp only
      rw [fl_sub_self f0, fl_scale_one 0 f0, fl_zero_div f1 (by show (1 : ℝ) ≠ 0; norm_num)]
      congr 1
      apply Fl.ext
      show HasAbs.abs (XR.fin 0) = XR.fin 0
      rw [XR.abs_fin, abs_zero]
    rw [e]
    have : (0 : Fl F) < 1 := by rw [Fl.lt_def]; exact (one_pos : (0 : ℝ) < 1)
    simp [FixedPointIter.terminate, this]
  · intro n hn; cases hn

end Verif.Props
