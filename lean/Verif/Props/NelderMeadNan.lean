import Verif.Model.NelderMeadNan
import Verif.Spec.TopK
import Verif.Spec.Relabel
import Verif.Lemmas.Simulate
import Verif.Props.AnyScalar
import Verif.Props.NelderMead
import Mathlib.Data.EReal.Basic

/-!
**C119.** What `NelderMead` does where the objective is NaN.
-/

namespace Verif.NanSimplex

open Verif.Spec NelderMeadNan Props Driver

variable {n : Nat} [NeZero n] {ι A : Type}

/-! ### Objectives that are never NaN -/

/-- `NelderMead(...)` with the given ranking of arrays and the norms of the library. -/
noncomputable def withRanking (cfg : NelderMead.Cfg n ι) (t : TopK n) : NelderMeadNan.Cfg n ι :=
  { rtol := cfg.rtol, atol := cfg.atol, normX := liftNorm cfg.normX, normF := liftNorm cfg.normF, mkSimplex := cfg.mkSimplex,
    topK := t }

theorem val_lt (a b : NelderMead.Val) : valToXR a < valToXR b ↔ a < b := by
  cases a using WithTop.recTopCoe with
  | top => exact ⟨fun h => absurd h (XR.not_pinf_lt _), fun h => absurd h not_top_lt⟩
  | coe a =>
    cases b using WithTop.recTopCoe with
    | top => exact ⟨fun _ => WithTop.coe_lt_top a, fun _ => trivial⟩
    | coe b => exact (Iff.rfl : a < b ↔ a < b).trans WithTop.coe_lt_coe.symm

theorem val_ne_nan (a : NelderMead.Val) : valToXR a ≠ .nan := by
  cases a using WithTop.recTopCoe <;> exact fun h => nomatch h

theorem topMin_first (f : Fin n → NelderMead.Val) (i : Fin n) (h : i < NelderMead.topMin f) : f (NelderMead.topMin f) < f i := by
  by_contra hc
  revert h hc
  unfold NelderMead.topMin
  cases hm : (List.finRange n).argmin f with
  | none => intro h; exact absurd h (Fin.not_lt_zero i)
  | some m =>
    intro h hc
    have := List.index_of_argmin hm (List.mem_finRange i) (not_lt.1 hc)
    simp only [List.idxOf_finRange] at this
    exact absurd h (not_lt.2 this)

theorem topMax_first (f : Fin n → NelderMead.Val) (i : Fin n) (h : i < NelderMead.topMax f) : f i < f (NelderMead.topMax f) := by
  by_contra hc
  revert h hc
  unfold NelderMead.topMax
  cases hm : (List.finRange n).argmax f with
  | none => intro h; exact absurd h (Fin.not_lt_zero i)
  | some m =>
    intro h hc
    have := List.index_of_argmax hm (List.mem_finRange i) (not_lt.1 hc)
    simp only [List.idxOf_finRange] at this
    exact absurd h (not_lt.2 this)

variable {t : TopK n}

theorem smallest_eq (ht : SortsNumbers t) (f : Fin n → NelderMead.Val) :
    t.smallest (fun i => valToXR (f i)) = NelderMead.topMin f := by
  have h := ht.smallest (fun i => valToXR (f i)) fun i => val_ne_nan _
  simp only [val_lt] at h
  rcases lt_trichotomy (t.smallest fun i => valToXR (f i)) (NelderMead.topMin f) with h1 | h1 | h1
  · exact absurd (topMin_first f _ h1) (h _).1
  · exact h1
  · exact absurd ((h _).2 h1) (not_lt.2 (Props.topMin_le f _))

theorem largest_eq (ht : SortsNumbers t) (f : Fin n → NelderMead.Val) :
    t.largest (fun i => valToXR (f i)) = NelderMead.topMax f := by
  have h := ht.largest (fun i => valToXR (f i)) fun i => val_ne_nan _
  simp only [val_lt] at h
  rcases lt_trichotomy (t.largest fun i => valToXR (f i)) (NelderMead.topMax f) with h1 | h1 | h1
  · exact absurd (topMax_first f _ h1) (h _).1
  · exact h1
  · exact absurd ((h _).2 h1) (not_lt.2 (Props.le_topMax f _))

theorem second_eq (ht : SortsNumbers t) (f : Fin n → NelderMead.Val) :
    f (t.second fun i => valToXR (f i)) = NelderMead.secondMax f := by
  by_cases hn : 2 ≤ n
  · obtain ⟨i, hi, he⟩ := Props.secondMax_mem f hn
    have h := ht.second (fun i => valToXR (f i)) (fun i => val_ne_nan _)
    simp only [val_lt, largest_eq ht] at h
    obtain ⟨h1, h2⟩ := h i hi
    exact le_antisymm (Props.le_secondMax f _ h1) (he ▸ not_lt.1 h2)
  · have : Subsingleton (Fin n) := ⟨fun a b => Fin.ext (by have := a.2; have := b.2; omega)⟩
    unfold NelderMead.secondMax
    congr 1
    exact Subsingleton.elim _ _

/-- The state with values in `XR`. -/
noncomputable def lift (st : NelderMead.State n ι A) : NelderMeadNan.State n ι A :=
  { simplex := st.simplex, fSimplex := fun i => valToXR (st.fSimplex i), fBest := valToXR st.fBest, best := st.best,
    bestIndex := st.bestIndex, fWorst := valToXR st.fWorst, worst := st.worst, worstIndex := st.worstIndex,
    fSecondWorst := valToXR st.fSecondWorst, stats := st.stats, result := st.result, firstPass := st.firstPass, aux := st.aux,
    step := st.step }

omit [NeZero n] in
theorem mainStep_lift (fn : (ι → ℝ) → NelderMead.Val × A) (st : NelderMead.State n ι A) :
    mainStep (fun x => (valToXR (fn x).1, (fn x).2)) (lift st) =
      ((NelderMead.mainStep fn st).1, valToXR (NelderMead.mainStep fn st).2.1, (NelderMead.mainStep fn st).2.2) := by
  simp only [mainStep, NelderMead.mainStep, internalEval, NelderMead.internalEval, lift, val_lt]

theorem step_lift (ht : SortsNumbers t) (fn : (ι → ℝ) → NelderMead.Val × A) (y : ι → ℝ) (st : NelderMead.State n ι A) :
    step t (fun x => (valToXR (fn x).1, (fn x).2)) y (lift st) =
      ((NelderMead.step fn y st).1, lift (NelderMead.step fn y st).2.1, (NelderMead.step fn y st).2.2) := by
  have hT : (if (lift st).firstPass then initStep (lift st) else mainStep (fun x => (valToXR (fn x).1, (fn x).2)) (lift st)) =
      ((if st.firstPass then NelderMead.initStep st else NelderMead.mainStep fn st).1,
        valToXR (if st.firstPass then NelderMead.initStep st else NelderMead.mainStep fn st).2.1,
        (if st.firstPass then NelderMead.initStep st else NelderMead.mainStep fn st).2.2) := by
    rw [mainStep_lift]
    show (if st.firstPass then _ else _) = _
    split <;> rfl
  unfold step NelderMead.step
  simp only [hT]
  generalize (if st.firstPass then NelderMead.initStep st else NelderMead.mainStep fn st) = T
  have hu : ∀ (b : Bool) (best : ι → ℝ),
      (if b then shrinkSimplex (fun x => (valToXR (fn x).1, (fn x).2)) best (lift st).simplex (lift st).firstPass
        else updateSimplex (lift st).worstIndex T.1 (valToXR T.2.1) (lift st).fSimplex (lift st).simplex) =
      (fun i => valToXR ((if b then NelderMead.shrinkSimplex fn best st.simplex st.firstPass
        else NelderMead.updateSimplex st.worstIndex T.1 T.2.1 st.fSimplex st.simplex).1 i),
       (if b then NelderMead.shrinkSimplex fn best st.simplex st.firstPass
        else NelderMead.updateSimplex st.worstIndex T.1 T.2.1 st.fSimplex st.simplex).2) := by
    intro b best
    cases b
    · simp only [Bool.false_eq_true, if_false, updateSimplex, NelderMead.updateSimplex, lift]
      refine Prod.ext ?_ rfl
      funext i
      by_cases hi : i = st.worstIndex <;> simp [hi]
    · rfl
  have e1 : (lift st).fBest = valToXR st.fBest := rfl
  have e2 : (lift st).fWorst = valToXR st.fWorst := rfl
  have e3 : (lift st).firstPass = st.firstPass := rfl
  have e4 : (lift st).best = st.best := rfl
  have e5 : (lift st).simplex = st.simplex := rfl
  rw [hu]
  simp only [e1, e2, e3, e4, e5, val_lt, smallest_eq ht, largest_eq ht, second_eq ht]
  rfl

/-- **C119, values that are numbers or `+inf`.**  Where the objective is never NaN, `NelderMead` is the algorithm of the other
properties (C44, C60, C94, C101), however `lax.top_k` ranks NaN. -/
theorem C119_never_nan (cfg : NelderMead.Cfg n ι) (hr : 0 ≤ cfg.rtol) (ha : 0 < cfg.atol) (t : TopK n) (ht : SortsNumbers t)
    (fn : (ι → ℝ) → NelderMead.Val × A) (aux0 : A) (y0 : ι → ℝ) (af : (ι → ℝ) → Bool) (ms : Option ℕ) (throw : Bool) :
    Relabel.outcome (iterativeSolve (NelderMeadNan.solver (withRanking cfg t) aux0) af
      (fun x => (valToXR (fn x).1, (fn x).2)) aux0 y0 ms throw) =
    Relabel.outcome (iterativeSolve (NelderMead.solver cfg aux0) af fn aux0 y0 ms throw) := by
  have hsim : Simulates (NelderMead.solver cfg aux0) fn (NelderMeadNan.solver (withRanking cfg t) aux0)
      (fun x => (valToXR (fn x).1, (fn x).2)) id id lift := by
    refine ⟨fun y => ?_, fun y st => step_lift ht fn y st, fun y st => nelder_mead_test cfg hr ha st, fun _ _ _ _ => rfl, fun _ _ _ _ => rfl⟩
    show init _ _ _ = (NelderMead.init cfg aux0 y).map lift
    unfold init NelderMead.init
    split <;> rfl
  have := hsim.solve (allfinite := af) (allfinite' := af) (fun _ => rfl) aux0 y0 ms throw
  refine this.trans ?_
  cases Relabel.outcome (iterativeSolve (NelderMead.solver cfg aux0) af fn aux0 y0 ms throw) with
  | none => rfl
  | some r => cases r <;> rfl

/-! ### Success -/

/-- **C119, success.**  Whatever the objective and however `lax.top_k` ranks NaN: when the solve reports success then the values at
all vertices of the final simplex are finite. -/
theorem C119_success_is_finite (cfg : NelderMeadNan.Cfg n ι) (hF : HonestNorm cfg.normF) (fn : (ι → ℝ) → XR × A) (aux0 : A)
    (y0 : ι → ℝ) (af : (ι → ℝ) → Bool) (ms : Option ℕ) (throw : Bool) (sol : Solution (ι → ℝ) A (State n ι A) NelderMead.Stats)
    (h : iterativeSolve (NelderMeadNan.solver cfg aux0) af fn aux0 y0 ms throw = some (.ok sol))
    (hs : sol.result = .successful) (i : Fin n) : (sol.state.fSimplex i).isFinite = true := by
  obtain ⟨st0, hi, -, -, hst, -, -, hres⟩ := solve_spec _ _ _ _ _ _ _ _ h
  rw [hs] at hres
  split_ifs at hres with h1 h2
  have ht : (verdictAt (NelderMeadNan.solver cfg aux0) fn aux0 y0 st0 sol.numSteps) = (true, .successful) := by
    refine Prod.ext ?_ hres.symm
    by_contra hc
    exact h1 ⟨h2, Prod.ext (Bool.not_eq_true _ ▸ hc) hres.symm⟩
  have ht' : terminate cfg sol.state = (true, .successful) := hst ▸ ht
  unfold terminate NelderMeadAny.terminate at ht'
  dsimp only at ht'
  obtain ⟨h3, h4⟩ := Prod.mk.inj ht'
  cases hfb : sol.state.fBest.isFinite with
  | false => simp [hfb] at h4
  | true =>
    simp only [hfb, Bool.not_true, Bool.or_false, Bool.and_eq_true, decide_eq_true_eq] at h3
    have hn := h3.2
    obtain ⟨b, hb⟩ : ∃ b, sol.state.fBest = .fin b := by
      cases hc : sol.state.fBest <;> simp [hc, XR.isFinite] at hfb ⊢
    rw [hb] at hn
    have hfin := hF.finite _ (by
      cases hc : cfg.normF (fun i => HasAbs.abs (sol.state.fSimplex i - XR.fin b) /
        (XR.fin cfg.atol + XR.fin cfg.rtol * HasAbs.abs (XR.fin b))) with
      | fin r => rfl
      | pinf => rw [hc] at hn; exact absurd hn (XR.not_pinf_lt _)
      | ninf => exact absurd hc (hF.notNinf _)
      | nan => rw [hc] at hn; exact absurd hn (XR.not_nan_lt _)) i
    cases hv : sol.state.fSimplex i with
    | fin r => rfl
    | _ =>
      rw [hv] at hfin
      simp only [XR.abs_fin, XR.mul_fin, XR.add_fin] at hfin
      revert hfin
      simp [HSub.hSub, Sub.sub, XR.add, XR.neg, HasAbs.abs, XR.abs, HDiv.hDiv, Div.div, XR.div, XR.isFinite]
      try split_ifs <;> simp

/-! ### NaN enters the simplex -/

/-- **C119, a NaN vertex is taken.**  Whenever the objective is NaN at the reflected vertex, the reflected vertex replaces the worst
vertex of the simplex, whose point and value are lost; no contraction is tried and the simplex is not shrunk.  However `lax.top_k` ranks
NaN. -/
theorem C119_nan_is_taken (cfg : NelderMeadNan.Cfg n ι) (fn : (ι → ℝ) → XR × A) (aux0 : A) (y0 : ι → ℝ) (st0 : State n ι A)
    (k : ℕ) (hk : 1 ≤ k) :
    let S := NelderMeadNan.solver cfg aux0
    let st := stateAt S fn aux0 y0 st0 k
    let reflected : ι → ℝ := fun c => st.worst c + 2 * ∑ i, (st.simplex i c - st.worst c) / ((n : ℝ) - 1)
    (fn reflected).1 = .nan →
      (stateAt S fn aux0 y0 st0 (k + 1)).simplex = (fun i => if i = st.worstIndex then reflected else st.simplex i) ∧
      (stateAt S fn aux0 y0 st0 (k + 1)).fSimplex = (fun i => if i = st.worstIndex then .nan else st.fSimplex i) := by
  intro S st reflected hnan
  have hfp : st.firstPass = false := by
    obtain ⟨j, rfl⟩ : ∃ j, k = j + 1 := ⟨k - 1, by omega⟩
    rfl
  have hm : mainStep fn st = (reflected, .nan, NelderMead.updateStats st.stats false false true false false, (fn reflected).2) := by
    have e : NelderMead.along st.worst (NelderMead.searchDirection st.simplex st.worst) 2 = reflected := rfl
    simp only [mainStep, e, hnan, internalEval, XR.not_nan_lt, XR.not_lt_nan, decide_false, Bool.false_eq_true, if_false, Bool.or_self,
      Bool.not_false, Bool.and_self]
  have hstep : stateAt S fn aux0 y0 st0 (k + 1) = (step cfg.topK fn (iterateAt S fn aux0 y0 st0 k) st).2.1 := rfl
  rw [hstep]
  simp only [step, hfp, Bool.false_eq_true, if_false, hm, XR.not_lt_nan, decide_false, updateSimplex, and_self]

/-- **C119, and ends the solve.**  If `lax.top_k` puts NaN first when it looks for the best vertex, then the solve stops with
`nonlinear_divergence` as soon as the objective is NaN at some vertex, however good the others are. -/
theorem C119_nan_ends_the_solve (cfg : NelderMeadNan.Cfg n ι) (hnf : NanComesFirst cfg.topK) (fn : (ι → ℝ) → XR × A) (aux0 : A)
    (y0 : ι → ℝ) (ms : Option ℕ) (throw : Bool) (sol : Solution (ι → ℝ) A (State n ι A) NelderMead.Stats)
    (h : iterativeSolve (NelderMeadNan.solver cfg aux0) (fun _ => true) fn aux0 y0 ms throw = some (.ok sol)) (st0 : State n ι A)
    (hi : (NelderMeadNan.solver cfg aux0).init fn y0 = .ok st0) (k : ℕ) (hk : 1 ≤ k) (hks : k ≤ sol.numSteps)
    (hnan : ∃ i, (stateAt (NelderMeadNan.solver cfg aux0) fn aux0 y0 st0 k).fSimplex i = .nan) :
    sol.numSteps = k ∧ sol.result = .nonlinearDivergence := by
  obtain ⟨st0', hi', hlt, -, hst, -, -, hres⟩ := solve_spec _ _ _ _ _ _ _ _ h
  obtain rfl : st0' = st0 := by rw [hi] at hi'; exact (Except.ok.inj hi').symm
  have hv : (verdictAt (NelderMeadNan.solver cfg aux0) fn aux0 y0 st0' k) = (true, .nonlinearDivergence) := by
    obtain ⟨j, rfl⟩ : ∃ j, k = j + 1 := ⟨k - 1, by omega⟩
    have hb : (stateAt (NelderMeadNan.solver cfg aux0) fn aux0 y0 st0' (j + 1)).fBest = .nan := hnf _ hnan
    show terminate cfg (stateAt (NelderMeadNan.solver cfg aux0) fn aux0 y0 st0' (j + 1)) = _
    simp [terminate, NelderMeadAny.terminate, hb, XR.isFinite]
  have hnc : ¬ Continues (NelderMeadNan.solver cfg aux0) (fun _ => true) fn aux0 y0 st0' k := by
    rintro ⟨-, h2⟩
    rw [hv] at h2
    cases h2
  have hk' : sol.numSteps = k := by
    by_contra hne
    exact hnc (hlt k (by omega))
  refine ⟨hk', ?_⟩
  rw [hres, hk', if_neg hnc, hv]
  rfl

/-! ### An example -/

/-- `x` where `x ≥ 0`, undefined otherwise. -/
noncomputable def halfLine (x : Unit → ℝ) : XR × Unit := (if 0 ≤ x () then .fin (x ()) else .nan, ())

/-- `NelderMead(rtol, atol)` starting with the vertices `y0` and `3`. -/
noncomputable def fromThree (rtol atol : ℝ) (t : TopK 2) : NelderMeadNan.Cfg 2 Unit :=
  { rtol, atol, normX := liftNorm maxNorm, normF := liftNorm maxNorm, mkSimplex := fun y => ![y, fun _ => 3], topK := t }

theorem ranks_two (t : TopK 2) (ht : SortsNumbers t) (a b : ℝ) (hab : a < b) (f : Fin 2 → XR) (h0 : f 0 = .fin a) (h1 : f 1 = .fin b) :
    t.smallest f = 0 ∧ t.largest f = 1 := by
  have hn : ∀ i, f i ≠ .nan := by
    intro i
    fin_cases i
    · show f 0 ≠ _; rw [h0]; exact fun h => nomatch h
    · show f 1 ≠ _; rw [h1]; exact fun h => nomatch h
  constructor
  · by_contra hc
    have h : t.smallest f = 1 := by omega
    have := (ht.smallest f hn 0).1
    rw [h, h0, h1] at this
    exact this hab
  · by_contra hc
    have h : t.largest f = 0 := by omega
    have := (ht.largest f hn 1).1
    rw [h, h0, h1] at this
    exact this hab

/-- **C119 is false of the code.**  Minimising `x` on `x ≥ 0` (NaN elsewhere) from the simplex `1, 3`: however NaN is ranked, the second
step replaces the vertex `3` by `-1`, where the objective is NaN.  If NaN is ranked first the solve then ends with `nonlinear_divergence`
and returns `3`, which is worse than the point `1` it was started from. -/
theorem C119_nan_wrong (rtol atol : ℝ) (ha : 0 < atol) (hr : 0 ≤ rtol) (hs : atol + rtol ≤ 1) (t : TopK 2) (ht : SortsNumbers t) :
    (∀ st0, (NelderMeadNan.solver (fromThree rtol atol t) ()).init halfLine (fun _ => 1) = .ok st0 →
      (stateAt (NelderMeadNan.solver (fromThree rtol atol t) ()) halfLine () (fun _ => 1) st0 2).simplex = ![fun _ => 1, fun _ => -1] ∧
      (stateAt (NelderMeadNan.solver (fromThree rtol atol t) ()) halfLine () (fun _ => 1) st0 2).fSimplex = ![.fin 1, .nan]) ∧
    (NanComesFirst t → ∀ ms : Option ℕ, (∀ m, ms = some m → 2 ≤ m) →
      ∃ sol, iterativeSolve (NelderMeadNan.solver (fromThree rtol atol t) ()) (fun _ => true) halfLine () (fun _ => 1) ms false =
          some (.ok sol) ∧ sol.result = .nonlinearDivergence ∧ sol.value = (fun _ => 3) ∧
        (halfLine fun _ => 1).1 < (halfLine sol.value).1) := by
  set S := NelderMeadNan.solver (fromThree rtol atol t) () with hS
  obtain ⟨st0, hi⟩ : ∃ st0, S.init halfLine (fun _ => 1) = .ok st0 := ⟨_, rfl⟩
  have f1 : (halfLine fun _ => 1).1 = .fin 1 := by simp [halfLine]
  have f3 : (halfLine fun _ => 3).1 = .fin 3 := by simp [halfLine]
  have hst0 := Except.ok.inj hi
  have hsx0 : st0.simplex = ![fun _ => 1, fun _ => 3] := by rw [← hst0]; rfl
  have hfp0 : st0.firstPass = true := by rw [← hst0]
  -- after the first step
  set st1 := stateAt S halfLine () (fun _ => 1) st0 1 with hst1
  have e1 : st1 = (step t halfLine (fun _ => 1) st0).2.1 := rfl
  have hsx1 : st1.simplex = ![fun _ => 1, fun _ => 3] := by
    rw [e1]
    simp only [step, hfp0, if_true, shrinkSimplex, hsx0]
  have hfs1 : st1.fSimplex = ![.fin 1, .fin 3] := by
    rw [e1]
    simp only [step, hfp0, if_true, shrinkSimplex, hsx0]
    funext i
    fin_cases i
    · exact f1
    · exact f3
  obtain ⟨r1, r2⟩ := ranks_two t ht 1 3 (by norm_num) st1.fSimplex (by rw [hfs1]; rfl) (by rw [hfs1]; rfl)
  have hw1 : st1.worst = fun _ => 3 := by
    have : st1.worst = st0.simplex (t.largest st1.fSimplex) := rfl
    rw [this, r2, hsx0]; rfl
  have hb1 : st1.best = fun _ => 1 := by
    have : st1.best = st0.simplex (t.smallest st1.fSimplex) := rfl
    rw [this, r1, hsx0]; rfl
  have hwi1 : st1.worstIndex = 1 := r2
  have hfb1 : st1.fBest = .fin 1 := by
    have : st1.fBest = st1.fSimplex (t.smallest st1.fSimplex) := rfl
    rw [this, r1, hfs1]; rfl
  -- the second step
  have hrefl : (fun c => st1.worst c + 2 * ∑ i, (st1.simplex i c - st1.worst c) / (((2 : ℕ) : ℝ) - 1)) = fun _ : Unit => (-1 : ℝ) := by
    funext c
    rw [hw1, hsx1, Fin.sum_univ_two]
    norm_num
  have key := C119_nan_is_taken (fromThree rtol atol t) halfLine () (fun _ => 1) st0 1 le_rfl
  dsimp only at key
  rw [← hS, ← hst1, hrefl, hwi1, hsx1, hfs1] at key
  obtain ⟨k1, k2⟩ := key (by simp [halfLine])
  have hsx2 : (stateAt S halfLine () (fun _ => 1) st0 2).simplex = ![fun _ => 1, fun _ => -1] := by
    rw [k1]; funext i; fin_cases i <;> rfl
  have hfs2 : (stateAt S halfLine () (fun _ => 1) st0 2).fSimplex = ![.fin 1, .nan] := by
    rw [k2]; funext i; fin_cases i <;> rfl
  refine ⟨fun st0' hi' => ?_, fun hnf ms hms => ?_⟩
  · obtain rfl : st0 = st0' := by rw [hi] at hi'; exact Except.ok.inj hi'
    exact ⟨hsx2, hfs2⟩
  · have c0 : Continues S (fun _ => true) halfLine () (fun _ => 1) st0 0 := by
      refine ⟨rfl, ?_⟩
      show terminate (fromThree rtol atol t) st0 = _
      have hfb : st0.fBest = .fin 0 := by rw [← hst0]
      have hf : st0.fSimplex = fun _ => .pinf := by rw [← hst0]
      have hF : ¬ liftNorm (maxNorm (ι := Fin 2)) (fun _ => XR.pinf) < 1 := by
        unfold liftNorm
        rw [if_neg (by rintro ⟨i, hi⟩; cases hi), if_pos ⟨0, rfl⟩]
        exact XR.not_pinf_lt _
      have hq : HasAbs.abs (XR.pinf - XR.fin 0) / (XR.fin atol + XR.fin rtol * HasAbs.abs (XR.fin 0)) = .pinf := by
        rw [XR.pinf_sub_fin]
        simp only [XR.abs_fin, XR.mul_fin, XR.add_fin]
        exact XR.pinf_div_fin _ (by positivity)
      simp only [terminate, NelderMeadAny.terminate, hfb, hf, fromThree, hq, hF, decide_false, Bool.and_false, XR.isFinite_fin,
        Bool.not_true, Bool.or_self, Bool.false_eq_true, if_false]
    have c1 : Continues S (fun _ => true) halfLine () (fun _ => 1) st0 1 := by
      refine ⟨rfl, ?_⟩
      show terminate (fromThree rtol atol t) st1 = _
      have hX : ¬ liftNorm (maxNorm (ι := Fin 2 × Unit)) (fun p => HasAbs.abs (XR.fin (st1.simplex p.1 p.2) - XR.fin (st1.best p.2)) /
          (XR.fin atol + XR.fin rtol * HasAbs.abs (XR.fin (st1.best p.2)))) < 1 := by
        have hx : (fun p : Fin 2 × Unit => HasAbs.abs (XR.fin (st1.simplex p.1 p.2) - XR.fin (st1.best p.2)) /
          (XR.fin atol + XR.fin rtol * HasAbs.abs (XR.fin (st1.best p.2)))) =
            fun p => XR.fin (|st1.simplex p.1 p.2 - st1.best p.2| / (atol + rtol * |st1.best p.2|)) := by
          funext p
          simp only [XR.sub_fin, XR.abs_fin, XR.mul_fin, XR.add_fin]
          exact XR.div_fin _ _ (by positivity)
        rw [hx, liftNorm_fin]
        have := abs_le_maxNorm (fun p : Fin 2 × Unit => |st1.simplex p.1 p.2 - st1.best p.2| / (atol + rtol * |st1.best p.2|)) (1, ())
        have h2 : |st1.simplex 1 () - st1.best ()| / (atol + rtol * |st1.best ()|) = 2 / (atol + rtol) := by
          rw [hb1, hsx1]; norm_num
        rw [h2, abs_of_nonneg (by positivity)] at this
        have h3 : (1 : ℝ) ≤ 2 / (atol + rtol) := by
          rw [le_div_iff₀ (by positivity)]; linarith
        exact not_lt.2 (h3.trans this)
      simp only [terminate, NelderMeadAny.terminate, hfb1, fromThree, hX, decide_false, Bool.false_and, XR.isFinite_fin,
        Bool.not_true, Bool.or_self, Bool.false_eq_true, if_false]
    have hfin : ¬ Continues S (fun _ => true) halfLine () (fun _ => 1) st0 2 := by
      rintro ⟨-, h2⟩
      have hb : (stateAt S halfLine () (fun _ => 1) st0 2).fBest = .nan :=
        hnf (stateAt S halfLine () (fun _ => 1) st0 2).fSimplex ⟨1, by rw [hfs2]; rfl⟩
      have : verdictAt S halfLine () (fun _ => 1) st0 2 = (true, .nonlinearDivergence) := by
        show terminate (fromThree rtol atol t) (stateAt S halfLine () (fun _ => 1) st0 2) = _
        simp [terminate, NelderMeadAny.terminate, hb, XR.isFinite]
      rw [this] at h2
      cases h2
    obtain ⟨sol, h, hsteps⟩ := solve_exists S (fun _ => true) halfLine () (fun _ => 1) st0 hi ms 2
      (fun j hj => by interval_cases j <;> assumption) (.inl ⟨hfin, hms⟩)
    have hres := C119_nan_ends_the_solve (fromThree rtol atol t) hnf halfLine () (fun _ => 1) ms false sol h st0 hi 2 (by norm_num)
      hsteps.ge ⟨1, by rw [hfs2]; rfl⟩
    have hval : sol.value = fun _ => 3 := by
      obtain ⟨st0', hi', -, -, -, -, hp, -⟩ := solve_spec _ _ _ _ _ _ _ _ h
      obtain rfl : st0 = st0' := by rw [hi] at hi'; exact Except.ok.inj hi'
      have h1 : sol.value = iterateAt S halfLine () (fun _ => 1) st0 2 := by
        rw [hsteps] at hp; exact (Prod.mk.inj hp).1
      have h2 : iterateAt S halfLine () (fun _ => 1) st0 2 =
          st1.simplex (t.smallest (stateAt S halfLine () (fun _ => 1) st0 2).fSimplex) := rfl
      have h3 : t.smallest (stateAt S halfLine () (fun _ => 1) st0 2).fSimplex = 1 := by
        by_contra hc
        have h4 : t.smallest (stateAt S halfLine () (fun _ => 1) st0 2).fSimplex = 0 := by omega
        have := hnf (stateAt S halfLine () (fun _ => 1) st0 2).fSimplex ⟨1, by rw [hfs2]; rfl⟩
        rw [h4, hfs2] at this
        cases this
      rw [h1, h2, h3, hsx1]; rfl
    refine ⟨sol, h, hres.2, hval, ?_⟩
    rw [hval, f1, f3]
    show (1 : ℝ) < 3
    norm_num

/-! ### Reporting `+inf` instead -/

/-- **C119** if the objective is `+inf` where it is undefined: as long as the values at the vertices are finite, a step either replaces the
worst vertex by a point with a finite value or shrinks the simplex; a point where the objective is undefined is not taken.  (Partial: the
objective has to return `+inf` instead of NaN; and a shrink may put vertices where the objective is undefined.) -/
theorem C119_infinity_partial (cfg : NelderMead.Cfg n ι) (fn : (ι → ℝ) → NelderMead.Val × A) (aux0 : A) (y0 : ι → ℝ)
    (st0 : NelderMead.State n ι A) (k : ℕ) (hk : 1 ≤ k) :
    let S := NelderMead.solver cfg aux0
    let st := stateAt S fn aux0 y0 st0 k
    let next := stateAt S fn aux0 y0 st0 (k + 1)
    (∀ i, st.fSimplex i ≠ ⊤) →
      (∃ v, (fn v).1 ≠ ⊤ ∧ next.simplex = (fun i => if i = st.worstIndex then v else st.simplex i) ∧
        next.fSimplex = fun i => if i = st.worstIndex then (fn v).1 else st.fSimplex i) ∨
      (next.simplex = (fun i c => (st.best c + st.simplex i c) / 2) ∧ next.fSimplex = fun i => (fn (next.simplex i)).1) := by
  intro S st next hfin
  obtain ⟨j, rfl⟩ : ∃ j, k = j + 1 := ⟨k - 1, by omega⟩
  have hfp : st.firstPass = false := rfl
  have hw : ∃ i, st.fWorst = st.fSimplex i := ⟨_, rfl⟩
  have hbw : st.fBest ≤ st.fWorst := Props.topMin_le st.fSimplex (NelderMead.topMax st.fSimplex)
  have e : next = (NelderMead.step fn (iterateAt S fn aux0 y0 st0 (j + 1)) st).2.1 := rfl
  set v := (NelderMead.mainStep fn st).1 with hv
  have hf : (NelderMead.mainStep fn st).2.1 = (fn v).1 := rfl
  by_cases hc : st.fWorst < (fn v).1
  · right
    have hnb : ¬ (fn v).1 < st.fBest := not_lt.2 (hbw.trans hc.le)
    have h1 : next.simplex = fun i c => st.best c + 1 / 2 * (st.simplex i c - st.best c) := by
      rw [e]
      simp only [NelderMead.step, hfp, Bool.false_eq_true, if_false, hf, hc, hnb, decide_true, decide_false, if_true,
        NelderMead.shrinkSimplex]
    have h2 : next.fSimplex = fun i => (fn (fun c => st.best c + 1 / 2 * (st.simplex i c - st.best c))).1 := by
      rw [e]
      simp only [NelderMead.step, hfp, Bool.false_eq_true, if_false, hf, hc, hnb, decide_true, decide_false, if_true,
        NelderMead.shrinkSimplex]
    refine ⟨?_, ?_⟩
    · rw [h1]; funext i c; ring
    · rw [h2, h1]
  · left
    refine ⟨v, ?_, ?_, ?_⟩
    · obtain ⟨i, hi⟩ := hw
      intro htop
      rw [htop, not_lt, top_le_iff, hi] at hc
      exact hfin i hc
    · rw [e]
      simp only [NelderMead.step, hfp, Bool.false_eq_true, if_false, hf, hc, decide_false, NelderMead.updateSimplex, ← hv]
    · rw [e]
      simp only [NelderMead.step, hfp, Bool.false_eq_true, if_false, hf, hc, decide_false, NelderMead.updateSimplex]

/-! ### The assumptions are met -/

/-- The place of a value when NaN comes first. -/
noncomputable def keyFirst : XR → WithBot EReal
  | .nan => ⊥
  | .ninf => ((⊥ : EReal) : WithBot EReal)
  | .fin r => ((r : EReal) : WithBot EReal)
  | .pinf => ((⊤ : EReal) : WithBot EReal)

/-- The place of a value when NaN comes last. -/
noncomputable def keyLast : XR → WithTop EReal
  | .nan => ⊤
  | .ninf => ((⊥ : EReal) : WithTop EReal)
  | .fin r => ((r : EReal) : WithTop EReal)
  | .pinf => ((⊤ : EReal) : WithTop EReal)

theorem keyFirst_lt {a b : XR} (ha : a ≠ .nan) (hb : b ≠ .nan) : keyFirst a < keyFirst b ↔ a < b := by
  cases a <;> cases b <;> first
    | exact absurd rfl ha
    | exact absurd rfl hb
    | (simp only [keyFirst, WithBot.coe_lt_coe, EReal.coe_lt_coe_iff]; exact Iff.rfl)
    | (refine ⟨fun _ => trivial, fun _ => WithBot.coe_lt_coe.2 ?_⟩; simp)
    | (refine ⟨fun h => ?_, fun h => h.elim⟩; simp [keyFirst] at h)

theorem keyLast_lt {a b : XR} (ha : a ≠ .nan) (hb : b ≠ .nan) : keyLast a < keyLast b ↔ a < b := by
  cases a <;> cases b <;> first
    | exact absurd rfl ha
    | exact absurd rfl hb
    | (simp only [keyLast, WithTop.coe_lt_coe, EReal.coe_lt_coe_iff]; exact Iff.rfl)
    | (refine ⟨fun _ => trivial, fun _ => WithTop.coe_lt_coe.2 ?_⟩; simp)
    | (refine ⟨fun h => ?_, fun h => h.elim⟩; simp [keyLast] at h)

/-- The ranking given by a linear order: the first of the smallest, the first of the largest, the largest of the others. -/
noncomputable def rankBy {L : Type} [LinearOrder L] (key : XR → L) : TopK n where
  smallest f := ((List.finRange n).argmin fun i => key (f i)).getD 0
  largest f := ((List.finRange n).argmax fun i => key (f i)).getD 0
  second f := (((List.finRange n).filter fun j => j ≠ ((List.finRange n).argmax fun i => key (f i)).getD 0).argmax
    fun i => key (f i)).getD 0

theorem rankBy_smallest {L : Type} [LinearOrder L] (key : XR → L) (f : Fin n → XR) (i : Fin n) :
    key (f ((rankBy key).smallest f)) ≤ key (f i) ∧
      (i < (rankBy key).smallest f → key (f ((rankBy key).smallest f)) < key (f i)) := by
  have : ∃ m, (List.finRange n).argmin (fun i => key (f i)) = some m := by
    rw [← Option.ne_none_iff_exists', ne_eq, List.argmin_eq_none]
    intro h
    have := List.mem_finRange i
    rw [h] at this; cases this
  obtain ⟨m, hm⟩ := this
  have e : (rankBy key).smallest f = m := by simp only [rankBy, hm, Option.getD_some]
  rw [e]
  refine ⟨List.le_of_mem_argmin (f := fun i => key (f i)) (List.mem_finRange i) hm, fun h => ?_⟩
  by_contra hc
  have := List.index_of_argmin hm (List.mem_finRange i) (not_lt.1 hc)
  simp only [List.idxOf_finRange] at this
  exact absurd h (not_lt.2 this)

theorem rankBy_largest {L : Type} [LinearOrder L] (key : XR → L) (f : Fin n → XR) (i : Fin n) :
    key (f i) ≤ key (f ((rankBy key).largest f)) ∧
      (i < (rankBy key).largest f → key (f i) < key (f ((rankBy key).largest f))) := by
  have : ∃ m, (List.finRange n).argmax (fun i => key (f i)) = some m := by
    rw [← Option.ne_none_iff_exists', ne_eq, List.argmax_eq_none]
    intro h
    have := List.mem_finRange i
    rw [h] at this; cases this
  obtain ⟨m, hm⟩ := this
  have e : (rankBy key).largest f = m := by simp only [rankBy, hm, Option.getD_some]
  rw [e]
  refine ⟨List.le_of_mem_argmax (f := fun i => key (f i)) (List.mem_finRange i) hm, fun h => ?_⟩
  by_contra hc
  have := List.index_of_argmax hm (List.mem_finRange i) (not_lt.1 hc)
  simp only [List.idxOf_finRange] at this
  exact absurd h (not_lt.2 this)

theorem rankBy_second {L : Type} [LinearOrder L] (key : XR → L) (f : Fin n → XR) (i : Fin n) (hi : i ≠ (rankBy key).largest f) :
    (rankBy key).second f ≠ (rankBy key).largest f ∧ key (f i) ≤ key (f ((rankBy key).second f)) := by
  have hmem : i ∈ (List.finRange n).filter fun j => j ≠ (rankBy key).largest f := by simp [hi]
  have : ∃ m, ((List.finRange n).filter fun j => j ≠ (rankBy key).largest f).argmax (fun i => key (f i)) = some m := by
    rw [← Option.ne_none_iff_exists', ne_eq, List.argmax_eq_none]
    intro h
    rw [h] at hmem; cases hmem
  obtain ⟨m, hm⟩ := this
  have e : (rankBy key).second f = m := by
    show (List.argmax _ _).getD 0 = m
    exact (congrArg (fun o => Option.getD o 0) hm).trans rfl
  rw [e]
  have h1 := List.argmax_mem hm
  exact ⟨by simpa using h1, List.le_of_mem_argmax (f := fun i => key (f i)) hmem hm⟩

theorem rankBy_sorts {L : Type} [LinearOrder L] (key : XR → L) (hkey : ∀ a b, a ≠ XR.nan → b ≠ XR.nan → (key a < key b ↔ a < b)) :
    SortsNumbers (rankBy key : TopK n) where
  smallest f hf i := by
    have h := rankBy_smallest key f i
    exact ⟨(hkey _ _ (hf _) (hf _)).not.1 (not_lt.2 h.1), fun hi => (hkey _ _ (hf _) (hf _)).1 (h.2 hi)⟩
  largest f hf i := by
    have h := rankBy_largest key f i
    exact ⟨(hkey _ _ (hf _) (hf _)).not.1 (not_lt.2 h.1), fun hi => (hkey _ _ (hf _) (hf _)).1 (h.2 hi)⟩
  second f hf i hi := by
    have h := rankBy_second key f i hi
    exact ⟨h.1, (hkey _ _ (hf _) (hf _)).not.1 (not_lt.2 h.2)⟩

/-- Both ways of ranking NaN are possible. -/
theorem rankings_exist : (∃ t : TopK n, SortsNumbers t ∧ NanComesFirst t) ∧ ∃ t : TopK n, SortsNumbers t ∧ NanComesLast t := by
  refine ⟨⟨rankBy keyFirst, rankBy_sorts _ fun _ _ => keyFirst_lt, ?_⟩, ⟨rankBy keyLast, rankBy_sorts _ fun _ _ => keyLast_lt, ?_⟩⟩
  · rintro f ⟨i, hi⟩
    have h := (rankBy_smallest keyFirst f i).1
    rw [hi] at h
    cases hc : f ((rankBy keyFirst).smallest f) with
    | nan => rfl
    | _ => rw [hc] at h; simp [keyFirst] at h
  · rintro f ⟨i, hi⟩ hc
    have h := (rankBy_smallest keyLast f i).1
    rw [hc] at h
    cases hv : f i with
    | nan => exact hi hv
    | _ => rw [hv] at h; simp [keyLast] at h

/-- The witness applies with the default tolerances of the tests, and with a ranking that puts NaN first. -/
example : ∃ t : TopK 2, SortsNumbers t ∧ ∃ sol, iterativeSolve (NelderMeadNan.solver (fromThree 1e-3 1e-6 t) ()) (fun _ => true)
    halfLine () (fun _ => 1) (some 256) false = some (.ok sol) ∧ sol.result = .nonlinearDivergence := by
  obtain ⟨t, h1, h2⟩ := (rankings_exist (n := 2)).1
  obtain ⟨sol, h3, h4, -⟩ := (C119_nan_wrong 1e-3 1e-6 (by norm_num) (by norm_num) (by norm_num) t h1).2 h2 (some 256)
    (fun m hm => by have := Option.some.inj hm; omega)
  exact ⟨t, h1, sol, h3, h4⟩

/-- An honest norm: the lifted maximum norm (`C119_success_is_finite`). -/
example : HonestNorm (liftNorm (maxNorm (ι := Fin 2))) where
  finite x h i := by
    unfold liftNorm at h
    split_ifs at h with h1 h2
    · cases h
    · cases h
    · by_contra hc
      exact h2 ⟨i, Bool.not_eq_true _ ▸ hc⟩
  notNinf x h := by
    unfold liftNorm at h
    split_ifs at h

end Verif.NanSimplex
