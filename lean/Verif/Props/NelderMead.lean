import Verif.Model.NelderMead
import Verif.Spec.Trace
import Verif.Props.Driver
import Verif.Lemmas.Norms
import Mathlib.LinearAlgebra.AffineSpace.Independent
import Mathlib.Tactic.Linarith
import Mathlib.Tactic.NormNum

/-! C44, C45, C60 (and C09): the Nelder-Mead minimiser. -/

namespace Verif.Props

open Verif Verif.Spec Verif.Driver Verif.NelderMead

theorem coe_untop (v : Val) (h : v ≠ ⊤) : v = ((v.untopD 0 : ℝ) : Val) := by
  cases v using WithTop.recTopCoe with
  | top => exact absurd rfl h
  | coe a => rfl

section
variable {n : Nat} [NeZero n]

theorem topMin_le (f : Fin n → Val) (i : Fin n) : f (topMin f) ≤ f i := by
  unfold topMin
  cases h : (List.finRange n).argmin f with
  | none =>
    rw [List.argmin_eq_none] at h
    have : i ∈ List.finRange n := List.mem_finRange i
    rw [h] at this; cases this
  | some m => exact List.le_of_mem_argmin (List.mem_finRange i) h

theorem le_topMax (f : Fin n → Val) (i : Fin n) : f i ≤ f (topMax f) := by
  unfold topMax
  cases h : (List.finRange n).argmax f with
  | none =>
    rw [List.argmax_eq_none] at h
    have : i ∈ List.finRange n := List.mem_finRange i
    rw [h] at this; cases this
  | some m => exact List.le_of_mem_argmax (List.mem_finRange i) h

theorem le_secondMax (f : Fin n → Val) (i : Fin n) (hi : i ≠ topMax f) : f i ≤ secondMax f := by
  unfold secondMax
  have hm : i ∈ (List.finRange n).filter fun i => i ≠ topMax f := by
    simp [hi]
  cases h : ((List.finRange n).filter fun i => i ≠ topMax f).argmax f with
  | none =>
    rw [List.argmax_eq_none] at h
    rw [h] at hm; cases hm
  | some m => exact List.le_of_mem_argmax hm h

theorem secondMax_mem (f : Fin n → Val) (hn : 2 ≤ n) : ∃ i, i ≠ topMax f ∧ secondMax f = f i := by
  unfold secondMax
  cases h : ((List.finRange n).filter fun i => i ≠ topMax f).argmax f with
  | none =>
    rw [List.argmax_eq_none] at h
    have : Nontrivial (Fin n) := Fin.nontrivial_iff_two_le.2 hn
    obtain ⟨i, hi⟩ := exists_ne (topMax f)
    have hm : i ∈ (List.finRange n).filter fun i => i ≠ topMax f := by simp [hi]
    rw [h] at hm; cases hm
  | some m =>
    have := List.argmax_mem h
    exact ⟨m, by simpa using this, rfl⟩

variable {ι A : Type} (cfg : Cfg n ι) (aux0 : A) (fn : (ι → ℝ) → Val × A) (y0 : ι → ℝ)

/-- The trial vertex of the next step from a state. -/
noncomputable def trialOf (st : State n ι A) : ι → ℝ := (mainStep fn st).1

/-- The reflected point of the next step from a state. -/
noncomputable def reflectionOf (st : State n ι A) : ι → ℝ := along st.worst (searchDirection st.simplex st.worst) 2

/-- What holds of every state after the first step. -/
structure NMInv (st : State n ι A) : Prop where
  started : st.firstPass = false
  values : ∀ i, st.fSimplex i = (fn (st.simplex i)).1
  best : st.fBest = st.fSimplex st.bestIndex
  bestIndex : st.bestIndex = topMin st.fSimplex
  worst : st.fWorst = st.fSimplex st.worstIndex
  worstIndex : st.worstIndex = topMax st.fSimplex
  second : st.fSecondWorst = secondMax st.fSimplex

theorem nm_first (st : State n ι A) (y : ι → ℝ) (h : st.firstPass = true) :
    (NelderMead.step fn y st).2.1.simplex = st.simplex ∧ NMInv fn (NelderMead.step fn y st).2.1 ∧
    (NelderMead.step fn y st).1 = st.simplex (NelderMead.step fn y st).2.1.bestIndex ∧
    (NelderMead.step fn y st).2.2 = st.aux := by
  refine ⟨by simp [NelderMead.step, h, shrinkSimplex], ⟨rfl, ?_, rfl, rfl, rfl, rfl, rfl⟩, rfl,
    by simp [NelderMead.step, h, initStep]⟩
  intro i
  simp [NelderMead.step, h, shrinkSimplex]

/-- A step is a shrink: the trial vertex is worse than the worst recorded value. -/
def Shrinks (st : State n ι A) : Prop := st.fWorst < (fn (trialOf fn st)).1

/-- The point about which a shrink step shrinks. -/
noncomputable def shrinkCentre (st : State n ι A) : ι → ℝ :=
  if decide ((mainStep fn st).2.1 < st.fBest) then (mainStep fn st).1 else st.best

theorem nm_shrink (st : State n ι A) (y : ι → ℝ) (h : st.firstPass = false) (hs : Shrinks fn st) :
    (NelderMead.step fn y st).2.1.simplex =
      (fun i c => shrinkCentre fn st c + 1 / 2 * (st.simplex i c - shrinkCentre fn st c)) ∧
    NMInv fn (NelderMead.step fn y st).2.1 := by
  have hs' : st.fWorst < (fn (mainStep fn st).1).1 := hs
  have e : (mainStep fn st).2.1 = (fn (mainStep fn st).1).1 := rfl
  refine ⟨?_, ⟨rfl, ?_, rfl, rfl, rfl, rfl, rfl⟩⟩
  · have hs2 : st.fWorst < (mainStep fn st).2.1 := hs
    simp only [NelderMead.step, h, hs2, shrinkSimplex, Bool.false_eq_true, if_false, decide_true, if_true]
    rfl
  · intro i
    simp only [NelderMead.step, h, e, hs', shrinkSimplex, Bool.false_eq_true, if_false, decide_true, if_true]

theorem nm_update (st : State n ι A) (y : ι → ℝ) (h : NMInv fn st) (hs : ¬ Shrinks fn st) :
    (NelderMead.step fn y st).2.1.simplex = (fun i => if i = st.worstIndex then trialOf fn st else st.simplex i) ∧
    (NelderMead.step fn y st).2.1.fSimplex = (fun i => if i = st.worstIndex then (fn (trialOf fn st)).1 else st.fSimplex i) ∧
    NMInv fn (NelderMead.step fn y st).2.1 := by
  have hs' : ¬ st.fWorst < (fn (mainStep fn st).1).1 := hs
  have e : (mainStep fn st).2.1 = (fn (mainStep fn st).1).1 := rfl
  have h1 : (NelderMead.step fn y st).2.1.simplex = fun i => if i = st.worstIndex then trialOf fn st else st.simplex i := by
    simp only [NelderMead.step, h.started, e, hs', updateSimplex, trialOf, Bool.false_eq_true, if_false, decide_false]
  have h2 : (NelderMead.step fn y st).2.1.fSimplex =
      fun i => if i = st.worstIndex then (fn (trialOf fn st)).1 else st.fSimplex i := by
    simp only [NelderMead.step, h.started, e, hs', updateSimplex, trialOf, Bool.false_eq_true, if_false, decide_false]
  refine ⟨h1, h2, ⟨rfl, ?_, rfl, rfl, rfl, rfl, rfl⟩⟩
  intro i
  rw [h1, h2]
  by_cases hi : i = st.worstIndex
  · simp only [if_pos hi]
  · simp only [if_neg hi]; exact h.values i

theorem nm_inv_step (st : State n ι A) (y : ι → ℝ) (h : NMInv fn st) : NMInv fn (NelderMead.step fn y st).2.1 := by
  by_cases hs : Shrinks fn st
  · exact (nm_shrink fn st y h.started hs).2
  · exact (nm_update fn st y h hs).2.2

theorem nm_init (st0 : State n ι A) (hi : (NelderMead.solver cfg aux0).init fn y0 = .ok st0) :
    2 ≤ n ∧ st0.firstPass = true ∧ st0.simplex = cfg.mkSimplex y0 ∧ st0.aux = aux0 ∧ st0.stats = ⟨0, 0, 0, 0, -1⟩ ∧
    st0.best = cfg.mkSimplex y0 0 ∧ st0.worst = cfg.mkSimplex y0 0 ∧ st0.fBest = (0 : ℝ) ∧ ∀ i, st0.fSimplex i = ⊤ := by
  have : (NelderMead.solver cfg aux0).init fn y0 = NelderMead.init cfg aux0 y0 := rfl
  rw [this] at hi
  unfold NelderMead.init at hi
  split at hi
  · cases hi
  · rename_i h
    cases hi
    exact ⟨not_lt.1 h, rfl, rfl, rfl, rfl, rfl, rfl, rfl, fun _ => rfl⟩

theorem nm_inv (st0 : State n ι A) (hi : (NelderMead.solver cfg aux0).init fn y0 = .ok st0) (k : Nat) :
    NMInv fn (stateAt (NelderMead.solver cfg aux0) fn aux0 y0 st0 (k + 1)) := by
  induction k with
  | zero => exact (nm_first fn st0 y0 (nm_init cfg aux0 fn y0 st0 hi).2.1).2.1
  | succ k ih => exact nm_inv_step fn _ (iterateAt (NelderMead.solver cfg aux0) fn aux0 y0 st0 (k + 1)) ih

/-! ### C44 -/

/-- The iterate returned by a step is a vertex of the simplex the step started from, at the position which the best vertex
has in the *new* simplex. -/
theorem nm_iterate (st : State n ι A) (y : ι → ℝ) :
    (NelderMead.step fn y st).1 = st.simplex (NelderMead.step fn y st).2.1.bestIndex := rfl

/-- Number of vertices created by shrinking, as reported in the statistics, grows exactly in shrink steps. -/
theorem nm_shrink_count (st : State n ι A) (y : ι → ℝ) (h : st.firstPass = false) :
    (Shrinks fn st → (NelderMead.step fn y st).2.1.stats.nShrink = st.stats.nShrink + 1) ∧
    (¬ Shrinks fn st → (NelderMead.step fn y st).2.1.stats.nShrink = st.stats.nShrink) := by
  have e : (mainStep fn st).2.1 = (fn (mainStep fn st).1).1 := rfl
  have e2 : (mainStep fn st).2.2.1.nShrink = st.stats.nShrink := by
    simp [mainStep, internalEval, updateStats]
  constructor
  · intro hs
    have hs' : st.fWorst < (fn (mainStep fn st).1).1 := hs
    simp [NelderMead.step, h, e, hs', updateStats, e2]
  · intro hs
    have hs' : ¬ st.fWorst < (fn (mainStep fn st).1).1 := hs
    simp only [NelderMead.step, h, e, hs', updateStats, e2, Bool.false_eq_true, if_false, decide_false, add_zero]

end

section
variable {n : Nat} [NeZero n] {ι A : Type} (cfg : Cfg n ι) (aux0 : A) (fn : (ι → ℝ) → Val × A) (y0 : ι → ℝ)

/-- **C44** (partial).  For every objective, initial simplex and run, after every step (`k + 1` of them):
* the recorded values are those of `fn` at the vertices, and the recorded best value is the smallest of them;
* a step that is not counted as a shrink never increases the best value;
* a shrink never increases it either *if* the recorded best vertex is the vertex of the simplex at the recorded position;
* the returned point attains the recorded best value *if* the step was no shrink and did not put the best vertex in the place
  of the previous worst one.
Missing: the last two conditions, without which the claims are false (`C44_best_increases`,
`C44_improvement_returns_worst`). -/
theorem C44_best_value_partial (st0 : State n ι A) :
    let S := NelderMead.solver cfg aux0
    let st := fun k => stateAt S fn aux0 y0 st0 k
    S.init fn y0 = .ok st0 →
    ∀ k, (∀ i, (st (k + 1)).fSimplex i = (fn ((st (k + 1)).simplex i)).1) ∧
      ((∀ i, (st (k + 1)).fBest ≤ (fn ((st (k + 1)).simplex i)).1) ∧
        ∃ i, (st (k + 1)).fBest = (fn ((st (k + 1)).simplex i)).1) ∧
      ((st (k + 2)).stats.nShrink = (st (k + 1)).stats.nShrink → (st (k + 2)).fBest ≤ (st (k + 1)).fBest) ∧
      ((st (k + 1)).best = (st (k + 1)).simplex (st (k + 1)).bestIndex → (st (k + 2)).fBest ≤ (st (k + 1)).fBest) ∧
      ((st (k + 2)).stats.nShrink = (st (k + 1)).stats.nShrink → (st (k + 2)).bestIndex ≠ (st (k + 1)).worstIndex →
        (fn (iterateAt S fn aux0 y0 st0 (k + 2))).1 = (st (k + 2)).fBest) ∧
      (fn (iterateAt S fn aux0 y0 st0 1)).1 = (st 1).fBest := by
  intro S st hi k
  obtain ⟨hn, hfp, hs0, _⟩ := nm_init cfg aux0 fn y0 st0 hi
  have hI := nm_inv cfg aux0 fn y0 st0 hi k
  have hI2 := nm_inv cfg aux0 fn y0 st0 hi (k + 1)
  have hst : st (k + 2) = (NelderMead.step fn (iterateAt S fn aux0 y0 st0 (k + 1)) (st (k + 1))).2.1 := rfl
  have hmin : ∀ j, ∀ i, (st (j + 1)).fBest ≤ (fn ((st (j + 1)).simplex i)).1 := by
    intro j i
    have h := nm_inv cfg aux0 fn y0 st0 hi j
    show (stateAt S fn aux0 y0 st0 (j + 1)).fBest ≤ _
    rw [h.best, h.bestIndex]
    exact (topMin_le _ i).trans_eq (h.values i)
  have hcnt := nm_shrink_count fn (st (k + 1)) (iterateAt S fn aux0 y0 st0 (k + 1)) hI.started
  have hnos : (st (k + 2)).stats.nShrink = (st (k + 1)).stats.nShrink → ¬ Shrinks fn (st (k + 1)) := by
    intro h hs
    have := hcnt.1 hs
    rw [← hst] at this
    omega
  have hupd : ¬ Shrinks fn (st (k + 1)) → (st (k + 2)).fBest ≤ (st (k + 1)).fBest := by
    intro hns
    obtain ⟨h1, h2, h3⟩ := nm_update fn (st (k + 1)) (iterateAt S fn aux0 y0 st0 (k + 1)) hI hns
    rw [← hst] at h1 h2 h3
    by_cases hb : (st (k + 1)).bestIndex = (st (k + 1)).worstIndex
    · -- all values are equal; another vertex keeps the value
      have : Nontrivial (Fin n) := Fin.nontrivial_iff_two_le.2 hn
      obtain ⟨j, hj⟩ := exists_ne (st (k + 1)).worstIndex
      have e : (st (k + 2)).fSimplex j = (st (k + 1)).fSimplex j := by rw [h2]; simp [hj]
      have hle : (st (k + 2)).fBest ≤ (st (k + 2)).fSimplex j := by
        rw [h3.best, h3.bestIndex]; exact topMin_le _ j
      rw [e] at hle
      refine hle.trans ?_
      have := le_topMax (st (k + 1)).fSimplex j
      rw [← hI.worstIndex, ← hb] at this
      exact this.trans_eq hI.best.symm
    · have e : (st (k + 2)).fSimplex (st (k + 1)).bestIndex = (st (k + 1)).fSimplex (st (k + 1)).bestIndex := by
        rw [h2]; simp [hb]
      have hle : (st (k + 2)).fBest ≤ (st (k + 2)).fSimplex (st (k + 1)).bestIndex := by
        rw [h3.best, h3.bestIndex]; exact topMin_le _ _
      rw [e] at hle
      exact hle.trans_eq hI.best.symm
  refine ⟨hI.values, ⟨hmin k, (st (k + 1)).bestIndex, ?_⟩, fun h => hupd (hnos h), ?_, ?_, ?_⟩
  · rw [← hI.values]; exact hI.best
  · intro hb
    by_cases hs : Shrinks fn (st (k + 1))
    · obtain ⟨h1, h3⟩ := nm_shrink fn (st (k + 1)) (iterateAt S fn aux0 y0 st0 (k + 1)) hI.started hs
      rw [← hst] at h1 h3
      have hnb : ¬ (fn (trialOf fn (st (k + 1)))).1 < (st (k + 1)).fBest := by
        have h4 : (st (k + 1)).fBest ≤ (st (k + 1)).fWorst := by
          rw [hI.best, hI.worst, hI.worstIndex]; exact le_topMax _ _
        exact not_lt.2 (h4.trans (le_of_lt hs))
      have e : (st (k + 2)).simplex (st (k + 1)).bestIndex = (st (k + 1)).simplex (st (k + 1)).bestIndex := by
        have hc : shrinkCentre fn (st (k + 1)) = (st (k + 1)).simplex (st (k + 1)).bestIndex := by
          have hnb2 : ¬ (mainStep fn (st (k + 1))).2.1 < (st (k + 1)).fBest := hnb
          unfold shrinkCentre; rw [← hb]; simp only [hnb2, decide_false, Bool.false_eq_true, if_false]
        rw [h1, hc]; funext c; ring
      have hle := hmin (k + 1) (st (k + 1)).bestIndex
      have hle' : (st (k + 2)).fBest ≤ (fn ((st (k + 2)).simplex (st (k + 1)).bestIndex)).1 := hle
      rw [e, ← hI.values] at hle'
      exact hle'.trans_eq hI.best.symm
    · exact hupd hs
  · intro h hne
    obtain ⟨h1, h2, h3⟩ := nm_update fn (st (k + 1)) (iterateAt S fn aux0 y0 st0 (k + 1)) hI (hnos h)
    rw [← hst] at h1 h2 h3
    have e1 : iterateAt S fn aux0 y0 st0 (k + 2) = (st (k + 1)).simplex (st (k + 2)).bestIndex := rfl
    rw [e1, h3.best, h3.values, h1]
    simp only [if_neg hne]
  · obtain ⟨h1, h2, h3, _⟩ := nm_first fn st0 y0 hfp
    have e1 : iterateAt S fn aux0 y0 st0 1 = st0.simplex (st 1).bestIndex := rfl
    have h2' : NMInv fn (st 1) := h2
    have h1' : (st 1).simplex = st0.simplex := h1
    rw [e1, ← h1', ← h2'.values, ← h2'.best]

/-- **C44 is false of the code**: whenever a step improves the best value (without shrinking), the point that the step
returns is the *worst* vertex of the simplex before the step. -/
theorem C44_improvement_returns_worst (st0 : State n ι A) :
    let S := NelderMead.solver cfg aux0
    let st := fun k => stateAt S fn aux0 y0 st0 k
    S.init fn y0 = .ok st0 →
    ∀ k, (st (k + 2)).stats.nShrink = (st (k + 1)).stats.nShrink → (st (k + 2)).fBest < (st (k + 1)).fBest →
      ∀ i, (fn ((st (k + 1)).simplex i)).1 ≤ (fn (iterateAt S fn aux0 y0 st0 (k + 2))).1 := by
  intro S st hi k hnos hlt i
  have hI := nm_inv cfg aux0 fn y0 st0 hi k
  have hst : st (k + 2) = (NelderMead.step fn (iterateAt S fn aux0 y0 st0 (k + 1)) (st (k + 1))).2.1 := rfl
  have hcnt := nm_shrink_count fn (st (k + 1)) (iterateAt S fn aux0 y0 st0 (k + 1)) hI.started
  have hns : ¬ Shrinks fn (st (k + 1)) := by
    intro hs
    have := hcnt.1 hs
    rw [← hst] at this
    omega
  obtain ⟨h1, h2, h3⟩ := nm_update fn (st (k + 1)) (iterateAt S fn aux0 y0 st0 (k + 1)) hI hns
  rw [← hst] at h1 h2 h3
  have hbi : (st (k + 2)).bestIndex = (st (k + 1)).worstIndex := by
    by_contra hne
    have e : (st (k + 2)).fBest = (st (k + 1)).fSimplex (st (k + 2)).bestIndex := by
      rw [h3.best, h2]; simp [hne]
    have := topMin_le (st (k + 1)).fSimplex (st (k + 2)).bestIndex
    rw [← hI.bestIndex, ← e, ← hI.best] at this
    exact absurd hlt (not_lt.2 this)
  have e1 : iterateAt S fn aux0 y0 st0 (k + 2) = (st (k + 1)).simplex (st (k + 2)).bestIndex := rfl
  rw [e1, hbi, ← hI.values, ← hI.values, hI.worstIndex]
  exact le_topMax _ i


theorem nm_terminate_success (st : State n ι A) (hres : NelderMead.terminate cfg st = (true, .successful)) :
    cfg.normX (fun p => |st.simplex p.1 p.2 - st.best p.2| / (cfg.atol + cfg.rtol * |st.best p.2|)) < 1 ∧
    (∀ i, st.fSimplex i ≠ ⊤) ∧ st.fBest ≠ ⊤ ∧
    cfg.normF (fun i => |(st.fSimplex i).untopD 0 - st.fBest.untopD 0| /
      (cfg.atol + cfg.rtol * |st.fBest.untopD 0|)) < 1 := by
  unfold NelderMead.terminate at hres
  by_cases hd : st.fBest = ⊤
  · simp [hd] at hres
  · simp only [hd, decide_false, Bool.or_false, Bool.false_eq_true, if_false, Prod.mk.injEq, Bool.and_eq_true,
      decide_eq_true_eq, ne_eq, not_false_eq_true, and_true] at hres
    exact ⟨hres.1, hres.2.1, hd, hres.2.2⟩

/-- **C44**, what success means: with positive tolerances and the default norm, if the solver reports success then it has
made at least one step, every vertex of the final simplex is within tolerance of the returned point in every coordinate, and
the values of `fn` at the vertices are finite and within tolerance of the smallest of them. -/
theorem C44_success [Fintype ι] (hx : cfg.normX = maxNorm) (hf : cfg.normF = maxNorm) (ha : 0 < cfg.atol)
    (hr : 0 ≤ cfg.rtol) (af : (ι → ℝ) → Bool) (ms : Option Nat) (throw : Bool)
    (sol : Solution (ι → ℝ) A (State n ι A) Stats)
    (h : iterativeSolve (NelderMead.solver cfg aux0) af fn aux0 y0 ms throw = some (.ok sol))
    (hsucc : sol.result = .successful) :
    1 ≤ sol.numSteps ∧
    (∀ i c, |sol.state.simplex i c - sol.value c| < cfg.atol + cfg.rtol * |sol.value c|) ∧
    ∃ m : ℝ, (∃ i, (fn (sol.state.simplex i)).1 = (m : Val)) ∧
      ∀ i, ∃ v : ℝ, (fn (sol.state.simplex i)).1 = (v : Val) ∧ m ≤ v ∧ v - m < cfg.atol + cfg.rtol * |m| := by
  obtain ⟨st0, hi, hterm, _⟩ := C02_success_is_certificate _ _ _ _ _ _ _ _ h hsucc
  obtain ⟨_, _, st0', hi', hst, hp⟩ := C01_step_budget _ _ _ _ _ _ _ _ h
  rw [hi] at hi'; cases hi'
  obtain ⟨hn, hfp, _, _, _, _, _, _, hinf⟩ := nm_init cfg aux0 fn y0 st0 hi
  obtain ⟨t1, t2, t3, t4⟩ := nm_terminate_success cfg sol.state hterm
  have hpos : 1 ≤ sol.numSteps := by
    by_contra h0
    have h0' : sol.numSteps = 0 := by omega
    have : sol.state = st0 := by rw [hst, h0']; rfl
    exact t2 0 (by rw [this]; exact hinf 0)
  obtain ⟨k, hk⟩ : ∃ k, sol.numSteps = k + 1 := ⟨sol.numSteps - 1, by omega⟩
  rw [hk] at hst
  have hI := nm_inv cfg aux0 fn y0 st0 hi k
  rw [← hst] at hI
  have hval : sol.value = sol.state.best := by
    have hv : sol.value = iterateAt (NelderMead.solver cfg aux0) fn aux0 y0 st0 sol.numSteps := congrArg Prod.fst hp
    rw [hv, hst, hk]; rfl
  rw [hx, maxNorm_lt_iff] at t1
  rw [hf, maxNorm_lt_iff] at t4
  refine ⟨hpos, ?_, sol.state.fBest.untopD 0, ⟨sol.state.bestIndex, ?_⟩, ?_⟩
  · intro i c
    have := t1.2 (i, c)
    rw [hval]
    have hsc : 0 < cfg.atol + cfg.rtol * |sol.state.best c| := by positivity
    rw [abs_div, abs_abs, abs_of_pos hsc, div_lt_one hsc] at this
    exact this
  · rw [← hI.values, ← hI.best]
    exact (coe_untop _ t3)
  · intro i
    have := t4.2 i
    have hsc : 0 < cfg.atol + cfg.rtol * |sol.state.fBest.untopD 0| := by positivity
    rw [abs_div, abs_abs, abs_of_pos hsc, div_lt_one hsc] at this
    have e : (fn (sol.state.simplex i)).1 = (((sol.state.fSimplex i).untopD 0 : ℝ) : Val) := by
      rw [← hI.values]; exact (coe_untop _ (t2 i))
    have hle : sol.state.fBest.untopD 0 ≤ (sol.state.fSimplex i).untopD 0 := by
      have h1 : sol.state.fBest ≤ sol.state.fSimplex i := by
        rw [hI.best, hI.bestIndex]; exact topMin_le _ i
      rw [← WithTop.coe_le_coe, ← coe_untop _ t3, ← coe_untop _ (t2 i)]
      exact h1
    exact ⟨_, e, hle, lt_of_le_of_lt (le_abs_self _) this⟩

/-- **C44**, divergence: an unsuccessful verdict of the solver itself is given exactly when `fn` is `+inf` at every vertex. -/
theorem C44_divergence (st0 : State n ι A) (hi : (NelderMead.solver cfg aux0).init fn y0 = .ok st0) (k : Nat) :
    let S := NelderMead.solver cfg aux0
    let st := stateAt S fn aux0 y0 st0 (k + 1)
    (S.terminate fn (iterateAt S fn aux0 y0 st0 k) st).2 = (if ∀ i, (fn (st.simplex i)).1 = ⊤ then .nonlinearDivergence
      else .successful) ∧
    ((∀ i, (fn (st.simplex i)).1 = ⊤) → (S.terminate fn (iterateAt S fn aux0 y0 st0 k) st).1 = true) := by
  intro S st
  have hI := nm_inv cfg aux0 fn y0 st0 hi k
  have hiff : (∀ i, (fn (st.simplex i)).1 = ⊤) ↔ st.fBest = ⊤ := by
    constructor
    · intro h
      rw [hI.best, hI.values]; exact h _
    · intro h i
      have h1 : st.fBest ≤ st.fSimplex i := by
        rw [hI.best, hI.bestIndex]; exact topMin_le _ i
      rw [h, top_le_iff, hI.values] at h1
      exact h1
  have ht : S.terminate fn (iterateAt S fn aux0 y0 st0 k) st = NelderMead.terminate cfg st := rfl
  rw [ht]
  constructor
  · by_cases h : st.fBest = ⊤
    · rw [if_pos (hiff.2 h)]; simp [NelderMead.terminate, h]
    · rw [if_neg (fun h' => h (hiff.1 h'))]; simp [NelderMead.terminate, h]
  · intro h
    simp [NelderMead.terminate, hiff.1 h]

/-- **C09** does not extend to "from an evaluation of `fn`" here: after exactly one step the reported aux still is the
all-zeros placeholder; after more steps it is the aux of the last trial vertex (which need not be the returned point). -/
theorem C09_nelder_mead (st0 : State n ι A) (hi : (NelderMead.solver cfg aux0).init fn y0 = .ok st0) :
    let S := NelderMead.solver cfg aux0
    auxAt S fn aux0 y0 st0 1 = aux0 ∧
    ∀ k, auxAt S fn aux0 y0 st0 (k + 2) = (fn (trialOf fn (stateAt S fn aux0 y0 st0 (k + 1)))).2 := by
  intro S
  obtain ⟨_, hfp, _, haux, _⟩ := nm_init cfg aux0 fn y0 st0 hi
  refine ⟨?_, ?_⟩
  · have := (nm_first fn st0 y0 hfp).2.2.2
    rw [haux] at this; exact this
  · intro k
    have hI := nm_inv cfg aux0 fn y0 st0 hi k
    show (NelderMead.step fn (iterateAt S fn aux0 y0 st0 (k + 1)) (stateAt S fn aux0 y0 st0 (k + 1))).2.2 = _
    have hI' := hI.started
    generalize stateAt (NelderMead.solver cfg aux0) fn aux0 y0 st0 (k + 1) = st at hI'
    simp [NelderMead.step, hI', mainStep, trialOf]

end

/-! Concrete runs that meet the hypotheses: `C44_default_run_goes_back` and `C44_best_increases` in `Props/NelderMeadMoves.lean`. -/

end Verif.Props
