import Verif.Props.NelderMead
import Mathlib.Algebra.BigOperators.Field

/-! C60 (the moves of Nelder-Mead and their statistics) and the counterexamples to C44. -/

namespace Verif.Props

open Verif Verif.Spec Verif.Driver Verif.NelderMead

section
variable {n : Nat} [NeZero n] {ι A : Type} (cfg : Cfg n ι) (aux0 : A) (fn : (ι → ℝ) → Val × A) (y0 : ι → ℝ)

/-- The textbook point `w + t (c - w)`, where `c` is the centroid of the vertices other than number `j`, and `w` is vertex
`j`. -/
noncomputable def movedVertex (simplex : Fin n → ι → ℝ) (j : Fin n) (t : ℝ) : ι → ℝ :=
  fun c => simplex j c + t * ((∑ i ∈ Finset.univ.erase j, simplex i c) / ((n : ℝ) - 1) - simplex j c)

theorem along_eq_moved (hn : 2 ≤ n) (simplex : Fin n → ι → ℝ) (j : Fin n) (t : ℝ) :
    along (simplex j) (searchDirection simplex (simplex j)) t = movedVertex simplex j t := by
  funext c
  have hn1 : ((n : ℝ) - 1) ≠ 0 := by
    have : (2 : ℝ) ≤ n := by exact_mod_cast hn
    linarith
  have hs : ∑ i, (simplex i c - simplex j c) / ((n : ℝ) - 1) =
      (∑ i ∈ Finset.univ.erase j, simplex i c) / ((n : ℝ) - 1) - simplex j c := by
    rw [← Finset.sum_div, Finset.sum_sub_distrib, Finset.sum_const, Finset.card_univ, Fintype.card_fin, nsmul_eq_mul,
      ← Finset.add_sum_erase Finset.univ (fun i => simplex i c) (Finset.mem_univ j)]
    field_simp
    ring
  unfold along searchDirection movedVertex
  rw [hs]

theorem nm_best_le_second (hn : 2 ≤ n) (st : State n ι A) (h : NMInv fn st) : st.fBest ≤ st.fSecondWorst := by
  obtain ⟨i, _, hi⟩ := secondMax_mem st.fSimplex hn
  rw [h.second, hi, h.best, h.bestIndex]
  exact topMin_le _ i

theorem nm_second_le_worst (hn : 2 ≤ n) (st : State n ι A) (h : NMInv fn st) : st.fSecondWorst ≤ st.fWorst := by
  obtain ⟨i, _, hi⟩ := secondMax_mem st.fSimplex hn
  rw [h.second, hi, h.worst, h.worstIndex]
  exact le_topMax _ i

/-- The factor by which the rule moves: expansion 3, reflection 2, outer contraction 3/2, inner contraction 1/2. -/
noncomputable def moveFactor (fBest fSecondWorst fWorst fr : Val) : ℝ :=
  if fr < fBest then 3 else if fr ≤ fSecondWorst then 2 else if fr ≤ fWorst then 3 / 2 else 1 / 2

theorem trial_rule (hn : 2 ≤ n) (st : State n ι A) (h : NMInv fn st) :
    trialOf fn st = along st.worst (searchDirection st.simplex st.worst)
      (moveFactor st.fBest st.fSecondWorst st.fWorst (fn (reflectionOf st)).1) := by
  have h1 := nm_best_le_second fn hn st h
  have h2 := nm_second_le_worst fn hn st h
  unfold trialOf mainStep internalEval moveFactor
  change (if decide (st.fSecondWorst < (fn (reflectionOf st)).1) = true then _ else
    if decide ((fn (reflectionOf st)).1 < st.fBest) = true then _ else _) = _
  set fr := (fn (reflectionOf st)).1 with hfr
  by_cases c1 : fr < st.fBest
  · have c2 : ¬ st.fSecondWorst < fr := not_lt.2 (c1.le.trans h1)
    simp only [c1, c2, decide_true, decide_false, if_true, Bool.false_eq_true, if_false]
  · by_cases c2 : st.fSecondWorst < fr
    · have c3 : ¬ fr ≤ st.fSecondWorst := not_le.2 c2
      by_cases c4 : st.fWorst < fr
      · have c5 : ¬ fr ≤ st.fWorst := not_le.2 c4
        have c6 : st.fWorst < (fn (along st.worst (searchDirection st.simplex st.worst) 2)).1 := c4
        simp only [c1, c2, c3, c5, c6, decide_true, if_true, if_false]
      · have c5 : fr ≤ st.fWorst := not_lt.1 c4
        have c6 : ¬ st.fWorst < (fn (along st.worst (searchDirection st.simplex st.worst) 2)).1 := c4
        simp only [c1, c2, c3, c5, c6, decide_true, decide_false, if_true, Bool.false_eq_true, if_false]
    · have c3 : fr ≤ st.fSecondWorst := not_lt.1 c2
      simp only [c1, c2, c3, decide_false, Bool.false_eq_true, if_false, if_true]

/-- **C60** (partial).  The moves.  From the second step on, provided the recorded worst vertex is the vertex of the simplex
at the recorded position (which fails exactly if the last step replaced it by another worst vertex, or shrank):
the trial vertex is `w + t (c - w)` with `w` a vertex of largest value, `c` the centroid of the others, and `t` the expansion
factor 3 if the reflected vertex (`t = 2`) is better than the best, 2 if it is not worse than the second worst, 3/2 if it is
not worse than the worst, else 1/2.  If it is not worse than the worst vertex it replaces it and nothing else changes;
otherwise all vertices are moved half-way to the recorded best vertex.
Missing: the proviso, without which `w` is a point that is no longer a vertex (`C60_stale_worst`). -/
theorem C60_moves_partial (st0 : State n ι A) :
    let S := NelderMead.solver cfg aux0
    let st := fun k => stateAt S fn aux0 y0 st0 k
    S.init fn y0 = .ok st0 →
    ∀ k, (st (k + 1)).worst = (st (k + 1)).simplex (st (k + 1)).worstIndex →
      ∃ j b, (∀ i, (fn ((st (k + 1)).simplex i)).1 ≤ (fn ((st (k + 1)).simplex j)).1) ∧
        (∀ i, (fn ((st (k + 1)).simplex b)).1 ≤ (fn ((st (k + 1)).simplex i)).1) ∧
        ∃ second, (∃ i, i ≠ j ∧ second = (fn ((st (k + 1)).simplex i)).1) ∧
          (∀ i, i ≠ j → (fn ((st (k + 1)).simplex i)).1 ≤ second) ∧
          let P := (st (k + 1)).simplex
          let trial := movedVertex P j (moveFactor (fn (P b)).1 second (fn (P j)).1 (fn (movedVertex P j 2)).1)
          ((fn trial).1 ≤ (fn (P j)).1 → (st (k + 2)).simplex = fun i => if i = j then trial else P i) ∧
          ((fn (P j)).1 < (fn trial).1 →
            (st (k + 2)).simplex = fun i c => (st (k + 1)).best c + 1 / 2 * (P i c - (st (k + 1)).best c)) := by
  intro S st hi k hw
  obtain ⟨hn, _⟩ := nm_init cfg aux0 fn y0 st0 hi
  have hI := nm_inv cfg aux0 fn y0 st0 hi k
  have hst : st (k + 2) = (NelderMead.step fn (iterateAt S fn aux0 y0 st0 (k + 1)) (st (k + 1))).2.1 := rfl
  have hvw : (st (k + 1)).fWorst = (fn ((st (k + 1)).simplex (st (k + 1)).worstIndex)).1 := by
    rw [← hI.values]; exact hI.worst
  have hvb : (st (k + 1)).fBest = (fn ((st (k + 1)).simplex (st (k + 1)).bestIndex)).1 := by
    rw [← hI.values]; exact hI.best
  have htr := trial_rule fn hn (st (k + 1)) hI
  have hrefl : reflectionOf (st (k + 1)) = movedVertex (st (k + 1)).simplex (st (k + 1)).worstIndex 2 := by
    unfold reflectionOf; rw [hw]; exact along_eq_moved hn _ _ _
  rw [hrefl, hw, along_eq_moved hn, hvw, hvb] at htr
  refine ⟨(st (k + 1)).worstIndex, (st (k + 1)).bestIndex, ?_, ?_, (st (k + 1)).fSecondWorst, ?_, ?_, ?_, ?_⟩
  · intro i
    rw [← hI.values, ← hI.values, hI.worstIndex]; exact le_topMax _ i
  · intro i
    rw [← hI.values, ← hI.values, hI.bestIndex]; exact topMin_le _ i
  · obtain ⟨i, hne, he⟩ := secondMax_mem (st (k + 1)).fSimplex hn
    refine ⟨i, ?_, ?_⟩
    · rw [hI.worstIndex]; exact hne
    · rw [hI.second, he, hI.values]
  · intro i hne
    rw [hI.second, ← hI.values]
    exact le_secondMax _ i (by rw [← hI.worstIndex]; exact hne)
  · intro hle
    rw [← htr] at hle
    have hns : ¬ Shrinks fn (st (k + 1)) := by
      unfold Shrinks; rw [hvw]; exact not_lt.2 hle
    rw [hst, (nm_update fn _ _ hI hns).1, htr]
  · intro hlt
    rw [← htr] at hlt
    have hs : Shrinks fn (st (k + 1)) := by
      unfold Shrinks; rw [hvw]; exact hlt
    have hnb : ¬ (mainStep fn (st (k + 1))).2.1 < (st (k + 1)).fBest := by
      have h4 : (st (k + 1)).fBest ≤ (st (k + 1)).fWorst := by
        rw [hI.best, hI.worst, hI.worstIndex]; exact le_topMax _ _
      exact not_lt.2 (h4.trans (le_of_lt hs))
    have hc : shrinkCentre fn (st (k + 1)) = (st (k + 1)).best := by
      simp only [shrinkCentre, hnb, decide_false, Bool.false_eq_true, if_false]
    rw [hst, (nm_shrink fn _ _ hI.started hs).1]
    funext i c
    change shrinkCentre fn (st (k + 1)) c + 1 / 2 * ((st (k + 1)).simplex i c - shrinkCentre fn (st (k + 1)) c) = _
    rw [hc]

/-- **C60 is false of the code** for the statistics, as an exact description of the counters: over any step from the second
on, with `fr` the value at the reflected point,
* `num_expansions` grows iff `fr` is better than the best value, `num_inner_contractions` iff it is worse than the worst,
  `num_shrinkages` iff the trial vertex is worse than the worst: these are right;
* `num_outer_contractions` grows iff the trial vertex is the *reflection*, i.e. `best ≤ fr ≤ second worst`; so accepted
  reflections are counted as outer contractions and outer contractions (`second worst < fr ≤ worst`) are not counted at all;
* `num_reflections` grows iff `best < fr < second worst` (ties are not counted). -/
theorem C60_statistics_mislabelled (st0 : State n ι A) :
    let S := NelderMead.solver cfg aux0
    let st := fun k => stateAt S fn aux0 y0 st0 k
    S.init fn y0 = .ok st0 →
    (st 1).stats = ⟨0, 0, 0, 0, 0⟩ ∧
    ∀ k, let s := st (k + 1)
      let fr := (fn (reflectionOf s)).1
      (st (k + 2)).stats.nExpand = s.stats.nExpand + (if fr < s.fBest then 1 else 0) ∧
      (st (k + 2)).stats.nInnerContract = s.stats.nInnerContract + (if s.fWorst < fr then 1 else 0) ∧
      (st (k + 2)).stats.nOuterContract =
        s.stats.nOuterContract + (if s.fBest ≤ fr ∧ fr ≤ s.fSecondWorst then 1 else 0) ∧
      (st (k + 2)).stats.nReflect = s.stats.nReflect + (if s.fBest < fr ∧ fr < s.fSecondWorst then 1 else 0) ∧
      (st (k + 2)).stats.nShrink = s.stats.nShrink + (if s.fWorst < (fn (trialOf fn s)).1 then 1 else 0) := by
  intro S st hi
  obtain ⟨hn, hfp, _, _, hstats, _⟩ := nm_init cfg aux0 fn y0 st0 hi
  constructor
  · show (NelderMead.step fn y0 st0).2.1.stats = _
    simp [NelderMead.step, hfp, initStep, updateStats, hstats]
  · intro k s fr
    have hI := nm_inv cfg aux0 fn y0 st0 hi k
    have hst : st (k + 2) = (NelderMead.step fn (iterateAt S fn aux0 y0 st0 (k + 1)) s).2.1 := rfl
    have hs : s.firstPass = false := hI.started
    have e : (st (k + 2)).stats = updateStats (updateStats s.stats (decide (s.fBest < fr) && decide (fr < s.fSecondWorst))
        (decide (s.fWorst < fr)) (!(decide (fr < s.fBest) || decide (s.fSecondWorst < fr))) (decide (fr < s.fBest)) false)
        false false false false (decide (s.fWorst < (fn (trialOf fn s)).1)) := by
      rw [hst]
      simp only [NelderMead.step, hs, Bool.false_eq_true, if_false]
      rfl
    rw [e]
    refine ⟨?_, ?_, ?_, ?_, ?_⟩
    · simp [updateStats]
    · simp [updateStats]
    · simp [updateStats]
    · simp [updateStats]
    · simp [updateStats]

/-- Consequence: the reported number of outer contractions is never smaller than the number of reflections. -/
theorem C60_outer_counts_reflections (st0 : State n ι A) (hi : (NelderMead.solver cfg aux0).init fn y0 = .ok st0) (k : Nat) :
    (stateAt (NelderMead.solver cfg aux0) fn aux0 y0 st0 k).stats.nReflect ≤
      (stateAt (NelderMead.solver cfg aux0) fn aux0 y0 st0 k).stats.nOuterContract := by
  obtain ⟨h1, h2⟩ := C60_statistics_mislabelled cfg aux0 fn y0 st0 hi
  rcases k with _ | k
  · have := (nm_init cfg aux0 fn y0 st0 hi).2.2.2.2.1
    show st0.stats.nReflect ≤ st0.stats.nOuterContract
    rw [this]
  · induction k with
    | zero =>
      show (stateAt (NelderMead.solver cfg aux0) fn aux0 y0 st0 1).stats.nReflect ≤ _
      rw [h1]
    | succ k ih =>
      obtain ⟨_, _, h3, h4, _⟩ := h2 k
      rw [h3, h4]
      beta_reduce
      split
      · rename_i hc
        rw [if_pos ⟨hc.1.le, hc.2.le⟩]; omega
      · split <;> omega

/-- **C60 is false of the code** for the moves: if a step replaces the worst vertex by one that is again the worst, the next
step is made relative to the vertex that has just been *removed*, not relative to the worst vertex of the simplex. -/
theorem C60_stale_worst (st0 : State n ι A) :
    let S := NelderMead.solver cfg aux0
    let st := fun k => stateAt S fn aux0 y0 st0 k
    S.init fn y0 = .ok st0 →
    ∀ k, (st (k + 2)).stats.nShrink = (st (k + 1)).stats.nShrink → (st (k + 2)).worstIndex = (st (k + 1)).worstIndex →
      (st (k + 2)).simplex (st (k + 2)).worstIndex = trialOf fn (st (k + 1)) ∧
      (st (k + 2)).worst = (st (k + 1)).simplex (st (k + 1)).worstIndex ∧
      trialOf fn (st (k + 2)) = along ((st (k + 1)).simplex (st (k + 1)).worstIndex)
        (searchDirection (st (k + 2)).simplex ((st (k + 1)).simplex (st (k + 1)).worstIndex))
        (moveFactor (st (k + 2)).fBest (st (k + 2)).fSecondWorst (st (k + 2)).fWorst (fn (reflectionOf (st (k + 2)))).1) := by
  intro S st hi k hnos hw
  obtain ⟨hn, _⟩ := nm_init cfg aux0 fn y0 st0 hi
  have hI := nm_inv cfg aux0 fn y0 st0 hi k
  have hI2 := nm_inv cfg aux0 fn y0 st0 hi (k + 1)
  have hst : st (k + 2) = (NelderMead.step fn (iterateAt S fn aux0 y0 st0 (k + 1)) (st (k + 1))).2.1 := rfl
  have hcnt := nm_shrink_count fn (st (k + 1)) (iterateAt S fn aux0 y0 st0 (k + 1)) hI.started
  have hns : ¬ Shrinks fn (st (k + 1)) := by
    intro hs
    have := hcnt.1 hs
    rw [← hst] at this
    omega
  obtain ⟨h1, _, _⟩ := nm_update fn (st (k + 1)) (iterateAt S fn aux0 y0 st0 (k + 1)) hI hns
  rw [← hst] at h1
  have e : (st (k + 2)).worst = (st (k + 1)).simplex (st (k + 1)).worstIndex := by
    rw [← hw]; rfl
  refine ⟨by rw [h1, hw]; simp, e, ?_⟩
  rw [trial_rule fn hn _ hI2, e]

end

/-! ### Concrete runs (one coordinate, two vertices) -/

section
variable {n : Nat} [NeZero n]

theorem topMin_unique (f : Fin n → Val) (i : Fin n) (h : ∀ j, j ≠ i → f i < f j) : topMin f = i := by
  by_contra hne
  exact absurd (topMin_le f i) (not_le.2 (h _ hne))

theorem topMax_unique (f : Fin n → Val) (i : Fin n) (h : ∀ j, j ≠ i → f j < f i) : topMax f = i := by
  by_contra hne
  exact absurd (le_topMax f i) (not_le.2 (h _ hne))

end

theorem secondMax_two (f : Fin 2 → Val) (i : Fin 2) (h : topMax f ≠ i) : secondMax f = f i := by
  obtain ⟨j, hj, he⟩ := secondMax_mem f le_rfl
  rw [he]
  congr 1
  omega

/-- `NelderMead(rtol, atol, rdelta=rd, adelta=ad)` on a single number `y`: the simplex is `y`, `y + ad + rd * y`
(`C45_scalars_partial` below says that this is what the code builds). -/
noncomputable def nm1 (rtol atol rd ad : ℝ) : Cfg 2 Unit :=
  { rtol, atol, normX := maxNorm, normF := maxNorm, mkSimplex := fun y i c => if i = 0 then y c else y c + ad + rd * y c }

section
variable (fn : (Unit → ℝ) → Val × Unit)

/-- A state after at least one step, described by its two vertices, the recorded worst vertex and the two values. -/
structure Snapshot (st : State 2 Unit Unit) (a b w p : ℝ) (low high : Fin 2) : Prop where
  inv : NMInv fn st
  simplex : st.simplex = ![fun _ => a, fun _ => b]
  worst : st.worst = fun _ => w
  best : st.best = fun _ => p
  lowIndex : st.bestIndex = low
  highIndex : st.worstIndex = high

theorem other_two (i j k : Fin 2) (h : i ≠ j) (hk : k ≠ i) : k = j := by omega

theorem two_indices (st : State 2 Unit Unit) (h : NMInv fn st) (low high : Fin 2) (hne : low ≠ high)
    (hlt : (fn (st.simplex low)).1 < (fn (st.simplex high)).1) : st.bestIndex = low ∧ st.worstIndex = high := by
  constructor
  · rw [h.bestIndex]
    apply topMin_unique
    intro j hj
    rw [other_two low high j hne hj, h.values, h.values]; exact hlt
  · rw [h.worstIndex]
    apply topMax_unique
    intro j hj
    rw [other_two high low j hne.symm hj, h.values, h.values]; exact hlt

theorem snapshot_dir (st : State 2 Unit Unit) (a b w p : ℝ) (low high : Fin 2) (h : Snapshot fn st a b w p low high) (t : ℝ) :
    along st.worst (searchDirection st.simplex st.worst) t = fun _ => w + t * ((a - w) + (b - w)) := by
  funext c
  unfold along searchDirection
  rw [h.worst, h.simplex, Fin.sum_univ_two]
  norm_num

theorem snapshot_values (st : State 2 Unit Unit) (a b w p : ℝ) (low high : Fin 2) (hne : low ≠ high)
    (h : Snapshot fn st a b w p low high) :
    st.fBest = (fn (st.simplex low)).1 ∧ st.fWorst = (fn (st.simplex high)).1 ∧
      st.fSecondWorst = (fn (st.simplex low)).1 := by
  refine ⟨?_, ?_, ?_⟩
  · rw [h.inv.best, h.lowIndex, h.inv.values]
  · rw [h.inv.worst, h.highIndex, h.inv.values]
  · rw [h.inv.second, secondMax_two _ low, h.inv.values]
    rw [← h.inv.worstIndex, h.highIndex]; exact hne.symm

/-- The first step. -/
theorem snapshot_first (st0 : State 2 Unit Unit) (y : Unit → ℝ) (hfp : st0.firstPass = true) (a b : ℝ)
    (hs : st0.simplex = ![fun _ => a, fun _ => b]) (low high : Fin 2) (hne : low ≠ high)
    (hlt : (fn ((![fun _ => a, fun _ => b] : Fin 2 → Unit → ℝ) low)).1 <
      (fn ((![fun _ => a, fun _ => b] : Fin 2 → Unit → ℝ) high)).1) :
    Snapshot fn (NelderMead.step fn y st0).2.1 a b ((![a, b] : Fin 2 → ℝ) high) ((![a, b] : Fin 2 → ℝ) low) low high := by
  obtain ⟨h1, h2, _⟩ := nm_first fn st0 y hfp
  have hi := two_indices fn _ h2 low high hne (by rw [h1, hs]; exact hlt)
  refine ⟨h2, by rw [h1, hs], ?_, ?_, hi.1, hi.2⟩
  · show st0.simplex (NelderMead.step fn y st0).2.1.worstIndex = _
    rw [hi.2, hs]; fin_cases high <;> rfl
  · show st0.simplex (NelderMead.step fn y st0).2.1.bestIndex = _
    rw [hi.1, hs]; fin_cases low <;> rfl

/-- A step that is not a shrink, replacing vertex `high` by `t`. -/
theorem snapshot_update (st : State 2 Unit Unit) (y : Unit → ℝ) (a b w p : ℝ) (low high : Fin 2) (hne : low ≠ high)
    (h : Snapshot fn st a b w p low high) (t : ℝ)
    (ht : w + moveFactor (fn (st.simplex low)).1 (fn (st.simplex low)).1 (fn (st.simplex high)).1
      (fn fun _ => w + 2 * ((a - w) + (b - w))).1 * ((a - w) + (b - w)) = t)
    (hle : (fn fun _ => t).1 ≤ (fn (st.simplex high)).1) (a' b' : ℝ)
    (hab : (![fun _ => a', fun _ => b'] : Fin 2 → Unit → ℝ) =
      fun i => if i = high then fun _ => t else (![fun _ => a, fun _ => b] : Fin 2 → Unit → ℝ) i)
    (low' high' : Fin 2) (hne' : low' ≠ high')
    (hlt : (fn ((![fun _ => a', fun _ => b'] : Fin 2 → Unit → ℝ) low')).1 <
      (fn ((![fun _ => a', fun _ => b'] : Fin 2 → Unit → ℝ) high')).1) :
    Snapshot fn (NelderMead.step fn y st).2.1 a' b' ((![a, b] : Fin 2 → ℝ) high') ((![a, b] : Fin 2 → ℝ) low') low' high' := by
  obtain ⟨v1, v2, v3⟩ := snapshot_values fn st a b w p low high hne h
  have htr : trialOf fn st = fun _ => t := by
    rw [trial_rule fn le_rfl st h.inv, v1, v2, v3, reflectionOf, snapshot_dir fn st a b w p low high h,
      snapshot_dir fn st a b w p low high h, ht]
  have hns : ¬ Shrinks fn st := by
    unfold Shrinks; rw [htr, v2]; exact not_lt.2 hle
  obtain ⟨h1, _, h3⟩ := nm_update fn st y h.inv hns
  have hsx : (NelderMead.step fn y st).2.1.simplex = ![fun _ => a', fun _ => b'] := by
    rw [h1, hab, htr, h.highIndex, h.simplex]
  have hi := two_indices fn _ h3 low' high' hne' (by rw [hsx]; exact hlt)
  refine ⟨h3, hsx, ?_, ?_, hi.1, hi.2⟩
  · show st.simplex (NelderMead.step fn y st).2.1.worstIndex = _
    rw [hi.2, h.simplex]; fin_cases high' <;> rfl
  · show st.simplex (NelderMead.step fn y st).2.1.bestIndex = _
    rw [hi.1, h.simplex]; fin_cases low' <;> rfl

end

theorem nm1_init (rtol atol rd ad y : ℝ) (fn : (Unit → ℝ) → Val × Unit) :
    ∃ st0, (NelderMead.solver (nm1 rtol atol rd ad) ()).init fn (fun _ => y) = .ok st0 ∧ st0.firstPass = true ∧
      st0.simplex = ![fun _ => y, fun _ => y + ad + rd * y] := by
  refine ⟨_, rfl, rfl, ?_⟩
  funext i
  fin_cases i <;> rfl

/-- **C44 is false of the code**, with the default settings, on `(y - 4)²` from `y0 = 1`: the first step returns the better
vertex `1.05025` of the initial simplex, the second step finds a still better one (`1.15075`) but returns the starting point
`1`, the worst vertex of the initial simplex. -/
theorem C44_default_run_goes_back (rtol atol : ℝ) :
    let S := NelderMead.solver (nm1 rtol atol 0.05 0.00025) ()
    let fn : (Unit → ℝ) → Val × Unit := fun y => ((((y () - 4) ^ 2 : ℝ) : Val), ())
    ∃ st0, S.init fn (fun _ => 1) = .ok st0 ∧
      iterateAt S fn () (fun _ => 1) st0 1 = (fun _ => 1.05025) ∧
      (stateAt S fn () (fun _ => 1) st0 2).simplex = ![fun _ => 1.15075, fun _ => 1.05025] ∧
      iterateAt S fn () (fun _ => 1) st0 2 = fun _ => 1 := by
  intro S fn
  obtain ⟨st0, hi, hfp, hs⟩ := nm1_init rtol atol 0.05 0.00025 1 fn
  have hs' : st0.simplex = ![fun _ => 1, fun _ => 1.05025] := by rw [hs]; norm_num
  have s1 := snapshot_first fn st0 (fun _ => 1) hfp 1 1.05025 hs' 1 0 (by decide) (by
    simp only [fn, Matrix.cons_val_zero, Matrix.cons_val_one, WithTop.coe_lt_coe]; norm_num)
  simp only [Matrix.cons_val_zero, Matrix.cons_val_one] at s1
  have s2 := snapshot_update fn _ (iterateAt S fn () (fun _ => 1) st0 1) 1 1.05025 1 1.05025 1 0 (by decide) s1 1.15075 (by
      rw [s1.simplex]
      simp only [fn, Matrix.cons_val_zero, Matrix.cons_val_one, moveFactor, WithTop.coe_lt_coe]
      rw [if_pos (by norm_num)]; norm_num) (by
      rw [s1.simplex]
      simp only [fn, Matrix.cons_val_zero, WithTop.coe_le_coe]; norm_num) 1.15075 1.05025 (by
      funext i; fin_cases i <;> simp) 0 1 (by decide) (by
      simp only [fn, Matrix.cons_val_zero, Matrix.cons_val_one, WithTop.coe_lt_coe]; norm_num)
  exact ⟨st0, hi, s1.best, s2.simplex, s2.best⟩

open Classical in
/-- An objective given by a table. -/
noncomputable def tableFn : (Unit → ℝ) → Val × Unit := fun y =>
  (((if y () = 0 then 10 else if y () = 1 then 9 else if y () = 2 then 5 else if y () = 3 then 1 else if y () = 5 then 0
    else if y () = 7 then 100 else 20 : ℝ) : Val), ())

/-- **C44 is false of the code**: the recorded best value can increase.  On `tableFn` with initial simplex `{0, 1}` it is
`1`, at the vertex `3`, after two steps; the third step shrinks the simplex towards the *discarded* vertex `0` and loses
the vertex `3`; the best value of the new simplex `{1.5, 0.5}` is `20`. -/
theorem C44_best_increases (rtol atol : ℝ) :
    let S := NelderMead.solver (nm1 rtol atol 0 1) ()
    ∃ st0, S.init tableFn (fun _ => 0) = .ok st0 ∧
      (stateAt S tableFn () (fun _ => 0) st0 2).fBest = (1 : ℝ) ∧
      (stateAt S tableFn () (fun _ => 0) st0 3).simplex = ![fun _ => 1.5, fun _ => 0.5] ∧
      (stateAt S tableFn () (fun _ => 0) st0 3).fBest = (20 : ℝ) := by
  intro S
  obtain ⟨st0, hi, hfp, hs⟩ := nm1_init rtol atol 0 1 0 tableFn
  have hs' : st0.simplex = ![fun _ => 0, fun _ => 1] := by rw [hs]; norm_num
  have s1 := snapshot_first tableFn st0 (fun _ => 0) hfp 0 1 hs' 1 0 (by decide) (by
    simp only [tableFn, Matrix.cons_val_zero, Matrix.cons_val_one, WithTop.coe_lt_coe]; norm_num)
  simp only [Matrix.cons_val_zero, Matrix.cons_val_one] at s1
  have s2 := snapshot_update tableFn _ (iterateAt S tableFn () (fun _ => 0) st0 1) 0 1 0 1 1 0 (by decide) s1 3 (by
      rw [s1.simplex]
      simp only [tableFn, Matrix.cons_val_zero, Matrix.cons_val_one, moveFactor, WithTop.coe_lt_coe]
      rw [if_pos (by norm_num)]; norm_num) (by
      rw [s1.simplex]
      simp only [tableFn, Matrix.cons_val_zero, WithTop.coe_le_coe]; norm_num) 3 1 (by
      funext i; fin_cases i <;> simp) 0 1 (by decide) (by
      simp only [tableFn, Matrix.cons_val_zero, Matrix.cons_val_one, WithTop.coe_lt_coe]; norm_num)
  simp only [Matrix.cons_val_zero, Matrix.cons_val_one] at s2
  set st2 := (NelderMead.step tableFn (iterateAt S tableFn () (fun _ => 0) st0 1)
    (NelderMead.step tableFn (fun _ => 0) st0).2.1).2.1 with hst2
  have hst2' : stateAt S tableFn () (fun _ => 0) st0 2 = st2 := rfl
  obtain ⟨v1, v2, v3⟩ := snapshot_values tableFn st2 3 1 1 0 0 1 (by decide) s2
  have w1 : st2.fBest = ((1 : ℝ) : Val) := by
    rw [v1, s2.simplex]; simp only [tableFn, Matrix.cons_val_zero]; norm_num
  have w2 : st2.fWorst = ((9 : ℝ) : Val) := by
    rw [v2, s2.simplex]; simp only [tableFn, Matrix.cons_val_one]; norm_num
  have w3 : st2.fSecondWorst = ((1 : ℝ) : Val) := by rw [v3, ← v1, w1]
  have htr : trialOf tableFn st2 = fun _ => 7 := by
    rw [trial_rule tableFn le_rfl st2 s2.inv, w1, w2, w3, reflectionOf, snapshot_dir tableFn st2 _ _ _ _ _ _ s2,
      snapshot_dir tableFn st2 _ _ _ _ _ _ s2]
    simp only [tableFn, moveFactor, WithTop.coe_lt_coe]
    rw [if_pos (by norm_num)]
    norm_num
  have hsh : Shrinks tableFn st2 := by
    unfold Shrinks
    rw [htr, w2]; simp only [tableFn, WithTop.coe_lt_coe]; norm_num
  have hc : shrinkCentre tableFn st2 = fun _ => 0 := by
    have hnb : ¬ (mainStep tableFn st2).2.1 < st2.fBest := by
      have h4 : st2.fBest ≤ st2.fWorst := by rw [w1, w2, WithTop.coe_le_coe]; norm_num
      exact not_lt.2 (h4.trans (le_of_lt hsh))
    simp only [shrinkCentre, hnb, decide_false, Bool.false_eq_true, if_false, s2.best]
  obtain ⟨h1, h3⟩ := nm_shrink tableFn st2 (iterateAt S tableFn () (fun _ => 0) st0 2) s2.inv.started hsh
  have hsx : (stateAt S tableFn () (fun _ => 0) st0 3).simplex = ![fun _ => 1.5, fun _ => 0.5] := by
    show (NelderMead.step tableFn (iterateAt S tableFn () (fun _ => 0) st0 2) st2).2.1.simplex = _
    rw [h1, hc, s2.simplex]
    funext i c
    fin_cases i <;> norm_num
  refine ⟨st0, hi, w1, hsx, ?_⟩
  have h3' : NMInv tableFn (stateAt S tableFn () (fun _ => 0) st0 3) := h3
  rw [h3'.best, h3'.values, hsx]
  generalize (stateAt S tableFn () (fun _ => 0) st0 3).bestIndex = j
  fin_cases j
  · simp only [tableFn, Fin.zero_eta, Matrix.cons_val_zero]; norm_num
  · simp only [tableFn, Fin.mk_one, Matrix.cons_val_one]; norm_num

end Verif.Props
