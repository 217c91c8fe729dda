import Verif.Props.NelderMeadMoves
import Mathlib.LinearAlgebra.Dimension.Constructions
import Mathlib.LinearAlgebra.FiniteDimensional.Lemmas

/-! C45: the initial simplex of Nelder-Mead. -/

namespace Verif.Props

open Verif Verif.Spec Verif.Driver Verif.NelderMead

section
variable {L : Nat} (sizes : Fin L → Nat) (rdelta adelta : ℝ) (y : Entry sizes → ℝ)

/-- Which entries of which vertices are displaced, and by how much. -/
theorem initialSimplex_eq (v : Fin (totalSize sizes + 1)) (e : Entry sizes) :
    (¬ (runningSize sizes e.1 < v.1 * sizes e.1 + e.2.1 ∧
        v.1 * sizes e.1 + e.2.1 ≤ runningSize sizes e.1 + sizes e.1) → initialSimplex sizes rdelta adelta y v e = y e) ∧
    (runningSize sizes e.1 < v.1 * sizes e.1 + e.2.1 → v.1 * sizes e.1 + e.2.1 ≤ runningSize sizes e.1 + sizes e.1 →
      ∃ c : Fin (sizes e.1), c.1 = min (v.1 * sizes e.1 + e.2.1 - runningSize sizes e.1) (sizes e.1 - 1) ∧
        initialSimplex sizes rdelta adelta y v e = y e + adelta + rdelta * y ⟨e.1, c⟩) := by
  have hpos : 0 < sizes e.1 := lt_of_le_of_lt (Nat.zero_le _) e.2.2
  unfold initialSimplex
  simp only
  split
  · rename_i k hk
    have h1 := List.find?_some hk
    have h2 := List.mem_of_find?_eq_some hk
    rw [List.mem_range'] at h2
    simp only [decide_eq_true_eq] at h1
    obtain ⟨i, hi, rfl⟩ := h2
    have hkv : runningSize sizes e.1 + 1 + 1 * i = v.1 * sizes e.1 + e.2.1 := by
      rw [← h1.1, ← h1.2, Nat.div_add_mod']
    constructor
    · intro hn
      exact absurd ⟨by omega, by omega⟩ hn
    · intro _ _
      refine ⟨_, ?_, rfl⟩
      simp only [hkv]
  · rename_i hk
    rw [List.find?_eq_none] at hk
    constructor
    · intro _; rfl
    · intro h1 h2
      have hm : v.1 * sizes e.1 + e.2.1 ∈ List.range' (runningSize sizes e.1 + 1) (sizes e.1) := by
        rw [List.mem_range']
        exact ⟨v.1 * sizes e.1 + e.2.1 - (runningSize sizes e.1 + 1), by omega, by omega⟩
      have := hk _ hm
      simp only [decide_eq_true_eq] at this
      exfalso
      apply this
      constructor
      · rw [Nat.add_comm, Nat.add_mul_div_right _ _ hpos, Nat.div_eq_of_lt e.2.2, Nat.zero_add]
      · rw [Nat.add_comm, Nat.add_mul_mod_self_right, Nat.mod_eq_of_lt e.2.2]

/-! #### PyTrees of scalars: the documented simplex -/

/-- **C45** (partial).  If every leaf of `y` is a scalar, the simplex is the documented one: vertex `0` is `y` and vertex
`l + 1` is `y` with `adelta + rdelta * y_l` added to entry `l`.  It is non-degenerate iff none of these displacements is
zero.  Missing: leaves that are arrays, for which it is false (`C45_array_leaf_degenerate`), and a choice of displacements
that cannot vanish (with the default settings it vanishes at `y_l = -0.005`). -/
theorem C45_scalars_partial (d : Nat) (y : Entry (fun _ : Fin d => 1) → ℝ) :
    let P := initialSimplex (fun _ : Fin d => 1) rdelta adelta y
    (∀ v e, P v e = y e + if v.1 = e.1.1 + 1 then adelta + rdelta * y e else 0) ∧
    (AffineIndependent ℝ P ↔ ∀ e, adelta + rdelta * y e ≠ 0) := by
  intro P
  have hrun : ∀ l : Fin d, runningSize (fun _ : Fin d => 1) l = l.1 := by
    intro l
    unfold runningSize
    rw [Finset.sum_const, smul_eq_mul, mul_one]
    have : Finset.univ.filter (· < l) = Finset.Iio l := by ext; simp
    rw [this, Fin.card_Iio]
  have htot : totalSize (fun _ : Fin d => 1) = d := by simp [totalSize]
  have hP : ∀ v e, P v e = y e + if v.1 = e.1.1 + 1 then adelta + rdelta * y e else 0 := by
    intro v e
    obtain ⟨h1, h2⟩ := initialSimplex_eq (fun _ : Fin d => 1) rdelta adelta y v e
    have he0 : e.2.1 = 0 := by have : e.2.1 < 1 := e.2.2; omega
    simp only [hrun, he0] at h1 h2
    by_cases hv : v.1 = e.1.1 + 1
    · obtain ⟨c, hc, hc2⟩ := h2 (by omega) (by omega)
      have : (⟨e.1, c⟩ : Entry fun _ : Fin d => 1) = e := by
        obtain ⟨l, i⟩ := e
        have hci : c = i := by ext; have : c.1 < 1 := c.2; have : i.1 < 1 := i.2; omega
        rw [hci]
      rw [this] at hc2
      show initialSimplex _ _ _ _ _ _ = _
      rw [hc2, if_pos hv]; ring
    · show initialSimplex _ _ _ _ _ _ = _
      rw [h1 (by omega), if_neg hv, add_zero]
  refine ⟨hP, ?_, ?_⟩
  · intro hind e h0
    have hne : (0 : Fin (totalSize (fun _ : Fin d => 1) + 1)) ≠ ⟨e.1.1 + 1, by rw [htot]; have := e.1.2; omega⟩ := by
      intro h
      have := congrArg Fin.val h
      simp at this
    apply hne
    apply hind.injective
    funext e'
    rw [hP, hP, if_neg (by simp)]
    split
    · rename_i h
      have : e' = e := by
        obtain ⟨l, i⟩ := e
        obtain ⟨l', i'⟩ := e'
        have hl : l' = l := by ext; simp only at h; omega
        subst hl
        have : i' = i := by ext; have : i.1 < 1 := i.2; have : i'.1 < 1 := i'.2; omega
        rw [this]
      rw [this, h0]
    · rfl
  · intro hne
    rw [affineIndependent_iff]
    intro s w hw hsum
    have key : ∀ l : Fin d, ∀ v ∈ s, v.1 = l.1 + 1 → w v = 0 := by
      intro l v hv hvl
      set e : Entry fun _ : Fin d => 1 := ⟨l, 0⟩
      have h := congrFun hsum e
      rw [Finset.sum_apply] at h
      simp only [Pi.smul_apply, smul_eq_mul, Pi.zero_apply, hP, mul_add, Finset.sum_add_distrib, ← Finset.sum_mul, hw,
        zero_mul, zero_add] at h
      rw [Finset.sum_eq_single_of_mem v hv] at h
      · rw [if_pos hvl] at h
        exact (mul_eq_zero.1 h).resolve_right (hne e)
      · intro b _ hb
        rw [if_neg, mul_zero]
        intro hbl
        apply hb
        ext
        rw [hvl]; exact hbl
    intro v hv
    by_cases h0 : v.1 = 0
    · have hz : ∀ u ∈ s, u ≠ v → w u = 0 := by
        intro u hu hne'
        have hu0 : u.1 ≠ 0 := fun h => hne' (Fin.ext (by omega))
        have hlt : u.1 - 1 < d := by have := u.2; omega
        exact key ⟨u.1 - 1, hlt⟩ u hu (by show u.1 = u.1 - 1 + 1; omega)
      rw [Finset.sum_eq_single_of_mem v hv hz] at hw
      exact hw
    · have hlt : v.1 - 1 < d := by have := v.2; omega
      exact key ⟨v.1 - 1, hlt⟩ v hv (by show v.1 = v.1 - 1 + 1; omega)

/-! #### Array leaves: the simplex is degenerate -/

/-- The vertices that leaf `l` displaces. -/
def rowsOf (l : Fin L) : Finset Nat :=
  (Finset.Ioc (runningSize sizes l) (runningSize sizes l + sizes l)).image fun k => k / sizes l

theorem rowsOf_card (l : Fin L) : (rowsOf sizes l).card ≤ min (sizes l) 2 := by
  apply le_min
  · exact Finset.card_image_le.trans (by simp)
  · rcases Nat.eq_zero_or_pos (sizes l) with h0 | h0
    · have : rowsOf sizes l = ∅ := by simp [rowsOf, h0]
      rw [this]; simp
    · have hsub : rowsOf sizes l ⊆ {(runningSize sizes l + 1) / sizes l, (runningSize sizes l + 1) / sizes l + 1} := by
        intro q hq
        simp only [rowsOf, Finset.mem_image, Finset.mem_Ioc] at hq
        obtain ⟨k, ⟨h1, h2⟩, rfl⟩ := hq
        have h3 : (runningSize sizes l + 1) / sizes l ≤ k / sizes l := Nat.div_le_div_right h1
        have h4 : k / sizes l ≤ (runningSize sizes l + 1) / sizes l + 1 := by
          rw [← Nat.add_div_right _ h0]
          exact Nat.div_le_div_right (by omega)
        simp only [Finset.mem_insert, Finset.mem_singleton]
        omega
      exact (Finset.card_le_card hsub).trans Finset.card_le_two

/-- A vertex that no leaf displaces is `y`. -/
theorem undisplaced (v : Fin (totalSize sizes + 1)) (h : ∀ l, v.1 ∉ rowsOf sizes l) :
    initialSimplex sizes rdelta adelta y v = y := by
  funext e
  apply (initialSimplex_eq sizes rdelta adelta y v e).1
  rintro ⟨h1, h2⟩
  have hpos : 0 < sizes e.1 := lt_of_le_of_lt (Nat.zero_le _) e.2.2
  apply h e.1
  simp only [rowsOf, Finset.mem_image, Finset.mem_Ioc]
  refine ⟨_, ⟨h1, h2⟩, ?_⟩
  rw [Nat.add_comm, Nat.add_mul_div_right _ _ hpos, Nat.div_eq_of_lt e.2.2, Nat.zero_add]

/-- The vertices that are displaced at all. -/
noncomputable def displaced : Finset (Fin (totalSize sizes + 1)) :=
  Finset.univ.filter fun v => ∃ l, v.1 ∈ rowsOf sizes l

theorem displaced_card : (displaced sizes).card ≤ ∑ l, min (sizes l) 2 := by
  have h1 : (displaced sizes).card ≤ (Finset.univ.biUnion fun l => rowsOf sizes l).card := by
    apply Finset.card_le_card_of_injOn (fun v => v.1)
    · intro v hv
      simp only [displaced, Finset.coe_filter, Finset.mem_univ, true_and, Set.mem_setOf_eq] at hv
      simpa using hv
    · intro a _ b _ h
      exact Fin.ext h
  exact h1.trans (Finset.card_biUnion_le.trans (Finset.sum_le_sum fun l _ => rowsOf_card sizes l))

/-- **C45 is false of the code**: if any leaf of `y` has three or more entries, then, whatever `y` and the deltas, two
vertices of the simplex coincide (both are `y`), so the simplex is degenerate. -/
theorem C45_array_leaf_degenerate (l : Fin L) (hl : 3 ≤ sizes l) :
    (∃ v w, v ≠ w ∧ initialSimplex sizes rdelta adelta y v = y ∧ initialSimplex sizes rdelta adelta y w = y) ∧
    ¬ AffineIndependent ℝ (initialSimplex sizes rdelta adelta y) := by
  have hlt : ∑ l, min (sizes l) 2 < ∑ l, sizes l := by
    apply Finset.sum_lt_sum
    · intro i _; exact min_le_left _ _
    · exact ⟨l, Finset.mem_univ _, by omega⟩
  have hc := displaced_card sizes
  have hcard : 1 < (displaced sizes)ᶜ.card := by
    rw [Finset.card_compl, Fintype.card_fin]
    unfold totalSize at *
    omega
  obtain ⟨v, hv, w, hw, hne⟩ := Finset.one_lt_card.1 hcard
  have hu : ∀ u ∈ (displaced sizes)ᶜ, initialSimplex sizes rdelta adelta y u = y := by
    intro u hu
    apply undisplaced
    intro m hm
    rw [Finset.mem_compl] at hu
    exact hu (by simp only [displaced, Finset.mem_filter, Finset.mem_univ, true_and]; exact ⟨m, hm⟩)
  refine ⟨⟨v, w, hne, hu v hv, hu w hw⟩, fun hind => hne ?_⟩
  exact hind.injective ((hu v hv).trans (hu w hw).symm)

end

/-! #### A run never leaves the affine hull of its initial simplex -/

section
variable {n : Nat} [NeZero n] {ι A : Type} (cfg : Cfg n ι) (aux0 : A) (fn : (ι → ℝ) → Val × A) (y0 : ι → ℝ)
variable (Q : (ι → ℝ) → Prop) (hQ : ∀ x p q, Q x → Q p → Q q → ∀ t : ℝ, Q fun c => x c + t * (p c - q c))

include hQ

theorem along_closed (simplex : Fin n → ι → ℝ) (worst : ι → ℝ) (hs : ∀ i, Q (simplex i)) (hw : Q worst) (t : ℝ) :
    Q (along worst (searchDirection simplex worst) t) := by
  unfold along searchDirection
  have key : ∀ s : Finset (Fin n), Q fun c => worst c + t * ∑ i ∈ s, (simplex i c - worst c) / ((n : ℝ) - 1) := by
    intro s
    classical
    induction s using Finset.induction_on with
    | empty => simpa using hw
    | insert a s ha ih =>
      have := hQ _ _ _ ih (hs a) hw (t / ((n : ℝ) - 1))
      convert this using 2
      rw [Finset.sum_insert ha]; ring
  exact key Finset.univ

theorem trial_closed (st : State n ι A) (hs : ∀ i, Q (st.simplex i)) (hw : Q st.worst) : Q (trialOf fn st) := by
  unfold trialOf mainStep internalEval
  simp only
  split
  · exact along_closed Q hQ _ _ hs hw _
  · split
    · exact along_closed Q hQ _ _ hs hw _
    · exact along_closed Q hQ _ _ hs hw _

theorem nm_closed_step (st : State n ι A) (y : ι → ℝ) (hs : ∀ i, Q (st.simplex i)) (hw : Q st.worst) (hb : Q st.best) :
    (∀ i, Q ((NelderMead.step fn y st).2.1.simplex i)) ∧ Q (NelderMead.step fn y st).2.1.worst ∧
      Q (NelderMead.step fn y st).2.1.best ∧ Q (NelderMead.step fn y st).1 := by
  refine ⟨?_, hs _, hs _, hs _⟩
  intro i
  have ht := trial_closed fn Q hQ st hs hw
  have ht' : Q (mainStep fn st).1 := ht
  simp only [NelderMead.step]
  cases hf : st.firstPass
  · simp only [Bool.false_eq_true, if_false]
    split
    · simp only [shrinkSimplex, Bool.false_eq_true, if_false]
      have hc : Q (if decide ((mainStep fn st).2.1 < st.fBest) = true then (mainStep fn st).1 else st.best) := by
        split
        · exact ht'
        · exact hb
      exact hQ _ _ _ hc (hs i) hc _
    · simp only [updateSimplex]
      split
      · exact ht'
      · exact hs i
  · simp only [if_true, shrinkSimplex]
    exact hs i

theorem nm_closed (st0 : State n ι A) (hi : (NelderMead.solver cfg aux0).init fn y0 = .ok st0)
    (h0 : ∀ v, Q (cfg.mkSimplex y0 v)) (k : Nat) :
    (∀ i, Q ((stateAt (NelderMead.solver cfg aux0) fn aux0 y0 st0 k).simplex i)) ∧
    Q (iterateAt (NelderMead.solver cfg aux0) fn aux0 y0 st0 (k + 1)) := by
  obtain ⟨_, _, hs, _, _, hb, hw, _⟩ := nm_init cfg aux0 fn y0 st0 hi
  have key : (∀ i, Q ((stateAt (NelderMead.solver cfg aux0) fn aux0 y0 st0 k).simplex i)) ∧
      Q (stateAt (NelderMead.solver cfg aux0) fn aux0 y0 st0 k).worst ∧
      Q (stateAt (NelderMead.solver cfg aux0) fn aux0 y0 st0 k).best := by
    induction k with
    | zero =>
      refine ⟨?_, ?_, ?_⟩
      · intro i; show Q (st0.simplex i); rw [hs]; exact h0 i
      · show Q st0.worst; rw [hw]; exact h0 0
      · show Q st0.best; rw [hb]; exact h0 0
    | succ k ih =>
      obtain ⟨a, b, c, _⟩ := nm_closed_step fn Q hQ (stateAt (NelderMead.solver cfg aux0) fn aux0 y0 st0 k)
        (iterateAt (NelderMead.solver cfg aux0) fn aux0 y0 st0 k) ih.1 ih.2.1 ih.2.2
      exact ⟨a, b, c⟩
  exact ⟨key.1, (nm_closed_step fn Q hQ _ (iterateAt (NelderMead.solver cfg aux0) fn aux0 y0 st0 k) key.1 key.2.1
    key.2.2).2.2.2⟩

end

/-- **C45**, why it matters.  All points a run ever visits or returns lie in every affine subspace that contains the initial
simplex.  In particular, on a `y` with leaves of the given sizes, whatever the objective, every iterate differs from `y0` by
a vector of one fixed linear subspace of dimension at most `∑ min(size, 2)`: a single array of a thousand numbers is only
ever searched in a plane. -/
theorem C45_confined {A : Type} {L : Nat} (sizes : Fin L → Nat) (rdelta adelta : ℝ) (y0 : Entry sizes → ℝ) :
    ∃ W : Submodule ℝ (Entry sizes → ℝ), Module.finrank ℝ W ≤ ∑ l, min (sizes l) 2 ∧
      ∀ (rtol atol : ℝ) normX normF (aux0 : A) (fn : (Entry sizes → ℝ) → Val × A) (af : (Entry sizes → ℝ) → Bool)
        (ms : Option Nat) (throw : Bool) sol,
        iterativeSolve (NelderMead.solver (cfgFor sizes rtol atol normX normF rdelta adelta) aux0) af fn aux0 y0 ms throw =
          some (.ok sol) → sol.value - y0 ∈ W ∧ ∀ v, sol.state.simplex v - y0 ∈ W := by
  classical
  set D : Finset (Entry sizes → ℝ) := (displaced sizes).image fun v => initialSimplex sizes rdelta adelta y0 v - y0 with hD
  refine ⟨Submodule.span ℝ (D : Set (Entry sizes → ℝ)), ?_, ?_⟩
  · exact (finrank_span_finset_le_card D).trans (Finset.card_image_le.trans (displaced_card sizes))
  · intro rtol atol normX normF aux0 fn af ms throw sol h
    obtain ⟨_, _, st0, hi, hst, hp⟩ := C01_step_budget _ _ _ _ _ _ _ _ h
    set W := Submodule.span ℝ (D : Set (Entry sizes → ℝ))
    set cfg := cfgFor sizes rtol atol normX normF rdelta adelta
    have h0 : ∀ v, cfg.mkSimplex y0 v - y0 ∈ W := by
      intro v
      by_cases hv : v ∈ displaced sizes
      · apply Submodule.subset_span
        rw [hD, Finset.coe_image]
        exact ⟨v, hv, rfl⟩
      · have : cfg.mkSimplex y0 v = y0 := by
          apply undisplaced
          intro l hl
          exact hv (by simp only [displaced, Finset.mem_filter, Finset.mem_univ, true_and]; exact ⟨l, hl⟩)
        rw [this, sub_self]; exact W.zero_mem
    have hQ : ∀ x p q : Entry sizes → ℝ, x - y0 ∈ W → p - y0 ∈ W → q - y0 ∈ W → ∀ t : ℝ,
        (fun c => x c + t * (p c - q c)) - y0 ∈ W := by
      intro x p q hx hp hq t
      have e : (fun c => x c + t * (p c - q c)) - y0 = (x - y0) + t • ((p - y0) - (q - y0)) := by
        funext c; simp [smul_eq_mul]; ring
      rw [e]
      exact W.add_mem hx (W.smul_mem t (W.sub_mem hp hq))
    have hc := fun k => nm_closed cfg aux0 fn y0 (fun x => x - y0 ∈ W) hQ st0 hi h0 k
    have hv : sol.value = iterateAt (NelderMead.solver cfg aux0) fn aux0 y0 st0 sol.numSteps := congrArg Prod.fst hp
    refine ⟨?_, ?_⟩
    · rw [hv]
      cases hk : sol.numSteps with
      | zero => show y0 - y0 ∈ W; rw [sub_self]; exact W.zero_mem
      | succ k => exact (hc k).2
    · intro v
      rw [hst]; exact (hc sol.numSteps).1 v

/-- **C45**, a concrete instance of the failure: minimising `(y₁ - 1)² + (y₂ + 1)²` over arrays `(y₀, y₁, y₂)` from
`y0 = 0`, no run of the solver, with whatever tolerances, norms, deltas and budget, ever gets below the value `2`
(the minimum is `0`). -/
theorem C45_cannot_minimise (rtol atol : ℝ) (normX normF) (rdelta adelta : ℝ)
    (af : (Entry (fun _ : Fin 1 => 3) → ℝ) → Bool) (ms : Option Nat) (throw : Bool) (sol) :
    let f : (Entry (fun _ : Fin 1 => 3) → ℝ) → ℝ := fun y => (y ⟨0, 1⟩ - 1) ^ 2 + (y ⟨0, 2⟩ + 1) ^ 2
    iterativeSolve (NelderMead.solver (cfgFor (fun _ : Fin 1 => 3) rtol atol normX normF rdelta adelta) ()) af
        (fun y => ((f y : Val), ())) () (fun _ => 0) ms throw = some (.ok sol) → 2 ≤ f sol.value := by
  intro f h
  obtain ⟨_, _, st0, hi, hst, hp⟩ := C01_step_budget _ _ _ _ _ _ _ _ h
  set cfg := cfgFor (fun _ : Fin 1 => 3) rtol atol normX normF rdelta adelta
  have h0 : ∀ v, cfg.mkSimplex (fun _ => 0) v ⟨0, 1⟩ = cfg.mkSimplex (fun _ => 0) v ⟨0, 2⟩ := by
    intro v
    change initialSimplex (fun _ : Fin 1 => 3) rdelta adelta (fun _ => 0) v ⟨0, 1⟩ =
      initialSimplex (fun _ : Fin 1 => 3) rdelta adelta (fun _ => 0) v ⟨0, 2⟩
    obtain ⟨a1, a2⟩ := initialSimplex_eq (fun _ : Fin 1 => 3) rdelta adelta (fun _ => 0) v ⟨0, 1⟩
    obtain ⟨b1, b2⟩ := initialSimplex_eq (fun _ : Fin 1 => 3) rdelta adelta (fun _ => 0) v ⟨0, 2⟩
    have hr : runningSize (fun _ : Fin 1 => 3) 0 = 0 := by
      unfold runningSize
      apply Finset.sum_eq_zero
      intro m hm
      simp at hm
    simp only [hr, Fin.val_one, Fin.val_two] at a1 a2 b1 b2
    by_cases hv : v.1 = 0
    · obtain ⟨_, _, e1⟩ := a2 (by omega) (by omega)
      obtain ⟨_, _, e2⟩ := b2 (by omega) (by omega)
      rw [e1, e2]
    · rw [a1 (by omega), b1 (by omega)]
  have hc := fun k => (nm_closed cfg () (fun y => ((f y : Val), ())) (fun _ => 0)
    (fun x => x ⟨0, 1⟩ = x ⟨0, 2⟩) (fun x p q hx hp hq t => by beta_reduce at *; rw [hx, hp, hq]) st0 hi h0 k).2
  have hv : sol.value = iterateAt (NelderMead.solver cfg ()) _ () (fun _ => 0) st0 sol.numSteps := congrArg Prod.fst hp
  have heq : sol.value ⟨0, 1⟩ = sol.value ⟨0, 2⟩ := by
    rw [hv]
    cases hk : sol.numSteps with
    | zero => rfl
    | succ k => exact hc k
  simp only [f]
  rw [heq]
  nlinarith [sq_nonneg (sol.value ⟨0, 2⟩)]

/-- C45 is not vacuous: such runs exist (any budget). -/
example (rtol atol : ℝ) (normX normF) : ∃ st0, (NelderMead.solver (cfgFor (fun _ : Fin 1 => 3) rtol atol normX normF 0.05
    0.00025) ()).init (fun y => (((y ⟨0, 1⟩ - 1) ^ 2 + (y ⟨0, 2⟩ + 1) ^ 2 : ℝ), ())) (fun _ => 0) = .ok st0 := by
  refine ⟨_, rfl⟩

/-- The default displacement vanishes at `-0.005`. -/
example : (0.00025 : ℝ) + 0.05 * (-0.005) = 0 := by norm_num

end Verif.Props
