import Verif.Lemmas.Complex
import Verif.Lemmas.SimulateRel
import Verif.Spec.Trace

/-!
Solvers on complex unknowns follow the solvers on real and imaginary parts (C92), and on real data the solvers on real
unknowns (C92, C93).
-/

namespace Verif.Cx

open ComplexConjugate Matrix Driver Spec

/-! ### Iterates of solvers whose steps correspond -/

section steps

variable {Y Y' Out Out' Aux St St' Stats Stats' : Type}

variable {S : Solver Y Out Aux St Stats} {fn : Y → Out × Aux} {S' : Solver Y' Out' Aux St' Stats'}
  {fn' : Y' → Out' × Aux} {m : Y → Y'}

theorem trace_rel {R : St → St' → Prop} (aux0 : Aux) (y0 : Y) (st0 : St) (st0' : St') (n : ℕ)
    (hs : ∀ k < n, ∀ st', R (stateAt S fn aux0 y0 st0 k) st' →
      (S'.step fn' (m (iterateAt S fn aux0 y0 st0 k)) st').1 =
        m (S.step fn (iterateAt S fn aux0 y0 st0 k) (stateAt S fn aux0 y0 st0 k)).1 ∧
      R (S.step fn (iterateAt S fn aux0 y0 st0 k) (stateAt S fn aux0 y0 st0 k)).2.1
        (S'.step fn' (m (iterateAt S fn aux0 y0 st0 k)) st').2.1 ∧
      (S'.step fn' (m (iterateAt S fn aux0 y0 st0 k)) st').2.2 =
        (S.step fn (iterateAt S fn aux0 y0 st0 k) (stateAt S fn aux0 y0 st0 k)).2.2)
    (h0 : R st0 st0') : ∀ k ≤ n,
    iterateAt S' fn' aux0 (m y0) st0' k = m (iterateAt S fn aux0 y0 st0 k) ∧
      R (stateAt S fn aux0 y0 st0 k) (stateAt S' fn' aux0 (m y0) st0' k) ∧
      auxAt S' fn' aux0 (m y0) st0' k = auxAt S fn aux0 y0 st0 k := by
  intro k
  induction k with
  | zero => exact fun _ => ⟨rfl, h0, rfl⟩
  | succ k ih =>
    intro hk
    have ih := ih (Nat.le_of_succ_le hk)
    obtain ⟨h1, h2, h3⟩ := hs k hk _ ih.2.1
    simp only [iterateAt, stateAt] at ih h1 h2 h3
    refine ⟨?_, ?_, ?_⟩
    · show (S'.step fn' (trace S' fn' aux0 (m y0) st0' k).1 _).1 = _
      rw [ih.1]; exact h1
    · show R _ (S'.step fn' (trace S' fn' aux0 (m y0) st0' k).1 _).2.1
      rw [ih.1]; exact h2
    · show (S'.step fn' (trace S' fn' aux0 (m y0) st0' k).1 _).2.2 = _
      rw [ih.1]; exact h3

/-- A carry of the loop is where the sequence of steps says. -/
structure OnTrace (S : Solver Y Out Aux St Stats) (allfinite : Y → Bool) (fn : Y → Out × Aux) (aux0 : Aux) (y0 : Y) (st0 : St) (k : ℕ)
    (c : Carry Y St Aux) : Prop where
  numSteps : c.numSteps = k
  y : c.y = iterateAt S fn aux0 y0 st0 k
  state : c.state = stateAt S fn aux0 y0 st0 k
  aux : c.aux = auxAt S fn aux0 y0 st0 k
  verdict : (c.terminate, c.result) =
    terminateAndResult S allfinite fn (testedAt S fn aux0 y0 st0 k) (stateAt S fn aux0 y0 st0 k)

theorem onTrace_init (allfinite : Y → Bool) (aux0 : Aux) (y0 : Y) (st0 : St) :
    OnTrace S allfinite fn aux0 y0 st0 0 (initCarry S allfinite fn aux0 y0 st0) := ⟨rfl, rfl, rfl, rfl, rfl⟩

theorem onTrace_body {allfinite : Y → Bool} {aux0 : Aux} {y0 : Y} {st0 : St} {k : ℕ} {c : Carry Y St Aux}
    (h : OnTrace S allfinite fn aux0 y0 st0 k c) : OnTrace S allfinite fn aux0 y0 st0 (k + 1) (body S allfinite fn c) := by
  obtain ⟨h1, h2, h3, h4, -⟩ := h
  refine ⟨by simp only [body, h1], ?_, ?_, ?_, ?_⟩ <;> simp only [body, h2, h3] <;> rfl

/-- Solves whose sequences of steps and stopping tests correspond have corresponding outcomes. -/
theorem outcome_of_traces {allfinite : Y → Bool} {allfinite' : Y' → Bool} (hfin : ∀ y, allfinite' (m y) = allfinite y)
    {aux0 : Aux} {y0 : Y} {st0 : St} {st0' : St'} (hi : S.init fn y0 = .ok st0) (hi' : S'.init fn' (m y0) = .ok st0')
    (hy : ∀ k, iterateAt S' fn' aux0 (m y0) st0' k = m (iterateAt S fn aux0 y0 st0 k))
    (ha : ∀ k, auxAt S' fn' aux0 (m y0) st0' k = auxAt S fn aux0 y0 st0 k)
    (hv : ∀ k, verdictAt S' fn' aux0 (m y0) st0' k = verdictAt S fn aux0 y0 st0 k)
    (hp : ∀ y a st r, (S.postprocess fn y a st r).1 = y ∧ (S.postprocess fn y a st r).2.1 = a)
    (hp' : ∀ y a st r, (S'.postprocess fn' y a st r).1 = y ∧ (S'.postprocess fn' y a st r).2.1 = a)
    (ms : Option ℕ) (throw : Bool) :
    Relabel.outcome (iterativeSolve S' allfinite' fn' aux0 (m y0) ms throw) =
      (Relabel.outcome (iterativeSolve S allfinite fn aux0 y0 ms throw)).map fun r => r.map fun s => (m s.1, s.2) := by
  have htr : ∀ k, terminateAndResult S' allfinite' fn' (testedAt S' fn' aux0 (m y0) st0' k) (stateAt S' fn' aux0 (m y0) st0' k) =
      terminateAndResult S allfinite fn (testedAt S fn aux0 y0 st0 k) (stateAt S fn aux0 y0 st0 k) := by
    intro k
    have h1 := hv k
    simp only [verdictAt] at h1
    simp only [terminateAndResult, h1]
    rw [show allfinite' (testedAt S' fn' aux0 (m y0) st0' k) = allfinite (testedAt S fn aux0 y0 st0 k) by
      simp only [testedAt, hy, hfin]]
  simp only [Relabel.outcome, iterativeSolve, iterate, hi, hi']
  rcases whileOpt_rel (fun c c' => ∃ k, OnTrace S allfinite fn aux0 y0 st0 k c ∧ OnTrace S' allfinite' fn' aux0 (m y0) st0' k c')
    (cond := Driver.cond) (cond' := Driver.cond) (body := body S allfinite fn) (body' := body S' allfinite' fn') (fun c c' => by
      rintro ⟨k, h1, h2⟩
      have := h2.verdict.trans ((htr k).trans h1.verdict.symm)
      simp only [Prod.mk.injEq] at this
      simp only [Driver.cond, this.1, this.2])
    (fun c c' => by
      rintro ⟨k, h1, h2⟩
      exact ⟨k + 1, onTrace_body h1, onTrace_body h2⟩) ms _ _ ⟨0, onTrace_init allfinite aux0 y0 st0, onTrace_init allfinite' aux0 (m y0) st0'⟩
    with ⟨w1, w2⟩ | ⟨d, d', w1, w2, k, h1, h2⟩
  · simp only [w1, w2]; rfl
  · simp only [w1, w2, Option.map_some]
    have e0 := h2.verdict.trans ((htr k).trans h1.verdict.symm)
    simp only [Prod.mk.injEq] at e0
    have e1 : (package S' fn' ms d').result = (package S fn ms d).result := by
      simp only [package, finalResult, e0.1, e0.2]
    have e2 : (package S' fn' ms d').value = m (package S fn ms d).value := by
      simp only [package, (hp _ _ _ _).1, (hp' _ _ _ _).1, h1.y, h2.y, hy]
    have e3 : (package S' fn' ms d').aux = (package S fn ms d).aux := by
      simp only [package, (hp _ _ _ _).2, (hp' _ _ _ _).2, h1.aux, h2.aux, ha]
    have e4 : (package S' fn' ms d').numSteps = (package S fn ms d).numSteps := h2.numSteps.trans h1.numSteps.symm
    by_cases ht : throw = true ∧ (package S fn ms d).result ≠ .successful
    · have ht' : throw = true ∧ (package S' fn' ms d').result ≠ .successful := by rw [e1]; exact ht
      simp only [if_pos ht, if_pos ht', e1]; rfl
    · have ht' : ¬(throw = true ∧ (package S' fn' ms d').result ≠ .successful) := by rw [e1]; exact ht
      simp only [if_neg ht, if_neg ht', Except.map, e1, e2, e3, e4]

end steps

variable {ι κ A SS DS DS' : Type}

theorem cauchy_split {rtol atol : ℝ} {nY : (ι → ℝ) → ℝ} {nY' : (ι ⊕ ι → ℝ) → ℝ} (hY : SameTest rtol atol nY nY')
    {nF : (κ → ℝ) → ℝ} {nF' : (κ ⊕ κ → ℝ) → ℝ} (hF : SameTest rtol atol nF nF') (y d : ι → ℂ) (r e : κ → ℂ) :
    Verif.cauchyTermination rtol atol nY' nF' (split y) (split d) (split r) (split e) =
      cauchyTermination rtol atol nY nF y d r e := by
  simp only [Verif.cauchyTermination, cauchyTermination, hY.test y d, hF.test r e]

/-! ### Fixed-point iteration -/

theorem fp_step (c : Verif.FixedPointIter.Cfg ι ℝ) (c' : Verif.FixedPointIter.Cfg (ι ⊕ ι) ℝ) (hd : c'.damp = c.damp)
    (fn : (ι → ℂ) → (ι → ℂ) × A) (y : ι → ℂ) (st : Option ℝ) (st' : Option ℝ) :
    (Verif.FixedPointIter.step c' (splitFn fn) (split y) st').1 = split (FixedPointIter.step c fn y st).1 ∧
    (Verif.FixedPointIter.step c' (splitFn fn) (split y) st').2.2 = (FixedPointIter.step c fn y st).2.2 := by
  refine ⟨?_, ?_⟩
  · funext s
    cases s <;> simp [Verif.FixedPointIter.step, FixedPointIter.step, splitFn, split, hd, join]
  · simp [Verif.FixedPointIter.step, FixedPointIter.step, splitFn]

theorem fp_follows (c : Verif.FixedPointIter.Cfg ι ℝ) (c' : Verif.FixedPointIter.Cfg (ι ⊕ ι) ℝ) (hd : c'.damp = c.damp)
    (hr : c'.rtol = c.rtol) (ha : c'.atol = c.atol) (hn : SameTest c.rtol c.atol c.norm c'.norm)
    (fn : (ι → ℂ) → (ι → ℂ) × A) :
    Follows (FixedPointIter.solver c) fn (Verif.FixedPointIter.solver c') (splitFn fn) split (fun s s' => s' = s) where
  init _ := .inr ⟨_, _, rfl, rfl, rfl⟩
  step y st st' _ := by
    obtain ⟨h1, h2⟩ := fp_step c c' hd fn y st st'
    refine ⟨h1, ?_, h2⟩
    have e : (Verif.FixedPointIter.step c' (splitFn fn) (split y) st').2.1 =
        some (c'.norm fun s => (split y s - (Verif.FixedPointIter.step c' (splitFn fn) (split y) st').1 s) /
          (c'.atol + c'.rtol * |(Verif.FixedPointIter.step c' (splitFn fn) (split y) st').1 s|)) := rfl
    show (Verif.FixedPointIter.step c' (splitFn fn) (split y) st').2.1 = _
    rw [e, h1, hr, ha]
    have e2 : ∀ s, split y s - split (FixedPointIter.step c fn y st).1 s =
        split (fun i => y i - (FixedPointIter.step c fn y st).1 i) s := fun s => by rw [split_sub]
    simp only [e2]
    rw [hn.size]
    rfl
  terminate y st st' h := by
    subst h; rfl
  postY _ _ _ _ _ _ := rfl
  postA _ _ _ _ _ _ := rfl

/-! ### Newton and Chord -/

/-- Related states; `T` says whether the stopping tests correspond. -/
structure NewtonRel [Fintype ι] (T : Prop) (c : NewtonChord.Cfg ι κ) (c' : Verif.NewtonChord.Cfg (ι ⊕ ι) (κ ⊕ κ) ℝ (Matrix (κ ⊕ κ) (ι ⊕ ι) ℝ))
    (s : NewtonChord.State ι κ) (s' : Verif.NewtonChord.State (ι ⊕ ι) (κ ⊕ κ) ℝ (Matrix (κ ⊕ κ) (ι ⊕ ι) ℝ)) : Prop where
  linearState : s'.linearState = s.linearState.map splitMatrix
  stored : c.isNewton = false → ∃ j, s.linearState = some j ∧ Function.Bijective j.mulVec
  step : s'.step = s.step
  result : s'.result = s.result
  sizes : T → s'.diffsize = s.diffsize ∧ s'.diffsizePrev = s.diffsizePrev
  later : s.step ≠ 0 → s'.diff = split s.diff ∧ s'.f = s.f.map split
  first : s.step = 0 → (∃ z, s = NewtonChord.init c z) ∧ ∃ z, s' = Verif.NewtonChord.init c' z

section newton

variable [Fintype ι] [DecidableEq ι] {c : NewtonChord.Cfg ι ι} {nY nF : (ι ⊕ ι → ℝ) → ℝ}
  {ls : Matrix (ι ⊕ ι) (ι ⊕ ι) ℝ → (ι ⊕ ι → ℝ) → (ι ⊕ ι → ℝ) × Result}

omit [DecidableEq ι] in
theorem newton_linSol (hls : SolvesInjective c.linearSolve) (hls' : SolvesInjective ls)
    {T : Prop}
    {st : NewtonChord.State ι ι} {st' : Verif.NewtonChord.State (ι ⊕ ι) (ι ⊕ ι) ℝ (Matrix (ι ⊕ ι) (ι ⊕ ι) ℝ)}
    (h : NewtonRel T c (c.splitCfg nY nF ls) st st') (y f : ι → ℂ)
    (hj : c.isNewton = true → Function.Bijective (c.jac y).mulVec) :
    Verif.NewtonChord.linSol (c.splitCfg nY nF ls) (split y) (split f) st' =
      (split (NewtonChord.linSol c y f st).1, (NewtonChord.linSol c y f st).2) := by
  have key : ∀ M : Matrix ι ι ℂ, Function.Bijective M.mulVec → ls (splitMatrix M) (split f) =
      (split (c.linearSolve M f).1, (c.linearSolve M f).2) := fun M hM => by
    refine injective_split hls hls' (fun x hx => hM.1 ?_) (hM.2 f)
    rw [hx, mulVec_zero]
  have hl := h.linearState
  simp only [Verif.NewtonChord.linSol, NewtonChord.linSol, NewtonChord.Cfg.splitCfg, hl]
  cases e : c.isNewton with
  | true =>
    simp only [splitJac, join_split]
    exact key _ (hj e)
  | false =>
    obtain ⟨j, e2, hb⟩ := h.stored e
    rw [e2]
    exact key j hb

omit [DecidableEq ι] in
theorem newton_step (hls : SolvesInjective c.linearSolve) (hls' : SolvesInjective ls)
    {T : Prop} (hY : T → SameTest c.rtol c.atol c.normY nY)
    (fn : (ι → ℂ) → (ι → ℂ) × A) (y : ι → ℂ) (hj : c.isNewton = true → Function.Bijective (c.jac y).mulVec) (st : NewtonChord.State ι ι)
    (st' : Verif.NewtonChord.State (ι ⊕ ι) (ι ⊕ ι) ℝ (Matrix (ι ⊕ ι) (ι ⊕ ι) ℝ)) (h : NewtonRel T c (c.splitCfg nY nF ls) st st') :
    (Verif.NewtonChord.step (c.splitCfg nY nF ls) (splitFn fn) (split y) st').1 = split (NewtonChord.step c fn y st).1 ∧
    NewtonRel T c (c.splitCfg nY nF ls) (NewtonChord.step c fn y st).2.1
      (Verif.NewtonChord.step (c.splitCfg nY nF ls) (splitFn fn) (split y) st').2.1 ∧
    (Verif.NewtonChord.step (c.splitCfg nY nF ls) (splitFn fn) (split y) st').2.2 = (NewtonChord.step c fn y st).2.2 := by
  have hsol := newton_linSol hls hls' h y (fn y).1 hj
  have hfn : splitFn fn (split y) = (split (fn y).1, (fn y).2) := by rw [splitFn, join_split]
  have hy : (fun s => split y s - split (NewtonChord.linSol c y (fn y).1 st).1 s) =
      split fun i => y i - (NewtonChord.linSol c y (fn y).1 st).1 i := (split_sub _ _).symm
  simp only [Verif.NewtonChord.step, NewtonChord.step, hfn, hsol]
  refine ⟨hy, ⟨h.linearState, h.stored, by simp [h.step], rfl, fun t => ⟨?_, (h.sizes t).1⟩, fun _ => ⟨rfl, ?_⟩, fun e => by simp at e⟩,
    trivial⟩
  · simp only [Verif.NewtonChord.clipBounds, NewtonChord.Cfg.splitCfg, Option.isSome_none, Bool.or_self, Bool.false_eq_true, if_false]
    have := (hY t).size (fun i => y i - (NewtonChord.linSol c y (fn y).1 st).1 i) (NewtonChord.linSol c y (fn y).1 st).1
    rw [← hy] at this
    exact this
  · by_cases e : c.cauchy = true <;> simp [NewtonChord.Cfg.splitCfg, e]

omit [DecidableEq ι] in
theorem newton_init (T : Prop) (y : ι → ℂ) (hj : c.isNewton = false → Function.Bijective (c.jac y).mulVec) :
    NewtonRel T c (c.splitCfg nY nF ls) (NewtonChord.init c y) (Verif.NewtonChord.init (c.splitCfg nY nF ls) (split y)) := by
  refine ⟨?_, ?_, rfl, rfl, fun _ => ⟨rfl, rfl⟩, fun e => absurd rfl e, fun _ => ⟨⟨_, rfl⟩, ⟨_, rfl⟩⟩⟩
  · simp only [NewtonChord.init, Verif.NewtonChord.init, NewtonChord.Cfg.splitCfg, splitJac, join_split]
    split <;> rfl
  · intro e
    exact ⟨c.jac y, by simp [NewtonChord.init, e], hj e⟩

omit [DecidableEq ι] [Fintype ι] in
theorem newton_init_verdict (h : ∀ y, (NewtonChord.terminate c y (NewtonChord.init c y)).1 = false) (y z : ι → ℂ) :
    NewtonChord.terminate c y (NewtonChord.init c z) = (false, .successful) := by
  refine Prod.ext (h y) ?_
  simp only [NewtonChord.terminate, NewtonChord.init]
  cases c.cauchy <;> simp

omit [DecidableEq ι] [Fintype ι] in
theorem newton_init_verdict' {c' : Verif.NewtonChord.Cfg (ι ⊕ ι) (ι ⊕ ι) ℝ (Matrix (ι ⊕ ι) (ι ⊕ ι) ℝ)}
    (h : ∀ y, (Verif.NewtonChord.terminate c' y (Verif.NewtonChord.init c' y)).1 = false) (y z : ι ⊕ ι → ℝ) :
    Verif.NewtonChord.terminate c' y (Verif.NewtonChord.init c' z) = (false, .successful) := by
  refine Prod.ext (h y) ?_
  simp only [Verif.NewtonChord.terminate, Verif.NewtonChord.init]
  cases c'.cauchy <;> simp

omit [DecidableEq ι] in
theorem newton_verdict (hY : SameTest c.rtol c.atol c.normY nY) (hF : SameTest c.rtol c.atol c.normF nF)
    (hi : ∀ y, (NewtonChord.terminate c y (NewtonChord.init c y)).1 = false)
    (hi' : ∀ y, (Verif.NewtonChord.terminate (c.splitCfg nY nF ls) y (Verif.NewtonChord.init (c.splitCfg nY nF ls) y)).1 = false)
    (y : ι → ℂ) (st : NewtonChord.State ι ι) (st' : Verif.NewtonChord.State (ι ⊕ ι) (ι ⊕ ι) ℝ (Matrix (ι ⊕ ι) (ι ⊕ ι) ℝ))
    (h : NewtonRel True c (c.splitCfg nY nF ls) st st') :
    Verif.NewtonChord.terminate (c.splitCfg nY nF ls) (split y) st' = NewtonChord.terminate c y st := by
    by_cases e : st.step = 0
    · obtain ⟨⟨z, e1⟩, z', e2⟩ := h.first e
      rw [e1, e2, newton_init_verdict hi, newton_init_verdict' hi']
    · obtain ⟨hd, hf⟩ := h.later e
      obtain ⟨h1, h2⟩ := h.sizes trivial
      simp only [Verif.NewtonChord.terminate, NewtonChord.terminate, hd, hf, h1, h2, h.step, h.result]
      have hc : (c.splitCfg nY nF ls).cauchy = c.cauchy := rfl
      rw [hc]
      cases c.cauchy with
      | false => rfl
      | true =>
        cases st.f with
        | none => rfl
        | some f =>
          have := cauchy_split hY hF y st.diff (fun _ => 0) f
          rw [split_zero] at this
          simp only [Option.map_some]
          rw [show Verif.cauchyTermination (c.splitCfg nY nF ls).rtol (c.splitCfg nY nF ls).atol (c.splitCfg nY nF ls).normY
            (c.splitCfg nY nF ls).normF (split y) (split st.diff) (fun _ => 0) (split f) = _ from this]

end newton

/-! ### Gauss-Newton methods -/

variable [Fintype ι] [Fintype κ]

/-- A search that does the same in both forms. -/
structure SearchSplits (S : Search ι κ SS) (S' : Verif.Search (ι ⊕ ι) (κ ⊕ κ) SS) : Prop where
  accepts : S'.accepts (.residualJac (fun _ => 0) 0) = true
  init : S'.init = S.init
  step : ∀ b y z i i' j j' s, JacSplits i i' → JacSplits j j' → S'.step b (split y) (split z) i' j' s = S.step b y z i j s
  first : ∀ y z i j s, (S.step true y z i j s).2.1 = true

/-- A descent that does the same in both forms. -/
structure DescentSplits (D : Descent ι κ DS) (D' : Verif.Descent (ι ⊕ ι) (κ ⊕ κ) DS') (R : DS → DS' → Prop) : Prop where
  accepts : D'.accepts (.residualJac (fun _ => 0) 0) = true
  query : ∀ y i i' d d', JacSplits i i' → R (D.query y i d) (D'.query (split y) i' d')
  step : ∀ a d d', R d d' → D'.step a d' = (split (D.step a d).1, (D.step a d).2)

/-- Related states of a Gauss-Newton method. -/
structure GNSplits (T : Prop) (R : DS → DS' → Prop) (s : GaussNewton.State ι κ A SS DS)
    (s' : Verif.GaussNewton.State (ι ⊕ ι) (κ ⊕ κ) A SS DS') : Prop where
  firstStep : s'.firstStep = s.firstStep
  yEval : s'.yEval = split s.yEval
  searchState : s'.searchState = s.searchState
  residual : s'.residual = split s.residual
  jac : s'.jac = splitMatrix s.jac
  aux : s'.aux = s.aux
  late : s.firstStep = false → R s.descentState s'.descentState
  terminate : T → s'.terminate = s.terminate
  result : s'.result = s.result

theorem gn_init {R : DS → DS' → Prop} {c : GaussNewton.Cfg ι κ SS DS} {c' : Verif.GaussNewton.Cfg (ι ⊕ ι) (κ ⊕ κ) SS DS'}
    (hD : DescentSplits c.descent c'.descent R) (hS : SearchSplits c.search c'.search) (T : Prop) (aux0 : A) (y : ι → ℂ) :
    ∃ st', Verif.GaussNewton.init c' aux0 (split y) = .ok st' ∧ GNSplits T R (GaussNewton.init c aux0 y) st' := by
  have e : Verif.GaussNewton.init c' aux0 (split y) = .ok
      { firstStep := true, yEval := split y, searchState := c'.search.init, residual := fun _ => 0, jac := 0, aux := aux0,
        descentState := c'.descent.init (split y) (.residualJac (fun _ => 0) 0), terminate := false, result := .successful,
        numSteps := 0, numAcceptedSteps := 0, numStepsSinceAcceptance := 0 } := by
    simp only [Verif.GaussNewton.init, hS.accepts, hD.accepts, Bool.not_true, Bool.or_self, Bool.false_eq_true, if_false]
  refine ⟨_, e, ?_⟩
  · exact ⟨rfl, rfl, hS.init, split_zero.symm, splitMatrix_zero.symm, rfl, fun h => by simp [GaussNewton.init] at h, fun _ => rfl, rfl⟩

theorem gn_step {R : DS → DS' → Prop} {c : GaussNewton.Cfg ι κ SS DS} {c' : Verif.GaussNewton.Cfg (ι ⊕ ι) (κ ⊕ κ) SS DS'}
    (hD : DescentSplits c.descent c'.descent R) (hS : SearchSplits c.search c'.search) (hj : c'.jac = splitJac c.jac) {T : Prop}
    (hT : T → c'.rtol = c.rtol ∧ c'.atol = c.atol ∧ SameTest c.rtol c.atol c.normY c'.normY ∧
      SameTest c.rtol c.atol c.normF c'.normF)
    (f : (ι → ℂ) → (κ → ℂ) × A) (y : ι → ℂ) (st : GaussNewton.State ι κ A SS DS)
    (st' : Verif.GaussNewton.State (ι ⊕ ι) (κ ⊕ κ) A SS DS') (h : GNSplits T R st st') :
    (Verif.GaussNewton.step c' (splitFn f) (split y) st').1 = split (GaussNewton.step c f y st).1 ∧
    GNSplits T R (GaussNewton.step c f y st).2.1 (Verif.GaussNewton.step c' (splitFn f) (split y) st').2.1 ∧
    (Verif.GaussNewton.step c' (splitFn f) (split y) st').2.2 = (GaussNewton.step c f y st).2.2 := by
  have hf : ∀ y, splitFn f (split y) = (split (f y).1, (f y).2) := fun y => by rw [splitFn, join_split]
  have hj' : ∀ y, c'.jac (split y) = splitMatrix (c.jac y) := fun y => by rw [hj, splitJac, join_split]
  have hs : c'.search.step st'.firstStep (split y) st'.yEval (.residualJac st'.residual st'.jac)
      (.residualJac (splitFn f st'.yEval).1 (c'.jac st'.yEval)) st'.searchState =
      c.search.step st.firstStep y st.yEval (.residualJac st.residual st.jac)
        (.residualJac (f st.yEval).1 (c.jac st.yEval)) st.searchState := by
    rw [h.firstStep, h.yEval, h.residual, h.jac, hf, hj', h.searchState]
    exact hS.step _ _ _ _ _ _ _ _ (.mk _ _) (.mk _ _)
  have hacc : st.firstStep = true → (c.search.step st.firstStep y st.yEval (.residualJac st.residual st.jac)
        (.residualJac (f st.yEval).1 (c.jac st.yEval)) st.searchState).2.1 = true := by
    intro e; rw [e]; exact hS.first _ _ _ _ _
  simp only [Verif.GaussNewton.step, GaussNewton.step, hs]
  generalize c.search.step st.firstStep y st.yEval (.residualJac st.residual st.jac)
    (.residualJac (f st.yEval).1 (c.jac st.yEval)) st.searchState = s at hacc ⊢
  obtain ⟨a, acc, res, ss⟩ := s
  simp only at hacc
  cases acc with
  | true =>
    have hq : R (c.descent.query st.yEval (.residualJac (f st.yEval).1 (c.jac st.yEval)) st.descentState)
        (c'.descent.query st'.yEval (.residualJac (splitFn f st'.yEval).1 (c'.jac st'.yEval)) st'.descentState) := by
      rw [h.yEval, hf, hj']
      exact hD.query _ _ _ _ _ (.mk _ _)
    have hst := hD.step a _ _ hq
    simp only [if_true, hst]
    refine ⟨h.yEval, ⟨rfl, ?_, rfl, ?_, ?_, ?_, fun _ => hq, ?_, rfl⟩, ?_⟩
    · rw [h.yEval]; exact (split_add _ _).symm
    · rw [h.yEval, hf]
    · rw [h.yEval, hj']
    · rw [h.yEval, hf]
    · intro t
      obtain ⟨hr, ha, hY, hF⟩ := hT t
      simp only [h.yEval, hf, h.residual, hr, ha, ← split_sub]
      exact cauchy_split hY hF _ _ _ _
    · rw [h.firstStep, h.yEval, hf, h.aux]
  | false =>
    have e : st.firstStep = false := by
      by_contra e; exact absurd (hacc (by simpa using e)) (by simp)
    have hst := hD.step a _ _ (h.late e)
    simp only [Bool.false_eq_true, if_false, hst]
    refine ⟨trivial, ⟨rfl, (split_add _ _).symm, rfl, h.residual, h.jac, h.aux, fun _ => h.late e, fun _ => rfl, rfl⟩, ?_⟩
    rw [h.firstStep, h.aux]

theorem gn_follows {R : DS → DS' → Prop} {c : GaussNewton.Cfg ι κ SS DS} {c' : Verif.GaussNewton.Cfg (ι ⊕ ι) (κ ⊕ κ) SS DS'}
    (hD : DescentSplits c.descent c'.descent R) (hS : SearchSplits c.search c'.search) (hj : c'.jac = splitJac c.jac)
    (hT : c'.rtol = c.rtol ∧ c'.atol = c.atol ∧ SameTest c.rtol c.atol c.normY c'.normY ∧
      SameTest c.rtol c.atol c.normF c'.normF) (f : (ι → ℂ) → (κ → ℂ) × A) (aux0 : A) :
    Follows (GaussNewton.solver c aux0) f (Verif.GaussNewton.solver c' aux0) (splitFn f) split (GNSplits True R) where
  init y := by
    obtain ⟨st', h1, h2⟩ := gn_init hD hS True aux0 y
    exact .inr ⟨_, _, rfl, h1, h2⟩
  step y st st' h := gn_step hD hS hj (fun _ => hT) f y st st' h
  terminate y st st' h := by simp only [GaussNewton.solver, Verif.GaussNewton.solver, h.terminate trivial, h.result]
  postY _ _ _ _ _ _ := rfl
  postA _ _ _ _ _ _ := rfl

/-! ### Searches and descents -/

theorem learningRate_splits (a : ℝ) : SearchSplits (learningRate a : Search ι κ Unit) (Verif.learningRate a) where
  accepts := rfl
  init := rfl
  step _ _ _ _ _ _ _ _ _ _ := rfl
  first _ _ _ _ _ := rfl

theorem classical_splits (t : TrustRegion.Cfg ℝ) : SearchSplits (classical t : Search ι κ ℝ) (TrustRegion.classical t) where
  accepts := rfl
  init := rfl
  step b y z i i' j j' s hi hj := by
    cases hi with
    | mk r J =>
    cases hj with
    | mk r2 J2 =>
    have e : (fun k => (splitMatrix J).mulVec (fun s => split z s - split y s) k + split r k) =
        split fun k => J.mulVec (fun i => z i - y i) k + r k := by
      rw [← split_sub, split_mulVec, ← split_add]
    simp only [TrustRegion.classical, TrustRegion.search, classical, TrustRegion.classicalPredict, classicalPredict,
      Option.getD_some, Verif.FnInfo.asMin, FnInfo.asMin, e, split_sumSquares]
  first y z i j s := by
    simp [classical, TrustRegion.decide']

theorem newton_splits {ls : LinSolve ι κ} {ls' : Verif.LinSolve (ι ⊕ ι) (κ ⊕ κ)} (hls : SolvesMinimal ls)
    (hls' : Rigid.SolvesMinimal ls') : DescentSplits (newtonDescent ls) (Verif.newtonDescent ls' none)
      (fun d d' => d' = (split d.1, d.2)) where
  accepts := rfl
  query y i i' d d' h := newton_split hls hls' h
  step a d d' h := by
    subst h
    refine Prod.ext ?_ rfl
    have := split_smul (-a) d.1
    simp only [Complex.ofReal_neg] at this
    exact this.symm

variable [DecidableEq ι]

theorem damped_splits {eps fmax : ℝ} (he : 0 ≤ eps) (hf : 0 < fmax) {ls : LinSolve ι (κ ⊕ ι)}
    {ls' : Verif.LinSolve (ι ⊕ ι) ((κ ⊕ κ) ⊕ (ι ⊕ ι))} (hls : SolvesFullRank ls) (hls' : Props.SolvesFullRank ls') :
    DescentSplits (dampedNewtonDescent eps fmax ls) (Verif.dampedNewtonDescent eps fmax ls') JacSplits where
  accepts := rfl
  query y i i' d d' h := h
  step a d d' h := by
    simp only [Verif.dampedNewtonDescent, dampedNewtonDescent, damped_split he hf hls hls' a h, split_neg]

theorem indirect_splits {eps fmax : ℝ} (he : 0 ≤ eps) (hf : 0 < fmax) {ls : LinSolve ι κ} {lsD : LinSolve ι (κ ⊕ ι)}
    {ls' : Verif.LinSolve (ι ⊕ ι) (κ ⊕ κ)} {lsD' : Verif.LinSolve (ι ⊕ ι) ((κ ⊕ κ) ⊕ (ι ⊕ ι))} (hls : SolvesMinimal ls)
    (hls' : Rigid.SolvesMinimal ls') (hlsD : SolvesFullRank lsD) (hlsD' : Props.SolvesFullRank lsD')
    (findLambda : (ℝ → ℝ) → ℝ × Result) :
    DescentSplits (indirectDescent eps fmax ls lsD findLambda) (Verif.indirectDescent eps fmax ls' lsD' Verif.twoNorm findLambda)
      (fun d d' => JacSplits d.fInfo d'.fInfo ∧ d'.newton = split d.newton ∧ d'.newtonNorm = d.newtonNorm ∧ d'.result = d.result) where
  accepts := rfl
  query y i i' d d' h := by
    simp only [Verif.indirectDescent, indirectDescent, newton_split hls hls' h, split_twoNorm]
    exact ⟨h, trivial, trivial, trivial⟩
  step a d d' h := by
    obtain ⟨h1, h2, h3, h4⟩ := h
    have hd := fun b => damped_split he hf hlsD hlsD' b h1
    simp only [Verif.indirectDescent, indirectDescent, hd, split_twoNorm, h2, h3, h4]
    split <;> simp only [split_neg]

end Verif.Cx
