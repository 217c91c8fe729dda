import Verif.Lemmas.Driver
import Verif.Lemmas.Norms
import Verif.Spec.Tolerances

/-!
Two solvers that take the same steps, the second of which stops less readily.
-/

namespace Verif.Driver

open Verif.Spec

variable {Y Out Aux St St' Stats : Type}

/-- From related states `S` and `S'` take the same steps; where the verdict of `S` is not "successfully done" the verdict of
`S'` says the same. -/
structure Tightens (S : Solver Y Out Aux St Stats) (S' : Solver Y Out Aux St' Stats) (fn : Y → Out × Aux)
    (R : St → St' → Prop) : Prop where
  init : ∀ y, (∃ e, S.init fn y = .error e ∧ S'.init fn y = .error e) ∨
    ∃ st st', S.init fn y = .ok st ∧ S'.init fn y = .ok st' ∧ R st st'
  step : ∀ y st st', R st st' → (S'.step fn y st').1 = (S.step fn y st).1 ∧
    R (S.step fn y st).2.1 (S'.step fn y st').2.1 ∧ (S'.step fn y st').2.2 = (S.step fn y st).2.2
  terminate : ∀ y st st', R st st' → S.terminate fn y st = (true, .successful) ∨
    ((S'.terminate fn y st').2 = (S.terminate fn y st).2 ∧
      ((S.terminate fn y st).2 = .successful → (S.terminate fn y st).1 = false ∧ (S'.terminate fn y st').1 = false))
  post : ∀ y a st st' r r', R st st' → S'.postprocess fn y a st' r' = S.postprocess fn y a st r

variable {S : Solver Y Out Aux St Stats} {S' : Solver Y Out Aux St' Stats} {fn : Y → Out × Aux} {R : St → St' → Prop}

theorem Tightens.trace (h : Tightens S S' fn R) (aux0 : Aux) (y0 : Y) (st0 : St) (st0' : St') (h0 : R st0 st0') (k : Nat) :
    iterateAt S' fn aux0 y0 st0' k = iterateAt S fn aux0 y0 st0 k ∧
    R (stateAt S fn aux0 y0 st0 k) (stateAt S' fn aux0 y0 st0' k) ∧
    auxAt S' fn aux0 y0 st0' k = auxAt S fn aux0 y0 st0 k := by
  induction k with
  | zero => exact ⟨rfl, h0, rfl⟩
  | succ k ih =>
    obtain ⟨i1, i2, _⟩ := ih
    have := h.step (iterateAt S fn aux0 y0 st0 k) _ _ i2
    refine ⟨?_, ?_, ?_⟩
    · show (S'.step fn (iterateAt S' fn aux0 y0 st0' k) _).1 = _
      rw [i1]; exact this.1
    · show R _ (S'.step fn (iterateAt S' fn aux0 y0 st0' k) _).2.1
      rw [i1]; exact this.2.1
    · show (S'.step fn (iterateAt S' fn aux0 y0 st0' k) _).2.2 = _
      rw [i1]; exact this.2.2

theorem iterativeSolve_false (S : Solver Y Out Aux St Stats) (af : Y → Bool) (fn : Y → Out × Aux) (aux0 : Aux) (y0 : Y)
    (ms : Option Nat) : iterativeSolve S af fn aux0 y0 ms false = iterate S af fn aux0 y0 ms := by
  unfold iterativeSolve
  cases iterate S af fn aux0 y0 ms with
  | none => rfl
  | some r => cases r <;> simp

/-- A stricter solver only prolongs. -/
theorem Tightens.prolongs (h : Tightens S S' fn R) (af : Y → Bool) (aux0 : Aux) (y0 : Y) :
    OnlyProlongs S S' af fn aux0 y0 := by
  intro ms
  simp only [iterativeSolve_false]
  rcases h.init y0 with ⟨e, h1, h2⟩ | ⟨st0, st0', h1, h2, h0⟩
  · simp only [iterate, h1, h2]
    refine ⟨fun _ => by simp, ?_, ?_⟩ <;> simp
  have T := h.trace aux0 y0 st0 st0' h0
  have hte : ∀ k, testedAt S' fn aux0 y0 st0' k = testedAt S fn aux0 y0 st0 k := fun k => (T (k - 1)).1
  -- the verdicts
  have hv : ∀ k, verdictAt S fn aux0 y0 st0 k = (true, .successful) ∨
      ((verdictAt S' fn aux0 y0 st0' k).2 = (verdictAt S fn aux0 y0 st0 k).2 ∧
      ((verdictAt S fn aux0 y0 st0 k).2 = .successful →
        (verdictAt S fn aux0 y0 st0 k).1 = false ∧ (verdictAt S' fn aux0 y0 st0' k).1 = false)) := by
    intro k
    unfold verdictAt
    rw [hte]
    exact h.terminate _ _ _ (T k).2.1
  have hc : ∀ k, Continues S af fn aux0 y0 st0 k → Continues S' af fn aux0 y0 st0' k := by
    rintro k ⟨c1, c2⟩
    refine ⟨by rw [hte]; exact c1, ?_⟩
    rcases hv k with e | ⟨e1, e2⟩
    · rw [c2] at e; cases e
    · rw [c2] at e1 e2
      exact Prod.ext (e2 rfl).2 e1
  -- the packaged solutions
  have hb := body_iterate S af fn aux0 y0 st0
  have hb' := body_iterate S' af fn aux0 y0 st0'
  have hpost : ∀ k r r', S'.postprocess fn (iterateAt S' fn aux0 y0 st0' k) (auxAt S' fn aux0 y0 st0' k)
      (stateAt S' fn aux0 y0 st0' k) r' = S.postprocess fn (iterateAt S fn aux0 y0 st0 k) (auxAt S fn aux0 y0 st0 k)
      (stateAt S fn aux0 y0 st0 k) r := by
    intro k r r'
    rw [(T k).1, (T k).2.2]
    exact h.post _ _ _ _ _ _ (T k).2.1
  have hpack : ∀ k ms ms', (package S' fn ms' ((body S' af fn)^[k] (initCarry S' af fn aux0 y0 st0'))).value =
        (package S fn ms ((body S af fn)^[k] (initCarry S af fn aux0 y0 st0))).value ∧
      (package S' fn ms' ((body S' af fn)^[k] (initCarry S' af fn aux0 y0 st0'))).aux =
        (package S fn ms ((body S af fn)^[k] (initCarry S af fn aux0 y0 st0))).aux ∧
      (package S' fn ms' ((body S' af fn)^[k] (initCarry S' af fn aux0 y0 st0'))).stats =
        (package S fn ms ((body S af fn)^[k] (initCarry S af fn aux0 y0 st0))).stats := by
    intro k ms ms'
    rw [hb, hb']
    refine ⟨congrArg (·.1) (hpost k _ _), congrArg (·.2.1) (hpost k _ _), congrArg (·.2.2) (hpost k _ _)⟩
  have hnum : ∀ k ms, (package S fn ms ((body S af fn)^[k] (initCarry S af fn aux0 y0 st0))).numSteps = k := by
    intro k ms; rw [hb]; rfl
  have hnum' : ∀ k ms, (package S' fn ms ((body S' af fn)^[k] (initCarry S' af fn aux0 y0 st0'))).numSteps = k := by
    intro k ms; rw [hb']; rfl
  have hres : ∀ k ms, (package S fn ms ((body S af fn)^[k] (initCarry S af fn aux0 y0 st0))).result =
      finalResult ((body S af fn)^[k] (initCarry S af fn aux0 y0 st0)) := fun _ _ => rfl
  have hres' : ∀ k ms, (package S' fn ms ((body S' af fn)^[k] (initCarry S' af fn aux0 y0 st0'))).result =
      finalResult ((body S' af fn)^[k] (initCarry S' af fn aux0 y0 st0')) := fun _ _ => rfl
  -- the result codes: either `S` is successful or the codes are the same
  have hcode : ∀ k, finalResult ((body S af fn)^[k] (initCarry S af fn aux0 y0 st0)) = .successful ∨
      finalResult ((body S' af fn)^[k] (initCarry S' af fn aux0 y0 st0')) =
        finalResult ((body S af fn)^[k] (initCarry S af fn aux0 y0 st0)) := by
    intro k
    rw [hb, hb']
    simp only [finalResult, hte]
    cases haf : af (testedAt S fn aux0 y0 st0 k) with
    | false => right; simp
    | true =>
      rcases hv k with e | ⟨e1, e2⟩
      · left; simp [e]
      · right
        simp only [if_true, e1]
        by_cases hs : (verdictAt S fn aux0 y0 st0 k).2 = .successful
        · simp [hs, e2 hs]
        · simp [hs]
  have hstop : ∀ k, ¬ Continues S af fn aux0 y0 st0 k →
      finalResult ((body S af fn)^[k] (initCarry S af fn aux0 y0 st0)) ≠ .successful →
      ¬ Continues S' af fn aux0 y0 st0' k := by
    intro k hk hr ⟨c1, c2⟩
    rw [hte] at c1
    apply hk
    refine ⟨c1, ?_⟩
    rw [hb] at hr
    rcases hv k with e | ⟨e1, e2⟩
    · exfalso; apply hr; simp [finalResult, e, c1]
    · rw [c2] at e1
      exact Prod.ext (e2 e1.symm).1 e1.symm
  refine ⟨fun e => ?_, ?_, ?_⟩
  · exact iff_of_false (iterate_ne_error S' af fn aux0 y0 st0' h2 ms e) (iterate_ne_error S af fn aux0 y0 st0 h1 ms e)
  · intro sol' hs'
    obtain ⟨k', hlt', hst', rfl⟩ := (iterate_eq_some_ok S' af fn aux0 y0 st0' h2 ms sol').1 hs'
    classical
    -- where `S` stops
    have hex : ∃ k, k ≤ k' ∧ (∀ j, j < k → Continues S af fn aux0 y0 st0 j) ∧
        ((¬ Continues S af fn aux0 y0 st0 k ∧ ∀ n, ms = some n → k ≤ n) ∨ (ms = some k ∧ k = k')) := by
      by_cases hall : ∀ j, j < k' → Continues S af fn aux0 y0 st0 j
      · refine ⟨k', le_rfl, hall, ?_⟩
        rcases hst' with ⟨s1, s2⟩ | s
        · exact .inl ⟨fun c => s1 (hc k' c), s2⟩
        · exact .inr ⟨s, rfl⟩
      · push Not at hall
        let m := Nat.find hall
        have hm := Nat.find_spec hall
        refine ⟨m, hm.1.le, fun j hj => ?_, .inl ⟨hm.2, fun n hn => ?_⟩⟩
        · by_contra hjc
          exact Nat.find_min hall hj ⟨hj.trans hm.1, hjc⟩
        · rcases hst' with ⟨_, s2⟩ | s
          · exact hm.1.le.trans (s2 n hn)
          · rw [hn] at s
            cases s
            exact hm.1.le
    obtain ⟨k, hkk, hlt, hst⟩ := hex
    refine ⟨_, (iterate_eq_some_ok S af fn aux0 y0 st0 h1 ms _).2 ⟨k, hlt, hst.imp_right (·.1), rfl⟩, ?_, ?_, ?_⟩
    · rw [hnum, hnum']; exact hkk
    · intro hsuc
      rw [hres'] at hsuc
      rw [hres]
      rcases hcode k with e | e
      · exact e
      · by_cases hk : k = k'
        · subst hk; rw [← e]; exact hsuc
        · -- then `S` stopped earlier than `S'`, and so successfully
          by_contra hne
          rcases hst with ⟨s1, _⟩ | ⟨_, s⟩
          · exact hstop k s1 hne (hlt' k (by omega))
          · exact hk s
    · intro hne
      rw [hres] at hne
      have hk : k = k' := by
        by_contra hk
        rcases hst with ⟨s1, _⟩ | ⟨_, s⟩
        · exact hstop k s1 hne (hlt' k (by omega))
        · exact hk s
      subst hk
      obtain ⟨p1, p2, p3⟩ := hpack k ms ms
      refine ⟨?_, ?_, p1.symm, p2.symm, p3.symm⟩
      · rw [hres, hres']
        exact ((hcode k).resolve_left hne).symm
      · rw [hnum, hnum']
  · intro sol hs
    obtain ⟨k, hlt, hst, rfl⟩ := (iterate_eq_some_ok S af fn aux0 y0 st0 h1 ms sol).1 hs
    rw [hnum]
    obtain ⟨p1, p2, p3⟩ := hpack k ms (some k)
    exact ⟨_, (iterate_eq_some_ok S' af fn aux0 y0 st0' h2 (some k) _).2 ⟨k, fun j hj => hc j (hlt j hj), .inr rfl, rfl⟩,
      hnum' _ _, p1, p2, p3⟩

end Verif.Driver
