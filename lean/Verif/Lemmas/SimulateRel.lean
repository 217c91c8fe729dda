import Verif.Spec.Relabel

/-!
Two solvers whose states are related, step by step, have corresponding outcomes (as `Verif.Lemmas.Simulate`, with a relation
between the states instead of a map).
-/

namespace Verif.Driver

variable {Y Y' Out Out' Aux St St' Stats Stats' : Type}

/-- The solver `S'` on `fn'`, from `m y` and a state related to `st`, does what `S` on `fn` does from `y` and `st`. -/
structure Follows (S : Solver Y Out Aux St Stats) (fn : Y → Out × Aux) (S' : Solver Y' Out' Aux St' Stats')
    (fn' : Y' → Out' × Aux) (m : Y → Y') (R : St → St' → Prop) : Prop where
  init : ∀ y, (∃ e, S.init fn y = .error e ∧ S'.init fn' (m y) = .error e) ∨
    ∃ st st', S.init fn y = .ok st ∧ S'.init fn' (m y) = .ok st' ∧ R st st'
  step : ∀ y st st', R st st' → (S'.step fn' (m y) st').1 = m (S.step fn y st).1 ∧
    R (S.step fn y st).2.1 (S'.step fn' (m y) st').2.1 ∧ (S'.step fn' (m y) st').2.2 = (S.step fn y st).2.2
  terminate : ∀ y st st', R st st' → S'.terminate fn' (m y) st' = S.terminate fn y st
  postY : ∀ y a st st' r, R st st' → (S'.postprocess fn' (m y) a st' r).1 = m (S.postprocess fn y a st r).1
  postA : ∀ y a st st' r, R st st' → (S'.postprocess fn' (m y) a st' r).2.1 = (S.postprocess fn y a st r).2.1

variable {S : Solver Y Out Aux St Stats} {fn : Y → Out × Aux} {S' : Solver Y' Out' Aux St' Stats'}
  {fn' : Y' → Out' × Aux} {m : Y → Y'} {R : St → St' → Prop}

/-- Related carries. -/
structure CarryRel (m : Y → Y') (R : St → St' → Prop) (c : Carry Y St Aux) (c' : Carry Y' St' Aux) : Prop where
  y : c'.y = m c.y
  numSteps : c'.numSteps = c.numSteps
  state : R c.state c'.state
  aux : c'.aux = c.aux
  terminate : c'.terminate = c.terminate
  result : c'.result = c.result

theorem whileLoop_rel {C C' : Type} {cond : C → Bool} {body : C → C} {cond' : C' → Bool} {body' : C' → C'}
    (P : C → C' → Prop) (hc : ∀ c c', P c c' → cond' c' = cond c) (hb : ∀ c c', P c c' → P (body c) (body' c')) :
    ∀ n c c', P c c' → P (whileLoop cond body n c) (whileLoop cond' body' n c') := by
  intro n
  induction n with
  | zero => intro c c' h; exact h
  | succ n ih =>
    intro c c' h
    simp only [whileLoop, hc c c' h]
    split
    · exact ih _ _ (hb _ _ h)
    · exact h

theorem iterate_rel {C C' : Type} {body : C → C} {body' : C' → C'} (P : C → C' → Prop)
    (hb : ∀ c c', P c c' → P (body c) (body' c')) (n : ℕ) (c : C) (c' : C') (h : P c c') : P (body^[n] c) (body'^[n] c') := by
  induction n generalizing c c' with
  | zero => exact h
  | succ n ih => exact ih _ _ (hb _ _ h)

theorem whileOpt_rel {C C' : Type} {cond : C → Bool} {body : C → C} {cond' : C' → Bool} {body' : C' → C'}
    (P : C → C' → Prop) (hc : ∀ c c', P c c' → cond' c' = cond c) (hb : ∀ c c', P c c' → P (body c) (body' c'))
    (ms : Option ℕ) (c : C) (c' : C') (h : P c c') :
    (whileOpt cond body ms c = none ∧ whileOpt cond' body' ms c' = none) ∨
      ∃ d d', whileOpt cond body ms c = some d ∧ whileOpt cond' body' ms c' = some d' ∧ P d d' := by
  cases ms with
  | some n => exact .inr ⟨_, _, rfl, rfl, whileLoop_rel P hc hb n c c' h⟩
  | none =>
    have key : ∀ n, cond' (body'^[n] c') = cond (body^[n] c) := fun n => hc _ _ (iterate_rel P hb n c c' h)
    simp only [whileOpt, whileForever]
    by_cases hx : ∃ n, cond (body^[n] c) = false
    · have hx' : ∃ n, cond' (body'^[n] c') = false := by simpa only [key] using hx
      refine .inr ⟨_, _, dif_pos hx, dif_pos hx', ?_⟩
      have : Nat.find hx' = Nat.find hx := by
        apply le_antisymm
        · exact Nat.find_min' _ (by rw [key]; exact Nat.find_spec hx)
        · exact Nat.find_min' _ (by rw [← key]; exact Nat.find_spec hx')
      rw [this]
      exact iterate_rel P hb _ c c' h
    · have hx' : ¬∃ n, cond' (body'^[n] c') = false := by simpa only [key] using hx
      exact .inl ⟨dif_neg hx, dif_neg hx'⟩

/-- Solvers that follow each other have corresponding outcomes. -/
theorem Follows.solve (h : Follows S fn S' fn' m R) {allfinite : Y → Bool} {allfinite' : Y' → Bool}
    (hfin : ∀ y, allfinite' (m y) = allfinite y) (aux0 : Aux) (y0 : Y) (ms : Option ℕ) (throw : Bool) :
    Relabel.outcome (iterativeSolve S' allfinite' fn' aux0 (m y0) ms throw) =
      (Relabel.outcome (iterativeSolve S allfinite fn aux0 y0 ms throw)).map fun r => r.map fun s => (m s.1, s.2) := by
  simp only [Relabel.outcome, iterativeSolve, iterate]
  rcases h.init y0 with ⟨e, h1, h2⟩ | ⟨st0, st0', h1, h2, h0⟩
  · rw [h1, h2]; rfl
  · rw [h1, h2]
    have htr : ∀ y st st', R st st' → terminateAndResult S' allfinite' fn' (m y) st' = terminateAndResult S allfinite fn y st := by
      intro y st st' hr; simp only [terminateAndResult, h.terminate y st st' hr, hfin]
    have hinit : CarryRel m R (initCarry S allfinite fn aux0 y0 st0) (initCarry S' allfinite' fn' aux0 (m y0) st0') := by
      refine ⟨rfl, rfl, h0, rfl, ?_, ?_⟩ <;> simp only [initCarry, htr _ _ _ h0]
    have hbody : ∀ c c', CarryRel m R c c' → CarryRel m R (body S allfinite fn c) (body S' allfinite' fn' c') := by
      rintro c c' ⟨hy, hn, hs, ha, ht, hr⟩
      obtain ⟨s1, s2, s3⟩ := h.step c.y c.state c'.state hs
      refine ⟨?_, ?_, ?_, ?_, ?_, ?_⟩
      · simp only [body, hy, s1]
      · simp only [body, hn]
      · simp only [body, hy]; exact s2
      · simp only [body, hy, s3]
      · simp only [body, hy]; rw [htr _ _ _ s2]
      · simp only [body, hy]; rw [htr _ _ _ s2]
    have hcond : ∀ c c', CarryRel (Aux := Aux) m R c c' → Driver.cond c' = Driver.cond c := by
      intro c c' hc; simp only [Driver.cond, hc.terminate, hc.result]
    rcases whileOpt_rel _ hcond hbody ms _ _ hinit with ⟨w1, w2⟩ | ⟨d, d', w1, w2, hd⟩
    · simp only [w1, w2]; rfl
    · simp only [w1, w2, Option.map_some]
      have e1 : (package S' fn' ms d').result = (package S fn ms d).result := by
        simp only [package, finalResult, hd.result, hd.terminate, hd.numSteps]
      have e2 : (package S' fn' ms d').value = m (package S fn ms d).value := by
        simp only [package]
        rw [hd.y, hd.aux, show finalResult d' = finalResult d from e1]
        exact h.postY _ _ _ _ _ hd.state
      have e3 : (package S' fn' ms d').aux = (package S fn ms d).aux := by
        simp only [package]
        rw [hd.y, hd.aux, show finalResult d' = finalResult d from e1]
        exact h.postA _ _ _ _ _ hd.state
      have e4 : (package S' fn' ms d').numSteps = (package S fn ms d).numSteps := hd.numSteps
      by_cases ht : throw = true ∧ (package S fn ms d).result ≠ .successful
      · have ht' : throw = true ∧ (package S' fn' ms d').result ≠ .successful := by rw [e1]; exact ht
        simp only [if_pos ht, if_pos ht', e1]; rfl
      · have ht' : ¬(throw = true ∧ (package S' fn' ms d').result ≠ .successful) := by rw [e1]; exact ht
        simp only [if_neg ht, if_neg ht', Except.map, e1, e2, e3, e4]

end Verif.Driver
