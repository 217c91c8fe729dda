import Verif.Spec.Relabel

/-!
Two solvers whose states correspond, step by step, have corresponding outcomes.
-/

namespace Verif.Driver

variable {Y Y' Out Out' Aux Aux' St St' Stats Stats' : Type}

/-- The solver `S'` on `fn'` does to the images `mY y`, `mS st` what `S` on `fn` does to `y`, `st`. -/
structure Simulates (S : Solver Y Out Aux St Stats) (fn : Y → Out × Aux) (S' : Solver Y' Out' Aux' St' Stats')
    (fn' : Y' → Out' × Aux') (mY : Y → Y') (mA : Aux → Aux') (mS : St → St') : Prop where
  init : ∀ y, S'.init fn' (mY y) = (S.init fn y).map mS
  step : ∀ y st, S'.step fn' (mY y) (mS st) =
    (mY (S.step fn y st).1, mS (S.step fn y st).2.1, mA (S.step fn y st).2.2)
  terminate : ∀ y st, S'.terminate fn' (mY y) (mS st) = S.terminate fn y st
  postY : ∀ y a st r, (S'.postprocess fn' (mY y) (mA a) (mS st) r).1 = mY (S.postprocess fn y a st r).1
  postA : ∀ y a st r, (S'.postprocess fn' (mY y) (mA a) (mS st) r).2.1 = mA (S.postprocess fn y a st r).2.1

variable {S : Solver Y Out Aux St Stats} {fn : Y → Out × Aux} {S' : Solver Y' Out' Aux' St' Stats'}
  {fn' : Y' → Out' × Aux'} {mY : Y → Y'} {mA : Aux → Aux'} {mS : St → St'}

/-- The image of a carry. -/
def mapCarry (mY : Y → Y') (mA : Aux → Aux') (mS : St → St') (c : Carry Y St Aux) : Carry Y' St' Aux' :=
  { y := mY c.y, numSteps := c.numSteps, state := mS c.state, aux := mA c.aux, terminate := c.terminate,
    result := c.result }

theorem whileLoop_map {C C' : Type} {cond : C → Bool} {body : C → C} {cond' : C' → Bool} {body' : C' → C'} (m : C → C')
    (hc : ∀ c, cond' (m c) = cond c) (hb : ∀ c, body' (m c) = m (body c)) :
    ∀ n c, whileLoop cond' body' n (m c) = m (whileLoop cond body n c) := by
  intro n
  induction n with
  | zero => intro c; rfl
  | succ n ih =>
    intro c
    simp only [whileLoop, hc, hb, ih]
    split <;> rfl

theorem iterate_map {C C' : Type} {body : C → C} {body' : C' → C'} (m : C → C') (hb : ∀ c, body' (m c) = m (body c)) (n : ℕ)
    (c : C) : body'^[n] (m c) = m (body^[n] c) := by
  induction n generalizing c with
  | zero => rfl
  | succ n ih => simp only [Function.iterate_succ, Function.comp, hb, ih]

theorem whileOpt_map {C C' : Type} {cond : C → Bool} {body : C → C} {cond' : C' → Bool} {body' : C' → C'} (m : C → C')
    (hc : ∀ c, cond' (m c) = cond c) (hb : ∀ c, body' (m c) = m (body c)) (ms : Option ℕ) (c : C) :
    whileOpt cond' body' ms (m c) = (whileOpt cond body ms c).map m := by
  cases ms with
  | some n => simp [whileOpt, whileLoop_map m hc hb]
  | none =>
    have key : ∀ n, cond' (body'^[n] (m c)) = cond (body^[n] c) := fun n => by rw [iterate_map m hb, hc]
    have hp : (fun n => cond' (body'^[n] (m c)) = false) = fun n => cond (body^[n] c) = false := by
      funext n; rw [key]
    simp only [whileOpt, whileForever]
    by_cases h : ∃ n, cond (body^[n] c) = false
    · have h' : ∃ n, cond' (body'^[n] (m c)) = false := by simpa only [key] using h
      rw [dif_pos h', dif_pos h]
      rw [iterate_map m hb, Option.map_some]
      congr 3
      apply le_antisymm
      · exact Nat.find_min' _ (by rw [key]; exact Nat.find_spec h)
      · exact Nat.find_min' _ (by rw [← key]; exact Nat.find_spec h')
    · have h' : ¬∃ n, cond' (body'^[n] (m c)) = false := by simpa only [key] using h
      rw [dif_neg h', dif_neg h]
      rfl

/-- Corresponding solvers have corresponding outcomes. -/
theorem Simulates.solve (h : Simulates S fn S' fn' mY mA mS) {allfinite : Y → Bool} {allfinite' : Y' → Bool}
    (hfin : ∀ y, allfinite' (mY y) = allfinite y) (aux0 : Aux) (y0 : Y) (ms : Option ℕ) (throw : Bool) :
    Relabel.outcome (iterativeSolve S' allfinite' fn' (mA aux0) (mY y0) ms throw) =
      (Relabel.outcome (iterativeSolve S allfinite fn aux0 y0 ms throw)).map 
        fun r => r.map fun s => (mY s.1, s.2.1, mA s.2.2.1, s.2.2.2) := by
  simp only [Relabel.outcome, iterativeSolve, iterate, h.init]
  cases hS : S.init fn y0 with
  | error e => rfl
  | ok st0 =>
    have htr : ∀ y st, terminateAndResult S' allfinite' fn' (mY y) (mS st) = terminateAndResult S allfinite fn y st := by
      intro y st; simp only [terminateAndResult, h.terminate, hfin]
    have hinit : initCarry S' allfinite' fn' (mA aux0) (mY y0) (mS st0) =
        mapCarry mY mA mS (initCarry S allfinite fn aux0 y0 st0) := by
      simp only [initCarry, mapCarry, htr]
    have hbody : ∀ c, body S' allfinite' fn' (mapCarry mY mA mS c) = mapCarry mY mA mS (body S allfinite fn c) := by
      intro c
      simp only [body, mapCarry, h.step, htr]
    have hcond : ∀ c : Carry Y St Aux, cond (mapCarry mY mA mS c) = cond c := fun c => rfl
    simp only [Except.map, hinit, whileOpt_map _ hcond hbody, Option.map_map]
    congr 1
    funext c
    have hp : package S' fn' ms (mapCarry mY mA mS c) =
        { value := mY (package S fn ms c).value, result := (package S fn ms c).result, aux := mA (package S fn ms c).aux,
          numSteps := (package S fn ms c).numSteps, maxSteps := ms,
          stats := (package S' fn' ms (mapCarry mY mA mS c)).stats, state := mS c.state } := by
      simp only [package, Solution.mk.injEq]
      exact ⟨h.postY _ _ _ _, rfl, h.postA _ _ _ _, rfl, trivial, trivial, rfl⟩
    simp only [Function.comp]
    rw [hp]
    generalize package S fn ms c = sol
    by_cases ht : throw = true ∧ sol.result ≠ .successful
    · simp only [if_pos ht]
    · simp only [if_neg ht]

end Verif.Driver
