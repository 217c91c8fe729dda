import Verif.Props.GaussNewtonLocal
import Verif.Props.NewtonLocal
import Verif.Props.ConvexRates
import Verif.Spec.Together

/-!
**C125.** Independent problems can be solved together.
-/

namespace Verif.Props

open Verif Verif.Spec Verif.Driver Verif.Rank

variable {ι ι' κ κ' A A' : Type} [Fintype ι] [Fintype ι'] [Fintype κ] [Fintype κ']

/-! ### What running side by side means for a solve -/

section
variable {Out Out₁ Out₂ St St₁ St₂ Stats Stats₁ Stats₂ : Type} {Aux Aux₁ Aux₂ : Type}
    {S : Solver (ι ⊕ ι' → ℝ) Out Aux St Stats} {fn : (ι ⊕ ι' → ℝ) → Out × Aux} {aux0 : Aux} {st0 : St}
    {S₁ : Solver (ι → ℝ) Out₁ Aux₁ St₁ Stats₁} {fn₁ : (ι → ℝ) → Out₁ × Aux₁} {aux₁ : Aux₁} {y₁ : ι → ℝ} {st₁ : St₁}
    {S₂ : Solver (ι' → ℝ) Out₂ Aux₂ St₂ Stats₂} {fn₂ : (ι' → ℝ) → Out₂ × Aux₂} {aux₂ : Aux₂} {y₂ : ι' → ℝ} {st₂ : St₂}

omit [Fintype ι] [Fintype ι'] in
/-- **C125.** If the solve of the two problems together succeeds, then each of the two succeeds alone, with the same budget, and in no more
steps; the answer to the problem made of two is where the two solvers are after the same number of steps. -/
theorem C125_success (h : SideBySide S fn aux0 st0 S₁ fn₁ aux₁ y₁ st₁ S₂ fn₂ aux₂ y₂ st₂)
    (hi : S.init fn (both y₁ y₂) = .ok st0) (hi₁ : S₁.init fn₁ y₁ = .ok st₁) (hi₂ : S₂.init fn₂ y₂ = .ok st₂)
    (hp : ∀ y a st r, (S.postprocess fn y a st r).1 = y)
    (ms : Option Nat) (throw : Bool) (sol : Solution (ι ⊕ ι' → ℝ) Aux St Stats)
    (hs : iterativeSolve S (fun _ => true) fn aux0 (both y₁ y₂) ms throw = some (.ok sol)) (hok : sol.result = .successful) :
    sol.value = both (iterateAt S₁ fn₁ aux₁ y₁ st₁ sol.numSteps) (iterateAt S₂ fn₂ aux₂ y₂ st₂ sol.numSteps) ∧
    (∃ sol₁, iterativeSolve S₁ (fun _ => true) fn₁ aux₁ y₁ ms throw = some (.ok sol₁) ∧ sol₁.result = .successful ∧
      sol₁.numSteps ≤ sol.numSteps) ∧
    (∃ sol₂, iterativeSolve S₂ (fun _ => true) fn₂ aux₂ y₂ ms throw = some (.ok sol₂) ∧ sol₂.result = .successful ∧
      sol₂.numSteps ≤ sol.numSteps) := by
  obtain ⟨st0', hi', hlt, hstop, -, -, hpost, hres⟩ := solve_spec _ _ _ _ _ _ _ _ hs
  rw [hi] at hi'; cases hi'
  have hnc : ¬ Continues S (fun _ => true) fn aux0 (both y₁ y₂) st0 sol.numSteps := by
    intro hc; rw [if_pos hc] at hres; rw [hres] at hok; cases hok
  have hv : (verdictAt S fn aux0 (both y₁ y₂) st0 sol.numSteps).1 = true := by
    by_contra hf
    exact hnc ⟨rfl, Prod.ext (by simpa using hf) (h.fine _)⟩
  have hb : ∀ n, ms = some n → sol.numSteps ≤ n := by
    intro n hn
    rcases hstop with h1 | h1
    · exact h1.2 n hn
    · rw [hn] at h1; cases h1; exact le_rfl
  rw [h.verdict, Bool.and_eq_true] at hv
  refine ⟨?_, ?_, ?_⟩
  · rw [← h.iterate, show sol.value = _ from congrArg Prod.fst hpost]
    exact hp _ _ _ _
  · obtain ⟨s, h1, h2, h3, -⟩ := solve_succeeds_by S₁ (fun _ => true) fn₁ aux₁ y₁ st₁ hi₁ ms throw sol.numSteps (fun _ _ => rfl)
      (fun j _ => h.fine₁ j) hv.1 hb
    exact ⟨s, h1, h2, h3⟩
  · obtain ⟨s, h1, h2, h3, -⟩ := solve_succeeds_by S₂ (fun _ => true) fn₂ aux₂ y₂ st₂ hi₂ ms throw sol.numSteps (fun _ _ => rfl)
      (fun j _ => h.fine₂ j) hv.2 hb
    exact ⟨s, h1, h2, h3⟩

omit [Fintype ι] [Fintype ι'] in
/-- **C125.** Conversely, if each of the two stays within its tolerances once it is (`k` at or after the step it stops at), then the solve of
both together succeeds and takes exactly as many steps as the slower of the two. -/
theorem C125_steps (h : SideBySide S fn aux0 st0 S₁ fn₁ aux₁ y₁ st₁ S₂ fn₂ aux₂ y₂ st₂)
    (hi : S.init fn (both y₁ y₂) = .ok st0) (hi₁ : S₁.init fn₁ y₁ = .ok st₁) (hi₂ : S₂.init fn₂ y₂ = .ok st₂)
    (ms : Option Nat) (throw : Bool) (sol₁ : Solution (ι → ℝ) Aux₁ St₁ Stats₁) (sol₂ : Solution (ι' → ℝ) Aux₂ St₂ Stats₂)
    (hs₁ : iterativeSolve S₁ (fun _ => true) fn₁ aux₁ y₁ ms throw = some (.ok sol₁))
    (hs₂ : iterativeSolve S₂ (fun _ => true) fn₂ aux₂ y₂ ms throw = some (.ok sol₂))
    (hstay₁ : ∀ k, sol₁.numSteps ≤ k → (verdictAt S₁ fn₁ aux₁ y₁ st₁ k).1 = true)
    (hstay₂ : ∀ k, sol₂.numSteps ≤ k → (verdictAt S₂ fn₂ aux₂ y₂ st₂ k).1 = true) :
    ∃ sol, iterativeSolve S (fun _ => true) fn aux0 (both y₁ y₂) ms throw = some (.ok sol) ∧ sol.result = .successful ∧
      sol.numSteps = max sol₁.numSteps sol₂.numSteps := by
  obtain ⟨st1', hi1', hlt1, hstop1, -⟩ := solve_spec _ _ _ _ _ _ _ _ hs₁
  obtain ⟨st2', hi2', hlt2, hstop2, -⟩ := solve_spec _ _ _ _ _ _ _ _ hs₂
  rw [hi₁] at hi1'; cases hi1'
  rw [hi₂] at hi2'; cases hi2'
  have hb1 : ∀ n, ms = some n → sol₁.numSteps ≤ n := by
    intro n hn
    rcases hstop1 with h1 | h1
    · exact h1.2 n hn
    · rw [hn] at h1; cases h1; exact le_rfl
  have hb2 : ∀ n, ms = some n → sol₂.numSteps ≤ n := by
    intro n hn
    rcases hstop2 with h1 | h1
    · exact h1.2 n hn
    · rw [hn] at h1; cases h1; exact le_rfl
  obtain ⟨sol, h1, h2, h3, h4⟩ := solve_succeeds_by S (fun _ => true) fn aux0 (both y₁ y₂) st0 hi ms throw
    (max sol₁.numSteps sol₂.numSteps) (fun _ _ => rfl) (fun j _ => h.fine j)
    (by
      show (verdictAt S fn aux0 (both y₁ y₂) st0 _).1 = true
      rw [h.verdict, hstay₁ _ (le_max_left _ _), hstay₂ _ (le_max_right _ _)]; rfl)
    (fun n hn => max_le (hb1 n hn) (hb2 n hn))
  refine ⟨sol, h1, h2, le_antisymm h3 ?_⟩
  -- alone, neither had stopped before
  obtain ⟨st0', hi', -, -, -, -, -, hres⟩ := solve_spec _ _ _ _ _ _ _ _ h1
  rw [hi] at hi'; cases hi'
  have hnc : ¬ Continues S (fun _ => true) fn aux0 (both y₁ y₂) st0 sol.numSteps := by
    intro hc; rw [if_pos hc] at hres; rw [hres] at h2; cases h2
  have hv : (verdictAt S fn aux0 (both y₁ y₂) st0 sol.numSteps).1 = true := by
    by_contra hf
    exact hnc ⟨rfl, Prod.ext (by simpa using hf) (h.fine _)⟩
  rw [h.verdict, Bool.and_eq_true] at hv
  refine max_le ?_ ?_
  · by_contra hlt
    have := (hlt1 _ (not_le.1 hlt)).2
    rw [this] at hv; exact absurd hv.1 (by simp)
  · by_contra hlt
    have := (hlt2 _ (not_le.1 hlt)).2
    rw [this] at hv; exact absurd hv.2 (by simp)

end

/-! ### The default norm does not mix the problems -/

theorem maxNorm_both (a : ι → ℝ) (b : ι' → ℝ) (c : ℝ) : maxNorm (both a b) < c ↔ maxNorm a < c ∧ maxNorm b < c := by
  rw [maxNorm_lt_iff, maxNorm_lt_iff, maxNorm_lt_iff]
  constructor
  · rintro ⟨h0, h⟩
    exact ⟨⟨h0, fun i => h (.inl i)⟩, h0, fun i => h (.inr i)⟩
  · rintro ⟨⟨h0, h1⟩, -, h2⟩
    refine ⟨h0, fun i => ?_⟩
    cases i with
    | inl i => exact h1 i
    | inr i => exact h2 i

theorem cauchy_both (rtol atol : ℝ) (y d : ι → ℝ) (f g : κ → ℝ) (y' d' : ι' → ℝ) (f' g' : κ' → ℝ) :
    cauchyTermination rtol atol maxNorm maxNorm (both y y') (both d d') (both f f') (both g g') =
      (cauchyTermination rtol atol maxNorm maxNorm y d f g && cauchyTermination rtol atol maxNorm maxNorm y' d' f' g') := by
  have e : ∀ {α α' : Type} (x e : α → ℝ) (x' e' : α' → ℝ), scaledDiff rtol atol (both x x') (both e e') =
      both (scaledDiff rtol atol x e) (scaledDiff rtol atol x' e') := by
    intro α α' x e x' e'
    funext i
    cases i <;> rfl
  unfold cauchyTermination
  rw [e, e, Bool.eq_iff_iff]
  simp only [Bool.and_eq_true, decide_eq_true_eq, maxNorm_both]
  tauto

/-! ### `FixedPointIteration` -/

omit [Fintype ι] [Fintype ι'] in
theorem fixed_point_iterate_both (rtol atol damp : ℝ) (n : (ι ⊕ ι' → ℝ) → ℝ) (n₁ : (ι → ℝ) → ℝ) (n₂ : (ι' → ℝ) → ℝ)
    (f : (ι → ℝ) → (ι → ℝ) × A) (g : (ι' → ℝ) → (ι' → ℝ) × A') (a : A) (a' : A') (y₁ : ι → ℝ) (y₂ : ι' → ℝ) (k : ℕ) :
    iterateAt (FixedPointIter.solver ⟨rtol, atol, n, damp⟩) (together f g) (a, a') (both y₁ y₂) none k =
      both (iterateAt (FixedPointIter.solver ⟨rtol, atol, n₁, damp⟩) f a y₁ none k)
        (iterateAt (FixedPointIter.solver ⟨rtol, atol, n₂, damp⟩) g a' y₂ none k) := by
  induction k with
  | zero => rfl
  | succ k ih =>
    show (FixedPointIter.step _ (together f g) (iterateAt _ _ _ _ _ k) none).1 = _
    rw [ih]
    funext i
    cases i <;> rfl

/-- **C125.** `FixedPointIteration`, with the default norm, any tolerances and any damping. -/
theorem C125_fixed_point (rtol atol damp : ℝ)
    (f : (ι → ℝ) → (ι → ℝ) × A) (g : (ι' → ℝ) → (ι' → ℝ) × A') (a : A) (a' : A') (y₁ : ι → ℝ) (y₂ : ι' → ℝ) :
    SideBySide (FixedPointIter.solver ⟨rtol, atol, maxNorm, damp⟩) (together f g) (a, a') none
      (FixedPointIter.solver ⟨rtol, atol, maxNorm, damp⟩) f a y₁ none (FixedPointIter.solver ⟨rtol, atol, maxNorm, damp⟩) g a' y₂ none where
  iterate k := fixed_point_iterate_both rtol atol damp _ _ _ f g a a' y₁ y₂ k
  verdict k := by
    obtain _ | k := k
    · rfl
    · have e := fixed_point_iterate_both rtol atol damp maxNorm maxNorm maxNorm f g a a' y₁ y₂ k
      show (FixedPointIter.terminate (FixedPointIter.step _ (together f g) (iterateAt _ _ _ _ _ k) none).2.1).1 =
        ((FixedPointIter.terminate (FixedPointIter.step _ f (iterateAt _ _ _ _ _ k) none).2.1).1 &&
          (FixedPointIter.terminate (FixedPointIter.step _ g (iterateAt _ _ _ _ _ k) none).2.1).1)
      rw [e]
      simp only [FixedPointIter.terminate, FixedPointIter.step]
      rw [Bool.eq_iff_iff, Bool.and_eq_true, decide_eq_true_eq, decide_eq_true_eq, decide_eq_true_eq, ← maxNorm_both]
      apply iff_of_eq
      congr 2
      funext i
      cases i <;> rfl
  fine _ := rfl
  fine₁ _ := rfl
  fine₂ _ := rfl

/-! ### `Newton` and `Chord` -/

/-- The linear solver solves every system with a regular matrix, and says so. -/
def SolvesRegular (solve : Matrix ι ι ℝ → (ι → ℝ) → (ι → ℝ) × Result) : Prop :=
  ∀ M : Matrix ι ι ℝ, (∀ v, M.mulVec v = 0 → v = 0) → ∀ b, M.mulVec (solve M b).1 = b ∧ (solve M b).2 = .successful

omit [Fintype κ] [Fintype κ'] in
theorem blocks_mulVec (M : Matrix κ ι ℝ) (M' : Matrix κ' ι' ℝ) (v : ι ⊕ ι' → ℝ) :
    (Matrix.fromBlocks M 0 0 M').mulVec v = both (M.mulVec fun i => v (.inl i)) (M'.mulVec fun i => v (.inr i)) := by
  rw [Matrix.fromBlocks_mulVec]
  funext i
  cases i <;> simp [both, Function.comp_def]

omit [Fintype κ] [Fintype κ'] in
theorem blocks_injective {M : Matrix κ ι ℝ} {M' : Matrix κ' ι' ℝ} (h : ∀ v, M.mulVec v = 0 → v = 0) (h' : ∀ v, M'.mulVec v = 0 → v = 0)
    (v : ι ⊕ ι' → ℝ) (hv : (Matrix.fromBlocks M 0 0 M').mulVec v = 0) : v = 0 := by
  rw [blocks_mulVec] at hv
  have h1 := h _ (funext fun i => congrFun hv (.inl i))
  have h2 := h' _ (funext fun i => congrFun hv (.inr i))
  funext i
  cases i with
  | inl i => exact congrFun h1 i
  | inr i => exact congrFun h2 i

omit [Fintype κ] in
theorem sub_of_injective {M : Matrix κ ι ℝ} (h : ∀ v, M.mulVec v = 0 → v = 0) {u v : ι → ℝ} (e : M.mulVec u = M.mulVec v) : u = v := by
  have := h (u - v) (by rw [Matrix.mulVec_sub, e, sub_self])
  exact sub_eq_zero.1 this

theorem solve_blocks {solve : Matrix (ι ⊕ ι') (ι ⊕ ι') ℝ → (ι ⊕ ι' → ℝ) → (ι ⊕ ι' → ℝ) × Result} (hs : SolvesRegular solve)
    {solve₁ : Matrix ι ι ℝ → (ι → ℝ) → (ι → ℝ) × Result} (hs₁ : SolvesRegular solve₁)
    {solve₂ : Matrix ι' ι' ℝ → (ι' → ℝ) → (ι' → ℝ) × Result} (hs₂ : SolvesRegular solve₂)
    {M : Matrix ι ι ℝ} {M' : Matrix ι' ι' ℝ} (h : ∀ v, M.mulVec v = 0 → v = 0) (h' : ∀ v, M'.mulVec v = 0 → v = 0) (b : ι → ℝ) (b' : ι' → ℝ) :
    solve (Matrix.fromBlocks M 0 0 M') (both b b') = (both (solve₁ M b).1 (solve₂ M' b').1, .successful) := by
  obtain ⟨e, ok⟩ := hs _ (blocks_injective h h') (both b b')
  refine Prod.ext ?_ ok
  apply sub_of_injective (blocks_injective h h')
  rw [e, blocks_mulVec]
  show both b b' = both (M.mulVec (solve₁ M b).1) (M'.mulVec (solve₂ M' b').1)
  rw [(hs₁ M h b).1, (hs₂ M' h' b').1]

/-- Two configurations of `Newton` (or `Chord`) and the configuration for the two problems together: the same tolerances, the default norm, the bounds side by
side, and the Jacobian of two independent problems. -/
structure NewtonTogether (c : NewtonChord.Cfg (ι ⊕ ι') (ι ⊕ ι') ℝ (Matrix (ι ⊕ ι') (ι ⊕ ι') ℝ)) (c₁ : NewtonChord.Cfg ι ι ℝ (Matrix ι ι ℝ))
    (c₂ : NewtonChord.Cfg ι' ι' ℝ (Matrix ι' ι' ℝ)) : Prop where
  rtol₁ : c₁.rtol = c.rtol
  rtol₂ : c₂.rtol = c.rtol
  atol₁ : c₁.atol = c.atol
  atol₂ : c₂.atol = c.atol
  normY : c.normY = maxNorm
  normY₁ : c₁.normY = maxNorm
  normY₂ : c₂.normY = maxNorm
  normF : c.normF = maxNorm
  normF₁ : c₁.normF = maxNorm
  normF₂ : c₂.normF = maxNorm
  isNewton₁ : c₁.isNewton = c.isNewton
  isNewton₂ : c₂.isNewton = c.isNewton
  inf₁ : c₁.inf = c.inf
  inf₂ : c₂.inf = c.inf
  lower_given : c₁.lower.isSome = c₂.lower.isSome
  upper_given : c₁.upper.isSome = c₂.upper.isSome
  lower : c.lower = Option.map₂ both c₁.lower c₂.lower
  upper : c.upper = Option.map₂ both c₁.upper c₂.upper
  jac : ∀ y, c.jac y = Matrix.fromBlocks (c₁.jac fun i => y (.inl i)) 0 0 (c₂.jac fun i => y (.inr i))
  solves : SolvesRegular c.linearSolve
  solves₁ : SolvesRegular c₁.linearSolve
  solves₂ : SolvesRegular c₂.linearSolve

omit [Fintype ι] [Fintype ι'] in
theorem clip_both (l u : Option (ι → ℝ)) (l' u' : Option (ι' → ℝ)) (hl : l.isSome = l'.isSome) (hu : u.isSome = u'.isSome) (y : ι → ℝ) (y' : ι' → ℝ) :
    NewtonChord.clipBounds (Option.map₂ both l l') (Option.map₂ both u u') (both y y') =
      both (NewtonChord.clipBounds l u y) (NewtonChord.clipBounds l' u' y') := by
  funext i
  rcases l with _ | l <;> rcases l' with _ | l' <;> simp at hl <;> rcases u with _ | u <;> rcases u' with _ | u' <;> simp at hu <;> cases i <;> rfl

theorem isSome_map₂ {X Y Z : Type} (m : X → Y → Z) (x : Option X) (y : Option Y) (h : x.isSome = y.isSome) : (Option.map₂ m x y).isSome = x.isSome := by
  cases x <;> cases y <;> simp at h ⊢

section
variable {c : NewtonChord.Cfg (ι ⊕ ι') (ι ⊕ ι') ℝ (Matrix (ι ⊕ ι') (ι ⊕ ι') ℝ)} {c₁ : NewtonChord.Cfg ι ι ℝ (Matrix ι ι ℝ)}
    {c₂ : NewtonChord.Cfg ι' ι' ℝ (Matrix ι' ι' ℝ)} (f : (ι → ℝ) → (ι → ℝ) × A) (g : (ι' → ℝ) → (ι' → ℝ) × A') (a : A) (a' : A')
    (y₁ : ι → ℝ) (y₂ : ι' → ℝ)

/-- The part of the state that decides what happens next. -/
structure NewtonStates (c : NewtonChord.Cfg (ι ⊕ ι') (ι ⊕ ι') ℝ (Matrix (ι ⊕ ι') (ι ⊕ ι') ℝ)) (c₁ : NewtonChord.Cfg ι ι ℝ (Matrix ι ι ℝ))
    (c₂ : NewtonChord.Cfg ι' ι' ℝ (Matrix ι' ι' ℝ)) (y₁ : ι → ℝ) (y₂ : ι' → ℝ)
    (st : NewtonChord.State (ι ⊕ ι') (ι ⊕ ι') ℝ (Matrix (ι ⊕ ι') (ι ⊕ ι') ℝ)) (st₁ : NewtonChord.State ι ι ℝ (Matrix ι ι ℝ))
    (st₂ : NewtonChord.State ι' ι' ℝ (Matrix ι' ι' ℝ)) : Prop where
  chord : c.isNewton = false → st.linearState = some (Matrix.fromBlocks (c₁.jac y₁) 0 0 (c₂.jac y₂)) ∧ st₁.linearState = some (c₁.jac y₁) ∧
    st₂.linearState = some (c₂.jac y₂)
  f : c.cauchy = true → c₁.cauchy = true → c₂.cauchy = true → ∃ r r', st.f = some (both r r') ∧ st₁.f = some r ∧ st₂.f = some r'
  diff : st.diff = both st₁.diff st₂.diff
  result : st.result = .successful
  result₁ : st₁.result = .successful
  result₂ : st₂.result = .successful

theorem newton_step_both (h : NewtonTogether c c₁ c₂) (z₁ : ι → ℝ) (z₂ : ι' → ℝ)
    (hj₁ : ∀ v, (c₁.jac z₁).mulVec v = 0 → v = 0) (hj₂ : ∀ v, (c₂.jac z₂).mulVec v = 0 → v = 0)
    (h0₁ : ∀ v, (c₁.jac y₁).mulVec v = 0 → v = 0) (h0₂ : ∀ v, (c₂.jac y₂).mulVec v = 0 → v = 0) {st st₁ st₂}
    (hst : NewtonStates c c₁ c₂ y₁ y₂ st st₁ st₂) :
    (NewtonChord.step c (together f g) (both z₁ z₂) st).1 = both (NewtonChord.step c₁ f z₁ st₁).1 (NewtonChord.step c₂ g z₂ st₂).1 ∧
    NewtonStates c c₁ c₂ y₁ y₂ (NewtonChord.step c (together f g) (both z₁ z₂) st).2.1 (NewtonChord.step c₁ f z₁ st₁).2.1
      (NewtonChord.step c₂ g z₂ st₂).2.1 := by
  have hfn : (together f g (both z₁ z₂)).1 = both (f z₁).1 (g z₂).1 := rfl
  have hlin : NewtonChord.linSol c (both z₁ z₂) (together f g (both z₁ z₂)).1 st =
      (both (NewtonChord.linSol c₁ z₁ (f z₁).1 st₁).1 (NewtonChord.linSol c₂ z₂ (g z₂).1 st₂).1, .successful) ∧
      (NewtonChord.linSol c₁ z₁ (f z₁).1 st₁).2 = .successful ∧ (NewtonChord.linSol c₂ z₂ (g z₂).1 st₂).2 = .successful := by
    rw [hfn]
    cases hN : c.isNewton with
    | true =>
      have e : ∀ {α : Type} (d : NewtonChord.Cfg α α ℝ (Matrix α α ℝ)) (z r : α → ℝ) s, d.isNewton = true →
          NewtonChord.linSol d z r s = d.linearSolve (d.jac z) r := fun d z r s hd => by
        unfold NewtonChord.linSol; rw [hd]
      rw [e c _ _ _ hN, e c₁ _ _ _ (h.isNewton₁.trans hN), e c₂ _ _ _ (h.isNewton₂.trans hN), h.jac]
      exact ⟨solve_blocks h.solves h.solves₁ h.solves₂ hj₁ hj₂ _ _, (h.solves₁ _ hj₁ _).2, (h.solves₂ _ hj₂ _).2⟩
    | false =>
      obtain ⟨s0, s1, s2⟩ := hst.chord hN
      have e : ∀ {α : Type} (d : NewtonChord.Cfg α α ℝ (Matrix α α ℝ)) (z r : α → ℝ) s M, d.isNewton = false → s.linearState = some M →
          NewtonChord.linSol d z r s = d.linearSolve M r := fun d z r s M hd hM => by
        unfold NewtonChord.linSol; rw [hd, hM]
      rw [e c _ _ _ _ hN s0, e c₁ _ _ _ _ (h.isNewton₁.trans hN) s1, e c₂ _ _ _ _ (h.isNewton₂.trans hN) s2]
      exact ⟨solve_blocks h.solves h.solves₁ h.solves₂ h0₁ h0₂ _ _, (h.solves₁ _ h0₁ _).2, (h.solves₂ _ h0₂ _).2⟩
  obtain ⟨l0, l1, l2⟩ := hlin
  have hnew : (NewtonChord.step c (together f g) (both z₁ z₂) st).1 =
      both (NewtonChord.step c₁ f z₁ st₁).1 (NewtonChord.step c₂ g z₂ st₂).1 := by
    show NewtonChord.clipBounds c.lower c.upper (fun i => both z₁ z₂ i - (NewtonChord.linSol c (both z₁ z₂) (together f g (both z₁ z₂)).1 st).1 i) = _
    rw [l0, h.lower, h.upper]
    refine Eq.trans ?_ (clip_both _ _ _ _ h.lower_given h.upper_given _ _)
    congr 1
    funext i
    cases i <;> rfl
  refine ⟨hnew, ⟨fun hN => hst.chord hN, fun hc hc1 hc2 => ⟨(f z₁).1, (g z₂).1, ?_, ?_, ?_⟩, ?_, ?_, l1, l2⟩⟩
  · show (if c.cauchy then some (together f g (both z₁ z₂)).1 else none) = _
    rw [hc]; rfl
  · show (if c₁.cauchy then some (f z₁).1 else none) = _
    rw [hc1]; rfl
  · show (if c₂.cauchy then some (g z₂).1 else none) = _
    rw [hc2]; rfl
  · show (if c.lower.isSome || c.upper.isSome then (fun i => both z₁ z₂ i - (NewtonChord.step c (together f g) (both z₁ z₂) st).1 i)
        else (NewtonChord.linSol c (both z₁ z₂) (together f g (both z₁ z₂)).1 st).1) =
      both (if c₁.lower.isSome || c₁.upper.isSome then (fun i => z₁ i - (NewtonChord.step c₁ f z₁ st₁).1 i) else (NewtonChord.linSol c₁ z₁ (f z₁).1 st₁).1)
        (if c₂.lower.isSome || c₂.upper.isSome then (fun i => z₂ i - (NewtonChord.step c₂ g z₂ st₂).1 i) else (NewtonChord.linSol c₂ z₂ (g z₂).1 st₂).1)
    have g1 : c.lower.isSome = c₁.lower.isSome := by rw [h.lower, isSome_map₂ _ _ _ h.lower_given]
    have g2 : c.upper.isSome = c₁.upper.isSome := by rw [h.upper, isSome_map₂ _ _ _ h.upper_given]
    rw [hnew, l0, g1, g2, ← h.lower_given, ← h.upper_given]
    split
    · funext i; cases i <;> rfl
    · rfl
  · show (NewtonChord.linSol c (both z₁ z₂) (together f g (both z₁ z₂)).1 st).2 = _
    rw [l0]

theorem newton_init_both (h : NewtonTogether c c₁ c₂) :
    NewtonStates c c₁ c₂ y₁ y₂ (NewtonChord.init c (both y₁ y₂)) (NewtonChord.init c₁ y₁) (NewtonChord.init c₂ y₂) := by
  refine ⟨fun hN => ⟨?_, ?_, ?_⟩, fun hc hc1 hc2 => ⟨fun _ => c₁.inf, fun _ => c₂.inf, ?_, ?_, ?_⟩, ?_, rfl, rfl, rfl⟩
  · show (if c.isNewton then none else some (c.jac (both y₁ y₂))) = _
    rw [hN, h.jac]; rfl
  · show (if c₁.isNewton then none else some (c₁.jac y₁)) = _
    rw [h.isNewton₁, hN]; rfl
  · show (if c₂.isNewton then none else some (c₂.jac y₂)) = _
    rw [h.isNewton₂, hN]; rfl
  · show (if c.cauchy then some (fun _ => c.inf) else none) = _
    rw [hc, h.inf₁, h.inf₂, if_pos rfl]
    congr 1; funext i; cases i <;> rfl
  · show (if c₁.cauchy then some (fun _ => c₁.inf) else none) = _
    rw [hc1]; rfl
  · show (if c₂.cauchy then some (fun _ => c₂.inf) else none) = _
    rw [hc2]; rfl
  · show (fun _ => c.inf) = both (fun _ => c₁.inf) (fun _ => c₂.inf)
    rw [h.inf₁, h.inf₂]; funext i; cases i <;> rfl

/-- **C125.** `Newton` and `Chord`, with or without bounds, whichever termination condition they use: the iterates of the problem made of two are those of the two
problems side by side, as long as the Jacobians met are regular. -/
theorem C125_newton_iterates (h : NewtonTogether c c₁ c₂)
    (hj₁ : ∀ k v, (c₁.jac (iterateAt (NewtonChord.solver c₁) f a y₁ (NewtonChord.init c₁ y₁) k)).mulVec v = 0 → v = 0)
    (hj₂ : ∀ k v, (c₂.jac (iterateAt (NewtonChord.solver c₂) g a' y₂ (NewtonChord.init c₂ y₂) k)).mulVec v = 0 → v = 0) (k : ℕ) :
    iterateAt (NewtonChord.solver c) (together f g) (a, a') (both y₁ y₂) (NewtonChord.init c (both y₁ y₂)) k =
      both (iterateAt (NewtonChord.solver c₁) f a y₁ (NewtonChord.init c₁ y₁) k) (iterateAt (NewtonChord.solver c₂) g a' y₂ (NewtonChord.init c₂ y₂) k) ∧
    NewtonStates c c₁ c₂ y₁ y₂ (stateAt (NewtonChord.solver c) (together f g) (a, a') (both y₁ y₂) (NewtonChord.init c (both y₁ y₂)) k)
      (stateAt (NewtonChord.solver c₁) f a y₁ (NewtonChord.init c₁ y₁) k) (stateAt (NewtonChord.solver c₂) g a' y₂ (NewtonChord.init c₂ y₂) k) := by
  induction k with
  | zero => exact ⟨rfl, newton_init_both y₁ y₂ h⟩
  | succ k ih =>
    have := newton_step_both f g y₁ y₂ h _ _ (hj₁ k) (hj₂ k) (hj₁ 0) (hj₂ 0) ih.2
    rw [← ih.1] at this
    exact this

/-- **C125.** `Newton` and `Chord` with `cauchy_termination=True`. -/
theorem C125_newton (h : NewtonTogether c c₁ c₂) (hc : c.cauchy = true) (hc₁ : c₁.cauchy = true) (hc₂ : c₂.cauchy = true)
    (hj₁ : ∀ k v, (c₁.jac (iterateAt (NewtonChord.solver c₁) f a y₁ (NewtonChord.init c₁ y₁) k)).mulVec v = 0 → v = 0)
    (hj₂ : ∀ k v, (c₂.jac (iterateAt (NewtonChord.solver c₂) g a' y₂ (NewtonChord.init c₂ y₂) k)).mulVec v = 0 → v = 0) :
    SideBySide (NewtonChord.solver c) (together f g) (a, a') (NewtonChord.init c (both y₁ y₂))
      (NewtonChord.solver c₁) f a y₁ (NewtonChord.init c₁ y₁) (NewtonChord.solver c₂) g a' y₂ (NewtonChord.init c₂ y₂) := by
  have e : ∀ {α : Type} [Fintype α] (d : NewtonChord.Cfg α α ℝ (Matrix α α ℝ)) (z r : α → ℝ) s, d.cauchy = true → s.f = some r → s.result = .successful →
      d.normY = maxNorm → d.normF = maxNorm →
      NewtonChord.terminate d z s = (cauchyTermination d.rtol d.atol maxNorm maxNorm z s.diff (fun _ => 0) r, .successful) := by
    intro α _ d z r s hd hs hr hY hF
    unfold NewtonChord.terminate
    rw [hd, hs, hr, hY, hF]
    simp
  have key : ∀ k, verdictAt (NewtonChord.solver c) (together f g) (a, a') (both y₁ y₂) (NewtonChord.init c (both y₁ y₂)) k =
      ((verdictAt (NewtonChord.solver c₁) f a y₁ (NewtonChord.init c₁ y₁) k).1 && (verdictAt (NewtonChord.solver c₂) g a' y₂ (NewtonChord.init c₂ y₂) k).1,
        .successful) ∧
      (verdictAt (NewtonChord.solver c₁) f a y₁ (NewtonChord.init c₁ y₁) k).2 = .successful ∧
      (verdictAt (NewtonChord.solver c₂) g a' y₂ (NewtonChord.init c₂ y₂) k).2 = .successful := by
    intro k
    obtain ⟨-, hst⟩ := C125_newton_iterates f g a a' y₁ y₂ h hj₁ hj₂ k
    have hit := (C125_newton_iterates f g a a' y₁ y₂ h hj₁ hj₂ (k - 1)).1
    obtain ⟨r, r', f0, f1, f2⟩ := hst.f hc hc₁ hc₂
    simp only [verdictAt, testedAt]
    rw [hit]
    simp only [NewtonChord.solver] at hst f0 f1 f2 ⊢
    rw [e c _ _ _ hc f0 hst.result h.normY h.normF, e c₁ _ _ _ hc₁ f1 hst.result₁ h.normY₁ h.normF₁, e c₂ _ _ _ hc₂ f2 hst.result₂ h.normY₂ h.normF₂,
      hst.diff, h.rtol₁, h.rtol₂, h.atol₁, h.atol₂]
    refine ⟨?_, rfl, rfl⟩
    dsimp only
    rw [← cauchy_both]
    congr 2
    funext i; cases i <;> rfl
  exact ⟨fun k => (C125_newton_iterates f g a a' y₁ y₂ h hj₁ hj₂ k).1, fun k => congrArg Prod.fst (key k).1, fun k => congrArg Prod.snd (key k).1,
    fun k => (key k).2.1, fun k => (key k).2.2⟩

end

/-! ### `GaussNewton` -/

theorem least_squares_blocks {ls : LinSolve (ι ⊕ ι') (κ ⊕ κ')} (hs : SolvesFullRank ls) {ls₁ : LinSolve ι κ} (hs₁ : SolvesFullRank ls₁)
    {ls₂ : LinSolve ι' κ'} (hs₂ : SolvesFullRank ls₂) {M : Matrix κ ι ℝ} {M' : Matrix κ' ι' ℝ} (h : ∀ v, M.mulVec v = 0 → v = 0)
    (h' : ∀ v, M'.mulVec v = 0 → v = 0) (b : κ → ℝ) (b' : κ' → ℝ) :
    ls.rect (Matrix.fromBlocks M 0 0 M') (both b b') = (both (ls₁.rect M b).1 (ls₂.rect M' b').1, .successful) := by
  obtain ⟨e, ok⟩ := hs _ (blocks_injective h h') (both b b')
  refine Prod.ext ?_ ok
  apply sub_of_injective (blocks_injective h h')
  apply least_squares_image _ (both b b') _ _ e
  intro d
  have e1 := (hs₁ M h b).1 fun i => d (.inl i)
  have e2 := (hs₂ M' h' b').1 fun i => d (.inr i)
  simp only [Fintype.sum_sum_type, blocks_mulVec]
  exact add_le_add e1 e2

section
variable (rtol atol : ℝ) {ls : LinSolve (ι ⊕ ι') (κ ⊕ κ')} {ls₁ : LinSolve ι κ} {ls₂ : LinSolve ι' κ'}
  {jac : (ι ⊕ ι' → ℝ) → Matrix (κ ⊕ κ') (ι ⊕ ι') ℝ} {jac₁ : (ι → ℝ) → Matrix κ ι ℝ} {jac₂ : (ι' → ℝ) → Matrix κ' ι' ℝ}
  (f : (ι → ℝ) → (κ → ℝ) × A) (g : (ι' → ℝ) → (κ' → ℝ) × A') (a : A) (a' : A') (y₁ : ι → ℝ) (y₂ : ι' → ℝ)

/-- The part of the states that decides what happens next. -/
structure GnStates (st : GaussNewton.State (ι ⊕ ι') (κ ⊕ κ') (A × A') Unit ((ι ⊕ ι' → ℝ) × Result)) (st₁ : GaussNewton.State ι κ A Unit ((ι → ℝ) × Result))
    (st₂ : GaussNewton.State ι' κ' A' Unit ((ι' → ℝ) × Result)) : Prop where
  yEval : st.yEval = both st₁.yEval st₂.yEval
  residual : st.residual = both st₁.residual st₂.residual
  terminate : st.terminate = (st₁.terminate && st₂.terminate)
  result : st.result = .successful
  result₁ : st₁.result = .successful
  result₂ : st₂.result = .successful

theorem gn_step_both (hs : SolvesFullRank ls) (hs₁ : SolvesFullRank ls₁) (hs₂ : SolvesFullRank ls₂)
    (hjac : ∀ y, jac y = Matrix.fromBlocks (jac₁ fun i => y (.inl i)) 0 0 (jac₂ fun i => y (.inr i))) (z₁ : ι → ℝ) (z₂ : ι' → ℝ) {st st₁ st₂}
    (hst : GnStates st st₁ st₂) (hj₁ : ∀ v, (jac₁ st₁.yEval).mulVec v = 0 → v = 0) (hj₂ : ∀ v, (jac₂ st₂.yEval).mulVec v = 0 → v = 0) :
    GnStates (A := A) (A' := A') (GaussNewton.step (GaussNewton.gaussNewton rtol atol maxNorm maxNorm ls jac) (together f g) (both z₁ z₂) st).2.1
      (GaussNewton.step (GaussNewton.gaussNewton rtol atol maxNorm maxNorm ls₁ jac₁) f z₁ st₁).2.1
      (GaussNewton.step (GaussNewton.gaussNewton rtol atol maxNorm maxNorm ls₂ jac₂) g z₂ st₂).2.1 := by
  have hfn : (together f g st.yEval).1 = both (f st₁.yEval).1 (g st₂.yEval).1 := by rw [hst.yEval]; rfl
  have hj : jac st.yEval = Matrix.fromBlocks (jac₁ st₁.yEval) 0 0 (jac₂ st₂.yEval) := by rw [hjac, hst.yEval]; rfl
  have hls := least_squares_blocks hs hs₁ hs₂ hj₁ hj₂ (f st₁.yEval).1 (g st₂.yEval).1
  refine ⟨?_, ?_, ?_, ?_, (hs₁ _ hj₁ _).2, (hs₂ _ hj₂ _).2⟩
  · show (fun i => st.yEval i + -1 * (ls.rect (jac st.yEval) (together f g st.yEval).1).1 i) =
      both (fun i => st₁.yEval i + -1 * (ls₁.rect (jac₁ st₁.yEval) (f st₁.yEval).1).1 i)
        (fun i => st₂.yEval i + -1 * (ls₂.rect (jac₂ st₂.yEval) (g st₂.yEval).1).1 i)
    rw [hfn, hj, hls, hst.yEval]
    funext i; cases i <;> rfl
  · exact hfn
  · show cauchyTermination rtol atol maxNorm maxNorm st.yEval (fun i => st.yEval i - both z₁ z₂ i) (together f g st.yEval).1
        (fun i => (together f g st.yEval).1 i - st.residual i) =
      (cauchyTermination rtol atol maxNorm maxNorm st₁.yEval (fun i => st₁.yEval i - z₁ i) (f st₁.yEval).1 (fun i => (f st₁.yEval).1 i - st₁.residual i) &&
        cauchyTermination rtol atol maxNorm maxNorm st₂.yEval (fun i => st₂.yEval i - z₂ i) (g st₂.yEval).1 (fun i => (g st₂.yEval).1 i - st₂.residual i))
    rw [← cauchy_both, hfn, hst.yEval, hst.residual]
    congr 1
    · funext i; cases i <;> rfl
    · funext i; cases i <;> rfl
  · show (ls.rect (jac st.yEval) (together f g st.yEval).1).2 = _
    rw [hfn, hj, hls]

/-- **C125.** `GaussNewton`, as long as the Jacobians met have full column rank. -/
theorem C125_gauss_newton (hs : SolvesFullRank ls) (hs₁ : SolvesFullRank ls₁) (hs₂ : SolvesFullRank ls₂)
    (hjac : ∀ y, jac y = Matrix.fromBlocks (jac₁ fun i => y (.inl i)) 0 0 (jac₂ fun i => y (.inr i))) {st₁ st₂ st0}
    (hi : (gnSolver rtol atol maxNorm maxNorm ls jac (a, a')).init (together f g) (both y₁ y₂) = .ok st0)
    (hi₁ : (gnSolver rtol atol maxNorm maxNorm ls₁ jac₁ a).init f y₁ = .ok st₁) (hi₂ : (gnSolver rtol atol maxNorm maxNorm ls₂ jac₂ a').init g y₂ = .ok st₂)
    (hj₁ : ∀ k v, (jac₁ (iterateAt (gnSolver rtol atol maxNorm maxNorm ls₁ jac₁ a) f a y₁ st₁ k)).mulVec v = 0 → v = 0)
    (hj₂ : ∀ k v, (jac₂ (iterateAt (gnSolver rtol atol maxNorm maxNorm ls₂ jac₂ a') g a' y₂ st₂ k)).mulVec v = 0 → v = 0) :
    SideBySide (gnSolver rtol atol maxNorm maxNorm ls jac (a, a')) (together f g) (a, a') st0
      (gnSolver rtol atol maxNorm maxNorm ls₁ jac₁ a) f a y₁ st₁ (gnSolver rtol atol maxNorm maxNorm ls₂ jac₂ a') g a' y₂ st₂ := by
  have key : ∀ k, iterateAt (gnSolver rtol atol maxNorm maxNorm ls jac (a, a')) (together f g) (a, a') (both y₁ y₂) st0 k =
      both (iterateAt (gnSolver rtol atol maxNorm maxNorm ls₁ jac₁ a) f a y₁ st₁ k) (iterateAt (gnSolver rtol atol maxNorm maxNorm ls₂ jac₂ a') g a' y₂ st₂ k) ∧
      GnStates (stateAt (gnSolver rtol atol maxNorm maxNorm ls jac (a, a')) (together f g) (a, a') (both y₁ y₂) st0 k)
        (stateAt (gnSolver rtol atol maxNorm maxNorm ls₁ jac₁ a) f a y₁ st₁ k) (stateAt (gnSolver rtol atol maxNorm maxNorm ls₂ jac₂ a') g a' y₂ st₂ k) := by
    intro k
    induction k with
    | zero =>
      cases hi; cases hi₁; cases hi₂
      refine ⟨rfl, rfl, ?_, rfl, rfl, rfl, rfl⟩
      funext i; cases i <;> rfl
    | succ k ih =>
      refine ⟨ih.2.yEval, ?_⟩
      have := gn_step_both rtol atol f g hs hs₁ hs₂ hjac (iterateAt (gnSolver rtol atol maxNorm maxNorm ls₁ jac₁ a) f a y₁ st₁ k)
        (iterateAt (gnSolver rtol atol maxNorm maxNorm ls₂ jac₂ a') g a' y₂ st₂ k) ih.2 (hj₁ (k + 1)) (hj₂ (k + 1))
      rw [← ih.1] at this
      exact this
  exact ⟨fun k => (key k).1, fun k => (key k).2.terminate, fun k => (key k).2.result, fun k => (key k).2.result₁, fun k => (key k).2.result₂⟩

end

/-! ### `GradientDescent` -/

omit [Fintype ι] [Fintype ι'] in
/-- **C125.** `GradientDescent` on the sum of two objectives of different unknowns: whatever the outcome, the value returned after `n` steps is the two values
gradient descent reaches on each of them in as many steps. (The stopping test looks at the change of the sum and so is not the conjunction of the tests.) -/
theorem C125_gradient_descent (rate rtol atol : ℝ) (nY : (ι ⊕ ι' → ℝ) → ℝ) (nF : (Unit → ℝ) → ℝ) (G : (ι ⊕ ι' → ℝ) → (ι ⊕ ι' → ℝ)) (G₁ : (ι → ℝ) → (ι → ℝ))
    (G₂ : (ι' → ℝ) → (ι' → ℝ)) (hG : ∀ y, G y = both (G₁ fun i => y (.inl i)) (G₂ fun i => y (.inr i)))
    (f : (ι → ℝ) → ℝ × A) (g : (ι' → ℝ) → ℝ × A') (a : A) (a' : A') (y₁ : ι → ℝ) (y₂ : ι' → ℝ) (af : (ι ⊕ ι' → ℝ) → Bool)
    (ms : Option Nat) (throw : Bool) (sol : Solution (ι ⊕ ι' → ℝ) (A × A') (GradientDescent.State (ι ⊕ ι') (A × A') Unit (ι ⊕ ι' → ℝ)) Unit)
    (h : iterativeSolve (gdSolver rate rtol atol nY nF G (a, a')) af (summed f g) (a, a') (both y₁ y₂) ms throw = some (.ok sol)) :
    sol.value = both ((fun y i => y i - rate * G₁ y i)^[sol.numSteps - 1] y₁) ((fun y i => y i - rate * G₂ y i)^[sol.numSteps - 1] y₂) := by
  rw [C31_value rate rtol atol nY nF G (a, a') (summed f g) (both y₁ y₂) af ms throw sol h]
  generalize sol.numSteps - 1 = k
  induction k with
  | zero => rfl
  | succ k ih =>
    simp only [Function.iterate_succ_apply']
    rw [ih]
    funext i
    rw [hG]
    cases i <;> rfl

/-! ### The number of steps -/

/-- A fixed-point iteration with a function that does not increase distances, absolute tolerance only, stays within the tolerance once it is. -/
theorem fixed_point_stays (atol damp : ℝ) (ha : 0 < atol) (hd0 : 0 ≤ damp) (hd1 : damp ≤ 1) (f : (ι → ℝ) → (ι → ℝ) × A)
    (hf : ∀ y z c, (∀ i, |y i - z i| ≤ c) → ∀ i, |(f y).1 i - (f z).1 i| ≤ c) (a : A) (y₁ : ι → ℝ) (j k : ℕ) (hjk : j ≤ k)
    (h : (verdictAt (FixedPointIter.solver ⟨0, atol, maxNorm, damp⟩) f a y₁ none j).1 = true) :
    (verdictAt (FixedPointIter.solver ⟨0, atol, maxNorm, damp⟩) f a y₁ none k).1 = true := by
  induction k, hjk using Nat.le_induction with
  | base => exact h
  | succ k hjk ih =>
    obtain _ | k := k
    · exact absurd ih (by simp [verdictAt, stateAt, trace, FixedPointIter.solver, FixedPointIter.terminate])
    · set Y := iterateAt (FixedPointIter.solver ⟨0, atol, maxNorm, damp⟩) f a y₁ none with hY
      have hYs : ∀ k i, Y (k + 1) i = (1 - damp) * (f (Y k)).1 i + damp * Y k i := fun k i => rfl
      have hv : ∀ k, (verdictAt (FixedPointIter.solver ⟨0, atol, maxNorm, damp⟩) f a y₁ none (k + 1)).1 = true ↔
          ∀ i, |Y k i - Y (k + 1) i| < atol := by
        intro k
        show decide (maxNorm (fun i => (Y k i - Y (k + 1) i) / (atol + 0 * |Y (k + 1) i|)) < 1) = true ↔ _
        rw [decide_eq_true_eq, maxNorm_lt_iff]
        simp only [zero_mul, add_zero, abs_div, abs_of_pos ha, div_lt_one ha]
        exact ⟨fun h => h.2, fun h => ⟨one_pos, h⟩⟩
      rw [hv] at ih ⊢
      intro i
      -- the largest entry of the last step
      have hlt : maxNorm (fun i => Y k i - Y (k + 1) i) < atol := (maxNorm_lt_iff _ _).2 ⟨ha, ih⟩
      have h1 := hf (Y k) (Y (k + 1)) _ (fun i => abs_le_maxNorm (fun i => Y k i - Y (k + 1) i) i) i
      have h2 := abs_le_maxNorm (fun i => Y k i - Y (k + 1) i) i
      refine lt_of_le_of_lt ?_ hlt
      rw [hYs k i, hYs (k + 1) i, abs_le]
      rw [hYs k i] at h2
      rw [abs_le] at h1 h2
      have e : (1 - damp) * (f (Y k)).1 i + damp * Y k i - ((1 - damp) * (f (Y (k + 1))).1 i + damp * ((1 - damp) * (f (Y k)).1 i + damp * Y k i)) =
          (1 - damp) * ((f (Y k)).1 i - (f (Y (k + 1))).1 i) + damp * (Y k i - ((1 - damp) * (f (Y k)).1 i + damp * Y k i)) := by ring
      rw [hYs k i, e]
      have hd : 0 ≤ 1 - damp := by linarith
      constructor
      · nlinarith [mul_le_mul_of_nonneg_left h1.1 hd, mul_le_mul_of_nonneg_left h2.1 hd0]
      · nlinarith [mul_le_mul_of_nonneg_left h1.2 hd, mul_le_mul_of_nonneg_left h2.2 hd0]

/-- **C125.** Two functions that do not increase distances, iterated together with an absolute tolerance: exactly as many steps as the slower of the two needs alone. -/
theorem C125_fixed_point_steps (atol damp : ℝ) (ha : 0 < atol) (hd0 : 0 ≤ damp) (hd1 : damp ≤ 1) (f : (ι → ℝ) → (ι → ℝ) × A)
    (hf : ∀ y z c, (∀ i, |y i - z i| ≤ c) → ∀ i, |(f y).1 i - (f z).1 i| ≤ c) (g : (ι' → ℝ) → (ι' → ℝ) × A')
    (hg : ∀ y z c, (∀ i, |y i - z i| ≤ c) → ∀ i, |(g y).1 i - (g z).1 i| ≤ c) (a : A) (a' : A') (y₁ : ι → ℝ) (y₂ : ι' → ℝ)
    (ms : Option Nat) (throw : Bool) (sol₁ : Solution (ι → ℝ) A (Option ℝ) Unit) (sol₂ : Solution (ι' → ℝ) A' (Option ℝ) Unit)
    (hs₁ : iterativeSolve (FixedPointIter.solver ⟨0, atol, maxNorm, damp⟩) (fun _ => true) f a y₁ ms throw = some (.ok sol₁)) (hok₁ : sol₁.result = .successful)
    (hs₂ : iterativeSolve (FixedPointIter.solver ⟨0, atol, maxNorm, damp⟩) (fun _ => true) g a' y₂ ms throw = some (.ok sol₂)) (hok₂ : sol₂.result = .successful) :
    ∃ sol, iterativeSolve (FixedPointIter.solver ⟨0, atol, maxNorm, damp⟩) (fun _ => true) (together f g) (a, a') (both y₁ y₂) ms throw = some (.ok sol) ∧
      sol.result = .successful ∧ sol.numSteps = max sol₁.numSteps sol₂.numSteps := by
  have hend : ∀ {α B : Type} [Fintype α] (f : (α → ℝ) → (α → ℝ) × B) (a : B) (y : α → ℝ) (sol : Solution (α → ℝ) B (Option ℝ) Unit),
      iterativeSolve (FixedPointIter.solver ⟨0, atol, maxNorm, damp⟩) (fun _ => true) f a y ms throw = some (.ok sol) → sol.result = .successful →
      (verdictAt (FixedPointIter.solver ⟨0, atol, maxNorm, damp⟩) f a y none sol.numSteps).1 = true := by
    intro α B _ f a y sol hs hok
    obtain ⟨st0, hi, -, -, -, -, -, hres⟩ := solve_spec _ _ _ _ _ _ _ _ hs
    cases hi
    by_contra hf
    rw [if_pos ⟨rfl, Prod.ext (by simpa using hf) rfl⟩] at hres
    rw [hres] at hok; cases hok
  exact C125_steps (C125_fixed_point 0 atol damp f g a a' y₁ y₂) rfl rfl rfl ms throw sol₁ sol₂ hs₁ hs₂
    (fun k hk => fixed_point_stays atol damp ha hd0 hd1 f hf a y₁ _ k hk (hend f a y₁ sol₁ hs₁ hok₁))
    (fun k hk => fixed_point_stays atol damp ha hd0 hd1 g hg a' y₂ _ k hk (hend g a' y₂ sol₂ hs₂ hok₂))

/-! ### The hypotheses are met -/

theorem regular_solver_exists : ∃ solve : Matrix ι ι ℝ → (ι → ℝ) → (ι → ℝ) × Result, SolvesRegular solve := by
  classical
  have key : ∀ (M : Matrix ι ι ℝ) (b : ι → ℝ), ∃ x, (∀ v, M.mulVec v = 0 → v = 0) → M.mulVec x = b := by
    intro M b
    by_cases h : ∀ v, M.mulVec v = 0 → v = 0
    · have hinj : Function.Injective M.mulVecLin := fun u v e => sub_of_injective h e
      obtain ⟨x, hx⟩ := (LinearMap.injective_iff_surjective.1 hinj) b
      exact ⟨x, fun _ => hx⟩
    · exact ⟨b, fun h' => absurd h' h⟩
  exact ⟨fun M b => (Classical.choose (key M b), .successful), fun M hM b => ⟨Classical.choose_spec (key M b) hM, rfl⟩⟩

/-- `y + y³ = 2` and `y + y³ = 30`: the Jacobian `1 + 3 y²` is regular everywhere, so Newton's method solves the two together as it does alone. -/
example (cauchy : Bool) : ∃ (c : NewtonChord.Cfg (Unit ⊕ Unit) (Unit ⊕ Unit) ℝ (Matrix (Unit ⊕ Unit) (Unit ⊕ Unit) ℝ)) (c' : NewtonChord.Cfg Unit Unit ℝ (Matrix Unit Unit ℝ)),
    c.cauchy = cauchy ∧ c'.cauchy = cauchy ∧ c'.jac = (fun y => Matrix.of fun _ _ => 1 + 3 * y () ^ 2) ∧ NewtonTogether c c' c' ∧
      ∀ y v, (c'.jac y).mulVec v = 0 → v = 0 := by
  obtain ⟨s, hs⟩ := regular_solver_exists (ι := Unit ⊕ Unit)
  obtain ⟨s', hs'⟩ := regular_solver_exists (ι := Unit)
  refine ⟨⟨0, 1/100, maxNorm, maxNorm, 1/100, cauchy, true, none, none,
      fun y => Matrix.fromBlocks (Matrix.of fun _ _ => 1 + 3 * y (.inl ()) ^ 2) 0 0 (Matrix.of fun _ _ => 1 + 3 * y (.inr ()) ^ 2), s, 1, fun _ => true, 0⟩,
    ⟨0, 1/100, maxNorm, maxNorm, 1/100, cauchy, true, none, none, fun y => Matrix.of fun _ _ => 1 + 3 * y () ^ 2, s', 1, fun _ => true, 0⟩, rfl, rfl, rfl,
    ⟨rfl, rfl, rfl, rfl, rfl, rfl, rfl, rfl, rfl, rfl, rfl, rfl, rfl, rfl, rfl, rfl, rfl, rfl, fun y => rfl, hs, hs', hs'⟩, fun y v hv => ?_⟩
  have := congrFun hv ()
  simp only [Matrix.mulVec, dotProduct, Matrix.of_apply, Finset.univ_unique, Finset.sum_singleton] at this
  funext i
  rcases mul_eq_zero.1 this with h | h
  · nlinarith [sq_nonneg (y ())]
  · exact h

/-- `y ↦ y / 2` and `y ↦ 1 + y / 3` iterated together from `1` and `5`: both succeed alone, so together they succeed in the larger number of steps. -/
example : ∃ (n : ℕ) (sol₁ sol₂ : Solution (Unit → ℝ) Unit (Option ℝ) Unit) (sol : Solution (Unit ⊕ Unit → ℝ) (Unit × Unit) (Option ℝ) Unit),
    iterativeSolve (FixedPointIter.solver ⟨0, 1/2, maxNorm, 0⟩) (fun _ => true) (fun y : Unit → ℝ => (fun i => y i / 2, ())) () (fun _ => 1) (some n) true =
      some (.ok sol₁) ∧
    iterativeSolve (FixedPointIter.solver ⟨0, 1/2, maxNorm, 0⟩) (fun _ => true) (fun y : Unit → ℝ => (fun i => 1 + y i / 3, ())) () (fun _ => 5) (some n) true =
      some (.ok sol₂) ∧
    iterativeSolve (FixedPointIter.solver ⟨0, 1/2, maxNorm, 0⟩) (fun _ => true)
      (together (fun y : Unit → ℝ => (fun i => y i / 2, ())) (fun y : Unit → ℝ => (fun i => 1 + y i / 3, ()))) ((), ()) (both (fun _ => 1) (fun _ => 5)) (some n) true =
      some (.ok sol) ∧ sol.result = .successful ∧ sol.numSteps = max sol₁.numSteps sol₂.numSteps := by
  have hsucc : ∀ (q b y0 : ℝ) (k : ℕ), |(fun x => b + q * x)^[k] y0 - (fun x => b + q * x)^[k + 1] y0| < 1 / 2 →
      ∀ n, k + 1 ≤ n → ∃ sol, iterativeSolve (FixedPointIter.solver ⟨0, 1/2, maxNorm, 0⟩) (fun _ => true) (fun y : Unit → ℝ => (fun i => b + q * y i, ())) () (fun _ => y0)
        (some n) true = some (.ok sol) ∧ sol.result = .successful := by
    intro q b y0 k hk n hn
    set T := fun y : Unit → ℝ => ((fun i => b + q * y i : Unit → ℝ), ()) with hT
    set S : Solver (Unit → ℝ) (Unit → ℝ) Unit (Option ℝ) Unit := FixedPointIter.solver ⟨0, 1/2, maxNorm, 0⟩ with hS
    have hit : ∀ k, iterateAt S T () (fun _ => y0) none k = fun _ => (fun x => b + q * x)^[k] y0 := by
      intro k
      induction k with
      | zero => rfl
      | succ k ih =>
        show (FixedPointIter.step (⟨0, 1/2, maxNorm, 0⟩ : FixedPointIter.Cfg Unit ℝ) T (iterateAt S T () (fun _ => y0) none k) none).1 = _
        rw [ih, Function.iterate_succ_apply']
        funext i
        simp [FixedPointIter.step, hT]
    obtain ⟨sol, h1, h2, -⟩ := solve_succeeds_by S (fun _ => true) T () (fun _ => y0) none rfl (some n) true (k + 1) (fun _ _ => rfl) (fun _ _ => rfl) (by
        show decide (maxNorm (fun i => (iterateAt S T () (fun _ => y0) none k i - iterateAt S T () (fun _ => y0) none (k + 1) i) /
          (1/2 + 0 * |iterateAt S T () (fun _ => y0) none (k + 1) i|)) < 1) = true
        rw [decide_eq_true_eq, maxNorm_lt_iff]
        refine ⟨one_pos, fun i => ?_⟩
        rw [hit, hit, zero_mul, add_zero, abs_div, abs_of_pos (by norm_num : (0:ℝ) < 1/2), div_lt_one (by norm_num)]
        exact hk) (fun m hm => by cases hm; exact hn)
    exact ⟨sol, h1, h2⟩
  have e1 : (fun y : Unit → ℝ => ((fun i => y i / 2 : Unit → ℝ), ())) = fun y => (fun i => 0 + (1/2) * y i, ()) := by
    funext y; simp only [Prod.mk.injEq, and_true]; funext i; ring
  have e2 : (fun y : Unit → ℝ => ((fun i => 1 + y i / 3 : Unit → ℝ), ())) = fun y => (fun i => 1 + (1/3) * y i, ()) := by
    funext y; simp only [Prod.mk.injEq, and_true]; funext i; ring
  obtain ⟨sol₁, h1, h1'⟩ := hsucc (1/2) 0 1 1 (by norm_num [Function.iterate_succ_apply', abs_lt]) 4 (by norm_num)
  obtain ⟨sol₂, h2, h2'⟩ := hsucc (1/3) 1 5 2 (by norm_num [Function.iterate_succ_apply', abs_lt]) 4 (by norm_num)
  obtain ⟨sol, h3, h4, h5⟩ := C125_fixed_point_steps (ι := Unit) (ι' := Unit) (1/2) 0 (by norm_num) le_rfl zero_le_one _
    (fun y z c h i => by
      have := h i
      rw [abs_le] at this ⊢
      constructor <;> dsimp only <;> nlinarith [this.1, this.2]) _
    (fun y z c h i => by
      have := h i
      rw [abs_le] at this ⊢
      constructor <;> dsimp only <;> nlinarith [this.1, this.2]) () () (fun _ => 1) (fun _ => 5) (some 4) true sol₁ sol₂ h1 h1' h2 h2'
  rw [e1, e2]
  exact ⟨4, sol₁, sol₂, sol, h1, h2, h3, h4, h5⟩

/-- Gauss-Newton on two independent fits of a slope each (`y t - t` at `t = 1, 2` and `y - 5`): full column rank everywhere. -/
example : ∃ (ls : LinSolve (Unit ⊕ Unit) (Bool ⊕ Unit)) (ls₁ : LinSolve Unit Bool) (ls₂ : LinSolve Unit Unit),
    SolvesFullRank ls ∧ SolvesFullRank ls₁ ∧ SolvesFullRank ls₂ ∧
    let f : (Unit → ℝ) → (Bool → ℝ) × Unit := fun y => (fun b => if b then 2 * y () - 2 else y () - 1, ())
    let g : (Unit → ℝ) → (Unit → ℝ) × Unit := fun y => (fun _ => y () - 5, ())
    let J₁ : (Unit → ℝ) → Matrix Bool Unit ℝ := fun _ => Matrix.of fun b _ => if b then 2 else 1
    let J₂ : (Unit → ℝ) → Matrix Unit Unit ℝ := fun _ => Matrix.of fun _ _ => 1
    let J : (Unit ⊕ Unit → ℝ) → Matrix (Bool ⊕ Unit) (Unit ⊕ Unit) ℝ := fun y => Matrix.fromBlocks (J₁ fun i => y (.inl i)) 0 0 (J₂ fun i => y (.inr i))
    ∃ st0 st₁ st₂, SideBySide (gnSolver 0 (1/10) maxNorm maxNorm ls J ((), ())) (together f g) ((), ()) st0
      (gnSolver 0 (1/10) maxNorm maxNorm ls₁ J₁ ()) f () (fun _ => 7) st₁ (gnSolver 0 (1/10) maxNorm maxNorm ls₂ J₂ ()) g () (fun _ => 0) st₂ := by
  obtain ⟨ls, h⟩ := full_rank_solver_exists (ι := Unit ⊕ Unit) (κ := Bool ⊕ Unit)
  obtain ⟨ls₁, h₁⟩ := full_rank_solver_exists (ι := Unit) (κ := Bool)
  obtain ⟨ls₂, h₂⟩ := full_rank_solver_exists (ι := Unit) (κ := Unit)
  refine ⟨ls, ls₁, ls₂, h, h₁, h₂, ?_⟩
  intro f g J₁ J₂ J
  have hJ₁ : ∀ y v, (J₁ y).mulVec v = 0 → v = 0 := by
    intro y v hv
    have := congrFun hv false
    simp only [J₁, Matrix.mulVec, dotProduct, Matrix.of_apply, Finset.univ_unique, Finset.sum_singleton] at this
    funext i
    simpa using this
  have hJ₂ : ∀ y v, (J₂ y).mulVec v = 0 → v = 0 := by
    intro y v hv
    have := congrFun hv ()
    simp only [J₂, Matrix.mulVec, dotProduct, Matrix.of_apply, Finset.univ_unique, Finset.sum_singleton] at this
    funext i
    simpa using this
  have hJ : ∀ y, J y = Matrix.fromBlocks (J₁ fun i => y (.inl i)) 0 0 (J₂ fun i => y (.inr i)) := fun _ => rfl
  clear_value J J₁ J₂ f g
  obtain ⟨st0, hi⟩ : ∃ st0, (gnSolver 0 (1/10) maxNorm maxNorm ls J ((), ())).init (together f g) (both (fun _ => 7) (fun _ => 0)) = .ok st0 := ⟨_, rfl⟩
  obtain ⟨st₁, hi₁⟩ : ∃ st₁, (gnSolver 0 (1/10) maxNorm maxNorm ls₁ J₁ ()).init f (fun _ => 7) = .ok st₁ := ⟨_, rfl⟩
  obtain ⟨st₂, hi₂⟩ : ∃ st₂, (gnSolver 0 (1/10) maxNorm maxNorm ls₂ J₂ ()).init g (fun _ => 0) = .ok st₂ := ⟨_, rfl⟩
  exact ⟨st0, st₁, st₂, C125_gauss_newton 0 (1/10) f g () () _ _ h h₁ h₂ hJ hi hi₁ hi₂ (fun k => hJ₁ _) (fun k => hJ₂ _)⟩

end Verif.Props
