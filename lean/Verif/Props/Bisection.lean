import Verif.Props.Driver
import Verif.Model.Bisection
import Mathlib.Topology.Order.IntermediateValue
import Mathlib.Topology.UniformSpace.HeineCantor
import Mathlib.Topology.MetricSpace.Pseudo.Defs
import Mathlib.Topology.Instances.Real.Lemmas
import Mathlib.Topology.Order.Compact
import Mathlib.Analysis.SpecificLimits.Basic
import Mathlib.Tactic.NormNum
import Mathlib.Tactic.Linarith

/-!
Properties C13-C17: bisection.
-/

namespace Verif.Props
open Verif.Driver Verif.Spec

/-- Specification: `f` changes sign between `l` and `u`, in the orientation `flip` (`false`: from `≤ 0` to `≥ 0`). -/
def Brackets {K : Type} [Zero K] [LE K] (f : K → K) (flip : Bool) (l u : K) : Prop :=
  match flip with
  | false => f l ≤ 0 ∧ 0 ≤ f u
  | true => 0 ≤ f l ∧ f u ≤ 0

section generic
variable {K A : Type} [LinearOrder K] [Zero K] [Add K] [Sub K] [Mul K] [OfScientific K] [HasAbs K]

omit [HasAbs K] in
/-- The expansion loop, when it stops, stops at a bracket (any linearly ordered `K`, any arithmetic). -/
theorem expand_sound (lower upper : K) (fn : K → K × A) (l u : K)
    (h : Bisection.expandRepeatedly lower upper (fn upper).1 (fn lower).1 (decide ((fn lower).1 < 0)) fn =
      some (l, u)) :
    Brackets (fun x => (fn x).1) (decide ((fn lower).1 > (fn upper).1)) l u := by
  unfold Bisection.expandRepeatedly at h
  obtain ⟨k, hd, hlt, hk⟩ := (whileForever_spec _ _ _ _).1 h
  cases k with
  | zero =>
    simp only [Function.iterate_zero, id_eq, Prod.mk.injEq] at hd hk
    obtain ⟨rfl, rfl⟩ := hd
    unfold Bisection.keepExpanding at hk
    by_cases h1 : (fn l).1 < 0 <;> by_cases h2 : (fn u).1 < (fn l).1 <;>
      simp_all [Brackets] <;> grind
  | succ k =>
    have hprev := hlt k (Nat.lt_succ_self k)
    rw [Function.iterate_succ_apply'] at hd hk
    generalize (Bisection.expandInterval (K := K) (decide ((fn lower).1 < 0) ^^ decide ((fn upper).1 < (fn lower).1)))^[k]
      (lower, upper) = c at hd hk hprev
    obtain ⟨cl, cu⟩ := c
    unfold Bisection.keepExpanding at hk hprev
    unfold Bisection.expandInterval at hd hk
    by_cases h1 : (fn lower).1 < 0 <;> by_cases h2 : (fn upper).1 < (fn lower).1 <;>
      simp_all [Brackets] <;> grind

omit [HasAbs K] in
theorem init_brackets (cfg : Bisection.Cfg K) (fn : K → K × A) (y0 : K) (st0 : Bisection.State K)
    (hi : Bisection.init cfg fn y0 = .ok st0)
    (hflip : ∀ b, cfg.flip = .fixed b → Brackets (fun x => (fn x).1) b cfg.lower cfg.upper) :
    Brackets (fun x => (fn x).1) st0.flip st0.lower st0.upper := by
  unfold Bisection.init at hi
  split at hi
  · cases hi
  split at hi
  · split at hi
    · rename_i b hb
      cases hi
      exact hflip b hb
    · dsimp only at hi
      split at hi
      · split at hi
        · cases hi
        · rename_i lu hlu
          cases hi
          exact expand_sound _ _ _ _ _ hlu
      · split at hi
        · cases hi
        · rename_i hne
          cases hi
          by_cases h1 : (fn cfg.lower).1 < 0 <;> by_cases h2 : (fn cfg.upper).1 < 0 <;>
            simp_all [Brackets] <;> grind
    · cases hi
  · cases hi

omit [HasAbs K] in
theorem step_brackets (fn : K → K × A) (y : K) (st : Bisection.State K)
    (h : Brackets (fun x => (fn x).1) st.flip st.lower st.upper) :
    Brackets (fun x => (fn x).1) (Bisection.step fn y st).2.1.flip (Bisection.step fn y st).2.1.lower
      (Bisection.step fn y st).2.1.upper := by
  unfold Bisection.step
  cases hf : st.flip <;> by_cases h1 : (fn y).1 < 0 <;> simp_all [Brackets] <;> grind

/-- **C13.** Whenever `init` accepts (with `flip="detect"`, with or without expansion; or with `flip` fixed as the
documentation demands), then after any number of steps the function changes sign between `lower` and `upper`, in the
orientation fixed at the beginning, and each step moves one end of the bracket to the current iterate.
For every linearly ordered scalar type and whatever its `+`, `-`, `*` do (so for every rounding). -/
theorem C13_bracket_invariant (cfg : Bisection.Cfg K) (fn : K → K × A) (aux0 : A) (y0 : K) (st0 : Bisection.State K)
    (hi : (Bisection.solver cfg).init fn y0 = .ok st0)
    (hflip : ∀ b, cfg.flip = .fixed b → Brackets (fun x => (fn x).1) b cfg.lower cfg.upper) (k : Nat) :
    Brackets (fun x => (fn x).1) st0.flip (stateAt (Bisection.solver cfg) fn aux0 y0 st0 k).lower
      (stateAt (Bisection.solver cfg) fn aux0 y0 st0 k).upper ∧
    (let st := stateAt (Bisection.solver cfg) fn aux0 y0 st0 k
     let st' := stateAt (Bisection.solver cfg) fn aux0 y0 st0 (k + 1)
     let y := iterateAt (Bisection.solver cfg) fn aux0 y0 st0 k
     st'.error = some (fn y).1 ∧
     ((st'.lower = y ∧ st'.upper = st.upper) ∨ (st'.lower = st.lower ∧ st'.upper = y))) := by
  have key : ∀ k, Brackets (fun x => (fn x).1) (stateAt (Bisection.solver cfg) fn aux0 y0 st0 k).flip
      (stateAt (Bisection.solver cfg) fn aux0 y0 st0 k).lower
      (stateAt (Bisection.solver cfg) fn aux0 y0 st0 k).upper ∧
      (stateAt (Bisection.solver cfg) fn aux0 y0 st0 k).flip = st0.flip := by
    intro k
    induction k with
    | zero => exact ⟨init_brackets cfg fn y0 st0 hi hflip, rfl⟩
    | succ k ih => exact ⟨step_brackets fn _ _ ih.1, ih.2⟩
  refine ⟨(key k).2 ▸ (key k).1, rfl, ?_⟩
  have hst : stateAt (Bisection.solver cfg) fn aux0 y0 st0 (k + 1) =
    (Bisection.step fn (iterateAt (Bisection.solver cfg) fn aux0 y0 st0 k)
      (stateAt (Bisection.solver cfg) fn aux0 y0 st0 k)).2.1 := rfl
  rw [hst]
  unfold Bisection.step
  dsimp only
  split
  · exact Or.inl ⟨rfl, rfl⟩
  · exact Or.inr ⟨rfl, rfl⟩

/-- **C17** (soundness).  With `flip="detect"` and `expand_if_necessary=True`: whatever the function, whenever the
expansion loop stops, the interval handed to the bisection brackets a sign change. -/
theorem C17_expansion_sound (cfg : Bisection.Cfg K) (hd : cfg.flip = .detect) (fn : K → K × A)
    (y0 : K) (st0 : Bisection.State K) (hi : (Bisection.solver cfg).init fn y0 = .ok st0) :
    Brackets (fun x => (fn x).1) st0.flip st0.lower st0.upper :=
  init_brackets cfg fn y0 st0 hi (by rw [hd]; intro b hb; cases hb)

end generic

/-! ### C16 -/

section real
variable {A : Type}

/-- **C16 is false of the code.**  An interval whose lower end is exactly the root, and whose other end is positive, is
rejected. -/
theorem C16_root_at_bound_rejected :
    ∃ (cfg : Bisection.Cfg ℝ) (fn : ℝ → ℝ × Unit), cfg.flip = .detect ∧ cfg.expand = false ∧
      cfg.scalarArgs = true ∧ cfg.fStruct = .leaf [] true ∧ (fn cfg.lower).1 = 0 ∧ 0 < (fn cfg.upper).1 ∧
      ∀ y0, ∃ m, (Bisection.solver cfg).init fn y0 = .error (.valueError m) := by
  refine ⟨⟨0.1, 0.1, .detect, false, 0, 1, true, .leaf [] true⟩, fun x => (x, ()), rfl, rfl, rfl, rfl, rfl, ?_, ?_⟩
  · norm_num
  · intro y0
    refine ⟨"The root is not contained in [lower, upper]", ?_⟩
    simp [Bisection.solver, Bisection.init]

/-- **C16_partial.** What the code does decide: without expansion, with well-shaped inputs, an interval is accepted
exactly when one end value is negative and the other one is not.  So strictly opposite signs are always accepted and a
rejected interval never has strictly opposite signs.  (Missing: intervals with end values `0` and `> 0`, see
`C16_root_at_bound_rejected`.) -/
theorem C16_accepts_iff_partial (cfg : Bisection.Cfg ℝ) (hd : cfg.flip = .detect) (he : cfg.expand = false)
    (hs : cfg.scalarArgs = true) (hf : ∃ b, cfg.fStruct = .leaf [] b) (fn : ℝ → ℝ × A) (y0 : ℝ) :
    ((∃ st0, (Bisection.solver cfg).init fn y0 = .ok st0) ↔
      ((fn cfg.lower).1 < 0 ∧ 0 ≤ (fn cfg.upper).1) ∨ (0 ≤ (fn cfg.lower).1 ∧ (fn cfg.upper).1 < 0)) ∧
    ((∃ m, (Bisection.solver cfg).init fn y0 = .error (.valueError m)) ↔
      ((fn cfg.lower).1 < 0 ∧ (fn cfg.upper).1 < 0) ∨ (0 ≤ (fn cfg.lower).1 ∧ 0 ≤ (fn cfg.upper).1)) := by
  obtain ⟨b, hf⟩ := hf
  show ((∃ st0, Bisection.init cfg fn y0 = .ok st0) ↔ _) ∧ ((∃ m, Bisection.init cfg fn y0 = .error (.valueError m)) ↔ _)
  unfold Bisection.init
  rw [hs, hf, hd, he]
  by_cases h1 : (fn cfg.lower).1 < 0 <;> by_cases h2 : (fn cfg.upper).1 < 0 <;> simp [h1, h2] <;> grind

/-- **C16** (shapes and flags).  Non-scalar arguments, non-scalar outputs and invalid `flip` values are always
rejected, before anything is evaluated. -/
theorem C16_bad_input_rejected (cfg : Bisection.Cfg ℝ) (fn : ℝ → ℝ × A) (y0 : ℝ)
    (h : cfg.scalarArgs = false ∨ (∀ b, cfg.fStruct ≠ .leaf [] b) ∨ cfg.flip = .other) :
    ∃ m, (Bisection.solver cfg).init fn y0 = .error (.valueError m) := by
  show ∃ m, Bisection.init cfg fn y0 = .error (.valueError m)
  unfold Bisection.init
  by_cases hs : cfg.scalarArgs = false
  · exact ⟨_, if_pos hs⟩
  · rw [if_neg hs]
    split
    · rename_i b hb
      rcases h with h | h | h
      · exact absurd h hs
      · exact absurd hb (h b)
      · rw [h]; exact ⟨_, rfl⟩
    · exact ⟨_, rfl⟩

/-! ### C13 (containment), C14, C15 over the reals -/

/-- The state and the iterate after `k+1` steps: the iterate is the midpoint of the bracket. -/
theorem bisection_midpoint (cfg : Bisection.Cfg ℝ) (fn : ℝ → ℝ × A) (aux0 : A) (y0 : ℝ) (st0 : Bisection.State ℝ)
    (k : Nat) :
    iterateAt (Bisection.solver cfg) fn aux0 y0 st0 (k + 1) =
      ((stateAt (Bisection.solver cfg) fn aux0 y0 st0 (k + 1)).lower +
        (stateAt (Bisection.solver cfg) fn aux0 y0 st0 (k + 1)).upper) / 2 := by
  show (Bisection.step fn _ _).1 = ((Bisection.step fn _ _).2.1.lower + (Bisection.step fn _ _).2.1.upper) / 2
  unfold Bisection.step
  dsimp only
  norm_num
  ring

/-- All brackets and iterates stay in any interval-like set containing the starting data. -/
theorem bisection_stays (cfg : Bisection.Cfg ℝ) (fn : ℝ → ℝ × A) (aux0 : A) (y0 : ℝ) (st0 : Bisection.State ℝ)
    (H : Set ℝ) (hH : H.OrdConnected) (hl : st0.lower ∈ H) (hu : st0.upper ∈ H) (hy : y0 ∈ H) (k : Nat) :
    (stateAt (Bisection.solver cfg) fn aux0 y0 st0 k).lower ∈ H ∧
    (stateAt (Bisection.solver cfg) fn aux0 y0 st0 k).upper ∈ H ∧
    iterateAt (Bisection.solver cfg) fn aux0 y0 st0 k ∈ H := by
  induction k with
  | zero => exact ⟨hl, hu, hy⟩
  | succ k ih =>
    obtain ⟨h1, h2, h3⟩ := ih
    have hmid : ∀ a b : ℝ, a ∈ H → b ∈ H → (a + b) / 2 ∈ H := by
      intro a b ha hb
      rcases le_total a b with h | h
      · exact hH.out ha hb ⟨by linarith, by linarith⟩
      · exact hH.out hb ha ⟨by linarith, by linarith⟩
    have hends : (stateAt (Bisection.solver cfg) fn aux0 y0 st0 (k + 1)).lower ∈ H ∧
        (stateAt (Bisection.solver cfg) fn aux0 y0 st0 (k + 1)).upper ∈ H := by
      show (Bisection.step fn _ _).2.1.lower ∈ H ∧ (Bisection.step fn _ _).2.1.upper ∈ H
      unfold Bisection.step
      dsimp only
      split
      · exact ⟨h3, h2⟩
      · exact ⟨h1, h3⟩
    refine ⟨hends.1, hends.2, ?_⟩
    rw [bisection_midpoint]
    exact hmid _ _ hends.1 hends.2

/-- **C13** (containment).  If `lower ≤ y0 ≤ upper` then every iterate, and both ends of every bracket, stay within
`[lower, upper]`: the user's function is never evaluated outside. -/
theorem C13_stays_in_interval (cfg : Bisection.Cfg ℝ) (he : cfg.expand = false) (fn : ℝ → ℝ × A) (aux0 : A)
    (y0 : ℝ) (st0 : Bisection.State ℝ) (hi : (Bisection.solver cfg).init fn y0 = .ok st0)
    (h1 : cfg.lower ≤ y0) (h2 : y0 ≤ cfg.upper) (k : Nat) :
    (stateAt (Bisection.solver cfg) fn aux0 y0 st0 k).lower ∈ Set.Icc cfg.lower cfg.upper ∧
    (stateAt (Bisection.solver cfg) fn aux0 y0 st0 k).upper ∈ Set.Icc cfg.lower cfg.upper ∧
    iterateAt (Bisection.solver cfg) fn aux0 y0 st0 k ∈ Set.Icc cfg.lower cfg.upper := by
  have hlu : st0.lower = cfg.lower ∧ st0.upper = cfg.upper := by
    replace hi : Bisection.init cfg fn y0 = .ok st0 := hi
    unfold Bisection.init at hi
    rw [he] at hi
    split at hi
    · cases hi
    split at hi
    · split at hi
      · cases hi; exact ⟨rfl, rfl⟩
      · dsimp only at hi
        rw [if_neg (by decide)] at hi
        split at hi
        · cases hi
        · cases hi; exact ⟨rfl, rfl⟩
      · cases hi
    · cases hi
  exact bisection_stays cfg fn aux0 y0 st0 _ Set.ordConnected_Icc
    (by rw [hlu.1]; exact ⟨le_rfl, h1.trans h2⟩) (by rw [hlu.2]; exact ⟨h1.trans h2, le_rfl⟩) ⟨h1, h2⟩ k

/-- Intermediate value theorem in the form needed: a bracket of a continuous function contains a root. -/
theorem root_of_brackets (f : ℝ → ℝ) (flip : Bool) (l u : ℝ) (H : Set ℝ) (hH : H.OrdConnected)
    (hc : ContinuousOn f H) (hl : l ∈ H) (hu : u ∈ H) (hb : Brackets f flip l u) :
    ∃ x, x ∈ Set.uIcc l u ∧ f x = 0 := by
  have hsub : Set.uIcc l u ⊆ H := hH.uIcc_subset hl hu
  have hiv := intermediate_value_uIcc (hc.mono hsub)
  have h0 : (0 : ℝ) ∈ Set.uIcc (f l) (f u) := by
    cases flip with
    | false => exact Set.Icc_subset_uIcc ⟨hb.1, hb.2⟩
    | true => exact Set.Icc_subset_uIcc' ⟨hb.2, hb.1⟩
  obtain ⟨x, hx, hx0⟩ := hiv h0
  exact ⟨x, hx, hx0⟩

/-- **C14.** If a bisection solve of a function that is continuous on an interval `H` (e.g. `[lower, upper]` or the
whole line) containing the bracket and `y0` succeeds, then there is an exact root whose distance to the returned value is
less than half of `atol + rtol*|y|`, where `y` is the last point at which `fn` was evaluated, and `|fn(y)| < atol`; and
`y` itself is that close, too, up to a factor 2. -/
theorem C14_answer_near_root (cfg : Bisection.Cfg ℝ) (fn : ℝ → ℝ × A) (aux0 : A) (y0 : ℝ) (af : ℝ → Bool)
    (ms : Option Nat) (throw : Bool) (sol : Solution ℝ A (Bisection.State ℝ) Unit)
    (hflip : ∀ b, cfg.flip = .fixed b → Brackets (fun x => (fn x).1) b cfg.lower cfg.upper)
    (H : Set ℝ) (hH : H.OrdConnected) (hc : ContinuousOn (fun x => (fn x).1) H) (hy : y0 ∈ H)
    (hini : ∀ st0, (Bisection.solver cfg).init fn y0 = .ok st0 → st0.lower ∈ H ∧ st0.upper ∈ H)
    (h : rootFind (Bisection.solver cfg) af fn aux0 y0 ms throw = some (.ok sol)) (hs : sol.result = .successful) :
    ∃ st0 n, (Bisection.solver cfg).init fn y0 = .ok st0 ∧ sol.numSteps = n + 1 ∧
      let y := iterateAt (Bisection.solver cfg) fn aux0 y0 st0 n
      |(fn y).1| < cfg.atol ∧
      ∃ root, (fn root).1 = 0 ∧ |root - sol.value| < (cfg.atol + cfg.rtol * |y|) / 2 ∧
        |root - y| < cfg.atol + cfg.rtol * |y| := by
  obtain ⟨st0, hi, ht, _, _, _⟩ := C02_success_is_certificate _ _ _ _ _ _ _ _ h hs
  obtain ⟨_, _, st0', hi', hstate, hp⟩ := C01_step_budget _ _ _ _ _ _ _ _ h
  rw [hi] at hi'; cases hi'
  replace ht : Bisection.terminate cfg _ _ = _ := ht
  unfold Bisection.terminate at ht
  simp only [Prod.mk.injEq, and_true, Bool.and_eq_true, decide_eq_true_eq, HasAbs.abs_real] at ht
  obtain ⟨ht1, ht2⟩ := ht
  have hval : sol.value = iterateAt (Bisection.solver cfg) fn aux0 y0 st0 sol.numSteps := congrArg Prod.fst hp
  cases hn : sol.numSteps with
  | zero =>
    exfalso
    rw [hn] at hstate
    have hnone : st0.error = none := by
      replace hi : Bisection.init cfg fn y0 = .ok st0 := hi
      unfold Bisection.init at hi
      split at hi
      · cases hi
      split at hi
      · split at hi
        · cases hi; rfl
        · dsimp only at hi
          split at hi
          · split at hi
            · cases hi
            · cases hi; rfl
          · split at hi
            · cases hi
            · cases hi; rfl
        · cases hi
      · cases hi
    rw [hstate] at ht2
    have : (stateAt (Bisection.solver cfg) fn aux0 y0 st0 0).error = none := hnone
    rw [this] at ht2
    cases ht2
  | succ n =>
    refine ⟨st0, n, hi, rfl, ?_⟩
    rw [hn] at hstate hval ht1
    simp only [Nat.add_sub_cancel] at ht1
    obtain ⟨hHl, hHu⟩ := hini st0 hi
    obtain ⟨hb, _⟩ := C13_bracket_invariant cfg fn aux0 y0 st0 hi hflip (n + 1)
    obtain ⟨_, herr, hends⟩ := C13_bracket_invariant cfg fn aux0 y0 st0 hi hflip n
    obtain ⟨hl, hu, _⟩ := bisection_stays cfg fn aux0 y0 st0 H hH hHl hHu hy (n + 1)
    obtain ⟨x, hx, hx0⟩ := root_of_brackets _ _ _ _ H hH hc hl hu hb
    rw [hstate] at ht1 ht2
    rw [herr] at ht2
    simp only [decide_eq_true_eq] at ht2
    refine ⟨ht2, x, hx0, ?_, ?_⟩
    · rw [hval, bisection_midpoint]
      rw [Set.mem_uIcc] at hx
      rw [abs_lt] at ht1 ⊢
      rcases hx with hx | hx <;> constructor <;> linarith [hx.1, hx.2, ht1.1, ht1.2]
    · rw [Set.mem_uIcc] at hx
      rw [abs_lt] at ht1 ⊢
      rcases hends with ⟨e1, _⟩ | ⟨_, e1⟩ <;> rw [e1] at hx ht1 <;>
        rcases hx with hx | hx <;> constructor <;> linarith [hx.1, hx.2, ht1.1, ht1.2]

/-- **C15** (halving).  From the second step on every step halves the width of the bracket exactly. -/
theorem C15_halves (cfg : Bisection.Cfg ℝ) (fn : ℝ → ℝ × A) (aux0 : A) (y0 : ℝ) (st0 : Bisection.State ℝ) (k : Nat) :
    |(stateAt (Bisection.solver cfg) fn aux0 y0 st0 (k + 2)).upper -
      (stateAt (Bisection.solver cfg) fn aux0 y0 st0 (k + 2)).lower| =
    |(stateAt (Bisection.solver cfg) fn aux0 y0 st0 (k + 1)).upper -
      (stateAt (Bisection.solver cfg) fn aux0 y0 st0 (k + 1)).lower| / 2 := by
  have hm := bisection_midpoint cfg fn aux0 y0 st0 k
  have hst : stateAt (Bisection.solver cfg) fn aux0 y0 st0 (k + 2) =
    (Bisection.step fn (iterateAt (Bisection.solver cfg) fn aux0 y0 st0 (k + 1))
      (stateAt (Bisection.solver cfg) fn aux0 y0 st0 (k + 1))).2.1 := rfl
  rw [hst]
  unfold Bisection.step
  dsimp only
  rw [hm]
  generalize (stateAt (Bisection.solver cfg) fn aux0 y0 st0 (k + 1)).lower = a
  generalize (stateAt (Bisection.solver cfg) fn aux0 y0 st0 (k + 1)).upper = b
  have h2 : |b - a| / 2 = |(b - a) / 2| := by rw [abs_div]; norm_num
  rw [h2]
  split
  · congr 1; ring
  · congr 1; ring

theorem bisection_width (cfg : Bisection.Cfg ℝ) (fn : ℝ → ℝ × A) (aux0 : A) (y0 : ℝ) (st0 : Bisection.State ℝ)
    (k : Nat) :
    |(stateAt (Bisection.solver cfg) fn aux0 y0 st0 (k + 1)).upper -
      (stateAt (Bisection.solver cfg) fn aux0 y0 st0 (k + 1)).lower| =
    |(stateAt (Bisection.solver cfg) fn aux0 y0 st0 1).upper -
      (stateAt (Bisection.solver cfg) fn aux0 y0 st0 1).lower| / 2 ^ k := by
  induction k with
  | zero => simp
  | succ k ih => rw [C15_halves, ih, pow_succ]; field_simp

/-- The test after step `k+1` succeeds as soon as the bracket is narrow compared to the tolerance and the modulus of
continuity. -/
theorem bisection_test_true (cfg : Bisection.Cfg ℝ) (hr : 0 ≤ cfg.rtol) (fn : ℝ → ℝ × A) (aux0 : A) (y0 : ℝ)
    (st0 : Bisection.State ℝ) (hi : (Bisection.solver cfg).init fn y0 = .ok st0)
    (hflip : ∀ b, cfg.flip = .fixed b → Brackets (fun x => (fn x).1) b cfg.lower cfg.upper)
    (H : Set ℝ) (hH : H.OrdConnected) (hc : ContinuousOn (fun x => (fn x).1) H) (hy : y0 ∈ H)
    (hl : st0.lower ∈ H) (hu : st0.upper ∈ H) (k : Nat) (δ : ℝ)
    (hδ : ∀ a ∈ H, ∀ b ∈ H, |a - b| ≤ δ → |(fn a).1 - (fn b).1| < cfg.atol)
    (hw1 : |(stateAt (Bisection.solver cfg) fn aux0 y0 st0 (k + 1)).upper -
      (stateAt (Bisection.solver cfg) fn aux0 y0 st0 (k + 1)).lower| ≤ δ)
    (hw2 : |(stateAt (Bisection.solver cfg) fn aux0 y0 st0 (k + 1)).upper -
      (stateAt (Bisection.solver cfg) fn aux0 y0 st0 (k + 1)).lower| < cfg.atol) :
    (Bisection.solver cfg).terminate fn (iterateAt (Bisection.solver cfg) fn aux0 y0 st0 k)
      (stateAt (Bisection.solver cfg) fn aux0 y0 st0 (k + 1)) = (true, .successful) := by
  obtain ⟨hb, _⟩ := C13_bracket_invariant cfg fn aux0 y0 st0 hi hflip (k + 1)
  obtain ⟨_, herr, hends⟩ := C13_bracket_invariant cfg fn aux0 y0 st0 hi hflip k
  obtain ⟨hl', hu', _⟩ := bisection_stays cfg fn aux0 y0 st0 H hH hl hu hy (k + 1)
  obtain ⟨_, _, hyk⟩ := bisection_stays cfg fn aux0 y0 st0 H hH hl hu hy k
  obtain ⟨x, hx, hx0⟩ := root_of_brackets _ _ _ _ H hH hc hl' hu' hb
  have hxH : x ∈ H := hH.uIcc_subset hl' hu' hx
  show Bisection.terminate _ _ _ = _
  unfold Bisection.terminate
  dsimp only
  rw [herr]
  simp only [Prod.mk.injEq, and_true, Bool.and_eq_true, decide_eq_true_eq, HasAbs.abs_real]
  constructor
  · rw [abs_sub_comm]
    have : 0 ≤ cfg.rtol * |iterateAt (Bisection.solver cfg) fn aux0 y0 st0 k| := mul_nonneg hr (abs_nonneg _)
    linarith
  · have hd : |iterateAt (Bisection.solver cfg) fn aux0 y0 st0 k - x| ≤ δ := by
      refine le_trans ?_ hw1
      rw [Set.mem_uIcc] at hx
      rcases hends with ⟨e1, _⟩ | ⟨_, e1⟩
      · rw [← e1]
        rcases hx with hx | hx
        · rw [abs_of_nonpos (by linarith [hx.1]), abs_of_nonneg (by linarith [hx.1, hx.2])]; linarith [hx.2]
        · rw [abs_of_nonneg (by linarith [hx.2]), abs_of_nonpos (by linarith [hx.1, hx.2])]; linarith [hx.1]
      · rw [← e1]
        rcases hx with hx | hx
        · rw [abs_of_nonneg (by linarith [hx.2]), abs_of_nonneg (by linarith [hx.1, hx.2])]; linarith [hx.1]
        · rw [abs_of_nonpos (by linarith [hx.1]), abs_of_nonpos (by linarith [hx.1, hx.2])]; linarith [hx.2]
    have := hδ _ hyk _ hxH hd
    have hx0' : (fn x).1 = 0 := hx0
    rw [hx0', sub_zero] at this
    exact this

/-- If some test says "done", the unbounded solve succeeds, and so does every solve with a large enough budget. -/
theorem bisection_succeeds (cfg : Bisection.Cfg ℝ) (fn : ℝ → ℝ × A) (aux0 : A) (y0 : ℝ)
    (st0 : Bisection.State ℝ) (hi : (Bisection.solver cfg).init fn y0 = .ok st0) (k : Nat)
    (hk : (Bisection.solver cfg).terminate fn (iterateAt (Bisection.solver cfg) fn aux0 y0 st0 (k - 1))
      (stateAt (Bisection.solver cfg) fn aux0 y0 st0 k) = (true, .successful))
    (ms : Option Nat) (hms : ∀ n, ms = some n → k ≤ n) (throw : Bool) :
    ∃ sol, rootFind (Bisection.solver cfg) (fun _ => true) fn aux0 y0 ms throw = some (.ok sol) ∧
      sol.result = .successful ∧ sol.numSteps ≤ k := by
  classical
  let P : Nat → Prop := fun k => (Bisection.solver cfg).terminate fn
    (iterateAt (Bisection.solver cfg) fn aux0 y0 st0 (k - 1))
      (stateAt (Bisection.solver cfg) fn aux0 y0 st0 k) = (true, .successful)
  have hex : ∃ k, P k := ⟨k, hk⟩
  have hle : Nat.find hex ≤ k := Nat.find_min' hex hk
  have hmin : ∀ j, j < Nat.find hex → (fun _ : ℝ => true)
      (iterateAt (Bisection.solver cfg) fn aux0 y0 st0 (j - 1)) = true ∧
      (Bisection.solver cfg).terminate fn (iterateAt (Bisection.solver cfg) fn aux0 y0 st0 (j - 1))
      (stateAt (Bisection.solver cfg) fn aux0 y0 st0 j) = (false, .successful) := by
    intro j hj
    refine ⟨rfl, ?_⟩
    have hnot := Nat.find_min hex hj
    refine Prod.ext ?_ rfl
    by_contra hne
    exact hnot (Prod.ext (by simpa using hne) rfl)
  obtain ⟨sol, h1, h2, h3⟩ := C02_success_complete (Bisection.solver cfg) (fun _ => true) fn aux0 y0 st0 hi ms throw
    (Nat.find hex) hmin rfl (Nat.find_spec hex) (fun n hn => hle.trans (hms n hn))
  exact ⟨sol, h1, h2, h3 ▸ hle⟩

/-- **C15** (liveness).  For every function continuous on an interval `H` containing the accepted bracket and `y0`, and
every `atol > 0`, `rtol ≥ 0`, there is a number `N` of steps such that the solve succeeds within `N` steps under every
budget of at least `N` (or none). -/
theorem C15_terminates (cfg : Bisection.Cfg ℝ) (ha : 0 < cfg.atol) (hr : 0 ≤ cfg.rtol) (fn : ℝ → ℝ × A)
    (aux0 : A) (y0 : ℝ) (st0 : Bisection.State ℝ) (hi : (Bisection.solver cfg).init fn y0 = .ok st0)
    (hflip : ∀ b, cfg.flip = .fixed b → Brackets (fun x => (fn x).1) b cfg.lower cfg.upper)
    (H : Set ℝ) (hH : H.OrdConnected) (hc : ContinuousOn (fun x => (fn x).1) H) (hy : y0 ∈ H)
    (hl : st0.lower ∈ H) (hu : st0.upper ∈ H) :
    ∃ N, ∀ (ms : Option Nat) (throw : Bool), (∀ n, ms = some n → N ≤ n) →
      ∃ sol, rootFind (Bisection.solver cfg) (fun _ => true) fn aux0 y0 ms throw = some (.ok sol) ∧
        sol.result = .successful ∧ sol.numSteps ≤ N := by
  -- a compact interval containing everything
  let lo := min (min st0.lower st0.upper) y0
  let hi' := max (max st0.lower st0.upper) y0
  have hloH : lo ∈ H := by
    simp only [lo]
    rcases min_choice (min st0.lower st0.upper) y0 with e | e <;> rw [e]
    · rcases min_choice st0.lower st0.upper with e | e <;> rw [e] <;> assumption
    · exact hy
  have hhiH : hi' ∈ H := by
    simp only [hi']
    rcases max_choice (max st0.lower st0.upper) y0 with e | e <;> rw [e]
    · rcases max_choice st0.lower st0.upper with e | e <;> rw [e] <;> assumption
    · exact hy
  have hcK : ContinuousOn (fun x => (fn x).1) (Set.Icc lo hi') := hc.mono (hH.out hloH hhiH)
  have huc := isCompact_Icc.uniformContinuousOn_of_continuous hcK
  rw [Metric.uniformContinuousOn_iff] at huc
  obtain ⟨δ, hδ0, hδ⟩ := huc cfg.atol ha
  have hlK : st0.lower ∈ Set.Icc lo hi' :=
    ⟨(min_le_left _ _).trans (min_le_left _ _), (le_max_left _ _).trans (le_max_left _ _)⟩
  have huK : st0.upper ∈ Set.Icc lo hi' :=
    ⟨(min_le_left _ _).trans (min_le_right _ _), (le_max_right _ _).trans (le_max_left _ _)⟩
  have hyK : y0 ∈ Set.Icc lo hi' := ⟨min_le_right _ _, le_max_right _ _⟩
  obtain ⟨k, hk⟩ : ∃ k : Nat, |(stateAt (Bisection.solver cfg) fn aux0 y0 st0 1).upper -
      (stateAt (Bisection.solver cfg) fn aux0 y0 st0 1).lower| / 2 ^ k < min (δ / 2) cfg.atol := by
    have hpos : 0 < min (δ / 2) cfg.atol := lt_min (by linarith) ha
    obtain ⟨k, hk⟩ := pow_unbounded_of_one_lt (|(stateAt (Bisection.solver cfg) fn aux0 y0 st0 1).upper -
      (stateAt (Bisection.solver cfg) fn aux0 y0 st0 1).lower| / min (δ / 2) cfg.atol) (one_lt_two (α := ℝ))
    refine ⟨k, ?_⟩
    rw [div_lt_iff₀ (by positivity)]
    rw [div_lt_iff₀ hpos] at hk
    linarith
  rw [← bisection_width] at hk
  refine ⟨k + 1, fun ms throw hms => ?_⟩
  refine bisection_succeeds cfg fn aux0 y0 st0 hi (k + 1) ?_ ms hms throw
  refine bisection_test_true cfg hr fn aux0 y0 st0 hi hflip (Set.Icc lo hi') Set.ordConnected_Icc hcK hyK hlK huK k
    (δ / 2) ?_ (hk.le.trans (min_le_left _ _)) (hk.trans_le (min_le_right _ _))
  intro a ha' b hb' hab
  exact hδ a ha' b hb' (by rw [Real.dist_eq]; linarith)

/-- **C15** (rate).  If `fn` is Lipschitz with constant `L` on `H`, the solve succeeds as soon as
`width / 2^k < min(atol, atol/L)`-ish: at most `k+1` steps, where `width` is the width of the bracket after one step. -/
theorem C15_rate (cfg : Bisection.Cfg ℝ) (hr : 0 ≤ cfg.rtol) (fn : ℝ → ℝ × A)
    (aux0 : A) (y0 : ℝ) (st0 : Bisection.State ℝ) (hi : (Bisection.solver cfg).init fn y0 = .ok st0)
    (hflip : ∀ b, cfg.flip = .fixed b → Brackets (fun x => (fn x).1) b cfg.lower cfg.upper)
    (H : Set ℝ) (hH : H.OrdConnected) (hc : ContinuousOn (fun x => (fn x).1) H) (hy : y0 ∈ H)
    (hl : st0.lower ∈ H) (hu : st0.upper ∈ H) (L : ℝ) (hL : 0 ≤ L)
    (hlip : ∀ a ∈ H, ∀ b ∈ H, |(fn a).1 - (fn b).1| ≤ L * |a - b|) (k : Nat)
    (hk1 : |(stateAt (Bisection.solver cfg) fn aux0 y0 st0 1).upper -
      (stateAt (Bisection.solver cfg) fn aux0 y0 st0 1).lower| < 2 ^ k * cfg.atol)
    (hk2 : L * |(stateAt (Bisection.solver cfg) fn aux0 y0 st0 1).upper -
      (stateAt (Bisection.solver cfg) fn aux0 y0 st0 1).lower| < 2 ^ k * cfg.atol)
    (ms : Option Nat) (hms : ∀ n, ms = some n → k + 1 ≤ n) (throw : Bool) :
    ∃ sol, rootFind (Bisection.solver cfg) (fun _ => true) fn aux0 y0 ms throw = some (.ok sol) ∧
        sol.result = .successful ∧ sol.numSteps ≤ k + 1 := by
  have hpow : (0:ℝ) < 2 ^ k := by positivity
  refine bisection_succeeds cfg fn aux0 y0 st0 hi (k + 1) ?_ ms hms throw
  refine bisection_test_true cfg hr fn aux0 y0 st0 hi hflip H hH hc hy hl hu k _ ?_ le_rfl ?_
  · intro a ha b hb hab
    rw [bisection_width] at hab
    refine (hlip a ha b hb).trans_lt ?_
    refine (mul_le_mul_of_nonneg_left hab hL).trans_lt ?_
    rw [← mul_div_assoc, div_lt_iff₀ hpow]; linarith
  · rw [bisection_width, div_lt_iff₀ hpow]; linarith

/-! ### C17 (termination of the expansion) -/

/-- The interval after `k` expansions upwards / downwards. -/
theorem expand_up_iter (l u : ℝ) (k : Nat) :
    ((Bisection.expandInterval (K := ℝ) true)^[k] (l, u)).2 = u + 2 * (2 ^ k - 1) * (u - l) ∧
    ((Bisection.expandInterval (K := ℝ) true)^[k] (l, u)).2 - ((Bisection.expandInterval (K := ℝ) true)^[k] (l, u)).1 =
      2 ^ k * (u - l) := by
  induction k with
  | zero => simp
  | succ k ih =>
    rw [Function.iterate_succ_apply']
    generalize (Bisection.expandInterval (K := ℝ) true)^[k] (l, u) = c at ih
    obtain ⟨h1, h2⟩ := ih
    unfold Bisection.expandInterval
    simp only [if_true]
    rw [h2, h1]
    constructor
    · norm_num; ring
    · norm_num; ring

theorem expand_down_iter (l u : ℝ) (k : Nat) :
    ((Bisection.expandInterval (K := ℝ) false)^[k] (l, u)).1 = l - 2 * (2 ^ k - 1) * (u - l) ∧
    ((Bisection.expandInterval (K := ℝ) false)^[k] (l, u)).2 - ((Bisection.expandInterval (K := ℝ) false)^[k] (l, u)).1 =
      2 ^ k * (u - l) := by
  induction k with
  | zero => simp
  | succ k ih =>
    rw [Function.iterate_succ_apply']
    generalize (Bisection.expandInterval (K := ℝ) false)^[k] (l, u) = c at ih
    obtain ⟨h1, h2⟩ := ih
    unfold Bisection.expandInterval
    simp only [Bool.false_eq_true, if_false]
    rw [h2, h1]
    constructor
    · norm_num; ring
    · norm_num; ring

/-- **C17** (termination).  For a strictly monotone function (increasing or decreasing) which has a root, and
`lower < upper`, the expansion loop always stops, so `init` accepts. -/
theorem C17_expansion_terminates (cfg : Bisection.Cfg ℝ) (hd : cfg.flip = .detect) (he : cfg.expand = true)
    (hs : cfg.scalarArgs = true) (hf : ∃ b, cfg.fStruct = .leaf [] b) (hlu : cfg.lower < cfg.upper)
    (fn : ℝ → ℝ × A) (hmono : StrictMono (fun x => (fn x).1) ∨ StrictAnti (fun x => (fn x).1))
    (root : ℝ) (hroot : (fn root).1 = 0) (y0 : ℝ) :
    ∃ st0, (Bisection.solver cfg).init fn y0 = .ok st0 := by
  obtain ⟨b, hf⟩ := hf
  show ∃ st0, Bisection.init cfg fn y0 = .ok st0
  unfold Bisection.init
  rw [hs, hf, hd, he]
  simp only [Bool.true_eq_false, if_false, if_true]
  cases hx : Bisection.expandRepeatedly cfg.lower cfg.upper (fn cfg.upper).1 (fn cfg.lower).1
      (decide ((fn cfg.lower).1 < 0)) fn with
  | some lu => exact ⟨_, rfl⟩
  | none =>
    exfalso
    unfold Bisection.expandRepeatedly at hx
    have hinf := (whileForever_none _ _ _).1 hx
    have hw : 0 < cfg.upper - cfg.lower := by linarith
    have hunb : ∀ x : ℝ, ∃ k : Nat, x < 2 * (2 ^ k - 1) * (cfg.upper - cfg.lower) := by
      intro x
      obtain ⟨k, hk⟩ := pow_unbounded_of_one_lt (x / (cfg.upper - cfg.lower) / 2 + 1) (one_lt_two (α := ℝ))
      refine ⟨k, ?_⟩
      have : x / (cfg.upper - cfg.lower) < 2 * (2 ^ k - 1) := by linarith
      rwa [div_lt_iff₀ hw] at this
    have hr0 : (fun x => (fn x).1) root = 0 := hroot
    obtain ⟨k1, hk1⟩ := hunb (root - cfg.upper)
    obtain ⟨k2, hk2⟩ := hunb (cfg.lower - root)
    have hup := (expand_up_iter cfg.lower cfg.upper k1).1
    have hdn := (expand_down_iter cfg.lower cfg.upper k2).1
    have c1 := hinf k1
    have c2 := hinf k2
    unfold Bisection.keepExpanding at c1 c2
    rcases hmono with hm | hm
    · have h1 : (fn cfg.lower).1 < (fn cfg.upper).1 := hm hlu
      have h2 : ¬ (fn cfg.upper).1 < (fn cfg.lower).1 := not_lt.2 h1.le
      by_cases hneg : (fn cfg.lower).1 < 0
      · have hb : root < ((Bisection.expandInterval (K := ℝ) true)^[k1] (cfg.lower, cfg.upper)).2 := by
          rw [hup]; linarith
        have hv := hm hb
        rw [hr0] at hv
        simp [hneg, h2] at c1
        exact absurd hv (not_lt.2 c1)
      · have hb : ((Bisection.expandInterval (K := ℝ) false)^[k2] (cfg.lower, cfg.upper)).1 < root := by
          rw [hdn]; linarith
        have hv := hm hb
        rw [hr0] at hv
        simp [hneg, h2] at c2
        exact absurd hv (not_lt.2 c2.le)
    · have h1 : (fn cfg.upper).1 < (fn cfg.lower).1 := hm hlu
      by_cases hneg : (fn cfg.lower).1 < 0
      · have hb : ((Bisection.expandInterval (K := ℝ) false)^[k2] (cfg.lower, cfg.upper)).1 < root := by
          rw [hdn]; linarith
        have hv := hm hb
        rw [hr0] at hv
        simp [hneg, h1] at c2
        exact absurd hv (not_lt.2 c2)
      · have hb : root < ((Bisection.expandInterval (K := ℝ) true)^[k1] (cfg.lower, cfg.upper)).2 := by
          rw [hup]; linarith
        have hv := hm hb
        rw [hr0] at hv
        simp [hneg, h1] at c1
        exact absurd hv (not_lt.2 c1.le)

/-- **C17** (what can go wrong).  For a function that is positive everywhere, expansion never returns: there is no
error, and no step budget applies to this loop. -/
theorem C17_expansion_can_hang (cfg : Bisection.Cfg ℝ) (hd : cfg.flip = .detect) (he : cfg.expand = true)
    (hs : cfg.scalarArgs = true) (hf : ∃ b, cfg.fStruct = .leaf [] b) (fn : ℝ → ℝ × A)
    (hpos : ∀ x, 0 < (fn x).1) (y0 : ℝ) : (Bisection.solver cfg).init fn y0 = .error .hangs := by
  obtain ⟨b, hf⟩ := hf
  show Bisection.init cfg fn y0 = _
  unfold Bisection.init
  rw [hs, hf, hd, he]
  simp only [Bool.true_eq_false, if_false, if_true]
  have hx : Bisection.expandRepeatedly cfg.lower cfg.upper (fn cfg.upper).1 (fn cfg.lower).1
      (decide ((fn cfg.lower).1 < 0)) fn = none := by
    unfold Bisection.expandRepeatedly
    rw [whileForever_none]
    intro k
    unfold Bisection.keepExpanding
    have : ¬ (fn cfg.lower).1 < 0 := not_lt.2 (hpos _).le
    simp [this, hpos]
  rw [hx]

/-! ### Non-vacuity -/

/-- `x ↦ x - 1` on `[-1, 2]` (and with expansion on `[5, 6]`). -/
noncomputable def exCfg (expand : Bool) (l u : ℝ) : Bisection.Cfg ℝ := ⟨0, 0.1, .detect, expand, l, u, true, .leaf [] true⟩

example : ∃ st0, (Bisection.solver (A := Unit) (exCfg false (-1) 2)).init (fun x => (x - 1, ())) 0 = .ok st0 :=
  ((C16_accepts_iff_partial (exCfg false (-1) 2) rfl rfl rfl ⟨true, rfl⟩ (fun x => (x - 1, ())) 0).1).2
    (Or.inl (by simp only [exCfg]; norm_num))

/-- The liveness theorem (and so C14, whose hypothesis is a successful solve) applies to it. -/
example : ∃ sol, rootFind (Bisection.solver (A := Unit) (exCfg false (-1) 2)) (fun _ => true) (fun x => (x - 1, ()))
    () 0 none true = some (.ok sol) ∧ sol.result = .successful := by
  obtain ⟨st0, h⟩ := ((C16_accepts_iff_partial (exCfg false (-1) 2) rfl rfl rfl ⟨true, rfl⟩ (fun x => (x - 1, ())) 0).1).2
    (Or.inl (by simp only [exCfg]; norm_num))
  obtain ⟨N, hN⟩ := C15_terminates (exCfg false (-1) 2) (by simp only [exCfg]; norm_num) (by simp [exCfg])
    (fun x => (x - 1, ())) () 0 st0 h (by intro b hb; cases hb) Set.univ Set.ordConnected_univ
    (by fun_prop) trivial trivial trivial
  obtain ⟨sol, h1, h2, _⟩ := hN none true (by simp)
  exact ⟨sol, h1, h2⟩

example : ∃ st0, (Bisection.solver (A := Unit) (exCfg true 5 6)).init (fun x => (x - 1, ())) 0 = .ok st0 :=
  C17_expansion_terminates (exCfg true 5 6) rfl rfl rfl ⟨true, rfl⟩ (by simp only [exCfg]; norm_num) _
    (Or.inl (fun a b h => by simpa using h)) 1 (by simp) 0

end real

end Verif.Props
