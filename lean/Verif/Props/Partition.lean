import Verif.Model.Partition
import Verif.Props.Driver

/-! Property C106: what a solver keeps in its state besides arrays, and its statistics, come through a solve unharmed. -/

namespace Verif.Props

open Verif Verif.Partition

variable {Arr Jpr Obj Y Out Aux Stats : Type}

/-! ### Specification -/

/-- What tracing guarantees of a step: the non-array part of the new state depends on the non-array part of the old one only
(arrays, including `y`, are abstract while tracing). -/
def Traced (S : Solver Y Out Aux (Tree Arr Jpr Obj) Stats) (fn : Y → Out × Aux) : Prop :=
  ∀ y y' st st', (partition st).2 = (partition st').2 →
    (partition (S.step fn y st).2.1).2 = (partition (S.step fn y' st').2.1).2

/-- No leaf is already wrapped (`_JaxprEqual` is private to the library). -/
def Unwrapped (t : Tree Arr Jpr Obj) : Prop := ∀ j, some (.wrapped j) ∉ t

/-! ### Taking trees apart -/

/-- **C106.** Putting the two parts together gives back the tree, in either order (238 and 354 of `_iterate.py` use different
orders). -/
theorem C106_partition_combine (t : Tree Arr Jpr Obj) :
    combine (partition t).1 (partition t).2 = t ∧ combine (partition t).2 (partition t).1 = t := by
  constructor <;>
  · induction t with
    | nil => rfl
    | cons l t ih =>
      refine List.cons_eq_cons.2 ⟨?_, ih⟩
      rcases l with _ | l
      · rfl
      · cases l <;> rfl

/-- **C106.** Unwrapping undoes wrapping. -/
theorem C106_unwrap_wrap (t : Tree Arr Jpr Obj) (ht : Unwrapped t) : unwrapJaxpr (wrapJaxpr t) = t := by
  unfold unwrapJaxpr wrapJaxpr
  rw [List.map_map]
  conv_rhs => rw [← List.map_id t]
  refine List.map_congr_left fun l hl => ?_
  rcases l with _ | l
  · rfl
  · cases l with
    | wrapped j => exact absurd hl (ht j)
    | _ => rfl

/-- **C106.** `filter_cond` returns what the selected branch returns on the operands - arrays and everything else - or, if the
branches do not agree on everything else, raises, whichever branch is selected. -/
theorem C106_filter_cond (pred : Bool) (f g : Tree Arr Jpr Obj → Tree Arr Jpr Obj) (x : Tree Arr Jpr Obj) :
    ((partition (f x)).2 = (partition (g x)).2 → filterCond pred f g x = .ok (if pred then f x else g x)) ∧
    ((partition (f x)).2 ≠ (partition (g x)).2 → ∃ msg, filterCond pred f g x = .error (.typeError msg)) := by
  constructor
  · intro h
    have h' : ¬(partition (f (combine (partition x).1 (partition x).2))).2 ≠
        (partition (g (combine (partition x).1 (partition x).2))).2 := by
      rw [(C106_partition_combine x).1]; exact not_not.2 h
    simp only [filterCond, if_neg h']
    rw [(C106_partition_combine x).1]
    cases pred
    · exact congrArg _ (C106_partition_combine (g x)).1
    · exact congrArg _ (C106_partition_combine (f x)).1
  · intro h
    refine ⟨_, if_pos ?_⟩
    show (partition (f (combine (partition x).1 (partition x).2))).2 ≠
        (partition (g (combine (partition x).1 (partition x).2))).2
    rw [(C106_partition_combine x).1]; exact h

/-! ### The loop -/

section
variable (S : Solver Y Out Aux (Tree Arr Jpr Obj) Stats) (af : Y → Bool) (fn : Y → Out × Aux) (aux0 : Aux) (y0 : Y)
  (ms : Option Nat)

/-- The carry of the plain loop as a carry of the partitioned one. -/
def stripped (c : Driver.Carry Y (Tree Arr Jpr Obj) Aux) : Partition.Carry Y Aux Arr Jpr Obj :=
  { y := c.y, numSteps := c.numSteps, dynamic := (partition c.state).1, aux := c.aux, terminate := c.terminate,
    result := c.result }

theorem while_simulates {C D : Type} (cond : C → Bool) (body : C → C) (cond' : D → Bool) (body' : D → D) (r : C → D)
    (Inv : C → Prop) (hI : ∀ c, Inv c → Inv (body c)) (hc : ∀ c, cond' (r c) = cond c)
    (hb : ∀ c, Inv c → body' (r c) = r (body c)) (c : C) (h0 : Inv c) :
    Driver.whileOpt cond' body' ms (r c) = (Driver.whileOpt cond body ms c).map r ∧
      ∀ d, Driver.whileOpt cond body ms c = some d → Inv d := by
  have hit : ∀ n, Inv (body^[n] c) ∧ body'^[n] (r c) = r (body^[n] c) := by
    intro n
    induction n with
    | zero => exact ⟨h0, rfl⟩
    | succ n ih =>
      rw [Function.iterate_succ_apply', Function.iterate_succ_apply', ih.2, hb _ ih.1]
      exact ⟨hI _ ih.1, rfl⟩
  cases ms with
  | some n =>
    simp only [Driver.whileOpt, Option.map_some, Option.some.injEq, forall_eq']
    clear hit
    induction n generalizing c with
    | zero => exact ⟨rfl, h0⟩
    | succ n ih =>
      simp only [Driver.whileLoop, hc]
      by_cases h : cond c = true
      · rw [if_pos h, if_pos h, hb c h0]
        exact ih (body c) (hI c h0)
      · rw [if_neg h, if_neg h]
        exact ⟨rfl, h0⟩
  | none =>
    have e : (fun n => cond' (body'^[n] (r c)) = false) = fun n => cond (body^[n] c) = false := by
      funext n
      rw [(hit n).2, hc]
    by_cases hex : ∃ n, cond (body^[n] c) = false
    · have hex' : ∃ n, cond' (body'^[n] (r c)) = false := by
        obtain ⟨n, hn⟩ := hex
        exact ⟨n, by rw [(hit n).2, hc]; exact hn⟩
      simp only [Driver.whileOpt, Driver.whileForever, dif_pos hex, dif_pos hex', Option.map_some, Option.some.injEq,
        forall_eq']
      have : Nat.find hex' = Nat.find hex := by
        congr 1
      rw [this]
      exact ⟨(hit _).2, (hit _).1⟩
    · have hex' : ¬∃ n, cond' (body'^[n] (r c)) = false := by
        rintro ⟨n, hn⟩
        exact hex ⟨n, by rw [← hc, ← (hit n).2]; exact hn⟩
      simp only [Driver.whileOpt, Driver.whileForever, dif_neg hex, dif_neg hex', Option.map_none]
      exact ⟨trivial, fun d h => by cases h⟩

/-- **C106.** For every solver whose step leaves the non-array part of its state alone (from the first step), the solve with the
state taken apart returns exactly what the solve with the state kept whole (`Verif.Driver.iterate`, about which the other
properties are stated) returns - including the non-array part of the final state. -/
theorem C106_state_split_invisible (htr : Traced S fn) (st0 : Tree Arr Jpr Obj) (hi : S.init fn y0 = .ok st0)
    (hw : Unwrapped st0) (hs : (partition (S.step fn y0 st0).2.1).2 = (partition st0).2) :
    Partition.iterate S af fn aux0 y0 ms = Driver.iterate S af fn aux0 y0 ms := by
  have hass : ¬¬assertHolds S fn (partition st0).2 y0 (partition st0).1 := by
    rw [not_not]
    unfold assertHolds
    rw [(C106_partition_combine st0).2]
    exact hs
  unfold Partition.iterate Driver.iterate
  rw [hi]
  simp only
  rw [if_neg hass]
  obtain ⟨h1, h2⟩ := while_simulates ms (Driver.cond (Y := Y) (St := Tree Arr Jpr Obj) (Aux := Aux)) (Driver.body S af fn)
    Partition.cond (Partition.body S af fn (partition st0).2) stripped (fun c => (partition c.state).2 = (partition st0).2)
    (fun c h => by
      have h3 : (partition (S.step fn c.y c.state).2.1).2 = (partition (S.step fn y0 st0).2.1).2 := htr _ _ _ _ h
      exact h3.trans hs)
    (fun c => rfl)
    (fun c h => by
      simp only [Partition.body, stripped, Driver.body]
      rw [← h, (C106_partition_combine c.state).2])
    (Driver.initCarry S af fn aux0 y0 st0) rfl
  change Option.map _ (Driver.whileOpt _ _ ms (stripped (Driver.initCarry S af fn aux0 y0 st0))) = _
  rw [h1, Option.map_map]
  cases hd : Driver.whileOpt Driver.cond (Driver.body S af fn) ms (Driver.initCarry S af fn aux0 y0 st0) with
  | none => rfl
  | some d =>
    have h3 := h2 d hd
    simp only [Option.map_some, Function.comp]
    refine congrArg some (congrArg Except.ok ?_)
    have hw' : Unwrapped (partition st0).2 := by
      intro j hj
      obtain ⟨l, hl, hl'⟩ := List.mem_map.1 hj
      rcases l with _ | l
      · cases hl'
      · have : l = .wrapped j := (Option.filter_eq_some_iff.1 hl').1 |> Option.some.inj
        exact hw j (this ▸ hl)
    have h4 : (stripped d).dynamic = (partition d.state).1 := rfl
    rw [C106_unwrap_wrap _ hw', h4, ← h3, (C106_partition_combine d.state).1, (C106_partition_combine d.state).2]
    rfl

/-- **C106.** A solver whose step changes the non-array part of its state is rejected, by an exception, before anything runs: for
every budget, even zero, and even if the starting point would already have been accepted. -/
theorem C106_changed_static_rejected (st0 : Tree Arr Jpr Obj) (hi : S.init fn y0 = .ok st0)
    (hs : (partition (S.step fn y0 st0).2.1).2 ≠ (partition st0).2) :
    ∃ e, Partition.iterate S af fn aux0 y0 ms = some (.error e) := by
  have hass : ¬assertHolds S fn (partition st0).2 y0 (partition st0).1 := by
    unfold assertHolds
    rw [(C106_partition_combine st0).2]
    exact hs
  unfold Partition.iterate
  rw [hi]
  simp only
  rw [if_pos hass]
  exact ⟨_, rfl⟩

end

/-! ### Statistics -/

/-- **C106.** `sol.stats` has the number of steps under `"num_steps"` and the budget under `"max_steps"`, whenever the solver's own
statistics use neither key, and has all of the solver's own statistics, whatever keys they use. -/
theorem C106_stats {V : Type} (numSteps maxSteps : V) (stats : String → Option V) :
    (stats "num_steps" = none → mergeStats numSteps maxSteps stats "num_steps" = some numSteps) ∧
    (stats "max_steps" = none → mergeStats numSteps maxSteps stats "max_steps" = some maxSteps) ∧
    (∀ key v, stats key = some v → mergeStats numSteps maxSteps stats key = some v) ∧
    (∀ key, key ≠ "num_steps" → key ≠ "max_steps" → mergeStats numSteps maxSteps stats key = stats key) := by
  refine ⟨fun h => ?_, fun h => ?_, fun key v h => ?_, fun key h1 h2 => ?_⟩
  · simp [mergeStats, h]
  · simp [mergeStats, h]
  · simp [mergeStats, h]
  · cases h : stats key <;> simp [mergeStats, h, h1, h2]

/-- **C106.** `NelderMead`, the only solver with statistics of its own, uses neither key: all seven entries are there. -/
theorem C106_nelder_mead_stats {V : Type} (numSteps maxSteps reflect inner outer expand shrink : V) :
    let s := mergeStats numSteps maxSteps (nelderMeadStats reflect inner outer expand shrink)
    s "num_steps" = some numSteps ∧ s "max_steps" = some maxSteps ∧ s "num_reflections" = some reflect ∧
    s "num_inner_contractions" = some inner ∧ s "num_outer_contractions" = some outer ∧ s "num_expansions" = some expand ∧
    s "num_shrinkages" = some shrink := by
  refine ⟨?_, ?_, ?_, ?_, ?_, ?_, ?_⟩ <;> simp [mergeStats, nelderMeadStats]

/-! ### Examples -/

/-- A solver that keeps a function's jaxpr and a name beside an array in its state, and counts in the array. -/
def namedCounter (keep : Bool) : Solver Nat Nat Unit (Tree Nat String String) Unit where
  init _ _ := .ok [some (.jaxpr "lambda"), some (.array 0), none, some (.other "counter")]
  step _ y st := (y + 1, st.map fun l => l.map fun l => match l with
    | .array a => .array (a + 1)
    | .other o => if keep then .other o else .other (o ++ "'")
    | l => l, ())
  terminate _ _ st := (st.any fun l => match l with
    | some (.array a) => a == 3
    | _ => false, .successful)
  postprocess _ y aux _ _ := (y, aux, ())

theorem counter_keeps (y : Nat) (t : Tree Nat String String) :
    (partition ((namedCounter true).step (fun y => (y, ())) y t).2.1).2 = (partition t).2 := by
  simp only [partition, namedCounter, List.map_map]
  refine List.map_congr_left fun l _ => ?_
  rcases l with _ | l
  · rfl
  · cases l <;> rfl

example : ∃ sol, Partition.iterate (namedCounter true) (fun _ => true) (fun y => (y, ())) () 5 (some 10) = some (.ok sol) ∧
    sol.numSteps = 3 ∧ sol.state = [some (.jaxpr "lambda"), some (.array 3), none, some (.other "counter")] := by
  have htr : ∀ (y : Nat) (t : Tree Nat String String), (partition ((namedCounter true).step (fun y => (y, ())) y t).2.1).2 =
      (partition t).2 := counter_keeps
  rw [C106_state_split_invisible _ _ _ _ _ _ (fun y y' st st' h => by rw [htr, htr, h]) _ rfl
    (by intro j hj; simp at hj) (htr _ _)]
  exact ⟨_, rfl, rfl, rfl⟩

/-- … and one that changes the name is rejected, even with a budget of zero. -/
example : ∃ e, Partition.iterate (namedCounter false) (fun _ => true) (fun y => (y, ())) () 5 (some 0) = some (.error e) :=
  C106_changed_static_rejected _ _ _ _ _ _ _ rfl (by
    intro h
    have h' := congrArg (fun t => t[3]?) h
    simp [partition, namedCounter, Leaf.isArray, Option.filter] at h')

end Verif.Props
