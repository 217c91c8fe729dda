import Verif.Spec.Cost
import Verif.Props.Visited
import Verif.Model.NelderMead

/-!
Property C143: what a solve costs, in evaluations of the user's function and its derivative.
-/

namespace Verif.Props

open Verif Verif.Spec Verif.Driver

variable {ι κ A SS DS HS J OS : Type}

open Classical in
theorem image_card {α : Type} (f : ℕ → α) (n : ℕ) : ((Finset.range n).image f).card ≤ n :=
  Finset.card_image_le.trans (Finset.card_range n).le

open Classical in
theorem image_moves {α : Type} (f : ℕ → α) (n : ℕ) : ((Finset.range n).image fun k => f (k + 1)).card ≤ 1 + moves f n := by
  have key : ∀ n, ((Finset.range (n + 1)).image f).card ≤ 1 + moves f n := by
    intro n
    induction n with
    | zero => simp [moves]
    | succ n ih =>
      rw [Finset.range_add_one, Finset.image_insert]
      have hm : moves f (n + 1) = moves f n + if f (n + 1) ≠ f n then 1 else 0 := by
        unfold moves
        rw [Finset.range_add_one, Finset.filter_insert]
        split_ifs with h
        · rw [Finset.card_insert_of_notMem (by simp)]
        · rfl
      rw [hm]
      by_cases h : f (n + 1) = f n
      · rw [Finset.insert_eq_of_mem (by rw [h]; exact Finset.mem_image_of_mem f (Finset.self_mem_range_succ n))]
        omega
      · rw [if_pos h]
        have := Finset.card_insert_le (f (n + 1)) ((Finset.range (n + 1)).image f)
        omega
  refine (Finset.card_le_card ?_).trans (key n)
  intro x hx
  obtain ⟨k, hk, rfl⟩ := Finset.mem_image.1 hx
  exact Finset.mem_image_of_mem f (Finset.mem_range.2 (Nat.succ_lt_succ (Finset.mem_range.1 hk)))

open Classical in
theorem mem_image {α : Type} (f : ℕ → α) (n k : ℕ) (hk : k < n) : f k ∈ (Finset.range n).image f :=
  Finset.mem_image_of_mem f (Finset.mem_range.2 hk)

/-- **C143**, gradient family: one evaluation of the function per step, and one gradient per step that moves, plus one. -/
theorem C143_gradient_family (cfg : GradientDescent.Cfg ι SS DS) (aux0 : A) (fn : (ι → ℝ) → ℝ × A) (af : (ι → ℝ) → Bool) (y0 : ι → ℝ)
    (ms : Option ℕ) (throw : Bool) (sol) (st0) (hi : (GradientDescent.solver cfg aux0).init fn y0 = .ok st0)
    (h : iterativeSolve (GradientDescent.solver cfg aux0) af fn aux0 y0 ms throw = some (.ok sol)) :
    LooksAtBoth (fun fn' grad' => iterativeSolve (GradientDescent.solver { cfg with grad := grad' } aux0) af fn' aux0 y0 ms throw) fn cfg.grad
      sol.numSteps (1 + moves (iterateAt (GradientDescent.solver cfg aux0) fn aux0 y0 st0) sol.numSteps) := by
  classical
  refine ⟨_, _, image_card (fun k => (stateAt (GradientDescent.solver cfg aux0) fn aux0 y0 st0 k).yEval) sol.numSteps,
    image_moves (iterateAt (GradientDescent.solver cfg aux0) fn aux0 y0 st0) sol.numSteps, fun fn' df' hP hQ => ?_⟩
  exact (C84_gradient_family cfg df' aux0 fn fn' af y0 ms throw sol h st0 hi (fun k hk => hP _ (mem_image _ _ k hk))
    fun k hk => hQ _ (mem_image (fun k => iterateAt (GradientDescent.solver cfg aux0) fn aux0 y0 st0 (k + 1)) _ k hk)).trans h.symm

/-- **C143**, quasi-Newton family: no Hessians, and gradients only where the iterate moved to. -/
theorem C143_quasi_newton_family (cfg : QuasiNewton.Cfg ι SS DS HS) (aux0 : A) (fn : (ι → ℝ) → ℝ × A) (af : (ι → ℝ) → Bool) (y0 : ι → ℝ)
    (ms : Option ℕ) (throw : Bool) (sol) (st0) (hi : (QuasiNewton.solver cfg aux0).init fn y0 = .ok st0)
    (h : iterativeSolve (QuasiNewton.solver cfg aux0) af fn aux0 y0 ms throw = some (.ok sol)) :
    LooksAtBoth (fun fn' grad' => iterativeSolve (QuasiNewton.solver { cfg with grad := grad' } aux0) af fn' aux0 y0 ms throw) fn cfg.grad
      sol.numSteps (1 + moves (iterateAt (QuasiNewton.solver cfg aux0) fn aux0 y0 st0) sol.numSteps) := by
  classical
  refine ⟨_, _, image_card (fun k => (stateAt (QuasiNewton.solver cfg aux0) fn aux0 y0 st0 k).yEval) sol.numSteps,
    image_moves (iterateAt (QuasiNewton.solver cfg aux0) fn aux0 y0 st0) sol.numSteps, fun fn' df' hP hQ => ?_⟩
  exact (C84_quasi_newton_family cfg df' aux0 fn fn' af y0 ms throw sol h st0 hi (fun k hk => hP _ (mem_image _ _ k hk))
    fun k hk => hQ _ (mem_image (fun k => iterateAt (QuasiNewton.solver cfg aux0) fn aux0 y0 st0 (k + 1)) _ k hk)).trans h.symm

/-- **C143**, Gauss-Newton family: one evaluation of the residuals and one Jacobian per step, whether the step is accepted or not. -/
theorem C143_gauss_newton_family (cfg : GaussNewton.Cfg ι κ SS DS) (aux0 : A) (fn : (ι → ℝ) → (κ → ℝ) × A) (af : (ι → ℝ) → Bool)
    (y0 : ι → ℝ) (ms : Option ℕ) (throw : Bool) (sol) (h : iterativeSolve (GaussNewton.solver cfg aux0) af fn aux0 y0 ms throw = some (.ok sol)) :
    LooksAtBoth (fun fn' jac' => iterativeSolve (GaussNewton.solver { cfg with jac := jac' } aux0) af fn' aux0 y0 ms throw) fn cfg.jac
      sol.numSteps sol.numSteps := by
  classical
  obtain ⟨st0, hi⟩ : ∃ st0, (GaussNewton.solver cfg aux0).init fn y0 = .ok st0 := by
    obtain ⟨-, -, st0, hi, -⟩ := C01_step_budget _ _ _ _ _ _ _ _ h
    exact ⟨st0, hi⟩
  refine ⟨_, _, image_card (fun k => (stateAt (GaussNewton.solver cfg aux0) fn aux0 y0 st0 k).yEval) sol.numSteps,
    image_card (fun k => (stateAt (GaussNewton.solver cfg aux0) fn aux0 y0 st0 k).yEval) sol.numSteps, fun fn' df' hP hQ => ?_⟩
  exact (C84_gauss_newton_family cfg df' aux0 fn fn' af y0 ms throw sol h st0 hi (fun k hk => hP _ (mem_image _ _ k hk))
    fun k hk => hQ _ (mem_image (fun k => (stateAt (GaussNewton.solver cfg aux0) fn aux0 y0 st0 k).yEval) _ k hk)).trans h.symm

/-- **C143**, `Newton`: one evaluation and one Jacobian per step. -/
theorem C143_newton (cfg : NewtonChord.Cfg ι κ ℝ J) (hn : cfg.isNewton = true) (aux0 : A) (fn : (ι → ℝ) → (κ → ℝ) × A)
    (af : (ι → ℝ) → Bool) (y0 : ι → ℝ) (ms : Option ℕ) (throw : Bool) (sol)
    (h : iterativeSolve (NewtonChord.solver cfg) af fn aux0 y0 ms throw = some (.ok sol)) :
    LooksAtBoth (fun fn' jac' => iterativeSolve (NewtonChord.solver { cfg with jac := jac' }) af fn' aux0 y0 ms throw) fn cfg.jac
      sol.numSteps sol.numSteps := by
  classical
  refine ⟨_, _, image_card (iterateAt (NewtonChord.solver cfg) fn aux0 y0 (NewtonChord.init cfg y0)) sol.numSteps,
    image_card (iterateAt (NewtonChord.solver cfg) fn aux0 y0 (NewtonChord.init cfg y0)) sol.numSteps, fun fn' df' hP hQ => ?_⟩
  refine (C84_newton cfg df' aux0 fn fn' af y0 ms throw sol h (fun k hk => hP _ (mem_image _ _ k hk)) ?_).trans h.symm
  rw [if_pos hn]
  exact fun k hk => hQ _ (mem_image _ _ k hk)

/-- **C143**, `Chord`: one evaluation per step and a single Jacobian, however many steps there are. -/
theorem C143_chord (cfg : NewtonChord.Cfg ι κ ℝ J) (hn : cfg.isNewton = false) (aux0 : A) (fn : (ι → ℝ) → (κ → ℝ) × A)
    (af : (ι → ℝ) → Bool) (y0 : ι → ℝ) (ms : Option ℕ) (throw : Bool) (sol)
    (h : iterativeSolve (NewtonChord.solver cfg) af fn aux0 y0 ms throw = some (.ok sol)) :
    LooksAtBoth (fun fn' jac' => iterativeSolve (NewtonChord.solver { cfg with jac := jac' }) af fn' aux0 y0 ms throw) fn cfg.jac
      sol.numSteps 1 := by
  classical
  refine ⟨_, {y0}, image_card (iterateAt (NewtonChord.solver cfg) fn aux0 y0 (NewtonChord.init cfg y0)) sol.numSteps,
    (Finset.card_singleton y0).le, fun fn' df' hP hQ => ?_⟩
  refine (C84_newton cfg df' aux0 fn fn' af y0 ms throw sol h (fun k hk => hP _ (mem_image _ _ k hk)) ?_).trans h.symm
  rw [if_neg (by simp [hn])]
  exact hQ _ (Finset.mem_singleton_self y0)

/-- **C143**, `FixedPointIteration`: one evaluation per step. -/
theorem C143_fixed_point (cfg : FixedPointIter.Cfg ι ℝ) (aux0 : A) (fn : (ι → ℝ) → (ι → ℝ) × A) (af : (ι → ℝ) → Bool) (y0 : ι → ℝ)
    (ms : Option ℕ) (throw : Bool) (sol) (h : iterativeSolve (FixedPointIter.solver cfg) af fn aux0 y0 ms throw = some (.ok sol)) :
    LooksAt (fun fn' => iterativeSolve (FixedPointIter.solver cfg) af fn' aux0 y0 ms throw) fn sol.numSteps := by
  classical
  exact ⟨_, image_card (iterateAt (FixedPointIter.solver cfg) fn aux0 y0 none) sol.numSteps, fun fn' hP =>
    (C84_fixed_point cfg aux0 fn fn' af y0 ms throw sol h fun k hk => hP _ (mem_image _ _ k hk)).trans h.symm⟩

/-- **C143**, `OptaxMinimiser` with an optimiser that does not call `value_fn`: one evaluation and one gradient per step. -/
theorem C143_optax (cfg : Optax.Cfg ι OS) (hopt : ∀ g s p v w w', cfg.optim.update g s p v w = cfg.optim.update g s p v w')
    (aux0 : A) (fn : (ι → ℝ) → ℝ × A) (af : (ι → ℝ) → Bool) (y0 : ι → ℝ) (ms : Option ℕ) (throw : Bool) (sol)
    (h : iterativeSolve (Optax.solver cfg) af fn aux0 y0 ms throw = some (.ok sol)) :
    LooksAtBoth (fun fn' grad' => iterativeSolve (Optax.solver { cfg with grad := grad' }) af fn' aux0 y0 ms throw) fn cfg.grad
      sol.numSteps sol.numSteps := by
  classical
  exact ⟨_, _, image_card (iterateAt (Optax.solver cfg) fn aux0 y0 (Optax.init cfg y0)) sol.numSteps,
    image_card (iterateAt (Optax.solver cfg) fn aux0 y0 (Optax.init cfg y0)) sol.numSteps, fun fn' df' hP hQ =>
    (C84_optax cfg hopt df' aux0 fn fn' af y0 ms throw sol h (fun k hk => hP _ (mem_image _ _ k hk))
      fun k hk => hQ _ (mem_image _ _ k hk)).trans h.symm⟩

/-- **C143**, `Bisection` with `flip` given: one evaluation per step. -/
theorem C143_bisection (cfg : Bisection.Cfg ℝ) (b : Bool) (hb : cfg.flip = .fixed b) (aux0 : A) (fn : ℝ → ℝ × A) (af : ℝ → Bool) (y0 : ℝ)
    (ms : Option ℕ) (throw : Bool) (sol) (h : iterativeSolve (Bisection.solver cfg) af fn aux0 y0 ms throw = some (.ok sol)) :
    LooksAt (fun fn' => iterativeSolve (Bisection.solver cfg) af fn' aux0 y0 ms throw) fn sol.numSteps := by
  classical
  obtain ⟨-, -, st0, hi, -⟩ := C01_step_budget _ _ _ _ _ _ _ _ h
  exact ⟨_, image_card (iterateAt (Bisection.solver cfg) fn aux0 y0 st0) sol.numSteps, fun fn' hP =>
    (C84_bisection cfg b hb aux0 fn fn' af y0 ms throw sol h st0 hi fun k hk => hP _ (mem_image _ _ k hk)).trans h.symm⟩

/-- **C143**, `Bisection` without `expand_if_necessary`: with `flip="detect"` two more evaluations. -/
theorem C143_bisection_detect (cfg : Bisection.Cfg ℝ) (he : cfg.expand = false) (aux0 : A) (fn : ℝ → ℝ × A) (af : ℝ → Bool) (y0 : ℝ)
    (ms : Option ℕ) (throw : Bool) (sol) (h : iterativeSolve (Bisection.solver cfg) af fn aux0 y0 ms throw = some (.ok sol)) :
    LooksAt (fun fn' => iterativeSolve (Bisection.solver cfg) af fn' aux0 y0 ms throw) fn (sol.numSteps + 2) := by
  classical
  obtain ⟨-, -, st0, hi, -⟩ := C01_step_budget _ _ _ _ _ _ _ _ h
  refine ⟨(Finset.range sol.numSteps).image (iterateAt (Bisection.solver cfg) fn aux0 y0 st0) ∪ {cfg.lower, cfg.upper},
    (Finset.card_union_le _ _).trans (add_le_add (image_card _ _) Finset.card_le_two), fun fn' hP => ?_⟩
  have h0 : (Bisection.solver cfg).init fn' y0 = (Bisection.solver cfg).init fn y0 := by
    simp only [Bisection.solver, Bisection.init, hP cfg.lower (by simp), hP cfg.upper (by simp), he, Bool.false_eq_true, if_false]
  refine (same_solution (S := Bisection.solver cfg) (S' := Bisection.solver cfg) (fn := fn) (fn' := fn') h0 rfl rfl h hi
    fun k hk => ?_).trans h.symm
  have h1 := hP _ (Finset.mem_union_left _ (mem_image (iterateAt (Bisection.solver cfg) fn aux0 y0 st0) _ k hk))
  simp only [Bisection.solver] at h1
  simp only [Bisection.solver, Bisection.step, h1]

/-- **C143**, `GoldenSearch`: one evaluation per step and one to start with. -/
theorem C143_golden (cfg : Golden.Cfg) (aux0 : A) (fn : ℝ → ℝ × A) (af : ℝ → Bool) (y0 : ℝ)
    (ms : Option ℕ) (throw : Bool) (sol) (h : iterativeSolve (Golden.solver cfg) af fn aux0 y0 ms throw = some (.ok sol)) :
    LooksAt (fun fn' => iterativeSolve (Golden.solver cfg) af fn' aux0 y0 ms throw) fn (sol.numSteps + 1) := by
  classical
  obtain ⟨-, -, st0, hi, -⟩ := C01_step_budget _ _ _ _ _ _ _ _ h
  have hstep : ∀ (fn' : ℝ → ℝ × A) (y : ℝ) (st : Golden.State),
      fn' (if st.first then st.lower + (st.upper - st.middle) else y) = fn (if st.first then st.lower + (st.upper - st.middle) else y) →
      Golden.step cfg fn' y st = Golden.step cfg fn y st := fun fn' y st he => by simp only [Golden.step, he]
  set probe : ℝ → Golden.State → ℝ := fun y st => if st.first then st.lower + (st.upper - st.middle) else y
  refine ⟨(Finset.range sol.numSteps).image (fun k => probe (iterateAt (Golden.solver cfg) fn aux0 y0 st0 k)
      (stateAt (Golden.solver cfg) fn aux0 y0 st0 k)) ∪ {(cfg.upper - cfg.lower) / ((1 + Real.sqrt 5) / 2 + 1)},
    (Finset.card_union_le _ _).trans (add_le_add (image_card _ _) (Finset.card_singleton _).le), fun fn' hP => ?_⟩
  have h0 : (Golden.solver cfg).init fn' y0 = (Golden.solver cfg).init fn y0 := by
    simp only [Golden.solver, Golden.init]
    rw [hP _ (Finset.mem_union_right _ (Finset.mem_singleton_self _))]
  exact (same_solution (S := Golden.solver cfg) (S' := Golden.solver cfg) (fn := fn) (fn' := fn') h0 rfl rfl h hi
    fun k hk => hstep fn' _ _ (hP _ (Finset.mem_union_left _ (mem_image (fun k => probe (iterateAt (Golden.solver cfg) fn aux0 y0 st0 k)
      (stateAt (Golden.solver cfg) fn aux0 y0 st0 k)) _ k hk)))).trans h.symm

/-! ### `NelderMead`, whose steps differ in cost -/

section
variable {n : ℕ} [NeZero n]

open Classical in
/-- Whether a step of `NelderMead` evaluates the whole simplex. -/
noncomputable def nmShrinks (fn : (ι → ℝ) → NelderMead.Val × A) (st : NelderMead.State n ι A) : Bool :=
  if st.firstPass then true else decide (st.fWorst < (NelderMead.mainStep fn st).2.1)

open Classical in
/-- The points a step of `NelderMead` looks at. -/
noncomputable def nmPoints (fn : (ι → ℝ) → NelderMead.Val × A) (st : NelderMead.State n ι A) : Finset (ι → ℝ) :=
  (if st.firstPass then ∅ else
    {NelderMead.along st.worst (NelderMead.searchDirection st.simplex st.worst) 2, (NelderMead.mainStep fn st).1}) ∪
  if nmShrinks fn st then Finset.univ.image (NelderMead.shrinkSimplex fn
    (if (if st.firstPass then NelderMead.initStep st else NelderMead.mainStep fn st).2.1 < st.fBest then
      (if st.firstPass then NelderMead.initStep st else NelderMead.mainStep fn st).1 else st.best) st.simplex st.firstPass).2
  else ∅

theorem nmPoints_card (fn : (ι → ℝ) → NelderMead.Val × A) (st : NelderMead.State n ι A) :
    (nmPoints fn st).card ≤ (if st.firstPass then 0 else 2) + if nmShrinks fn st then n else 0 := by
  classical
  unfold nmPoints
  refine (Finset.card_union_le _ _).trans (add_le_add ?_ ?_)
  · split_ifs
    · simp
    · exact Finset.card_le_two
  · by_cases hs : nmShrinks fn st = true
    · rw [if_pos hs, if_pos hs]
      exact Finset.card_image_le.trans (by simp)
    · rw [if_neg hs, if_neg hs]
      simp

theorem nm_step_congr (fn fn' : (ι → ℝ) → NelderMead.Val × A) (y : ι → ℝ) (st : NelderMead.State n ι A)
    (h : ∀ v ∈ nmPoints fn st, fn' v = fn v) : NelderMead.step fn' y st = NelderMead.step fn y st := by
  classical
  have hm : (if st.firstPass then NelderMead.initStep st else NelderMead.mainStep fn' st) =
      if st.firstPass then NelderMead.initStep st else NelderMead.mainStep fn st := by
    split_ifs with hf
    · rfl
    · have h1 := h (NelderMead.along st.worst (NelderMead.searchDirection st.simplex st.worst) 2) (by simp [nmPoints, hf])
      have h2 := h (NelderMead.mainStep fn st).1 (by simp [nmPoints, hf])
      simp only [NelderMead.mainStep] at h2
      simp only [NelderMead.mainStep, h1, h2]
  have hs : nmShrinks fn st = if st.firstPass then true else decide (st.fWorst <
      (if st.firstPass then NelderMead.initStep st else NelderMead.mainStep fn st).2.1) := by
    unfold nmShrinks
    split_ifs <;> rfl
  simp only [NelderMead.step, hm]
  rw [← hs]
  by_cases hsh : nmShrinks fn st = true
  · have h3 : ∀ best, best = (if (if st.firstPass then NelderMead.initStep st else NelderMead.mainStep fn st).2.1 < st.fBest then
        (if st.firstPass then NelderMead.initStep st else NelderMead.mainStep fn st).1 else st.best) →
        NelderMead.shrinkSimplex fn' best st.simplex st.firstPass = NelderMead.shrinkSimplex fn best st.simplex st.firstPass := by
      rintro best rfl
      refine Prod.ext (funext fun i => ?_) rfl
      exact congrArg Prod.fst (h _ (Finset.mem_union_right _ (by
        rw [if_pos hsh]; exact Finset.mem_image_of_mem _ (Finset.mem_univ i))))
    rw [h3 _ (by simp only [decide_eq_true_eq])]
  · simp only [hsh, if_false, Bool.false_eq_true]

/-- **C143**, `NelderMead` on a simplex with `n` vertices: two evaluations per step after the first one, and `n` more for the first simplex and
for every shrink that the statistics report. -/
theorem C143_nelder_mead (cfg : NelderMead.Cfg n ι) (aux0 : A) (fn : (ι → ℝ) → NelderMead.Val × A) (af : (ι → ℝ) → Bool) (y0 : ι → ℝ)
    (ms : Option ℕ) (throw : Bool) (sol) (h : iterativeSolve (NelderMead.solver cfg aux0) af fn aux0 y0 ms throw = some (.ok sol)) :
    LooksAt (fun fn' => iterativeSolve (NelderMead.solver cfg aux0) af fn' aux0 y0 ms throw) fn
      (2 * (sol.numSteps - 1) + n * (sol.stats.nShrink + 1).toNat) := by
  classical
  obtain ⟨-, -, st0, hi, hstate, hp⟩ := C01_step_budget _ _ _ _ _ _ _ _ h
  set T := stateAt (NelderMead.solver cfg aux0) fn aux0 y0 st0 with hT
  have hfirst : ∀ k, (T k).firstPass = decide (k = 0) := by
    intro k
    cases k with
    | zero =>
      have : T 0 = st0 := rfl
      rw [this]
      simp only [NelderMead.solver, NelderMead.init] at hi
      split_ifs at hi
      cases hi
      rfl
    | succ k => simp; rfl
  have hstats : ∀ k, (T k).stats.nShrink + 1 = (((Finset.range k).filter fun j => nmShrinks fn (T j) = true).card : ℤ) := by
    intro k
    induction k with
    | zero =>
      have : T 0 = st0 := rfl
      rw [this]
      simp only [NelderMead.solver, NelderMead.init] at hi
      split_ifs at hi
      cases hi
      simp
    | succ k ih =>
      have e : (T (k + 1)).stats.nShrink = (T k).stats.nShrink + if nmShrinks fn (T k) then 1 else 0 := by
        show (NelderMead.step fn (iterateAt (NelderMead.solver cfg aux0) fn aux0 y0 st0 k) (T k)).2.1.stats.nShrink = _
        cases hf : (T k).firstPass <;>
          simp [NelderMead.step, NelderMead.updateStats, nmShrinks, hf, NelderMead.initStep, NelderMead.mainStep, NelderMead.internalEval]
      rw [Finset.range_add_one, Finset.filter_insert, e]
      split_ifs with hs
      · rw [Finset.card_insert_of_notMem (by simp)]
        push_cast
        linarith
      · linarith
  have hst : sol.stats = (T sol.numSteps).stats := by
    have := congrArg (fun p => p.2.2) hp
    rw [← hstate]
    exact this
  rw [hst, hstats, Int.toNat_natCast]
  refine ⟨(Finset.range sol.numSteps).biUnion fun k => nmPoints fn (T k), ?_, fun fn' hP => ?_⟩
  · refine Finset.card_biUnion_le.trans ((Finset.sum_le_sum fun k _ => nmPoints_card fn (T k)).trans ?_)
    rw [Finset.sum_add_distrib]
    refine add_le_add ?_ ?_
    · generalize sol.numSteps = N
      cases N with
      | zero => simp
      | succ N =>
        rw [Finset.sum_range_succ']
        simp [hfirst, mul_comm]
    · rw [← Finset.sum_filter, Finset.sum_const, smul_eq_mul, mul_comm]
  · exact (same_solution (S := NelderMead.solver cfg aux0) (S' := NelderMead.solver cfg aux0) (fn := fn) (fn' := fn') rfl rfl rfl h hi
      fun k hk => nm_step_congr fn fn' (iterateAt (NelderMead.solver cfg aux0) fn aux0 y0 st0 k) (T k) fun v hv => hP v (Finset.mem_biUnion.2 ⟨k, Finset.mem_range.2 hk, hv⟩)).trans h.symm

end

/-- The count is sharp: after one step of `FixedPointIteration` on `y / 2` from `1`, the answer `1/2` is not determined without looking at the
function. -/
example : LooksAt (fun fn' => iterativeSolve (FixedPointIter.solver (A := Unit) ⟨0, 1/10, maxNorm, 0⟩) (fun _ => true) fn' ()
      (fun _ : Unit => (1 : ℝ)) (some 1) false) (fun y => (fun i => y i / 2, ())) 1 ∧
    ¬ LooksAt (fun fn' => iterativeSolve (FixedPointIter.solver (A := Unit) ⟨0, 1/10, maxNorm, 0⟩) (fun _ => true) fn' ()
      (fun _ : Unit => (1 : ℝ)) (some 1) false) (fun y => (fun i => y i / 2, ())) 0 := by
  have run : ∀ fn : (Unit → ℝ) → (Unit → ℝ) × Unit, ∃ sol, iterativeSolve (FixedPointIter.solver (A := Unit) ⟨0, 1/10, maxNorm, 0⟩)
      (fun _ => true) fn () (fun _ : Unit => (1 : ℝ)) (some 1) false = some (.ok sol) ∧ sol.numSteps = 1 ∧
        sol.value () = (fn fun _ => 1).1 () := by
    intro fn
    obtain ⟨sol, h1, n1⟩ := solve_exists (FixedPointIter.solver (A := Unit) ⟨0, 1/10, maxNorm, 0⟩) (fun _ => true) fn ()
      (fun _ : Unit => (1 : ℝ)) none rfl (some 1) 1 (fun j hj => by cases Nat.lt_one_iff.1 hj; exact ⟨rfl, rfl⟩) (Or.inr rfl)
    refine ⟨sol, h1, n1, ?_⟩
    obtain ⟨-, -, st0, hi, -, hp⟩ := C01_step_budget _ _ _ _ _ _ _ _ h1
    cases hi
    have e : sol.value = iterateAt (FixedPointIter.solver (A := Unit) ⟨0, 1/10, maxNorm, 0⟩) fn () (fun _ : Unit => (1 : ℝ)) none 1 := by
      rw [← n1]; exact congrArg Prod.fst hp
    rw [e]
    show (1 - 0) * (fn fun _ => 1).1 () + 0 * 1 = _
    ring
  refine ⟨?_, ?_⟩
  · obtain ⟨sol, h1, n1, -⟩ := run fun y => (fun i => y i / 2, ())
    have := C143_fixed_point _ () _ _ _ _ _ sol h1
    rwa [n1] at this
  · rintro ⟨P, hP, h⟩
    obtain rfl : P = ∅ := Finset.card_eq_zero.1 (Nat.le_zero.1 hP)
    obtain ⟨sol, h1, -, v1⟩ := run fun y => (fun i => y i / 2, ())
    obtain ⟨sol', h2, -, v2⟩ := run fun y => (fun i => y i / 3, ())
    have := h (fun y => (fun i => y i / 3, ())) (by simp)
    simp only [h1, h2, Option.some.injEq, Except.ok.injEq] at this
    rw [this, v1] at v2
    norm_num at v2

/-- Steps that do not move are not counted: `1, 1, 2, 2, 5` moves twice. -/
example : moves (fun k => ([1, 1, 2, 2, 5] : List ℕ).getD k 5) 4 = 2 := by
  have : (Finset.range 4).filter (fun k => ([1, 1, 2, 2, 5] : List ℕ).getD (k + 1) 5 ≠ ([1, 1, 2, 2, 5] : List ℕ).getD k 5) = {1, 3} := by
    decide
  unfold moves
  refine (congrArg Finset.card ?_).trans (congrArg Finset.card this)
  ext k
  simp only [Finset.mem_filter]

end Verif.Props
