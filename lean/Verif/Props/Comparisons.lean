import Verif.Spec.Comparisons
import Verif.Lemmas.ComplexSolvers
import Verif.Model.Bisection
import Verif.Model.Golden
import Verif.Model.NelderMead
import Mathlib.Analysis.SpecialFunctions.Exp
import Verif.Lemmas.Norms

/-!
**C94.** `Bisection` looks only at the signs, `GoldenSearch` and `NelderMead` only at the order of the values of the function.
-/

namespace Verif.Comparisons

open Driver Spec Relabel

variable {Y K A Out St Stats B : Type}

/-! ### Generic -/

/-- A relation between states that steps preserve gives the same course. -/
theorem sameCourse_of_rel {S : Solver Y Out A St Stats} {f f' : Y → Out × A} {obs : St → B} (R : St → St → Prop)
    (hs : ∀ y st st', R st st' → (S.step f' y st').1 = (S.step f y st).1 ∧ R (S.step f y st).2.1 (S.step f' y st').2.1 ∧
      (S.step f' y st').2.2 = (S.step f y st).2.2)
    (ho : ∀ st st', R st st' → obs st' = obs st) (aux0 : A) (y0 : Y)
    (hi : (∃ e, S.init f y0 = .error e ∧ S.init f' y0 = .error e) ∨
      ∃ st st', S.init f y0 = .ok st ∧ S.init f' y0 = .ok st' ∧ R st st') :
    SameCourse S obs f f' aux0 y0 := by
  rcases hi with h | ⟨st, st', h1, h2, h3⟩
  · exact .inl h
  · refine .inr ⟨st, st', h1, h2, fun k => ?_⟩
    obtain ⟨e1, e2, e3⟩ := Cx.trace_rel (S := S) (fn := f) (S' := S) (fn' := f') (m := id) aux0 y0 st st' k
      (fun j _ st' h => hs _ _ _ h) h3 k le_rfl
    exact ⟨e1, e3, ho _ _ e2⟩

/-- **C94.** Solves that take the same course and stop alike have the same outcome. -/
theorem C94_outcome {S : Solver Y Out A St Stats} {f f' : Y → Out × A} {obs : St → B} (aux0 : A) (y0 : Y)
    (h : SameCourse S obs f f' aux0 y0) (hv : SameVerdicts S f f' aux0 y0)
    (hp : ∀ f y a st r, (S.postprocess f y a st r).1 = y ∧ (S.postprocess f y a st r).2.1 = a) (fin : Y → Bool) (ms : Option ℕ)
    (throw : Bool) :
    outcome (iterativeSolve S fin f' aux0 y0 ms throw) = outcome (iterativeSolve S fin f aux0 y0 ms throw) := by
  rcases h with ⟨e, h1, h2⟩ | ⟨st, st', h1, h2, h3⟩
  · simp only [iterativeSolve, iterate, h1, h2, outcome]
  · have := Cx.outcome_of_traces (m := id) (S := S) (S' := S) (fn := f) (fn' := f') (allfinite := fin) (allfinite' := fin)
      (fun _ => rfl) h1 h2 (fun k => (h3 k).1) (fun k => (h3 k).2.1) (hv _ _ h1 h2) (hp f) (hp f') ms throw
    refine this.trans ?_
    cases outcome (iterativeSolve S fin f aux0 y0 ms throw) with
    | none => rfl
    | some r => cases r <;> rfl

/-! ### Bisection -/

section bisection

variable [LinearOrder K] [Add K] [Sub K] [Mul K] [OfScientific K] [Zero K] [HasAbs K]

theorem bisection_init (cfg : Bisection.Cfg K) (he : cfg.expand = false) (f f' : K → K × A) (h : SameSigns f f') (y0 : K) :
    (∃ e, (Bisection.solver cfg).init f y0 = .error e ∧ (Bisection.solver cfg).init f' y0 = .error e) ∨
      ∃ st st', (Bisection.solver cfg).init f y0 = .ok st ∧ (Bisection.solver cfg).init f' y0 = .ok st' ∧ st'.lower = st.lower ∧
        st'.upper = st.upper ∧ st'.flip = st.flip ∧ st.error = none ∧ st'.error = none := by
  show (∃ e, Bisection.init cfg f y0 = .error e ∧ Bisection.init cfg f' y0 = .error e) ∨
    ∃ st st', Bisection.init cfg f y0 = .ok st ∧ Bisection.init cfg f' y0 = .ok st' ∧ _
  by_cases hs : cfg.scalarArgs = false
  · simp only [Bisection.init, hs, if_true]
    exact .inl ⟨_, rfl, rfl⟩
  rcases hfs : cfg.fStruct with ⟨_ | _, _⟩ | _ <;> simp only [Bisection.init, hs, if_false, hfs, he, Bool.false_eq_true]
  · rcases hfl : cfg.flip with b | _ | _ <;> simp only
    · exact .inr ⟨_, _, rfl, rfl, rfl, rfl, rfl, rfl, rfl⟩
    · simp only [h.neg]
      by_cases hc : decide ((f cfg.lower).1 < 0) = decide ((f cfg.upper).1 < 0)
      · simp only [hc, if_true]
        exact .inl ⟨_, rfl, rfl⟩
      · simp only [hc, if_false]
        refine .inr ⟨_, _, rfl, rfl, rfl, rfl, ?_, rfl, rfl⟩
        by_cases hl : (f cfg.lower).1 < 0
        · have hu : ¬ (f cfg.upper).1 < 0 := fun hu => hc (by simp [hl, hu])
          have e1 : (f cfg.lower).1 < (f cfg.upper).1 := hl.trans_le (not_lt.1 hu)
          have e2 : (f' cfg.lower).1 < (f' cfg.upper).1 :=
            ((h.neg _).2 hl).trans_le (not_lt.1 fun hx => hu ((h.neg _).1 hx))
          simp [lt_asymm e1, lt_asymm e2]
        · have hu : (f cfg.upper).1 < 0 := by
            by_contra hu
            exact hc (by simp [hl, hu])
          have e1 : (f cfg.upper).1 < (f cfg.lower).1 := hu.trans_le (not_lt.1 hl)
          have e2 : (f' cfg.upper).1 < (f' cfg.lower).1 :=
            ((h.neg _).2 hu).trans_le (not_lt.1 fun hx => hl ((h.neg _).1 hx))
          simp [e1, e2]
    · exact .inl ⟨_, rfl, rfl⟩
  all_goals exact .inl ⟨_, rfl, rfl⟩

/-- **C94** for `Bisection` without interval expansion, on any linearly ordered scalars and whatever their arithmetic: functions with the
same signs give the same intervals and the same iterates. -/
theorem C94_bisection (cfg : Bisection.Cfg K) (he : cfg.expand = false) (f f' : K → K × A) (h : SameSigns f f') (aux0 : A) (y0 : K) :
    SameCourse (Bisection.solver cfg) (fun st => (st.lower, st.upper)) f f' aux0 y0 := by
  refine sameCourse_of_rel (fun st st' => st'.lower = st.lower ∧ st'.upper = st.upper ∧ st'.flip = st.flip) ?_ ?_ aux0 y0 ?_
  · rintro y st st' ⟨h1, h2, h3⟩
    have hn : decide ((f' y).1 < 0) = decide ((f y).1 < 0) := by simp only [h.neg]
    simp only [Bisection.solver, Bisection.step, h1, h2, h3, hn, h.aux, true_and, and_self]
  · rintro st st' ⟨h1, h2, -⟩
    rw [h1, h2]
  · rcases bisection_init cfg he f f' h y0 with h | ⟨st, st', h1, h2, h3, h4, h5, -⟩
    exacts [.inl h, .inr ⟨st, st', h1, h2, h3, h4, h5⟩]

/-- **C94** for `Bisection` with interval expansion: the direction of the expansion also looks at the order of the values at the
ends. -/
theorem C94_bisection_expand (cfg : Bisection.Cfg K) (f f' : K → K × A) (h : SameSigns f f')
    (h1 : (f' cfg.lower).1 < (f' cfg.upper).1 ↔ (f cfg.lower).1 < (f cfg.upper).1)
    (h2 : (f' cfg.upper).1 < (f' cfg.lower).1 ↔ (f cfg.upper).1 < (f cfg.lower).1) (aux0 : A) (y0 : K) :
    SameCourse (Bisection.solver cfg) (fun st => (st.lower, st.upper)) f f' aux0 y0 := by
  refine sameCourse_of_rel (fun st st' => st'.lower = st.lower ∧ st'.upper = st.upper ∧ st'.flip = st.flip) ?_ ?_ aux0 y0 ?_
  · rintro y st st' ⟨h1, h2, h3⟩
    have hn : decide ((f' y).1 < 0) = decide ((f y).1 < 0) := by simp only [h.neg]
    simp only [Bisection.solver, Bisection.step, h1, h2, h3, hn, h.aux, true_and, and_self]
  · rintro st st' ⟨h1, h2, -⟩
    rw [h1, h2]
  · have hk : ∀ b u, Bisection.keepExpanding b u f' = Bisection.keepExpanding b u f := by
      intro b u
      funext c
      simp only [Bisection.keepExpanding, gt_iff_lt, h.pos]
    have hr : ∀ b, Bisection.expandRepeatedly cfg.lower cfg.upper (f' cfg.upper).1 (f' cfg.lower).1 b f' =
        Bisection.expandRepeatedly cfg.lower cfg.upper (f cfg.upper).1 (f cfg.lower).1 b f := by
      intro b
      simp only [Bisection.expandRepeatedly, hk, h2]
    show (∃ e, Bisection.init cfg f y0 = .error e ∧ Bisection.init cfg f' y0 = .error e) ∨
      ∃ st st', Bisection.init cfg f y0 = .ok st ∧ Bisection.init cfg f' y0 = .ok st' ∧ _
    have e : Bisection.init cfg f' y0 = Bisection.init cfg f y0 := by
      simp only [Bisection.init, hr, h.neg, gt_iff_lt, h2]
    rw [e]
    cases Bisection.init cfg f y0 with
    | error e => exact .inl ⟨e, rfl, rfl⟩
    | ok st => exact .inr ⟨st, st, rfl, rfl, rfl, rfl, rfl⟩

end bisection

/-- **C94.** The outcome of `Bisection` depends on nothing but the signs of the function and on where it is smaller than `atol`. -/
theorem C94_bisection_outcome (cfg : Bisection.Cfg ℝ) (he : cfg.expand = false) (f f' : ℝ → ℝ × A) (h : SameSigns f f')
    (hsmall : ∀ y, |(f' y).1| < cfg.atol ↔ |(f y).1| < cfg.atol) (aux0 : A) (y0 : ℝ) (fin : ℝ → Bool) (ms : Option ℕ) (throw : Bool) :
    outcome (iterativeSolve (Bisection.solver cfg) fin f' aux0 y0 ms throw) =
      outcome (iterativeSolve (Bisection.solver cfg) fin f aux0 y0 ms throw) := by
  have hf := (Follows.mk (S := Bisection.solver cfg) (fn := f) (S' := Bisection.solver cfg) (fn' := f') (m := id)
    (R := fun st st' => st'.lower = st.lower ∧ st'.upper = st.upper ∧ st'.flip = st.flip ∧
      ((st.error = none ∧ st'.error = none) ∨ ∃ y, st.error = some (f y).1 ∧ st'.error = some (f' y).1))
    ?_ ?_ ?_ (fun _ _ _ _ _ _ => rfl) (fun _ _ _ _ _ _ => rfl)).solve (allfinite := fin) (allfinite' := fin) (fun _ => rfl) aux0 y0 ms throw
  · refine hf.trans ?_
    cases outcome (iterativeSolve (Bisection.solver cfg) fin f aux0 y0 ms throw) with
    | none => rfl
    | some r => cases r <;> rfl
  · intro y
    rcases bisection_init cfg he f f' h y with h | ⟨st, st', h1, h2, h3, h4, h5, h6, h7⟩
    exacts [.inl h, .inr ⟨st, st', h1, h2, h3, h4, h5, .inl ⟨h6, h7⟩⟩]
  · rintro y st st' ⟨h1, h2, h3, -⟩
    have hn : decide ((f' y).1 < 0) = decide ((f y).1 < 0) := by simp only [h.neg]
    simp only [Bisection.solver, Bisection.step, h1, h2, h3, hn, h.aux, true_and, and_self, and_true, id]
    exact .inr ⟨y, rfl, rfl⟩
  · rintro y st st' ⟨h1, h2, h3, h4⟩
    show Bisection.terminate cfg y st' = Bisection.terminate cfg y st
    rcases h4 with ⟨h4, h5⟩ | ⟨x, h4, h5⟩ <;> simp only [Bisection.terminate, h1, h2, h4, h5, HasAbs.abs_real, hsmall]

/-- `x` and `x³ + x` have the same signs. -/
example (aux0 : Unit) (y0 : ℝ) :
    SameCourse (Bisection.solver (K := ℝ) ⟨1e-3, 1e-3, .detect, false, -1, 2, true, .leaf [] true⟩) (fun st => (st.lower, st.upper)) (fun x : ℝ => (x, ())) (fun x => (x ^ 3 + x, ()))
      aux0 y0 :=
  C94_bisection _ rfl _ _ ⟨fun y => ⟨fun h => by nlinarith [sq_nonneg y], fun h => by nlinarith [sq_nonneg y]⟩,
    fun y => ⟨fun h => by nlinarith [sq_nonneg y], fun h => by nlinarith [sq_nonneg y]⟩, by simp⟩ _ _

/-! ### Golden-section search -/

/-- **C94** for `GoldenSearch`: functions that put the points in the same order give the same intervals and iterates. -/
theorem C94_golden (cfg : Golden.Cfg) (f f' : ℝ → ℝ × A) (h : SameOrder f f') (aux0 : A) (y0 : ℝ) :
    SameCourse (Golden.solver cfg) (fun st => (st.lower, st.middle, st.upper)) f f' aux0 y0 := by
  refine sameCourse_of_rel (fun st st' => st'.lower = st.lower ∧ st'.middle = st.middle ∧ st'.upper = st.upper ∧
    st'.first = st.first ∧ st.fMiddle = (f st.middle).1 ∧ st'.fMiddle = (f' st.middle).1) ?_ ?_ aux0 y0 ?_
  · rintro y st st' ⟨h1, h2, h3, h4, h5, h6⟩
    simp only [Golden.solver, Golden.step, h1, h2, h3, h4, h5, h6, h.lt, h.aux]
    split_ifs <;> simp
  · rintro st st' ⟨h1, h2, h3, -⟩
    rw [h1, h2, h3]
  · show (∃ e, Golden.init cfg f y0 = .error e ∧ Golden.init cfg f' y0 = .error e) ∨
      ∃ st st', Golden.init cfg f y0 = .ok st ∧ Golden.init cfg f' y0 = .ok st' ∧ _
    by_cases hs : cfg.scalarArgs = false
    · simp only [Golden.init, hs, if_true]
      exact .inl ⟨_, rfl, rfl⟩
    rcases hfs : cfg.fStruct with ⟨_ | _, _⟩ | _ <;> simp only [Golden.init, hs, if_false, hfs]
    · refine .inr ⟨_, _, rfl, rfl, ?_⟩
      simp
    all_goals exact .inl ⟨_, rfl, rfl⟩

/-- **C94.** The outcome of `GoldenSearch` depends on nothing but the order of the values of the function and on which are equal up to
the tolerance. -/
theorem C94_golden_outcome (cfg : Golden.Cfg) (f f' : ℝ → ℝ × A) (h : SameOrder f f')
    (hclose : ∀ x y, |(f' x).1 - (f' y).1| / (cfg.atol + cfg.rtol * |(f' x).1|) < 1 ↔
      |(f x).1 - (f y).1| / (cfg.atol + cfg.rtol * |(f x).1|) < 1)
    (ha : 0 < cfg.atol) (hr : 0 ≤ cfg.rtol) (aux0 : A) (y0 : ℝ) (fin : ℝ → Bool) (ms : Option ℕ) (throw : Bool) :
    outcome (iterativeSolve (Golden.solver cfg) fin f' aux0 y0 ms throw) =
      outcome (iterativeSolve (Golden.solver cfg) fin f aux0 y0 ms throw) := by
  have hcl : ∀ x y, |(|(f' x).1 - (f' y).1| / (cfg.atol + cfg.rtol * |(f' x).1|))| < 1 ↔
      |(|(f x).1 - (f y).1| / (cfg.atol + cfg.rtol * |(f x).1|))| < 1 := by
    intro x y
    have e : ∀ g : ℝ → ℝ × A, |(|(g x).1 - (g y).1| / (cfg.atol + cfg.rtol * |(g x).1|))| =
        |(g x).1 - (g y).1| / (cfg.atol + cfg.rtol * |(g x).1|) := fun g => abs_of_nonneg (by positivity)
    rw [e, e]
    exact hclose x y
  have hf := (Follows.mk (S := Golden.solver cfg) (fn := f) (S' := Golden.solver cfg) (fn' := f') (m := id)
    (R := fun st st' => st'.lower = st.lower ∧ st'.middle = st.middle ∧ st'.upper = st.upper ∧
    st'.first = st.first ∧ st.fMiddle = (f st.middle).1 ∧ st'.fMiddle = (f' st.middle).1 ∧ st'.terminate = st.terminate)
    ?_ ?_ ?_ (fun _ _ _ _ _ _ => rfl) (fun _ _ _ _ _ _ => rfl)).solve (allfinite := fin) (allfinite' := fin) (fun _ => rfl) aux0 y0 ms throw
  · refine hf.trans ?_
    cases outcome (iterativeSolve (Golden.solver cfg) fin f aux0 y0 ms throw) with
    | none => rfl
    | some r => cases r <;> rfl
  · intro y
    show (∃ e, Golden.init cfg f y = .error e ∧ Golden.init cfg f' y = .error e) ∨
      ∃ st st', Golden.init cfg f y = .ok st ∧ Golden.init cfg f' y = .ok st' ∧ _
    by_cases hs : cfg.scalarArgs = false
    · simp only [Golden.init, hs, if_true]
      exact .inl ⟨_, rfl, rfl⟩
    rcases hfs : cfg.fStruct with ⟨_ | _, _⟩ | _ <;> simp only [Golden.init, hs, if_false, hfs]
    · refine .inr ⟨_, _, rfl, rfl, ?_⟩
      simp
    all_goals exact .inl ⟨_, rfl, rfl⟩
  · rintro y st st' ⟨h1, h2, h3, h4, h5, h6, h7⟩
    simp only [Golden.solver, Golden.step, h1, h2, h3, h4, h5, h6, h.lt, h.aux, cauchyTermination, scaledDiff, hcl, id]
    split_ifs <;> simp [hcl]
  · rintro y st st' ⟨h1, h2, h3, h4, h5, h6, h7⟩
    simp only [Golden.solver, h7]

/-- `x²` and `exp(x²)` put all points in the same order. -/
example (cfg : Golden.Cfg) (y0 : ℝ) :
    SameCourse (Golden.solver cfg) (fun st => (st.lower, st.middle, st.upper)) (fun x : ℝ => (x ^ 2, ())) (fun x => (Real.exp (x ^ 2), ()))
      () y0 :=
  C94_golden cfg _ _ ⟨by simp, by simp⟩ _ _

/-- Adding a constant, with an absolute tolerance. -/
example (lower upper : ℝ) (ms : Option ℕ) (fin : ℝ → Bool) :
    let cfg : Golden.Cfg := { rtol := 0, atol := 1e-3, lower, upper, scalarArgs := true, fStruct := .leaf [] true }
    outcome (iterativeSolve (Golden.solver cfg) fin (fun x => (x ^ 2 + 7, ())) () 0 ms true) =
      outcome (iterativeSolve (Golden.solver cfg) fin (fun x => (x ^ 2, ())) () 0 ms true) :=
  C94_golden_outcome _ _ _ ⟨by simp, by simp⟩ (by simp) (by norm_num) le_rfl _ _ _ _ _

/-! ### Nelder-Mead -/

section nm

variable {n : ℕ} [NeZero n] {ι : Type}

theorem argmin_congr {α β : Type} [LinearOrder β] (g g' : α → β) (h : ∀ a b, g' a < g' b ↔ g a < g b) (l : List α) :
    l.argmin g' = l.argmin g := by
  have : (fun b c => g' b < g' c) = fun b c => g b < g c := by
    funext b c; exact propext (h b c)
  unfold List.argmin
  congr 1
  unfold List.argAux
  funext a b
  cases a with
  | none => rfl
  | some c => simp only [h]

theorem argmax_congr {α β : Type} [LinearOrder β] (g g' : α → β) (h : ∀ a b, g' a < g' b ↔ g a < g b) (l : List α) :
    l.argmax g' = l.argmax g := by
  unfold List.argmax
  congr 1
  unfold List.argAux
  funext a b
  cases a with
  | none => rfl
  | some c => simp only [h]

variable (f f' : (ι → ℝ) → NelderMead.Val × A)

/-- The states agree in everything but the values, which belong to the same points. -/
structure NMRel (st st' : NelderMead.State n ι A) : Prop where
  simplex : st'.simplex = st.simplex
  stats : st'.stats = st.stats
  firstPass : st'.firstPass = st.firstPass
  aux : st'.aux = st.aux
  best : st'.best = st.best
  worst : st'.worst = st.worst
  worstIndex : st'.worstIndex = st.worstIndex
  values : st.firstPass = false → (∃ p : Fin n → ι → ℝ, (∀ i, st.fSimplex i = (f (p i)).1) ∧ ∀ i, st'.fSimplex i = (f' (p i)).1) ∧
    (∃ p, st.fBest = (f p).1 ∧ st'.fBest = (f' p).1) ∧ (∃ p, st.fWorst = (f p).1 ∧ st'.fWorst = (f' p).1) ∧
    ∃ p, st.fSecondWorst = (f p).1 ∧ st'.fSecondWorst = (f' p).1

/-- The end of a step of `NelderMead`: from the new simplex with its values. -/
noncomputable def finish (st : NelderMead.State n ι A) (stats : NelderMead.Stats) (aux : A)
    (u : (Fin n → NelderMead.Val) × (Fin n → ι → ℝ)) : (ι → ℝ) × NelderMead.State n ι A × A :=
  (st.simplex (NelderMead.topMin u.1),
   { simplex := u.2, fSimplex := u.1, fBest := u.1 (NelderMead.topMin u.1), best := st.simplex (NelderMead.topMin u.1),
     bestIndex := NelderMead.topMin u.1, fWorst := u.1 (NelderMead.topMax u.1), worst := st.simplex (NelderMead.topMax u.1),
     worstIndex := NelderMead.topMax u.1, fSecondWorst := NelderMead.secondMax u.1, stats, result := st.result, firstPass := false,
     aux, step := st.step + 1 }, aux)

theorem finish_rel (h : SameOrder f f') (st st' : NelderMead.State n ι A) (r : NMRel f f' st st') (stats : NelderMead.Stats) (aux : A)
    (w w' : Fin n → NelderMead.Val) (sx : Fin n → ι → ℝ) (p : Fin n → ι → ℝ) (hw : ∀ i, w i = (f (p i)).1)
    (hw' : ∀ i, w' i = (f' (p i)).1) :
    (finish st' stats aux (w', sx)).1 = (finish st stats aux (w, sx)).1 ∧
      NMRel f f' (finish st stats aux (w, sx)).2.1 (finish st' stats aux (w', sx)).2.1 ∧
      (finish st' stats aux (w', sx)).2.2 = (finish st stats aux (w, sx)).2.2 := by
  have hlt : ∀ a b, w' a < w' b ↔ w a < w b := fun a b => by rw [hw, hw, hw', hw', h.lt]
  have e1 : NelderMead.topMax w' = NelderMead.topMax w := by
    simp only [NelderMead.topMax, argmax_congr w w' hlt]
  have e2 : NelderMead.topMin w' = NelderMead.topMin w := by
    simp only [NelderMead.topMin, argmin_congr w w' hlt]
  have e3 : ∃ i, NelderMead.secondMax w = w i ∧ NelderMead.secondMax w' = w' i := by
    refine ⟨_, rfl, ?_⟩
    simp only [NelderMead.secondMax, e1, argmax_congr w w' hlt]
  obtain ⟨i, e3, e3'⟩ := e3
  refine ⟨by simp only [finish, e2, r.simplex], ⟨rfl, rfl, rfl, rfl, ?_, ?_, e1, fun _ => ⟨⟨p, hw, hw'⟩, ⟨p (NelderMead.topMin w), hw _, ?_⟩,
    ⟨p (NelderMead.topMax w), hw _, ?_⟩, ⟨p i, e3.trans (hw i), e3'.trans (hw' i)⟩⟩⟩, rfl⟩
  · simp only [finish, e2, r.simplex]
  · simp only [finish, e1, r.simplex]
  · simp only [finish, e2, hw']
  · simp only [finish, e1, hw']

/-- **C94** for `NelderMead`: functions that put the points in the same order give the same simplices, statistics and iterates. -/
theorem C94_nelder_mead (cfg : NelderMead.Cfg n ι) (h : SameOrder f f') (aux0 : A) (y0 : ι → ℝ) :
    SameCourse (NelderMead.solver cfg aux0) (fun st => (st.simplex, st.stats)) f f' aux0 y0 := by
  refine sameCourse_of_rel (NMRel f f') ?_ ?_ aux0 y0 ?_
  · intro y st st' r
    show (NelderMead.step f' y st').1 = (NelderMead.step f y st).1 ∧
      NMRel f f' (NelderMead.step f y st).2.1 (NelderMead.step f' y st').2.1 ∧
      (NelderMead.step f' y st').2.2 = (NelderMead.step f y st).2.2
    cases hfp : st.firstPass with
    | true =>
      have hs : ∀ (g : (ι → ℝ) → NelderMead.Val × A) (s : NelderMead.State n ι A), s.firstPass = true →
          NelderMead.step g y s = finish s (NelderMead.updateStats s.stats false false false false true) s.aux
            (fun i => (g (s.simplex i)).1, s.simplex) := by
        intro g s hs
        simp [NelderMead.step, hs, NelderMead.initStep, NelderMead.shrinkSimplex, finish]
      rw [hs f st hfp, hs f' st' (r.firstPass.trans hfp), r.stats, r.aux, r.simplex]
      exact finish_rel f f' h st st' r _ _ _ _ _ _ (fun _ => rfl) (fun _ => rfl)
    | false =>
      obtain ⟨⟨p, hp, hp'⟩, ⟨b, hb, hb'⟩, ⟨w, hw, hw'⟩, ⟨s2, hs2, hs2'⟩⟩ := r.values hfp
      have hfp' := r.firstPass.trans hfp
      set nv := (NelderMead.mainStep f st).1 with hnv
      have hm : NelderMead.mainStep f st = (nv, (f nv).1, (NelderMead.mainStep f st).2.2.1, (f nv).2) := rfl
      have hm' : NelderMead.mainStep f' st' = (nv, (f' nv).1, (NelderMead.mainStep f st).2.2.1, (f nv).2) := by
        simp only [hnv, NelderMead.mainStep, NelderMead.internalEval, r.simplex, r.worst, r.stats, hb, hb', hw, hw', hs2, hs2',
          h.lt, h.aux]
      have hs : ∀ (g : (ι → ℝ) → NelderMead.Val × A) (s : NelderMead.State n ι A), s.firstPass = false →
          NelderMead.step g y s =
            finish s (NelderMead.updateStats (NelderMead.mainStep g s).2.2.1 false false false false
                (decide (s.fWorst < (NelderMead.mainStep g s).2.1))) (NelderMead.mainStep g s).2.2.2
              (if decide (s.fWorst < (NelderMead.mainStep g s).2.1) then
                NelderMead.shrinkSimplex g (if decide ((NelderMead.mainStep g s).2.1 < s.fBest) then (NelderMead.mainStep g s).1 else s.best)
                  s.simplex false
              else NelderMead.updateSimplex s.worstIndex (NelderMead.mainStep g s).1 (NelderMead.mainStep g s).2.1 s.fSimplex s.simplex) := by
        intro g s hs
        simp only [NelderMead.step, hs, Bool.false_eq_true, if_false, finish]
      rw [hs f st hfp, hs f' st' hfp', hm', hm]
      simp only [hb, hb', hw, hw', h.lt, r.best, r.simplex, r.worstIndex]
      by_cases hc : (f w).1 < (f nv).1
      · simp only [hc, decide_true, if_true]
        exact finish_rel f f' h st st' r _ _ _ _ _ _ (fun _ => rfl) (fun _ => rfl)
      · simp only [hc, decide_false, Bool.false_eq_true, if_false]
        refine finish_rel f f' h st st' r _ _ _ _ _ (fun i => if i = st.worstIndex then nv else p i) (fun i => ?_) (fun i => ?_)
        · by_cases hi : i = st.worstIndex <;> simp [hi, hp]
        · by_cases hi : i = st.worstIndex <;> simp [hi, hp']
  · intro st st' r
    rw [r.simplex, r.stats]
  · show (∃ e, NelderMead.init cfg aux0 y0 = .error e ∧ NelderMead.init cfg aux0 y0 = .error e) ∨
      ∃ st st', NelderMead.init cfg aux0 y0 = .ok st ∧ NelderMead.init cfg aux0 y0 = .ok st' ∧ _
    unfold NelderMead.init
    split
    · exact .inl ⟨_, rfl, rfl⟩
    · exact .inr ⟨_, _, rfl, rfl, rfl, rfl, rfl, rfl, rfl, rfl, rfl, fun h => nomatch h⟩

/-- `exp(x² + y²)` and `x² + y²`, with the initial simplex of the code. -/
example (rtol atol : ℝ) (y0 : NelderMead.Entry ![1, 1] → ℝ) :
    SameCourse (NelderMead.solver (NelderMead.cfgFor ![1, 1] rtol atol maxNorm maxNorm 0.05 0.00025) ()) (fun st => (st.simplex, st.stats))
      (fun x => (((∑ e, x e ^ 2 : ℝ) : NelderMead.Val), ())) (fun x => (((Real.exp (∑ e, x e ^ 2) : ℝ) : NelderMead.Val), ())) () y0 :=
  C94_nelder_mead _ _ _ ⟨fun x y => by simp only [WithTop.coe_lt_coe, Real.exp_lt_exp], by simp⟩ _ _

end nm

end Verif.Comparisons
