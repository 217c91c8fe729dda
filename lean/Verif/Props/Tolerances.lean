import Verif.Lemmas.Tolerances
import Verif.Props.Misc
import Verif.Model.QuasiNewton
import Verif.Model.NelderMead
import Verif.Model.Optax
import Verif.Model.FixedPoint
import Verif.Model.Golden
import Verif.Model.Bisection
import Verif.Model.NewtonChord
import Verif.Model.BestSoFar
import Verif.Model.LevenbergMarquardt

/-!
Property C113: making the tolerances smaller, or the norm larger, only prolongs a solve.
-/

namespace Verif.Props

open Verif Verif.Spec Verif.Driver

variable {ι κ A SS DS HS OS Y Out St St' Stats : Type}

/-- The tolerances `rtol'`, `atol'` are at most `rtol`, `atol` (and `atol'` is positive, so that nothing is divided by zero), the
norms `nY'`, `nF'` at least `nY`, `nF` (which are monotone). -/
structure Stricter (rtol atol : ℝ) (nY : (ι → ℝ) → ℝ) (nF : (κ → ℝ) → ℝ) (rtol' atol' : ℝ) (nY' : (ι → ℝ) → ℝ)
    (nF' : (κ → ℝ) → ℝ) : Prop where
  atol_pos : 0 < atol'
  atol_le : atol' ≤ atol
  rtol_nonneg : 0 ≤ rtol'
  rtol_le : rtol' ≤ rtol
  goodY : GoodNorm nY
  goodF : GoodNorm nF
  normY_le : ∀ x, nY x ≤ nY' x
  normF_le : ∀ x, nF x ≤ nF' x

variable [Fintype ι]

theorem Stricter.cauchy [Fintype κ] {rtol atol : ℝ} {nY : (ι → ℝ) → ℝ} {nF : (κ → ℝ) → ℝ} {rtol' atol' : ℝ} {nY' : (ι → ℝ) → ℝ}
    {nF' : (κ → ℝ) → ℝ} (h : Stricter rtol atol nY nF rtol' atol' nY' nF') (y yd : ι → ℝ) (f fd : κ → ℝ)
    (ht : cauchyTermination rtol' atol' nY' nF' y yd f fd = true) : cauchyTermination rtol atol nY nF y yd f fd = true := by
  refine C46_cauchy_monotone_tol rtol' atol' rtol atol h.atol_pos h.rtol_nonneg h.rtol_le h.atol_le nY nF h.goodY h.goodF
    y yd f fd ?_
  rw [C46_cauchy_needs_both] at ht ⊢
  exact ⟨(h.normY_le _).trans_lt ht.1, (h.normF_le _).trans_lt ht.2⟩

/-- The verdict of a solver that stores the outcome of its stopping test. -/
theorem verdict_cases (b b' : Bool) (hb : b' = true → b = true) (r : Result) :
    (b, r) = (true, .successful) ∨ (r = r ∧ (r = .successful → b = false ∧ b' = false)) := by
  by_cases hr : r = .successful
  · subst hr
    cases b
    · right
      refine ⟨rfl, fun _ => ⟨rfl, ?_⟩⟩
      cases b'
      · rfl
      · exact absurd (hb rfl) (by simp)
    · exact .inl rfl
  · exact .inr ⟨rfl, fun h => absurd h hr⟩

/-- The verdict of the rate-based stopping test. -/
theorem rate_cases (a a' b b' e : Bool) (ha : a' = true → a = true) (hb : b' = true → b = true) :
    ((a || e || b, if (!a && e) = true then Result.nonlinearDivergence else .successful) = (true, .successful)) ∨
    ((if (!a' && e) = true then Result.nonlinearDivergence else .successful) =
        (if (!a && e) = true then Result.nonlinearDivergence else .successful) ∧
      ((if (!a && e) = true then Result.nonlinearDivergence else .successful) = .successful →
        (a || e || b) = false ∧ (a' || e || b') = false)) := by
  revert ha hb
  cases a <;> cases a' <;> cases b <;> cases b' <;> cases e <;> simp

/-! ### Solvers built from a search and a descent -/

section
variable {rtol' atol' : ℝ} {nY' : (ι → ℝ) → ℝ}

theorem gd_tightens (cfg : GradientDescent.Cfg ι SS DS) {nF' : (Unit → ℝ) → ℝ}
    (h : ∀ y yd f fd, cauchyTermination rtol' atol' nY' nF' y yd f fd = true →
      cauchyTermination cfg.rtol cfg.atol cfg.normY cfg.normF y yd f fd = true) (aux0 : A) (fn : (ι → ℝ) → ℝ × A) :
    Tightens (GradientDescent.solver cfg aux0)
      (GradientDescent.solver { cfg with rtol := rtol', atol := atol', normY := nY', normF := nF' } aux0) fn
      (fun st st' => ∃ b, st' = { st with terminate := b } ∧ (b = true → st.terminate = true)) where
  init y := by
    simp only [GradientDescent.solver, GradientDescent.init]
    split
    · exact .inl ⟨_, rfl, rfl⟩
    · exact .inr ⟨_, _, rfl, rfl, false, rfl, by simp⟩
  step := by
    rintro y st _ ⟨b, rfl, _⟩
    simp only [GradientDescent.solver, GradientDescent.step]
    cases hacc : (cfg.search.step st.firstStep y st.yEval st.fInfo (.eval (fn st.yEval).1) st.searchState).2.1
    · exact ⟨rfl, ⟨false, rfl, by simp⟩, rfl⟩
    · refine ⟨rfl, ⟨_, rfl, ?_⟩, rfl⟩
      cases hf : st.firstStep
      · simpa using h _ _ _ _
      · simp
  terminate := by
    rintro y st _ ⟨b, rfl, hb⟩
    exact verdict_cases _ _ hb _
  post := by
    rintro y a st _ r r' ⟨b, rfl, _⟩
    rfl

theorem qn_tightens (cfg : QuasiNewton.Cfg ι SS DS HS) {nF' : (Unit → ℝ) → ℝ}
    (h : ∀ y yd f fd, cauchyTermination rtol' atol' nY' nF' y yd f fd = true →
      cauchyTermination cfg.rtol cfg.atol cfg.normY cfg.normF y yd f fd = true) (aux0 : A) (fn : (ι → ℝ) → ℝ × A) :
    Tightens (QuasiNewton.solver cfg aux0)
      (QuasiNewton.solver { cfg with rtol := rtol', atol := atol', normY := nY', normF := nF' } aux0) fn
      (fun st st' => ∃ b, st' = { st with terminate := b } ∧ (b = true → st.terminate = true)) where
  init y := by
    simp only [QuasiNewton.solver, QuasiNewton.init]
    split
    · exact .inl ⟨_, rfl, rfl⟩
    · exact .inr ⟨_, _, rfl, rfl, false, rfl, by simp⟩
  step := by
    rintro y st _ ⟨b, rfl, _⟩
    simp only [QuasiNewton.solver, QuasiNewton.step]
    cases hacc : (cfg.search.step st.firstStep y st.yEval st.fInfo (.eval (fn st.yEval).1) st.searchState).2.1
    · exact ⟨rfl, ⟨false, rfl, by simp⟩, rfl⟩
    · refine ⟨rfl, ⟨_, rfl, ?_⟩, rfl⟩
      cases hf : st.firstStep
      · simpa using h _ _ _ _
      · simp
  terminate := by
    rintro y st _ ⟨b, rfl, hb⟩
    exact verdict_cases _ _ hb _
  post := by
    rintro y a st _ r r' ⟨b, rfl, _⟩
    rfl

theorem gn_tightens [Fintype κ] (cfg : GaussNewton.Cfg ι κ SS DS) {nF' : (κ → ℝ) → ℝ}
    (h : ∀ y yd f fd, cauchyTermination rtol' atol' nY' nF' y yd f fd = true →
      cauchyTermination cfg.rtol cfg.atol cfg.normY cfg.normF y yd f fd = true) (aux0 : A) (fn : (ι → ℝ) → (κ → ℝ) × A) :
    Tightens (GaussNewton.solver cfg aux0)
      (GaussNewton.solver { cfg with rtol := rtol', atol := atol', normY := nY', normF := nF' } aux0) fn
      (fun st st' => ∃ b, st' = { st with terminate := b } ∧ (b = true → st.terminate = true)) where
  init y := by
    simp only [GaussNewton.solver, GaussNewton.init]
    split
    · exact .inl ⟨_, rfl, rfl⟩
    · exact .inr ⟨_, _, rfl, rfl, false, rfl, by simp⟩
  step := by
    rintro y st _ ⟨b, rfl, _⟩
    simp only [GaussNewton.solver, GaussNewton.step]
    split
    · refine ⟨rfl, ⟨_, rfl, ?_⟩, rfl⟩
      exact h _ _ _ _
    · exact ⟨rfl, ⟨false, rfl, by simp⟩, rfl⟩
  terminate := by
    rintro y st _ ⟨b, rfl, hb⟩
    exact verdict_cases _ _ hb _
  post := by
    rintro y a st _ r r' ⟨b, rfl, _⟩
    rfl

/-- **C113**, gradient descent, nonlinear CG and everything else built on `AbstractGradientDescent`, with any search and any
descent. -/
theorem C113_gradient_descent (cfg : GradientDescent.Cfg ι SS DS) (nF' : (Unit → ℝ) → ℝ)
    (h : Stricter cfg.rtol cfg.atol cfg.normY cfg.normF rtol' atol' nY' nF') (aux0 : A) (fn : (ι → ℝ) → ℝ × A)
    (af : (ι → ℝ) → Bool) (y0 : ι → ℝ) :
    OnlyProlongs (GradientDescent.solver cfg aux0)
      (GradientDescent.solver { cfg with rtol := rtol', atol := atol', normY := nY', normF := nF' } aux0) af fn aux0 y0 :=
  (gd_tightens cfg h.cauchy aux0 fn).prolongs af aux0 y0

/-- **C113**, BFGS, DFP, L-BFGS and everything else built on `AbstractQuasiNewton`, with any search and any descent. -/
theorem C113_quasi_newton (cfg : QuasiNewton.Cfg ι SS DS HS) (nF' : (Unit → ℝ) → ℝ)
    (h : Stricter cfg.rtol cfg.atol cfg.normY cfg.normF rtol' atol' nY' nF') (aux0 : A) (fn : (ι → ℝ) → ℝ × A)
    (af : (ι → ℝ) → Bool) (y0 : ι → ℝ) :
    OnlyProlongs (QuasiNewton.solver cfg aux0)
      (QuasiNewton.solver { cfg with rtol := rtol', atol := atol', normY := nY', normF := nF' } aux0) af fn aux0 y0 :=
  (qn_tightens cfg h.cauchy aux0 fn).prolongs af aux0 y0

/-- **C113**, Gauss-Newton, Levenberg-Marquardt, Dogleg and everything else built on `AbstractGaussNewton`, with any search and
any descent. -/
theorem C113_gauss_newton [Fintype κ] (cfg : GaussNewton.Cfg ι κ SS DS) (nF' : (κ → ℝ) → ℝ)
    (h : Stricter cfg.rtol cfg.atol cfg.normY cfg.normF rtol' atol' nY' nF') (aux0 : A) (fn : (ι → ℝ) → (κ → ℝ) × A)
    (af : (ι → ℝ) → Bool) (y0 : ι → ℝ) :
    OnlyProlongs (GaussNewton.solver cfg aux0)
      (GaussNewton.solver { cfg with rtol := rtol', atol := atol', normY := nY', normF := nF' } aux0) af fn aux0 y0 :=
  (gn_tightens cfg h.cauchy aux0 fn).prolongs af aux0 y0

end

/-! ### The other solvers -/

/-- **C113**, `OptaxMinimiser` with any optimiser. -/
theorem C113_optax (cfg : Optax.Cfg ι OS) (rtol' atol' : ℝ) (nY' : (ι → ℝ) → ℝ) (nF' : (Unit → ℝ) → ℝ)
    (h : Stricter cfg.rtol cfg.atol cfg.normY cfg.normF rtol' atol' nY' nF') (aux0 : A) (fn : (ι → ℝ) → ℝ × A)
    (af : (ι → ℝ) → Bool) (y0 : ι → ℝ) :
    OnlyProlongs (Optax.solver cfg)
      (Optax.solver { cfg with rtol := rtol', atol := atol', normY := nY', normF := nF' }) af fn aux0 y0 := by
  refine Tightens.prolongs (R := fun st st' => ∃ b, st' = { st with terminate := b } ∧ (b = true → st.terminate = true))
    ⟨fun y => .inr ⟨_, _, rfl, rfl, false, rfl, by simp⟩, ?_, ?_, fun _ _ _ _ _ _ _ => rfl⟩ af aux0 y0
  · rintro y st _ ⟨b, rfl, _⟩
    exact ⟨rfl, ⟨_, rfl, h.cauchy _ _ _ _⟩, rfl⟩
  · rintro y st _ ⟨b, rfl, hb⟩
    exact verdict_cases _ _ hb _

/-- **C113**, `FixedPointIteration`. -/
theorem C113_fixed_point (rtol atol damp rtol' atol' : ℝ) (norm norm' : (ι → ℝ) → ℝ)
    (h : Stricter rtol atol norm norm rtol' atol' norm' norm') (aux0 : A) (fn : (ι → ℝ) → (ι → ℝ) × A)
    (af : (ι → ℝ) → Bool) (y0 : ι → ℝ) :
    OnlyProlongs (FixedPointIter.solver ⟨rtol, atol, norm, damp⟩) (FixedPointIter.solver ⟨rtol', atol', norm', damp⟩)
      af fn aux0 y0 := by
  refine Tightens.prolongs (R := fun st st' => (st = none ∧ st' = none) ∨ ∃ e e', st = some e ∧ st' = some e' ∧ e ≤ e')
    ⟨fun y => .inr ⟨_, _, rfl, rfl, .inl ⟨rfl, rfl⟩⟩, ?_, ?_, fun _ _ _ _ _ _ _ => rfl⟩ af aux0 y0
  · intro y st st' _
    refine ⟨rfl, .inr ⟨_, _, rfl, rfl, ?_⟩, rfl⟩
    refine (h.goodY.mono _ _ fun i => ?_).trans (h.normY_le _)
    simp only [HasAbs.abs_real]
    have h1 : 0 < atol' + rtol' * |(1 - damp) * (fn y).1 i + damp * y i| :=
      add_pos_of_pos_of_nonneg h.atol_pos (mul_nonneg h.rtol_nonneg (abs_nonneg _))
    have h2 : atol' + rtol' * |(1 - damp) * (fn y).1 i + damp * y i| ≤ atol + rtol * |(1 - damp) * (fn y).1 i + damp * y i| :=
      add_le_add h.atol_le (mul_le_mul_of_nonneg_right h.rtol_le (abs_nonneg _))
    rw [abs_div, abs_div, abs_of_pos h1, abs_of_pos (h1.trans_le h2)]
    exact div_le_div_of_nonneg_left (abs_nonneg _) h1 h2
  · rintro y st st' hr
    refine verdict_cases (FixedPointIter.terminate st).1 (FixedPointIter.terminate st').1 ?_ _
    rcases hr with ⟨rfl, rfl⟩ | ⟨e, e', rfl, rfl, hle⟩
    · simp [FixedPointIter.terminate]
    · simp only [FixedPointIter.terminate, decide_eq_true_eq]
      exact hle.trans_lt

/-- **C113**, `Bisection` (any choice of `flip` and `expand_if_necessary`). -/
theorem C113_bisection (cfg : Bisection.Cfg ℝ) (rtol' atol' : ℝ) (ha : atol' ≤ cfg.atol) (hr : rtol' ≤ cfg.rtol) (aux0 : A)
    (fn : ℝ → ℝ × A) (af : ℝ → Bool) (y0 : ℝ) :
    OnlyProlongs (Bisection.solver cfg) (Bisection.solver { cfg with rtol := rtol', atol := atol' }) af fn aux0 y0 := by
  refine Tightens.prolongs (R := fun st st' => st' = st) ⟨fun y => ?_, ?_, ?_, fun _ _ _ _ _ _ _ => rfl⟩ af aux0 y0
  · show (∃ e, Bisection.init cfg fn y = .error e ∧ Bisection.init cfg fn y = .error e) ∨
      ∃ st st', Bisection.init cfg fn y = .ok st ∧ Bisection.init cfg fn y = .ok st' ∧ st' = st
    cases Bisection.init cfg fn y with
    | error e => exact .inl ⟨e, rfl, rfl⟩
    | ok st => exact .inr ⟨st, st, rfl, rfl, rfl⟩
  · rintro y st _ rfl
    exact ⟨rfl, rfl, rfl⟩
  · rintro y st st' hst
    subst hst
    refine verdict_cases (Bisection.terminate cfg y st').1
      (Bisection.terminate { cfg with rtol := rtol', atol := atol' } y st').1 ?_ _
    simp only [Bisection.terminate, Bool.and_eq_true, decide_eq_true_eq, HasAbs.abs_real]
    rintro ⟨h1, h2⟩
    refine ⟨h1.trans_le (add_le_add ha (mul_le_mul_of_nonneg_right hr (abs_nonneg _))), ?_⟩
    cases he : st'.error with
    | none => rw [he] at h2; exact h2
    | some e =>
      rw [he] at h2
      simp only [decide_eq_true_eq] at h2 ⊢
      exact h2.trans_le ha

/-- **C113**, `GoldenSearch`. -/
theorem C113_golden (cfg : Golden.Cfg) (rtol' atol' : ℝ) (h0 : 0 < atol') (ha : atol' ≤ cfg.atol) (h1 : 0 ≤ rtol')
    (hr : rtol' ≤ cfg.rtol) (aux0 : A) (fn : ℝ → ℝ × A) (af : ℝ → Bool) (y0 : ℝ) :
    OnlyProlongs (Golden.solver cfg) (Golden.solver { cfg with rtol := rtol', atol := atol' }) af fn aux0 y0 := by
  have hn : GoodNorm (fun v : Unit → ℝ => |v ()|) :=
    ⟨fun x => abs_nonneg _, fun x y h => h (), fun c x => abs_mul _ _⟩
  have hst : Stricter (ι := Unit) (κ := Unit) cfg.rtol cfg.atol (fun v => |v ()|) (fun v => |v ()|) rtol' atol'
      (fun v => |v ()|) (fun v => |v ()|) := ⟨h0, ha, h1, hr, hn, hn, fun _ => le_rfl, fun _ => le_rfl⟩
  refine Tightens.prolongs (R := fun st st' => ∃ b, st' = { st with terminate := b } ∧ (b = true → st.terminate = true))
    ⟨fun y => ?_, ?_, ?_, fun _ _ _ _ _ _ _ => rfl⟩ af aux0 y0
  · show (∃ e, Golden.init cfg fn y = .error e ∧ Golden.init cfg fn y = .error e) ∨
      ∃ st st', Golden.init cfg fn y = .ok st ∧ Golden.init cfg fn y = .ok st' ∧
        ∃ b, st' = { st with terminate := b } ∧ (b = true → st.terminate = true)
    cases Golden.init cfg fn y with
    | error e => exact .inl ⟨e, rfl, rfl⟩
    | ok st => exact .inr ⟨st, st, rfl, rfl, st.terminate, rfl, id⟩
  · rintro y st _ ⟨b, rfl, _⟩
    generalize hy : (if st.first then st.lower + (st.upper - st.middle) else y) = y_
    by_cases hm : (fn y_).1 < st.fMiddle
    · simp only [Golden.solver, Golden.step, hy, if_pos hm]
      exact ⟨trivial, ⟨_, rfl, hst.cauchy _ _ _ _⟩, trivial⟩
    · simp only [Golden.solver, Golden.step, hy, if_neg hm]
      exact ⟨trivial, ⟨_, rfl, hst.cauchy _ _ _ _⟩, trivial⟩
  · rintro y st _ ⟨b, rfl, hb⟩
    exact verdict_cases _ _ hb _

/-- **C113**, `NelderMead`. -/
theorem C113_nelder_mead {n : Nat} [NeZero n] (cfg : NelderMead.Cfg n ι) (rtol' atol' : ℝ) (nX' : (Fin n × ι → ℝ) → ℝ)
    (nF' : (Fin n → ℝ) → ℝ) (h : Stricter cfg.rtol cfg.atol cfg.normX cfg.normF rtol' atol' nX' nF') (aux0 : A)
    (fn : (ι → ℝ) → NelderMead.Val × A) (af : (ι → ℝ) → Bool) (y0 : ι → ℝ) :
    OnlyProlongs (NelderMead.solver cfg aux0)
      (NelderMead.solver { cfg with rtol := rtol', atol := atol', normX := nX', normF := nF' } aux0) af fn aux0 y0 := by
  have key : ∀ d v : ℝ, |(|d| / (cfg.atol + cfg.rtol * |v|))| ≤ |(|d| / (atol' + rtol' * |v|))| := by
    intro d v
    have h1 : 0 < atol' + rtol' * |v| :=
      add_pos_of_pos_of_nonneg h.atol_pos (mul_nonneg h.rtol_nonneg (abs_nonneg _))
    have h2 : atol' + rtol' * |v| ≤ cfg.atol + cfg.rtol * |v| :=
      add_le_add h.atol_le (mul_le_mul_of_nonneg_right h.rtol_le (abs_nonneg _))
    rw [abs_div, abs_div, abs_of_pos h1, abs_of_pos (h1.trans_le h2)]
    exact div_le_div_of_nonneg_left (abs_nonneg _) h1 h2
  refine Tightens.prolongs (R := fun st st' => st' = st) ⟨fun y => ?_, ?_, ?_, ?_⟩ af aux0 y0
  · simp only [NelderMead.solver, NelderMead.init]
    split
    · exact .inl ⟨_, rfl, rfl⟩
    · exact .inr ⟨_, _, rfl, rfl, rfl⟩
  · rintro y st _ rfl
    exact ⟨rfl, rfl, rfl⟩
  · rintro y st st' hst
    subst hst
    refine verdict_cases (NelderMead.terminate cfg st').1
      (NelderMead.terminate { cfg with rtol := rtol', atol := atol', normX := nX', normF := nF' } st').1 ?_
      (NelderMead.terminate cfg st').2
    simp only [NelderMead.terminate, Bool.or_eq_true, Bool.and_eq_true, decide_eq_true_eq]
    rintro (⟨h1, h2, h3⟩ | h4)
    · left
      exact ⟨((h.goodY.mono _ _ fun p => key _ _).trans (h.normY_le _)).trans_lt h1, h2,
        ((h.goodF.mono _ _ fun p => key _ _).trans (h.normF_le _)).trans_lt h3⟩
    · exact .inr h4
  · rintro y a st _ r r' rfl
    rfl

/-! ### Newton and Chord -/

variable {J : Type}

/-- **C113**, `Newton` and `Chord` with the default stopping test (`cauchy_termination=True`). -/
theorem C113_newton_chord [Fintype κ] (cfg : NewtonChord.Cfg ι κ ℝ J) (hc : cfg.cauchy = true) (rtol' atol' : ℝ)
    (nY' : (ι → ℝ) → ℝ) (nF' : (κ → ℝ) → ℝ) (h : Stricter cfg.rtol cfg.atol cfg.normY cfg.normF rtol' atol' nY' nF')
    (aux0 : A) (fn : (ι → ℝ) → (κ → ℝ) × A) (af : (ι → ℝ) → Bool) (y0 : ι → ℝ) :
    OnlyProlongs (NewtonChord.solver cfg)
      (NewtonChord.solver { cfg with rtol := rtol', atol := atol', normY := nY', normF := nF' }) af fn aux0 y0 := by
  refine Tightens.prolongs (R := fun st st' => ∃ d d', st' = { st with diffsize := d, diffsizePrev := d' } ∧ st.f ≠ none)
    ⟨fun y => .inr ⟨_, _, rfl, rfl, _, _, rfl, ?_⟩, ?_, ?_, fun _ _ _ _ _ _ _ => rfl⟩ af aux0 y0
  · simp [NewtonChord.init, hc]
  · rintro y st _ ⟨d, d', rfl, _⟩
    refine ⟨rfl, ⟨_, _, rfl, ?_⟩, rfl⟩
    simp [NewtonChord.solver, NewtonChord.step, hc]
  · rintro y st _ ⟨d, d', rfl, hf⟩
    obtain ⟨f, hf⟩ := Option.ne_none_iff_exists'.1 hf
    have e1 : (NewtonChord.solver (A := A) cfg).terminate fn y st = (decide (st.result ≠ .successful) ||
        cauchyTermination cfg.rtol cfg.atol cfg.normY cfg.normF y st.diff (fun _ => 0) f,
        if decide (st.result ≠ .successful) then st.result else .successful) := by
      simp only [NewtonChord.solver, NewtonChord.terminate, hc, hf]
    have e2 : (NewtonChord.solver (A := A) { cfg with rtol := rtol', atol := atol', normY := nY', normF := nF' }).terminate fn y
        { st with diffsize := d, diffsizePrev := d' } = (decide (st.result ≠ .successful) ||
        cauchyTermination rtol' atol' nY' nF' y st.diff (fun _ => 0) f,
        if decide (st.result ≠ .successful) then st.result else .successful) := by
      simp only [NewtonChord.solver, NewtonChord.terminate, hc, hf]
    rw [e1, e2]
    refine verdict_cases _ _ ?_ _
    simp only [Bool.or_eq_true]
    exact Or.imp_right (h.cauchy _ _ _ _)

/-- **C113**, `Newton` and `Chord` with `cauchy_termination=False`: both tolerances are multiplied by the same factor. -/
theorem C113_newton_chord_rate (cfg : NewtonChord.Cfg ι κ ℝ J) (hc : cfg.cauchy = false) (hn : GoodNorm cfg.normY) (c : ℝ)
    (h0 : 0 < c) (h1 : c ≤ 1) (aux0 : A) (fn : (ι → ℝ) → (κ → ℝ) × A) (af : (ι → ℝ) → Bool) (y0 : ι → ℝ) :
    OnlyProlongs (NewtonChord.solver cfg)
      (NewtonChord.solver { cfg with rtol := c * cfg.rtol, atol := c * cfg.atol }) af fn aux0 y0 := by
  refine Tightens.prolongs (R := fun st st' => ∃ d d', st' = { st with diffsize := d, diffsizePrev := d' } ∧
      (1 ≤ st.step → 0 ≤ st.diffsize ∧ d = st.diffsize / c) ∧ (2 ≤ st.step → d' = st.diffsizePrev / c))
    ⟨fun y => .inr ⟨_, _, rfl, rfl, _, _, rfl, ?_, ?_⟩, ?_, ?_, fun _ _ _ _ _ _ _ => rfl⟩ af aux0 y0
  · simp [NewtonChord.init]
  · simp [NewtonChord.init]
  · rintro y st _ ⟨d, d', rfl, hd, _⟩
    refine ⟨rfl, ⟨_, _, rfl, fun _ => ⟨hn.nonneg _, ?_⟩, fun h2 => ?_⟩, rfl⟩
    · show cfg.normY _ = cfg.normY _ / c
      rw [div_eq_inv_mul, ← abs_of_pos (inv_pos.2 h0), ← hn.smul]
      congr 1
      funext i
      have key : ∀ v w : ℝ, v / (c * cfg.atol + c * cfg.rtol * w) = c⁻¹ * (v / (cfg.atol + cfg.rtol * w)) := fun v w => by
        rw [show c * cfg.atol + c * cfg.rtol * w = (cfg.atol + cfg.rtol * w) * c by ring, ← div_div, div_eq_inv_mul _ c]
      exact key _ _
    · have : 1 ≤ st.step := by
        have : 2 ≤ st.step + 1 := h2
        omega
      exact (hd this).2
  · rintro y st _ ⟨d, d', rfl, hd, hd'⟩
    simp only [NewtonChord.solver, NewtonChord.terminate, hc]
    by_cases hf : st.result = .successful
    swap
    · refine .inr ⟨?_, fun h => ?_⟩
      · simp [hf]
      · exact absurd h (by simp [hf])
    by_cases h2 : 2 ≤ st.step
    swap
    · exact .inr ⟨by simp [hf, h2], fun _ => by simp [hf, h2]⟩
    obtain ⟨hp, hd⟩ := hd (by omega)
    have hd' := hd' h2
    have hrate : d / d' = st.diffsize / st.diffsizePrev := by
      rw [hd, hd']
      exact div_div_div_cancel_right₀ h0.ne' _ _
    have hge : st.diffsize ≤ d := by
      rw [hd, le_div_iff₀ h0]
      nlinarith
    simp only [hrate]
    have hsmall : NewtonChord.small cfg d = true → NewtonChord.small cfg st.diffsize = true := by
      simp only [NewtonChord.small, decide_eq_true_eq]
      exact hge.trans_lt
    have hconv : NewtonChord.converged (d * (st.diffsize / st.diffsizePrev) / (1 - st.diffsize / st.diffsizePrev)) cfg.kappa = true →
        NewtonChord.converged (st.diffsize * (st.diffsize / st.diffsizePrev) / (1 - st.diffsize / st.diffsizePrev)) cfg.kappa = true := by
      set q := (st.diffsize / st.diffsizePrev) / (1 - st.diffsize / st.diffsizePrev)
      simp only [NewtonChord.converged, Bool.and_eq_true, decide_eq_true_eq, mul_div_assoc, gt_iff_lt]
      rintro ⟨k1, k2⟩
      have hd0 : 0 ≤ d := hp.trans hge
      have hq : 0 < q := (pos_iff_pos_of_mul_pos k1).1 (lt_of_le_of_ne hd0 fun e => by rw [← e] at k1; simp at k1)
      have hd1 : 0 < d := (pos_iff_pos_of_mul_pos k1).2 hq
      have hs : 0 < st.diffsize := by rw [hd] at hd1; exact (div_pos_iff_of_pos_right h0).1 hd1
      exact ⟨mul_pos hs hq, (mul_le_mul_of_nonneg_right hge hq.le).trans_lt k2⟩
    have hsm : NewtonChord.small { cfg with rtol := c * cfg.rtol, atol := c * cfg.atol } d = NewtonChord.small cfg d := rfl
    have hdv : ∀ r, NewtonChord.diverged { cfg with rtol := c * cfg.rtol, atol := c * cfg.atol } r =
      NewtonChord.diverged cfg r := fun _ => rfl
    simp only [hf, h2, ne_eq, not_true_eq_false, decide_false, decide_true, Bool.false_or, Bool.true_and, if_false,
      Bool.false_eq_true, hsm, hdv]
    exact rate_cases _ _ _ _ _ hsmall hconv

/-- A problem for `Chord` with `cauchy_termination=False`: `-1 + y - 3 y² = 0` from `y0 = 0`, with `atol = 1/1000`. -/
noncomputable def growingChord (rtol : ℝ) : NewtonChord.Cfg Unit Unit ℝ ℝ :=
  { rtol, atol := 1 / 1000, normY := fun v => |v ()|, normF := fun v => |v ()|, kappa := 1 / 100, cauchy := false,
    isNewton := false, lower := none, upper := none, jac := fun y => 1 - 6 * y (),
    linearSolve := fun j f => (fun _ => f () / j, .successful), inf := 0, isfinite := fun _ => true,
    resolution := 1 / 1000000 }

/-- The function of `growingChord`. -/
noncomputable def growingFn (y : Unit → ℝ) : (Unit → ℝ) × Unit := (fun _ => -1 + y () - 3 * y () ^ 2, ())

theorem growing_solve (rtol : ℝ) :
    ∃ sol, iterativeSolve (NewtonChord.solver (growingChord rtol)) (fun _ => true) growingFn () (fun _ => 0) (some 2) false =
      some (.ok sol) ∧
      sol.result = finalResult ((body (NewtonChord.solver (growingChord rtol)) (fun _ => true) growingFn)^[2]
        (initCarry (NewtonChord.solver (growingChord rtol)) (fun _ => true) growingFn () (fun _ => 0)
          (NewtonChord.init (growingChord rtol) fun _ => 0))) := by
  rw [iterativeSolve_false]
  refine ⟨_, (iterate_eq_some_ok _ _ _ _ _ (NewtonChord.init (growingChord rtol) fun _ => 0) rfl _ _).2
    ⟨2, fun j hj => ⟨rfl, ?_⟩, .inr rfl, rfl⟩, rfl⟩
  interval_cases j <;>
    simp [verdictAt, stateAt, trace, NewtonChord.solver, NewtonChord.terminate, NewtonChord.step, NewtonChord.init,
      growingChord, NewtonChord.linSol]

theorem growing_result (rtol : ℝ) :
    finalResult ((body (NewtonChord.solver (growingChord rtol)) (fun _ => true) growingFn)^[2]
      (initCarry (NewtonChord.solver (growingChord rtol)) (fun _ => true) growingFn () (fun _ => 0)
        (NewtonChord.init (growingChord rtol) fun _ => 0))) =
      let s1 := |(-1 : ℝ) / (1 / 1000 + rtol * 1)|
      let s2 := |(-3 : ℝ) / (1 / 1000 + rtol * 4)|
      let sm := decide (s2 < 1 / 1000000)
      let dv := decide (s2 / s1 > 2)
      let cv := decide (s2 * (s2 / s1) / (1 - s2 / s1) > 0) && decide (s2 * (s2 / s1) / (1 - s2 / s1) < 1 / 100)
      if !sm && dv then .nonlinearDivergence else if sm || dv || cv then .successful else .nonlinearMaxStepsReached := by
  rw [body_iterate]
  have e1 : iterateAt (NewtonChord.solver (growingChord rtol)) growingFn () (fun _ => 0)
      (NewtonChord.init (growingChord rtol) fun _ => 0) 1 = fun _ => 1 := by
    funext u
    simp [iterateAt, trace, NewtonChord.solver, NewtonChord.step, NewtonChord.init, growingChord, NewtonChord.linSol,
      NewtonChord.clipBounds, growingFn]
  set st1 := stateAt (NewtonChord.solver (growingChord rtol)) growingFn () (fun _ => 0)
      (NewtonChord.init (growingChord rtol) fun _ => 0) 1 with hst1
  have e2 : st1.diffsize = |(-1 : ℝ) / (1 / 1000 + rtol * 1)| ∧ st1.linearState = some 1 ∧ st1.step = 1 := by
    simp [hst1, stateAt, trace, NewtonChord.solver, NewtonChord.step, NewtonChord.init, growingChord, NewtonChord.linSol,
      NewtonChord.clipBounds, growingFn]
  have e3 : stateAt (NewtonChord.solver (growingChord rtol)) growingFn () (fun _ => 0)
      (NewtonChord.init (growingChord rtol) fun _ => 0) 2 =
      (NewtonChord.step (growingChord rtol) growingFn (fun _ => 1) st1).2.1 := by
    rw [← e1]; rfl
  have e4 : (NewtonChord.step (growingChord rtol) growingFn (fun _ => 1) st1).2.1.diffsize =
      |(-3 : ℝ) / (1 / 1000 + rtol * 4)| := by
    have : NewtonChord.linSol (growingChord rtol) (fun _ => 1) (growingFn fun _ => 1).1 st1 = (fun _ => -3, .successful) := by
      simp only [NewtonChord.linSol, e2.2.1, growingChord, growingFn]
      norm_num
    simp only [NewtonChord.step, this]
    simp only [growingChord, NewtonChord.clipBounds, Option.isSome_none, Bool.or_self, Bool.false_eq_true, if_false,
      HasAbs.abs_real]
    norm_num
    rfl
  have e5 : (NewtonChord.step (growingChord rtol) growingFn (fun _ => 1) st1).2.1.diffsizePrev = st1.diffsize := rfl
  have e6 : (NewtonChord.step (growingChord rtol) growingFn (fun _ => 1) st1).2.1.step = st1.step + 1 := rfl
  have e7 : (NewtonChord.step (growingChord rtol) growingFn (fun _ => 1) st1).2.1.result = .successful := by
    simp only [NewtonChord.step, NewtonChord.linSol, e2.2.1]
    rfl
  have e8 : (growingChord rtol).cauchy = false := rfl
  simp only [finalResult, verdictAt, e3]
  generalize NewtonChord.step (growingChord rtol) growingFn (fun _ => 1) st1 = q at *
  simp only [NewtonChord.solver, NewtonChord.terminate, e4, e5, e6, e7, e8, e2.1, e2.2.2, NewtonChord.small,
    NewtonChord.diverged, NewtonChord.converged]
  simp only [growingChord]
  generalize |(-1 : ℝ) / (1 / 1000 + rtol * 1)| = s1
  generalize |(-3 : ℝ) / (1 / 1000 + rtol * 4)| = s2
  simp only [ne_eq, not_true_eq_false, decide_false, Bool.false_or, Nat.reduceAdd, le_refl, decide_true, Bool.true_and,
    Bool.not_true, Bool.false_eq_true, if_false, if_true]
  by_cases h1 : s2 < 1 / 1000000 <;> by_cases h2 : s2 / s1 > 2 <;>
    by_cases h3 : s2 * (s2 / s1) / (1 - s2 / s1) > 0 <;> by_cases h4 : s2 * (s2 / s1) / (1 - s2 / s1) < 1 / 100 <;>
    simp only [h1, h2, h3, h4] <;> simp

/-- **C113**: with `cauchy_termination=False` making `rtol` alone smaller may stop a solve earlier: `Chord` reports divergence
after two steps with `rtol=0`, but goes on with `rtol=1` (the rate of convergence is that of the scaled steps). -/
theorem C113_rate_needs_common_factor :
    ¬ OnlyProlongs (NewtonChord.solver (growingChord 1)) (NewtonChord.solver (growingChord 0)) (fun _ => true) growingFn ()
      (fun _ => 0) := by
  intro h
  obtain ⟨sol', h1, r1⟩ := growing_solve 0
  obtain ⟨sol, h2, r2⟩ := growing_solve 1
  obtain ⟨sol2, h3, _, _, h4⟩ := (h (some 2)).2.1 sol' h1
  rw [h2] at h3
  cases h3
  rw [growing_result] at r1 r2
  have t1 : sol'.result = .nonlinearDivergence := by
    rw [r1]; norm_num
  have t2 : sol.result = .nonlinearMaxStepsReached := by
    rw [r2]
    simp only [abs_div, abs_neg]
    norm_num
  have := (h4 (by rw [t2]; simp)).1
  rw [t1, t2] at this
  cases this

/-! ### Wrappers -/

/-- **C113**, the four `BestSoFar…` wrappers, around any solver for which tightening only changes when it stops. -/
theorem C113_best_so_far {L : Type} [LT L] [DecidableLT L] {S : Solver Y Out (Out × A) St Stats}
    {S' : Solver Y Out (Out × A) St' Stats} {R : St → St' → Prop} (fn : Y → Out × A)
    (h : Tightens S S' (BestSoFar.auxmented fn) R) (toLoss : Y → Out → L) (inf : L) (auxZero : A) (aux0 : A)
    (af : Y → Bool) (y0 : Y) :
    OnlyProlongs (BestSoFar.solver S toLoss inf auxZero) (BestSoFar.solver S' toLoss inf auxZero) af fn aux0 y0 := by
  refine Tightens.prolongs (R := fun st st' => st'.bestY = st.bestY ∧ st'.bestAux = st.bestAux ∧ st'.bestLoss = st.bestLoss ∧
    R st.state st'.state) ⟨fun y => ?_, ?_, ?_, ?_⟩ af aux0 y0
  · simp only [BestSoFar.solver, BestSoFar.init]
    rcases h.init y with ⟨e, h1, h2⟩ | ⟨st, st', h1, h2, h3⟩
    · rw [h1, h2]; exact .inl ⟨e, rfl, rfl⟩
    · rw [h1, h2]; exact .inr ⟨_, _, rfl, rfl, rfl, rfl, rfl, h3⟩
  · rintro y st st' ⟨e1, e2, e3, e4⟩
    obtain ⟨s1, s2, s3⟩ := h.step y _ _ e4
    simp only [BestSoFar.solver, BestSoFar.step, s1, s3, e1, e2, e3, true_and, and_true]
    exact s2
  · rintro y st st' ⟨_, _, _, e4⟩
    exact h.terminate y _ _ e4
  · rintro y a st st' r r' ⟨e1, e2, _, _⟩
    simp only [BestSoFar.solver, e1, e2]

/-- **C113**, `root_find` and `fixed_point` through a minimiser or a least-squares solver (`_ToRoot`): the tolerance on the
residual is made smaller as well. -/
theorem C113_root_find_by_other_solvers {O : Type} {S : Solver Y O (Out × A) St Stats} {S' : Solver Y O (Out × A) St' Stats}
    {R : St → St' → Prop} (fn : Y → O × (Out × A)) (h : Tightens S S' fn R)
    (hres : ∀ y st st', R st st' → (S'.terminate fn y st').2 = (S.terminate fn y st).2) (norm : Out → ℝ) (atol atol' : ℝ)
    (ha : atol' ≤ atol) (fInf : Out) (aux0 : Out × A) (af : Y → Bool) (y0 : Y) :
    OnlyProlongs (toRoot norm atol fInf S) (toRoot norm atol' fInf S') af fn aux0 y0 := by
  refine Tightens.prolongs (R := fun st st' => R st.1 st'.1 ∧ st'.2 = st.2) ⟨fun y => ?_, ?_, ?_, ?_⟩ af aux0 y0
  · simp only [toRoot]
    rcases h.init y with ⟨e, h1, h2⟩ | ⟨st, st', h1, h2, h3⟩
    · rw [h1, h2]; exact .inl ⟨e, rfl, rfl⟩
    · rw [h1, h2]; exact .inr ⟨_, _, rfl, rfl, h3, rfl⟩
  · rintro y st st' ⟨e1, e2⟩
    obtain ⟨s1, s2, s3⟩ := h.step y _ _ e1
    exact ⟨s1, ⟨s2, by simp only [toRoot, s3]⟩, s3⟩
  · rintro y st st' ⟨e1, e2⟩
    simp only [toRoot, e2]
    rcases h.terminate y _ _ e1 with e | ⟨e, e'⟩
    · by_cases hn : norm st.2 < atol
      · exact .inl (by simp [e, hn])
      · have hn' : ¬ norm st.2 < atol' := fun hlt => hn (hlt.trans_le ha)
        exact .inr ⟨hres y _ _ e1, fun _ => by simp [hn, hn']⟩
    · refine .inr ⟨e, fun hs => ?_⟩
      simp [e' hs]
  · rintro y a st st' r r' ⟨e1, _⟩
    exact h.post _ _ _ _ _ _ e1

/-! ### The hypotheses are satisfiable -/

theorem maxNorm_le_twoNorm' (x : ι → ℝ) : maxNorm x ≤ twoNorm x := by
  refine Finset.sup'_le _ _ fun o _ => ?_
  cases o with
  | none => exact Real.sqrt_nonneg _
  | some i =>
    refine Real.le_sqrt_of_sq_le ?_
    show |x i| ^ 2 ≤ _
    rw [sq_abs]
    exact (le_of_eq (by rw [sq])).trans (Finset.single_le_sum (f := fun j => x j * x j) (fun j _ => mul_self_nonneg _)
      (Finset.mem_univ i))

/-- Tolerances a thousandth as large, and the two-norm instead of the maximum norm. -/
theorem stricter_thousandth [Fintype κ] : Stricter (ι := ι) (κ := κ) (1 / 1000) (1 / 100) maxNorm maxNorm (1 / 1000000)
    (1 / 100000) twoNorm twoNorm :=
  ⟨by norm_num, by norm_num, by norm_num, by norm_num, goodNorm_maxNorm, goodNorm_maxNorm, maxNorm_le_twoNorm',
    maxNorm_le_twoNorm'⟩

/-- `C113_gradient_descent` for `GradientDescent(learning_rate=0.1)` on `‖y‖²`. -/
example (y0 : ι → ℝ) :
    OnlyProlongs (GradientDescent.solver (GradientDescent.gradientDescent (1 / 10) (1 / 1000) (1 / 100) maxNorm maxNorm fun y i => 2 * y i) ())
      (GradientDescent.solver (GradientDescent.gradientDescent (1 / 10) (1 / 1000000) (1 / 100000) twoNorm twoNorm fun y i => 2 * y i) ())
      (fun _ => true) (fun y => (sumSquares y, ())) () y0 :=
  C113_gradient_descent (rtol' := 1 / 1000000) (atol' := 1 / 100000) (nY' := twoNorm) 
    (GradientDescent.gradientDescent (1 / 10) (1 / 1000) (1 / 100) maxNorm maxNorm fun y i => 2 * y i) twoNorm
    (stricter_thousandth (κ := Unit)) () _ _ y0

/-- `C113_quasi_newton` for BFGS. -/
example [DecidableEq ι] (ls : LinSolve ι Unit) (fn : (ι → ℝ) → ℝ × A) (aux0 : A) (grad : (ι → ℝ) → ι → ℝ) (y0 : ι → ℝ) :
    OnlyProlongs
      (QuasiNewton.solver (QuasiNewton.withArmijo (1 / 1000) (1 / 100) maxNorm maxNorm ls ⟨1 / 2, 1 / 10, 1⟩
        (QuasiNewton.bfgs (1 / 1000000) true) grad) aux0)
      (QuasiNewton.solver (QuasiNewton.withArmijo (1 / 1000000) (1 / 100000) twoNorm twoNorm ls ⟨1 / 2, 1 / 10, 1⟩
        (QuasiNewton.bfgs (1 / 1000000) true) grad) aux0) (fun _ => true) fn aux0 y0 :=
  C113_quasi_newton (rtol' := 1 / 1000000) (atol' := 1 / 100000) (nY' := twoNorm) 
    (QuasiNewton.withArmijo (1 / 1000) (1 / 100) maxNorm maxNorm ls ⟨1 / 2, 1 / 10, 1⟩
    (QuasiNewton.bfgs (1 / 1000000) true) grad) twoNorm (stricter_thousandth (κ := Unit)) aux0 fn _ y0

/-- `C113_best_so_far` for `BestSoFarLeastSquares(LevenbergMarquardt(...))`. -/
example [DecidableEq ι] [Fintype κ] (eps fmax : ℝ) (ls : LinSolve ι (κ ⊕ ι)) (jac : (ι → ℝ) → Matrix κ ι ℝ)
    (fn : (ι → ℝ) → (κ → ℝ) × A) (aux0 : A) (y0 : ι → ℝ) (inf : ℝ) :
    OnlyProlongs
      (BestSoFar.solver (GaussNewton.solver (GaussNewton.levenbergMarquardt eps fmax (1 / 1000) (1 / 100) maxNorm maxNorm ls jac)
        (fun _ => 0, aux0)) (fun _ r => sumSquares r) inf aux0)
      (BestSoFar.solver (GaussNewton.solver (GaussNewton.levenbergMarquardt eps fmax (1 / 1000000) (1 / 100000) twoNorm twoNorm
        ls jac) (fun _ => 0, aux0)) (fun _ r => sumSquares r) inf aux0) (fun _ => true) fn aux0 y0 :=
  C113_best_so_far fn (gn_tightens (rtol' := 1 / 1000000) (atol' := 1 / 100000) (nY' := twoNorm) 
    (GaussNewton.levenbergMarquardt eps fmax (1 / 1000) (1 / 100) maxNorm maxNorm ls jac)
    (nF' := twoNorm) stricter_thousandth.cauchy _ _) _ inf aux0 aux0 _ y0

/-- `C113_root_find_by_other_solvers` for `root_find` by Gauss-Newton. -/
example [Fintype κ] (ls : LinSolve ι κ) (jac : (ι → ℝ) → Matrix κ ι ℝ)
    (fn : (ι → ℝ) → (κ → ℝ) × ((κ → ℝ) × A)) (aux0 : (κ → ℝ) × A) (y0 : ι → ℝ) (fInf : κ → ℝ) :
    OnlyProlongs
      (toRoot maxNorm (1 / 100) fInf (GaussNewton.solver (GaussNewton.gaussNewton (1 / 1000) (1 / 100) maxNorm maxNorm ls jac)
        aux0))
      (toRoot maxNorm (1 / 100000) fInf (GaussNewton.solver (GaussNewton.gaussNewton (1 / 1000000) (1 / 100000) twoNorm twoNorm ls jac)
        aux0)) (fun _ => true) fn aux0 y0 :=
  C113_root_find_by_other_solvers fn (gn_tightens (rtol' := 1 / 1000000) (atol' := 1 / 100000) (nY' := twoNorm) 
    (GaussNewton.gaussNewton (1 / 1000) (1 / 100) maxNorm maxNorm ls jac)
    (nF' := twoNorm) stricter_thousandth.cauchy aux0 fn) (by rintro y st _ ⟨b, rfl, _⟩; rfl) maxNorm (1 / 100) (1 / 100000)
    (by norm_num) fInf aux0 _ y0

/-- `C113_fixed_point` for `cos`-like iterations in any dimension. -/
example (y0 : ι → ℝ) :
    OnlyProlongs (FixedPointIter.solver ⟨1 / 1000, 1 / 100, maxNorm, 0⟩)
      (FixedPointIter.solver ⟨1 / 1000000, 1 / 100000, twoNorm, 0⟩) (fun _ => true)
      (fun y => (fun i => 1 - y i / 2, ())) () y0 :=
  C113_fixed_point _ _ 0 _ _ maxNorm twoNorm stricter_thousandth () _ _ y0

/-- `C113_bisection` on `x² - 2` in `[0, 2]`. -/
example : OnlyProlongs (Bisection.solver ⟨0, 1 / 100, .detect, false, 0, 2, true, .leaf [] true⟩)
    (Bisection.solver ⟨0, 0, .detect, false, 0, 2, true, .leaf [] true⟩) (fun _ => true)
    (fun x : ℝ => (x ^ 2 - 2, ())) () 1 :=
  C113_bisection ⟨0, 1 / 100, .detect, false, 0, 2, true, .leaf [] true⟩ 0 0 (by norm_num) le_rfl () _ _ 1

end Verif.Props

