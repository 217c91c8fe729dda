import Verif.Spec.FiniteView
import Verif.Props.RoundingFixedPoint
import Verif.Props.Damping
import Verif.Model.Bisection
import Verif.Model.NewtonChord
import Mathlib.Data.Fintype.Pigeonhole
import Mathlib.SetTheory.Cardinal.Finite
import Mathlib.Data.Fintype.Option
import Mathlib.Data.Int.Interval

/-!
**C123.** A solve in finite arithmetic ends after a bounded number of steps or goes round in a circle for ever.
-/

namespace Verif.Props

open Driver Spec

variable {Y Out Aux St Stats B : Type}

section generic

variable {S : Solver Y Out Aux St Stats} {fn : Y → Out × Aux} {view : Y → St → B}

/-- What matters after `k` steps. -/
theorem view_shift (hv : Determines S fn view) (aux0 : Aux) (y0 : Y) (st0 : St) {i j : ℕ}
    (h : view (iterateAt S fn aux0 y0 st0 i) (stateAt S fn aux0 y0 st0 i) =
      view (iterateAt S fn aux0 y0 st0 j) (stateAt S fn aux0 y0 st0 j)) (t : ℕ) :
    view (iterateAt S fn aux0 y0 st0 (i + t)) (stateAt S fn aux0 y0 st0 (i + t)) =
      view (iterateAt S fn aux0 y0 st0 (j + t)) (stateAt S fn aux0 y0 st0 (j + t)) := by
  induction t with
  | zero => exact h
  | succ t ih => exact hv.step ih

theorem continues_congr (hv : Determines S fn view) (af : Y → Bool) (aux0 : Aux) (y0 : Y) (st0 : St) {i j : ℕ}
    (h : view (iterateAt S fn aux0 y0 st0 i) (stateAt S fn aux0 y0 st0 i) =
      view (iterateAt S fn aux0 y0 st0 j) (stateAt S fn aux0 y0 st0 j)) :
    Continues S af fn aux0 y0 st0 (i + 1) ↔ Continues S af fn aux0 y0 st0 (j + 1) := by
  have h1 := hv.point h
  have h2 := hv.verdict h
  have e1 : testedAt S fn aux0 y0 st0 (i + 1) = testedAt S fn aux0 y0 st0 (j + 1) := h1
  have e2 : verdictAt S fn aux0 y0 st0 (i + 1) = verdictAt S fn aux0 y0 st0 (j + 1) := h2
  unfold Continues
  rw [e1, e2]

/-- Two equal views among the first ones. -/
theorem repeats [Finite B] (w : ℕ → B) : ∃ i p, 0 < p ∧ i + p ≤ Nat.card B ∧ w i = w (i + p) := by
  classical
  have := Fintype.ofFinite B
  obtain ⟨a, b, hab, he⟩ := Fintype.exists_ne_map_eq_of_card_lt (fun k : Fin (Nat.card B + 1) => w k)
    (by rw [Fintype.card_fin, Nat.card_eq_fintype_card]; exact Nat.lt_succ_self _)
  rcases lt_or_gt_of_ne (Fin.val_ne_of_ne hab) with h | h
  · exact ⟨a, b - a, by omega, by have := b.2; omega, by rw [Nat.add_sub_cancel' h.le]; exact he⟩
  · exact ⟨b, a - b, by omega, by have := a.2; omega, by rw [Nat.add_sub_cancel' h.le]; exact he.symm⟩

/-- If the solver carries on for as many steps as there are situations, it carries on for ever. -/
theorem continues_forever [Finite B] (hv : Determines S fn view) (af : Y → Bool) (aux0 : Aux) (y0 : Y) (st0 : St)
    (h : ∀ k ≤ Nat.card B, Continues S af fn aux0 y0 st0 k) (k : ℕ) : Continues S af fn aux0 y0 st0 k := by
  obtain ⟨i, p, hp, hip, he⟩ := repeats fun k => view (iterateAt S fn aux0 y0 st0 k) (stateAt S fn aux0 y0 st0 k)
  induction k using Nat.strong_induction_on with
  | _ k ih =>
    by_cases hk : k ≤ Nat.card B
    · exact h k hk
    · obtain ⟨t, rfl⟩ : ∃ t, k = i + p + t + 1 := ⟨k - (i + p) - 1, by omega⟩
      exact (continues_congr hv af aux0 y0 st0 (view_shift hv aux0 y0 st0 he t)).1 (ih _ (by omega))

/-- **C123.** A solve that ends other than by its step budget does so after at most as many steps as there are situations. -/
theorem C123_bound [Finite B] (hv : Determines S fn view) (af : Y → Bool) (aux0 : Aux) (y0 : Y) (ms : Option ℕ) (throw : Bool)
    (sol : Solution Y Aux St Stats) (h : iterativeSolve S af fn aux0 y0 ms throw = some (.ok sol))
    (hr : sol.result ≠ .nonlinearMaxStepsReached) : sol.numSteps ≤ Nat.card B := by
  obtain ⟨st0, hi, hlt, -, -, -, -, hres⟩ := solve_spec _ _ _ _ _ _ _ _ h
  by_contra hn
  have hc := continues_forever hv af aux0 y0 st0 (fun k hk => hlt k (by omega)) sol.numSteps
  rw [if_pos hc] at hres
  exact hr hres

/-- **C123.** A solve with at least that budget which runs out of it would never have ended: it goes round in a circle. -/
theorem C123_circle [Finite B] (hv : Determines S fn view) (af : Y → Bool) (aux0 : Aux) (y0 : Y) (n : ℕ) (hn : Nat.card B ≤ n)
    (sol : Solution Y Aux St Stats) (h : iterativeSolve S af fn aux0 y0 (some n) false = some (.ok sol))
    (hnr : ∀ k st, (S.terminate fn k st).2 ≠ .nonlinearMaxStepsReached)
    (hr : sol.result = .nonlinearMaxStepsReached) :
    iterativeSolve S af fn aux0 y0 none false = none ∧
    ∃ st0, S.init fn y0 = .ok st0 ∧ ∃ i p, 0 < p ∧ i + p ≤ Nat.card B ∧ ∀ k, i ≤ k →
      iterateAt S fn aux0 y0 st0 (k + p) = iterateAt S fn aux0 y0 st0 k := by
  obtain ⟨st0, hi, hlt, hst, -, -, -, hres⟩ := solve_spec _ _ _ _ _ _ _ _ h
  have hc : Continues S af fn aux0 y0 st0 sol.numSteps := by
    by_contra hc
    rw [if_neg hc, hr] at hres
    split_ifs at hres
    exact hnr _ _ hres.symm
  have hsn : sol.numSteps = n := by
    rcases hst with ⟨h1, -⟩ | h1
    · exact absurd hc h1
    · simpa using h1.symm
  have hall : ∀ k ≤ Nat.card B, Continues S af fn aux0 y0 st0 k := by
    intro k hk
    rcases lt_or_eq_of_le (hk.trans (hn.trans hsn.ge)) with e | e
    · exact hlt k e
    · exact e ▸ hc
  refine ⟨(never_stops S af fn aux0 y0 st0 hi (continues_forever hv af aux0 y0 st0 hall)).1, st0, hi, ?_⟩
  obtain ⟨i, p, hp, hip, he⟩ := repeats fun k => view (iterateAt S fn aux0 y0 st0 k) (stateAt S fn aux0 y0 st0 k)
  refine ⟨i, p, hp, hip, fun k hk => ?_⟩
  obtain ⟨t, rfl⟩ := Nat.exists_eq_add_of_le hk
  have := hv.point (view_shift hv aux0 y0 st0 he t)
  rw [this]
  congr 1; omega

/-- **C123.** So a budget of that many steps is as good as none: a solve without a budget that ends at all has the outcome of the
solve with it. -/
theorem C123_enough [Finite B] (hv : Determines S fn view) (af : Y → Bool) (aux0 : Aux) (y0 : Y) (n : ℕ) (hn : Nat.card B ≤ n)
    (throw : Bool) (sol : Solution Y Aux St Stats) (h : iterativeSolve S af fn aux0 y0 none throw = some (.ok sol)) :
    sol.numSteps ≤ n ∧ iterativeSolve S af fn aux0 y0 (some n) throw = some (.ok { sol with maxSteps := some n }) := by
  obtain ⟨st0, hi, hlt, hst, -⟩ := solve_spec _ _ _ _ _ _ _ _ h
  have hc : ¬ Continues S af fn aux0 y0 st0 sol.numSteps := by
    rcases hst with ⟨h1, -⟩ | h1
    · exact h1
    · cases h1
  have hle : sol.numSteps ≤ n := by
    by_contra hn'
    exact hc (continues_forever hv af aux0 y0 st0 (fun k hk => hlt k (by omega)) _)
  refine ⟨hle, ?_⟩
  rw [solve_iff] at h ⊢
  refine ⟨?_, h.2⟩
  obtain ⟨k, hlt', hst', hsol⟩ := (iterate_eq_some_ok S af fn aux0 y0 st0 hi _ _).1 h.1
  have hk : sol.numSteps = k := by rw [hsol, body_iterate]; rfl
  refine (iterate_eq_some_ok S af fn aux0 y0 st0 hi _ _).2 ⟨k, hlt', Or.inl ⟨hk ▸ hc, fun m hm => ?_⟩, ?_⟩
  · cases hm; omega
  · rw [hsol]; rfl

/-- What is said of solves without a budget: they end within `N` steps, or never, and then they go round in a circle from the
`i`-th step on. -/
def EndsOrCircles (S : Solver Y Out Aux St Stats) (af : Y → Bool) (fn : Y → Out × Aux) (aux0 : Aux) (y0 : Y) (st0 : St) (N : ℕ) : Prop :=
  (∃ sol, iterativeSolve S af fn aux0 y0 none false = some (.ok sol) ∧ sol.numSteps ≤ N) ∨
    (iterativeSolve S af fn aux0 y0 none false = none ∧ ∃ i p, 0 < p ∧ i + p ≤ N ∧ ∀ k, i ≤ k →
      iterateAt S fn aux0 y0 st0 (k + p) = iterateAt S fn aux0 y0 st0 k)

/-- **C123.** A solve without a budget ends after at most as many steps as there are situations, or goes round in a circle for ever. -/
theorem C123_ends_or_circles [Finite B] (hv : Determines S fn view) (af : Y → Bool) (aux0 : Aux) (y0 : Y) (st0 : St)
    (hi : S.init fn y0 = .ok st0) : EndsOrCircles S af fn aux0 y0 st0 (Nat.card B) := by
  classical
  by_cases hall : ∀ k, Continues S af fn aux0 y0 st0 k
  · refine .inr ⟨(never_stops S af fn aux0 y0 st0 hi hall).1, ?_⟩
    obtain ⟨i, p, hp, hip, he⟩ := repeats fun k => view (iterateAt S fn aux0 y0 st0 k) (stateAt S fn aux0 y0 st0 k)
    refine ⟨i, p, hp, hip, fun k hk => ?_⟩
    obtain ⟨t, rfl⟩ := Nat.exists_eq_add_of_le hk
    have := hv.point (view_shift hv aux0 y0 st0 he t)
    rw [this]
    congr 1; omega
  · push Not at hall
    obtain ⟨sol, h1, h2⟩ := solve_exists S af fn aux0 y0 st0 hi none (Nat.find hall)
      (fun j hj => not_not.1 (Nat.find_min hall hj)) (.inl ⟨Nat.find_spec hall, fun n hn => nomatch hn⟩)
    exact .inl ⟨sol, h1, (C123_enough hv af aux0 y0 _ le_rfl false sol h1).1⟩

end generic

/-! ### Which solvers, and which numbers -/

/-- A solver with finitely many points and states. -/
theorem C123_whole (S : Solver Y Out Aux St Stats) (fn : Y → Out × Aux) : Determines S fn Prod.mk where
  point h := (Prod.mk.inj h).1
  step h := by obtain ⟨rfl, rfl⟩ := Prod.mk.inj h; rfl
  verdict h := by obtain ⟨rfl, rfl⟩ := Prod.mk.inj h; rfl

section newton

variable {ι κ K J A : Type} [Add K] [Sub K] [Mul K] [Div K] [Zero K] [One K] [OfNat K 2] [LT K] [DecidableLT K] [HasAbs K]

/-- What matters of the state of `Newton` and `Chord`: the iterate, the Jacobian kept by `Chord`, the size of the last update, and
whether there was one. -/
def newtonView (y : ι → K) (st : NewtonChord.State ι κ K J) : (ι → K) × Option J × K × Bool :=
  (y, st.linearState, st.diffsize, decide (1 ≤ st.step))

/-- `Newton` and `Chord`, although they count their steps. -/
theorem C123_newton (cfg : NewtonChord.Cfg ι κ K J) (fn : (ι → K) → (κ → K) × A) :
    Determines (NewtonChord.solver cfg) fn newtonView where
  point h := (Prod.mk.inj h).1
  step {y st y' st'} h := by
    simp only [newtonView, Prod.mk.injEq] at h
    obtain ⟨rfl, h1, h2, h3⟩ := h
    simp only [newtonView, NewtonChord.solver, NewtonChord.step, NewtonChord.linSol, h1, Nat.le_add_left]
  verdict {y st y' st'} h := by
    simp only [newtonView, Prod.mk.injEq] at h
    obtain ⟨rfl, h1, h2, h3⟩ := h
    have h4 : decide (2 ≤ st.step + 1) = decide (2 ≤ st'.step + 1) := by
      simp only [Nat.reduceLeDiff] at h3 ⊢
      simpa [Nat.succ_le_succ_iff] using h3
    simp only [NewtonChord.solver, NewtonChord.terminate, NewtonChord.step, NewtonChord.linSol, h1, h2, h4]

end newton

theorem roundPos_multiple (p : ℕ) (emin : ℤ) (x : ℝ) :
    ∃ m : ℤ, Binary.roundPos p emin x = m * 2 ^ (emin - (p - 1)) := by
  have hle : emin - ((p : ℤ) - 1) ≤ Binary.lastDigit p emin x := by
    unfold Binary.lastDigit
    have := le_max_right (Int.log 2 x) emin
    omega
  obtain ⟨k, hk⟩ := Int.eq_ofNat_of_zero_le (sub_nonneg.2 hle)
  refine ⟨Binary.nearest (x / 2 ^ Binary.lastDigit p emin x) * 2 ^ k, ?_⟩
  have e : (2 : ℝ) ^ Binary.lastDigit p emin x = 2 ^ k * 2 ^ (emin - ((p : ℤ) - 1)) := by
    rw [← zpow_natCast, ← zpow_add₀ (by norm_num)]
    congr 1; omega
  unfold Binary.roundPos
  push_cast
  rw [mul_assoc, ← e]

theorem binary_reps_finite (p : ℕ) (emin emax : ℤ) : {r : ℝ | Binary.roundTo p emin emax r = .fin r}.Finite := by
  set q : ℝ := 2 ^ (emin - ((p : ℤ) - 1)) with hq
  have hq0 : 0 < q := by positivity
  set M : ℤ := ⌈(2 : ℝ) ^ (emax + 1) / q⌉ with hM
  refine ((Set.finite_Icc (-M) M).image fun m : ℤ => (m : ℝ) * q).subset ?_
  intro r hr
  obtain ⟨h1, h2⟩ := Binary.roundTo_rep p emin emax hr
  obtain ⟨m, hm⟩ := roundPos_multiple p emin |r|
  rw [h1] at hm
  have hb : |(m : ℝ)| ≤ M := by
    have e : |(m : ℝ)| * q = |r| := by
      rw [← abs_of_pos hq0, ← abs_mul, ← hm, abs_abs]
    have : |(m : ℝ)| ≤ (2 : ℝ) ^ (emax + 1) / q := by
      rw [le_div_iff₀ hq0, e]; exact h2.le
    exact this.trans (Int.le_ceil _)
  have hb' := abs_le.1 hb
  have hm1 : -M ≤ m := by exact_mod_cast hb'.1
  have hm2 : m ≤ M := by exact_mod_cast hb'.2
  rcases abs_choice r with e | e
  · exact ⟨m, ⟨hm1, hm2⟩, by rw [← e]; exact hm.symm⟩
  · refine ⟨-m, ⟨by omega, by omega⟩, ?_⟩
    have : r = -|r| := by rw [e, neg_neg]
    rw [this, hm]; push_cast; ring

theorem fl_finite (F : Format) (h : {r : ℝ | F.round r = .fin r}.Finite) : Finite (Fl F) := by
  have hx : {x : XR | ∀ r, x = .fin r → F.round r = .fin r}.Finite := by
    refine (((h.image XR.fin).insert .pinf).insert .ninf |>.insert .nan).subset ?_
    intro x hx
    cases x with
    | fin r => exact .inr (.inr (.inr ⟨r, hx r rfl, rfl⟩))
    | pinf => exact .inr (.inr (.inl rfl))
    | ninf => exact .inr (.inl rfl)
    | nan => exact .inl rfl
  have := hx.to_subtype
  exact Finite.of_injective (fun a : Fl F => (⟨a.val, a.rep⟩ : {x : XR | ∀ r, x = .fin r → F.round r = .fin r}))
    fun a b hab => by
      obtain ⟨a, ha⟩ := a
      obtain ⟨b, hb⟩ := b
      obtain rfl : a = b := congrArg Subtype.val hab
      rfl

/-- **C123.** There are finitely many numbers of `p` binary digits (with or without gradual underflow), infinities and NaN included. -/
theorem C123_binary_finite (p : ℕ) (emin emax : ℤ) (hp : 1 ≤ p) (hmin : emin ≤ 0) (hmax : 1 ≤ emax) :
    Finite (Fl (Format.binary p emin emax hp hmin hmax)) ∧ Finite (Fl (Format.flushed p emin emax hp hmin hmax)) :=
  ⟨fl_finite _ (binary_reps_finite p emin emax),
    fl_finite _ ((binary_reps_finite p emin emax).subset fun _ h => Binary.rep_of_flush p emin emax h)⟩

section float

variable {A ι κ : Type} [Finite ι] [Finite κ] (F : Format) [Finite (Fl F)]

/-- **C123** for `FixedPointIteration` in floating-point arithmetic. -/
theorem C123_fixed_point (cfg : FixedPointIter.Cfg ι (Fl F)) (fn : (ι → Fl F) → (ι → Fl F) × A) (aux0 : A) (y0 : ι → Fl F) :
    EndsOrCircles (FixedPointIter.solver cfg) Fl.allfinite fn aux0 y0 none (Nat.card ((ι → Fl F) × Option (Fl F))) :=
  C123_ends_or_circles (C123_whole _ fn) _ _ _ _ rfl

/-- **C123** for `Newton` and `Chord` in floating-point arithmetic. -/
theorem C123_newton_chord (cfg : NewtonChord.Cfg ι κ (Fl F) (κ → ι → Fl F)) (fn : (ι → Fl F) → (κ → Fl F) × A) (aux0 : A)
    (y0 : ι → Fl F) :
    EndsOrCircles (NewtonChord.solver cfg) Fl.allfinite fn aux0 y0 (NewtonChord.init cfg y0)
      (Nat.card ((ι → Fl F) × Option (κ → ι → Fl F) × Fl F × Bool)) :=
  C123_ends_or_circles (C123_newton cfg fn) _ _ _ _ rfl

instance : Finite (Bisection.State (Fl F)) :=
  Finite.of_injective (fun s => (s.lower, s.upper, s.flip, s.error)) fun a b h => by
    cases a; cases b
    simp only [Prod.mk.injEq] at h
    obtain ⟨rfl, rfl, rfl, rfl⟩ := h
    rfl

/-- **C123** for `Bisection` in floating-point arithmetic. -/
theorem C123_bisection (cfg : Bisection.Cfg (Fl F)) (fn : Fl F → Fl F × A) (aux0 : A) (y0 : Fl F) (st0 : Bisection.State (Fl F))
    (hi : (Bisection.solver cfg).init fn y0 = .ok st0) (af : Fl F → Bool) :
    EndsOrCircles (Bisection.solver cfg) af fn aux0 y0 st0 (Nat.card (Fl F × Bisection.State (Fl F))) :=
  C123_ends_or_circles (C123_whole _ fn) _ _ _ _ hi

end float

/-- In `float32`. -/
example (cfg : FixedPointIter.Cfg (Fin 3) (Fl Format.float32)) (fn : (Fin 3 → Fl Format.float32) → (Fin 3 → Fl Format.float32) × Unit)
    (y0 : Fin 3 → Fl Format.float32) : ∃ N, EndsOrCircles (FixedPointIter.solver cfg) Fl.allfinite fn () y0 none N :=
  have : Finite (Fl Format.float32) := (C123_binary_finite _ _ _ _ _ _).1
  ⟨_, C123_fixed_point _ cfg fn () y0⟩

end Verif.Props
