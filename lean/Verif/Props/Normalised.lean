import Verif.Model.Normalised
import Verif.Props.FiniteAnswers
import Verif.Lemmas.XRSpec

/-!
C107: normalised descents, `SteepestDescent(norm)` and `NewtonDescent(norm)`: "the returned step will have length
`step_size` with respect to this norm" — true away from stationary points, and its consequences for a solve.
-/

namespace Verif.Props

open Verif Verif.Spec Verif.Driver

variable {ι κ A : Type}

/-! ### The length of one step -/

/-- **C107.** The step of `SteepestDescent(norm)` has length exactly `|step_size|` in the given norm, and for a positive
step size it is a positive multiple of the negative gradient (so it is downhill), whenever the norm of the gradient is not
zero; it always reports success. -/
theorem C107_steepest_length_partial [Fintype κ] (n : (ι → ℝ) → ℝ) (hn : GoodNorm n) (y : ι → ℝ) (info : FnInfo ι κ)
    (g : ι → ℝ) (hg : info.grad? = some g) (h0 : n g ≠ 0) (st : ι → ℝ) (s : ℝ) :
    let d := (steepestDescent (κ := κ) (some n)).step s ((steepestDescent (κ := κ) (some n)).query y info st)
    n d.1 = |s| ∧ (0 < s → ∃ c > 0, d.1 = fun i => -(c * g i)) ∧ d.2 = .successful := by
  have hpos : 0 < n g := lt_of_le_of_ne (hn.nonneg g) (Ne.symm h0)
  have e : ((steepestDescent (κ := κ) (some n)).step s ((steepestDescent (κ := κ) (some n)).query y info st)).1 =
      fun i => (-s / n g) * g i := by
    funext i
    show -s * ((info.grad?.getD st) i / n (info.grad?.getD st)) = _
    rw [hg]
    show -s * (g i / n g) = _
    ring
  refine ⟨?_, fun hs => ⟨s / n g, div_pos hs hpos, ?_⟩, rfl⟩
  · rw [e, hn.smul, abs_div, abs_neg, abs_of_pos hpos, div_mul_cancel₀ _ h0]
  · rw [e]; funext i; ring

/-- **C107.** The step of `NewtonDescent(norm)` has length exactly `|step_size|`, is the Newton step up to a positive factor
(for a positive step size), and reports the outcome of the linear solve. -/
theorem C107_newton_length_partial [Fintype ι] (ls : LinSolve ι κ) (n : (ι → ℝ) → ℝ) (hn : GoodNorm n) (y : ι → ℝ)
    (info : FnInfo ι κ) (h0 : n (newtonStep ls info).1 ≠ 0) (st : (ι → ℝ) × Result) (s : ℝ) :
    let d := (newtonDescent ls (some n)).step s ((newtonDescent ls (some n)).query y info st)
    n d.1 = |s| ∧ (0 < s → ∃ c > 0, d.1 = fun i => -(c * (newtonStep ls info).1 i)) ∧
      d.2 = (newtonStep ls info).2 := by
  have hpos : 0 < n (newtonStep ls info).1 := lt_of_le_of_ne (hn.nonneg _) (Ne.symm h0)
  have e : ((newtonDescent ls (some n)).step s ((newtonDescent ls (some n)).query y info st)).1 =
      fun i => (-s / n (newtonStep ls info).1) * (newtonStep ls info).1 i := by
    funext i
    show -s * ((newtonStep ls info).1 i / n (newtonStep ls info).1) = _
    ring
  refine ⟨?_, fun hs => ⟨s / n (newtonStep ls info).1, div_pos hs hpos, ?_⟩, rfl⟩
  · rw [e, hn.smul, abs_div, abs_neg, abs_of_pos hpos, div_mul_cancel₀ _ h0]
  · rw [e]; funext i; ring

/-- Non-vacuity: the gradient `(3, 4)` in the two-norm, step size `10`. -/
example : twoNorm (![3, 4] : Fin 2 → ℝ) ≠ 0 := by
  unfold twoNorm sumSquares
  rw [Fin.sum_univ_two]
  norm_num

/-- The model on `XR` is `SteepestDescent(norm)` wherever the norm of the gradient is not zero. -/
theorem normalised_is_steepest [Fintype κ] (n : (ι → ℝ) → ℝ) (y : ι → ℝ) (info : FnInfo ι κ) (g : ι → ℝ)
    (hg : info.grad? = some g) (h0 : n g ≠ 0) (st : ι → ℝ) (s : ℝ) :
    Normalised.descend (.fin s) (Normalised.query (liftNorm n) fun i => .fin (g i)) =
      let d := (steepestDescent (κ := κ) (some n)).step s ((steepestDescent (κ := κ) (some n)).query y info st)
      (fun i => XR.fin (d.1 i), d.2) := by
  unfold Normalised.descend Normalised.query
  refine Prod.ext (funext fun i => ?_) rfl
  show -XR.fin s * (XR.fin (g i) / liftNorm n fun i => XR.fin (g i)) =
    XR.fin (-s * ((info.grad?.getD st) i / n (info.grad?.getD st)))
  rw [hg, liftNorm_fin, XR.div_fin _ _ h0]
  rfl

/-! ### What success of a solve says about the learning rate -/

theorem finite_mul {a b : XR} (h : (a * b).isFinite = true) : a.isFinite = true ∧ b.isFinite = true := by
  have hi := XR.infTimes_not_finite
  cases a <;> cases b <;> first | exact ⟨rfl, rfl⟩ | (exfalso; revert h; first | (show ¬ (XR.infTimes _).isFinite = true; rw [hi]; simp) | (intro h; cases h))

/-- A finite quotient: the numerator is finite and the denominator is not zero. -/
theorem finite_div_ne {a : XR} {b : ℝ} (h : (a / XR.fin b).isFinite = true) : b ≠ 0 := by
  rintro rfl
  cases a with
  | fin a =>
    have : (XR.infTimes a).isFinite = true := by
      have e : XR.fin a / XR.fin 0 = XR.infTimes a := if_pos rfl
      rw [← e]; exact h
    rw [XR.infTimes_not_finite] at this; cases this
  | pinf => rw [XR.pinf_div_fin 0 le_rfl] at h; cases h
  | ninf =>
    have e : XR.ninf / XR.fin 0 = XR.ninf := if_neg (lt_irrefl _)
    rw [e] at h; cases h
  | nan => rw [XR.nan_div] at h; cases h

theorem isFinite_iff (a : XR) : a.isFinite = true ↔ ∃ r, a = .fin r := by
  cases a <;> simp [XR.isFinite]

/-- A normalised step that leads from a finite point to a finite point has length `|learning rate|`. -/
theorem step_length [Nonempty ι] (n : (ι → ℝ) → ℝ) (hn : GoodNorm n) (lr : ℝ) (g : ι → XR) (y z : ι → XR)
    (hz : ∀ i, z i = y i + -XR.fin lr * (g i / liftNorm n g)) (hd : ∀ i, (z i - y i).isFinite = true) :
    ∃ d : ι → ℝ, (∀ i, z i - y i = .fin (d i)) ∧ n d = |lr| := by
  have hyz := fun i => XR.finite_sub (hd i)
  have hq : ∀ i, (g i / liftNorm n g).isFinite = true := fun i => by
    have := (hyz i).1
    rw [hz i] at this
    exact (finite_mul (XR.finite_add this).2).2
  have hgf : ∀ i, (g i).isFinite = true := fun i => XR.finite_div (hq i)
  choose gr hgr using fun i => (isFinite_iff _).1 (hgf i)
  have hg : g = fun i => .fin (gr i) := funext hgr
  have hng : liftNorm n g = .fin (n gr) := by rw [hg, liftNorm_fin]
  have h0 : n gr ≠ 0 := by
    obtain ⟨i⟩ := ‹Nonempty ι›
    have := hq i
    rw [hng] at this
    exact finite_div_ne this
  have hpos : 0 < n gr := lt_of_le_of_ne (hn.nonneg gr) (Ne.symm h0)
  refine ⟨fun i => (-lr / n gr) * gr i, fun i => ?_, ?_⟩
  · obtain ⟨a, ha⟩ := (isFinite_iff _).1 (hyz i).2
    rw [hz i, ha, hng, hgr i, XR.div_fin _ _ h0]
    simp only [XR.neg_fin, XR.mul_fin, XR.add_fin, XR.sub_fin]
    congr 1; ring
  · rw [hn.smul, abs_div, abs_neg, abs_of_pos hpos, div_mul_cancel₀ _ h0]

/-- **C107.** Gradient descent with a normalised descent and a constant learning rate makes steps of one length.  So its
Cauchy test can only be met if that length is below the tolerance: a success at `v` implies
`learning_rate < atol + rtol * max|v|`, for every objective and gradient (NaNs and infinities included), start, budget, and
every norm used both for the stopping test and for the descent. -/
theorem C107_success_needs_small_rate [Fintype ι] [Nonempty ι] (rtol atol lr : ℝ) (hr : 0 ≤ rtol) (ha : 0 ≤ atol)
    (n : (ι → ℝ) → ℝ) (hn : GoodNorm n) (normF : (Unit → XR) → XR) (hF : HonestNorm normF)
    (grad : (ι → XR) → ι → XR) (fn : (ι → XR) → XR × A) (aux0 : A) (y0 : ι → XR) (ms : Option Nat) (throw : Bool) (sol)
    (h : iterativeSolve (Normalised.solver (.fin rtol) (.fin atol) (.fin lr) (liftNorm n) normF grad aux0) treeAllfinite fn
      aux0 y0 ms throw = some (.ok sol)) (hs : sol.result = .successful) :
    ∃ v : ι → ℝ, (∀ i, sol.value i = .fin (v i)) ∧ |lr| < atol + rtol * maxNorm v := by
  classical
  have := success_good (Normalised.solver (.fin rtol) (.fin atol) (.fin lr) (liftNorm n) normF grad aux0) treeAllfinite
    (fun y => decide (∃ v : ι → ℝ, (∀ i, y i = .fin (v i)) ∧ |lr| < atol + rtol * maxNorm v)) fn aux0 y0 ms throw sol h hs
    (fun y st => st.firstStep = true ∨ ∃ g : ι → XR, ∀ i, st.yEval i = y i + -XR.fin lr * (g i / liftNorm n g))
    ?_ ?_ ?_ ?_
  · exact of_decide_eq_true this
  · intro st0 hi
    cases hi
    exact Or.inl rfl
  · intro y st _ _
    exact Or.inr ⟨grad st.yEval, fun i => rfl⟩
  · intro st0 a hi _ ht
    cases hi
    cases ht
  · intro y st a hinv hy ht
    have ht' : (if (true && st.firstStep) = true then false else
        cauchyTermination (XR.fin rtol) (XR.fin atol) (liftNorm n) normF st.yEval (fun i => st.yEval i - y i)
          (fun _ => (fn st.yEval).1) (fun _ => (fn st.yEval).1 - st.fInfo.1)) = true := congrArg Prod.fst ht
    split_ifs at ht' with hfirst
    rcases hinv with hf | ⟨g, hg⟩
    · rw [hf] at hfirst; exact absurd rfl hfirst
    have hfin := (cauchy_finite (liftNorm_honest n) hF ht').1
    obtain ⟨d, hd, hlen⟩ := step_length n hn lr g y st.yEval hg hfin
    choose v hv using fun i => (isFinite_iff _).1 (XR.finite_sub (hfin i)).1
    have h1 : liftNorm n (scaledDiff (XR.fin rtol) (XR.fin atol) st.yEval fun i => st.yEval i - y i) < 1 :=
      of_decide_eq_true (Bool.and_eq_true_iff.1 ht').1
    have hscale : ∀ i, atol + rtol * |v i| ≠ 0 := fun i => by
      have := (liftNorm_honest n).small _ 1 h1 i
      change (HasAbs.abs (st.yEval i - y i) / (XR.fin atol + XR.fin rtol * HasAbs.abs (st.yEval i))).isFinite = true at this
      rw [hv i, XR.abs_fin, XR.mul_fin, XR.add_fin] at this
      exact finite_div_ne this
    have he : scaledDiff (XR.fin rtol) (XR.fin atol) st.yEval (fun i => st.yEval i - y i) =
        fun i => XR.fin (|d i| / (atol + rtol * |v i|)) := by
      funext i
      show HasAbs.abs (st.yEval i - y i) / (XR.fin atol + XR.fin rtol * HasAbs.abs (st.yEval i)) = _
      rw [hd i, hv i, XR.abs_fin, XR.abs_fin, XR.mul_fin, XR.add_fin, XR.div_fin _ _ (hscale i)]
    rw [he, liftNorm_fin] at h1
    have h1 : n (fun i => |d i| / (atol + rtol * |v i|)) < 1 := h1
    have hM : ∀ i, |v i| ≤ maxNorm v := fun i => ((maxNorm_le_iff v _).1 le_rfl).2 i
    set S := atol + rtol * maxNorm v with hS
    have hSi : ∀ i, atol + rtol * |v i| ≤ S := fun i => by
      have := mul_le_mul_of_nonneg_left (hM i) hr
      linarith
    have hSpos : 0 < S := by
      obtain ⟨i⟩ := ‹Nonempty ι›
      have h0 : 0 ≤ atol + rtol * |v i| := by positivity
      exact lt_of_lt_of_le (lt_of_le_of_ne h0 (Ne.symm (hscale i))) (hSi i)
    have hle : n d ≤ S * n (fun i => |d i| / (atol + rtol * |v i|)) := by
      rw [← abs_of_pos hSpos, ← hn.smul]
      refine hn.mono _ _ fun i => ?_
      have hp : 0 < atol + rtol * |v i| := lt_of_le_of_ne (by positivity) (Ne.symm (hscale i))
      rw [abs_of_nonneg (show 0 ≤ S * (|d i| / (atol + rtol * |v i|)) by positivity), mul_div_assoc',
        le_div_iff₀ hp, mul_comm S]
      exact mul_le_mul_of_nonneg_left (hSi i) (abs_nonneg _)
    refine decide_eq_true ⟨v, hv, ?_⟩
    rw [← hlen]
    calc n d ≤ S * n (fun i => |d i| / (atol + rtol * |v i|)) := hle
      _ < S * 1 := by exact mul_lt_mul_of_pos_left h1 hSpos
      _ = S := mul_one S

/-- **C107.** With an absolute tolerance only, a learning rate not below it can never lead to success. -/
theorem C107_large_rate_never_succeeds [Fintype ι] [Nonempty ι] (atol lr : ℝ) (ha : 0 ≤ atol) (hlr : atol ≤ |lr|)
    (n : (ι → ℝ) → ℝ) (hn : GoodNorm n) (normF : (Unit → XR) → XR) (hF : HonestNorm normF)
    (grad : (ι → XR) → ι → XR) (fn : (ι → XR) → XR × A) (aux0 : A) (y0 : ι → XR) (ms : Option Nat) (throw : Bool) (sol)
    (h : iterativeSolve (Normalised.solver (.fin 0) (.fin atol) (.fin lr) (liftNorm n) normF grad aux0) treeAllfinite fn
      aux0 y0 ms throw = some (.ok sol)) : sol.result ≠ .successful := by
  intro hs
  obtain ⟨v, _, hv⟩ := C107_success_needs_small_rate 0 atol lr le_rfl ha n hn normF hF grad fn aux0 y0 ms throw sol h hs
  linarith

/-! ### Stationary points -/

/-- At a zero gradient the normalised step is NaN in every entry. -/
theorem C107_stationary_step_nan (n : (ι → ℝ) → ℝ) (hn : GoodNorm n) (lr : XR) (i : ι) :
    (Normalised.descend lr (Normalised.query (liftNorm n) fun _ => 0)).1 i = .nan := by
  have h0 : n (fun _ => 0) = 0 := by
    have := hn.smul 0 fun _ => (0 : ℝ)
    simpa using this
  show -lr * ((0 : XR) / liftNorm n fun _ => XR.fin 0) = .nan
  rw [liftNorm_fin, h0]
  have : (0 : XR) / XR.fin 0 = .nan := by
    show (if (0 : ℝ) = 0 then XR.infTimes 0 else _) = _
    rw [if_pos rfl, XR.infTimes_zero]
  rw [this, XR.mul_nan]

/-- **C107 fails at stationary points.** Started exactly at a stationary point of the objective (an exact minimum, say), the
solve does not report success: the second step divides zero by zero and the result is `nonfinite` after two steps. -/
theorem C107_stationary_start_fails [Nonempty ι] (rtol atol lr : XR) (n : (ι → ℝ) → ℝ) (hn : GoodNorm n)
    (normF : (Unit → XR) → XR) (grad : (ι → XR) → ι → XR) (fn : (ι → XR) → XR × A) (aux0 : A) (y0 : ι → ℝ)
    (hg : grad (fun i => .fin (y0 i)) = fun _ => 0) (ms : Option Nat) (hms : ∀ k, ms = some k → 3 ≤ k) :
    ∃ sol, iterativeSolve (Normalised.solver rtol atol lr (liftNorm n) normF grad aux0) treeAllfinite fn aux0
      (fun i => .fin (y0 i)) ms false = some (.ok sol) ∧ sol.result = .nonfinite := by
  obtain ⟨i0⟩ := ‹Nonempty ι›
  set S := Normalised.solver rtol atol lr (liftNorm n) normF grad aux0 with hS
  set z : ι → XR := fun i => .fin (y0 i) with hz
  let st0 : SearchBased.State ι XR (XR × (ι → XR)) A Unit (ι → XR) Unit :=
    { firstStep := true, yEval := z, searchState := (), fInfo := (0, z), aux := aux0, descentState := z,
      terminate := false, result := .successful, hess := () }
  have hi : S.init fn z = .ok st0 := rfl
  have e1 : iterateAt S fn aux0 z st0 1 = z := rfl
  have hnan : ∀ i, (stateAt S fn aux0 z st0 1).yEval i = .nan := by
    intro i
    show z i + (Normalised.descend lr (Normalised.query (liftNorm n) (grad z))).1 i = _
    rw [hg, C107_stationary_step_nan n hn lr i, XR.add_nan]
  have e2 : ∀ i, iterateAt S fn aux0 z st0 2 i = .nan := hnan
  have t2 : (stateAt S fn aux0 z st0 2).terminate = false := by
    show (if (true && (stateAt S fn aux0 z st0 1).firstStep) = true then false else
        cauchyTermination rtol atol (liftNorm n) normF (stateAt S fn aux0 z st0 1).yEval
          (fun i => (stateAt S fn aux0 z st0 1).yEval i - iterateAt S fn aux0 z st0 1 i) _ _) = false
    rw [if_neg (by show ¬ (true && false) = true; simp)]
    unfold cauchyTermination
    rw [Bool.and_eq_false_iff]
    left
    rw [decide_eq_false_iff_not]
    intro hlt
    have := (liftNorm_honest n).small _ 1 hlt i0
    have h2 := (XR.finite_sub (XR.finite_abs ▸ XR.finite_div this)).1
    rw [hnan i0] at h2
    cases h2
  have hf : treeAllfinite z = true := (allfinite_iff _).2 fun _ => rfl
  have c0 : Continues S treeAllfinite fn aux0 z st0 0 := ⟨hf, rfl⟩
  have c1 : Continues S treeAllfinite fn aux0 z st0 1 := ⟨hf, rfl⟩
  have c2 : Continues S treeAllfinite fn aux0 z st0 2 := ⟨hf, Prod.ext t2 rfl⟩
  have hbad : ¬ treeAllfinite (iterateAt S fn aux0 z st0 2) = true := fun h => by
    have := (allfinite_iff _).1 h i0
    rw [e2 i0] at this
    cases this
  have c3 : ¬ Continues S treeAllfinite fn aux0 z st0 3 := fun h => hbad h.1
  obtain ⟨sol, hsol, hk⟩ := solve_exists S treeAllfinite fn aux0 z st0 hi ms 3 (by
    intro j hj
    interval_cases j
    · exact c0
    · exact c1
    · exact c2) (Or.inl ⟨c3, hms⟩)
  refine ⟨sol, hsol, ?_⟩
  obtain ⟨st0', hi', _, _, _, _, _, hr⟩ := solve_spec _ _ _ _ _ _ _ _ hsol
  rw [hi] at hi'; cases hi'
  rw [hr, hk, if_neg c3]
  exact if_neg hbad

/-- Non-vacuity, and the run of a user who lands on the minimum: `x^2` from `1` with learning rate `1` steps exactly onto
the minimiser `0`, and ends as a failure. -/
example : ∃ sol, iterativeSolve (Normalised.solver (.fin 0) (.fin 1e-3) (.fin 1) (liftNorm maxNorm) (liftNorm maxNorm)
    (fun y (_ : Unit) => 2 * y ()) ()) treeAllfinite (fun y => (y () * y (), ())) () (fun _ => .fin 0) none false =
      some (.ok sol) ∧ sol.result = .nonfinite :=
  C107_stationary_start_fails _ _ _ _ goodNorm_maxNorm _ _ _ () (fun _ => 0) (by
    funext i
    show (2 : XR) * XR.fin 0 = 0
    simp) none (by simp)

end Verif.Props
