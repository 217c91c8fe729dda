import Verif.Lemmas.Secular
import Verif.Props.TrustConvergence
import Verif.Props.NewtonChord
import Mathlib.Analysis.Calculus.Deriv.Add

/-!
Properties C70 and C71: the inner root find of `IndirectDampedNewtonDescent`, and convergence of
`IndirectLevenbergMarquardt`.
-/

namespace Verif.Props

open Verif Verif.Spec Verif.Driver Verif.SearchLoop Verif.Secular Filter Topology

variable {ι κ A : Type} [Fintype ι] [Fintype κ]

/-- The solver of the inner root find and the function it is given. -/
noncomputable def innerSolver (env : InnerEnv) (c : ℝ → ℝ) : Solver (Unit → ℝ) (Unit → ℝ) Unit (NewtonChord.State Unit Unit ℝ ℝ) Unit :=
  NewtonChord.solver (innerNewton env c)

def innerFn (c : ℝ → ℝ) : (Unit → ℝ) → (Unit → ℝ) × Unit := fun y => (fun _ => c (y ()), ())

/-- Its iterates. -/
noncomputable def innerAt (env : InnerEnv) (lambda0 : ℝ) (c : ℝ → ℝ) (k : Nat) : ℝ :=
  iterateAt (innerSolver env c) (innerFn c) () (fun _ => lambda0) (NewtonChord.init (innerNewton env c) fun _ => lambda0) k ()

theorem innerAt_zero (env : InnerEnv) (lambda0 : ℝ) (c : ℝ → ℝ) : innerAt env lambda0 c 0 = lambda0 := rfl

theorem innerAt_succ (env : InnerEnv) (lambda0 : ℝ) (c : ℝ → ℝ) (k : Nat) :
    innerAt env lambda0 c (k + 1) = max 1e-5
      (innerAt env lambda0 c k - (env.linearSolve (env.deriv c (innerAt env lambda0 c k)) (c (innerAt env lambda0 c k))).1) := by
  have h : innerAt env lambda0 c (k + 1) = NewtonChord.clipBounds (some fun _ => (1e-5 : ℝ)) none (fun _ : Unit =>
      (innerAt env lambda0 c k - (env.linearSolve (env.deriv c (innerAt env lambda0 c k)) (c (innerAt env lambda0 c k))).1)) () := rfl
  rw [h]
  simp only [NewtonChord.clipBounds]
  split
  · rw [max_eq_left (by linarith)]
  · rw [max_eq_right (by linarith)]

/-- Where the inner root find stops: it answers an iterate, after 32 steps or when its own test or its linear solve stops it. -/
theorem inner_answer (env : InnerEnv) (lambda0 : ℝ) (c : ℝ → ℝ) :
    ∃ K, K ≤ 32 ∧ (findLambdaNewton env lambda0 c).1 = innerAt env lambda0 c K ∧
      (K = 32 ∨ ¬ Continues (innerSolver env c) (fun _ => true) (innerFn c) () (fun _ => lambda0)
        (NewtonChord.init (innerNewton env c) fun _ => lambda0) K) ∧
      ((findLambdaNewton env lambda0 c).2 = .successful → ¬ Continues (innerSolver env c) (fun _ => true) (innerFn c) ()
        (fun _ => lambda0) (NewtonChord.init (innerNewton env c) fun _ => lambda0) K) := by
  have hne := iterate_ne_error (innerSolver env c) (fun _ => true) (innerFn c) () (fun _ => lambda0) _ rfl (some 32)
  have hnn : iterate (innerSolver env c) (fun _ => true) (innerFn c) () (fun _ => lambda0) (some 32) ≠ none := by
    rw [Ne, iterate_none _ _ _ _ _ _ rfl]
    simp
  obtain ⟨sol, hsol⟩ : ∃ sol, iterate (innerSolver env c) (fun _ => true) (innerFn c) () (fun _ => lambda0) (some 32) =
      some (.ok sol) := by
    cases h : iterate (innerSolver env c) (fun _ => true) (innerFn c) () (fun _ => lambda0) (some 32) with
    | none => exact absurd h hnn
    | some r =>
      cases r with
      | error e => exact absurd h (hne e)
      | ok sol => exact ⟨sol, rfl⟩
  have hs : iterativeSolve (innerSolver env c) (fun _ => true) (innerFn c) () (fun _ => lambda0) (some 32) false =
    some (.ok sol) := (solve_iff _ _ _ _ _ _ _ _).2 ⟨hsol, by simp⟩
  have hfind : findLambdaNewton env lambda0 c = (sol.value (), sol.result) := by
    unfold findLambdaNewton rootFind
    rw [show iterativeSolve (NewtonChord.solver (innerNewton env c)) (fun _ => true) (fun y => (fun _ => c (y ()), ())) ()
      (fun _ => lambda0) (some 32) false = some (.ok sol) from hs]
  obtain ⟨st0, hi, _, hstop, _, _, hp, hres⟩ := solve_spec _ _ _ _ _ _ _ _ hs
  cases hi
  refine ⟨sol.numSteps, ?_, ?_, ?_, ?_⟩
  · rcases hstop with ⟨_, h⟩ | h
    · exact h 32 rfl
    · simp only [Option.some.injEq] at h; omega
  · rw [hfind]
    have hv := congrArg Prod.fst hp
    exact congrFun hv ()
  · rcases hstop with ⟨h, _⟩ | h
    · exact .inr h
    · simp only [Option.some.injEq] at h; exact .inl h.symm
  · intro hsucc hc
    rw [hfind] at hsucc
    have : sol.result = .nonlinearMaxStepsReached := hres.trans (if_pos hc)
    rw [this] at hsucc
    cases hsucc

/-- The environment computes derivatives (where there are any) and quotients exactly. -/
structure ExactInner (env : InnerEnv) : Prop where
  deriv : ∀ c x, DifferentiableAt ℝ c x → env.deriv c x = deriv c x
  linearSolve : ∀ a b, a ≠ 0 → env.linearSolve a b = (b / a, .successful)
  inf : 1 ≤ env.inf

theorem inner_maxNorm (x : Unit → ℝ) : maxNorm x < 1 ↔ |x ()| < 1 := by
  rw [maxNorm_lt_iff]
  exact ⟨fun h => h.2 (), fun h => ⟨one_pos, fun _ => h⟩⟩

theorem abs_scaled (a s : ℝ) (hs : 0 < s) : |(|a| / s)| < 1 ↔ |a| < s := by
  rw [abs_of_nonneg (by positivity), div_lt_one hs]

/-- What it means that the inner root find is stopped after a step, if its linear solves succeed: the last step, and the
comparison function at its start, are small. -/
theorem inner_stop (env : InnerEnv) (henv : ExactInner env) (lambda0 : ℝ) (h0 : 0 < lambda0) (h1 : lambda0 ≤ 1) (c : ℝ → ℝ) (K : Nat)
    (hok : ∀ k, K = k + 1 → (env.linearSolve (env.deriv c (innerAt env lambda0 c k)) (c (innerAt env lambda0 c k))).2 = .successful)
    (h : ¬ Continues (innerSolver env c) (fun _ => true) (innerFn c) () (fun _ => lambda0)
        (NewtonChord.init (innerNewton env c) fun _ => lambda0) K) :
    ∃ k, K = k + 1 ∧
      |innerAt env lambda0 c k - innerAt env lambda0 c (k + 1)| < 1e-2 + 1e-2 * |innerAt env lambda0 c k| ∧
      |c (innerAt env lambda0 c k)| < 1e-2 := by
  obtain _ | k := K
  · exfalso
    apply h
    refine ⟨rfl, ?_⟩
    show NewtonChord.terminate (innerNewton env c) (fun _ => lambda0) (NewtonChord.init (innerNewton env c) fun _ => lambda0) = _
    have hc : cauchyTermination (1e-2 : ℝ) 1e-2 maxNorm maxNorm (fun _ : Unit => lambda0) (fun _ => env.inf) (fun _ : Unit => (0:ℝ))
        (fun _ => env.inf) = false := by
      simp only [cauchyTermination, Bool.and_eq_false_iff, decide_eq_false_iff_not]
      left
      rw [inner_maxNorm]
      simp only [scaledDiff, HasAbs.abs]
      rw [abs_of_pos h0, abs_of_nonneg (by linarith [henv.inf] : (0:ℝ) ≤ env.inf), abs_div,
        abs_of_nonneg (by linarith [henv.inf] : (0:ℝ) ≤ env.inf), div_lt_one (abs_pos.2 (by norm_num; linarith))]
      rw [abs_of_nonneg (by norm_num; linarith)]
      have := henv.inf
      norm_num
      linarith
    have hd : (NewtonChord.init (innerNewton env c) fun _ => lambda0).result = .successful := rfl
    unfold NewtonChord.terminate
    rw [hd]
    simp only [ne_eq, not_true_eq_false, decide_false, Bool.false_or, Bool.false_eq_true, if_false]
    show (cauchyTermination (1e-2 : ℝ) 1e-2 maxNorm maxNorm (fun _ : Unit => lambda0) (fun _ => env.inf) (fun _ : Unit => (0:ℝ))
        (fun _ => env.inf), Result.successful) = _
    rw [hc]
  · refine ⟨k, rfl, ?_⟩
    set St := stateAt (innerSolver env c) (innerFn c) () (fun _ => lambda0)
      (NewtonChord.init (innerNewton env c) fun _ => lambda0) with hSt
    have hd : (St (k + 1)).result = .successful := hok k rfl
    have hv : verdictAt (innerSolver env c) (innerFn c) () (fun _ => lambda0)
        (NewtonChord.init (innerNewton env c) fun _ => lambda0) (k + 1) =
        (cauchyTermination (1e-2 : ℝ) 1e-2 maxNorm maxNorm (fun _ : Unit => innerAt env lambda0 c k)
          (fun _ => innerAt env lambda0 c k - innerAt env lambda0 c (k + 1)) (fun _ : Unit => (0:ℝ))
          (fun _ => c (innerAt env lambda0 c k)), .successful) := by
      show NewtonChord.terminate (innerNewton env c) _ (St (k + 1)) = _
      unfold NewtonChord.terminate
      rw [hd]
      simp only [ne_eq, not_true_eq_false, decide_false, Bool.false_or, Bool.false_eq_true, if_false]
      rfl
    have hc : cauchyTermination (1e-2 : ℝ) 1e-2 maxNorm maxNorm (fun _ : Unit => innerAt env lambda0 c k)
          (fun _ => innerAt env lambda0 c k - innerAt env lambda0 c (k + 1)) (fun _ : Unit => (0:ℝ))
          (fun _ => c (innerAt env lambda0 c k)) = true := by
      by_contra hf
      rw [Bool.not_eq_true] at hf
      exact h ⟨rfl, by rw [hv, hf]⟩
    simp only [cauchyTermination, Bool.and_eq_true, decide_eq_true_eq, inner_maxNorm, scaledDiff, HasAbs.abs] at hc
    obtain ⟨c1, c2⟩ := hc
    constructor
    · exact (abs_scaled _ _ (by positivity)).1 c1
    · rw [abs_zero, mul_zero, add_zero] at c2
      exact (abs_scaled _ _ (by norm_num)).1 c2

section
variable {M : Matrix ι ι ℝ} (hM : Psd M) (v : ι → ℝ) (hv : v ≠ 0) (c : ℝ → ℝ) (Δ E : ℝ)
  (hc : ∀ l, 0 < l → l < E → ∃ p, Secular.Solves M l p v ∧ c l + Δ = Real.sqrt (p ⬝ᵥ p))
  (env : InnerEnv) (henv : ExactInner env)

include hM hv hc henv

/-- One step of the inner root find. -/
theorem inner_step (lambda0 : ℝ) (k : Nat) (hx : 0 < innerAt env lambda0 c k) (hxE : innerAt env lambda0 c k < E) :
    (env.linearSolve (env.deriv c (innerAt env lambda0 c k)) (c (innerAt env lambda0 c k))).2 = .successful ∧
    (∀ U, 0 < U → U < E → c U ≤ 0 → innerAt env lambda0 c (k + 1) ≤ max 1e-5 U) ∧
    0 < c (innerAt env lambda0 c k) + Δ ∧
    (0 ≤ c (innerAt env lambda0 c k) → innerAt env lambda0 c k * (2 - Δ / (c (innerAt env lambda0 c k) + Δ)) ≤
      innerAt env lambda0 c (k + 1)) := by
  set x := innerAt env lambda0 c k with hxdef
  have hdN := differentiableAt_length hM v hv (fun l => c l + Δ) E hc x hx hxE
  have hdc : DifferentiableAt ℝ c x := by
    have := hdN.sub_const Δ
    simpa using this
  have hder : deriv (fun l => c l + Δ) x = deriv c x := deriv_add_const Δ
  obtain ⟨h1, h2, h3, h4⟩ := newton_step hM v hv (fun l => c l + Δ) E hc x hx hxE Δ
  rw [hder] at h1 h2 h4
  have hsol : env.linearSolve (env.deriv c x) (c x) = (c x / deriv c x, .successful) := by
    rw [henv.deriv c x hdc, henv.linearSolve _ _ h1.ne]
  have hsucc : innerAt env lambda0 c (k + 1) = max 1e-5 (x - c x / deriv c x) := by
    rw [innerAt_succ, ← hxdef, hsol]
  simp only [add_sub_cancel_right] at h2 h4
  refine ⟨by rw [hsol], ?_, h3, ?_⟩
  · intro U hU hUE hUc
    rw [hsucc]
    exact max_le_max le_rfl (h2 U hU hUE (by linarith))
  · intro hcx
    rw [hsucc]
    exact (h4 (by linarith)).trans (le_max_right _ _)

/-- The iterates stay below every `U` (at least `1e-5`) whose step is no longer than the radius. -/
theorem inner_upper (lambda0 : ℝ) (h0 : 0 < lambda0) (h0E : lambda0 < E) (U : ℝ) (hU : 0 < U) (hUE : max 1e-5 U < E) (hUc : c U ≤ 0)
    (k : Nat) : 0 < innerAt env lambda0 c k ∧ innerAt env lambda0 c k < E ∧ (1 ≤ k → innerAt env lambda0 c k ≤ max 1e-5 U) := by
  induction k with
  | zero => exact ⟨h0, h0E, by omega⟩
  | succ k ih =>
    obtain ⟨_, h2, _⟩ := inner_step hM v hv c Δ E hc env henv lambda0 k ih.1 ih.2.1
    have h := h2 U hU ((le_max_right _ _).trans_lt hUE) hUc
    refine ⟨?_, h.trans_lt hUE, fun _ => h⟩
    rw [innerAt_succ]
    exact lt_of_lt_of_le (by norm_num) (le_max_left _ _)

/-- The damping found is the least one allowed, or its step is not too short. -/
theorem inner_not_short (lambda0 : ℝ) (k : Nat) (hx : 0 < innerAt env lambda0 c k) (hxE : innerAt env lambda0 c k < E)
    (hx'E : innerAt env lambda0 c (k + 1) < E) :
    innerAt env lambda0 c (k + 1) = 1e-5 ∨ 0 ≤ c (innerAt env lambda0 c (k + 1)) := by
  by_contra hno
  push Not at hno
  obtain ⟨hne, hneg⟩ := hno
  set x := innerAt env lambda0 c (k + 1) with hxd
  have hge : 1e-5 ≤ x := by rw [hxd, innerAt_succ]; exact le_max_left _ _
  have hgt : 1e-5 < x := lt_of_le_of_ne hge (Ne.symm hne)
  have hx0 : 0 < x := lt_trans (by norm_num) hgt
  have hcont : ContinuousAt c x := by
    have := (differentiableAt_length hM v hv (fun l => c l + Δ) E hc x hx0 hx'E).sub_const Δ
    have h2 : DifferentiableAt ℝ c x := by simpa using this
    exact h2.continuousAt
  have hev := hcont.eventually (gt_mem_nhds hneg)
  obtain ⟨δ, hδ, hball⟩ := Metric.eventually_nhds_iff.1 hev
  set y := max (x - δ / 2) ((x + 1e-5) / 2) with hy
  have hyx : y < x := max_lt (by linarith) (by linarith)
  have hyhalf : 1e-5 < y := lt_of_lt_of_le (by linarith) (le_max_right _ _)
  have hcy : c y < 0 := hball (by
    rw [Real.dist_eq, abs_of_nonpos (by linarith)]
    have : x - δ / 2 ≤ y := le_max_left _ _
    linarith)
  have h2 := (inner_step hM v hv c Δ E hc env henv lambda0 k hx hxE).2.1 y (lt_trans (by norm_num) hyhalf) (by linarith) hcy.le
  rw [max_eq_right hyhalf.le, ← hxd] at h2
  linarith

/-- From `lambda_0 = 1`, if the step is too long there, the iterates increase and the step never gets too short. -/
theorem inner_increasing (U : ℝ) (hU : 0 < U) (hUE : max 1e-5 U < E) (hUc : c U ≤ 0) (hE : 1 < E) (h1 : 0 ≤ c 1) (k : Nat) :
    1 ≤ innerAt env 1 c k ∧ 0 ≤ c (innerAt env 1 c k) ∧
    innerAt env 1 c k * (2 - Δ / (c (innerAt env 1 c k) + Δ)) ≤ innerAt env 1 c (k + 1) ∧
    innerAt env 1 c k ≤ innerAt env 1 c (k + 1) := by
  have hup := inner_upper hM v hv c Δ E hc env henv 1 one_pos hE U hU hUE hUc
  have hinc : ∀ k, 0 ≤ c (innerAt env 1 c k) →
      innerAt env 1 c k * (2 - Δ / (c (innerAt env 1 c k) + Δ)) ≤ innerAt env 1 c (k + 1) ∧
      innerAt env 1 c k ≤ innerAt env 1 c (k + 1) := by
    intro k hk
    obtain ⟨_, _, h3, h4⟩ := inner_step hM v hv c Δ E hc env henv 1 k (hup k).1 (hup k).2.1
    refine ⟨h4 hk, le_trans ?_ (h4 hk)⟩
    have : Δ / (c (innerAt env 1 c k) + Δ) ≤ 1 := (div_le_one h3).2 (by linarith)
    have hx := (hup k).1
    nlinarith
  have main : ∀ k, 1 ≤ innerAt env 1 c k ∧ 0 ≤ c (innerAt env 1 c k) := by
    intro k
    induction k with
    | zero => exact ⟨le_rfl, h1⟩
    | succ k ih =>
      have hge := ih.1.trans (hinc k ih.2).2
      refine ⟨hge, ?_⟩
      rcases inner_not_short hM v hv c Δ E hc env henv 1 k (hup k).1 (hup k).2.1 (hup (k + 1)).2.1 with h | h
      · rw [h] at hge
        norm_num at hge
      · exact h
  exact ⟨(main k).1, (main k).2, hinc k (main k).2⟩

/-- If all steps with damping up to `L` are ten times too long, the damping found is at least `L` (up to the limit that 32
steps impose). -/
theorem inner_lower (U : ℝ) (hU : 0 < U) (hUE : max 1e-5 U < E) (hUc : c U ≤ 0) (L : ℝ) (hL1 : 1 ≤ L) (hLE : L < E)
    (hL2 : L ≤ 1.9 ^ 32) (hΔ : 0 < Δ) (hlong : ∀ l, 0 < l → l ≤ L → 9 * Δ ≤ c l) : L ≤ (findLambdaNewton env 1 c).1 := by
  have hE : 1 < E := hL1.trans_lt hLE
  have hc1 : 0 ≤ c 1 := le_trans (by linarith) (hlong 1 one_pos hL1)
  have hinc := inner_increasing hM v hv c Δ E hc env henv U hU hUE hUc hE hc1
  have hgrow : ∀ k, innerAt env 1 c k < L → 1.9 * innerAt env 1 c k ≤ innerAt env 1 c (k + 1) := by
    intro k hk
    obtain ⟨h1, h2, h3, _⟩ := hinc k
    have hl := hlong _ (by linarith) hk.le
    have : Δ / (c (innerAt env 1 c k) + Δ) ≤ 0.1 := by
      rw [div_le_iff₀ (by linarith)]; norm_num; linarith
    norm_num at this ⊢
    nlinarith
  have hpow : ∀ k, L ≤ innerAt env 1 c k ∨ 1.9 ^ k ≤ innerAt env 1 c k := by
    intro k
    induction k with
    | zero => right; simp [innerAt_zero]
    | succ k ih =>
      by_cases hk : innerAt env 1 c k < L
      · right
        rcases ih with ih | ih
        · linarith
        · have := hgrow k hk
          rw [pow_succ]
          norm_num at this ih ⊢
          linarith
      · left
        exact (not_lt.1 hk).trans (hinc k).2.2.2
  obtain ⟨K, _, hval, hstop, _⟩ := inner_answer env 1 c
  rw [hval]
  rcases hstop with rfl | hstop
  · rcases hpow 32 with h | h
    · exact h
    · exact hL2.trans h
  · have hup := inner_upper hM v hv c Δ E hc env henv 1 one_pos hE U hU hUE hUc
    obtain ⟨k, rfl, hsmall, _⟩ := inner_stop env henv 1 one_pos le_rfl c K (fun k _ =>
      (inner_step hM v hv c Δ E hc env henv 1 k (hup k).1 (hup k).2.1).1) hstop
    refine le_trans ?_ (hinc k).2.2.2
    by_contra hk
    push Not at hk
    have h1 := hgrow k hk
    have h2 := (hinc k).1
    rw [abs_of_nonpos (by linarith [(hinc k).2.2.2]), abs_of_pos (by linarith)] at hsmall
    norm_num at hsmall h1
    linarith

/-- Longer dampings give shorter steps. -/
theorem inner_antitone (l m : ℝ) (hl : 0 < l) (hlm : l ≤ m) (hmE : m < E) : c m ≤ c l := by
  obtain ⟨p, hp, hcp⟩ := hc l hl (hlm.trans_lt hmE)
  obtain ⟨q, hq, hcq⟩ := hc m (hl.trans_le hlm) hmE
  obtain ⟨d, hd0, _, hd⟩ := tangent hM m (hl.trans_le hlm) q v hq hv
  have := hd l p hl hp
  have h2 : 0 ≤ d * (l - m) := mul_nonneg_of_nonpos_of_nonpos hd0.le (by linarith)
  linarith

/-- How long the step can be: within a factor ten of the radius, unless the damping has grown by `1.9` in all 32 steps; and
within about two percent if the inner root find has stopped by itself. -/
theorem inner_length (U : ℝ) (hU : 0 < U) (hUE : max 1e-5 U < E) (hUc : c U ≤ 0) (hE : 1 < E) (hΔ : 0 < Δ) (h1 : 0 ≤ c 1) :
    let l := (findLambdaNewton env 1 c).1
    (1.9 ^ 32 ≤ l ∨ c l + Δ ≤ 10 * Δ) ∧ ((findLambdaNewton env 1 c).2 = .successful → 0.98 * (c l + Δ) ≤ Δ) := by
  intro l
  have hinc := inner_increasing hM v hv c Δ E hc env henv U hU hUE hUc hE h1
  have hup := inner_upper hM v hv c Δ E hc env henv 1 one_pos hE U hU hUE hUc
  have hanti : ∀ k, c (innerAt env 1 c (k + 1)) ≤ c (innerAt env 1 c k) := fun k =>
    inner_antitone hM v hv c Δ E hc env henv _ _ (hup k).1 (hinc k).2.2.2 (hup (k + 1)).2.1
  have hA : Antitone fun k => c (innerAt env 1 c k) := antitone_nat_of_succ_le hanti
  obtain ⟨K, _, hval, hstop, hsucc⟩ := inner_answer env 1 c
  have hl : l = innerAt env 1 c K := hval
  have hclose : ¬ Continues (innerSolver env c) (fun _ => true) (innerFn c) () (fun _ => (1:ℝ))
      (NewtonChord.init (innerNewton env c) fun _ => (1:ℝ)) K → 0.98 * (c l + Δ) ≤ Δ := by
    intro hs
    obtain ⟨k, rfl, hsmall, _⟩ := inner_stop env henv 1 one_pos le_rfl c K (fun k _ =>
      (inner_step hM v hv c Δ E hc env henv 1 k (hup k).1 (hup k).2.1).1) hs
    obtain ⟨i1, i2, i3, i4⟩ := hinc k
    rw [hl]
    have hle := hanti k
    rw [abs_of_nonpos (by linarith), abs_of_pos (by linarith)] at hsmall
    set x := innerAt env 1 c k
    have hpos : 0 < c x + Δ := by linarith
    have h2 : 0.98 ≤ Δ / (c x + Δ) := by
      by_contra hlt
      push Not at hlt
      have : x * 1.02 ≤ x * (2 - Δ / (c x + Δ)) := mul_le_mul_of_nonneg_left (by norm_num at hlt ⊢; linarith) (by linarith)
      norm_num at this hsmall
      linarith
    rw [le_div_iff₀ hpos] at h2
    norm_num at h2 ⊢
    linarith
  refine ⟨?_, fun h => hclose (hsucc h)⟩
  rcases hstop with rfl | hstop
  · by_cases hall : ∀ k, k < 32 → 10 * Δ < c (innerAt env 1 c k) + Δ
    · left
      have hpow : ∀ k, k ≤ 32 → (1.9:ℝ) ^ k ≤ innerAt env 1 c k := by
        intro k
        induction k with
        | zero => intro _; simp [innerAt_zero]
        | succ k ih =>
          intro hk
          have h2 := ih (by omega)
          obtain ⟨i1, _, i3, _⟩ := hinc k
          have h4 := hall k (by omega)
          have : Δ / (c (innerAt env 1 c k) + Δ) ≤ 0.1 := by
            rw [div_le_iff₀ (by linarith)]; norm_num; linarith
          rw [pow_succ]
          norm_num at this h2 ⊢
          nlinarith
      rw [hl]
      exact hpow 32 le_rfl
    · right
      push Not at hall
      obtain ⟨k, hk, hle⟩ := hall
      rw [hl]
      have := hA hk.le
      simp only at this
      linarith
  · right
    have := hclose hstop
    norm_num at this
    linarith

end

/-! ### The damped steps -/

theorem gram_psd (J : Matrix κ ι ℝ) : Psd (J.transpose * J) where
  symm x y := by
    rw [← Matrix.mulVec_mulVec, ← Matrix.mulVec_mulVec, Matrix.dotProduct_mulVec, Matrix.vecMul_transpose,
      Matrix.mulVec_transpose, Matrix.dotProduct_mulVec]
  nonneg x := by
    rw [← Matrix.mulVec_mulVec, Matrix.dotProduct_mulVec, Matrix.vecMul_transpose]
    exact self_nonneg _

theorem gram_solves (J : Matrix κ ι ℝ) (l : ℝ) (p g : ι → ℝ) (h : ∀ i, ∑ k, J k i * J.mulVec p k + l * p i = -g i) :
    Secular.Solves (J.transpose * J) l p fun i => -g i := by
  unfold Secular.Solves
  rw [← Matrix.mulVec_mulVec]
  funext i
  exact h i

theorem dot_self_eq (x : ι → ℝ) : x ⬝ᵥ x = ∑ i, x i ^ 2 := by
  simp only [dotProduct]; exact Finset.sum_congr rfl fun i _ => by ring

theorem gram_bound (J : Matrix κ ι ℝ) (B : ℝ) (hB : 0 ≤ B) (h : ∀ p : ι → ℝ, ∑ m, (∑ i, J m i * p i) ^ 2 ≤ B * ∑ i, p i ^ 2)
    (x : ι → ℝ) : Real.sqrt ((J.transpose * J).mulVec x ⬝ᵥ (J.transpose * J).mulVec x) ≤ B * Real.sqrt (x ⬝ᵥ x) := by
  rw [← Matrix.mulVec_mulVec, dot_self_eq, dot_self_eq]
  have h1 := transpose_bound J B hB h (J.mulVec x)
  have h2 := mul_le_mul_of_nonneg_left (h x) hB
  refine Real.sqrt_le_iff.2 ⟨by positivity, ?_⟩
  rw [mul_pow, Real.sq_sqrt (Finset.sum_nonneg fun i _ => sq_nonneg _)]
  calc ∑ i, (J.transpose.mulVec (J.mulVec x)) i ^ 2 = ∑ i, (∑ m, J m i * J.mulVec x m) ^ 2 := rfl
    _ ≤ B * ∑ m, J.mulVec x m ^ 2 := h1
    _ = B * ∑ m, (∑ i, J m i * x i) ^ 2 := rfl
    _ ≤ B * (B * ∑ i, x i ^ 2) := h2
    _ = _ := by ring

section
variable [DecidableEq ι] (eps fmax : ℝ) (he : 0 < eps) (hf : 0 < fmax) (ls : LinSolve ι κ) (lsD : LinSolve ι (κ ⊕ ι))
  (hlsD : SolvesLeastSquares lsD) (J : Matrix κ ι ℝ) (r : κ → ℝ) (s : ℝ)

/-- The function whose root the inner root find looks for (levenberg_marquardt.py:215-217). -/
noncomputable def comparison (eps fmax : ℝ) (ls : LinSolve ι κ) (lsD : LinSolve ι (κ ⊕ ι)) (J : Matrix κ ι ℝ) (r : κ → ℝ)
    (s : ℝ) : ℝ → ℝ :=
  fun l => twoNorm (dampedNewtonStep eps fmax lsD (1 / l) (.residualJac r J)).1 - twoNorm (ls.rect J r).1 * s

omit [DecidableEq ι] in
theorem twoNorm_eq (x : ι → ℝ) : twoNorm x = Real.sqrt (x ⬝ᵥ x) := rfl

omit [DecidableEq ι] in
theorem twoNorm_neg_eq (x : ι → ℝ) : twoNorm (fun i => -x i) = twoNorm x := by
  unfold twoNorm sumSquares; simp

include he hf hlsD

theorem damped_param (l : ℝ) (hl : 0 < l) (hlE : l < 1 / eps) : lmParam eps fmax (1 / l) = l := by
  have : eps < 1 / l := by rw [lt_div_iff₀ hl]; rwa [lt_div_iff₀ he, mul_comm] at hlE
  unfold lmParam; rw [if_pos this]; simp

/-- The damped step solves the damped normal equations. -/
theorem damped_solves (l : ℝ) (hl : 0 < l) (hlE : l < 1 / eps) :
    Secular.Solves (J.transpose * J) l ((dampedNewtonDescent eps fmax lsD).step (1 / l) (.residualJac r J)).1
      fun i => -∑ k, J k i * r k := by
  obtain ⟨_, _, h, _⟩ := C40_damped_step eps fmax (1 / l) he.le hf lsD hlsD J r
  have hpar := damped_param eps fmax he hf lsD hlsD l hl hlE
  unfold lmParam at hpar
  rw [hpar] at h
  exact gram_solves J l _ _ h

theorem comparison_spec (l : ℝ) (hl : 0 < l) (hlE : l < 1 / eps) :
    ∃ p, Secular.Solves (J.transpose * J) l p (fun i => -∑ k, J k i * r k) ∧
      comparison eps fmax ls lsD J r s l + twoNorm (ls.rect J r).1 * s = Real.sqrt (p ⬝ᵥ p) := by
  refine ⟨_, damped_solves eps fmax he hf lsD hlsD J r l hl hlE, ?_⟩
  unfold comparison
  rw [← twoNorm_eq]
  have : ((dampedNewtonDescent eps fmax lsD).step (1 / l) (.residualJac r J)).1 =
    fun i => -(dampedNewtonStep eps fmax lsD (1 / l) (.residualJac r J)).1 i := rfl
  rw [this, twoNorm_neg_eq]
  ring

theorem damped_isDamped (l : ℝ) (hl : 0 < l) (hlE : l < 1 / eps) :
    IsDamped J r l ((dampedNewtonDescent eps fmax lsD).step (1 / l) (.residualJac r J)).1 := by
  have hpar := damped_param eps fmax he hf lsD hlsD l hl hlE
  have h := fun q => damped_minimiser J r (lmParam eps fmax (1 / l)) (by rw [hpar]; exact hl.le) _ (hlsD _ _) q
  rw [hpar] at h
  intro q
  have e : ((dampedNewtonDescent eps fmax lsD).step (1 / l) (.residualJac r J)).1 =
      fun i => -(lsD.rect (dampedOperator J l) (dampedVector r)).1 i := by
    show (fun i => -(lsD.rect (dampedOperator J (lmParam eps fmax (1 / l))) (dampedVector r)).1 i) = _
    rw [hpar]
  rw [e]
  exact h q

end

/-- **C70.** Whatever the comparison function, its derivative and the linear solves are, the inner root find returns, and the
damping it returns is at least `1e-5`, if `lambda_0` is. -/
theorem C70_damping_positive (env : InnerEnv) (lambda0 : ℝ) (h : 1e-5 ≤ lambda0) (c : ℝ → ℝ) :
    1e-5 ≤ (findLambdaNewton env lambda0 c).1 := by
  obtain ⟨K, _, hv, _⟩ := inner_answer env lambda0 c
  rw [hv]
  obtain _ | K := K
  · exact h
  · rw [innerAt_succ]; exact le_max_left _ _

/-- **C70.** The step of `IndirectDampedNewtonDescent` for `0 < step_size < 1` with its default root finder, away from
stationary points, if the radius can be met by some damping `U ≥ 1e-5` below `1/eps`: it is the damped step of a damping
`l` between `1e-5` and `1/eps`, not longer than the Newton step; it is never shorter than the radius `step_size·|newton|`
unless the damping is the least one allowed; if at damping one the step is at least as long as the radius, it is at
most ten times as long as the radius unless the damping is above `1.9³²`, and, if the inner root find reports success, at most the
radius divided by `0.98`. -/
theorem C70_step [DecidableEq ι] (eps fmax : ℝ) (he : 0 < eps) (he1 : eps < 1) (hf : 0 < fmax)
    (ls : LinSolve ι κ) (hls : SolvesLeastSquares ls) (lsD : LinSolve ι (κ ⊕ ι)) (hlsD : SolvesLeastSquares lsD)
    (env : InnerEnv) (henv : ExactInner env) (J : Matrix κ ι ℝ) (r : κ → ℝ) (hg : ∃ i, ∑ k, J k i * r k ≠ 0)
    (s : ℝ) (hs0 : 0 < s) (hs1 : s < 1) (hok : (ls.rect J r).2 = .successful)
    (U : ℝ) (hU : 1e-5 ≤ U) (hUE : U < 1 / eps) (q : ι → ℝ) (hq : IsDamped J r U q)
    (hqs : twoNorm q ≤ s * twoNorm (ls.rect J r).1) (y : ι → ℝ) (old : IndirectState ι κ) :
    let D := indirectDescent eps fmax ls lsD twoNorm (findLambdaNewton env 1)
    let step := (D.step s (D.query y (.residualJac r J) old)).1
    let newton := (ls.rect J r).1
    ∃ l, 1e-5 ≤ l ∧ l < 1 / eps ∧ IsDamped J r l step ∧ twoNorm step ≤ twoNorm newton ∧
      (l = 1e-5 ∨ s * twoNorm newton ≤ twoNorm step) ∧
      ∀ q1, IsDamped J r 1 q1 → s * twoNorm newton ≤ twoNorm q1 →
        (1.9 ^ 32 ≤ l ∨ twoNorm step ≤ 10 * (s * twoNorm newton)) ∧
        ((findLambdaNewton env 1 (comparison eps fmax ls lsD J r s)).2 = .successful →
          0.98 * twoNorm step ≤ s * twoNorm newton) := by
  intro D step newton
  set g : ι → ℝ := fun i => ∑ k, J k i * r k with hgd
  have hv : (fun i => -g i) ≠ 0 := by
    obtain ⟨i, hi⟩ := hg
    intro h
    exact hi (by have := congrFun h i; simpa using this)
  set c := comparison eps fmax ls lsD J r s with hcd
  set Δ := twoNorm (ls.rect J r).1 * s with hΔ
  have hM := gram_psd J
  have hc := comparison_spec eps fmax he hf ls lsD hlsD J r s
  have hE1 : 1 < 1 / eps := by rw [lt_div_iff₀ he]; linarith
  have hU0 : 0 < U := lt_of_lt_of_le (by norm_num) hU
  have hUmax : max 1e-5 U < 1 / eps := by rw [max_eq_right hU]; exact hUE
  -- uniqueness of damped steps
  have hlen : ∀ l q, 0 < l → l < 1 / eps → IsDamped J r l q → c l + Δ = twoNorm q := by
    intro l q hl hlE hq
    obtain ⟨p, hp, hcp⟩ := hc l hl hlE
    have hst := regularised_stationary J r l hl.le q hq
    have hq' : Secular.Solves (J.transpose * J) l q fun i => -g i := by
      refine gram_solves J l q g fun i => ?_
      have := hst i
      simp only [mul_add, Finset.sum_add_distrib] at this
      show _ = -∑ k, J k i * r k
      linarith
    rw [hcp, twoNorm_eq, solves_eq hM l hl p _ hp, solves_eq hM l hl q _ hq']
  have hUc : c U ≤ 0 := by
    have := hlen U q hU0 hUE hq
    linarith
  have hup := inner_upper hM _ hv c Δ (1 / eps) hc env henv 1 one_pos hE1 U hU0 hUmax hUc
  obtain ⟨K, _, hval, hstop, _⟩ := inner_answer env 1 c
  set l := (findLambdaNewton env 1 c).1 with hl
  have hstepD : D.step s (D.query y (.residualJac r J) old) =
      (dampedNewtonDescent eps fmax lsD).step (1 / l) (.residualJac r J) := by
    have hcc : (ls.rect J r).2 = .successful ∧ s < 1 := ⟨hok, hs1⟩
    show (fun i => -(if (ls.rect J r).2 = .successful ∧ s < 1 then _ else _ : (ι → ℝ) × Result).1 i,
      (if (ls.rect J r).2 = .successful ∧ s < 1 then _ else _ : (ι → ℝ) × Result).2) = _
    rw [if_pos hcc]
    rfl
  have hl0 : 1e-5 ≤ l := C70_damping_positive env 1 (by norm_num) c
  have hlpos : 0 < l := lt_of_lt_of_le (by norm_num) hl0
  have hlE : l < 1 / eps := by rw [hval]; exact (hup K).2.1
  have hdamp : IsDamped J r l step := by
    show IsDamped J r l (D.step s (D.query y (.residualJac r J) old)).1
    rw [hstepD]
    exact damped_isDamped eps fmax he hf lsD hlsD J r l hlpos hlE
  have hcl : c l + Δ = twoNorm step := hlen l step hlpos hlE hdamp
  have hcomm : s * twoNorm newton = Δ := mul_comm _ _
  refine ⟨l, hl0, hlE, hdamp, ?_, ?_, ?_⟩
  · have h1 := hdamp fun i => -newton i
    have h2 := hls J r fun i => -step i
    have e1 : ∑ k, (J.mulVec (fun i => -newton i) k + r k) ^ 2 = ∑ k, (J.mulVec newton k - r k) ^ 2 :=
      Finset.sum_congr rfl fun k _ => by rw [mulVec_neg']; ring
    have e2 : ∑ k, (J.mulVec (fun i => -step i) k - r k) ^ 2 = ∑ k, (J.mulVec step k + r k) ^ 2 :=
      Finset.sum_congr rfl fun k _ => by rw [mulVec_neg']; ring
    rw [e1] at h1
    rw [e2] at h2
    have h3 : l * ∑ i, step i ^ 2 ≤ l * ∑ i, newton i ^ 2 := by
      simp only [neg_sq] at h1
      have h2' : ∑ k, (J.mulVec newton k - r k) ^ 2 ≤ ∑ k, (J.mulVec step k + r k) ^ 2 := h2
      linarith
    rw [twoNorm_eq, twoNorm_eq, dot_self_eq, dot_self_eq]
    exact Real.sqrt_le_sqrt (le_of_mul_le_mul_left h3 hlpos)
  · obtain ⟨k, rfl⟩ : ∃ k, K = k + 1 := by
      rcases hstop with rfl | hstop
      · exact ⟨31, rfl⟩
      · obtain ⟨k, hk, _⟩ := inner_stop env henv 1 one_pos le_rfl c K (fun k _ =>
          (inner_step hM _ hv c Δ (1 / eps) hc env henv 1 k (hup k).1 (hup k).2.1).1) hstop
        exact ⟨k, hk⟩
    rcases inner_not_short hM _ hv c Δ (1 / eps) hc env henv 1 k (hup k).1 (hup k).2.1 (hup (k + 1)).2.1 with h | h
    · left; rw [hval]; exact h
    · right
      rw [hcomm, ← hcl, hval]
      linarith
  · intro q1 hq1 hlong
    have hc1 : 0 ≤ c 1 := by
      have := hlen 1 q1 one_pos hE1 hq1
      linarith
    have hΔ0 : 0 < Δ := by
      have h0 : 0 < twoNorm q := by
        rw [twoNorm_eq]
        refine Real.sqrt_pos.2 (self_pos ?_)
        rintro rfl
        obtain ⟨i, hi⟩ := hg
        have := regularised_stationary J r U hU0.le 0 hq i
        rw [Matrix.mulVec_zero] at this
        simp at this
        exact hi this
      linarith
    obtain ⟨h1, h2⟩ := inner_length hM _ hv c Δ (1 / eps) hc env henv U hU0 hUmax hUc hE1 hΔ0 hc1
    rw [← hl, hcl] at h1 h2
    rw [hcomm]
    exact ⟨h1, h2⟩

/-- The hypotheses of C70 are met, nontrivially: one unknown, one residual `y + 1` at `y = 0`, step size `1/4`.  The Newton step
has length one; damping three meets the radius exactly, and damping one gives a longer step. -/
example : ∃ (env : InnerEnv) (ls : LinSolve Unit Unit) (lsD : LinSolve Unit (Unit ⊕ Unit)),
    ExactInner env ∧ SolvesLeastSquares ls ∧ SolvesLeastSquares lsD ∧
    (ls.rect (1 : Matrix Unit Unit ℝ) fun _ => 1).2 = .successful ∧
    twoNorm (ls.rect (1 : Matrix Unit Unit ℝ) fun _ => 1).1 = 1 ∧
    IsDamped (1 : Matrix Unit Unit ℝ) (fun _ => 1) 3 (fun _ => -(1/4)) ∧
    IsDamped (1 : Matrix Unit Unit ℝ) (fun _ => 1) 1 (fun _ => -(1/2)) ∧
    twoNorm (fun _ : Unit => (-(1/4) : ℝ)) = 1/4 ∧ twoNorm (fun _ : Unit => (-(1/2) : ℝ)) = 1/2 := by
  classical
  have hn : ∀ x : Unit → ℝ, twoNorm x = |x ()| := by
    intro x
    simp [twoNorm, sumSquares, Real.sqrt_mul_self_eq_abs]
  obtain ⟨lsD, hD⟩ := exact_least_squares_exists (ι := Unit) (κ := Unit ⊕ Unit)
  refine ⟨⟨deriv, fun a b => (b / a, .successful), 1, 0⟩,
    ⟨fun M v => (Classical.choose (least_squares_exists M v), .successful), fun _ g => (g, .successful)⟩, lsD,
    ⟨fun _ _ _ => rfl, fun _ _ _ => rfl, le_rfl⟩, fun M v => Classical.choose_spec (least_squares_exists M v), hD, rfl, ?_, ?_, ?_,
    by rw [hn]; norm_num, by rw [hn]; norm_num⟩
  · rw [hn]
    have h := Classical.choose_spec (least_squares_exists (1 : Matrix Unit Unit ℝ) fun _ => 1)
    have h2 := normal_equations _ _ _ h ()
    simp only [Matrix.one_mulVec, Finset.univ_unique, Finset.sum_singleton, PUnit.default_eq_unit, Matrix.one_apply_eq, one_mul] at h2
    exact (congrArg abs (sub_eq_zero.1 h2)).trans abs_one
  · intro q
    simp only [Matrix.one_mulVec, Finset.univ_unique, Finset.sum_singleton, PUnit.default_eq_unit]
    nlinarith [sq_nonneg (q () + 1 / 4)]
  · intro q
    simp only [Matrix.one_mulVec, Finset.univ_unique, Finset.sum_singleton, PUnit.default_eq_unit]
    nlinarith [sq_nonneg (q () + 1 / 2)]

/-! ### C71 -/

/-- The step of `IndirectLevenbergMarquardt` as a function of the radius, the residuals and the Jacobian. -/
noncomputable def indirectStep [DecidableEq ι] (eps fmax : ℝ) (ls : LinSolve ι κ) (lsD : LinSolve ι (κ ⊕ ι)) (env : InnerEnv)
    (t : ℝ) (r : κ → ℝ) (J : Matrix κ ι ℝ) : (ι → ℝ) × Result :=
  if (ls.rect J r).2 = .successful ∧ t < 1 then
    (dampedNewtonDescent eps fmax lsD).step (1 / (findLambdaNewton env 1 (comparison eps fmax ls lsD J r t)).1) (.residualJac r J)
  else (fun i => -(ls.rect J r).1 i, (ls.rect J r).2)

theorem indirect_memoryless [DecidableEq ι] (eps fmax : ℝ) (ls : LinSolve ι κ) (lsD : LinSolve ι (κ ⊕ ι)) (env : InnerEnv) :
    Memoryless (indirectDescent eps fmax ls lsD twoNorm (findLambdaNewton env 1)) (indirectStep eps fmax ls lsD env) := by
  intro t y' d' r J
  show (fun i => -(if (ls.rect J r).2 = .successful ∧ t < 1 then _ else _ : (ι → ℝ) × Result).1 i,
    (if (ls.rect J r).2 = .successful ∧ t < 1 then _ else _ : (ι → ℝ) × Result).2) = indirectStep eps fmax ls lsD env t r J
  unfold indirectStep
  split
  · rfl
  · rfl

/-- The Newton step, its slope and its predicted change. -/
theorem indirect_newton_facts (ls : LinSolve ι κ) (hls : SolvesLeastSquares ls) (J : Matrix κ ι ℝ) (r : κ → ℝ) :
    let p := fun i => -(ls.rect J r).1 i
    let g := fun i => ∑ k, J k i * r k
    Secular.Solves (J.transpose * J) 0 p (fun i => -g i) ∧ linearisedChange J r p = -(∑ m, (∑ i, J m i * p i) ^ 2) / 2 ∧
    ∀ B, 0 ≤ B → (∀ p : ι → ℝ, ∑ m, (∑ i, J m i * p i) ^ 2 ≤ B * ∑ i, p i ^ 2) →
      ∑ i, g i ^ 2 ≤ B * ∑ m, (∑ i, J m i * p i) ^ 2 := by
  intro p g
  have hst : ∀ i, ∑ k, J k i * J.mulVec p k = -g i := by
    intro i
    have h := normal_equations _ _ _ (hls J r) i
    have e : ∀ k, J.mulVec p k = -J.mulVec (ls.rect J r).1 k := fun k => mulVec_neg' J _ k
    simp only [mul_sub, Finset.sum_sub_distrib] at h
    simp only [e, mul_neg, Finset.sum_neg_distrib]
    show _ = -∑ k, J k i * r k
    linarith
  refine ⟨gram_solves J 0 p g fun i => by rw [zero_mul, add_zero]; exact hst i, ?_, ?_⟩
  · have e1 : ∑ i, (∑ k, J k i * J.mulVec p k) * p i = ∑ k, J.mulVec p k ^ 2 := by
      simp only [Finset.sum_mul]
      rw [Finset.sum_comm]
      refine Finset.sum_congr rfl fun k _ => ?_
      rw [sq]
      nth_rewrite 3 [Matrix.mulVec]
      rw [dotProduct, Finset.mul_sum]
      exact Finset.sum_congr rfl fun i _ => by ring
    have e2 : ∑ k, r k * J.mulVec p k = ∑ i, g i * p i := by
      simp only [g, Matrix.mulVec, dotProduct, Finset.mul_sum, Finset.sum_mul]
      rw [Finset.sum_comm]
      exact Finset.sum_congr rfl fun i _ => Finset.sum_congr rfl fun k _ => by ring
    have e3 : ∑ i, g i * p i = -∑ k, J.mulVec p k ^ 2 := by
      rw [← e1, ← Finset.sum_neg_distrib]
      exact Finset.sum_congr rfl fun i _ => by rw [hst]; ring
    unfold linearisedChange
    have e : ∑ k, (J.mulVec p k + r k) ^ 2 = ∑ k, J.mulVec p k ^ 2 + 2 * ∑ k, r k * J.mulVec p k + ∑ k, r k ^ 2 := by
      rw [Finset.mul_sum, ← Finset.sum_add_distrib, ← Finset.sum_add_distrib]
      exact Finset.sum_congr rfl fun k _ => by ring
    rw [e, e2, e3]
    show _ = -(∑ m, J.mulVec p m ^ 2) / 2
    ring
  · intro B hB hJ
    have h := transpose_bound J B hB hJ (J.mulVec p)
    have e : ∑ i, (∑ m, J m i * J.mulVec p m) ^ 2 = ∑ i, g i ^ 2 :=
      Finset.sum_congr rfl fun i _ => by rw [hst]; ring
    rw [e] at h
    exact h

/-- Bounds on the length of the Newton step. -/
theorem newton_length (ls : LinSolve ι κ) (hls : SolvesLeastSquares ls) (J : Matrix κ ι ℝ) (r : κ → ℝ) (B μ : ℝ) (hB : 0 ≤ B)
    (hJ : ∀ p : ι → ℝ, ∑ m, (∑ i, J m i * p i) ^ 2 ≤ B * ∑ i, p i ^ 2)
    (hμ : ∀ p : ι → ℝ, μ * ∑ i, p i ^ 2 ≤ ∑ m, (∑ i, J m i * p i) ^ 2) :
    twoNorm (fun i => ∑ k, J k i * r k) ≤ B * twoNorm (ls.rect J r).1 ∧
    μ * twoNorm (ls.rect J r).1 ≤ twoNorm (fun i => ∑ k, J k i * r k) := by
  obtain ⟨hsol, _⟩ := indirect_newton_facts ls hls J r
  have h1 := length_ge B hB (gram_bound J B hB hJ) 0 le_rfl _ _ hsol
  rw [add_zero, ← twoNorm_eq, ← twoNorm_eq, twoNorm_neg_eq, twoNorm_neg_eq] at h1
  refine ⟨h1, ?_⟩
  set p : ι → ℝ := fun i => -(ls.rect J r).1 i with hp
  have h2 : p ⬝ᵥ (J.transpose * J).mulVec p = ∑ m, (∑ i, J m i * p i) ^ 2 := by
    rw [← Matrix.mulVec_mulVec, Matrix.dotProduct_mulVec, Matrix.vecMul_transpose, dot_self_eq]
    rfl
  have hsol' : (J.transpose * J).mulVec p + (0:ℝ) • p = _ := hsol
  rw [zero_smul, add_zero] at hsol'
  rw [hsol'] at h2
  have h3 := cs_sqrt p fun i => -∑ k, J k i * r k
  rw [h2, ← twoNorm_eq, ← twoNorm_eq, hp, twoNorm_neg_eq, twoNorm_neg_eq] at h3
  have h4 := hμ p
  have h5 : ∑ i, p i ^ 2 = twoNorm (ls.rect J r).1 ^ 2 := by
    rw [← twoNorm_neg_eq, twoNorm_eq, Real.sq_sqrt (self_nonneg _), dot_self_eq]
  rw [h5] at h4
  have h6 : 0 ≤ twoNorm (ls.rect J r).1 := Real.sqrt_nonneg _
  rcases h6.eq_or_lt with h0 | h0
  · rw [← h0, mul_zero]; exact Real.sqrt_nonneg _
  · refine le_of_mul_le_mul_left ?_ h0
    have h7 := h4.trans h3
    linarith

/-- The damping used for radius `s < 1`: bounds from the conditioning of the problem. -/
theorem indirect_damping [DecidableEq ι] (eps fmax : ℝ) (he : 0 < eps) (hf : 0 < fmax)
    (ls : LinSolve ι κ) (hls : SolvesLeastSquares ls) (lsD : LinSolve ι (κ ⊕ ι)) (hlsD : SolvesLeastSquares lsD)
    (env : InnerEnv) (henv : ExactInner env) (J : Matrix κ ι ℝ) (r : κ → ℝ) (hg : ∃ i, ∑ k, J k i * r k ≠ 0) (B μ L : ℝ)
    (hμ0 : 0 < μ) (hB : μ ≤ B)
    (hJ : ∀ p : ι → ℝ, ∑ m, (∑ i, J m i * p i) ^ 2 ≤ B * ∑ i, p i ^ 2)
    (hμ : ∀ p : ι → ℝ, μ * ∑ i, p i ^ 2 ≤ ∑ m, (∑ i, J m i * p i) ^ 2) (hL1 : 1 ≤ L) (hL2 : L ≤ 1.9 ^ 32)
    (s : ℝ) (hs0 : 0 < s) (hs1 : s < 1) (hE : max (L + B) (B / s) < 1 / eps) :
    let l := (findLambdaNewton env 1 (comparison eps fmax ls lsD J r s)).1
    0 < l ∧ l < 1 / eps ∧ l ≤ max 1 (B / s) ∧ (s * (10 * (B + L)) ≤ μ → L ≤ l) := by
  intro l
  set g : ι → ℝ := fun i => ∑ k, J k i * r k with hgd
  have hv : (fun i => -g i) ≠ 0 := by
    obtain ⟨i, hi⟩ := hg
    intro h
    exact hi (by have := congrFun h i; simpa using this)
  have hB0 : 0 < B := hμ0.trans_le hB
  have hM := gram_psd J
  have hc := comparison_spec eps fmax he hf ls lsD hlsD J r s
  obtain ⟨hn1, hn2⟩ := newton_length ls hls J r B μ hB0.le hJ hμ
  have hGpos : 0 < twoNorm g := by
    have : 0 < twoNorm fun i => -g i := Real.sqrt_pos.2 (self_pos hv)
    rwa [twoNorm_neg_eq] at this
  set n := twoNorm (ls.rect J r).1 with hn
  set G := twoNorm g with hG
  have hn0 : 0 < n := by
    by_contra h
    push Not at h
    have h1 : G ≤ B * n := hn1
    have := mul_nonpos_of_nonneg_of_nonpos hB0.le h
    linarith
  set c := comparison eps fmax ls lsD J r s with hcd
  have hLB : L + B < 1 / eps := (le_max_left _ _).trans_lt hE
  have hE1 : 1 < 1 / eps := by linarith
  have hU : 0 < B / s := by positivity
  have hUE' : B / s < 1 / eps := (le_max_right _ _).trans_lt hE
  have hUE : max 1e-5 (B / s) < 1 / eps := max_lt (lt_trans (by norm_num) hE1) hUE'
  have hUc : c (B / s) ≤ 0 := by
    obtain ⟨p, hp, hcp⟩ := hc (B / s) hU hUE'
    have h1 := length_le hM (B / s) hU.le p _ hp
    rw [← twoNorm_eq, ← twoNorm_eq, twoNorm_neg_eq] at h1
    rw [← twoNorm_eq] at hcp
    have h2 : B / s * twoNorm p ≤ B * n := h1.trans hn1
    have h3 : twoNorm p ≤ n * s := by
      rw [div_mul_eq_mul_div, div_le_iff₀ hs0] at h2
      refine le_of_mul_le_mul_left ?_ hB0
      linarith
    have : c (B / s) + n * s = twoNorm p := hcp
    linarith
  have hup := inner_upper hM _ hv c (n * s) (1 / eps) hc env henv 1 one_pos hE1 (B / s) hU hUE hUc
  obtain ⟨K, _, hval, _⟩ := inner_answer env 1 c
  have hl : l = innerAt env 1 c K := hval
  refine ⟨by rw [hl]; exact (hup K).1, by rw [hl]; exact (hup K).2.1, ?_, ?_⟩
  · rw [hl]
    obtain _ | K := K
    · rw [innerAt_zero]; exact le_max_left _ _
    · exact ((hup (K + 1)).2.2 (by omega)).trans (max_le_max (by norm_num) le_rfl)
  · intro hsmall
    refine inner_lower hM _ hv c (n * s) (1 / eps) hc env henv (B / s) hU hUE hUc L hL1 (by linarith) hL2 (by positivity) ?_
    intro m hm hmL
    obtain ⟨p, hp, hcp⟩ := hc m hm (by linarith)
    have h1 := length_ge B hB0.le (gram_bound J B hB0.le hJ) m hm.le p _ hp
    rw [← twoNorm_eq, ← twoNorm_eq, twoNorm_neg_eq] at h1
    rw [← twoNorm_eq] at hcp
    have hcp' : c m + n * s = twoNorm p := hcp
    have h1' : G ≤ (B + m) * twoNorm p := h1
    have hp0 : 0 ≤ twoNorm p := Real.sqrt_nonneg _
    have h2 : G ≤ (B + L) * twoNorm p := h1'.trans (mul_le_mul_of_nonneg_right (by linarith) hp0)
    have h3 : μ * n ≤ (B + L) * twoNorm p := le_trans hn2 h2
    have h4 : s * (10 * (B + L)) * n ≤ (B + L) * twoNorm p := le_trans (mul_le_mul_of_nonneg_right hsmall hn0.le) h3
    have h5 : 10 * (n * s) ≤ twoNorm p := by
      refine le_of_mul_le_mul_left ?_ (by linarith : 0 < B + L)
      linarith
    linarith

set_option maxHeartbeats 1000000 in
/-- Trials of `IndirectLevenbergMarquardt` from radius at least `τ / 4`, where `τ = μ / (10 (B + max L 1))`: up to radius `τ` they
pass the test of the default search, and they promise a decrease proportional to the squared gradient. -/
theorem indirect_trial_facts [DecidableEq ι] (eps fmax : ℝ) (he : 0 < eps) (hf : 0 < fmax)
    (ls : LinSolve ι κ) (hls : SolvesLeastSquares ls)
    (lsD : LinSolve ι (κ ⊕ ι)) (hlsD : SolvesLeastSquares lsD) (env : InnerEnv) (henv : ExactInner env)
    (jac : (ι → ℝ) → Matrix κ ι ℝ) (fn : (ι → ℝ) → (κ → ℝ) × A) (L B μ : ℝ)
    (hS : SmoothResiduals (fun y => (fn y).1) jac L B) (hμ0 : 0 < μ) (hμB : μ ≤ B)
    (hrank : ∀ (y p : ι → ℝ), μ * ∑ i, p i ^ 2 ≤ ∑ m, (∑ i, jac y m i * p i) ^ 2)
    (hL : L ≤ 10 ^ 8) (hcond : eps * (40 * B * (B + L + 1)) < μ)
    (hok : ∀ M v, (ls.rect M v).2 = .successful) :
    let τ := μ / (10 * (B + max L 1))
    let step := fun t r J => (indirectStep (κ := κ) eps fmax ls lsD env t r J).1
    (∀ y s, τ / 4 ≤ s → s ≤ τ →
      (∑ m, (fn fun i => y i + step s (fn y).1 (jac y) i).1 m ^ 2) / 2 - (∑ m, (fn y).1 m ^ 2) / 2 ≤
        1 / 100 * linearisedChange (jac y) (fn y).1 (step s (fn y).1 (jac y))) ∧
    ∀ y s, τ / 4 ≤ s →
      linearisedChange (jac y) (fn y).1 (step s (fn y).1 (jac y)) ≤
        -(1 / (4 * (B + max 1 (B / (τ / 4)))) * ∑ i, (∑ m, jac y m i * (fn y).1 m) ^ 2) ∧
      linearisedChange (jac y) (fn y).1 (step s (fn y).1 (jac y)) ≤
        -(∑ m, (∑ i, jac y m i * step s (fn y).1 (jac y) i) ^ 2) / 2 := by
  obtain ⟨hL0, _⟩ := hS.nonneg
  have hB0 : 0 < B := hμ0.trans_le hμB
  -- the damping that suffices, and the radius that leads to it
  set L' := max L 1 with hL'
  have hL'1 : 1 ≤ L' := le_max_right _ _
  have hL'2 : L' ≤ 1.9 ^ 32 := max_le (hL.trans (by norm_num)) (by norm_num)
  have hL'3 : L' ≤ L + 1 := max_le (by linarith) (by linarith)
  intro τ step
  have hτd : τ = μ / (10 * (B + L')) := rfl
  have hτ0 : 0 < τ := by positivity
  have hτ1 : τ < 1 := by rw [hτd, div_lt_one (by positivity)]; linarith
  have hE : ∀ s, τ / 4 ≤ s → max (L' + B) (B / s) < 1 / eps := by
    intro s hs
    have hs0 : 0 < s := lt_of_lt_of_le (by positivity) hs
    rw [lt_div_iff₀ he]
    have h1 : 40 * B * (B + L') * eps < μ := by
      refine lt_of_le_of_lt ?_ hcond
      have : B * (B + L') ≤ B * (B + L + 1) := mul_le_mul_of_nonneg_left (by linarith) hB0.le
      nlinarith
    rcases max_choice (L' + B) (B / s) with h | h
    · rw [h]
      have h2 : 40 * ((B + L') * eps) * B < 1 * B := by
        calc 40 * ((B + L') * eps) * B = 40 * B * (B + L') * eps := by ring
          _ < μ := h1
          _ ≤ 1 * B := by linarith
      have h3 := lt_of_mul_lt_mul_right h2 hB0.le
      have h4 : 0 < (B + L') * eps := by positivity
      linarith
    · rw [h]
      have h2 : B / s ≤ 40 * B * (B + L') / μ := by
        rw [div_le_div_iff₀ hs0 hμ0]
        have : μ ≤ 40 * (B + L') * s := by
          have h3 : τ * (10 * (B + L')) = μ := by rw [hτd]; field_simp
          have h4 : τ / 4 * (40 * (B + L')) ≤ s * (40 * (B + L')) := mul_le_mul_of_nonneg_right hs (by positivity)
          linarith
        nlinarith
      calc B / s * eps ≤ 40 * B * (B + L') / μ * eps := mul_le_mul_of_nonneg_right h2 he.le
        _ = (40 * B * (B + L') * eps) / μ := by ring
        _ < 1 := by rw [div_lt_one hμ0]; exact h1
  set g := fun y i => ∑ m, jac y m i * (fn y).1 m with hg
  -- stationary points: no step
  have hzero : ∀ y s, (∀ i, g y i = 0) → step s (fn y).1 (jac y) = fun _ => 0 := by
    intro y s hz
    show (indirectStep eps fmax ls lsD env s (fn y).1 (jac y)).1 = _
    unfold indirectStep
    split
    · exact (C40_damped_step eps fmax _ he.le hf lsD hlsD (jac y) (fn y).1).2.2.2.2.2.2 hz
    · have h := (newton_length ls hls (jac y) (fn y).1 B μ hB0.le (hS.bounded y) (hrank y)).2
      have h0 : twoNorm (fun i => ∑ k, jac y k i * (fn y).1 k) = 0 := by
        have : (fun i => ∑ k, jac y k i * (fn y).1 k) = fun _ => 0 := funext hz
        rw [this, twoNorm_eq]; simp
      rw [h0] at h
      have h1 : twoNorm (ls.rect (jac y) (fn y).1).1 = 0 := by
        have h2 : 0 ≤ twoNorm (ls.rect (jac y) (fn y).1).1 := Real.sqrt_nonneg _
        by_contra h3
        have := mul_pos hμ0 (lt_of_le_of_ne h2 (Ne.symm h3))
        linarith
      rw [twoNorm_eq, Real.sqrt_eq_zero (self_nonneg _)] at h1
      have := self_eq_zero h1
      funext i
      show -(ls.rect (jac y) (fn y).1).1 i = 0
      rw [this]; simp
  have hlin0 : ∀ y, linearisedChange (jac y) (fn y).1 (fun _ => 0) = 0 := by
    intro y
    have hz : (jac y).mulVec (fun _ => (0:ℝ)) = 0 := Matrix.mulVec_zero _
    unfold linearisedChange
    rw [hz]; simp
  have hdamped : ∀ y s, s < 1 → step s (fn y).1 (jac y) = ((dampedNewtonDescent eps fmax lsD).step
      (1 / (findLambdaNewton env 1 (comparison eps fmax ls lsD (jac y) (fn y).1 s)).1) (.residualJac (fn y).1 (jac y))).1 := by
    intro y s hs
    show (indirectStep eps fmax ls lsD env s (fn y).1 (jac y)).1 = _
    unfold indirectStep
    rw [if_pos ⟨hok _ _, hs⟩]
  have hdamping := fun y s (hgy : ∃ i, g y i ≠ 0) (h1 : τ / 4 ≤ s) (h2 : s < 1) =>
    indirect_damping eps fmax he hf ls hls lsD hlsD env henv (jac y) (fn y).1 hgy B μ L' hμ0 hμB (hS.bounded y) (hrank y) hL'1 hL'2
      s (lt_of_lt_of_le (by positivity) h1) h2 (hE s h1)
  -- short enough steps are taken
  have hacc : ∀ y s, τ / 4 ≤ s → s ≤ τ →
      (∑ m, (fn fun i => y i + step s (fn y).1 (jac y) i).1 m ^ 2) / 2 - (∑ m, (fn y).1 m ^ 2) / 2 ≤
        1 / 100 * linearisedChange (jac y) (fn y).1 (step s (fn y).1 (jac y)) := by
    intro y s hs0 hs
    by_cases hgy : ∃ i, g y i ≠ 0
    · obtain ⟨hl0, hlE, _, hlL⟩ := hdamping y s hgy hs0 (by linarith)
      have hlL' := hlL (by
        have h3 : τ * (10 * (B + L')) = μ := by rw [hτd]; field_simp
        have := mul_le_mul_of_nonneg_right hs (by positivity : 0 ≤ 10 * (B + L'))
        linarith)
      rw [hdamped y s (by linarith)]
      set l := (findLambdaNewton env 1 (comparison eps fmax ls lsD (jac y) (fn y).1 s)).1 with hl
      obtain ⟨_, hN, hQ, hgp, hlin, _⟩ := damped_facts eps fmax (1 / l) he.le hf lsD hlsD (jac y) (fn y).1
      rw [damped_param eps fmax he hf lsD hlsD l hl0 hlE] at hgp hlin
      set p := ((dampedNewtonDescent eps fmax lsD).step (1 / l) (.residualJac (fn y).1 (jac y))).1 with hp
      have hb := hS.gradient.bound y fun i => y i + p i
      simp only [add_sub_cancel_left] at hb
      have e1 : treeDot (fun i => ∑ m, jac y m i * (fn y).1 m) (fun i => p i) =
        ∑ i, (∑ m, jac y m i * (fn y).1 m) * p i := rfl
      have e2 : sumSquares (fun i => p i) = ∑ i, p i ^ 2 := by
        unfold sumSquares; exact Finset.sum_congr rfl fun _ _ => by ring
      rw [e1, e2, hgp] at hb
      rw [hlin]
      have h1 := mul_le_mul_of_nonneg_right ((le_max_left L 1).trans hlL') hQ
      have h2 := mul_nonneg hl0.le hQ
      nlinarith
    · push Not at hgy
      rw [hzero y s hgy, hlin0]
      simp
  set M := max 1 (B / (τ / 4)) with hM
  have hM0 : 0 < M := lt_of_lt_of_le one_pos (le_max_left _ _)
  -- what steps of the radii that occur predict
  have hpred2 : ∀ y s, τ / 4 ≤ s →
      linearisedChange (jac y) (fn y).1 (step s (fn y).1 (jac y)) ≤ -(1 / (4 * (B + M)) * ∑ i, g y i ^ 2) ∧
      linearisedChange (jac y) (fn y).1 (step s (fn y).1 (jac y)) ≤
        -(∑ m, (∑ i, jac y m i * step s (fn y).1 (jac y) i) ^ 2) / 2 := by
    intro y s hs
    by_cases hgy : ∃ i, g y i ≠ 0
    · by_cases hs1 : s < 1
      · obtain ⟨hl0, hlE, hlU, _⟩ := hdamping y s hgy hs hs1
        rw [hdamped y s hs1]
        set l := (findLambdaNewton env 1 (comparison eps fmax ls lsD (jac y) (fn y).1 s)).1 with hl
        obtain ⟨_, hN, hQ, _, hlin, hgb⟩ := damped_facts eps fmax (1 / l) he.le hf lsD hlsD (jac y) (fn y).1
        have h1 := (hgb B hB0.le (hS.bounded y)).1
        rw [damped_param eps fmax he hf lsD hlsD l hl0 hlE] at hlin h1
        have hlM : l ≤ M := hlU.trans (max_le_max le_rfl (div_le_div_of_nonneg_left hB0.le (by positivity) hs))
        set p := ((dampedNewtonDescent eps fmax lsD).step (1 / l) (.residualJac (fn y).1 (jac y))).1 with hp
        have hQl := mul_nonneg hl0.le hQ
        rw [hlin]
        refine ⟨?_, by linarith⟩
        rw [one_div, ← div_eq_inv_mul, le_neg, div_le_iff₀ (by positivity)]
        refine le_trans h1 ?_
        have h3 := mul_le_mul_of_nonneg_right (by linarith : 2 * (B + l) ≤ 2 * (B + M)) (add_nonneg hN hQl)
        refine h3.trans ?_
        have h4 : 0 ≤ (B + M) * (l * ∑ i, p i ^ 2) := mul_nonneg (by positivity) hQl
        nlinarith
      · have hst : step s (fn y).1 (jac y) = fun i => -(ls.rect (jac y) (fn y).1).1 i := by
          show (indirectStep eps fmax ls lsD env s (fn y).1 (jac y)).1 = _
          unfold indirectStep
          rw [if_neg fun h => hs1 h.2]
        rw [hst]
        obtain ⟨_, hlin, hgb⟩ := indirect_newton_facts ls hls (jac y) (fn y).1
        rw [hlin]
        refine ⟨?_, le_rfl⟩
        have h1 := hgb B hB0.le (hS.bounded y)
        set W := ∑ m, (∑ i, jac y m i * -(ls.rect (jac y) (fn y).1).1 i) ^ 2 with hW
        have hW0 : 0 ≤ W := Finset.sum_nonneg fun m _ => sq_nonneg _
        rw [one_div, ← div_eq_inv_mul, le_neg, div_le_iff₀ (by positivity)]
        have h1' : ∑ i, g y i ^ 2 ≤ B * W := h1
        have : 0 ≤ M * W := by positivity
        have : 0 ≤ B * W := by positivity
        nlinarith
    · push Not at hgy
      rw [hzero y s hgy, hlin0]
      simp [hgy]
  exact ⟨hacc, hpred2⟩

set_option maxHeartbeats 1000000 in
/-- **C71.** `IndirectLevenbergMarquardt` with its default root finder converges: for residuals with Lipschitz gradient and a
Jacobian bounded above and below (`μ|p|² ≤ |J p|² ≤ B|p|²`), not too badly conditioned for the precision `eps` and
with a Lipschitz constant up to `10⁸`, the gradients along every run tend to zero, from every starting point, and the solve
stops by itself and reports success, with every sufficiently large budget and with none. -/
theorem C71_converges [DecidableEq ι] (eps fmax rtol atol : ℝ) (he : 0 < eps) (hf : 0 < fmax)
    (nY : (ι → ℝ) → ℝ) (nF : (κ → ℝ) → ℝ) (ls : LinSolve ι κ) (hls : SolvesLeastSquares ls)
    (lsD : LinSolve ι (κ ⊕ ι)) (hlsD : SolvesLeastSquares lsD) (env : InnerEnv) (henv : ExactInner env)
    (jac : (ι → ℝ) → Matrix κ ι ℝ) (aux0 : A) (fn : (ι → ℝ) → (κ → ℝ) × A) (y0 : ι → ℝ) (L B μ : ℝ)
    (hS : SmoothResiduals (fun y => (fn y).1) jac L B) (hμ0 : 0 < μ) (hμB : μ ≤ B)
    (hrank : ∀ (y p : ι → ℝ), μ * ∑ i, p i ^ 2 ≤ ∑ m, (∑ i, jac y m i * p i) ^ 2)
    (hL : L ≤ 10 ^ 8) (hcond : eps * (40 * B * (B + L + 1)) < μ)
    (hok : ∀ M v, (ls.rect M v).2 = .successful) (hokD : ∀ M v, (lsD.rect M v).2 = .successful)
    (hat : 0 < atol) (hrt : 0 ≤ rtol) (hnY : GoodNorm nY) (hnF : GoodNorm nF) :
    let S := GaussNewton.solver (GaussNewton.indirectLevenbergMarquardt eps fmax rtol atol nY nF ls lsD
      (findLambdaNewton env 1) jac) aux0
    ∃ st0, S.init fn y0 = .ok st0 ∧
      Tendsto (fun k => ∑ i, (∑ m, jac (iterateAt S fn aux0 y0 st0 k) m i * (fn (iterateAt S fn aux0 y0 st0 k)).1 m) ^ 2)
        atTop (𝓝 0) ∧
      ∃ N, ∀ ms throw, (∀ n, ms = some n → N ≤ n) →
        ∃ sol, iterativeSolve S (fun _ => true) fn aux0 y0 ms throw = some (.ok sol) ∧ sol.result = .successful ∧
          sol.numSteps ≤ N := by
  intro S
  obtain ⟨st0, hi⟩ : ∃ st0, S.init fn y0 = .ok st0 := ⟨_, rfl⟩
  refine ⟨st0, hi, ?_⟩
  set c : TrustRegion.Cfg ℝ := TrustRegion.defaults with hc
  have c1 : c.lowCutoff = 1 / 100 := by norm_num [hc, TrustRegion.defaults]
  have c2 : c.lowConstant = 1 / 4 := by norm_num [hc, TrustRegion.defaults]
  have c3 : 1 ≤ c.highConstant := by norm_num [hc, TrustRegion.defaults]
  have hmem := indirect_memoryless (κ := κ) eps fmax ls lsD env
  obtain ⟨R, hY1, ht1, _⟩ := gn_trust_run c (by rw [c2]; norm_num) (by linarith)
    (GaussNewton.indirectLevenbergMarquardt eps fmax rtol atol nY nF ls lsD (findLambdaNewton env 1) jac) rfl _ hmem aux0 fn y0 st0 hi
  set Y := iterateAt S fn aux0 y0 st0 with hYd
  set St := stateAt S fn aux0 y0 st0 with hSt
  obtain ⟨hL0, _⟩ := hS.nonneg
  have hB0 : 0 < B := hμ0.trans_le hμB
  -- the damping that suffices, and the radius that leads to it
  set τ := μ / (10 * (B + max L 1)) with hτd
  have hτ0 : 0 < τ := by have := le_max_right L 1; positivity
  have hτ1 : τ < 1 := by rw [hτd, div_lt_one (by have := le_max_right L 1; positivity)]; linarith [le_max_right L 1]
  have htmin : min ((fun k => (St (k + 1)).searchState) 0) (c.lowConstant * τ) = τ / 4 := by
    show min (St 1).searchState (c.lowConstant * τ) = τ / 4
    rw [ht1, c2, min_eq_right (by linarith)]; ring
  set step := fun t r J => (indirectStep (κ := κ) eps fmax ls lsD env t r J).1 with hstep
  set g := fun y i => ∑ m, jac y m i * (fn y).1 m with hg
  set M := max 1 (B / (τ / 4)) with hM
  have hM0 : 0 < M := lt_of_lt_of_le one_pos (le_max_left _ _)
  obtain ⟨hacc, hpred2⟩ := indirect_trial_facts eps fmax he hf ls hls lsD hlsD env henv jac fn L B μ hS hμ0 hμB hrank hL hcond hok
  obtain ⟨s1, s2, srad, s3⟩ := R.settles_between (by rw [c1]; norm_num) (by rw [c2]; norm_num) (by rw [c2]; norm_num) c3 τ hτ0
    (fun k s h1 h2 => by rw [c1]; exact hacc _ s (by rw [htmin] at h1; exact h1) h2) 0 (fun y => by positivity) (fun y => ∑ i, g y i ^ 2)
    (fun y => Finset.sum_nonneg fun i _ => sq_nonneg _) (1 / (4 * (B + M))) (by positivity)
    (fun y s h => (hpred2 y s (by rw [htmin] at h; exact h)).1)
  refine ⟨(tendsto_add_atTop_iff_nat 1).1 s1, ?_⟩
  refine gn_trust_stops c (by rw [c2]; norm_num) (by linarith)
    (GaussNewton.indirectLevenbergMarquardt eps fmax rtol atol nY nF ls lsD (findLambdaNewton env 1) jac) rfl _ hmem
    (fun t r J _ => by
      unfold indirectStep
      split
      · exact hokD _ _
      · exact hok _ _) hat hrt hnY hnF aux0 fn y0 st0 hi ?_
  intro δ hδ
  -- at late accepted steps the predicted decrease, hence the step, is small
  set η := δ ^ 2 * μ / (200 * (B + 1)) with hη
  have hη0 : 0 < η := by positivity
  obtain ⟨K, hK⟩ := eventually_atTop.1 (s2.eventually (Metric.ball_mem_nhds 0 hη0))
  obtain ⟨k, hk, ha, hyk⟩ := s3 K
  have hsm := hK k hk
  rw [Real.dist_eq, sub_zero] at hsm
  refine ⟨k, ha, ?_⟩
  have hrad := srad k
  rw [htmin] at hrad
  set y := Y (k + 1) with hy
  have hpr := (hpred2 y (St (k + 1)).searchState hrad).2
  have hp' : step (St (k + 1)).searchState (fn y).1 (jac y) =
    (indirectStep eps fmax ls lsD env (St (k + 1)).searchState (fn y).1 (jac y)).1 := rfl
  dsimp only at hpr
  set p := (indirectStep eps fmax ls lsD env (St (k + 1)).searchState (fn y).1 (jac y)).1 with hp
  have hr := hrank y p
  have hdec : (∑ m, (fn y).1 m ^ 2) / 2 - (∑ m, (fn fun i => y i + p i).1 m ^ 2) / 2 < η := by
    have := (abs_lt.1 hsm).2
    rw [hyk] at this
    exact this
  have ha' : (∑ m, (fn fun i => y i + p i).1 m ^ 2) / 2 - (∑ m, (fn y).1 m ^ 2) / 2 ≤
      c.lowCutoff * linearisedChange (jac y) (fn y).1 p := ha
  rw [c1] at ha'
  have hQ : 0 ≤ ∑ i, p i ^ 2 := Finset.sum_nonneg fun i _ => sq_nonneg _
  have hQs : μ * ∑ i, p i ^ 2 < 200 * η := by linarith
  have hQs' : (B + 1) * ∑ i, p i ^ 2 < δ ^ 2 := by
    have e : 200 * η * (B + 1) = δ ^ 2 * μ := by rw [hη]; field_simp
    have h1 := mul_lt_mul_of_pos_right hQs (by positivity : 0 < B + 1)
    rw [e] at h1
    exact lt_of_mul_lt_mul_left (by linarith) hμ0.le
  have hBQ : 0 ≤ B * ∑ i, p i ^ 2 := mul_nonneg hB0.le hQ
  rw [add_mul, one_mul] at hQs'
  refine ⟨fun i => ?_, fun m => ?_⟩
  · refine abs_le_of_sq_le_sq ?_ hδ.le
    have h1 : p i ^ 2 ≤ ∑ i, p i ^ 2 :=
      Finset.single_le_sum (f := fun i => p i ^ 2) (fun i _ => sq_nonneg _) (Finset.mem_univ i)
    exact h1.trans (by linarith)
  · refine abs_le_of_sq_le_sq ?_ hδ.le
    exact (hS.change y p m).trans (by linarith)

/-- The hypotheses of C71 are met by the nonlinear residuals `(y, sin y)`. -/
example (ls : LinSolve Unit Bool) (hls : SolvesLeastSquares ls) (hok : ∀ M v, (ls.rect M v).2 = .successful)
    (lsD : LinSolve Unit (Bool ⊕ Unit)) (hlsD : SolvesLeastSquares lsD) (hokD : ∀ M v, (lsD.rect M v).2 = .successful)
    (env : InnerEnv) (henv : ExactInner env) (y0 : Unit → ℝ) :
    ∃ sol, iterativeSolve (GaussNewton.solver (GaussNewton.indirectLevenbergMarquardt (2⁻¹ ^ 52) (2 ^ 1023) (1/10) (1/10) maxNorm
      maxNorm ls lsD (findLambdaNewton env 1) waveJac) ()) (fun _ => true) (fun y => (waveResiduals y, ())) () y0 none true =
        some (.ok sol) ∧ sol.result = .successful := by
  obtain ⟨_, _, _, N, hN⟩ := C71_converges (2⁻¹ ^ 52) (2 ^ 1023) (1/10) (1/10) (by positivity) (by positivity) maxNorm maxNorm ls hls
    lsD hlsD env henv waveJac () (fun y => (waveResiduals y, ())) y0 2 2 1 wave_smooth one_pos (by norm_num) (fun y p => by
      simp only [waveJac, Matrix.of_apply, Fintype.sum_bool, if_true, Bool.false_eq_true, if_false,
        Finset.univ_unique, Finset.sum_singleton, PUnit.default_eq_unit, one_mul]
      nlinarith [sq_nonneg (Real.cos (y ()) * p ())]) (by norm_num) (by norm_num) hok hokD (by norm_num) (by norm_num)
      goodNorm_maxNorm goodNorm_maxNorm
  obtain ⟨sol, h1, h2, _⟩ := hN none true (fun n h => by cases h)
  exact ⟨sol, h1, h2⟩

end Verif.Props
