import Verif.Lemmas.RelabelSolvers
import Verif.Model.NelderMeadInit
import Verif.Props.NelderMeadSimplex
import Mathlib.Data.List.Dedup

/-!
C68: `NelderMead` and the packing of its unknowns; the option `y0_simplex`.

What the user expects of `NelderMead` is what C67 says of the other solvers.  It is false: the simplex built from `y0` depends
on the packing (`C68_packing_matters`).  Given the simplex, the rest of the solver does not depend on it
(`C68_given_simplex_partial`).  A simplex given by the user could get around this, but `y0_simplex` rejects every simplex in
two or more dimensions (`C68_y0_simplex_rejected`) and fails in one dimension as well (`C68_y0_simplex_never_works`).
-/

namespace Verif.Relabel

open NelderMead Driver

variable {ι ι' A : Type} {n : ℕ}

/-- The state of the simplex method, repacked. -/
def nmState (e : ι ≃ ι') (s : NelderMead.State n ι A) : NelderMead.State n ι' A :=
  { s with simplex := fun v => vec e (s.simplex v), best := vec e s.best, worst := vec e s.worst }

section
variable [NeZero n]

theorem mainStep_vec (e : ι ≃ ι') {f : (ι → ℝ) → Val × A} {f' : (ι' → ℝ) → Val × A} (hf : ∀ y, f' (vec e y) = f y)
    (s : NelderMead.State n ι A) :
    mainStep f' (nmState e s) = (vec e (mainStep f s).1, (mainStep f s).2) := by
  have hd : searchDirection (nmState e s).simplex (nmState e s).worst = vec e (searchDirection s.simplex s.worst) := rfl
  have ha : ∀ (d : ι → ℝ) (t : ℝ), along (vec e s.worst) (vec e d) t = vec e (along s.worst d t) := fun _ _ => rfl
  have hi : ∀ (d v : ι → ℝ) (fv : Val),
      internalEval s.fBest s.fWorst s.fSecondWorst (vec e s.worst) (vec e d) (vec e v) fv s.stats =
        (vec e (internalEval s.fBest s.fWorst s.fSecondWorst s.worst d v fv s.stats).1,
          (internalEval s.fBest s.fWorst s.fSecondWorst s.worst d v fv s.stats).2) := by
    intro d v fv
    simp only [internalEval, ha]
    by_cases h1 : s.fSecondWorst < fv
    · simp only [decide_eq_true h1, if_true]
    · by_cases h2 : fv < s.fBest
      · simp only [decide_eq_false h1, decide_eq_true h2, if_true, Bool.false_eq_true, if_false]
      · simp only [decide_eq_false h1, decide_eq_false h2, Bool.false_eq_true, if_false]
  simp only [mainStep, hd]
  change ((internalEval s.fBest s.fWorst s.fSecondWorst (vec e s.worst) (vec e (searchDirection s.simplex s.worst))
    (vec e (along s.worst (searchDirection s.simplex s.worst) 2)) (f' (vec e (along s.worst
      (searchDirection s.simplex s.worst) 2))).1 s.stats).1, _) = _
  simp only [nmState, ha, hi, hf]

theorem nm_step_vec (e : ι ≃ ι') {f : (ι → ℝ) → Val × A} {f' : (ι' → ℝ) → Val × A} (hf : ∀ y, f' (vec e y) = f y)
    (y : ι → ℝ) (s : NelderMead.State n ι A) :
    NelderMead.step f' (vec e y) (nmState e s) =
      (vec e (NelderMead.step f y s).1, nmState e (NelderMead.step f y s).2.1, (NelderMead.step f y s).2.2) := by
  have hshr : ∀ (b : ι → ℝ) (sx : Fin n → ι → ℝ) (fp : Bool),
      shrinkSimplex f' (vec e b) (fun v => vec e (sx v)) fp =
        ((shrinkSimplex f b sx fp).1, fun v => vec e ((shrinkSimplex f b sx fp).2 v)) := by
    intro b sx fp
    have h1 : (fun i c => vec e b c + 1 / 2 * (vec e (sx i) c - vec e b c)) =
      fun i => vec e fun c => b c + 1 / 2 * (sx i c - b c) := rfl
    cases fp
    · simp only [shrinkSimplex, h1, Bool.false_eq_true, if_false, hf]
    · simp only [shrinkSimplex, if_true, hf]
  have hupd : ∀ (w : Fin n) (v : ι → ℝ) (fv : Val) (fs : Fin n → Val) (sx : Fin n → ι → ℝ),
      updateSimplex w (vec e v) fv fs (fun v => vec e (sx v)) =
        ((updateSimplex w v fv fs sx).1, fun v' => vec e ((updateSimplex w v fv fs sx).2 v')) := by
    intro w v fv fs sx
    simp only [updateSimplex]
    refine Prod.ext rfl ?_
    funext i
    simp only []
    split <;> rfl
  have ht : (if (nmState e s).firstPass then initStep (nmState e s) else mainStep f' (nmState e s)) =
      (vec e (if s.firstPass then initStep s else mainStep f s).1, (if s.firstPass then initStep s else mainStep f s).2) := by
    rw [mainStep_vec e hf]
    change (if s.firstPass then initStep (nmState e s) else _) = _
    cases s.firstPass <;> rfl
  simp only [NelderMead.step]
  rw [ht]
  generalize (if s.firstPass then initStep s else mainStep f s) = t
  obtain ⟨v, fv, st, a⟩ := t
  have hb : ∀ b : Bool, (if b then vec e v else (nmState e s).best) = vec e (if b then v else s.best) := by
    intro b; cases b <;> rfl
  have hk : (if (nmState e s).firstPass then true else decide ((nmState e s).fWorst < fv)) =
    (if s.firstPass then true else decide (s.fWorst < fv)) := rfl
  simp only [hb]
  rw [hk]
  generalize (if s.firstPass then true else decide (s.fWorst < fv)) = b
  cases b with
  | true =>
    have h2 := hshr (if decide (fv < s.fBest) then v else s.best) s.simplex s.firstPass
    have h3 : shrinkSimplex f' (vec e (if decide (fv < (nmState e s).fBest) then v else s.best)) (nmState e s).simplex
      (nmState e s).firstPass = _ := h2
    simp only [if_true, h3]
    rfl
  | false =>
    have h2 := hupd s.worstIndex v fv s.fSimplex s.simplex
    have h3 : updateSimplex (nmState e s).worstIndex (vec e v) fv (nmState e s).fSimplex (nmState e s).simplex = _ := h2
    simp only [Bool.false_eq_true, if_false, h3]
    rfl

/-- Everything but the construction of the simplex is the same for both packings. -/
theorem nm_simulates (e : ι ≃ ι') {cfg : NelderMead.Cfg n ι} {cfg' : NelderMead.Cfg n ι'} (hr : cfg'.rtol = cfg.rtol)
    (ha : cfg'.atol = cfg.atol) (hX : SameNorm ((Equiv.refl (Fin n)).prodCongr e) cfg.normX cfg'.normX)
    (hF : cfg'.normF = cfg.normF) (hs : ∀ y v, cfg'.mkSimplex (vec e y) v = vec e (cfg.mkSimplex y v))
    {f : (ι → ℝ) → Val × A} {f' : (ι' → ℝ) → Val × A} (hf : ∀ y, f' (vec e y) = f y) (aux0 : A) :
    Simulates (NelderMead.solver cfg aux0) f (NelderMead.solver cfg' aux0) f' (vec e) id (nmState e) where
  init y := by
    have h : cfg'.mkSimplex (vec e y) = fun v => vec e (cfg.mkSimplex y v) := funext (hs y)
    simp only [NelderMead.solver, NelderMead.init, h]
    split <;> rfl
  step y st := nm_step_vec e hf y st
  terminate y st := by
    have h := hX fun p => |st.simplex p.1 p.2 - st.best p.2| / (cfg.atol + cfg.rtol * |st.best p.2|)
    have h' : cfg'.normX (fun p => |(nmState e st).simplex p.1 p.2 - (nmState e st).best p.2| /
      (cfg.atol + cfg.rtol * |(nmState e st).best p.2|)) = _ := h
    simp only [NelderMead.solver, NelderMead.terminate, hr, ha, hF, h']
    rfl
  postY _ _ _ _ := rfl
  postA _ _ _ _ := rfl

/-- **C68** (partial).  If the two packings start from the same simplex, packed accordingly, then `NelderMead` has the same
outcome for both.  Missing: the simplex the solver builds from `y0` is not the same for both (`C68_packing_matters`). -/
theorem C68_given_simplex_partial (e : ι ≃ ι') (rtol atol : ℝ) {normX : (Fin n × ι → ℝ) → ℝ}
    {normX' : (Fin n × ι' → ℝ) → ℝ} (hX : SameNorm ((Equiv.refl (Fin n)).prodCongr e) normX normX')
    (normF : (Fin n → ℝ) → ℝ) (simplex : (ι → ℝ) → Fin n → ι → ℝ) {fin : (ι → ℝ) → Bool} {fin' : (ι' → ℝ) → Bool}
    (hfin : ∀ y, fin' (vec e y) = fin y) (f : (ι → ℝ) → Val × A) (aux0 : A) (y0 : ι → ℝ) (ms : Option ℕ) (throw : Bool) :
    outcome (iterativeSolve (NelderMead.solver
        { rtol, atol, normX := normX', normF, mkSimplex := fun y v => vec e (simplex (vec e.symm y) v) } aux0) fin'
        (fun y => f (vec e.symm y)) aux0 (vec e y0) ms throw) =
      packed e (outcome (iterativeSolve (NelderMead.solver { rtol, atol, normX, normF, mkSimplex := simplex } aux0) fin f
        aux0 y0 ms throw)) := by
  have hv : ∀ y : ι → ℝ, vec e.symm (vec e y) = y := fun y => by funext i; simp [vec]
  exact (nm_simulates e (cfg := { rtol, atol, normX, normF, mkSimplex := simplex })
    (cfg' := { rtol, atol, normX := normX', normF, mkSimplex := fun y v => vec e (simplex (vec e.symm y) v) })
    (by rfl) (by rfl) hX (by rfl) (fun y v => by simp only [hv]) (f := f) (fun y => by simp only [hv]) aux0).solve
    hfin aux0 y0 ms throw

end

/-! ### The packing matters -/

/-- Three numbers in one array, or as three scalars. -/
def asScalars : Entry (fun _ : Fin 1 => 3) ≃ Entry (fun _ : Fin 3 => 1) where
  toFun x := ⟨x.2, 0⟩
  invFun x := ⟨0, x.1⟩
  left_inv x := by obtain ⟨a, b⟩ := x; obtain rfl : a = 0 := Subsingleton.elim _ _; rfl
  right_inv x := by obtain ⟨a, b⟩ := x; obtain rfl : b = 0 := Subsingleton.elim _ _; rfl

/-- With a budget of one step the solver returns the best vertex of its initial simplex. -/
theorem nm_one_step [NeZero n] (cfg : NelderMead.Cfg n ι) (hn : 2 ≤ n) (f : (ι → ℝ) → Val × A) (aux0 : A) (y0 : ι → ℝ) :
    ∃ sol, iterativeSolve (NelderMead.solver cfg aux0) (fun _ => true) f aux0 y0 (some 1) false = some (.ok sol) ∧
      ∀ v, (f sol.value).1 ≤ (f (cfg.mkSimplex y0 v)).1 := by
  have hinit : ∃ st0, (NelderMead.solver cfg aux0).init f y0 = .ok st0 := by
    simp only [NelderMead.solver, NelderMead.init, if_neg (show ¬ n < 2 by omega)]
    exact ⟨_, rfl⟩
  obtain ⟨st0, hi⟩ := hinit
  obtain ⟨_, hfp, hsx, _, _, _, _, hfb, hfs⟩ := Props.nm_init cfg aux0 f y0 st0 hi
  obtain ⟨h1, h2, h3, _⟩ := Props.nm_first f st0 y0 hfp
  have hterm : (NelderMead.solver cfg aux0).terminate f y0 st0 = (false, .successful) := by
    have hall : ¬ ∀ i, st0.fSimplex i ≠ ⊤ := fun h => h 0 (hfs 0)
    simp only [NelderMead.solver, NelderMead.terminate, hfb, decide_eq_false hall, Bool.false_and, Bool.and_false,
      Bool.false_or]
    simp
  refine ⟨package (NelderMead.solver cfg aux0) f (some 1) (body (NelderMead.solver cfg aux0) (fun _ => true) f
      (initCarry (NelderMead.solver cfg aux0) (fun _ => true) f aux0 y0 st0)), ?_, ?_⟩
  · have hc : cond (initCarry (NelderMead.solver cfg aux0) (fun _ => true) f aux0 y0 st0) = true := by
      simp [Driver.cond, initCarry, terminateAndResult, hterm]
    simp [iterativeSolve, iterate, hi, whileOpt, whileLoop, hc]
  · intro v
    change (f (NelderMead.step f y0 st0).1).1 ≤ _
    rw [h3, ← hsx]
    have hmin := Props.topMin_le (NelderMead.step f y0 st0).2.1.fSimplex v
    rw [← h2.bestIndex, h2.values, h2.values, h1] at hmin
    exact hmin

/-- **C68** is false: packing matters.  Minimise `(y₁ - 1)² + (y₂ + 1)²` over three numbers from `0`, with a budget of one
step.  Packed as three scalars the answer has a value below `2`; packed as one array it never has
(`C45_cannot_minimise`, whatever the budget).  So the outcomes are not the same answer packed differently. -/
theorem C68_packing_matters (rtol atol rdelta adelta : ℝ) (ha : 0 < adelta) (ha2 : adelta < 2) (normX normF normX' normF') :
    let f : (Entry (fun _ : Fin 1 => 3) → ℝ) → Val × Unit :=
      fun y => (((y ⟨0, 1⟩ - 1) ^ 2 + (y ⟨0, 2⟩ + 1) ^ 2 : ℝ), ())
    outcome (iterativeSolve (NelderMead.solver (cfgFor (fun _ : Fin 3 => 1) rtol atol normX' normF' rdelta adelta) ())
        (fun _ => true) (fun y => f (vec asScalars.symm y)) () (vec asScalars fun _ => 0) (some 1) false) ≠
      packed asScalars (outcome (iterativeSolve (NelderMead.solver (cfgFor (fun _ : Fin 1 => 3) rtol atol normX normF rdelta
        adelta) ()) (fun _ => true) f () (fun _ => 0) (some 1) false)) := by
  intro f heq
  obtain ⟨sol', hs', hv'⟩ := nm_one_step (cfgFor (fun _ : Fin 3 => 1) rtol atol normX' normF' rdelta adelta)
    (by simp [totalSize]) (fun y => f (vec asScalars.symm y)) () (vec asScalars fun _ => 0)
  obtain ⟨sol, hs, _⟩ := nm_one_step (cfgFor (fun _ : Fin 1 => 3) rtol atol normX normF rdelta adelta)
    (by simp [totalSize]) f () (fun _ => 0)
  rw [hs, hs'] at heq
  have hval : sol'.value = vec asScalars sol.value := by
    simp only [outcome, packed, Option.map_some, Except.map, Option.some.injEq, Except.ok.injEq, Prod.mk.injEq] at heq
    exact heq.1
  have h2 := Props.C45_cannot_minimise rtol atol normX normF rdelta adelta (fun _ => true) (some 1) false sol hs
  have htot : totalSize (fun _ : Fin 3 => 1) = 3 := by simp [totalSize]
  have h1 := hv' ⟨2, by omega⟩
  have hP := (Props.C45_scalars_partial rdelta adelta 3 (vec asScalars fun _ => (0 : ℝ))).1
  have hp : ∀ x, (cfgFor (fun _ : Fin 3 => 1) rtol atol normX' normF' rdelta adelta).mkSimplex (vec asScalars fun _ => 0)
      ⟨2, by omega⟩ x = if 2 = x.1.1 + 1 then adelta else 0 := by
    intro x
    have h := hP ⟨2, by omega⟩ x
    simp only [vec, mul_zero, add_zero, zero_add] at h
    exact h
  simp only [f, vec, hp, hval, WithTop.coe_le_coe] at h1
  simp only [asScalars, Equiv.symm_symm, Equiv.coe_fn_mk, Equiv.coe_fn_symm_mk] at h1
  norm_num at h1
  nlinarith

/-! ### `y0_simplex` -/

/-- **C68**: what `y0_simplex=True` accepts: a single vertex, of any dimension, and any number of vertices in one dimension.
It ought to accept `d + 1` vertices in dimension `d`. -/
theorem C68_y0_simplex_accepted (leaves : List LeafShape) (n : ℕ) :
    checkSimplex leaves = .ok n ↔ leaves ≠ [] ∧ (∀ l ∈ leaves, l.vertices = n) ∧ 1 ≤ n ∧
      (n = 1 ∨ (leaves.map LeafShape.coords).sum = 1) := by
  have hdedup : ∀ m, (leaves.map LeafShape.vertices).dedup = [m] ↔ leaves ≠ [] ∧ ∀ l ∈ leaves, l.vertices = m := by
    intro m
    constructor
    · intro h
      have hmem : ∀ x, x ∈ leaves.map LeafShape.vertices ↔ x = m := by
        intro x; rw [← List.mem_dedup, h, List.mem_singleton]
      refine ⟨?_, fun l hl => (hmem _).1 (List.mem_map_of_mem hl)⟩
      rintro rfl
      simp at h
    · rintro ⟨hne, hall⟩
      have : leaves.map LeafShape.vertices = List.replicate leaves.length m := by
        rw [List.eq_replicate_iff]
        refine ⟨by simp, ?_⟩
        intro b hb
        obtain ⟨l, hl, rfl⟩ := List.mem_map.1 hb
        exact hall l hl
      rw [this]
      exact List.replicate_dedup (by simpa using hne)
  have hsum : ∀ m, (∀ l ∈ leaves, l.vertices = m) →
      (leaves.map fun x => (x.vertices - 1) * x.coords).sum = (m - 1) * (leaves.map LeafShape.coords).sum := by
    intro m hall
    rw [← List.sum_map_mul_left]
    congr 1
    apply List.map_congr_left
    intro x hx
    rw [hall x hx]
  have hnum : ∀ m S : ℕ, m = (m - 1) * S + 1 ↔ 1 ≤ m ∧ (m = 1 ∨ S = 1) := by
    intro m S
    rcases m with _ | m
    · simp
    · simp only [Nat.add_sub_cancel, Nat.add_right_cancel_iff]
      rcases Nat.eq_zero_or_pos m with rfl | hm
      · simp
      · constructor
        · intro h
          refine ⟨by omega, Or.inr ?_⟩
          exact Nat.eq_of_mul_eq_mul_left hm (by omega)
        · rintro ⟨_, h | h⟩
          · omega
          · rw [h, Nat.mul_one]
  unfold checkSimplex
  constructor
  · intro h
    split at h
    · rename_i m hm
      obtain ⟨hne, hall⟩ := (hdedup m).1 hm
      simp only [hsum m hall] at h
      split at h
      · cases h
      · rename_i hneq
        simp only [ne_eq, not_not] at hneq
        cases h
        exact ⟨hne, hall, (hnum _ _).1 hneq⟩
    · cases h
  · rintro ⟨hne, hall, h⟩
    rw [(hdedup n).2 ⟨hne, hall⟩]
    simp only [hsum n hall]
    rw [if_neg (by simpa only [ne_eq, not_not] using (hnum _ _).2 h)]

/-- **C68**: `y0_simplex=True` rejects every simplex in two or more dimensions: leaves of `d + 1` rows, of `d` entries per row
in all. -/
theorem C68_y0_simplex_rejected (leaves : List LeafShape) (d : ℕ) (hd : 2 ≤ d) (hv : ∀ l ∈ leaves, l.vertices = d + 1)
    (hc : (leaves.map LeafShape.coords).sum = d) : ∃ msg, checkSimplex leaves = .error (.valueError msg) := by
  have hne : leaves ≠ [] := by
    rintro rfl
    simp at hc
    omega
  unfold checkSimplex
  split
  · rename_i m hm
    simp only
    split
    · exact ⟨_, rfl⟩
    · rename_i h
      have hok : checkSimplex leaves = .ok m := by
        unfold checkSimplex
        rw [hm]
        simp only [if_neg h]
      obtain ⟨_, hm', _, h1⟩ := (C68_y0_simplex_accepted leaves m).1 hok
      obtain ⟨l, hl⟩ := List.exists_mem_of_ne_nil _ hne
      have := hv l hl
      have := hm' l hl
      omega
  · exact ⟨_, rfl⟩

/-- C68: three points of the plane, as one array of shape `(3, 2)`, or as two arrays of shape `(3,)`, are rejected; five
points of the line are accepted. -/
example : (∀ l ∈ [LeafShape.mk 3 2], l.vertices = 2 + 1) ∧ ([LeafShape.mk 3 2].map LeafShape.coords).sum = 2 ∧
    (∀ l ∈ [LeafShape.mk 3 1, LeafShape.mk 3 1], l.vertices = 2 + 1) ∧ checkSimplex [⟨5, 1⟩] = .ok 5 := by
  refine ⟨by simp, by simp, by simp, by decide⟩

/-- **C68**: `y0_simplex=True` never works with `minimise`.  Whatever the shapes of the leaves of `y0`, an error is raised before the
objective has been evaluated: if the simplex passes the check, its vertices have one axis less than `y0`, for which the objective has
been converted to a closure.  Without the option the objective is called with the shapes of `y0`. -/
theorem C68_y0_simplex_never_works (shapes : List (List ℕ)) :
    (∃ e, firstEvaluation true shapes = .error e) ∧ firstEvaluation false shapes = .ok () := by
  constructor
  · unfold firstEvaluation
    cases hl : shapes.mapM leafShape with
    | error e => exact ⟨e, by simp [hl, bind, Except.bind]⟩
    | ok leaves =>
      cases hc : checkSimplex leaves with
      | error e => exact ⟨e, by simp [hl, hc, bind, Except.bind]⟩
      | ok n =>
        obtain ⟨hne, -⟩ := (C68_y0_simplex_accepted leaves n).1 hc
        have hs : shapes ≠ [] := by
          rintro rfl
          simp [pure, Except.pure] at hl
          exact hne hl
        obtain ⟨a, as, rfl⟩ := List.exists_cons_of_ne_nil hs
        have ha : a ≠ [] := by
          rintro rfl
          simp [leafShape, bind, Except.bind] at hl
        refine ⟨.valueError "Closure-converted function called with different dynamic arguments", ?_⟩
        have hno : (a :: as).map List.tail ≠ a :: as := by
          intro h
          have := congrArg List.length (List.cons.inj h).1
          rw [List.length_tail] at this
          have := List.length_pos_of_ne_nil ha
          omega
        simp only [hl, hc, bind, Except.bind, pure, Except.pure, if_true, callConverted, if_neg hno]
  · simp [firstEvaluation, callConverted, Function.comp_def]

/-- C68: five points of the line pass the check and then fail. -/
example : firstEvaluation true [[5]] = .error (.valueError "Closure-converted function called with different dynamic arguments") := by
  decide

/-- C68: the maximum over all coordinates of all vertices (`max_norm`, the default) does not depend on the packing. -/
example [NeZero n] [Fintype ι] [Fintype ι'] (e : ι ≃ ι') :
    SameNorm ((Equiv.refl (Fin n)).prodCongr e) (maxNorm : (Fin n × ι → ℝ) → ℝ) maxNorm := maxNorm_same _

/-- C68: the default `adelta`. -/
example : (0 : ℝ) < 0.00025 ∧ (0.00025 : ℝ) < 2 := by norm_num

end Verif.Relabel
