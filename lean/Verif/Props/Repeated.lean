import Verif.Props.Rigid
import Verif.Props.Units
import Verif.Model.Problems

/-!
C151: repeating an observation is the same as giving it more weight.

In a least-squares fit, listing residual `i` `c i` times is the same as multiplying it by `√(c i)`.  With `GaussNewton`, listing
the whole data several times is the same as listing it once.
-/

namespace Verif.Props

open Verif.Driver Matrix
open Verif.Relabel (outcome)
open Verif.Rigid (Coordinates SameTest SameResidualTest SolvesMinimal)

variable {Y ι κ A St Stats : Type}

/-- The fit in which residual `i` is listed `c i` times. -/
def repeated (c : κ → ℕ) (f : Y → (κ → ℝ) × A) : Y → (((i : κ) × Fin (c i)) → ℝ) × A := fun y => (fun p => (f y).1 p.1, (f y).2)

/-- The fit in which residual `i` is multiplied by `√(c i)`. -/
noncomputable def weighted (c : κ → ℕ) (f : Y → (κ → ℝ) × A) : Y → (κ → ℝ) × A :=
  fun y => (fun i => Real.sqrt (c i) * (f y).1 i, (f y).2)

/-- The Jacobian of the former. -/
def repeatedJac (c : κ → ℕ) (j : (ι → ℝ) → Matrix κ ι ℝ) : (ι → ℝ) → Matrix ((i : κ) × Fin (c i)) ι ℝ :=
  fun y => Matrix.of fun p a => j y p.1 a

/-- The Jacobian of the latter. -/
noncomputable def weightedJac (c : κ → ℕ) (j : (ι → ℝ) → Matrix κ ι ℝ) : (ι → ℝ) → Matrix κ ι ℝ :=
  fun y => Matrix.of fun i a => Real.sqrt (c i) * j y i a

theorem repeated_sum [Fintype κ] (c : κ → ℕ) (r : κ → ℝ) :
    sumSquares (fun p : (i : κ) × Fin (c i) => r p.1) = sumSquares fun i => Real.sqrt (c i) * r i := by
  simp only [sumSquares, Fintype.sum_sigma, Finset.sum_const, Finset.card_univ, Fintype.card_fin, nsmul_eq_mul]
  refine Finset.sum_congr rfl fun i _ => ?_
  rw [mul_mul_mul_comm, Real.mul_self_sqrt (Nat.cast_nonneg _)]

/-- **C151** for `least_squares` with any minimiser: the two fits are the same problem.  (A residual may also be left out:
`c i = 0`.) -/
theorem C151_minimisers [Fintype κ] (c : κ → ℕ) (S : Solver Y ℝ A St Stats) (af : Y → Bool) (f : Y → (κ → ℝ) × A) (aux0 : A)
    (y0 : Y) (ms : Option ℕ) (throw : Bool) :
    leastSquaresViaMinimiser S af (repeated c f) aux0 y0 ms throw =
      leastSquaresViaMinimiser S af (weighted c f) aux0 y0 ms throw := by
  have h : lsqToMinimiseFn (repeated c f) = lsqToMinimiseFn (weighted c f) := by
    funext y
    simp only [lsqToMinimiseFn, repeated, weighted, repeated_sum]
  rw [leastSquaresViaMinimiser, leastSquaresViaMinimiser, h]

variable [Fintype ι] [Fintype κ] [DecidableEq ι] [DecidableEq κ]

/-- The unknowns stay as they are. -/
def sameUnknowns : Coordinates ι ι where
  Q := 1
  orthonormal := by simp
  shift := fun _ => 0

omit [Fintype κ] [DecidableEq κ] in
theorem sameUnknowns_point (y : ι → ℝ) : (sameUnknowns : Coordinates ι ι).point y = y := by
  funext i; simp [Coordinates.point, sameUnknowns]

omit [Fintype κ] [DecidableEq κ] in
theorem sameUnknowns_back (y : ι → ℝ) : (sameUnknowns : Coordinates ι ι).back y = y := by
  simp [Coordinates.back, sameUnknowns]

omit [Fintype κ] [DecidableEq κ] in
theorem sameUnknowns_outcome (o : Option (Except Err ((ι → ℝ) × Result × A × ℕ))) : Rigid.moved sameUnknowns o = o := by
  rcases o with _ | _ | ⟨y, s⟩
  · rfl
  · rfl
  · simp only [Rigid.moved, Option.map_some, Except.map, sameUnknowns_point]

omit [Fintype κ] [DecidableEq κ] in
theorem sameUnknowns_test (rtol atol : ℝ) (n : (ι → ℝ) → ℝ) : SameTest sameUnknowns rtol atol n n := by
  intro y d
  rw [sameUnknowns_point, show (sameUnknowns : Coordinates ι ι).Q.mulVec d = d by simp [sameUnknowns]]

/-- From the weighted residuals to the repeated ones. -/
noncomputable def copies (c : κ → ℕ) (hc : ∀ i, 0 < c i) : Coordinates κ ((i : κ) × Fin (c i)) where
  Q := Matrix.of fun p i => if p.1 = i then (Real.sqrt (c i))⁻¹ else 0
  orthonormal := by
    ext a b
    simp only [Matrix.mul_apply, Matrix.transpose_apply, Matrix.of_apply, Fintype.sum_sigma]
    have hpos : (0 : ℝ) < c a := by exact_mod_cast hc a
    rw [Finset.sum_eq_single a (fun i _ hi => by simp [hi]) (by simp)]
    by_cases h : a = b
    · subst h
      simp only [if_true, Matrix.one_apply_eq]
      rw [← mul_inv, Real.mul_self_sqrt hpos.le, Finset.sum_const, Finset.card_univ, Fintype.card_fin, nsmul_eq_mul]
      exact mul_inv_cancel₀ hpos.ne'
    · simp [h]
  shift := fun _ => 0

theorem copies_apply (c : κ → ℕ) (hc : ∀ i, 0 < c i) (r : κ → ℝ) :
    ((copies c hc).Q.mulVec fun i => Real.sqrt (c i) * r i) = fun p => r p.1 := by
  funext p
  have hpos : (0 : ℝ) < Real.sqrt (c p.1) := Real.sqrt_pos.2 (by exact_mod_cast hc p.1)
  simp only [Matrix.mulVec, dotProduct, copies, Matrix.of_apply, ite_mul, zero_mul, Finset.sum_ite_eq, Finset.mem_univ, if_true]
  rw [← mul_assoc, inv_mul_cancel₀ hpos.ne', one_mul]

theorem repeated_eq (c : κ → ℕ) (hc : ∀ i, 0 < c i) (f : (ι → ℝ) → (κ → ℝ) × A) :
    Rigid.residuals sameUnknowns (copies c hc) (weighted c f) = repeated c f := by
  funext y
  simp only [Rigid.residuals, sameUnknowns_back, weighted, copies_apply, repeated]

theorem repeatedJac_eq (c : κ → ℕ) (hc : ∀ i, 0 < c i) (j : (ι → ℝ) → Matrix κ ι ℝ) :
    Rigid.jacobian sameUnknowns (copies c hc) (weightedJac c j) = repeatedJac c j := by
  funext y
  simp only [Rigid.jacobian, sameUnknowns_back, show (sameUnknowns : Coordinates ι ι).Q = 1 from rfl, Matrix.transpose_one, Matrix.mul_one]
  ext p a
  have := congrFun (copies_apply c hc fun i => j y i a) p
  simpa only [Matrix.mul_apply, Matrix.mulVec, dotProduct, weightedJac, repeatedJac, Matrix.of_apply] using this

/-- The stopping test on the residuals gives the same verdict on both fits. -/
def SameVerdict (c : κ → ℕ) (rtol atol : ℝ) (nF : (κ → ℝ) → ℝ) (nF' : (((i : κ) × Fin (c i)) → ℝ) → ℝ) : Prop :=
  ∀ r d : κ → ℝ, nF' (scaledDiff rtol atol (fun p => r p.1) fun p => d p.1) =
    nF (scaledDiff rtol atol (fun i => Real.sqrt (c i) * r i) fun i => Real.sqrt (c i) * d i)

theorem sameVerdict_test {c : κ → ℕ} (hc : ∀ i, 0 < c i) {rtol atol : ℝ} {nF : (κ → ℝ) → ℝ}
    {nF' : (((i : κ) × Fin (c i)) → ℝ) → ℝ} (h : SameVerdict c rtol atol nF nF') :
    SameResidualTest (copies c hc) rtol atol nF nF' := by
  intro r d
  have hne : ∀ i, Real.sqrt (c i) ≠ 0 := fun i => (Real.sqrt_pos.2 (by exact_mod_cast hc i)).ne'
  have e : ∀ v : κ → ℝ, v = fun i => Real.sqrt (c i) * (v i / Real.sqrt (c i)) := fun v => by
    funext i; rw [mul_div_cancel₀ _ (hne i)]
  rw [e r, e d, copies_apply, copies_apply]
  exact h (fun i => r i / Real.sqrt (c i)) fun i => d i / Real.sqrt (c i)

omit [DecidableEq κ] in
/-- It does with `two_norm` and `rtol=0`. -/
theorem C151_two_norm (c : κ → ℕ) (atol : ℝ) : SameVerdict c 0 atol twoNorm twoNorm := by
  intro r d
  have h : sumSquares (scaledDiff 0 atol (fun p : (i : κ) × Fin (c i) => r p.1) fun p => d p.1) =
      sumSquares (scaledDiff 0 atol (fun i => Real.sqrt (c i) * r i) fun i => Real.sqrt (c i) * d i) := by
    have e := repeated_sum c fun i => scaledDiff 0 atol r d i
    refine Eq.trans ?_ (e.trans ?_)
    · rfl
    · refine Finset.sum_congr rfl fun i _ => ?_
      show Real.sqrt (c i) * (|d i| / (atol + 0 * |r i|)) * (Real.sqrt (c i) * (|d i| / (atol + 0 * |r i|))) =
        |Real.sqrt (c i) * d i| / (atol + 0 * |Real.sqrt (c i) * r i|) *
          (|Real.sqrt (c i) * d i| / (atol + 0 * |Real.sqrt (c i) * r i|))
      rw [abs_mul, abs_of_nonneg (Real.sqrt_nonneg _)]
      ring
  rw [twoNorm, twoNorm, h]

section
variable {c : κ → ℕ} (hc : ∀ i, 0 < c i) {rtol atol : ℝ} {nF : (κ → ℝ) → ℝ} {nF' : (((i : κ) × Fin (c i)) → ℝ) → ℝ}
  (hF : SameVerdict c rtol atol nF nF') (nY : (ι → ℝ) → ℝ) (af : (ι → ℝ) → Bool) (f : (ι → ℝ) → (κ → ℝ) × A)
  (j : (ι → ℝ) → Matrix κ ι ℝ) (aux0 : A) (y0 : ι → ℝ) (ms : Option ℕ) (throw : Bool)

include hc hF

/-- **C151** for `GaussNewton`. -/
theorem C151_gauss_newton {ls : LinSolve ι κ} {ls' : LinSolve ι ((i : κ) × Fin (c i))} (hls : SolvesMinimal ls)
    (hls' : SolvesMinimal ls') :
    outcome (iterativeSolve (GaussNewton.solver (GaussNewton.gaussNewton rtol atol nY nF' ls' (repeatedJac c j)) aux0) af
        (repeated c f) aux0 y0 ms throw) =
      outcome (iterativeSolve (GaussNewton.solver (GaussNewton.gaussNewton rtol atol nY nF ls (weightedJac c j)) aux0) af
        (weighted c f) aux0 y0 ms throw) := by
  have := Rigid.C78_gauss_newton sameUnknowns (copies c hc) (fin := af) (fin' := af) (fun y => by rw [sameUnknowns_point]) rtol atol
    (sameUnknowns_test rtol atol nY) (sameVerdict_test hc hF) (weighted c f) (weightedJac c j) aux0 y0 ms throw hls hls'
  rwa [sameUnknowns_outcome, sameUnknowns_point, repeated_eq, repeatedJac_eq] at this

/-- **C151** for `LevenbergMarquardt`. -/
theorem C151_levenberg_marquardt {eps fmax : ℝ} (he : 0 ≤ eps) (hf : 0 < fmax) {ls : LinSolve ι (κ ⊕ ι)}
    {ls' : LinSolve ι (((i : κ) × Fin (c i)) ⊕ ι)} (hls : SolvesFullRank ls) (hls' : SolvesFullRank ls') :
    outcome (iterativeSolve (GaussNewton.solver
        (GaussNewton.levenbergMarquardt eps fmax rtol atol nY nF' ls' (repeatedJac c j)) aux0) af (repeated c f) aux0 y0 ms
        throw) =
      outcome (iterativeSolve (GaussNewton.solver
        (GaussNewton.levenbergMarquardt eps fmax rtol atol nY nF ls (weightedJac c j)) aux0) af (weighted c f) aux0 y0 ms
        throw) := by
  have := Rigid.C78_levenberg_marquardt sameUnknowns (copies c hc) (fin := af) (fin' := af) (fun y => by rw [sameUnknowns_point]) rtol atol
    (sameUnknowns_test rtol atol nY) (sameVerdict_test hc hF) (weighted c f) (weightedJac c j) aux0 y0 ms throw eps fmax he hf hls hls'
  rwa [sameUnknowns_outcome, sameUnknowns_point, repeated_eq, repeatedJac_eq] at this

/-- **C151** for `IndirectLevenbergMarquardt`. -/
theorem C151_indirect_levenberg_marquardt {eps fmax : ℝ} (he : 0 ≤ eps) (hf : 0 < fmax) {ls : LinSolve ι κ}
    {ls' : LinSolve ι ((i : κ) × Fin (c i))} (hls : SolvesMinimal ls) (hls' : SolvesMinimal ls') {lsD : LinSolve ι (κ ⊕ ι)}
    {lsD' : LinSolve ι (((i : κ) × Fin (c i)) ⊕ ι)} (hlsD : SolvesFullRank lsD) (hlsD' : SolvesFullRank lsD')
    (find : (ℝ → ℝ) → ℝ × Result) :
    outcome (iterativeSolve (GaussNewton.solver
        (GaussNewton.indirectLevenbergMarquardt eps fmax rtol atol nY nF' ls' lsD' find (repeatedJac c j)) aux0) af
        (repeated c f) aux0 y0 ms throw) =
      outcome (iterativeSolve (GaussNewton.solver
        (GaussNewton.indirectLevenbergMarquardt eps fmax rtol atol nY nF ls lsD find (weightedJac c j)) aux0) af (weighted c f)
        aux0 y0 ms throw) := by
  have := Rigid.C78_indirect_levenberg_marquardt sameUnknowns (copies c hc) (fin := af) (fin' := af) (fun y => by rw [sameUnknowns_point])
    rtol atol (sameUnknowns_test rtol atol nY) (sameVerdict_test hc hF) (weighted c f) (weightedJac c j) aux0 y0 ms throw eps fmax he hf
    hls hls' hlsD hlsD' find
  rwa [sameUnknowns_outcome, sameUnknowns_point, repeated_eq, repeatedJac_eq] at this

/-- **C151** for `Dogleg`. -/
theorem C151_dogleg (eps : ℝ) {ls : LinSolve ι κ} {ls' : LinSolve ι ((i : κ) × Fin (c i))} (hls : SolvesMinimal ls)
    (hls' : SolvesMinimal ls') :
    outcome (iterativeSolve (GaussNewton.solver (GaussNewton.dogleg eps rtol atol nY nF' ls' (repeatedJac c j)) aux0) af
        (repeated c f) aux0 y0 ms throw) =
      outcome (iterativeSolve (GaussNewton.solver (GaussNewton.dogleg eps rtol atol nY nF ls (weightedJac c j)) aux0) af
        (weighted c f) aux0 y0 ms throw) := by
  have := Rigid.C78_dogleg sameUnknowns (copies c hc) (fin := af) (fin' := af) (fun y => by rw [sameUnknowns_point]) rtol atol
    (sameUnknowns_test rtol atol nY) (sameVerdict_test hc hF) (weighted c f) (weightedJac c j) aux0 y0 ms throw eps hls hls'
  rwa [sameUnknowns_outcome, sameUnknowns_point, repeated_eq, repeatedJac_eq] at this

end

/-! ### Listing the whole data several times -/

section
variable {n : ℕ} [NeZero n]

/-- The matrix that lists everything `n` times. -/
def listing (κ : Type) [DecidableEq κ] (n : ℕ) : Matrix (κ × Fin n) κ ℝ := Matrix.of fun p i => if p.1 = i then 1 else 0

omit [NeZero n] in
theorem listing_apply (r : κ → ℝ) : (listing κ n).mulVec r = fun p => r p.1 := by
  funext p
  simp [Matrix.mulVec, dotProduct, listing]

theorem listing_conformal : Units.Conformal (listing κ n) := by
  refine ⟨n, by exact_mod_cast NeZero.pos n, ?_⟩
  ext a b
  simp only [Matrix.mul_apply, Matrix.transpose_apply, listing, Matrix.of_apply, Fintype.sum_prod_type, Matrix.smul_apply,
    smul_eq_mul]
  rw [Finset.sum_eq_single a (fun i _ hi => by simp [hi]) (by simp)]
  by_cases h : a = b
  · subst h
    simp
  · simp [h]

omit [DecidableEq κ] in
/-- `max_norm` and `rms_norm` do not notice that everything is listed several times. -/
theorem C151_norms (x : κ → ℝ) :
    maxNorm (fun p : κ × Fin n => x p.1) = maxNorm x ∧ rmsNorm (fun p : κ × Fin n => x p.1) = rmsNorm x := by
  constructor
  · apply le_antisymm
    · rw [maxNorm_le_iff]
      exact ⟨maxNorm_nonneg x, fun p => abs_le_maxNorm x p.1⟩
    · rw [maxNorm_le_iff]
      exact ⟨maxNorm_nonneg _, fun i => abs_le_maxNorm (fun p : κ × Fin n => x p.1) (i, 0)⟩
  · have hn : (n : ℝ) ≠ 0 := by exact_mod_cast NeZero.ne n
    have hs : sumSquares (fun p : κ × Fin n => x p.1) = n * sumSquares x := by
      simp only [sumSquares, Fintype.sum_prod_type, Finset.sum_const, Finset.card_univ, Fintype.card_fin, nsmul_eq_mul,
        Finset.mul_sum]
    rw [rmsNorm, rmsNorm, hs, Fintype.card_prod, Fintype.card_fin]
    push_cast
    rw [mul_comm (Fintype.card κ : ℝ), mul_div_mul_left _ _ hn]

/-- **C151.** With `GaussNewton`, listing the whole data `n` times is the same as listing it once: with `max_norm` and with
`rms_norm`, and any norm for which this is so. -/
theorem C151_whole_data {rtol atol : ℝ} (hr : 0 ≤ rtol) (ha : 0 ≤ atol) {nY : (ι → ℝ) → ℝ} (hn : Units.Absolute nY)
    {nF : (κ → ℝ) → ℝ} {nF' : (κ × Fin n → ℝ) → ℝ} (hF : ∀ x : κ → ℝ, nF' (fun p => x p.1) = nF x)
    {ls : LinSolve ι κ} {ls' : LinSolve ι (κ × Fin n)} (hls : SolvesFullRank ls) (hls' : SolvesFullRank ls')
    (j : (ι → ℝ) → Matrix κ ι ℝ) (hj : ∀ y v, (j y).mulVec v = 0 → v = 0) (af : (ι → ℝ) → Bool) (f : (ι → ℝ) → (κ → ℝ) × A)
    (aux0 : A) (y0 : ι → ℝ) (ms : Option ℕ) (throw : Bool) :
    outcome (iterativeSolve (GaussNewton.solver (GaussNewton.gaussNewton rtol atol nY nF' ls'
        fun y => Matrix.of fun p a => j y p.1 a) aux0) af (fun y => (fun p => (f y).1 p.1, (f y).2)) aux0 y0 ms throw) =
      outcome (iterativeSolve (GaussNewton.solver (GaussNewton.gaussNewton rtol atol nY nF ls j) aux0) af f aux0 y0 ms
        throw) := by
  have hpoint : ∀ y : ι → ℝ, (Units.same : Units.Change ι ι).point y = y := fun y => by
    funext i; simp [Units.Change.point, Units.same]
  have hback : ∀ y : ι → ℝ, (Units.same : Units.Change ι ι).back y = y := fun y => by
    simp [Units.Change.back, Units.same]
  have hY : Units.SameSize Units.same rtol atol nY nY := by
    intro y d
    rw [hpoint, show (Units.same : Units.Change ι ι).P.mulVec d = d by simp [Units.same]]
  have hF' : Units.SameResidualSize (listing κ n) rtol atol nF nF' := by
    intro r d
    rw [listing_apply, listing_apply]
    exact hF (scaledDiff rtol atol r d)
  have := Units.C79_gauss_newton (fin := af) (fin' := af) Units.same listing_conformal hr ha hY hn hn hF' hls hls' j hj
    (fun y => by rw [hpoint]) f aux0 y0 ms throw
  have hfn : Units.combined Units.same (listing κ n) f = fun y => (fun p => (f y).1 p.1, (f y).2) := by
    funext y
    simp only [Units.combined, hback, listing_apply]
  have hjn : Units.jacobian Units.same (listing κ n) j = fun y => Matrix.of fun p a => j y p.1 a := by
    funext y
    simp only [Units.jacobian, hback, show (Units.same : Units.Change ι ι).inv = 1 from rfl, Matrix.mul_one]
    ext p a
    have := congrFun (listing_apply (n := n) fun i => j y i a) p
    simp only [Matrix.mulVec, dotProduct] at this
    simp only [Matrix.mul_apply, Matrix.of_apply]
    exact this
  have hmv : ∀ o : Option (Except Err ((ι → ℝ) × Result × A × ℕ)), Units.moved Units.same o = o := by
    rintro (_ | _ | ⟨y, s⟩)
    · rfl
    · rfl
    · simp only [Units.moved, Option.map_some, Except.map, hpoint]
  rwa [hmv, hpoint, hfn, hjn] at this

end

/-! ### The hypotheses are met -/

/-- Three observations, of which the second is listed twice and the third three times. -/
example : (∀ i, 0 < (![1, 2, 3] : Fin 3 → ℕ) i) ∧ SameVerdict (![1, 2, 3] : Fin 3 → ℕ) 0 (1 / 100) twoNorm twoNorm ∧
    (∃ ls : LinSolve (Fin 2) (Fin 3), SolvesMinimal ls) ∧
    ∃ ls : LinSolve (Fin 2) ((i : Fin 3) × Fin ((![1, 2, 3] : Fin 3 → ℕ) i)), SolvesMinimal ls :=
  ⟨fun i => by fin_cases i <;> simp, C151_two_norm _ _, Rigid.minimal_solver_exists, Rigid.minimal_solver_exists⟩

/-- Fitting a straight line to three observations that are all listed four times. -/
example : (∀ (y : Fin 2 → ℝ) (v : Fin 2 → ℝ), ((fun _ => !![1, 0; 1, 1; 1, 2] : (Fin 2 → ℝ) → Matrix (Fin 3) (Fin 2) ℝ) y).mulVec v = 0 →
      v = 0) ∧ Units.Absolute (maxNorm : (Fin 2 → ℝ) → ℝ) ∧
    (∀ x : Fin 3 → ℝ, rmsNorm (fun p : Fin 3 × Fin 4 => x p.1) = rmsNorm x) ∧
    (∃ ls : LinSolve (Fin 2) (Fin 3), SolvesFullRank ls) ∧ ∃ ls : LinSolve (Fin 2) (Fin 3 × Fin 4), SolvesFullRank ls := by
  refine ⟨fun _ v h => ?_, fun v => ?_, fun x => (C151_norms x).2, full_rank_solver_exists, full_rank_solver_exists⟩
  · have h0 := congrFun h 0
    have h1 := congrFun h 1
    simp [Matrix.mulVec, dotProduct, Fin.sum_univ_two] at h0 h1
    funext i
    fin_cases i
    · exact h0
    · show v 1 = 0
      linarith
  · exact le_antisymm ((maxNorm_le_iff _ _).2 ⟨maxNorm_nonneg _, fun i => by rw [abs_abs]; exact abs_le_maxNorm v i⟩)
      ((maxNorm_le_iff _ _).2 ⟨maxNorm_nonneg _, fun i => by
        have := abs_le_maxNorm (fun i => |v i|) i
        rwa [abs_abs] at this⟩)

end Verif.Props
