import Verif.Props.BacktrackingRates

/-!
Property C100: do the quasi-Newton solvers learn the curvature of the objective?

They are expected to: this is what distinguishes them from steepest descent, and makes them converge superlinearly, whatever the
units of the objective.  The curvature guard compares an inner product with the units of the objective against the fixed number
`finfo.eps`, so this is false for small objectives.
-/

namespace Verif.Props

open Verif Verif.Spec Verif.Driver Verif.SearchLoop Verif.Rank Verif.QuasiNewton Verif.LBFGS Filter Topology

variable {ι A HS : Type} [Fintype ι]

/-- Two backtracking runs whose directions are the same function of the iterate have the same iterates. -/
theorem directions_determine_runs {κ : Type} [Fintype κ] {St St' DS DS' : Type} {S : Solver (ι → ℝ) ℝ A St Unit} {S' : Solver (ι → ℝ) ℝ A St' Unit}
    {fn : (ι → ℝ) → ℝ × A} {obj : (ι → ℝ) → ℝ} {a : Armijo.Cfg ℝ} {desc : Descent ι κ DS} {desc' : Descent ι κ DS'}
    {v : View ι κ A ℝ DS St} {v' : View ι κ A ℝ DS' St'} {Good Good' : (ι → ℝ) → FnInfo ι κ → Prop} {G : (ι → ℝ) → ι → ℝ}
    (L : Laws S fn obj (Armijo.search a) desc v Good) (L' : Laws S' fn obj (Armijo.search a) desc' v' Good')
    (hG : ∀ y i, Good y i → i.grad? = some (G y)) (hG' : ∀ y i, Good' y i → i.grad? = some (G y))
    (aux0 : A) (y0 : ι → ℝ) (st0 : St) (st0' : St') (hi : S.init fn y0 = .ok st0) (hi' : S'.init fn y0 = .ok st0')
    (D : (ι → ℝ) → ι → ℝ)
    (hD : ∀ k t, (desc.step t (v.ds (stateAt S fn aux0 y0 st0 (k + 1)))).1 = fun c => t * D (iterateAt S fn aux0 y0 st0 (k + 1)) c)
    (hD' : ∀ k t, (desc'.step t (v'.ds (stateAt S' fn aux0 y0 st0' (k + 1)))).1 =
      fun c => t * D (iterateAt S' fn aux0 y0 st0' (k + 1)) c) (k : ℕ) :
    iterateAt S fn aux0 y0 st0 (k + 1) = iterateAt S' fn aux0 y0 st0' (k + 1) ∧
    v.ss (stateAt S fn aux0 y0 st0 (k + 1)) = v'.ss (stateAt S' fn aux0 y0 st0' (k + 1)) := by
  induction k with
  | zero =>
    have h := armijo_start L aux0 y0 st0 hi
    have h' := armijo_start L' aux0 y0 st0' hi'
    exact ⟨h.1.trans h'.1.symm, h.2.1.trans h'.2.1.symm⟩
  | succ k ih =>
    have t := armijo_trial L hG aux0 y0 st0 hi k
    have t' := armijo_trial L' hG' aux0 y0 st0' hi' k
    rw [hD] at t
    rw [hD'] at t'
    have hsame : v.yEval (stateAt S fn aux0 y0 st0 (k + 1)) = v'.yEval (stateAt S' fn aux0 y0 st0' (k + 1)) := by
      rw [t, t', ih.1, ih.2]
    have r := (armijo_run L hG aux0 y0 st0 hi k).2
    have r' := (armijo_run L' hG' aux0 y0 st0' hi' k).2
    simp only [← hsame, ← ih.1] at r'
    rcases r with ⟨p, q1, q2⟩ | ⟨p, q1, q2, -⟩ <;> rcases r' with ⟨p', q1', q2'⟩ | ⟨p', q1', q2', -⟩
    · exact ⟨q1.trans q1'.symm, q2.trans q2'.symm⟩
    · exact absurd p p'
    · exact absurd p' p
    · exact ⟨q1.trans q1'.symm, by rw [q2, q2', ih.2]⟩

/-- The two solvers take the same steps: the iterates agree, step by step, for ever. -/
def SameSteps {St St' : Type} (S : Solver (ι → ℝ) ℝ A St Unit) (S' : Solver (ι → ℝ) ℝ A St' Unit) (fn : (ι → ℝ) → ℝ × A) (aux0 : A)
    (y0 : ι → ℝ) : Prop :=
  ∃ st0 st0', S.init fn y0 = .ok st0 ∧ S'.init fn y0 = .ok st0' ∧
    ∀ k, iterateAt S fn aux0 y0 st0 k = iterateAt S' fn aux0 y0 st0' k

theorem identity_direction [DecidableEq ι] (b : Bool) (ls : LinSolve ι Unit) (hls : b = false → SolvesSPD ls)
    (cfg : QuasiNewton.Cfg ι ℝ ((ι → ℝ) × Result) HS) (a : Armijo.Cfg ℝ) (hs : cfg.search = Armijo.search a)
    (hrec : RecordsPoint cfg.hess) (hd : cfg.descent = newtonDescent ls none) (aux0 : A) (fn : (ι → ℝ) → ℝ × A) (y0 : ι → ℝ)
    (st0 : QuasiNewton.State ι A ℝ ((ι → ℝ) × Result) HS) (hi : (QuasiNewton.solver cfg aux0).init fn y0 = .ok st0) (k : ℕ)
    (hM : Stores b (stateAt (QuasiNewton.solver cfg aux0) fn aux0 y0 st0 (k + 1)).fInfo 1)
    (hp : SPD (1 : Matrix ι ι ℝ)) (t : ℝ) :
    (cfg.descent.step t (stateAt (QuasiNewton.solver cfg aux0) fn aux0 y0 st0 (k + 1)).descentState).1 =
      fun c => t * -cfg.grad (iterateAt (QuasiNewton.solver cfg aux0) fn aux0 y0 st0 (k + 1)) c := by
  have hf : ∀ y z i j s, (cfg.search.step true y z i j s).2.1 = true := by rw [hs]; exact armijo_first a
  have LL := qn_laws cfg aux0 fn hrec
  have hg := (stored LL hf aux0 y0 st0 hi k).1.2
  have hn := newton_direction ls b hls _ 1 hM hp _ hg
  rw [newton_state ls HS cfg hd hrec hf aux0 fn y0 st0 hi k, hd]
  have e : (newtonStep ls (stateAt (QuasiNewton.solver cfg aux0) fn aux0 y0 st0 (k + 1)).fInfo).1 =
      cfg.grad (iterateAt (QuasiNewton.solver cfg aux0) fn aux0 y0 st0 (k + 1)) := by
    cases b
    · simpa using hn.2
    · simpa using hn.2
  funext c
  show -t * _ = _
  rw [e]; ring

/-- If the objective starts within `eps μ / 8 L` of its minimum, no step passes the curvature guard. -/
theorem guarded_identity [DecidableEq ι] (b : Bool) (ls : LinSolve ι Unit) (hls : b = false → SolvesSPD ls)
    (d s i : ℝ) (a : Armijo.Cfg ℝ) (ha : Armijo.new d s i = .ok a)
    (cfg : QuasiNewton.Cfg ι ℝ ((ι → ℝ) × Result) HS) (hs : cfg.search = Armijo.search a) (hrec : RecordsPoint cfg.hess)
    (hd : cfg.descent = newtonDescent ls none) (aux0 : A) (fn : (ι → ℝ) → ℝ × A) (y0 : ι → ℝ) (L μ eps : ℝ) (hL0 : 0 < L)
    (hL : LipschitzGradient (fun y => (fn y).1) cfg.grad L) (hμ : StronglyConvex (fun y => (fn y).1) cfg.grad μ)
    (heps : 0 < eps)
    (st0 : QuasiNewton.State ι A ℝ ((ι → ℝ) × Result) HS) (hi : (QuasiNewton.solver cfg aux0).init fn y0 = .ok st0)
    (M : Nat → Matrix ι ι ℝ) (hM0 : M 0 = 1)
    (hM : ∀ k, Stores b (stateAt (QuasiNewton.solver cfg aux0) fn aux0 y0 st0 (k + 1)).fInfo (M k)) (hp : ∀ k, SPD (M k))
    (hkeep : ∀ k, let Y := iterateAt (QuasiNewton.solver cfg aux0) fn aux0 y0 st0
      ¬ eps < ∑ c, (cfg.grad (Y (k + 2)) c - cfg.grad (Y (k + 1)) c) * (Y (k + 2) c - Y (k + 1) c) → M (k + 1) = M k)
    (x : ι → ℝ) (hx : ∀ y, (fn x).1 ≤ (fn y).1) (hsmall : 8 * L / μ * ((fn y0).1 - (fn x).1) ≤ eps) :
    SameSteps (QuasiNewton.solver cfg aux0)
      (GradientDescent.solver (backtrackingDescent a cfg.rtol cfg.atol cfg.normY cfg.normF cfg.grad) aux0) fn aux0 y0 := by
  have hμ0 := hμ.pos
  obtain ⟨st0', hi', hY1, c, q, -, -, hrate⟩ := guarded_rate b ls hls d s i a ha cfg hs hrec hd aux0 fn y0 L μ eps hL hμ heps st0 hi M hM
    hp hkeep x hx
  obtain rfl : st0 = st0' := by rw [hi] at hi'; exact Except.ok.inj hi'
  set Y := iterateAt (QuasiNewton.solver cfg aux0) fn aux0 y0 st0 with hY
  have hM1 : ∀ k, M k = 1 := by
    intro k
    induction k with
    | zero => exact hM0
    | succ k ih =>
      rw [← ih]
      refine hkeep k ?_
      rw [not_lt]
      have p1 := hrate.point 0 (k + 1) (by simp)
      have p2 := hrate.point 0 k (by simp)
      simp only [pow_zero, one_mul, hY1] at p1 p2
      have p3 := hL.lipschitz (Y (k + 2)) (Y (k + 1))
      have p4 : ∑ c, (Y (k + 2) c - Y (k + 1) c) ^ 2 ≤
          ∑ c, (2 * (Y (k + 2) c - x c) ^ 2 + 2 * (Y (k + 1) c - x c) ^ 2) :=
        Finset.sum_le_sum fun c _ => by nlinarith [sq_nonneg ((Y (k + 2) c - x c) + (Y (k + 1) c - x c))]
      rw [Finset.sum_add_distrib, ← Finset.mul_sum, ← Finset.mul_sum] at p4
      have p5 : ∑ c, (cfg.grad (Y (k + 2)) c - cfg.grad (Y (k + 1)) c) * (Y (k + 2) c - Y (k + 1) c) ≤
          ∑ c, (1 / (2 * L) * (cfg.grad (Y (k + 2)) c - cfg.grad (Y (k + 1)) c) ^ 2 + L / 2 * (Y (k + 2) c - Y (k + 1) c) ^ 2) := by
        refine Finset.sum_le_sum fun c _ => ?_
        have : 0 ≤ (cfg.grad (Y (k + 2)) c - cfg.grad (Y (k + 1)) c - L * (Y (k + 2) c - Y (k + 1) c)) ^ 2 / (2 * L) := by positivity
        have e : (cfg.grad (Y (k + 2)) c - cfg.grad (Y (k + 1)) c - L * (Y (k + 2) c - Y (k + 1) c)) ^ 2 / (2 * L) =
            1 / (2 * L) * (cfg.grad (Y (k + 2)) c - cfg.grad (Y (k + 1)) c) ^ 2 + L / 2 * (Y (k + 2) c - Y (k + 1) c) ^ 2 -
              (cfg.grad (Y (k + 2)) c - cfg.grad (Y (k + 1)) c) * (Y (k + 2) c - Y (k + 1) c) := by field_simp; ring
        linarith
      rw [Finset.sum_add_distrib, ← Finset.mul_sum, ← Finset.mul_sum] at p5
      have p6 : 1 / (2 * L) * ∑ c, (cfg.grad (Y (k + 2)) c - cfg.grad (Y (k + 1)) c) ^ 2 ≤
          L / 2 * ∑ c, (Y (k + 2) c - Y (k + 1) c) ^ 2 := by
        calc _ ≤ 1 / (2 * L) * (L ^ 2 * ∑ c, (Y (k + 2) c - Y (k + 1) c) ^ 2) := mul_le_mul_of_nonneg_left p3 (by positivity)
          _ = _ := by field_simp
      have p7 : ∑ c, (Y (k + 2) c - Y (k + 1) c) ^ 2 ≤ 8 / μ * ((fn y0).1 - (fn x).1) := by
        have e : 8 / μ * ((fn y0).1 - (fn x).1) = 2 * (2 / μ * ((fn y0).1 - (fn x).1)) + 2 * (2 / μ * ((fn y0).1 - (fn x).1)) := by ring
        rw [e]
        linarith
      calc _ ≤ L * ∑ c, (Y (k + 2) c - Y (k + 1) c) ^ 2 := by linarith
        _ ≤ L * (8 / μ * ((fn y0).1 - (fn x).1)) := mul_le_mul_of_nonneg_left p7 hL0.le
        _ = 8 * L / μ * ((fn y0).1 - (fn x).1) := by ring
        _ ≤ eps := hsmall
  refine ⟨st0, _, hi, rfl, ?_⟩
  intro k
  obtain _ | k := k
  · rfl
  have LL := qn_laws cfg aux0 fn hrec
  rw [hs] at LL
  have LG := gd_laws (backtrackingDescent a cfg.rtol cfg.atol cfg.normY cfg.normF cfg.grad) aux0 fn
  exact (directions_determine_runs (G := cfg.grad) LL LG (fun y i h => h.2) (by rintro y i rfl; rfl) aux0 y0 st0 _ hi rfl (fun y c => -cfg.grad y c)
    (fun k t => identity_direction b ls hls cfg a hs hrec hd aux0 fn y0 st0 hi k (by rw [← hM1 k]; exact hM k)
      (by rw [← hM1 0]; exact hp 0) t)
    (fun k t => congrArg Prod.fst (steepest_related a cfg.rtol cfg.atol cfg.normY cfg.normF cfg.grad aux0 fn y0 _ rfl (k + 1) (by omega) t))
    k).1

/-- **C100.** `BFGS` (either form) on an objective that starts within `eps μ / 8 L` of its minimum is steepest descent. -/
theorem C100_bfgs_is_steepest_descent [DecidableEq ι] (b : Bool) (ls : LinSolve ι Unit) (hls : b = false → SolvesSPD ls)
    (d s i : ℝ) (a : Armijo.Cfg ℝ) (ha : Armijo.new d s i = .ok a) (eps rtol atol : ℝ) (heps : 0 < eps)
    (nY : (ι → ℝ) → ℝ) (nF : (Unit → ℝ) → ℝ)
    (grad : (ι → ℝ) → (ι → ℝ)) (aux0 : A) (fn : (ι → ℝ) → ℝ × A) (y0 : ι → ℝ) (L μ : ℝ) (hL0 : 0 < L)
    (hL : LipschitzGradient (fun y => (fn y).1) grad L) (hμ : StronglyConvex (fun y => (fn y).1) grad μ)
    (x : ι → ℝ) (hx : ∀ y, (fn x).1 ≤ (fn y).1) (hsmall : 8 * L / μ * ((fn y0).1 - (fn x).1) ≤ eps) :
    SameSteps (QuasiNewton.solver (withArmijo rtol atol nY nF ls a (bfgs eps b) grad) aux0)
      (GradientDescent.solver (backtrackingDescent a rtol atol nY nF grad) aux0) fn aux0 y0 := by
  obtain ⟨st0, hi⟩ : ∃ st0, (QuasiNewton.solver (withArmijo rtol atol nY nF ls a (bfgs eps b) grad) aux0).init fn y0 = .ok st0 := by
    cases b <;> exact ⟨_, rfl⟩
  obtain ⟨h0, hr⟩ := C34_run eps heps.le b (withArmijo rtol atol nY nF ls a (bfgs eps b) grad) rfl (armijo_first a) aux0 fn y0
    st0 hi
  obtain ⟨M, h1, h2, h3⟩ := matrices b _ eps aux0 fn y0 st0 (fun k => by
    obtain ⟨M, M', h1, h2, h3, h4, h5, h6⟩ := hr k
    exact ⟨M, M', h1, h2, h3, h6⟩)
  exact guarded_identity b ls hls d s i a ha _ rfl (bfgs_records eps b) rfl aux0 fn y0 L μ eps hL0 hL hμ heps st0 hi M
    (stores_unique (h1 0) h0) h1 h2 h3 x hx hsmall

/-- **C100.** The same for `DFP`. -/
theorem C100_dfp_is_steepest_descent [DecidableEq ι] (b : Bool) (ls : LinSolve ι Unit) (hls : b = false → SolvesSPD ls)
    (d s i : ℝ) (a : Armijo.Cfg ℝ) (ha : Armijo.new d s i = .ok a) (eps rtol atol : ℝ) (heps : 0 < eps)
    (nY : (ι → ℝ) → ℝ) (nF : (Unit → ℝ) → ℝ)
    (grad : (ι → ℝ) → (ι → ℝ)) (aux0 : A) (fn : (ι → ℝ) → ℝ × A) (y0 : ι → ℝ) (L μ : ℝ) (hL0 : 0 < L)
    (hL : LipschitzGradient (fun y => (fn y).1) grad L) (hμ : StronglyConvex (fun y => (fn y).1) grad μ)
    (x : ι → ℝ) (hx : ∀ y, (fn x).1 ≤ (fn y).1) (hsmall : 8 * L / μ * ((fn y0).1 - (fn x).1) ≤ eps) :
    SameSteps (QuasiNewton.solver (withArmijo rtol atol nY nF ls a (dfp eps b) grad) aux0)
      (GradientDescent.solver (backtrackingDescent a rtol atol nY nF grad) aux0) fn aux0 y0 := by
  obtain ⟨st0, hi⟩ : ∃ st0, (QuasiNewton.solver (withArmijo rtol atol nY nF ls a (dfp eps b) grad) aux0).init fn y0 = .ok st0 := by
    cases b <;> exact ⟨_, rfl⟩
  obtain ⟨h0, hr⟩ := C35_run eps heps.le b (withArmijo rtol atol nY nF ls a (dfp eps b) grad) rfl (armijo_first a) aux0 fn y0
    st0 hi
  obtain ⟨M, h1, h2, h3⟩ := matrices b _ eps aux0 fn y0 st0 (fun k => by
    obtain ⟨M, M', h1, h2, h3, h4, h5, h6⟩ := hr k
    exact ⟨M, M', h1, h2, h3, h6⟩)
  exact guarded_identity b ls hls d s i a ha _ rfl (dfp_records eps b) rfl aux0 fn y0 L μ eps hL0 hL hμ heps st0 hi M
    (stores_unique (h1 0) h0) h1 h2 h3 x hx hsmall

/-- **C100.** The same for `LBFGS(use_inverse=True)`. -/
theorem C100_lbfgs_is_steepest_descent [DecidableEq ι] (h : Nat) [NeZero h] (ls : LinSolve ι Unit)
    (d s i : ℝ) (a : Armijo.Cfg ℝ) (ha : Armijo.new d s i = .ok a) (eps rtol atol : ℝ) (heps : 0 < eps)
    (nY : (ι → ℝ) → ℝ) (nF : (Unit → ℝ) → ℝ)
    (grad : (ι → ℝ) → (ι → ℝ)) (aux0 : A) (fn : (ι → ℝ) → ℝ × A) (y0 : ι → ℝ) (L μ : ℝ) (hL0 : 0 < L)
    (hL : LipschitzGradient (fun y => (fn y).1) grad L) (hμ : StronglyConvex (fun y => (fn y).1) grad μ)
    (x : ι → ℝ) (hx : ∀ y, (fn x).1 ≤ (fn y).1) (hsmall : 8 * L / μ * ((fn y0).1 - (fn x).1) ≤ eps) :
    SameSteps (QuasiNewton.solver (withArmijo rtol atol nY nF ls a (LBFGS.inverse eps h) grad) aux0)
      (GradientDescent.solver (backtrackingDescent a rtol atol nY nF grad) aux0) fn aux0 y0 := by
  obtain ⟨st0, hi⟩ : ∃ st0, (QuasiNewton.solver (withArmijo rtol atol nY nF ls a (LBFGS.inverse eps h) grad) aux0).init fn y0 =
    .ok st0 := ⟨_, rfl⟩
  have hr := C38_run eps heps.le h (withArmijo rtol atol nY nF ls a (LBFGS.inverse eps h) grad) rfl (armijo_first a) aux0 fn y0
    st0 hi
  exact guarded_identity true ls (fun h => by cases h) d s i a ha _ rfl (inverse_records eps h) rfl aux0 fn y0 L μ eps hL0 hL hμ
    heps st0 hi _ (by simp [curvaturePairs, lastN, denseInverse]) (fun k => (hr k).1) (fun k => (hr k).2.2.1) (fun k => by
      intro Y hn
      rw [pairs_keep _ _ _ k hn]) x hx hsmall

/-- Multiplying the objective by a constant. -/
theorem LipschitzGradient.scale {f : (ι → ℝ) → ℝ} {grad : (ι → ℝ) → (ι → ℝ)} {L : ℝ} (h : LipschitzGradient f grad L) (c : ℝ)
    (hc : 0 ≤ c) : LipschitzGradient (fun y => c * f y) (fun y i => c * grad y i) (c * L) where
  deriv y p := by
    have := (h.deriv y p).const_mul c
    have e : c * ∑ i, grad y i * p i = ∑ i, c * grad y i * p i := by
      rw [Finset.mul_sum]; exact Finset.sum_congr rfl fun i _ => by ring
    rw [e] at this
    exact this
  lipschitz y z := by
    have h1 := mul_le_mul_of_nonneg_left (h.lipschitz y z) (sq_nonneg c)
    calc _ = c ^ 2 * ∑ i, (grad y i - grad z i) ^ 2 := by rw [Finset.mul_sum]; exact Finset.sum_congr rfl fun i _ => by ring
      _ ≤ _ := h1
      _ = _ := by ring
  nonneg := mul_nonneg hc h.nonneg

theorem StronglyConvex.scale {f : (ι → ℝ) → ℝ} {grad : (ι → ℝ) → (ι → ℝ)} {μ : ℝ} (h : StronglyConvex f grad μ) (c : ℝ)
    (hc : 0 < c) : StronglyConvex (fun y => c * f y) (fun y i => c * grad y i) (c * μ) where
  pos := mul_pos hc h.pos
  lower y z := by
    have h1 := mul_le_mul_of_nonneg_left (h.lower y z) hc.le
    calc _ = c * (f y + ∑ i, grad y i * (z i - y i) + μ / 2 * ∑ i, (z i - y i) ^ 2) := by
            have : ∑ i, c * grad y i * (z i - y i) = c * ∑ i, grad y i * (z i - y i) := by
              rw [Finset.mul_sum]; exact Finset.sum_congr rfl fun i _ => by ring
            rw [this]; ring
      _ ≤ _ := h1

/-- A step of backtracking steepest descent on an objective with a small gradient cannot get much closer to the minimiser. -/
theorem steepest_slow (d s i : ℝ) (a : Armijo.Cfg ℝ) (ha : Armijo.new d s i = .ok a)
    (rtol atol : ℝ) (nY : (ι → ℝ) → ℝ) (nF : (Unit → ℝ) → ℝ) (grad : (ι → ℝ) → (ι → ℝ)) (aux0 : A)
    (fn : (ι → ℝ) → ℝ × A) (y0 : ι → ℝ) (L : ℝ) (hL0 : 0 < L) (hL : LipschitzGradient (fun y => (fn y).1) grad L)
    (x : ι → ℝ) (hx : ∀ y, (fn x).1 ≤ (fn y).1) (hiL : i * L ≤ 1)
    (st0 : GradientDescent.State ι A ℝ (ι → ℝ))
    (hi : (GradientDescent.solver (backtrackingDescent a rtol atol nY nF grad) aux0).init fn y0 = .ok st0) (k : ℕ) :
    let Y := iterateAt (GradientDescent.solver (backtrackingDescent a rtol atol nY nF grad) aux0) fn aux0 y0 st0
    (1 - i * L) ^ 2 * ∑ c, (Y k c - x c) ^ 2 ≤ ∑ c, (Y (k + 1) c - x c) ^ 2 := by
  intro Y
  obtain ⟨rfl, hd0, hd1, hs0, hs1, hi0⟩ := armijo_new d s i a ha
  set cfg := backtrackingDescent ⟨d, s, i⟩ rtol atol nY nF grad with hcfg
  have LA : Laws (GradientDescent.solver cfg aux0) fn (fun y => (fn y).1) (Armijo.search ⟨d, s, i⟩) cfg.descent (gdView fn) _ :=
    gd_laws cfg aux0 fn
  have hη : 0 < i * L := by positivity
  obtain _ | k := k
  · have hY1 : Y 1 = y0 := (armijo_start LA aux0 y0 st0 hi).1
    have h0 : Y 0 = y0 := rfl
    rw [hY1, h0]
    have : (1 - i * L) ^ 2 ≤ 1 := by nlinarith
    have h2 : 0 ≤ ∑ c, (y0 c - x c) ^ 2 := Finset.sum_nonneg fun c _ => sq_nonneg _
    nlinarith
  have hG : ∀ y (i : FnInfo ι Unit), i = .evalGrad (fn y).1 (cfg.grad y) → i.grad? = some (cfg.grad y) := by
    rintro y i rfl; rfl
  have hrel := steepest_related ⟨d, s, i⟩ rtol atol nY nF grad aux0 fn y0 st0 hi
  have htm0 : 0 < smallestStep ⟨d, s, i⟩ L := by
    unfold smallestStep
    refine lt_min hi0 ?_
    have : 0 < 1 - s := by linarith
    show 0 < d * (2 * (1 - s) / L)
    positivity
  obtain ⟨q, hq⟩ : ∃ q : ℕ, i * d ^ q < smallestStep ⟨d, s, i⟩ L := by
    have hz : Tendsto (fun j : Nat => i * d ^ j) atTop (𝓝 0) := by
      simpa using (tendsto_pow_atTop_nhds_zero_of_lt_one hd0.le hd1).const_mul i
    exact (hz.eventually (gt_mem_nhds htm0)).exists
  obtain ⟨p1, p2, p3⟩ := armijo_progress (G := grad) LA hG aux0 y0 st0 hi hd0 hd1 hs0 hs1 hi0 L L 1 1 one_pos hL0 hL0.le
    (by rw [mul_one]) hL.bound (fun k => ⟨fun c => -grad (Y (k + 1)) c, fun t => congrArg Prod.fst (hrel (k + 1) (by omega) t), by
      rw [one_mul]
      unfold treeDot sumSquares
      rw [← Finset.sum_neg_distrib]
      exact (Finset.sum_congr rfl fun c _ => by ring).le, by
      rw [one_mul]
      unfold sumSquares
      exact (Finset.sum_congr rfl fun c _ => by ring).le⟩) (smallestStep ⟨d, s, i⟩ L)
      (by unfold smallestStep; rw [mul_one]) q hq
  have h1 : ∑ c, (Y (k + 2) c - Y (k + 1) c) ^ 2 ≤ i ^ 2 * ∑ c, grad (Y (k + 1)) c ^ 2 := by
    have := p2 k
    rw [sumSquares_pow, sumSquares_pow, one_mul] at this
    exact this
  have h2 : ∑ c, grad (Y (k + 1)) c ^ 2 ≤ L ^ 2 * ∑ c, (Y (k + 1) c - x c) ^ 2 := by
    have := hL.lipschitz (Y (k + 1)) x
    simpa only [hL.stationary hx, sub_zero] using this
  have h3 : ∑ c, (Y (k + 2) c - Y (k + 1) c) ^ 2 ≤ (i * L) ^ 2 * ∑ c, (Y (k + 1) c - x c) ^ 2 := by
    calc _ ≤ _ := h1
      _ ≤ i ^ 2 * (L ^ 2 * ∑ c, (Y (k + 1) c - x c) ^ 2) := mul_le_mul_of_nonneg_left h2 (sq_nonneg _)
      _ = _ := by ring
  set η := i * L with hηd
  have h4 : ∑ c, ((1 - η) * (Y (k + 1) c - x c) ^ 2 - (1 / η - 1) * (Y (k + 2) c - Y (k + 1) c) ^ 2) ≤ ∑ c, (Y (k + 2) c - x c) ^ 2 := by
    refine Finset.sum_le_sum fun c _ => ?_
    have : 0 ≤ (η * (Y (k + 1) c - x c) + (Y (k + 2) c - Y (k + 1) c)) ^ 2 / η := by positivity
    have e : (η * (Y (k + 1) c - x c) + (Y (k + 2) c - Y (k + 1) c)) ^ 2 / η = (Y (k + 2) c - x c) ^ 2 -
        ((1 - η) * (Y (k + 1) c - x c) ^ 2 - (1 / η - 1) * (Y (k + 2) c - Y (k + 1) c) ^ 2) := by field_simp; ring
    linarith
  rw [Finset.sum_sub_distrib, ← Finset.mul_sum, ← Finset.mul_sum] at h4
  have h5 : 0 ≤ 1 / η - 1 := by
    have : 1 ≤ 1 / η := by rw [le_div_iff₀ hη]; linarith
    linarith
  have h6 := mul_le_mul_of_nonneg_left h3 h5
  have h7 : (1 / η - 1) * (η ^ 2 * ∑ c, (Y (k + 1) c - x c) ^ 2) = (η - η ^ 2) * ∑ c, (Y (k + 1) c - x c) ^ 2 := by field_simp
  show _ ≤ ∑ c, (Y (k + 2) c - x c) ^ 2
  nlinarith

/-- **C100.** So superlinear convergence fails, on every strongly convex problem, in suitable units of the objective: whatever `θ < 1`,
multiplying the objective by a small enough constant `c` makes the squared distance of the iterates of `BFGS` to the minimiser shrink
by at most the factor `θ` in every step. -/
theorem C100_bfgs_not_superlinear [DecidableEq ι] (b : Bool) (ls : LinSolve ι Unit) (hls : b = false → SolvesSPD ls)
    (d s i : ℝ) (a : Armijo.Cfg ℝ) (ha : Armijo.new d s i = .ok a) (eps rtol atol : ℝ) (heps : 0 < eps)
    (nY : (ι → ℝ) → ℝ) (nF : (Unit → ℝ) → ℝ) (f : (ι → ℝ) → ℝ) (grad : (ι → ℝ) → (ι → ℝ)) (y0 : ι → ℝ) (L μ : ℝ) (hL0 : 0 < L)
    (hL : LipschitzGradient f grad L) (hμ : StronglyConvex f grad μ) (x : ι → ℝ) (hx : ∀ y, f x ≤ f y) (θ : ℝ) (hθ : θ < 1) :
    ∃ c0 > 0, ∀ c, 0 < c → c ≤ c0 →
      let S := QuasiNewton.solver (withArmijo rtol atol nY nF ls a (bfgs eps b) fun y j => c * grad y j) ()
      let fn := fun y => (c * f y, ())
      ∃ st0, S.init fn y0 = .ok st0 ∧
        ∀ k, θ * ∑ j, (iterateAt S fn () y0 st0 k j - x j) ^ 2 ≤ ∑ j, (iterateAt S fn () y0 st0 (k + 1) j - x j) ^ 2 := by
  have hμ0 := hμ.pos
  obtain ⟨-, hd0, hd1, hs0, hs1, hi0⟩ := armijo_new d s i a ha
  have hgap : 0 ≤ f y0 - f x := sub_nonneg.2 (hx _)
  refine ⟨min (eps / (8 * L / μ * (f y0 - f x) + 1)) (min (1 / (i * L)) ((1 - θ) / (2 * (i * L)))), ?_, ?_⟩
  · have : 0 < 1 - θ := by linarith
    positivity
  intro c hc hcc S fn
  have hc1 : c ≤ eps / (8 * L / μ * (f y0 - f x) + 1) := hcc.trans (min_le_left _ _)
  have hc2 : c ≤ 1 / (i * L) := hcc.trans ((min_le_right _ _).trans (min_le_left _ _))
  have hc3 : c ≤ (1 - θ) / (2 * (i * L)) := hcc.trans ((min_le_right _ _).trans (min_le_right _ _))
  have hiL : 0 < i * L := by positivity
  obtain ⟨st0, st0', h1, h2, h3⟩ := C100_bfgs_is_steepest_descent b ls hls d s i a ha eps rtol atol heps nY nF (fun y j => c * grad y j) ()
    fn y0 (c * L) (c * μ) (by positivity) (hL.scale c hc.le) (hμ.scale c hc) x (fun y => mul_le_mul_of_nonneg_left (hx y) hc.le) (by
      show 8 * (c * L) / (c * μ) * (c * f y0 - c * f x) ≤ eps
      have e : 8 * (c * L) / (c * μ) * (c * f y0 - c * f x) = c * (8 * L / μ * (f y0 - f x)) := by field_simp
      rw [e]
      rw [le_div_iff₀ (by positivity)] at hc1
      nlinarith)
  refine ⟨st0, h1, fun k => ?_⟩
  have hslow := steepest_slow d s i a ha rtol atol nY nF (fun y j => c * grad y j) () fn y0 (c * L) (by positivity) (hL.scale c hc.le) x
    (fun y => mul_le_mul_of_nonneg_left (hx y) hc.le) (by
      rw [le_div_iff₀ hiL] at hc2
      linarith) st0' h2 k
  rw [h3 k, h3 (k + 1)]
  refine le_trans (mul_le_mul_of_nonneg_right ?_ (Finset.sum_nonneg fun j _ => sq_nonneg _)) hslow
  rw [le_div_iff₀ (by positivity)] at hc3
  nlinarith [sq_nonneg (i * (c * L))]

/-- The Newton direction of a stored matrix. -/
theorem stored_direction (b : Bool) (ls : LinSolve ι Unit) (hls : b = false → SolvesSPD ls)
    (cfg : QuasiNewton.Cfg ι ℝ ((ι → ℝ) × Result) HS) (a : Armijo.Cfg ℝ) (hs : cfg.search = Armijo.search a)
    (hrec : RecordsPoint cfg.hess) (hd : cfg.descent = newtonDescent ls none) (aux0 : A) (fn : (ι → ℝ) → ℝ × A) (y0 : ι → ℝ)
    (st0 : QuasiNewton.State ι A ℝ ((ι → ℝ) × Result) HS) (hi : (QuasiNewton.solver cfg aux0).init fn y0 = .ok st0) (k : ℕ)
    (M : Matrix ι ι ℝ) (hM : Stores b (stateAt (QuasiNewton.solver cfg aux0) fn aux0 y0 st0 (k + 1)).fInfo M) (hp : SPD M) :
    ∃ n : ι → ℝ,
      (if b then n = M.mulVec (cfg.grad (iterateAt (QuasiNewton.solver cfg aux0) fn aux0 y0 st0 (k + 1)))
        else M.mulVec n = cfg.grad (iterateAt (QuasiNewton.solver cfg aux0) fn aux0 y0 st0 (k + 1))) ∧
      ∀ t, (cfg.descent.step t (stateAt (QuasiNewton.solver cfg aux0) fn aux0 y0 st0 (k + 1)).descentState).1 = fun c => -t * n c := by
  have hf : ∀ y z i j s, (cfg.search.step true y z i j s).2.1 = true := by rw [hs]; exact armijo_first a
  have LL := qn_laws cfg aux0 fn hrec
  have hg := (stored LL hf aux0 y0 st0 hi k).1.2
  have hn := newton_direction ls b hls _ M hM hp _ hg
  refine ⟨_, hn.2, fun t => ?_⟩
  rw [newton_state ls HS cfg hd hrec hf aux0 fn y0 st0 hi k, hd]
  rfl

/-- A positive definite matrix is injective. -/
theorem spd_injective {M : Matrix ι ι ℝ} (h : SPD M) {u w : ι → ℝ} (e : M.mulVec u = M.mulVec w) : u = w := by
  by_contra hne
  obtain ⟨j, hj⟩ : ∃ j, u j - w j ≠ 0 := by
    by_contra hc
    simp only [not_exists, not_not, sub_eq_zero] at hc
    exact hne (funext hc)
  have h1 := h.2 (fun j => u j - w j) ⟨j, hj⟩
  have h2 : ∑ i, ∑ j, (u i - w i) * M i j * (u j - w j) = ∑ i, (u i - w i) * (M.mulVec u i - M.mulVec w i) := by
    refine Finset.sum_congr rfl fun i _ => ?_
    simp only [Matrix.mulVec, dotProduct]
    rw [← Finset.sum_sub_distrib, Finset.mul_sum]
    exact Finset.sum_congr rfl fun j _ => by ring
  rw [h2, e] at h1
  simp at h1

/-- **C100**, what does hold (partial: for quadratic objectives `f(x) + ½ (y - x)ᵀ Q (y - x)` and starting points whose error is an
eigenvector of `Q`: all one-dimensional quadratics, and all starting points if the curvature is the same in all directions; and
only if a step is long enough to pass the curvature guard; missing: superlinear convergence on other objectives when the guard is
passed).  After the first step whose curvature product exceeds `eps`, `BFGS` with unit initial step size has learnt the curvature and
the next iterate is the minimiser. -/
theorem C100_bfgs_eigenvector_partial [DecidableEq ι] (b : Bool) (ls : LinSolve ι Unit) (hls : b = false → SolvesSPD ls)
    (d s : ℝ) (a : Armijo.Cfg ℝ) (ha : Armijo.new d s 1 = .ok a) (hs2 : s ≤ 1 / 2) (eps rtol atol : ℝ) (heps : 0 < eps)
    (nY : (ι → ℝ) → ℝ) (nF : (Unit → ℝ) → ℝ) (Q : Matrix ι ι ℝ) (x : ι → ℝ) (fx : ℝ) (y0 : ι → ℝ) (h : ℝ) (hh : 0 < h)
    (hQ : Q.mulVec (fun j => y0 j - x j) = fun j => h * (y0 j - x j)) (aux0 : A) (aux : (ι → ℝ) → A) :
    let S := QuasiNewton.solver (withArmijo rtol atol nY nF ls a (bfgs eps b) fun y => Q.mulVec fun j => y j - x j) aux0
    let fn := fun y : ι → ℝ => (fx + 1 / 2 * ∑ j, (y j - x j) * Q.mulVec (fun j => y j - x j) j, aux y)
    ∃ st0, S.init fn y0 = .ok st0 ∧
      let Y := iterateAt S fn aux0 y0 st0
      ∀ k, eps < h * ∑ j, (Y (k + 2) j - Y (k + 1) j) ^ 2 → Y (k + 3) = x := by
  intro S fn
  obtain ⟨rfl, hd0, hd1, hs0, hs1, hi0⟩ := armijo_new d s 1 a ha
  set cfg := withArmijo rtol atol nY nF ls ⟨d, s, 1⟩ (bfgs eps b) fun y => Q.mulVec fun j => y j - x j with hcfg
  obtain ⟨st0, hi⟩ : ∃ st0, S.init fn y0 = .ok st0 := by
    cases b <;> exact ⟨_, rfl⟩
  refine ⟨st0, hi, ?_⟩
  intro Y
  obtain ⟨h0, hr⟩ := C34_run eps heps.le b cfg rfl (armijo_first _) aux0 fn y0 st0 hi
  set e0 : ι → ℝ := fun j => y0 j - x j with he0
  set LL := qn_laws cfg aux0 fn (bfgs_records eps b)
  have hG : ∀ y (i : FnInfo ι Unit), (i.asMin = (fn y).1 ∧ i.grad? = some (cfg.grad y)) → i.grad? = some (cfg.grad y) :=
    fun y i h => h.2
  -- the iterates stay on the line, and the matrices map it to itself
  have hgrad : ∀ y l, (∀ j, y j - x j = l * e0 j) → cfg.grad y = fun j => l * (h * e0 j) := by
    intro y l hy
    have : (fun j => y j - x j) = l • e0 := funext hy
    show Q.mulVec (fun j => y j - x j) = _
    rw [this, Matrix.mulVec_smul, hQ]
    funext j; simp [he0]
  have hfn : ∀ y l, (∀ j, y j - x j = l * e0 j) → (fn y).1 = fx + 1 / 2 * (h * l ^ 2 * ∑ j, e0 j ^ 2) := by
    intro y l hy
    have h1 := hgrad y l hy
    show fx + 1 / 2 * ∑ j, (y j - x j) * cfg.grad y j = _
    have : ∑ j, (y j - x j) * cfg.grad y j = h * l ^ 2 * ∑ j, e0 j ^ 2 := by
      rw [h1, Finset.mul_sum]
      exact Finset.sum_congr rfl fun j _ => by rw [hy]; ring
    rw [this]
  -- the trial point
  have htrial : ∀ k l M m, (∀ j, Y (k + 1) j - x j = l * e0 j) → Stores b ((stateAt S fn aux0 y0 st0 (k + 1)).fInfo) M → SPD M → 0 < m →
      (M.mulVec e0 = fun j => m * e0 j) → ∀ j, (stateAt S fn aux0 y0 st0 (k + 1)).yEval j - x j =
        (1 - (stateAt S fn aux0 y0 st0 (k + 1)).searchState * (if b then m * h else h / m)) * (l * e0 j) := by
    intro k l M m hl hM hp hm hMe j
    obtain ⟨n, hn, hstep⟩ := stored_direction b ls hls cfg _ rfl (bfgs_records eps b) rfl aux0 fn y0 st0 hi k M hM hp
    have ht : (stateAt S fn aux0 y0 st0 (k + 1)).yEval = fun c => Y (k + 1) c + (cfg.descent.step
        (stateAt S fn aux0 y0 st0 (k + 1)).searchState (stateAt S fn aux0 y0 st0 (k + 1)).descentState).1 c :=
      armijo_trial LL hG aux0 y0 st0 hi k
    rw [ht, hstep]
    have hng : n = fun j => (if b then m * h else h / m) * (l * e0 j) := by
      rw [show cfg.grad (iterateAt (QuasiNewton.solver cfg aux0) fn aux0 y0 st0 (k + 1)) = _ from hgrad (Y (k + 1)) l hl] at hn
      have e : (fun j => l * (h * e0 j)) = (l * h) • e0 := by funext j; simp; ring
      cases b
      · simp only [Bool.false_eq_true, if_false] at hn ⊢
        refine spd_injective hp ?_
        have e2 : (fun j => h / m * (l * e0 j)) = (h / m * l) • e0 := by funext j; simp; ring
        rw [hn, e2, Matrix.mulVec_smul, hMe]
        funext j
        simp
        field_simp
      · simp only [if_true] at hn ⊢
        rw [hn, e, Matrix.mulVec_smul, hMe]
        funext j
        simp; ring
    rw [hng]
    have := hl j
    show Y (k + 1) j + _ - x j = _
    linear_combination this
  have hpair : ∀ k l l', (∀ j, Y (k + 1) j - x j = l * e0 j) → (∀ j, Y (k + 2) j - x j = l' * e0 j) →
      ∀ j, cfg.grad (Y (k + 2)) j - cfg.grad (Y (k + 1)) j = h * ((l' - l) * e0 j) ∧ Y (k + 2) j - Y (k + 1) j = (l' - l) * e0 j := by
    intro k l l' hl hl' j
    rw [hgrad _ l hl, hgrad _ l' hl']
    exact ⟨by ring, by have := hl j; have := hl' j; linarith⟩
  have hlearn : ∀ k l l' (M' : Matrix ι ι ℝ), (∀ j, Y (k + 1) j - x j = l * e0 j) → (∀ j, Y (k + 2) j - x j = l' * e0 j) →
      eps < ∑ c, (cfg.grad (Y (k + 2)) c - cfg.grad (Y (k + 1)) c) * (Y (k + 2) c - Y (k + 1) c) →
      (if b then (M'.mulVec fun c => cfg.grad (Y (k + 2)) c - cfg.grad (Y (k + 1)) c) = fun c => Y (k + 2) c - Y (k + 1) c
        else (M'.mulVec fun c => Y (k + 2) c - Y (k + 1) c) = fun c => cfg.grad (Y (k + 2)) c - cfg.grad (Y (k + 1)) c) →
      ∃ m', 0 < m' ∧ (if b then m' * h else h / m') = 1 ∧ M'.mulVec e0 = fun j => m' * e0 j := by
    intro k l l' M' hl hl' hc hsec
    have hd := hpair k l l' hl hl'
    have hne : l' - l ≠ 0 := by
      intro h0
      have : ∑ c, (cfg.grad (Y (k + 2)) c - cfg.grad (Y (k + 1)) c) * (Y (k + 2) c - Y (k + 1) c) = 0 :=
        Finset.sum_eq_zero fun c _ => by rw [(hd c).2, h0]; ring
      rw [this] at hc
      linarith
    have e1 : (fun c => cfg.grad (Y (k + 2)) c - cfg.grad (Y (k + 1)) c) = (h * (l' - l)) • e0 := by
      funext c; rw [(hd c).1]; simp; ring
    have e2 : (fun c => Y (k + 2) c - Y (k + 1) c) = (l' - l) • e0 := by
      funext c; rw [(hd c).2]; simp
    rw [e1, e2, Matrix.mulVec_smul, Matrix.mulVec_smul] at hsec
    cases b
    · refine ⟨h, hh, by simp [hh.ne'], ?_⟩
      funext j
      have := congrFun hsec j
      simp only [Pi.smul_apply, smul_eq_mul] at this
      exact mul_left_cancel₀ hne (by linear_combination this)
    · refine ⟨1 / h, by positivity, by simp [hh.ne'], ?_⟩
      funext j
      have := congrFun hsec j
      simp only [if_true, Pi.smul_apply, smul_eq_mul] at this
      have h2 : h * (l' - l) ≠ 0 := mul_ne_zero hh.ne' hne
      exact mul_left_cancel₀ h2 (by rw [this]; field_simp)
  have key : ∀ k, (∃ l, ∀ j, Y (k + 1) j - x j = l * e0 j) ∧ ∃ M m, Stores b ((stateAt S fn aux0 y0 st0 (k + 1)).fInfo) M ∧ SPD M ∧ 0 < m ∧
      M.mulVec e0 = fun j => m * e0 j := by
    intro k
    induction k with
    | zero =>
      have hY1 : Y 1 = y0 := (armijo_start LL aux0 y0 st0 hi).1
      refine ⟨⟨1, fun j => by rw [hY1, one_mul]⟩, 1, 1, h0, ?_, one_pos, by simp⟩
      obtain ⟨M, M', h1, h2, h3, -⟩ := hr 0
      rw [stores_unique h0 h1]; exact h3
    | succ k ih =>
      obtain ⟨⟨l, hl⟩, M, m, hM, hp, hm, hMe⟩ := ih
      have hline : ∃ l', ∀ j, Y (k + 2) j - x j = l' * e0 j := by
        rcases (armijo_run LL hG aux0 y0 st0 hi k).2 with ⟨-, q, -⟩ | ⟨-, q, -⟩
        · refine ⟨(1 - (stateAt S fn aux0 y0 st0 (k + 1)).searchState * (if b then m * h else h / m)) * l, fun j => ?_⟩
          have := htrial k l M m hl hM hp hm hMe j
          rw [show Y (k + 2) = _ from q]
          rw [mul_assoc]; exact this
        · exact ⟨l, by rw [show Y (k + 2) = _ from q]; exact hl⟩
      refine ⟨hline, ?_⟩
      obtain ⟨l', hl'⟩ := hline
      obtain ⟨N, M', h1, h2, h3, h4, h5, h6⟩ := hr k
      obtain rfl := stores_unique hM h1
      by_cases hc : eps < ∑ c, (cfg.grad (Y (k + 2)) c - cfg.grad (Y (k + 1)) c) * (Y (k + 2) c - Y (k + 1) c)
      · obtain ⟨m', hm', -, hMe'⟩ := hlearn k l l' M' hl hl' hc (h5 hc).2
        exact ⟨M', m', h2, h4, hm', hMe'⟩
      · exact ⟨M', m, h2, h4, hm, by rw [h6 hc]; exact hMe⟩
  intro k hk
  obtain ⟨⟨l, hl⟩, -⟩ := key k
  obtain ⟨⟨l', hl'⟩, -⟩ := key (k + 1)
  have hdiff := hpair k l l' hl hl'
  have hc : eps < ∑ c, (cfg.grad (Y (k + 2)) c - cfg.grad (Y (k + 1)) c) * (Y (k + 2) c - Y (k + 1) c) := by
    have : ∑ c, (cfg.grad (Y (k + 2)) c - cfg.grad (Y (k + 1)) c) * (Y (k + 2) c - Y (k + 1) c) =
        h * ∑ j, (Y (k + 2) j - Y (k + 1) j) ^ 2 := by
      rw [Finset.mul_sum]
      refine Finset.sum_congr rfl fun c _ => ?_
      rw [(hdiff c).1, (hdiff c).2]; ring
    rw [this]; exact hk
  obtain ⟨N, M', h1, h2, h3, h4, h5, h6⟩ := hr k
  obtain ⟨m', hm', hmv, hMe'⟩ := hlearn k l l' M' hl hl' hc (h5 hc).2
  have hss : (stateAt S fn aux0 y0 st0 (k + 2)).searchState = 1 := by
    rcases (armijo_run LL hG aux0 y0 st0 hi k).2 with ⟨-, -, q⟩ | ⟨-, q, -⟩
    · exact q
    · exfalso
      have q' : Y (k + 2) = Y (k + 1) := q
      rw [q'] at hk
      simp at hk
      linarith
  have hx : (stateAt S fn aux0 y0 st0 (k + 2)).yEval = x := by
    funext j
    have := htrial (k + 1) l' M' m' hl' h2 h4 hm' hMe' j
    rw [hss, hmv] at this
    simp only [sub_self, zero_mul, one_mul] at this
    linarith
  rcases (armijo_run LL hG aux0 y0 st0 hi (k + 1)).2 with ⟨-, q, -⟩ | ⟨q, -⟩
  · exact (show Y (k + 3) = _ from q).trans hx
  · exfalso
    refine q ?_
    rw [show (qnView fn).yEval (stateAt (QuasiNewton.solver cfg aux0) fn aux0 y0 st0 (k + 1 + 1)) = x from hx]
    show ArmijoHolds s (fun y => (fn y).1) (cfg.grad (Y (k + 2))) (Y (k + 2)) x
    have hfx : (fn x).1 = fx + 1 / 2 * (h * 0 ^ 2 * ∑ j, e0 j ^ 2) := hfn x 0 fun j => by ring
    have hfy := hfn (Y (k + 2)) l' hl'
    have hdot : treeDot (cfg.grad (Y (k + 2))) (fun j => x j - Y (k + 2) j) = -(h * l' ^ 2 * ∑ j, e0 j ^ 2) := by
      rw [hgrad _ l' hl', treeDot, Finset.mul_sum, ← Finset.sum_neg_distrib]
      refine Finset.sum_congr rfl fun j _ => ?_
      have := hl' j
      linear_combination (-(l' * h * e0 j)) * this
    have hE : 0 ≤ h * l' ^ 2 * ∑ j, e0 j ^ 2 := by
      have : 0 ≤ ∑ j, e0 j ^ 2 := Finset.sum_nonneg fun j _ => sq_nonneg _
      positivity
    refine ⟨?_, by rw [hdot]; linarith⟩
    show (fn x).1 ≤ (fn (Y (k + 2))).1 + s * _
    rw [hdot, hfx, hfy]
    nlinarith

/-- Non-vacuous: minimising `c Σ yᵢ²` with the default line search; with small `c` no step of `BFGS` gets ten percent closer. -/
example [DecidableEq ι] (ls : LinSolve ι Unit) (y0 : ι → ℝ) : ∃ c0 > 0, ∀ c, 0 < c → c ≤ c0 →
    let S := QuasiNewton.solver (withArmijo (1/10) (1/10) maxNorm maxNorm ls ⟨1/2, 1/10, 1⟩ (bfgs (1 / 2 ^ 52) true)
      fun y j => c * (2 * y j)) ()
    let fn := fun y => (c * ∑ j, y j ^ 2, ())
    ∃ st0, S.init fn y0 = .ok st0 ∧
      ∀ k, 9 / 10 * ∑ j, (iterateAt S fn () y0 st0 k j - 0) ^ 2 ≤ ∑ j, (iterateAt S fn () y0 st0 (k + 1) j - 0) ^ 2 :=
  C100_bfgs_not_superlinear true _ (fun h => by cases h) (1/2) (1/10) 1 ⟨1/2, 1/10, 1⟩ (by norm_num [Armijo.new]) _ _ _ (by positivity) _ _
    (fun y => ∑ j, y j ^ 2) (fun y j => 2 * y j) y0 2 2 (by norm_num) square_lipschitz square_convex (fun _ => 0)
    (fun y => by simp; exact Finset.sum_nonneg fun i _ => sq_nonneg _) (9 / 10) (by norm_num)

/-- Non-vacuous: all quadratics of one unknown, and all starting points. -/
example (ls : LinSolve Unit Unit) (h x : ℝ) (hh : 0 < h) (y0 : Unit → ℝ) :
    let S := QuasiNewton.solver (withArmijo (1/10) (1/10) maxNorm maxNorm ls ⟨1/2, 1/10, 1⟩ (bfgs (1 / 2 ^ 52) true)
      fun y => (h • (1 : Matrix Unit Unit ℝ)).mulVec fun j => y j - x) ()
    let fn := fun y : Unit → ℝ => (0 + 1 / 2 * ∑ j, (y j - x) * (h • (1 : Matrix Unit Unit ℝ)).mulVec (fun j => y j - x) j, ())
    ∃ st0, S.init fn y0 = .ok st0 ∧
      let Y := iterateAt S fn () y0 st0
      ∀ k, 1 / 2 ^ 52 < h * ∑ j, (Y (k + 2) j - Y (k + 1) j) ^ 2 → Y (k + 3) = fun _ => x :=
  C100_bfgs_eigenvector_partial true _ (fun h => by cases h) (1/2) (1/10) ⟨1/2, 1/10, 1⟩ (by norm_num [Armijo.new]) (by norm_num) _ _ _
    (by positivity) _ _ _ (fun _ => x) 0 y0 h hh (by funext j; simp [Matrix.smul_mulVec]) () (fun _ => ())

end Verif.Props
