import Verif.Spec.Units
import Verif.Lemmas.SimulateRel
import Verif.Model.FixedPoint
import Mathlib.Data.Real.Basic
import Mathlib.LinearAlgebra.Matrix.DotProduct
import Verif.Lemmas.Norms
import Verif.Props.GaussNewtonLocal

/-! Runs in other affine coordinates follow the original runs. -/

namespace Verif.Units

open Verif Matrix Verif.Driver

variable {ι ι' κ κ' A : Type} [Fintype ι] [Fintype ι'] [DecidableEq ι] [DecidableEq ι']
  [Fintype κ] [Fintype κ'] [DecidableEq κ] [DecidableEq κ']

section change

variable (m : Change ι ι')

theorem inv_dir (v : ι → ℝ) : m.inv.mulVec (m.P.mulVec v) = v := by rw [mulVec_mulVec, m.left, one_mulVec]

theorem dir_inv (v : ι' → ℝ) : m.P.mulVec (m.inv.mulVec v) = v := by rw [mulVec_mulVec, m.right, one_mulVec]

theorem back_point (y : ι → ℝ) : m.back (m.point y) = y := by
  simp only [Change.back, Change.point, add_sub_cancel_right]
  exact inv_dir m y

theorem point_back (x : ι' → ℝ) : m.point (m.back x) = x := by
  funext i
  show m.P.mulVec (m.inv.mulVec fun i => x i - m.shift i) i + m.shift i = x i
  rw [dir_inv]; ring

theorem point_sub_dir (x d : ι → ℝ) : (fun i => m.point x i - m.P.mulVec d i) = m.point fun i => x i - d i := by
  funext i
  have := congrFun (mulVec_sub m.P x d) i
  simp only [Change.point]
  simp only [Pi.sub_apply] at this
  show _ = m.P.mulVec (x - d) i + _
  rw [this]; ring

theorem point_sub (x y : ι → ℝ) : (fun i => m.point x i - m.point y i) = m.P.mulVec fun i => x i - y i := by
  funext i
  have := congrFun (mulVec_sub m.P x y) i
  simp only [Change.point]
  simp only [Pi.sub_apply] at this
  show _ = m.P.mulVec (x - y) i
  rw [this]; ring

theorem point_add_dir (x d : ι → ℝ) : (fun i => m.point x i + m.P.mulVec d i) = m.point fun i => x i + d i := by
  funext i
  have := congrFun (mulVec_add m.P x d) i
  simp only [Change.point]
  simp only [Pi.add_apply] at this
  show _ = m.P.mulVec (x + d) i + _
  rw [this]; ring

/-- Weighted means of points. -/
theorem point_mean (a : ℝ) (x y : ι → ℝ) :
    (fun i => (1 - a) * m.point x i + a * m.point y i) = m.point fun i => (1 - a) * x i + a * y i := by
  funext i
  have h1 := congrFun (mulVec_add m.P ((1 - a) • x) (a • y)) i
  rw [mulVec_smul, mulVec_smul] at h1
  simp only [Change.point]
  simp only [Pi.add_apply, Pi.smul_apply, smul_eq_mul] at h1
  show _ = m.P.mulVec ((1 - a) • x + a • y) i + _
  rw [h1]; ring

theorem combined_point (M : Matrix κ' κ ℝ) (f : (ι → ℝ) → (κ → ℝ) × A) (y : ι → ℝ) :
    combined m M f (m.point y) = (M.mulVec (f y).1, (f y).2) := by simp only [combined, back_point]

theorem jacobian_point (M : Matrix κ' κ ℝ) (j : (ι → ℝ) → Matrix κ ι ℝ) (y : ι → ℝ) :
    jacobian m M j (m.point y) = M * j y * m.inv := by simp only [jacobian, back_point]

theorem jac_dir (M : Matrix κ' κ ℝ) (J : Matrix κ ι ℝ) (d : ι → ℝ) :
    (M * J * m.inv).mulVec (m.P.mulVec d) = M.mulVec (J.mulVec d) := by
  rw [← mulVec_mulVec, ← mulVec_mulVec, inv_dir]

/-- Relative sizes, as the Cauchy test measures them. -/
theorem SameSize.test {m : Change ι ι'} {rtol atol : ℝ} (hr : 0 ≤ rtol) (ha : 0 ≤ atol) {n : (ι → ℝ) → ℝ} {n' : (ι' → ℝ) → ℝ}
    (h : SameSize m rtol atol n n') (hn : Absolute n) (hn' : Absolute n') (y d : ι → ℝ) :
    n' (scaledDiff rtol atol (m.point y) (m.P.mulVec d)) = n (scaledDiff rtol atol y d) := by
  have key : ∀ (X : Type) (x e : X → ℝ), scaledDiff rtol atol x e = fun i => |e i / (atol + rtol * |x i|)| := by
    intro X x e
    funext i
    rw [abs_div, abs_of_nonneg (add_nonneg ha (mul_nonneg hr (abs_nonneg _)))]
    rfl
  rw [key, key, hn', hn, h]

end change

/-- The linear solves of the two problems correspond. -/
theorem solve_same (m : Change ι ι') (k : Change κ κ') {ls : Matrix κ ι ℝ → (κ → ℝ) → (ι → ℝ) × Result}
    {ls' : Matrix κ' ι' ℝ → (κ' → ℝ) → (ι' → ℝ) × Result} (hls : SolvesUnique ls) (hls' : SolvesUnique ls')
    (J : Matrix κ ι ℝ) (b : κ → ℝ) (hJ : ∃! x, J.mulVec x = b) :
    ls' (k.P * J * m.inv) (k.P.mulVec b) = (m.P.mulVec (ls J b).1, (ls J b).2) := by
  obtain ⟨h1, h2⟩ := hls J b hJ
  obtain ⟨x, hx, hu⟩ := hJ
  have huniq : ∀ z, (k.P * J * m.inv).mulVec z = k.P.mulVec b → z = m.P.mulVec x := by
    intro z hz
    rw [← mulVec_mulVec, ← mulVec_mulVec] at hz
    have := congrArg k.inv.mulVec hz
    rw [inv_dir, inv_dir] at this
    rw [← hu _ this, dir_inv]
  have hJ' : ∃! z, (k.P * J * m.inv).mulVec z = k.P.mulVec b :=
    ⟨m.P.mulVec x, by show _ = _; rw [jac_dir, hx], huniq⟩
  obtain ⟨h1', h2'⟩ := hls' _ _ hJ'
  refine Prod.ext ?_ (h2'.trans h2.symm)
  rw [huniq _ h1', ← hu _ h1]

section newton

open NewtonChord

/-- Related states of `Newton` or `Chord`. -/
structure NewtonRel (m : Change ι ι') (k : Change κ κ') (c : Cfg ι κ ℝ (Matrix κ ι ℝ)) (c' : Cfg ι' κ' ℝ (Matrix κ' ι' ℝ))
    (s : NewtonChord.State ι κ ℝ (Matrix κ ι ℝ)) (s' : NewtonChord.State ι' κ' ℝ (Matrix κ' ι' ℝ)) : Prop where
  step : s'.step = s.step
  result : s'.result = s.result
  diffsize : s'.diffsize = s.diffsize
  diffsizePrev : s'.diffsizePrev = s.diffsizePrev
  linear : s'.linearState = s.linearState.map fun j => k.P * j * m.inv
  regular : ∀ j, s.linearState = some j → ∀ b, ∃! x, j.mulVec x = b
  later : s.step ≠ 0 → s'.f = s.f.map k.P.mulVec ∧ s'.diff = m.P.mulVec s.diff
  start : s.step = 0 → (c.cauchy = true → (∀ y, (NewtonChord.terminate c y s).1 = false) ∧ s.f.isSome ∧
    ∀ y, (NewtonChord.terminate c' y s').1 = false)
  mode : s.f.isSome = c.cauchy ∧ s'.f.isSome = c.cauchy
  ok : s.step = 0 → s.result = .successful

theorem newton_follows (m : Change ι ι') (k : Change κ κ') {c : Cfg ι κ ℝ (Matrix κ ι ℝ)} {c' : Cfg ι' κ' ℝ (Matrix κ' ι' ℝ)}
    (hc : SameNewton m k.P c c') (hls : SolvesUnique c.linearSolve) (hls' : SolvesUnique c'.linearSolve)
    (hreg : ∀ y b, ∃! x, (c.jac y).mulVec x = b) (hY : SameSize m c.rtol c.atol c.normY c'.normY)
    (hcauchy : c.cauchy = true → 0 ≤ c.rtol ∧ 0 ≤ c.atol ∧ Absolute c.normY ∧ Absolute c'.normY ∧
      (∀ r, c'.normF (scaledDiff c.rtol c.atol (fun _ => 0) (k.P.mulVec r)) = c.normF (scaledDiff c.rtol c.atol (fun _ => 0) r)) ∧
      (∀ y, (NewtonChord.terminate c y (NewtonChord.init c y)).1 = false) ∧
      ∀ y, (NewtonChord.terminate c' y (NewtonChord.init c' y)).1 = false)
    (hclip : ∀ y, clipBounds c'.lower c'.upper (m.point y) = m.point (clipBounds c.lower c.upper y))
    (hbounds : (c'.lower.isSome || c'.upper.isSome) = (c.lower.isSome || c.upper.isSome))
    (f : (ι → ℝ) → (κ → ℝ) × A) :
    Follows (NewtonChord.solver c) f (NewtonChord.solver c') (combined m k.P f) m.point (NewtonRel m k c c') where
  init y := by
    refine .inr ⟨_, _, rfl, rfl, rfl, rfl, hc.inf, rfl, ?_, ?_, fun h => absurd rfl h, ?_, ?_, fun _ => rfl⟩
    · simp only [NewtonChord.init, hc.isNewton, hc.jac, jacobian_point]
      cases c.isNewton <;> rfl
    · intro j hj
      simp only [NewtonChord.init] at hj
      split_ifs at hj
      rw [← Option.some.inj hj]
      exact hreg y
    · intro _ hcc
      obtain ⟨-, -, -, -, -, h1, h2⟩ := hcauchy hcc
      have t : ∀ (X Z : Type) (d : Cfg X Z ℝ (Matrix Z X ℝ)) (y : X → ℝ) (z : X → ℝ), d.cauchy = true →
          NewtonChord.terminate d z (NewtonChord.init d y) = NewtonChord.terminate d z (NewtonChord.init d z) := by
        intro X Z d y z hd
        simp only [NewtonChord.terminate, NewtonChord.init, hd, if_true]
      refine ⟨fun z => ?_, by simp [NewtonChord.init, hcc], fun z => ?_⟩
      · rw [t _ _ _ _ _ hcc]; exact h1 z
      · rw [t _ _ _ _ _ (hc.cauchy.trans hcc)]; exact h2 z
    · simp only [NewtonChord.init, hc.cauchy]
      cases c.cauchy <;> exact ⟨rfl, rfl⟩
  step y st st' h := by
    have hsol : linSol c' (m.point y) (k.P.mulVec (f y).1) st' =
        (m.P.mulVec (linSol c y (f y).1 st).1, (linSol c y (f y).1 st).2) := by
      simp only [linSol, hc.isNewton, h.linear, hc.jac, jacobian_point]
      cases c.isNewton with
      | true => exact solve_same m k hls hls' _ _ (hreg y _)
      | false =>
        cases hl : st.linearState with
        | none => exact solve_same m k hls hls' _ _ (hreg y _)
        | some j => exact solve_same m k hls hls' _ _ (h.regular j hl _)
    have hnew : clipBounds c'.lower c'.upper (fun i => m.point y i - m.P.mulVec (linSol c y (f y).1 st).1 i) =
        m.point (clipBounds c.lower c.upper fun i => y i - (linSol c y (f y).1 st).1 i) := by
      rw [point_sub_dir, hclip]
    have hdiff : (if (c'.lower.isSome || c'.upper.isSome) = true then
          (fun i => m.point y i - m.point (clipBounds c.lower c.upper fun i => y i - (linSol c y (f y).1 st).1 i) i)
          else m.P.mulVec (linSol c y (f y).1 st).1) =
        m.P.mulVec (if (c.lower.isSome || c.upper.isSome) = true then
          (fun i => y i - (clipBounds c.lower c.upper fun i => y i - (linSol c y (f y).1 st).1 i) i)
          else (linSol c y (f y).1 st).1) := by
      rw [hbounds]
      split_ifs
      · exact point_sub m _ _
      · rfl
    simp only [NewtonChord.solver, NewtonChord.step, combined_point, hsol, hnew, hdiff, hc.rtol, hc.atol]
    refine ⟨trivial, ⟨?_, rfl, ?_, h.diffsize, h.linear, h.regular, fun _ => ⟨?_, rfl⟩, fun e => by simp at e, ?_,
      fun e => by simp at e⟩, trivial⟩
    · simp only [h.step]
    · exact hY _ _
    · simp only [hc.cauchy]
      cases c.cauchy <;> rfl
    · simp only [hc.cauchy]
      cases c.cauchy <;> exact ⟨rfl, rfl⟩
  terminate y st st' h := by
    simp only [NewtonChord.solver]
    by_cases h0 : st.step = 0
    · cases hcc : c.cauchy with
      | true =>
        obtain ⟨h1, h2, h3⟩ := h.start h0 hcc
        refine Prod.ext ((h3 _).trans (h1 _).symm) ?_
        have hr : st'.result = .successful := h.result.trans (h.ok h0)
        obtain ⟨g, hg⟩ := Option.isSome_iff_exists.1 h2
        obtain ⟨g', hg'⟩ := Option.isSome_iff_exists.1 (h.mode.2.trans hcc)
        simp only [NewtonChord.terminate, hcc, hc.cauchy, h.ok h0, hr, hg, hg']
      | false =>
        simp only [NewtonChord.terminate, hcc, hc.cauchy, h.step, h.result, h.diffsize, h.diffsizePrev, small, diverged,
          hc.resolution, hc.isfinite, hc.kappa]
        rfl
    · obtain ⟨hf, hd⟩ := h.later h0
      cases hcc : c.cauchy with
      | true =>
        obtain ⟨hr, ha, hn, hn', hF, -, -⟩ := hcauchy hcc
        obtain ⟨g, hg⟩ := Option.isSome_iff_exists.1 (h.mode.1.trans hcc)
        rw [hg] at hf
        simp only [NewtonChord.terminate, hcc, hc.cauchy, h.result, hf, hg, Option.map_some, hd, hc.rtol, hc.atol,
          cauchyTermination, hY.test hr ha hn hn', hF]
      | false =>
        simp only [NewtonChord.terminate, hcc, hc.cauchy, h.step, h.result, h.diffsize, h.diffsizePrev, small, diverged,
          hc.resolution, hc.isfinite, hc.kappa]
        rfl
  postY _ _ _ _ _ _ := rfl
  postA _ _ _ _ _ _ := rfl

end newton

/-- Fixed-point iteration. -/
theorem fixed_point_follows (m : Change ι ι') {c : FixedPointIter.Cfg ι ℝ} {c' : FixedPointIter.Cfg ι' ℝ} (hr : c'.rtol = c.rtol)
    (ha : c'.atol = c.atol) (hd : c'.damp = c.damp) (hY : SameSize m c.rtol c.atol c.norm c'.norm)
    (f : (ι → ℝ) → (ι → ℝ) × A) :
    Follows (FixedPointIter.solver c) f (FixedPointIter.solver c') (iteration m f) m.point fun s s' => s' = s where
  init y := .inr ⟨none, none, rfl, rfl, rfl⟩
  step y st st' h := by
    have e : iteration m f (m.point y) = (m.point (f y).1, (f y).2) := by simp only [iteration, back_point]
    simp only [FixedPointIter.solver, FixedPointIter.step, e, hr, ha, hd, point_mean, and_true, true_and]
    have e3 : ∀ i, (1 - c.damp) * m.point (f y).1 i + c.damp * m.point y i =
        m.point (fun i => (1 - c.damp) * (f y).1 i + c.damp * y i) i := fun i => congrFun (point_mean m _ _ _) i
    have e2 : ∀ i, m.point y i - m.point (fun i => (1 - c.damp) * (f y).1 i + c.damp * y i) i =
        m.P.mulVec (fun i => y i - ((1 - c.damp) * (f y).1 i + c.damp * y i)) i :=
      fun i => congrFun (point_sub m y fun i => (1 - c.damp) * (f y).1 i + c.damp * y i) i
    simp only [e3, e2]
    exact congrArg some (hY _ _)
  terminate y st st' h := by rw [h]; rfl
  postY _ _ _ _ _ _ := rfl
  postA _ _ _ _ _ _ := rfl

/-! ### Gauss-Newton -/

theorem conformal_squares {M : Matrix κ' κ ℝ} {a : ℝ} (h : M.transpose * M = a • (1 : Matrix κ κ ℝ)) (v : κ → ℝ) :
    ∑ j, (M.mulVec v j) ^ 2 = a * ∑ j, v j ^ 2 := by
  have e : ∀ (X : Type) [Fintype X] (u : X → ℝ), ∑ j, u j ^ 2 = u ⬝ᵥ u := by
    intro X _ u; simp only [dotProduct, sq]
  rw [e, e, dotProduct_mulVec, vecMul_mulVec, ← mulVec_transpose, transpose_mul, transpose_transpose, h, smul_mulVec,
    one_mulVec, smul_dotProduct, smul_eq_mul]

theorem least_squares_same (m : Change ι ι') {M : Matrix κ' κ ℝ} (hM : Conformal M) {ls : LinSolve ι κ} {ls' : LinSolve ι' κ'}
    (hls : Props.SolvesFullRank ls) (hls' : Props.SolvesFullRank ls') (J : Matrix κ ι ℝ) (hJ : ∀ v, J.mulVec v = 0 → v = 0)
    (b : κ → ℝ) : ls'.rect (M * J * m.inv) (M.mulVec b) = (m.P.mulVec (ls.rect J b).1, (ls.rect J b).2) := by
  obtain ⟨a, ha, hM⟩ := hM
  have hinj : ∀ u, M.mulVec u = 0 → u = 0 := by
    intro u hu
    have := conformal_squares hM u
    rw [hu] at this
    simp only [Pi.zero_apply, ne_eq, OfNat.ofNat_ne_zero, not_false_eq_true, zero_pow, Finset.sum_const_zero] at this
    have h0 : ∑ j, u j ^ 2 = 0 := (mul_eq_zero.1 this.symm).resolve_left ha.ne'
    funext j
    exact pow_eq_zero_iff (two_ne_zero) |>.1 ((Finset.sum_eq_zero_iff_of_nonneg fun i _ => sq_nonneg (u i)).1 h0 j
      (Finset.mem_univ j))
  have hfull : ∀ v, (M * J * m.inv).mulVec v = 0 → v = 0 := by
    intro v hv
    rw [← mulVec_mulVec, ← mulVec_mulVec] at hv
    have := hJ _ (hinj _ hv)
    rw [← dir_inv m v, this, mulVec_zero]
  obtain ⟨h1, h2⟩ := hls J hJ b
  obtain ⟨h1', h2'⟩ := hls' _ hfull (M.mulVec b)
  refine Prod.ext ?_ (h2'.trans h2.symm)
  have key : ∀ z, ∑ j, ((M * J * m.inv).mulVec z j - M.mulVec b j) ^ 2 = a * ∑ j, (J.mulVec (m.inv.mulVec z) j - b j) ^ 2 := by
    intro z
    rw [← conformal_squares hM]
    refine Finset.sum_congr rfl fun j _ => ?_
    have := congrFun (mulVec_sub M (J.mulVec (m.inv.mulVec z)) b) j
    rw [← mulVec_mulVec, ← mulVec_mulVec]
    rw [Pi.sub_apply] at this
    rw [← this]; rfl
  have hx : Spec.IsLeastSquares (M * J * m.inv) (M.mulVec b) (m.P.mulVec (ls.rect J b).1) := by
    intro z
    show ∑ j, ((M * J * m.inv).mulVec _ j - M.mulVec b j) ^ 2 ≤ ∑ j, ((M * J * m.inv).mulVec _ j - M.mulVec b j) ^ 2
    rw [key, key, inv_dir]
    exact mul_le_mul_of_nonneg_left (h1 _) ha.le
  have him := Props.least_squares_image _ _ _ _ h1' hx
  have := hfull _ ((mulVec_sub (M * J * m.inv) _ _).trans (sub_eq_zero.2 him))
  exact sub_eq_zero.1 this

section gn

open GaussNewton

abbrev GNState (ι κ A : Type) := GaussNewton.State ι κ A Unit ((ι → ℝ) × Result)

/-- Related states of `GaussNewton`. -/
structure GNRel (m : Change ι ι') (M : Matrix κ' κ ℝ) (s : GNState ι κ A) (s' : GNState ι' κ' A) : Prop where
  firstStep : s'.firstStep = s.firstStep
  yEval : s'.yEval = m.point s.yEval
  residual : s'.residual = M.mulVec s.residual
  aux : s'.aux = s.aux
  terminate : s'.terminate = s.terminate
  result : s'.result = s.result

theorem gauss_newton_follows (m : Change ι ι') {M : Matrix κ' κ ℝ} (hM : Conformal M) {rtol atol : ℝ}
    {nY : (ι → ℝ) → ℝ} {nF : (κ → ℝ) → ℝ} {nY' : (ι' → ℝ) → ℝ} {nF' : (κ' → ℝ) → ℝ} (hr : 0 ≤ rtol) (ha : 0 ≤ atol)
    (hY : SameSize m rtol atol nY nY') (hn : Absolute nY) (hn' : Absolute nY') (hF : SameResidualSize M rtol atol nF nF')
    {ls : LinSolve ι κ} {ls' : LinSolve ι' κ'} (hls : Props.SolvesFullRank ls) (hls' : Props.SolvesFullRank ls')
    (j : (ι → ℝ) → Matrix κ ι ℝ) (hj : ∀ y v, (j y).mulVec v = 0 → v = 0) (f : (ι → ℝ) → (κ → ℝ) × A) (aux0 : A) :
    Follows (GaussNewton.solver (gaussNewton rtol atol nY nF ls j) aux0) f
      (GaussNewton.solver (gaussNewton rtol atol nY' nF' ls' (jacobian m M j)) aux0) (combined m M f) m.point (GNRel m M) where
  init y := .inr ⟨_, _, rfl, rfl, rfl, rfl, (mulVec_zero M).symm, rfl, rfl, rfl⟩
  step y st st' h := by
    have hd := least_squares_same m hM hls hls' (j st.yEval) (hj _) (f st.yEval).1
    have hy := h.yEval
    simp only [GaussNewton.solver, GaussNewton.step, gaussNewton, learningRate, newtonDescent, newtonStep, if_true]
    simp only [hy, combined_point, jacobian_point, hd]
    refine ⟨trivial, ⟨rfl, ?_, rfl, rfl, ?_, rfl⟩, ?_⟩
    · have e : (fun i => -1 * m.P.mulVec (ls.rect (j st.yEval) (f st.yEval).1).1 i) =
          m.P.mulVec fun i => -1 * (ls.rect (j st.yEval) (f st.yEval).1).1 i :=
        (mulVec_smul m.P (-1 : ℝ) _).symm
      exact (congrArg (fun (d : ι' → ℝ) i => m.point st.yEval i + d i) e).trans (point_add_dir m _ _)
    · have e3 : ∀ i, M.mulVec (f st.yEval).1 i - M.mulVec st.residual i = M.mulVec (fun i => (f st.yEval).1 i - st.residual i) i :=
        fun i => congrFun (mulVec_sub M _ _).symm i
      simp only [cauchyTermination, point_sub, h.residual, e3, hY.test hr ha hn hn', hF _ _]
    · simp only [h.firstStep, h.aux]
  terminate y st st' h := by simp only [GaussNewton.solver, h.terminate, h.result]
  postY _ _ _ _ _ _ := rfl
  postA _ _ _ _ _ _ := rfl

end gn

end Verif.Units
