import Verif.Lemmas.Rank
import Verif.Props.BestSoFar
import Mathlib.LinearAlgebra.Matrix.ToLin
import Mathlib.Analysis.Calculus.Deriv.Pow
import Mathlib.Algebra.BigOperators.Fin

/-! Properties C34 (BFGS), C35 (DFP) and C36 (`use_inverse` does not matter). -/

namespace Verif.Props

open Verif Verif.Spec Verif.Driver Verif.SearchLoop Verif.Rank Verif.QuasiNewton

variable {ι A SS DS : Type} [Fintype ι]

/-! ### Textbook update formulas (Nocedal & Wright, (6.17), (6.19), (6.13), (6.15)) -/

/-- `(I - ρ s dᵀ) H (I - ρ d sᵀ) + ρ s sᵀ` with `ρ = 1/(dᵀs)`. -/
noncomputable def textbookTwoSided [DecidableEq ι] (H : Matrix ι ι ℝ) (d s : ι → ℝ) : Matrix ι ι ℝ :=
  (1 - (1 / d ⬝ᵥ s) • Matrix.vecMulVec s d) * H * (1 - (1 / d ⬝ᵥ s) • Matrix.vecMulVec d s) +
    (1 / d ⬝ᵥ s) • Matrix.vecMulVec s s

/-- `B - (B s sᵀ B)/(sᵀ B s) + (d dᵀ)/(dᵀ s)`. -/
noncomputable def textbookRankTwo (B : Matrix ι ι ℝ) (d s : ι → ℝ) : Matrix ι ι ℝ :=
  B - (1 / s ⬝ᵥ B.mulVec s) • (B * Matrix.vecMulVec s s * B) + (1 / d ⬝ᵥ s) • Matrix.vecMulVec d d

theorem dot_eq (x y : ι → ℝ) : treeDot x y = x ⬝ᵥ y := rfl

theorem two_sided [DecidableEq ι] (H : Matrix ι ι ℝ) (hH : ∀ i j, H i j = H j i) (g s : ι → ℝ) (hr : treeDot g s ≠ 0) :
    bfgsInv H g s (treeDot g s) = textbookTwoSided H g s := by
  have hv : ∀ x, (textbookTwoSided H g s).mulVec x = (bfgsInv H g s (treeDot g s)).mulVec x := by
    intro x
    funext i
    rw [bfgsInv_mulVec]
    unfold textbookTwoSided
    rw [Matrix.add_mulVec, ← Matrix.mulVec_mulVec, ← Matrix.mulVec_mulVec, Matrix.sub_mulVec (1 : Matrix ι ι ℝ),
      Matrix.one_mulVec, Matrix.smul_mulVec, Matrix.vecMulVec_mulVec, Matrix.smul_mulVec, Matrix.vecMulVec_mulVec,
      Matrix.sub_mulVec, Matrix.one_mulVec, Matrix.smul_mulVec, Matrix.vecMulVec_mulVec]
    have e1 : (x - (1 / g ⬝ᵥ s) • MulOpposite.op (s ⬝ᵥ x) • g) = fun i => x i - (treeDot s x / treeDot g s) * g i := by
      funext i
      simp only [Pi.sub_apply, Pi.smul_apply, smul_eq_mul, MulOpposite.smul_eq_mul_unop, MulOpposite.unop_op, dot_eq]
      ring
    rw [e1, mulVec_sub' H x fun i => treeDot s x / treeDot g s * g i, mulVec_smul']
    simp only [Pi.add_apply, Pi.sub_apply, Pi.smul_apply, smul_eq_mul, MulOpposite.smul_eq_mul_unop,
      MulOpposite.unop_op, ← dot_eq]
    rw [dot_sub, dot_smul, dot_comm (H.mulVec g) x, symm_dot H hH g x]
    field_simp
    ring
  exact (Matrix.ext_iff_mulVec.2 fun x => (hv x).symm)

theorem rank_two (B : Matrix ι ι ℝ) (hB : ∀ i j, B i j = B j i) (g s : ι → ℝ) :
    bfgsDirect B g s (treeDot g s) = textbookRankTwo B g s := by
  have hv : ∀ x, (textbookRankTwo B g s).mulVec x = (bfgsDirect B g s (treeDot g s)).mulVec x := by
    intro x
    funext i
    rw [bfgsDirect_mulVec]
    unfold textbookRankTwo
    rw [Matrix.add_mulVec, Matrix.sub_mulVec, Matrix.smul_mulVec, Matrix.smul_mulVec, ← Matrix.mulVec_mulVec,
      ← Matrix.mulVec_mulVec, Matrix.vecMulVec_mulVec, Matrix.vecMulVec_mulVec]
    have e1 : (MulOpposite.op (s ⬝ᵥ B.mulVec x) • s) = fun i => treeDot s (B.mulVec x) * s i := by
      funext i
      simp only [Pi.smul_apply, MulOpposite.smul_eq_mul_unop, MulOpposite.unop_op, dot_eq]
      ring
    rw [e1, mulVec_smul']
    simp only [Pi.add_apply, Pi.sub_apply, Pi.smul_apply, smul_eq_mul, MulOpposite.smul_eq_mul_unop,
      MulOpposite.unop_op, ← dot_eq]
    rw [dot_comm (B.mulVec s) x, symm_dot B hB s x]
    ring
  exact (Matrix.ext_iff_mulVec.2 fun x => (hv x).symm)

/-! ### The matrix in the solver state -/

/-- The Hessian approximation (`useInverse = false`) or inverse Hessian approximation (`useInverse = true`) held in a
function information. -/
def Stores (useInverse : Bool) (i : FnInfo ι Unit) (M : Matrix ι ι ℝ) : Prop :=
  ∃ f g, i = if useInverse then .evalGradHessianInv f g M else .evalGradHessian f g M

omit [Fintype ι] in
theorem stores_unique {b : Bool} {i : FnInfo ι Unit} {M N : Matrix ι ι ℝ} (h1 : Stores b i M) (h2 : Stores b i N) :
    M = N := by
  obtain ⟨f, g, h1⟩ := h1
  obtain ⟨f', g', h2⟩ := h2
  rw [h1] at h2
  cases b
  · simp only [Bool.false_eq_true, if_false, FnInfo.evalGradHessian.injEq] at h2; exact h2.2.2
  · simp only [if_true, FnInfo.evalGradHessianInv.injEq] at h2; exact h2.2.2

theorem guarded_stores (eps : ℝ) (inv direct : Matrix ι ι ℝ → (ι → ℝ) → (ι → ℝ) → ℝ → Matrix ι ι ℝ) (b : Bool)
    (y z : ι → ℝ) (i : FnInfo ι Unit) (M : Matrix ι ι ℝ) (hM : Stores b i M) (f : ℝ) (g g' : ι → ℝ)
    (hg : i.grad? = some g') (u : Unit) :
    let d := fun c => g c - g' c
    let s := fun c => z c - y c
    Stores b (guarded eps inv direct y z i f g u).1
      (if eps < treeDot d s then (if b then inv else direct) M d s (treeDot d s) else M) := by
  obtain ⟨f0, g0, rfl⟩ := hM
  cases b
  · have : g0 = g' := by simpa [FnInfo.grad?] using hg
    subst this
    exact ⟨f, g, rfl⟩
  · have : g0 = g' := by simpa [FnInfo.grad?] using hg
    subst this
    exact ⟨f, g, rfl⟩

/-- Every run with a guarded update: the matrix starts as the identity, and between consecutive steps it is updated with
the differences of the iterates and of the gradients there exactly if their inner product exceeds `eps`. -/
theorem guarded_run [DecidableEq ι] (eps : ℝ) (heps : 0 ≤ eps)
    (inv direct : Matrix ι ι ℝ → (ι → ℝ) → (ι → ℝ) → ℝ → Matrix ι ι ℝ) (b : Bool)
    (cfg : QuasiNewton.Cfg ι SS DS Unit) (hI : cfg.hess.initHessian = initIdentity b)
    (hU : cfg.hess.updateHessian = guarded eps inv direct) (hrec : RecordsPoint cfg.hess)
    (hf : ∀ y z i j s, (cfg.search.step true y z i j s).2.1 = true) (aux0 : A) (fn : (ι → ℝ) → ℝ × A) (y0 : ι → ℝ)
    (st0 : QuasiNewton.State ι A SS DS Unit) (hi : (QuasiNewton.solver cfg aux0).init fn y0 = .ok st0) :
    let Y := iterateAt (QuasiNewton.solver cfg aux0) fn aux0 y0 st0
    let St := stateAt (QuasiNewton.solver cfg aux0) fn aux0 y0 st0
    Stores b (St 1).fInfo 1 ∧
    ∀ k, ∃ M, Stores b (St (k + 1)).fInfo M ∧
      let d := fun c => cfg.grad (Y (k + 2)) c - cfg.grad (Y (k + 1)) c
      let s := fun c => Y (k + 2) c - Y (k + 1) c
      Stores b (St (k + 2)).fInfo (if eps < treeDot d s then (if b then inv else direct) M d s (treeDot d s) else M) := by
  intro Y St
  have L := qn_laws cfg aux0 fn hrec
  have h0 : Stores b st0.fInfo 1 ∧ st0.yEval = y0 ∧ st0.firstStep = true ∧
      (st0.fInfo.grad? = some fun _ => 0) := by
    simp only [QuasiNewton.solver, QuasiNewton.init] at hi
    split at hi
    · cases hi
    · cases hi
      rw [hI]
      refine ⟨⟨0, fun _ => 0, rfl⟩, rfl, rfl, ?_⟩
      cases b <;> rfl
  have hstep : ∀ y (st : QuasiNewton.State ι A SS DS Unit), (QuasiNewton.step cfg fn y st).2.1.fInfo =
      if (cfg.search.step st.firstStep y st.yEval st.fInfo (.eval (fn st.yEval).1) st.searchState).2.1 = true
        then (guarded eps inv direct y st.yEval st.fInfo (fn st.yEval).1 (cfg.grad st.yEval) st.hessianUpdateState).1
        else st.fInfo := by
    intro y st
    rw [← hU]
    simp only [QuasiNewton.step]
    split <;> rfl
  have h1 : Stores b (St 1).fInfo 1 := by
    have e : (St 1).fInfo = _ := hstep y0 st0
    rw [e, h0.2.2.1, if_pos (hf _ _ _ _ _)]
    have := guarded_stores eps inv direct b y0 st0.yEval st0.fInfo 1 h0.1 (fn st0.yEval).1 (cfg.grad st0.yEval) _
      h0.2.2.2 st0.hessianUpdateState
    simp only at this
    rw [h0.2.1] at this ⊢
    rw [if_neg] at this
    · exact this
    · have hz : treeDot (fun c => cfg.grad y0 c - 0) (fun c => y0 c - y0 c) = 0 := by
        unfold treeDot; exact Finset.sum_eq_zero fun c _ => by ring
      rw [hz]; exact not_lt.2 heps
  have key : ∀ k M, Stores b (St (k + 1)).fInfo M →
      let d := fun c => cfg.grad (Y (k + 2)) c - cfg.grad (Y (k + 1)) c
      let s := fun c => Y (k + 2) c - Y (k + 1) c
      Stores b (St (k + 2)).fInfo
        (if eps < treeDot d s then (if b then inv else direct) M d s (treeDot d s) else M) := by
    intro k M hM
    simp only
    have hst : (St (k + 2)).fInfo = _ := hstep (Y (k + 1)) (St (k + 1))
    have hfst : (St (k + 1)).firstStep = false := first_at L aux0 y0 st0 k
    have hgr : (St (k + 1)).fInfo.grad? = some (cfg.grad (Y (k + 1))) := (stored L hf aux0 y0 st0 hi k).1.2
    rw [hst]
    rcases accepted_or_rejected L aux0 y0 st0 (k + 1) with ⟨ha, hy⟩ | ⟨ha, hy⟩
    · have ha' : (cfg.search.step (St (k + 1)).firstStep (Y (k + 1)) (St (k + 1)).yEval (St (k + 1)).fInfo
        (.eval (fn (St (k + 1)).yEval).1) (St (k + 1)).searchState).2.1 = true := ha
      have hy' : Y (k + 2) = (St (k + 1)).yEval := hy
      rw [if_pos ha', hy']
      exact guarded_stores eps inv direct b _ _ _ M hM _ _ _ hgr _
    · have ha' : ¬ (cfg.search.step (St (k + 1)).firstStep (Y (k + 1)) (St (k + 1)).yEval (St (k + 1)).fInfo
        (.eval (fn (St (k + 1)).yEval).1) (St (k + 1)).searchState).2.1 = true := by
        intro h
        have : true = false := h.symm.trans ha
        cases this
      have hy' : Y (k + 2) = Y (k + 1) := hy
      have hz : treeDot (fun c => cfg.grad (Y (k + 1)) c - cfg.grad (Y (k + 1)) c)
          (fun c => Y (k + 1) c - Y (k + 1) c) = 0 := by
        unfold treeDot; exact Finset.sum_eq_zero fun c _ => by ring
      rw [if_neg ha', hy', hz, if_neg (not_lt.2 heps)]
      exact hM
  refine ⟨h1, fun k => ?_⟩
  induction k with
  | zero => exact ⟨1, h1, key 0 1 h1⟩
  | succ k ih =>
    obtain ⟨M, _, h⟩ := ih
    exact ⟨_, h, key (k + 1) _ h⟩

/-- A property of matrices that the identity has and that updates preserve holds after every step. -/
theorem guarded_invariant [DecidableEq ι] (eps : ℝ) (heps : 0 ≤ eps)
    (inv direct : Matrix ι ι ℝ → (ι → ℝ) → (ι → ℝ) → ℝ → Matrix ι ι ℝ) (b : Bool)
    (cfg : QuasiNewton.Cfg ι SS DS Unit) (hI : cfg.hess.initHessian = initIdentity b)
    (hU : cfg.hess.updateHessian = guarded eps inv direct) (hrec : RecordsPoint cfg.hess)
    (hspd : ∀ M d s, SPD M → 0 < treeDot d s → SPD ((if b then inv else direct) M d s (treeDot d s)))
    (hf : ∀ y z i j s, (cfg.search.step true y z i j s).2.1 = true) (aux0 : A) (fn : (ι → ℝ) → ℝ × A) (y0 : ι → ℝ)
    (st0 : QuasiNewton.State ι A SS DS Unit) (hi : (QuasiNewton.solver cfg aux0).init fn y0 = .ok st0) (k : Nat) :
    ∃ M, Stores b (stateAt (QuasiNewton.solver cfg aux0) fn aux0 y0 st0 (k + 1)).fInfo M ∧ SPD M := by
  obtain ⟨h1, hs⟩ := guarded_run eps heps inv direct b cfg hI hU hrec hf aux0 fn y0 st0 hi
  induction k with
  | zero => exact ⟨1, h1, spd_one⟩
  | succ k ih =>
    obtain ⟨M, hM, hp⟩ := ih
    obtain ⟨N, hN, h⟩ := hs k
    cases stores_unique hM hN
    refine ⟨_, h, ?_⟩
    split_ifs with hc
    · have := hspd M _ _ hp (lt_of_le_of_lt heps hc)
      simp only [*, if_true] at this ⊢
      exact this
    · have := hspd M _ _ hp (lt_of_le_of_lt heps hc)
      simpa [*] using this
    · exact hp

theorem nonzero_of_dot {x y : ι → ℝ} (h : 0 < treeDot x y) : ∃ i, y i ≠ 0 := by
  by_contra hn
  simp only [not_exists, not_not] at hn
  have : treeDot x y = 0 := by unfold treeDot; exact Finset.sum_eq_zero fun i _ => by rw [hn i, mul_zero]
  linarith

/-! ### C34 and C35 -/

/-- **C34.** One BFGS update with `use_inverse=True`, between `y` (gradient `g`) and `z` (gradient `g'`).  If the curvature
`(g'-g)·(z-y)` exceeds the guard, the new inverse Hessian approximation is the textbook one, is again symmetric positive
definite and satisfies the secant equation; otherwise it is unchanged.  Value and gradient become those at `z`. -/
theorem C34_update_inverse [DecidableEq ι] (eps : ℝ) (heps : 0 ≤ eps) (b : Bool) (y z g g' : ι → ℝ) (f f' : ℝ)
    (H : Matrix ι ι ℝ) (hH : SPD H) :
    let d := fun i => g' i - g i
    let s := fun i => z i - y i
    ∃ H', ((bfgs eps b).updateHessian y z (.evalGradHessianInv f g H) f' g' ()).1 = .evalGradHessianInv f' g' H' ∧
      SPD H' ∧ (eps < ∑ i, d i * s i → H' = textbookTwoSided H d s ∧ H'.mulVec d = s) ∧
      (¬ eps < ∑ i, d i * s i → H' = H) := by
  intro d s
  refine ⟨if eps < treeDot d s then bfgsInv H d s (treeDot d s) else H, rfl, ?_, ?_, ?_⟩
  · split_ifs with h
    · exact bfgsInv_spd H hH d s (lt_of_le_of_lt heps h)
    · exact hH
  · intro h
    have h' : eps < treeDot d s := h
    rw [if_pos h']
    exact ⟨two_sided H hH.1 d s (lt_of_le_of_lt heps h').ne', bfgsInv_secant H d s (lt_of_le_of_lt heps h').ne'⟩
  · intro h
    exact if_neg h

/-- **C34.** One BFGS update with `use_inverse=False`. -/
theorem C34_update_direct [DecidableEq ι] (eps : ℝ) (heps : 0 ≤ eps) (b : Bool) (y z g g' : ι → ℝ) (f f' : ℝ)
    (B : Matrix ι ι ℝ) (hB : SPD B) :
    let d := fun i => g' i - g i
    let s := fun i => z i - y i
    ∃ B', ((bfgs eps b).updateHessian y z (.evalGradHessian f g B) f' g' ()).1 = .evalGradHessian f' g' B' ∧
      SPD B' ∧ (eps < ∑ i, d i * s i → B' = textbookRankTwo B d s ∧ B'.mulVec s = d) ∧
      (¬ eps < ∑ i, d i * s i → B' = B) := by
  intro d s
  refine ⟨if eps < treeDot d s then bfgsDirect B d s (treeDot d s) else B, rfl, ?_, ?_, ?_⟩
  · split_ifs with h
    · exact bfgsDirect_spd B hB d s (lt_of_le_of_lt heps h)
    · exact hB
  · intro h
    have h' : 0 < treeDot d s := lt_of_le_of_lt heps h
    rw [if_pos (show eps < treeDot d s from h)]
    exact ⟨rank_two B hB.1 d s, bfgsDirect_secant B d s h'.ne' (((spd_iff B).1 hB).2 s (nonzero_of_dot h')).ne'⟩
  · intro h
    exact if_neg h

/-- **C35.** One DFP update with `use_inverse=True`. -/
theorem C35_update_inverse [DecidableEq ι] (eps : ℝ) (heps : 0 ≤ eps) (b : Bool) (y z g g' : ι → ℝ) (f f' : ℝ)
    (H : Matrix ι ι ℝ) (hH : SPD H) :
    let d := fun i => g' i - g i
    let s := fun i => z i - y i
    ∃ H', ((dfp eps b).updateHessian y z (.evalGradHessianInv f g H) f' g' ()).1 = .evalGradHessianInv f' g' H' ∧
      SPD H' ∧ (eps < ∑ i, d i * s i → H' = textbookRankTwo H s d ∧ H'.mulVec d = s) ∧
      (¬ eps < ∑ i, d i * s i → H' = H) := by
  intro d s
  have e : dfpInv H d s (treeDot d s) = bfgsDirect H s d (treeDot s d) := by rw [dot_comm s d]; rfl
  refine ⟨if eps < treeDot d s then bfgsDirect H s d (treeDot s d) else H, ?_, ?_, ?_, ?_⟩
  · rw [← e]; rfl
  · split_ifs with h
    · exact bfgsDirect_spd H hH s d (by rw [dot_comm]; exact lt_of_le_of_lt heps h)
    · exact hH
  · intro h
    have h' : 0 < treeDot s d := by rw [dot_comm]; exact lt_of_le_of_lt heps h
    rw [if_pos (show eps < treeDot d s from h)]
    exact ⟨rank_two H hH.1 s d, bfgsDirect_secant H s d h'.ne' (((spd_iff H).1 hH).2 d (nonzero_of_dot h')).ne'⟩
  · intro h
    exact if_neg h

/-- **C35.** One DFP update with `use_inverse=False`. -/
theorem C35_update_direct [DecidableEq ι] (eps : ℝ) (heps : 0 ≤ eps) (b : Bool) (y z g g' : ι → ℝ) (f f' : ℝ)
    (B : Matrix ι ι ℝ) (hB : SPD B) :
    let d := fun i => g' i - g i
    let s := fun i => z i - y i
    ∃ B', ((dfp eps b).updateHessian y z (.evalGradHessian f g B) f' g' ()).1 = .evalGradHessian f' g' B' ∧
      SPD B' ∧ (eps < ∑ i, d i * s i → B' = textbookTwoSided B s d ∧ B'.mulVec s = d) ∧
      (¬ eps < ∑ i, d i * s i → B' = B) := by
  intro d s
  have e : dfpDirect B d s (treeDot d s) = bfgsInv B s d (treeDot s d) := by rw [dot_comm s d]; rfl
  refine ⟨if eps < treeDot d s then bfgsInv B s d (treeDot s d) else B, ?_, ?_, ?_, ?_⟩
  · rw [← e]; rfl
  · split_ifs with h
    · exact bfgsInv_spd B hB s d (by rw [dot_comm]; exact lt_of_le_of_lt heps h)
    · exact hB
  · intro h
    have h' : 0 < treeDot s d := by rw [dot_comm]; exact lt_of_le_of_lt heps h
    rw [if_pos (show eps < treeDot d s from h)]
    exact ⟨two_sided B hB.1 s d h'.ne', bfgsInv_secant B s d h'.ne'⟩
  · intro h
    exact if_neg h

theorem bfgs_spd (b : Bool) (M : Matrix ι ι ℝ) (d s : ι → ℝ) (hM : SPD M) (h : 0 < treeDot d s) :
    SPD ((if b then bfgsInv else bfgsDirect) M d s (treeDot d s)) := by
  cases b
  · exact bfgsDirect_spd M hM d s h
  · exact bfgsInv_spd M hM d s h

theorem dfp_spd (b : Bool) (M : Matrix ι ι ℝ) (d s : ι → ℝ) (hM : SPD M) (h : 0 < treeDot d s) :
    SPD ((if b then dfpInv else dfpDirect) M d s (treeDot d s)) := by
  cases b
  · have e : dfpDirect M d s (treeDot d s) = bfgsInv M s d (treeDot s d) := by rw [dot_comm s d]; rfl
    show SPD (dfpDirect M d s (treeDot d s))
    rw [e]; exact bfgsInv_spd M hM s d (by rwa [dot_comm])
  · have e : dfpInv M d s (treeDot d s) = bfgsDirect M s d (treeDot s d) := by rw [dot_comm s d]; rfl
    show SPD (dfpInv M d s (treeDot d s))
    rw [e]; exact bfgsDirect_spd M hM s d (by rwa [dot_comm])

/-- **C34.** Every run of a quasi-Newton solver with the BFGS update - any objective, gradient oracle, search that accepts
the first step (all built-in ones do, `searches_accept_first`), descent.  The stored matrix is the identity after the
first step.  Later, with `s` and `d` the change of the iterate and of its gradient in a step: if `d·s` exceeds the guard
the matrix becomes the textbook BFGS update of the previous one and maps `d` to `s` (`s` to `d` if it approximates the
Hessian itself); otherwise - in particular when the step was rejected - it does not change.  It is symmetric positive
definite at all times. -/
theorem C34_run [DecidableEq ι] (eps : ℝ) (heps : 0 ≤ eps) (b : Bool)
    (cfg : QuasiNewton.Cfg ι SS DS Unit) (hcfg : cfg.hess = bfgs eps b)
    (hf : ∀ y z i j s, (cfg.search.step true y z i j s).2.1 = true) (aux0 : A) (fn : (ι → ℝ) → ℝ × A) (y0 : ι → ℝ)
    (st0 : QuasiNewton.State ι A SS DS Unit) (hi : (QuasiNewton.solver cfg aux0).init fn y0 = .ok st0) :
    let Y := iterateAt (QuasiNewton.solver cfg aux0) fn aux0 y0 st0
    let St := stateAt (QuasiNewton.solver cfg aux0) fn aux0 y0 st0
    Stores b (St 1).fInfo 1 ∧
    ∀ k, ∃ M M', Stores b (St (k + 1)).fInfo M ∧ Stores b (St (k + 2)).fInfo M' ∧ SPD M ∧ SPD M' ∧
      let d := fun c => cfg.grad (Y (k + 2)) c - cfg.grad (Y (k + 1)) c
      let s := fun c => Y (k + 2) c - Y (k + 1) c
      (eps < ∑ c, d c * s c →
        M' = (if b then textbookTwoSided M d s else textbookRankTwo M d s) ∧
        (if b then M'.mulVec d = s else M'.mulVec s = d)) ∧
      (¬ eps < ∑ c, d c * s c → M' = M) := by
  intro Y St
  have hrec : RecordsPoint cfg.hess := by rw [hcfg]; exact bfgs_records eps b
  obtain ⟨h1, hs⟩ := guarded_run eps heps bfgsInv bfgsDirect b cfg (by rw [hcfg]; rfl) (by rw [hcfg]; rfl) hrec hf aux0
    fn y0 st0 hi
  have hp := guarded_invariant eps heps bfgsInv bfgsDirect b cfg (by rw [hcfg]; rfl) (by rw [hcfg]; rfl) hrec
    (bfgs_spd b) hf aux0 fn y0 st0 hi
  refine ⟨h1, fun k => ?_⟩
  obtain ⟨M, hM, hM'⟩ := hs k
  obtain ⟨N, hN, hp1⟩ := hp k
  obtain ⟨N', hN', hp2⟩ := hp (k + 1)
  cases stores_unique hM hN
  cases stores_unique hM' hN'
  refine ⟨M, _, hM, hM', hp1, hp2, ?_, fun h => if_neg h⟩
  intro h
  have h' : 0 < treeDot (fun c => cfg.grad (Y (k + 2)) c - cfg.grad (Y (k + 1)) c) (fun c => Y (k + 2) c - Y (k + 1) c) :=
    lt_of_le_of_lt heps h
  rw [if_pos (show eps < treeDot _ _ from h)]
  cases b
  · exact ⟨rank_two M hp1.1 _ _, bfgsDirect_secant M _ _ h'.ne' (((spd_iff M).1 hp1).2 _ (nonzero_of_dot h')).ne'⟩
  · exact ⟨two_sided M hp1.1 _ _ h'.ne', bfgsInv_secant M _ _ h'.ne'⟩

/-- **C35.** The same for the DFP update. -/
theorem C35_run [DecidableEq ι] (eps : ℝ) (heps : 0 ≤ eps) (b : Bool)
    (cfg : QuasiNewton.Cfg ι SS DS Unit) (hcfg : cfg.hess = dfp eps b)
    (hf : ∀ y z i j s, (cfg.search.step true y z i j s).2.1 = true) (aux0 : A) (fn : (ι → ℝ) → ℝ × A) (y0 : ι → ℝ)
    (st0 : QuasiNewton.State ι A SS DS Unit) (hi : (QuasiNewton.solver cfg aux0).init fn y0 = .ok st0) :
    let Y := iterateAt (QuasiNewton.solver cfg aux0) fn aux0 y0 st0
    let St := stateAt (QuasiNewton.solver cfg aux0) fn aux0 y0 st0
    Stores b (St 1).fInfo 1 ∧
    ∀ k, ∃ M M', Stores b (St (k + 1)).fInfo M ∧ Stores b (St (k + 2)).fInfo M' ∧ SPD M ∧ SPD M' ∧
      let d := fun c => cfg.grad (Y (k + 2)) c - cfg.grad (Y (k + 1)) c
      let s := fun c => Y (k + 2) c - Y (k + 1) c
      (eps < ∑ c, d c * s c →
        M' = (if b then textbookRankTwo M s d else textbookTwoSided M s d) ∧
        (if b then M'.mulVec d = s else M'.mulVec s = d)) ∧
      (¬ eps < ∑ c, d c * s c → M' = M) := by
  intro Y St
  have hrec : RecordsPoint cfg.hess := by rw [hcfg]; exact dfp_records eps b
  obtain ⟨h1, hs⟩ := guarded_run eps heps dfpInv dfpDirect b cfg (by rw [hcfg]; rfl) (by rw [hcfg]; rfl) hrec hf aux0
    fn y0 st0 hi
  have hp := guarded_invariant eps heps dfpInv dfpDirect b cfg (by rw [hcfg]; rfl) (by rw [hcfg]; rfl) hrec
    (dfp_spd b) hf aux0 fn y0 st0 hi
  refine ⟨h1, fun k => ?_⟩
  obtain ⟨M, hM, hM'⟩ := hs k
  obtain ⟨N, hN, hp1⟩ := hp k
  obtain ⟨N', hN', hp2⟩ := hp (k + 1)
  cases stores_unique hM hN
  cases stores_unique hM' hN'
  refine ⟨M, _, hM, hM', hp1, hp2, ?_, fun h => if_neg h⟩
  intro h
  set d := fun c => cfg.grad (Y (k + 2)) c - cfg.grad (Y (k + 1)) c
  set s := fun c => Y (k + 2) c - Y (k + 1) c
  have h' : 0 < treeDot s d := by rw [dot_comm]; exact lt_of_le_of_lt heps h
  rw [if_pos (show eps < treeDot d s from h)]
  cases b
  · have e : dfpDirect M d s (treeDot d s) = bfgsInv M s d (treeDot s d) := by rw [dot_comm s d]; rfl
    simp only [Bool.false_eq_true, if_false]
    rw [e]
    exact ⟨two_sided M hp1.1 _ _ h'.ne', bfgsInv_secant M _ _ h'.ne'⟩
  · have e : dfpInv M d s (treeDot d s) = bfgsDirect M s d (treeDot s d) := by rw [dot_comm s d]; rfl
    simp only [if_true]
    rw [e]
    exact ⟨rank_two M hp1.1 _ _, bfgsDirect_secant M _ _ h'.ne' (((spd_iff M).1 hp1).2 _ (nonzero_of_dot h')).ne'⟩

/-! ### Search directions -/

/-- The linear solver used by `NewtonDescent` solves symmetric positive definite systems exactly (assumption about
lineax's Cholesky solver; only used where a theorem says so). -/
def SolvesSPD (ls : LinSolve ι Unit) : Prop :=
  ∀ B g, SPD B → (ls.square B g).2 = .successful ∧ B.mulVec (ls.square B g).1 = g

theorem newton_state (ls : LinSolve ι Unit) (HS : Type) (cfg : QuasiNewton.Cfg ι SS ((ι → ℝ) × Result) HS)
    (hd : cfg.descent = newtonDescent ls none) (hrec : RecordsPoint cfg.hess)
    (hf : ∀ y z i j s, (cfg.search.step true y z i j s).2.1 = true) (aux0 : A) (fn : (ι → ℝ) → ℝ × A) (y0 : ι → ℝ)
    (st0 : QuasiNewton.State ι A SS ((ι → ℝ) × Result) HS)
    (hi : (QuasiNewton.solver cfg aux0).init fn y0 = .ok st0) (k : Nat) :
    (stateAt (QuasiNewton.solver cfg aux0) fn aux0 y0 st0 (k + 1)).descentState =
      newtonStep ls (stateAt (QuasiNewton.solver cfg aux0) fn aux0 y0 st0 (k + 1)).fInfo := by
  have L := qn_laws cfg aux0 fn hrec
  have hacc : ∀ y st, ((qnView fn).ask cfg.search y st).2.1 = true →
      ((QuasiNewton.solver cfg aux0).step fn y st).2.1.descentState =
        newtonStep ls ((QuasiNewton.solver cfg aux0).step fn y st).2.1.fInfo := by
    intro y st ha
    have := (L.accept y st ha).2.2.2
    rw [hd] at this
    exact this
  induction k with
  | zero =>
    refine hacc y0 st0 ?_
    rw [View.ask, (L.init y0 st0 hi).1]
    exact hf _ _ _ _ _
  | succ k ih =>
    cases ha : ((qnView fn).ask cfg.search (iterateAt (QuasiNewton.solver cfg aux0) fn aux0 y0 st0 (k + 1))
        (stateAt (QuasiNewton.solver cfg aux0) fn aux0 y0 st0 (k + 1))).2.1 with
    | true => exact hacc _ _ ha
    | false =>
      have h := L.reject _ _ ha
      have h1 : (stateAt (QuasiNewton.solver cfg aux0) fn aux0 y0 st0 (k + 1 + 1)).descentState =
        (stateAt (QuasiNewton.solver cfg aux0) fn aux0 y0 st0 (k + 1)).descentState := h.2.2.2.1
      have h2 : (stateAt (QuasiNewton.solver cfg aux0) fn aux0 y0 st0 (k + 1 + 1)).fInfo =
        (stateAt (QuasiNewton.solver cfg aux0) fn aux0 y0 st0 (k + 1)).fInfo := h.2.1
      rw [h1, h2]; exact ih

theorem newton_descends (ls : LinSolve ι Unit) (b : Bool) (hls : b = false → SolvesSPD ls) (i : FnInfo ι Unit) (M : Matrix ι ι ℝ)
    (hM : Stores b i M) (hp : SPD M) (g : ι → ℝ) (hg : i.grad? = some g) (hne : ∃ c, g c ≠ 0) :
    0 < treeDot g (newtonStep ls i).1 ∧ (newtonStep ls i).2 = .successful ∧
    (if b then (newtonStep ls i).1 = M.mulVec g else M.mulVec (newtonStep ls i).1 = g) := by
  obtain ⟨f0, g0, rfl⟩ := hM
  cases b
  · have : g0 = g := by simpa [FnInfo.grad?] using hg
    subst this
    obtain ⟨h1, h2⟩ := hls rfl M g0 hp
    refine ⟨?_, h1, h2⟩
    show 0 < treeDot g0 (ls.square M g0).1
    set x := (ls.square M g0).1
    have hx : ∃ c, x c ≠ 0 := by
      by_contra hn
      simp only [not_exists, not_not] at hn
      obtain ⟨c, hc⟩ := hne
      apply hc
      rw [← h2, mulVec_apply]
      unfold treeDot
      exact Finset.sum_eq_zero fun j _ => by rw [hn j, mul_zero]
    have := ((spd_iff M).1 hp).2 x hx
    rw [h2] at this
    rw [dot_comm]; exact this
  · have : g0 = g := by simpa [FnInfo.grad?] using hg
    subst this
    exact ⟨((spd_iff M).1 hp).2 g0 hne, rfl, rfl⟩

theorem quasi_newton_descent [DecidableEq ι] (eps : ℝ) (heps : 0 ≤ eps) (b : Bool)
    (inv direct : Matrix ι ι ℝ → (ι → ℝ) → (ι → ℝ) → ℝ → Matrix ι ι ℝ)
    (ls : LinSolve ι Unit) (hls : SolvesSPD ls)
    (cfg : QuasiNewton.Cfg ι SS ((ι → ℝ) × Result) Unit) (hI : cfg.hess.initHessian = initIdentity b)
    (hU : cfg.hess.updateHessian = guarded eps inv direct) (hrec : RecordsPoint cfg.hess)
    (hspd : ∀ M d s, SPD M → 0 < treeDot d s → SPD ((if b then inv else direct) M d s (treeDot d s)))
    (hd : cfg.descent = newtonDescent ls none)
    (hf : ∀ y z i j s, (cfg.search.step true y z i j s).2.1 = true) (aux0 : A) (fn : (ι → ℝ) → ℝ × A) (y0 : ι → ℝ)
    (st0 : QuasiNewton.State ι A SS ((ι → ℝ) × Result) Unit)
    (hi : (QuasiNewton.solver cfg aux0).init fn y0 = .ok st0) (k : Nat) :
    let Y := iterateAt (QuasiNewton.solver cfg aux0) fn aux0 y0 st0
    let St := stateAt (QuasiNewton.solver cfg aux0) fn aux0 y0 st0
    (∃ c, cfg.grad (Y (k + 1)) c ≠ 0) →
    ∃ p M, SPD M ∧ Stores b (St (k + 1)).fInfo M ∧
      (if b then p = (fun c => -M.mulVec (cfg.grad (Y (k + 1))) c)
        else M.mulVec p = fun c => -cfg.grad (Y (k + 1)) c) ∧
      (∀ t, cfg.descent.step t (St (k + 1)).descentState = (fun c => t * p c, .successful)) ∧
      treeDot (cfg.grad (Y (k + 1))) p < 0 := by
  intro Y St hne
  have L := qn_laws cfg aux0 fn hrec
  obtain ⟨M, hM, hp⟩ := guarded_invariant eps heps inv direct b cfg hI hU hrec hspd hf aux0 fn y0 st0 hi k
  have hds : (St (k + 1)).descentState = newtonStep ls (St (k + 1)).fInfo :=
    newton_state ls Unit cfg hd hrec hf aux0 fn y0 st0 hi k
  have hgr : (St (k + 1)).fInfo.grad? = some (cfg.grad (Y (k + 1))) := (stored L hf aux0 y0 st0 hi k).1.2
  obtain ⟨h1, h2, h3⟩ := newton_descends ls b (fun _ => hls) _ M hM hp _ hgr hne
  rw [← hds] at h1 h2 h3
  set n := (St (k + 1)).descentState
  have hneg : treeDot (cfg.grad (Y (k + 1))) (fun c => -n.1 c) = -treeDot (cfg.grad (Y (k + 1))) n.1 := by
    have := dot_smul (-1) (cfg.grad (Y (k + 1))) n.1
    simpa using this
  refine ⟨fun c => -n.1 c, M, hp, hM, ?_, ?_, by rw [hneg]; linarith⟩
  · cases b
    · have hm := mulVec_smul' M (-1) n.1
      have h3' : M.mulVec n.1 = cfg.grad (Y (k + 1)) := h3
      rw [h3'] at hm
      simpa using hm
    · have h3' : n.1 = M.mulVec (cfg.grad (Y (k + 1))) := h3
      show (fun c => -n.1 c) = fun c => -M.mulVec (cfg.grad (Y (k + 1))) c
      rw [h3']
  · intro t
    rw [hd]
    show ((fun c => -t * n.1 c), n.2) = _
    rw [h2]
    congr 1
    funext c; ring

/-- **C34.** So in every run of `BFGS` whose linear solves are exact, the search direction at an iterate with non-zero
gradient is minus (the inverse of) a symmetric positive definite matrix times the gradient - a descent direction. -/
theorem C34_descent_direction [DecidableEq ι] (eps : ℝ) (heps : 0 ≤ eps) (b : Bool) (ls : LinSolve ι Unit)
    (hls : SolvesSPD ls) (cfg : QuasiNewton.Cfg ι SS ((ι → ℝ) × Result) Unit) (hcfg : cfg.hess = bfgs eps b)
    (hd : cfg.descent = newtonDescent ls none)
    (hf : ∀ y z i j s, (cfg.search.step true y z i j s).2.1 = true) (aux0 : A) (fn : (ι → ℝ) → ℝ × A) (y0 : ι → ℝ)
    (st0 : QuasiNewton.State ι A SS ((ι → ℝ) × Result) Unit)
    (hi : (QuasiNewton.solver cfg aux0).init fn y0 = .ok st0) (k : Nat) :
    let Y := iterateAt (QuasiNewton.solver cfg aux0) fn aux0 y0 st0
    let St := stateAt (QuasiNewton.solver cfg aux0) fn aux0 y0 st0
    (∃ c, cfg.grad (Y (k + 1)) c ≠ 0) →
    ∃ p M, SPD M ∧ Stores b (St (k + 1)).fInfo M ∧
      (if b then p = (fun c => -M.mulVec (cfg.grad (Y (k + 1))) c)
        else M.mulVec p = fun c => -cfg.grad (Y (k + 1)) c) ∧
      (∀ t, cfg.descent.step t (St (k + 1)).descentState = (fun c => t * p c, .successful)) ∧
      ∑ c, cfg.grad (Y (k + 1)) c * p c < 0 :=
  quasi_newton_descent eps heps b bfgsInv bfgsDirect ls hls cfg (by rw [hcfg]; rfl) (by rw [hcfg]; rfl)
    (by rw [hcfg]; exact bfgs_records eps b) (bfgs_spd b) hd hf aux0 fn y0 st0 hi k

/-- **C35.** The same for `DFP`. -/
theorem C35_descent_direction [DecidableEq ι] (eps : ℝ) (heps : 0 ≤ eps) (b : Bool) (ls : LinSolve ι Unit)
    (hls : SolvesSPD ls) (cfg : QuasiNewton.Cfg ι SS ((ι → ℝ) × Result) Unit) (hcfg : cfg.hess = dfp eps b)
    (hd : cfg.descent = newtonDescent ls none)
    (hf : ∀ y z i j s, (cfg.search.step true y z i j s).2.1 = true) (aux0 : A) (fn : (ι → ℝ) → ℝ × A) (y0 : ι → ℝ)
    (st0 : QuasiNewton.State ι A SS ((ι → ℝ) × Result) Unit)
    (hi : (QuasiNewton.solver cfg aux0).init fn y0 = .ok st0) (k : Nat) :
    let Y := iterateAt (QuasiNewton.solver cfg aux0) fn aux0 y0 st0
    let St := stateAt (QuasiNewton.solver cfg aux0) fn aux0 y0 st0
    (∃ c, cfg.grad (Y (k + 1)) c ≠ 0) →
    ∃ p M, SPD M ∧ Stores b (St (k + 1)).fInfo M ∧
      (if b then p = (fun c => -M.mulVec (cfg.grad (Y (k + 1))) c)
        else M.mulVec p = fun c => -cfg.grad (Y (k + 1)) c) ∧
      (∀ t, cfg.descent.step t (St (k + 1)).descentState = (fun c => t * p c, .successful)) ∧
      ∑ c, cfg.grad (Y (k + 1)) c * p c < 0 :=
  quasi_newton_descent eps heps b dfpInv dfpDirect ls hls cfg (by rw [hcfg]; rfl) (by rw [hcfg]; rfl)
    (by rw [hcfg]; exact dfp_records eps b) (dfp_spd b) hd hf aux0 fn y0 st0 hi k

/-- **C34** (progress).  `BFGS` with its default backtracking search, exact linear solves and an objective that is
differentiable with the gradient the solver sees: from an iterate with non-zero gradient reached by an accepted step
(the search is then at its initial step size), after finitely many rejections a step is accepted, and it strictly
decreases the objective. -/
theorem C34_progress [DecidableEq ι] (eps : ℝ) (heps : 0 ≤ eps) (b : Bool) (ls : LinSolve ι Unit)
    (hls : SolvesSPD ls) (d s i : ℝ) (a : Armijo.Cfg ℝ) (ha : Armijo.new d s i = .ok a)
    (cfg : QuasiNewton.Cfg ι ℝ ((ι → ℝ) × Result) Unit) (hcfg : cfg.hess = bfgs eps b)
    (hd : cfg.descent = newtonDescent ls none) (hs : cfg.search = Armijo.search a) (aux0 : A)
    (fn : (ι → ℝ) → ℝ × A)
    (hder : ∀ y p : ι → ℝ, HasDerivAt (fun t : ℝ => (fn fun c => y c + t * p c).1) (∑ c, cfg.grad y c * p c) 0) (y0 : ι → ℝ)
    (st0 : QuasiNewton.State ι A ℝ ((ι → ℝ) × Result) Unit)
    (hi : (QuasiNewton.solver cfg aux0).init fn y0 = .ok st0) (k : Nat) :
    let Y := iterateAt (QuasiNewton.solver cfg aux0) fn aux0 y0 st0
    let St := stateAt (QuasiNewton.solver cfg aux0) fn aux0 y0 st0
    (∃ c, cfg.grad (Y (k + 1)) c ≠ 0) → (St (k + 1)).searchState = i →
    ∃ j, (∀ m, m ≤ j → Y (k + 1 + m) = Y (k + 1)) ∧ (fn (Y (k + 1 + j + 1))).1 < (fn (Y (k + 1))).1 ∧
      (St (k + 1 + j + 1)).searchState = i := by
  intro Y St hne hfresh
  have hrec : RecordsPoint cfg.hess := by rw [hcfg]; exact bfgs_records eps b
  obtain ⟨p, M, hp, hM, _, hstep, hneg⟩ := C34_descent_direction eps heps b ls hls cfg hcfg hd
    (by rw [hs]; exact armijo_first a) aux0 fn y0 st0 hi k hne
  obtain ⟨_, hd0, _, hs0, _, hi0⟩ := armijo_new d s i a ha
  obtain ⟨j, h1, h2, h3, h4⟩ := C28_accepts_quasi_newton d s i a ha cfg hs hrec aux0 fn y0 st0 hi k p hfresh
    (fun t => by rw [hstep]) hneg (hder _ p)
  refine ⟨j, fun m hm => (h1 m hm).1, lt_of_le_of_lt h4 ?_, h3⟩
  have hneg' : treeDot (cfg.grad (Y (k + 1))) p < 0 := hneg
  have : s * (i * d ^ j) * treeDot (cfg.grad (Y (k + 1))) p < 0 :=
    mul_neg_of_pos_of_neg (by positivity) hneg'
  linarith

/-! ### C36 -/

/-- A search that looks only at values and gradients, not at the Hessian approximation: it behaves the same whichever of
the two forms it is given. -/
def HessianAgnostic (srch : Search ι Unit SS) : Prop :=
  ∀ f g B H, srch.accepts (.evalGradHessian f g B) = srch.accepts (.evalGradHessianInv f g H) ∧
    ∀ first y z j s, srch.step first y z (.evalGradHessian f g B) j s = srch.step first y z (.evalGradHessianInv f g H) j s

/-- `BacktrackingArmijo`, `LinearTrustRegion` and `LearningRate` are such searches. -/
theorem agnostic_searches (a : Armijo.Cfg ℝ) (c : TrustRegion.Cfg ℝ) (rate : ℝ) :
    HessianAgnostic (ι := ι) (Armijo.search a) ∧ HessianAgnostic (ι := ι) (TrustRegion.linear c) ∧
      HessianAgnostic (ι := ι) (learningRate rate) :=
  ⟨fun _ _ _ _ => ⟨rfl, fun _ _ _ _ _ => rfl⟩, fun _ _ _ _ => ⟨rfl, fun _ _ _ _ _ => rfl⟩,
    fun _ _ _ _ => ⟨rfl, fun _ _ _ _ _ => rfl⟩⟩

/-- The two states describe the same situation: all fields agree, except that one stores a matrix `B` and the other its
inverse `H`. -/
def SameUpToInverse [DecidableEq ι] (stI stD : QuasiNewton.State ι A SS ((ι → ℝ) × Result) Unit) : Prop :=
  stI.firstStep = stD.firstStep ∧ stI.yEval = stD.yEval ∧ stI.searchState = stD.searchState ∧ stI.aux = stD.aux ∧
    stI.descentState = stD.descentState ∧ stI.terminate = stD.terminate ∧ stI.result = stD.result ∧
    stI.numAcceptedSteps = stD.numAcceptedSteps ∧
    ∃ f g H B, stI.fInfo = .evalGradHessianInv f g H ∧ stD.fInfo = .evalGradHessian f g B ∧ SPD H ∧ SPD B ∧ H * B = 1

/-- The two update formulas keep inverse matrices inverse. -/
def UpdatesInverse [DecidableEq ι] (inv direct : Matrix ι ι ℝ → (ι → ℝ) → (ι → ℝ) → ℝ → Matrix ι ι ℝ) : Prop :=
  ∀ H B d s, SPD H → SPD B → H * B = 1 → 0 < treeDot d s →
    SPD (inv H d s (treeDot d s)) ∧ SPD (direct B d s (treeDot d s)) ∧
      inv H d s (treeDot d s) * direct B d s (treeDot d s) = 1

theorem mul_one_apply [DecidableEq ι] {H B : Matrix ι ι ℝ} (h : H * B = 1) (x : ι → ℝ) :
    H.mulVec (B.mulVec x) = x := by rw [Matrix.mulVec_mulVec, h, Matrix.one_mulVec]

theorem apply_mul_one [DecidableEq ι] {H B : Matrix ι ι ℝ} (h : ∀ x, H.mulVec (B.mulVec x) = x) : H * B = 1 :=
  Matrix.ext_iff_mulVec.2 fun x => by rw [← Matrix.mulVec_mulVec, h, Matrix.one_mulVec]

theorem bfgs_updates_inverse [DecidableEq ι] : UpdatesInverse (ι := ι) bfgsInv bfgsDirect := by
  intro H B d s hH hB h hc
  refine ⟨bfgsInv_spd H hH d s hc, bfgsDirect_spd B hB d s hc, apply_mul_one fun x => ?_⟩
  exact bfgs_inverse_apply H B hH.1 hB.1 (mul_one_apply h) d s hc.ne'
    (((spd_iff B).1 hB).2 s (nonzero_of_dot hc)).ne' x

theorem dfp_updates_inverse [DecidableEq ι] : UpdatesInverse (ι := ι) dfpInv dfpDirect := by
  intro H B d s hH hB h hc
  have hc' : 0 < treeDot s d := by rwa [dot_comm]
  have e1 : dfpInv H d s (treeDot d s) = bfgsDirect H s d (treeDot s d) := by rw [dot_comm s d]; rfl
  have e2 : dfpDirect B d s (treeDot d s) = bfgsInv B s d (treeDot s d) := by rw [dot_comm s d]; rfl
  rw [e1, e2]
  refine ⟨bfgsDirect_spd H hH s d hc', bfgsInv_spd B hB s d hc', ?_⟩
  rw [mul_eq_one_comm]
  exact apply_mul_one fun x => bfgs_inverse_apply B H hB.1 hH.1 (mul_one_apply (mul_eq_one_comm.1 h)) s d hc'.ne'
    (((spd_iff H).1 hH).2 d (nonzero_of_dot hc')).ne' x

theorem same_step [DecidableEq ι] (eps : ℝ) (heps : 0 ≤ eps)
    (inv direct : Matrix ι ι ℝ → (ι → ℝ) → (ι → ℝ) → ℝ → Matrix ι ι ℝ) (hui : UpdatesInverse inv direct)
    (lsI lsD : LinSolve ι Unit) (hls : SolvesSPD lsD)
    (cI cD : QuasiNewton.Cfg ι SS ((ι → ℝ) × Result) Unit)
    (hUI : cI.hess.updateHessian = guarded eps inv direct) (hUD : cD.hess.updateHessian = guarded eps inv direct)
    (hdI : cI.descent = newtonDescent lsI none) (hdD : cD.descent = newtonDescent lsD none)
    (hsame : cI.rtol = cD.rtol ∧ cI.atol = cD.atol ∧ cI.normY = cD.normY ∧ cI.normF = cD.normF ∧
      cI.search = cD.search ∧ cI.grad = cD.grad) (hag : HessianAgnostic cD.search)
    (fn : (ι → ℝ) → ℝ × A) (y : ι → ℝ) (stI stD : QuasiNewton.State ι A SS ((ι → ℝ) × Result) Unit)
    (h : SameUpToInverse stI stD) :
    (QuasiNewton.step cI fn y stI).1 = (QuasiNewton.step cD fn y stD).1 ∧
    (QuasiNewton.step cI fn y stI).2.2 = (QuasiNewton.step cD fn y stD).2.2 ∧
    SameUpToInverse (QuasiNewton.step cI fn y stI).2.1 (QuasiNewton.step cD fn y stD).2.1 := by
  obtain ⟨rI, aI, nYI, nFI, dI, sI, hI, gI⟩ := cI
  obtain ⟨rD, aD, nYD, nFD, dD, sD, hD, gD⟩ := cD
  simp only at hUI hUD hdI hdD hsame hag
  obtain ⟨rfl, rfl, rfl, rfl, rfl, rfl⟩ := hsame
  subst hdI hdD
  obtain ⟨f1, ye, ss, i1, ax, ds, tm, rs, na, hs⟩ := stI
  obtain ⟨f1', ye', ss', i1', ax', ds', tm', rs', na', hs'⟩ := stD
  obtain ⟨h1, h2, h3, h4, h5, h6, h7, h8, f, g, H, B, h9, h10, hpH, hpB, hHB⟩ := h
  simp only at h1 h2 h3 h4 h5 h6 h7 h8 h9 h10
  subst h1 h2 h3 h4 h5 h6 h7 h8 h9 h10
  simp only [QuasiNewton.step, hUI, hUD]
  have hsr := (hag f g B H).2 f1 y ye (.eval (fn ye).1) ss
  rw [hsr]
  set sr := sI.step f1 y ye (.evalGradHessianInv f g H) (.eval (fn ye).1) ss with hsrd
  clear_value sr
  cases hacc : sr.2.1 with
  | false =>
    simp only [Bool.false_eq_true, if_false]
    exact ⟨trivial, trivial, rfl, rfl, rfl, rfl, rfl, rfl, rfl, rfl, f, g, H, B, rfl, rfl, hpH, hpB, hHB⟩
  | true =>
    have gi : guarded eps inv direct y ye (.evalGradHessianInv f g H) (fn ye).1 (gI ye) hs =
      (.evalGradHessianInv (fn ye).1 (gI ye) (if eps < treeDot (fun i => gI ye i - g i) (fun i => ye i - y i)
        then inv H (fun i => gI ye i - g i) (fun i => ye i - y i)
          (treeDot (fun i => gI ye i - g i) (fun i => ye i - y i)) else H), ()) := rfl
    have gd : guarded eps inv direct y ye (.evalGradHessian f g B) (fn ye).1 (gI ye) hs' =
      (.evalGradHessian (fn ye).1 (gI ye) (if eps < treeDot (fun i => gI ye i - g i) (fun i => ye i - y i)
        then direct B (fun i => gI ye i - g i) (fun i => ye i - y i)
          (treeDot (fun i => gI ye i - g i) (fun i => ye i - y i)) else B), ()) := rfl
    simp only [if_true]
    rw [gi, gd]
    simp only [GradientDescent.fOf]
    set d : ι → ℝ := fun i => gI ye i - g i with hdd
    set s : ι → ℝ := fun i => ye i - y i with hsd
    have hnew : SPD (if eps < treeDot d s then inv H d s (treeDot d s) else H) ∧
        SPD (if eps < treeDot d s then direct B d s (treeDot d s) else B) ∧
        (if eps < treeDot d s then inv H d s (treeDot d s) else H) *
          (if eps < treeDot d s then direct B d s (treeDot d s) else B) = 1 := by
      by_cases hc : eps < treeDot d s
      · simp only [if_pos hc]
        exact hui H B d s hpH hpB hHB (lt_of_le_of_lt heps hc)
      · simp only [if_neg hc]
        exact ⟨hpH, hpB, hHB⟩
    set H' := if eps < treeDot d s then inv H d s (treeDot d s) else H with hH'
    set B' := if eps < treeDot d s then direct B d s (treeDot d s) else B with hB'
    have hn : (newtonDescent lsI none).query ye (.evalGradHessianInv (fn ye).1 (gI ye) H') ds =
        (newtonDescent lsD none).query ye (.evalGradHessian (fn ye).1 (gI ye) B') ds := by
      show (H'.mulVec (gI ye), Result.successful) = lsD.square B' (gI ye)
      obtain ⟨e1, e2⟩ := hls B' (gI ye) hnew.2.1
      have e3 := mul_one_apply hnew.2.2 (lsD.square B' (gI ye)).1
      rw [e2] at e3
      rw [e3, ← e1]
    rw [hn]
    exact ⟨trivial, trivial, rfl, rfl, rfl, rfl, rfl, rfl, rfl, rfl, (fn ye).1, gI ye, H', B', rfl, rfl, hnew.1, hnew.2.1,
      hnew.2.2⟩

theorem same_runs [DecidableEq ι] (eps : ℝ) (heps : 0 ≤ eps)
    (inv direct : Matrix ι ι ℝ → (ι → ℝ) → (ι → ℝ) → ℝ → Matrix ι ι ℝ) (hui : UpdatesInverse inv direct)
    (lsI lsD : LinSolve ι Unit) (hls : SolvesSPD lsD)
    (cI cD : QuasiNewton.Cfg ι SS ((ι → ℝ) × Result) Unit)
    (hUI : cI.hess.updateHessian = guarded eps inv direct) (hUD : cD.hess.updateHessian = guarded eps inv direct)
    (hII : cI.hess.initHessian = initIdentity true) (hID : cD.hess.initHessian = initIdentity false)
    (hdI : cI.descent = newtonDescent lsI none) (hdD : cD.descent = newtonDescent lsD none)
    (hsame : cI.rtol = cD.rtol ∧ cI.atol = cD.atol ∧ cI.normY = cD.normY ∧ cI.normF = cD.normF ∧
      cI.search = cD.search ∧ cI.grad = cD.grad) (hag : HessianAgnostic cD.search)
    (aux0 : A) (fn : (ι → ℝ) → ℝ × A) (y0 : ι → ℝ) (stI : QuasiNewton.State ι A SS ((ι → ℝ) × Result) Unit)
    (hiI : (QuasiNewton.solver cI aux0).init fn y0 = .ok stI) :
    ∃ stD, (QuasiNewton.solver cD aux0).init fn y0 = .ok stD ∧
      ∀ k, iterateAt (QuasiNewton.solver cI aux0) fn aux0 y0 stI k = iterateAt (QuasiNewton.solver cD aux0) fn aux0 y0 stD k ∧
        auxAt (QuasiNewton.solver cI aux0) fn aux0 y0 stI k = auxAt (QuasiNewton.solver cD aux0) fn aux0 y0 stD k ∧
        SameUpToInverse (stateAt (QuasiNewton.solver cI aux0) fn aux0 y0 stI k)
          (stateAt (QuasiNewton.solver cD aux0) fn aux0 y0 stD k) := by
  have hinit : ∃ stD, (QuasiNewton.solver cD aux0).init fn y0 = .ok stD ∧ SameUpToInverse stI stD := by
    simp only [QuasiNewton.solver, QuasiNewton.init, hII, hdI, hsame.2.2.2.2.1] at hiI
    simp only [QuasiNewton.solver, QuasiNewton.init, hID, hdD]
    have ha := (hag 0 (fun _ => 0) 1 1).1
    split at hiI
    · cases hiI
    · next hc =>
      have hc' : ¬ (!cD.search.accepts (initIdentity false y0 0 fun _ => 0).1 ||
        !(newtonDescent lsD none).accepts (initIdentity false y0 0 fun _ => 0).1) = true := by
        have e1 : (initIdentity (ι := ι) false y0 0 fun _ => 0).1 = .evalGradHessian 0 (fun _ => 0) 1 := rfl
        have e2 : (initIdentity (ι := ι) true y0 0 fun _ => 0).1 = .evalGradHessianInv 0 (fun _ => 0) 1 := rfl
        rw [e2, ← ha] at hc
        rw [e1]
        exact hc
      rw [if_neg hc']
      cases hiI
      exact ⟨_, rfl, rfl, rfl, rfl, rfl, rfl, rfl, rfl, rfl, 0, fun _ => 0, 1, 1, rfl, rfl, spd_one, spd_one,
        Matrix.one_mul 1⟩
  obtain ⟨stD, hD, hrel⟩ := hinit
  refine ⟨stD, hD, fun k => ?_⟩
  induction k with
  | zero => exact ⟨rfl, rfl, hrel⟩
  | succ k ih =>
    obtain ⟨e1, _, e3⟩ := ih
    have := same_step eps heps inv direct hui lsI lsD hls cI cD hUI hUD hdI hdD hsame hag fn
      (iterateAt (QuasiNewton.solver cI aux0) fn aux0 y0 stI k) _ _ e3
    have hD' : trace (QuasiNewton.solver cD aux0) fn aux0 y0 stD (k + 1) =
      QuasiNewton.step cD fn (iterateAt (QuasiNewton.solver cI aux0) fn aux0 y0 stI k)
        (stateAt (QuasiNewton.solver cD aux0) fn aux0 y0 stD k) := by
      rw [e1]; rfl
    refine ⟨?_, ?_, ?_⟩
    · show _ = (trace (QuasiNewton.solver cD aux0) fn aux0 y0 stD (k + 1)).1
      rw [hD']; exact this.1
    · show _ = (trace (QuasiNewton.solver cD aux0) fn aux0 y0 stD (k + 1)).2.2
      rw [hD']; exact this.2.1
    · show SameUpToInverse _ (trace (QuasiNewton.solver cD aux0) fn aux0 y0 stD (k + 1)).2.1
      rw [hD']; exact this.2.2

theorem same_solutions [DecidableEq ι] (eps : ℝ) (heps : 0 ≤ eps)
    (inv direct : Matrix ι ι ℝ → (ι → ℝ) → (ι → ℝ) → ℝ → Matrix ι ι ℝ) (hui : UpdatesInverse inv direct)
    (lsI lsD : LinSolve ι Unit) (hls : SolvesSPD lsD)
    (cI cD : QuasiNewton.Cfg ι SS ((ι → ℝ) × Result) Unit)
    (hUI : cI.hess.updateHessian = guarded eps inv direct) (hUD : cD.hess.updateHessian = guarded eps inv direct)
    (hII : cI.hess.initHessian = initIdentity true) (hID : cD.hess.initHessian = initIdentity false)
    (hdI : cI.descent = newtonDescent lsI none) (hdD : cD.descent = newtonDescent lsD none)
    (hsame : cI.rtol = cD.rtol ∧ cI.atol = cD.atol ∧ cI.normY = cD.normY ∧ cI.normF = cD.normF ∧
      cI.search = cD.search ∧ cI.grad = cD.grad) (hag : HessianAgnostic cD.search)
    (aux0 : A) (fn : (ι → ℝ) → ℝ × A) (y0 : ι → ℝ) (af : (ι → ℝ) → Bool) (ms : Option Nat) (throw : Bool)
    (sol : Solution (ι → ℝ) A (QuasiNewton.State ι A SS ((ι → ℝ) × Result) Unit) Unit)
    (h : iterativeSolve (QuasiNewton.solver cI aux0) af fn aux0 y0 ms throw = some (.ok sol)) :
    ∃ sol', iterativeSolve (QuasiNewton.solver cD aux0) af fn aux0 y0 ms throw = some (.ok sol') ∧
      sol'.value = sol.value ∧ sol'.aux = sol.aux ∧ sol'.result = sol.result ∧ sol'.numSteps = sol.numSteps := by
  obtain ⟨_, _, stI, hiI, hst, hp⟩ := C01_step_budget _ _ _ _ _ _ _ _ h
  obtain ⟨stD, hiD, hk⟩ := same_runs eps heps inv direct hui lsI lsD hls cI cD hUI hUD hII hID hdI hdD hsame hag aux0 fn y0
    stI hiI
  obtain ⟨sol', hs', hn, hr⟩ := same_run (QuasiNewton.solver cI aux0) (QuasiNewton.solver cD aux0) af af fn fn aux0 aux0
    y0 y0 stI stD hiI hiD (fun k => by unfold testedAt; rw [(hk (k - 1)).1])
    (fun k => by
      have e := (hk k).2.2
      show ((stateAt (QuasiNewton.solver cI aux0) fn aux0 y0 stI k).terminate,
        (stateAt (QuasiNewton.solver cI aux0) fn aux0 y0 stI k).result) =
        ((stateAt (QuasiNewton.solver cD aux0) fn aux0 y0 stD k).terminate,
        (stateAt (QuasiNewton.solver cD aux0) fn aux0 y0 stD k).result)
      rw [e.2.2.2.2.2.1, e.2.2.2.2.2.2.1]) ms throw sol h
  obtain ⟨_, _, stD', hiD', hst', hp'⟩ := C01_step_budget _ _ _ _ _ _ _ _ hs'
  rw [hiD] at hiD'; cases hiD'
  have v1 : sol.value = iterateAt (QuasiNewton.solver cI aux0) fn aux0 y0 stI sol.numSteps := congrArg Prod.fst hp
  have v2 : sol'.value = iterateAt (QuasiNewton.solver cD aux0) fn aux0 y0 stD sol'.numSteps := congrArg Prod.fst hp'
  have a1 : sol.aux = auxAt (QuasiNewton.solver cI aux0) fn aux0 y0 stI sol.numSteps := congrArg (fun t => t.2.1) hp
  have a2 : sol'.aux = auxAt (QuasiNewton.solver cD aux0) fn aux0 y0 stD sol'.numSteps := congrArg (fun t => t.2.1) hp'
  refine ⟨sol', hs', ?_, ?_, hr, hn⟩
  · rw [v1, v2, hn, (hk _).1]
  · rw [a1, a2, hn, (hk _).2.1]

theorem init_inverse [DecidableEq ι] (lsI lsD : LinSolve ι Unit) (cI cD : QuasiNewton.Cfg ι SS ((ι → ℝ) × Result) Unit)
    (hII : cI.hess.initHessian = initIdentity true) (hID : cD.hess.initHessian = initIdentity false)
    (hdI : cI.descent = newtonDescent lsI none) (hdD : cD.descent = newtonDescent lsD none)
    (hs : cI.search = cD.search) (hag : HessianAgnostic cD.search)
    (aux0 : A) (fn : (ι → ℝ) → ℝ × A) (y0 : ι → ℝ) (stD : QuasiNewton.State ι A SS ((ι → ℝ) × Result) Unit)
    (hiD : (QuasiNewton.solver cD aux0).init fn y0 = .ok stD) :
    ∃ stI, (QuasiNewton.solver cI aux0).init fn y0 = .ok stI := by
  simp only [QuasiNewton.solver, QuasiNewton.init, hID, hdD] at hiD
  simp only [QuasiNewton.solver, QuasiNewton.init, hII, hdI, hs]
  have ha := (hag 0 (fun _ => 0) 1 1).1
  split at hiD
  · cases hiD
  · next hc =>
    have e1 : (initIdentity (ι := ι) false y0 0 fun _ => 0).1 = .evalGradHessian 0 (fun _ => 0) 1 := rfl
    have e2 : (initIdentity (ι := ι) true y0 0 fun _ => 0).1 = .evalGradHessianInv 0 (fun _ => 0) 1 := rfl
    rw [e1, ha] at hc
    have hc' : ¬ (!cD.search.accepts (initIdentity true y0 0 fun _ => 0).1 ||
        !(newtonDescent lsI none).accepts (initIdentity true y0 0 fun _ => 0).1) = true := by rw [e2]; exact hc
    rw [if_neg hc']
    exact ⟨_, rfl⟩

/-- The other direction of `same_solutions`. -/
theorem same_solutions' [DecidableEq ι] (eps : ℝ) (heps : 0 ≤ eps)
    (inv direct : Matrix ι ι ℝ → (ι → ℝ) → (ι → ℝ) → ℝ → Matrix ι ι ℝ) (hui : UpdatesInverse inv direct)
    (lsI lsD : LinSolve ι Unit) (hls : SolvesSPD lsD)
    (cI cD : QuasiNewton.Cfg ι SS ((ι → ℝ) × Result) Unit)
    (hUI : cI.hess.updateHessian = guarded eps inv direct) (hUD : cD.hess.updateHessian = guarded eps inv direct)
    (hII : cI.hess.initHessian = initIdentity true) (hID : cD.hess.initHessian = initIdentity false)
    (hdI : cI.descent = newtonDescent lsI none) (hdD : cD.descent = newtonDescent lsD none)
    (hsame : cI.rtol = cD.rtol ∧ cI.atol = cD.atol ∧ cI.normY = cD.normY ∧ cI.normF = cD.normF ∧
      cI.search = cD.search ∧ cI.grad = cD.grad) (hag : HessianAgnostic cD.search)
    (aux0 : A) (fn : (ι → ℝ) → ℝ × A) (y0 : ι → ℝ) (af : (ι → ℝ) → Bool) (ms : Option Nat) (throw : Bool)
    (sol : Solution (ι → ℝ) A (QuasiNewton.State ι A SS ((ι → ℝ) × Result) Unit) Unit)
    (h : iterativeSolve (QuasiNewton.solver cD aux0) af fn aux0 y0 ms throw = some (.ok sol)) :
    ∃ sol', iterativeSolve (QuasiNewton.solver cI aux0) af fn aux0 y0 ms throw = some (.ok sol') := by
  obtain ⟨_, _, stD, hiD, _⟩ := C01_step_budget _ _ _ _ _ _ _ _ h
  obtain ⟨stI, hiI⟩ := init_inverse lsI lsD cI cD hII hID hdI hdD hsame.2.2.2.2.1 hag aux0 fn y0 stD hiD
  obtain ⟨stD', hiD', hk⟩ := same_runs eps heps inv direct hui lsI lsD hls cI cD hUI hUD hII hID hdI hdD hsame hag aux0 fn
    y0 stI hiI
  rw [hiD] at hiD'; cases hiD'
  obtain ⟨sol', hs', _⟩ := same_run (QuasiNewton.solver cD aux0) (QuasiNewton.solver cI aux0) af af fn fn aux0 aux0
    y0 y0 stD stI hiD hiI (fun k => by unfold testedAt; rw [(hk (k - 1)).1])
    (fun k => by
      have e := (hk k).2.2
      show ((stateAt (QuasiNewton.solver cD aux0) fn aux0 y0 stD k).terminate,
        (stateAt (QuasiNewton.solver cD aux0) fn aux0 y0 stD k).result) =
        ((stateAt (QuasiNewton.solver cI aux0) fn aux0 y0 stI k).terminate,
        (stateAt (QuasiNewton.solver cI aux0) fn aux0 y0 stI k).result)
      rw [e.2.2.2.2.2.1, e.2.2.2.2.2.2.1]) ms throw sol h
  exact ⟨sol', hs'⟩

/-- **C36.** `BFGS(use_inverse=True)` and `BFGS(use_inverse=False)` (with exact linear solves in the latter) are
indistinguishable: with the same other settings, and a search that does not look at the Hessian approximation, they make
the same iterates, and solving with one returns the same value, aux, result and number of steps as with the other; the matrices they keep are inverse to each other after every step. -/
theorem C36_bfgs [DecidableEq ι] (eps : ℝ) (heps : 0 ≤ eps) (rtol atol : ℝ) (nY : (ι → ℝ) → ℝ) (nF : (Unit → ℝ) → ℝ)
    (lsI lsD : LinSolve ι Unit) (hls : SolvesSPD lsD) (srch : Search ι Unit SS) (hag : HessianAgnostic srch)
    (grad : (ι → ℝ) → (ι → ℝ)) (aux0 : A) (fn : (ι → ℝ) → ℝ × A) (y0 : ι → ℝ) :
    let S := fun b ls => QuasiNewton.solver (A := A)
      { rtol := rtol, atol := atol, normY := nY, normF := nF, descent := newtonDescent ls none, search := srch,
        hess := bfgs eps b, grad := grad } aux0
    (∀ stI, (S true lsI).init fn y0 = .ok stI → ∃ stD, (S false lsD).init fn y0 = .ok stD ∧
      ∀ k, iterateAt (S true lsI) fn aux0 y0 stI k = iterateAt (S false lsD) fn aux0 y0 stD k ∧
        ∃ H B, Stores true (stateAt (S true lsI) fn aux0 y0 stI k).fInfo H ∧
          Stores false (stateAt (S false lsD) fn aux0 y0 stD k).fInfo B ∧ H * B = 1) ∧
    (∀ af ms throw sol, iterativeSolve (S true lsI) af fn aux0 y0 ms throw = some (.ok sol) →
      ∃ sol', iterativeSolve (S false lsD) af fn aux0 y0 ms throw = some (.ok sol') ∧
        sol'.value = sol.value ∧ sol'.aux = sol.aux ∧ sol'.result = sol.result ∧ sol'.numSteps = sol.numSteps) ∧
    ∀ af ms throw sol', iterativeSolve (S false lsD) af fn aux0 y0 ms throw = some (.ok sol') →
      ∃ sol, iterativeSolve (S true lsI) af fn aux0 y0 ms throw = some (.ok sol) := by
  intro S
  refine ⟨fun stI hiI => ?_, fun af ms throw sol h => ?_, fun af ms throw sol h => ?_⟩
  · obtain ⟨stD, hD, hk⟩ := same_runs eps heps bfgsInv bfgsDirect bfgs_updates_inverse lsI lsD hls
      ⟨rtol, atol, nY, nF, newtonDescent lsI none, srch, bfgs eps true, grad⟩
      ⟨rtol, atol, nY, nF, newtonDescent lsD none, srch, bfgs eps false, grad⟩ rfl rfl rfl rfl rfl rfl ⟨rfl, rfl, rfl, rfl, rfl, rfl⟩ hag aux0 fn y0 stI hiI
    refine ⟨stD, hD, fun k => ⟨(hk k).1, ?_⟩⟩
    obtain ⟨f, g, H, B, e1, e2, _, _, e3⟩ := (hk k).2.2.2.2.2.2.2.2.2.2
    exact ⟨H, B, ⟨f, g, e1⟩, ⟨f, g, e2⟩, e3⟩
  · exact same_solutions eps heps bfgsInv bfgsDirect bfgs_updates_inverse lsI lsD hls
      ⟨rtol, atol, nY, nF, newtonDescent lsI none, srch, bfgs eps true, grad⟩
      ⟨rtol, atol, nY, nF, newtonDescent lsD none, srch, bfgs eps false, grad⟩ rfl rfl rfl rfl rfl rfl ⟨rfl, rfl, rfl, rfl, rfl, rfl⟩ hag aux0 fn y0 af ms throw sol h
  · exact same_solutions' eps heps bfgsInv bfgsDirect bfgs_updates_inverse lsI lsD hls
      ⟨rtol, atol, nY, nF, newtonDescent lsI none, srch, bfgs eps true, grad⟩
      ⟨rtol, atol, nY, nF, newtonDescent lsD none, srch, bfgs eps false, grad⟩ rfl rfl rfl rfl rfl rfl ⟨rfl, rfl, rfl, rfl, rfl, rfl⟩ hag aux0 fn y0 af ms throw sol h

/-- **C36.** The same for `DFP`. -/
theorem C36_dfp [DecidableEq ι] (eps : ℝ) (heps : 0 ≤ eps) (rtol atol : ℝ) (nY : (ι → ℝ) → ℝ) (nF : (Unit → ℝ) → ℝ)
    (lsI lsD : LinSolve ι Unit) (hls : SolvesSPD lsD) (srch : Search ι Unit SS) (hag : HessianAgnostic srch)
    (grad : (ι → ℝ) → (ι → ℝ)) (aux0 : A) (fn : (ι → ℝ) → ℝ × A) (y0 : ι → ℝ) :
    let S := fun b ls => QuasiNewton.solver (A := A)
      { rtol := rtol, atol := atol, normY := nY, normF := nF, descent := newtonDescent ls none, search := srch,
        hess := dfp eps b, grad := grad } aux0
    (∀ stI, (S true lsI).init fn y0 = .ok stI → ∃ stD, (S false lsD).init fn y0 = .ok stD ∧
      ∀ k, iterateAt (S true lsI) fn aux0 y0 stI k = iterateAt (S false lsD) fn aux0 y0 stD k ∧
        ∃ H B, Stores true (stateAt (S true lsI) fn aux0 y0 stI k).fInfo H ∧
          Stores false (stateAt (S false lsD) fn aux0 y0 stD k).fInfo B ∧ H * B = 1) ∧
    (∀ af ms throw sol, iterativeSolve (S true lsI) af fn aux0 y0 ms throw = some (.ok sol) →
      ∃ sol', iterativeSolve (S false lsD) af fn aux0 y0 ms throw = some (.ok sol') ∧
        sol'.value = sol.value ∧ sol'.aux = sol.aux ∧ sol'.result = sol.result ∧ sol'.numSteps = sol.numSteps) ∧
    ∀ af ms throw sol', iterativeSolve (S false lsD) af fn aux0 y0 ms throw = some (.ok sol') →
      ∃ sol, iterativeSolve (S true lsI) af fn aux0 y0 ms throw = some (.ok sol) := by
  intro S
  refine ⟨fun stI hiI => ?_, fun af ms throw sol h => ?_, fun af ms throw sol h => ?_⟩
  · obtain ⟨stD, hD, hk⟩ := same_runs eps heps dfpInv dfpDirect dfp_updates_inverse lsI lsD hls
      ⟨rtol, atol, nY, nF, newtonDescent lsI none, srch, dfp eps true, grad⟩
      ⟨rtol, atol, nY, nF, newtonDescent lsD none, srch, dfp eps false, grad⟩ rfl rfl rfl rfl rfl rfl ⟨rfl, rfl, rfl, rfl, rfl, rfl⟩ hag aux0 fn y0 stI hiI
    refine ⟨stD, hD, fun k => ⟨(hk k).1, ?_⟩⟩
    obtain ⟨f, g, H, B, e1, e2, _, _, e3⟩ := (hk k).2.2.2.2.2.2.2.2.2.2
    exact ⟨H, B, ⟨f, g, e1⟩, ⟨f, g, e2⟩, e3⟩
  · exact same_solutions eps heps dfpInv dfpDirect dfp_updates_inverse lsI lsD hls
      ⟨rtol, atol, nY, nF, newtonDescent lsI none, srch, dfp eps true, grad⟩
      ⟨rtol, atol, nY, nF, newtonDescent lsD none, srch, dfp eps false, grad⟩ rfl rfl rfl rfl rfl rfl ⟨rfl, rfl, rfl, rfl, rfl, rfl⟩ hag aux0 fn y0 af ms throw sol h
  · exact same_solutions' eps heps dfpInv dfpDirect dfp_updates_inverse lsI lsD hls
      ⟨rtol, atol, nY, nF, newtonDescent lsI none, srch, dfp eps true, grad⟩
      ⟨rtol, atol, nY, nF, newtonDescent lsD none, srch, dfp eps false, grad⟩ rfl rfl rfl rfl rfl rfl ⟨rfl, rfl, rfl, rfl, rfl, rfl⟩ hag aux0 fn y0 af ms throw sol h

/-! ### The hypotheses can be met -/

theorem spd_unit [DecidableEq ι] (B : Matrix ι ι ℝ) (hB : SPD B) : IsUnit B := by
  rw [← Matrix.mulVec_injective_iff_isUnit]
  intro x y hxy
  by_contra hne
  have hz : ∃ i, x i - y i ≠ 0 := by
    by_contra h
    simp only [not_exists, not_not, sub_eq_zero] at h
    exact hne (funext h)
  have := ((spd_iff B).1 hB).2 (fun i => x i - y i) hz
  rw [mulVec_sub' B x y, hxy] at this
  have e : treeDot (fun i => x i - y i) (fun i => B.mulVec y i - B.mulVec y i) = 0 := by
    unfold treeDot; exact Finset.sum_eq_zero fun i _ => by ring
  rw [e] at this
  exact lt_irrefl _ this

/-- Exact linear solvers exist, in every dimension. -/
theorem exact_solver_exists [DecidableEq ι] :
    SolvesSPD (ι := ι) { rect := fun _ _ => (fun _ => 0, .successful), square := fun B g => (B⁻¹.mulVec g, .successful) } := by
  intro B g hB
  refine ⟨rfl, ?_⟩
  show B.mulVec (B⁻¹.mulVec g) = g
  rw [Matrix.mulVec_mulVec, Matrix.mul_nonsing_inv _ ((Matrix.isUnit_iff_isUnit_det B).1 (spd_unit B hB)),
    Matrix.one_mulVec]

/-- `BFGS` on `y₁² + 3 y₂²`, starting at `(1, 1)`: the solve starts, the first two iterates differ in curvature, so the
update is made (`d·s > 0` for the gradient `(2y₁, 6y₂)` and any move). -/
noncomputable def exQN (b : Bool) : QuasiNewton.Cfg (Fin 2) ℝ ((Fin 2 → ℝ) × Result) Unit :=
  withArmijo 0.1 0.1 maxNorm maxNorm
    { rect := fun _ _ => (fun _ => 0, .successful), square := fun B g => (B⁻¹.mulVec g, .successful) }
    ⟨0.5, 0.1, 1⟩ (bfgs 0.001 b) fun y => ![2 * y 0, 6 * y 1]

example (b : Bool) : ∃ st0, (QuasiNewton.solver (exQN b) ()).init (fun y => (y 0 ^ 2 + 3 * y 1 ^ 2, ())) ![1, 1] = .ok st0 := by
  cases b <;> exact ⟨_, rfl⟩

example : (exQN true).hess = bfgs 0.001 true ∧ SolvesSPD (ι := Fin 2)
    { rect := fun _ _ => (fun _ => 0, .successful), square := fun B g => (B⁻¹.mulVec g, .successful) } ∧
    HessianAgnostic (exQN true).search ∧
    (∀ y p : Fin 2 → ℝ, HasDerivAt (fun t : ℝ => (y 0 + t * p 0) ^ 2 + 3 * (y 1 + t * p 1) ^ 2)
      (∑ c, (exQN true).grad y c * p c) 0) := by
  refine ⟨rfl, exact_solver_exists, (agnostic_searches _ TrustRegion.defaults 1).1, fun y p => ?_⟩
  have h0 : HasDerivAt (fun t : ℝ => y 0 + t * p 0) (p 0) 0 := by
    simpa using ((hasDerivAt_id (0 : ℝ)).mul_const (p 0)).const_add (y 0)
  have h1 : HasDerivAt (fun t : ℝ => y 1 + t * p 1) (p 1) 0 := by
    simpa using ((hasDerivAt_id (0 : ℝ)).mul_const (p 1)).const_add (y 1)
  have := (h0.pow 2).add ((h1.pow 2).const_mul 3)
  refine this.congr_deriv ?_
  simp only [Fin.sum_univ_two, exQN, withArmijo]
  simp
  ring

/-- A step with positive curvature, `y = (1,1) → z = (0,0)` for the same objective. -/
example : (0.001 : ℝ) < ∑ i, ((![0, 0] : Fin 2 → ℝ) i - ![2, 6] i) * ((![0, 0] : Fin 2 → ℝ) i - ![1, 1] i) := by
  simp [Fin.sum_univ_two]; norm_num

end Verif.Props
