import Verif.Lemmas.RigidSolvers
import Verif.Props.LBFGSCompact
import Verif.Props.LevenbergMarquardt
import Verif.Props.GaussNewtonLocal
import Mathlib.LinearAlgebra.Matrix.DotProduct

/-!
Linear solves and Hessian approximations in new Cartesian coordinates (C78).
-/

namespace Verif.Rigid

open Verif.Spec Verif.Rank Verif.Props Matrix Driver QuasiNewton

variable {ι ι' κ κ' : Type} [Fintype ι] [Fintype ι'] [Fintype κ] [Fintype κ'] [DecidableEq ι] [DecidableEq κ]
  {m : Coordinates ι ι'} {k : Coordinates κ κ'}

/-! ### Least-squares solutions of smallest length -/

omit [DecidableEq ι] in
theorem dot_self_zero {v : ι → ℝ} (h : v ⬝ᵥ v = 0) : v = 0 := dotProduct_self_eq_zero.1 h

omit [DecidableEq ι] [DecidableEq κ] in
theorem minimal_unique {M : Matrix κ ι ℝ} {b : κ → ℝ} {x y : ι → ℝ} (hx : IsMinimalLeastSquares M b x)
    (hy : IsMinimalLeastSquares M b y) : x = y := by
  obtain ⟨h1, w, rfl⟩ := hx
  obtain ⟨h2, w', rfl⟩ := hy
  have hn : M.transpose.mulVec (M.mulVec (M.transpose.mulVec w - M.transpose.mulVec w')) = 0 := by
    rw [mulVec_sub, mulVec_sub, h1, h2, sub_self]
  have hz : M.mulVec (M.transpose.mulVec w - M.transpose.mulVec w') = 0 := by
    apply dot_self_zero
    have key : ∀ x, M.mulVec x ⬝ᵥ M.mulVec x = M.transpose.mulVec (M.mulVec x) ⬝ᵥ x := fun x => by
      rw [mulVec_transpose, ← dotProduct_mulVec]
    rw [key, hn, zero_dotProduct]
  apply sub_eq_zero.1
  apply dot_self_zero
  have : (M.transpose.mulVec w - M.transpose.mulVec w') ⬝ᵥ (M.transpose.mulVec w - M.transpose.mulVec w') =
      (w - w') ⬝ᵥ M.mulVec (M.transpose.mulVec w - M.transpose.mulVec w') := by
    rw [dotProduct_mulVec, ← mulVec_transpose, mulVec_sub]
  rw [this, hz, dotProduct_zero]

theorem minimal_moved {J : Matrix κ ι ℝ} {r : κ → ℝ} {x : ι → ℝ} (h : IsMinimalLeastSquares J r x) :
    IsMinimalLeastSquares (jacMap m k J) (k.Q.mulVec r) (m.Q.mulVec x) := by
  obtain ⟨h, w, hw⟩ := h
  refine ⟨?_, k.Q.mulVec w, ?_⟩
  · rw [jac_dir, jac_transpose_dir, jac_transpose_dir, h]
  · rw [jac_transpose_dir, hw]

theorem newton_jac {ls : LinSolve ι κ} {ls' : LinSolve ι' κ'} (hls : SolvesMinimal ls) (hls' : SolvesMinimal ls') (i : FnInfo ι κ)
    (i' : FnInfo ι' κ') (h : JacRel m k i i') : PairRel m (newtonStep ls i) (newtonStep ls' i') := by
  cases h with
  | mk r J =>
    have h1 := hls J r
    have h2 := hls' (jacMap m k J) (k.Q.mulVec r)
    exact Prod.ext (minimal_unique h2.1 (minimal_moved h1.1)) (h2.2.trans h1.2.symm)

omit [DecidableEq ι] [DecidableEq κ] in
theorem minimal_exists (M : Matrix κ ι ℝ) (b : κ → ℝ) : ∃ x, IsMinimalLeastSquares M b x := by
  obtain ⟨d, hd⟩ := least_squares_exists M b
  obtain ⟨w, hw⟩ := least_squares_exists M.transpose d
  refine ⟨M.transpose.mulVec w, ?_, w, rfl⟩
  have h1 : M.mulVec (M.transpose.mulVec w - d) = 0 := by
    funext i
    exact normal_equations _ _ _ hw i
  have h2 : M.transpose.mulVec (M.mulVec d - b) = 0 := by
    funext i
    exact normal_equations _ _ _ hd i
  rw [mulVec_sub, sub_eq_zero] at h1 h2
  rw [h1, h2]

omit [DecidableEq ι] [DecidableEq κ] in
/-- There is such a linear solver. -/
theorem minimal_solver_exists : ∃ ls : LinSolve ι κ, SolvesMinimal ls :=
  ⟨⟨fun M b => (Classical.choose (minimal_exists M b), .successful), fun _ g => (g, .successful)⟩,
    fun M b => ⟨Classical.choose_spec (minimal_exists M b), rfl⟩⟩

/-! ### Damped steps -/

omit [Fintype κ] [DecidableEq κ] in
theorem damped_full_rank (J : Matrix κ ι ℝ) (l : ℝ) (hl : 0 < l) (v : ι → ℝ) (h : (dampedOperator J l).mulVec v = 0) : v = 0 := by
  funext i
  have := congrFun h (.inr i)
  simp only [dampedOperator, mulVec, dotProduct, of_apply, ite_mul, zero_mul, Finset.sum_ite_eq, Finset.mem_univ, if_true,
    Pi.zero_apply] at this
  exact (mul_eq_zero.1 this).resolve_left (Real.sqrt_pos.2 hl).ne'

theorem stationary_moved {J : Matrix κ ι ℝ} {r : κ → ℝ} {l : ℝ} {p : ι → ℝ}
    (h : ∀ i, ∑ a, J a i * (J.mulVec p a + r a) + l * p i = 0) (i : ι') :
    ∑ a, jacMap m k J a i * ((jacMap m k J).mulVec (m.Q.mulVec p) a + k.Q.mulVec r a) + l * m.Q.mulVec p i = 0 := by
  have e : (fun i => J.transpose.mulVec (fun a => J.mulVec p a + r a) i + l * p i) = fun _ => 0 := funext h
  have h2 : (jacMap m k J).transpose.mulVec (fun a => (jacMap m k J).mulVec (m.Q.mulVec p) a + k.Q.mulVec r a) =
      m.Q.mulVec (J.transpose.mulVec fun a => J.mulVec p a + r a) := by
    rw [jac_dir, dir_add, jac_transpose_dir]
  have h3 := congrFun h2 i
  show (jacMap m k J).transpose.mulVec (fun a => (jacMap m k J).mulVec (m.Q.mulVec p) a + k.Q.mulVec r a) i + _ = 0
  rw [h3]
  have h4 := congrArg m.Q.mulVec e
  rw [← dir_add, ← dir_smul, ← dir_zero] at h4
  exact congrFun h4 i

theorem damped_step_same [DecidableEq ι'] {eps fmax : ℝ} (he : 0 ≤ eps) (hf : 0 < fmax) {ls : LinSolve ι (κ ⊕ ι)}
    {ls' : LinSolve ι' (κ' ⊕ ι')} (hls : SolvesFullRank ls) (hls' : SolvesFullRank ls') (a : ℝ) (i : FnInfo ι κ)
    (i' : FnInfo ι' κ') (h : JacRel m k i i') :
    PairRel m (dampedNewtonStep eps fmax ls a i) (dampedNewtonStep eps fmax ls' a i') := by
  cases h with
  | mk r J =>
    have hl := lmParam_pos eps fmax a he hf
    obtain ⟨h1, s1⟩ := hls (dampedOperator J (lmParam eps fmax a)) (damped_full_rank J _ hl) (dampedVector r)
    obtain ⟨h2, s2⟩ := hls' (dampedOperator (jacMap m k J) (lmParam eps fmax a)) (damped_full_rank _ _ hl)
      (dampedVector (k.Q.mulVec r))
    refine Prod.ext ?_ (s2.trans s1.symm)
    show (ls'.rect (dampedOperator (jacMap m k J) (lmParam eps fmax a)) (dampedVector (k.Q.mulVec r))).1 =
      m.Q.mulVec (ls.rect (dampedOperator J (lmParam eps fmax a)) (dampedVector r)).1
    generalize (ls'.rect (dampedOperator (jacMap m k J) (lmParam eps fmax a)) (dampedVector (k.Q.mulVec r))).1 = x' at h2
    generalize (ls.rect (dampedOperator J (lmParam eps fmax a)) (dampedVector r)).1 = x at h1
    generalize lmParam eps fmax a = l at *
    have st := regularised_stationary J r l hl.le _ (damped_minimiser J r l hl.le _ h1)
    have st' := stationary_moved (m := m) (k := k) st
    have hmin : ∀ q, regularised (jacMap m k J) (k.Q.mulVec r) l (m.Q.mulVec fun i => -x i) ≤
        regularised (jacMap m k J) (k.Q.mulVec r) l q := by
      intro q
      rw [regularised_expand _ _ l _ q st']
      have : 0 ≤ ∑ a, ((jacMap m k J).mulVec q a - (jacMap m k J).mulVec (m.Q.mulVec fun i => -x i) a) ^ 2 :=
        Finset.sum_nonneg fun _ _ => sq_nonneg _
      have := mul_nonneg hl.le (Finset.sum_nonneg fun i (_ : i ∈ Finset.univ) => sq_nonneg (q i - (m.Q.mulVec fun i => -x i) i))
      linarith
    have hmin' := damped_minimiser (jacMap m k J) (k.Q.mulVec r) l hl.le _ h2
    have heq : (m.Q.mulVec fun i => -x i) = fun i => -x' i := by
      by_contra hne
      exact absurd (regularised_unique _ _ l hl _ _ hmin' hne) (not_lt.2 (hmin _))
    rw [← dir_neg] at heq
    funext i
    have := congrFun heq i
    linarith

/-! ### Newton steps with Hessian approximations -/

omit [DecidableEq ι] in
theorem spd_inj {B : Matrix ι ι ℝ} (h : SPD B) {u v : ι → ℝ} (e : B.mulVec u = B.mulVec v) : u = v := by
  by_contra hne
  have hx : ∃ i, (fun i => u i - v i) i ≠ 0 := by
    by_contra hc
    push Not at hc
    exact hne (funext fun i => sub_eq_zero.1 (hc i))
  have := ((spd_iff B).1 h).2 _ hx
  have hz : (B.mulVec fun i => u i - v i) = fun _ => 0 := by
    rw [mulVec_sub']; funext i; rw [e, sub_self]
  rw [hz] at this
  simp [treeDot] at this

theorem newton_hess {ls : LinSolve ι Unit} {ls' : LinSolve ι' Unit} (hls : SolvesSPD ls) (hls' : SolvesSPD ls') (i : FnInfo ι Unit)
    (i' : FnInfo ι' Unit) (h : HessRel m i i') : PairRel m (newtonStep ls i) (newtonStep ls' i') := by
  cases h with
  | direct f g h p p' =>
    obtain ⟨s1, h1⟩ := hls _ g p
    obtain ⟨s2, h2⟩ := hls' _ (m.Q.mulVec g) p'
    refine Prod.ext (spd_inj p' ?_) (s2.trans s1.symm)
    exact h2.trans ((h _).trans (congrArg m.Q.mulVec h1)).symm
  | inverse f g h => exact Prod.ext (h g) rfl

/-! ### Hessian approximations -/

theorem commutes_smul_one [DecidableEq ι'] (a : ℝ) : Commutes m (a • (1 : Matrix ι ι ℝ)) (a • (1 : Matrix ι' ι' ℝ)) := by
  intro v
  rw [smul_mulVec, one_mulVec, smul_mulVec, one_mulVec, mulVec_smul]

theorem commutes_one [DecidableEq ι'] : Commutes m (1 : Matrix ι ι ℝ) (1 : Matrix ι' ι' ℝ) := by
  intro v
  rw [one_mulVec, one_mulVec]

theorem commutes_bfgsInv {H : Matrix ι ι ℝ} {H' : Matrix ι' ι' ℝ} (h : Commutes m H H') (g s : ι → ℝ) (r : ℝ) :
    Commutes m (bfgsInv H g s r) (bfgsInv H' (m.Q.mulVec g) (m.Q.mulVec s) r) := by
  intro v
  rw [show (bfgsInv H g s r).mulVec v = _ from funext (bfgsInv_mulVec H g s v r), ← dir_sub, ← dir_add, ← dir_add,
    ← dir_smul, ← dir_smul, ← dir_smul]
  funext i
  rw [bfgsInv_mulVec, h v, h g]
  simp only [dot_dir]

theorem commutes_bfgsDirect {H : Matrix ι ι ℝ} {H' : Matrix ι' ι' ℝ} (h : Commutes m H H') (g s : ι → ℝ) (r : ℝ) :
    Commutes m (bfgsDirect H g s r) (bfgsDirect H' (m.Q.mulVec g) (m.Q.mulVec s) r) := by
  intro v
  rw [show (bfgsDirect H g s r).mulVec v = _ from funext (bfgsDirect_mulVec H g s v r), ← dir_sub, ← dir_add,
    ← dir_smul, ← dir_smul]
  funext i
  rw [bfgsDirect_mulVec, h v, h s]
  simp only [dot_dir]

theorem commutes_dfpInv {H : Matrix ι ι ℝ} {H' : Matrix ι' ι' ℝ} (h : Commutes m H H') (g s : ι → ℝ) (r : ℝ) :
    Commutes m (dfpInv H g s r) (dfpInv H' (m.Q.mulVec g) (m.Q.mulVec s) r) := commutes_bfgsDirect h s g r

theorem commutes_dfpDirect {H : Matrix ι ι ℝ} {H' : Matrix ι' ι' ℝ} (h : Commutes m H H') (g s : ι → ℝ) (r : ℝ) :
    Commutes m (dfpDirect H g s r) (dfpDirect H' (m.Q.mulVec g) (m.Q.mulVec s) r) := commutes_bfgsInv h s g r

theorem initIdentity_same [DecidableEq ι'] (b : Bool) (y : ι → ℝ) (y' : ι' → ℝ) (f : ℝ) :
    HessRel m (initIdentity b y f fun _ => 0).1 (initIdentity b y' f fun _ => 0).1 := by
  have e : (fun _ => 0 : ι' → ℝ) = m.Q.mulVec fun _ => 0 := dir_zero m
  rw [e]
  cases b
  · exact .direct f _ commutes_one spd_one spd_one
  · exact .inverse f _ commutes_one

section guarded
variable (eps : ℝ) (inv direct : Matrix ι ι ℝ → (ι → ℝ) → (ι → ℝ) → ℝ → Matrix ι ι ℝ) (y z : ι → ℝ) (f0 : ℝ) (g0 : ι → ℝ)
  (H : Matrix ι ι ℝ) (f : ℝ) (g : ι → ℝ)

omit [DecidableEq ι]

theorem guarded_direct_pos (h : eps < treeDot (fun i => g i - g0 i) (fun i => z i - y i)) :
    (guarded eps inv direct y z (.evalGradHessian f0 g0 H) f g ()).1 = .evalGradHessian f g
      (direct H (fun i => g i - g0 i) (fun i => z i - y i) (treeDot (fun i => g i - g0 i) (fun i => z i - y i))) :=
  congrArg (FnInfo.evalGradHessian f g) (if_pos h)

theorem guarded_direct_neg (h : ¬ eps < treeDot (fun i => g i - g0 i) (fun i => z i - y i)) :
    (guarded eps inv direct y z (.evalGradHessian f0 g0 H) f g ()).1 = .evalGradHessian f g H :=
  congrArg (FnInfo.evalGradHessian f g) (if_neg h)

theorem guarded_inverse_pos (h : eps < treeDot (fun i => g i - g0 i) (fun i => z i - y i)) :
    (guarded eps inv direct y z (.evalGradHessianInv f0 g0 H) f g ()).1 = .evalGradHessianInv f g
      (inv H (fun i => g i - g0 i) (fun i => z i - y i) (treeDot (fun i => g i - g0 i) (fun i => z i - y i))) :=
  congrArg (FnInfo.evalGradHessianInv f g) (if_pos h)

theorem guarded_inverse_neg (h : ¬ eps < treeDot (fun i => g i - g0 i) (fun i => z i - y i)) :
    (guarded eps inv direct y z (.evalGradHessianInv f0 g0 H) f g ()).1 = .evalGradHessianInv f g H :=
  congrArg (FnInfo.evalGradHessianInv f g) (if_neg h)

end guarded

theorem guarded_same (eps : ℝ) (he : 0 ≤ eps) {inv direct : Matrix ι ι ℝ → (ι → ℝ) → (ι → ℝ) → ℝ → Matrix ι ι ℝ}
    {inv' direct' : Matrix ι' ι' ℝ → (ι' → ℝ) → (ι' → ℝ) → ℝ → Matrix ι' ι' ℝ}
    (hi : ∀ {H H'}, Commutes m H H' → ∀ g s r, Commutes m (inv H g s r) (inv' H' (m.Q.mulVec g) (m.Q.mulVec s) r))
    (hd : ∀ {H H'}, Commutes m H H' → ∀ g s r, Commutes m (direct H g s r) (direct' H' (m.Q.mulVec g) (m.Q.mulVec s) r))
    (hp : ∀ M d s, SPD M → 0 < treeDot d s → SPD (direct M d s (treeDot d s)))
    (hp' : ∀ M d s, SPD M → 0 < treeDot d s → SPD (direct' M d s (treeDot d s)))
    (y z : ι → ℝ) (i : FnInfo ι Unit) (i' : FnInfo ι' Unit) (f : ℝ) (g : ι → ℝ) (h : HessRel m i i') :
    HessRel m (guarded eps inv direct y z i f g ()).1
      (guarded eps inv' direct' (m.point y) (m.point z) i' f (m.Q.mulVec g) ()).1 := by
  cases h with
  | direct f0 g0 h p p' =>
    by_cases hc : eps < treeDot (fun i => g i - g0 i) (fun i => z i - y i)
    · have hc0 := lt_of_le_of_lt he hc
      rw [guarded_direct_pos _ _ _ _ _ _ _ _ _ _ hc, guarded_direct_pos, point_sub, dir_sub, dot_dir]
      · refine .direct f g (hd h _ _ _) (hp _ _ _ p hc0) ?_
        have := hp' _ (m.Q.mulVec fun i => g i - g0 i) (m.Q.mulVec fun i => z i - y i) p' (by rw [dot_dir]; exact hc0)
        rwa [dot_dir] at this
      · rw [point_sub, dir_sub, dot_dir]; exact hc
    · rw [guarded_direct_neg _ _ _ _ _ _ _ _ _ _ hc, guarded_direct_neg]
      · exact .direct f g h p p'
      · rw [point_sub, dir_sub, dot_dir]; exact hc
  | inverse f0 g0 h =>
    by_cases hc : eps < treeDot (fun i => g i - g0 i) (fun i => z i - y i)
    · rw [guarded_inverse_pos _ _ _ _ _ _ _ _ _ _ hc, guarded_inverse_pos, point_sub, dir_sub, dot_dir]
      · exact .inverse f g (hi h _ _ _)
      · rw [point_sub, dir_sub, dot_dir]; exact hc
    · rw [guarded_inverse_neg _ _ _ _ _ _ _ _ _ _ hc, guarded_inverse_neg]
      · exact .inverse f g h
      · rw [point_sub, dir_sub, dot_dir]; exact hc

theorem bfgs_same [DecidableEq ι'] (eps : ℝ) (he : 0 ≤ eps) (b : Bool) :
    HessianSame m (bfgs eps b) (bfgs eps b) fun i i' => HessRel m i.1 i'.1 where
  rel _ _ h := h
  init y y' f := initIdentity_same b y y' f
  update y z i i' f g h := guarded_same eps he commutes_bfgsInv commutes_bfgsDirect
    (fun M d s => bfgs_spd false M d s) (fun M d s => bfgs_spd false M d s) y z i.1 i'.1 f g h

theorem dfp_same [DecidableEq ι'] (eps : ℝ) (he : 0 ≤ eps) (b : Bool) :
    HessianSame m (dfp eps b) (dfp eps b) fun i i' => HessRel m i.1 i'.1 where
  rel _ _ h := h
  init y y' f := initIdentity_same b y y' f
  update y z i i' f g h := guarded_same eps he commutes_dfpInv commutes_dfpDirect
    (fun M d s => dfp_spd false M d s) (fun M d s => dfp_spd false M d s) y z i.1 i'.1 f g h

/-! ### Limited memory -/

/-- A curvature pair in the new coordinates. -/
def pairMap (m : Coordinates ι ι') (p : Pair ι) : Pair ι' := (m.Q.mulVec p.1, m.Q.mulVec p.2)

theorem commutes_twoSided [DecidableEq ι'] {H : Matrix ι ι ℝ} {H' : Matrix ι' ι' ℝ} (h : Commutes m H H') (d s : ι → ℝ) :
    Commutes m (textbookTwoSided H d s) (textbookTwoSided H' (m.Q.mulVec d) (m.Q.mulVec s)) := by
  intro v
  have e1 := textbookTwoSided_mulVec H d s v
  have e2 := textbookTwoSided_mulVec H' (m.Q.mulVec d) (m.Q.mulVec s) (m.Q.mulVec v)
  rw [e1, e2, dot_dir, dot_dir]
  generalize 1 / treeDot d s * treeDot s v = a
  have hr : (H'.mulVec fun c => m.Q.mulVec v c - a * m.Q.mulVec d c) = m.Q.mulVec (H.mulVec fun c => v c - a * d c) := by
    rw [← h, ← dir_sub, ← dir_smul]
  rw [hr, dot_dir]
  generalize (H.mulVec fun c => v c - a * d c) = r
  generalize a - 1 / treeDot d s * treeDot d r = c
  have e : (fun i => r i + s i * c) = fun i => r i + c * s i := by funext i; ring
  rw [e, ← dir_add, ← dir_smul]
  funext i
  ring

theorem commutes_rankTwo {H : Matrix ι ι ℝ} {H' : Matrix ι' ι' ℝ} (h : Commutes m H H') (d s : ι → ℝ) :
    Commutes m (textbookRankTwo H d s) (textbookRankTwo H' (m.Q.mulVec d) (m.Q.mulVec s)) := by
  intro v
  rw [textbookRankTwo_mulVec, textbookRankTwo_mulVec, h v, h s, dot_dir, dot_dir, dot_dir, dot_dir, ← dir_add, ← dir_sub,
    ← dir_smul, ← dir_smul]

theorem commutes_foldl {upd : Matrix ι ι ℝ → (ι → ℝ) → (ι → ℝ) → Matrix ι ι ℝ}
    {upd' : Matrix ι' ι' ℝ → (ι' → ℝ) → (ι' → ℝ) → Matrix ι' ι' ℝ}
    (hu : ∀ {H H'}, Commutes m H H' → ∀ d s, Commutes m (upd H d s) (upd' H' (m.Q.mulVec d) (m.Q.mulVec s))) :
    ∀ (l : List (Pair ι)) {H : Matrix ι ι ℝ} {H' : Matrix ι' ι' ℝ}, Commutes m H H' →
      Commutes m (l.foldl (fun H p => upd H p.2 p.1) H) ((l.map (pairMap m)).foldl (fun H p => upd' H p.2 p.1) H')
  | [], _, _, h => h
  | p :: l, _, _, h => commutes_foldl hu l (hu h p.2 p.1)

theorem commutes_denseInverse [DecidableEq ι'] (l : List (Pair ι)) :
    Commutes m (denseInverse l) (denseInverse (l.map (pairMap m))) := by
  refine commutes_foldl (upd := textbookTwoSided) (upd' := textbookTwoSided) commutes_twoSided l ?_
  rw [List.getLast?_map]
  cases l.getLast? with
  | none => exact commutes_one
  | some p =>
    simp only [Option.map_some, pairMap, ← treeDot_eq, dot_dir]
    exact commutes_smul_one _

theorem commutes_denseHessian [DecidableEq ι'] (l : List (Pair ι)) :
    Commutes m (denseHessian l) (denseHessian (l.map (pairMap m))) := by
  refine commutes_foldl (upd := textbookRankTwo) (upd' := textbookRankTwo) commutes_rankTwo l ?_
  rw [List.getLast?_map]
  cases l.getLast? with
  | none => exact commutes_one
  | some p =>
    simp only [Option.map_some, pairMap, ← treeDot_eq, dot_dir]
    exact commutes_smul_one _

theorem lastN_map {α β : Type} (h : ℕ) (f : α → β) (l : List α) : lastN h (l.map f) = (lastN h l).map f := by
  simp [lastN, List.map_drop]

open LBFGS

/-- What `LBFGS(use_inverse=True)` stores. -/
def InvRel {h : ℕ} [NeZero h] [DecidableEq ι'] (m : Coordinates ι ι') (i : FnInfo ι Unit × InvState ι h)
    (i' : FnInfo ι' Unit × InvState ι' h) : Prop :=
  ∃ l f g, InvInv i.2 l ∧ InvInv i'.2 (l.map (pairMap m)) ∧
    i.1 = .evalGradHessianInv f g (operatorMatrix (invOperator i.2)) ∧
    i'.1 = .evalGradHessianInv f (m.Q.mulVec g) (operatorMatrix (invOperator i'.2))

theorem lbfgs_inverse_same [DecidableEq ι'] (eps : ℝ) (he : 0 ≤ eps) (h : ℕ) [NeZero h] :
    HessianSame m (inverse eps h) (inverse eps h) (InvRel m) where
  rel i i' := by
    rintro ⟨l, f, g, h1, h2, e1, e2⟩
    rw [e1, e2]
    refine .inverse f g ?_
    rw [invOperator_matrix _ _ h1, invOperator_matrix _ _ h2, lastN_map]
    exact commutes_denseInverse _
  init y y' f := ⟨[], f, fun _ => 0, invInv_init, invInv_init, rfl, by rw [← dir_zero]; rfl⟩
  update y z i i' f g := by
    rintro ⟨l, f0, g0, h1, h2, e1, e2⟩
    obtain ⟨i, st⟩ := i
    obtain ⟨i', st'⟩ := i'
    simp only at h1 h2 e1 e2
    subst e1 e2
    have u1 := inverse_update eps h y z g0 g f0 f (operatorMatrix (invOperator st)) st
    have u2 := inverse_update eps h (m.point y) (m.point z) (m.Q.mulVec g0) (m.Q.mulVec g) f0 f (operatorMatrix (invOperator st')) st'
    simp only [point_sub, dir_sub] at u2
    rw [dot_dir] at u2
    by_cases hc : eps < treeDot (fun i => z i - y i) (fun i => g i - g0 i)
    · rw [u1.trans (if_pos hc), u2.trans (if_pos hc)]
      refine ⟨l ++ [(fun i => z i - y i, fun i => g i - g0 i)], f, g, invInv_record eps he st l _ _ h1 hc, ?_, rfl, rfl⟩
      have := invInv_record eps he st' _ (m.Q.mulVec fun i => z i - y i) (m.Q.mulVec fun i => g i - g0 i) h2
        (by rw [dot_dir]; exact hc)
      rw [dot_dir] at this
      rw [List.map_append]
      exact this
    · rw [u1.trans (if_neg hc), u2.trans (if_neg hc)]
      exact ⟨l, f, g, h1, h2, rfl, rfl⟩

/-- What `LBFGS(use_inverse=False)` stores. -/
def DirRel {h : ℕ} [NeZero h] [DecidableEq ι'] (la : DenseLA h) (m : Coordinates ι ι') (i : FnInfo ι Unit × DirState ι h)
    (i' : FnInfo ι' Unit × DirState ι' h) : Prop :=
  ∃ l f g, DirInv i.2 l ∧ DirInv i'.2 (l.map (pairMap m)) ∧
    i.1 = .evalGradHessian f g (operatorMatrix (dirOperator la i.2)) ∧
    i'.1 = .evalGradHessian f (m.Q.mulVec g) (operatorMatrix (dirOperator la i'.2))

omit [Fintype ι'] [Fintype κ] [Fintype κ'] [DecidableEq κ] in
theorem dirOperator_matrix {h : ℕ} [NeZero h] (la : DenseLA h) (hla : ExactLA la) (st : DirState ι h) (l : List (Pair ι))
    (hst : DirInv st l) : operatorMatrix (dirOperator la st) = denseHessian (lastN h l) := by
  rw [show dirOperator la st = fun x => (denseHessian (lastN h l)).mulVec x from funext (dirOperator_eq la hla st l hst),
    operatorMatrix_mulVec]

theorem lbfgs_direct_same [DecidableEq ι'] (eps : ℝ) (he : 0 ≤ eps) (h : ℕ) [NeZero h] (la : DenseLA h) (hla : ExactLA la) :
    HessianSame m (direct eps h la) (direct eps h la) (DirRel la m) where
  rel i i' := by
    rintro ⟨l, f, g, h1, h2, e1, e2⟩
    rw [e1, e2]
    rw [dirOperator_matrix la hla _ _ h1, dirOperator_matrix la hla _ _ h2]
    refine .direct f g ?_ (denseHessian_spd _ (h1.positive.lastN h)) (denseHessian_spd _ (h2.positive.lastN h))
    rw [lastN_map]
    exact commutes_denseHessian _
  init y y' f := ⟨[], f, fun _ => 0, dirInv_init, dirInv_init, rfl, by rw [← dir_zero]; rfl⟩
  update y z i i' f g := by
    rintro ⟨l, f0, g0, h1, h2, e1, e2⟩
    obtain ⟨i, st⟩ := i
    obtain ⟨i', st'⟩ := i'
    simp only at h1 h2 e1 e2
    subst e1 e2
    have u1 := direct_update eps h la y z g0 g f0 f (operatorMatrix (dirOperator la st)) st
    have u2 := direct_update eps h la (m.point y) (m.point z) (m.Q.mulVec g0) (m.Q.mulVec g) f0 f
      (operatorMatrix (dirOperator la st')) st'
    simp only [point_sub, dir_sub] at u2
    rw [dot_dir] at u2
    by_cases hc : eps < treeDot (fun i => z i - y i) (fun i => g i - g0 i)
    · have hc0 : 0 < treeDot (fun i => g i - g0 i) (fun i => z i - y i) := by rw [dot_comm]; exact lt_of_le_of_lt he hc
      rw [u1.trans (if_pos hc), u2.trans (if_pos hc)]
      refine ⟨l ++ [(fun i => z i - y i, fun i => g i - g0 i)], f, g, dirInv_record st l _ _ h1 hc0, ?_, rfl, rfl⟩
      have := dirInv_record st' _ (m.Q.mulVec fun i => z i - y i) (m.Q.mulVec fun i => g i - g0 i) h2
        (by rw [dot_dir]; exact hc0)
      rw [List.map_append]
      exact this
    · rw [u1.trans (if_neg hc), u2.trans (if_neg hc)]
      exact ⟨l, f, g, h1, h2, rfl, rfl⟩

end Verif.Rigid
