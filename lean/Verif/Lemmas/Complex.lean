import Verif.Spec.Complex
import Verif.Lemmas.RigidSteps
import Mathlib.Analysis.SpecialFunctions.Sqrt

/-!
Complex vectors and matrices in real and imaginary parts (C92).
-/

namespace Verif.Cx

open ComplexConjugate Matrix Verif.Rank Verif.Spec Verif.Props

variable {ι κ A SS DS DS' : Type}

/-! ### Vectors -/

@[simp] theorem join_split (z : ι → ℂ) : join (split z) = z := by funext i; rfl

@[simp] theorem split_join (v : ι ⊕ ι → ℝ) : split (join v) = v := by funext s; cases s <;> rfl

theorem split_injective : Function.Injective (split : (ι → ℂ) → _) := fun a b h => by
  rw [← join_split a, h, join_split]

theorem split_sub (a b : ι → ℂ) : (split fun i => a i - b i) = fun s => split a s - split b s := by
  funext s; cases s <;> simp [split]

theorem split_add (a b : ι → ℂ) : (split fun i => a i + b i) = fun s => split a s + split b s := by
  funext s; cases s <;> simp [split]

theorem split_neg (a : ι → ℂ) : (split fun i => -a i) = fun s => -split a s := by
  funext s; cases s <;> simp [split]

theorem split_smul (c : ℝ) (a : ι → ℂ) : (split fun i => c * a i) = fun s => c * split a s := by
  funext s; cases s <;> simp [split]

theorem split_zero : split (fun _ : ι => 0) = fun _ => 0 := by
  funext s; cases s <;> simp [split]

/-! ### Matrices -/

theorem splitMatrix_zero : splitMatrix (0 : Matrix κ ι ℂ) = 0 := by
  ext s t; cases s <;> cases t <;> simp [splitMatrix]

theorem split_mulVec [Fintype ι] (M : Matrix κ ι ℂ) (z : ι → ℂ) : (splitMatrix M).mulVec (split z) = split (M.mulVec z) := by
  funext s
  cases s with
  | inl k =>
    simp only [splitMatrix, mulVec, dotProduct, Fintype.sum_sum_type, fromBlocks_apply₁₁, fromBlocks_apply₁₂, map_apply,
      neg_apply, split, Complex.re_sum, Complex.mul_re]
    rw [← Finset.sum_add_distrib]
    exact Finset.sum_congr rfl fun i _ => by
      show _ + -(M k i).im * _ = _
      ring
  | inr k =>
    simp only [splitMatrix, mulVec, dotProduct, Fintype.sum_sum_type, fromBlocks_apply₂₁, fromBlocks_apply₂₂, map_apply,
      split, Complex.im_sum, Complex.mul_im]
    rw [← Finset.sum_add_distrib]
    exact Finset.sum_congr rfl fun _ _ => by ring

theorem split_transpose (M : Matrix κ ι ℂ) : (splitMatrix M).transpose = splitMatrix M.conjTranspose := by
  ext s t; cases s <;> cases t <;> simp [splitMatrix]

theorem splitMatrix_kernel [Fintype ι] {M : Matrix κ ι ℂ} (h : ∀ z, M.mulVec z = 0 → z = 0) (v : ι ⊕ ι → ℝ)
    (hv : (splitMatrix M).mulVec v = 0) : v = 0 := by
  rw [← split_join v, split_mulVec, show (0 : κ ⊕ κ → ℝ) = split (fun _ => 0) from split_zero.symm] at hv
  rw [← split_join v, h _ (split_injective hv)]
  exact split_zero

/-! ### Norms -/

theorem split_sumSquares [Fintype ι] (z : ι → ℂ) : Verif.sumSquares (split z) = sumSquares z := by
  simp only [Verif.sumSquares, sumSquares, Fintype.sum_sum_type, split, ← Finset.sum_add_distrib]
  exact Finset.sum_congr rfl fun i _ => by rw [Complex.sq_norm, Complex.normSq_apply]

theorem split_twoNorm [Fintype ι] (z : ι → ℂ) : Verif.twoNorm (split z) = twoNorm z := by
  rw [Verif.twoNorm, split_sumSquares, twoNorm]

/-! ### Linear solves -/

theorem injective_split {ls : LinSolve ι κ} {ls' : Matrix (κ ⊕ κ) (ι ⊕ ι) ℝ → (κ ⊕ κ → ℝ) → (ι ⊕ ι → ℝ) × Result}
    [Fintype ι] [Fintype κ] (h : SolvesInjective ls) (h' : SolvesInjective ls') {M : Matrix κ ι ℂ}
    (hM : ∀ z, M.mulVec z = 0 → z = 0) {b : κ → ℂ} (hb : ∃ x, M.mulVec x = b) :
    ls' (splitMatrix M) (split b) = (split (ls M b).1, (ls M b).2) := by
  obtain ⟨x, rfl⟩ := hb
  rw [h M x hM, ← split_mulVec, h' _ _ (splitMatrix_kernel hM)]

variable [Fintype ι] [Fintype κ]

/-- Related information about a residual function. -/
inductive JacSplits : FnInfo ι κ → Verif.FnInfo (ι ⊕ ι) (κ ⊕ κ) → Prop
  | mk (r : κ → ℂ) (J : Matrix κ ι ℂ) : JacSplits (.residualJac r J) (.residualJac (split r) (splitMatrix J))

theorem newton_split {ls : LinSolve ι κ} {ls' : Verif.LinSolve (ι ⊕ ι) (κ ⊕ κ)} (hls : SolvesMinimal ls)
    (hls' : Rigid.SolvesMinimal ls') {i : FnInfo ι κ} {i' : Verif.FnInfo (ι ⊕ ι) (κ ⊕ κ)} (h : JacSplits i i') :
    Verif.newtonStep ls' i' = (split (newtonStep ls i).1, (newtonStep ls i).2) := by
  cases h with
  | mk r J =>
    obtain ⟨h1, ⟨w, hw⟩, s1⟩ := hls J r
    obtain ⟨h2, s2⟩ := hls' (splitMatrix J) (split r)
    refine Prod.ext (Rigid.minimal_unique h2 ⟨?_, split w, ?_⟩) (s2.trans s1.symm)
    · show (splitMatrix J).transpose.mulVec ((splitMatrix J).mulVec (split (ls J r).1)) = _
      rw [split_mulVec, split_transpose, split_mulVec, split_mulVec, h1]
    · show split (ls J r).1 = _
      rw [hw, split_transpose, split_mulVec]

variable [DecidableEq ι]

omit [Fintype κ] in
theorem damped_kernel (J : Matrix κ ι ℂ) (l : ℝ) (hl : 0 < l) (v : ι → ℂ) (h : (dampedOperator J l).mulVec v = 0) : v = 0 := by
  funext i
  have := congrFun h (.inr i)
  simp only [dampedOperator, mulVec, dotProduct, of_apply, ite_mul, zero_mul, Finset.sum_ite_eq, Finset.mem_univ, if_true,
    Pi.zero_apply] at this
  exact (mul_eq_zero.1 this).resolve_left (Complex.ofReal_ne_zero.2 (Real.sqrt_pos.2 hl).ne')

/-- The normal equations of the damped problem. -/
theorem damped_normal (J : Matrix κ ι ℂ) (r : κ → ℂ) (l : ℝ) (hl : 0 ≤ l) (x : ι → ℂ)
    (h : (dampedOperator J l).conjTranspose.mulVec ((dampedOperator J l).mulVec x) =
      (dampedOperator J l).conjTranspose.mulVec (dampedVector r)) (i : ι) :
    J.conjTranspose.mulVec (J.mulVec x) i + l * x i = J.conjTranspose.mulVec r i := by
  have key : ∀ b : κ ⊕ ι → ℂ, (dampedOperator J l).conjTranspose.mulVec b i =
      J.conjTranspose.mulVec (fun k => b (.inl k)) i + Real.sqrt l * b (.inr i) := by
    intro b
    simp only [mulVec, dotProduct, Fintype.sum_sum_type, conjTranspose_apply, dampedOperator, of_apply]
    congr 1
    rw [Finset.sum_eq_single i]
    · simp
    · intro j _ hj; simp [hj]
    · simp
  have h1 := congrFun h i
  rw [key, key] at h1
  have e1 : (fun k => (dampedOperator J l).mulVec x (.inl k)) = J.mulVec x := by
    funext k; rfl
  have e2 : (dampedOperator J l).mulVec x (.inr i) = Real.sqrt l * x i := by
    simp [dampedOperator, mulVec, dotProduct]
  rw [e1, e2, ← mul_assoc, ← Complex.ofReal_mul, Real.mul_self_sqrt hl] at h1
  simpa [dampedVector] using h1

theorem damped_split {eps fmax : ℝ} (he : 0 ≤ eps) (hf : 0 < fmax) {ls : LinSolve ι (κ ⊕ ι)}
    {ls' : Verif.LinSolve (ι ⊕ ι) ((κ ⊕ κ) ⊕ (ι ⊕ ι))} (hls : SolvesFullRank ls) (hls' : Props.SolvesFullRank ls') (a : ℝ)
    {i : FnInfo ι κ} {i' : Verif.FnInfo (ι ⊕ ι) (κ ⊕ κ)} (h : JacSplits i i') :
    Verif.dampedNewtonStep eps fmax ls' a i' = (split (dampedNewtonStep eps fmax ls a i).1, (dampedNewtonStep eps fmax ls a i).2) := by
  cases h with
  | mk r J =>
    have hl := Props.lmParam_pos eps fmax a he hf
    obtain ⟨h1, s1⟩ := hls (dampedOperator J (lmParam eps fmax a)) (dampedVector r) (damped_kernel J _ hl)
    obtain ⟨h2, s2⟩ := hls' (Verif.dampedOperator (splitMatrix J) (lmParam eps fmax a)) (Rigid.damped_full_rank _ _ hl)
      (Verif.dampedVector (split r))
    refine Prod.ext ?_ (s2.trans s1.symm)
    show (ls'.rect (Verif.dampedOperator (splitMatrix J) (lmParam eps fmax a)) (Verif.dampedVector (split r))).1 =
      split (ls (dampedOperator J (lmParam eps fmax a)) (dampedVector r)).1
    generalize (ls'.rect (Verif.dampedOperator (splitMatrix J) (lmParam eps fmax a)) (Verif.dampedVector (split r))).1 = x' at h2
    generalize (ls (dampedOperator J (lmParam eps fmax a)) (dampedVector r)).1 = x at h1
    generalize lmParam eps fmax a = l at *
    have n1 := funext (damped_normal J r l hl.le x h1)
    have st : ∀ s, ∑ k, splitMatrix J k s * ((splitMatrix J).mulVec (fun t => -split x t) k + split r k) +
        l * -split x s = 0 := by
      have n2 := congrArg split n1
      rw [split_add, split_smul, ← split_mulVec, ← split_mulVec, ← split_transpose] at n2
      intro s
      have n3 := congrFun n2 s
      have e : (splitMatrix J).transpose.mulVec (split r) = split (J.conjTranspose.mulVec r) := by
        rw [split_transpose, split_mulVec]
      have n4 : (splitMatrix J).transpose.mulVec (fun k => (splitMatrix J).mulVec (fun t => -split x t) k + split r k) s =
          -((splitMatrix J).transpose.mulVec ((splitMatrix J).mulVec (split x)) s) + (splitMatrix J).transpose.mulVec (split r) s := by
        have : (fun k => (splitMatrix J).mulVec (fun t => -split x t) k + split r k) =
            -((splitMatrix J).mulVec (split x)) + split r := by
          funext k
          show (splitMatrix J).mulVec (-split x) k + _ = _
          rw [mulVec_neg]; rfl
        rw [this, mulVec_add, mulVec_neg]; rfl
      show (splitMatrix J).transpose.mulVec (fun k => (splitMatrix J).mulVec (fun t => -split x t) k + split r k) s + _ = 0
      rw [n4, e]
      show -_ + (split fun i => J.conjTranspose.mulVec r i) s + _ = _
      rw [← n3]
      ring
    have hmin : ∀ q, regularised (splitMatrix J) (split r) l (fun t => -split x t) ≤ regularised (splitMatrix J) (split r) l q := by
      intro q
      rw [regularised_expand _ _ l _ q st]
      have : 0 ≤ ∑ a, ((splitMatrix J).mulVec q a - (splitMatrix J).mulVec (fun t => -split x t) a) ^ 2 :=
        Finset.sum_nonneg fun _ _ => sq_nonneg _
      have := mul_nonneg hl.le (Finset.sum_nonneg fun i (_ : i ∈ Finset.univ) => sq_nonneg (q i - (fun t => -split x t) i))
      linarith
    have hmin' := damped_minimiser (splitMatrix J) (split r) l hl.le _ h2
    have heq : (fun t => -split x t) = fun t => -x' t := by
      by_contra hne
      exact absurd (regularised_unique _ _ l hl _ _ hmin' hne) (not_lt.2 (hmin _))
    funext s
    have := congrFun heq s
    linarith

end Verif.Cx
