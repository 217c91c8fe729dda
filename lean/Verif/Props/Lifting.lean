import Verif.Props.Together
import Verif.Props.Constraints

/-!
Property C149: giving names to affine expressions of the unknowns, that is, adding unknowns together with affine equations that define them, does
not change what `Newton` and `Chord` do.
-/

namespace Verif.Props
open Verif Verif.Spec Verif.Driver Verif.NewtonChord Matrix

variable {ι μ A : Type} [Fintype ι] [Fintype μ]

/-- The unknowns `x` together with the values `M x + b` of the named expressions. -/
def withNames (M : Matrix μ ι ℝ) (b : μ → ℝ) (x : ι → ℝ) : ι ⊕ μ → ℝ := both x fun m => M.mulVec x m + b m

/-- The system with names: the equations `F(x, u) = 0` together with `u - (M x + b) = 0`. -/
def named (F : (ι ⊕ μ → ℝ) → (ι → ℝ) × A) (M : Matrix μ ι ℝ) (b : μ → ℝ) (z : ι ⊕ μ → ℝ) : (ι ⊕ μ → ℝ) × A :=
  (both (F z).1 fun m => z (.inr m) - (M.mulVec (fun i => z (.inl i)) m + b m), (F z).2)

/-- The system without names: the expressions are substituted. -/
def substituted (F : (ι ⊕ μ → ℝ) → (ι → ℝ) × A) (M : Matrix μ ι ℝ) (b : μ → ℝ) (x : ι → ℝ) : (ι → ℝ) × A := F (withNames M b x)

omit [Fintype μ] in
theorem named_withNames (F : (ι ⊕ μ → ℝ) → (ι → ℝ) × A) (M : Matrix μ ι ℝ) (b : μ → ℝ) (x : ι → ℝ) :
    (named F M b (withNames M b x)).1 = both (substituted F M b x).1 fun _ => 0 := by
  funext j
  cases j with
  | inl i => rfl
  | inr m => exact sub_self _

/-- How the two Jacobians are related: by the chain rule. -/
structure SameJacobian (M : Matrix μ ι ℝ) (J : Matrix (ι ⊕ μ) (ι ⊕ μ) ℝ) (J₁ : Matrix ι ι ℝ) : Prop where
  along : ∀ v, J.mulVec (both v (M.mulVec v)) = both (J₁.mulVec v) fun _ => 0
  names : ∀ z m, J.mulVec z (.inr m) = z (.inr m) - M.mulVec (fun i => z (.inl i)) m

theorem same_jacobian (F : (ι ⊕ μ → ℝ) → (ι → ℝ) × A) (M : Matrix μ ι ℝ) (b : μ → ℝ) (J : (ι ⊕ μ → ℝ) → Matrix (ι ⊕ μ) (ι ⊕ μ) ℝ)
    (J₁ : (ι → ℝ) → Matrix ι ι ℝ) (hJ : ∀ z, HasFDerivAt (fun z => (named F M b z).1) (LinearMap.toContinuousLinearMap (J z).mulVecLin) z)
    (hJ₁ : ∀ x, HasFDerivAt (fun x => (substituted F M b x).1) (LinearMap.toContinuousLinearMap (J₁ x).mulVecLin) x) (x : ι → ℝ) :
    SameJacobian M (J (withNames M b x)) (J₁ x) := by
  constructor
  · intro v
    have h1 : HasFDerivAt (withNames M b) (ContinuousLinearMap.pi fun j : ι ⊕ μ => Sum.elim
        (fun i => ContinuousLinearMap.proj (R := ℝ) (φ := fun _ : ι => ℝ) i)
        (fun m => (ContinuousLinearMap.proj (R := ℝ) (φ := fun _ : μ => ℝ) m).comp (LinearMap.toContinuousLinearMap M.mulVecLin)) j) x := by
      refine hasFDerivAt_pi.2 fun j => ?_
      cases j with
      | inl i => exact hasFDerivAt_apply (𝕜 := ℝ) i x
      | inr m =>
        have h2 : HasFDerivAt (fun x : ι → ℝ => M.mulVec x) (LinearMap.toContinuousLinearMap M.mulVecLin) x :=
          (LinearMap.toContinuousLinearMap M.mulVecLin).hasFDerivAt
        exact ((hasFDerivAt_pi'.1 h2) m).add_const (b m)
    have h2 := (hJ (withNames M b x)).comp x h1
    have e : (fun z => (named F M b z).1) ∘ withNames M b = fun x => both (substituted F M b x).1 fun _ => (0 : ℝ) :=
      funext fun x => named_withNames F M b x
    rw [e] at h2
    funext j
    have h3 := (hasFDerivAt_pi'.1 h2) j
    cases j with
    | inl i =>
      have h4 := (hasFDerivAt_pi'.1 (hJ₁ x)) i
      have h5 := congrArg (fun L => L v) (h3.unique h4)
      refine Eq.trans ?_ h5
      show (J (withNames M b x)).mulVec _ _ = (J (withNames M b x)).mulVec _ _
      congr 1
      funext j
      cases j <;> rfl
    | inr m =>
      have h4 : HasFDerivAt (fun _ : ι → ℝ => (0 : ℝ)) (0 : (ι → ℝ) →L[ℝ] ℝ) x := hasFDerivAt_const 0 x
      have h5 := congrArg (fun L => L v) (h3.unique h4)
      refine Eq.trans ?_ h5
      show (J (withNames M b x)).mulVec _ _ = (J (withNames M b x)).mulVec _ _
      congr 1
      funext j
      cases j <;> rfl
  · intro z m
    classical
    have h1 := affine_rows (fun z => (named F M b z).1) J hJ (Pi.single (.inr m) 1) (Sum.elim (fun i => -M m i) (Pi.single m 1)) (-b m)
      (fun y => by
        simp only [Pi.single_apply, ite_mul, one_mul, zero_mul, Finset.sum_ite_eq', Finset.mem_univ, if_true, Fintype.sum_sum_type, Sum.elim_inl,
          Sum.elim_inr, named, both, mulVec, dotProduct, neg_mul, Finset.sum_neg_distrib]
        ring) (withNames M b x) z
    simp only [Pi.single_apply, ite_mul, one_mul, zero_mul, Finset.sum_ite_eq', Finset.mem_univ, if_true, Fintype.sum_sum_type, Sum.elim_inl,
          Sum.elim_inr, neg_mul, Finset.sum_neg_distrib] at h1
    rw [h1, mulVec, dotProduct]
    ring

theorem SameJacobian.regular {M : Matrix μ ι ℝ} {J : Matrix (ι ⊕ μ) (ι ⊕ μ) ℝ} {J₁ : Matrix ι ι ℝ} (h : SameJacobian M J J₁)
    (hreg : ∀ v, J₁.mulVec v = 0 → v = 0) (z : ι ⊕ μ → ℝ) (hz : J.mulVec z = 0) : z = 0 := by
  have h1 : z = both (fun i => z (.inl i)) (M.mulVec fun i => z (.inl i)) := by
    funext j
    cases j with
    | inl i => rfl
    | inr m =>
      have := h.names z m
      rw [hz] at this
      exact (sub_eq_zero.1 this.symm)
  have h2 : (fun i => z (.inl i)) = 0 := by
    refine hreg _ ?_
    have := h.along fun i => z (.inl i)
    rw [← h1, hz] at this
    funext i
    exact (congrFun this (.inl i)).symm
  rw [h1, h2, mulVec_zero]
  funext j
  cases j <;> rfl

theorem SameJacobian.solve {M : Matrix μ ι ℝ} {J : Matrix (ι ⊕ μ) (ι ⊕ μ) ℝ} {J₁ : Matrix ι ι ℝ} (h : SameJacobian M J J₁)
    (hreg : ∀ v, J₁.mulVec v = 0 → v = 0) {ls : Matrix (ι ⊕ μ) (ι ⊕ μ) ℝ → (ι ⊕ μ → ℝ) → (ι ⊕ μ → ℝ) × Result}
    {ls₁ : Matrix ι ι ℝ → (ι → ℝ) → (ι → ℝ) × Result} (hs : SolvesRegular ls) (hs₁ : SolvesRegular ls₁) (r : ι → ℝ) :
    ls J (both r fun _ => 0) = (both (ls₁ J₁ r).1 (M.mulVec (ls₁ J₁ r).1), .successful) ∧ (ls₁ J₁ r).2 = .successful := by
  obtain ⟨h1, h2⟩ := hs J (h.regular hreg) (both r fun _ => 0)
  obtain ⟨h3, h4⟩ := hs₁ J₁ hreg r
  refine ⟨Prod.ext ?_ h2, h4⟩
  have h5 : J.mulVec ((ls J (both r fun _ => 0)).1 - both (ls₁ J₁ r).1 (M.mulVec (ls₁ J₁ r).1)) = 0 := by
    rw [mulVec_sub, h1, h.along, h3, sub_self]
  exact sub_eq_zero.1 (h.regular hreg _ h5)

section solves
variable (c : Cfg (ι ⊕ μ) (ι ⊕ μ) ℝ (Matrix (ι ⊕ μ) (ι ⊕ μ) ℝ)) (c₁ : Cfg ι ι ℝ (Matrix ι ι ℝ)) (hN : c₁.isNewton = c.isNewton)
  (hb : c.lower = none ∧ c.upper = none) (hb₁ : c₁.lower = none ∧ c₁.upper = none) (hs : SolvesRegular c.linearSolve)
  (hs₁ : SolvesRegular c₁.linearSolve) (F : (ι ⊕ μ → ℝ) → (ι → ℝ) × A) (M : Matrix μ ι ℝ) (b : μ → ℝ)
  (hJ : ∀ z, HasFDerivAt (fun z => (named F M b z).1) (LinearMap.toContinuousLinearMap (c.jac z).mulVecLin) z)
  (hJ₁ : ∀ x, HasFDerivAt (fun x => (substituted F M b x).1) (LinearMap.toContinuousLinearMap (c₁.jac x).mulVecLin) x) (aux0 : A)

include hN hb hb₁ hs hs₁ hJ hJ₁

/-- **C149.** `Newton` and `Chord` without bounds: the iterates of the system with names, started with the right values of the names, are the
iterates of the system without names, together with the right values of the names, as long as the Jacobians met are regular.  No linear solve fails. -/
theorem C149_iterates (x0 : ι → ℝ)
    (hreg : ∀ k v, (c₁.jac (iterateAt (solver c₁) (substituted F M b) aux0 x0 (init c₁ x0) k)).mulVec v = 0 → v = 0) (k : ℕ) :
    iterateAt (solver c) (named F M b) aux0 (withNames M b x0) (init c (withNames M b x0)) k =
      withNames M b (iterateAt (solver c₁) (substituted F M b) aux0 x0 (init c₁ x0) k) ∧
    (stateAt (solver c) (named F M b) aux0 (withNames M b x0) (init c (withNames M b x0)) k).result = .successful ∧
    (stateAt (solver c₁) (substituted F M b) aux0 x0 (init c₁ x0) k).result = .successful := by
  have hstate : ∀ {α : Type} (d : Cfg α α ℝ (Matrix α α ℝ)) (f : (α → ℝ) → (α → ℝ) × A) (y0 : α → ℝ) (j : ℕ),
      (stateAt (solver d) f aux0 y0 (init d y0) j).linearState = if d.isNewton then none else some (d.jac y0) := by
    intro α d f y0 j
    induction j with
    | zero => rfl
    | succ j ih => exact ih
  induction k with
  | zero => exact ⟨rfl, rfl, rfl⟩
  | succ k ih =>
    obtain ⟨ih, -, -⟩ := ih
    set X := iterateAt (solver c₁) (substituted F M b) aux0 x0 (init c₁ x0) with hX
    set Z := iterateAt (solver c) (named F M b) aux0 (withNames M b x0) (init c (withNames M b x0)) with hZ
    set x' := if c.isNewton then X k else x0 with hx'
    have hr : ∀ v, (c₁.jac x').mulVec v = 0 → v = 0 := by
      rw [hx']
      split_ifs
      · exact hreg k
      · exact hreg 0
    have hsame := same_jacobian F M b c.jac c₁.jac hJ hJ₁ x'
    have h1 : linSol c (Z k) (named F M b (Z k)).1 (stateAt (solver c) (named F M b) aux0 (withNames M b x0) (init c (withNames M b x0)) k) =
        c.linearSolve (c.jac (withNames M b x')) (both (substituted F M b (X k)).1 fun _ => 0) := by
      unfold linSol
      rw [hstate c, ih, named_withNames]
      cases hN' : c.isNewton <;> simp [hx', hN']
    have h2 : linSol c₁ (X k) (substituted F M b (X k)).1 (stateAt (solver c₁) (substituted F M b) aux0 x0 (init c₁ x0) k) =
        c₁.linearSolve (c₁.jac x') (substituted F M b (X k)).1 := by
      unfold linSol
      rw [hstate c₁, hN]
      cases hN' : c.isNewton <;> simp [hx', hN']
    obtain ⟨h3, h4⟩ := hsame.solve hr hs hs₁ (substituted F M b (X k)).1
    refine ⟨?_, ?_, ?_⟩
    · have e1 : Z (k + 1) = fun j => Z k j - (linSol c (Z k) (named F M b (Z k)).1
          (stateAt (solver c) (named F M b) aux0 (withNames M b x0) (init c (withNames M b x0)) k)).1 j := by
        show clipBounds c.lower c.upper _ = _
        rw [hb.1, hb.2]; rfl
      have e2 : X (k + 1) = fun i => X k i - (linSol c₁ (X k) (substituted F M b (X k)).1
          (stateAt (solver c₁) (substituted F M b) aux0 x0 (init c₁ x0) k)).1 i := by
        show clipBounds c₁.lower c₁.upper _ = _
        rw [hb₁.1, hb₁.2]; rfl
      rw [e1, e2, h1, h2, h3, ih]
      funext j
      cases j with
      | inl i => rfl
      | inr m =>
        show M.mulVec (X k) m + b m - M.mulVec _ m = M.mulVec (X k - _) m + b m
        rw [mulVec_sub, Pi.sub_apply]
        ring
    · show (linSol c _ _ _).2 = _
      exact (congrArg Prod.snd h1).trans (congrArg Prod.snd h3)
    · show (linSol c₁ _ _ _).2 = _
      exact (congrArg Prod.snd h2).trans h4

/-- **C149**, the answers: the answer of the solve with names consists of the right values of the names and an iterate of the solve without names; and
if both take equally many steps, the answers agree. -/
theorem C149_answers (x0 : ι → ℝ)
    (hreg : ∀ k v, (c₁.jac (iterateAt (solver c₁) (substituted F M b) aux0 x0 (init c₁ x0) k)).mulVec v = 0 → v = 0)
    (af : (ι ⊕ μ → ℝ) → Bool) (af₁ : (ι → ℝ) → Bool) (ms ms₁ : Option ℕ) (throw throw₁ : Bool) (sol sol₁)
    (h : iterativeSolve (solver c) af (named F M b) aux0 (withNames M b x0) ms throw = some (.ok sol))
    (h₁ : iterativeSolve (solver c₁) af₁ (substituted F M b) aux0 x0 ms₁ throw₁ = some (.ok sol₁)) :
    sol.value = withNames M b (iterateAt (solver c₁) (substituted F M b) aux0 x0 (init c₁ x0) sol.numSteps) ∧
    (sol.numSteps = sol₁.numSteps → sol.value = withNames M b sol₁.value) := by
  obtain ⟨st, hi, -, -, -, -, hp, -⟩ := solve_spec _ _ _ _ _ _ _ _ h
  obtain ⟨st₁, hi₁, -, -, -, -, hp₁, -⟩ := solve_spec _ _ _ _ _ _ _ _ h₁
  obtain rfl : init c (withNames M b x0) = st := Except.ok.inj hi
  obtain rfl : init c₁ x0 = st₁ := Except.ok.inj hi₁
  have hv : sol.value = iterateAt (solver c) (named F M b) aux0 (withNames M b x0) (init c (withNames M b x0)) sol.numSteps := congrArg Prod.fst hp
  have hv₁ : sol₁.value = iterateAt (solver c₁) (substituted F M b) aux0 x0 (init c₁ x0) sol₁.numSteps := congrArg Prod.fst hp₁
  have key := (C149_iterates c c₁ hN hb hb₁ hs hs₁ F M b hJ hJ₁ aux0 x0 hreg sol.numSteps).1
  refine ⟨hv.trans key, fun hn => ?_⟩
  rw [hv₁, ← hn]
  exact hv.trans key

end solves

/-! ### The hypotheses are met -/

/-- `x³ + u = 0` with the name `u = 3 x + 1`: the system without names is `x³ + 3 x + 1 = 0`. -/
example (c : Cfg (Unit ⊕ Unit) (Unit ⊕ Unit) ℝ (Matrix (Unit ⊕ Unit) (Unit ⊕ Unit) ℝ)) (c₁ : Cfg Unit Unit ℝ (Matrix Unit Unit ℝ))
    (hN : c₁.isNewton = c.isNewton) (hb : c.lower = none ∧ c.upper = none) (hb₁ : c₁.lower = none ∧ c₁.upper = none)
    (hs : SolvesRegular c.linearSolve) (hs₁ : SolvesRegular c₁.linearSolve)
    (hj : c.jac = fun z => fromBlocks (of fun _ _ => 3 * z (.inl ()) ^ 2) (of fun _ _ => 1) (of fun _ _ => -3) (of fun _ _ => 1))
    (hj₁ : c₁.jac = fun x => of fun _ _ => 3 * x () ^ 2 + 3) (x0 : Unit → ℝ) (k : ℕ) :
    iterateAt (solver c) (named (fun z => ((fun _ => z (.inl ()) ^ 3 + z (.inr ())), ())) (of fun _ _ => 3) fun _ => 1) ()
        (withNames (of fun _ _ => 3) (fun _ => 1) x0) (init c (withNames (of fun _ _ => 3) (fun _ => 1) x0)) k (.inr ()) =
      3 * iterateAt (solver c₁) (substituted (fun z => ((fun _ => z (.inl ()) ^ 3 + z (.inr ())), ())) (of fun _ _ => 3) fun _ => 1) () x0
        (init c₁ x0) k () + 1 := by
  have h := (C149_iterates c c₁ hN hb hb₁ hs hs₁ (fun z => ((fun _ => z (.inl ()) ^ 3 + z (.inr ())), ())) (of fun _ _ => 3) (fun _ => 1)
    (fun z => by
      rw [hj]
      refine hasFDerivAt_pi'.2 fun j => ?_
      have h0 : HasFDerivAt (fun y : Unit ⊕ Unit → ℝ => y (.inl ())) (ContinuousLinearMap.proj (R := ℝ) (φ := fun _ : Unit ⊕ Unit => ℝ) (.inl ())) z :=
        hasFDerivAt_apply (𝕜 := ℝ) _ z
      have h1 : HasFDerivAt (fun y : Unit ⊕ Unit → ℝ => y (.inr ())) (ContinuousLinearMap.proj (R := ℝ) (φ := fun _ : Unit ⊕ Unit => ℝ) (.inr ())) z :=
        hasFDerivAt_apply (𝕜 := ℝ) _ z
      rcases j with j | j
      · refine ((h0.pow 3).add h1).congr_fderiv ?_
        ext v
        simp [fromBlocks_mulVec, mulVec, dotProduct]
      · have h2 : HasFDerivAt (fun y : Unit ⊕ Unit → ℝ => y (.inr ()) - (3 * y (.inl ()) + 1)) _ z := h1.sub ((h0.const_mul 3).add_const 1)
        have e : (fun y : Unit ⊕ Unit → ℝ => (named (fun z : Unit ⊕ Unit → ℝ => ((fun _ : Unit => z (.inl ()) ^ 3 + z (.inr ())), ()))
            (of fun _ _ => 3) (fun _ => 1) y).1 (.inr j)) = fun y => y (.inr ()) - (3 * y (.inl ()) + 1) := by
          funext y
          simp [named, both, mulVec, dotProduct]
        rw [e]
        refine h2.congr_fderiv ?_
        ext v
        simp [fromBlocks_mulVec, mulVec, dotProduct]
        ring)
    (fun x => by
      rw [hj₁]
      refine hasFDerivAt_pi'.2 fun j => ?_
      have h0 : HasFDerivAt (fun y : Unit → ℝ => y ()) (ContinuousLinearMap.proj (R := ℝ) (φ := fun _ : Unit => ℝ) ()) x := hasFDerivAt_apply (𝕜 := ℝ) _ x
      have e : (fun y : Unit → ℝ => (substituted (fun z : Unit ⊕ Unit → ℝ => ((fun _ : Unit => z (.inl ()) ^ 3 + z (.inr ())), ()))
          (of fun _ _ => 3) (fun _ => 1) y).1 j) = fun y => y () ^ 3 + (3 * y () + 1) := by
        funext y
        simp [substituted, withNames, both, mulVec, dotProduct]
      rw [e]
      refine ((h0.pow 3).add ((h0.const_mul 3).add_const 1)).congr_fderiv ?_
      ext v
      simp [mulVec, dotProduct]
      ring) () x0
    (fun k v hv => by
      rw [hj₁] at hv
      have h1 := congrFun hv ()
      simp only [mulVec, dotProduct, of_apply, Finset.univ_unique, Finset.sum_singleton, Pi.zero_apply] at h1
      rcases mul_eq_zero.1 h1 with h2 | h2
      · nlinarith [sq_nonneg (iterateAt (solver c₁) (substituted (fun z => ((fun _ => z (.inl ()) ^ 3 + z (.inr ())), ())) (of fun _ _ => 3) fun _ => 1) () x0
        (init c₁ x0) k ())]
      · funext u; exact h2) k).1
  rw [h]
  simp [withNames, both, mulVec, dotProduct]

end Verif.Props
