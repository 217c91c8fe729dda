import Verif.Props.Bisection
import Verif.Props.FixedPointMonotone

/-!
Property C147: problems that are ordered have answers that are ordered.  Making a function larger everywhere moves the answers of `Bisection` to one
side, and those of `FixedPointIteration` on order-preserving functions up.
-/

namespace Verif.Props
open Verif Verif.Spec Verif.Driver

variable {ι A B : Type}

/-! ### Bisection -/

/-- What `Bisection` starts with if it does not expand the interval. -/
theorem bisection_start (cfg : Bisection.Cfg ℝ) (he : cfg.expand = false) (fn : ℝ → ℝ × A) (y0 : ℝ) (st0 : Bisection.State ℝ)
    (hi : (Bisection.solver cfg).init fn y0 = .ok st0) : st0.lower = cfg.lower ∧ st0.upper = cfg.upper ∧
      (cfg.flip = .fixed st0.flip ∨ cfg.flip = .detect ∧ (((fn cfg.lower).1 < 0 ∧ 0 ≤ (fn cfg.upper).1 ∧ st0.flip = false) ∨
        (0 ≤ (fn cfg.lower).1 ∧ (fn cfg.upper).1 < 0 ∧ st0.flip = true))) := by
  replace hi : Bisection.init cfg fn y0 = .ok st0 := hi
  unfold Bisection.init at hi
  rw [he] at hi
  split at hi
  · cases hi
  split at hi
  · split at hi
    · next b hb => cases hi; exact ⟨rfl, rfl, .inl hb⟩
    · next hb =>
      dsimp only at hi
      rw [if_neg (by decide)] at hi
      split at hi
      · cases hi
      · next hne =>
        cases hi
        refine ⟨rfl, rfl, .inr ⟨hb, ?_⟩⟩
        by_cases h1 : (fn cfg.lower).1 < 0 <;> by_cases h2 : (fn cfg.upper).1 < 0
        · simp [h1, h2] at hne
        · exact .inl ⟨h1, not_lt.1 h2, decide_eq_false (by simp only [gt_iff_lt, not_lt]; linarith [not_lt.1 h2])⟩
        · exact .inr ⟨not_lt.1 h1, h2, decide_eq_true (by simp only [gt_iff_lt]; linarith [not_lt.1 h1])⟩
        · simp [h1, h2] at hne
    · cases hi
  · cases hi

/-- One step of `Bisection` keeps the iterate in the interval. -/
theorem bisection_inside (fn : ℝ → ℝ × A) (y : ℝ) (st : Bisection.State ℝ) (h : st.lower ≤ y ∧ y ≤ st.upper) :
    let r := Bisection.step fn y st
    (r.2.1.lower ≤ r.1 ∧ r.1 ≤ r.2.1.upper) ∧ st.lower ≤ r.2.1.lower ∧ r.2.1.upper ≤ st.upper ∧ r.2.1.flip = st.flip := by
  obtain ⟨h1, h2⟩ := h
  unfold Bisection.step
  dsimp only
  split
  · exact ⟨⟨by norm_num; linarith, by norm_num; linarith⟩, h1, le_rfl, rfl⟩
  · exact ⟨⟨by norm_num; linarith, by norm_num; linarith⟩, le_rfl, h2, rfl⟩

/-- One step from the same point and interval. -/
theorem ordered_step (f : ℝ → ℝ × A) (g : ℝ → ℝ × B) (y : ℝ) (s t : Bisection.State ℝ) (hl : s.lower = t.lower) (hu : s.upper = t.upper)
    (hflip : s.flip = t.flip) (hr : (s.flip ^^ decide ((g y).1 < 0)) = true → (s.flip ^^ decide ((f y).1 < 0)) = true) :
    ((Bisection.step f y s).1 = (Bisection.step g y t).1 ∧ (Bisection.step f y s).2.1.lower = (Bisection.step g y t).2.1.lower ∧
      (Bisection.step f y s).2.1.upper = (Bisection.step g y t).2.1.upper) ∨ (Bisection.step g y t).2.1.upper ≤ (Bisection.step f y s).2.1.lower := by
  unfold Bisection.step
  dsimp only
  rw [← hflip, ← hl, ← hu]
  by_cases h1 : (s.flip ^^ decide ((g y).1 < 0)) = true
  · rw [if_pos h1, if_pos h1, if_pos (hr h1), if_pos (hr h1)]
    exact .inl ⟨rfl, rfl, rfl⟩
  · by_cases h2 : (s.flip ^^ decide ((f y).1 < 0)) = true
    · exact .inr (by rw [if_neg h1, if_pos h2])
    · rw [if_neg h1, if_neg h1, if_neg h2, if_neg h2]
      exact .inl ⟨rfl, rfl, rfl⟩

section runs
variable (cfg : Bisection.Cfg ℝ) (f : ℝ → ℝ × A) (g : ℝ → ℝ × B) (a0 : A) (b0 : B) (y0 : ℝ) (sf sg : Bisection.State ℝ)

/-- The intervals are nested and contain the iterates. -/
theorem bisection_nested (h0 : sf.lower ≤ y0 ∧ y0 ≤ sf.upper) (k j : ℕ) :
    let Y := iterateAt (Bisection.solver cfg) f a0 y0 sf
    let S := stateAt (Bisection.solver cfg) f a0 y0 sf
    ((S (k + j)).lower ≤ Y (k + j) ∧ Y (k + j) ≤ (S (k + j)).upper) ∧ (S k).lower ≤ (S (k + j)).lower ∧ (S (k + j)).upper ≤ (S k).upper ∧
      (S k).flip = sf.flip := by
  intro Y S
  have hin : ∀ k, ((S k).lower ≤ Y k ∧ Y k ≤ (S k).upper) ∧ (S k).flip = sf.flip := by
    intro k
    induction k with
    | zero => exact ⟨h0, rfl⟩
    | succ k ih =>
      obtain ⟨h1, -, -, h2⟩ := bisection_inside f (Y k) (S k) ih.1
      exact ⟨h1, h2.trans ih.2⟩
  refine ⟨(hin _).1, ?_⟩
  induction j with
  | zero => exact ⟨le_rfl, le_rfl, (hin k).2⟩
  | succ j ih =>
    obtain ⟨-, h1, h2, -⟩ := bisection_inside f (Y (k + j)) (S (k + j)) (hin _).1
    exact ⟨ih.1.trans h1, h2.trans ih.2.1, ih.2.2⟩

/-- If whenever the second function sends the search to the right the first one does, too, then until the two runs part they are the same, and
afterwards the interval of the second is to the left of that of the first. -/
theorem ordered_runs (hl : sf.lower = sg.lower) (hu : sf.upper = sg.upper) (hflip : sf.flip = sg.flip) (h0 : sf.lower ≤ y0 ∧ y0 ≤ sf.upper)
    (hright : ∀ y, sf.lower ≤ y → y ≤ sf.upper → (sf.flip ^^ decide ((g y).1 < 0)) = true → (sf.flip ^^ decide ((f y).1 < 0)) = true) (k : ℕ) :
    (iterateAt (Bisection.solver cfg) f a0 y0 sf k = iterateAt (Bisection.solver cfg) g b0 y0 sg k ∧
      (stateAt (Bisection.solver cfg) f a0 y0 sf k).lower = (stateAt (Bisection.solver cfg) g b0 y0 sg k).lower ∧
      (stateAt (Bisection.solver cfg) f a0 y0 sf k).upper = (stateAt (Bisection.solver cfg) g b0 y0 sg k).upper) ∨
    (stateAt (Bisection.solver cfg) g b0 y0 sg k).upper ≤ (stateAt (Bisection.solver cfg) f a0 y0 sf k).lower := by
  induction k with
  | zero => exact .inl ⟨rfl, hl, hu⟩
  | succ k ih =>
    obtain ⟨hf1, hf2, hf3, hf4⟩ := bisection_nested cfg f a0 y0 sf h0 k 1
    obtain ⟨hg1, hg2, hg3, hg4⟩ := bisection_nested cfg g b0 y0 sg (hl ▸ hu ▸ h0) k 1
    rcases ih with ⟨h1, h2, h3⟩ | h
    · have hin := bisection_nested cfg f a0 y0 sf h0 0 k
      rw [zero_add] at hin
      have hr := hright (iterateAt (Bisection.solver cfg) f a0 y0 sf k) (hin.2.1.trans hin.1.1) (hin.1.2.trans hin.2.2.1)
      have h4 := ordered_step f g _ (stateAt (Bisection.solver cfg) f a0 y0 sf k) (stateAt (Bisection.solver cfg) g b0 y0 sg k) h2 h3
        (hf4.trans (hflip.trans hg4.symm)) (by rw [hf4]; exact hr)
      have e : Bisection.step g (iterateAt (Bisection.solver cfg) f a0 y0 sf k) (stateAt (Bisection.solver cfg) g b0 y0 sg k) =
        trace (Bisection.solver cfg) g b0 y0 sg (k + 1) := by rw [h1]; rfl
      rw [e] at h4
      exact h4
    · exact .inr (hg3.trans (h.trans hf2))

/-- Every point of the interval after `k` steps is within `width / 2 ^ k` of the iterate. -/
theorem bisection_close (h0 : sf.lower ≤ y0 ∧ y0 ≤ sf.upper) (k : ℕ) (x : ℝ) (h1 : (stateAt (Bisection.solver cfg) f a0 y0 sf k).lower ≤ x)
    (h2 : x ≤ (stateAt (Bisection.solver cfg) f a0 y0 sf k).upper) :
    |x - iterateAt (Bisection.solver cfg) f a0 y0 sf k| ≤ (sf.upper - sf.lower) / 2 ^ k := by
  obtain _ | k := k
  · have e1 : sf.lower ≤ x := h1
    have e2 : x ≤ sf.upper := h2
    show |x - y0| ≤ _
    rw [pow_zero, div_one]
    exact abs_sub_le_iff.2 ⟨by linarith [h0.1], by linarith [h0.2]⟩
  · have hw := bisection_width cfg f a0 y0 sf k
    have h3 := (bisection_nested cfg f a0 y0 sf h0 0 1).2
    have h4 := (bisection_nested cfg f a0 y0 sf h0 0 1).1
    have h5 : |(stateAt (Bisection.solver cfg) f a0 y0 sf 1).upper - (stateAt (Bisection.solver cfg) f a0 y0 sf 1).lower| ≤ sf.upper - sf.lower := by
      have e1 : sf.lower ≤ (stateAt (Bisection.solver cfg) f a0 y0 sf 1).lower := h3.1
      have e2 : (stateAt (Bisection.solver cfg) f a0 y0 sf 1).upper ≤ sf.upper := h3.2.1
      have e3 : (stateAt (Bisection.solver cfg) f a0 y0 sf 1).lower ≤ (stateAt (Bisection.solver cfg) f a0 y0 sf 1).upper := h4.1.trans h4.2
      rw [abs_of_nonneg (by linarith)]
      linarith
    have h6 : (stateAt (Bisection.solver cfg) f a0 y0 sf (k + 1)).upper - (stateAt (Bisection.solver cfg) f a0 y0 sf (k + 1)).lower ≤
        (sf.upper - sf.lower) / 2 ^ k := by
      refine (le_abs_self _).trans (hw.le.trans ?_)
      gcongr
    rw [bisection_midpoint, pow_succ, ← div_div]
    exact abs_sub_le_iff.2 ⟨by linarith, by linarith⟩

/-- The two runs at any two times. -/
theorem ordered_answers (hl : sf.lower = sg.lower) (hu : sf.upper = sg.upper) (hflip : sf.flip = sg.flip) (h0 : sf.lower ≤ y0 ∧ y0 ≤ sf.upper)
    (hright : ∀ y, sf.lower ≤ y → y ≤ sf.upper → (sf.flip ^^ decide ((g y).1 < 0)) = true → (sf.flip ^^ decide ((f y).1 < 0)) = true) (n m : ℕ) :
    (n = m → iterateAt (Bisection.solver cfg) g b0 y0 sg m ≤ iterateAt (Bisection.solver cfg) f a0 y0 sf n) ∧
    iterateAt (Bisection.solver cfg) g b0 y0 sg m ≤ iterateAt (Bisection.solver cfg) f a0 y0 sf n + (sf.upper - sf.lower) / 2 ^ min n m := by
  have hg0 : sg.lower ≤ y0 ∧ y0 ≤ sg.upper := hl ▸ hu ▸ h0
  have key := ordered_runs cfg f g a0 b0 y0 sf sg hl hu hflip h0 hright
  have hord : ∀ k j l, (stateAt (Bisection.solver cfg) g b0 y0 sg k).upper ≤ (stateAt (Bisection.solver cfg) f a0 y0 sf k).lower →
      iterateAt (Bisection.solver cfg) g b0 y0 sg (k + j) ≤ iterateAt (Bisection.solver cfg) f a0 y0 sf (k + l) := fun k j l h => by
    have h1 := bisection_nested cfg f a0 y0 sf h0 k l
    have h2 := bisection_nested cfg g b0 y0 sg hg0 k j
    exact h2.1.2.trans (h2.2.2.1.trans (h.trans (h1.2.1.trans h1.1.1)))
  refine ⟨fun hnm => ?_, ?_⟩
  · subst hnm
    rcases key n with h | h
    · exact h.1.ge
    · exact hord n 0 0 h
  · have hpos : 0 ≤ (sf.upper - sf.lower) / 2 ^ min n m := div_nonneg (by linarith [h0.1, h0.2]) (by positivity)
    rcases le_total n m with hnm | hnm
    · obtain ⟨j, rfl⟩ := Nat.exists_eq_add_of_le hnm
      rw [min_eq_left hnm] at hpos ⊢
      rcases key n with ⟨h1, h2, h3⟩ | h
      · have h4 := bisection_nested cfg g b0 y0 sg hg0 n j
        have h5 := bisection_close cfg f a0 y0 sf h0 n (iterateAt (Bisection.solver cfg) g b0 y0 sg (n + j))
          (h2.le.trans (h4.2.1.trans h4.1.1)) (h4.1.2.trans (h4.2.2.1.trans h3.ge))
        linarith [(abs_sub_le_iff.1 h5).1]
      · linarith [show _ ≤ iterateAt (Bisection.solver cfg) f a0 y0 sf n from hord n j 0 h]
    · obtain ⟨j, rfl⟩ := Nat.exists_eq_add_of_le hnm
      rw [min_eq_right hnm] at hpos ⊢
      rcases key m with ⟨h1, h2, h3⟩ | h
      · have h4 := bisection_nested cfg f a0 y0 sf h0 m j
        have h5 := bisection_close cfg g b0 y0 sg hg0 m (iterateAt (Bisection.solver cfg) f a0 y0 sf (m + j))
          (h2.ge.trans (h4.2.1.trans h4.1.1)) (h4.1.2.trans (h4.2.2.1.trans h3.le))
        rw [← hl, ← hu] at h5
        linarith [(abs_sub_le_iff.1 h5).2]
      · linarith [show iterateAt (Bisection.solver cfg) g b0 y0 sg m ≤ _ from hord m 0 j h]

end runs

/-- **C147**, `Bisection` (without `expand_if_necessary`): if `f ≤ g` on the interval, then the answer of the solve of `g` is to the left of that
of `f` where the functions go from negative to positive, and to the right of it otherwise; if the two solves took different numbers of steps, up to
the width of the interval they had come to together.  Neither continuity nor monotonicity is assumed. -/
theorem C147_bisection (cfg : Bisection.Cfg ℝ) (he : cfg.expand = false) (f : ℝ → ℝ × A) (g : ℝ → ℝ × B)
    (hfg : ∀ y, cfg.lower ≤ y → y ≤ cfg.upper → (f y).1 ≤ (g y).1) (a0 : A) (b0 : B) (y0 : ℝ) (h1 : cfg.lower ≤ y0) (h2 : y0 ≤ cfg.upper)
    (af ag : ℝ → Bool) (ms ms' : Option ℕ) (throw throw' : Bool) (solf : Solution ℝ A (Bisection.State ℝ) Unit)
    (solg : Solution ℝ B (Bisection.State ℝ) Unit)
    (hf : iterativeSolve (Bisection.solver cfg) af f a0 y0 ms throw = some (.ok solf))
    (hg : iterativeSolve (Bisection.solver cfg) ag g b0 y0 ms' throw' = some (.ok solg)) :
    ((cfg.flip = .fixed false ∨ cfg.flip = .detect ∧ (f cfg.lower).1 < 0) →
      (solf.numSteps = solg.numSteps → solg.value ≤ solf.value) ∧
      solg.value ≤ solf.value + (cfg.upper - cfg.lower) / 2 ^ min solf.numSteps solg.numSteps) ∧
    ((cfg.flip = .fixed true ∨ cfg.flip = .detect ∧ 0 ≤ (f cfg.lower).1) →
      (solf.numSteps = solg.numSteps → solf.value ≤ solg.value) ∧
      solf.value ≤ solg.value + (cfg.upper - cfg.lower) / 2 ^ min solf.numSteps solg.numSteps) := by
  obtain ⟨sf, hif, -, -, -, -, hpf, -⟩ := solve_spec _ _ _ _ _ _ _ _ hf
  obtain ⟨sg, hig, -, -, -, -, hpg, -⟩ := solve_spec _ _ _ _ _ _ _ _ hg
  obtain ⟨hfl, hfu, hff⟩ := bisection_start cfg he f y0 sf hif
  obtain ⟨hgl, hgu, hgf⟩ := bisection_start cfg he g y0 sg hig
  have hvf : solf.value = iterateAt (Bisection.solver cfg) f a0 y0 sf solf.numSteps := congrArg Prod.fst hpf
  have hvg : solg.value = iterateAt (Bisection.solver cfg) g b0 y0 sg solg.numSteps := congrArg Prod.fst hpg
  have hlow := hfg cfg.lower le_rfl (h1.trans h2)
  have hupp := hfg cfg.upper (h1.trans h2) le_rfl
  rw [hvf, hvg]
  constructor
  · intro hup
    have ef : sf.flip = false := by
      rcases hup with h | ⟨h, h'⟩ <;> rcases hff with e | ⟨e, e' | e'⟩ <;> rw [h] at e
      · exact (Bisection.Flip.fixed.inj e).symm
      · cases e
      · cases e
      · cases e
      · exact e'.2.2
      · linarith [e'.1]
    have eg : sg.flip = false := by
      rcases hup with h | ⟨h, h'⟩ <;> rcases hgf with e | ⟨e, e' | e'⟩ <;> rw [h] at e
      · exact (Bisection.Flip.fixed.inj e).symm
      · cases e
      · cases e
      · cases e
      · exact e'.2.2
      · rcases hff with e | ⟨-, e'' | e''⟩
        · rw [h] at e; cases e
        · linarith [e'.2.1, e''.2.1]
        · linarith [e''.1]
    have := ordered_answers cfg f g a0 b0 y0 sf sg (hfl.trans hgl.symm) (hfu.trans hgu.symm) (ef.trans eg.symm)
      (by rw [hfl, hfu]; exact ⟨h1, h2⟩) (fun y hy1 hy2 h => by
        rw [ef] at h ⊢
        rw [hfl] at hy1
        rw [hfu] at hy2
        simp only [Bool.false_xor, decide_eq_true_eq] at h ⊢
        exact (hfg y hy1 hy2).trans_lt h) solf.numSteps solg.numSteps
    rwa [hfl, hfu] at this
  · intro hdown
    have ef : sf.flip = true := by
      rcases hdown with h | ⟨h, h'⟩ <;> rcases hff with e | ⟨e, e' | e'⟩ <;> rw [h] at e
      · exact (Bisection.Flip.fixed.inj e).symm
      · cases e
      · cases e
      · cases e
      · linarith [e'.1]
      · exact e'.2.2
    have eg : sg.flip = true := by
      rcases hdown with h | ⟨h, h'⟩ <;> rcases hgf with e | ⟨e, e' | e'⟩ <;> rw [h] at e
      · exact (Bisection.Flip.fixed.inj e).symm
      · cases e
      · cases e
      · cases e
      · linarith [e'.1]
      · exact e'.2.2
    have := ordered_answers cfg g f b0 a0 y0 sg sf (hgl.trans hfl.symm) (hgu.trans hfu.symm) (eg.trans ef.symm)
      (by rw [hgl, hgu]; exact ⟨h1, h2⟩) (fun y hy1 hy2 h => by
        rw [eg] at h ⊢
        rw [hgl] at hy1
        rw [hgu] at hy2
        simp only [Bool.true_xor, Bool.not_eq_true', decide_eq_false_iff_not, not_lt] at h ⊢
        exact h.trans (hfg y hy1 hy2)) solg.numSteps solf.numSteps
    rw [hgl, hgu, min_comm] at this
    exact ⟨fun h => this.1 h.symm, this.2⟩

/-! ### Fixed-point iteration -/

/-- **C147**, `FixedPointIteration` with any damping in `[0, 1]`: if `f ≤ g`, one of the two preserves the componentwise order and the start for `f`
is below that for `g`, then after every number of steps the iterate for `f` is below that for `g`. -/
theorem C147_fixed_point (cfg : FixedPointIter.Cfg ι ℝ) (hd0 : 0 ≤ cfg.damp) (hd1 : cfg.damp ≤ 1) (f : (ι → ℝ) → (ι → ℝ) × A)
    (g : (ι → ℝ) → (ι → ℝ) × B) (hfg : ∀ y i, (f y).1 i ≤ (g y).1 i)
    (hmono : (∀ x y, (∀ i, x i ≤ y i) → ∀ i, (f x).1 i ≤ (f y).1 i) ∨ ∀ x y, (∀ i, x i ≤ y i) → ∀ i, (g x).1 i ≤ (g y).1 i)
    (a0 : A) (b0 : B) (y0 z0 : ι → ℝ) (h0 : ∀ i, y0 i ≤ z0 i) (k : ℕ) (i : ι) :
    iterateAt (FixedPointIter.solver cfg) f a0 y0 none k i ≤ iterateAt (FixedPointIter.solver cfg) g b0 z0 none k i := by
  have hle : ∀ x y, (∀ i, x i ≤ y i) → ∀ i, (f x).1 i ≤ (g y).1 i := fun x y h i => by
    rcases hmono with hm | hm
    · exact (hm x y h i).trans (hfg y i)
    · exact (hfg x i).trans (hm x y h i)
  induction k generalizing i with
  | zero => exact h0 i
  | succ k ih =>
    have e1 := congrFun (fp_iterate_succ cfg f a0 y0 k) i
    have e2 := congrFun (fp_iterate_succ cfg g b0 z0 k) i
    rw [e1, e2]
    have := hle _ _ ih i
    exact add_le_add (mul_le_mul_of_nonneg_left this (by linarith)) (mul_le_mul_of_nonneg_left (ih i) hd0)

/-- **C147**, the answers: they are ordered if the two solves took the same number of steps, or if `g` preserves the order, starts at a point that it
moves up, and took at least as many steps. -/
theorem C147_fixed_point_answers (cfg : FixedPointIter.Cfg ι ℝ) (hd0 : 0 ≤ cfg.damp) (hd1 : cfg.damp < 1) (f : (ι → ℝ) → (ι → ℝ) × A)
    (g : (ι → ℝ) → (ι → ℝ) × B) (hfg : ∀ y i, (f y).1 i ≤ (g y).1 i)
    (hmono : ∀ x y, (∀ i, x i ≤ y i) → ∀ i, (g x).1 i ≤ (g y).1 i)
    (a0 : A) (b0 : B) (y0 z0 : ι → ℝ) (h0 : ∀ i, y0 i ≤ z0 i) (af ag : (ι → ℝ) → Bool) (ms ms' : Option ℕ) (throw throw' : Bool) (solf solg)
    (hf : iterativeSolve (FixedPointIter.solver cfg) af f a0 y0 ms throw = some (.ok solf))
    (hg : iterativeSolve (FixedPointIter.solver cfg) ag g b0 z0 ms' throw' = some (.ok solg))
    (hn : solf.numSteps = solg.numSteps ∨ (∀ i, z0 i ≤ (g z0).1 i) ∧ solf.numSteps ≤ solg.numSteps) (i : ι) : solf.value i ≤ solg.value i := by
  rw [fp_value cfg af f a0 y0 ms throw solf hf, fp_value cfg ag g b0 z0 ms' throw' solg hg]
  have key := C147_fixed_point cfg hd0 hd1.le f g hfg (.inr hmono) a0 b0 y0 z0 h0
  rcases hn with hn | ⟨hz, hn⟩
  · rw [hn]; exact key _ i
  · refine (key _ i).trans ?_
    exact monotone_nat_of_le_succ (f := fun k => iterateAt (FixedPointIter.solver cfg) g b0 z0 none k i)
      (fun k => (C118_increasing cfg hd0 hd1 g hmono b0 z0 hz k).1 i) hn

/-! ### The hypotheses are met -/

/-- `y³ - 1 ≤ y³ - 1/8`: the answer moves to the left. -/
example (solf solg : Solution ℝ Unit (Bisection.State ℝ) Unit)
    (hf : iterativeSolve (Bisection.solver ⟨1/100, 1/100, .detect, false, 0, 2, true, .leaf [] true⟩) (fun _ => true)
      (fun y : ℝ => (y ^ 3 - 1, ())) () 1 (some 20) false = some (.ok solf))
    (hg : iterativeSolve (Bisection.solver ⟨1/100, 1/100, .detect, false, 0, 2, true, .leaf [] true⟩) (fun _ => true)
      (fun y : ℝ => (y ^ 3 - 1/8, ())) () 1 (some 20) false = some (.ok solg)) :
    solg.value ≤ solf.value + 2 / 2 ^ min solf.numSteps solg.numSteps := by
  have := ((C147_bisection ⟨1/100, 1/100, .detect, false, 0, 2, true, .leaf [] true⟩ rfl (fun y : ℝ => (y ^ 3 - 1, ()))
    (fun y : ℝ => (y ^ 3 - 1/8, ())) (fun y _ _ => by dsimp only; linarith) () () 1 (by norm_num) (by norm_num) _ _ _ _ _ _ solf solg hf hg).1
    (.inr ⟨rfl, by norm_num⟩)).2
  simpa using this

/-- Both solves exist: the interval is accepted for both functions. -/
example (c : ℝ) (hc : c = 1 ∨ c = 1/8) : ∃ st0, (Bisection.solver (A := Unit) ⟨1/100, 1/100, .detect, false, 0, 2, true, .leaf [] true⟩).init
    (fun y : ℝ => (y ^ 3 - c, ())) 1 = .ok st0 := by
  refine ((C16_accepts_iff_partial ⟨1/100, 1/100, .detect, false, 0, 2, true, .leaf [] true⟩ rfl rfl rfl ⟨true, rfl⟩ _ 1).1).2 (.inl ?_)
  rcases hc with rfl | rfl <;> norm_num

/-- An economy with higher demand has higher output: `y = A y + d` with a matrix with non-negative entries. -/
example (M : Fin 2 → Fin 2 → ℝ) (hM : ∀ i j, 0 ≤ M i j) (d e : Fin 2 → ℝ) (hde : ∀ i, d i ≤ e i) (y0 : Fin 2 → ℝ) (k : ℕ) (i : Fin 2) :
    iterateAt (FixedPointIter.solver ⟨1/100, 1/100, maxNorm, 0⟩) (fun y => ((fun i => ∑ j, M i j * y j + d i), ())) () y0 none k i ≤
    iterateAt (FixedPointIter.solver ⟨1/100, 1/100, maxNorm, 0⟩) (fun y => ((fun i => ∑ j, M i j * y j + e i), ())) () y0 none k i :=
  C147_fixed_point ⟨1/100, 1/100, maxNorm, 0⟩ le_rfl zero_le_one _ _ (fun y i => by dsimp only; linarith [hde i])
    (.inl fun x y h i => by
      dsimp only
      have := Finset.sum_le_sum fun j (_ : j ∈ Finset.univ) => mul_le_mul_of_nonneg_left (h j) (hM i j)
      linarith) () () y0 y0 (fun _ => le_rfl) k i

end Verif.Props
