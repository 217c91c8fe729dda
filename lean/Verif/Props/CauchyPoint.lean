import Verif.Model.CauchyPoint
import Verif.Props.Misc
import Verif.Spec.Matrix
import Mathlib.Algebra.BigOperators.Fin
import Mathlib.Algebra.BigOperators.Ring.Finset
import Mathlib.Tactic.FinCases

/-! The generalised Cauchy point. -/

namespace Verif.Props

open Verif.CauchyPoint Verif.Spec

variable {n : Nat}

/-- A tree of numbers. -/
def nums (x : Fin (n + 1) → ℝ) : Vec n := fun i => .fin (x i)

/-- A matrix of numbers. -/
def numsMat (h : Matrix (Fin (n + 1)) (Fin (n + 1)) ℝ) : Fin (n + 1) → Vec n := fun i j => .fin (h i j)

theorem dot_nums (x y : Fin (n + 1) → ℝ) : dot (nums x) (nums y) = .fin (∑ i, x i * y i) := by
  have key : ∀ l : List ℝ, (l.map XR.fin).foldr (· + ·) 0 = XR.fin l.sum := by
    intro l
    induction l with
    | nil => rfl
    | cons a l ih => rw [List.map_cons, List.foldr_cons, ih, XR.add_fin, List.sum_cons]
  unfold dot
  rw [show (List.ofFn fun i => nums x i * nums y i) = (List.ofFn fun i => x i * y i).map XR.fin by
    rw [List.map_ofFn]; rfl, key, List.sum_ofFn]

theorem mv_nums (h : Matrix (Fin (n + 1)) (Fin (n + 1)) ℝ) (x : Fin (n + 1) → ℝ) :
    mv (numsMat h) (nums x) = nums (h.mulVec x) := by
  funext i
  exact dot_nums (h i) x

theorem xr_not_lt (a b : XR) (h : ¬ a < b) : a = .nan ∨ b = .nan ∨ b ≤ a := by
  cases a <;> cases b <;>
    first
    | exact Or.inl rfl
    | exact Or.inr (Or.inl rfl)
    | exact Or.inr (Or.inr trivial)
    | exact absurd trivial h
    | exact Or.inr (Or.inr ((XR.le_fin _ _).2 (not_lt.1 fun h' => h ((XR.lt_fin _ _).2 h'))))

theorem xr_lt_le (a b : XR) (h : a < b) (h' : b ≤ a) : False := by
  cases a <;> cases b <;> first | exact h | exact h' | exact absurd ((XR.lt_fin _ _).1 h) (not_lt.2 ((XR.le_fin _ _).1 h'))

/-- Clipping: the result is NaN, or between the bounds. -/
theorem clip_in (lo hi x : XR) (hlo : IsLower lo) (hhi : IsUpper hi) (hle : lo ≤ hi) :
    XR.clip lo hi x = .nan ∨ (lo ≤ XR.clip lo hi x ∧ XR.clip lo hi x ≤ hi) := by
  have hl : lo ≠ .nan ∧ lo ≤ lo := by rcases hlo with rfl | ⟨l, rfl⟩ <;> exact ⟨by simp, by simp⟩
  have hh : hi ≠ .nan ∧ hi ≤ hi := by rcases hhi with rfl | ⟨l, rfl⟩ <;> exact ⟨by simp, by simp⟩
  unfold XR.clip
  dsimp only
  by_cases h1 : x < lo
  · rw [if_pos h1, if_neg fun h => xr_lt_le _ _ h hle]
    exact Or.inr ⟨hl.2, hle⟩
  · rw [if_neg h1]
    by_cases h2 : hi < x
    · rw [if_pos h2]; exact Or.inr ⟨hle, hh.2⟩
    · rw [if_neg h2]
      rcases xr_not_lt _ _ h1 with h | h | h
      · exact Or.inl h
      · exact absurd h hl.1
      · rcases xr_not_lt _ _ h2 with h' | h' | h'
        · exact absurd h' hh.1
        · exact Or.inl h'
        · exact Or.inr ⟨h, h'⟩

/-- Clipping a number. -/
theorem clip_fin (lo hi : XR) (r : ℝ) (hlo : IsLower lo) (hhi : IsUpper hi) (hle : lo ≤ hi) :
    ∃ c, XR.clip lo hi (.fin r) = .fin c ∧ InBox lo hi c ∧ (r < c → lo = .fin c) ∧ (c < r → hi = .fin c) := by
  unfold XR.clip
  dsimp only
  by_cases h1 : XR.fin r < lo
  · rw [if_pos h1, if_neg fun h => xr_lt_le _ _ h hle]
    rcases hlo with rfl | ⟨l, rfl⟩
    · exact absurd h1 (by simp)
    · exact ⟨l, rfl, ⟨le_refl l, hle⟩, fun _ => rfl, fun h => absurd h1 (not_lt.2 h.le)⟩
  · rw [if_neg h1]
    by_cases h2 : hi < XR.fin r
    · rw [if_pos h2]
      rcases hhi with rfl | ⟨u, rfl⟩
      · exact absurd h2 (by simp)
      · exact ⟨u, rfl, ⟨hle, le_refl u⟩, fun h => absurd h2 (not_lt.2 h.le), fun _ => rfl⟩
    · rw [if_neg h2]
      refine ⟨r, rfl, ⟨?_, ?_⟩, fun h => absurd h (lt_irrefl _), fun h => absurd h (lt_irrefl _)⟩
      · rcases xr_not_lt _ _ h1 with h | h | h
        · cases h
        · rcases hlo with rfl | ⟨l, rfl⟩ <;> cases h
        · exact h
      · rcases xr_not_lt _ _ h2 with h | h | h
        · rcases hhi with rfl | ⟨l, rfl⟩ <;> cases h
        · cases h
        · exact h

/-- The minimum of numbers. -/
theorem treeMin_nums (x : Fin (n + 1) → ℝ) : ∃ m, CauchyPoint.treeMin (nums x) = .fin m ∧ (∀ i, m ≤ x i) ∧ ∃ i, m = x i := by
  have hmin : ∀ a b : ℝ, CauchyPoint.min (.fin a) (.fin b) = .fin (Min.min a b) := by
    intro a b
    unfold CauchyPoint.min
    rw [if_neg (by simp [XR.isNan])]
    by_cases h : a < b
    · rw [if_pos (show XR.fin a < .fin b from h), min_eq_left h.le]
    · rw [if_neg (show ¬ XR.fin a < .fin b from h), min_eq_right (not_lt.1 h)]
  have key : ∀ l : List ℝ, l ≠ [] → ∃ m, (l.map XR.fin).foldr CauchyPoint.min .pinf = .fin m ∧ (∀ a ∈ l, m ≤ a) ∧ m ∈ l := by
    intro l hl
    induction l with
    | nil => exact absurd rfl hl
    | cons a l ih =>
      by_cases h : l = []
      · subst h
        refine ⟨a, ?_, by simp, by simp⟩
        simp [CauchyPoint.min, XR.isNan]
      · obtain ⟨m, hm, h1, h2⟩ := ih h
        refine ⟨Min.min a m, ?_, ?_, ?_⟩
        · rw [List.map_cons, List.foldr_cons, hm, hmin]
        · intro b hb
          rcases List.mem_cons.1 hb with rfl | hb
          · exact min_le_left _ _
          · exact le_trans (min_le_right _ _) (h1 b hb)
        · rcases min_choice a m with h | h <;> rw [h]
          · simp
          · exact List.mem_cons_of_mem _ h2
  obtain ⟨m, hm, h1, h2⟩ := key (List.ofFn x) (by
    intro h
    have := congrArg List.length h
    simp at this)
  refine ⟨m, ?_, fun i => h1 _ (List.mem_ofFn.2 ⟨i, rfl⟩), ?_⟩
  · rw [← hm, List.map_ofFn]; rfl
  · obtain ⟨i, hi⟩ := List.mem_ofFn.1 h2
    exact ⟨i, hi.symm⟩

/-- Without intercepts: a step along the negative gradient, in the box. -/
theorem justMove_nums (y g : Fin (n + 1) → ℝ) (lower upper : Vec n) (hlo : ∀ i, IsLower (lower i))
    (hhi : ∀ i, IsUpper (upper i)) (hbox : ∀ i, InBox (lower i) (upper i) (y i)) :
    ∃ s : ℝ, 0 ≤ s ∧ s ≤ 1 ∧ justMove (nums y) lower upper (nums g) = nums (fun i => y i + s * -g i) ∧
      ∀ i, InBox (lower i) (upper i) (y i + s * -g i) := by
  have hc := fun i => C47_feasible_step_keeps_box y (fun i => -g i) lower upper none (by simp) hlo hhi i
  choose t ht using hc
  obtain ⟨m, hm, h1, j, hj⟩ := treeMin_nums t
  have hfs : feasibleStepLength (nums y) (fun i => -nums g i) lower upper none = nums t := funext fun i => (ht i).1
  have hm0 : 0 ≤ m := by rw [hj]; exact (ht j).2.1
  refine ⟨m, hm0, (h1 0).trans (ht 0).2.2.1, ?_, fun i => ?_⟩
  · unfold justMove
    dsimp only
    rw [hfs, hm]
    rfl
  · exact (ht i).2.2.2 (hbox i) m hm0 (h1 i)

theorem whileForever_some {C : Type} (cond : C → Bool) (body : C → C) (c c' : C)
    (h : Driver.whileForever cond body c = some c') : ∃ k, c' = body^[k] c ∧ cond c' = false := by
  unfold Driver.whileForever at h
  split at h
  · rename_i hk
    cases h
    exact ⟨_, rfl, Nat.find_spec hk⟩
  · cases h

/-- **C50.** Whatever the gradient and the Hessian, every entry of the returned point lies between its bounds - unless it is
NaN (see `C50_nan`). -/
theorem C50_in_box_partial (y g : Fin (n + 1) → ℝ) (lower upper : Vec n) (h : Fin (n + 1) → Vec n)
    (hlo : ∀ i, IsLower (lower i)) (hhi : ∀ i, IsUpper (upper i)) (hbox : ∀ i, InBox (lower i) (upper i) (y i)) (r : Vec n)
    (hr : cauchyPoint (nums y) lower upper (nums g) h = some r) :
    ∀ i, r i = .nan ∨ (lower i ≤ r i ∧ r i ≤ upper i) := by
  have hle : ∀ i, lower i ≤ upper i := by
    intro i
    have := hbox i
    rcases hlo i with hl | ⟨l, hl⟩ <;> rcases hhi i with hu | ⟨u, hu⟩ <;> rw [hl, hu] at this ⊢
    · trivial
    · trivial
    · trivial
    · exact (show l ≤ u from le_trans this.1 this.2)
  intro i
  unfold cauchyPoint at hr
  dsimp only at hr
  split at hr
  · unfold findCauchyPoint at hr
    rw [Option.map_eq_some_iff] at hr
    obtain ⟨st, hst, rfl⟩ := hr
    obtain ⟨k, hk, hterm⟩ := whileForever_some _ _ _ _ hst
    cases k with
    | zero => subst hk; cases hterm
    | succ k =>
      rw [Function.iterate_succ_apply'] at hk
      rw [hk]
      exact clip_in _ _ _ (hlo i) (hhi i) (hle i)
  · cases hr
    obtain ⟨s, _, _, hs, hb⟩ := justMove_nums y g lower upper hlo hhi hbox
    rw [hs]
    exact Or.inr (hb i)

/-- An intercept is `+inf` or in `[0, 1]`. -/
theorem leaf_range (y g : ℝ) (b : XR) : leafIntercept (.fin y) b (.fin g) = .pinf ∨
    ∃ t, leafIntercept (.fin y) b (.fin g) = .fin t ∧ 0 ≤ t ∧ t ≤ 1 := by
  unfold leafIntercept
  dsimp only
  generalize hb : (XR.fin y - b) / XR.fin g = a
  by_cases h0 : (0 : XR) ≤ a
  · rw [if_pos h0]
    split
    · cases a with
      | fin r =>
        rw [if_pos (show (XR.fin r).isFinite = true from rfl)]
        refine Or.inr ⟨Min.min r 1, ?_, le_min h0 zero_le_one, min_le_right _ _⟩
        unfold CauchyPoint.min
        rw [if_neg (by simp [XR.isNan])]
        by_cases h : r < 1
        · rw [if_pos (show XR.fin r < 1 from h), min_eq_left h.le]
        · rw [if_neg (show ¬ XR.fin r < 1 from h), min_eq_right (not_lt.1 h)]; rfl
      | pinf => exact Or.inl rfl
      | ninf => exact absurd h0 (by simp)
      | nan => exact absurd h0 (by simp)
    · exact Or.inl rfl
  · rw [if_neg h0, ite_self]
    exact Or.inl rfl

/-- The intercept with a finite bound ahead. -/
theorem leaf_ahead (y g b : ℝ) (hg : g ≠ 0) (hb : 0 ≤ (y - b) / g) :
    leafIntercept (.fin y) (.fin b) (.fin g) = .fin (Min.min ((y - b) / g) 1) := by
  unfold leafIntercept
  dsimp only
  rw [XR.sub_fin, XR.div_fin _ _ hg, if_pos (show (0 : XR) ≤ .fin ((y - b) / g) from hb),
    if_pos (show XR.fin g ≠ 0 by intro h; cases h; exact hg rfl), if_pos (show (XR.fin ((y - b) / g)).isFinite = true from rfl)]
  unfold CauchyPoint.min
  rw [if_neg (by simp [XR.isNan])]
  by_cases h : (y - b) / g < 1
  · rw [if_pos (show XR.fin _ < 1 from h), min_eq_left h.le]
  · rw [if_neg (show ¬ XR.fin _ < 1 from h), min_eq_right (not_lt.1 h)]; rfl

theorem min_pinf (a : ℝ) : CauchyPoint.min (.fin a) .pinf = .fin a ∧ CauchyPoint.min .pinf (.fin a) = .fin a := by
  constructor <;> simp [CauchyPoint.min, XR.isNan]

theorem min_fin (a b : ℝ) : CauchyPoint.min (.fin a) (.fin b) = .fin (Min.min a b) := by
  unfold CauchyPoint.min
  rw [if_neg (by simp [XR.isNan])]
  by_cases h : a < b
  · rw [if_pos (show XR.fin a < .fin b from h), min_eq_left h.le]
  · rw [if_neg (show ¬ XR.fin a < .fin b from h), min_eq_right (not_lt.1 h)]

/-- A finite bound lies ahead of `y` when moving along `-g`. -/
def BoundAhead (y g : ℝ) (lo hi : XR) : Prop := (0 < g ∧ ∃ l, lo = .fin l) ∨ (g < 0 ∧ ∃ u, hi = .fin u)

/-- With a finite bound ahead the intercept is a number, and moving by a positive intercept changes the entry. -/
theorem intercept_ahead (y g : ℝ) (lo hi : XR) (hlo : IsLower lo) (hhi : IsUpper hi) (hbox : InBox lo hi y)
    (hle : lo ≤ hi) (ha : BoundAhead y g lo hi) :
    ∃ t, CauchyPoint.min (leafIntercept (.fin y) lo (.fin g)) (leafIntercept (.fin y) hi (.fin g)) = .fin t ∧
      (0 < t → ∀ s, 0 < s → ∀ c, XR.clip lo hi (.fin (y - s * g)) = .fin c → c ≠ y) := by
  have hcl : ∀ s : ℝ, 0 < s → ∀ c, XR.clip lo hi (.fin (y - s * g)) = .fin c →
      (∀ l, lo = .fin l → 0 < g → l < y) → (∀ u, hi = .fin u → g < 0 → y < u) → c ≠ y := by
    intro s hs c hc hl hu
    obtain ⟨c', hc', _, h1, h2⟩ := clip_fin lo hi (y - s * g) hlo hhi hle
    rw [hc] at hc'; cases hc'
    rintro rfl
    rcases ha with ⟨hg, _⟩ | ⟨hg, _⟩
    · have : c - s * g < c := by nlinarith
      exact absurd (hl c (h1 this) hg) (lt_irrefl _)
    · have : c < c - s * g := by nlinarith
      exact absurd (hu c (h2 this) hg) (lt_irrefl _)
  rcases ha with ⟨hg, l, rfl⟩ | ⟨hg, u, rfl⟩
  · have hly : l ≤ y := hbox.1
    have hb : 0 ≤ (y - l) / g := div_nonneg (by linarith) hg.le
    have hpos : ∀ t, t ≤ Min.min ((y - l) / g) 1 → 0 < t → l < y := by
      intro t ht h0
      have : 0 < (y - l) / g := lt_of_lt_of_le h0 (ht.trans (min_le_left _ _))
      have := (div_pos_iff_of_pos_right hg).1 this
      linarith
    rw [leaf_ahead y g l hg.ne' hb]
    rcases leaf_range y g hi with h | ⟨t, h, _, _⟩
    · rw [h, (min_pinf _).1]
      refine ⟨_, rfl, fun h0 s hs c hc => hcl s hs c hc ?_ ?_⟩
      · intro l' hl' _; cases hl'; exact hpos _ le_rfl h0
      · intro _ _ h'; exact absurd h' (not_lt.2 hg.le)
    · rw [h, min_fin]
      refine ⟨_, rfl, fun h0 s hs c hc => hcl s hs c hc ?_ ?_⟩
      · intro l' hl' _; cases hl'; exact hpos _ (min_le_left _ _) h0
      · intro _ _ h'; exact absurd h' (not_lt.2 hg.le)
  · have hly : y ≤ u := hbox.2
    have hb : 0 ≤ (y - u) / g := div_nonneg_of_nonpos (by linarith) hg.le
    have hpos : ∀ t, t ≤ Min.min ((y - u) / g) 1 → 0 < t → y < u := by
      intro t ht h0
      have h1 : 0 < (y - u) / g := lt_of_lt_of_le h0 (ht.trans (min_le_left _ _))
      have h2 := mul_neg_of_pos_of_neg h1 hg
      rw [div_mul_cancel₀ _ hg.ne] at h2
      linarith
    rw [leaf_ahead y g u hg.ne hb]
    rcases leaf_range y g lo with h | ⟨t, h, _, _⟩
    · rw [h, (min_pinf _).2]
      refine ⟨_, rfl, fun h0 s hs c hc => hcl s hs c hc ?_ ?_⟩
      · intro _ _ h'; exact absurd h' (not_lt.2 hg.le)
      · intro l' hl' _; cases hl'; exact hpos _ le_rfl h0
    · rw [h, min_fin]
      refine ⟨_, rfl, fun h0 s hs c hc => hcl s hs c hc ?_ ?_⟩
      · intro _ _ h'; exact absurd h' (not_lt.2 hg.le)
      · intro l' hl' _; cases hl'; exact hpos _ (min_le_right _ _) h0

/-- A point on the projected path, for a number of the path. -/
theorem point_nums (y g : Fin (n + 1) → ℝ) (lower upper : Vec n) (hlo : ∀ i, IsLower (lower i))
    (hhi : ∀ i, IsUpper (upper i)) (hle : ∀ i, lower i ≤ upper i) (s : ℝ) :
    ∃ z, CauchyPoint.point (nums y) (nums g) (.fin s) lower upper = nums z ∧ (∀ i, InBox (lower i) (upper i) (z i)) ∧
      ∀ i, XR.clip (lower i) (upper i) (.fin (y i - s * g i)) = .fin (z i) := by
  choose z hz using fun i => clip_fin (lower i) (upper i) (y i - s * g i) (hlo i) (hhi i) (hle i)
  refine ⟨z, funext fun i => ?_, fun i => (hz i).2.1, fun i => (hz i).1⟩
  rw [show nums z i = .fin (z i) from rfl, ← (hz i).1]
  show XR.clip (lower i) (upper i) (XR.fin (y i) - XR.fin s * XR.fin (g i)) = _
  rw [XR.mul_fin, XR.sub_fin]

/-- **C50.** If a finite bound lies ahead for every entry and the Hessian is positive definite, the search stops, and
returns numbers in the box. -/
theorem C50_terminates_partial (y g : Fin (n + 1) → ℝ) (lower upper : Vec n) (h : Matrix (Fin (n + 1)) (Fin (n + 1)) ℝ)
    (hlo : ∀ i, IsLower (lower i)) (hhi : ∀ i, IsUpper (upper i)) (hbox : ∀ i, InBox (lower i) (upper i) (y i))
    (hpd : SPD h) (ha : ∀ i, BoundAhead (y i) (g i) (lower i) (upper i)) :
    ∃ r, cauchyPoint (nums y) lower upper (nums g) (numsMat h) = some (nums r) ∧ ∀ i, InBox (lower i) (upper i) (r i) := by
  have hle : ∀ i, lower i ≤ upper i := by
    intro i
    have := hbox i
    rcases hlo i with hl | ⟨l, hl⟩ <;> rcases hhi i with hu | ⟨u, hu⟩ <;> rw [hl, hu] at this ⊢
    · trivial
    · trivial
    · trivial
    · exact (show l ≤ u from le_trans this.1 this.2)
  choose t ht hmove using fun i => intercept_ahead (y i) (g i) (lower i) (upper i) (hlo i) (hhi i) (hbox i) (hle i) (ha i)
  have hint : boundaryIntercepts (nums y) lower upper (nums g) = nums t := funext ht
  unfold cauchyPoint
  dsimp only
  rw [hint]
  split
  · rename_i hhas
    rw [List.any_eq_true] at hhas
    obtain ⟨i0, _, hi0⟩ := hhas
    rw [Bool.and_eq_true, decide_eq_true_eq, decide_eq_true_eq] at hi0
    have hi0' : 0 < t i0 := hi0.1
    set B := body (nums y) lower upper (nums g) (numsMat h) (nums t) with hB
    -- what one iteration does
    have hstep : ∀ (st : State n) (p : ℝ) (q : Fin (n + 1) → ℝ), st.previousIntercept = .fin p → 0 ≤ p → st.point = nums q →
        (∃ i, p < t i) → ∃ j z, p < t j ∧ (B st).previousIntercept = .fin (t j) ∧ (B st).point = nums z ∧
          (∀ i, InBox (lower i) (upper i) (z i)) ∧ ((B st).terminate = false → ∃ i, t j < t i) := by
      intro st p q hp hp0 hq ⟨i, hi⟩
      obtain ⟨j, hj, hnext⟩ : ∃ j, p < t j ∧ nextIntercept (nums t) st.previousIntercept = .fin (t j) := by
        unfold nextIntercept
        rw [hp]
        cases hf : (List.finRange (n + 1)).find? fun i => decide (XR.fin p < nums t i) && (nums t i).isFinite with
        | none =>
          rw [List.find?_eq_none] at hf
          exact absurd (show (decide (XR.fin p < nums t i) && (nums t i).isFinite) = true by
            rw [Bool.and_eq_true, decide_eq_true_eq]; exact ⟨hi, rfl⟩) (hf i (List.mem_finRange i))
        | some j =>
          have := List.find?_some hf
          rw [Bool.and_eq_true, decide_eq_true_eq] at this
          exact ⟨j, this.1, rfl⟩
      obtain ⟨w, hw, hwbox, hwc⟩ := point_nums y g lower upper hlo hhi hle (t j)
      have hjpos : 0 < t j := lt_of_le_of_lt hp0 hj
      have hwj : w j ≠ y j := hmove j hjpos (t j) hjpos (w j) (hwc j)
      have hpd' : (fun i => nums w i - nums y i) = nums (fun i => w i - y i) := by
        funext i; exact XR.sub_fin _ _
      have hQ : 0 < ∑ i, (w i - y i) * (h.mulVec fun i => w i - y i) i := by
        have := hpd.2 (fun i => w i - y i) ⟨j, sub_ne_zero.2 hwj⟩
        refine lt_of_lt_of_eq this ?_
        refine Finset.sum_congr rfl fun a _ => ?_
        rw [show (h.mulVec fun i => w i - y i) a = ∑ b, h a b * (w b - y b) from rfl, Finset.mul_sum]
        exact Finset.sum_congr rfl fun b _ => by ring
      set L : ℝ := ∑ i, g i * (w i - y i) + ∑ i, q i * (h.mulVec fun i => w i - y i) i with hL
      set Q : ℝ := ∑ i, (w i - y i) * (h.mulVec fun i => w i - y i) i with hQ'
      have hlin : dot (nums g) (fun i => nums w i - nums y i) +
          dot st.point (mv (numsMat h) fun i => nums w i - nums y i) = .fin L := by
        rw [hpd', hq, mv_nums, dot_nums, dot_nums, XR.add_fin]
      have hquad : dot (fun i => nums w i - nums y i) (mv (numsMat h) fun i => nums w i - nums y i) = .fin Q := by
        rw [hpd', mv_nums, dot_nums]
      -- the chosen point
      obtain ⟨s, hs⟩ : ∃ s : ℝ, (B st).point = CauchyPoint.point (nums y) (nums g) (.fin s) lower upper := by
        have : (B st).point = CauchyPoint.point (nums y) (nums g)
          (if decide (XR.fin (t j) < -XR.fin L / .fin Q) = true then XR.fin (t j) else
            if decide (0 < XR.fin L) = true then XR.fin p else -XR.fin L / .fin Q) lower upper := by
          rw [hB]
          unfold body
          dsimp only
          rw [hnext, hw, hlin, hquad, hp]
        rw [this, XR.neg_fin, XR.div_fin _ _ hQ.ne']
        split
        · exact ⟨_, rfl⟩
        · split
          · exact ⟨_, rfl⟩
          · exact ⟨_, rfl⟩
      obtain ⟨z, hz, hzbox, _⟩ := point_nums y g lower upper hlo hhi hle s
      refine ⟨j, z, hj, hnext, by rw [hs, hz], hzbox, fun hterm => ?_⟩
      have hmore : (List.finRange (n + 1)).any (fun i => decide (nextIntercept (nums t) st.previousIntercept < nums t i)) =
          true := by
        by_contra hno
        rw [Bool.not_eq_true] at hno
        have : (B st).terminate = true := by
          rw [hB]
          unfold body
          dsimp only
          rw [hno]
          simp
        rw [this] at hterm; cases hterm
      rw [List.any_eq_true] at hmore
      obtain ⟨i, _, hi⟩ := hmore
      rw [hnext, decide_eq_true_eq] at hi
      exact ⟨i, hi⟩
    set st0 : State n := { previousIntercept := 0, point := nums y, terminate := false } with hst0
    -- invariant
    have hinv : ∀ k, (∀ j, j < k → (B^[j] st0).terminate = false) → ∃ p q, (B^[k] st0).previousIntercept = .fin p ∧ 0 ≤ p ∧
        (B^[k] st0).point = nums q ∧ (∀ i, InBox (lower i) (upper i) (q i)) ∧
        ((B^[k] st0).terminate = false → ∃ i, p < t i) ∧
        (Finset.univ.filter fun i => p < t i).card + k ≤ n + 1 := by
      intro k
      induction k with
      | zero =>
        intro _
        refine ⟨0, y, rfl, le_rfl, rfl, hbox, fun _ => ⟨i0, hi0'⟩, ?_⟩
        calc _ ≤ (Finset.univ : Finset (Fin (n + 1))).card := Finset.card_filter_le _ _
          _ = n + 1 := by simp
      | succ k ih =>
        intro hk
        obtain ⟨p, q, h1, h2, h3, _, h5, h6⟩ := ih fun j hj => hk j (by omega)
        obtain ⟨j, z, hj, e1, e2, e3, e4⟩ := hstep _ p q h1 h2 h3 (h5 (hk k (by omega)))
        rw [Function.iterate_succ_apply']
        refine ⟨t j, z, e1, h2.trans hj.le, e2, e3, e4, ?_⟩
        have hlt : (Finset.univ.filter fun i => t j < t i).card < (Finset.univ.filter fun i => p < t i).card := by
          apply Finset.card_lt_card
          refine ⟨fun i hi => ?_, fun hsub => ?_⟩
          · rw [Finset.mem_filter] at hi ⊢
            exact ⟨hi.1, hj.trans hi.2⟩
          · have := hsub (Finset.mem_filter.2 ⟨Finset.mem_univ j, hj⟩)
            exact absurd (Finset.mem_filter.1 this).2 (lt_irrefl _)
        omega
    have hstops : ∃ k, (fun st : State n => !st.terminate) (B^[k] st0) = false := by
      by_contra hno
      have hall : ∀ j, (B^[j] st0).terminate = false := by
        intro j
        by_contra hc
        exact hno ⟨j, by simpa using hc⟩
      obtain ⟨p, q, _, _, _, _, _, hcard⟩ := hinv (n + 2) fun j _ => hall j
      omega
    unfold findCauchyPoint Driver.whileForever
    rw [← hB, dif_pos hstops]
    obtain ⟨p, q, _, _, hq, hqbox, _⟩ := hinv (Nat.find hstops) fun j hj => by
      have := Nat.find_min hstops hj
      simpa using this
    exact ⟨q, by rw [Option.map_some, hq], hqbox⟩
  · obtain ⟨s, _, _, hs, hb⟩ := justMove_nums y g lower upper hlo hhi hbox
    exact ⟨_, by rw [hs], hb⟩

/-- The change `gᵀ d + 1/2 dᵀ H d` of the quadratic model. -/
noncomputable def quadraticChange (g : Fin (n + 1) → ℝ) (h : Matrix (Fin (n + 1)) (Fin (n + 1)) ℝ) (d : Fin (n + 1) → ℝ) : ℝ :=
  ∑ i, g i * d i + 1 / 2 * ∑ i, ∑ j, d i * h i j * d j

/-- An entry with zero gradient has no intercept. -/
theorem leaf_zero (y : ℝ) (b : XR) : leafIntercept (.fin y) b (.fin 0) = .pinf := by
  unfold leafIntercept
  dsimp only
  rw [if_neg (show ¬ (XR.fin 0 ≠ 0) from fun h => h rfl)]
  rfl

/-- A bound behind is not an intercept. -/
theorem leaf_behind (y g b : ℝ) (hg : g ≠ 0) (hb : (y - b) / g < 0) : leafIntercept (.fin y) (.fin b) (.fin g) = .pinf := by
  unfold leafIntercept
  dsimp only
  rw [XR.sub_fin, XR.div_fin _ _ hg, if_neg (show ¬ (0 : XR) ≤ .fin ((y - b) / g) from not_le.2 hb), ite_self]
  rfl

theorem point_num (y g l u : Fin (n + 1) → ℝ) (s : ℝ) :
    CauchyPoint.point (nums y) (nums g) (.fin s) (nums l) (nums u) =
      nums fun i => Min.min (Max.max (y i - s * g i) (l i)) (u i) := by
  funext i
  show XR.clip (.fin (l i)) (.fin (u i)) (XR.fin (y i) - XR.fin s * XR.fin (g i)) = .fin _
  rw [XR.mul_fin, XR.sub_fin]
  unfold XR.clip
  dsimp only
  have h1 : (if XR.fin (y i - s * g i) < XR.fin (l i) then XR.fin (l i) else XR.fin (y i - s * g i)) =
      .fin (Max.max (y i - s * g i) (l i)) := by
    by_cases h : y i - s * g i < l i
    · rw [if_pos ((XR.lt_fin _ _).2 h), max_eq_right h.le]
    · rw [if_neg fun h' => h ((XR.lt_fin _ _).1 h'), max_eq_left (not_lt.1 h)]
  rw [h1]
  by_cases h : u i < Max.max (y i - s * g i) (l i)
  · rw [if_pos ((XR.lt_fin _ _).2 h), min_eq_right h.le]
  · rw [if_neg fun h' => h ((XR.lt_fin _ _).1 h'), min_eq_left (not_lt.1 h)]

/-- One iteration on numbers. -/
theorem body_nums (y g l u q : Fin (n + 1) → ℝ) (h : Matrix (Fin (n + 1)) (Fin (n + 1)) ℝ) (ts : Vec n) (st : State n) (p s : ℝ)
    (hp : st.previousIntercept = .fin p) (hq : st.point = nums q) (hs : nextIntercept ts (.fin p) = .fin s)
    (w : Fin (n + 1) → ℝ) (hw : w = fun i => Min.min (Max.max (y i - s * g i) (l i)) (u i) - y i) (L Q : ℝ)
    (hL : L = ∑ i, g i * w i + ∑ i, q i * h.mulVec w i) (hQ : Q = ∑ i, w i * h.mulVec w i) (hQ0 : Q ≠ 0) :
    body (nums y) (nums l) (nums u) (nums g) (numsMat h) ts st =
      { previousIntercept := .fin s
        point := nums fun i => Min.min (Max.max (y i -
          (if s < -L / Q then s else if 0 < L then p else -L / Q) * g i) (l i)) (u i)
        terminate := (decide (0 < L) || !decide (s < -L / Q)) ||
          !(List.finRange (n + 1)).any fun i => decide (XR.fin s < ts i) } := by
  have hdiff : (fun i => CauchyPoint.point (nums y) (nums g) (.fin s) (nums l) (nums u) i - nums y i) = nums w := by
    rw [point_num, hw]; funext i; exact XR.sub_fin _ _
  have hl : dot (nums g) (nums w) + dot st.point (mv (numsMat h) (nums w)) = .fin L := by
    rw [hq, mv_nums, dot_nums, dot_nums, XR.add_fin, hL]
  have hqd : dot (nums w) (mv (numsMat h) (nums w)) = .fin Q := by rw [mv_nums, dot_nums, hQ]
  unfold body
  dsimp only
  rw [hp, hs, hdiff, hl, hqd, XR.neg_fin, XR.div_fin _ _ hQ0, ← point_num]
  have e1 : decide (0 < XR.fin L) = decide (0 < L) := decide_eq_decide.2 (XR.lt_fin _ _)
  have e2 : decide (XR.fin s < XR.fin (-L / Q)) = decide (s < -L / Q) := decide_eq_decide.2 (XR.lt_fin _ _)
  rw [e1, e2]
  congr 1
  congr 1
  by_cases c1 : s < -L / Q
  · simp [c1]
  · by_cases c2 : 0 < L <;> simp [c1, c2]

theorem find_iterate {C : Type} (cond : C → Bool) (body : C → C) (c : C) (k : Nat)
    (h : ∀ j, j < k → cond (body^[j] c) = true) (hk : cond (body^[k] c) = false) :
    Driver.whileForever cond body c = some (body^[k] c) := by
  have hex : ∃ k, cond (body^[k] c) = false := ⟨k, hk⟩
  unfold Driver.whileForever
  rw [dif_pos hex]
  have : Nat.find hex = k := by
    rw [Nat.find_eq_iff]
    exact ⟨hk, fun j hj hc => by rw [h j hj] at hc; cases hc⟩
  rw [this]

/-- **C50 is false of the code (model decrease)**: from `0` with gradient `1`, Hessian `16` and box `[-1/4, 1]` it returns
`-1/4`, where the quadratic model is larger than at the start. -/
theorem C50_model_increases :
    ∃ r : Fin 1 → ℝ, cauchyPoint (nums fun _ => 0) (nums fun _ => -1/4) (nums fun _ => 1) (nums fun _ => 1)
      (numsMat fun _ _ => 16) = some (nums r) ∧ 0 < quadraticChange (fun _ => 1) (fun _ _ => 16) (fun i => r i - 0) := by
  have hint : boundaryIntercepts (nums fun _ : Fin 1 => 0) (nums fun _ => -1/4) (nums fun _ => 1) (nums fun _ => 1) =
      nums fun _ => 1/4 := by
    funext i
    show CauchyPoint.min (leafIntercept (.fin 0) (.fin (-1/4)) (.fin 1)) (leafIntercept (.fin 0) (.fin 1) (.fin 1)) = .fin (1/4)
    rw [leaf_ahead _ _ _ (by norm_num) (by norm_num), leaf_behind _ _ _ (by norm_num) (by norm_num), (min_pinf _).1]
    norm_num
  refine ⟨fun _ => -1/4, ?_, by simp [quadraticChange]; norm_num⟩
  unfold cauchyPoint
  dsimp only
  rw [hint, if_pos (by
    rw [List.any_eq_true]
    refine ⟨0, List.mem_finRange 0, ?_⟩
    rw [Bool.and_eq_true, decide_eq_true_eq, decide_eq_true_eq]
    exact ⟨show (0 : ℝ) < 1/4 by norm_num, show (1/4 : ℝ) < 1 by norm_num⟩)]
  have hnext : nextIntercept (nums fun _ : Fin 1 => 1/4) (.fin 0) = .fin (1/4) := by
    unfold nextIntercept
    split <;> rfl
  have hb := body_nums (n := 0) (fun _ => 0) (fun _ => 1) (fun _ => -1/4) (fun _ => 1) (fun _ => 0) (fun _ _ => 16)
    (nums fun _ => 1/4) { previousIntercept := 0, point := nums fun _ => 0, terminate := false } 0 (1/4) rfl rfl hnext
    (fun _ => -1/4) (by funext i; norm_num) (-1/4) 1 (by simp) (by simp [Matrix.mulVec, dotProduct]; norm_num) one_ne_zero
  unfold findCauchyPoint
  rw [find_iterate _ _ _ 1]
  · rw [Option.map_some, Function.iterate_one, hb]
    congr 1
    funext i
    show XR.fin _ = XR.fin _
    congr 1
    norm_num
  · intro j hj
    have : j = 0 := by omega
    subst this
    rfl
  · rw [Function.iterate_one, hb]
    norm_num

/-- **C50 is false of the code (termination)**: from the centre of the box `[-1, 1]²` with gradient `(2, 0)` and the
identity as Hessian, the search never stops. -/
theorem C50_hangs :
    cauchyPoint (nums ![0, 0]) (nums ![-1, -1]) (nums ![1, 1]) (nums ![2, 0]) (numsMat !![1, 0; 0, 1]) = none := by
  have hint : boundaryIntercepts (nums ![0, 0]) (nums ![-1, -1]) (nums ![1, 1]) (nums ![2, 0]) = ![.fin (1/2), .pinf] := by
    funext i
    fin_cases i
    · show CauchyPoint.min (leafIntercept (.fin 0) (.fin (-1)) (.fin 2)) (leafIntercept (.fin 0) (.fin 1) (.fin 2)) = .fin (1/2)
      rw [leaf_ahead _ _ _ (by norm_num) (by norm_num), leaf_behind _ _ _ (by norm_num) (by norm_num), (min_pinf _).1]
      norm_num
    · show CauchyPoint.min (leafIntercept (.fin 0) (.fin (-1)) (.fin 0)) (leafIntercept (.fin 0) (.fin 1) (.fin 0)) = .pinf
      rw [leaf_zero, leaf_zero]
      simp [CauchyPoint.min, XR.isNan]
  unfold cauchyPoint
  dsimp only
  rw [hint, if_pos (by
    rw [List.any_eq_true]
    refine ⟨0, List.mem_finRange 0, ?_⟩
    rw [Bool.and_eq_true, decide_eq_true_eq, decide_eq_true_eq]
    exact ⟨show (0 : ℝ) < 1/2 by norm_num, show (1/2 : ℝ) < 1 by norm_num⟩)]
  have hnext : ∀ p : ℝ, nextIntercept (n := 1) ![.fin (1/2), .pinf] (.fin p) = .fin (1/2) := by
    intro p
    unfold nextIntercept
    have hl : List.finRange 2 = [0, 1] := rfl
    rw [hl, List.find?_cons, List.find?_cons]
    have h1 : (decide (XR.fin p < ![XR.fin (1/2), .pinf] 1) && (![XR.fin (1/2), .pinf] 1).isFinite) = false := by
      rw [Bool.and_eq_false_iff]; exact Or.inr rfl
    rw [h1]
    split
    · rename_i h; split at h
      · cases h; rfl
      · simp at h
    · rfl
  have hmore : (List.finRange (1 + 1)).any (fun i => decide (XR.fin (1/2) < (![XR.fin (1/2), .pinf] : Vec 1) i)) = true := by
    rw [List.any_eq_true]
    exact ⟨1, List.mem_finRange 1, decide_eq_true (show XR.fin (1/2) < XR.pinf from trivial)⟩
  have hb : ∀ (st : State 1) (p q : ℝ), st.previousIntercept = .fin p → st.point = nums ![q, 0] → q = 0 ∨ q = -1 →
      body (nums ![0, 0]) (nums ![-1, -1]) (nums ![1, 1]) (nums ![2, 0]) (numsMat !![1, 0; 0, 1]) ![.fin (1/2), .pinf] st =
        { previousIntercept := .fin (1/2), point := nums ![-1, 0], terminate := false } := by
    intro st p q h1 h2 hq
    have hw : (![-1, 0] : Fin 2 → ℝ) = fun i => Min.min (Max.max ((![0, 0] : Fin 2 → ℝ) i - 1/2 * (![2, 0] : Fin 2 → ℝ) i)
        ((![-1, -1] : Fin 2 → ℝ) i)) ((![1, 1] : Fin 2 → ℝ) i) - (![0, 0] : Fin 2 → ℝ) i := by
      funext i; fin_cases i <;> norm_num
    have hb := body_nums (n := 1) ![0, 0] ![2, 0] ![-1, -1] ![1, 1] ![q, 0] !![1, 0; 0, 1] ![.fin (1/2), .pinf] st p (1/2) h1 h2
      (hnext p) ![-1, 0] hw (-2 - q) 1
      (by simp [Fin.sum_univ_two, Matrix.mulVec, dotProduct]; ring) (by simp [Fin.sum_univ_two, Matrix.mulVec, dotProduct])
      one_ne_zero
    rw [hb, hmore]
    have c1 : (1/2 : ℝ) < -(-2 - q) / 1 := by rcases hq with rfl | rfl <;> norm_num
    have c2 : ¬ (0 : ℝ) < -2 - q := by rcases hq with rfl | rfl <;> norm_num
    simp only [c1, c2, if_true, decide_true, decide_false, Bool.not_true, Bool.or_self]
    congr 1
    congr 1
    funext i; fin_cases i <;> norm_num
  have hall : ∀ k, ∃ p q, ((body (nums ![0, 0]) (nums ![-1, -1]) (nums ![1, 1]) (nums ![2, 0]) (numsMat !![1, 0; 0, 1])
      ![.fin (1/2), .pinf])^[k] { previousIntercept := 0, point := nums ![0, 0], terminate := false }) =
        { previousIntercept := .fin p, point := nums ![q, 0], terminate := false } ∧ (q = 0 ∨ q = -1) := by
    intro k
    induction k with
    | zero => exact ⟨0, 0, rfl, Or.inl rfl⟩
    | succ k ih =>
      obtain ⟨p, q, h1, h2⟩ := ih
      rw [Function.iterate_succ_apply', h1, hb _ p q rfl rfl h2]
      exact ⟨_, _, rfl, Or.inr rfl⟩
  unfold findCauchyPoint Driver.whileForever
  rw [dif_neg]
  · rfl
  · rintro ⟨k, hk⟩
    obtain ⟨p, q, h1, _⟩ := hall k
    rw [h1] at hk
    cases hk

theorem dot_nan (x y : Vec n) (h : x 0 = .nan ∨ y 0 = .nan) : dot x y = .nan := by
  unfold dot
  rw [List.ofFn_succ, List.foldr_cons]
  rcases h with h | h <;> rw [h]
  · rw [XR.nan_mul, XR.nan_add]
  · rw [XR.mul_nan, XR.nan_add]

/-- **C50 is false of the code (NaN)**: with the two entries exchanged the result is NaN. -/
theorem C50_nan :
    cauchyPoint (nums ![0, 0]) (nums ![-1, -1]) (nums ![1, 1]) (nums ![0, 2]) (numsMat !![1, 0; 0, 1]) =
      some fun _ => .nan := by
  have hint : boundaryIntercepts (nums ![0, 0]) (nums ![-1, -1]) (nums ![1, 1]) (nums ![0, 2]) = ![.pinf, .fin (1/2)] := by
    funext i
    fin_cases i
    · show CauchyPoint.min (leafIntercept (.fin 0) (.fin (-1)) (.fin 0)) (leafIntercept (.fin 0) (.fin 1) (.fin 0)) = .pinf
      rw [leaf_zero, leaf_zero]
      simp [CauchyPoint.min, XR.isNan]
    · show CauchyPoint.min (leafIntercept (.fin 0) (.fin (-1)) (.fin 2)) (leafIntercept (.fin 0) (.fin 1) (.fin 2)) = .fin (1/2)
      rw [leaf_ahead _ _ _ (by norm_num) (by norm_num), leaf_behind _ _ _ (by norm_num) (by norm_num), (min_pinf _).1]
      norm_num
  unfold cauchyPoint
  dsimp only
  rw [hint, if_pos (by
    rw [List.any_eq_true]
    refine ⟨1, List.mem_finRange 1, ?_⟩
    rw [Bool.and_eq_true, decide_eq_true_eq, decide_eq_true_eq]
    exact ⟨show (0 : ℝ) < 1/2 by norm_num, show (1/2 : ℝ) < 1 by norm_num⟩)]
  have hl : List.finRange 2 = [0, 1] := rfl
  have h0 : ∀ p : ℝ, (decide (XR.fin p < (![.pinf, .fin (1/2)] : Vec 1) 0) && ((![.pinf, .fin (1/2)] : Vec 1) 0).isFinite) =
      false := by
    intro p; rw [Bool.and_eq_false_iff]; exact Or.inr rfl
  have hnext0 : nextIntercept (n := 1) ![.pinf, .fin (1/2)] (.fin 0) = .fin (1/2) := by
    have h1 : (decide (XR.fin 0 < (![.pinf, .fin (1/2)] : Vec 1) 1) && ((![.pinf, .fin (1/2)] : Vec 1) 1).isFinite) = true := by
      rw [Bool.and_eq_true, decide_eq_true_eq]
      exact ⟨show (0 : ℝ) < 1/2 by norm_num, rfl⟩
    unfold nextIntercept
    rw [hl, List.find?_cons, h0, List.find?_cons, h1]
    rfl
  have hnext1 : nextIntercept (n := 1) ![.pinf, .fin (1/2)] (.fin (1/2)) = .pinf := by
    have h1 : (decide (XR.fin (1/2) < (![.pinf, .fin (1/2)] : Vec 1) 1) && ((![.pinf, .fin (1/2)] : Vec 1) 1).isFinite) =
        false := by
      rw [Bool.and_eq_false_iff, decide_eq_false_iff_not]
      exact Or.inl fun h => lt_irrefl (1/2 : ℝ) ((XR.lt_fin _ _).1 h)
    unfold nextIntercept
    rw [hl, List.find?_cons, h0, List.find?_cons, h1]
    rfl
  have hw : (![0, -1] : Fin 2 → ℝ) = fun i => Min.min (Max.max ((![0, 0] : Fin 2 → ℝ) i - 1/2 * (![0, 2] : Fin 2 → ℝ) i)
      ((![-1, -1] : Fin 2 → ℝ) i)) ((![1, 1] : Fin 2 → ℝ) i) - (![0, 0] : Fin 2 → ℝ) i := by
    funext i; fin_cases i <;> norm_num
  have hmore : (List.finRange (1 + 1)).any (fun i => decide (XR.fin (1/2) < (![.pinf, XR.fin (1/2)] : Vec 1) i)) = true := by
    rw [List.any_eq_true]
    exact ⟨0, List.mem_finRange 0, decide_eq_true (show XR.fin (1/2) < XR.pinf from trivial)⟩
  have hb1 : body (nums ![0, 0]) (nums ![-1, -1]) (nums ![1, 1]) (nums ![0, 2]) (numsMat !![1, 0; 0, 1]) ![.pinf, .fin (1/2)]
      { previousIntercept := 0, point := nums ![0, 0], terminate := false } =
        { previousIntercept := .fin (1/2), point := nums ![0, -1], terminate := false } := by
    have hb := body_nums (n := 1) ![0, 0] ![0, 2] ![-1, -1] ![1, 1] ![0, 0] !![1, 0; 0, 1] ![.pinf, .fin (1/2)]
      { previousIntercept := 0, point := nums ![0, 0], terminate := false } 0 (1/2) rfl rfl hnext0 ![0, -1] hw (-2) 1
      (by simp [Fin.sum_univ_two]) (by simp [Fin.sum_univ_two, Matrix.mulVec, dotProduct]) one_ne_zero
    rw [hb, hmore]
    have c1 : (1/2 : ℝ) < -(-2) / 1 := by norm_num
    have c2 : ¬ (0 : ℝ) < -2 := by norm_num
    simp only [c1, c2, if_true, decide_true, decide_false, Bool.not_true, Bool.or_self]
    congr 1
    congr 1
    funext i; fin_cases i <;> norm_num
  have hb2 : body (nums ![0, 0]) (nums ![-1, -1]) (nums ![1, 1]) (nums ![0, 2]) (numsMat !![1, 0; 0, 1]) ![.pinf, .fin (1/2)]
      { previousIntercept := .fin (1/2), point := nums ![0, -1], terminate := false } =
        { previousIntercept := .pinf, point := fun _ => .nan, terminate := true } := by
    have hp0 : CauchyPoint.point (nums ![0, 0]) (nums ![0, 2]) .pinf (nums ![-1, -1]) (nums ![1, 1]) 0 -
        (nums ![0, 0] : Vec 1) 0 = .nan := by
      have : XR.pinf * (nums ![0, 2] : Vec 1) 0 = .nan := by
        show XR.infTimes 0 = .nan
        simp [XR.infTimes]
      show XR.clip _ _ ((nums ![0, 0] : Vec 1) 0 - XR.pinf * (nums ![0, 2] : Vec 1) 0) - _ = _
      rw [this, XR.sub_nan]
      simp [XR.clip]
    have hpn : CauchyPoint.point (nums ![0, 0]) (nums ![0, 2]) .nan (nums ![-1, -1]) (nums ![1, 1]) = fun _ => .nan := by
      funext i
      show XR.clip _ _ ((nums ![0, 0] : Vec 1) i - XR.nan * (nums ![0, 2] : Vec 1) i) = _
      rw [XR.nan_mul, XR.sub_nan]
      simp [XR.clip]
    unfold body
    dsimp only
    rw [hnext1, dot_nan (nums ![0, 2]) _ (Or.inr hp0), dot_nan (fun i => _ - _) _ (Or.inl hp0)]
    simp [hpn]
  unfold findCauchyPoint
  rw [find_iterate _ _ _ 2]
  · rw [Option.map_some, Function.iterate_succ_apply', Function.iterate_one, hb1, hb2]
  · intro j hj
    have : j = 0 ∨ j = 1 := by omega
    rcases this with rfl | rfl
    · rfl
    · rw [Function.iterate_one, hb1]; rfl
  · rw [Function.iterate_succ_apply', Function.iterate_one, hb1, hb2]; rfl

/-- The hypotheses of `C50_terminates_partial` (and with it of `C50_in_box_partial`) hold: two entries, different bounds ahead. -/
example : ∃ r, cauchyPoint (nums ![0, 1]) (nums ![-1, -1]) (nums ![1, 2]) (nums ![2, -3]) (numsMat !![2, 1; 1, 2]) =
    some (nums r) ∧ ∀ i, InBox ((nums ![-1, -1] : Vec 1) i) ((nums ![1, 2] : Vec 1) i) (r i) := by
  refine C50_terminates_partial _ _ _ _ _ (fun i => Or.inr ⟨_, rfl⟩) (fun i => Or.inr ⟨_, rfl⟩) ?_ ?_ ?_
  · intro i
    fin_cases i
    · exact ⟨show (-1 : ℝ) ≤ 0 by norm_num, show (0 : ℝ) ≤ 1 by norm_num⟩
    · exact ⟨show (-1 : ℝ) ≤ 1 by norm_num, show (1 : ℝ) ≤ 2 by norm_num⟩
  · refine ⟨by intro i j; fin_cases i <;> fin_cases j <;> rfl, ?_⟩
    intro x hx
    have e : ∑ i, ∑ j, x i * (!![2, 1; 1, 2] : Matrix (Fin 2) (Fin 2) ℝ) i j * x j =
        (x 0 + x 1) ^ 2 + (x 0 ^ 2 + x 1 ^ 2) := by
      simp [Fin.sum_univ_two]; ring
    have h0 : 0 < x 0 ^ 2 + x 1 ^ 2 := by
      obtain ⟨i, hi⟩ := hx
      have h2 : 0 < x i ^ 2 := by positivity
      have := sq_nonneg (x 0)
      have := sq_nonneg (x 1)
      have h3 : i = 0 ∨ i = 1 := by fin_cases i <;> simp
      rcases h3 with rfl | rfl <;> linarith
    have := sq_nonneg (x 0 + x 1)
    exact lt_of_lt_of_eq (by linarith) e.symm
  · intro i
    fin_cases i
    · exact Or.inl ⟨show (0 : ℝ) < 2 by norm_num, -1, rfl⟩
    · exact Or.inr ⟨show (-3 : ℝ) < 0 by norm_num, 2, rfl⟩

end Verif.Props
