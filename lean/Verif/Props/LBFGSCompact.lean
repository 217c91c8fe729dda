import Verif.Props.LBFGS
import Mathlib.Data.Matrix.Block
import Mathlib.Algebra.BigOperators.Group.Finset.Basic

/-! Property C39: the operator of L-BFGS with `use_inverse=False` (compact representation). -/

namespace Verif.Props

open Verif Verif.Spec Verif.Driver Verif.SearchLoop Verif.Rank Verif.QuasiNewton Verif.LBFGS Verif.Ring

variable {ι A SS DS : Type} [Fintype ι]

/-! ### Specification -/

/-- The textbook L-BFGS Hessian approximation from curvature pairs, oldest first: start from `(dᵀd / sᵀd) I` for the newest
pair (from `I` if there is none) and apply the (direct) BFGS update for each pair. -/
noncomputable def denseHessian [DecidableEq ι] (l : List (Pair ι)) : Matrix ι ι ℝ :=
  l.foldl (fun B p => textbookRankTwo B p.2 p.1) (match l.getLast? with
    | none => 1
    | some (s, d) => (d ⬝ᵥ d / s ⬝ᵥ d) • 1)

/-- The order of a vector of length `2 * h` made of two halves. -/
def position {h : Nat} : Fin h ⊕ Fin h → Nat
  | .inl i => i.val
  | .inr i => h + i.val

/-- The assumptions on `jnp.linalg.cholesky` and `jax.scipy.linalg.solve_triangular`: exact Cholesky factors of symmetric
positive definite matrices, exact solutions of triangular systems with non-zero diagonal. -/
structure ExactLA {h : Nat} (la : DenseLA h) : Prop where
  cholesky : ∀ M, SPD M → la.cholesky M * (la.cholesky M).transpose = M ∧
    (∀ i j, i < j → la.cholesky M i j = 0) ∧ ∀ i, 0 < la.cholesky M i i
  solveLower : ∀ (T : Matrix (Fin h ⊕ Fin h) (Fin h ⊕ Fin h) ℝ) b,
    (∀ i j, position i < position j → T i j = 0) → (∀ i, T i i ≠ 0) → T.mulVec (la.solveLower T b) = b
  solveUpper : ∀ (T : Matrix (Fin h ⊕ Fin h) (Fin h ⊕ Fin h) ℝ) b,
    (∀ i j, position j < position i → T i j = 0) → (∀ i, T i i ≠ 0) → T.mulVec (la.solveUpper T b) = b

/-! ### The compact representation, in order -/

theorem textbookRankTwo_mulVec (B : Matrix ι ι ℝ) (d s x : ι → ℝ) :
    (textbookRankTwo B d s).mulVec x = fun c => B.mulVec x c -
      treeDot s (B.mulVec x) / treeDot s (B.mulVec s) * B.mulVec s c + treeDot d x / treeDot d s * d c := by
  funext i
  unfold textbookRankTwo
  rw [Matrix.add_mulVec, Matrix.sub_mulVec, Matrix.smul_mulVec, Matrix.smul_mulVec, ← Matrix.mulVec_mulVec,
    ← Matrix.mulVec_mulVec, Matrix.vecMulVec_mulVec, Matrix.vecMulVec_mulVec]
  have e1 : (MulOpposite.op (s ⬝ᵥ B.mulVec x) • s) = fun i => treeDot s (B.mulVec x) * s i := by
    funext i
    simp only [Pi.smul_apply, MulOpposite.smul_eq_mul_unop, MulOpposite.unop_op, dot_eq]
    ring
  rw [e1, mulVec_smul']
  simp only [Pi.add_apply, Pi.sub_apply, Pi.smul_apply, smul_eq_mul, MulOpposite.smul_eq_mul_unop,
    MulOpposite.unop_op, ← dot_eq]
  ring

theorem textbookRankTwo_spd (B : Matrix ι ι ℝ) (hB : SPD B) (d s : ι → ℝ) (h : 0 < treeDot d s) :
    SPD (textbookRankTwo B d s) := by
  rw [← rank_two B hB.1 d s]
  exact bfgsDirect_spd B hB d s h

/-- The matrices after the first `m` of a sequence of pairs, of which the first `p` are padding. -/
noncomputable def denseSeq [DecidableEq ι] (gamma : ℝ) (S G : Nat → ι → ℝ) (p : Nat) : Nat → Matrix ι ι ℝ
  | 0 => gamma • 1
  | m + 1 => if m < p then denseSeq gamma S G p m else textbookRankTwo (denseSeq gamma S G p m) (G m) (S m)

theorem denseSeq_spd [DecidableEq ι] (gamma : ℝ) (hg : 0 < gamma) (S G : Nat → ι → ℝ) (p m : Nat)
    (hpos : ∀ t, p ≤ t → t < m → 0 < treeDot (G t) (S t)) : SPD (denseSeq gamma S G p m) := by
  induction m with
  | zero => exact spd_smul_one gamma hg
  | succ m ih =>
    have := ih fun t h1 h2 => hpos t h1 (by omega)
    unfold denseSeq
    split
    · exact this
    · exact textbookRankTwo_spd _ this _ _ (hpos m (by omega) (by omega))

theorem dot_lin_sum (x : ι → ℝ) (q : Nat → ℝ) (V : Nat → ι → ℝ) (m : Nat) :
    treeDot x (fun c => ∑ j ∈ Finset.range m, q j * V j c) = ∑ j ∈ Finset.range m, treeDot x (V j) * q j := by
  unfold treeDot
  simp only [Finset.mul_sum, Finset.sum_mul]
  rw [Finset.sum_comm]
  exact Finset.sum_congr rfl fun j _ => Finset.sum_congr rfl fun c _ => by ring

/-- Byrd, Nocedal and Schnabel, theorem 2.3: solving the `2m × 2m` system gives the product with the dense matrix. -/
theorem compact_apply [DecidableEq ι] (gamma : ℝ) (hg : 0 < gamma) (S G : Nat → ι → ℝ) (p m : Nat)
    (hS : ∀ t, t < p → S t = fun _ => 0) (hG : ∀ t, t < p → G t = fun _ => 0)
    (hpos : ∀ t, p ≤ t → t < m → 0 < treeDot (G t) (S t)) (v : ι → ℝ) (q1 q2 : Nat → ℝ)
    (e1 : ∀ j, p ≤ j → j < m → -treeDot (G j) (S j) * q1 j +
      ∑ i ∈ Finset.range m, (if j < i then treeDot (S i) (G j) else 0) * q2 i = treeDot (G j) v)
    (e2 : ∀ i, p ≤ i → i < m → ∑ j ∈ Finset.range m, (if j < i then treeDot (S i) (G j) else 0) * q1 j +
      gamma * ∑ j ∈ Finset.range m, treeDot (S i) (S j) * q2 j = gamma * treeDot (S i) v) :
    (fun c => gamma * v c - ∑ j ∈ Finset.range m, q1 j * G j c - gamma * ∑ j ∈ Finset.range m, q2 j * S j c) =
      (denseSeq gamma S G p m).mulVec v := by
  induction m generalizing v with
  | zero => simp [denseSeq, Matrix.smul_mulVec]; rfl
  | succ m ih =>
    by_cases hm : m < p
    · have := ih (fun t h1 h2 => by omega) v (fun j h1 h2 => by omega) (fun j h1 h2 => by omega)
      rw [denseSeq, if_pos hm, ← this]
      funext c
      rw [Finset.sum_range_succ, Finset.sum_range_succ, hS m hm, hG m hm]
      ring
    · have hmp : p ≤ m := by omega
      have hpos' : ∀ t, p ≤ t → t < m → 0 < treeDot (G t) (S t) := fun t h1 h2 => hpos t h1 (by omega)
      have hD := hpos m hmp (by omega)
      set a := q1 m with ha
      set b := q2 m with hb
      -- the new row of the first block
      have ea : -treeDot (G m) (S m) * a = treeDot (G m) v := by
        have := e1 m hmp (by omega)
        rw [Finset.sum_eq_zero] at this
        · simpa using this
        · intro i hi
          rw [Finset.mem_range] at hi
          rw [if_neg (by omega), zero_mul]
      have hIH := ih hpos' (fun c => v c - b * S m c) ?_ ?_
      · have hB := denseSeq_spd gamma hg S G p m hpos'
        set B := denseSeq gamma S G p m with hBd
        -- the new row of the second block
        have eb := e2 m hmp (by omega)
        rw [Finset.sum_range_succ, Finset.sum_range_succ, if_neg (lt_irrefl m)] at eb
        have hsum : ∑ j ∈ Finset.range m, (if j < m then treeDot (S m) (G j) else 0) * q1 j =
            ∑ j ∈ Finset.range m, treeDot (S m) (G j) * q1 j :=
          Finset.sum_congr rfl fun j hj => by rw [if_pos (Finset.mem_range.1 hj)]
        rw [hsum] at eb
        have hz : treeDot (S m) (B.mulVec fun c => v c - b * S m c) = 0 := by
          rw [← hIH]
          rw [dot_sub _ (fun c => gamma * (v c - b * S m c) - ∑ j ∈ Finset.range m, q1 j * G j c),
            dot_sub, dot_smul, dot_smul, dot_lin_sum, dot_lin_sum, dot_sub, dot_smul]
          linarith
        rw [mulVec_sub' B v fun c => b * S m c, mulVec_smul', dot_sub, dot_smul] at hz
        have hq : treeDot (S m) (B.mulVec (S m)) ≠ 0 :=
          (((spd_iff B).1 hB).2 _ (nonzero_of_dot hD)).ne'
        have hbv : b = treeDot (S m) (B.mulVec v) / treeDot (S m) (B.mulVec (S m)) := by
          rw [eq_div_iff hq]; linarith
        have hav : a = -(treeDot (G m) v / treeDot (G m) (S m)) := by
          rw [← neg_div, eq_div_iff hD.ne']; linarith
        rw [denseSeq, if_neg hm, textbookRankTwo_mulVec]
        funext c
        have hc := congrFun hIH c
        rw [mulVec_sub' B v fun c => b * S m c, mulVec_smul'] at hc
        simp only at hc
        rw [Finset.sum_range_succ, Finset.sum_range_succ, ← ha, ← hb, ← hBd, ← hbv]
        have : treeDot (G m) v / treeDot (G m) (S m) = -a := by rw [hav]; ring
        rw [this]
        linarith
      · intro j h1 h2
        have := e1 j h1 (by omega)
        rw [Finset.sum_range_succ, if_pos h2] at this
        rw [dot_sub, dot_smul, dot_comm (G j) (S m)]
        linarith
      · intro i h1 h2
        have := e2 i h1 (by omega)
        rw [Finset.sum_range_succ, Finset.sum_range_succ, if_neg (by omega)] at this
        rw [dot_sub, dot_smul]
        linarith

/-! ### The state -/

section State

variable {h : Nat} [NeZero h]

/-- The invariant of the state of `use_inverse=False`, in the order of the ring buffers: `L`, `D` and `SᵀS` are those of
the remembered pairs, with ones on the diagonal for positions not yet written. -/
structure DirInv (st : DirState ι h) (l : List (Pair ι)) : Prop where
  remembers : Remembers st.indexStart st.yDiff st.gradDiff l
  positive : PositivePairs l
  cross : ∀ t u, t < h → u < h → st.cross (slot h (t + st.indexStart)) (slot h (u + st.indexStart)) =
    if u < t then treeDot (st.yDiff (slot h (t + st.indexStart))) (st.gradDiff (slot h (u + st.indexStart))) else 0
  inner : ∀ t, t < h → st.inner (slot h (t + st.indexStart)) = if t < h - l.length then 1 else
    treeDot (st.gradDiff (slot h (t + st.indexStart))) (st.yDiff (slot h (t + st.indexStart)))
  yCross : ∀ t u, t < h → u < h → st.yCross (slot h (t + st.indexStart)) (slot h (u + st.indexStart)) =
    if t < h - l.length ∨ u < h - l.length then (if t = u then 1 else 0) else
      treeDot (st.yDiff (slot h (t + st.indexStart))) (st.yDiff (slot h (u + st.indexStart)))

omit [Fintype ι] in
theorem remembers_padding {n : Nat} {yDiff gradDiff : Fin h → ι → ℝ} {l : List (Pair ι)}
    (hr : Remembers n yDiff gradDiff l) (t : Nat) (ht : t < h - l.length) :
    yDiff (slot h (t + n)) = (fun _ => 0) ∧ gradDiff (slot h (t + n)) = fun _ => 0 := by
  have h1 := window_get (fun i => ((yDiff i, gradDiff i) : Pair ι)) n t (by omega)
  rw [hr.2] at h1
  have h2 : (lastOf h ((fun _ => 0, fun _ => 0) : Pair ι) l)[t]? = some (fun _ => 0, fun _ => 0) := by
    unfold lastOf
    rw [List.getElem?_append_left (by simp; omega), List.getElem?_replicate_of_lt (by omega)]
  rw [h1] at h2
  simpa using Option.some.inj h2

omit [Fintype ι] in
theorem remembers_entry {n : Nat} {yDiff gradDiff : Fin h → ι → ℝ} {l : List (Pair ι)}
    (hr : Remembers n yDiff gradDiff l) (t : Nat) (ht : h - l.length ≤ t) (hth : t < h) :
    (lastN h l)[t - (h - l.length)]? = some (yDiff (slot h (t + n)), gradDiff (slot h (t + n))) := by
  have h1 := window_get (fun i => ((yDiff i, gradDiff i) : Pair ι)) n t hth
  rw [hr.2] at h1
  unfold lastOf at h1
  rw [List.getElem?_append_right (by simp; omega), List.length_replicate] at h1
  exact h1

theorem dirInv_pos {st : DirState ι h} {l : List (Pair ι)} (hst : DirInv st l) (t : Nat) (ht : h - l.length ≤ t)
    (hth : t < h) :
    0 < treeDot (st.gradDiff (slot h (t + st.indexStart))) (st.yDiff (slot h (t + st.indexStart))) := by
  have := remembers_entry hst.remembers t ht hth
  exact hst.positive.lastN h _ (List.mem_of_getElem? this)

theorem dirInv_init : DirInv (initDir ι h) [] where
  remembers := remembers_init
  positive := by intro p hp; simp at hp
  cross t u _ _ := by simp [initDir, treeDot]
  inner t ht := by simp [initDir, ht]
  yCross t u ht hu := by
    simp only [initDir, List.length_nil, Nat.sub_zero, ht, true_or, if_true, Nat.add_zero, Matrix.one_apply]
    congr 1
    apply propext
    constructor
    · intro e; exact slot_inj 0 t u ht hu (by simpa using e)
    · rintro rfl; rfl

theorem slot_next (n t : Nat) (ht : t + 1 < h) : slot h (t + (n + 1)) = slot h (t + 1 + n) ∧
    slot h (t + (n + 1)) ≠ slot h n := by
  have e : t + (n + 1) = t + 1 + n := by omega
  rw [e]
  exact ⟨rfl, slot_ne n (t + 1) (by omega) ht⟩

theorem slot_wrap (n t : Nat) (ht : t + 1 = h) : slot h (t + (n + 1)) = slot h n := by
  rw [show t + (n + 1) = n + h by omega, slot_add]

theorem dirInv_record (st : DirState ι h) (l : List (Pair ι)) (s d : ι → ℝ) (hst : DirInv st l)
    (hc : 0 < treeDot d s) : DirInv (recordDir st s d) (l ++ [(s, d)]) := by
  have hrem : Remembers (recordDir st s d).indexStart (recordDir st s d).yDiff (recordDir st s d).gradDiff
    (l ++ [(s, d)]) := remembers_snoc _ _ _ _ _ _ hst.remembers
  have hlen : st.indexStart = l.length := hst.remembers.1
  set n := st.indexStart with hn
  have hy : ∀ t, t + 1 < h → (recordDir st s d).yDiff (slot h (t + (n + 1))) = st.yDiff (slot h (t + 1 + n)) := by
    intro t ht
    obtain ⟨e, ne⟩ := slot_next (h := h) n t ht
    rw [← e]
    exact Function.update_of_ne ne _ _
  have hgd : ∀ t, t + 1 < h → (recordDir st s d).gradDiff (slot h (t + (n + 1))) = st.gradDiff (slot h (t + 1 + n)) := by
    intro t ht
    obtain ⟨e, ne⟩ := slot_next (h := h) n t ht
    rw [← e]
    exact Function.update_of_ne ne _ _
  have hyl : ∀ t, t + 1 = h → (recordDir st s d).yDiff (slot h (t + (n + 1))) = s := by
    intro t ht; rw [slot_wrap n t ht]; exact Function.update_self _ _ _
  have hgl : ∀ t, t + 1 = h → (recordDir st s d).gradDiff (slot h (t + (n + 1))) = d := by
    intro t ht; rw [slot_wrap n t ht]; exact Function.update_self _ _ _
  have hi : (recordDir st s d).indexStart = n + 1 := rfl
  refine ⟨hrem, ?_, ?_, ?_, ?_⟩
  · intro p hp
    rcases List.mem_append.1 hp with hp | hp
    · exact hst.positive p hp
    · rw [List.mem_singleton] at hp
      subst hp
      exact hc
  · intro t u ht hu
    rw [hi]
    rcases Nat.lt_or_ge (u + 1) h with hu' | hu'
    · obtain ⟨eu, neu⟩ := slot_next (h := h) n u hu'
      have e0 : (recordDir st s d).cross (slot h (t + (n + 1))) (slot h (u + (n + 1))) =
        if slot h (t + (n + 1)) = slot h n then treeDot (st.gradDiff (slot h (u + (n + 1)))) s else
          st.cross (slot h (t + (n + 1))) (slot h (u + (n + 1))) := if_neg neu
      rw [e0]
      rcases Nat.lt_or_ge (t + 1) h with ht' | ht'
      · obtain ⟨et, net⟩ := slot_next (h := h) n t ht'
        rw [if_neg net, hy t ht', hgd u hu', et, eu, hst.cross (t + 1) (u + 1) ht' hu']
        simp only [Nat.add_lt_add_iff_right]
        rfl
      · have ht'' : t + 1 = h := by omega
        rw [if_pos (slot_wrap n t ht''), if_pos (by omega), hyl t ht'', hgd u hu', eu, dot_comm]
    · have hu'' : u + 1 = h := by omega
      rw [if_neg (by omega), slot_wrap n u hu'']
      exact if_pos rfl
  · intro t ht
    rw [hi, List.length_append, List.length_singleton]
    rcases Nat.lt_or_ge (t + 1) h with ht' | ht'
    · obtain ⟨et, net⟩ := slot_next (h := h) n t ht'
      have e0 : (recordDir st s d).inner (slot h (t + (n + 1))) = st.inner (slot h (t + (n + 1))) :=
        Function.update_of_ne net _ _
      rw [e0, hy t ht', hgd t ht', et, hst.inner (t + 1) ht']
      congr 1
      apply propext; omega
    · have ht'' : t + 1 = h := by omega
      rw [if_neg (by omega), hyl t ht'', hgl t ht'', slot_wrap n t ht'']
      have e0 : (recordDir st s d).inner (slot h n) =
        treeDot (Function.update st.gradDiff (slot h n) d (slot h n)) s := Function.update_self _ _ _
      rw [e0, Function.update_self]
  · intro t u ht hu
    rw [hi, List.length_append, List.length_singleton]
    have hq : Function.update st.yDiff (slot h n) s (slot h n) = s := Function.update_self _ _ _
    -- the new row and column
    have hnew : ∀ t, t < h → treeDot ((recordDir st s d).yDiff (slot h (t + (n + 1)))) s =
        if t < h - (l.length + 1) then 0 else treeDot ((recordDir st s d).yDiff (slot h (t + (n + 1)))) s := by
      intro t ht
      split
      · rename_i htp
        rw [hy t (by omega), (remembers_padding hst.remembers (t + 1) (by omega)).1]
        simp [treeDot]
      · rfl
    rcases Nat.lt_or_ge (u + 1) h with hu' | hu'
    · obtain ⟨eu, neu⟩ := slot_next (h := h) n u hu'
      have e0 : (recordDir st s d).yCross (slot h (t + (n + 1))) (slot h (u + (n + 1))) =
        if slot h (t + (n + 1)) = slot h n then treeDot (Function.update st.yDiff (slot h n) s (slot h (u + (n + 1))))
          (Function.update st.yDiff (slot h n) s (slot h n)) else
          st.yCross (slot h (t + (n + 1))) (slot h (u + (n + 1))) := if_neg neu
      rw [e0, hq]
      rcases Nat.lt_or_ge (t + 1) h with ht' | ht'
      · obtain ⟨et, net⟩ := slot_next (h := h) n t ht'
        rw [if_neg net, hy t ht', hy u hu', et, eu, hst.yCross (t + 1) (u + 1) ht' hu']
        have e1 : (t + 1 < h - l.length ∨ u + 1 < h - l.length) = (t < h - (l.length + 1) ∨ u < h - (l.length + 1)) := by
          apply propext; omega
        have e2 : (t + 1 = u + 1) = (t = u) := by apply propext; omega
        simp only [e1, e2]
        rfl
      · have ht'' : t + 1 = h := by omega
        rw [if_pos (slot_wrap n t ht'')]
        have e3 := hnew u hu
        have e4 : (recordDir st s d).yDiff (slot h (u + (n + 1))) =
          Function.update st.yDiff (slot h n) s (slot h (u + (n + 1))) := rfl
        rw [← e4, e3, hyl t ht'']
        by_cases hup : u < h - (l.length + 1)
        · rw [if_pos hup, if_pos (.inr hup), if_neg (by omega)]
        · rw [if_neg hup, if_neg (by omega), dot_comm]
    · have hu'' : u + 1 = h := by omega
      rw [hyl u hu'', slot_wrap n u hu'']
      have e0 : (recordDir st s d).yCross (slot h (t + (n + 1))) (slot h n) =
        treeDot ((recordDir st s d).yDiff (slot h (t + (n + 1)))) (Function.update st.yDiff (slot h n) s (slot h n)) :=
        if_pos rfl
      rw [e0, hq, hnew t ht]
      by_cases htp : t < h - (l.length + 1)
      · rw [if_pos htp, if_pos (.inl htp), if_neg (by omega)]
      · rw [if_neg htp, if_neg (by omega)]

/-! ### The linear systems -/

/-- The remembered pairs in order. -/
def ordS (st : DirState ι h) (t : Nat) : ι → ℝ := st.yDiff (slot h (t + st.indexStart))
def ordG (st : DirState ι h) (t : Nat) : ι → ℝ := st.gradDiff (slot h (t + st.indexStart))

theorem gammaDir_eq [DecidableEq ι] (st : DirState ι h) (l : List (Pair ι)) (hst : DirInv st l) :
    0 < gammaDir st ∧ (gammaDir st • (1 : Matrix ι ι ℝ)) = match l.getLast? with
      | none => 1
      | some (s, d) => (d ⬝ᵥ d / s ⬝ᵥ d) • 1 := by
  have hlast := remembers_last hst.remembers
  rcases e : l.getLast? with _ | ⟨s, d⟩
  · rw [e] at hlast
    simp only [Option.getD_none, Prod.mk.injEq] at hlast
    have hz : treeDot (fun _ : ι => (0 : ℝ)) (fun _ => 0) = 0 := by simp [treeDot]
    have hg : gammaDir st = 1 := by
      unfold gammaDir
      simp only [hlast.1, hlast.2]
      simp [hz]
    rw [hg]
    exact ⟨one_pos, one_smul _ _⟩
  · rw [e] at hlast
    simp only [Option.getD_some, Prod.mk.injEq] at hlast
    have hp := hst.positive _ (List.mem_of_getLast? e)
    have hp' : 0 < treeDot s d := by rw [dot_comm]; exact hp
    have hg : gammaDir st = treeDot d d / treeDot s d := by
      unfold gammaDir
      simp only [hlast.1, hlast.2, if_pos hp']
    rw [hg]
    exact ⟨div_pos (dot_self_pos (nonzero_of_dot hp')) hp', rfl⟩

theorem safeInner_eq {st : DirState ι h} {l : List (Pair ι)} (hst : DirInv st l) (t : Nat) (ht : t < h) :
    safeInner st (slot h (t + st.indexStart)) =
      if t < h - l.length then 1 else treeDot (ordG st t) (ordS st t) := by
  unfold safeInner
  rw [hst.inner t ht]
  by_cases hp : t < h - l.length
  · simp [hp]
  · have := dirInv_pos hst t (by omega) ht
    rw [if_neg hp, if_neg this.ne', if_neg hp]
    rfl

theorem safeInner_pos {st : DirState ι h} {l : List (Pair ι)} (hst : DirInv st l) (i : Fin h) : 0 < safeInner st i := by
  obtain ⟨t, ht, rfl⟩ := slot_surj st.indexStart i
  rw [safeInner_eq hst t ht]
  split
  · exact one_pos
  · exact dirInv_pos hst t (by omega) ht

theorem yCross_eq {st : DirState ι h} {l : List (Pair ι)} (hst : DirInv st l) (t u : Nat) (ht : t < h) (hu : u < h) :
    st.yCross (slot h (t + st.indexStart)) (slot h (u + st.indexStart)) =
      (if t = u then (if t < h - l.length then 1 else 0) else 0) + treeDot (ordS st t) (ordS st u) := by
  rw [hst.yCross t u ht hu]
  by_cases h1 : t < h - l.length
  · have : ordS st t = fun _ => 0 := (remembers_padding hst.remembers t h1).1
    rw [if_pos (.inl h1), if_pos h1, this]
    simp [treeDot]
  · by_cases h2 : u < h - l.length
    · have : ordS st u = fun _ => 0 := (remembers_padding hst.remembers u h2).1
      rw [if_pos (.inr h2), if_neg h1, this]
      have hne : t ≠ u := by rintro rfl; exact h1 h2
      simp [treeDot, hne]
    · rw [if_neg (by tauto), if_neg h1]
      simp [ordS]

theorem quad_jSquare (st : DirState ι h) (x : Fin h → ℝ) :
    treeDot x ((jSquare st).mulVec x) = gammaDir st * treeDot x (st.yCross.mulVec x) +
      ∑ k, (∑ i, st.cross i k * x i) ^ 2 / safeInner st k := by
  have e : ((Matrix.of fun i j => st.cross i j / safeInner st j) * st.cross.transpose).mulVec x =
      fun i => ∑ k, st.cross i k / safeInner st k * ∑ j, st.cross j k * x j := by
    rw [← Matrix.mulVec_mulVec]
    funext i
    rfl
  unfold jSquare
  rw [Matrix.add_mulVec, Matrix.smul_mulVec, e]
  show treeDot x (fun i => gammaDir st * st.yCross.mulVec x i + _) = _
  rw [dot_add, dot_smul]
  congr 1
  unfold treeDot
  simp only [Finset.mul_sum]
  rw [Finset.sum_comm]
  refine Finset.sum_congr rfl fun k _ => ?_
  rw [pow_two, Finset.sum_mul, Finset.sum_div]
  refine Finset.sum_congr rfl fun i _ => ?_
  rw [Finset.mul_sum, Finset.sum_div]
  exact Finset.sum_congr rfl fun j _ => by ring

theorem jSquare_spd [DecidableEq ι] {st : DirState ι h} {l : List (Pair ι)} (hst : DirInv st l) : SPD (jSquare st) := by
  have hgam := (gammaDir_eq st l hst).1
  rw [spd_iff]
  constructor
  · intro i j
    obtain ⟨t, ht, rfl⟩ := slot_surj st.indexStart i
    obtain ⟨u, hu, rfl⟩ := slot_surj st.indexStart j
    unfold jSquare
    simp only [Matrix.add_apply, Matrix.smul_apply, Matrix.mul_apply, Matrix.of_apply, Matrix.transpose_apply, smul_eq_mul]
    rw [yCross_eq hst t u ht hu, yCross_eq hst u t hu ht, dot_comm (ordS st t)]
    congr 1
    · by_cases htu : t = u
      · rw [htu]
      · rw [if_neg htu, if_neg (Ne.symm htu)]
    · exact Finset.sum_congr rfl fun k _ => by ring
  · intro x hx
    rw [quad_jSquare]
    by_contra hneg
    rw [not_lt] at hneg
    set X : Nat → ℝ := fun t => x (slot h (t + st.indexStart)) with hX
    set p := h - l.length with hp
    -- the quadratic form of `SᵀS`
    have hyc : treeDot x (st.yCross.mulVec x) = ∑ t ∈ Finset.range h, (if t < p then X t ^ 2 else 0) +
        treeDot (fun c => ∑ t ∈ Finset.range h, X t * ordS st t c) (fun c => ∑ t ∈ Finset.range h, X t * ordS st t c) := by
      rw [dot_lin_sum]
      have e1 : ∀ t, treeDot (fun c => ∑ t ∈ Finset.range h, X t * ordS st t c) (ordS st t) * X t =
          ∑ u ∈ Finset.range h, X t * treeDot (ordS st t) (ordS st u) * X u := by
        intro t
        rw [dot_comm, dot_lin_sum, Finset.sum_mul]
        exact Finset.sum_congr rfl fun u _ => by ring
      simp only [e1]
      rw [← Finset.sum_add_distrib]
      unfold treeDot Matrix.mulVec dotProduct
      rw [sum_slots st.indexStart]
      refine Finset.sum_congr rfl fun t ht => ?_
      rw [Finset.mem_range] at ht
      rw [sum_slots st.indexStart, Finset.mul_sum]
      have e2 : ∀ u ∈ Finset.range h, X t * (st.yCross (slot h (t + st.indexStart)) (slot h (u + st.indexStart)) * X u) =
          (if t = u then (if t < p then X t ^ 2 else 0) else 0) + X t * treeDot (ordS st t) (ordS st u) * X u := by
        intro u hu
        rw [Finset.mem_range] at hu
        rw [yCross_eq hst t u ht hu]
        by_cases htu : t = u
        · subst htu
          simp only [if_true]
          split <;> ring
        · rw [if_neg htu, if_neg htu]; ring
      rw [show (∑ u ∈ Finset.range h, x (slot h (t + st.indexStart)) *
        (st.yCross (slot h (t + st.indexStart)) (slot h (u + st.indexStart)) * x (slot h (u + st.indexStart)))) = _ from
        Finset.sum_congr rfl e2, Finset.sum_add_distrib, Finset.sum_ite_eq, if_pos (Finset.mem_range.2 ht)]
      rfl
    have hw : 0 ≤ treeDot (fun c => ∑ t ∈ Finset.range h, X t * ordS st t c)
        (fun c => ∑ t ∈ Finset.range h, X t * ordS st t c) := Finset.sum_nonneg fun c _ => mul_self_nonneg _
    have hpad : 0 ≤ ∑ t ∈ Finset.range h, (if t < p then X t ^ 2 else 0) :=
      Finset.sum_nonneg fun t _ => by split <;> positivity
    have hL : 0 ≤ ∑ k, (∑ i, st.cross i k * x i) ^ 2 / safeInner st k :=
      Finset.sum_nonneg fun k _ => div_nonneg (sq_nonneg _) (safeInner_pos hst k).le
    have hyc0 : 0 ≤ treeDot x (st.yCross.mulVec x) := by rw [hyc]; linarith
    have h1 : treeDot x (st.yCross.mulVec x) = 0 := by
      have : gammaDir st * treeDot x (st.yCross.mulVec x) ≤ 0 := by linarith
      nlinarith
    have h2 : ∑ k, (∑ i, st.cross i k * x i) ^ 2 / safeInner st k = 0 := by
      rw [h1] at hneg; linarith
    rw [hyc] at h1
    have h3 : treeDot (fun c => ∑ t ∈ Finset.range h, X t * ordS st t c)
        (fun c => ∑ t ∈ Finset.range h, X t * ordS st t c) = 0 := by linarith
    have h4 : ∑ t ∈ Finset.range h, (if t < p then X t ^ 2 else 0) = 0 := by linarith
    have hw0 : ∀ c, ∑ t ∈ Finset.range h, X t * ordS st t c = 0 := by
      intro c
      have := (Finset.sum_eq_zero_iff_of_nonneg (fun c _ => mul_self_nonneg _)).1 h3 c (Finset.mem_univ c)
      exact mul_self_eq_zero.1 this
    have hX0 : ∀ t, t < p → t < h → X t = 0 := by
      intro t htp ht
      have := (Finset.sum_eq_zero_iff_of_nonneg (fun t _ => by split <;> positivity)).1 h4 t (Finset.mem_range.2 ht)
      rw [if_pos htp] at this
      exact pow_eq_zero_iff (two_ne_zero) |>.1 this
    have hL0 : ∀ k, ∑ i, st.cross i k * x i = 0 := by
      intro k
      have := (Finset.sum_eq_zero_iff_of_nonneg
        (fun k _ => div_nonneg (sq_nonneg _) (safeInner_pos hst k).le)).1 h2 k (Finset.mem_univ k)
      rw [div_eq_zero_iff, pow_eq_zero_iff (two_ne_zero)] at this
      exact this.resolve_right (safeInner_pos hst k).ne'
    have hall : ∀ t, t < h → X t = 0 := by
      intro t
      induction t using Nat.strong_induction_on with
      | _ t ih =>
        intro ht
        by_cases htp : t < p
        · exact hX0 t htp ht
        · have e1 : treeDot (ordG st t) (fun c => ∑ u ∈ Finset.range h, X u * ordS st u c) = 0 := by
            unfold treeDot
            exact Finset.sum_eq_zero fun c _ => mul_eq_zero_of_right _ (hw0 c)
          rw [dot_lin_sum] at e1
          have e2 := hL0 (slot h (t + st.indexStart))
          rw [sum_slots st.indexStart] at e2
          have e3 : ∑ u ∈ Finset.range h, (treeDot (ordG st t) (ordS st u) * X u -
              st.cross (slot h (u + st.indexStart)) (slot h (t + st.indexStart)) * x (slot h (u + st.indexStart))) = 0 := by
            rw [Finset.sum_sub_distrib, e1, e2, sub_zero]
          rw [Finset.sum_eq_single t] at e3
          · rw [hst.cross t t ht ht, if_neg (lt_irrefl t), zero_mul, sub_zero] at e3
            exact (mul_eq_zero.1 e3).resolve_left (dirInv_pos hst t (by omega) ht).ne'
          · intro u hu hut
            rw [Finset.mem_range] at hu
            rw [hst.cross u t hu ht]
            rcases Nat.lt_or_ge t u with h5 | h5
            · rw [if_pos h5, dot_comm (ordG st t)]
              simp only [ordS, ordG, hX]
              ring
            · rw [ih u (by omega) hu, show x (slot h (u + st.indexStart)) = X u from rfl, ih u (by omega) hu]
              ring
          · intro hn
            exact absurd (Finset.mem_range.2 ht) hn
    obtain ⟨i, hi⟩ := hx
    obtain ⟨t, ht, rfl⟩ := slot_surj st.indexStart i
    exact hi (hall t ht)

/-- The system solved by the two triangular solves. -/
theorem triangular_solves (st : DirState ι h) (J : Matrix (Fin h) (Fin h) ℝ) (hpos : ∀ j, 0 < safeInner st j)
    (hJ : J * J.transpose = jSquare st) (w q r : Fin h ⊕ Fin h → ℝ) (h1 : (lowTri st J).mulVec w = r)
    (h2 : (upperTri (lowTri st J)).mulVec q = w) :
    (∀ j, -safeInner st j * q (.inl j) + ∑ i, st.cross i j * q (.inr i) = r (.inl j)) ∧
    (∀ i, ∑ j, st.cross i j * q (.inl j) + gammaDir st * ∑ j, st.yCross i j * q (.inr j) = r (.inr i)) := by
  have hs : ∀ j, 0 < Real.sqrt (safeInner st j) := fun j => Real.sqrt_pos.2 (hpos j)
  have hw1 : ∀ j, w (.inl j) = -Real.sqrt (safeInner st j) * q (.inl j) +
      ∑ i, st.cross i j / Real.sqrt (safeInner st j) * q (.inr i) := by
    intro j
    rw [← h2]
    show ∑ b, upperTri (lowTri st J) (.inl j) b * q b = _
    rw [Fintype.sum_sum_type]
    congr 1
    · rw [Finset.sum_eq_single j]
      · simp [upperTri, lowTri]
      · intro k _ hk
        simp [upperTri, lowTri, Matrix.diagonal_apply_ne _ hk]
      · intro hn; exact absurd (Finset.mem_univ j) hn
    · refine Finset.sum_congr rfl fun i _ => ?_
      simp [upperTri, lowTri]
      ring
  have hw2 : ∀ k, w (.inr k) = ∑ i, J i k * q (.inr i) := by
    intro k
    rw [← h2]
    show ∑ b, upperTri (lowTri st J) (.inr k) b * q b = _
    rw [Fintype.sum_sum_type, Finset.sum_eq_zero, zero_add]
    · exact Finset.sum_congr rfl fun i _ => by simp [upperTri, lowTri]
    · intro i _
      simp [upperTri, lowTri]
  have hr1 : ∀ j, r (.inl j) = Real.sqrt (safeInner st j) * w (.inl j) := by
    intro j
    rw [← h1]
    show ∑ b, lowTri st J (.inl j) b * w b = _
    rw [Fintype.sum_sum_type, Finset.sum_eq_single j]
    · simp [lowTri]
    · intro k _ hk
      simp [lowTri, Matrix.diagonal_apply_ne _ (Ne.symm hk)]
    · intro hn; exact absurd (Finset.mem_univ j) hn
  have hr2 : ∀ i, r (.inr i) = ∑ j, -st.cross i j / Real.sqrt (safeInner st j) * w (.inl j) +
      ∑ k, J i k * w (.inr k) := by
    intro i
    rw [← h1]
    show ∑ b, lowTri st J (.inr i) b * w b = _
    rw [Fintype.sum_sum_type]
    rfl
  constructor
  · intro j
    rw [hr1, hw1, mul_add, Finset.mul_sum]
    congr 1
    · rw [← mul_assoc, mul_neg, Real.mul_self_sqrt (hpos j).le]
    · refine Finset.sum_congr rfl fun i _ => ?_
      have := (hs j).ne'
      field_simp
  · intro i
    have hJJ : ∑ k, J i k * w (.inr k) = ∑ j, jSquare st i j * q (.inr j) := by
      simp only [hw2, Finset.mul_sum]
      rw [Finset.sum_comm]
      refine Finset.sum_congr rfl fun j _ => ?_
      rw [← hJ, Matrix.mul_apply, Finset.sum_mul]
      exact Finset.sum_congr rfl fun k _ => by rw [Matrix.transpose_apply]; ring
    have hjs : ∑ j, jSquare st i j * q (.inr j) = gammaDir st * ∑ j, st.yCross i j * q (.inr j) +
        ∑ k, st.cross i k / safeInner st k * ∑ j, st.cross j k * q (.inr j) := by
      unfold jSquare
      simp only [Matrix.add_apply, Matrix.smul_apply, Matrix.mul_apply, Matrix.of_apply, Matrix.transpose_apply,
        smul_eq_mul, add_mul]
      rw [Finset.sum_add_distrib, Finset.mul_sum]
      congr 1
      · exact Finset.sum_congr rfl fun j _ => by ring
      · simp only [Finset.mul_sum, Finset.sum_mul]
        rw [Finset.sum_comm]
        exact Finset.sum_congr rfl fun k _ => Finset.sum_congr rfl fun j _ => by ring
    have hfirst : ∑ j, -st.cross i j / Real.sqrt (safeInner st j) * w (.inl j) = ∑ j, st.cross i j * q (.inl j) -
        ∑ k, st.cross i k / safeInner st k * ∑ j, st.cross j k * q (.inr j) := by
      rw [← Finset.sum_sub_distrib]
      refine Finset.sum_congr rfl fun j _ => ?_
      have e1 : ∑ i, st.cross i j / Real.sqrt (safeInner st j) * q (.inr i) =
          (∑ i, st.cross i j * q (.inr i)) / Real.sqrt (safeInner st j) := by
        rw [Finset.sum_div]
        exact Finset.sum_congr rfl fun i _ => by ring
      rw [hw1, e1]
      have h3 := (hs j).ne'
      have h4 : safeInner st j = Real.sqrt (safeInner st j) ^ 2 := (Real.sq_sqrt (hpos j).le).symm
      generalize Real.sqrt (safeInner st j) = z at *
      rw [h4]
      field_simp
      ring
    rw [hr2, hJJ, hjs, hfirst]
    ring

theorem denseSeq_eq [DecidableEq ι] {st : DirState ι h} {l : List (Pair ι)} (hst : DirInv st l) :
    denseSeq (gammaDir st) (ordS st) (ordG st) (h - l.length) h = denseHessian (lastN h l) := by
  have hlen : (lastN h l).length = h - (h - l.length) := by
    unfold lastN
    rw [List.length_drop]; omega
  have key : ∀ m, m ≤ h → denseSeq (gammaDir st) (ordS st) (ordG st) (h - l.length) m =
      ((lastN h l).take (m - (h - l.length))).foldl (fun B p => textbookRankTwo B p.2 p.1)
        (gammaDir st • (1 : Matrix ι ι ℝ)) := by
    intro m
    induction m with
    | zero => intro _; simp [denseSeq]
    | succ m ih =>
      intro hm
      unfold denseSeq
      split
      · rename_i hp
        rw [ih (by omega), show m - (h - l.length) = 0 by omega, show m + 1 - (h - l.length) = 0 by omega]
      · rename_i hp
        have he := remembers_entry hst.remembers m (by omega) (by omega)
        rw [ih (by omega), show m + 1 - (h - l.length) = (m - (h - l.length)) + 1 by omega, List.take_add_one, he,
          List.foldl_append]
        rfl
  rw [key h le_rfl, ← hlen, List.take_length, (gammaDir_eq st l hst).2]
  unfold denseHessian
  rw [lastN_getLast]

theorem dirOperator_eq [DecidableEq ι] (la : DenseLA h) (hla : ExactLA la) (st : DirState ι h) (l : List (Pair ι))
    (hst : DirInv st l) (v : ι → ℝ) : dirOperator la st v = (denseHessian (lastN h l)).mulVec v := by
  obtain ⟨hJ, hlow, hdiag⟩ := hla.cholesky _ (jSquare_spd hst)
  have hpos := safeInner_pos hst
  have hs : ∀ j, 0 < Real.sqrt (safeInner st j) := fun j => Real.sqrt_pos.2 (hpos j)
  set J := la.cholesky (jSquare st) with hJd
  have htri : ∀ i j, position i < position j → lowTri st J i j = 0 := by
    rintro (i | i) (j | j) hij
    · have : i ≠ j := by rintro rfl; exact lt_irrefl _ hij
      simp [lowTri, Matrix.diagonal_apply_ne _ this]
    · rfl
    · simp only [position] at hij; omega
    · simp only [position] at hij
      exact hlow i j (Fin.lt_def.2 (by omega))
  have hdg : ∀ i, lowTri st J i i ≠ 0 := by
    rintro (i | i)
    · simpa [lowTri] using (hs i).ne'
    · exact (hdiag i).ne'
  have hutri : ∀ i j, position j < position i → upperTri (lowTri st J) i j = 0 := by
    rintro (i | i) j hij
    · simp [upperTri, htri _ _ hij]
    · simp [upperTri, htri _ _ hij]
  have hudg : ∀ i, upperTri (lowTri st J) i i ≠ 0 := by
    rintro (i | i)
    · simpa [upperTri] using hdg (.inl i)
    · simpa [upperTri] using hdg (.inr i)
  set r : Fin h ⊕ Fin h → ℝ := fun a => match a with
    | .inl j => treeDot (st.gradDiff j) v
    | .inr j => gammaDir st * treeDot (st.yDiff j) v with hr
  have h1 := hla.solveLower (lowTri st J) r htri hdg
  have h2 := hla.solveUpper (upperTri (lowTri st J)) (la.solveLower (lowTri st J) r) hutri hudg
  have hop : dirOperator la st v = fun c => gammaDir st * v c -
      ∑ j, la.solveUpper (upperTri (lowTri st J)) (la.solveLower (lowTri st J) r) (.inl j) * st.gradDiff j c -
      gammaDir st * ∑ j, la.solveUpper (upperTri (lowTri st J)) (la.solveLower (lowTri st J) r) (.inr j) *
        st.yDiff j c := rfl
  obtain ⟨e1, e2⟩ := triangular_solves st J hpos hJ _ _ _ h1 h2
  rw [hop]
  generalize la.solveUpper (upperTri (lowTri st J)) (la.solveLower (lowTri st J) r) = q at *
  rw [← denseSeq_eq hst]
  have hgam := (gammaDir_eq st l hst).1
  rw [← compact_apply (gammaDir st) hgam (ordS st) (ordG st) (h - l.length) h
    (fun t ht => (remembers_padding hst.remembers t ht).1) (fun t ht => (remembers_padding hst.remembers t ht).2)
    (fun t h1 h2 => dirInv_pos hst t h1 h2) v (fun t => q (.inl (slot h (t + st.indexStart))))
    (fun t => q (.inr (slot h (t + st.indexStart))))]
  · funext c
    rw [sum_slots st.indexStart, sum_slots st.indexStart (fun j => q (.inr j) * st.yDiff j c)]
    rfl
  · intro j hj1 hj2
    have := e1 (slot h (j + st.indexStart))
    rw [safeInner_eq hst j hj2, if_neg (by omega), sum_slots st.indexStart] at this
    rw [show treeDot (ordG st j) v = r (.inl (slot h (j + st.indexStart))) from rfl, ← this]
    congr 1
    refine Finset.sum_congr rfl fun i hi => ?_
    rw [hst.cross i j (Finset.mem_range.1 hi) hj2]
    rfl
  · intro i hi1 hi2
    have := e2 (slot h (i + st.indexStart))
    rw [sum_slots st.indexStart, sum_slots st.indexStart (fun j => st.yCross _ j * q (.inr j))] at this
    rw [show gammaDir st * treeDot (ordS st i) v = r (.inr (slot h (i + st.indexStart))) from rfl, ← this]
    congr 1
    · refine Finset.sum_congr rfl fun j hj => ?_
      rw [hst.cross i j hi2 (Finset.mem_range.1 hj)]
      rfl
    · congr 1
      refine Finset.sum_congr rfl fun j hj => ?_
      rw [yCross_eq hst i j hi2 (Finset.mem_range.1 hj), if_neg (show ¬ i < h - l.length by omega)]
      simp

end State

/-! ### The dense matrix -/

theorem denseHessian_foldl_spd (l : List (Pair ι)) (hl : PositivePairs l) (B : Matrix ι ι ℝ)
    (hB : SPD B) : SPD (l.foldl (fun B p => textbookRankTwo B p.2 p.1) B) := by
  induction l generalizing B with
  | nil => exact hB
  | cons p l ih =>
    exact ih (fun q hq => hl q (List.mem_cons_of_mem _ hq)) _
      (textbookRankTwo_spd B hB _ _ (hl p List.mem_cons_self))

theorem denseHessian_base_spd [DecidableEq ι] (l : List (Pair ι)) (hl : PositivePairs l) :
    SPD (match l.getLast? with
      | none => (1 : Matrix ι ι ℝ)
      | some (s, d) => (d ⬝ᵥ d / s ⬝ᵥ d) • 1) := by
  rcases e : l.getLast? with _ | ⟨s, d⟩
  · exact spd_one
  · have hp : 0 < treeDot d s := hl _ (List.mem_of_getLast? e)
    have hp' : 0 < treeDot s d := by rw [dot_comm]; exact hp
    exact spd_smul_one _ (div_pos (dot_self_pos (nonzero_of_dot hp')) hp')

theorem denseHessian_spd [DecidableEq ι] (l : List (Pair ι)) (hl : PositivePairs l) : SPD (denseHessian l) :=
  denseHessian_foldl_spd l hl _ (denseHessian_base_spd l hl)

theorem denseHessian_secant [DecidableEq ι] (l : List (Pair ι)) (s d : ι → ℝ) (hl : PositivePairs (l ++ [(s, d)])) :
    (denseHessian (l ++ [(s, d)])).mulVec s = d := by
  have hb := denseHessian_base_spd _ hl
  unfold denseHessian
  rw [List.foldl_append, List.foldl_cons, List.foldl_nil]
  have hl' : PositivePairs l := fun p hp => hl p (List.mem_append_left _ hp)
  have hp : 0 < treeDot d s := hl (s, d) (by simp)
  have hs := denseHessian_foldl_spd l hl' _ hb
  show (textbookRankTwo _ d s).mulVec s = d
  rw [← rank_two _ hs.1 d s]
  exact bfgsDirect_secant _ d s hp.ne' (((spd_iff _).1 hs).2 s (nonzero_of_dot hp)).ne'

theorem dense_inverse_foldl [DecidableEq ι] (l : List (Pair ι)) (hl : PositivePairs l) (H B : Matrix ι ι ℝ)
    (hH : SPD H) (hB : SPD B) (hHB : H * B = 1) :
    l.foldl (fun H p => textbookTwoSided H p.2 p.1) H * l.foldl (fun B p => textbookRankTwo B p.2 p.1) B = 1 := by
  induction l generalizing H B with
  | nil => exact hHB
  | cons p l ih =>
    have hp := hl p List.mem_cons_self
    have := bfgs_updates_inverse H B p.2 p.1 hH hB hHB hp
    rw [two_sided H hH.1 _ _ hp.ne', rank_two B hB.1] at this
    exact ih (fun q hq => hl q (List.mem_cons_of_mem _ hq)) _ _ this.1 this.2.1 this.2.2

theorem dense_inverse [DecidableEq ι] (l : List (Pair ι)) (hl : PositivePairs l) :
    denseInverse l * denseHessian l = 1 := by
  refine dense_inverse_foldl l hl _ _ (denseInverse_base_spd l hl) (denseHessian_base_spd l hl) ?_
  rcases e : l.getLast? with _ | ⟨s, d⟩
  · exact Matrix.one_mul 1
  · have hp : 0 < treeDot d s := hl _ (List.mem_of_getLast? e)
    have hp' : 0 < s ⬝ᵥ d := by rw [← dot_eq, dot_comm]; exact hp
    have hd : 0 < d ⬝ᵥ d := dot_self_pos (nonzero_of_dot (x := s) hp')
    simp only
    rw [Matrix.smul_mul, Matrix.one_mul, smul_smul, div_mul_div_cancel₀ hd.ne', div_self hp'.ne', one_smul]

/-! ### Runs -/

theorem direct_records [DecidableEq ι] (eps : ℝ) (h : Nat) [NeZero h] (la : DenseLA h) :
    RecordsPoint (direct (ι := ι) eps h la) := by
  intro y yEval i f g hs
  cases i <;> try exact ⟨rfl, rfl⟩
  simp only [direct]
  split <;> exact ⟨rfl, rfl⟩

theorem direct_update [DecidableEq ι] (eps : ℝ) (h : Nat) [NeZero h] (la : DenseLA h) (y z g0 g : ι → ℝ) (f0 f : ℝ)
    (M : Matrix ι ι ℝ) (st : DirState ι h) :
    let s := fun c => z c - y c
    let d := fun c => g c - g0 c
    (LBFGS.direct eps h la).updateHessian y z (.evalGradHessian f0 g0 M) f g st =
      if eps < treeDot s d then
        (.evalGradHessian f g (operatorMatrix (dirOperator la (recordDir st s d))), recordDir st s d)
      else (.evalGradHessian f g M, st) := rfl

theorem direct_run [DecidableEq ι] (eps : ℝ) (heps : 0 ≤ eps) (h : Nat) [NeZero h] (la : DenseLA h)
    (cfg : QuasiNewton.Cfg ι SS DS (DirState ι h)) (hcfg : cfg.hess = LBFGS.direct eps h la)
    (hf : ∀ y z i j s, (cfg.search.step true y z i j s).2.1 = true) (aux0 : A) (fn : (ι → ℝ) → ℝ × A) (y0 : ι → ℝ)
    (st0 : QuasiNewton.State ι A SS DS (DirState ι h)) (hi : (QuasiNewton.solver cfg aux0).init fn y0 = .ok st0)
    (k : Nat) :
    let Y := iterateAt (QuasiNewton.solver cfg aux0) fn aux0 y0 st0
    let St := stateAt (QuasiNewton.solver cfg aux0) fn aux0 y0 st0
    DirInv (St (k + 1)).hessianUpdateState (curvaturePairs eps cfg.grad Y k) ∧
      Stores false (St (k + 1)).fInfo (operatorMatrix (dirOperator la (St (k + 1)).hessianUpdateState)) := by
  refine pairs_run eps heps cfg (fun st i l => DirInv st l ∧ Stores false i (operatorMatrix (dirOperator la st))) ?_ ?_
    (by rw [hcfg]; exact direct_records eps h la) hf aux0 fn y0 st0 hi k
  · intro y f g
    rw [hcfg]
    exact ⟨⟨dirInv_init, ⟨f, g, rfl⟩⟩, rfl⟩
  · rintro y z i st f g g' l ⟨h1, f0, g0, rfl⟩ hg
    have hg0 : g0 = g' := by simpa [FnInfo.grad?] using hg
    subst hg0
    rw [hcfg]
    have hu := direct_update eps h la y z g0 g f0 f (operatorMatrix (dirOperator la st)) st
    simp only [Bool.false_eq_true, if_false] at hu ⊢
    rw [hu, dot_comm (fun c => g c - g0 c)]
    by_cases hc : eps < treeDot (fun c => z c - y c) fun c => g c - g0 c
    · rw [if_pos hc, if_pos hc]
      exact ⟨dirInv_record st l _ _ h1 (by rw [dot_comm]; exact lt_of_le_of_lt heps hc), ⟨f, g, rfl⟩⟩
    · rw [if_neg hc, if_neg hc]
      exact ⟨h1, ⟨f, g, rfl⟩⟩

/-- **C37**, for `use_inverse=False` (see `C37_inverse_memory`). -/
theorem C37_direct_memory [DecidableEq ι] (eps : ℝ) (heps : 0 ≤ eps) (h : Nat) [NeZero h] (la : DenseLA h)
    (cfg : QuasiNewton.Cfg ι SS DS (DirState ι h)) (hcfg : cfg.hess = LBFGS.direct eps h la)
    (hf : ∀ y z i j s, (cfg.search.step true y z i j s).2.1 = true) (aux0 : A) (fn : (ι → ℝ) → ℝ × A) (y0 : ι → ℝ)
    (st0 : QuasiNewton.State ι A SS DS (DirState ι h)) (hi : (QuasiNewton.solver cfg aux0).init fn y0 = .ok st0)
    (k : Nat) :
    let Y := iterateAt (QuasiNewton.solver cfg aux0) fn aux0 y0 st0
    let st := (stateAt (QuasiNewton.solver cfg aux0) fn aux0 y0 st0 (k + 1)).hessianUpdateState
    let l := curvaturePairs eps cfg.grad Y k
    st.indexStart = l.length ∧
    (∀ j, j < h → ∀ p, l.reverse[j]? = some p → ∀ i : Fin h, i.val = (l.length - 1 - j) % h →
      (st.yDiff i, st.gradDiff i) = p) ∧
    (∀ i : Fin h, l.length ≤ i.val → st.yDiff i = (fun _ => 0) ∧ st.gradDiff i = fun _ => 0) :=
  remembers_spelled (direct_run eps heps h la cfg hcfg hf aux0 fn y0 st0 hi k).1.remembers

/-- **C39.** In every run of L-BFGS with `use_inverse=False` (any history length `h ≥ 1`, any descent, any search that
accepts the first step; Cholesky factorisation and triangular solves exact), after every step the stored operator (which
the code evaluates through the compact representation with its `2h × 2h` triangular systems) is the textbook direct BFGS
matrix built from the last `h` curvature pairs of the run.  It is symmetric positive definite, it maps the newest change of
the iterate to its gradient change, and it is the inverse of the textbook inverse approximation of C38. -/
theorem C39_run [DecidableEq ι] (eps : ℝ) (heps : 0 ≤ eps) (h : Nat) [NeZero h] (la : DenseLA h) (hla : ExactLA la)
    (cfg : QuasiNewton.Cfg ι SS DS (DirState ι h)) (hcfg : cfg.hess = LBFGS.direct eps h la)
    (hf : ∀ y z i j s, (cfg.search.step true y z i j s).2.1 = true) (aux0 : A) (fn : (ι → ℝ) → ℝ × A) (y0 : ι → ℝ)
    (st0 : QuasiNewton.State ι A SS DS (DirState ι h)) (hi : (QuasiNewton.solver cfg aux0).init fn y0 = .ok st0)
    (k : Nat) :
    let Y := iterateAt (QuasiNewton.solver cfg aux0) fn aux0 y0 st0
    let St := stateAt (QuasiNewton.solver cfg aux0) fn aux0 y0 st0
    let l := curvaturePairs eps cfg.grad Y k
    let M := denseHessian (lastN h l)
    Stores false (St (k + 1)).fInfo M ∧ (∀ x, dirOperator la (St (k + 1)).hessianUpdateState x = M.mulVec x) ∧
    SPD M ∧ (∀ s d, l.getLast? = some (s, d) → M.mulVec s = d) ∧ denseInverse (lastN h l) * M = 1 := by
  intro Y St l M
  obtain ⟨h1, h2⟩ := direct_run eps heps h la cfg hcfg hf aux0 fn y0 st0 hi k
  have hop := dirOperator_eq la hla _ _ h1
  have hp : PositivePairs (lastN h l) := h1.positive.lastN h
  refine ⟨?_, hop, denseHessian_spd _ hp, ?_, dense_inverse _ hp⟩
  · rw [show dirOperator la _ = fun x => (denseHessian (lastN h l)).mulVec x from funext hop, operatorMatrix_mulVec] at h2
    exact h2
  · intro s d hsd
    have hl : (lastN h l).getLast? = some (s, d) := by rw [lastN_getLast]; exact hsd
    obtain ⟨l', hl'⟩ := List.getLast?_eq_some_iff.1 hl
    show (denseHessian (lastN h l)).mulVec s = d
    rw [hl'] at hp ⊢
    exact denseHessian_secant l' s d hp

/-- **C39.** So with exact linear solves the search direction of `LBFGS(use_inverse=False)` at an iterate with non-zero
gradient solves `M p = -gradient` for the textbook matrix `M`, and is a descent direction. -/
theorem C39_descent_direction [DecidableEq ι] (eps : ℝ) (heps : 0 ≤ eps) (h : Nat) [NeZero h] (la : DenseLA h)
    (hla : ExactLA la) (ls : LinSolve ι Unit) (hls : SolvesSPD ls)
    (cfg : QuasiNewton.Cfg ι SS ((ι → ℝ) × Result) (DirState ι h))
    (hcfg : cfg.hess = LBFGS.direct eps h la) (hd : cfg.descent = newtonDescent ls none)
    (hf : ∀ y z i j s, (cfg.search.step true y z i j s).2.1 = true) (aux0 : A) (fn : (ι → ℝ) → ℝ × A) (y0 : ι → ℝ)
    (st0 : QuasiNewton.State ι A SS ((ι → ℝ) × Result) (DirState ι h))
    (hi : (QuasiNewton.solver cfg aux0).init fn y0 = .ok st0) (k : Nat) :
    let Y := iterateAt (QuasiNewton.solver cfg aux0) fn aux0 y0 st0
    let St := stateAt (QuasiNewton.solver cfg aux0) fn aux0 y0 st0
    let g := cfg.grad (Y (k + 1))
    (∃ c, g c ≠ 0) →
    ∃ p, (denseHessian (lastN h (curvaturePairs eps cfg.grad Y k))).mulVec p = (fun c => -g c) ∧
      (∀ t, cfg.descent.step t (St (k + 1)).descentState = (fun c => t * p c, .successful)) ∧ ∑ c, g c * p c < 0 := by
  intro Y St g hne
  obtain ⟨h1, _, h2, _⟩ := C39_run eps heps h la hla cfg hcfg hf aux0 fn y0 st0 hi k
  obtain ⟨p, h3, h4, h5⟩ := stored_descent false ls (fun _ => hls) cfg (by rw [hcfg]; exact direct_records eps h la) hd hf
    aux0 fn y0 st0 hi k _ h1 h2 hne
  exact ⟨p, h3, h4, h5⟩

/-! Concrete instances of the hypotheses: `exLBFGS`, `exactLA` and the examples at the end of `Props/LBFGSAgree.lean`. -/

end Verif.Props
