import Verif.Lemmas.RingBuffer
import Verif.Props.QuasiNewton

/-! Properties C37 (what L-BFGS remembers) and C38 (the operator with `use_inverse=True`). -/

namespace Verif.Props

open Verif Verif.Spec Verif.Driver Verif.SearchLoop Verif.Rank Verif.QuasiNewton Verif.LBFGS Verif.Ring

variable {ι A SS DS : Type} [Fintype ι]

/-! ### Specification -/

/-- A change of the iterate and the corresponding change of the gradient. -/
abbrev Pair (ι : Type) := (ι → ℝ) × (ι → ℝ)

/-- The curvature pairs of a sequence of iterates, oldest first: for each step from `Y (j+1)` to `Y (j+2)`, `j < k`, the
change `s` of the iterate and the change `d` of the gradient, if `d·s` exceeds `eps`. -/
noncomputable def curvaturePairs (eps : ℝ) (grad : (ι → ℝ) → ι → ℝ) (Y : Nat → ι → ℝ) : Nat → List (Pair ι)
  | 0 => []
  | k + 1 =>
    let s := fun c => Y (k + 2) c - Y (k + 1) c
    let d := fun c => grad (Y (k + 2)) c - grad (Y (k + 1)) c
    if eps < ∑ c, d c * s c then curvaturePairs eps grad Y k ++ [(s, d)] else curvaturePairs eps grad Y k

/-- The last `h` elements of a list (all, if there are fewer). -/
def lastN {α : Type} (h : Nat) (l : List α) : List α := l.drop (l.length - h)

/-- The textbook L-BFGS inverse Hessian approximation from curvature pairs, oldest first (Nocedal & Wright, section 7.2):
start from `(sᵀd / dᵀd) I` for the newest pair (from `I` if there is none) and apply the BFGS update for each pair. -/
noncomputable def denseInverse [DecidableEq ι] (l : List (Pair ι)) : Matrix ι ι ℝ :=
  l.foldl (fun H p => textbookTwoSided H p.2 p.1) (match l.getLast? with
    | none => 1
    | some (s, d) => (s ⬝ᵥ d / d ⬝ᵥ d) • 1)

/-! ### The two loops -/

theorem textbookTwoSided_mulVec [DecidableEq ι] (H : Matrix ι ι ℝ) (d s x : ι → ℝ) :
    let a := 1 / treeDot d s * treeDot s x
    let r := H.mulVec fun c => x c - a * d c
    (textbookTwoSided H d s).mulVec x = fun c => r c + s c * (a - 1 / treeDot d s * treeDot d r) := by
  intro a r
  funext i
  unfold textbookTwoSided
  rw [Matrix.add_mulVec, ← Matrix.mulVec_mulVec, ← Matrix.mulVec_mulVec, Matrix.sub_mulVec (1 : Matrix ι ι ℝ),
    Matrix.one_mulVec, Matrix.smul_mulVec, Matrix.vecMulVec_mulVec, Matrix.smul_mulVec, Matrix.vecMulVec_mulVec,
    Matrix.sub_mulVec, Matrix.one_mulVec, Matrix.smul_mulVec, Matrix.vecMulVec_mulVec]
  have e1 : (x - (1 / d ⬝ᵥ s) • MulOpposite.op (s ⬝ᵥ x) • d) = fun c => x c - a * d c := by
    funext i
    simp only [Pi.sub_apply, Pi.smul_apply, smul_eq_mul, MulOpposite.smul_eq_mul_unop, MulOpposite.unop_op, dot_eq, a]
    ring
  rw [e1]
  simp only [Pi.add_apply, Pi.sub_apply, Pi.smul_apply, smul_eq_mul, MulOpposite.smul_eq_mul_unop,
    MulOpposite.unop_op, ← dot_eq]
  simp only [r, a]
  ring

theorem textbookTwoSided_zero [DecidableEq ι] (H : Matrix ι ι ℝ) :
    textbookTwoSided H (fun _ => 0) (fun _ => 0) = H := by
  refine Matrix.ext_iff_mulVec.2 fun x => ?_
  rw [textbookTwoSided_mulVec]
  simp

theorem backward_snoc {h : Nat} (st : InvState ι h) (l : List (Fin h)) (i : Fin h) (x : ι → ℝ) :
    backward st (l ++ [i]) x =
      let a := st.inner i * treeDot (st.yDiff i) x
      let r := backward st l fun c => x c - a * st.gradDiff i c
      (r.1, r.2 ++ [a]) := by
  induction l with
  | nil => rfl
  | cons j l ih => simp only [List.cons_append, backward, ih]

theorem backward_length {h : Nat} (st : InvState ι h) (l : List (Fin h)) (x : ι → ℝ) :
    (backward st l x).2.length = l.length := by
  induction l with
  | nil => rfl
  | cons j l ih => simp only [backward, List.length_cons, ih]

theorem forward_snoc {h : Nat} (st : InvState ι h) (l : List (Fin h × ℝ)) (i : Fin h) (a : ℝ) (x : ι → ℝ) :
    forward st (l ++ [(i, a)]) x = fun c => forward st l x c +
      st.yDiff i c * (a - st.inner i * treeDot (st.gradDiff i) (forward st l x)) := by
  induction l generalizing x with
  | nil => rfl
  | cons j l ih => obtain ⟨j, b⟩ := j; simp only [List.cons_append, forward, ih]

theorem two_loops [DecidableEq ι] {h : Nat} (st : InvState ι h)
    (hin : ∀ i, st.inner i = 1 / treeDot (st.gradDiff i) (st.yDiff i)) (gamma : ℝ) (l : List (Fin h)) (x : ι → ℝ) :
    forward st (l.zip (backward st l x).2) (fun c => gamma * (backward st l x).1 c) =
      ((l.map fun i => ((st.yDiff i, st.gradDiff i) : Pair ι)).foldl (fun H p => textbookTwoSided H p.2 p.1)
        (gamma • (1 : Matrix ι ι ℝ))).mulVec x := by
  induction l using List.reverseRecOn generalizing x with
  | nil => simp [forward, backward, Matrix.smul_mulVec]; rfl
  | append_singleton l i ih =>
    rw [backward_snoc]
    simp only
    rw [List.zip_append (by rw [backward_length]), List.map_append, List.foldl_append]
    simp only [List.zip_cons_cons, List.zip_nil_left, List.map_cons, List.map_nil, List.foldl_cons, List.foldl_nil]
    rw [forward_snoc, textbookTwoSided_mulVec, ih, hin]

theorem foldl_replicate_zero [DecidableEq ι] (n : Nat) (H : Matrix ι ι ℝ) :
    (List.replicate n ((fun _ => 0, fun _ => 0) : Pair ι)).foldl (fun H p => textbookTwoSided H p.2 p.1) H = H := by
  induction n with
  | zero => rfl
  | succ n ih => rw [List.replicate_succ, List.foldl_cons, textbookTwoSided_zero, ih]

/-! ### The memory -/

/-- The ring buffers hold the last pairs of `l`, oldest first, starting at `index_start`, preceded by zeros. -/
def Remembers {h : Nat} [NeZero h] (n : Nat) (yDiff gradDiff : Fin h → ι → ℝ) (l : List (Pair ι)) : Prop :=
  n = l.length ∧ window (fun i => ((yDiff i, gradDiff i) : Pair ι)) n = lastOf h (fun _ => 0, fun _ => 0) l

omit [Fintype ι] in
theorem remembers_init {h : Nat} [NeZero h] :
    Remembers 0 (fun (_ : Fin h) (_ : ι) => 0) (fun _ _ => 0) [] := ⟨rfl, window_zero _⟩

omit [Fintype ι] in
theorem remembers_snoc {h : Nat} [NeZero h] (n : Nat) (yDiff gradDiff : Fin h → ι → ℝ) (l : List (Pair ι))
    (s d : ι → ℝ) (hr : Remembers n yDiff gradDiff l) :
    Remembers (n + 1) (Function.update yDiff (slot h n) s) (Function.update gradDiff (slot h n) d) (l ++ [(s, d)]) := by
  refine ⟨by rw [hr.1]; simp, ?_⟩
  rw [lastOf_snoc, ← hr.2, ← window_update]
  congr 1
  funext i
  simp only [Function.update_apply]
  split <;> rfl

/-- The newest entry. -/
theorem remembers_last {h : Nat} [NeZero h] {n : Nat} {yDiff gradDiff : Fin h → ι → ℝ} {l : List (Pair ι)}
    (hr : Remembers n yDiff gradDiff l) :
    (yDiff (latestSlot h n), gradDiff (latestSlot h n)) = l.getLast?.getD (fun _ => 0, fun _ => 0) := by
  have hpos := NeZero.pos h
  have h1 := window_get (fun i => ((yDiff i, gradDiff i) : Pair ι)) n (h - 1) (by omega)
  rw [hr.2, ← latest_eq] at h1
  have h2 : (lastOf h ((fun _ => 0, fun _ => 0) : Pair ι) l)[h - 1]? =
      some (l.getLast?.getD (fun _ => 0, fun _ => 0)) := by
    unfold lastOf
    rcases l.eq_nil_or_concat with rfl | ⟨l, p, rfl⟩
    · simp [hpos]
    · rw [List.concat_eq_append, List.length_append, List.length_singleton, List.getElem?_append_right (by simp; omega)]
      simp only [List.length_replicate, List.getElem?_drop]
      rw [show l.length + 1 - h + (h - 1 - (h - (l.length + 1))) = l.length by omega]
      simp
  rw [h1] at h2
  exact Option.some.inj h2

/-! ### The operator -/

theorem operatorMatrix_mulVec [DecidableEq ι] (M : Matrix ι ι ℝ) : operatorMatrix (fun v => M.mulVec v) = M := by
  ext i j
  simp only [operatorMatrix, Matrix.of_apply, Matrix.mulVec, dotProduct]
  simp

/-- All pairs have positive curvature. -/
def PositivePairs (l : List (Pair ι)) : Prop := ∀ p ∈ l, 0 < treeDot p.2 p.1

theorem PositivePairs.lastN {l : List (Pair ι)} (hl : PositivePairs l) (h : Nat) : PositivePairs (lastN h l) :=
  fun p hp => hl p (List.mem_of_mem_drop hp)

omit [Fintype ι] in
theorem lastN_getLast {α : Type} (h : Nat) [NeZero h] (l : List α) : (lastN h l).getLast? = l.getLast? := by
  have := NeZero.pos h
  unfold lastN
  rcases l.eq_nil_or_concat with rfl | ⟨l, p, rfl⟩
  · simp
  · rw [List.concat_eq_append, List.length_append, List.length_singleton,
      List.drop_append_of_le_length (by omega)]
    simp

theorem dot_self_pos {x : ι → ℝ} (hx : ∃ c, x c ≠ 0) : 0 < treeDot x x := by
  obtain ⟨c, hc⟩ := hx
  exact Finset.sum_pos' (fun i _ => mul_self_nonneg _) ⟨c, Finset.mem_univ c, mul_self_pos.2 hc⟩

theorem spd_smul_one [DecidableEq ι] (a : ℝ) (ha : 0 < a) : SPD (a • (1 : Matrix ι ι ℝ)) := by
  rw [spd_iff]
  constructor
  · intro i j
    simp only [Matrix.smul_apply, Matrix.one_apply, eq_comm]
  · intro x hx
    rw [Matrix.smul_mulVec, Matrix.one_mulVec]
    have := dot_smul a x x
    rw [show (a • x) = fun i => a * x i from rfl, this]
    exact mul_pos ha (dot_self_pos hx)

theorem textbookTwoSided_spd [DecidableEq ι] (H : Matrix ι ι ℝ) (hH : SPD H) (d s : ι → ℝ) (h : 0 < treeDot d s) :
    SPD (textbookTwoSided H d s) := by
  rw [← two_sided H hH.1 d s h.ne']
  exact bfgsInv_spd H hH d s h

theorem denseInverse_foldl_spd [DecidableEq ι] (l : List (Pair ι)) (hl : PositivePairs l) (H : Matrix ι ι ℝ)
    (hH : SPD H) : SPD (l.foldl (fun H p => textbookTwoSided H p.2 p.1) H) := by
  induction l generalizing H with
  | nil => exact hH
  | cons p l ih =>
    exact ih (fun q hq => hl q (List.mem_cons_of_mem _ hq)) _
      (textbookTwoSided_spd H hH _ _ (hl p List.mem_cons_self))

theorem positive_scale (p : Pair ι) (hp : 0 < treeDot p.2 p.1) : 0 < treeDot p.1 p.2 / treeDot p.2 p.2 := by
  rw [dot_comm p.1]
  exact div_pos hp (dot_self_pos (nonzero_of_dot (by rw [dot_comm]; exact hp)))

theorem denseInverse_base_spd [DecidableEq ι] (l : List (Pair ι)) (hl : PositivePairs l) :
    SPD (match l.getLast? with
      | none => (1 : Matrix ι ι ℝ)
      | some (s, d) => (s ⬝ᵥ d / d ⬝ᵥ d) • 1) := by
  rcases e : l.getLast? with _ | ⟨s, d⟩
  · exact spd_one
  · exact spd_smul_one _ (positive_scale (s, d) (hl _ (List.mem_of_getLast? e)))

theorem denseInverse_spd [DecidableEq ι] (l : List (Pair ι)) (hl : PositivePairs l) : SPD (denseInverse l) :=
  denseInverse_foldl_spd l hl _ (denseInverse_base_spd l hl)

theorem denseInverse_secant [DecidableEq ι] (l : List (Pair ι)) (s d : ι → ℝ) (hl : PositivePairs (l ++ [(s, d)])) :
    (denseInverse (l ++ [(s, d)])).mulVec d = s := by
  have hb := denseInverse_base_spd _ hl
  unfold denseInverse
  rw [List.foldl_append, List.foldl_cons, List.foldl_nil]
  have hl' : PositivePairs l := fun p hp => hl p (List.mem_append_left _ hp)
  have hp : 0 < treeDot d s := hl (s, d) (by simp)
  have hs := denseInverse_foldl_spd l hl' _ hb
  show (textbookTwoSided _ d s).mulVec d = s
  rw [← two_sided _ hs.1 d s hp.ne']
  exact bfgsInv_secant _ d s hp.ne'

theorem gammaInv_eq {h : Nat} [NeZero h] [DecidableEq ι] (st : InvState ι h) (l : List (Pair ι))
    (hr : Remembers st.indexStart st.yDiff st.gradDiff l) (hl : PositivePairs l) :
    (gammaInv st • (1 : Matrix ι ι ℝ)) = match l.getLast? with
      | none => 1
      | some (s, d) => (s ⬝ᵥ d / d ⬝ᵥ d) • 1 := by
  have hlast := remembers_last hr
  rcases e : l.getLast? with _ | ⟨s, d⟩
  · rw [e] at hlast
    simp only [Option.getD_none, Prod.mk.injEq] at hlast
    unfold gammaInv
    simp only [hlast.1, hlast.2]
    have hz : treeDot (fun _ : ι => (0 : ℝ)) (fun _ => 0) = 0 := by simp [treeDot]
    simp [hz]
  · rw [e] at hlast
    simp only [Option.getD_some, Prod.mk.injEq] at hlast
    have hp := hl _ (List.mem_of_getLast? e)
    have hd : 0 < treeDot d d := dot_self_pos (nonzero_of_dot (x := s) (by rw [dot_comm]; exact hp))
    unfold gammaInv
    simp only [hlast.1, hlast.2, if_pos hd]
    rfl

/-- What the state of `use_inverse=True` satisfies: it remembers the last pairs, and the reciprocal inner products. -/
def InvInv {h : Nat} [NeZero h] (st : InvState ι h) (l : List (Pair ι)) : Prop :=
  Remembers st.indexStart st.yDiff st.gradDiff l ∧ PositivePairs l ∧
    ∀ i, st.inner i = 1 / treeDot (st.gradDiff i) (st.yDiff i)

theorem invInv_init {h : Nat} [NeZero h] : InvInv (initInv ι h) [] := by
  refine ⟨remembers_init, by intro p hp; simp at hp, fun i => ?_⟩
  simp [initInv, treeDot]

theorem invInv_record {h : Nat} [NeZero h] (eps : ℝ) (heps : 0 ≤ eps) (st : InvState ι h) (l : List (Pair ι))
    (s d : ι → ℝ) (hst : InvInv st l) (hc : eps < treeDot s d) :
    InvInv (recordInv eps st s d (treeDot s d)) (l ++ [(s, d)]) := by
  obtain ⟨h1, h2, h3⟩ := hst
  refine ⟨remembers_snoc _ _ _ _ _ _ h1, ?_, fun i => ?_⟩
  · intro p hp
    rcases List.mem_append.1 hp with hp | hp
    · exact h2 p hp
    · rw [List.mem_singleton] at hp
      subst hp
      rw [dot_comm]; exact lt_of_le_of_lt heps hc
  · simp only [recordInv, if_pos hc, Function.update_apply]
    split
    · rw [dot_comm]
    · exact h3 i

theorem invOperator_eq {h : Nat} [NeZero h] [DecidableEq ι] (st : InvState ι h) (l : List (Pair ι))
    (hst : InvInv st l) (x : ι → ℝ) : invOperator st x = (denseInverse (lastN h l)).mulVec x := by
  obtain ⟨h1, h2, h3⟩ := hst
  unfold invOperator
  simp only
  rw [two_loops st h3]
  have hw : (circIndex h st.indexStart).map (fun i => ((st.yDiff i, st.gradDiff i) : Pair ι)) = _ := h1.2
  rw [hw]
  unfold lastOf denseInverse
  rw [List.foldl_append, foldl_replicate_zero, gammaInv_eq st l h1 h2, lastN_getLast]
  rfl

theorem invOperator_matrix {h : Nat} [NeZero h] [DecidableEq ι] (st : InvState ι h) (l : List (Pair ι))
    (hst : InvInv st l) : operatorMatrix (invOperator st) = denseInverse (lastN h l) := by
  rw [show invOperator st = fun x => (denseInverse (lastN h l)).mulVec x from funext (invOperator_eq st l hst),
    operatorMatrix_mulVec]

theorem inverse_records [DecidableEq ι] (eps : ℝ) (h : Nat) [NeZero h] : RecordsPoint (inverse (ι := ι) eps h) := by
  intro y yEval i f g hs
  cases i <;> try exact ⟨rfl, rfl⟩
  simp only [inverse]
  split <;> exact ⟨rfl, rfl⟩

/-! ### Runs -/

/-- A relation between the state of the Hessian update, the function information and the curvature pairs so far that
initialisation establishes and updates maintain holds after every step. -/
theorem pairs_run {HS : Type} (eps : ℝ) (heps : 0 ≤ eps) (cfg : QuasiNewton.Cfg ι SS DS HS)
    (P : HS → FnInfo ι Unit → List (Pair ι) → Prop)
    (hinit : ∀ y f g, P (cfg.hess.initHessian y f g).2 (cfg.hess.initHessian y f g).1 [] ∧
      (cfg.hess.initHessian y f g).1.grad? = some g)
    (hupd : ∀ y z i st f g g' l, P st i l → i.grad? = some g' →
      let s := fun c => z c - y c
      let d := fun c => g c - g' c
      P (cfg.hess.updateHessian y z i f g st).2 (cfg.hess.updateHessian y z i f g st).1
        (if eps < treeDot d s then l ++ [(s, d)] else l))
    (hrec : RecordsPoint cfg.hess)
    (hf : ∀ y z i j s, (cfg.search.step true y z i j s).2.1 = true) (aux0 : A) (fn : (ι → ℝ) → ℝ × A) (y0 : ι → ℝ)
    (st0 : QuasiNewton.State ι A SS DS HS) (hi : (QuasiNewton.solver cfg aux0).init fn y0 = .ok st0) (k : Nat) :
    let Y := iterateAt (QuasiNewton.solver cfg aux0) fn aux0 y0 st0
    let St := stateAt (QuasiNewton.solver cfg aux0) fn aux0 y0 st0
    P (St (k + 1)).hessianUpdateState (St (k + 1)).fInfo (curvaturePairs eps cfg.grad Y k) := by
  intro Y St
  have L := qn_laws cfg aux0 fn hrec
  have h0 : P st0.hessianUpdateState st0.fInfo [] ∧ st0.yEval = y0 ∧ st0.firstStep = true ∧
      (st0.fInfo.grad? = some fun _ => 0) := by
    simp only [QuasiNewton.solver, QuasiNewton.init] at hi
    split at hi
    · cases hi
    · cases hi
      exact ⟨(hinit _ _ _).1, rfl, rfl, (hinit _ _ _).2⟩
  have hstep : ∀ y (st : QuasiNewton.State ι A SS DS HS), 
      ((QuasiNewton.step cfg fn y st).2.1.hessianUpdateState, (QuasiNewton.step cfg fn y st).2.1.fInfo) =
      if (cfg.search.step st.firstStep y st.yEval st.fInfo (.eval (fn st.yEval).1) st.searchState).2.1 = true
        then ((cfg.hess.updateHessian y st.yEval st.fInfo (fn st.yEval).1 (cfg.grad st.yEval) st.hessianUpdateState).2,
          (cfg.hess.updateHessian y st.yEval st.fInfo (fn st.yEval).1 (cfg.grad st.yEval) st.hessianUpdateState).1)
        else (st.hessianUpdateState, st.fInfo) := by
    intro y st
    simp only [QuasiNewton.step]
    split <;> rfl
  induction k with
  | zero =>
    have e : ((St 1).hessianUpdateState, (St 1).fInfo) = _ := hstep y0 st0
    rw [h0.2.2.1, if_pos (hf _ _ _ _ _), Prod.mk.injEq] at e
    show P (St 1).hessianUpdateState (St 1).fInfo []
    rw [e.1, e.2]
    have := hupd y0 st0.yEval st0.fInfo st0.hessianUpdateState (fn st0.yEval).1 (cfg.grad st0.yEval) _ [] h0.1 h0.2.2.2
    simp only at this
    rw [if_neg] at this
    · exact this
    · rw [h0.2.1]
      have hz : treeDot (fun c => cfg.grad y0 c - 0) (fun c => y0 c - y0 c) = 0 := by
        unfold treeDot; exact Finset.sum_eq_zero fun c _ => by ring
      rw [hz]; exact not_lt.2 heps
  | succ k ih =>
    have e : ((St (k + 2)).hessianUpdateState, (St (k + 2)).fInfo) = _ := hstep (Y (k + 1)) (St (k + 1))
    have hgr : (St (k + 1)).fInfo.grad? = some (cfg.grad (Y (k + 1))) := (stored L hf aux0 y0 st0 hi k).1.2
    show P (St (k + 2)).hessianUpdateState (St (k + 2)).fInfo
      (if eps < treeDot (fun c => cfg.grad (Y (k + 2)) c - cfg.grad (Y (k + 1)) c) (fun c => Y (k + 2) c - Y (k + 1) c)
        then curvaturePairs eps cfg.grad Y k ++ [((fun c => Y (k + 2) c - Y (k + 1) c),
          (fun c => cfg.grad (Y (k + 2)) c - cfg.grad (Y (k + 1)) c))]
        else curvaturePairs eps cfg.grad Y k)
    rcases accepted_or_rejected L aux0 y0 st0 (k + 1) with ⟨ha, hy⟩ | ⟨ha, hy⟩
    · have ha' : (cfg.search.step (St (k + 1)).firstStep (Y (k + 1)) (St (k + 1)).yEval (St (k + 1)).fInfo
        (.eval (fn (St (k + 1)).yEval).1) (St (k + 1)).searchState).2.1 = true := ha
      have hy' : Y (k + 2) = (St (k + 1)).yEval := hy
      rw [if_pos ha', Prod.mk.injEq] at e
      rw [e.1, e.2, hy']
      exact hupd _ _ _ _ _ _ _ _ ih hgr
    · have ha' : ¬ (cfg.search.step (St (k + 1)).firstStep (Y (k + 1)) (St (k + 1)).yEval (St (k + 1)).fInfo
        (.eval (fn (St (k + 1)).yEval).1) (St (k + 1)).searchState).2.1 = true := by
        intro h
        have : true = false := h.symm.trans ha
        cases this
      have hy' : Y (k + 2) = Y (k + 1) := hy
      have hz : treeDot (fun c => cfg.grad (Y (k + 1)) c - cfg.grad (Y (k + 1)) c)
          (fun c => Y (k + 1) c - Y (k + 1) c) = 0 := by
        unfold treeDot; exact Finset.sum_eq_zero fun c _ => by ring
      rw [if_neg ha', Prod.mk.injEq] at e
      rw [e.1, e.2, hy', hz, if_neg (not_lt.2 heps)]
      exact ih

/-- `Remembers`, spelled out. -/
theorem remembers_spelled {h : Nat} [NeZero h] {n : Nat} {yDiff gradDiff : Fin h → ι → ℝ} {l : List (Pair ι)}
    (hr : Remembers n yDiff gradDiff l) :
    n = l.length ∧
    (∀ j, j < h → ∀ p, l.reverse[j]? = some p → ∀ i : Fin h, i.val = (l.length - 1 - j) % h →
      (yDiff i, gradDiff i) = p) ∧
    (∀ i : Fin h, l.length ≤ i.val → yDiff i = (fun _ => 0) ∧ gradDiff i = fun _ => 0) := by
  obtain ⟨rfl, hw⟩ := hr
  refine ⟨rfl, ?_, ?_⟩
  · intro j hj p hp i hi
    have hjl : j < l.length := by
      have := (List.getElem?_eq_some_iff.1 hp).1
      simpa using this
    have h1 := window_get (fun i => ((yDiff i, gradDiff i) : Pair ι)) l.length (h - 1 - j) (by omega)
    have hs : slot h (h - 1 - j + l.length) = i := by
      apply Fin.ext
      rw [hi, show h - 1 - j + l.length = (l.length - 1 - j) + h by omega, slot_add]
      rfl
    rw [hw, hs] at h1
    have h2 : (lastOf h ((fun _ => 0, fun _ => 0) : Pair ι) l)[h - 1 - j]? = some p := by
      unfold lastOf
      rw [List.getElem?_append_right (by simp; omega)]
      simp only [List.length_replicate, List.getElem?_drop]
      rw [List.getElem?_reverse hjl] at hp
      rw [← hp]
      congr 1
      omega
    rw [h1] at h2
    exact Option.some.inj h2
  · intro i hi
    have h1 := window_get (fun i => ((yDiff i, gradDiff i) : Pair ι)) l.length (i.val - l.length) (by omega)
    have hs : slot h (i.val - l.length + l.length) = i := by
      apply Fin.ext
      rw [show i.val - l.length + l.length = i.val by omega]
      exact Nat.mod_eq_of_lt i.2
    rw [hw, hs] at h1
    have h2 : (lastOf h ((fun _ => 0, fun _ => 0) : Pair ι) l)[i.val - l.length]? = some (fun _ => 0, fun _ => 0) := by
      unfold lastOf
      have := i.2
      rw [List.getElem?_append_left (by simp; omega), List.getElem?_replicate_of_lt (by omega)]
    rw [h1] at h2
    have := Option.some.inj h2
    simpa using this

theorem inverse_update [DecidableEq ι] (eps : ℝ) (h : Nat) [NeZero h] (y z g0 g : ι → ℝ) (f0 f : ℝ)
    (M : Matrix ι ι ℝ) (st : InvState ι h) :
    let s := fun c => z c - y c
    let d := fun c => g c - g0 c
    (LBFGS.inverse eps h).updateHessian y z (.evalGradHessianInv f0 g0 M) f g st =
      if eps < treeDot s d then
        (.evalGradHessianInv f g (operatorMatrix (invOperator (recordInv eps st s d (treeDot s d)))),
          recordInv eps st s d (treeDot s d))
      else (.evalGradHessianInv f g M, st) := rfl

theorem inverse_run [DecidableEq ι] (eps : ℝ) (heps : 0 ≤ eps) (h : Nat) [NeZero h]
    (cfg : QuasiNewton.Cfg ι SS DS (InvState ι h)) (hcfg : cfg.hess = LBFGS.inverse eps h)
    (hf : ∀ y z i j s, (cfg.search.step true y z i j s).2.1 = true) (aux0 : A) (fn : (ι → ℝ) → ℝ × A) (y0 : ι → ℝ)
    (st0 : QuasiNewton.State ι A SS DS (InvState ι h)) (hi : (QuasiNewton.solver cfg aux0).init fn y0 = .ok st0)
    (k : Nat) :
    let Y := iterateAt (QuasiNewton.solver cfg aux0) fn aux0 y0 st0
    let St := stateAt (QuasiNewton.solver cfg aux0) fn aux0 y0 st0
    InvInv (St (k + 1)).hessianUpdateState (curvaturePairs eps cfg.grad Y k) ∧
      Stores true (St (k + 1)).fInfo (operatorMatrix (invOperator (St (k + 1)).hessianUpdateState)) := by
  refine pairs_run eps heps cfg (fun st i l => InvInv st l ∧ Stores true i (operatorMatrix (invOperator st))) ?_ ?_
    (by rw [hcfg]; exact inverse_records eps h) hf aux0 fn y0 st0 hi k
  · intro y f g
    rw [hcfg]
    exact ⟨⟨invInv_init, ⟨f, g, rfl⟩⟩, rfl⟩
  · rintro y z i st f g g' l ⟨h1, f0, g0, rfl⟩ hg
    have hg0 : g0 = g' := by simpa [FnInfo.grad?] using hg
    subst hg0
    rw [hcfg]
    have hu := inverse_update eps h y z g0 g f0 f (operatorMatrix (invOperator st)) st
    simp only [if_true] at hu ⊢
    rw [dot_comm (fun c => g c - g0 c), hu]
    by_cases hc : eps < treeDot (fun c => z c - y c) fun c => g c - g0 c
    · rw [if_pos hc, if_pos hc]
      exact ⟨invInv_record eps heps st l _ _ h1 hc, ⟨f, g, rfl⟩⟩
    · rw [if_neg hc, if_neg hc]
      exact ⟨h1, ⟨f, g, rfl⟩⟩

/-- **C37.** After every step of a run of L-BFGS (`use_inverse=True`; any history length `h ≥ 1`, any descent, any search
that accepts the first step), with `l` the curvature pairs of the run so far: the state counts them, and for `j < h` the
`j`-th newest pair is stored at position `length l - 1 - j` modulo `h`; positions never written hold zeros.  So nothing but
the last `h` curvature pairs is remembered, and all of those are. -/
theorem C37_inverse_memory [DecidableEq ι] (eps : ℝ) (heps : 0 ≤ eps) (h : Nat) [NeZero h]
    (cfg : QuasiNewton.Cfg ι SS DS (InvState ι h)) (hcfg : cfg.hess = LBFGS.inverse eps h)
    (hf : ∀ y z i j s, (cfg.search.step true y z i j s).2.1 = true) (aux0 : A) (fn : (ι → ℝ) → ℝ × A) (y0 : ι → ℝ)
    (st0 : QuasiNewton.State ι A SS DS (InvState ι h)) (hi : (QuasiNewton.solver cfg aux0).init fn y0 = .ok st0)
    (k : Nat) :
    let Y := iterateAt (QuasiNewton.solver cfg aux0) fn aux0 y0 st0
    let st := (stateAt (QuasiNewton.solver cfg aux0) fn aux0 y0 st0 (k + 1)).hessianUpdateState
    let l := curvaturePairs eps cfg.grad Y k
    st.indexStart = l.length ∧
    (∀ j, j < h → ∀ p, l.reverse[j]? = some p → ∀ i : Fin h, i.val = (l.length - 1 - j) % h →
      (st.yDiff i, st.gradDiff i) = p) ∧
    (∀ i : Fin h, l.length ≤ i.val → st.yDiff i = (fun _ => 0) ∧ st.gradDiff i = fun _ => 0) :=
  remembers_spelled (inverse_run eps heps h cfg hcfg hf aux0 fn y0 st0 hi k).1.1

/-- **C38.** In every run of L-BFGS with `use_inverse=True`, after every step the stored operator (which the code evaluates
with two loops over ring buffers) is the textbook matrix built from the last `h` curvature pairs of the run.  It is
symmetric positive definite, and it maps the gradient change of the newest pair to its change of the iterate. -/
theorem C38_run [DecidableEq ι] (eps : ℝ) (heps : 0 ≤ eps) (h : Nat) [NeZero h]
    (cfg : QuasiNewton.Cfg ι SS DS (InvState ι h)) (hcfg : cfg.hess = LBFGS.inverse eps h)
    (hf : ∀ y z i j s, (cfg.search.step true y z i j s).2.1 = true) (aux0 : A) (fn : (ι → ℝ) → ℝ × A) (y0 : ι → ℝ)
    (st0 : QuasiNewton.State ι A SS DS (InvState ι h)) (hi : (QuasiNewton.solver cfg aux0).init fn y0 = .ok st0)
    (k : Nat) :
    let Y := iterateAt (QuasiNewton.solver cfg aux0) fn aux0 y0 st0
    let St := stateAt (QuasiNewton.solver cfg aux0) fn aux0 y0 st0
    let l := curvaturePairs eps cfg.grad Y k
    let M := denseInverse (lastN h l)
    Stores true (St (k + 1)).fInfo M ∧ (∀ x, invOperator (St (k + 1)).hessianUpdateState x = M.mulVec x) ∧
    SPD M ∧ (∀ s d, l.getLast? = some (s, d) → M.mulVec d = s) := by
  intro Y St l M
  obtain ⟨h1, h2⟩ := inverse_run eps heps h cfg hcfg hf aux0 fn y0 st0 hi k
  refine ⟨?_, invOperator_eq _ _ h1, denseInverse_spd _ (h1.2.1.lastN h), ?_⟩
  · rw [invOperator_matrix _ _ h1] at h2
    exact h2
  · intro s d hsd
    have hl : (lastN h l).getLast? = some (s, d) := by rw [lastN_getLast]; exact hsd
    obtain ⟨l', hl'⟩ := List.getLast?_eq_some_iff.1 hl
    have hp := h1.2.1.lastN h
    show (denseInverse (lastN h l)).mulVec d = s
    have hp' : PositivePairs (lastN h l) := hp
    rw [hl'] at hp' ⊢
    exact denseInverse_secant l' s d hp'

/-- **C38.** The operator is linear in every reachable state. -/
theorem C38_linear [DecidableEq ι] (eps : ℝ) (heps : 0 ≤ eps) (h : Nat) [NeZero h]
    (cfg : QuasiNewton.Cfg ι SS DS (InvState ι h)) (hcfg : cfg.hess = LBFGS.inverse eps h)
    (hf : ∀ y z i j s, (cfg.search.step true y z i j s).2.1 = true) (aux0 : A) (fn : (ι → ℝ) → ℝ × A) (y0 : ι → ℝ)
    (st0 : QuasiNewton.State ι A SS DS (InvState ι h)) (hi : (QuasiNewton.solver cfg aux0).init fn y0 = .ok st0)
    (k : Nat) (a b : ℝ) (u v : ι → ℝ) :
    let op := invOperator (stateAt (QuasiNewton.solver cfg aux0) fn aux0 y0 st0 (k + 1)).hessianUpdateState
    op (fun c => a * u c + b * v c) = fun c => a * op u c + b * op v c := by
  intro op
  obtain ⟨_, h1, _⟩ := C38_run eps heps h cfg hcfg hf aux0 fn y0 st0 hi k
  simp only [op, h1]
  rw [mulVec_add' _ (fun c => a * u c), mulVec_smul', mulVec_smul']

theorem stored_descent {HS : Type} (b : Bool) (ls : LinSolve ι Unit) (hls : b = false → SolvesSPD ls)
    (cfg : QuasiNewton.Cfg ι SS ((ι → ℝ) × Result) HS) (hrec : RecordsPoint cfg.hess)
    (hd : cfg.descent = newtonDescent ls none)
    (hf : ∀ y z i j s, (cfg.search.step true y z i j s).2.1 = true) (aux0 : A) (fn : (ι → ℝ) → ℝ × A) (y0 : ι → ℝ)
    (st0 : QuasiNewton.State ι A SS ((ι → ℝ) × Result) HS)
    (hi : (QuasiNewton.solver cfg aux0).init fn y0 = .ok st0) (k : Nat) (M : Matrix ι ι ℝ)
    (hM : Stores b (stateAt (QuasiNewton.solver cfg aux0) fn aux0 y0 st0 (k + 1)).fInfo M) (hp : SPD M) :
    let Y := iterateAt (QuasiNewton.solver cfg aux0) fn aux0 y0 st0
    let St := stateAt (QuasiNewton.solver cfg aux0) fn aux0 y0 st0
    (∃ c, cfg.grad (Y (k + 1)) c ≠ 0) →
    ∃ p,
      (if b then p = (fun c => -M.mulVec (cfg.grad (Y (k + 1))) c)
        else M.mulVec p = fun c => -cfg.grad (Y (k + 1)) c) ∧
      (∀ t, cfg.descent.step t (St (k + 1)).descentState = (fun c => t * p c, .successful)) ∧
      treeDot (cfg.grad (Y (k + 1))) p < 0 := by
  intro Y St hne
  have L := qn_laws cfg aux0 fn hrec
  have hds : (St (k + 1)).descentState = newtonStep ls (St (k + 1)).fInfo :=
    newton_state ls HS cfg hd hrec hf aux0 fn y0 st0 hi k
  have hgr : (St (k + 1)).fInfo.grad? = some (cfg.grad (Y (k + 1))) := (stored L hf aux0 y0 st0 hi k).1.2
  obtain ⟨h1, h2, h3⟩ := newton_descends ls b hls _ M hM hp _ hgr hne
  rw [← hds] at h1 h2 h3
  set n := (St (k + 1)).descentState
  have hneg : treeDot (cfg.grad (Y (k + 1))) (fun c => -n.1 c) = -treeDot (cfg.grad (Y (k + 1))) n.1 := by
    have := dot_smul (-1) (cfg.grad (Y (k + 1))) n.1
    simpa using this
  refine ⟨fun c => -n.1 c, ?_, ?_, by rw [hneg]; linarith⟩
  · cases b
    · have hm := mulVec_smul' M (-1) n.1
      have h3' : M.mulVec n.1 = cfg.grad (Y (k + 1)) := h3
      rw [h3'] at hm
      simpa using hm
    · have h3' : n.1 = M.mulVec (cfg.grad (Y (k + 1))) := h3
      show (fun c => -n.1 c) = fun c => -M.mulVec (cfg.grad (Y (k + 1))) c
      rw [h3']
  · intro t
    rw [hd]
    show ((fun c => -t * n.1 c), n.2) = _
    rw [h2]
    congr 1
    funext c; ring

/-- **C38.** So the search direction of `LBFGS(use_inverse=True)` at an iterate with non-zero gradient is minus the textbook
matrix times the gradient, and a descent direction.  (No linear system is solved.) -/
theorem C38_descent_direction [DecidableEq ι] (eps : ℝ) (heps : 0 ≤ eps) (h : Nat) [NeZero h] (ls : LinSolve ι Unit)
    (cfg : QuasiNewton.Cfg ι SS ((ι → ℝ) × Result) (InvState ι h))
    (hcfg : cfg.hess = LBFGS.inverse eps h) (hd : cfg.descent = newtonDescent ls none)
    (hf : ∀ y z i j s, (cfg.search.step true y z i j s).2.1 = true) (aux0 : A) (fn : (ι → ℝ) → ℝ × A) (y0 : ι → ℝ)
    (st0 : QuasiNewton.State ι A SS ((ι → ℝ) × Result) (InvState ι h))
    (hi : (QuasiNewton.solver cfg aux0).init fn y0 = .ok st0) (k : Nat) :
    let Y := iterateAt (QuasiNewton.solver cfg aux0) fn aux0 y0 st0
    let St := stateAt (QuasiNewton.solver cfg aux0) fn aux0 y0 st0
    let g := cfg.grad (Y (k + 1))
    (∃ c, g c ≠ 0) →
    let p := fun c => -(denseInverse (lastN h (curvaturePairs eps cfg.grad Y k))).mulVec g c
    (∀ t, cfg.descent.step t (St (k + 1)).descentState = (fun c => t * p c, .successful)) ∧ ∑ c, g c * p c < 0 := by
  intro Y St g hne
  obtain ⟨h1, _, h2, _⟩ := C38_run eps heps h cfg hcfg hf aux0 fn y0 st0 hi k
  obtain ⟨p, h3, h4, h5⟩ := stored_descent true ls (by simp) cfg (by rw [hcfg]; exact inverse_records eps h) hd hf aux0 fn y0
    st0 hi k _ h1 h2 hne
  rw [if_pos rfl] at h3
  subst h3
  exact ⟨h4, h5⟩

/-! Concrete instances of the hypotheses: `exLBFGS` and the examples at the end of `Props/LBFGSAgree.lean`. -/

end Verif.Props
