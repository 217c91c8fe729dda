import Verif.Props.LBFGSCompact

/-! C36 for L-BFGS: `use_inverse` does not matter.  And the assumptions of C39 can be met: exact Cholesky factorisation and
triangular solves exist in every dimension. -/

namespace Verif.Props

open Verif Verif.Spec Verif.Driver Verif.SearchLoop Verif.Rank Verif.QuasiNewton Verif.LBFGS Verif.Ring

variable {ι A SS DS : Type} [Fintype ι]

theorem cholesky_exists : ∀ (n : Nat) (M : Matrix (Fin n) (Fin n) ℝ), SPD M →
    ∃ L : Matrix (Fin n) (Fin n) ℝ, L * L.transpose = M ∧ (∀ i j, i < j → L i j = 0) ∧ ∀ i, 0 < L i i := by
  intro n
  induction n with
  | zero => exact fun M _ => ⟨0, by ext i; exact i.elim0, fun i => i.elim0, fun i => i.elim0⟩
  | succ n ih =>
    intro M hM
    have ha : 0 < M 0 0 := by
      have := hM.2 (Fin.cons 1 fun _ => 0) ⟨0, by simp⟩
      simpa [Fin.sum_univ_succ] using this
    have hs : 0 < Real.sqrt (M 0 0) := Real.sqrt_pos.2 ha
    have hss : Real.sqrt (M 0 0) * Real.sqrt (M 0 0) = M 0 0 := Real.mul_self_sqrt ha.le
    have hC : SPD (Matrix.of fun i j : Fin n => M i.succ j.succ - M i.succ 0 * M j.succ 0 / M 0 0) := by
      refine ⟨fun i j => ?_, fun y hy => ?_⟩
      · simp only [Matrix.of_apply]
        rw [hM.1 i.succ j.succ]; ring
      · set t := ∑ j : Fin n, M j.succ 0 * y j with ht
        have := hM.2 (Fin.cons (-(t / M 0 0)) y) (by
          obtain ⟨i, hi⟩ := hy
          exact ⟨i.succ, by simpa using hi⟩)
        simp only [Fin.sum_univ_succ, Fin.cons_zero, Fin.cons_succ] at this
        have e1 : ∑ j : Fin n, -(t / M 0 0) * M 0 j.succ * y j = -(t / M 0 0) * t := by
          rw [ht, Finset.mul_sum]
          exact Finset.sum_congr rfl fun j _ => by rw [hM.1 0 j.succ]; ring
        have e2 : ∑ i : Fin n, (y i * M i.succ 0 * -(t / M 0 0) + ∑ j : Fin n, y i * M i.succ j.succ * y j) =
            -(t / M 0 0) * t + ∑ i : Fin n, ∑ j : Fin n, y i * M i.succ j.succ * y j := by
          rw [Finset.sum_add_distrib]
          congr 1
          rw [ht, Finset.mul_sum]
          exact Finset.sum_congr rfl fun j _ => by ring
        rw [e1, e2] at this
        have e3 : ∑ i : Fin n, ∑ j : Fin n, y i * (M i.succ j.succ - M i.succ 0 * M j.succ 0 / M 0 0) * y j =
            ∑ i : Fin n, ∑ j : Fin n, y i * M i.succ j.succ * y j - t * t / M 0 0 := by
          have e4 : t * t / M 0 0 = ∑ i : Fin n, ∑ j : Fin n, y i * (M i.succ 0 * M j.succ 0 / M 0 0) * y j := by
            rw [ht, Finset.sum_mul_sum, Finset.sum_div]
            refine Finset.sum_congr rfl fun i _ => ?_
            rw [Finset.sum_div]
            exact Finset.sum_congr rfl fun j _ => by ring
          rw [e4, ← Finset.sum_sub_distrib]
          refine Finset.sum_congr rfl fun i _ => ?_
          rw [← Finset.sum_sub_distrib]
          exact Finset.sum_congr rfl fun j _ => by ring
        show 0 < ∑ i : Fin n, ∑ j : Fin n, y i * (M i.succ j.succ - M i.succ 0 * M j.succ 0 / M 0 0) * y j
        rw [e3]
        have e5 : -(t / M 0 0) * M 0 0 * -(t / M 0 0) = t * t / M 0 0 := by field_simp
        rw [e5] at this
        have e6 : -(t / M 0 0) * t = -(t * t / M 0 0) := by ring
        rw [e6] at this
        linarith
    obtain ⟨L, h1, h2, h3⟩ := ih _ hC
    refine ⟨Matrix.of (Fin.cons (Fin.cons (Real.sqrt (M 0 0)) fun _ => 0)
      fun i => Fin.cons (M i.succ 0 / Real.sqrt (M 0 0)) fun j => L i j), ?_, ?_, ?_⟩
    · ext i j
      rw [Matrix.mul_apply]
      refine Fin.cases ?_ (fun i => ?_) i <;> refine Fin.cases ?_ (fun j => ?_) j
      · simp [Fin.sum_univ_succ, hss]
      · simp [Fin.sum_univ_succ]
        rw [mul_div_cancel₀ _ hs.ne', hM.1]
      · simp [Fin.sum_univ_succ]
        rw [div_mul_cancel₀ _ hs.ne']
      · have := congrFun (congrFun h1 i) j
        rw [Matrix.mul_apply] at this
        simp only [Matrix.transpose_apply, Matrix.of_apply] at this
        simp [Fin.sum_univ_succ]
        rw [this]
        have : M i.succ 0 / Real.sqrt (M 0 0) * (M j.succ 0 / Real.sqrt (M 0 0)) = M i.succ 0 * M j.succ 0 / M 0 0 := by
          rw [div_mul_div_comm, hss]
        rw [this]; ring
    · intro i j
      refine Fin.cases ?_ (fun i => ?_) i <;> refine Fin.cases ?_ (fun j => ?_) j
      · intro h; exact absurd h (lt_irrefl _)
      · intro _; rfl
      · intro h; exact absurd h (by simp)
      · intro h; exact h2 i j (Fin.succ_lt_succ_iff.1 h)
    · intro i
      refine Fin.cases ?_ (fun i => ?_) i
      · exact hs
      · exact h3 i

theorem position_inj {h : Nat} {a b : Fin h ⊕ Fin h} (e : position a = position b) : a = b := by
  rcases a with a | a <;> rcases b with b | b <;> simp only [position] at e
  · rw [Fin.ext e]
  · omega
  · omega
  · rw [Fin.ext (Nat.add_left_cancel e)]

theorem triangular_solvable {κ : Type} [Fintype κ] [DecidableEq κ] (rank : κ → Nat)
    (hr : ∀ a b, rank a = rank b → a = b) (T : Matrix κ κ ℝ) (hT : ∀ i j, rank i < rank j → T i j = 0)
    (hd : ∀ i, T i i ≠ 0) (b : κ → ℝ) : T.mulVec (T⁻¹.mulVec b) = b := by
  have hu : IsUnit T := by
    rw [← Matrix.mulVec_injective_iff_isUnit]
    intro x y hxy
    have key : ∀ m i, rank i = m → x i - y i = 0 := by
      intro m
      induction m using Nat.strong_induction_on with
      | _ m ih =>
        intro i hi
        have e : ∑ j, T i j * (x j - y j) = 0 := by
          have h1 : ∑ j, T i j * x j = ∑ j, T i j * y j := congrFun hxy i
          simp only [mul_sub, Finset.sum_sub_distrib, h1, sub_self]
        rw [Finset.sum_eq_single i] at e
        · exact (mul_eq_zero.1 e).resolve_left (hd i)
        · intro j _ hji
          rcases Nat.lt_trichotomy (rank i) (rank j) with h1 | h1 | h1
          · rw [hT i j h1, zero_mul]
          · exact absurd (hr _ _ h1).symm hji
          · rw [ih (rank j) (by omega) j rfl, mul_zero]
        · intro hn; exact absurd (Finset.mem_univ i) hn
    funext i
    have := key _ i rfl
    linarith
  rw [Matrix.mulVec_mulVec, Matrix.mul_nonsing_inv _ ((Matrix.isUnit_iff_isUnit_det T).1 hu), Matrix.one_mulVec]

open Classical in
/-- Exact dense linear algebra. -/
noncomputable def exactLA (h : Nat) : DenseLA h where
  cholesky M := if hM : SPD M then (cholesky_exists h M hM).choose else 0
  solveLower T b := T⁻¹.mulVec b
  solveUpper T b := T⁻¹.mulVec b

theorem exactLA_exact (h : Nat) : ExactLA (exactLA h) where
  cholesky M hM := by
    have := (cholesky_exists h M hM).choose_spec
    simp only [exactLA, dif_pos hM]
    exact this
  solveLower T b hT hd := triangular_solvable position (fun _ _ => position_inj) T hT hd b
  solveUpper T b hT hd := triangular_solvable (fun a => 2 * h - position a)
    (fun a b e => position_inj (by
      have h1 : position a < 2 * h := by rcases a with a | a <;> simp only [position] <;> omega
      have h2 : position b < 2 * h := by rcases b with b | b <;> simp only [position] <;> omega
      omega)) T (fun i j hij => hT i j (by
      have h2 : position j < 2 * h := by rcases j with b | b <;> simp only [position] <;> omega
      omega)) hd b

/-! ### C36 for L-BFGS -/

variable {h : Nat} [NeZero h]

/-- The two states describe the same situation: the same curvature pairs are remembered, one stores the inverse
approximation, the other the direct one, and all other fields agree. -/
def SameLBFGS [DecidableEq ι] (stI : QuasiNewton.State ι A SS ((ι → ℝ) × Result) (InvState ι h))
    (stD : QuasiNewton.State ι A SS ((ι → ℝ) × Result) (DirState ι h)) : Prop :=
  stI.firstStep = stD.firstStep ∧ stI.yEval = stD.yEval ∧ stI.searchState = stD.searchState ∧ stI.aux = stD.aux ∧
    stI.descentState = stD.descentState ∧ stI.terminate = stD.terminate ∧ stI.result = stD.result ∧
    stI.numAcceptedSteps = stD.numAcceptedSteps ∧
    ∃ f g l, stI.fInfo = .evalGradHessianInv f g (denseInverse (lastN h l)) ∧
      stD.fInfo = .evalGradHessian f g (denseHessian (lastN h l)) ∧
      InvInv stI.hessianUpdateState l ∧ DirInv stD.hessianUpdateState l

theorem same_lbfgs_step [DecidableEq ι] (eps : ℝ) (heps : 0 ≤ eps) (la : DenseLA h) (hla : ExactLA la)
    (lsI lsD : LinSolve ι Unit) (hls : SolvesSPD lsD)
    (rtol atol : ℝ) (nY : (ι → ℝ) → ℝ) (nF : (Unit → ℝ) → ℝ) (srch : Search ι Unit SS) (hag : HessianAgnostic srch)
    (grad : (ι → ℝ) → (ι → ℝ))
    (fn : (ι → ℝ) → ℝ × A) (y : ι → ℝ) (stI : QuasiNewton.State ι A SS ((ι → ℝ) × Result) (InvState ι h))
    (stD : QuasiNewton.State ι A SS ((ι → ℝ) × Result) (DirState ι h)) (hsame : SameLBFGS stI stD) :
    let cI : QuasiNewton.Cfg ι SS ((ι → ℝ) × Result) (InvState ι h) :=
      { rtol := rtol, atol := atol, normY := nY, normF := nF, descent := newtonDescent lsI none, search := srch,
        hess := LBFGS.inverse eps h, grad := grad }
    let cD : QuasiNewton.Cfg ι SS ((ι → ℝ) × Result) (DirState ι h) :=
      { rtol := rtol, atol := atol, normY := nY, normF := nF, descent := newtonDescent lsD none, search := srch,
        hess := LBFGS.direct eps h la, grad := grad }
    (QuasiNewton.step cI fn y stI).1 = (QuasiNewton.step cD fn y stD).1 ∧
    (QuasiNewton.step cI fn y stI).2.2 = (QuasiNewton.step cD fn y stD).2.2 ∧
    SameLBFGS (QuasiNewton.step cI fn y stI).2.1 (QuasiNewton.step cD fn y stD).2.1 := by
  intro cI cD
  obtain ⟨f1, ye, ss, i1, ax, ds, tm, rs, na, hs⟩ := stI
  obtain ⟨f1', ye', ss', i1', ax', ds', tm', rs', na', hs'⟩ := stD
  obtain ⟨h1, h2, h3, h4, h5, h6, h7, h8, f, g, l, h9, h10, hI, hD⟩ := hsame
  simp only at h1 h2 h3 h4 h5 h6 h7 h8 h9 h10 hI hD
  subst h1 h2 h3 h4 h5 h6 h7 h8 h9 h10
  simp only [QuasiNewton.step, cI, cD]
  have hsr := (hag f g (denseHessian (lastN h l)) (denseInverse (lastN h l))).2 f1 y ye (.eval (fn ye).1) ss
  rw [hsr]
  set sr := srch.step f1 y ye (.evalGradHessianInv f g (denseInverse (lastN h l))) (.eval (fn ye).1) ss with hsrd
  clear_value sr
  cases hacc : sr.2.1 with
  | false =>
    simp only [Bool.false_eq_true, if_false]
    exact ⟨trivial, trivial, rfl, rfl, rfl, rfl, rfl, rfl, rfl, rfl, f, g, l, rfl, rfl, hI, hD⟩
  | true =>
    simp only [if_true]
    have hnew : ∃ l' hsI hsD,
        (LBFGS.inverse eps h).updateHessian y ye (.evalGradHessianInv f g (denseInverse (lastN h l))) (fn ye).1 (grad ye) hs =
          (.evalGradHessianInv (fn ye).1 (grad ye) (denseInverse (lastN h l')), hsI) ∧
        (LBFGS.direct eps h la).updateHessian y ye (.evalGradHessian f g (denseHessian (lastN h l))) (fn ye).1 (grad ye) hs' =
          (.evalGradHessian (fn ye).1 (grad ye) (denseHessian (lastN h l')), hsD) ∧ InvInv hsI l' ∧ DirInv hsD l' := by
      rw [inverse_update, direct_update]
      by_cases hc : eps < treeDot (fun c => ye c - y c) fun c => grad ye c - g c
      · rw [if_pos hc, if_pos hc]
        have hI' := invInv_record eps heps hs l _ _ hI hc
        have hD' := dirInv_record hs' l _ _ hD (by rw [dot_comm]; exact lt_of_le_of_lt heps hc)
        refine ⟨_, _, _, ?_, ?_, hI', hD'⟩
        · rw [invOperator_matrix _ _ hI']
        · have hop := dirOperator_eq la hla _ _ hD'
          rw [show dirOperator la _ = fun x => (denseHessian (lastN h _)).mulVec x from funext hop, operatorMatrix_mulVec]
      · rw [if_neg hc, if_neg hc]
        exact ⟨l, hs, hs', rfl, rfl, hI, hD⟩
    obtain ⟨l', hsI, hsD, e1, e2, hI', hD'⟩ := hnew
    rw [e1, e2]
    simp only [GradientDescent.fOf]
    have hn : (newtonDescent lsI none).query ye (.evalGradHessianInv (fn ye).1 (grad ye) (denseInverse (lastN h l'))) ds =
        (newtonDescent lsD none).query ye (.evalGradHessian (fn ye).1 (grad ye) (denseHessian (lastN h l'))) ds := by
      show ((denseInverse (lastN h l')).mulVec (grad ye), Result.successful) = lsD.square (denseHessian (lastN h l')) (grad ye)
      have hp := hD'.positive.lastN h
      obtain ⟨e1, e2⟩ := hls (denseHessian (lastN h l')) (grad ye) (denseHessian_spd _ hp)
      have e3 := mul_one_apply (dense_inverse _ hp) (lsD.square (denseHessian (lastN h l')) (grad ye)).1
      rw [e2] at e3
      rw [e3, ← e1]
    rw [hn]
    exact ⟨trivial, trivial, rfl, rfl, rfl, rfl, rfl, rfl, rfl, rfl, (fn ye).1, grad ye, l', rfl, rfl, hI', hD'⟩

theorem lbfgs_init_op [DecidableEq ι] (la : DenseLA h) (hla : ExactLA la) :
    operatorMatrix (invOperator (initInv ι h)) = denseInverse (lastN h []) ∧
    operatorMatrix (dirOperator la (initDir ι h)) = denseHessian (lastN h []) := by
  constructor
  · exact invOperator_matrix _ _ invInv_init
  · have hop := dirOperator_eq la hla (initDir ι h) [] dirInv_init
    rw [show dirOperator la _ = fun x => (denseHessian (lastN h _)).mulVec x from funext hop, operatorMatrix_mulVec]

/-- **C36**, for L-BFGS: `LBFGS(use_inverse=True)` and `LBFGS(use_inverse=False)` (with exact linear solves in the latter)
with the same other settings (any history length `h ≥ 1`; a search that does not look at the Hessian approximation) start on
the same inputs, make the same iterates, and return the same value, aux, result and number of steps; the matrices they keep
are inverse to each other after every step. -/
theorem C36_lbfgs [DecidableEq ι] (eps : ℝ) (heps : 0 ≤ eps) (la : DenseLA h) (hla : ExactLA la)
    (lsI lsD : LinSolve ι Unit) (hls : SolvesSPD lsD)
    (rtol atol : ℝ) (nY : (ι → ℝ) → ℝ) (nF : (Unit → ℝ) → ℝ) (srch : Search ι Unit SS) (hag : HessianAgnostic srch)
    (grad : (ι → ℝ) → (ι → ℝ)) (aux0 : A) (fn : (ι → ℝ) → ℝ × A) (y0 : ι → ℝ) :
    let SI := QuasiNewton.solver (A := A)
      { rtol := rtol, atol := atol, normY := nY, normF := nF, descent := newtonDescent lsI none, search := srch,
        hess := LBFGS.inverse eps h, grad := grad } aux0
    let SD := QuasiNewton.solver (A := A)
      { rtol := rtol, atol := atol, normY := nY, normF := nF, descent := newtonDescent lsD none, search := srch,
        hess := LBFGS.direct eps h la, grad := grad } aux0
    ((∃ stI, SI.init fn y0 = .ok stI) ↔ ∃ stD, SD.init fn y0 = .ok stD) ∧
    (∀ stI stD, SI.init fn y0 = .ok stI → SD.init fn y0 = .ok stD →
      ∀ k, iterateAt SI fn aux0 y0 stI k = iterateAt SD fn aux0 y0 stD k ∧
        ∃ H B, Stores true (stateAt SI fn aux0 y0 stI k).fInfo H ∧
          Stores false (stateAt SD fn aux0 y0 stD k).fInfo B ∧ H * B = 1) ∧
    (∀ af ms throw sol, iterativeSolve SI af fn aux0 y0 ms throw = some (.ok sol) →
      ∃ sol', iterativeSolve SD af fn aux0 y0 ms throw = some (.ok sol') ∧
        sol'.value = sol.value ∧ sol'.aux = sol.aux ∧ sol'.result = sol.result ∧ sol'.numSteps = sol.numSteps) ∧
    ∀ af ms throw sol', iterativeSolve SD af fn aux0 y0 ms throw = some (.ok sol') →
      ∃ sol, iterativeSolve SI af fn aux0 y0 ms throw = some (.ok sol) := by
  intro SI SD
  obtain ⟨eI, eD⟩ := lbfgs_init_op (ι := ι) la hla
  have ha := (hag 0 (fun _ => 0) (denseHessian (lastN h [])) (denseInverse (lastN h []))).1
  have hIi : SI.init fn y0 = QuasiNewton.init
      { rtol := rtol, atol := atol, normY := nY, normF := nF, descent := newtonDescent lsI none, search := srch,
        hess := LBFGS.inverse eps h, grad := grad } aux0 y0 := rfl
  have hDi : SD.init fn y0 = QuasiNewton.init
      { rtol := rtol, atol := atol, normY := nY, normF := nF, descent := newtonDescent lsD none, search := srch,
        hess := LBFGS.direct eps h la, grad := grad } aux0 y0 := rfl
  simp only [QuasiNewton.init, LBFGS.inverse, eI] at hIi
  simp only [QuasiNewton.init, LBFGS.direct, eD] at hDi
  have haI : (newtonDescent lsI none).accepts (.evalGradHessianInv 0 (fun _ : ι => 0) (denseInverse (lastN h []))) = true :=
    rfl
  have haD : (newtonDescent lsD none).accepts (.evalGradHessian 0 (fun _ : ι => 0) (denseHessian (lastN h []))) = true :=
    rfl
  rw [haI] at hIi
  rw [haD, ha] at hDi
  have hii : (∃ stI, SI.init fn y0 = .ok stI) ↔ ∃ stD, SD.init fn y0 = .ok stD := by
    rw [hIi, hDi]
    split
    · constructor <;> rintro ⟨_, h⟩ <;> cases h
    · exact ⟨fun _ => ⟨_, rfl⟩, fun _ => ⟨_, rfl⟩⟩
  have hstart : ∀ stI stD, SI.init fn y0 = .ok stI → SD.init fn y0 = .ok stD → SameLBFGS stI stD := by
    intro stI stD h1 h2
    rw [hIi] at h1
    rw [hDi] at h2
    split at h1
    · cases h1
    · rename_i hc
      rw [if_neg hc] at h2
      cases h1
      cases h2
      exact ⟨rfl, rfl, rfl, rfl, rfl, rfl, rfl, rfl, 0, fun _ => 0, [], rfl, rfl, invInv_init, dirInv_init⟩
  have hk : ∀ stI stD, SI.init fn y0 = .ok stI → SD.init fn y0 = .ok stD → ∀ k,
      iterateAt SI fn aux0 y0 stI k = iterateAt SD fn aux0 y0 stD k ∧
      auxAt SI fn aux0 y0 stI k = auxAt SD fn aux0 y0 stD k ∧
      SameLBFGS (stateAt SI fn aux0 y0 stI k) (stateAt SD fn aux0 y0 stD k) := by
    intro stI stD h1 h2 k
    induction k with
    | zero => exact ⟨rfl, rfl, hstart stI stD h1 h2⟩
    | succ k ih =>
      obtain ⟨e1, _, e3⟩ := ih
      have := same_lbfgs_step eps heps la hla lsI lsD hls rtol atol nY nF srch hag grad fn
        (iterateAt SI fn aux0 y0 stI k) _ _ e3
      have hD' : trace SD fn aux0 y0 stD (k + 1) = SD.step fn (iterateAt SI fn aux0 y0 stI k)
          (stateAt SD fn aux0 y0 stD k) := by
        rw [e1]; rfl
      refine ⟨?_, ?_, ?_⟩
      · show _ = (trace SD fn aux0 y0 stD (k + 1)).1
        rw [hD']; exact this.1
      · show _ = (trace SD fn aux0 y0 stD (k + 1)).2.2
        rw [hD']; exact this.2.1
      · show SameLBFGS _ (trace SD fn aux0 y0 stD (k + 1)).2.1
        rw [hD']; exact this.2.2
  refine ⟨hii, ?_, ?_, ?_⟩
  · intro stI stD h1 h2 k
    obtain ⟨e1, _, e3⟩ := hk stI stD h1 h2 k
    obtain ⟨_, _, _, _, _, _, _, _, f, g, l, h9, h10, hI, hD⟩ := e3
    exact ⟨e1, _, _, ⟨f, g, h9⟩, ⟨f, g, h10⟩, dense_inverse _ (hD.positive.lastN h)⟩
  · intro af ms throw sol hs
    obtain ⟨_, _, stI, hiI, hst, hp⟩ := C01_step_budget _ _ _ _ _ _ _ _ hs
    obtain ⟨stD, hiD⟩ := hii.1 ⟨stI, hiI⟩
    have hkk := hk stI stD hiI hiD
    obtain ⟨sol', hs', hn, hr⟩ := same_run SI SD af af fn fn aux0 aux0
      y0 y0 stI stD hiI hiD (fun k => by unfold testedAt; rw [(hkk (k - 1)).1])
      (fun k => by
        have e := (hkk k).2.2
        show ((stateAt SI fn aux0 y0 stI k).terminate, (stateAt SI fn aux0 y0 stI k).result) =
          ((stateAt SD fn aux0 y0 stD k).terminate, (stateAt SD fn aux0 y0 stD k).result)
        rw [e.2.2.2.2.2.1, e.2.2.2.2.2.2.1]) ms throw sol hs
    obtain ⟨_, _, stD', hiD', hst', hp'⟩ := C01_step_budget _ _ _ _ _ _ _ _ hs'
    rw [hiD] at hiD'; cases hiD'
    have v1 : sol.value = iterateAt SI fn aux0 y0 stI sol.numSteps := congrArg Prod.fst hp
    have v2 : sol'.value = iterateAt SD fn aux0 y0 stD sol'.numSteps := congrArg Prod.fst hp'
    have a1 : sol.aux = auxAt SI fn aux0 y0 stI sol.numSteps := congrArg (fun t => t.2.1) hp
    have a2 : sol'.aux = auxAt SD fn aux0 y0 stD sol'.numSteps := congrArg (fun t => t.2.1) hp'
    refine ⟨sol', hs', ?_, ?_, hr, hn⟩
    · rw [v1, v2, hn, (hkk _).1]
    · rw [a1, a2, hn, (hkk _).2.1]
  · intro af ms throw sol hs
    obtain ⟨_, _, stD, hiD, _⟩ := C01_step_budget _ _ _ _ _ _ _ _ hs
    obtain ⟨stI, hiI⟩ := hii.2 ⟨stD, hiD⟩
    have hkk := hk stI stD hiI hiD
    obtain ⟨sol', hs', _⟩ := same_run SD SI af af fn fn aux0 aux0
      y0 y0 stD stI hiD hiI (fun k => by unfold testedAt; rw [(hkk (k - 1)).1])
      (fun k => by
        have e := (hkk k).2.2
        show ((stateAt SD fn aux0 y0 stD k).terminate, (stateAt SD fn aux0 y0 stD k).result) =
          ((stateAt SI fn aux0 y0 stI k).terminate, (stateAt SI fn aux0 y0 stI k).result)
        rw [e.2.2.2.2.2.1, e.2.2.2.2.2.2.1]) ms throw sol hs
    exact ⟨sol', hs'⟩

/-! ### Non-vacuity -/

/-- `LBFGS` with history length 2 on `y₁² + 3 y₂²`: both variants start, with exact linear algebra. -/
noncomputable def exLBFGS : QuasiNewton.Cfg (Fin 2) ℝ ((Fin 2 → ℝ) × Result) (InvState (Fin 2) 2) :=
  withArmijo 0.1 0.1 maxNorm maxNorm
    { rect := fun _ _ => (fun _ => 0, .successful), square := fun B g => (B⁻¹.mulVec g, .successful) }
    ⟨0.5, 0.1, 1⟩ (LBFGS.inverse 0.001 2) fun y => ![2 * y 0, 6 * y 1]

example : (∃ st0, (QuasiNewton.solver exLBFGS ()).init (fun y => (y 0 ^ 2 + 3 * y 1 ^ 2, ())) ![1, 1] = .ok st0) ∧
    (∀ y z i j s, (exLBFGS.search.step true y z i j s).2.1 = true) ∧
    HessianAgnostic exLBFGS.search ∧ ExactLA (exactLA 2) :=
  ⟨⟨_, rfl⟩, armijo_first _, (agnostic_searches _ TrustRegion.defaults 1).1, exactLA_exact 2⟩

/-- Iterates on this objective: three steps with positive curvature are three curvature pairs, of which a history of length
two keeps the last two. -/
example : let Y : Nat → Fin 2 → ℝ := fun k => ![1 / (k + 1), 1 / (k + 1)]
    let l := curvaturePairs 0.001 (fun y : Fin 2 → ℝ => ![2 * y 0, 6 * y 1]) Y 3
    l.length = 3 ∧ (lastN 2 l).length = 2 := by
  intro Y l
  have hl : l.length = 3 := by
    simp only [l, curvaturePairs, Fin.sum_univ_two, Y]
    norm_num
  exact ⟨hl, by simp [lastN, hl]⟩

end Verif.Props
