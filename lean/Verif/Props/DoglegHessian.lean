import Verif.Props.Dogleg
import Verif.Props.QuasiNewton

/-! C42 for minimisation problems: the dogleg descent on a gradient and a Hessian approximation. -/

namespace Verif.Props

open Verif Verif.Spec Verif.Rank Verif.QuasiNewton

variable {ι : Type} [Fintype ι]

/-- The change predicted by the quadratic model: `g·p + ½ pᵀ B p`. -/
noncomputable def modelChange (B : Matrix ι ι ℝ) (g p : ι → ℝ) : ℝ :=
  (∑ i, g i * p i) + 1 / 2 * ∑ i, ∑ j, p i * B i j * p j

theorem modelChange_eq (B : Matrix ι ι ℝ) (g p : ι → ℝ) :
    modelChange B g p = treeDot g p + 1 / 2 * treeDot p (B.mulVec p) := by
  unfold modelChange; rw [quad_eq]; rfl

/-- Convexity along a segment, for a positive definite `B`. -/
theorem modelChange_convex (B : Matrix ι ι ℝ) (hB : SPD B) (g p q : ι → ℝ) (u : ℝ) (h0 : 0 ≤ u) (h1 : u ≤ 1) :
    modelChange B g (fun i => p i + u * (q i - p i)) ≤ (1 - u) * modelChange B g p + u * modelChange B g q := by
  simp only [modelChange_eq]
  have hd := spd_nonneg hB fun i => q i - p i
  have e1 : treeDot g (fun i => p i + u * (q i - p i)) = treeDot g p + u * (treeDot g q - treeDot g p) := by
    rw [dot_add, dot_smul, dot_sub]
  have hm : B.mulVec (fun i => p i + u * (q i - p i)) =
      fun i => B.mulVec p i + u * (B.mulVec q i - B.mulVec p i) := by
    rw [mulVec_add', mulVec_smul', mulVec_sub']
  have hs : treeDot q (B.mulVec p) = treeDot p (B.mulVec q) := symm_dot B hB.1 q p
  have e2 : treeDot (fun i => p i + u * (q i - p i)) (B.mulVec fun i => p i + u * (q i - p i)) =
      treeDot p (B.mulVec p) + 2 * u * (treeDot p (B.mulVec q) - treeDot p (B.mulVec p)) +
        u ^ 2 * (treeDot q (B.mulVec q) - 2 * treeDot p (B.mulVec q) + treeDot p (B.mulVec p)) := by
    rw [hm, dot_comm]
    rw [dot_add, dot_smul, dot_sub, dot_comm _ p, dot_comm _ q, dot_add, dot_smul, dot_sub, dot_add, dot_smul, dot_sub, hs]
    ring
  have e3 : treeDot (fun i => q i - p i) (B.mulVec fun i => q i - p i) =
      treeDot q (B.mulVec q) - 2 * treeDot p (B.mulVec q) + treeDot p (B.mulVec p) := by
    rw [mulVec_sub', dot_comm, dot_sub, dot_comm _ p, dot_comm _ q, dot_sub, dot_sub, hs]
    ring
  rw [e3] at hd
  rw [e1, e2]
  nlinarith [mul_nonneg (mul_nonneg h0 (sub_nonneg.2 h1)) hd]

section
variable (eps : ℝ) (ls : LinSolve ι Unit) (B : Matrix ι ι ℝ) (f : ℝ) (g : ι → ℝ)

/-- **C42**, minimisation form.  What the descent records for an objective with gradient `g` and Hessian approximation `B`:
the Newton step is the negated solution of `B x = g`, the Cauchy step is `-τ g` with the `τ` minimising the quadratic model
along the negated gradient (zero if the curvature `gᵀBg` is not above machine epsilon), and both recorded norms are right. -/
theorem C42_base_points_hessian (heps : 0 ≤ eps) (y : ι → ℝ) (old : Dogleg.State ι) :
    let D := Dogleg.descent eps ls .twoNorm
    let st := D.query y (.evalGradHessian f g B) old
    let curvature := ∑ i, ∑ j, g i * B i j * g j
    st.newton = (fun i => -(ls.square B g).1 i) ∧ st.newtonNorm = twoNorm st.newton ∧
    st.cauchyNorm = twoNorm st.cauchy ∧ st.result = (ls.square B g).2 ∧
    (curvature ≤ eps → st.cauchy = fun _ => 0) ∧
    (eps < curvature → ∃ τ, 0 ≤ τ ∧ st.cauchy = (fun i => -τ * g i) ∧ τ * curvature = ∑ i, g i ^ 2 ∧
      ∀ u, modelChange B g st.cauchy ≤ modelChange B g fun i => -u * g i) := by
  intro D st curvature
  have hcur : treeDot g (B.mulVec g) = curvature := (quad_eq B g).symm
  have hcau : st.cauchy = fun i => -(if eps < curvature then sumSquares g / curvature else 0) * g i := by
    show (fun i => -(if eps < treeDot g (B.mulVec g) then sumSquares g / treeDot g (B.mulVec g) else 0) * g i) = _
    rw [hcur]
  refine ⟨rfl, (twoNorm_neg _).symm, rfl, rfl, ?_, ?_⟩
  · intro h
    rw [hcau, if_neg (not_lt.2 h)]
    funext i; ring
  · intro h
    have hpos : 0 < curvature := lt_of_le_of_lt heps h
    have hss : sumSquares g = ∑ i, g i ^ 2 := by
      unfold sumSquares; exact Finset.sum_congr rfl fun i _ => by ring
    rw [if_pos h, hss] at hcau
    set G := ∑ i, g i ^ 2 with hG'
    have hG : 0 ≤ G := Finset.sum_nonneg fun _ _ => sq_nonneg _
    refine ⟨G / curvature, div_nonneg hG hpos.le, hcau, by field_simp, ?_⟩
    have hval : ∀ u, modelChange B g (fun i => -u * g i) = -u * G + u ^ 2 * curvature / 2 := by
      intro u
      rw [modelChange_eq, mulVec_smul', dot_smul, dot_smul, dot_comm _ (B.mulVec g), dot_smul, dot_comm (B.mulVec g) g, hcur]
      have : treeDot g g = G := by
        unfold treeDot; exact Finset.sum_congr rfl fun i _ => by ring
      rw [this]; ring
    intro u
    rw [hcau, hval, hval]
    have : -u * G + u ^ 2 * curvature / 2 - (-(G / curvature) * G + (G / curvature) ^ 2 * curvature / 2) =
        (u - G / curvature) ^ 2 * curvature / 2 := by
      field_simp; ring
    have h0 : 0 ≤ (u - G / curvature) ^ 2 * curvature / 2 := by positivity
    linarith

/-- The Cauchy step is never longer than the Newton step (Kantorovich). -/
theorem cauchy_le_newton_hessian (hB : SPD B) (hls : SolvesSPD ls) (τ : ℝ) (hτ : 0 ≤ τ)
    (h : τ * ∑ i, ∑ j, g i * B i j * g j = ∑ i, g i ^ 2) (hpos : 0 < ∑ i, ∑ j, g i * B i j * g j) :
    twoNorm (fun i => -τ * g i) ≤ twoNorm fun i => -(ls.square B g).1 i := by
  rw [quad_eq] at h hpos
  set n := (ls.square B g).1 with hn
  have hBn : B.mulVec n = g := (hls B g hB).2
  set C := treeDot g (B.mulVec g)
  set G := ∑ i, g i ^ 2
  have hG : 0 ≤ G := Finset.sum_nonneg fun _ _ => sq_nonneg _
  set N := ∑ i, n i ^ 2
  have hN : 0 ≤ N := Finset.sum_nonneg fun _ _ => sq_nonneg _
  set Q := treeDot n (B.mulVec n) with hQd
  have hQ : 0 ≤ Q := spd_nonneg hB n
  have k1 : treeDot g (B.mulVec n) = G := by
    rw [hBn]; unfold treeDot; exact Finset.sum_congr rfl fun i _ => by ring
  have k2 : Q = ∑ i, n i * g i := by rw [hQd, hBn]; rfl
  -- Cauchy-Schwarz for the inner product of `B`
  have c1' : G ^ 2 ≤ C * Q := by
    have hd := spd_nonneg hB fun i => C * n i - G * g i
    have hs : treeDot n (B.mulVec g) = treeDot g (B.mulVec n) := symm_dot B hB.1 n g
    have e : treeDot (fun i => C * n i - G * g i) (B.mulVec fun i => C * n i - G * g i) = C * (C * Q - G ^ 2) := by
      rw [mulVec_sub', mulVec_smul', mulVec_smul', dot_comm, dot_sub, dot_smul, dot_smul, dot_comm _ n, dot_comm _ g,
        dot_sub, dot_smul, dot_smul, dot_sub, dot_smul, dot_smul, hs, k1]
      ring
    rw [e] at hd
    have := nonneg_of_mul_nonneg_right hd hpos
    linarith
  have c2' : Q ^ 2 ≤ N * G := by
    rw [k2]; exact Finset.sum_mul_sq_le_sq_mul_sq Finset.univ n g
  have key : τ ^ 2 * G ≤ N := by
    have h1 : τ * G ≤ Q := by
      have : C * (τ * G) ≤ C * Q := by nlinarith
      exact le_of_mul_le_mul_left this hpos
    have h2 : (τ * G) ^ 2 ≤ N * G := le_trans (pow_le_pow_left₀ (mul_nonneg hτ hG) h1 2) c2'
    rcases eq_or_lt_of_le hG with h0 | h0
    · rw [← h0]; simpa using hN
    · have : G * (τ ^ 2 * G) ≤ G * N := by nlinarith
      exact le_of_mul_le_mul_left this h0
  rw [twoNorm_neg]
  unfold twoNorm
  apply Real.sqrt_le_sqrt
  have e1 : sumSquares (fun i => -τ * g i) = τ ^ 2 * G := by
    unfold sumSquares
    rw [Finset.mul_sum]
    exact Finset.sum_congr rfl fun i _ => by ring
  have e2 : sumSquares n = N := by
    unfold sumSquares; exact Finset.sum_congr rfl fun i _ => by ring
  rw [e1, e2]
  exact key

/-- **C42**, minimisation form: for a positive definite `B` and an exact linear solver the descent takes the full Newton
step for every step size `≥ 1`. -/
theorem C42_newton_accepted_hessian (heps : 0 ≤ eps) (hB : SPD B) (hls : SolvesSPD ls) (y : ι → ℝ) (old : Dogleg.State ι)
    (s : ℝ) (hs : 1 ≤ s) :
    let D := Dogleg.descent eps ls .twoNorm
    (D.step s (D.query y (.evalGradHessian f g B) old)).1 = (fun i => -(ls.square B g).1 i) ∧
    B.mulVec (D.step s (D.query y (.evalGradHessian f g B) old)).1 = fun i => -g i := by
  intro D
  obtain ⟨h1, h2, h3, h4, h5, h6⟩ := C42_base_points_hessian eps ls B f g heps y old
  set st := D.query y (.evalGradHessian f g B) old
  have hle : twoNorm st.cauchy ≤ twoNorm st.newton := by
    by_cases hc : eps < ∑ i, ∑ j, g i * B i j * g j
    · obtain ⟨τ, hτ, hcau, hτC, _⟩ := h6 hc
      have := cauchy_le_newton_hessian ls B g hB hls τ hτ hτC (lt_of_le_of_lt heps hc)
      have e1 : st.cauchy = fun i => -τ * g i := hcau
      have e2 : st.newton = fun i => -(ls.square B g).1 i := h1
      rw [e1, e2]
      exact this
    · have e1 : st.cauchy = fun _ => 0 := h5 (not_lt.1 hc)
      rw [e1]
      have : twoNorm (fun _ : ι => (0:ℝ)) = 0 := by simp [twoNorm, sumSquares]
      rw [this]; exact twoNorm_nonneg _
  have hR : twoNorm st.cauchy ≤ s * twoNorm st.newton :=
    hle.trans (le_mul_of_one_le_left (twoNorm_nonneg _) hs)
  have hp := (C42_dogleg_step_partial eps st s heps (by linarith) h3 h2).2.2.2.2 hR hs
  have hp' : (D.step s st).1 = fun i => -(ls.square B g).1 i := hp
  refine ⟨hp', ?_⟩
  rw [hp']
  have : (fun i => -(ls.square B g).1 i) = fun i => (-1) * (ls.square B g).1 i := by funext i; ring
  rw [this, mulVec_smul', (hls B g hB).2]
  funext i; ring

/-- **C42**, minimisation form: every dogleg step has non-positive predicted change in the quadratic model (positive definite
`B`, exact linear solver, non-negative step size). -/
theorem C42_predicted_decrease_hessian (heps : 0 ≤ eps) (hB : SPD B) (hls : SolvesSPD ls) (y : ι → ℝ)
    (old : Dogleg.State ι) (s : ℝ) (hs : 0 ≤ s) :
    let D := Dogleg.descent eps ls .twoNorm
    modelChange B g (D.step s (D.query y (.evalGradHessian f g B) old)).1 ≤ 0 := by
  intro D
  obtain ⟨h1, h2, h3, h4, h5, h6⟩ := C42_base_points_hessian eps ls B f g heps y old
  set st := D.query y (.evalGradHessian f g B) old
  have hzero : modelChange B g (fun _ => 0) = 0 := by
    unfold modelChange; simp
  have hnew : modelChange B g st.newton ≤ 0 := by
    have e : st.newton = fun i => (-1) * (ls.square B g).1 i := by
      rw [show st.newton = fun i => -(ls.square B g).1 i from h1]; funext i; ring
    have hq := spd_nonneg hB (ls.square B g).1
    rw [e, modelChange_eq, mulVec_smul', dot_smul, dot_smul, dot_comm _ (B.mulVec _), dot_smul]
    rw [(hls B g hB).2] at hq ⊢
    rw [dot_comm] at hq
    linarith
  have hcau : modelChange B g st.cauchy ≤ 0 := by
    by_cases hc : eps < ∑ i, ∑ j, g i * B i j * g j
    · obtain ⟨τ, hτ, hcau, hτC, hmin⟩ := h6 hc
      have := hmin 0
      simp only [neg_zero, zero_mul] at this
      rw [hzero] at this
      exact this
    · have e1 : st.cauchy = fun _ => 0 := h5 (not_lt.1 hc)
      rw [e1, hzero]
  rcases (C42_dogleg_step_partial eps st s heps hs h3 h2).1 with ⟨u, hu0, hu1, hp⟩ | ⟨u, hu0, hu1, hp⟩
  · have := modelChange_convex B hB g (fun _ => 0) st.cauchy u hu0 hu1
    rw [hzero] at this
    have e : (D.step s st).1 = fun i => 0 + u * (st.cauchy i - 0) := by
      funext i; rw [zero_add, sub_zero]; exact hp i
    rw [e]
    nlinarith
  · have := modelChange_convex B hB g st.cauchy st.newton u hu0 hu1
    have e : (D.step s st).1 = fun i => st.cauchy i + u * (st.newton i - st.cauchy i) := funext hp
    rw [e]
    nlinarith

end

/-- The hypotheses can be met: `B = diag(1, 3)` is positive definite, and exact solvers exist. -/
example : SPD !![(1:ℝ), 0; 0, 3] ∧ ∃ ls : LinSolve (Fin 2) Unit, SolvesSPD ls := by
  refine ⟨?_, _, exact_solver_exists⟩
  rw [spd_iff]
  constructor
  · intro i j; fin_cases i <;> fin_cases j <;> simp
  · rintro x ⟨i, hi⟩
    simp only [treeDot, Matrix.mulVec, dotProduct, Fin.sum_univ_two]
    fin_cases i
    · have : x 0 ≠ 0 := hi
      have := mul_self_pos.2 this
      simp; nlinarith [mul_self_nonneg (x 1)]
    · have : x 1 ≠ 0 := hi
      have := mul_self_pos.2 this
      simp; nlinarith [mul_self_nonneg (x 0)]

end Verif.Props
