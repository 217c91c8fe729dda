import Verif.Spec.StrictMax
import Verif.Props.GradientSpectral
import Verif.Props.TrustMinimise
import Verif.Props.LevenbergMarquardt
import Verif.Props.Dogleg

/-!
Property C141: solvers do not settle at maxima and repelling points.
-/

namespace Verif.Props

open Verif Verif.Spec Verif.Driver Verif.SearchLoop Filter Topology

variable {ι κ A DS HS : Type} [Fintype ι] [Fintype κ]

omit [Fintype ι] [Fintype κ] in
theorem accumulates_of_tendsto {Y : Type} [TopologicalSpace Y] (x : ℕ → Y) (xs : Y) (h : Tendsto x atTop (𝓝 xs)) : Accumulates x xs := by
  intro U hU n
  obtain ⟨k, h1, h2⟩ := ((h.eventually hU).and (eventually_ge_atTop n)).exists
  exact ⟨k, h2, h1⟩

/-- Sequences along which `f` never increases stay above the values of `f` at the points they accumulate at, and accumulate at a strict local
maximum only by being there. -/
theorem descent_sequence {Y : Type} [TopologicalSpace Y] (f : Y → ℝ) (x : ℕ → Y) (hm : ∀ k, f (x (k + 1)) ≤ f (x k)) (xs : Y)
    (hc : ContinuousAt f xs) (ha : Accumulates x xs) : (∀ k, f xs ≤ f (x k)) ∧ (StrictLocalMax f xs → ∃ k, x k = xs) := by
  have hanti : Antitone fun k => f (x k) := antitone_nat_of_succ_le hm
  have h1 : ∀ k, f xs ≤ f (x k) := by
    intro k
    by_contra hk
    push Not at hk
    obtain ⟨j, hj, hjU⟩ := ha _ (hc.eventually (lt_mem_nhds hk)) k
    exact absurd (hanti hj) (not_le.2 hjU)
  refine ⟨h1, fun hs => ?_⟩
  obtain ⟨k, -, hk⟩ := ha _ hs 0
  refine ⟨k, ?_⟩
  by_contra hne
  exact absurd (hk hne) (not_lt.2 (h1 k))

/-- **C141**, minimisers.  For every solver run along which the objective never increases (proved for the gradient and quasi-Newton families with
backtracking by C27 and with trust regions by C109, under the conditions stated there): if the iterates accumulate at a point at which the
objective is continuous, the objective there is not above that at any iterate, and if the point is a strict local maximum, some iterate is equal
to it. -/
theorem C141_never_increases {St Stats : Type} (S : Solver (ι → ℝ) ℝ A St Stats) (fn : (ι → ℝ) → ℝ × A) (aux0 : A) (y0 : ι → ℝ)
    (h : NeverIncreases S fn aux0 y0) (st0 : St) (hi : S.init fn y0 = .ok st0) (xs : ι → ℝ)
    (hc : ContinuousAt (fun y => (fn y).1) xs) (ha : Accumulates (iterateAt S fn aux0 y0 st0) xs) :
    (∀ k, (fn xs).1 ≤ (fn (iterateAt S fn aux0 y0 st0 k)).1) ∧
      (StrictLocalMax (fun y => (fn y).1) xs → ∃ k, iterateAt S fn aux0 y0 st0 k = xs) :=
  descent_sequence (fun y => (fn y).1) _ (fun k => h.1 st0 hi k (k + 1) (Nat.le_succ k)) xs hc ha

/-- **C141**, gradient family with backtracking (`NonlinearCG`, steepest descent with `BacktrackingArmijo`). -/
theorem C141_gradient_family (d s i : ℝ) (a : Armijo.Cfg ℝ) (haa : Armijo.new d s i = .ok a)
    (cfg : GradientDescent.Cfg ι ℝ DS) (hs : cfg.search = Armijo.search a) (aux0 : A) (fn : (ι → ℝ) → ℝ × A) (y0 : ι → ℝ)
    (st0 : GradientDescent.State ι A ℝ DS) (hi : (GradientDescent.solver cfg aux0).init fn y0 = .ok st0) (xs : ι → ℝ)
    (hc : ContinuousAt (fun y => (fn y).1) xs) (ha : Accumulates (iterateAt (GradientDescent.solver cfg aux0) fn aux0 y0 st0) xs) :
    (∀ k, (fn xs).1 ≤ (fn (iterateAt (GradientDescent.solver cfg aux0) fn aux0 y0 st0 k)).1) ∧
      (StrictLocalMax (fun y => (fn y).1) xs → ∃ k, iterateAt (GradientDescent.solver cfg aux0) fn aux0 y0 st0 k = xs) := by
  obtain ⟨rfl, _, _, hpos, _, _⟩ := armijo_new d s i a haa
  have L := gd_laws cfg aux0 fn
  rw [hs] at L
  have hm := monotone_le L (armijo_first _) aux0 y0 st0 hi (fun k => armijo_accept_le _ hpos _ _ _ _ _)
  exact descent_sequence (fun y => (fn y).1) _ (fun k => hm k (k + 1) (Nat.le_succ k)) xs hc ha

/-- **C141**, quasi-Newton family with backtracking (`BFGS`, `DFP`, `LBFGS`). -/
theorem C141_quasi_newton_family (d s i : ℝ) (a : Armijo.Cfg ℝ) (haa : Armijo.new d s i = .ok a)
    (cfg : QuasiNewton.Cfg ι ℝ DS HS) (hs : cfg.search = Armijo.search a) (hr : RecordsPoint cfg.hess) (aux0 : A)
    (fn : (ι → ℝ) → ℝ × A) (y0 : ι → ℝ)
    (st0 : QuasiNewton.State ι A ℝ DS HS) (hi : (QuasiNewton.solver cfg aux0).init fn y0 = .ok st0) (xs : ι → ℝ)
    (hc : ContinuousAt (fun y => (fn y).1) xs) (ha : Accumulates (iterateAt (QuasiNewton.solver cfg aux0) fn aux0 y0 st0) xs) :
    (∀ k, (fn xs).1 ≤ (fn (iterateAt (QuasiNewton.solver cfg aux0) fn aux0 y0 st0 k)).1) ∧
      (StrictLocalMax (fun y => (fn y).1) xs → ∃ k, iterateAt (QuasiNewton.solver cfg aux0) fn aux0 y0 st0 k = xs) := by
  obtain ⟨rfl, _, _, hpos, _, _⟩ := armijo_new d s i a haa
  have L := qn_laws cfg aux0 fn hr
  rw [hs] at L
  have hm := monotone_le L (armijo_first _) aux0 y0 st0 hi (fun k => armijo_accept_le _ hpos _ _ _ _ _)
  exact descent_sequence (fun y => (fn y).1) _ (fun k => hm k (k + 1) (Nat.le_succ k)) xs hc ha

/-- **C141**, least squares with `LevenbergMarquardt`: the same for the sum of squares. -/
theorem C141_levenberg_marquardt [DecidableEq ι] (eps fmax rtol atol : ℝ) (he : 0 ≤ eps) (hf : 0 < fmax)
    (nY : (ι → ℝ) → ℝ) (nF : (κ → ℝ) → ℝ) (ls : LinSolve ι (κ ⊕ ι)) (hls : SolvesLeastSquares ls)
    (jac : (ι → ℝ) → Matrix κ ι ℝ) (aux0 : A) (fn : (ι → ℝ) → (κ → ℝ) × A) (y0 : ι → ℝ) :
    let S := GaussNewton.solver (GaussNewton.levenbergMarquardt eps fmax rtol atol nY nF ls jac) aux0
    ∀ st0, S.init fn y0 = .ok st0 → ∀ xs, ContinuousAt (fun y => ∑ m, (fn y).1 m ^ 2) xs →
      Accumulates (iterateAt S fn aux0 y0 st0) xs →
      (∀ k, ∑ m, (fn xs).1 m ^ 2 ≤ ∑ m, (fn (iterateAt S fn aux0 y0 st0 k)).1 m ^ 2) ∧
        (StrictLocalMax (fun y => ∑ m, (fn y).1 m ^ 2) xs → ∃ k, iterateAt S fn aux0 y0 st0 k = xs) := by
  intro S st0 hi xs hc ha
  exact descent_sequence (fun y => ∑ m, (fn y).1 m ^ 2) _
    (fun k => (C41_levenberg_marquardt eps fmax rtol atol he hf nY nF ls hls jac aux0 fn y0).1 st0 hi k (k + 1) (Nat.le_succ k)) xs hc ha

/-- **C141**, least squares with `Dogleg`. -/
theorem C141_dogleg (eps rtol atol : ℝ) (he : 0 ≤ eps) (nY : (ι → ℝ) → ℝ) (nF : (κ → ℝ) → ℝ) (ls : LinSolve ι κ)
    (hls : SolvesLeastSquares ls) (jac : (ι → ℝ) → Matrix κ ι ℝ) (aux0 : A) (fn : (ι → ℝ) → (κ → ℝ) × A) (y0 : ι → ℝ) :
    let S := GaussNewton.solver (GaussNewton.dogleg eps rtol atol nY nF ls jac) aux0
    ∀ st0, S.init fn y0 = .ok st0 → ∀ xs, ContinuousAt (fun y => ∑ m, (fn y).1 m ^ 2) xs →
      Accumulates (iterateAt S fn aux0 y0 st0) xs →
      (∀ k, ∑ m, (fn xs).1 m ^ 2 ≤ ∑ m, (fn (iterateAt S fn aux0 y0 st0 k)).1 m ^ 2) ∧
        (StrictLocalMax (fun y => ∑ m, (fn y).1 m ^ 2) xs → ∃ k, iterateAt S fn aux0 y0 st0 k = xs) := by
  intro S st0 hi xs hc ha
  exact descent_sequence (fun y => ∑ m, (fn y).1 m ^ 2) _
    (fun k => (C41_dogleg eps rtol atol he nY nF ls hls jac aux0 fn y0).1 st0 hi k (k + 1) (Nat.le_succ k)) xs hc ha

/-- A map that, near a point, never moves closer to it reaches it in the limit only by being there. -/
theorem repelled {Y : Type} [TopologicalSpace Y] (T : Y → Y) (D : Y → ℝ) (xs : Y) (hD0 : ∀ y, D y = 0 → y = xs) (hDn : ∀ y, 0 ≤ D y)
    (hDc : ContinuousAt D xs) (hDs : D xs = 0) (hT : ∀ᶠ y in 𝓝 xs, D y ≤ D (T y)) (y0 : Y)
    (h : Tendsto (fun k => T^[k] y0) atTop (𝓝 xs)) : ∃ k, T^[k] y0 = xs := by
  obtain ⟨n, hn⟩ := eventually_atTop.1 (h.eventually hT)
  have hmono : ∀ j, D (T^[n] y0) ≤ D (T^[n + j] y0) := by
    intro j
    induction j with
    | zero => exact le_rfl
    | succ j ih =>
      refine ih.trans ?_
      rw [← add_assoc, Function.iterate_succ_apply']
      exact hn (n + j) (Nat.le_add_right n j)
  have h0 : Tendsto (fun j => D (T^[n + j] y0)) atTop (𝓝 0) := by
    rw [← hDs]
    have := (hDc.tendsto.comp h)
    exact this.comp (tendsto_add_atTop_nat n |>.congr fun j => by rw [add_comm])
  exact ⟨n, hD0 _ (le_antisymm (ge_of_tendsto' h0 hmono) (hDn _))⟩

section
variable (rate rtol atol : ℝ) (nY : (ι → ℝ) → ℝ) (nF : (Unit → ℝ) → ℝ) (grad : (ι → ℝ) → (ι → ℝ)) (aux0 : A)
  (fn : (ι → ℝ) → ℝ × A)

/-- **C141**, `GradientDescent` with any positive learning rate.  If near `xs` the gradient points towards `xs` (as it does near a local maximum
around which the objective is concave), then the iterates converge to `xs` only if one of them is equal to it. -/
theorem C141_gradient_descent (hr : 0 < rate) (xs : ι → ℝ) (hg : ∀ᶠ y in 𝓝 xs, ∑ i, grad y i * (y i - xs i) ≤ 0) (y0 : ι → ℝ) (st0)
    (hi : (gdSolver rate rtol atol nY nF grad aux0).init fn y0 = .ok st0)
    (h : Tendsto (iterateAt (gdSolver rate rtol atol nY nF grad aux0) fn aux0 y0 st0) atTop (𝓝 xs)) :
    ∃ k, iterateAt (gdSolver rate rtol atol nY nF grad aux0) fn aux0 y0 st0 k = xs := by
  have hst : ∀ k, iterateAt (gdSolver rate rtol atol nY nF grad aux0) fn aux0 y0 st0 (k + 1) = (gdMap rate grad)^[k] y0 := fun k =>
    (gd_state rate rtol atol nY nF grad aux0 fn y0 st0 hi k).1
  obtain ⟨k, hk⟩ := repelled (gdMap rate grad) (fun y => ∑ i, (y i - xs i) ^ 2) xs
    (fun y hy => by
      funext i
      have := (Finset.sum_eq_zero_iff_of_nonneg fun i _ => sq_nonneg (y i - xs i)).1 hy i (Finset.mem_univ i)
      linarith [pow_eq_zero_iff (two_ne_zero) |>.1 this])
    (fun y => Finset.sum_nonneg fun i _ => sq_nonneg _)
    (Continuous.continuousAt (continuous_finset_sum _ fun i _ => by fun_prop)) (by simp)
    (hg.mono fun y hy => by
      have e : ∀ i, (gdMap rate grad y i - xs i) ^ 2 = (y i - xs i) ^ 2 + (rate ^ 2 * grad y i ^ 2 - 2 * rate * (grad y i * (y i - xs i))) := by
        intro i; simp only [gdMap]; ring
      have hs : 0 ≤ ∑ i, grad y i ^ 2 := Finset.sum_nonneg fun i _ => sq_nonneg _
      simp only [e, Finset.sum_add_distrib, Finset.sum_sub_distrib, ← Finset.mul_sum]
      nlinarith [mul_nonneg (sq_nonneg rate) hs, mul_nonneg hr.le (neg_nonneg.2 hy)])
    y0 (((tendsto_add_atTop_iff_nat 1).2 h).congr hst)
  exact ⟨k + 1, by rw [hst, hk]⟩

/-- **C141**, saddles of quadratic objectives.  If `H` is symmetric with an eigenvector `v` of an eigenvalue that is negative or exceeds
`2 / learning_rate`, then from every starting point with a component along `v` the iterates of `GradientDescent` run away along `v`. -/
theorem C141_saddle (hr : 0 < rate) (H : Matrix ι ι ℝ) (hH : ∀ i j, H i j = H j i) (xs : ι → ℝ)
    (hgrad : ∀ y i, grad y i = H.mulVec (y - xs) i) (v : ι → ℝ) (l : ℝ) (hv : H.mulVec v = l • v) (hl : l < 0 ∨ 2 / rate < l)
    (y0 : ι → ℝ) (hy0 : ∑ i, v i * (y0 i - xs i) ≠ 0) (st0)
    (hi : (gdSolver rate rtol atol nY nF grad aux0).init fn y0 = .ok st0) :
    Tendsto (fun k => |∑ i, v i * (iterateAt (gdSolver rate rtol atol nY nF grad aux0) fn aux0 y0 st0 k i - xs i)|) atTop atTop := by
  have hst : ∀ k, iterateAt (gdSolver rate rtol atol nY nF grad aux0) fn aux0 y0 st0 (k + 1) = (gdMap rate grad)^[k] y0 := fun k =>
    (gd_state rate rtol atol nY nF grad aux0 fn y0 st0 hi k).1
  have hHs : ∀ u : ι → ℝ, ∑ i, v i * H.mulVec u i = l * ∑ i, v i * u i := by
    intro u
    have h1 : ∑ i, v i * H.mulVec u i = ∑ j, H.mulVec v j * u j := by
      simp only [Matrix.mulVec, dotProduct, Finset.mul_sum, Finset.sum_mul]
      rw [Finset.sum_comm]
      exact Finset.sum_congr rfl fun j _ => Finset.sum_congr rfl fun i _ => by rw [hH i j]; ring
    rw [h1, hv, Finset.mul_sum]
    exact Finset.sum_congr rfl fun i _ => by simp; ring
  have hpow : ∀ k, ∑ i, v i * ((gdMap rate grad)^[k] y0 i - xs i) = (1 - rate * l) ^ k * ∑ i, v i * (y0 i - xs i) := by
    intro k
    induction k with
    | zero => simp
    | succ k ih =>
      rw [pow_succ', mul_assoc, ← ih, Function.iterate_succ_apply']
      set u := (gdMap rate grad)^[k] y0
      have e : ∀ i, v i * (gdMap rate grad u i - xs i) = v i * (u i - xs i) - rate * (v i * H.mulVec (u - xs) i) := by
        intro i; simp only [gdMap, hgrad]; ring
      rw [Finset.sum_congr rfl fun i _ => e i, Finset.sum_sub_distrib, ← Finset.mul_sum, hHs]
      simp only [Pi.sub_apply]
      ring
  have h1 : 1 < |1 - rate * l| := by
    rcases hl with hl | hl
    · have := mul_pos hr (neg_pos.2 hl)
      exact lt_of_lt_of_le (by linarith) (le_abs_self _)
    · rw [div_lt_iff₀ hr] at hl
      exact lt_of_lt_of_le (by linarith) (neg_le_abs _)
  rw [← tendsto_add_atTop_iff_nat 1]
  refine ((tendsto_pow_atTop_atTop_of_one_lt h1).atTop_mul_const (abs_pos.2 hy0)).congr fun k => ?_
  rw [hst, hpow, abs_mul, abs_pow]

end

/-- **C141**, `FixedPointIteration`.  If near `xs` the damped function does not bring points closer to `xs`, the iterates converge to `xs` only if
one of them is equal to it. -/
theorem C141_fixed_point (cfg : FixedPointIter.Cfg ι ℝ) (fn : (ι → ℝ) → (ι → ℝ) × A) (aux0 : A) (xs : ι → ℝ)
    (hT : ∀ᶠ y in 𝓝 xs, ‖y - xs‖ ≤ ‖(1 - cfg.damp) • ((fn y).1 - xs) + cfg.damp • (y - xs)‖) (y0 : ι → ℝ)
    (h : Tendsto (iterateAt (FixedPointIter.solver cfg) fn aux0 y0 none) atTop (𝓝 xs)) :
    ∃ k, iterateAt (FixedPointIter.solver cfg) fn aux0 y0 none k = xs := by
  obtain ⟨k, hk⟩ := repelled (dampedMap cfg.damp fun z => (fn z).1) (fun y => ‖y - xs‖) xs (fun y hy => sub_eq_zero.1 (norm_eq_zero.1 hy))
    (fun y => norm_nonneg _) (by fun_prop) (by simp)
    (hT.mono fun y hy => by
      refine hy.trans (le_of_eq (congrArg _ ?_))
      funext i
      simp only [dampedMap, Pi.add_apply, Pi.smul_apply, Pi.sub_apply, smul_eq_mul]
      ring) y0 (h.congr fun k => fp_iterate_eq cfg fn aux0 y0 k)
  exact ⟨k, by rw [fp_iterate_eq, hk]⟩

/-- Strict local maxima: `-y²` has one at `0`, `y³` has none. -/
example : StrictLocalMax (fun y : Fin 1 → ℝ => -(y 0) ^ 2) 0 ∧ ¬ StrictLocalMax (fun y : ℝ => y ^ 3) 0 := by
  constructor
  · refine Eventually.of_forall fun y hy => ?_
    have : y 0 ≠ 0 := fun h => hy (by funext i; fin_cases i; exact h)
    have := sq_pos_of_ne_zero this
    simpa using this
  · intro h
    obtain ⟨ε, hε, h⟩ := Metric.eventually_nhds_iff.1 h
    have h1 := h (y := ε / 2) (by rw [Real.dist_eq, sub_zero, abs_of_pos (by positivity)]; linarith) (by positivity)
    have : 0 < (ε / 2) ^ 3 := by positivity
    norm_num at h1
    linarith

/-- The hypotheses on sequences hold for `(1/2)^k` and `y²`, which accumulate at `0` without being there. -/
example : (∀ k, (0 : ℝ) ^ 2 ≤ ((1 / 2 : ℝ) ^ k) ^ 2) ∧ (StrictLocalMax (fun y : ℝ => y ^ 2) 0 → ∃ k : ℕ, (1 / 2 : ℝ) ^ k = 0) :=
  descent_sequence (fun y : ℝ => y ^ 2) (fun k => (1 / 2 : ℝ) ^ k)
    (fun k => pow_le_pow_left₀ (by positivity) (pow_le_pow_of_le_one (by norm_num) (by norm_num) (Nat.le_succ k)) 2) 0
    (by fun_prop) (accumulates_of_tendsto _ _ (tendsto_pow_atTop_nhds_zero_of_lt_one (by norm_num) (by norm_num)))

/-- `GradientDescent` on `cos`: maximum at `0`, rate `1`, from `1/2`.  The gradient `-sin` points towards `0` nearby. -/
example : ∀ᶠ y in 𝓝 (0 : Fin 1 → ℝ), ∑ i, (fun (y : Fin 1 → ℝ) i => -Real.sin (y i)) y i * (y i - (0 : Fin 1 → ℝ) i) ≤ 0 := by
  refine Metric.eventually_nhds_iff.2 ⟨1, one_pos, fun y hy => ?_⟩
  have h0 : |y 0| < 1 := by
    have := (norm_le_pi_norm y 0).trans_lt (by simpa [dist_eq_norm] using hy)
    simpa using this
  simp only [Finset.univ_unique, Fin.default_eq_zero, Finset.sum_singleton, Pi.zero_apply, sub_zero]
  obtain ⟨h1, h2⟩ := abs_lt.1 h0
  have hpi := Real.two_le_pi
  rcases le_total 0 (y 0) with h | h
  · nlinarith [Real.sin_nonneg_of_nonneg_of_le_pi h (by linarith)]
  · nlinarith [Real.sin_nonpos_of_nonpos_of_neg_pi_le h (by linarith)]

/-- The saddle `x² - y²` with learning rate `1/10`: from every point off the `x`-axis, `GradientDescent` runs away. -/
example (y0 : Fin 2 → ℝ) (hy0 : y0 1 ≠ 0) (st0)
    (hi : (gdSolver (1/10) 0 (1/10) maxNorm maxNorm (fun (y : Fin 2 → ℝ) => ![2 * y 0, -2 * y 1]) ()).init
      (fun y => (y 0 ^ 2 - y 1 ^ 2, ())) y0 = .ok st0) :
    Tendsto (fun k => |∑ i, ![0, 1] i * (iterateAt (gdSolver (1/10) 0 (1/10) maxNorm maxNorm
      (fun (y : Fin 2 → ℝ) => ![2 * y 0, -2 * y 1]) ()) (fun y => (y 0 ^ 2 - y 1 ^ 2, ())) () y0 st0 k i - (0 : Fin 2 → ℝ) i)|) atTop atTop :=
  C141_saddle (1/10) 0 (1/10) maxNorm maxNorm (fun (y : Fin 2 → ℝ) => ![2 * y 0, -2 * y 1]) () _ (by norm_num) !![2, 0; 0, -2]
    (by intro i j; fin_cases i <;> fin_cases j <;> rfl) 0
    (by intro y i; fin_cases i <;> simp [Matrix.mulVec, dotProduct, Fin.sum_univ_two]) ![0, 1] (-2)
    (by funext i; fin_cases i <;> simp [Matrix.mulVec, dotProduct, Fin.sum_univ_two]) (Or.inl (by norm_num)) y0
    (by simpa [Fin.sum_univ_two] using hy0) st0 hi

/-- `FixedPointIteration` on `y ↦ 3 y` damped by `1/2` is repelled by `0`. -/
example (y : Fin 1 → ℝ) : ‖y - 0‖ ≤ ‖(1 - (1/2 : ℝ)) • ((3 : ℝ) • y - 0) + (1/2 : ℝ) • (y - 0)‖ := by
  have e : (1 - (1/2 : ℝ)) • ((3 : ℝ) • y - 0) + (1/2 : ℝ) • (y - 0) = (2 : ℝ) • y := by
    funext i; simp; ring
  rw [e, norm_smul, sub_zero]
  norm_num
  linarith [norm_nonneg y]

end Verif.Props
