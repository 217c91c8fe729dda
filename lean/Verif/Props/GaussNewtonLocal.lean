import Verif.Props.GaussNewton
import Verif.Props.GlobalConvergence
import Verif.Lemmas.Euclid
import Verif.Lemmas.SpdBounds
import Mathlib.Analysis.Calculus.FDeriv.Basic
import Mathlib.Analysis.SpecificLimits.Basic

/-! Property C77: local convergence of `GaussNewton`. -/

namespace Verif.Props

open Verif Verif.Spec Verif.Driver Verif.Rank Filter Topology

variable {ι κ A : Type} [Fintype ι] [Fintype κ]

/-- The setting.  `F` is the residual function, `jac` its Jacobian, `r` a stationary point of `½|F|²` at which the Jacobian has
full column rank, with smallest squared singular value (at least) `σ`; and `q` bounds how fast `jacᵀ F(r)` varies near `r` (for
twice differentiable `F`, any `q` larger than the norm of `∑ F_m(r) ∇²F_m(r)` will do; if the residuals vanish at `r`, `q = 0`). -/
structure LocalFit (F : (ι → ℝ) → κ → ℝ) (jac : (ι → ℝ) → Matrix κ ι ℝ) (r : ι → ℝ) (σ q : ℝ) : Prop where
  deriv : ∃ D : (ι → ℝ) →L[ℝ] (κ → ℝ), (∀ v, D v = (jac r).mulVec v) ∧ HasFDerivAt F D r
  cont : ∀ m i, ContinuousAt (fun y => jac y m i) r
  stationary : ∀ i, ∑ m, jac r m i * F r m = 0
  rank : ∀ v : ι → ℝ, σ * ∑ i, v i ^ 2 ≤ ∑ m, ((jac r).mulVec v m) ^ 2
  curvature : ∀ᶠ y in 𝓝 r, ∀ v : ι → ℝ, |∑ m, ((jac y).mulVec v m - (jac r).mulVec v m) * F r m| ≤
    q * euclid v * euclid fun i => y i - r i

theorem gn_scalar (σ q c B ε X E Jx Jr : ℝ) (hX : 0 ≤ X) (hE : 0 ≤ E) (hB : 0 ≤ B) (hε : 0 ≤ ε) (hε1 : ε ≤ 1) (hc : 0 < c)
    (hJx : 0 ≤ Jx) (hJr0 : 0 ≤ Jr) (hup : Jx ≤ (B + 1) * X) (hlow : σ * X ^ 2 ≤ Jr ^ 2) (hJr : Jr ≤ Jx + ε * X)
    (hmain : Jx ^ 2 ≤ Jx * (ε * E) + q * X * E) (hsmall : ε * ((B + 1) + c * (2 * (B + 1) + 1)) ≤ c * σ - q)
    (hpos : ε * (2 * (B + 1) + 1) < σ) :
    X ≤ c * E := by
  rcases hX.eq_or_lt with h | hX
  · rw [← h]; positivity
  have h1 : σ * X ^ 2 ≤ Jx ^ 2 + ε * (2 * (B + 1) + 1) * X ^ 2 := by
    have a1 : Jr ^ 2 ≤ (Jx + ε * X) ^ 2 := pow_le_pow_left₀ hJr0 hJr 2
    have a2 : ε * X * Jx ≤ ε * X * ((B + 1) * X) := mul_le_mul_of_nonneg_left hup (by positivity)
    have a3 : ε * ε * X ^ 2 ≤ ε * 1 * X ^ 2 := by gcongr
    nlinarith
  have h2 : Jx * (ε * E) ≤ (B + 1) * X * (ε * E) := mul_le_mul_of_nonneg_right hup (by positivity)
  have h3 : (σ - ε * (2 * (B + 1) + 1)) * X ≤ ((B + 1) * ε + q) * E := by
    have : X * ((σ - ε * (2 * (B + 1) + 1)) * X) ≤ X * (((B + 1) * ε + q) * E) := by nlinarith
    exact le_of_mul_le_mul_left this hX
  have h4 : ((B + 1) * ε + q) ≤ c * (σ - ε * (2 * (B + 1) + 1)) := by linarith
  have h5 : ((B + 1) * ε + q) * E ≤ c * (σ - ε * (2 * (B + 1) + 1)) * E := mul_le_mul_of_nonneg_right h4 hE
  have : (σ - ε * (2 * (B + 1) + 1)) * X ≤ (σ - ε * (2 * (B + 1) + 1)) * (c * E) := by linarith
  exact le_of_mul_le_mul_left this (by linarith)

/-- The heart of the matter: close to `r` the Jacobian has full column rank, and subtracting a least-squares solution reduces
the error by any factor larger than `q / σ`. -/
theorem gauss_newton_contracts {F : (ι → ℝ) → κ → ℝ} {jac : (ι → ℝ) → Matrix κ ι ℝ} {r : ι → ℝ} {σ q : ℝ}
    (h : LocalFit F jac r σ q) (hσ : 0 < σ) (c : ℝ) (hc : 0 < c) (hcq : q < c * σ) :
    ∃ δ > 0, ∀ y : ι → ℝ, euclid (fun i => y i - r i) ≤ δ → (∀ v, (jac y).mulVec v = 0 → v = 0) ∧
      ∀ d, IsLeastSquares (jac y) (F y) d → euclid (fun i => y i - d i - r i) ≤ c * euclid fun i => y i - r i := by
  obtain ⟨D, hD, hder⟩ := h.deriv
  obtain ⟨B, hB, hJB⟩ := euclid_mulVec_bounded (jac r)
  -- the size of the perturbations we can afford
  set ε : ℝ := min 1 (min ((c * σ - q) / ((B + 1) + c * (2 * (B + 1) + 1))) (σ / (2 * (2 * (B + 1) + 1)))) with hε
  have hg : 0 < c * σ - q := by linarith
  have hε0 : 0 < ε := by positivity
  have hε1 : ε ≤ 1 := min_le_left _ _
  have hε2 : ε * ((B + 1) + c * (2 * (B + 1) + 1)) ≤ c * σ - q := by
    have : ε ≤ (c * σ - q) / ((B + 1) + c * (2 * (B + 1) + 1)) := (min_le_right _ _).trans (min_le_left _ _)
    rwa [le_div_iff₀ (by positivity)] at this
  have hε3 : ε * (2 * (B + 1) + 1) < σ := by
    have : ε ≤ σ / (2 * (2 * (B + 1) + 1)) := (min_le_right _ _).trans (min_le_right _ _)
    rw [le_div_iff₀ (by positivity)] at this
    nlinarith
  set nι : ℝ := (Fintype.card ι : ℝ) with hnι
  set nκ : ℝ := (Fintype.card κ : ℝ) with hnκ
  have hnι0 : 0 ≤ nι := Nat.cast_nonneg _
  have hnκ0 : 0 ≤ nκ := Nat.cast_nonneg _
  -- differentiability
  set ε1 : ℝ := ε / (2 * (nκ + 1)) with hε1d
  have hε10 : 0 < ε1 := by positivity
  have e1 : ∀ᶠ y in 𝓝 r, ‖F y - F r - D (y - r)‖ ≤ ε1 * ‖y - r‖ := hder.isLittleO.def hε10
  -- continuity of the Jacobian
  set ε2 : ℝ := ε / (2 * ((nκ + 1) * (nι + 1))) with hε2d
  have hε20 : 0 < ε2 := by positivity
  have e2 : ∀ᶠ y in 𝓝 r, ∀ m i, |jac y m i - jac r m i| ≤ ε2 := by
    refine eventually_all.2 fun m => eventually_all.2 fun i => ?_
    have := (h.cont m i) (Metric.closedBall_mem_nhds _ hε20)
    filter_upwards [this] with y hy
    simpa [Real.dist_eq] using hy
  obtain ⟨δ, hδ, hball⟩ := Metric.eventually_nhds_iff.1 (e1.and (e2.and h.curvature))
  refine ⟨δ / 2, by positivity, fun y hy => ?_⟩
  have hdist : dist y r < δ := by
    rw [dist_eq_norm]
    refine lt_of_le_of_lt ?_ (by linarith : δ / 2 < δ)
    exact (pi_norm_le_iff_of_nonneg (by positivity)).2 fun i => (abs_le_euclid (fun i => y i - r i) i).trans hy
  obtain ⟨a1, a2, a3⟩ := hball hdist
  have hnorm : ‖y - r‖ ≤ euclid fun i => y i - r i :=
    (pi_norm_le_iff_of_nonneg (euclid_nonneg _)).2 fun i => abs_le_euclid (fun i => y i - r i) i
  have hpert : ∀ v, euclid (fun m => (jac y).mulVec v m - (jac r).mulVec v m) ≤ ε / 2 * euclid v := by
    intro v
    have e : (fun m => (jac y).mulVec v m - (jac r).mulVec v m) = (jac y - jac r).mulVec v := by
      rw [Matrix.sub_mulVec]; rfl
    rw [e]
    refine (euclid_mulVec_le (jac y - jac r) ε2 hε20.le (fun m i => by simpa using a2 m i) v).trans ?_
    refine mul_le_mul_of_nonneg_right ?_ (euclid_nonneg _)
    have : (nκ + 1) * (nι + 1) * ε2 = ε / 2 := by rw [hε2d]; field_simp
    rw [← this]
    refine mul_le_mul_of_nonneg_right ?_ hε20.le
    exact mul_le_mul_of_nonneg_left (by linarith) (by positivity)
  have hup : ∀ v, euclid ((jac y).mulVec v) ≤ (B + 1) * euclid v := by
    intro v
    have h1 := euclid_add (fun m => (jac y).mulVec v m - (jac r).mulVec v m) ((jac r).mulVec v)
    simp only [sub_add_cancel] at h1
    have h2 := hpert v
    have h3 := hJB v
    have := euclid_nonneg v
    nlinarith
  have hlow : ∀ v, euclid ((jac r).mulVec v) ≤ euclid ((jac y).mulVec v) + ε * euclid v := by
    intro v
    have h1 := euclid_sub ((jac y).mulVec v) (fun m => (jac y).mulVec v m - (jac r).mulVec v m)
    simp only [sub_sub_cancel] at h1
    have h2 := hpert v
    have := euclid_nonneg v
    nlinarith
  have hrank : ∀ v, σ * euclid v ^ 2 ≤ euclid ((jac r).mulVec v) ^ 2 := by
    intro v; rw [euclid_sq, euclid_sq]; exact h.rank v
  refine ⟨fun v hv => ?_, fun d hd => ?_⟩
  · -- full column rank
    have h1 := gn_scalar σ q c B ε (euclid v) 0 (euclid ((jac y).mulVec v)) (euclid ((jac r).mulVec v)) (euclid_nonneg _)
      le_rfl hB hε0.le hε1 hc (euclid_nonneg _) (euclid_nonneg _) (hup v) (hrank v) (hlow v)
      (by rw [hv]; simp [euclid]) hε2 hε3
    rw [mul_zero] at h1
    funext i
    have := (abs_le_euclid v i).trans h1
    simpa using this
  · set e : ι → ℝ := fun i => y i - r i with he
    set x : ι → ℝ := fun i => y i - d i - r i with hx
    have hxe : ∀ m, (jac y).mulVec x m = (jac y).mulVec e m - (jac y).mulVec d m := by
      intro m
      have : x = e - d := by funext i; simp only [hx, he, Pi.sub_apply]; ring
      rw [this, Matrix.mulVec_sub]; rfl
    -- the error of the linearisation
    have hlin : euclid (fun m => (jac y).mulVec e m - (F y m - F r m)) ≤ ε * euclid e := by
      have h1 : euclid (fun m => F y m - F r m - (jac r).mulVec e m) ≤ ε / 2 * euclid e := by
        have hb : ∀ m, |F y m - F r m - (jac r).mulVec e m| ≤ ε1 * euclid e := by
          intro m
          have := norm_le_pi_norm (F y - F r - D (y - r)) m
          rw [hD] at this
          exact (this.trans (by rw [← hD]; exact a1)).trans (mul_le_mul_of_nonneg_left hnorm hε10.le)
        refine (euclid_le _ _ (mul_nonneg hε10.le (euclid_nonneg _)) hb).trans (le_of_eq ?_)
        rw [hε1d, hnκ]; field_simp
      have h2 := hpert e
      have h3 := euclid_sub (fun m => (jac y).mulVec e m - (jac r).mulVec e m) (fun m => F y m - F r m - (jac r).mulVec e m)
      have e3 : (fun m => (jac y).mulVec e m - (jac r).mulVec e m - (F y m - F r m - (jac r).mulVec e m)) =
          fun m => (jac y).mulVec e m - (F y m - F r m) := by funext m; ring
      rw [e3] at h3
      linarith
    -- the normal equations
    have hswap : ∀ (M : Matrix κ ι ℝ) (v : ι → ℝ) (w : κ → ℝ), ∑ m, M.mulVec v m * w m = ∑ i, v i * ∑ m, M m i * w m := by
      intro M v w
      simp only [Matrix.mulVec, dotProduct, Finset.sum_mul, Finset.mul_sum]
      rw [Finset.sum_comm]
      exact Finset.sum_congr rfl fun i _ => Finset.sum_congr rfl fun m _ => by ring
    have hne : ∑ m, (jac y).mulVec x m * ((jac y).mulVec d m - F y m) = 0 := by
      rw [hswap]
      exact Finset.sum_eq_zero fun i _ => by rw [normal_equations _ _ _ hd i, mul_zero]
    have hst : ∑ m, (jac r).mulVec x m * F r m = 0 := by
      rw [hswap]
      exact Finset.sum_eq_zero fun i _ => by rw [h.stationary i, mul_zero]
    have hmain : euclid ((jac y).mulVec x) ^ 2 ≤ euclid ((jac y).mulVec x) * (ε * euclid e) + q * euclid x * euclid e := by
      have id1 : euclid ((jac y).mulVec x) ^ 2 =
          ∑ m, (jac y).mulVec x m * ((jac y).mulVec e m - (F y m - F r m)) -
            ∑ m, ((jac y).mulVec x m - (jac r).mulVec x m) * F r m := by
        have : ∑ m, (jac y).mulVec x m ^ 2 = ∑ m, ((jac y).mulVec x m * ((jac y).mulVec e m - (F y m - F r m)) -
            ((jac y).mulVec x m - (jac r).mulVec x m) * F r m - (jac r).mulVec x m * F r m -
            (jac y).mulVec x m * ((jac y).mulVec d m - F y m)) := by
          refine Finset.sum_congr rfl fun m _ => ?_
          rw [hxe]; ring
        rw [euclid_sq, this, Finset.sum_sub_distrib, Finset.sum_sub_distrib, Finset.sum_sub_distrib, hne, hst]
        ring
      have h1 := euclid_dot ((jac y).mulVec x) (fun m => (jac y).mulVec e m - (F y m - F r m))
      have h2 := mul_le_mul_of_nonneg_left hlin (euclid_nonneg ((jac y).mulVec x))
      have h3 := (abs_le.1 (a3 x)).1
      rw [id1]
      linarith
    exact gn_scalar σ q c B ε (euclid x) (euclid e) (euclid ((jac y).mulVec x)) (euclid ((jac r).mulVec x)) (euclid_nonneg _)
      (euclid_nonneg _) hB hε0.le hε1 hc (euclid_nonneg _) (euclid_nonneg _) (hup x) (hrank x) (hlow x) hmain hε2 hε3

/-- The linear solver solves the least-squares problems of full column rank, and says so. -/
def SolvesFullRank (ls : LinSolve ι κ) : Prop :=
  ∀ M : Matrix κ ι ℝ, (∀ v, M.mulVec v = 0 → v = 0) → ∀ b, IsLeastSquares M b (ls.rect M b).1 ∧ (ls.rect M b).2 = .successful

theorem full_rank_solver_exists : ∃ ls : LinSolve ι κ, SolvesFullRank ls := by
  classical
  exact ⟨⟨fun M v => (Classical.choose (least_squares_exists M v), .successful), fun _ g => (g, .successful)⟩,
    fun M _ v => ⟨Classical.choose_spec (least_squares_exists M v), rfl⟩⟩

/-- **C77.** `least_squares` with `GaussNewton` converges from every starting point close enough to a stationary point `r` of full
column rank whose residuals are not too curved for their size (`q < σ`): given any factor `c` with `q / σ < c < 1` there is a
neighbourhood from which every step reduces the distance to `r` by the factor `c`, and the solve reports success, with any
budget from some number of steps on or none. -/
theorem C77_local_convergence (rtol atol : ℝ) (hr : 0 ≤ rtol) (ha : 0 < atol) (nY : (ι → ℝ) → ℝ) (nF : (κ → ℝ) → ℝ)
    (hY : GoodNorm nY) (hF : GoodNorm nF) (ls : LinSolve ι κ) (hls : SolvesFullRank ls) (jac : (ι → ℝ) → Matrix κ ι ℝ)
    (fn : (ι → ℝ) → (κ → ℝ) × A) (aux0 : A) (r : ι → ℝ) (σ q : ℝ) (h : LocalFit (fun y => (fn y).1) jac r σ q) (hσ : 0 < σ)
    (c : ℝ) (hc : 0 < c) (hc1 : c < 1) (hcq : q < c * σ) :
    ∃ δ > 0, ∀ y0 : ι → ℝ, euclid (fun i => y0 i - r i) ≤ δ →
      ∃ st0, (gnSolver rtol atol nY nF ls jac aux0).init fn y0 = .ok st0 ∧
      let Y := iterateAt (gnSolver rtol atol nY nF ls jac aux0) fn aux0 y0 st0
      Y 1 = y0 ∧ (∀ k, euclid (fun i => Y (k + 2) i - r i) ≤ c * euclid fun i => Y (k + 1) i - r i) ∧
      Tendsto Y atTop (𝓝 r) ∧
      ∃ n, ∀ ms throw, (∀ m, ms = some m → n ≤ m) →
        ∃ sol, iterativeSolve (gnSolver rtol atol nY nF ls jac aux0) (fun _ => true) fn aux0 y0 ms throw = some (.ok sol) ∧
          sol.result = .successful ∧ sol.numSteps ≤ n ∧
          euclid (fun i => sol.value i - r i) ≤ euclid fun i => y0 i - r i := by
  obtain ⟨δ, hδ, hcon⟩ := gauss_newton_contracts h hσ c hc hcq
  refine ⟨δ, hδ, fun y0 hy0 => ?_⟩
  set S := gnSolver rtol atol nY nF ls jac aux0 with hS
  obtain ⟨st0, hi⟩ : ∃ st0, S.init fn y0 = .ok st0 := ⟨_, rfl⟩
  refine ⟨st0, hi, ?_⟩
  have hgs := gn_state rtol atol nY nF ls jac aux0 fn y0 st0 hi
  obtain ⟨hY0, hY1, hrec⟩ := C43_recursion rtol atol nY nF ls jac aux0 fn y0 st0 hi
  intro Y
  have one : ∀ k, euclid (fun i => Y (k + 1) i - r i) ≤ δ →
      (ls.rect (jac (Y (k + 1))) (fn (Y (k + 1))).1).2 = .successful ∧
      euclid (fun i => Y (k + 2) i - r i) ≤ c * euclid fun i => Y (k + 1) i - r i := by
    intro k hk
    obtain ⟨hfull, hd⟩ := hcon _ hk
    obtain ⟨h1, h2⟩ := hls _ hfull (fn (Y (k + 1))).1
    refine ⟨h2, ?_⟩
    have := hd _ h1
    have e : (fun i => Y (k + 2) i - r i) =
        fun i => Y (k + 1) i - (ls.rect (jac (Y (k + 1))) (fn (Y (k + 1))).1).1 i - r i := by
      funext i; exact congrArg (fun t => t - r i) (hrec k i)
    rw [e]; exact this
  have hle : ∀ k, euclid (fun i => Y (k + 1) i - r i) ≤ c ^ k * euclid (fun i => y0 i - r i) := by
    intro k
    induction k with
    | zero => rw [pow_zero, one_mul]; exact le_of_eq (congrArg (fun z : ι → ℝ => euclid fun i => z i - r i) hY1)
    | succ k ih =>
      have hk : euclid (fun i => Y (k + 1) i - r i) ≤ δ :=
        ih.trans ((mul_le_of_le_one_left (euclid_nonneg _) (pow_le_one₀ hc.le hc1.le)).trans hy0)
      refine (one k hk).2.trans ?_
      rw [pow_succ']
      calc c * euclid (fun i => Y (k + 1) i - r i) ≤ c * (c ^ k * euclid fun i => y0 i - r i) :=
            mul_le_mul_of_nonneg_left ih hc.le
        _ = _ := by ring
  have hδk : ∀ k, euclid (fun i => Y (k + 1) i - r i) ≤ δ := fun k =>
    (hle k).trans ((mul_le_of_le_one_left (euclid_nonneg _) (pow_le_one₀ hc.le hc1.le)).trans hy0)
  have hmono : ∀ k, euclid (fun i => Y k i - r i) ≤ euclid fun i => y0 i - r i := by
    intro k
    cases k with
    | zero => exact le_of_eq rfl
    | succ k => exact (hle k).trans (mul_le_of_le_one_left (euclid_nonneg _) (pow_le_one₀ hc.le hc1.le))
  have hlim : Tendsto Y atTop (𝓝 r) := by
    rw [← tendsto_add_atTop_iff_nat 1, tendsto_pi_nhds]
    intro i
    rw [tendsto_iff_norm_sub_tendsto_zero]
    refine squeeze_zero (fun _ => norm_nonneg _) (fun k => (abs_le_euclid (fun i => Y (k + 1) i - r i) i).trans (hle k)) ?_
    have := (tendsto_pow_atTop_nhds_zero_of_lt_one hc.le hc1).mul_const (euclid fun i => y0 i - r i)
    rwa [zero_mul] at this
  refine ⟨hY1, fun k => (one k (hδk k)).2, hlim, ?_⟩
  -- success
  obtain ⟨η, hη, hηY, hηF⟩ := small_enough hY hF atol ha
  have hcontF : ContinuousAt (fun y => (fn y).1) r := by
    obtain ⟨D, _, hD⟩ := h.deriv
    exact hD.continuousAt
  have hlimF : Tendsto (fun k => (fn (Y k)).1) atTop (𝓝 (fn r).1) := hcontF.tendsto.comp hlim
  have hYsmall : ∀ᶠ k in atTop, ∀ i, |Y (k + 1) i - Y k i| ≤ η := by
    refine eventually_all.2 fun i => ?_
    have h1 := ((tendsto_pi_nhds.1 ((tendsto_add_atTop_iff_nat 1).2 hlim)) i).sub ((tendsto_pi_nhds.1 hlim) i)
    rw [sub_self] at h1
    filter_upwards [h1 (Metric.closedBall_mem_nhds _ hη)] with k hk
    simpa [Real.dist_eq] using hk
  have hFsmall : ∀ᶠ k in atTop, ∀ m, |(fn (Y (k + 1))).1 m - (fn (Y k)).1 m| ≤ η := by
    refine eventually_all.2 fun m => ?_
    have h1 := ((tendsto_pi_nhds.1 ((tendsto_add_atTop_iff_nat 1).2 hlimF)) m).sub ((tendsto_pi_nhds.1 hlimF) m)
    rw [sub_self] at h1
    filter_upwards [h1 (Metric.closedBall_mem_nhds _ hη)] with k hk
    simpa [Real.dist_eq] using hk
  obtain ⟨k0, hk0⟩ := ((hYsmall.and hFsmall).and (eventually_ge_atTop 1)).exists
  obtain ⟨⟨hy1, hf1⟩, hk1⟩ := hk0
  obtain ⟨k, rfl⟩ : ∃ k, k0 = k + 1 := ⟨k0 - 1, by omega⟩
  refine ⟨k + 2, fun ms throw hb => ?_⟩
  obtain ⟨sol, s1, s2, s3, _⟩ := solve_succeeds_by S (fun _ => true) fn aux0 y0 st0 hi ms throw (k + 2) (fun _ _ => rfl) (by
      intro j _
      show (stateAt S fn aux0 y0 st0 j).result = .successful
      obtain _ | j := j
      · show st0.result = .successful
        cases hi; rfl
      · have := (hgs j).2.2.2
        rw [this, ← (hgs j).1]
        exact (one j (hδk j)).1) (by
      show (stateAt S fn aux0 y0 st0 (k + 2)).terminate = true
      have e1 : (stateAt S fn aux0 y0 st0 (k + 1)).yEval = Y (k + 2) := by rw [(hgs k).2.1]; exact (hgs (k + 1)).1.symm
      have e2 : (stateAt S fn aux0 y0 st0 (k + 1)).residual = (fn (Y (k + 1))).1 := by rw [(hgs k).2.2.1, ← (hgs k).1]
      have hst : (stateAt S fn aux0 y0 st0 (k + 2)).terminate = cauchyTermination rtol atol nY nF
          (stateAt S fn aux0 y0 st0 (k + 1)).yEval
          (fun i => (stateAt S fn aux0 y0 st0 (k + 1)).yEval i - Y (k + 1) i)
          (fn (stateAt S fn aux0 y0 st0 (k + 1)).yEval).1
          (fun m => (fn (stateAt S fn aux0 y0 st0 (k + 1)).yEval).1 m -
            (stateAt S fn aux0 y0 st0 (k + 1)).residual m) := rfl
      rw [hst, e1, e2]
      simp only [cauchyTermination, Bool.and_eq_true, decide_eq_true_eq]
      exact ⟨norm_small hY rtol atol η ha hr _ _ hy1 hηY, norm_small hF rtol atol η ha hr _ _ hf1 hηF⟩) hb
  refine ⟨sol, s1, s2, s3, ?_⟩
  obtain ⟨st1, hi1, _, _, _, _, hpost, _⟩ := solve_spec S (fun _ => true) fn aux0 y0 ms throw sol s1
  rw [hi] at hi1
  cases hi1
  have hval : sol.value = Y sol.numSteps := congrArg Prod.fst hpost
  rw [hval]
  exact hmono _

/-- A matrix of full column rank stretches every direction by at least a fixed factor. -/
theorem full_rank_lower (M : Matrix κ ι ℝ) (h : ∀ v, M.mulVec v = 0 → v = 0) :
    ∃ σ, 0 < σ ∧ ∀ v : ι → ℝ, σ * ∑ i, v i ^ 2 ≤ ∑ m, M.mulVec v m ^ 2 := by
  have hid : ∀ x : ι → ℝ, treeDot x ((M.transpose * M).mulVec x) = ∑ m, M.mulVec x m ^ 2 := by
    intro x
    rw [← Matrix.mulVec_mulVec]
    have h1 : treeDot x (M.transpose.mulVec (M.mulVec x)) = ∑ i, ∑ m, x i * (M m i * M.mulVec x m) :=
      Finset.sum_congr rfl fun i _ => Finset.mul_sum _ _ _
    rw [h1, Finset.sum_comm]
    refine Finset.sum_congr rfl fun m _ => ?_
    have h2 : M.mulVec x m ^ 2 = (∑ i, M m i * x i) * M.mulVec x m := by rw [sq]; rfl
    rw [h2, Finset.sum_mul]
    exact Finset.sum_congr rfl fun i _ => by ring
  have hspd : SPD (M.transpose * M) := by
    refine (spd_iff _).2 ⟨fun i j => ?_, fun x hx => ?_⟩
    · simp only [Matrix.mul_apply, Matrix.transpose_apply]
      exact Finset.sum_congr rfl fun m _ => mul_comm _ _
    · rw [hid]
      refine (Finset.sum_nonneg fun m _ => sq_nonneg _).lt_of_ne fun h0 => ?_
      obtain ⟨i, hi⟩ := hx
      have hz := (Finset.sum_eq_zero_iff_of_nonneg fun m _ => sq_nonneg (M.mulVec x m)).1 h0.symm
      exact hi (congrFun (h x (funext fun m => pow_eq_zero_iff (two_ne_zero) |>.1 (hz m (Finset.mem_univ _)))) i)
  obtain ⟨σ, hσ, hl⟩ := spd_lower hspd
  exact ⟨σ, hσ, fun v => by rw [← hid]; exact hl v⟩

/-- **C77.** If the residuals can be made zero - in particular for any number of equations, solved as a least-squares problem, with
at least as many equations as unknowns - then close to such a point every step of `GaussNewton` reduces the error by any factor
asked for. -/
theorem C77_zero_residual (rtol atol : ℝ) (hr : 0 ≤ rtol) (ha : 0 < atol) (nY : (ι → ℝ) → ℝ) (nF : (κ → ℝ) → ℝ)
    (hY : GoodNorm nY) (hF : GoodNorm nF) (ls : LinSolve ι κ) (hls : SolvesFullRank ls) (jac : (ι → ℝ) → Matrix κ ι ℝ)
    (fn : (ι → ℝ) → (κ → ℝ) × A) (aux0 : A) (r : ι → ℝ) (hzero : ∀ m, (fn r).1 m = 0)
    (hder : ∃ D : (ι → ℝ) →L[ℝ] (κ → ℝ), (∀ v, D v = (jac r).mulVec v) ∧ HasFDerivAt (fun y => (fn y).1) D r)
    (hcont : ∀ m i, ContinuousAt (fun y => jac y m i) r) (hrank : ∀ v, (jac r).mulVec v = 0 → v = 0)
    (c : ℝ) (hc : 0 < c) (hc1 : c < 1) :
    ∃ δ > 0, ∀ y0 : ι → ℝ, euclid (fun i => y0 i - r i) ≤ δ →
      ∃ st0, (gnSolver rtol atol nY nF ls jac aux0).init fn y0 = .ok st0 ∧
      let Y := iterateAt (gnSolver rtol atol nY nF ls jac aux0) fn aux0 y0 st0
      Y 1 = y0 ∧ (∀ k, euclid (fun i => Y (k + 2) i - r i) ≤ c * euclid fun i => Y (k + 1) i - r i) ∧
      Tendsto Y atTop (𝓝 r) ∧
      ∃ n, ∀ ms throw, (∀ m, ms = some m → n ≤ m) →
        ∃ sol, iterativeSolve (gnSolver rtol atol nY nF ls jac aux0) (fun _ => true) fn aux0 y0 ms throw = some (.ok sol) ∧
          sol.result = .successful ∧ sol.numSteps ≤ n ∧
          euclid (fun i => sol.value i - r i) ≤ euclid fun i => y0 i - r i := by
  obtain ⟨σ, hσ, hl⟩ := full_rank_lower (jac r) hrank
  refine C77_local_convergence rtol atol hr ha nY nF hY hF ls hls jac fn aux0 r σ 0
    { deriv := hder, cont := hcont, stationary := fun i => ?_, rank := hl, curvature := ?_ } hσ c hc hc1 (by positivity)
  · simp [hzero]
  · refine Eventually.of_forall fun y v => ?_
    simp [hzero]

/-! ### The condition cannot be dropped -/

/-- Two residuals of one unknown, `y + 1` and `λ y² + y - 1`. -/
def bentResiduals (lam : ℝ) (y : Unit → ℝ) : Bool → ℝ := fun b => if b then y () + 1 else lam * y () ^ 2 + y () - 1

/-- Their Jacobian. -/
def bentJac (lam : ℝ) (y : Unit → ℝ) : Matrix Bool Unit ℝ := Matrix.of fun b _ => if b then 1 else 2 * lam * y () + 1

theorem bent_mulVec (lam : ℝ) (y v : Unit → ℝ) (b : Bool) :
    (bentJac lam y).mulVec v b = (if b then 1 else 2 * lam * y () + 1) * v () := by
  simp [bentJac, Matrix.mulVec, dotProduct]

theorem bent_full_rank (lam : ℝ) (y v : Unit → ℝ) (h : (bentJac lam y).mulVec v = 0) : v = 0 := by
  have := congrFun h true
  rw [bent_mulVec] at this
  funext u
  simpa using this

theorem bent_fit (lam : ℝ) : LocalFit (bentResiduals lam) (bentJac lam) (fun _ => 0) 2 (2 * |lam|) where
  deriv := by
    refine ⟨LinearMap.toContinuousLinearMap ((bentJac lam fun _ => 0).mulVecLin), fun v => rfl, ?_⟩
    refine hasFDerivAt_pi'.2 fun b => ?_
    have h0 : HasFDerivAt (fun y : Unit → ℝ => y ()) (ContinuousLinearMap.proj (R := ℝ) (φ := fun _ : Unit => ℝ) ()) (fun _ => 0) :=
      (ContinuousLinearMap.proj (R := ℝ) (φ := fun _ : Unit => ℝ) ()).hasFDerivAt
    cases b with
    | true =>
      refine (h0.add_const 1).congr_fderiv ?_
      ext v
      simp [bent_mulVec]
    | false =>
      refine ((((h0.pow 2).const_mul lam).add h0).sub_const 1).congr_fderiv ?_
      ext v
      simp [bent_mulVec]
  cont m i := by
    cases m
    · show ContinuousAt (fun y : Unit → ℝ => 2 * lam * y () + 1) _
      exact ((continuous_apply ()).continuousAt.const_mul _).add_const _
    · exact continuousAt_const
  stationary i := by simp [bentJac, bentResiduals]
  rank v := by simp [bent_mulVec]
  curvature := by
    refine Eventually.of_forall fun y v => le_of_eq ?_
    simp only [bent_mulVec, bentResiduals, euclid]
    simp only [Fintype.sum_bool, Finset.univ_unique, Finset.sum_singleton, Real.sqrt_sq_eq_abs]
    have e : ∀ t : ℝ, t = -(2 * lam * v () * y ()) → |t| = 2 * |lam| * |v default| * |y default - 0| := by
      rintro t rfl
      rw [abs_neg, abs_mul, abs_mul, abs_mul, abs_two, sub_zero]
    refine e _ ?_
    simp
    ring

/-- **C77.** The condition `q < σ` cannot be weakened.  For every `λ < -1` the point `0` is the only minimiser of
`(y + 1)² + (λ y² + y - 1)²`, and there `q = 2|λ|` and `σ = 2`; and from every other starting point near `0`, however near, the
iterates of `GaussNewton` leave a fixed neighbourhood of `0`. -/
theorem C77_condition_needed (lam : ℝ) (hlam : lam < -1) :
    (∀ y : Unit → ℝ, y ≠ (fun _ => 0) → ∑ b, bentResiduals lam (fun _ => 0) b ^ 2 < ∑ b, bentResiduals lam y b ^ 2) ∧
    LocalFit (bentResiduals lam) (bentJac lam) (fun _ => 0) 2 (2 * |lam|) ∧
    ∃ δ > 0, ∀ (rtol atol : ℝ) (nY : (Unit → ℝ) → ℝ) (nF : (Bool → ℝ) → ℝ) (ls : LinSolve Unit Bool), SolvesFullRank ls →
      ∀ (y0 : Unit → ℝ), y0 () ≠ 0 → |y0 ()| ≤ δ →
        ∃ st0, (gnSolver rtol atol nY nF ls (bentJac lam) ()).init (fun y => (bentResiduals lam y, ())) y0 = .ok st0 ∧
          ∃ k, δ < |iterateAt (gnSolver rtol atol nY nF ls (bentJac lam) ()) (fun y => (bentResiduals lam y, ())) () y0 st0 k ()| := by
  refine ⟨fun y hy => ?_, bent_fit lam, ?_⟩
  · have hy' : y () ≠ 0 := fun h => hy (funext fun u => h)
    simp only [bentResiduals, Fintype.sum_bool, if_true, Bool.false_eq_true, if_false]
    have : 0 < y () ^ 2 := by positivity
    nlinarith [mul_pos this (by nlinarith [sq_nonneg (1 + lam * y ())] : 0 < 1 - 2 * lam + (1 + lam * y ()) ^ 2)]
  set μ : ℝ := -lam with hμ
  have hμ1 : 1 < μ := by linarith
  refine ⟨(μ - 1) / (11 * μ ^ 3), div_pos (by linarith) (by positivity), ?_⟩
  set δ : ℝ := (μ - 1) / (11 * μ ^ 3) with hδ
  have hδ0 : 0 < δ := div_pos (by linarith) (by positivity)
  have hδe : 11 * μ ^ 3 * δ = μ - 1 := by rw [hδ]; field_simp
  intro rtol atol nY nF ls hls y0 hy0 hy0δ
  set S := gnSolver rtol atol nY nF ls (bentJac lam) () with hS
  set fn : (Unit → ℝ) → (Bool → ℝ) × Unit := fun y => (bentResiduals lam y, ()) with hfn
  obtain ⟨st0, hi⟩ : ∃ st0, S.init fn y0 = .ok st0 := ⟨_, rfl⟩
  refine ⟨st0, hi, ?_⟩
  obtain ⟨_, hY1, hrec⟩ := C43_recursion rtol atol nY nF ls (bentJac lam) () fn y0 st0 hi
  set Y := iterateAt S fn () y0 st0 with hY
  by_contra hno
  simp only [not_exists, not_lt] at hno
  have grow : ∀ k, (1 + μ) / 2 * |Y (k + 1) ()| ≤ |Y (k + 2) ()| := by
    intro k
    have h1 := (hls (bentJac lam (Y (k + 1))) (bent_full_rank lam _) (fn (Y (k + 1))).1).1
    have h2 := normal_equations _ _ _ h1 ()
    have h3 := hrec k ()
    have hs := hno (k + 1)
    set d := (ls.rect (bentJac lam (Y (k + 1))) (fn (Y (k + 1))).1).1 with hd
    set y := Y (k + 1) () with hy
    have h2' : (d () - (y + 1)) + (2 * lam * y + 1) * ((2 * lam * y + 1) * d () - (lam * y ^ 2 + y - 1)) = 0 := by
      have e : ∀ b, bentJac lam (Y (k + 1)) b () = if b then 1 else 2 * lam * y + 1 := fun b => rfl
      simp only [bent_mulVec, Fintype.sum_bool, e] at h2
      simpa [hfn, bentResiduals] using h2
    have h3' : Y (k + 2) () = y - d () := h3
    have key : Y (k + 2) () * (1 + (1 - 2 * μ * y) ^ 2) = -(y * (μ * (2 + y - 2 * μ * y ^ 2))) := by
      rw [h3', hμ]; linear_combination (-1 : ℝ) * h2'
    obtain ⟨b1, b2⟩ := abs_le.1 hs
    have hδ1 : δ ≤ 1 := by nlinarith [pow_le_pow_right₀ hμ1.le (show 1 ≤ 3 by norm_num)]
    have hy2 : y ^ 2 ≤ δ := by
      have : y ^ 2 ≤ δ ^ 2 := sq_le_sq' b1 b2
      nlinarith
    have hμ2 : μ ≤ μ ^ 3 := by nlinarith [pow_le_pow_right₀ hμ1.le (show 1 ≤ 3 by norm_num)]
    have hμ3 : μ ^ 2 ≤ μ ^ 3 := pow_le_pow_right₀ hμ1.le (by norm_num)
    have hmain : (1 + μ) / 2 * (1 + (1 - 2 * μ * y) ^ 2) ≤ μ * (2 + y - 2 * μ * y ^ 2) := by
      have c1 : -(μ * y) ≤ μ ^ 3 * δ := by nlinarith
      have c2 : μ ^ 2 * y ^ 2 ≤ μ ^ 3 * δ := by
        calc μ ^ 2 * y ^ 2 ≤ μ ^ 2 * δ := mul_le_mul_of_nonneg_left hy2 (by positivity)
          _ ≤ μ ^ 3 * δ := mul_le_mul_of_nonneg_right hμ3 hδ0.le
      have c3 : -(μ ^ 2 * y) ≤ μ ^ 3 * δ := by nlinarith
      have c4 : μ ^ 3 * y ^ 2 ≤ μ ^ 3 * δ := mul_le_mul_of_nonneg_left hy2 (by positivity)
      nlinarith
    have hD : 0 < 1 + (1 - 2 * μ * y) ^ 2 := by positivity
    have habs : |Y (k + 2) ()| * (1 + (1 - 2 * μ * y) ^ 2) = |y| * |μ * (2 + y - 2 * μ * y ^ 2)| := by
      rw [← abs_of_pos hD, ← abs_mul, key, abs_neg, abs_mul]
    have h5 : (1 + μ) / 2 * |y| * (1 + (1 - 2 * μ * y) ^ 2) ≤ |Y (k + 2) ()| * (1 + (1 - 2 * μ * y) ^ 2) := by
      rw [habs]
      calc (1 + μ) / 2 * |y| * (1 + (1 - 2 * μ * y) ^ 2) = |y| * ((1 + μ) / 2 * (1 + (1 - 2 * μ * y) ^ 2)) := by ring
        _ ≤ |y| * |μ * (2 + y - 2 * μ * y ^ 2)| := mul_le_mul_of_nonneg_left (hmain.trans (le_abs_self _)) (abs_nonneg _)
    exact le_of_mul_le_mul_right h5 hD
  have hpow : ∀ k, ((1 + μ) / 2) ^ k * |y0 ()| ≤ |Y (k + 1) ()| := by
    intro k
    induction k with
    | zero => rw [pow_zero, one_mul]; exact le_of_eq (congrArg (fun z : Unit → ℝ => |z ()|) hY1.symm)
    | succ k ih =>
      refine le_trans ?_ (grow k)
      rw [pow_succ', mul_assoc]
      exact mul_le_mul_of_nonneg_left ih (by linarith)
  have hlim : Tendsto (fun k : ℕ => ((1 + μ) / 2) ^ k * |y0 ()|) atTop atTop :=
    (tendsto_pow_atTop_atTop_of_one_lt (by linarith)).atTop_mul_const (abs_pos.2 hy0)
  obtain ⟨k, hk⟩ := (hlim.eventually_gt_atTop δ).exists
  exact absurd (hk.trans_le (hpow k)) (not_lt.2 (hno (k + 1)))

/-- The hypotheses of the convergence theorem are met with residuals that do not vanish: the same residuals with `λ = 1/2`, from
the point `0`, with any `c` above `1/2`. -/
example : LocalFit (bentResiduals (1 / 2)) (bentJac (1 / 2)) (fun _ => 0) 2 1 ∧ (1 : ℝ) < (3 / 4) * 2 ∧
    bentResiduals (1 / 2) (fun _ => 0) true = 1 ∧ ∃ ls : LinSolve Unit Bool, SolvesFullRank ls := by
  refine ⟨?_, by norm_num, by norm_num [bentResiduals], ?_⟩
  · have := bent_fit (1 / 2)
    rwa [show 2 * |(1 : ℝ) / 2| = 1 by rw [abs_of_pos] <;> norm_num] at this
  · exact full_rank_solver_exists

/-- Those of the theorem on vanishing residuals: two equations for one unknown, `y² = 1` and `y³ = 1`, at `y = 1`. -/
example :
    let F : (Unit → ℝ) → Bool → ℝ := fun y b => if b then y () ^ 2 - 1 else y () ^ 3 - 1
    let jac : (Unit → ℝ) → Matrix Bool Unit ℝ := fun y => Matrix.of fun b _ => if b then 2 * y () else 3 * y () ^ 2
    let r : Unit → ℝ := fun _ => 1
    (∀ m, F r m = 0) ∧ (∃ D : (Unit → ℝ) →L[ℝ] (Bool → ℝ), (∀ v, D v = (jac r).mulVec v) ∧ HasFDerivAt F D r) ∧
      (∀ m i, ContinuousAt (fun y => jac y m i) r) ∧ ∀ v, (jac r).mulVec v = 0 → v = 0 := by
  intro F jac r
  have hm : ∀ v b, (jac r).mulVec v b = (if b then 2 else 3) * v () := by
    intro v b
    cases b <;> simp [jac, r, Matrix.mulVec, dotProduct]
  refine ⟨fun m => by cases m <;> norm_num [F, r], ⟨LinearMap.toContinuousLinearMap (jac r).mulVecLin, fun v => rfl, ?_⟩,
    fun m i => ?_, fun v hv => ?_⟩
  · refine hasFDerivAt_pi'.2 fun b => ?_
    have h0 : HasFDerivAt (fun y : Unit → ℝ => y ()) (ContinuousLinearMap.proj (R := ℝ) (φ := fun _ : Unit => ℝ) ()) r :=
      (ContinuousLinearMap.proj (R := ℝ) (φ := fun _ : Unit => ℝ) ()).hasFDerivAt
    cases b with
    | true =>
      refine ((h0.pow 2).sub_const 1).congr_fderiv ?_
      ext v
      simp [hm, r]
    | false =>
      refine ((h0.pow 3).sub_const 1).congr_fderiv ?_
      ext v
      simp [hm, r]
  · have hc : Continuous fun y : Unit → ℝ => y () := continuous_apply ()
    cases m
    · exact ((hc.pow 2).const_mul 3).continuousAt
    · exact (hc.const_mul 2).continuousAt
  · have := congrFun hv true
    rw [hm] at this
    funext u
    simpa using this

end Verif.Props
