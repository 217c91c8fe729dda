import Verif.Props.RootFindDogleg
import Verif.Props.TrustConvergence
import Verif.Props.DoglegConvergence
import Verif.Props.TrustComplexityMore

/-!
Property C127: least squares and root finding with a backtracking line search (subclasses of `AbstractGaussNewton` with
`BacktrackingArmijo` as the search) from everywhere.
-/

namespace Verif.Props

open Verif Verif.Spec Verif.Driver Verif.SearchLoop Filter Topology

variable {ι κ A DS : Type} [Fintype ι] [Fintype κ]

/-- What the directions of a least-squares run have to satisfy, at a point with Jacobian `J` and residuals `r`: steps of size `t` are
`t` times a direction of length comparable to that of the gradient `Jᵀr` and making an angle with it that stays away from the right
angle; and the descent does not fail. -/
def ResidualRelated (desc : Descent ι κ DS) (σ ρ : ℝ) (J : Matrix κ ι ℝ) (r : κ → ℝ) (ds : DS) : Prop :=
  ∃ p : ι → ℝ, (∀ t, desc.step t ds = (fun c => t * p c, .successful)) ∧
    ∑ i, (∑ m, J m i * r m) * p i ≤ -(σ * ∑ i, (∑ m, J m i * r m) ^ 2) ∧
    ∑ i, p i ^ 2 ≤ ρ * ∑ i, (∑ m, J m i * r m) ^ 2

/-- Runs with backtracking: the gradients tend to zero, nothing fails, and the run is flagged to stop again and again. -/
theorem gn_backtracking (d s i : ℝ) (a : Armijo.Cfg ℝ) (ha : Armijo.new d s i = .ok a)
    (cfg : GaussNewton.Cfg ι κ ℝ DS) (hs : cfg.search = Armijo.search a) (aux0 : A) (fn : (ι → ℝ) → (κ → ℝ) × A)
    (y0 : ι → ℝ) (L B σ ρ : ℝ) (hB : 0 ≤ B) (hσ : 0 < σ) (hρ : 0 < ρ)
    (st0 : GaussNewton.State ι κ A ℝ DS) (hi : (GaussNewton.solver cfg aux0).init fn y0 = .ok st0)
    (hchange : ∀ (y p : ι → ℝ) m, ((fn fun i => y i + p i).1 m - (fn y).1 m) ^ 2 ≤ B * ∑ i, p i ^ 2)
    (hsmooth : ∀ k (z : ι → ℝ), let y := iterateAt (GaussNewton.solver cfg aux0) fn aux0 y0 st0 (k + 1)
      (∑ m, (fn z).1 m ^ 2) / 2 ≤ (∑ m, (fn y).1 m ^ 2) / 2 + ∑ i, (∑ m, cfg.jac y m i * (fn y).1 m) * (z i - y i) +
        L / 2 * ∑ i, (z i - y i) ^ 2)
    (hdir : ∀ k, let y := iterateAt (GaussNewton.solver cfg aux0) fn aux0 y0 st0 (k + 1)
      ResidualRelated cfg.descent σ ρ (cfg.jac y) (fn y).1
        (stateAt (GaussNewton.solver cfg aux0) fn aux0 y0 st0 (k + 1)).descentState) :
    let S := GaussNewton.solver cfg aux0
    Tendsto (fun k => ∑ i, (∑ m, cfg.jac (iterateAt S fn aux0 y0 st0 k) m i * (fn (iterateAt S fn aux0 y0 st0 k)).1 m) ^ 2)
      atTop (𝓝 0) ∧
    (∀ j, (stateAt S fn aux0 y0 st0 j).result = .successful) ∧
    (0 < cfg.atol → 0 ≤ cfg.rtol → GoodNorm cfg.normY → GoodNorm cfg.normF →
      ∀ K, ∃ k, K ≤ k ∧ (stateAt S fn aux0 y0 st0 (k + 2)).terminate = true) := by
  intro S
  obtain ⟨rfl, hd0, hd1, hs0, hs1, hi0⟩ := armijo_new d s i a ha
  have hss : ∀ {τ : Type} [Fintype τ] (x : τ → ℝ), sumSquares x = ∑ i, x i ^ 2 := by
    intro τ _ x; unfold sumSquares; exact Finset.sum_congr rfl fun _ _ => by ring
  have LL := gn_laws cfg aux0 fn
  rw [hs] at LL
  set G : (ι → ℝ) → ι → ℝ := fun y => (cfg.jac y).transpose.mulVec (fn y).1 with hGd
  have hGe : ∀ y i, G y i = ∑ m, cfg.jac y m i * (fn y).1 m := fun y i => rfl
  have hG : ∀ y (i : FnInfo ι κ), i = .residualJac (fn y).1 (cfg.jac y) → i.grad? = some (G y) := by
    rintro y i rfl; rfl
  have hhalf : ∀ x : ℝ, 0.5 * x = x / 2 := fun x => by norm_num; ring
  have C := armijo_converges (G := G) LL hG aux0 y0 st0 hi hd0 hd1 hs0 hs1 hi0 L 0 σ ρ hσ hρ (by
      intro k z y
      have h := hsmooth k z
      rw [hhalf, hhalf, hss, hss, hss]
      exact h)
    (fun y => by rw [hhalf, hss]; exact div_nonneg (Finset.sum_nonneg fun i _ => sq_nonneg _) two_pos.le) (by
      intro k
      obtain ⟨p, h1, h2, h3⟩ := hdir k
      exact ⟨p, fun t => congrArg Prod.fst (h1 t), by rw [hss]; exact h2, by rw [hss, hss]; exact h3⟩)
  set Y := iterateAt S fn aux0 y0 st0 with hYd
  set St := stateAt S fn aux0 y0 st0 with hSt
  obtain ⟨c1, c2, c3, c4⟩ := C
  refine ⟨?_, ?_, ?_⟩
  · refine c1.congr fun k => ?_
    rw [hss]
    rfl
  · intro j
    show (St j).result = .successful
    obtain _ | j := j
    · show st0.result = .successful
      simp only [GaussNewton.solver, GaussNewton.init] at hi
      split at hi
      · cases hi
      · cases hi; rfl
    · have hr := LL.result (Y j) (St j)
      obtain ⟨p, hp, _⟩ := hdir j
      have hr' : (St (j + 1)).result = if ((gnView (A := A) cfg fn).ask (Armijo.search ⟨d, s, i⟩) (Y j) (St j)).2.2.1 = .successful
        then (cfg.descent.step ((gnView (A := A) cfg fn).ask (Armijo.search ⟨d, s, i⟩) (Y j) (St j)).1 (St (j + 1)).descentState).2
        else ((gnView (A := A) cfg fn).ask (Armijo.search ⟨d, s, i⟩) (Y j) (St j)).2.2.1 := hr
      rw [hr', hp]
      rfl
  · intro hat hrt hY hF K
    obtain ⟨δ, hδ, hδY, hδF⟩ := small_enough hY hF cfg.atol hat
    have hη : 0 < δ ^ 2 / (B + 1) := by positivity
    obtain ⟨K', hK'⟩ := eventually_atTop.1 (c3.eventually (gt_mem_nhds hη))
    obtain ⟨k, hk, hacc⟩ := c4 (max K K')
    have h2 := hK' (k + 1) (by have := le_max_right K K'; omega)
    have hinfo := (stored LL (armijo_first _) aux0 y0 st0 hi k).1
    have hyn : Y (k + 1 + 1) = (St (k + 1)).yEval := (LL.accept _ _ hacc).1
    rw [hss, hyn] at h2
    refine ⟨k, (le_max_left K K').trans hk, ?_⟩
    show (St (k + 1 + 1)).terminate = true
    have hst : St (k + 1 + 1) = (GaussNewton.step cfg fn (Y (k + 1)) (St (k + 1))).2.1 := rfl
    have hfirst : (St (k + 1)).firstStep = false := first_at LL aux0 y0 st0 k
    have hacc' : (cfg.search.step (St (k + 1)).firstStep (Y (k + 1)) (St (k + 1)).yEval
      (.residualJac (St (k + 1)).residual (St (k + 1)).jac)
      (.residualJac (fn (St (k + 1)).yEval).1 (cfg.jac (St (k + 1)).yEval)) (St (k + 1)).searchState).2.1 = true := by
      rw [hs]; exact hacc
    have hres : (St (k + 1)).residual = (fn (Y (k + 1))).1 := by
      have : FnInfo.residualJac (St (k + 1)).residual (St (k + 1)).jac =
        .residualJac (fn (Y (k + 1))).1 (cfg.jac (Y (k + 1))) := hinfo
      injection this
    set P := ∑ i, ((St (k + 1)).yEval i - Y (k + 1) i) ^ 2 with hP
    have hPB : (B + 1) * P < δ ^ 2 := by
      rw [lt_div_iff₀ (by linarith)] at h2
      linarith
    have hP0 : 0 ≤ P := Finset.sum_nonneg fun i _ => sq_nonneg _
    have hent : ∀ x : ℝ, x ^ 2 ≤ (B + 1) * P → |x| ≤ δ := fun x hx =>
      (abs_lt_of_sq_lt_sq (hx.trans_lt hPB) hδ.le).le
    have hgoal : cauchyTermination cfg.rtol cfg.atol cfg.normY cfg.normF (St (k + 1)).yEval
        (fun i => (St (k + 1)).yEval i - Y (k + 1) i) (fn (St (k + 1)).yEval).1
        (fun m => (fn (St (k + 1)).yEval).1 m - (fn (Y (k + 1))).1 m) = true := by
      simp only [cauchyTermination, Bool.and_eq_true, decide_eq_true_eq]
      refine ⟨norm_small hY cfg.rtol cfg.atol δ hat hrt _ _ (fun i => hent _ ?_) hδY,
        norm_small hF cfg.rtol cfg.atol δ hat hrt _ _ (fun m => hent _ ?_) hδF⟩
      · have h3 : ((St (k + 1)).yEval i - Y (k + 1) i) ^ 2 ≤ P :=
          Finset.single_le_sum (f := fun i => ((St (k + 1)).yEval i - Y (k + 1) i) ^ 2) (fun i _ => sq_nonneg _) (Finset.mem_univ i)
        have h4 : 0 ≤ B * P := mul_nonneg hB hP0
        linarith
      · have h3 := hchange (Y (k + 1)) (fun i => (St (k + 1)).yEval i - Y (k + 1) i) m
        simp only [add_sub_cancel] at h3
        have h4 : B * P ≤ (B + 1) * P := mul_le_mul_of_nonneg_right (by linarith) hP0
        exact h3.trans h4
    rw [hfirst, hres] at hacc'
    rw [hst]
    simp only [GaussNewton.step, hacc', if_true, hfirst, hres]
    exact hgoal

/-- **C127**, the family.  If the Jacobian of the residuals is bounded and the gradient of `½|r|²` is Lipschitz, then along directions
that stay related to the gradient the gradients `Jᵀr` at the iterates tend to zero, from every starting point, and the solve stops by
itself and reports success, with every sufficiently large budget and with none. -/
theorem C127_family (d s i : ℝ) (a : Armijo.Cfg ℝ) (ha : Armijo.new d s i = .ok a)
    (cfg : GaussNewton.Cfg ι κ ℝ DS) (hs : cfg.search = Armijo.search a) (aux0 : A) (fn : (ι → ℝ) → (κ → ℝ) × A)
    (y0 : ι → ℝ) (L B σ ρ : ℝ) (hS : SmoothResiduals (fun y => (fn y).1) cfg.jac L B)
    (hat : 0 < cfg.atol) (hrt : 0 ≤ cfg.rtol) (hY : GoodNorm cfg.normY) (hF : GoodNorm cfg.normF)
    (hσ : 0 < σ) (hρ : 0 < ρ) (st0 : GaussNewton.State ι κ A ℝ DS)
    (hi : (GaussNewton.solver cfg aux0).init fn y0 = .ok st0)
    (hdir : ∀ k, 1 ≤ k → ResidualRelated cfg.descent σ ρ
      (cfg.jac (iterateAt (GaussNewton.solver cfg aux0) fn aux0 y0 st0 k))
      (fn (iterateAt (GaussNewton.solver cfg aux0) fn aux0 y0 st0 k)).1
      (stateAt (GaussNewton.solver cfg aux0) fn aux0 y0 st0 k).descentState) :
    let S := GaussNewton.solver cfg aux0
    Tendsto (fun k => ∑ i, (∑ m, cfg.jac (iterateAt S fn aux0 y0 st0 k) m i * (fn (iterateAt S fn aux0 y0 st0 k)).1 m) ^ 2)
      atTop (𝓝 0) ∧
    ∃ N, ∀ ms throw, (∀ n, ms = some n → N ≤ n) →
      ∃ sol, iterativeSolve S (fun _ => true) fn aux0 y0 ms throw = some (.ok sol) ∧ sol.result = .successful ∧
        sol.numSteps ≤ N := by
  intro S
  obtain ⟨h1, h2, h3⟩ := gn_backtracking d s i a ha cfg hs aux0 fn y0 L B σ ρ hS.nonneg.2 hσ hρ st0 hi hS.change (by
    intro k z y
    have hb := hS.gradient.bound y z
    have e : sumSquares (fun i => z i - y i) = ∑ i, (z i - y i) ^ 2 := by
      unfold sumSquares; exact Finset.sum_congr rfl fun _ _ => by ring
    rw [e] at hb
    exact hb) (fun k => hdir (k + 1) (by omega))
  refine ⟨h1, ?_⟩
  obtain ⟨k, _, hk⟩ := h3 hat hrt hY hF 0
  refine ⟨k + 2, fun ms throw hb => ?_⟩
  obtain ⟨sol, s1, s2, s3, _⟩ := solve_succeeds_by S (fun _ => true) fn aux0 y0 st0 hi ms
    throw (k + 2) (fun _ _ => rfl) (fun j _ => h2 j) hk hb
  exact ⟨sol, s1, s2, s3⟩

/-- An `AbstractGaussNewton` with `NewtonDescent` and `BacktrackingArmijo`: the damped Gauss-Newton method. -/
noncomputable def backtrackingGaussNewton (a : Armijo.Cfg ℝ) (rtol atol : ℝ) (nY : (ι → ℝ) → ℝ) (nF : (κ → ℝ) → ℝ)
    (ls : LinSolve ι κ) (jac : (ι → ℝ) → Matrix κ ι ℝ) : GaussNewton.Cfg ι κ ℝ ((ι → ℝ) × Result) :=
  { rtol := rtol, atol := atol, normY := nY, normF := nF, descent := newtonDescent ls none, search := Armijo.search a, jac := jac }

/-- An `AbstractGaussNewton` with `SteepestDescent` and `BacktrackingArmijo`. -/
noncomputable def backtrackingSteepest (a : Armijo.Cfg ℝ) (rtol atol : ℝ) (nY : (ι → ℝ) → ℝ) (nF : (κ → ℝ) → ℝ)
    (jac : (ι → ℝ) → Matrix κ ι ℝ) : GaussNewton.Cfg ι κ ℝ (ι → ℝ) :=
  { rtol := rtol, atol := atol, normY := nY, normF := nF, descent := steepestDescent none, search := Armijo.search a, jac := jac }

/-- The descent of the damped Gauss-Newton method holds the Gauss-Newton step of the current point. -/
theorem backtracking_newton_state (a : Armijo.Cfg ℝ) (rtol atol : ℝ) (nY : (ι → ℝ) → ℝ) (nF : (κ → ℝ) → ℝ)
    (ls : LinSolve ι κ) (jac : (ι → ℝ) → Matrix κ ι ℝ) (aux0 : A) (fn : (ι → ℝ) → (κ → ℝ) × A) (y0 : ι → ℝ)
    (st0 : GaussNewton.State ι κ A ℝ ((ι → ℝ) × Result))
    (hi : (GaussNewton.solver (backtrackingGaussNewton a rtol atol nY nF ls jac) aux0).init fn y0 = .ok st0) (k : ℕ) :
    let S := GaussNewton.solver (backtrackingGaussNewton a rtol atol nY nF ls jac) aux0
    (stateAt S fn aux0 y0 st0 (k + 1)).descentState =
      ls.rect (jac (iterateAt S fn aux0 y0 st0 (k + 1))) (fn (iterateAt S fn aux0 y0 st0 (k + 1))).1 := by
  intro S
  have LL := gn_laws (backtrackingGaussNewton a rtol atol nY nF ls jac) aux0 fn
  obtain ⟨⟨y', d', hq⟩, _⟩ := queried LL (armijo_first _) aux0 y0 st0 hi k
  have hinfo := (stored LL (armijo_first _) aux0 y0 st0 hi k).1
  rw [hinfo] at hq
  exact hq

/-- The Gauss-Newton direction at a point of full rank. -/
theorem newton_related (ls : LinSolve ι κ) (hls : SolvesLeastSquares ls) (hok : ∀ M v, (ls.rect M v).2 = .successful)
    (J : Matrix κ ι ℝ) (r : κ → ℝ) (B μ : ℝ) (hB : 0 < B) (hμ : 0 < μ)
    (habove : ∀ p : ι → ℝ, ∑ m, (∑ i, J m i * p i) ^ 2 ≤ B * ∑ i, p i ^ 2)
    (hbelow : ∀ p : ι → ℝ, μ * ∑ i, p i ^ 2 ≤ ∑ m, (∑ i, J m i * p i) ^ 2) :
    ResidualRelated (newtonDescent (κ := κ) ls none) (1 / B) (1 / μ ^ 2) J r (ls.rect J r) := by
  obtain ⟨h1, _, h3, h4⟩ := newton_facts ls hls J r
  obtain ⟨h5, h6⟩ := h3 B hB.le habove
  obtain ⟨h7, h8⟩ := h4 μ hμ hbelow
  refine ⟨fun i => -(ls.rect J r).1 i, fun t => ?_, ?_, ?_⟩
  · show ((fun i => -t * (ls.rect J r).1 i), (ls.rect J r).2) = _
    rw [hok]
    simp
  · rw [show ∑ i, (∑ m, J m i * r m) * -(ls.rect J r).1 i = _ from h1]
    rw [neg_le_neg_iff, div_mul_eq_mul_div, one_mul, div_le_iff₀ hB]
    linarith
  · rw [div_mul_eq_mul_div, one_mul, le_div_iff₀ (by positivity)]
    linarith

/-- **C127**, the damped Gauss-Newton method: if moreover the Jacobian has full column rank, uniformly, no condition on the run is
left. -/
theorem C127_gauss_newton (d s i : ℝ) (a : Armijo.Cfg ℝ) (ha : Armijo.new d s i = .ok a) (rtol atol : ℝ)
    (nY : (ι → ℝ) → ℝ) (nF : (κ → ℝ) → ℝ) (ls : LinSolve ι κ) (hls : SolvesLeastSquares ls)
    (hok : ∀ M v, (ls.rect M v).2 = .successful) (jac : (ι → ℝ) → Matrix κ ι ℝ) (aux0 : A)
    (fn : (ι → ℝ) → (κ → ℝ) × A) (y0 : ι → ℝ) (L B μ : ℝ) (hS : SmoothResiduals (fun y => (fn y).1) jac L B) (hB : 0 < B)
    (hμ : 0 < μ) (hrank : ∀ (y p : ι → ℝ), μ * ∑ i, p i ^ 2 ≤ ∑ m, (∑ i, jac y m i * p i) ^ 2)
    (hat : 0 < atol) (hrt : 0 ≤ rtol) (hY : GoodNorm nY) (hF : GoodNorm nF) :
    let S := GaussNewton.solver (backtrackingGaussNewton a rtol atol nY nF ls jac) aux0
    ∃ st0, S.init fn y0 = .ok st0 ∧
      Tendsto (fun k => ∑ i, (∑ m, jac (iterateAt S fn aux0 y0 st0 k) m i * (fn (iterateAt S fn aux0 y0 st0 k)).1 m) ^ 2)
        atTop (𝓝 0) ∧
      ∃ N, ∀ ms throw, (∀ n, ms = some n → N ≤ n) →
        ∃ sol, iterativeSolve S (fun _ => true) fn aux0 y0 ms throw = some (.ok sol) ∧ sol.result = .successful ∧
          sol.numSteps ≤ N := by
  intro S
  obtain ⟨st0, hi⟩ : ∃ st0, S.init fn y0 = .ok st0 := ⟨_, rfl⟩
  refine ⟨st0, hi, C127_family d s i a ha (backtrackingGaussNewton a rtol atol nY nF ls jac) rfl aux0 fn y0 L B (1 / B) (1 / μ ^ 2)
    hS hat hrt hY hF (by positivity) (by positivity) st0 hi ?_⟩
  intro k hk
  obtain _ | k := k
  · omega
  rw [backtracking_newton_state a rtol atol nY nF ls jac aux0 fn y0 st0 hi k]
  exact newton_related ls hls hok _ _ B μ hB hμ (hS.bounded _) (hrank _)

/-- **C127**, steepest descent on a least-squares problem: no condition on the rank. -/
theorem C127_steepest_descent (d s i : ℝ) (a : Armijo.Cfg ℝ) (ha : Armijo.new d s i = .ok a) (rtol atol : ℝ)
    (nY : (ι → ℝ) → ℝ) (nF : (κ → ℝ) → ℝ) (jac : (ι → ℝ) → Matrix κ ι ℝ) (aux0 : A)
    (fn : (ι → ℝ) → (κ → ℝ) × A) (y0 : ι → ℝ) (L B : ℝ) (hS : SmoothResiduals (fun y => (fn y).1) jac L B)
    (hat : 0 < atol) (hrt : 0 ≤ rtol) (hY : GoodNorm nY) (hF : GoodNorm nF) :
    let S := GaussNewton.solver (backtrackingSteepest a rtol atol nY nF jac) aux0
    ∃ st0, S.init fn y0 = .ok st0 ∧
      Tendsto (fun k => ∑ i, (∑ m, jac (iterateAt S fn aux0 y0 st0 k) m i * (fn (iterateAt S fn aux0 y0 st0 k)).1 m) ^ 2)
        atTop (𝓝 0) ∧
      ∃ N, ∀ ms throw, (∀ n, ms = some n → N ≤ n) →
        ∃ sol, iterativeSolve S (fun _ => true) fn aux0 y0 ms throw = some (.ok sol) ∧ sol.result = .successful ∧
          sol.numSteps ≤ N := by
  intro S
  obtain ⟨st0, hi⟩ : ∃ st0, S.init fn y0 = .ok st0 := ⟨_, rfl⟩
  refine ⟨st0, hi, C127_family d s i a ha (backtrackingSteepest a rtol atol nY nF jac) rfl aux0 fn y0 L B 1 1
    hS hat hrt hY hF one_pos one_pos st0 hi ?_⟩
  intro k hk
  obtain _ | k := k
  · omega
  have LL := gn_laws (backtrackingSteepest a rtol atol nY nF jac) aux0 fn
  obtain ⟨⟨y', d', hq⟩, _⟩ := queried LL (armijo_first _) aux0 y0 st0 hi k
  have hinfo := (stored LL (armijo_first _) aux0 y0 st0 hi k).1
  rw [hinfo] at hq
  have hq' : (stateAt S fn aux0 y0 st0 (k + 1)).descentState = fun i => ∑ m, jac (iterateAt S fn aux0 y0 st0 (k + 1)) m i *
    (fn (iterateAt S fn aux0 y0 st0 (k + 1))).1 m := hq
  refine ⟨fun c => -(stateAt S fn aux0 y0 st0 (k + 1)).descentState c, fun t => ?_, ?_, ?_⟩
  · show (steepestDescent (κ := κ) none).step t (stateAt S fn aux0 y0 st0 (k + 1)).descentState = _
    simp [steepestDescent]
  · rw [hq', one_mul, ← Finset.sum_neg_distrib]
    exact (Finset.sum_congr rfl fun c _ => by
      show _ * -(∑ m, _) = _
      rw [mul_neg, sq]; rfl).le
  · rw [hq', one_mul]
    exact (Finset.sum_congr rfl fun c _ => by
      show (-(∑ m, _)) ^ 2 = _
      rw [neg_sq]; rfl).le

/-! ### Root finding -/

/-- How much the residuals change over a step. -/
theorem residual_change (r : (ι → ℝ) → κ → ℝ) (jac : (ι → ℝ) → Matrix κ ι ℝ) (B : ℝ) (hB : 0 ≤ B)
    (hderiv : ∀ (y p : ι → ℝ) m, HasDerivAt (fun t : ℝ => r (fun i => y i + t * p i) m) (∑ i, jac y m i * p i) 0)
    (habove : ∀ (y p : ι → ℝ), ∑ m, (∑ i, jac y m i * p i) ^ 2 ≤ B * ∑ i, p i ^ 2) (y p : ι → ℝ) :
    ∑ m, (r (fun i => y i + p i) m - r y m) ^ 2 ≤ B * ∑ i, p i ^ 2 := by
  set e : κ → ℝ := fun m => r (fun i => y i + p i) m - r y m with he
  have hd : ∀ t : ℝ, HasDerivAt (fun t : ℝ => ∑ m, e m * r (fun i => y i + t * p i) m)
      (∑ m, e m * ∑ i, jac (fun i => y i + t * p i) m i * p i) t := by
    intro t
    refine HasDerivAt.fun_sum fun m _ => HasDerivAt.const_mul _ ?_
    have h0 := hderiv (fun i => y i + t * p i) p m
    have h1 : HasDerivAt (fun u : ℝ => u - t) 1 t := (hasDerivAt_id t).sub_const t
    have h0' : HasDerivAt (fun s : ℝ => r (fun i => (y i + t * p i) + s * p i) m)
        (∑ i, jac (fun i => y i + t * p i) m i * p i) (t - t) := by rw [sub_self]; exact h0
    have := HasDerivAt.comp (h := fun u : ℝ => u - t) t h0' h1
    rw [mul_one] at this
    refine this.congr_of_eventuallyEq (Eventually.of_forall fun u => ?_)
    show r _ m = r _ m
    congr 1
    funext i
    ring
  obtain ⟨s, _, hs⟩ := exists_hasDerivAt_eq_slope (fun t : ℝ => ∑ m, e m * r (fun i => y i + t * p i) m)
    (fun t => ∑ m, e m * ∑ i, jac (fun i => y i + t * p i) m i * p i) zero_lt_one
    (fun t _ => (hd t).continuousAt.continuousWithinAt) (fun t _ => hd t)
  simp only [one_mul, zero_mul, add_zero, sub_zero, div_one] at hs
  have e1 : ∑ m, e m * ∑ i, jac (fun i => y i + s * p i) m i * p i = ∑ m, e m ^ 2 := by
    rw [hs, ← Finset.sum_sub_distrib]
    exact Finset.sum_congr rfl fun m _ => by rw [← mul_sub, sq]
  have hcs := Finset.sum_mul_sq_le_sq_mul_sq Finset.univ e fun m => ∑ i, jac (fun i => y i + s * p i) m i * p i
  rw [e1] at hcs
  have hE : 0 ≤ ∑ m, e m ^ 2 := Finset.sum_nonneg fun i _ => sq_nonneg _
  have hP : 0 ≤ ∑ i, p i ^ 2 := Finset.sum_nonneg fun i _ => sq_nonneg _
  rcases hE.eq_or_lt with h0 | h0
  · rw [← h0]; positivity
  · have h2 := hcs.trans (mul_le_mul_of_nonneg_left (habove (fun i => y i + s * p i) p) hE)
    refine le_of_mul_le_mul_left ?_ h0
    linarith

/-- On a bounded set of residuals, half the sum of squares has a quadratic upper bound. -/
theorem residual_smooth (r : (ι → ℝ) → κ → ℝ) (jac : (ι → ℝ) → Matrix κ ι ℝ) (K B R : ℝ) (hJ : LipschitzJacobian r jac K)
    (hB : 0 ≤ B) (habove : ∀ (y p : ι → ℝ), ∑ m, (∑ i, jac y m i * p i) ^ 2 ≤ B * ∑ i, p i ^ 2) (hR0 : 0 ≤ R) (y z : ι → ℝ)
    (hy : ∑ m, r y m ^ 2 ≤ R ^ 2) :
    (∑ m, r z m ^ 2) / 2 ≤ (∑ m, r y m ^ 2) / 2 + ∑ i, (∑ m, jac y m i * r y m) * (z i - y i) +
      (K * R + B) / 2 * ∑ i, (z i - y i) ^ 2 := by
  set p : ι → ℝ := fun i => z i - y i with hp
  have hz : z = fun i => y i + p i := by funext i; simp [hp]
  have hc := residual_change r jac B hB hJ.deriv habove y p
  have ht := LipschitzJacobian.taylor hJ y p
  rw [← hz] at hc ht
  have hd := euclid_dot (r y) fun m => r z m - r y m - ∑ i, jac y m i * p i
  have hyR : euclid (r y) ≤ R := by
    unfold euclid
    exact (Real.sqrt_le_sqrt hy).trans (le_of_eq (Real.sqrt_sq hR0))
  have h1 : ∑ m, r y m * (r z m - r y m - ∑ i, jac y m i * p i) ≤ R * (K / 2 * ∑ i, p i ^ 2) :=
    hd.trans (mul_le_mul hyR ht (euclid_nonneg _) hR0)
  have e1 : ∑ m, r y m * ∑ i, jac y m i * p i = ∑ i, (∑ m, jac y m i * r y m) * p i := by
    simp only [Finset.mul_sum, Finset.sum_mul]
    rw [Finset.sum_comm]
    exact Finset.sum_congr rfl fun i _ => Finset.sum_congr rfl fun m _ => by ring
  have e2 : ∑ m, r z m ^ 2 = ∑ m, r y m ^ 2 + 2 * ∑ m, r y m * (r z m - r y m - ∑ i, jac y m i * p i) +
      2 * ∑ m, r y m * (∑ i, jac y m i * p i) + ∑ m, (r z m - r y m) ^ 2 := by
    rw [Finset.mul_sum, Finset.mul_sum, ← Finset.sum_add_distrib, ← Finset.sum_add_distrib, ← Finset.sum_add_distrib]
    exact Finset.sum_congr rfl fun m _ => by ring
  rw [e2, e1]
  show _ ≤ _ + ∑ i, (∑ m, jac y m i * r y m) * p i + (K * R + B) / 2 * ∑ i, p i ^ 2
  linarith

section
variable (d s i : ℝ) (a : Armijo.Cfg ℝ) (ha : Armijo.new d s i = .ok a) (rtol atol : ℝ) (nY nF : (ι → ℝ) → ℝ)
  (ls : LinSolve ι ι) (hls : SolvesLeastSquares ls) (hok : ∀ M v, (ls.rect M v).2 = .successful)
  (jac : (ι → ℝ) → Matrix ι ι ℝ) (aux0 : A) (fn : (ι → ℝ) → (ι → ℝ) × A) (y0 : ι → ℝ) (K μ B : ℝ)
  (hJ : LipschitzJacobian (fun y => (fn y).1) jac K) (hI : UniformlyInvertible jac μ B) (hB : 0 < B)
include ha hls hok hJ hI hB

/-- Runs of the damped Newton method on a square system. -/
theorem damped_newton_run (st0 : GaussNewton.State ι ι A ℝ ((ι → ℝ) × Result))
    (hi : (GaussNewton.solver (backtrackingGaussNewton a rtol atol nY nF ls jac) aux0).init fn y0 = .ok st0) :
    let S := GaussNewton.solver (backtrackingGaussNewton a rtol atol nY nF ls jac) aux0
    Tendsto (fun k => ∑ m, (fn (iterateAt S fn aux0 y0 st0 k)).1 m ^ 2) atTop (𝓝 0) ∧
    (∀ j, (stateAt S fn aux0 y0 st0 j).result = .successful) ∧
    (0 < atol → 0 ≤ rtol → GoodNorm nY → GoodNorm nF →
      ∀ K, ∃ k, K ≤ k ∧ (stateAt S fn aux0 y0 st0 (k + 2)).terminate = true) := by
  intro S
  have hμ := hI.pos
  set R := euclid (fn y0).1 with hR
  have hR0 : 0 ≤ R := euclid_nonneg _
  have hdown : ∀ k, ∑ m, (fn (iterateAt S fn aux0 y0 st0 k)).1 m ^ 2 ≤ R ^ 2 := by
    intro k
    obtain ⟨rfl, _, _, hpos, _, _⟩ := armijo_new d s i a ha
    have L : Laws S fn (fun y => 0.5 * sumSquares (fn y).1) (Armijo.search ⟨d, s, i⟩) _ _ _ :=
      gn_laws (backtrackingGaussNewton ⟨d, s, i⟩ rtol atol nY nF ls jac) aux0 fn
    have hm := monotone_le L (armijo_first _) aux0 y0 st0 hi
      (fun k => armijo_accept_le _ hpos _ _ _ _ _) 0 k (Nat.zero_le _)
    have hm' : 0.5 * sumSquares (fn (iterateAt S fn aux0 y0 st0 k)).1 ≤ 0.5 * sumSquares (fn y0).1 := hm
    have hss : ∀ x : ι → ℝ, sumSquares x = ∑ i, x i ^ 2 := by
      intro x; unfold sumSquares; exact Finset.sum_congr rfl fun _ _ => by ring
    rw [hss, hss] at hm'
    norm_num at hm'
    rw [hR, euclid_sq]
    linarith
  obtain ⟨h1, h2, h3⟩ := gn_backtracking d s i a ha (backtrackingGaussNewton a rtol atol nY nF ls jac) rfl aux0 fn y0 (K * R + B) B
    (1 / B) (1 / μ ^ 2) hB.le (by positivity) (by positivity) st0 hi
    (fun y p m => (Finset.single_le_sum (f := fun m => ((fn fun i => y i + p i).1 m - (fn y).1 m) ^ 2)
      (fun _ _ => sq_nonneg _) (Finset.mem_univ m)).trans
        (residual_change (fun y => (fn y).1) jac B hB.le hJ.deriv hI.above y p))
    (fun k z => residual_smooth (fun y => (fn y).1) jac K B R hJ hB.le hI.above hR0 _ z (hdown (k + 1)))
    (fun k => by
      dsimp only
      rw [backtracking_newton_state a rtol atol nY nF ls jac aux0 fn y0 st0 hi k]
      exact newton_related ls hls hok _ _ B μ hB hμ (hI.above _) (hI.below _))
  refine ⟨?_, h2, h3⟩
  have h4 := h1.const_mul (1 / μ)
  rw [mul_zero] at h4
  refine squeeze_zero (fun k => Finset.sum_nonneg fun i _ => sq_nonneg _) (fun k => ?_) h4
  have h5 := square_onto (jac (iterateAt S fn aux0 y0 st0 k)) μ hμ (hI.below _) (fn (iterateAt S fn aux0 y0 st0 k)).1
  rw [div_mul_eq_mul_div, one_mul, le_div_iff₀ hμ]
  calc _ = μ * ∑ m, (fn (iterateAt S fn aux0 y0 st0 k)).1 m ^ 2 := mul_comm _ _
    _ ≤ _ := h5

/-- **C127**, root finding: with the damped Newton method the residual falls to zero from every starting point, and every iterate has a
true root nearby. -/
theorem C127_root_run :
    let S := GaussNewton.solver (backtrackingGaussNewton a rtol atol nY nF ls jac) aux0
    ∃ st0, S.init fn y0 = .ok st0 ∧
      Tendsto (fun k => ∑ m, (fn (iterateAt S fn aux0 y0 st0 k)).1 m ^ 2) atTop (𝓝 0) ∧
      ∀ k, ∃ x, (∀ m, (fn x).1 m = 0) ∧
        μ * ∑ i, (x i - iterateAt S fn aux0 y0 st0 k i) ^ 2 ≤ ∑ m, (fn (iterateAt S fn aux0 y0 st0 k)).1 m ^ 2 := by
  intro S
  obtain ⟨st0, hi⟩ : ∃ st0, S.init fn y0 = .ok st0 := ⟨_, rfl⟩
  exact ⟨st0, hi, (damped_newton_run d s i a ha rtol atol nY nF ls hls hok jac aux0 fn y0 K μ B hJ hI hB st0 hi).1,
    fun k => invertible_near_root (fun y => (fn y).1) jac K μ B hJ hI _⟩

/-- **C127**, `root_find`: it succeeds, from every starting point, with every sufficiently large budget and with none. -/
theorem C127_root_find (hat : 0 < atol) (hrt : 0 ≤ rtol) (hY : GoodNorm nY)
    (hF : GoodNorm nF) (fInf : ι → ℝ) (auxF : (ι → ℝ) × A) :
    let S := GaussNewton.solver (backtrackingGaussNewton a rtol atol nY nF ls jac) auxF
    ∃ N, ∀ ms throw, (∀ n, ms = some n → N ≤ n) →
      ∃ sol, rootFindViaLeastSquares S nF atol fInf (fun _ => true) fn auxF y0 ms throw = some (.ok sol) ∧
        sol.result = .successful ∧ sol.numSteps ≤ N := by
  intro S
  obtain ⟨st0, hi⟩ : ∃ st0, S.init (toLstsqFn fn) y0 = .ok st0 := ⟨_, rfl⟩
  obtain ⟨h1, f1, h3⟩ := damped_newton_run d s i a ha rtol atol nY nF ls hls hok jac auxF (toLstsqFn fn) y0 K μ B hJ hI hB st0 hi
  obtain ⟨δ, hδ, hδY, hδF⟩ := small_enough hY hF atol hat
  obtain ⟨K', hK'⟩ := eventually_atTop.1 (h1.eventually (gt_mem_nhds (by positivity : (0:ℝ) < δ ^ 2)))
  obtain ⟨k, hk, f2⟩ := h3 hat hrt hY hF K'
  have hsm := hK' (k + 1) (by omega)
  have h4 : ∀ m, |(fn (iterateAt S (toLstsqFn fn) auxF y0 st0 (k + 1))).1 m| ≤ δ := by
    intro m
    refine (abs_le_euclid _ m).trans ?_
    unfold euclid
    exact (Real.sqrt_le_sqrt hsm.le).trans (le_of_eq (Real.sqrt_sq hδ.le))
  have htrace := toRoot_trace S nF atol fInf (toLstsqFn fn) auxF y0 st0
  have hiR : (toRoot nF atol fInf S).init (toLstsqFn fn) y0 = .ok (st0, fInf) := by
    simp only [toRoot, hi]
  refine ⟨k + 2, fun ms throw hb => ?_⟩
  obtain ⟨sol, s1, s2, s3, _⟩ := solve_succeeds_by (toRoot nF atol fInf S) (fun _ => true) (toLstsqFn fn) auxF y0 (st0, fInf) hiR ms
    throw (k + 2) (fun _ _ => rfl) (fun j _ => by
      rw [toRoot_terminate]
      dsimp only
      rw [(htrace j).2.1]
      exact f1 j) (by
      rw [toRoot_terminate]
      dsimp only
      rw [(htrace (k + 2)).2.1, (htrace (k + 2)).2.2, if_neg (by omega)]
      rw [Bool.and_eq_true]
      refine ⟨f2, decide_eq_true ?_⟩
      -- what is reported is the value at the point before
      have haux : (auxAt S (toLstsqFn fn) auxF y0 st0 (k + 2)).1 = (fn (iterateAt S (toLstsqFn fn) auxF y0 st0 (k + 1))).1 :=
        congrArg Prod.fst (C30_aux_gauss_newton_family _ (fun y z i j s => armijo_first ..) auxF (toLstsqFn fn) y0 st0 hi (k + 1))
      rw [haux]
      have h5 := hF.mono (fn (iterateAt S (toLstsqFn fn) auxF y0 st0 (k + 1))).1 (fun _ => δ * 1) (fun m => by
        rw [mul_one, abs_of_pos hδ]; exact h4 m)
      have h6 := hF.smul δ (fun _ => 1)
      rw [abs_of_pos hδ] at h6
      exact (h5.trans_eq h6).trans_lt hδF) hb
  refine ⟨sol.dropF, ?_, s2, s3⟩
  rw [rootFindViaLeastSquares, s1]; rfl

end

section
variable (a : Armijo.Cfg ℝ) (h1 : a.stepInit = 1) (rtol atol : ℝ) (nY nF : (ι → ℝ) → ℝ)
  (ls : LinSolve ι ι) (hls : SolvesLeastSquares ls)
  (jac : (ι → ℝ) → Matrix ι ι ℝ) (aux0 : A) (fn : (ι → ℝ) → (ι → ℝ) × A) (y0 : ι → ℝ) (K μ B : ℝ)
  (hJ : LipschitzJacobian (fun y => (fn y).1) jac K) (hI : UniformlyInvertible jac μ B)
include h1 hls hJ hI

omit h1 in
/-- What the line search makes of the full Newton step. -/
theorem full_step_armijo (y : ι → ℝ) :
    let z := fun i => y i - (ls.rect (jac y) (fn y).1).1 i
    (ArmijoHolds a.slope (fun y => 0.5 * sumSquares (fn y).1) ((jac y).transpose.mulVec (fn y).1) y z ↔
      ∑ m, (fn z).1 m ^ 2 ≤ (1 - 2 * a.slope) * ∑ m, (fn y).1 m ^ 2) ∧
    (∀ m, ∑ i, jac y m i * (z i - y i) = -(fn y).1 m) ∧
    ∑ m, (fn z).1 m ^ 2 ≤ (K / (2 * μ)) ^ 2 * (∑ m, (fn y).1 m ^ 2) ^ 2 := by
  intro z
  have hμ := hI.pos
  have hK := hJ.nonneg
  set p : ι → ℝ := fun i => -(ls.rect (jac y) (fn y).1).1 i with hp
  have hz : z = fun i => y i + p i := by funext i; simp [z, hp, sub_eq_add_neg]
  have hzy : (fun i => z i - y i) = p := by rw [hz]; funext i; simp
  have hJp : ∀ m, ∑ i, jac y m i * p i = -(fn y).1 m := square_newton ls hls (jac y) (fn y).1 μ hμ (hI.below y)
  have hQ := hI.below y p
  simp only [hJp, neg_sq] at hQ
  have hte : euclid (fun m => (fn fun i => y i + p i).1 m - (fn y).1 m - ∑ i, jac y m i * p i) ≤ K / 2 * ∑ i, p i ^ 2 :=
    LipschitzJacobian.taylor hJ y p
  simp only [hJp, sub_neg_eq_add, sub_add_cancel] at hte
  rw [← hz] at hte
  set E := ∑ m, (fn y).1 m ^ 2 with hE
  have hE0 : 0 ≤ E := Finset.sum_nonneg fun i _ => sq_nonneg _
  have hss : ∀ x : ι → ℝ, sumSquares x = ∑ i, x i ^ 2 := by
    intro x; unfold sumSquares; exact Finset.sum_congr rfl fun _ _ => by ring
  have hdot : treeDot ((jac y).transpose.mulVec (fn y).1) (fun i => z i - y i) = -E := by
    rw [hzy]
    show ∑ i, (∑ m, jac y m i * (fn y).1 m) * p i = _
    have e1 : ∑ i, (∑ m, jac y m i * (fn y).1 m) * p i = ∑ m, (fn y).1 m * ∑ i, jac y m i * p i := by
      simp only [Finset.mul_sum, Finset.sum_mul]
      rw [Finset.sum_comm]
      exact Finset.sum_congr rfl fun i _ => Finset.sum_congr rfl fun m _ => by ring
    rw [e1, hE, ← Finset.sum_neg_distrib]
    exact Finset.sum_congr rfl fun m _ => by rw [hJp]; ring
  refine ⟨?_, ?_, ?_⟩
  · unfold ArmijoHolds
    dsimp only
    rw [hdot, hss, hss, ← hE]
    norm_num
    constructor
    · rintro ⟨h, _⟩; linarith
    · intro h; exact ⟨by linarith, hE0⟩
  · intro m
    rw [show (fun i => jac y m i * (z i - y i)) = fun i => jac y m i * p i by
      funext i; rw [show z i - y i = p i from congrFun hzy i]]
    exact hJp m
  · have hte2 : euclid (fn z).1 ≤ K / (2 * μ) * E := by
      refine hte.trans ?_
      rw [div_mul_eq_mul_div, div_mul_eq_mul_div, div_le_div_iff₀ (by norm_num) (by positivity)]
      nlinarith
    rw [← euclid_sq, ← mul_pow]
    exact pow_le_pow_left₀ (euclid_nonneg _) hte2 2

/-- **C127**, near a root: if `step_init` is one, `slope` is less than a half and the residual at the starting point is small enough,
then every trial is the full Newton step and is accepted, and the residual converges to zero quadratically. -/
theorem C127_quadratic (R : ℝ) (hR : ∑ m, (fn y0).1 m ^ 2 ≤ R ^ 2)
    (hslope : 0 ≤ a.slope) (hKR : (K * R) ^ 2 ≤ 4 * (1 - 2 * a.slope) * μ ^ 2) :
    let S := GaussNewton.solver (backtrackingGaussNewton a rtol atol nY nF ls jac) aux0
    ∃ st0, S.init fn y0 = .ok st0 ∧ ∀ k,
      (∀ m, ∑ i, jac (iterateAt S fn aux0 y0 st0 (k + 1)) m i *
        (iterateAt S fn aux0 y0 st0 (k + 2) i - iterateAt S fn aux0 y0 st0 (k + 1) i) = -(fn (iterateAt S fn aux0 y0 st0 (k + 1))).1 m) ∧
      ∑ m, (fn (iterateAt S fn aux0 y0 st0 (k + 2))).1 m ^ 2 ≤
        (1 - 2 * a.slope) * ∑ m, (fn (iterateAt S fn aux0 y0 st0 (k + 1))).1 m ^ 2 ∧
      ∑ m, (fn (iterateAt S fn aux0 y0 st0 (k + 2))).1 m ^ 2 ≤
        (K / (2 * μ)) ^ 2 * (∑ m, (fn (iterateAt S fn aux0 y0 st0 (k + 1))).1 m ^ 2) ^ 2 := by
  intro S
  obtain ⟨st0, hi⟩ : ∃ st0, S.init fn y0 = .ok st0 := ⟨_, rfl⟩
  refine ⟨st0, hi, ?_⟩
  have hμ := hI.pos
  have L : Laws S fn (fun y => 0.5 * sumSquares (fn y).1) (Armijo.search a) (newtonDescent ls none)
      (gnView (A := A) (backtrackingGaussNewton a rtol atol nY nF ls jac) fn) _ :=
    gn_laws (backtrackingGaussNewton a rtol atol nY nF ls jac) aux0 fn
  have hG : ∀ y (i : FnInfo ι ι), i = .residualJac (fn y).1 (jac y) → i.grad? = some ((jac y).transpose.mulVec (fn y).1) := by
    rintro y i rfl; rfl
  set Y := iterateAt S fn aux0 y0 st0 with hYd
  set St := stateAt S fn aux0 y0 st0 with hSt
  have hE0 : ∀ y, 0 ≤ ∑ m, (fn y).1 m ^ 2 := fun y => Finset.sum_nonneg fun i _ => sq_nonneg _
  -- one step
  have hstep : ∀ k, (St (k + 1)).searchState = 1 → ∑ m, (fn (Y (k + 1))).1 m ^ 2 ≤ R ^ 2 →
      Y (k + 2) = (fun i => Y (k + 1) i - (ls.rect (jac (Y (k + 1))) (fn (Y (k + 1))).1).1 i) ∧ (St (k + 2)).searchState = 1 ∧
      ∑ m, (fn (Y (k + 2))).1 m ^ 2 ≤ (1 - 2 * a.slope) * ∑ m, (fn (Y (k + 1))).1 m ^ 2 := by
    intro k h2 h3
    have htr : (St (k + 1)).yEval = _ := armijo_trial L hG aux0 y0 st0 hi k
    have hds : (St (k + 1)).descentState = _ := backtracking_newton_state a rtol atol nY nF ls jac aux0 fn y0 st0 hi k
    have htr' : (St (k + 1)).yEval = fun i => Y (k + 1) i - (ls.rect (jac (Y (k + 1))) (fn (Y (k + 1))).1).1 i := by
      rw [htr]
      funext c
      show Y (k + 1) c + -(St (k + 1)).searchState * (St (k + 1)).descentState.1 c = _
      rw [h2, hds]
      ring
    obtain ⟨f1, _, f3⟩ := full_step_armijo a ls hls jac fn K μ B hJ hI (Y (k + 1))
    have hfall : (K / (2 * μ)) ^ 2 * (∑ m, (fn (Y (k + 1))).1 m ^ 2) ^ 2 ≤ (1 - 2 * a.slope) * ∑ m, (fn (Y (k + 1))).1 m ^ 2 := by
      have h4 : (K / (2 * μ)) ^ 2 * ∑ m, (fn (Y (k + 1))).1 m ^ 2 ≤ 1 - 2 * a.slope := by
        rw [div_pow, div_mul_eq_mul_div, div_le_iff₀ (by positivity)]
        have := mul_le_mul_of_nonneg_left h3 (sq_nonneg K)
        rw [mul_pow] at hKR
        linarith
      calc _ = (K / (2 * μ)) ^ 2 * (∑ m, (fn (Y (k + 1))).1 m ^ 2) * ∑ m, (fn (Y (k + 1))).1 m ^ 2 := by ring
        _ ≤ _ := mul_le_mul_of_nonneg_right h4 (hE0 _)
    have hA := f1.2 (f3.trans hfall)
    have hrun := (armijo_run L hG aux0 y0 st0 hi k).2
    rcases hrun with ⟨_, r2, r3⟩ | ⟨r1, _⟩
    · have r2' : Y (k + 2) = (St (k + 1)).yEval := r2
      have r3' : (St (k + 2)).searchState = a.stepInit := r3
      refine ⟨r2'.trans htr', r3'.trans h1, ?_⟩
      rw [r2', htr']
      exact f3.trans hfall
    · refine absurd ?_ r1
      show ArmijoHolds a.slope _ _ (Y (k + 1)) (St (k + 1)).yEval
      rw [htr']
      exact hA
  have hinv : ∀ k, (St (k + 1)).searchState = 1 ∧ ∑ m, (fn (Y (k + 1))).1 m ^ 2 ≤ R ^ 2 := by
    intro k
    induction k with
    | zero =>
      have h2 := armijo_start L aux0 y0 st0 hi
      have h3 : (St 1).searchState = a.stepInit := h2.2.1
      refine ⟨h3.trans h1, ?_⟩
      rw [show Y (0 + 1) = y0 from h2.1]
      exact hR
    | succ k ih =>
      obtain ⟨_, h3, h4⟩ := hstep k ih.1 ih.2
      refine ⟨h3, h4.trans (le_trans ?_ ih.2)⟩
      have := mul_nonneg hslope (hE0 (Y (k + 1)))
      linarith
  intro k
  obtain ⟨h2, h3⟩ := hinv k
  obtain ⟨g1, _, g3⟩ := hstep k h2 h3
  obtain ⟨_, f2, f3⟩ := full_step_armijo a ls hls jac fn K μ B hJ hI (Y (k + 1))
  refine ⟨fun m => ?_, g3, ?_⟩
  · rw [g1]; exact f2 m
  · rw [g1]; exact f3

/-- **C127**, the limit of the above: if `step_init` is one and `slope` is above a half, the full Newton step, which is tried first, is
turned down at every point that is not a root, whatever the system (even an affine one, for which that step leads to the root). -/
theorem C127_slope_above_half (hslope : 1 / 2 < a.slope) :
    let S := GaussNewton.solver (backtrackingGaussNewton a rtol atol nY nF ls jac) aux0
    ∃ st0, S.init fn y0 = .ok st0 ∧ (stateAt S fn aux0 y0 st0 1).searchState = 1 ∧
      ∀ k, (stateAt S fn aux0 y0 st0 (k + 1)).searchState = 1 →
      (∃ m, (fn (iterateAt S fn aux0 y0 st0 (k + 1))).1 m ≠ 0) →
      (stateAt S fn aux0 y0 st0 (k + 1)).yEval = (fun i => iterateAt S fn aux0 y0 st0 (k + 1) i -
        (ls.rect (jac (iterateAt S fn aux0 y0 st0 (k + 1))) (fn (iterateAt S fn aux0 y0 st0 (k + 1))).1).1 i) ∧
      iterateAt S fn aux0 y0 st0 (k + 2) = iterateAt S fn aux0 y0 st0 (k + 1) := by
  intro S
  obtain ⟨st0, hi⟩ : ∃ st0, S.init fn y0 = .ok st0 := ⟨_, rfl⟩
  have L : Laws S fn (fun y => 0.5 * sumSquares (fn y).1) (Armijo.search a) (newtonDescent ls none)
      (gnView (A := A) (backtrackingGaussNewton a rtol atol nY nF ls jac) fn) _ :=
    gn_laws (backtrackingGaussNewton a rtol atol nY nF ls jac) aux0 fn
  have hG : ∀ y (i : FnInfo ι ι), i = .residualJac (fn y).1 (jac y) → i.grad? = some ((jac y).transpose.mulVec (fn y).1) := by
    rintro y i rfl; rfl
  set Y := iterateAt S fn aux0 y0 st0 with hYd
  set St := stateAt S fn aux0 y0 st0 with hSt
  refine ⟨st0, hi, (armijo_start L aux0 y0 st0 hi).2.1.trans h1, ?_⟩
  intro k h2 ⟨m, hm⟩
  have hpos : 0 < ∑ m, (fn (Y (k + 1))).1 m ^ 2 :=
    Finset.sum_pos' (fun i _ => sq_nonneg _) ⟨m, Finset.mem_univ m, by positivity⟩
  have htr : (St (k + 1)).yEval = _ := armijo_trial L hG aux0 y0 st0 hi k
  have hds : (St (k + 1)).descentState = _ := backtracking_newton_state a rtol atol nY nF ls jac aux0 fn y0 st0 hi k
  have htr' : (St (k + 1)).yEval = fun i => Y (k + 1) i - (ls.rect (jac (Y (k + 1))) (fn (Y (k + 1))).1).1 i := by
    rw [htr]
    funext c
    show Y (k + 1) c + -(St (k + 1)).searchState * (St (k + 1)).descentState.1 c = _
    rw [h2, hds]
    ring
  refine ⟨htr', ?_⟩
  obtain ⟨f1, _, _⟩ := full_step_armijo a ls hls jac fn K μ B hJ hI (Y (k + 1))
  rcases (armijo_run L hG aux0 y0 st0 hi k).2 with ⟨r1, _⟩ | ⟨_, r2, _⟩
  · have r1' : ArmijoHolds a.slope (fun y => 0.5 * sumSquares (fn y).1) ((jac (Y (k + 1))).transpose.mulVec (fn (Y (k + 1))).1)
      (Y (k + 1)) (St (k + 1)).yEval := r1
    rw [htr'] at r1'
    have h3 := f1.1 r1'
    have h4 : (1 - 2 * a.slope) * ∑ m, (fn (Y (k + 1))).1 m ^ 2 < 0 := mul_neg_of_neg_of_pos (by linarith) hpos
    have h5 : 0 ≤ ∑ m, (fn fun i => Y (k + 1) i - (ls.rect (jac (Y (k + 1))) (fn (Y (k + 1))).1).1 i).1 m ^ 2 :=
      Finset.sum_nonneg fun i _ => sq_nonneg _
    linarith
  · exact r2

end

/-- From every starting point, `root_find` with the damped Newton method solves `x + sin x / 4 = 0`. -/
example (ls : LinSolve Unit Unit) (hls : SolvesLeastSquares ls) (hok : ∀ M v, (ls.rect M v).2 = .successful)
    (a : Armijo.Cfg ℝ) (ha : Armijo.new (1/2) (1/10) 1 = .ok a) (y0 : Unit → ℝ) :
    ∃ sol, rootFindViaLeastSquares (GaussNewton.solver (backtrackingGaussNewton a (1/10) (1/10) maxNorm maxNorm ls wavyLineJac)
        (fun _ => 0, ())) maxNorm (1/10) (fun _ => 1) (fun _ => true) (fun y => (wavyLine y, ())) (fun _ => 0, ()) y0 none true =
          some (.ok sol) ∧ sol.result = .successful := by
  obtain ⟨N, h⟩ := C127_root_find (1/2) (1/10) 1 a ha (1/10) (1/10) maxNorm maxNorm ls hls hok wavyLineJac (fun y => (wavyLine y, ()))
    y0 (1/4) (9/16) (25/16) wavyLine_lipschitz wavyLine_invertible (by norm_num)
    (by norm_num) (by norm_num) goodNorm_maxNorm goodNorm_maxNorm (fun _ => 1) (fun _ => 0, ())
  obtain ⟨sol, s1, s2, _⟩ := h none true (by simp)
  exact ⟨sol, s1, s2⟩

/-- From every starting point, `least_squares` with the damped Gauss-Newton method succeeds on the residuals `(y, sin y)`. -/
example (ls : LinSolve Unit Bool) (hls : SolvesLeastSquares ls) (hok : ∀ M v, (ls.rect M v).2 = .successful)
    (a : Armijo.Cfg ℝ) (ha : Armijo.new (1/2) (1/10) 1 = .ok a) (y0 : Unit → ℝ) :
    ∃ sol, iterativeSolve (GaussNewton.solver (backtrackingGaussNewton a (1/10) (1/10) maxNorm maxNorm ls waveJac) ()) (fun _ => true)
      (fun y => (waveResiduals y, ())) () y0 none true = some (.ok sol) ∧ sol.result = .successful := by
  obtain ⟨st0, _, _, N, h⟩ := C127_gauss_newton (1/2) (1/10) 1 a ha (1/10) (1/10) maxNorm maxNorm ls hls hok waveJac ()
    (fun y => (waveResiduals y, ())) y0 2 2 1 wave_smooth (by norm_num) one_pos wave_rank (by norm_num) (by norm_num) goodNorm_maxNorm
    goodNorm_maxNorm
  obtain ⟨sol, s1, s2, _⟩ := h none true (by simp)
  exact ⟨sol, s1, s2⟩

/-- The default parameters of `BacktrackingArmijo` are valid. -/
example : ∃ a, Armijo.new (1/2 : ℝ) (1/10) 1 = .ok a := by
  refine ⟨⟨1/2, 1/10, 1⟩, ?_⟩
  unfold Armijo.new
  norm_num

end Verif.Props
