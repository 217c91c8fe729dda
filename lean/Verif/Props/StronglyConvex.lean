import Verif.Props.GlobalConvergence
import Verif.Props.LBFGSCompact
import Verif.Lemmas.SpdBounds

/-!
Property C63: the quasi-Newton solvers solve every strongly convex problem.
-/

namespace Verif.Props

open Verif Verif.Spec Verif.Driver Verif.SearchLoop Verif.Rank Verif.QuasiNewton Verif.LBFGS Filter Topology

variable {ι A HS : Type} [Fintype ι]

/-- `f` lies above the parabola `f(y) + ∇f(y)·(z-y) + μ/2 |z-y|²` through every point `y`, for some fixed curvature `μ > 0`. -/
structure StronglyConvex (f : (ι → ℝ) → ℝ) (grad : (ι → ℝ) → (ι → ℝ)) (μ : ℝ) : Prop where
  pos : 0 < μ
  lower : ∀ y z, f y + ∑ i, grad y i * (z i - y i) + μ / 2 * ∑ i, (z i - y i) ^ 2 ≤ f z

theorem StronglyConvex.bounded {f : (ι → ℝ) → ℝ} {grad : (ι → ℝ) → (ι → ℝ)} {μ : ℝ} (h : StronglyConvex f grad μ)
    (y z : ι → ℝ) : f y - 1 / (2 * μ) * ∑ i, grad y i ^ 2 ≤ f z := by
  have h1 := h.lower y z
  have hμ := h.pos
  have h2 : ∑ i, (-(1 / (2 * μ)) * grad y i ^ 2) ≤ ∑ i, (grad y i * (z i - y i) + μ / 2 * (z i - y i) ^ 2) := by
    refine Finset.sum_le_sum fun i _ => ?_
    have : 0 ≤ (grad y i + μ * (z i - y i)) ^ 2 / (2 * μ) := by positivity
    have e : (grad y i + μ * (z i - y i)) ^ 2 / (2 * μ) =
        grad y i * (z i - y i) + μ / 2 * (z i - y i) ^ 2 - -(1 / (2 * μ)) * grad y i ^ 2 := by field_simp; ring
    linarith
  rw [Finset.sum_add_distrib, ← Finset.mul_sum, ← Finset.mul_sum] at h2
  linarith

theorem StronglyConvex.monotone {f : (ι → ℝ) → ℝ} {grad : (ι → ℝ) → (ι → ℝ)} {μ : ℝ} (h : StronglyConvex f grad μ)
    (y z : ι → ℝ) : μ ^ 2 * ∑ i, (z i - y i) ^ 2 ≤ ∑ i, (grad z i - grad y i) ^ 2 := by
  have h1 := h.lower y z
  have h2 := h.lower z y
  have hμ := h.pos
  have e1 : ∑ i, (y i - z i) ^ 2 = ∑ i, (z i - y i) ^ 2 := Finset.sum_congr rfl fun i _ => by ring
  have h3 : μ * ∑ i, (z i - y i) ^ 2 ≤ ∑ i, (grad z i - grad y i) * (z i - y i) := by
    have e2 : ∑ i, (grad z i - grad y i) * (z i - y i) =
        -(∑ i, grad z i * (y i - z i)) - ∑ i, grad y i * (z i - y i) := by
      rw [← Finset.sum_neg_distrib, ← Finset.sum_sub_distrib]
      exact Finset.sum_congr rfl fun i _ => by ring
    rw [e1] at h2
    rw [e2]; linarith
  have h4 : ∑ i, 2 * μ * ((grad z i - grad y i) * (z i - y i)) ≤
      ∑ i, ((grad z i - grad y i) ^ 2 + μ ^ 2 * (z i - y i) ^ 2) :=
    Finset.sum_le_sum fun i _ => by nlinarith [sq_nonneg (grad z i - grad y i - μ * (z i - y i))]
  rw [← Finset.mul_sum, Finset.sum_add_distrib, ← Finset.mul_sum] at h4
  nlinarith

/-- If the gradients along a sequence tend to zero, the sequence tends to the unique minimiser. -/
theorem StronglyConvex.limit {f : (ι → ℝ) → ℝ} {grad : (ι → ℝ) → (ι → ℝ)} {μ L : ℝ} (h : StronglyConvex f grad μ)
    (hL : LipschitzGradient f grad L) (Y : Nat → ι → ℝ) (hY : Tendsto (fun k => ∑ i, grad (Y k) i ^ 2) atTop (𝓝 0)) :
    ∃ x, (∀ y, y ≠ x → f x < f y) ∧ Tendsto Y atTop (𝓝 x) := by
  have hμ := h.pos
  have hdiff : ∀ k l i, μ ^ 2 * (Y k i - Y l i) ^ 2 ≤ 2 * ∑ i, grad (Y k) i ^ 2 + 2 * ∑ i, grad (Y l) i ^ 2 := by
    intro k l i
    have h1 := h.monotone (Y l) (Y k)
    have h2 : (Y k i - Y l i) ^ 2 ≤ ∑ i, (Y k i - Y l i) ^ 2 :=
      Finset.single_le_sum (f := fun i => (Y k i - Y l i) ^ 2) (fun i _ => sq_nonneg _) (Finset.mem_univ i)
    have h3 : ∑ i, (grad (Y k) i - grad (Y l) i) ^ 2 ≤ ∑ i, (2 * grad (Y k) i ^ 2 + 2 * grad (Y l) i ^ 2) :=
      Finset.sum_le_sum fun i _ => by nlinarith [sq_nonneg (grad (Y k) i + grad (Y l) i)]
    rw [Finset.sum_add_distrib, ← Finset.mul_sum, ← Finset.mul_sum] at h3
    exact (mul_le_mul_of_nonneg_left h2 (by positivity)).trans (h1.trans h3)
  have hc : ∀ i, CauchySeq fun k => Y k i := by
    intro i
    rw [Metric.cauchySeq_iff']
    intro ε hε
    have hpos : 0 < μ ^ 2 * ε ^ 2 / 4 := by positivity
    obtain ⟨N, hN⟩ := eventually_atTop.1 (hY.eventually (gt_mem_nhds hpos))
    refine ⟨N, fun n hn => ?_⟩
    rw [Real.dist_eq]
    have h1 := hdiff n N i
    have h2 := hN n hn
    have h3 := hN N le_rfl
    have h4 : μ ^ 2 * (Y n i - Y N i) ^ 2 < μ ^ 2 * ε ^ 2 := by linarith
    exact abs_lt_of_sq_lt_sq (lt_of_mul_lt_mul_left h4 (by positivity)) hε.le
  choose x hx using fun i => cauchySeq_tendsto_of_complete (hc i)
  refine ⟨x, ?_, tendsto_pi_nhds.2 hx⟩
  have hz : ∑ i, grad x i ^ 2 = 0 := by
    have hlim : Tendsto (fun k => ∑ i, (x i - Y k i) ^ 2) atTop (𝓝 0) := by
      have : Tendsto (fun k => ∑ i, (x i - Y k i) ^ 2) atTop (𝓝 (∑ i, (x i - x i) ^ 2)) :=
        tendsto_finsetSum _ fun i _ => ((hx i).const_sub (x i)).pow 2
      simpa using this
    have hup : Tendsto (fun k => 2 * (L ^ 2 * ∑ i, (x i - Y k i) ^ 2) + 2 * ∑ i, grad (Y k) i ^ 2) atTop (𝓝 0) := by
      simpa using ((hlim.const_mul (L ^ 2)).const_mul 2).add (hY.const_mul 2)
    refine le_antisymm (ge_of_tendsto' hup fun k => ?_) (Finset.sum_nonneg fun i _ => sq_nonneg _)
    have h1 := hL.lipschitz x (Y k)
    have h3 : ∑ i, grad x i ^ 2 ≤ ∑ i, (2 * (grad x i - grad (Y k) i) ^ 2 + 2 * grad (Y k) i ^ 2) :=
      Finset.sum_le_sum fun i _ => by nlinarith [sq_nonneg (grad x i - 2 * grad (Y k) i)]
    rw [Finset.sum_add_distrib, ← Finset.mul_sum, ← Finset.mul_sum] at h3
    linarith
  have hz' : ∀ i, grad x i = 0 := fun i => by
    have := (Finset.sum_eq_zero_iff_of_nonneg fun i _ => sq_nonneg _).1 hz i (Finset.mem_univ i)
    exact pow_eq_zero_iff (two_ne_zero) |>.1 this
  intro y hy
  have h1 := h.lower x y
  have h2 : ∑ i, grad x i * (y i - x i) = 0 := Finset.sum_eq_zero fun i _ => by rw [hz' i, zero_mul]
  obtain ⟨i, hi⟩ : ∃ i, y i - x i ≠ 0 := by
    by_contra hc
    simp only [not_exists, not_not, sub_eq_zero] at hc
    exact hy (funext hc)
  have h3 : 0 < ∑ i, (y i - x i) ^ 2 :=
    Finset.sum_pos' (fun i _ => sq_nonneg _) ⟨i, Finset.mem_univ i, by positivity⟩
  rw [h2] at h1
  have : 0 < μ / 2 * ∑ i, (y i - x i) ^ 2 := by positivity
  linarith

theorem newton_direction (ls : LinSolve ι Unit) (b : Bool) (hls : b = false → SolvesSPD ls) (i : FnInfo ι Unit)
    (M : Matrix ι ι ℝ) (hM : Stores b i M) (hp : SPD M) (g : ι → ℝ) (hg : i.grad? = some g) :
    (newtonStep ls i).2 = .successful ∧
    (if b then (newtonStep ls i).1 = M.mulVec g else M.mulVec (newtonStep ls i).1 = g) := by
  obtain ⟨f0, g0, rfl⟩ := hM
  cases b
  · have : g0 = g := by simpa [FnInfo.grad?] using hg
    subst this
    exact hls rfl M g0 hp
  · have : g0 = g := by simpa [FnInfo.grad?] using hg
    subst this
    exact ⟨rfl, rfl⟩

/-- The solve starts; the objective has a unique minimiser and the iterates converge to it; the solve stops by itself and
reports success, with every sufficiently large budget and with none. -/
def Solves {Y0 St Stats : Type} (S : Solver Y0 ℝ A St Stats) (fn : Y0 → ℝ × A) (aux0 : A) (y0 : Y0) [TopologicalSpace Y0] :
    Prop :=
  ∃ st0, S.init fn y0 = .ok st0 ∧
    (∃ x, (∀ y, y ≠ x → (fn x).1 < (fn y).1) ∧ Tendsto (iterateAt S fn aux0 y0 st0) atTop (𝓝 x)) ∧
    ∃ N, ∀ ms throw, (∀ n, ms = some n → N ≤ n) →
      ∃ sol, iterativeSolve S (fun _ => true) fn aux0 y0 ms throw = some (.ok sol) ∧
        sol.result = .successful ∧ sol.numSteps ≤ N

/-- Guarded quasi-Newton runs with backtracking, on strongly convex objectives: the matrix changes only finitely often, so that the
directions stay related to the gradient. -/
theorem guarded_related (b : Bool) (ls : LinSolve ι Unit) (hls : b = false → SolvesSPD ls)
    (d s i : ℝ) (a : Armijo.Cfg ℝ) (ha : Armijo.new d s i = .ok a)
    (cfg : QuasiNewton.Cfg ι ℝ ((ι → ℝ) × Result) HS) (hs : cfg.search = Armijo.search a) (hrec : RecordsPoint cfg.hess)
    (hd : cfg.descent = newtonDescent ls none) (aux0 : A) (fn : (ι → ℝ) → ℝ × A) (y0 : ι → ℝ) (L μ eps : ℝ)
    (hL : LipschitzGradient (fun y => (fn y).1) cfg.grad L) (hμ : StronglyConvex (fun y => (fn y).1) cfg.grad μ)
    (heps : 0 < eps)
    (st0 : QuasiNewton.State ι A ℝ ((ι → ℝ) × Result) HS) (hi : (QuasiNewton.solver cfg aux0).init fn y0 = .ok st0)
    (M : Nat → Matrix ι ι ℝ)
    (hM : ∀ k, Stores b (stateAt (QuasiNewton.solver cfg aux0) fn aux0 y0 st0 (k + 1)).fInfo (M k)) (hp : ∀ k, SPD (M k))
    (hkeep : ∀ k, let Y := iterateAt (QuasiNewton.solver cfg aux0) fn aux0 y0 st0
      ¬ eps < ∑ c, (cfg.grad (Y (k + 2)) c - cfg.grad (Y (k + 1)) c) * (Y (k + 2) c - Y (k + 1) c) → M (k + 1) = M k) :
    (∃ σ ρ, 0 < σ ∧ 0 < ρ ∧ ∀ k, 1 ≤ k → GradientRelated cfg.descent σ ρ
      (cfg.grad (iterateAt (QuasiNewton.solver cfg aux0) fn aux0 y0 st0 k))
      (stateAt (QuasiNewton.solver cfg aux0) fn aux0 y0 st0 k).descentState) ∧ ∃ K, ∀ k, K ≤ k → M k = M K := by
  obtain ⟨ha', hd0, hd1, hs0, hs1, hi0⟩ := armijo_new d s i a ha
  set Y := iterateAt (QuasiNewton.solver cfg aux0) fn aux0 y0 st0 with hYd
  set St := stateAt (QuasiNewton.solver cfg aux0) fn aux0 y0 st0 with hSt
  have hfirst : ∀ y z i j s, (cfg.search.step true y z i j s).2.1 = true := by rw [hs]; exact armijo_first a
  have LL := qn_laws cfg aux0 fn hrec
  have LA := LL
  rw [hs] at LA
  have hG : ∀ y (i : FnInfo ι Unit), (i.asMin = (fn y).1 ∧ i.grad? = some (cfg.grad y)) →
      i.grad? = some (cfg.grad y) := fun y i h => h.2
  have hrun := armijo_run (G := cfg.grad) LA hG aux0 y0 st0 hi
  have hslope : 0 < a.slope ∧ a.slope < 1 := by rw [ha']; exact ⟨hs0, hs1⟩
  -- each step from `Y (k+1)` to `Y (k+2)` gains in proportion to its length
  have hgain : ∀ k, a.slope * (μ / 2) * ∑ c, (Y (k + 2) c - Y (k + 1) c) ^ 2 ≤ (fn (Y (k + 1))).1 - (fn (Y (k + 2))).1 := by
    intro k
    rcases (hrun k).2 with ⟨h, hy, _⟩ | ⟨_, hy, _⟩
    · have hy' : Y (k + 2) = (qnView fn).yEval (St (k + 1)) := hy
      have h' : ArmijoHolds a.slope (fun y => (fn y).1) (cfg.grad (Y (k + 1))) (Y (k + 1)) (Y (k + 2)) := by
        rw [hy']; exact h
      obtain ⟨h1, h2⟩ := h'
      have h3 := hμ.lower (Y (k + 1)) (Y (k + 2))
      have e : treeDot (cfg.grad (Y (k + 1))) (fun i => Y (k + 2) i - Y (k + 1) i) =
        ∑ i, cfg.grad (Y (k + 1)) i * (Y (k + 2) i - Y (k + 1) i) := rfl
      rw [e] at h1 h2
      have hq : 0 ≤ ∑ c, (Y (k + 2) c - Y (k + 1) c) ^ 2 := Finset.sum_nonneg fun i _ => sq_nonneg _
      have hμ0 := hμ.pos
      simp only at h1 h3
      have h4 : μ / 2 * ∑ c, (Y (k + 2) c - Y (k + 1) c) ^ 2 ≤
          -∑ i, cfg.grad (Y (k + 1)) i * (Y (k + 2) i - Y (k + 1) i) := by
        have := mul_nonpos_of_nonneg_of_nonpos hslope.1.le h2
        linarith
      have := mul_le_mul_of_nonneg_left h4 hslope.1.le
      linarith
    · have hy' : Y (k + 2) = Y (k + 1) := hy
      rw [hy']; simp
  have hsq0 : ∀ k, 0 ≤ ∑ c, (Y (k + 2) c - Y (k + 1) c) ^ 2 := fun k => Finset.sum_nonneg fun i _ => sq_nonneg _
  have hanti : Antitone fun k => (fn (Y (k + 1))).1 := antitone_nat_of_succ_le fun k => by
    have h1 := hgain k
    have h2 := hsq0 k
    have h3 := hμ.pos
    have : 0 ≤ a.slope * (μ / 2) * ∑ c, (Y (k + 2) c - Y (k + 1) c) ^ 2 := by
      have := hslope.1
      positivity
    show (fn (Y (k + 2))).1 ≤ (fn (Y (k + 1))).1
    linarith
  -- finitely many updates
  have hupd : ∃ K, ∀ k, K ≤ k → M k = M K := by
    set δ := a.slope * (μ / 2) * (eps / (L + 1)) with hδ
    have hL0 := hL.nonneg
    have hδ0 : 0 < δ := by
      have := hslope.1
      have := hμ.pos
      positivity
    obtain ⟨_, hdrop⟩ := settle (fun k => (fn (Y (k + 1))).1) (fun _ => 0) _ 1 hanti
      (fun k => hμ.bounded (Y 0) (Y (k + 1))) one_pos (fun _ => le_rfl) (fun k => ⟨k, le_rfl, by
        rw [mul_zero]; exact sub_nonneg.2 (hanti (Nat.le_succ k))⟩)
    obtain ⟨K, hK⟩ := eventually_atTop.1 (hdrop.eventually (gt_mem_nhds hδ0))
    have hstep : ∀ k, K ≤ k → M (k + 1) = M k := by
      intro k hk
      refine hkeep k fun hlt => ?_
      have h1 := hK k hk
      have h2 := hgain k
      have h3 : ∑ c, (cfg.grad (Y (k + 2)) c - cfg.grad (Y (k + 1)) c) * (Y (k + 2) c - Y (k + 1) c) ≤
          (L + 1) * ∑ c, (Y (k + 2) c - Y (k + 1) c) ^ 2 := by
        have h4 := hL.lipschitz (Y (k + 2)) (Y (k + 1))
        have h5 : ∑ c, (2 * (L + 1)) * ((cfg.grad (Y (k + 2)) c - cfg.grad (Y (k + 1)) c) * (Y (k + 2) c - Y (k + 1) c)) ≤
            ∑ c, ((cfg.grad (Y (k + 2)) c - cfg.grad (Y (k + 1)) c) ^ 2 + (L + 1) ^ 2 * (Y (k + 2) c - Y (k + 1) c) ^ 2) :=
          Finset.sum_le_sum fun c _ => by
            nlinarith [sq_nonneg (cfg.grad (Y (k + 2)) c - cfg.grad (Y (k + 1)) c - (L + 1) * (Y (k + 2) c - Y (k + 1) c))]
        rw [← Finset.mul_sum, Finset.sum_add_distrib, ← Finset.mul_sum] at h5
        have h6 := hsq0 k
        have h7 : L ^ 2 * ∑ c, (Y (k + 2) c - Y (k + 1) c) ^ 2 ≤ (L + 1) ^ 2 * ∑ c, (Y (k + 2) c - Y (k + 1) c) ^ 2 :=
          mul_le_mul_of_nonneg_right (by nlinarith) h6
        have h8 : (2 * (L + 1)) * ∑ c, (cfg.grad (Y (k + 2)) c - cfg.grad (Y (k + 1)) c) * (Y (k + 2) c - Y (k + 1) c) ≤
          (2 * (L + 1)) * ((L + 1) * ∑ c, (Y (k + 2) c - Y (k + 1) c) ^ 2) := by nlinarith
        exact le_of_mul_le_mul_left h8 (by positivity)
      have h4 : eps / (L + 1) ≤ ∑ c, (Y (k + 2) c - Y (k + 1) c) ^ 2 := by
        rw [div_le_iff₀ (by positivity)]; linarith
      have h5 : δ ≤ a.slope * (μ / 2) * ∑ c, (Y (k + 2) c - Y (k + 1) c) ^ 2 :=
        mul_le_mul_of_nonneg_left h4 (by have := hslope.1; have := hμ.pos; positivity)
      have h1' : (fn (Y (k + 1))).1 - (fn (Y (k + 2))).1 < δ := h1
      linarith
    refine ⟨K, fun k hk => ?_⟩
    induction k, hk using Nat.le_induction with
    | base => rfl
    | succ k hk ih => rw [hstep k hk, ih]
  refine ⟨?_, hupd⟩
  obtain ⟨K, hK⟩ := hupd
  obtain ⟨σ, ρ, hσ, hρ, hrel⟩ := spd_related_upto b M hp K
  have hdir : ∀ k, 1 ≤ k → GradientRelated cfg.descent σ ρ (cfg.grad (Y k)) (St k).descentState := by
    intro k hk
    obtain _ | k := k
    · omega
    have hds : (St (k + 1)).descentState = newtonStep ls (St (k + 1)).fInfo :=
      newton_state ls HS cfg hd hrec hfirst aux0 fn y0 st0 hi k
    have hgr : (St (k + 1)).fInfo.grad? = some (cfg.grad (Y (k + 1))) := (stored LL hfirst aux0 y0 st0 hi k).1.2
    obtain ⟨h1, h2⟩ := newton_direction ls b hls _ (M k) (hM k) (hp k) _ hgr
    rw [← hds] at h1 h2
    set n := (St (k + 1)).descentState
    have hr : σ * ∑ i, cfg.grad (Y (k + 1)) i ^ 2 ≤ ∑ i, cfg.grad (Y (k + 1)) i * n.1 i ∧
        ∑ i, n.1 i ^ 2 ≤ ρ * ∑ i, cfg.grad (Y (k + 1)) i ^ 2 := by
      rcases Nat.le_total k K with hkK | hkK
      · exact hrel k hkK _ _ h2
      · rw [hK k hkK] at h2
        exact hrel K le_rfl _ _ h2
    refine ⟨fun c => -n.1 c, fun t => ?_, ?_, ?_⟩
    · rw [hd]
      show ((fun c => -t * n.1 c), n.2) = _
      rw [h1]
      congr 1
      funext c; ring
    · have e : ∑ i, cfg.grad (Y (k + 1)) i * -n.1 i = -∑ i, cfg.grad (Y (k + 1)) i * n.1 i := by
        rw [← Finset.sum_neg_distrib]; exact Finset.sum_congr rfl fun i _ => by ring
      show ∑ i, cfg.grad (Y (k + 1)) i * -n.1 i ≤ _
      rw [e]; linarith [hr.1]
    · show ∑ i, (-n.1 i) ^ 2 ≤ _
      simpa only [neg_sq] using hr.2
  exact ⟨σ, ρ, hσ, hρ, hdir⟩

/-- Guarded quasi-Newton runs with backtracking, on strongly convex objectives. -/
theorem guarded_converges (b : Bool) (ls : LinSolve ι Unit) (hls : b = false → SolvesSPD ls)
    (d s i : ℝ) (a : Armijo.Cfg ℝ) (ha : Armijo.new d s i = .ok a)
    (cfg : QuasiNewton.Cfg ι ℝ ((ι → ℝ) × Result) HS) (hs : cfg.search = Armijo.search a) (hrec : RecordsPoint cfg.hess)
    (hd : cfg.descent = newtonDescent ls none) (aux0 : A) (fn : (ι → ℝ) → ℝ × A) (y0 : ι → ℝ) (L μ eps : ℝ)
    (hL : LipschitzGradient (fun y => (fn y).1) cfg.grad L) (hμ : StronglyConvex (fun y => (fn y).1) cfg.grad μ)
    (heps : 0 < eps) (hat : 0 < cfg.atol) (hrt : 0 ≤ cfg.rtol) (hY : GoodNorm cfg.normY) (hF : GoodNorm cfg.normF)
    (st0 : QuasiNewton.State ι A ℝ ((ι → ℝ) × Result) HS) (hi : (QuasiNewton.solver cfg aux0).init fn y0 = .ok st0)
    (M : Nat → Matrix ι ι ℝ)
    (hM : ∀ k, Stores b (stateAt (QuasiNewton.solver cfg aux0) fn aux0 y0 st0 (k + 1)).fInfo (M k)) (hp : ∀ k, SPD (M k))
    (hkeep : ∀ k, let Y := iterateAt (QuasiNewton.solver cfg aux0) fn aux0 y0 st0
      ¬ eps < ∑ c, (cfg.grad (Y (k + 2)) c - cfg.grad (Y (k + 1)) c) * (Y (k + 2) c - Y (k + 1) c) → M (k + 1) = M k) :
    Solves (QuasiNewton.solver cfg aux0) fn aux0 y0 ∧ ∃ K, ∀ k, K ≤ k → M k = M K := by
  obtain ⟨⟨σ, ρ, hσ, hρ, hdir⟩, hupd⟩ := guarded_related b ls hls d s i a ha cfg hs hrec hd aux0 fn y0 L μ eps hL hμ heps st0 hi M hM hp
    hkeep
  refine ⟨?_, hupd⟩
  obtain ⟨h1, h2⟩ := C62_quasi_newton_family d s i a ha cfg hs hrec aux0 fn y0 L _ σ ρ hL (hμ.bounded y0) hat hrt hY hF hσ hρ
    st0 hi hdir
  exact ⟨st0, hi, hμ.limit hL _ h1, h2⟩

/-- Matrices of a run of `BFGS` or `DFP`, one for each step. -/
theorem matrices {HS : Type} (b : Bool) (cfg : QuasiNewton.Cfg ι ℝ ((ι → ℝ) × Result) HS) (eps : ℝ) (aux0 : A)
    (fn : (ι → ℝ) → ℝ × A) (y0 : ι → ℝ) (st0 : QuasiNewton.State ι A ℝ ((ι → ℝ) × Result) HS)
    (h : let Y := iterateAt (QuasiNewton.solver cfg aux0) fn aux0 y0 st0
      let St := stateAt (QuasiNewton.solver cfg aux0) fn aux0 y0 st0
      ∀ k, ∃ M M', Stores b (St (k + 1)).fInfo M ∧ Stores b (St (k + 2)).fInfo M' ∧ SPD M ∧
        (¬ eps < ∑ c, (cfg.grad (Y (k + 2)) c - cfg.grad (Y (k + 1)) c) * (Y (k + 2) c - Y (k + 1) c) → M' = M)) :
    ∃ M : Nat → Matrix ι ι ℝ,
      (∀ k, Stores b (stateAt (QuasiNewton.solver cfg aux0) fn aux0 y0 st0 (k + 1)).fInfo (M k)) ∧ (∀ k, SPD (M k)) ∧
      ∀ k, let Y := iterateAt (QuasiNewton.solver cfg aux0) fn aux0 y0 st0
        ¬ eps < ∑ c, (cfg.grad (Y (k + 2)) c - cfg.grad (Y (k + 1)) c) * (Y (k + 2) c - Y (k + 1) c) → M (k + 1) = M k := by
  choose M M' h1 h2 h3 h4 using h
  refine ⟨M, h1, h3, fun k => ?_⟩
  intro Y hn
  rw [← h4 k hn]
  exact stores_unique (h1 (k + 1)) (h2 k)

/-- **C63** for `BFGS`, with `use_inverse` either way. -/
theorem C63_bfgs [DecidableEq ι] (b : Bool) (ls : LinSolve ι Unit) (hls : b = false → SolvesSPD ls)
    (d s i : ℝ) (a : Armijo.Cfg ℝ) (ha : Armijo.new d s i = .ok a) (eps rtol atol : ℝ) (heps : 0 < eps) (hat : 0 < atol)
    (hrt : 0 ≤ rtol) (nY : (ι → ℝ) → ℝ) (nF : (Unit → ℝ) → ℝ) (hY : GoodNorm nY) (hF : GoodNorm nF)
    (grad : (ι → ℝ) → (ι → ℝ)) (aux0 : A) (fn : (ι → ℝ) → ℝ × A) (y0 : ι → ℝ) (L μ : ℝ)
    (hL : LipschitzGradient (fun y => (fn y).1) grad L) (hμ : StronglyConvex (fun y => (fn y).1) grad μ) :
    Solves (QuasiNewton.solver (withArmijo rtol atol nY nF ls a (bfgs eps b) grad) aux0) fn aux0 y0 := by
  obtain ⟨st0, hi⟩ : ∃ st0, (QuasiNewton.solver (withArmijo rtol atol nY nF ls a (bfgs eps b) grad) aux0).init fn y0 = .ok st0 := by
    cases b <;> exact ⟨_, rfl⟩
  obtain ⟨_, hr⟩ := C34_run eps heps.le b (withArmijo rtol atol nY nF ls a (bfgs eps b) grad) rfl (armijo_first a) aux0 fn y0
    st0 hi
  obtain ⟨M, h1, h2, h3⟩ := matrices b _ eps aux0 fn y0 st0 (fun k => by
    obtain ⟨M, M', h1, h2, h3, h4, h5, h6⟩ := hr k
    exact ⟨M, M', h1, h2, h3, h6⟩)
  exact (guarded_converges b ls hls d s i a ha _ rfl (bfgs_records eps b) rfl aux0 fn y0 L μ eps hL hμ heps hat hrt hY hF st0 hi
    M h1 h2 h3).1

/-- **C63** for `DFP`, with `use_inverse` either way. -/
theorem C63_dfp [DecidableEq ι] (b : Bool) (ls : LinSolve ι Unit) (hls : b = false → SolvesSPD ls)
    (d s i : ℝ) (a : Armijo.Cfg ℝ) (ha : Armijo.new d s i = .ok a) (eps rtol atol : ℝ) (heps : 0 < eps) (hat : 0 < atol)
    (hrt : 0 ≤ rtol) (nY : (ι → ℝ) → ℝ) (nF : (Unit → ℝ) → ℝ) (hY : GoodNorm nY) (hF : GoodNorm nF)
    (grad : (ι → ℝ) → (ι → ℝ)) (aux0 : A) (fn : (ι → ℝ) → ℝ × A) (y0 : ι → ℝ) (L μ : ℝ)
    (hL : LipschitzGradient (fun y => (fn y).1) grad L) (hμ : StronglyConvex (fun y => (fn y).1) grad μ) :
    Solves (QuasiNewton.solver (withArmijo rtol atol nY nF ls a (dfp eps b) grad) aux0) fn aux0 y0 := by
  obtain ⟨st0, hi⟩ : ∃ st0, (QuasiNewton.solver (withArmijo rtol atol nY nF ls a (dfp eps b) grad) aux0).init fn y0 = .ok st0 := by
    cases b <;> exact ⟨_, rfl⟩
  obtain ⟨_, hr⟩ := C35_run eps heps.le b (withArmijo rtol atol nY nF ls a (dfp eps b) grad) rfl (armijo_first a) aux0 fn y0
    st0 hi
  obtain ⟨M, h1, h2, h3⟩ := matrices b _ eps aux0 fn y0 st0 (fun k => by
    obtain ⟨M, M', h1, h2, h3, h4, h5, h6⟩ := hr k
    exact ⟨M, M', h1, h2, h3, h6⟩)
  exact (guarded_converges b ls hls d s i a ha _ rfl (dfp_records eps b) rfl aux0 fn y0 L μ eps hL hμ heps hat hrt hY hF st0 hi
    M h1 h2 h3).1

/-- Without curvature there is no new pair. -/
theorem pairs_keep (eps : ℝ) (grad : (ι → ℝ) → ι → ℝ) (Y : Nat → ι → ℝ) (k : Nat)
    (h : ¬ eps < ∑ c, (grad (Y (k + 2)) c - grad (Y (k + 1)) c) * (Y (k + 2) c - Y (k + 1) c)) :
    curvaturePairs eps grad Y (k + 1) = curvaturePairs eps grad Y k := by
  rw [curvaturePairs]
  exact if_neg h

/-- **C63** for `LBFGS(use_inverse=True)`, with every history length. -/
theorem C63_lbfgs_inverse [DecidableEq ι] (h : Nat) [NeZero h] (ls : LinSolve ι Unit)
    (d s i : ℝ) (a : Armijo.Cfg ℝ) (ha : Armijo.new d s i = .ok a) (eps rtol atol : ℝ) (heps : 0 < eps) (hat : 0 < atol)
    (hrt : 0 ≤ rtol) (nY : (ι → ℝ) → ℝ) (nF : (Unit → ℝ) → ℝ) (hY : GoodNorm nY) (hF : GoodNorm nF)
    (grad : (ι → ℝ) → (ι → ℝ)) (aux0 : A) (fn : (ι → ℝ) → ℝ × A) (y0 : ι → ℝ) (L μ : ℝ)
    (hL : LipschitzGradient (fun y => (fn y).1) grad L) (hμ : StronglyConvex (fun y => (fn y).1) grad μ) :
    Solves (QuasiNewton.solver (withArmijo rtol atol nY nF ls a (LBFGS.inverse eps h) grad) aux0) fn aux0 y0 := by
  obtain ⟨st0, hi⟩ : ∃ st0, (QuasiNewton.solver (withArmijo rtol atol nY nF ls a (LBFGS.inverse eps h) grad) aux0).init fn y0 =
    .ok st0 := ⟨_, rfl⟩
  have hr := C38_run eps heps.le h (withArmijo rtol atol nY nF ls a (LBFGS.inverse eps h) grad) rfl (armijo_first a) aux0 fn y0
    st0 hi
  exact (guarded_converges true ls (fun h => by cases h) d s i a ha _ rfl (inverse_records eps h) rfl aux0 fn y0 L μ eps hL hμ
    heps hat hrt hY hF st0 hi _ (fun k => (hr k).1) (fun k => (hr k).2.2.1) (fun k => by
      intro Y hn
      rw [pairs_keep _ _ _ k hn])).1

/-- **C63** for `LBFGS(use_inverse=False)`, with every history length. -/
theorem C63_lbfgs_direct [DecidableEq ι] (h : Nat) [NeZero h] (la : DenseLA h) (hla : ExactLA la) (ls : LinSolve ι Unit)
    (hls : SolvesSPD ls)
    (d s i : ℝ) (a : Armijo.Cfg ℝ) (ha : Armijo.new d s i = .ok a) (eps rtol atol : ℝ) (heps : 0 < eps) (hat : 0 < atol)
    (hrt : 0 ≤ rtol) (nY : (ι → ℝ) → ℝ) (nF : (Unit → ℝ) → ℝ) (hY : GoodNorm nY) (hF : GoodNorm nF)
    (grad : (ι → ℝ) → (ι → ℝ)) (aux0 : A) (fn : (ι → ℝ) → ℝ × A) (y0 : ι → ℝ) (L μ : ℝ)
    (hL : LipschitzGradient (fun y => (fn y).1) grad L) (hμ : StronglyConvex (fun y => (fn y).1) grad μ) :
    Solves (QuasiNewton.solver (withArmijo rtol atol nY nF ls a (LBFGS.direct eps h la) grad) aux0) fn aux0 y0 := by
  obtain ⟨st0, hi⟩ : ∃ st0, (QuasiNewton.solver (withArmijo rtol atol nY nF ls a (LBFGS.direct eps h la) grad) aux0).init fn y0 =
    .ok st0 := ⟨_, rfl⟩
  have hr := C39_run eps heps.le h la hla (withArmijo rtol atol nY nF ls a (LBFGS.direct eps h la) grad) rfl (armijo_first a)
    aux0 fn y0 st0 hi
  exact (guarded_converges false ls (fun _ => hls) d s i a ha _ rfl (direct_records eps h la) rfl aux0 fn y0 L μ eps hL hμ
    heps hat hrt hY hF st0 hi _ (fun k => (hr k).1) (fun k => (hr k).2.2.1) (fun k => by
      intro Y hn
      rw [pairs_keep _ _ _ k hn])).1

/-- **C63** for steepest descent with backtracking. -/
theorem C63_steepest_descent (d s i : ℝ) (a : Armijo.Cfg ℝ) (ha : Armijo.new d s i = .ok a)
    (rtol atol : ℝ) (nY : (ι → ℝ) → ℝ) (nF : (Unit → ℝ) → ℝ) (grad : (ι → ℝ) → (ι → ℝ)) (aux0 : A)
    (fn : (ι → ℝ) → ℝ × A) (y0 : ι → ℝ) (L μ : ℝ) (hL : LipschitzGradient (fun y => (fn y).1) grad L)
    (hμ : StronglyConvex (fun y => (fn y).1) grad μ) (hat : 0 < atol) (hrt : 0 ≤ rtol) (hY : GoodNorm nY) (hF : GoodNorm nF) :
    Solves (GradientDescent.solver (backtrackingDescent a rtol atol nY nF grad) aux0) fn aux0 y0 := by
  obtain ⟨st0, hi, h1, h2⟩ := C62_steepest_descent d s i a ha rtol atol nY nF grad aux0 fn y0 L _ hL (hμ.bounded y0) hat hrt hY
    hF
  exact ⟨st0, hi, hμ.limit hL _ h1, h2⟩

/-- The objective `Σ yᵢ²` is strongly convex, so that for instance `BFGS` and `LBFGS` with history length 10 solve it from
every starting point, with the default backtracking parameters. -/
theorem square_convex : StronglyConvex (fun y : ι → ℝ => ∑ i, y i ^ 2) (fun y i => 2 * y i) 2 := by
  refine ⟨by norm_num, fun y z => ?_⟩
  rw [div_self two_ne_zero, one_mul, ← Finset.sum_add_distrib, ← Finset.sum_add_distrib]
  exact (Finset.sum_congr rfl fun i _ => by ring).le

example [DecidableEq ι] (y0 : ι → ℝ) (b : Bool) :
    Solves (QuasiNewton.solver (withArmijo (1/10) (1/10) maxNorm maxNorm
      { rect := fun _ _ => (fun _ => 0, .successful), square := fun B g => (B⁻¹.mulVec g, .successful) }
      ⟨1/2, 1/10, 1⟩ (bfgs (1/100) b) fun y i => 2 * y i) ()) (fun y : ι → ℝ => (∑ i, y i ^ 2, ())) () y0 ∧
    Solves (QuasiNewton.solver (withArmijo (1/10) (1/10) maxNorm maxNorm
      { rect := fun _ _ => (fun _ => 0, .successful), square := fun B g => (B⁻¹.mulVec g, .successful) }
      ⟨1/2, 1/10, 1⟩ (LBFGS.inverse (1/100) 10) fun y i => 2 * y i) ()) (fun y : ι → ℝ => (∑ i, y i ^ 2, ())) () y0 := by
  constructor
  · exact C63_bfgs b _ (fun _ => exact_solver_exists) (1/2) (1/10) 1 _ (by norm_num [Armijo.new]) _ _ _ (by norm_num)
      (by norm_num) (by norm_num) _ _ goodNorm_maxNorm goodNorm_maxNorm _ _ _ _ 2 2 square_lipschitz square_convex
  · exact C63_lbfgs_inverse 10 _ (1/2) (1/10) 1 _ (by norm_num [Armijo.new]) _ _ _ (by norm_num)
      (by norm_num) (by norm_num) _ _ goodNorm_maxNorm goodNorm_maxNorm _ _ _ _ 2 2 square_lipschitz square_convex

end Verif.Props
