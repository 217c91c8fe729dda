import Verif.Props.StronglyConvex
import Verif.Lemmas.ArmijoRate

/-!
Property C99: how fast backtracking minimisers converge on strongly convex problems.
-/

namespace Verif.Props

open Verif Verif.Spec Verif.Driver Verif.SearchLoop Verif.Rank Verif.QuasiNewton Verif.LBFGS Filter Topology

variable {ι A HS DS : Type} [Fintype ι]

theorem sumSquares_pow (x : ι → ℝ) : sumSquares x = ∑ i, x i ^ 2 := by
  unfold sumSquares; exact Finset.sum_congr rfl fun _ _ => by ring

/-- At a minimiser of a differentiable function the gradient vanishes. -/
theorem LipschitzGradient.stationary {f : (ι → ℝ) → ℝ} {grad : (ι → ℝ) → (ι → ℝ)} {L : ℝ} (h : LipschitzGradient f grad L)
    {x : ι → ℝ} (hx : ∀ y, f x ≤ f y) (i : ι) : grad x i = 0 := by
  classical
  have h1 := h.deriv x (fun j => if j = i then 1 else 0)
  have hmin : IsLocalMin (fun t : ℝ => f fun j => x j + t * if j = i then 1 else 0) 0 := by
    refine Filter.Eventually.of_forall fun t => ?_
    have e : (fun j => x j + (0 : ℝ) * if j = i then 1 else 0) = x := by funext j; simp
    simp only [e]
    exact hx _
  have := hmin.hasDerivAt_eq_zero h1
  simpa using this

/-- The squared gradient is at most `2 L` times the distance of the objective to its minimum. -/
theorem LipschitzGradient.grad_le {f : (ι → ℝ) → ℝ} {grad : (ι → ℝ) → (ι → ℝ)} {L : ℝ} (h : LipschitzGradient f grad L)
    (hL : 0 < L) {x : ι → ℝ} (hx : ∀ y, f x ≤ f y) (y : ι → ℝ) : sumSquares (grad y) ≤ 2 * L * (f y - f x) := by
  have h1 := h.bound y (fun i => y i - 1 / L * grad y i)
  have h2 := hx (fun i => y i - 1 / L * grad y i)
  have e1 : treeDot (grad y) (fun i => (y i - 1 / L * grad y i) - y i) = -(1 / L) * sumSquares (grad y) := by
    unfold treeDot sumSquares
    rw [Finset.mul_sum]; exact Finset.sum_congr rfl fun i _ => by ring
  have e2 : sumSquares (fun i => (y i - 1 / L * grad y i) - y i) = (1 / L) ^ 2 * sumSquares (grad y) := by
    unfold sumSquares
    rw [Finset.mul_sum]; exact Finset.sum_congr rfl fun i _ => by ring
  rw [e1, e2] at h1
  have h3 : f x ≤ f y - 1 / (2 * L) * sumSquares (grad y) := by
    have : -(1 / L) * sumSquares (grad y) + L / 2 * ((1 / L) ^ 2 * sumSquares (grad y)) = -(1 / (2 * L)) * sumSquares (grad y) := by
      field_simp; ring
    linarith
  have h4 : 2 * L * (1 / (2 * L) * sumSquares (grad y)) = sumSquares (grad y) := by field_simp
  nlinarith

/-- Distance to the minimiser. -/
theorem StronglyConvex.distance {f : (ι → ℝ) → ℝ} {grad : (ι → ℝ) → (ι → ℝ)} {μ L : ℝ} (h : StronglyConvex f grad μ)
    (hL : LipschitzGradient f grad L) {x : ι → ℝ} (hx : ∀ y, f x ≤ f y) (y : ι → ℝ) :
    μ / 2 * ∑ i, (y i - x i) ^ 2 ≤ f y - f x := by
  have h1 := h.lower x y
  have : ∑ i, grad x i * (y i - x i) = 0 := Finset.sum_eq_zero fun i _ => by rw [hL.stationary hx, zero_mul]
  linarith

/-- What a rate of convergence says: from step 1 on, the error of the objective shrinks by the factor `c` every `q` steps, so that it
and the distance to the minimiser are bounded by a geometric sequence. -/
structure GeometricRate (f : (ι → ℝ) → ℝ) (Y : ℕ → ι → ℝ) (x : ι → ℝ) (μ c : ℝ) (q : ℕ) : Prop where
  block : ∀ k, f (Y (k + 1 + q)) - f x ≤ c * (f (Y (k + 1)) - f x)
  value : ∀ n k, q * n ≤ k → f (Y (k + 1)) - f x ≤ c ^ n * (f (Y 1) - f x)
  point : ∀ n k, q * n ≤ k → ∑ i, (Y (k + 1) i - x i) ^ 2 ≤ 2 / μ * (c ^ n * (f (Y 1) - f x))

theorem GeometricRate.of_block {f : (ι → ℝ) → ℝ} {grad : (ι → ℝ) → (ι → ℝ)} {μ L : ℝ} (h : StronglyConvex f grad μ)
    (hL : LipschitzGradient f grad L) {x : ι → ℝ} (hx : ∀ y, f x ≤ f y) (Y : ℕ → ι → ℝ) (c : ℝ) (hc : 0 ≤ c) (q : ℕ)
    (hmono : ∀ k, f (Y (k + 2)) ≤ f (Y (k + 1)))
    (hb : ∀ k, f (Y (k + 1 + q)) - f x ≤ c * (f (Y (k + 1)) - f x)) : GeometricRate f Y x μ c q := by
  have hanti : Antitone fun k => f (Y (k + 1)) := antitone_nat_of_succ_le hmono
  have hv : ∀ n k, q * n ≤ k → f (Y (k + 1)) - f x ≤ c ^ n * (f (Y 1) - f x) := by
    intro n
    induction n with
    | zero =>
      intro k _
      have : f (Y (k + 1)) ≤ f (Y 1) := hanti (Nat.zero_le k)
      simpa using this
    | succ n ih =>
      intro k hk
      have e : q * (n + 1) = q * n + q := by ring
      have h1 := ih (k - q) (by omega)
      have h2 := hb (k - q)
      have e2 : k - q + 1 + q = k + 1 := by omega
      rw [e2] at h2
      calc _ ≤ _ := h2
        _ ≤ c * (c ^ n * (f (Y 1) - f x)) := mul_le_mul_of_nonneg_left h1 hc
        _ = _ := by ring
  refine ⟨hb, hv, fun n k hk => ?_⟩
  have h1 := h.distance hL hx (Y (k + 1))
  have h2 := hv n k hk
  have hμ := h.pos
  rw [div_mul_eq_mul_div, le_div_iff₀ hμ]
  nlinarith

/-- The step of a backtracking solve of the gradient family at which the test succeeds. -/
theorem gd_stops_at (d s i : ℝ) (cfg : GradientDescent.Cfg ι ℝ DS) (hs : cfg.search = Armijo.search ⟨d, s, i⟩) (aux0 : A)
    (fn : (ι → ℝ) → ℝ × A) (y0 : ι → ℝ) (hat : 0 < cfg.atol) (hrt : 0 ≤ cfg.rtol) (hY : GoodNorm cfg.normY)
    (hF : GoodNorm cfg.normF) (st0 : GradientDescent.State ι A ℝ DS) (hi : (GradientDescent.solver cfg aux0).init fn y0 = .ok st0)
    (hdir : ∀ k, 1 ≤ k → ∀ t, (cfg.descent.step t (stateAt (GradientDescent.solver cfg aux0) fn aux0 y0 st0 k).descentState).2 =
      .successful)
    (δ : ℝ) (hδY : δ * cfg.normY (fun _ => 1) < cfg.atol) (hδF : δ * cfg.normF (fun _ => 1) < cfg.atol) (k : ℕ)
    (hacc : ((gdView fn).ask (Armijo.search ⟨d, s, i⟩) (iterateAt (GradientDescent.solver cfg aux0) fn aux0 y0 st0 (k + 1))
      (stateAt (GradientDescent.solver cfg aux0) fn aux0 y0 st0 (k + 1))).2.1 = true)
    (hy : ∀ c, |iterateAt (GradientDescent.solver cfg aux0) fn aux0 y0 st0 (k + 2) c -
      iterateAt (GradientDescent.solver cfg aux0) fn aux0 y0 st0 (k + 1) c| ≤ δ)
    (hf : |(fn (iterateAt (GradientDescent.solver cfg aux0) fn aux0 y0 st0 (k + 2))).1 -
      (fn (iterateAt (GradientDescent.solver cfg aux0) fn aux0 y0 st0 (k + 1))).1| ≤ δ) :
    ∀ ms throw, (∀ n, ms = some n → k + 2 ≤ n) →
      ∃ sol, iterativeSolve (GradientDescent.solver cfg aux0) (fun _ => true) fn aux0 y0 ms throw = some (.ok sol) ∧
        sol.result = .successful ∧ sol.numSteps ≤ k + 2 := by
  have LL := gd_laws cfg aux0 fn
  rw [hs] at LL
  set Y := iterateAt (GradientDescent.solver cfg aux0) fn aux0 y0 st0 with hYd
  set St := stateAt (GradientDescent.solver cfg aux0) fn aux0 y0 st0 with hSt
  have hinfo := (stored LL (armijo_first _) aux0 y0 st0 hi k).1
  have hyn : Y (k + 2) = (St (k + 1)).yEval := (LL.accept _ _ hacc).1
  rw [hyn] at hy hf
  intro ms throw hb
  obtain ⟨sol, s1, s2, s3, _⟩ := solve_succeeds_by (GradientDescent.solver cfg aux0) (fun _ => true) fn aux0 y0 st0 hi ms
    throw (k + 2) (fun _ _ => rfl) (by
      intro j _
      show (St j).result = .successful
      obtain _ | j := j
      · show st0.result = .successful
        simp only [GradientDescent.solver, GradientDescent.init] at hi
        split at hi
        · cases hi
        · cases hi; rfl
      · have hr := LL.result (Y j) (St j)
        have hr' : (St (j + 1)).result = if ((gdView fn).ask (Armijo.search ⟨d, s, i⟩) (Y j) (St j)).2.2.1 = .successful
          then (cfg.descent.step ((gdView fn).ask (Armijo.search ⟨d, s, i⟩) (Y j) (St j)).1 (St (j + 1)).descentState).2
          else ((gdView fn).ask (Armijo.search ⟨d, s, i⟩) (Y j) (St j)).2.2.1 := hr
        rw [hr', hdir (j + 1) (by omega)]
        rfl) (by
      show (St (k + 1 + 1)).terminate = true
      have hst : St (k + 1 + 1) = (GradientDescent.step cfg fn (Y (k + 1)) (St (k + 1))).2.1 := rfl
      have hacc' : (cfg.search.step (St (k + 1)).firstStep (Y (k + 1)) (St (k + 1)).yEval (St (k + 1)).fInfo
        (.eval (fn (St (k + 1)).yEval).1) (St (k + 1)).searchState).2.1 = true := by rw [hs]; exact hacc
      have hfirst : (St (k + 1)).firstStep = false := first_at LL aux0 y0 st0 k
      have hfo : GradientDescent.fOf (St (k + 1)).fInfo = (fn (Y (k + 1))).1 := by
        rw [show (St (k + 1)).fInfo = _ from hinfo]; rfl
      rw [hfirst] at hacc'
      have hgoal : cauchyTermination cfg.rtol cfg.atol cfg.normY cfg.normF (St (k + 1)).yEval
          (fun i => (St (k + 1)).yEval i - Y (k + 1) i) (fun _ => (fn (St (k + 1)).yEval).1)
          (fun _ => (fn (St (k + 1)).yEval).1 - (fn (Y (k + 1))).1) = true := by
        simp only [cauchyTermination, Bool.and_eq_true, decide_eq_true_eq]
        exact ⟨norm_small hY cfg.rtol cfg.atol δ hat hrt _ _ hy hδY,
          norm_small hF cfg.rtol cfg.atol δ hat hrt _ _ (fun _ => hf) hδF⟩
      rw [hst]
      simp only [GradientDescent.step, hacc', if_true, hfirst, Bool.false_eq_true, if_false, hfo]
      exact hgoal) hb
  exact ⟨sol, s1, s2, s3⟩

/-- The smallest step size backtracking can come down to on an `L`-smooth objective. -/
noncomputable def smallestStep (a : Armijo.Cfg ℝ) (L : ℝ) : ℝ :=
  min a.stepInit (a.decreaseFactor * (2 * (1 - a.slope) / L))

/-- The factor by which an accepted step of backtracking steepest descent reduces the error of the objective. -/
noncomputable def descentFactor (a : Armijo.Cfg ℝ) (L μ : ℝ) : ℝ := 1 - 2 * μ * (a.slope * smallestStep a L)

theorem steepest_related (a : Armijo.Cfg ℝ) (rtol atol : ℝ) (nY : (ι → ℝ) → ℝ) (nF : (Unit → ℝ) → ℝ) (grad : (ι → ℝ) → (ι → ℝ))
    (aux0 : A) (fn : (ι → ℝ) → ℝ × A) (y0 : ι → ℝ) (st0 : GradientDescent.State ι A ℝ (ι → ℝ))
    (hi : (GradientDescent.solver (backtrackingDescent a rtol atol nY nF grad) aux0).init fn y0 = .ok st0) (k : ℕ) (hk : 1 ≤ k)
    (t : ℝ) :
    (steepestDescent (κ := Unit) none).step t
      (stateAt (GradientDescent.solver (backtrackingDescent a rtol atol nY nF grad) aux0) fn aux0 y0 st0 k).descentState =
    ((fun c => t * -grad (iterateAt (GradientDescent.solver (backtrackingDescent a rtol atol nY nF grad) aux0) fn aux0 y0 st0 k) c),
      .successful) := by
  obtain _ | k := k
  · omega
  have LL := gd_laws (backtrackingDescent a rtol atol nY nF grad) aux0 fn
  obtain ⟨⟨y', d', hq⟩, _⟩ := queried LL (armijo_first _) aux0 y0 st0 hi k
  have hinfo := (stored LL (armijo_first _) aux0 y0 st0 hi k).1
  rw [hinfo] at hq
  set S := GradientDescent.solver (backtrackingDescent a rtol atol nY nF grad) aux0
  have hq' : (stateAt S fn aux0 y0 st0 (k + 1)).descentState = grad (iterateAt S fn aux0 y0 st0 (k + 1)) := hq
  rw [hq']
  simp [steepestDescent]

/-- **C99.** Steepest descent with backtracking on a strongly convex objective with Lipschitz gradient: the rate is explicit.
`q` is any number of trials that brings the step size below `smallestStep`. -/
theorem C99_steepest_descent (d s i : ℝ) (a : Armijo.Cfg ℝ) (ha : Armijo.new d s i = .ok a)
    (rtol atol : ℝ) (nY : (ι → ℝ) → ℝ) (nF : (Unit → ℝ) → ℝ) (grad : (ι → ℝ) → (ι → ℝ)) (aux0 : A)
    (fn : (ι → ℝ) → ℝ × A) (y0 : ι → ℝ) (L μ : ℝ) (hL0 : 0 < L) (hL : LipschitzGradient (fun y => (fn y).1) grad L)
    (hμ : StronglyConvex (fun y => (fn y).1) grad μ) (x : ι → ℝ) (hx : ∀ y, (fn x).1 ≤ (fn y).1)
    (hat : 0 < atol) (hrt : 0 ≤ rtol) (hY : GoodNorm nY) (hF : GoodNorm nF)
    (q : ℕ) (hq : a.stepInit * a.decreaseFactor ^ q < smallestStep a L) :
    let S := GradientDescent.solver (backtrackingDescent a rtol atol nY nF grad) aux0
    let c := descentFactor a L μ
    c < 1 ∧ ∃ st0, S.init fn y0 = .ok st0 ∧
      let Y := iterateAt S fn aux0 y0 st0
      Y 1 = y0 ∧ GeometricRate (fun y => (fn y).1) Y x μ (max c 0) q ∧
      -- an explicit bound for the number of steps
      ∀ δ, 0 < δ → δ * nY (fun _ => 1) < atol → δ * nF (fun _ => 1) < atol →
        ∀ n, max c 0 ^ n * ((fn y0).1 - (fn x).1) ≤ δ → a.stepInit ^ 2 * (2 * L * (max c 0 ^ n * ((fn y0).1 - (fn x).1))) < δ ^ 2 →
          ∀ ms throw, (∀ m, ms = some m → q * (n + 1) + 1 ≤ m) →
            ∃ sol, iterativeSolve S (fun _ => true) fn aux0 y0 ms throw = some (.ok sol) ∧ sol.result = .successful ∧
              sol.numSteps ≤ q * (n + 1) + 1 := by
  intro S c
  obtain ⟨rfl, hd0, hd1, hs0, hs1, hi0⟩ := armijo_new d s i a ha
  have hμ0 := hμ.pos
  have htm0 : 0 < smallestStep ⟨d, s, i⟩ L := by
    unfold smallestStep
    refine lt_min hi0 ?_
    have : 0 < 1 - s := by linarith
    show 0 < d * (2 * (1 - s) / L)
    positivity
  have hc1 : c < 1 := by
    have : 0 < 2 * μ * (s * smallestStep ⟨d, s, i⟩ L) := by positivity
    show 1 - _ < 1
    linarith
  refine ⟨hc1, ?_⟩
  obtain ⟨st0, hi⟩ : ∃ st0, S.init fn y0 = .ok st0 := ⟨_, rfl⟩
  refine ⟨st0, hi, ?_⟩
  intro Y
  set cfg := backtrackingDescent ⟨d, s, i⟩ rtol atol nY nF grad with hcfg
  have LL := gd_laws cfg aux0 fn
  have LA : Laws S fn (fun y => (fn y).1) (Armijo.search ⟨d, s, i⟩) cfg.descent (gdView fn) _ := LL
  have hG : ∀ y (i : FnInfo ι Unit), i = .evalGrad (fn y).1 (cfg.grad y) → i.grad? = some (cfg.grad y) := by
    rintro y i rfl; rfl
  have hrel := steepest_related ⟨d, s, i⟩ rtol atol nY nF grad aux0 fn y0 st0 hi
  obtain ⟨p1, p2, p3⟩ := armijo_progress (G := grad) LA hG aux0 y0 st0 hi hd0 hd1 hs0 hs1 hi0 L L 1 1 one_pos hL0 hL0.le
    (by rw [mul_one]) hL.bound (fun k => ⟨fun c => -grad (Y (k + 1)) c, fun t => congrArg Prod.fst (hrel (k + 1) (by omega) t), by
      rw [one_mul]
      unfold treeDot sumSquares
      rw [← Finset.sum_neg_distrib]
      exact (Finset.sum_congr rfl fun c _ => by ring).le, by
      rw [one_mul]
      unfold sumSquares
      exact (Finset.sum_congr rfl fun c _ => by ring).le⟩) (smallestStep ⟨d, s, i⟩ L)
      (by unfold smallestStep; rw [mul_one]) q hq
  have hY1 : Y 1 = y0 := (armijo_start LA aux0 y0 st0 hi).1
  have hPL : ∀ k, 2 * μ * ((fn (Y (k + 1))).1 - (fn x).1) ≤ sumSquares (grad (Y (k + 1))) := by
    intro k
    have h1 := hμ.bounded (Y (k + 1)) x
    rw [sumSquares_pow]
    have : 2 * μ * (1 / (2 * μ) * ∑ i, grad (Y (k + 1)) i ^ 2) = ∑ i, grad (Y (k + 1)) i ^ 2 := by field_simp
    nlinarith
  have hblock : ∀ k, (fn (Y (k + 1 + q))).1 - (fn x).1 ≤ max c 0 * ((fn (Y (k + 1))).1 - (fn x).1) := by
    intro k
    have h1 := block_rate (fun k => (fn (Y (k + 1))).1) (fun k => sumSquares (grad (Y (k + 1)))) (fn x).1 μ
      (s * smallestStep ⟨d, s, i⟩ L) q p1 (by positivity) hPL (fun k => by
        obtain ⟨j, hj, _, _, hg⟩ := p3 k
        refine ⟨j, hj, ?_⟩
        rw [mul_one] at hg
        exact hg) k
    have e : k + q + 1 = k + 1 + q := by omega
    simp only [e] at h1
    refine h1.trans (mul_le_mul_of_nonneg_right (le_max_left _ _) (sub_nonneg.2 (hx _)))
  have hrate := GeometricRate.of_block hμ hL hx Y (max c 0) (le_max_right _ _) q p1 hblock
  refine ⟨hY1, hrate, ?_⟩
  intro δ hδ hδY hδF n h1 h2 ms throw hb
  obtain ⟨j, hj, hsame, hacc, _⟩ := p3 (q * n)
  have hv := hrate.value n (q * n) le_rfl
  rw [hY1] at hv
  have hstop := gd_stops_at d s i cfg rfl aux0 fn y0 hat hrt hY hF st0 hi (fun k hk t => congrArg Prod.snd (hrel k hk t)) δ hδY hδF
    (q * n + j) hacc
    (fun c => by
      refine entry_small (x := fun c => Y (q * n + j + 2) c - Y (q * n + j + 1) c) hδ (lt_of_le_of_lt (p2 (q * n + j)) ?_) c
      rw [hsame, one_mul]
      refine lt_of_le_of_lt ?_ h2
      refine mul_le_mul_of_nonneg_left ((hL.grad_le hL0 hx _).trans ?_) (by positivity)
      exact mul_le_mul_of_nonneg_left hv (by positivity))
    (by
      have h3 : (fn (Y (q * n + j + 2))).1 ≤ (fn (Y (q * n + j + 1))).1 := p1 (q * n + j)
      have h4 := hx (Y (q * n + j + 2))
      have e : (fn (Y (q * n + j + 1))).1 = (fn (Y (q * n + 1))).1 := congrArg (fun y => (fn y).1) hsame
      show |(fn (Y (q * n + j + 2))).1 - (fn (Y (q * n + j + 1))).1| ≤ δ
      rw [abs_le]
      constructor <;> linarith)
  have hle : q * n + j + 2 ≤ q * (n + 1) + 1 := by
    have : q * (n + 1) = q * n + q := by ring
    omega
  obtain ⟨sol, s1, s2, s3⟩ := hstop ms throw fun m hm => hle.trans (hb m hm)
  exact ⟨sol, s1, s2, s3.trans hle⟩

/-- The conclusion of C99 for the quasi-Newton solvers: the error shrinks geometrically, with some factor and number of steps. -/
def ConvergesGeometrically {St : Type} (S : Solver (ι → ℝ) ℝ A St Unit) (fn : (ι → ℝ) → ℝ × A) (aux0 : A) (y0 x : ι → ℝ) (μ : ℝ) :
    Prop :=
  ∃ st0, S.init fn y0 = .ok st0 ∧
    let Y := iterateAt S fn aux0 y0 st0
    Y 1 = y0 ∧ ∃ c q, 0 ≤ c ∧ c < 1 ∧ GeometricRate (fun y => (fn y).1) Y x μ c q

theorem guarded_rate (b : Bool) (ls : LinSolve ι Unit) (hls : b = false → SolvesSPD ls)
    (d s i : ℝ) (a : Armijo.Cfg ℝ) (ha : Armijo.new d s i = .ok a)
    (cfg : QuasiNewton.Cfg ι ℝ ((ι → ℝ) × Result) HS) (hs : cfg.search = Armijo.search a) (hrec : RecordsPoint cfg.hess)
    (hd : cfg.descent = newtonDescent ls none) (aux0 : A) (fn : (ι → ℝ) → ℝ × A) (y0 : ι → ℝ) (L μ eps : ℝ)
    (hL : LipschitzGradient (fun y => (fn y).1) cfg.grad L) (hμ : StronglyConvex (fun y => (fn y).1) cfg.grad μ)
    (heps : 0 < eps)
    (st0 : QuasiNewton.State ι A ℝ ((ι → ℝ) × Result) HS) (hi : (QuasiNewton.solver cfg aux0).init fn y0 = .ok st0)
    (M : Nat → Matrix ι ι ℝ)
    (hM : ∀ k, Stores b (stateAt (QuasiNewton.solver cfg aux0) fn aux0 y0 st0 (k + 1)).fInfo (M k)) (hp : ∀ k, SPD (M k))
    (hkeep : ∀ k, let Y := iterateAt (QuasiNewton.solver cfg aux0) fn aux0 y0 st0
      ¬ eps < ∑ c, (cfg.grad (Y (k + 2)) c - cfg.grad (Y (k + 1)) c) * (Y (k + 2) c - Y (k + 1) c) → M (k + 1) = M k)
    (x : ι → ℝ) (hx : ∀ y, (fn x).1 ≤ (fn y).1) :
    ConvergesGeometrically (QuasiNewton.solver cfg aux0) fn aux0 y0 x μ := by
  obtain ⟨⟨σ, ρ, hσ, hρ, hdir⟩, -⟩ := guarded_related b ls hls d s i a ha cfg hs hrec hd aux0 fn y0 L μ eps hL hμ heps st0 hi M hM hp
    hkeep
  obtain ⟨rfl, hd0, hd1, hs0, hs1, hi0⟩ := armijo_new d s i a ha
  refine ⟨st0, hi, ?_⟩
  intro Y
  have LL := qn_laws cfg aux0 fn hrec
  rw [hs] at LL
  have hG : ∀ y (i : FnInfo ι Unit), (i.asMin = (fn y).1 ∧ i.grad? = some (cfg.grad y)) →
      i.grad? = some (cfg.grad y) := fun y i h => h.2
  have hμ0 := hμ.pos
  have hL0 := hL.nonneg
  set M' : ℝ := L * ρ + 1 with hM'
  have hM'0 : 0 < M' := by positivity
  set tm := min i (d * (2 * (1 - s) * σ / M')) with htm
  have htm0 : 0 < tm := by
    refine lt_min hi0 ?_
    have : 0 < 1 - s := by linarith
    positivity
  obtain ⟨q, hq⟩ : ∃ q : ℕ, i * d ^ q < tm := by
    have hz : Tendsto (fun j : Nat => i * d ^ j) atTop (𝓝 0) := by
      simpa using (tendsto_pow_atTop_nhds_zero_of_lt_one hd0.le hd1).const_mul i
    exact (hz.eventually (gt_mem_nhds htm0)).exists
  obtain ⟨p1, p2, p3⟩ := armijo_progress (G := cfg.grad) LL hG aux0 y0 st0 hi hd0 hd1 hs0 hs1 hi0 L M' σ ρ hσ hM'0 hL0
    (by rw [hM']; linarith) hL.bound (fun k => by
      obtain ⟨p, h1, h2, h3⟩ := hdir (k + 1) (by omega)
      exact ⟨p, fun t => congrArg Prod.fst (h1 t), by rw [sumSquares_pow]; exact h2, by
        rw [sumSquares_pow, sumSquares_pow]; exact h3⟩) tm rfl q hq
  have hY1 : Y 1 = y0 := (armijo_start LL aux0 y0 st0 hi).1
  have hPL : ∀ k, 2 * μ * ((fn (Y (k + 1))).1 - (fn x).1) ≤ sumSquares (cfg.grad (Y (k + 1))) := by
    intro k
    have h1 := hμ.bounded (Y (k + 1)) x
    rw [sumSquares_pow]
    have : 2 * μ * (1 / (2 * μ) * ∑ i, cfg.grad (Y (k + 1)) i ^ 2) = ∑ i, cfg.grad (Y (k + 1)) i ^ 2 := by field_simp
    nlinarith
  set c := 1 - 2 * μ * (s * tm * σ) with hc
  have hc1 : c < 1 := by
    have : 0 < 2 * μ * (s * tm * σ) := by positivity
    linarith
  refine ⟨hY1, max c 0, q, le_max_right _ _, max_lt hc1 one_pos, GeometricRate.of_block hμ hL hx Y (max c 0) (le_max_right _ _) q p1 ?_⟩
  intro k
  have h1 := block_rate (fun k => (fn (Y (k + 1))).1) (fun k => sumSquares (cfg.grad (Y (k + 1)))) (fn x).1 μ
    (s * tm * σ) q p1 (by positivity) hPL (fun k => by
      obtain ⟨j, hj, _, _, hg⟩ := p3 k
      exact ⟨j, hj, hg⟩) k
  have e : k + q + 1 = k + 1 + q := by omega
  simp only [e] at h1
  exact h1.trans (mul_le_mul_of_nonneg_right (le_max_left _ _) (sub_nonneg.2 (hx _)))

/-- **C99** for `BFGS`, with `use_inverse` either way. -/
theorem C99_bfgs [DecidableEq ι] (b : Bool) (ls : LinSolve ι Unit) (hls : b = false → SolvesSPD ls)
    (d s i : ℝ) (a : Armijo.Cfg ℝ) (ha : Armijo.new d s i = .ok a) (eps rtol atol : ℝ) (heps : 0 < eps)
    (nY : (ι → ℝ) → ℝ) (nF : (Unit → ℝ) → ℝ)
    (grad : (ι → ℝ) → (ι → ℝ)) (aux0 : A) (fn : (ι → ℝ) → ℝ × A) (y0 : ι → ℝ) (L μ : ℝ)
    (hL : LipschitzGradient (fun y => (fn y).1) grad L) (hμ : StronglyConvex (fun y => (fn y).1) grad μ)
    (x : ι → ℝ) (hx : ∀ y, (fn x).1 ≤ (fn y).1) :
    ConvergesGeometrically (QuasiNewton.solver (withArmijo rtol atol nY nF ls a (bfgs eps b) grad) aux0) fn aux0 y0 x μ := by
  obtain ⟨st0, hi⟩ : ∃ st0, (QuasiNewton.solver (withArmijo rtol atol nY nF ls a (bfgs eps b) grad) aux0).init fn y0 = .ok st0 := by
    cases b <;> exact ⟨_, rfl⟩
  obtain ⟨_, hr⟩ := C34_run eps heps.le b (withArmijo rtol atol nY nF ls a (bfgs eps b) grad) rfl (armijo_first a) aux0 fn y0
    st0 hi
  obtain ⟨M, h1, h2, h3⟩ := matrices b _ eps aux0 fn y0 st0 (fun k => by
    obtain ⟨M, M', h1, h2, h3, h4, h5, h6⟩ := hr k
    exact ⟨M, M', h1, h2, h3, h6⟩)
  exact guarded_rate b ls hls d s i a ha _ rfl (bfgs_records eps b) rfl aux0 fn y0 L μ eps hL hμ heps st0 hi M h1 h2 h3 x hx

/-- **C99** for `DFP`, with `use_inverse` either way. -/
theorem C99_dfp [DecidableEq ι] (b : Bool) (ls : LinSolve ι Unit) (hls : b = false → SolvesSPD ls)
    (d s i : ℝ) (a : Armijo.Cfg ℝ) (ha : Armijo.new d s i = .ok a) (eps rtol atol : ℝ) (heps : 0 < eps)
    (nY : (ι → ℝ) → ℝ) (nF : (Unit → ℝ) → ℝ)
    (grad : (ι → ℝ) → (ι → ℝ)) (aux0 : A) (fn : (ι → ℝ) → ℝ × A) (y0 : ι → ℝ) (L μ : ℝ)
    (hL : LipschitzGradient (fun y => (fn y).1) grad L) (hμ : StronglyConvex (fun y => (fn y).1) grad μ)
    (x : ι → ℝ) (hx : ∀ y, (fn x).1 ≤ (fn y).1) :
    ConvergesGeometrically (QuasiNewton.solver (withArmijo rtol atol nY nF ls a (dfp eps b) grad) aux0) fn aux0 y0 x μ := by
  obtain ⟨st0, hi⟩ : ∃ st0, (QuasiNewton.solver (withArmijo rtol atol nY nF ls a (dfp eps b) grad) aux0).init fn y0 = .ok st0 := by
    cases b <;> exact ⟨_, rfl⟩
  obtain ⟨_, hr⟩ := C35_run eps heps.le b (withArmijo rtol atol nY nF ls a (dfp eps b) grad) rfl (armijo_first a) aux0 fn y0
    st0 hi
  obtain ⟨M, h1, h2, h3⟩ := matrices b _ eps aux0 fn y0 st0 (fun k => by
    obtain ⟨M, M', h1, h2, h3, h4, h5, h6⟩ := hr k
    exact ⟨M, M', h1, h2, h3, h6⟩)
  exact guarded_rate b ls hls d s i a ha _ rfl (dfp_records eps b) rfl aux0 fn y0 L μ eps hL hμ heps st0 hi M h1 h2 h3 x hx

/-- **C99** for `LBFGS(use_inverse=True)`, with every history length. -/
theorem C99_lbfgs_inverse [DecidableEq ι] (h : Nat) [NeZero h] (ls : LinSolve ι Unit)
    (d s i : ℝ) (a : Armijo.Cfg ℝ) (ha : Armijo.new d s i = .ok a) (eps rtol atol : ℝ) (heps : 0 < eps)
    (nY : (ι → ℝ) → ℝ) (nF : (Unit → ℝ) → ℝ)
    (grad : (ι → ℝ) → (ι → ℝ)) (aux0 : A) (fn : (ι → ℝ) → ℝ × A) (y0 : ι → ℝ) (L μ : ℝ)
    (hL : LipschitzGradient (fun y => (fn y).1) grad L) (hμ : StronglyConvex (fun y => (fn y).1) grad μ)
    (x : ι → ℝ) (hx : ∀ y, (fn x).1 ≤ (fn y).1) :
    ConvergesGeometrically (QuasiNewton.solver (withArmijo rtol atol nY nF ls a (LBFGS.inverse eps h) grad) aux0) fn aux0 y0 x μ := by
  obtain ⟨st0, hi⟩ : ∃ st0, (QuasiNewton.solver (withArmijo rtol atol nY nF ls a (LBFGS.inverse eps h) grad) aux0).init fn y0 =
    .ok st0 := ⟨_, rfl⟩
  have hr := C38_run eps heps.le h (withArmijo rtol atol nY nF ls a (LBFGS.inverse eps h) grad) rfl (armijo_first a) aux0 fn y0
    st0 hi
  exact guarded_rate true ls (fun h => by cases h) d s i a ha _ rfl (inverse_records eps h) rfl aux0 fn y0 L μ eps hL hμ
    heps st0 hi _ (fun k => (hr k).1) (fun k => (hr k).2.2.1) (fun k => by
      intro Y hn
      rw [pairs_keep _ _ _ k hn]) x hx

/-- **C99** for `LBFGS(use_inverse=False)`, with every history length. -/
theorem C99_lbfgs_direct [DecidableEq ι] (h : Nat) [NeZero h] (la : DenseLA h) (hla : ExactLA la) (ls : LinSolve ι Unit)
    (hls : SolvesSPD ls)
    (d s i : ℝ) (a : Armijo.Cfg ℝ) (ha : Armijo.new d s i = .ok a) (eps rtol atol : ℝ) (heps : 0 < eps)
    (nY : (ι → ℝ) → ℝ) (nF : (Unit → ℝ) → ℝ)
    (grad : (ι → ℝ) → (ι → ℝ)) (aux0 : A) (fn : (ι → ℝ) → ℝ × A) (y0 : ι → ℝ) (L μ : ℝ)
    (hL : LipschitzGradient (fun y => (fn y).1) grad L) (hμ : StronglyConvex (fun y => (fn y).1) grad μ)
    (x : ι → ℝ) (hx : ∀ y, (fn x).1 ≤ (fn y).1) :
    ConvergesGeometrically (QuasiNewton.solver (withArmijo rtol atol nY nF ls a (LBFGS.direct eps h la) grad) aux0) fn aux0 y0 x μ := by
  obtain ⟨st0, hi⟩ : ∃ st0, (QuasiNewton.solver (withArmijo rtol atol nY nF ls a (LBFGS.direct eps h la) grad) aux0).init fn y0 =
    .ok st0 := ⟨_, rfl⟩
  have hr := C39_run eps heps.le h la hla (withArmijo rtol atol nY nF ls a (LBFGS.direct eps h la) grad) rfl (armijo_first a)
    aux0 fn y0 st0 hi
  exact guarded_rate false ls (fun _ => hls) d s i a ha _ rfl (direct_records eps h la) rfl aux0 fn y0 L μ eps hL hμ
    heps st0 hi _ (fun k => (hr k).1) (fun k => (hr k).2.2.1) (fun k => by
      intro Y hn
      rw [pairs_keep _ _ _ k hn]) x hx

/-- Non-vacuous, and what the numbers are: minimising `Σ yᵢ²` (`L = μ = 2`) by steepest descent with the default parameters of
`BacktrackingArmijo`, step sizes are at least 0.45, every second step is accepted, and every two steps reduce the objective by the
factor `1 - 2 * 2 * 0.1 * 0.45 = 0.82`. -/
example (y0 : ι → ℝ) :
    let S := GradientDescent.solver (backtrackingDescent ⟨1/2, 1/10, 1⟩ (1/10) (1/10) maxNorm maxNorm fun y i => 2 * y i) ()
    ∃ st0, S.init (fun y : ι → ℝ => (∑ i, y i ^ 2, ())) y0 = .ok st0 ∧
    GeometricRate (fun y : ι → ℝ => ∑ i, y i ^ 2) (iterateAt S (fun y : ι → ℝ => (∑ i, y i ^ 2, ())) () y0 st0) (fun _ => 0) 2
      (41 / 50) 2 := by
  intro S
  have hstep : smallestStep ⟨1/2, 1/10, 1⟩ (2 : ℝ) = 9 / 20 := by norm_num [smallestStep]
  obtain ⟨_, st0, h1, _, h2, _⟩ := C99_steepest_descent (ι := ι) (1/2) (1/10) 1 ⟨1/2, 1/10, 1⟩ (by norm_num [Armijo.new]) (1/10) (1/10)
    maxNorm maxNorm (fun y i => 2 * y i) () (fun y => (∑ i, y i ^ 2, ())) y0 2 2 (by norm_num) square_lipschitz square_convex
    (fun _ => 0) (fun y => by simp; exact Finset.sum_nonneg fun i _ => sq_nonneg _) (by norm_num) (by norm_num) goodNorm_maxNorm
    goodNorm_maxNorm 2 (by rw [hstep]; norm_num)
  refine ⟨st0, h1, ?_⟩
  have : max (descentFactor ⟨1/2, 1/10, 1⟩ (2 : ℝ) 2) 0 = 41 / 50 := by rw [descentFactor, hstep]; norm_num
  rw [this] at h2
  exact h2

end Verif.Props
