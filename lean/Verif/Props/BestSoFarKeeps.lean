import Verif.Props.BestSoFar
import Verif.Props.ConvexRates
import Verif.Props.StronglyConvex
import Verif.Props.NewtonMonotone

/-!
Property C138: the `BestSoFar…` wrappers keep the guarantees of the solvers they wrap.
-/

namespace Verif.Props

open Verif Verif.Spec Verif.Driver

variable {ι κ A : Type}

/-- The wrapper succeeds whenever the wrapped solver does. -/
theorem wrapped_success {Y Out L St Stats : Type} [LT L] [DecidableLT L] (S : Solver Y Out (Out × A) St Stats) (toLoss : Y → Out → L)
    (inf : L) (auxZero : A) (fn : Y → Out × A) (af : Y → Bool) (out0 : Out) (aux0 : A) (y0 : Y) (ms : Option ℕ) (throw : Bool)
    (sol : Solution Y A (BestSoFar.State Y A L St) Unit)
    (h : iterativeSolve (BestSoFar.solver S toLoss inf auxZero) af fn aux0 y0 ms throw = some (.ok sol)) (hs : sol.result = .successful) :
    ∃ sol', iterativeSolve S af (BestSoFar.auxmented fn) (out0, aux0) y0 ms throw = some (.ok sol') ∧ sol'.numSteps = sol.numSteps ∧
      sol'.result = .successful :=
  (C25_same_run S toLoss inf auxZero fn af out0 aux0 y0 ms throw sol.numSteps .successful).1 ⟨sol, h, rfl, hs⟩

theorem maxNorm_sq_le [Fintype ι] (x : ι → ℝ) : maxNorm x ^ 2 ≤ ∑ i, x i ^ 2 := by
  have h : maxNorm x ≤ Real.sqrt (∑ i, x i ^ 2) := (maxNorm_le_iff _ _).2 ⟨Real.sqrt_nonneg _, fun i =>
    Real.abs_le_sqrt (Finset.single_le_sum (f := fun i => x i ^ 2) (fun _ _ => sq_nonneg _) (Finset.mem_univ i))⟩
  calc maxNorm x ^ 2 ≤ Real.sqrt (∑ i, x i ^ 2) ^ 2 := pow_le_pow_left₀ (maxNorm_nonneg x) h 2
    _ = _ := Real.sq_sqrt (Finset.sum_nonneg fun _ _ => sq_nonneg _)

section
variable [Fintype ι] (cfg : FixedPointIter.Cfg ι ℝ) (fn : (ι → ℝ) → (ι → ℝ) × A) (aux0 auxZero : A) (y0 : ι → ℝ)

/-- **C138**, `BestSoFarFixedPoint(FixedPointIteration(...))` on a contraction.  With enough steps the solve succeeds. -/
theorem C138_fixed_point_succeeds (hn : cfg.norm = maxNorm) (hat : 0 < cfg.atol) (hrt : 0 ≤ cfg.rtol) (hd0 : 0 ≤ cfg.damp)
    (hd1 : cfg.damp < 1) (q : ℝ) (hq0 : 0 ≤ q) (hq1 : q < 1) (hc : ContractionFor maxNorm q fun z => (fn z).1) :
    ∃ n, ∀ ms throw, (∀ m, ms = some m → n ≤ m) →
      ∃ sol, iterativeSolve (BestSoFar.solver (FixedPointIter.solver cfg) BestSoFar.fpLoss ⊤ auxZero) (fun _ => true) fn aux0 y0 ms throw =
        some (.ok sol) ∧ sol.result = .successful ∧ sol.numSteps ≤ n := by
  obtain ⟨n, -, h⟩ := C21_terminates cfg (by rw [hn]; exact goodNorm_maxNorm (ι := ι))
    (by rw [hn]; intro x y; exact maxNorm_add x y) hat hrt hd0 hd1 (BestSoFar.auxmented fn) q hq0 hq1 (by rw [hn]; exact hc)
    ((fun _ => 0), aux0) y0
  refine ⟨n + 1, fun ms throw hb => ?_⟩
  obtain ⟨sol', h1, h2, h3⟩ := h ms throw hb
  obtain ⟨sol, h4, h5, h6⟩ := (C25_same_run (FixedPointIter.solver cfg) BestSoFar.fpLoss ⊤ auxZero fn (fun _ => true) (fun _ => (0 : ℝ)) aux0 y0
    ms throw sol'.numSteps .successful).2 ⟨sol', h1, rfl, h2⟩
  exact ⟨sol, h4, h6, h5 ▸ h3⟩

/-- **C138**, `BestSoFarFixedPoint(FixedPointIteration(...))` on a contraction.  A successful answer is as close to the fixed point as the
tolerances promise: the bound involves the point `v` that the wrapped solver itself would have returned. -/
theorem C138_fixed_point (hn : cfg.norm = maxNorm) (hat : 0 < cfg.atol) (hrt : 0 ≤ cfg.rtol)
    (hd1 : cfg.damp < 1) (q : ℝ) (hq1 : q < 1) (hc : ContractionFor maxNorm q fun z => (fn z).1) (ystar : ι → ℝ)
    (hfix : (fn ystar).1 = ystar) (af : (ι → ℝ) → Bool) (ms : Option ℕ) (throw : Bool) (sol)
    (h : iterativeSolve (BestSoFar.solver (FixedPointIter.solver cfg) BestSoFar.fpLoss ⊤ auxZero) af fn aux0 y0 ms throw =
      some (.ok sol)) (hs : sol.result = .successful) :
    let v := (dampedMap cfg.damp fun z => (fn z).1)^[sol.numSteps] y0
    sol.aux = (fn sol.value).2 ∧
    ∀ i, ((1 - cfg.damp) * (1 - q) * |sol.value i - ystar i|) ^ 2 ≤ ∑ j, (cfg.atol + cfg.rtol * |v j|) ^ 2 := by
  intro v
  obtain ⟨sol', h1, h2, h3⟩ := wrapped_success (FixedPointIter.solver cfg) BestSoFar.fpLoss ⊤ auxZero fn af (fun _ => (0 : ℝ)) aux0 y0 ms throw
    sol h hs
  obtain ⟨k, hk, hv, -, hlt⟩ := C20_success_certificate cfg (BestSoFar.auxmented fn) _ y0 af ms throw sol' h1 h3
  have hks : sol.numSteps = k + 1 := h2.symm.trans hk
  obtain ⟨-, hbest, haux⟩ := C25_fixed_point cfg aux0 auxZero fn af y0 ms throw sol h (by omega)
  refine ⟨haux, fun i => ?_⟩
  have hb := hbest k (by omega)
  rw [fp_iterate_eq] at hb
  set y := (dampedMap cfg.damp fun z => (fn z).1)^[k] y0 with hy
  have hyy : (dampedMap cfg.damp fun z => (BestSoFar.auxmented fn z).1)^[k] y0 = y := rfl
  rw [hyy] at hb hv hlt
  have hvv : sol'.value = v := by
    show _ = (dampedMap cfg.damp fun z => (fn z).1)^[sol.numSteps] y0
    rw [hks, Function.iterate_succ_apply', hv]; rfl
  rw [hvv] at hv hlt
  have hsc : ∀ j, 0 < cfg.atol + cfg.rtol * |v j| := fun j => add_pos_of_pos_of_nonneg hat (mul_nonneg hrt (abs_nonneg _))
  have hdd : 0 < 1 - cfg.damp := by linarith
  have hqq : 0 < 1 - q := by linarith
  have hsmall : ∑ j, ((1 - cfg.damp) * (y j - (fn y).1 j)) ^ 2 ≤ ∑ j, (cfg.atol + cfg.rtol * |v j|) ^ 2 := by
    refine Finset.sum_le_sum fun j _ => ?_
    rw [hn] at hlt
    have h1 := ((maxNorm_lt_iff _ _).1 hlt).2 j
    rw [abs_div, abs_of_pos (hsc j), div_lt_one (hsc j)] at h1
    have e : (1 - cfg.damp) * (y j - (fn y).1 j) = y j - v j := by
      rw [hv]
      show _ = y j - ((1 - cfg.damp) * (fn y).1 j + cfg.damp * y j)
      ring
    rw [e, ← sq_abs (y j - v j)]
    exact pow_le_pow_left₀ (abs_nonneg _) h1.le 2
  have hdist : (1 - q) * maxNorm (fun j => sol.value j - ystar j) ≤ maxNorm fun j => sol.value j - (fn sol.value).1 j := by
    have c1 := hc sol.value ystar
    simp only [hfix] at c1
    have c2 := maxNorm_add (fun j => sol.value j - (fn sol.value).1 j) (fun j => (fn sol.value).1 j - ystar j)
    simp only [sub_add_sub_cancel] at c2
    linarith
  have hm := maxNorm_nonneg fun j => sol.value j - (fn sol.value).1 j
  calc ((1 - cfg.damp) * (1 - q) * |sol.value i - ystar i|) ^ 2
      ≤ ((1 - cfg.damp) * maxNorm fun j => sol.value j - (fn sol.value).1 j) ^ 2 := by
        refine pow_le_pow_left₀ (by positivity) ?_ 2
        rw [mul_assoc]
        refine mul_le_mul_of_nonneg_left (le_trans ?_ hdist) hdd.le
        exact mul_le_mul_of_nonneg_left (abs_le_maxNorm (fun j => sol.value j - ystar j) i) hqq.le
    _ = (1 - cfg.damp) ^ 2 * (maxNorm fun j => sol.value j - (fn sol.value).1 j) ^ 2 := by ring
    _ ≤ (1 - cfg.damp) ^ 2 * ∑ j, (sol.value j - (fn sol.value).1 j) ^ 2 := mul_le_mul_of_nonneg_left (maxNorm_sq_le _) (sq_nonneg _)
    _ ≤ (1 - cfg.damp) ^ 2 * ∑ j, (y j - (fn y).1 j) ^ 2 := mul_le_mul_of_nonneg_left hb (sq_nonneg _)
    _ = ∑ j, ((1 - cfg.damp) * (y j - (fn y).1 j)) ^ 2 := by
        rw [Finset.mul_sum]; exact Finset.sum_congr rfl fun j _ => by ring
    _ ≤ _ := hsmall

end

/-- The hypotheses are met by the map `y ↦ 1 + y/2` with damping `1/2`: the solve succeeds and the answer is within `4/100` of the fixed point
`2`. -/
example : ∃ n, ∃ sol, iterativeSolve (BestSoFar.solver (FixedPointIter.solver
      { rtol := 0, atol := 1 / 100, norm := maxNorm, damp := 1 / 2 }) BestSoFar.fpLoss ⊤ ()) (fun _ => true)
      (fun (y : Unit → ℝ) => (fun i => 1 + y i / 2, ())) () (fun _ => 0) (some n) true = some (.ok sol) ∧ sol.result = .successful ∧
      |sol.value () - 2| ≤ 4 / 100 := by
  have hc : ContractionFor maxNorm (1 / 2) fun (z : Unit → ℝ) i => 1 + z i / 2 := by
    intro x y
    rw [maxNorm_le_iff]
    have h0 := maxNorm_nonneg fun i => x i - y i
    refine ⟨by linarith, fun i => ?_⟩
    have h1 := abs_le_maxNorm (fun i => x i - y i) i
    rw [show 1 + x i / 2 - (1 + y i / 2) = 1 / 2 * (x i - y i) by ring, abs_mul, abs_of_pos (by norm_num : (0 : ℝ) < 1 / 2)]
    linarith
  obtain ⟨n, hn⟩ := C138_fixed_point_succeeds { rtol := 0, atol := 1 / 100, norm := maxNorm, damp := 1 / 2 }
    (fun (y : Unit → ℝ) => ((fun i => 1 + y i / 2 : Unit → ℝ), ())) () () (fun _ => 0) rfl (by norm_num) le_rfl (by norm_num) (by norm_num)
    (1 / 2) (by norm_num) (by norm_num) hc
  obtain ⟨sol, h1, h2, -⟩ := hn (some n) true (fun m h => by cases h; exact le_rfl)
  have h3 := (C138_fixed_point _ _ () () _ rfl (by norm_num) le_rfl (by norm_num) (1 / 2) (by norm_num) hc (fun _ => 2)
    (by funext i; norm_num) _ _ _ sol h1 h2).2 ()
  refine ⟨n, sol, h1, h2, ?_⟩
  norm_num at h3
  have h4 : |sol.value () - 2| ^ 2 ≤ (4 / 100) ^ 2 := by nlinarith
  exact abs_le_of_sq_le_sq' (by linarith) (by norm_num) |>.2

/-- **C138**, `BestSoFarRootFinder(Newton(...))` and `BestSoFarRootFinder(Chord(...))` with the default norm and the Cauchy criterion: the residual
of a successful answer is small at the answer itself.  (Without the wrapper success says so about the point before the answer, C57.)  `hinit`: the
starting test does not already hold, which it never does in the code, where the first function value is infinite. -/
theorem C138_root_find [Fintype ι] [Fintype κ] {J : Type} (cfg : NewtonChord.Cfg ι κ ℝ J) (aux0 auxZero : A) (fn : (ι → ℝ) → (κ → ℝ) × A)
    (y0 : ι → ℝ) (hc : cfg.cauchy = true) (hinit : (NewtonChord.terminate cfg y0 (NewtonChord.init cfg y0)).1 = false)
    (hF : cfg.normF = maxNorm) (hat : 0 < cfg.atol) (af : (ι → ℝ) → Bool) (ms : Option ℕ) (throw : Bool) (sol)
    (h : iterativeSolve (BestSoFar.solver (NewtonChord.solver cfg) BestSoFar.sqLoss ⊤ auxZero) af fn aux0 y0 ms throw = some (.ok sol))
    (hs : sol.result = .successful) :
    sol.aux = (fn sol.value).2 ∧ ∑ c, (fn sol.value).1 c ^ 2 ≤ Fintype.card κ * cfg.atol ^ 2 := by
  obtain ⟨sol', h1, h2, h3⟩ := wrapped_success (NewtonChord.solver cfg) BestSoFar.sqLoss ⊤ auxZero fn af (fun _ => (0 : ℝ)) aux0 y0 ms throw
    sol h hs
  obtain ⟨y, hy, hsm, -, -⟩ := C57_cauchy_success_small_residual_partial cfg (BestSoFar.auxmented fn) _ y0 hc hinit af ms throw sol' h1 h3
  have hpos : 1 ≤ sol.numSteps := by
    by_contra hz
    have hz' : sol'.numSteps = 0 := by omega
    obtain ⟨st0, hi, ht, -⟩ := C02_success_is_certificate _ _ _ _ _ _ _ _ h1 h3
    obtain ⟨-, -, st0', hi', hst, -⟩ := C01_step_budget _ _ _ _ _ _ _ _ h1
    cases hi; cases hi'
    rw [hst, hz'] at ht
    have : (NewtonChord.terminate cfg y0 (NewtonChord.init cfg y0)).1 = true := congrArg Prod.fst ht
    rw [hinit] at this; cases this
  obtain ⟨-, hbest, haux⟩ := C25_root_finder_newton cfg aux0 auxZero fn af y0 ms throw sol h hpos
  refine ⟨haux, (hbest (sol'.numSteps - 1) (by omega)).trans ?_⟩
  rw [← hy]
  calc ∑ c, (fn y).1 c ^ 2 ≤ ∑ _c : κ, cfg.atol ^ 2 := by
        refine Finset.sum_le_sum fun c _ => ?_
        rw [hF] at hsm
        have h1 := ((maxNorm_lt_iff _ _).1 hsm).2 c
        rw [abs_div, abs_abs, abs_of_pos hat, div_lt_one hat] at h1
        rw [← sq_abs]
        exact pow_le_pow_left₀ (abs_nonneg _) (show |(fn y).1 c| ≤ cfg.atol from h1.le) 2
    _ = _ := by rw [Finset.sum_const, Finset.card_univ, nsmul_eq_mul]

/-- The hypotheses are met by `Newton` on the equation `exp(x) = 2`, from every starting point. -/
example (y0 : Unit → ℝ) : ∃ n, ∃ sol, iterativeSolve (BestSoFar.solver
      (NewtonChord.solver (newtonFor (fun (y : Unit → ℝ) (_ : Unit) => Real.exp (y ()) - 2) true)) BestSoFar.sqLoss ⊤ ()) (fun _ => true)
      (fun y => (fun _ => Real.exp (y ()) - 2, ())) () y0 (some n) true = some (.ok sol) ∧ sol.result = .successful ∧
      |Real.exp (sol.value ()) - 2| ≤ 1 / 100 := by
  set fn : (Unit → ℝ) → (Unit → ℝ) × Unit := fun y => (fun _ => Real.exp (y ()) - 2, ()) with hfn
  set cfg := newtonFor (fun (y : Unit → ℝ) (_ : Unit) => Real.exp (y ()) - 2) true with hcfg
  have hs : MonotoneSetting cfg (fun y => (BestSoFar.auxmented fn y).1) (fun _ => Real.log 2) := by
    refine ⟨scalar_system (fun x => Real.exp x - 2) Real.exp (fun x => (Real.hasDerivAt_exp x).sub_const 2) Real.continuous_exp ?_
      Real.exp_pos, ?_, fun y => rfl, invertSolve_solves, rfl, rfl⟩
    · exact convexOn_exp.sub (concaveOn_const 2 convex_univ)
    · funext u
      show Real.exp (Real.log 2) - 2 = 0
      rw [Real.exp_log two_pos, sub_self]
  obtain ⟨N, hN⟩ := (C103_newton_global cfg (BestSoFar.auxmented fn) ((fun _ => 0), ()) _ hs y0 rfl).2.2.2 rfl
    (goodNorm_maxNorm (ι := Unit)) (goodNorm_maxNorm (ι := Unit)) (by norm_num [hcfg, newtonFor]) (by norm_num [hcfg, newtonFor])
  obtain ⟨sol', h1, h2⟩ := hN (some N) true (fun n h => by cases h; exact le_rfl)
  obtain ⟨sol, h4, -, h6⟩ := (C25_same_run (NewtonChord.solver cfg) BestSoFar.sqLoss ⊤ () fn (fun _ => true) (fun _ => (0 : ℝ)) () y0
    (some N) true sol'.numSteps .successful).2 ⟨sol', h1, rfl, h2⟩
  refine ⟨N, sol, h4, h6, ?_⟩
  have hinit : (NewtonChord.terminate cfg y0 (NewtonChord.init cfg y0)).1 = false := by
    have hbig : ¬ maxNorm (scaledDiff (1 / 100) (1 / 100) (fun _ : Unit => (0 : ℝ)) fun _ => 1000000) < 1 := by
      rw [maxNorm_lt_iff]
      rintro ⟨-, h⟩
      have h9 := h ()
      have h10 : |(|(1000000 : ℝ)| / (1 / 100 + 1 / 100 * |(0 : ℝ)|))| < 1 := h9
      norm_num at h10
    simp [NewtonChord.terminate, NewtonChord.init, hcfg, newtonFor, cauchyTermination] at hbig ⊢
    intro _
    exact hbig
  have h7 := (C138_root_find cfg () () fn y0 rfl hinit rfl (by norm_num [hcfg, newtonFor]) _ _ _ sol h4 h6).2
  have h8 : (Real.exp (sol.value ()) - 2) ^ 2 ≤ (1 / 100) ^ 2 := by
    have : cfg.atol = 1 / 100 := rfl
    rw [this] at h7
    simpa [hfn] using h7
  exact abs_le_of_sq_le_sq h8 (by norm_num)

/-- **C138**, `BestSoFarMinimiser(GradientDescent(...))`: with a learning rate of at most `1/L` on an objective that is bounded below, success
within `N + 2` steps. -/
theorem C138_minimise_succeeds [Fintype ι] (rate rtol atol L m : ℝ) (grad : (ι → ℝ) → (ι → ℝ)) (aux0 auxZero : A) (fn : (ι → ℝ) → ℝ × A)
    (y0 : ι → ℝ) (hr0 : 0 < rate) (hrL : rate * L ≤ 1) (ha : 0 < atol) (hr : 0 ≤ rtol)
    (hsmooth : ∀ y z, (fn z).1 ≤ (fn y).1 + (∑ i, grad y i * (z i - y i)) + L / 2 * ∑ i, (z i - y i) ^ 2)
    (hlow : ∀ y, m ≤ (fn y).1) (N : ℕ) (h1 : (fn y0).1 - m < N * (atol ^ 2 / (2 * rate)))
    (h2 : (fn y0).1 - m < N * atol) (ms : Option ℕ) (throw : Bool) (hb : ∀ n, ms = some n → N + 2 ≤ n) :
    ∃ sol, iterativeSolve (BestSoFar.solver (gdSolver rate rtol atol maxNorm maxNorm grad ((0 : ℝ), aux0)) BestSoFar.minLoss ⊤ auxZero)
      (fun _ => true) fn aux0 y0 ms throw = some (.ok sol) ∧ sol.result = .successful ∧ sol.numSteps ≤ N + 2 := by
  obtain ⟨sol', h3, h4, h5⟩ := C95_step_bound rate rtol atol L grad ((0 : ℝ), aux0) (BestSoFar.auxmented fn) y0 (fun _ => true) m hr0 hrL ha hr
    hsmooth hlow (fun _ => rfl) N h1 h2 ms throw hb
  obtain ⟨sol, h6, h7, h8⟩ := (C25_same_run (gdSolver rate rtol atol maxNorm maxNorm grad ((0 : ℝ), aux0)) BestSoFar.minLoss ⊤ auxZero fn
    (fun _ => true) (0 : ℝ) aux0 y0 ms throw sol'.numSteps .successful).2 ⟨sol', h3, rfl, h4⟩
  exact ⟨sol, h6, h8, h7 ▸ h5⟩

/-- **C138**, `BestSoFarMinimiser(GradientDescent(...))` on a strongly convex objective, for every learning rate: a successful answer is within
the tolerances of the minimiser `xs`.  `v` is the point that the wrapped solver itself would have returned. -/
theorem C138_minimise [Fintype ι] (rate rtol atol μ : ℝ) (grad : (ι → ℝ) → (ι → ℝ)) (aux0 auxZero : A) (fn : (ι → ℝ) → ℝ × A) (y0 : ι → ℝ)
    (hr0 : 0 < rate) (ha : 0 < atol) (hr : 0 ≤ rtol) (hμ : StronglyConvex (fun y => (fn y).1) grad μ) (xs : ι → ℝ) (hxs : ∀ i, grad xs i = 0)
    (af : (ι → ℝ) → Bool) (ms : Option ℕ) (throw : Bool) (sol)
    (h : iterativeSolve (BestSoFar.solver (gdSolver rate rtol atol maxNorm maxNorm grad ((0 : ℝ), aux0)) BestSoFar.minLoss ⊤ auxZero) af fn
      aux0 y0 ms throw = some (.ok sol)) (hs : sol.result = .successful) :
    let v := (gdMap rate grad)^[sol.numSteps - 1] y0
    sol.aux = (fn sol.value).2 ∧
    (rate * μ) ^ 2 * ∑ i, (sol.value i - xs i) ^ 2 ≤ ∑ i, (atol + rtol * |v i|) ^ 2 ∧
    2 * μ * rate ^ 2 * ((fn sol.value).1 - (fn xs).1) ≤ ∑ i, (atol + rtol * |v i|) ^ 2 := by
  intro v
  obtain ⟨sol', h1, h2, h3⟩ := wrapped_success (gdSolver rate rtol atol maxNorm maxNorm grad ((0 : ℝ), aux0)) BestSoFar.minLoss ⊤ auxZero fn af
    (0 : ℝ) aux0 y0 ms throw sol h hs
  obtain ⟨st0, k, hi, hk, hnum, hv, hcl⟩ := C58_gradient_family _ (fun _ _ _ _ _ => rfl) ((0 : ℝ), aux0) (BestSoFar.auxmented fn) af y0 ms throw
    sol' h1 h3
  obtain _ | k := k
  · omega
  have hst := gd_state rate rtol atol maxNorm maxNorm grad ((0 : ℝ), aux0) (BestSoFar.auxmented fn) y0 st0 hi k
  have hns : sol.numSteps = k + 2 := h2.symm.trans hnum
  obtain ⟨st0', hi', hval, hbest, -, haux⟩ := C25_minimiser_gradient_family
    (GradientDescent.gradientDescent rate rtol atol maxNorm maxNorm grad) (fun _ _ _ _ _ => rfl) aux0 auxZero fn af y0 ms throw sol h (by omega)
  have hst0 : st0' = st0 := by
    have := hi'.symm.trans hi
    cases this; rfl
  subst hst0
  have hb := hbest (k + 1) (by omega)
  rw [hst.1] at hb
  set x := (gdMap rate grad)^[k] y0 with hx
  have hvx : v = fun i => x i - rate * grad x i := by
    show (gdMap rate grad)^[sol.numSteps - 1] y0 = _
    rw [hns, show k + 2 - 1 = k + 1 from rfl, Function.iterate_succ_apply']; rfl
  have hvv : sol'.value = v := by
    rw [hv, hst.2.1, hvx, Function.iterate_succ_apply']; rfl
  have hsmall : ∀ i, |rate * grad x i| < atol + rtol * |v i| := by
    intro i
    have hc' := ((maxNorm_lt_iff _ _).1 hcl.1).2 i
    rw [hst.1, hvv] at hc'
    have hsc : 0 < atol + rtol * |v i| := add_pos_of_pos_of_nonneg ha (mul_nonneg hr (abs_nonneg _))
    have e : v i - x i = -(rate * grad x i) := by rw [hvx]; ring
    have hc2 : |(|v i - x i| / (atol + rtol * |v i|))| < 1 := hc'
    rwa [abs_div, abs_abs, abs_of_pos hsc, div_lt_one hsc, e, abs_neg] at hc2
  have hg : rate ^ 2 * ∑ i, grad x i ^ 2 ≤ ∑ i, (atol + rtol * |v i|) ^ 2 := by
    rw [Finset.mul_sum]
    refine Finset.sum_le_sum fun i _ => ?_
    rw [← mul_pow, ← sq_abs]
    exact pow_le_pow_left₀ (abs_nonneg _) (hsmall i).le 2
  have hpos := hμ.pos
  have hgap : 2 * μ * ((fn sol.value).1 - (fn xs).1) ≤ ∑ i, grad x i ^ 2 := by
    have h1 := hμ.bounded x xs
    have h2 : 2 * μ * (1 / (2 * μ) * ∑ i, grad x i ^ 2) = ∑ i, grad x i ^ 2 := by field_simp
    nlinarith
  have hlow : μ / 2 * ∑ i, (sol.value i - xs i) ^ 2 ≤ (fn sol.value).1 - (fn xs).1 := by
    have h1 := hμ.lower xs sol.value
    simp only [hxs, zero_mul, Finset.sum_const_zero, add_zero] at h1
    linarith
  have hr2 : 0 < rate ^ 2 := by positivity
  refine ⟨haux, ?_, ?_⟩
  · have h5 : μ ^ 2 * ∑ i, (sol.value i - xs i) ^ 2 ≤ ∑ i, grad x i ^ 2 := by
      have := mul_le_mul_of_nonneg_left hlow (by positivity : 0 ≤ 2 * μ)
      nlinarith
    calc (rate * μ) ^ 2 * ∑ i, (sol.value i - xs i) ^ 2 = rate ^ 2 * (μ ^ 2 * ∑ i, (sol.value i - xs i) ^ 2) := by ring
      _ ≤ _ := (mul_le_mul_of_nonneg_left h5 hr2.le).trans hg
  · calc 2 * μ * rate ^ 2 * ((fn sol.value).1 - (fn xs).1) = rate ^ 2 * (2 * μ * ((fn sol.value).1 - (fn xs).1)) := by ring
      _ ≤ _ := (mul_le_mul_of_nonneg_left hgap hr2.le).trans hg

/-- The hypotheses are met by `f(y) = y²` with rate `1/4` started at `1`. -/
example : ∃ sol, iterativeSolve (BestSoFar.solver (gdSolver (ι := Unit) (1/4) 0 (1/10) maxNorm maxNorm (fun y i => 2 * y i) ((0 : ℝ), ()))
      BestSoFar.minLoss ⊤ ()) (fun _ => true) (fun y => (y () ^ 2, ())) () (fun _ => 1) (some 53) true = some (.ok sol) ∧
      sol.result = .successful ∧ |sol.value ()| ≤ 2 * (1 / 10) := by
  have hs : ∀ y z : Unit → ℝ, z () ^ 2 ≤ y () ^ 2 + (∑ i : Unit, 2 * y i * (z i - y i)) + 2 / 2 * ∑ i : Unit, (z i - y i) ^ 2 := by
    intro y z; simp; nlinarith
  have hc : StronglyConvex (fun y : Unit → ℝ => y () ^ 2) (fun y i => 2 * y i) 2 := ⟨two_pos, by intro y z; simp; nlinarith⟩
  obtain ⟨sol, h1, h2, -⟩ := C138_minimise_succeeds (ι := Unit) (1/4) 0 (1/10) 2 0 (fun y i => 2 * y i) () () (fun y => (y () ^ 2, ()))
    (fun _ => 1) (by norm_num) (by norm_num) (by norm_num) le_rfl hs (fun y => sq_nonneg _) 51 (by norm_num)
    (by norm_num) (some 53) true (fun n h => by cases h; norm_num)
  have h3 := (C138_minimise (ι := Unit) (1/4) 0 (1/10) 2 (fun y i => 2 * y i) () () (fun y => (y () ^ 2, ()))
      (fun _ => 1) (by norm_num) (by norm_num) le_rfl hc (fun _ => 0) (fun i => by simp) _ (some 53) true sol h1 h2).2.1
  refine ⟨sol, h1, h2, ?_⟩
  norm_num at h3
  exact abs_le_of_sq_le_sq (by norm_num; linarith) (by norm_num)

end Verif.Props
