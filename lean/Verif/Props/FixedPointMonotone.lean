import Verif.Props.FixedPoint
import Mathlib.Topology.Order.MonotoneConvergence
import Mathlib.Order.Monotone.Basic

/-!
Fixed-point iteration on a function that preserves the componentwise order (no contraction is assumed).
-/

namespace Verif.Props

open Verif.Spec Verif.Driver Verif.FixedPointIter Filter Topology

variable {ι A : Type}

/-- **C118.** `FixedPointIteration` (any damping in `[0, 1)`) on a function `g` that preserves the componentwise order, started
where `y0 ≤ g(y0)`: the iterates never decrease, in any component; each of them satisfies `y ≤ g(y)`; and none of them ever
passes a point `b` above `y0` with `g(b) ≤ b`, in particular a fixed point above `y0`. -/
theorem C118_increasing (cfg : Cfg ι ℝ) (hd0 : 0 ≤ cfg.damp) (hd1 : cfg.damp < 1) (fn : (ι → ℝ) → (ι → ℝ) × A)
    (hmono : ∀ x y, (∀ i, x i ≤ y i) → ∀ i, (fn x).1 i ≤ (fn y).1 i) (aux0 : A) (y0 : ι → ℝ)
    (hy0 : ∀ i, y0 i ≤ (fn y0).1 i) (k : ℕ) :
    let Y := iterateAt (solver cfg) fn aux0 y0 none
    (∀ i, Y k i ≤ Y (k + 1) i) ∧ (∀ i, Y k i ≤ (fn (Y k)).1 i) ∧
      ∀ b, (∀ i, y0 i ≤ b i) → (∀ i, (fn b).1 i ≤ b i) → ∀ i, Y k i ≤ b i := by
  intro Y
  have hstep : ∀ k i, Y (k + 1) i = (1 - cfg.damp) * (fn (Y k)).1 i + cfg.damp * Y k i := fun k i =>
    congrFun (fp_iterate_succ cfg fn aux0 y0 k) i
  have hup : ∀ k, (∀ i, Y k i ≤ (fn (Y k)).1 i) → ∀ i, Y k i ≤ Y (k + 1) i := by
    intro k h i
    rw [hstep]
    nlinarith [h i]
  have hsub : ∀ k, ∀ i, Y k i ≤ (fn (Y k)).1 i := by
    intro k
    induction k with
    | zero => exact hy0
    | succ k ih =>
      intro i
      have h1 := hmono _ _ (hup k ih) i
      have h2 := hstep k i
      nlinarith [ih i]
  refine ⟨hup k (hsub k), hsub k, fun b hb hfb => ?_⟩
  induction k with
  | zero => exact hb
  | succ k ih =>
    intro i
    rw [hstep]
    have := hmono _ _ ih i
    nlinarith [hfb i, ih i]

/-- **C118.** The mirror image: started where `g(y0) ≤ y0` the iterates never increase, and none of them passes a point
`b` below `y0` with `b ≤ g(b)`. -/
theorem C118_decreasing (cfg : Cfg ι ℝ) (hd0 : 0 ≤ cfg.damp) (hd1 : cfg.damp < 1) (fn : (ι → ℝ) → (ι → ℝ) × A)
    (hmono : ∀ x y, (∀ i, x i ≤ y i) → ∀ i, (fn x).1 i ≤ (fn y).1 i) (aux0 : A) (y0 : ι → ℝ)
    (hy0 : ∀ i, (fn y0).1 i ≤ y0 i) (k : ℕ) :
    let Y := iterateAt (solver cfg) fn aux0 y0 none
    (∀ i, Y (k + 1) i ≤ Y k i) ∧ (∀ i, (fn (Y k)).1 i ≤ Y k i) ∧
      ∀ b, (∀ i, b i ≤ y0 i) → (∀ i, b i ≤ (fn b).1 i) → ∀ i, b i ≤ Y k i := by
  intro Y
  have hstep : ∀ k i, Y (k + 1) i = (1 - cfg.damp) * (fn (Y k)).1 i + cfg.damp * Y k i := fun k i =>
    congrFun (fp_iterate_succ cfg fn aux0 y0 k) i
  have hup : ∀ k, (∀ i, (fn (Y k)).1 i ≤ Y k i) → ∀ i, Y (k + 1) i ≤ Y k i := by
    intro k h i
    rw [hstep]
    nlinarith [h i]
  have hsub : ∀ k, ∀ i, (fn (Y k)).1 i ≤ Y k i := by
    intro k
    induction k with
    | zero => exact hy0
    | succ k ih =>
      intro i
      have h1 := hmono _ _ (hup k ih) i
      have h2 := hstep k i
      nlinarith [ih i]
  refine ⟨hup k (hsub k), hsub k, fun b hb hfb => ?_⟩
  induction k with
  | zero => exact hb
  | succ k ih =>
    intro i
    rw [hstep]
    have := hmono _ _ ih i
    nlinarith [hfb i, ih i]

theorem fp_value (cfg : Cfg ι ℝ) (af : (ι → ℝ) → Bool) (fn : (ι → ℝ) → (ι → ℝ) × A) (aux0 : A) (y0 : ι → ℝ)
    (ms : Option ℕ) (throw : Bool) (sol : Solution (ι → ℝ) A (Option ℝ) Unit)
    (h : iterativeSolve (solver cfg) af fn aux0 y0 ms throw = some (.ok sol)) :
    sol.value = iterateAt (solver cfg) fn aux0 y0 none sol.numSteps := by
  obtain ⟨st0, hi, _, _, _, _, hv, _⟩ := solve_spec _ _ _ _ _ _ _ _ h
  have : st0 = none := by
    have e : (solver (A := A) cfg).init fn y0 = .ok none := rfl
    rw [e] at hi; cases hi; rfl
  subst this
  exact congrArg Prod.fst hv

/-- **C118.** So whatever `fixed_point` returns, with success or with a failure code, is a certified one-sided bound: it lies
above the start and below every fixed point above the start, and `y ≤ g(y)` holds there. -/
theorem C118_certified (cfg : Cfg ι ℝ) (hd0 : 0 ≤ cfg.damp) (hd1 : cfg.damp < 1) (fn : (ι → ℝ) → (ι → ℝ) × A)
    (hmono : ∀ x y, (∀ i, x i ≤ y i) → ∀ i, (fn x).1 i ≤ (fn y).1 i) (aux0 : A) (y0 : ι → ℝ)
    (hy0 : ∀ i, y0 i ≤ (fn y0).1 i) (s : Struct) (af : (ι → ℝ) → Bool) (ms : Option ℕ) (throw : Bool)
    (sol : Solution (ι → ℝ) A (Option ℝ) Unit)
    (h : fixedPoint (solver cfg) s s af fn aux0 y0 ms throw = some (.ok sol)) :
    (∀ i, y0 i ≤ sol.value i) ∧ (∀ i, sol.value i ≤ (fn sol.value).1 i) ∧
      ∀ z, (∀ i, y0 i ≤ z i) → (fn z).1 = z → ∀ i, sol.value i ≤ z i := by
  have h' : iterativeSolve (solver cfg) af fn aux0 y0 ms throw = some (.ok sol) := by
    simpa [fixedPoint, fpStructCheck] using h
  rw [fp_value cfg af fn aux0 y0 ms throw sol h']
  have key := C118_increasing cfg hd0 hd1 fn hmono aux0 y0 hy0
  refine ⟨fun i => ?_, (key _).2.1, fun z hz hfz => (key _).2.2 z hz fun i => by rw [hfz]⟩
  generalize sol.numSteps = k
  induction k with
  | zero => exact le_rfl
  | succ k ih => exact ih.trans ((key k).1 i)

/-- **C118.** Two solves, one started at a point `a` with `a ≤ g(a)` and one at a point `b` above it with `g(b) ≤ b`, enclose:
every fixed point between `a` and `b` lies between the two values returned. -/
theorem C118_enclosure (cfg : Cfg ι ℝ) (hd0 : 0 ≤ cfg.damp) (hd1 : cfg.damp < 1) (fn : (ι → ℝ) → (ι → ℝ) × A)
    (hmono : ∀ x y, (∀ i, x i ≤ y i) → ∀ i, (fn x).1 i ≤ (fn y).1 i) (aux0 : A) (a b : ι → ℝ) (hab : ∀ i, a i ≤ b i)
    (ha : ∀ i, a i ≤ (fn a).1 i) (hb : ∀ i, (fn b).1 i ≤ b i) (s : Struct) (af : (ι → ℝ) → Bool) (ms ms' : Option ℕ)
    (throw : Bool) (lo hi : Solution (ι → ℝ) A (Option ℝ) Unit)
    (hlo : fixedPoint (solver cfg) s s af fn aux0 a ms throw = some (.ok lo))
    (hhi : fixedPoint (solver cfg) s s af fn aux0 b ms' throw = some (.ok hi)) :
    (∀ i, lo.value i ≤ hi.value i) ∧
      ∀ z, (fn z).1 = z → (∀ i, a i ≤ z i) → (∀ i, z i ≤ b i) → ∀ i, lo.value i ≤ z i ∧ z i ≤ hi.value i := by
  have hlo' : iterativeSolve (solver cfg) af fn aux0 a ms throw = some (.ok lo) := by
    simpa [fixedPoint, fpStructCheck] using hlo
  have hhi' : iterativeSolve (solver cfg) af fn aux0 b ms' throw = some (.ok hi) := by
    simpa [fixedPoint, fpStructCheck] using hhi
  rw [fp_value cfg af fn aux0 a ms throw lo hlo', fp_value cfg af fn aux0 b ms' throw hi hhi']
  have k1 := C118_increasing cfg hd0 hd1 fn hmono aux0 a ha
  have k2 := C118_decreasing cfg hd0 hd1 fn hmono aux0 b hb
  refine ⟨?_, fun z hz haz hzb i => ⟨(k1 _).2.2 z haz (fun i => by rw [hz]) i, (k2 _).2.2 z hzb (fun i => by rw [hz]) i⟩⟩
  -- the lower iterates stay below every upper iterate
  have hab' : ∀ i, a i ≤ iterateAt (solver cfg) fn aux0 b none hi.numSteps i := (k2 _).2.2 a hab ha
  exact (k1 _).2.2 _ hab' (k2 _).2.1

/-- **C118.** If some point `b` above the start has `g(b) ≤ b`, the iterates converge; where `g` is continuous at the limit, the
limit is a fixed point, the smallest of all fixed points above the start (a fixed point therefore exists). -/
theorem C118_limit (cfg : Cfg ι ℝ) (hd0 : 0 ≤ cfg.damp) (hd1 : cfg.damp < 1) (fn : (ι → ℝ) → (ι → ℝ) × A)
    (hmono : ∀ x y, (∀ i, x i ≤ y i) → ∀ i, (fn x).1 i ≤ (fn y).1 i) (aux0 : A) (y0 : ι → ℝ)
    (hy0 : ∀ i, y0 i ≤ (fn y0).1 i) (b : ι → ℝ) (hb : ∀ i, y0 i ≤ b i) (hfb : ∀ i, (fn b).1 i ≤ b i) :
    ∃ z : ι → ℝ, Tendsto (fun k => iterateAt (solver cfg) fn aux0 y0 none k) atTop (𝓝 z) ∧
      (∀ k i, iterateAt (solver cfg) fn aux0 y0 none k i ≤ z i) ∧ (∀ i, z i ≤ b i) ∧
      (ContinuousAt (fun x => (fn x).1) z → (fn z).1 = z ∧
        ∀ x, (∀ i, y0 i ≤ x i) → (∀ i, (fn x).1 i ≤ x i) → ∀ i, z i ≤ x i) := by
  set Y := fun k => iterateAt (solver cfg) fn aux0 y0 none k with hY
  have key := C118_increasing cfg hd0 hd1 fn hmono aux0 y0 hy0
  have hm : ∀ i, Monotone fun k => Y k i := fun i => monotone_nat_of_le_succ fun k => (key k).1 i
  have hbd : ∀ x, (∀ i, y0 i ≤ x i) → (∀ i, (fn x).1 i ≤ x i) → ∀ k i, Y k i ≤ x i := fun x h1 h2 k => (key k).2.2 x h1 h2
  have hlim : ∀ i, Tendsto (fun k => Y k i) atTop (𝓝 (⨆ k, Y k i)) := fun i =>
    tendsto_atTop_ciSup (hm i) ⟨b i, by rintro _ ⟨k, rfl⟩; exact hbd b hb hfb k i⟩
  have ht : Tendsto Y atTop (𝓝 fun i => ⨆ k, Y k i) := tendsto_pi_nhds.2 hlim
  refine ⟨fun i => ⨆ k, Y k i, ht, fun k i => (hm i).ge_of_tendsto (hlim i) k, fun i => le_of_tendsto' (hlim i) fun k => hbd b hb hfb k i,
    fun hc => ⟨?_, fun x h1 h2 i => le_of_tendsto' (hlim i) fun k => hbd x h1 h2 k i⟩⟩
  funext i
  have h1 : Tendsto (fun k => (fn (Y k)).1 i) atTop (𝓝 ((fn fun i => ⨆ k, Y k i).1 i)) :=
    (tendsto_pi_nhds.1 (hc.tendsto.comp ht)) i
  have h2 : Tendsto (fun k => Y (k + 1) i) atTop (𝓝 (⨆ k, Y k i)) := (hlim i).comp (tendsto_add_atTop_nat 1)
  have h3 : Tendsto (fun k => Y (k + 1) i) atTop
      (𝓝 ((1 - cfg.damp) * (fn fun i => ⨆ k, Y k i).1 i + cfg.damp * ⨆ k, Y k i)) := by
    have := (h1.const_mul (1 - cfg.damp)).add ((hlim i).const_mul cfg.damp)
    refine this.congr fun k => ?_
    exact (congrFun (fp_iterate_succ cfg fn aux0 y0 k) i).symm
  have := tendsto_nhds_unique h2 h3
  have hne : (1 - cfg.damp) ≠ 0 := by linarith
  have : (1 - cfg.damp) * ((fn fun i => ⨆ k, Y k i).1 i - ⨆ k, Y k i) = 0 := by linarith
  rcases mul_eq_zero.1 this with h | h
  · exact absurd h hne
  · linarith

/-- **C118.** And the solve ends with success, after at most `N` steps when the total gap `∑ (b - y0)` is less than `N * atol`,
whatever the function does in between (it need not be continuous, let alone a contraction), for every norm that is below
one on vectors whose entries are all below one (such as the default maximum norm and the root-mean-square norm). -/
theorem C118_succeeds [Fintype ι] (cfg : Cfg ι ℝ) (hd0 : 0 ≤ cfg.damp) (hd1 : cfg.damp < 1) (hat : 0 < cfg.atol)
    (hrt : 0 ≤ cfg.rtol) (hnorm : ∀ x : ι → ℝ, (∀ i, |x i| < 1) → cfg.norm x < 1)
    (fn : (ι → ℝ) → (ι → ℝ) × A)
    (hmono : ∀ x y, (∀ i, x i ≤ y i) → ∀ i, (fn x).1 i ≤ (fn y).1 i) (aux0 : A) (y0 : ι → ℝ)
    (hy0 : ∀ i, y0 i ≤ (fn y0).1 i) (b : ι → ℝ) (hb : ∀ i, y0 i ≤ b i) (hfb : ∀ i, (fn b).1 i ≤ b i)
    (N : ℕ) (hN : ∑ i, (b i - y0 i) < N * cfg.atol) (s : Struct) (ms : Option ℕ) (hms : ∀ n, ms = some n → N ≤ n)
    (throw : Bool) :
    ∃ sol, fixedPoint (solver cfg) s s (fun _ => true) fn aux0 y0 ms throw = some (.ok sol) ∧ sol.result = .successful ∧
      sol.numSteps ≤ N := by
  set Y := fun k => iterateAt (solver cfg) fn aux0 y0 none k with hY
  have key := C118_increasing cfg hd0 hd1 fn hmono aux0 y0 hy0
  have hex : ∃ k, k < N ∧ cfg.norm (fun i => (Y k i - Y (k + 1) i) / (cfg.atol + cfg.rtol * |Y (k + 1) i|)) < 1 := by
    by_contra hno
    push Not at hno
    have hmove : ∀ k, k < N → cfg.atol ≤ ∑ i, (Y (k + 1) i - Y k i) := by
      intro k hk
      by_contra hlt
      push Not at hlt
      refine absurd (hnorm _ fun i => ?_) (not_lt.2 (hno k hk))
      have hpos : 0 < cfg.atol + cfg.rtol * |Y (k + 1) i| := by positivity
      rw [abs_div, abs_of_pos hpos, div_lt_one hpos, abs_sub_comm, abs_of_nonneg (sub_nonneg.2 ((key k).1 i))]
      have h1 : Y (k + 1) i - Y k i ≤ ∑ i, (Y (k + 1) i - Y k i) :=
        Finset.single_le_sum (f := fun i => Y (k + 1) i - Y k i) (fun j _ => sub_nonneg.2 ((key k).1 j)) (Finset.mem_univ i)
      have h2 : 0 ≤ cfg.rtol * |Y (k + 1) i| := by positivity
      linarith
    have hsum : ∀ m, m ≤ N → m * cfg.atol ≤ ∑ i, (Y m i - y0 i) := by
      intro m
      induction m with
      | zero =>
        intro _
        rw [Nat.cast_zero, zero_mul]
        exact Finset.sum_nonneg fun i _ => (sub_self (y0 i)).ge
      | succ m ih =>
        intro hm
        have h1 := ih (by omega)
        have h2 := hmove m (by omega)
        have h3 : ∑ i, (Y (m + 1) i - y0 i) = ∑ i, (Y (m + 1) i - Y m i) + ∑ i, (Y m i - y0 i) := by
          rw [← Finset.sum_add_distrib]
          exact Finset.sum_congr rfl fun i _ => by ring
        push_cast
        rw [h3]
        linarith
    have h1 := hsum N le_rfl
    have h2 : ∑ i, (Y N i - y0 i) ≤ ∑ i, (b i - y0 i) :=
      Finset.sum_le_sum fun i _ => sub_le_sub_right ((key N).2.2 b hb hfb i) _
    linarith
  obtain ⟨k, hk, hlt⟩ := hex
  obtain ⟨sol, h1, h2, h3⟩ := fp_succeeds cfg fn aux0 y0 ms throw k hlt fun n hn => (Nat.succ_le_of_lt hk).trans (hms n hn)
  exact ⟨sol, by simpa [fixedPoint, fpStructCheck] using h1, h2, by omega⟩

/-! ### An order-preserving function that is neither a contraction nor continuous, with several fixed points -/

/-- The first component creeps up to one and jumps to two there; the second is the larger of the two. -/
noncomputable def stairs (y : Fin 2 → ℝ) : Fin 2 → ℝ := ![if 1 ≤ y 0 then 2 else (1 + y 0) / 2, max (y 0) (y 1)]

theorem stairs_mono : ∀ x y : Fin 2 → ℝ, (∀ i, x i ≤ y i) → ∀ i, stairs x i ≤ stairs y i := by
  intro x y h i
  fin_cases i
  · show (if 1 ≤ x 0 then (2 : ℝ) else (1 + x 0) / 2) ≤ if 1 ≤ y 0 then 2 else (1 + y 0) / 2
    have := h 0
    split_ifs <;> linarith
  · exact max_le_max (h 0) (h 1)

theorem stairs_start : ∀ i, (fun _ => 0 : Fin 2 → ℝ) i ≤ stairs (fun _ => 0) i := by
  intro i
  fin_cases i
  · show (0 : ℝ) ≤ if (1 : ℝ) ≤ 0 then 2 else (1 + 0) / 2
    norm_num
  · show (0 : ℝ) ≤ max 0 0
    norm_num

theorem stairs_top : ∀ i, stairs (fun _ => 2) i ≤ (fun _ => 2 : Fin 2 → ℝ) i := by
  intro i
  fin_cases i
  · show (if (1 : ℝ) ≤ 2 then (2 : ℝ) else (1 + 2) / 2) ≤ 2
    norm_num
  · show max (2 : ℝ) 2 ≤ 2
    norm_num

example (atol : ℝ) (hat : 0 < atol) (N : ℕ) (hN : 4 < N * atol) :
    ∃ sol, fixedPoint (solver (A := Unit) ⟨0, atol, maxNorm, 1 / 2⟩) (.leaf [2] true) (.leaf [2] true) (fun _ => true)
      (fun y => (stairs y, ())) () (fun _ => 0) none true = some (.ok sol) ∧ sol.result = .successful ∧ sol.numSteps ≤ N := by
  refine C118_succeeds ⟨0, atol, maxNorm, 1 / 2⟩ (by norm_num) (by norm_num) hat le_rfl ?_ (fun y => (stairs y, ())) stairs_mono ()
    (fun _ => 0) ?_ (fun _ => 2) (fun _ => by norm_num) ?_ N ?_ _ none (fun n hn => by cases hn) true
  · intro x hx
    simp only [maxNorm]
    rw [Finset.sup'_lt_iff]
    intro o _
    cases o with
    | none => exact one_pos
    | some i => exact hx i
  · exact stairs_start
  · exact stairs_top
  · simp only [Fin.sum_univ_two]; linarith

/-- The two solves from `(0, 0)` and `(2, 2)` enclose every fixed point between. -/
example (lo hi : Solution (Fin 2 → ℝ) Unit (Option ℝ) Unit) (s : Struct)
    (h1 : fixedPoint (solver ⟨0, 1e-3, maxNorm, 0⟩) s s (fun _ => true) (fun y => (stairs y, ())) () (fun _ => 0) none true =
      some (.ok lo))
    (h2 : fixedPoint (solver ⟨0, 1e-3, maxNorm, 0⟩) s s (fun _ => true) (fun y => (stairs y, ())) () (fun _ => 2) none true =
      some (.ok hi)) : ∀ i, lo.value i ≤ hi.value i :=
  (C118_enclosure ⟨0, 1e-3, maxNorm, 0⟩ le_rfl (by norm_num) (fun y => (stairs y, ())) stairs_mono () (fun _ => 0) (fun _ => 2)
    (fun _ => by norm_num) stairs_start stairs_top s _ _ _ _ lo hi h1 h2).1

/-- The limit exists also here; `g` jumps at it, and it is not a fixed point. -/
example := C118_limit (A := Unit) ⟨0, 1e-3, maxNorm, 0⟩ le_rfl (by norm_num) (fun y => (stairs y, ())) stairs_mono () (fun _ => 0)
  stairs_start (fun _ => 2) (fun _ => by norm_num) stairs_top

end Verif.Props
