import Verif.Props.RoundingBisection
import Mathlib.Analysis.SpecificLimits.Basic

/-!
C89: fixed-point iteration in floating-point arithmetic, on a function that is a contraction up to the errors with which it is
computed.
-/

namespace Verif.Props

open Verif Verif.Spec Verif.Driver

variable {F : Format} {ι A : Type}

/-- A number times a factor between zero and one, as computed. -/
theorem shrunk {μ η : ℝ} (hF : F.Accurate μ η) {c x : Fl F} (hc : c.isFinite = true) (hx : x.isFinite = true)
    (h0 : 0 ≤ c.real) (h1 : c.real ≤ 1) :
    (c * x).isFinite = true ∧ |(c * x).real| ≤ |x.real| ∧ |(c * x).real - c.real * x.real| ≤ μ * |x.real| + η := by
  have hb : |c.real * x.real| ≤ |x.real| := by
    rw [abs_mul, abs_of_nonneg h0]; exact mul_le_of_le_one_left (abs_nonneg _) h1
  have hrep : F.Rep |x.real| := by
    rcases abs_choice x.real with e | e <;> rw [e]
    · exact Fl.rep_real hx
    · exact F.neg (Fl.rep_real hx)
  obtain ⟨r, hr, l, u⟩ := round_between (F.neg hrep) hrep (abs_le.1 hb).1 (abs_le.1 hb).2
  have hv : (c * x).val = .fin r := by
    rw [Fl.mul_val, Fl.val_of_finite hc, Fl.val_of_finite hx, XR.mul_fin]; exact hr
  rw [Fl.real_of hv]
  refine ⟨Fl.finite_iff.2 ⟨r, hv⟩, abs_le.2 ⟨l, u⟩, (hF.error hr).trans ?_⟩
  have := mul_le_mul_of_nonneg_left hb hF.u_nonneg
  linarith

/-- A damped step, as computed. -/
theorem damped_value {μ η M : ℝ} (hF : F.Accurate μ η) {δ f y : Fl F} (hδ : δ.isFinite = true) (h0 : 0 ≤ δ.real) (h1 : δ.real ≤ 1)
    (hf : f.isFinite = true) (hy : y.isFinite = true) (hfM : |f.real| ≤ M) (hyM : |y.real| ≤ M) (hM : NoOverflow F (2 * M)) :
    ((1 - δ) * f + δ * y).isFinite = true ∧
      |((1 - δ) * f + δ * y).real - ((1 - δ.real) * f.real + δ.real * y.real)| ≤ 5 * μ * M + η * M + 3 * η := by
  have u0 := hF.u_nonneg
  have e0 := hF.η_nonneg
  have hM0 : 0 ≤ M := (abs_nonneg _).trans hfM
  -- the factor
  obtain ⟨c, hc, c0, c1⟩ := round_between F.zero F.one (show (0 : ℝ) ≤ 1 - δ.real by linarith) (by linarith)
  have hcv : (1 - δ).val = .fin c := by
    rw [Fl.sub_val, Fl.val_of_finite hδ]
    show F.roundXR (XR.fin 1 - XR.fin δ.real) = _
    rw [XR.sub_fin]; exact hc
  have hcr := Fl.real_of hcv
  have hcf : (1 - δ).isFinite = true := Fl.finite_iff.2 ⟨c, hcv⟩
  have ec := hF.error hc
  rw [abs_of_nonneg (by linarith : (0 : ℝ) ≤ 1 - δ.real)] at ec
  obtain ⟨a1, a2, a3⟩ := shrunk hF hcf hf (by rw [hcr]; exact c0) (by rw [hcr]; exact c1)
  obtain ⟨b1, b2, b3⟩ := shrunk hF hδ hy h0 h1
  rw [hcr] at a3
  set a := (1 - δ) * f
  set b := δ * y
  obtain ⟨B, hB, hMB⟩ := hM
  have hab : |a.real + b.real| ≤ 2 * M := (abs_add_le _ _).trans (by linarith)
  obtain ⟨s, hs, _, _⟩ := round_between (F.neg hB) hB (show -B ≤ a.real + b.real by linarith [(abs_le.1 hab).1])
    (by linarith [(abs_le.1 hab).2])
  have hsv : (a + b).val = .fin s := by
    rw [Fl.add_val, Fl.val_of_finite a1, Fl.val_of_finite b1, XR.add_fin]; exact hs
  refine ⟨Fl.finite_iff.2 ⟨s, hsv⟩, ?_⟩
  rw [Fl.real_of hsv]
  have es := hF.error hs
  have k1 : μ * |a.real + b.real| ≤ μ * (2 * M) := mul_le_mul_of_nonneg_left hab u0
  have k2 : μ * |f.real| ≤ μ * M := mul_le_mul_of_nonneg_left hfM u0
  have k3 : μ * |y.real| ≤ μ * M := mul_le_mul_of_nonneg_left hyM u0
  have k4 : |(c - (1 - δ.real)) * f.real| ≤ (μ + η) * M := by
    rw [abs_mul]
    refine mul_le_mul (ec.trans ?_) hfM (abs_nonneg _) (by linarith)
    have := mul_le_mul_of_nonneg_left (show 1 - δ.real ≤ 1 by linarith) u0
    linarith
  have e : s - ((1 - δ.real) * f.real + δ.real * y.real) =
      (s - (a.real + b.real)) + (a.real - c * f.real) + (b.real - δ.real * y.real) + (c - (1 - δ.real)) * f.real := by ring
  rw [e]
  refine (abs_add_le _ _).trans ?_
  have t1 := abs_add_le (s - (a.real + b.real) + (a.real - c * f.real)) (b.real - δ.real * y.real)
  have t2 := abs_add_le (s - (a.real + b.real)) (a.real - c * f.real)
  nlinarith

/-- The situation: `g` has the fixed point `p` and is a contraction towards it with factor `q`, up to the distance `ρ`; the function
is computed with error `ε`; the run starts within `ρ₀` of `p`, and `ρ` leaves room for the errors; no number is above `M`. -/
structure Inexact {F : Format} {ι A : Type} (μ η : ℝ) (cfg : FixedPointIter.Cfg ι (Fl F)) (fn : (ι → Fl F) → (ι → Fl F) × A)
    (y0 : ι → Fl F) (g : (ι → ℝ) → ι → ℝ) (p : ι → ℝ) (q ρ ρ₀ ε M : ℝ) : Prop where
  damp_fin : cfg.damp.isFinite = true
  damp_nonneg : 0 ≤ cfg.damp.real
  damp_lt : cfg.damp.real < 1
  q_nonneg : 0 ≤ q
  q_lt : q < 1
  ε_nonneg : 0 ≤ ε
  pulls : PullsTowards g p q ρ
  computes : Computes fn g p ρ ε
  start : Near y0 p ρ₀
  start_nonneg : 0 ≤ ρ₀
  room : ρ₀ + (ε + dampingError μ η M cfg.damp) / (1 - ((1 - cfg.damp.real) * q + cfg.damp.real)) ≤ ρ
  size_nonneg : 0 ≤ M
  size : ∀ i, |p i| + ρ ≤ M
  overflow : cfg.damp = 0 ∨ NoOverflow F (2 * M)

/-- The factor by which a damped step brings points closer. -/
def dampedFactor {F : Format} (damp : Fl F) (q : ℝ) : ℝ := (1 - damp.real) * q + damp.real

section

variable {μ η : ℝ} {cfg : FixedPointIter.Cfg ι (Fl F)} {fn : (ι → Fl F) → (ι → Fl F) × A} {y0 : ι → Fl F}
  {g : (ι → ℝ) → ι → ℝ} {p : ι → ℝ} {q ρ ρ₀ ε M : ℝ}

theorem dampingError_nonneg (hF : F.Accurate μ η) (hM : 0 ≤ M) (damp : Fl F) : 0 ≤ dampingError μ η M damp := by
  have u0 := hF.u_nonneg
  have e0 := hF.η_nonneg
  unfold dampingError
  split_ifs
  · exact le_rfl
  · positivity

theorem Inexact.factor (h : Inexact μ η cfg fn y0 g p q ρ ρ₀ ε M) :
    0 ≤ dampedFactor cfg.damp q ∧ q ≤ dampedFactor cfg.damp q ∧ dampedFactor cfg.damp q < 1 := by
  have h0 := h.damp_nonneg
  have h1 := h.damp_lt
  have q0 := h.q_nonneg
  have q1 := h.q_lt
  unfold dampedFactor
  refine ⟨?_, ?_, ?_⟩ <;> nlinarith

/-- One step. -/
theorem Inexact.step (hF : F.Accurate μ η) (h : Inexact μ η cfg fn y0 g p q ρ ρ₀ ε M) {y : ι → Fl F} (st : Option (Fl F)) {d : ℝ}
    (hd0 : 0 ≤ d) (hd : d ≤ ρ) (hy : Near y p d) :
    Near (FixedPointIter.step cfg fn y st).1 p (dampedFactor cfg.damp q * d + (ε + dampingError μ η M cfg.damp)) := by
  intro i
  have hy' : Near y p ρ := fun j => ⟨(hy j).1, (hy j).2.trans hd⟩
  obtain ⟨f1, f2⟩ := h.computes y hy' i
  have hg := h.pulls (fun j => (y j).real) d hd (fun j => (hy j).2) i
  obtain ⟨y1, y2⟩ := hy i
  have h0 := h.damp_nonneg
  have h1 := h.damp_lt
  obtain ⟨r0, rq, r1⟩ := h.factor
  have hρ0 : 0 ≤ ρ := hd0.trans hd
  have hM0 : 0 ≤ M := by linarith [h.size i, abs_nonneg (p i)]
  have e0 := dampingError_nonneg hF hM0 cfg.damp
  have ε0 := h.ε_nonneg
  have hfp : |((fn y).1 i).real - p i| ≤ q * d + ε := by
    have := abs_add_le (((fn y).1 i).real - g (fun j => (y j).real) i) (g (fun j => (y j).real) i - p i)
    rw [show ((fn y).1 i).real - g (fun j => (y j).real) i + (g (fun j => (y j).real) i - p i) = ((fn y).1 i).real - p i by ring] at this
    linarith
  show ((1 - cfg.damp) * (fn y).1 i + cfg.damp * y i).isFinite = true ∧
    |((1 - cfg.damp) * (fn y).1 i + cfg.damp * y i).real - p i| ≤ _
  by_cases hd0' : cfg.damp = 0
  · have er : dampedFactor cfg.damp q = q := by
      unfold dampedFactor
      rw [hd0', show (0 : Fl F).real = 0 from rfl]; ring
    have ee : dampingError μ η M cfg.damp = 0 := by unfold dampingError; rw [if_pos hd0']
    rw [er, ee, hd0', undamped _ _ y1, add_zero]
    exact ⟨f1, hfp⟩
  · have ee : dampingError μ η M cfg.damp = 5 * μ * M + η * M + 3 * η := by unfold dampingError; rw [if_neg hd0']
    have hroom : ε ≤ (1 - q) * ρ := by
      have h3 := h.room
      change ρ₀ + _ / (1 - dampedFactor cfg.damp q) ≤ ρ at h3
      have h4 : (ε + dampingError μ η M cfg.damp) / (1 - dampedFactor cfg.damp q) ≤ ρ := by linarith [h.start_nonneg]
      rw [div_le_iff₀ (by linarith)] at h4
      have : ρ * (1 - dampedFactor cfg.damp q) ≤ ρ * (1 - q) := mul_le_mul_of_nonneg_left (by linarith) hρ0
      linarith
    have hfM : |((fn y).1 i).real| ≤ M := by
      have t := abs_add_le (((fn y).1 i).real - p i) (p i)
      rw [sub_add_cancel] at t
      have : q * d ≤ q * ρ := mul_le_mul_of_nonneg_left hd h.q_nonneg
      linarith [h.size i]
    have hyM : |(y i).real| ≤ M := by
      have t := abs_add_le ((y i).real - p i) (p i)
      rw [sub_add_cancel] at t
      linarith [h.size i]
    obtain ⟨s1, s2⟩ := damped_value hF h.damp_fin h0 h1.le f1 y1 hfM hyM (h.overflow.resolve_left hd0')
    refine ⟨s1, ?_⟩
    set δ := cfg.damp.real
    set s := ((1 - cfg.damp) * (fn y).1 i + cfg.damp * y i).real
    rw [show s - p i = (s - ((1 - δ) * ((fn y).1 i).real + δ * (y i).real)) +
      ((1 - δ) * (((fn y).1 i).real - p i) + δ * ((y i).real - p i)) by ring]
    refine (abs_add_le _ _).trans ?_
    have t := abs_add_le ((1 - δ) * (((fn y).1 i).real - p i)) (δ * ((y i).real - p i))
    rw [abs_mul, abs_mul, abs_of_nonneg h0, abs_of_nonneg (by linarith : 0 ≤ 1 - δ)] at t
    have t1 : (1 - δ) * |((fn y).1 i).real - p i| ≤ (1 - δ) * (q * d + ε) := mul_le_mul_of_nonneg_left hfp (by linarith)
    have t2 : δ * |(y i).real - p i| ≤ δ * d := mul_le_mul_of_nonneg_left y2 h0
    have t3 : δ * ε ≥ 0 := mul_nonneg h0 ε0
    rw [ee]
    unfold dampedFactor
    nlinarith

theorem Inexact.bound (hF : F.Accurate μ η) (h : Inexact μ η cfg fn y0 g p q ρ ρ₀ ε M) (k : Nat) :
    0 ≤ dampedFactor cfg.damp q ^ k * ρ₀ + (ε + dampingError μ η M cfg.damp) / (1 - dampedFactor cfg.damp q) ∧
    dampedFactor cfg.damp q ^ k * ρ₀ + (ε + dampingError μ η M cfg.damp) / (1 - dampedFactor cfg.damp q) ≤ ρ := by
  obtain ⟨r0, _, r1⟩ := h.factor
  have hroom := h.room
  change ρ₀ + _ / (1 - dampedFactor cfg.damp q) ≤ ρ at hroom
  have hρ₀ := h.start_nonneg
  have p1 : 0 ≤ dampedFactor cfg.damp q ^ k := pow_nonneg r0 k
  have p2 : dampedFactor cfg.damp q ^ k ≤ 1 := pow_le_one₀ r0 r1.le
  have hk : dampedFactor cfg.damp q ^ k * ρ₀ ≤ ρ₀ := mul_le_of_le_one_left hρ₀ p2
  have hk0 : 0 ≤ dampedFactor cfg.damp q ^ k * ρ₀ := mul_nonneg p1 hρ₀
  exact ⟨add_nonneg hk0 (div_nonneg (add_nonneg h.ε_nonneg (dampingError_nonneg hF h.size_nonneg _)) (by linarith)), by linarith⟩

/-- **C89, the iterates.**  After `k` steps the iterate is finite and its distance from the fixed point is at most the one that the
exact contraction would give, plus a multiple of the error made in a single step.  The errors do not build up. -/
theorem C89_stays_near (hF : F.Accurate μ η) (h : Inexact μ η cfg fn y0 g p q ρ ρ₀ ε M) (aux0 : A) (k : Nat) :
    Near (iterateAt (FixedPointIter.solver cfg) fn aux0 y0 none k) p
      (((1 - cfg.damp.real) * q + cfg.damp.real) ^ k * ρ₀ +
        (ε + dampingError μ η M cfg.damp) / (1 - ((1 - cfg.damp.real) * q + cfg.damp.real))) := by
  change Near _ p (dampedFactor cfg.damp q ^ k * ρ₀ + (ε + dampingError μ η M cfg.damp) / (1 - dampedFactor cfg.damp q))
  obtain ⟨r0, _, r1⟩ := h.factor
  induction k with
  | zero =>
    intro i
    have hb : 0 ≤ (ε + dampingError μ η M cfg.damp) / (1 - dampedFactor cfg.damp q) :=
      div_nonneg (add_nonneg h.ε_nonneg (dampingError_nonneg hF h.size_nonneg _)) (by linarith)
    exact ⟨(h.start i).1, (h.start i).2.trans (by rw [pow_zero, one_mul]; linarith)⟩
  | succ k ih =>
    have := h.step hF (stateAt (FixedPointIter.solver cfg) fn aux0 y0 none k) (h.bound hF k).1 (h.bound hF k).2 ih
    have e : dampedFactor cfg.damp q ^ (k + 1) * ρ₀ + (ε + dampingError μ η M cfg.damp) / (1 - dampedFactor cfg.damp q) =
        dampedFactor cfg.damp q * (dampedFactor cfg.damp q ^ k * ρ₀ +
          (ε + dampingError μ η M cfg.damp) / (1 - dampedFactor cfg.damp q)) + (ε + dampingError μ η M cfg.damp) := by
      have : 1 - dampedFactor cfg.damp q ≠ 0 := by linarith
      field_simp
      ring
    rw [e]
    exact this

/-- **C89, the answer.**  Success means: the returned value is finite and, if no tolerance at it is above `t`, within
`(r * t + e) / (1 - r)` of the fixed point, where `r` is the factor of the damped contraction and `e` the error of a step. -/
theorem C89_accuracy (hF : F.Accurate μ η) (h : Inexact μ η cfg fn y0 g p q ρ ρ₀ ε M) (hn : Dominates cfg.norm)
    (hr : 0 ≤ cfg.rtol) (hrf : cfg.rtol.isFinite = true) (ha : 0 ≤ cfg.atol) (aux0 : A) (ms : Option Nat) (throw : Bool) (sol)
    (hsol : iterativeSolve (FixedPointIter.solver cfg) Fl.allfinite fn aux0 y0 ms throw = some (.ok sol))
    (hs : sol.result = .successful) (t : ℝ)
    (ht : ∀ i, (cfg.atol + cfg.rtol * HasAbs.abs (sol.value i)).isFinite = true ∧
      allowed μ η cfg.rtol.real cfg.atol.real (sol.value i).real ≤ t) :
    Near sol.value p
      ((((1 - cfg.damp.real) * q + cfg.damp.real) * t + (ε + dampingError μ η M cfg.damp)) /
        (1 - ((1 - cfg.damp.real) * q + cfg.damp.real))) := by
  obtain ⟨k, hk, _, hclose⟩ := C85_fixed_point hF cfg hn hr hrf ha fn aux0 y0 ms throw sol hsol hs (fun i _ => (ht i).1)
  obtain ⟨_, _, st0', hi', hst, hp⟩ := C01_step_budget _ _ _ _ _ _ _ _ hsol
  cases hi'
  rw [hk] at hp
  have hv : sol.value = iterateAt (FixedPointIter.solver cfg) fn aux0 y0 none (k + 1) := congrArg Prod.fst hp
  have hnear := C89_stays_near hF h aux0 k
  have hnear1 := C89_stays_near hF h aux0 (k + 1)
  rw [← hv] at hnear1
  obtain ⟨b0, b1⟩ := h.bound hF k
  change Near _ p (dampedFactor cfg.damp q ^ k * ρ₀ + (ε + dampingError μ η M cfg.damp) / (1 - dampedFactor cfg.damp q)) at hnear
  change Near _ p ((dampedFactor cfg.damp q * t + (ε + dampingError μ η M cfg.damp)) / (1 - dampedFactor cfg.damp q))
  obtain ⟨r0, _, r1⟩ := h.factor
  have hstep := fun d h0 h1 h2 => h.step hF (y := iterateAt (FixedPointIter.solver cfg) fn aux0 y0 none k)
    (stateAt (FixedPointIter.solver cfg) fn aux0 y0 none k) (d := d) h0 h1 h2
  change ∀ d, 0 ≤ d → d ≤ ρ → _ → Near (iterateAt (FixedPointIter.solver cfg) fn aux0 y0 none (k + 1)) p _ at hstep
  rw [← hv] at hstep
  generalize iterateAt (FixedPointIter.solver cfg) fn aux0 y0 none k = y at *
  generalize ((1 - cfg.damp.real) * q + cfg.damp.real) ^ (k + 1) * ρ₀ +
        (ε + dampingError μ η M cfg.damp) / (1 - ((1 - cfg.damp.real) * q + cfg.damp.real)) = D at hnear1
  generalize dampedFactor cfg.damp q ^ k * ρ₀ + (ε + dampingError μ η M cfg.damp) / (1 - dampedFactor cfg.damp q) = E at *
  set r := dampedFactor cfg.damp q
  set e := ε + dampingError μ η M cfg.damp with he
  have e0 : 0 ≤ e := add_nonneg h.ε_nonneg (dampingError_nonneg hF h.size_nonneg _)
  -- improve a bound
  have imp : ∀ d, Near sol.value p d → Near sol.value p (r * d + (r * t + e)) := by
    intro d hd i
    have hmin : Near y p (min (d + t) E) := fun j => by
      refine ⟨(hclose j).1, le_min ?_ (hnear j).2⟩
      have t1 := abs_add_le ((y j).real - (sol.value j).real) ((sol.value j).real - p j)
      rw [sub_add_sub_cancel] at t1
      linarith [(hd j).2, (hclose j).2.2, (ht j).2]
    have hpos : 0 ≤ min (d + t) E := (abs_nonneg _).trans (hmin i).2
    have := hstep _ hpos ((min_le_right _ _).trans b1) hmin i
    refine ⟨this.1, this.2.trans ?_⟩
    have : r * min (d + t) E ≤ r * (d + t) := mul_le_mul_of_nonneg_left (min_le_left _ _) r0
    linarith
  have all : ∀ n : Nat, Near sol.value p (r ^ n * (D - (r * t + e) / (1 - r)) + (r * t + e) / (1 - r)) := by
    intro n
    induction n with
    | zero => rw [pow_zero, one_mul, sub_add_cancel]; exact hnear1
    | succ n ih =>
      have h2 := imp _ ih
      have e1 : r * (r ^ n * (D - (r * t + e) / (1 - r)) + (r * t + e) / (1 - r)) + (r * t + e) =
          r ^ (n + 1) * (D - (r * t + e) / (1 - r)) + (r * t + e) / (1 - r) := by
        have : 1 - r ≠ 0 := by linarith
        field_simp
        ring
      rwa [e1] at h2
  intro i
  refine ⟨(all 0 i).1, ge_of_tendsto' (x := Filter.atTop) (f := fun n : Nat =>
    r ^ n * (D - (r * t + e) / (1 - r)) + (r * t + e) / (1 - r)) ?_ fun n => (all n i).2⟩
  have := ((tendsto_pow_atTop_nhds_zero_of_lt_one r0 r1).mul_const (D - (r * t + e) / (1 - r))).add_const ((r * t + e) / (1 - r))
  simpa using this

/-! ### Stopping -/

/-- A small step passes the test. -/
theorem test_of_close (hF : F.Accurate μ η) (hh : F.Rep (1 / 2)) {rtol atol a b : Fl F} (hr : 0 ≤ rtol)
    (hrf : rtol.isFinite = true) (haf : atol.isFinite = true) (ha : a.isFinite = true) (hb : b.isFinite = true)
    (h : 2 * ((1 + μ) * |a.real - b.real| + η) < atol.real) :
    HasAbs.abs ((a - b) / (atol + rtol * HasAbs.abs b)) ≤ (⟨.fin (1 / 2), fun _ h => by cases h; exact hh⟩ : Fl F) := by
  have u0 := hF.u_nonneg
  have e0 := hF.η_nonneg
  have hab : |a.real - b.real| ≤ atol.real := by nlinarith [abs_nonneg (a.real - b.real)]
  obtain ⟨d, hd, _, _⟩ := round_between (F.neg (Fl.rep_real haf)) (Fl.rep_real haf) (abs_le.1 hab).1 (abs_le.1 hab).2
  have hdv : (a - b).val = .fin d := by
    rw [Fl.sub_val, Fl.val_of_finite ha, Fl.val_of_finite hb, XR.sub_fin]; exact hd
  have hd1 : 2 * |d| < atol.real := by
    have t := abs_add_le (d - (a.real - b.real)) (a.real - b.real)
    rw [sub_add_cancel] at t
    linarith [hF.error hd]
  have hsc := scale_exceeds (y := b) (atol := atol) hr hrf haf hb hd1
  rw [Fl.le_def, Fl.abs_val, Fl.div_val, hdv]
  show HasAbs.abs (F.roundXR (XR.fin d / (atol + rtol * HasAbs.abs b).val)) ≤ XR.fin (1 / 2)
  cases hs : (atol + rtol * HasAbs.abs b).val with
  | fin s =>
    rw [hs, XR.lt_fin] at hsc
    have hs0 : 0 < s := lt_of_le_of_lt (by positivity) hsc
    rw [XR.div_fin _ _ hs0.ne']
    have hq : |d / s| ≤ 1 / 2 := by
      rw [abs_div, abs_of_pos hs0, div_le_iff₀ hs0]; linarith
    obtain ⟨v, hv, l, u⟩ := round_between (F.neg hh) hh (abs_le.1 hq).1 (abs_le.1 hq).2
    show HasAbs.abs (F.round (d / s)) ≤ _
    rw [hv, XR.abs_fin, XR.le_fin]
    exact abs_le.2 ⟨l, u⟩
  | pinf =>
    have : (XR.fin d / XR.pinf : XR) = XR.fin 0 := rfl
    rw [this]
    show HasAbs.abs (F.round 0) ≤ _
    rw [F.zero, XR.abs_fin, abs_zero, XR.le_fin]
    norm_num
  | ninf => rw [hs] at hsc; exact absurd hsc (by intro h; exact h)
  | nan => rw [hs] at hsc; exact absurd hsc (by intro h; exact h)

/-- **C89, stopping.**  If the norm of entries up to one half is below one, and `atol` is not below what the errors of the steps
allow after `N` steps, then the solve succeeds within `N + 1` steps. -/
theorem C89_stops (hF : F.Accurate μ η) (hh : F.Rep (1 / 2)) (h : Inexact μ η cfg fn y0 g p q ρ ρ₀ ε M)
    (hn : ∀ x : ι → Fl F, (∀ i, (HasAbs.abs (x i)).isFinite = true ∧ (HasAbs.abs (x i)).real ≤ 1 / 2) → cfg.norm x < 1)
    (hr : 0 ≤ cfg.rtol) (hrf : cfg.rtol.isFinite = true) (haf : cfg.atol.isFinite = true)
    (aux0 : A) (ms : Option Nat) (throw : Bool) (N : Nat) (hms : ∀ n, ms = some n → N + 1 ≤ n)
    (hatol : 2 * ((1 + μ) * (2 * (((1 - cfg.damp.real) * q + cfg.damp.real) ^ N * ρ₀ +
        (ε + dampingError μ η M cfg.damp) / (1 - ((1 - cfg.damp.real) * q + cfg.damp.real)))) + η) < cfg.atol.real) :
    ∃ sol, iterativeSolve (FixedPointIter.solver cfg) Fl.allfinite fn aux0 y0 ms throw = some (.ok sol) ∧
      sol.result = .successful ∧ sol.numSteps ≤ N + 1 := by
  have hnear := fun k => C89_stays_near hF h aux0 k
  refine (solve_succeeds_by (FixedPointIter.solver cfg) Fl.allfinite fn aux0 y0 none rfl ms throw (N + 1) ?_ ?_ ?_ hms).imp
    fun sol h => ⟨h.1, h.2.1, h.2.2.1⟩
  · intro j _
    exact fl_allfinite.2 fun i => (hnear (j - 1) i).1
  · intro j _; rfl
  · have h1 := hnear N
    have h2 := hnear (N + 1)
    set y := iterateAt (FixedPointIter.solver cfg) fn aux0 y0 none N with hy
    set v := iterateAt (FixedPointIter.solver cfg) fn aux0 y0 none (N + 1) with hv
    have hst : stateAt (FixedPointIter.solver cfg) fn aux0 y0 none (N + 1) =
        some (cfg.norm fun i => (y i - v i) / (cfg.atol + cfg.rtol * HasAbs.abs (v i))) := rfl
    show (FixedPointIter.terminate (stateAt (FixedPointIter.solver cfg) fn aux0 y0 none (N + 1))).1 = true
    rw [hst]
    refine decide_eq_true (hn _ fun i => ?_)
    obtain ⟨r0, _, r1⟩ := h.factor
    have hpow : ((1 - cfg.damp.real) * q + cfg.damp.real) ^ (N + 1) * ρ₀ ≤ ((1 - cfg.damp.real) * q + cfg.damp.real) ^ N * ρ₀ :=
      mul_le_mul_of_nonneg_right (pow_le_pow_of_le_one (a := dampedFactor cfg.damp q) r0 r1.le (Nat.le_succ N)) h.start_nonneg
    have hd : |(y i).real - (v i).real| ≤ 2 * (((1 - cfg.damp.real) * q + cfg.damp.real) ^ N * ρ₀ +
        (ε + dampingError μ η M cfg.damp) / (1 - ((1 - cfg.damp.real) * q + cfg.damp.real))) := by
      have t := abs_sub ((y i).real - p i) ((v i).real - p i)
      rw [sub_sub_sub_cancel_right] at t
      linarith [(h1 i).2, (h2 i).2]
    have := test_of_close hF hh (atol := cfg.atol) hr hrf haf (h1 i).1 (h2 i).1 (by
      have := mul_le_mul_of_nonneg_left hd (show 0 ≤ 1 + μ by linarith [hF.u_nonneg])
      linarith)
    rw [Fl.le_def] at this
    cases hw : (HasAbs.abs ((y i - v i) / (cfg.atol + cfg.rtol * HasAbs.abs (v i))) : Fl F).val with
    | fin w =>
      rw [hw] at this
      exact ⟨Fl.finite_iff.2 ⟨w, hw⟩, by rw [Fl.real_of hw]; exact XR.le_fin _ _ |>.1 this⟩
    | ninf =>
      rw [Fl.abs_val] at hw
      revert hw
      cases ((y i - v i) / (cfg.atol + cfg.rtol * HasAbs.abs (v i)) : Fl F).val <;> intro hw <;> cases hw
    | pinf => rw [hw] at this; exact absurd this (by intro h; exact h)
    | nan => rw [hw] at this; exact absurd this (by intro h; exact h)

end

/-- The norms of `_misc.py:39-44` are below one if every entry is at most one half. -/
theorem flNorm_below (norm : (ι → ℝ) → ℝ) (hh : F.Rep (1 / 2)) (hnorm : ∀ x, (∀ i, |x i| ≤ 1 / 2) → norm x ≤ 1 / 2)
    (x : ι → Fl F) (hx : ∀ i, (HasAbs.abs (x i)).isFinite = true ∧ (HasAbs.abs (x i)).real ≤ 1 / 2) : flNorm norm x < 1 := by
  have hfin : ∀ i, (x i).isFinite = true := fun i => by rw [← Fl.finite_abs]; exact (hx i).1
  have hval := fun i => Fl.val_of_finite (hfin i)
  show F.roundXR (liftNorm norm fun i => (x i).val) < XR.fin 1
  unfold liftNorm
  rw [if_neg, if_neg]
  · have h1 : norm (fun i => (x i).val.toReal) ≤ 1 / 2 := hnorm _ fun i => by
      have h2 := (hx i).2
      rw [Fl.real_of (r := |(x i).real|) (by rw [Fl.abs_val, hval, XR.abs_fin])] at h2
      rw [hval]
      exact h2
    have h3 := F.round_le hh h1
    show F.round (norm fun i => (x i).val.toReal) < XR.fin 1
    cases hv : F.round (norm fun i => (x i).val.toReal) with
    | fin v => rw [hv, XR.le_fin] at h3; rw [XR.lt_fin]; linarith
    | ninf => exact trivial
    | pinf => rw [hv] at h3; exact absurd h3 (by intro h; exact h)
    | nan => rw [hv] at h3; exact absurd h3 (by intro h; exact h)
  · rintro ⟨i, hi⟩
    have : (x i).val.isFinite = true := hfin i
    rw [this] at hi; cases hi
  · rintro ⟨i, hi⟩
    rw [show (fun i => (x i).val) i = (x i).val from rfl, hval] at hi; cases hi

/-! ### Not stopping -/

/-- **C89, a limit of the method.**  If the function, as computed, exchanges two different points, and their difference is not below
the tolerance at either, then fixed-point iteration from one of them never stops: every budget is exhausted, and without a budget the
solve hangs. -/
theorem C89_too_fine (cfg : FixedPointIter.Cfg ι (Fl F)) (hd : cfg.damp = 0) (fn : (ι → Fl F) → (ι → Fl F) × A) (aux0 : A)
    (a b : ι → Fl F) (ha : ∀ i, (a i).isFinite = true) (hb : ∀ i, (b i).isFinite = true) (hab : (fn a).1 = b) (hba : (fn b).1 = a)
    (h1 : ¬ cfg.norm (fun i => (a i - b i) / (cfg.atol + cfg.rtol * HasAbs.abs (b i))) < 1)
    (h2 : ¬ cfg.norm (fun i => (b i - a i) / (cfg.atol + cfg.rtol * HasAbs.abs (a i))) < 1) :
    iterativeSolve (FixedPointIter.solver cfg) Fl.allfinite fn aux0 a none false = none ∧
    ∀ n, ∃ sol, iterativeSolve (FixedPointIter.solver cfg) Fl.allfinite fn aux0 a (some n) false = some (.ok sol) ∧
      sol.result = .nonlinearMaxStepsReached ∧ sol.numSteps = n := by
  have hstep : ∀ y st, (∀ i, (y i).isFinite = true) → (FixedPointIter.step cfg fn y st).1 = (fn y).1 := by
    intro y st hy
    funext i
    show (1 - cfg.damp) * (fn y).1 i + cfg.damp * y i = (fn y).1 i
    rw [hd]
    exact undamped _ _ (hy i)
  have hit : ∀ k, iterateAt (FixedPointIter.solver cfg) fn aux0 a none (k + 1) =
      (FixedPointIter.step cfg fn (iterateAt (FixedPointIter.solver cfg) fn aux0 a none k)
        (stateAt (FixedPointIter.solver cfg) fn aux0 a none k)).1 := fun k => rfl
  have hst : ∀ k, stateAt (FixedPointIter.solver cfg) fn aux0 a none (k + 1) =
      some (cfg.norm fun i => (iterateAt (FixedPointIter.solver cfg) fn aux0 a none k i -
          iterateAt (FixedPointIter.solver cfg) fn aux0 a none (k + 1) i) /
        (cfg.atol + cfg.rtol * HasAbs.abs (iterateAt (FixedPointIter.solver cfg) fn aux0 a none (k + 1) i))) := fun k => rfl
  have hinv : ∀ k, iterateAt (FixedPointIter.solver cfg) fn aux0 a none k = a ∨
      iterateAt (FixedPointIter.solver cfg) fn aux0 a none k = b := by
    intro k
    induction k with
    | zero => exact Or.inl rfl
    | succ k ih =>
      rw [hit]
      rcases ih with e | e <;> rw [e]
      · rw [hstep _ _ ha, hab]; exact Or.inr rfl
      · rw [hstep _ _ hb, hba]; exact Or.inl rfl
  have hfin : ∀ k, Fl.allfinite (iterateAt (FixedPointIter.solver cfg) fn aux0 a none k) = true := by
    intro k
    rcases hinv k with e | e <;> rw [e]
    · exact fl_allfinite.2 ha
    · exact fl_allfinite.2 hb
  have hcont : ∀ k, Continues (FixedPointIter.solver cfg) Fl.allfinite fn aux0 a none k := by
    intro k
    cases k with
    | zero => exact ⟨fl_allfinite.2 ha, rfl⟩
    | succ k =>
      refine ⟨hfin k, ?_⟩
      show FixedPointIter.terminate (stateAt (FixedPointIter.solver cfg) fn aux0 a none (k + 1)) = _
      rw [hst, hit]
      unfold FixedPointIter.terminate
      rcases hinv k with e | e <;> rw [e]
      · rw [hstep _ _ ha, hab]; simp [h1]
      · rw [hstep _ _ hb, hba]; simp [h2]
  have hall : ∀ n, ∃ sol, iterativeSolve (FixedPointIter.solver cfg) Fl.allfinite fn aux0 a (some n) false =
      some (.ok sol) ∧ sol.result = .nonlinearMaxStepsReached ∧ sol.numSteps = n := by
    intro n
    obtain ⟨sol, h1, h2⟩ := solve_exists (FixedPointIter.solver cfg) Fl.allfinite fn aux0 a none rfl (some n) n
      (fun j _ => hcont j) (Or.inr rfl)
    refine ⟨sol, h1, ?_, h2⟩
    obtain ⟨st', hi', _, _, _, _, _, hres⟩ := solve_spec _ _ _ _ _ _ _ _ h1
    cases hi'
    rw [if_pos (hcont _)] at hres
    exact hres
  refine ⟨(C08_unbounded_diverges_iff _ _ fn aux0 a none rfl (fun y st h => Result.noConfusion h)).2 fun n => ?_, hall⟩
  obtain ⟨sol, h1, h2, _⟩ := hall n
  exact ⟨sol, h1, h2⟩

/-! ### The hypotheses can be met, in `float64` -/

/-- `fn(y) = y / 2`, from `1`, with tolerance `2 ^ (-10)`. -/
noncomputable def flHalving : FixedPointIter.Cfg Unit (Fl .float64) :=
  { rtol := 0, atol := lit (rep_pow (e := -10) (by norm_num) (by norm_num)), norm := flNorm maxNorm, damp := 0 }

theorem flHalving_inexact : Inexact (2 ^ (-53 : ℤ)) (2 ^ (-1022 - 53 : ℤ)) flHalving
    (fun y => (fun i => (lit float64_half) * y i, ())) (fun _ => 1) (fun y i => y i / 2) 0 (1 / 2) 2 1
    (2 * 2 ^ (-53 : ℤ) + 2 ^ (-1022 - 53 : ℤ)) 2 where
  damp_fin := rfl
  damp_nonneg := le_refl (0 : ℝ)
  damp_lt := one_pos
  q_nonneg := by norm_num
  q_lt := by norm_num
  ε_nonneg := by positivity
  pulls x d _ h i := by
    have := h i
    simp only [Pi.zero_apply, sub_zero] at this ⊢
    rw [abs_div, abs_of_pos (by norm_num : (0 : ℝ) < 2)]
    linarith
  computes x hx i := by
    obtain ⟨h1, h2⟩ := hx i
    rw [Pi.zero_apply, sub_zero] at h2
    obtain ⟨s1, _, s3⟩ := shrunk float64_accurate (c := lit float64_half) (x := x i) rfl h1 (by show (0 : ℝ) ≤ 1 / 2; norm_num)
      (by show (1 / 2 : ℝ) ≤ 1; norm_num)
    refine ⟨s1, ?_⟩
    have e : (lit float64_half : Fl .float64).real * (x i).real = (x i).real / 2 := by
      show (1 / 2 : ℝ) * _ = _; ring
    rw [e] at s3
    refine s3.trans ?_
    have : (2 : ℝ) ^ (-53 : ℤ) * |(x i).real| ≤ 2 ^ (-53 : ℤ) * 2 := mul_le_mul_of_nonneg_left h2 (by positivity)
    linarith
  start i := ⟨rfl, by show |(1 : ℝ) - 0| ≤ 1; norm_num⟩
  start_nonneg := by norm_num
  room := by
    have e : dampingError (2 ^ (-53 : ℤ)) (2 ^ (-1022 - 53 : ℤ)) 2 flHalving.damp = 0 := if_pos rfl
    rw [e, show flHalving.damp.real = 0 from rfl]
    have hη : (2 : ℝ) ^ (-1022 - 53 : ℤ) ≤ 2 ^ (-53 : ℤ) := zpow_le_zpow_right₀ (by norm_num) (by norm_num)
    generalize (2 : ℝ) ^ (-1022 - 53 : ℤ) = η at *
    norm_num at hη ⊢
    linarith
  size_nonneg := by norm_num
  size i := by simp
  overflow := Or.inl rfl

/-- The run stops within 14 steps. -/
example : ∃ sol, iterativeSolve (FixedPointIter.solver flHalving) Fl.allfinite
    (fun y => (fun i => (lit float64_half) * y i, ())) () (fun _ => 1) (some 256) true = some (.ok sol) ∧
    sol.result = .successful ∧ sol.numSteps ≤ 14 := by
  refine C89_stops float64_accurate float64_half flHalving_inexact (flNorm_below _ float64_half fun x h =>
    (maxNorm_le_iff x _).2 ⟨by norm_num, h⟩) ?_ rfl rfl () _ _ 13 ?_ ?_
  · rw [Fl.le_def]; exact le_refl (0 : ℝ)
  · intro n hn; cases hn; norm_num
  · have e : dampingError (2 ^ (-53 : ℤ)) (2 ^ (-1022 - 53 : ℤ)) 2 flHalving.damp = 0 := if_pos rfl
    rw [e, show flHalving.damp.real = 0 from rfl]
    have hη : (2 : ℝ) ^ (-1022 - 53 : ℤ) ≤ 2 ^ (-53 : ℤ) := zpow_le_zpow_right₀ (by norm_num) (by norm_num)
    have hη0 : (0 : ℝ) < 2 ^ (-1022 - 53 : ℤ) := by positivity
    show _ < (2 : ℝ) ^ (-10 : ℤ)
    generalize (2 : ℝ) ^ (-1022 - 53 : ℤ) = η at *
    norm_num at hη ⊢
    linarith

/-- With damping the error of a step is that of the function, plus what computing the mean of two numbers adds. -/
example : dampingError (2 ^ (-53 : ℤ)) (2 ^ (-1022 - 53 : ℤ)) 2 (lit float64_half) =
    5 * 2 ^ (-53 : ℤ) * 2 + 2 ^ (-1022 - 53 : ℤ) * 2 + 3 * 2 ^ (-1022 - 53 : ℤ) :=
  if_neg fun h => by
    have : (1 / 2 : ℝ) = 0 := congrArg Fl.real h
    norm_num at this

/-- A function whose values, as computed, are `1` or the next number of `float64`, with `atol = 2 ^ (-60)`: the constant `1` up to
rounding, but the iteration never stops. -/
example : ∃ (cfg : FixedPointIter.Cfg Unit (Fl .float64)) (fn : (Unit → Fl .float64) → (Unit → Fl .float64) × Unit)
    (y0 : Unit → Fl .float64),
    (∀ y i, ((fn y).1 i).isFinite = true ∧ |((fn y).1 i).real - 1| ≤ 2 ^ (-52 : ℤ)) ∧
    iterativeSolve (FixedPointIter.solver cfg) Fl.allfinite fn () y0 none false = none := by
  classical
  have hnb : Neighbours .float64 1 (1 + 2 ^ (-(((53 : ℕ) : ℤ) - 1))) :=
    Binary.neighbours 53 (-1022) 1023 (by norm_num) (by norm_num) (by norm_num)
  have e52 : (-(((53 : ℕ) : ℤ) - 1)) = -52 := by norm_num
  rw [e52] at hnb
  have hne : (lit hnb.2.1 : Fl .float64) ≠ 1 := fun h => by
    have : (1 + 2 ^ (-52 : ℤ) : ℝ) = 1 := congrArg Fl.real h
    norm_num at this
  let cfg : FixedPointIter.Cfg Unit (Fl .float64) :=
    { rtol := 0, atol := lit (rep_pow (e := -60) (by norm_num) (by norm_num)), norm := fun x => HasAbs.abs (x ()), damp := 0 }
  let fn : (Unit → Fl .float64) → (Unit → Fl .float64) × Unit := fun y => (if y () = 1 then fun _ => lit hnb.2.1 else fun _ => 1, ())
  have h00 : (0 : Fl .float64) ≤ 0 := by rw [Fl.le_def]; exact le_refl (0 : ℝ)
  have hat : 0 ≤ cfg.atol := by rw [Fl.le_def]; show (0 : ℝ) ≤ 2 ^ (-60 : ℤ); positivity
  have htest : ∀ y : Fl .float64, y.isFinite = true → ∀ {d : Fl .float64}, d = 1 - lit hnb.2.1 ∨ d = lit hnb.2.1 - 1 →
      ¬ HasAbs.abs d < cfg.atol + cfg.rtol * HasAbs.abs y := by
    intro y hy d hd
    have e : cfg.atol + cfg.rtol * HasAbs.abs y = cfg.atol := by
      apply Fl.ext
      rw [Fl.add_val, Fl.mul_val, Fl.abs_val, Fl.val_of_finite hy, XR.abs_fin]
      show Format.float64.roundXR (XR.fin (2 ^ (-60 : ℤ)) + Format.float64.roundXR (XR.fin 0 * XR.fin |y.real|)) = _
      rw [XR.mul_fin, zero_mul]
      show Format.float64.roundXR (XR.fin (2 ^ (-60 : ℤ)) + Format.float64.round 0) = _
      rw [Format.zero, XR.add_fin, add_zero]
      exact rep_pow (by norm_num) (by norm_num)
    have r52 : Format.float64.Rep (2 ^ (-52 : ℤ)) := rep_pow (by norm_num) (by norm_num)
    have hdv : d.val = XR.fin (-(2 ^ (-52 : ℤ))) ∨ d.val = XR.fin (2 ^ (-52 : ℤ)) := by
      rcases hd with rfl | rfl
      · left
        rw [Fl.sub_val]
        show Format.float64.roundXR (XR.fin 1 - XR.fin (1 + 2 ^ (-52 : ℤ))) = _
        rw [XR.sub_fin, sub_add_cancel_left]
        exact Format.neg _ r52
      · right
        rw [Fl.sub_val]
        show Format.float64.roundXR (XR.fin (1 + 2 ^ (-52 : ℤ)) - XR.fin 1) = _
        rw [XR.sub_fin, add_sub_cancel_left]
        exact r52
    rw [e, Fl.lt_def, Fl.abs_val]
    show ¬ HasAbs.abs d.val < XR.fin (2 ^ (-60 : ℤ))
    rcases hdv with e1 | e1 <;> rw [e1, XR.abs_fin, XR.lt_fin] <;> norm_num
  refine ⟨cfg, fn, fun _ => 1, ?_, (C89_too_fine cfg rfl fn () (fun _ => 1) (fun _ => lit hnb.2.1) (fun _ => rfl) (fun _ => rfl)
    (if_pos rfl) (if_neg hne) ?_ ?_).1⟩
  · intro y i
    show ((if y () = 1 then fun _ => lit hnb.2.1 else fun _ => 1 : Unit → Fl .float64) i).isFinite = true ∧
      |((if y () = 1 then fun _ => lit hnb.2.1 else fun _ => 1 : Unit → Fl .float64) i).real - 1| ≤ _
    split_ifs
    · refine ⟨rfl, ?_⟩
      show |(1 + 2 ^ (-52 : ℤ) : ℝ) - 1| ≤ _
      rw [add_sub_cancel_left, abs_of_pos (by positivity)]
    · refine ⟨rfl, ?_⟩
      show |(1 : ℝ) - 1| ≤ _
      rw [sub_self, abs_zero]; positivity
  · exact fun h => htest _ rfl (Or.inl rfl) (Fl.abs_lt_of_div (Fl.scale_nonneg h00 hat) h)
  · exact fun h => htest _ rfl (Or.inr rfl) (Fl.abs_lt_of_div (Fl.scale_nonneg h00 hat) h)

end Verif.Props
