import Verif.Props.NearRoot
import Verif.Props.DoglegConvergence

/-!
Property C121: root finding with `Dogleg` from everywhere.
-/

namespace Verif.Props

open Verif Verif.Spec Verif.Driver Verif.SearchLoop Filter Topology

variable {ι A : Type} [Fintype ι]

/-- Square matrices of full rank are onto. -/
theorem square_surjective (J : Matrix ι ι ℝ) (μ : ℝ) (hμ : 0 < μ) (h : ∀ p : ι → ℝ, μ * ∑ i, p i ^ 2 ≤ ∑ m, (∑ i, J m i * p i) ^ 2)
    (v : ι → ℝ) : ∃ p : ι → ℝ, ∀ m, ∑ i, J m i * p i = v m := by
  have hinj : Function.Injective J.mulVecLin := by
    refine (injective_iff_map_eq_zero _).2 fun w hw => ?_
    have h1 := h w
    have hz : ∀ m, ∑ i, J m i * w i = 0 := fun m => congrFun hw m
    simp only [hz] at h1
    have h2 : ∑ m, w m ^ 2 = 0 := by
      refine le_antisymm ?_ (Finset.sum_nonneg fun i _ => sq_nonneg _)
      by_contra hn; push Not at hn
      have := mul_pos hμ hn
      simp at h1
      linarith
    funext m
    have := (Finset.sum_eq_zero_iff_of_nonneg fun i _ => sq_nonneg _).1 h2 m (Finset.mem_univ m)
    exact pow_eq_zero_iff two_ne_zero |>.1 this
  obtain ⟨p, hp⟩ := LinearMap.injective_iff_surjective.1 hinj v
  exact ⟨p, fun m => congrFun hp m⟩

/-- For square matrices a lower bound on `|Jp|` is one on `|Jᵀv|`. -/
theorem square_onto (J : Matrix ι ι ℝ) (μ : ℝ) (hμ : 0 < μ) (h : ∀ p : ι → ℝ, μ * ∑ i, p i ^ 2 ≤ ∑ m, (∑ i, J m i * p i) ^ 2)
    (v : ι → ℝ) : μ * ∑ m, v m ^ 2 ≤ ∑ i, (∑ m, J m i * v m) ^ 2 := by
  obtain ⟨p, hp'⟩ := square_surjective J μ hμ h v
  set w : ι → ℝ := fun i => ∑ m, J m i * v m with hw
  have h1 : euclid v ^ 2 ≤ euclid w * euclid p := by
    refine le_trans (le_of_eq ?_) (euclid_dot w p)
    rw [euclid_sq]
    simp only [hw, Finset.sum_mul]
    rw [Finset.sum_comm]
    refine Finset.sum_congr rfl fun m _ => ?_
    rw [sq]
    nth_rewrite 2 [← hp' m]
    rw [Finset.mul_sum]
    exact Finset.sum_congr rfl fun i _ => by ring
  have h2 : μ * euclid p ^ 2 ≤ euclid v ^ 2 := by
    rw [euclid_sq, euclid_sq]
    have := h p
    simp only [hp'] at this
    exact this
  show μ * ∑ m, v m ^ 2 ≤ ∑ i, w i ^ 2
  rw [← euclid_sq, ← euclid_sq]
  have hv := euclid_nonneg v
  have hw0 := euclid_nonneg w
  have hp0 := euclid_nonneg p
  rcases hv.eq_or_lt with h0 | h0
  · rw [← h0]; simp; positivity
  · have h3 : (euclid v ^ 2) ^ 2 ≤ (euclid w * euclid p) ^ 2 := pow_le_pow_left₀ (by positivity) h1 2
    refine le_of_mul_le_mul_right (a := euclid v ^ 2) ?_ (by positivity)
    calc μ * euclid v ^ 2 * euclid v ^ 2 = μ * (euclid v ^ 2) ^ 2 := by ring
      _ ≤ μ * (euclid w * euclid p) ^ 2 := mul_le_mul_of_nonneg_left h3 hμ.le
      _ = euclid w ^ 2 * (μ * euclid p ^ 2) := by ring
      _ ≤ euclid w ^ 2 * euclid v ^ 2 := mul_le_mul_of_nonneg_left h2 (by positivity)

/-- For square matrices of full rank the least-squares solution solves the equations. -/
theorem square_newton (ls : LinSolve ι ι) (hls : SolvesLeastSquares ls) (J : Matrix ι ι ℝ) (r : ι → ℝ) (μ : ℝ) (hμ : 0 < μ)
    (h : ∀ p : ι → ℝ, μ * ∑ i, p i ^ 2 ≤ ∑ m, (∑ i, J m i * p i) ^ 2) (m : ι) : ∑ i, J m i * -(ls.rect J r).1 i = -r m := by
  obtain ⟨q, hq⟩ := square_surjective J μ hμ h fun m => -r m
  have h1 := (newton_facts ls hls J r).2.1 q
  have h2 : ∑ k, ((∑ i, J k i * -(ls.rect J r).1 i) + r k) ^ 2 ≤ ∑ k, ((∑ i, J k i * q i) + r k) ^ 2 := by
    have h3 : (∑ k, ((∑ i, J k i * -(ls.rect J r).1 i) + r k) ^ 2) / 2 - (∑ k, r k ^ 2) / 2 ≤
      (∑ k, ((∑ i, J k i * q i) + r k) ^ 2) / 2 - (∑ k, r k ^ 2) / 2 := h1
    linarith
  have h4 : ∑ k, ((∑ i, J k i * -(ls.rect J r).1 i) + r k) ^ 2 = 0 := by
    refine le_antisymm (h2.trans (le_of_eq ?_)) (Finset.sum_nonneg fun i _ => sq_nonneg _)
    simp [hq]
  have h5 := (Finset.sum_eq_zero_iff_of_nonneg fun i _ => sq_nonneg _).1 h4 m (Finset.mem_univ m)
  have h6 := pow_eq_zero_iff two_ne_zero |>.1 h5
  linarith

/-- Functions with a Lipschitz Jacobian are continuous. -/
theorem LipschitzJacobian_continuous {κ : Type} [Fintype κ] {r : (ι → ℝ) → κ → ℝ} {jac : (ι → ℝ) → Matrix κ ι ℝ} {K : ℝ}
    (h : LipschitzJacobian r jac K) : Continuous r := by
  refine continuous_iff_continuousAt.2 fun y => ?_
  refine tendsto_pi_nhds.2 fun m => ?_
  have hsub : ∀ z m, |r z m - (r y m + ∑ i, jac y m i * (z i - y i))| ≤ K / 2 * ∑ i, (z i - y i) ^ 2 := by
    intro z m
    have h1 := (abs_le_euclid _ m).trans (LipschitzJacobian.taylor h y fun i => z i - y i)
    simp only [add_sub_cancel] at h1
    refine le_trans (le_of_eq ?_) h1
    congr 1; ring
  have hq : Tendsto (fun z : ι → ℝ => K / 2 * ∑ i, (z i - y i) ^ 2) (𝓝 y) (𝓝 0) := by
    have : Continuous fun z : ι → ℝ => K / 2 * ∑ i, (z i - y i) ^ 2 := by fun_prop
    have := this.tendsto y
    simpa using this
  have h0 : Tendsto (fun z => r z m - (r y m + ∑ i, jac y m i * (z i - y i))) (𝓝 y) (𝓝 0) :=
    squeeze_zero_norm (fun z => hsub z m) hq
  have hl : Tendsto (fun z : ι → ℝ => r y m + ∑ i, jac y m i * (z i - y i)) (𝓝 y) (𝓝 (r y m)) := by
    have : Continuous fun z : ι → ℝ => r y m + ∑ i, jac y m i * (z i - y i) := by fun_prop
    have := this.tendsto y
    simpa using this
  simpa using h0.add hl

/-- Every point has a root at a distance bounded by its residual. -/
theorem invertible_near_root (r : (ι → ℝ) → ι → ℝ) (jac : (ι → ℝ) → Matrix ι ι ℝ) (K μ B : ℝ) (hJ : LipschitzJacobian r jac K)
    (hI : UniformlyInvertible jac μ B) (y : ι → ℝ) : ∃ x, (∀ m, r x m = 0) ∧ μ * ∑ i, (x i - y i) ^ 2 ≤ ∑ m, r y m ^ 2 := by
  have hμ := hI.pos
  set E := ∑ m, r y m ^ 2 with hE
  have hE0 : 0 ≤ E := Finset.sum_nonneg fun i _ => sq_nonneg _
  refine near_root r jac y (E / μ + 1) μ (by positivity) hμ
    ⟨(LipschitzJacobian_continuous hJ).continuousOn, fun x _ => hJ.deriv x, fun x _ => square_onto (jac x) μ hμ (hI.below x)⟩ ?_
  have h1 : E < μ * (E / μ + 1) := by
    rw [mul_add, mul_div_cancel₀ _ hμ.ne']; linarith
  refine h1.trans_le (mul_le_mul_of_nonneg_left ?_ hμ.le)
  have : 0 ≤ E / μ := by positivity
  nlinarith

/-- Steps with a small enough radius pass the test of the default search. -/
theorem dogleg_root_taken (eps : ℝ) (he : 0 ≤ eps) (ls : LinSolve ι ι) (hls : SolvesLeastSquares ls) (jac : (ι → ℝ) → Matrix ι ι ℝ)
    (f : (ι → ℝ) → ι → ℝ) (K μ B R : ℝ) (hJ : LipschitzJacobian f jac K) (hI : UniformlyInvertible jac μ B) (hB : 0 < B) (hR0 : 0 ≤ R)
    (y : ι → ℝ) (hy : ∑ m, f y m ^ 2 ≤ R ^ 2) (s : ℝ) (hs0 : 0 < s) (hs : s ≤ μ / (2 * (K * R + B + μ))) :
    (∑ m, f (fun i => y i + doglegStep eps s ls (jac y) (f y) i) m ^ 2) / 2 - (∑ m, f y m ^ 2) / 2 ≤
      1 / 100 * linearisedChange (jac y) (f y) (doglegStep eps s ls (jac y) (f y)) := by
  have hμ := hI.pos
  have hK := hJ.nonneg
  have hKR : 0 ≤ K * R := mul_nonneg hK hR0
  rw [le_div_iff₀ (by positivity)] at hs
  have hsKR : 0 ≤ s * (K * R) := by positivity
  have hsB : 0 ≤ s * B := by positivity
  have hsμ : 0 < s * μ := by positivity
  obtain ⟨_, _, hsuff⟩ := dogleg_facts eps s ls (jac y) (f y) he hs0 hls B hB (hI.above y)
  have hQD := hsuff μ hμ (hI.below y) (by nlinarith) (by nlinarith)
  set p := doglegStep eps s ls (jac y) (f y) with hp
  set Q := ∑ i, p i ^ 2 with hQd
  set D := -linearisedChange (jac y) (f y) p with hDd
  have hQ0 : 0 ≤ Q := Finset.sum_nonneg fun i _ => sq_nonneg _
  have hD0 : 0 ≤ D := by
    by_contra h
    push Not at h
    have h1 : 0 ≤ μ * Q := by positivity
    have h2 := mul_neg_of_pos_of_neg hs0 h
    nlinarith
  set u : ι → ℝ := fun m => f y m + ∑ i, jac y m i * p i with hu
  set e : ι → ℝ := fun m => f (fun i => y i + p i) m - f y m - ∑ i, jac y m i * p i with hed
  have hte : euclid e ≤ K / 2 * Q := LipschitzJacobian.taylor hJ y p
  have hsum : ∑ m, f (fun i => y i + p i) m ^ 2 = euclid u ^ 2 + 2 * ∑ m, u m * e m + euclid e ^ 2 := by
    rw [euclid_sq, euclid_sq, Finset.mul_sum, ← Finset.sum_add_distrib, ← Finset.sum_add_distrib]
    exact Finset.sum_congr rfl fun m _ => by rw [hu, hed]; ring
  have hE' : euclid u ^ 2 = ∑ m, f y m ^ 2 - 2 * D := by
    rw [euclid_sq, hDd]
    show _ = ∑ m, f y m ^ 2 - 2 * -((∑ k, ((∑ i, jac y k i * p i) + f y k) ^ 2) / 2 - (∑ k, f y k ^ 2) / 2)
    have : ∑ m, u m ^ 2 = ∑ k, ((∑ i, jac y k i * p i) + f y k) ^ 2 := Finset.sum_congr rfl fun m _ => by rw [hu, add_comm]
    rw [this]; ring
  have huR : euclid u ≤ R := by
    refine abs_le_of_sq_le_sq' ?_ hR0 |>.2
    rw [hE']; linarith
  have hdot : ∑ m, u m * e m ≤ R * (K / 2 * Q) :=
    (euclid_dot u e).trans (mul_le_mul huR hte (euclid_nonneg _) hR0)
  have he2 : euclid e ^ 2 ≤ (K / 2 * Q) ^ 2 := pow_le_pow_left₀ (euclid_nonneg _) hte 2
  have hDR : 2 * D ≤ R ^ 2 := by nlinarith [sq_nonneg (euclid u)]
  have hx : 2 * (s * (K * R)) ≤ μ := by nlinarith
  have h1 : R * (K / 2 * Q) ≤ D / 2 := by
    refine le_of_mul_le_mul_left ?_ hμ
    calc μ * (R * (K / 2 * Q)) = K * R / 2 * (μ * Q) := by ring
      _ ≤ K * R / 2 * (2 * s * D) := mul_le_mul_of_nonneg_left hQD (by positivity)
      _ = (2 * (s * (K * R))) * D / 2 := by ring
      _ ≤ μ * D / 2 := by
        have := mul_le_mul_of_nonneg_right hx hD0
        linarith
      _ = μ * (D / 2) := by ring
  have h2 : (K / 2 * Q) ^ 2 ≤ D / 8 := by
    refine le_of_mul_le_mul_left (a := μ ^ 2) ?_ (by positivity)
    have h3 : (μ * Q) ^ 2 ≤ (2 * s * D) ^ 2 := pow_le_pow_left₀ (by positivity) hQD 2
    have h4 : (2 * (s * (K * R))) ^ 2 ≤ μ ^ 2 := pow_le_pow_left₀ (by positivity) hx 2
    calc μ ^ 2 * (K / 2 * Q) ^ 2 = K ^ 2 / 4 * (μ * Q) ^ 2 := by ring
      _ ≤ K ^ 2 / 4 * (2 * s * D) ^ 2 := mul_le_mul_of_nonneg_left h3 (by positivity)
      _ = K ^ 2 * s ^ 2 * D / 2 * (2 * D) := by ring
      _ ≤ K ^ 2 * s ^ 2 * D / 2 * R ^ 2 := mul_le_mul_of_nonneg_left hDR (by positivity)
      _ = (2 * (s * (K * R))) ^ 2 * D / 8 := by ring
      _ ≤ μ ^ 2 * D / 8 := by
        have := mul_le_mul_of_nonneg_right h4 hD0
        linarith
      _ = μ ^ 2 * (D / 8) := by ring
  have hlin : linearisedChange (jac y) (f y) p = -D := by rw [hDd, neg_neg]
  rw [hsum, hE', hlin]
  linarith

/-- Counting accepted and rejected trials, down to a level: above it every accepted trial lowers the objective by the factor
`1 - θ`. -/
theorem trust_run_rate_to {X : Type} {f : X → ℝ} {trial : X → ℝ → X} {pred : X → ℝ → ℝ} {c l h : ℝ} {y : Nat → X} {t : Nat → ℝ}
    (R : TrustRun f trial pred c l h y t) (hl0 : 0 < l) (hl1 : l < 1) (hh : 1 ≤ h) (tmin : ℝ) (hrad : ∀ k, tmin ≤ t k)
    (m θ : ℝ) (hθ : θ ≤ 1)
    (hdown : ∀ k, f (trial (y k) (t k)) - f (y k) ≤ c * pred (y k) (t k) → f (trial (y k) (t k)) ≤ f (y k))
    (hpred : ∀ k, f (trial (y k) (t k)) - f (y k) ≤ c * pred (y k) (t k) → m < f (y k) →
      f (trial (y k) (t k)) ≤ (1 - θ) * f (y k))
    (r q : Nat) (hr : l ^ r * h ≤ 1) (hq : l ^ q * t 0 < tmin) (N : Nat) :
    ∃ a b : Nat, a + b = N ∧ b ≤ r * a + q ∧ f (y N) ≤ max m ((1 - θ) ^ a * f (y 0)) := by
  have key : ∀ k, ∃ a b : Nat, a + b = k ∧ f (y k) ≤ max m ((1 - θ) ^ a * f (y 0)) ∧ t k * l ^ (r * a) ≤ t 0 * l ^ b := by
    intro k
    induction k with
    | zero => exact ⟨0, 0, rfl, by simp, by simp⟩
    | succ k ih =>
      obtain ⟨a, b, hab, h1, h2⟩ := ih
      have ht := R.pos k
      rcases R.rule k with ⟨a1, a2, a3⟩ | ⟨_, b2, b3⟩
      · refine ⟨a + 1, b, by omega, ?_, ?_⟩
        · rw [a2]
          rcases le_or_gt (f (y k)) m with hm | hm
          · exact (hdown k a1).trans (hm.trans (le_max_left _ _))
          · have h3 : f (y k) ≤ (1 - θ) ^ a * f (y 0) := (le_max_iff.1 h1).resolve_left (not_le.2 hm)
            refine ((hpred k a1 hm).trans (mul_le_mul_of_nonneg_left h3 (by linarith))).trans (le_of_eq_of_le ?_ (le_max_right _ _))
            rw [pow_succ']; ring
        · have h3 : t (k + 1) ≤ h * t k := by
            rcases a3 with a3 | a3
            · exact a3.le
            · rw [a3]; nlinarith
          have h4 : (0:ℝ) < l ^ (r * a) := pow_pos hl0 _
          have h5 : (0:ℝ) < l ^ r := pow_pos hl0 _
          calc t (k + 1) * l ^ (r * (a + 1)) = t (k + 1) * (l ^ r * l ^ (r * a)) := by rw [mul_add, mul_one, pow_add]; ring
            _ ≤ h * t k * (l ^ r * l ^ (r * a)) := mul_le_mul_of_nonneg_right h3 (by positivity)
            _ = (l ^ r * h) * (t k * l ^ (r * a)) := by ring
            _ ≤ 1 * (t k * l ^ (r * a)) := mul_le_mul_of_nonneg_right hr (by positivity)
            _ ≤ t 0 * l ^ b := by rw [one_mul]; exact h2
      · refine ⟨a, b + 1, by omega, by rw [b2]; exact h1, ?_⟩
        rw [b3, pow_succ]
        calc l * t k * l ^ (r * a) = (t k * l ^ (r * a)) * l := by ring
          _ ≤ (t 0 * l ^ b) * l := mul_le_mul_of_nonneg_right h2 hl0.le
          _ = t 0 * (l ^ b * l) := by ring
  obtain ⟨a, b, hab, h1, h2⟩ := key N
  refine ⟨a, b, hab, ?_, h1⟩
  by_contra hlt
  push Not at hlt
  have h3 := hrad N
  have h4 : (0:ℝ) < l ^ (r * a) := pow_pos hl0 _
  have hsplit : l ^ b ≤ l ^ q * l ^ (r * a) := by
    rw [← pow_add]
    exact pow_le_pow_of_le_one hl0.le hl1.le (by omega)
  have h5 : t N * l ^ (r * a) ≤ t 0 * (l ^ q * l ^ (r * a)) := h2.trans (mul_le_mul_of_nonneg_left hsplit (R.pos 0).le)
  have h6 : t N ≤ t 0 * l ^ q := by
    refine le_of_mul_le_mul_right ?_ h4
    linarith
  linarith

section
variable (eps rtol atol : ℝ) (he : 0 ≤ eps) (nY nF : (ι → ℝ) → ℝ) (ls : LinSolve ι ι) (hls : SolvesLeastSquares ls)
  (jac : (ι → ℝ) → Matrix ι ι ℝ) (aux0 : A) (fn : (ι → ℝ) → (ι → ℝ) × A) (y0 : ι → ℝ) (K μ B R : ℝ)
  (hJ : LipschitzJacobian (fun y => (fn y).1) jac K) (hI : UniformlyInvertible jac μ B) (hB : 0 < B) (hR0 : 0 ≤ R)
  (hR : ∑ m, (fn y0).1 m ^ 2 ≤ R ^ 2)
include he hls hJ hI hB hR0 hR

/-- Runs of `Dogleg` on such systems. -/
theorem dogleg_root_run (st0 : GaussNewton.State ι ι A ℝ (Dogleg.State ι))
    (hi : (GaussNewton.solver (GaussNewton.dogleg eps rtol atol nY nF ls jac) aux0).init fn y0 = .ok st0) :
    let S := GaussNewton.solver (GaussNewton.dogleg eps rtol atol nY nF ls jac) aux0
    let Y := iterateAt S fn aux0 y0 st0
    let St := stateAt S fn aux0 y0 st0
    let p := fun k => doglegStep eps (St (k + 1)).searchState ls (jac (Y (k + 1))) (fn (Y (k + 1))).1
    (∀ q : ℕ, (1 / 4 : ℝ) ^ q < μ / (8 * (K * R + B + μ)) → ∀ N, ∃ a b : ℕ, a + b = N ∧ b ≤ a + q ∧
      ∑ m, (fn (Y (N + 1))).1 m ^ 2 ≤
        max ((B * eps) ^ 2 / μ) ((1 - μ ^ 2 / (800 * B * (K * R + B + μ))) ^ a * ∑ m, (fn y0).1 m ^ 2)) ∧
    ∀ δ, 0 < δ → ∃ k, (∑ m, (fn fun i => Y (k + 1) i + p k i).1 m ^ 2) / 2 - (∑ m, (fn (Y (k + 1))).1 m ^ 2) / 2 ≤
        1 / 100 * linearisedChange (jac (Y (k + 1))) (fn (Y (k + 1))).1 (p k) ∧ (∀ i, |p k i| ≤ δ) ∧
      (∀ m, |(fn fun i => Y (k + 1) i + p k i).1 m - (fn (Y (k + 1))).1 m| ≤ δ) ∧
      ((∀ m, |(fn (Y (k + 1))).1 m| ≤ δ) ∨ μ * ∑ m, (fn (Y (k + 1))).1 m ^ 2 ≤ (B * eps) ^ 2) := by
  intro S Y St p
  have hμ := hI.pos
  have hK := hJ.nonneg
  have hKR : 0 ≤ K * R := mul_nonneg hK hR0
  set c : TrustRegion.Cfg ℝ := TrustRegion.defaults with hc
  have c1 : c.lowCutoff = 1 / 100 := by norm_num [hc, TrustRegion.defaults]
  have c2 : c.lowConstant = 1 / 4 := by norm_num [hc, TrustRegion.defaults]
  have c3 : c.highConstant = 7 / 2 := by norm_num [hc, TrustRegion.defaults]
  obtain ⟨T, hY1, ht1, _⟩ := gn_trust_run c (by rw [c2]; norm_num) (by rw [c3]; norm_num)
    (GaussNewton.dogleg eps rtol atol nY nF ls jac) rfl _ (dogleg_memoryless eps ls) aux0 fn y0 st0 hi
  have hjac : (GaussNewton.dogleg eps rtol atol nY nF ls jac).jac = jac := rfl
  rw [hjac, c1, c2, c3] at T
  set F := fun y => (∑ m, (fn y).1 m ^ 2) / 2 with hFd
  set pred := fun y t => linearisedChange (jac y) (fn y).1 (doglegStep eps t ls (jac y) (fn y).1) with hpd
  have T' : TrustRun F (fun y t => fun i => y i + doglegStep eps t ls (jac y) (fn y).1 i) pred (1 / 100) (1 / 4) (7 / 2)
    (fun k => Y (k + 1)) (fun k => (St (k + 1)).searchState) := T
  have hzero : ∀ y, linearisedChange (jac y) (fn y).1 (fun _ => 0) = 0 := fun y => by
    rw [linearisedChange_eq]; simp
  have hres0 : ∀ y, 0 ≤ ∑ m, (fn y).1 m ^ 2 := fun y => Finset.sum_nonneg fun i _ => sq_nonneg _
  -- what a trial promises
  have hdich : ∀ y s, 0 < s → (doglegStep eps s ls (jac y) (fn y).1 = (fun _ => 0) ∧ μ * ∑ m, (fn y).1 m ^ 2 ≤ (B * eps) ^ 2) ∨
      pred y s ≤ -(min s 1 / (2 * B) * (μ * ∑ m, (fn y).1 m ^ 2)) := by
    intro y s hs
    obtain ⟨_, hd, _⟩ := dogleg_facts eps s ls (jac y) (fn y).1 he hs hls B hB (hI.above y)
    have hg := square_onto (jac y) μ hμ (hI.below y) (fn y).1
    refine hd.imp (fun h => ⟨h.1, hg.trans h.2.1⟩) fun h => h.trans (neg_le_neg ?_)
    have : 0 < min s 1 := lt_min hs one_pos
    exact mul_le_mul_of_nonneg_left hg (by positivity)
  have hpred0 : ∀ y s, 0 < s → pred y s ≤ 0 := by
    intro y s hs
    rcases hdich y s hs with ⟨h1, _⟩ | h1
    · show linearisedChange (jac y) (fn y).1 (doglegStep eps s ls (jac y) (fn y).1) ≤ 0
      rw [h1, hzero]
    · have : 0 < min s 1 := lt_min hs one_pos
      have h2 := hres0 y
      have : 0 ≤ min s 1 / (2 * B) * (μ * ∑ m, (fn y).1 m ^ 2) := by positivity
      linarith
  have hmono : ∀ k, F (Y (k + 1 + 1)) ≤ F (Y (k + 1)) := by
    intro k
    rcases T'.rule k with ⟨a1, a2, _⟩ | ⟨_, b2, _⟩
    · have a2' : Y (k + 1 + 1) = _ := a2
      rw [a2']
      have := hpred0 (Y (k + 1)) (St (k + 1)).searchState (T'.pos k)
      linarith
    · have b2' : Y (k + 1 + 1) = Y (k + 1) := b2
      rw [b2']
  have hanti : Antitone fun k => F (Y (k + 1)) := antitone_nat_of_succ_le hmono
  have hFR : ∀ k, ∑ m, (fn (Y (k + 1))).1 m ^ 2 ≤ R ^ 2 := by
    intro k
    have h1 := hanti (Nat.zero_le k)
    have h2 : F (Y (k + 1)) ≤ F y0 := by rw [← hY1]; exact h1
    have h3 : (∑ m, (fn (Y (k + 1))).1 m ^ 2) / 2 ≤ (∑ m, (fn y0).1 m ^ 2) / 2 := h2
    linarith
  set τ := μ / (2 * (K * R + B + μ)) with hτd
  have hτ : 0 < τ := by positivity
  have hτ1 : τ ≤ 1 := by
    rw [hτd, div_le_one (by positivity)]; linarith
  have hacc : ∀ k s, 0 < s → s ≤ τ →
      F (fun i => Y (k + 1) i + doglegStep eps s ls (jac (Y (k + 1))) (fn (Y (k + 1))).1 i) - F (Y (k + 1)) ≤
        1 / 100 * pred (Y (k + 1)) s :=
    fun k s h0 h1 => dogleg_root_taken eps he ls hls jac (fun y => (fn y).1) K μ B R hJ hI hB hR0 (Y (k + 1)) (hFR k) s h0 h1
  have ht0 : (St (0 + 1)).searchState = 1 := ht1
  set tmin := μ / (8 * (K * R + B + μ)) with htmin
  have htm0 : 0 < tmin := by positivity
  have htm : min ((St (0 + 1)).searchState) (1 / 4 * τ) = tmin := by
    rw [ht0, min_eq_right (by linarith), hτd, htmin]
    field_simp
    norm_num
  have htm1 : tmin ≤ 1 := by rw [← htm, ht0]; exact min_le_left _ _
  have hrad : ∀ k, tmin ≤ (St (k + 1)).searchState := fun k => by
    rw [← htm]
    exact T'.radius (by norm_num) (by norm_num) τ hacc k
  have hdich' : ∀ y s, tmin ≤ s → (doglegStep eps s ls (jac y) (fn y).1 = (fun _ => 0) ∧ μ * ∑ m, (fn y).1 m ^ 2 ≤ (B * eps) ^ 2) ∨
      pred y s ≤ -(tmin / (2 * B) * (μ * ∑ m, (fn y).1 m ^ 2)) := by
    intro y s hs
    refine (hdich y s (htm0.trans_le hs)).imp id fun h => h.trans (neg_le_neg ?_)
    have h2 := hres0 y
    exact mul_le_mul_of_nonneg_right (div_le_div_of_nonneg_right (le_min hs htm1) (by positivity)) (by positivity)
  have hθ : tmin * μ / (100 * B) = μ ^ 2 / (800 * B * (K * R + B + μ)) := by
    rw [htmin]; field_simp; norm_num
  have hμB : μ * (∑ i : ι, (1:ℝ) ^ 2) ≤ B * ∑ i : ι, (1:ℝ) ^ 2 := (hI.below y0 fun _ => 1).trans (hI.above y0 fun _ => 1)
  refine ⟨fun q hq N => ?_, fun δ hδ => ?_⟩
  · rcases isEmpty_or_nonempty ι with hemp | hne
    · exact ⟨N, 0, rfl, by omega, by simp⟩
    have hμB' : μ ≤ B := by
      simp only [one_pow, Finset.sum_const, Finset.card_univ, nsmul_eq_mul, mul_one] at hμB
      exact le_of_mul_le_mul_right hμB (by exact_mod_cast Fintype.card_pos)
    have hle1 : tmin * μ / (100 * B) ≤ 1 := by
      rw [div_le_one (by positivity)]
      nlinarith
    obtain ⟨a, b, h1, h2, h3⟩ := trust_run_rate_to T' (by norm_num) (by norm_num) (by norm_num) tmin hrad ((B * eps) ^ 2 / μ / 2)
      (tmin * μ / (100 * B)) hle1 (fun k h => by
        have := hpred0 (Y (k + 1)) (St (k + 1)).searchState (T'.pos k)
        linarith) (fun k h hlt => by
        rcases hdich' (Y (k + 1)) _ (hrad k) with ⟨_, h4⟩ | h4
        · exfalso
          have hlt' : (B * eps) ^ 2 / μ / 2 < (∑ m, (fn (Y (k + 1))).1 m ^ 2) / 2 := hlt
          have h5 : (B * eps) ^ 2 / μ < ∑ m, (fn (Y (k + 1))).1 m ^ 2 := by linarith
          rw [div_lt_iff₀ hμ] at h5
          linarith
        · have e : (1 - tmin * μ / (100 * B)) * F (Y (k + 1)) =
              F (Y (k + 1)) + 1 / 100 * -(tmin / (2 * B) * (μ * ∑ m, (fn (Y (k + 1))).1 m ^ 2)) := by
            show (1 - tmin * μ / (100 * B)) * ((∑ m, (fn (Y (k + 1))).1 m ^ 2) / 2) = (∑ m, (fn (Y (k + 1))).1 m ^ 2) / 2 + _
            field_simp
            ring
          rw [e]
          linarith) 1 q (by norm_num) (by
        show (1 / 4 : ℝ) ^ q * (St (0 + 1)).searchState < tmin
        rw [ht0, mul_one]; exact hq) N
    refine ⟨a, b, h1, by omega, ?_⟩
    have h3' : (∑ m, (fn (Y (N + 1))).1 m ^ 2) / 2 ≤
      max ((B * eps) ^ 2 / μ / 2) ((1 - tmin * μ / (100 * B)) ^ a * ((∑ m, (fn (Y (0 + 1))).1 m ^ 2) / 2)) := h3
    rw [zero_add, show Y 1 = y0 from hY1] at h3'
    rw [← hθ]
    rcases le_max_iff.1 h3' with h4 | h4
    · exact le_max_of_le_left (by linarith)
    · exact le_max_of_le_right (by linarith)
  · obtain ⟨_, s2, s3⟩ := T'.settles (by norm_num) (by norm_num) (by norm_num) (by norm_num) τ hτ hacc 0
      (fun x => by
        show 0 ≤ (∑ m, (fn x).1 m ^ 2) / 2
        linarith [hres0 x]) (fun y => max 0 (μ * ∑ m, (fn y).1 m ^ 2 - (B * eps) ^ 2)) (fun y => le_max_left _ _) (tmin / (2 * B))
      (by positivity) (fun y s hs => by
        rcases hdich' y s (by rw [← htm]; exact hs) with ⟨h1, h2⟩ | h1
        · show linearisedChange (jac y) (fn y).1 (doglegStep eps s ls (jac y) (fn y).1) ≤ _
          rw [h1, hzero, max_eq_left (by linarith)]; simp
        · refine h1.trans (neg_le_neg (mul_le_mul_of_nonneg_left (max_le ?_ ?_) (by positivity)))
          · exact mul_nonneg hμ.le (hres0 y)
          · linarith [sq_nonneg (B * eps)])
    -- late accepted trials
    set η := min (μ ^ 2 * δ ^ 2 / B) ((δ / 2) ^ 2) with hη
    have hη0 : 0 < η := lt_min (by positivity) (by positivity)
    have hη1 : 0 < tmin / (2 * B) * μ * η / 100 := by positivity
    obtain ⟨K', hK'⟩ := eventually_atTop.1 (s2.eventually (gt_mem_nhds hη1))
    obtain ⟨k, hk, ha, hyk⟩ := s3 K'
    have hsm : F (Y (k + 1)) - F (Y (k + 1 + 1)) < tmin / (2 * B) * μ * η / 100 := hK' k hk
    have hyk' : Y (k + 1 + 1) = fun i => Y (k + 1) i + p k i := hyk
    rw [hyk'] at hsm
    have ha' : F (fun i => Y (k + 1) i + p k i) - F (Y (k + 1)) ≤ 1 / 100 * pred (Y (k + 1)) (St (k + 1)).searchState := ha
    rcases hdich' (Y (k + 1)) _ (hrad k) with ⟨h1, h2⟩ | h1
    · have hp0 : p k = fun _ => 0 := h1
      refine ⟨k, ha, fun i => ?_, fun m => ?_, .inr h2⟩
      · rw [hp0]; simpa using hδ.le
      · rw [hp0]; simpa using hδ.le
    · have hsmall : ∑ m, (fn (Y (k + 1))).1 m ^ 2 ≤ η := by
        have h3 : tmin / (2 * B) * μ * ∑ m, (fn (Y (k + 1))).1 m ^ 2 ≤ tmin / (2 * B) * μ * η := by linarith
        exact le_of_mul_le_mul_left h3 (by positivity)
      have hent : ∀ (v : ι → ℝ), ∑ m, v m ^ 2 ≤ (δ / 2) ^ 2 → ∀ m, |v m| ≤ δ / 2 := by
        intro v hv m
        refine (abs_le_euclid v m).trans ?_
        unfold euclid
        exact (Real.sqrt_le_sqrt hv).trans (le_of_eq (Real.sqrt_sq (by positivity)))
      have h0 : ∀ m, |(fn (Y (k + 1))).1 m| ≤ δ / 2 := hent _ (hsmall.trans (min_le_right _ _))
      have h4 : ∀ m, |(fn fun i => Y (k + 1) i + p k i).1 m| ≤ δ / 2 := by
        refine hent _ (le_trans ?_ (hsmall.trans (min_le_right _ _)))
        have h5 := hpred0 (Y (k + 1)) (St (k + 1)).searchState (T'.pos k)
        have h6 : (∑ m, (fn fun i => Y (k + 1) i + p k i).1 m ^ 2) / 2 - (∑ m, (fn (Y (k + 1))).1 m ^ 2) / 2 ≤
          1 / 100 * pred (Y (k + 1)) (St (k + 1)).searchState := ha'
        linarith
      have hpl : ∑ i, p k i ^ 2 ≤ δ ^ 2 := by
        obtain ⟨hlen, _, _⟩ := dogleg_facts eps _ ls (jac (Y (k + 1))) (fn (Y (k + 1))).1 he (T'.pos k) hls B hB (hI.above (Y (k + 1)))
        have hnn := ((newton_facts ls hls (jac (Y (k + 1))) (fn (Y (k + 1))).1).2.2.2 μ hμ (hI.below (Y (k + 1)))).2
        have htb := transpose_bound (jac (Y (k + 1))) B hB.le (hI.above (Y (k + 1))) (fn (Y (k + 1))).1
        refine le_of_mul_le_mul_left (a := μ ^ 2) ?_ (by positivity)
        have h7 : μ ^ 2 * ∑ i, p k i ^ 2 ≤ B * ∑ m, (fn (Y (k + 1))).1 m ^ 2 :=
          (mul_le_mul_of_nonneg_left hlen (sq_nonneg μ)).trans (hnn.trans htb)
        have h8 := hsmall.trans (min_le_left _ _)
        rw [le_div_iff₀ hB] at h8
        linarith
      refine ⟨k, ha, fun i => ?_, fun m => ?_, .inl fun m => (h0 m).trans (by linarith)⟩
      · refine (abs_le_euclid (p k) i).trans ?_
        unfold euclid
        exact (Real.sqrt_le_sqrt hpl).trans (le_of_eq (Real.sqrt_sq hδ.le))
      · exact (abs_sub _ _).trans (by linarith [h0 m, h4 m])

/-- **C121.** From every starting point the residual falls geometrically, down to what the guard of the Cauchy step leaves of it
(`eps` is machine epsilon); and every iterate has a true root nearby.  `N + 1` iterations make `N` trials (the first one is spent
on the placeholders of the search), `a` of them accepted and `b` rejected.  The run is one that meets no degenerate crossing. -/
theorem C121_run :
    let S := GaussNewton.solver (GaussNewton.dogleg eps rtol atol nY nF ls jac) aux0
    ∃ st0, S.init fn y0 = .ok st0 ∧
      ((∀ k, ¬ AtDegenerateCrossing eps (stateAt S fn aux0 y0 st0 (k + 1)).searchState ls
          (jac (iterateAt S fn aux0 y0 st0 (k + 1))) (fn (iterateAt S fn aux0 y0 st0 (k + 1))).1) →
        (∀ q : ℕ, (1 / 4 : ℝ) ^ q < μ / (8 * (K * R + B + μ)) → ∀ N, ∃ a b : ℕ, a + b = N ∧ b ≤ a + q ∧
          ∑ m, (fn (iterateAt S fn aux0 y0 st0 (N + 1))).1 m ^ 2 ≤
            max ((B * eps) ^ 2 / μ) ((1 - μ ^ 2 / (800 * B * (K * R + B + μ))) ^ a * ∑ m, (fn y0).1 m ^ 2)) ∧
        ∀ N, ∃ x, (∀ m, (fn x).1 m = 0) ∧
          μ * ∑ i, (x i - iterateAt S fn aux0 y0 st0 N i) ^ 2 ≤ ∑ m, (fn (iterateAt S fn aux0 y0 st0 N)).1 m ^ 2) := by
  intro S
  obtain ⟨st0, hi⟩ : ∃ st0, S.init fn y0 = .ok st0 := ⟨_, rfl⟩
  refine ⟨st0, hi, fun _ => ⟨?_, fun N => ?_⟩⟩
  · exact (dogleg_root_run eps rtol atol he nY nF ls hls jac aux0 fn y0 K μ B R hJ hI hB hR0 hR st0 hi).1
  · exact invertible_near_root (fun y => (fn y).1) jac K μ B hJ hI _

/-- **C121**, `root_find`: it succeeds, from every starting point, with every sufficiently large budget and with none, provided the
tolerance is not below the level of the guard.  Only the crossings of the trials made before success matter. -/
theorem C121_root_find (hok : ∀ M v, (ls.rect M v).2 = .successful) (hat : 0 < atol) (hrt : 0 ≤ rtol) (hY : GoodNorm nY)
    (hF : GoodNorm nF) (hguard : ∀ v : ι → ℝ, μ * ∑ m, v m ^ 2 ≤ (B * eps) ^ 2 → nF v < atol) (fInf : ι → ℝ) (auxF : (ι → ℝ) × A) :
    let S := GaussNewton.solver (GaussNewton.dogleg eps rtol atol nY nF ls jac) auxF
    ∃ st0 N, S.init (toLstsqFn fn) y0 = .ok st0 ∧
      ((∀ k, k < N → ¬ AtDegenerateCrossing eps (stateAt S (toLstsqFn fn) auxF y0 st0 (k + 1)).searchState ls
          (jac (iterateAt S (toLstsqFn fn) auxF y0 st0 (k + 1))) (fn (iterateAt S (toLstsqFn fn) auxF y0 st0 (k + 1))).1) →
        ∀ ms throw, (∀ n, ms = some n → N ≤ n) →
          ∃ sol, rootFindViaLeastSquares S nF atol fInf (fun _ => true) fn auxF y0 ms throw = some (.ok sol) ∧
            sol.result = .successful ∧ sol.numSteps ≤ N) := by
  intro S
  obtain ⟨st0, hi⟩ : ∃ st0, S.init (toLstsqFn fn) y0 = .ok st0 := ⟨_, rfl⟩
  obtain ⟨_, hsmall⟩ := dogleg_root_run eps rtol atol he nY nF ls hls jac auxF (toLstsqFn fn) y0 K μ B R hJ hI hB hR0 hR st0 hi
  obtain ⟨δ, hδ, hδY, hδF⟩ := small_enough hY hF atol hat
  obtain ⟨k, h1, h2, h3, h4⟩ := hsmall δ hδ
  have c1 : (TrustRegion.defaults : TrustRegion.Cfg ℝ).lowCutoff = 1 / 100 := by norm_num [TrustRegion.defaults]
  have hdok : ∀ t r J, (Dogleg.step eps .twoNorm t (Dogleg.query eps ls .twoNorm (.residualJac r J))).2 = .successful := by
    intro t r J
    have hres : (Dogleg.query eps ls .twoNorm (.residualJac r J)).result = .successful := hok _ _
    simp only [Dogleg.step, hres, if_true]
    split_ifs <;> rfl
  obtain ⟨f1, f2⟩ := gn_trust_flag (TrustRegion.defaults : TrustRegion.Cfg ℝ) (by norm_num [TrustRegion.defaults])
    (by norm_num [TrustRegion.defaults]) (GaussNewton.dogleg eps rtol atol nY nF ls jac) rfl _
    (dogleg_memoryless eps ls) hat hrt hY hF auxF (toLstsqFn fn) y0 st0 hi (fun j => hdok _ _ _) δ hδY hδF k
    ⟨by rw [c1]; exact h1, h2, h3⟩
  have htrace := toRoot_trace S nF atol fInf (toLstsqFn fn) auxF y0 st0
  have hiR : (toRoot nF atol fInf S).init (toLstsqFn fn) y0 = .ok (st0, fInf) := by
    simp only [toRoot, hi]
  refine ⟨st0, k + 2, hi, fun _ ms throw hb => ?_⟩
  obtain ⟨sol, s1, s2, s3, _⟩ := solve_succeeds_by (toRoot nF atol fInf S) (fun _ => true) (toLstsqFn fn) auxF y0 (st0, fInf) hiR ms
    throw (k + 2) (fun _ _ => rfl) (fun j _ => by
      rw [toRoot_terminate]
      dsimp only
      rw [(htrace j).2.1]
      exact f1 j) (by
      rw [toRoot_terminate]
      dsimp only
      rw [(htrace (k + 2)).2.1, (htrace (k + 2)).2.2, if_neg (by omega)]
      rw [Bool.and_eq_true]
      refine ⟨f2, decide_eq_true ?_⟩
      -- what is reported is the value at the point before
      have haux : (auxAt S (toLstsqFn fn) auxF y0 st0 (k + 2)).1 = (fn (iterateAt S (toLstsqFn fn) auxF y0 st0 (k + 1))).1 :=
        congrArg Prod.fst (C30_aux_gauss_newton_family _ (fun y z i j s => by simp [GaussNewton.dogleg, TrustRegion.classical, tr_first]) auxF (toLstsqFn fn) y0 st0 hi (k + 1))
      rw [haux]
      rcases h4 with h4 | h4
      · have h5 := hF.mono (fn (iterateAt S (toLstsqFn fn) auxF y0 st0 (k + 1))).1 (fun _ => δ * 1) (fun m => by
          rw [mul_one, abs_of_pos hδ]; exact h4 m)
        have h6 := hF.smul δ (fun _ => 1)
        rw [abs_of_pos hδ] at h6
        exact (h5.trans_eq h6).trans_lt hδF
      · exact hguard _ h4) hb
  refine ⟨sol.dropF, ?_, s2, s3⟩
  rw [rootFindViaLeastSquares, s1]; rfl

omit hB in
/-- **C121**, near a root: if the residual at the starting point is below `μ/K`, then every trial is the full Newton step and is
accepted, the residual is at least halved each time and converges to zero quadratically; and no crossing is ever computed, let
alone a degenerate one. -/
theorem C121_quadratic (hKR : K * R ≤ μ) :
    let S := GaussNewton.solver (GaussNewton.dogleg eps rtol atol nY nF ls jac) aux0
    ∃ st0, S.init fn y0 = .ok st0 ∧ ∀ k,
      (∀ m, ∑ i, jac (iterateAt S fn aux0 y0 st0 (k + 1)) m i *
        (iterateAt S fn aux0 y0 st0 (k + 2) i - iterateAt S fn aux0 y0 st0 (k + 1) i) = -(fn (iterateAt S fn aux0 y0 st0 (k + 1))).1 m) ∧
      ∑ m, (fn (iterateAt S fn aux0 y0 st0 (k + 2))).1 m ^ 2 ≤ 1 / 4 * ∑ m, (fn (iterateAt S fn aux0 y0 st0 (k + 1))).1 m ^ 2 ∧
      ∑ m, (fn (iterateAt S fn aux0 y0 st0 (k + 2))).1 m ^ 2 ≤
        (K / (2 * μ)) ^ 2 * (∑ m, (fn (iterateAt S fn aux0 y0 st0 (k + 1))).1 m ^ 2) ^ 2 ∧
      ¬ AtDegenerateCrossing eps (stateAt S fn aux0 y0 st0 (k + 1)).searchState ls
        (jac (iterateAt S fn aux0 y0 st0 (k + 1))) (fn (iterateAt S fn aux0 y0 st0 (k + 1))).1 := by
  intro S
  obtain ⟨st0, hi⟩ : ∃ st0, S.init fn y0 = .ok st0 := ⟨_, rfl⟩
  refine ⟨st0, hi, ?_⟩
  have hμ := hI.pos
  have hK := hJ.nonneg
  set c : TrustRegion.Cfg ℝ := TrustRegion.defaults with hc
  have c1 : c.lowCutoff = 1 / 100 := by norm_num [hc, TrustRegion.defaults]
  have c2 : c.lowConstant = 1 / 4 := by norm_num [hc, TrustRegion.defaults]
  have c3 : c.highConstant = 7 / 2 := by norm_num [hc, TrustRegion.defaults]
  obtain ⟨T, hY1, ht1, _⟩ := gn_trust_run c (by rw [c2]; norm_num) (by rw [c3]; norm_num)
    (GaussNewton.dogleg eps rtol atol nY nF ls jac) rfl _ (dogleg_memoryless eps ls) aux0 fn y0 st0 hi
  have hjac : (GaussNewton.dogleg eps rtol atol nY nF ls jac).jac = jac := rfl
  rw [hjac, c1, c2, c3] at T
  have hnewt : ∀ (y : ι → ℝ) t, 1 ≤ t → ∑ m, (fn y).1 m ^ 2 ≤ R ^ 2 →
      let p := doglegStep eps t ls (jac y) (fn y).1
      (∀ m, ∑ i, jac y m i * p i = -(fn y).1 m) ∧ linearisedChange (jac y) (fn y).1 p = -((∑ m, (fn y).1 m ^ 2) / 2) ∧
      ∑ m, (fn fun i => y i + p i).1 m ^ 2 ≤ 1 / 4 * ∑ m, (fn y).1 m ^ 2 ∧
      ∑ m, (fn fun i => y i + p i).1 m ^ 2 ≤ (K / (2 * μ)) ^ 2 * (∑ m, (fn y).1 m ^ 2) ^ 2 := by
    intro y t ht hy p
    have hpn : p = fun i => -(ls.rect (jac y) (fn y).1).1 i :=
      congrArg Prod.fst (C42_newton_accepted eps ls (jac y) (fn y).1 he hls y
        (Dogleg.query eps ls .twoNorm (.residualJac (fn y).1 (jac y))) t ht)
    have hJp' := square_newton ls hls (jac y) (fn y).1 μ hμ (hI.below y)
    have hJp : ∀ m, ∑ i, jac y m i * p i = -(fn y).1 m := fun m => by rw [hpn]; exact hJp' m
    have hQ := hI.below y p
    simp only [hJp, neg_sq] at hQ
    have hte : euclid (fun m => (fn fun i => y i + p i).1 m - (fn y).1 m - ∑ i, jac y m i * p i) ≤ K / 2 * ∑ i, p i ^ 2 :=
      LipschitzJacobian.taylor hJ y p
    simp only [hJp, sub_neg_eq_add, sub_add_cancel] at hte
    set E := ∑ m, (fn y).1 m ^ 2 with hE
    have hE0 : 0 ≤ E := Finset.sum_nonneg fun i _ => sq_nonneg _
    have hte2 : euclid (fn fun i => y i + p i).1 ≤ K / (2 * μ) * E := by
      refine hte.trans ?_
      rw [div_mul_eq_mul_div, div_mul_eq_mul_div, div_le_div_iff₀ (by norm_num) (by positivity)]
      nlinarith
    have hq : ∑ m, (fn fun i => y i + p i).1 m ^ 2 ≤ (K / (2 * μ)) ^ 2 * E ^ 2 := by
      rw [← euclid_sq, ← mul_pow]
      exact pow_le_pow_left₀ (euclid_nonneg _) hte2 2
    refine ⟨hJp, ?_, hq.trans ?_, hq⟩
    · show (∑ k, ((∑ i, jac y k i * p i) + (fn y).1 k) ^ 2) / 2 - (∑ k, (fn y).1 k ^ 2) / 2 = _
      simp only [hJp, neg_add_cancel]
      simp [hE]
    · have h1 : (K / (2 * μ)) ^ 2 * E ≤ 1 / 4 := by
        have h2 : (K * R) ^ 2 ≤ μ ^ 2 := pow_le_pow_left₀ (mul_nonneg hK hR0) hKR 2
        have h3 : K ^ 2 * E ≤ μ ^ 2 := by
          refine le_trans ?_ h2
          rw [mul_pow]
          exact mul_le_mul_of_nonneg_left hy (sq_nonneg K)
        rw [div_pow, div_mul_eq_mul_div, div_le_iff₀ (by positivity)]
        nlinarith
      calc (K / (2 * μ)) ^ 2 * E ^ 2 = (K / (2 * μ)) ^ 2 * E * E := by ring
        _ ≤ 1 / 4 * E := mul_le_mul_of_nonneg_right h1 hE0
  have hinv : ∀ k, 1 ≤ (stateAt S fn aux0 y0 st0 (k + 1)).searchState ∧
      ∑ m, (fn (iterateAt S fn aux0 y0 st0 (k + 1))).1 m ^ 2 ≤ R ^ 2 ∧
      iterateAt S fn aux0 y0 st0 (k + 2) = fun i => iterateAt S fn aux0 y0 st0 (k + 1) i +
        doglegStep eps (stateAt S fn aux0 y0 st0 (k + 1)).searchState ls (jac (iterateAt S fn aux0 y0 st0 (k + 1)))
          (fn (iterateAt S fn aux0 y0 st0 (k + 1))).1 i := by
    have hstep : ∀ k, 1 ≤ (stateAt S fn aux0 y0 st0 (k + 1)).searchState →
        ∑ m, (fn (iterateAt S fn aux0 y0 st0 (k + 1))).1 m ^ 2 ≤ R ^ 2 →
        (iterateAt S fn aux0 y0 st0 (k + 2) = fun i => iterateAt S fn aux0 y0 st0 (k + 1) i +
          doglegStep eps (stateAt S fn aux0 y0 st0 (k + 1)).searchState ls (jac (iterateAt S fn aux0 y0 st0 (k + 1)))
            (fn (iterateAt S fn aux0 y0 st0 (k + 1))).1 i) ∧ 1 ≤ (stateAt S fn aux0 y0 st0 (k + 2)).searchState := by
      intro k h1 h2
      obtain ⟨_, n2, n3, _⟩ := hnewt _ _ h1 h2
      rcases T.rule k with ⟨_, a2, a3⟩ | ⟨b1, _, _⟩
      · refine ⟨a2, ?_⟩
        rcases a3 with a3 | a3
        · rw [show (stateAt S fn aux0 y0 st0 (k + 2)).searchState = _ from a3]
          have : (stateAt S fn aux0 y0 st0 (k + 1)).searchState ≤ 7 / 2 * (stateAt S fn aux0 y0 st0 (k + 1)).searchState := by linarith
          exact h1.trans this
        · rw [show (stateAt S fn aux0 y0 st0 (k + 2)).searchState = _ from a3]
          exact h1
      · refine absurd ?_ b1
        have hE0 : 0 ≤ ∑ m, (fn (iterateAt S fn aux0 y0 st0 (k + 1))).1 m ^ 2 := Finset.sum_nonneg fun i _ => sq_nonneg _
        have e : 1 / 100 * linearisedChange (jac (iterateAt S fn aux0 y0 st0 (k + 1))) (fn (iterateAt S fn aux0 y0 st0 (k + 1))).1
          (doglegStep eps (stateAt S fn aux0 y0 st0 (k + 1)).searchState ls (jac (iterateAt S fn aux0 y0 st0 (k + 1)))
            (fn (iterateAt S fn aux0 y0 st0 (k + 1))).1) = 1 / 100 * _ := congrArg _ n2
        refine le_trans ?_ (le_of_eq e.symm)
        refine le_trans (sub_le_sub_right (div_le_div_of_nonneg_right n3 two_pos.le) _) ?_
        linarith
    intro k
    induction k with
    | zero =>
      have h1 : 1 ≤ (stateAt S fn aux0 y0 st0 (0 + 1)).searchState := le_of_eq ht1.symm
      have h2 : ∑ m, (fn (iterateAt S fn aux0 y0 st0 (0 + 1))).1 m ^ 2 ≤ R ^ 2 := by
        rw [show iterateAt S fn aux0 y0 st0 (0 + 1) = y0 from hY1]; exact hR
      exact ⟨h1, h2, (hstep 0 h1 h2).1⟩
    | succ k ih =>
      obtain ⟨h1, h2, h3⟩ := ih
      have h4 := (hstep k h1 h2).2
      have h5 : ∑ m, (fn (iterateAt S fn aux0 y0 st0 (k + 1 + 1))).1 m ^ 2 ≤ R ^ 2 := by
        obtain ⟨_, _, n3, _⟩ := hnewt _ _ h1 h2
        rw [show iterateAt S fn aux0 y0 st0 (k + 1 + 1) = _ from h3]
        refine n3.trans (le_trans ?_ h2)
        have hE0 : 0 ≤ ∑ m, (fn (iterateAt S fn aux0 y0 st0 (k + 1))).1 m ^ 2 := Finset.sum_nonneg fun i _ => sq_nonneg _
        linarith
      exact ⟨h4, h5, (hstep (k + 1) h4 h5).1⟩
  intro k
  obtain ⟨h1, h2, h3⟩ := hinv k
  obtain ⟨n1, _, n3, n4⟩ := hnewt _ _ h1 h2
  refine ⟨fun m => ?_, ?_, ?_, fun h => absurd h.1 (not_lt.2 h1)⟩
  · rw [h3]
    simp only [add_sub_cancel_left]
    exact n1 m
  · rw [h3]; exact n3
  · rw [h3]; exact n4

end

/-! ### The hypotheses are met -/

/-- `x + sin x / 4 = 0`, one nonlinear equation of one unknown. -/
noncomputable def wavyLine (y : Unit → ℝ) : Unit → ℝ := fun _ => y () + Real.sin (y ()) / 4

noncomputable def wavyLineJac (y : Unit → ℝ) : Matrix Unit Unit ℝ := Matrix.of fun _ _ => 1 + Real.cos (y ()) / 4

theorem wavyLine_lipschitz : LipschitzJacobian wavyLine wavyLineJac (1 / 4) where
  deriv y p m := by
    have h1 := (hasDerivAt_mul_const (p ()) (x := (0:ℝ))).const_add (y ())
    have h2 := h1.add (h1.sin.div_const 4)
    refine (h2.congr_deriv ?_).congr_of_eventuallyEq (Eventually.of_forall fun t => ?_)
    · simp [wavyLineJac]; ring
    · simp [wavyLine]
  lipschitz y z p := by
    simp only [Finset.univ_unique, Finset.sum_singleton, wavyLineJac, Matrix.of_apply, PUnit.default_eq_unit]
    have h := Real.abs_cos_sub_cos_le (y ()) (z ())
    have h2 : (Real.cos (y ()) - Real.cos (z ())) ^ 2 ≤ (y () - z ()) ^ 2 := sq_le_sq.2 h
    nlinarith [mul_le_mul_of_nonneg_right h2 (sq_nonneg (p ()))]
  nonneg := by norm_num

theorem wavyLine_invertible : UniformlyInvertible wavyLineJac (9 / 16) (25 / 16) where
  pos := by norm_num
  below y p := by
    simp only [Finset.univ_unique, Finset.sum_singleton, wavyLineJac, Matrix.of_apply, PUnit.default_eq_unit]
    have h := Real.neg_one_le_cos (y ())
    rw [mul_pow]
    exact mul_le_mul_of_nonneg_right (by nlinarith) (sq_nonneg _)
  above y p := by
    simp only [Finset.univ_unique, Finset.sum_singleton, wavyLineJac, Matrix.of_apply, PUnit.default_eq_unit]
    have h := Real.neg_one_le_cos (y ())
    have h' := Real.cos_le_one (y ())
    rw [mul_pow]
    exact mul_le_mul_of_nonneg_right (by nlinarith) (sq_nonneg _)

/-- From every starting point with `|f(y0)| ≤ 2`, `root_find` with `Dogleg` solves `x + sin x / 4 = 0` to within the tolerance:
there are no degenerate crossings, and the guard (a machine epsilon of `2⁻⁵²`) is far below it. -/
example (ls : LinSolve Unit Unit) (hls : SolvesLeastSquares ls) (hok : ∀ M v, (ls.rect M v).2 = .successful) (y0 : Unit → ℝ)
    (hy : |wavyLine y0 ()| ≤ 2) :
    ∃ sol, rootFindViaLeastSquares (GaussNewton.solver (GaussNewton.dogleg (2⁻¹ ^ 52) (1/10) (1/10) maxNorm maxNorm ls wavyLineJac)
        (fun _ => 0, ())) maxNorm (1/10) (fun _ => 1) (fun _ => true) (fun y => (wavyLine y, ())) (fun _ => 0, ()) y0 none true = some (.ok sol) ∧
      sol.result = .successful := by
  have hR : ∑ m, wavyLine y0 m ^ 2 ≤ (2 : ℝ) ^ 2 := by
    simp only [Finset.univ_unique, Finset.sum_singleton]
    rw [← sq_abs]
    exact pow_le_pow_left₀ (abs_nonneg _) hy 2
  have heps : (25 / 16 * (2⁻¹ : ℝ) ^ 52) ^ 2 < 9 / 16 * (1 / 10) ^ 2 := by norm_num
  obtain ⟨st0, N, hi, h⟩ := C121_root_find (2⁻¹ ^ 52) (1/10) (1/10) (by positivity) (maxNorm (ι := Unit)) (maxNorm (ι := Unit)) ls hls
    wavyLineJac (fun y => (wavyLine y, ())) y0 (1/4) (9/16) (25/16) 2 wavyLine_lipschitz wavyLine_invertible (by norm_num) (by norm_num) hR hok
    (by norm_num) (by norm_num) goodNorm_maxNorm goodNorm_maxNorm (fun v hv => by
      refine (maxNorm_lt_iff _ _).2 ⟨by norm_num, fun m => ?_⟩
      simp only [Finset.univ_unique, Finset.sum_singleton, PUnit.default_eq_unit] at hv
      refine abs_lt_of_sq_lt_sq ?_ (by norm_num)
      have : v m ^ 2 = v () ^ 2 := rfl
      linarith) (fun _ => 1) (fun _ => 0, ())
  obtain ⟨st1, hi1, h1⟩ := C121_quadratic (2⁻¹ ^ 52) (1/10) (1/10) (by positivity) (maxNorm (ι := Unit)) (maxNorm (ι := Unit)) ls hls
    wavyLineJac (fun _ => 0, ()) (toLstsqFn fun y => (wavyLine y, ())) y0 (1/4) (9/16) (25/16) 2 wavyLine_lipschitz wavyLine_invertible
    (by norm_num) hR (by norm_num)
  rw [hi] at hi1
  cases hi1
  obtain ⟨sol, s1, s2, _⟩ := h (fun k _ => (h1 k).2.2.2) none true (by simp)
  exact ⟨sol, s1, s2⟩

end Verif.Props
