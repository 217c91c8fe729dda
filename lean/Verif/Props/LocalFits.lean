import Verif.Props.GaussNewtonLocal
import Verif.Props.DoglegConvergence
import Verif.Props.IndirectLM

/-!
Property C98: near a nondegenerate solution of a problem whose residuals can be made to vanish, the least-squares solvers with trust
regions accept every step and converge superlinearly.
-/

namespace Verif.Props

open Verif Verif.Spec Verif.Driver Verif.SearchLoop Verif.Rank Filter Topology

variable {ι κ A DS : Type} [Fintype ι] [Fintype κ]

/-- The setting.  The residuals `F` vanish at `r`, and the Jacobian `jac` is continuous there and of full column rank, with
smallest squared singular value (at least) `σ`. -/
structure ExactFit (F : (ι → ℝ) → κ → ℝ) (jac : (ι → ℝ) → Matrix κ ι ℝ) (r : ι → ℝ) (σ : ℝ) : Prop where
  deriv : ∃ D : (ι → ℝ) →L[ℝ] (κ → ℝ), (∀ v, D v = (jac r).mulVec v) ∧ HasFDerivAt F D r
  cont : ∀ m i, ContinuousAt (fun y => jac y m i) r
  zero : ∀ m, F r m = 0
  pos : 0 < σ
  rank : ∀ v : ι → ℝ, σ * ∑ i, v i ^ 2 ≤ ∑ m, ((jac r).mulVec v m) ^ 2

/-- Near `r`: the Jacobian is bounded above and below, and linearising is accurate. -/
theorem ExactFit.near {F : (ι → ℝ) → κ → ℝ} {jac : (ι → ℝ) → Matrix κ ι ℝ} {r : ι → ℝ} {σ : ℝ} (h : ExactFit F jac r σ) :
    ∃ B, 0 < B ∧ ∀ ε, 0 < ε → ∃ δ > 0, ∀ y : ι → ℝ, euclid (fun i => y i - r i) ≤ δ →
      (∀ v, euclid ((jac y).mulVec v) ≤ B * euclid v) ∧ (∀ v, σ / 2 * euclid v ^ 2 ≤ euclid ((jac y).mulVec v) ^ 2) ∧
      ∀ z : ι → ℝ, euclid (fun i => z i - r i) ≤ δ →
        euclid (fun m => F z m - (jac y).mulVec (fun i => z i - r i) m) ≤ ε * euclid fun i => z i - r i := by
  obtain ⟨D, hD, hder⟩ := h.deriv
  obtain ⟨B, hB, hJB⟩ := euclid_mulVec_bounded (jac r)
  refine ⟨B + 1, by linarith, fun ε0 hε00 => ?_⟩
  have hσ := h.pos
  set ε : ℝ := min ε0 (min 1 (σ / (2 * (2 * (B + 1) + 1)))) with hε
  have hε0 : 0 < ε := by positivity
  have hε1 : ε ≤ 1 := (min_le_right _ _).trans (min_le_left _ _)
  have hε2 : ε * (2 * (B + 1) + 1) ≤ σ / 2 := by
    have : ε ≤ σ / (2 * (2 * (B + 1) + 1)) := (min_le_right _ _).trans (min_le_right _ _)
    rw [le_div_iff₀ (by positivity)] at this
    linarith
  set nι : ℝ := (Fintype.card ι : ℝ) with hnι
  set nκ : ℝ := (Fintype.card κ : ℝ) with hnκ
  have hnι0 : 0 ≤ nι := Nat.cast_nonneg _
  have hnκ0 : 0 ≤ nκ := Nat.cast_nonneg _
  set ε1 : ℝ := ε / (2 * (nκ + 1)) with hε1d
  have hε10 : 0 < ε1 := by positivity
  have e1 : ∀ᶠ y in 𝓝 r, ‖F y - F r - D (y - r)‖ ≤ ε1 * ‖y - r‖ := hder.isLittleO.def hε10
  set ε2 : ℝ := ε / (2 * ((nκ + 1) * (nι + 1))) with hε2d
  have hε20 : 0 < ε2 := by positivity
  have e2 : ∀ᶠ y in 𝓝 r, ∀ m i, |jac y m i - jac r m i| ≤ ε2 := by
    refine eventually_all.2 fun m => eventually_all.2 fun i => ?_
    have := (h.cont m i) (Metric.closedBall_mem_nhds _ hε20)
    filter_upwards [this] with y hy
    simpa [Real.dist_eq] using hy
  obtain ⟨δ, hδ, hball⟩ := Metric.eventually_nhds_iff.1 (e1.and e2)
  have hdist : ∀ y : ι → ℝ, euclid (fun i => y i - r i) ≤ δ / 2 → dist y r < δ := fun y hy => by
    rw [dist_eq_norm]
    refine lt_of_le_of_lt ?_ (by linarith : δ / 2 < δ)
    exact (pi_norm_le_iff_of_nonneg (by positivity)).2 fun i => (abs_le_euclid (fun i => y i - r i) i).trans hy
  refine ⟨δ / 2, by positivity, fun y hy => ?_⟩
  have a2 := (hball (hdist y hy)).2
  have hpert : ∀ v, euclid (fun m => (jac y).mulVec v m - (jac r).mulVec v m) ≤ ε / 2 * euclid v := by
    intro v
    have e : (fun m => (jac y).mulVec v m - (jac r).mulVec v m) = (jac y - jac r).mulVec v := by
      rw [Matrix.sub_mulVec]; rfl
    rw [e]
    refine (euclid_mulVec_le (jac y - jac r) ε2 hε20.le (fun m i => by simpa using a2 m i) v).trans ?_
    refine mul_le_mul_of_nonneg_right ?_ (euclid_nonneg _)
    have : (nκ + 1) * (nι + 1) * ε2 = ε / 2 := by rw [hε2d]; field_simp
    rw [← this]
    refine mul_le_mul_of_nonneg_right ?_ hε20.le
    exact mul_le_mul_of_nonneg_left (by linarith) (by positivity)
  have hup : ∀ v, euclid ((jac y).mulVec v) ≤ (B + 1) * euclid v := by
    intro v
    have h1 := euclid_add (fun m => (jac y).mulVec v m - (jac r).mulVec v m) ((jac r).mulVec v)
    simp only [sub_add_cancel] at h1
    have h2 := hpert v
    have h3 := hJB v
    have := euclid_nonneg v
    nlinarith
  refine ⟨hup, fun v => ?_, fun z hz => ?_⟩
  · have h1 := euclid_sub ((jac y).mulVec v) (fun m => (jac y).mulVec v m - (jac r).mulVec v m)
    simp only [sub_sub_cancel] at h1
    have h2 := hpert v
    have hX := euclid_nonneg v
    have hJ := euclid_nonneg ((jac y).mulVec v)
    have hJr := euclid_nonneg ((jac r).mulVec v)
    have h4 : σ * euclid v ^ 2 ≤ euclid ((jac r).mulVec v) ^ 2 := by rw [euclid_sq, euclid_sq]; exact h.rank v
    have h3 : euclid ((jac r).mulVec v) ≤ euclid ((jac y).mulVec v) + ε * euclid v := by
      have : ε / 2 * euclid v ≤ ε * euclid v := mul_le_mul_of_nonneg_right (by linarith) hX
      have e : (fun i => (jac r).mulVec v i) = (jac r).mulVec v := rfl
      rw [e] at h1
      linarith
    have a1 : euclid ((jac r).mulVec v) ^ 2 ≤ (euclid ((jac y).mulVec v) + ε * euclid v) ^ 2 := pow_le_pow_left₀ hJr h3 2
    have a2 : ε * euclid v * euclid ((jac y).mulVec v) ≤ ε * euclid v * ((B + 1) * euclid v) :=
      mul_le_mul_of_nonneg_left (hup v) (by positivity)
    have a3 : ε * ε * euclid v ^ 2 ≤ ε * 1 * euclid v ^ 2 := by gcongr
    have a4 : ε * (2 * (B + 1) + 1) * euclid v ^ 2 ≤ σ / 2 * euclid v ^ 2 := mul_le_mul_of_nonneg_right hε2 (sq_nonneg _)
    nlinarith
  · have a1 := (hball (hdist z hz)).1
    set e : ι → ℝ := fun i => z i - r i with he
    have hnorm : ‖z - r‖ ≤ euclid e :=
      (pi_norm_le_iff_of_nonneg (euclid_nonneg _)).2 fun i => abs_le_euclid e i
    have h1 : euclid (fun m => F z m - F r m - (jac r).mulVec e m) ≤ ε / 2 * euclid e := by
      have hb : ∀ m, |F z m - F r m - (jac r).mulVec e m| ≤ ε1 * euclid e := by
        intro m
        have := norm_le_pi_norm (F z - F r - D (z - r)) m
        rw [hD] at this
        exact (this.trans (by rw [← hD]; exact a1)).trans (mul_le_mul_of_nonneg_left hnorm hε10.le)
      refine (euclid_le _ _ (mul_nonneg hε10.le (euclid_nonneg _)) hb).trans (le_of_eq ?_)
      rw [hε1d, hnκ]; field_simp
    have h2 := hpert e
    have h3 := euclid_sub (fun m => F z m - F r m - (jac r).mulVec e m) (fun m => (jac y).mulVec e m - (jac r).mulVec e m)
    have e3 : (fun m => F z m - F r m - (jac r).mulVec e m - ((jac y).mulVec e m - (jac r).mulVec e m)) =
        fun m => F z m - (jac y).mulVec e m := by funext m; rw [h.zero]; ring
    rw [e3] at h3
    have : ε * euclid e ≤ ε0 * euclid e := mul_le_mul_of_nonneg_right (min_le_left _ _) (euclid_nonneg _)
    linarith

/-- `p` solves the damped normal equations `(JᵀJ + l) p = -Jᵀ f`. -/
def DampedNormal (J : Matrix κ ι ℝ) (f : κ → ℝ) (l : ℝ) (p : ι → ℝ) : Prop :=
  ∀ i, ∑ m, J m i * (J.mulVec p m + f m) + l * p i = 0

theorem DampedNormal.dot {J : Matrix κ ι ℝ} {f : κ → ℝ} {l : ℝ} {p : ι → ℝ} (h : DampedNormal J f l p) (x : ι → ℝ) :
    ∑ m, J.mulVec x m * (J.mulVec p m + f m) = -(l * ∑ i, x i * p i) := by
  have hswap : ∑ m, J.mulVec x m * (J.mulVec p m + f m) = ∑ i, x i * ∑ m, J m i * (J.mulVec p m + f m) := by
    simp only [Matrix.mulVec, dotProduct, Finset.sum_mul, Finset.mul_sum]
    rw [Finset.sum_comm]
    exact Finset.sum_congr rfl fun i _ => Finset.sum_congr rfl fun m _ => by ring
  rw [hswap, Finset.mul_sum, ← Finset.sum_neg_distrib]
  exact Finset.sum_congr rfl fun i _ => by
    rw [show ∑ m, J m i * (J.mulVec p m + f m) = -(l * p i) by linarith [h i]]; ring

/-- The error after a damped step. -/
theorem damped_error {J : Matrix κ ι ℝ} {f : κ → ℝ} {l : ℝ} {p e : ι → ℝ} (h : DampedNormal J f l p) (hl : 0 ≤ l) (B s ε : ℝ)
    (hB : ∀ v, euclid (J.mulVec v) ≤ B * euclid v) (hs : ∀ v, s * euclid v ^ 2 ≤ euclid (J.mulVec v) ^ 2)
    (hε : 0 ≤ ε) (hlin : euclid (fun m => f m - J.mulVec e m) ≤ ε * euclid e) :
    (s + l) * euclid (fun i => e i + p i) ≤ (B * ε + l) * euclid e := by
  set x : ι → ℝ := fun i => e i + p i with hx
  have hJx : ∀ m, J.mulVec x m = J.mulVec e m + J.mulVec p m := fun m => congrFun (Matrix.mulVec_add J e p) m
  have hd := h.dot x
  have id1 : euclid (J.mulVec x) ^ 2 + l * euclid x ^ 2 =
      -∑ m, J.mulVec x m * (f m - J.mulVec e m) + l * ∑ i, x i * e i := by
    have h1 : ∑ m, J.mulVec x m ^ 2 =
        ∑ m, J.mulVec x m * (J.mulVec p m + f m) - ∑ m, J.mulVec x m * (f m - J.mulVec e m) := by
      rw [← Finset.sum_sub_distrib]
      exact Finset.sum_congr rfl fun m _ => by rw [hJx]; ring
    have h2 : ∑ i, x i ^ 2 = ∑ i, x i * e i + ∑ i, x i * p i := by
      rw [← Finset.sum_add_distrib]
      exact Finset.sum_congr rfl fun i _ => by rw [hx]; ring
    rw [euclid_sq, euclid_sq, h1, hd, h2]; ring
  have h3 : -∑ m, J.mulVec x m * (f m - J.mulVec e m) ≤ euclid (J.mulVec x) * (ε * euclid e) := by
    have := euclid_dot (J.mulVec x) (fun m => -(f m - J.mulVec e m))
    have hn : euclid (fun m => -(f m - J.mulVec e m)) = euclid fun m => f m - J.mulVec e m := by
      unfold euclid; simp only [neg_sq]
    rw [hn] at this
    simp only [mul_neg, Finset.sum_neg_distrib] at this
    exact this.trans (mul_le_mul_of_nonneg_left hlin (euclid_nonneg _))
  have h4 := mul_le_mul_of_nonneg_left (euclid_dot x e) hl
  have h5 := mul_le_mul_of_nonneg_right (hB x) (mul_nonneg hε (euclid_nonneg e))
  have h6 := hs x
  have hX := euclid_nonneg x
  rcases hX.eq_or_lt with h0 | h0
  · rw [← h0, mul_zero]
    have := euclid_nonneg e
    rcases this.eq_or_lt with g | g
    · rw [← g, mul_zero]
    · refine mul_nonneg (add_nonneg ?_ hl) g.le
      have := hB e
      have := euclid_nonneg (J.mulVec e)
      have hB0 : 0 ≤ B := by
        by_contra hn
        have : B * euclid e < 0 := mul_neg_of_neg_of_pos (not_le.1 hn) g
        linarith
      exact mul_nonneg hB0 hε
  · have : euclid x * ((s + l) * euclid x) ≤ euclid x * ((B * ε + l) * euclid e) := by nlinarith
    exact le_of_mul_le_mul_left this h0

/-- The predicted decrease of a damped step. -/
theorem damped_decrease {J : Matrix κ ι ℝ} {f : κ → ℝ} {l : ℝ} {p : ι → ℝ} (h : DampedNormal J f l p) :
    linearisedChange J f p = -(euclid (J.mulVec p) ^ 2 / 2 + l * euclid p ^ 2) := by
  have hd := h.dot p
  unfold linearisedChange
  have h1 : ∑ m, f m ^ 2 = ∑ m, (J.mulVec p m + f m) ^ 2 - 2 * ∑ m, J.mulVec p m * (J.mulVec p m + f m) +
      ∑ m, J.mulVec p m ^ 2 := by
    rw [Finset.mul_sum, ← Finset.sum_sub_distrib, ← Finset.sum_add_distrib]
    exact Finset.sum_congr rfl fun m _ => by ring
  have h2 : ∑ i, p i * p i = ∑ i, p i ^ 2 := Finset.sum_congr rfl fun i _ => by ring
  rw [h1, hd, h2, euclid_sq, euclid_sq]; ring

/-- Near the solution the decrease is almost the predicted one. -/
theorem near_prediction {J : Matrix κ ι ℝ} {f f' : κ → ℝ} {l : ℝ} {p e : ι → ℝ} (h : DampedNormal J f l p) (hl : 0 ≤ l) (B s ε c : ℝ)
    (hB : ∀ v, euclid (J.mulVec v) ≤ B * euclid v) (hB0 : 0 < B) (hs : ∀ v, s * euclid v ^ 2 ≤ euclid (J.mulVec v) ^ 2)
    (hε : 0 < ε) (hε1 : ε ≤ 1) (hs0 : 0 < s) (hc1 : c < 1)
    (hlin : euclid (fun m => f m - J.mulVec e m) ≤ ε * euclid e)
    (hX : euclid (fun i => e i + p i) ≤ c * euclid e)
    (hlin' : euclid (fun m => f' m - J.mulVec (fun i => e i + p i) m) ≤ ε * euclid fun i => e i + p i)
    (hsmall : ε * (2 * (B + 2)) < 1 / 200 * (s * (1 - c) ^ 2)) :
    let D := (∑ m, f' m ^ 2) / 2 - (∑ m, f m ^ 2) / 2
    let P := linearisedChange J f p
    D ≤ 1 / 100 * P ∧ (euclid e ≠ 0 → D < 99 / 100 * P ∧ P < 0) := by
  intro D P
  set E := euclid e with hE
  set x : ι → ℝ := fun i => e i + p i with hx
  have hE0 : 0 ≤ E := euclid_nonneg _
  have hX0 := euclid_nonneg x
  have hXE : euclid x ≤ E := hX.trans (by nlinarith)
  have hpE : (1 - c) * E ≤ euclid p := by
    have h1 := euclid_sub x p
    have : (fun i => x i - p i) = e := by funext i; simp [hx]
    rw [this] at h1
    linarith
  have hPv : P = -(euclid (J.mulVec p) ^ 2 / 2 + l * euclid p ^ 2) := damped_decrease h
  have hPn : P ≤ -(s * (1 - c) ^ 2 * E ^ 2 / 2) := by
    rw [hPv]
    have h1 := hs p
    have h2 : ((1 - c) * E) ^ 2 ≤ euclid p ^ 2 := pow_le_pow_left₀ (mul_nonneg (by linarith) hE0) hpE 2
    have h3 := mul_le_mul_of_nonneg_left h2 hs0.le
    have h4 : 0 ≤ l * euclid p ^ 2 := mul_nonneg hl (sq_nonneg _)
    nlinarith
  -- the difference
  set a := euclid (fun m => J.mulVec p m + f m) with ha
  set b := euclid f' with hb
  have ha0 : 0 ≤ a := euclid_nonneg _
  have hb0 : 0 ≤ b := euclid_nonneg _
  have hDP : D - P = (b ^ 2 - a ^ 2) / 2 := by
    show (∑ m, f' m ^ 2) / 2 - (∑ m, f m ^ 2) / 2 - ((∑ k, (J.mulVec p k + f k) ^ 2) / 2 - (∑ k, f k ^ 2) / 2) = _
    rw [hb, ha, euclid_sq, euclid_sq]; ring
  have hJx : ∀ m, J.mulVec x m = J.mulVec e m + J.mulVec p m := fun m => congrFun (Matrix.mulVec_add J e p) m
  have hba : b ≤ a + 2 * ε * E := by
    have h1 := euclid_add (fun m => f' m - J.mulVec x m) (fun m => J.mulVec x m)
    simp only [sub_add_cancel] at h1
    have h2 := euclid_sub (fun m => J.mulVec p m + f m) (fun m => f m - J.mulVec e m)
    have e2 : (fun m => J.mulVec p m + f m - (f m - J.mulVec e m)) = fun m => J.mulVec x m := by
      funext m; rw [hJx]; ring
    rw [e2] at h2
    have h3 : ε * euclid x ≤ ε * E := mul_le_mul_of_nonneg_left hXE hε.le
    have e3 : euclid (fun m => f' m) = b := rfl
    rw [e3] at h1
    linarith
  have haE : a ≤ (B + 1) * E := by
    have h2 := euclid_add (fun m => f m - J.mulVec e m) (fun m => J.mulVec x m)
    have e2 : (fun m => f m - J.mulVec e m + J.mulVec x m) = fun m => J.mulVec p m + f m := by
      funext m; rw [hJx]; ring
    rw [e2] at h2
    have h3 : euclid (fun m => J.mulVec x m) ≤ B * euclid x := hB x
    have h4 : B * euclid x ≤ B * E := mul_le_mul_of_nonneg_left hXE hB0.le
    have h5 : ε * E ≤ 1 * E := mul_le_mul_of_nonneg_right hε1 hE0
    linarith
  have hdiff : D - P ≤ ε * (2 * (B + 2)) * E ^ 2 := by
    rw [hDP]
    have h1 : b ^ 2 ≤ (a + 2 * ε * E) ^ 2 := pow_le_pow_left₀ hb0 hba 2
    have h2 : 2 * ε * E * a ≤ 2 * ε * E * ((B + 1) * E) := mul_le_mul_of_nonneg_left haE (by positivity)
    have h3 : ε * ε * E ^ 2 ≤ ε * 1 * E ^ 2 := by gcongr
    nlinarith
  rcases hE0.eq_or_lt with h0 | h0
  · refine ⟨?_, fun hne => absurd h0.symm hne⟩
    rw [← h0] at hdiff hpE
    have hX' : euclid x = 0 := le_antisymm (by rw [← h0] at hXE; exact hXE) hX0
    have hpz : euclid p ≤ 0 := by
      have h1 := euclid_sub x e
      have : (fun i => x i - e i) = p := by funext i; simp [hx]
      rw [this, hX', ← hE, ← h0] at h1
      linarith
    have hp0 : euclid p = 0 := le_antisymm hpz (euclid_nonneg _)
    have hJp : euclid (J.mulVec p) = 0 := le_antisymm (by have := hB p; rw [hp0, mul_zero] at this; exact this) (euclid_nonneg _)
    have hP0 : P = 0 := by rw [hPv, hJp, hp0]; simp
    rw [hP0] at hdiff ⊢
    simpa using hdiff
  · have h1 : ε * (2 * (B + 2)) * E ^ 2 < 1 / 200 * (s * (1 - c) ^ 2) * E ^ 2 := by
      exact mul_lt_mul_of_pos_right hsmall (by positivity)
    have hP0 : P < 0 := by
      have : 0 < s * (1 - c) ^ 2 * E ^ 2 / 2 := by
        have : 0 < 1 - c := by linarith
        positivity
      linarith
    have hD : D < 99 / 100 * P := by nlinarith
    exact ⟨by linarith, fun _ => ⟨hD, hP0⟩⟩

/-- The rule of the trust region, exactly, for runs of least-squares solvers with the default parameters. -/
theorem gn_trust_rule (cfg : GaussNewton.Cfg ι κ ℝ DS) (hs : cfg.search = TrustRegion.classical TrustRegion.defaults)
    (stepAt : ℝ → (κ → ℝ) → Matrix κ ι ℝ → (ι → ℝ) × Result) (hd : Memoryless cfg.descent stepAt)
    (aux0 : A) (fn : (ι → ℝ) → (κ → ℝ) × A) (y0 : ι → ℝ) (st0 : GaussNewton.State ι κ A ℝ DS)
    (hi : (GaussNewton.solver cfg aux0).init fn y0 = .ok st0) :
    let Y := iterateAt (GaussNewton.solver cfg aux0) fn aux0 y0 st0
    let t := fun k => (stateAt (GaussNewton.solver cfg aux0) fn aux0 y0 st0 k).searchState
    Y 1 = y0 ∧ t 1 = 1 ∧ ∀ k,
      let p := (stepAt (t (k + 1)) (fn (Y (k + 1))).1 (cfg.jac (Y (k + 1)))).1
      let D := (∑ m, (fn fun i => Y (k + 1) i + p i).1 m ^ 2) / 2 - (∑ m, (fn (Y (k + 1))).1 m ^ 2) / 2
      let P := linearisedChange (cfg.jac (Y (k + 1))) (fn (Y (k + 1))).1 p
      D ≤ 1 / 100 * P → Y (k + 2) = (fun i => Y (k + 1) i + p i) ∧
        t (k + 2) = if D < 99 / 100 * P ∧ P < 0 then 7 / 2 * t (k + 1) else t (k + 1) := by
  intro Y t
  have c1 : (TrustRegion.defaults).lowCutoff = 1 / 100 := by norm_num [TrustRegion.defaults]
  have c2 : (TrustRegion.defaults).highCutoff = 99 / 100 := by norm_num [TrustRegion.defaults]
  have c3 : (TrustRegion.defaults).highConstant = 7 / 2 := by norm_num [TrustRegion.defaults]
  have c4 : 0 < (TrustRegion.defaults).lowConstant := by norm_num [TrustRegion.defaults]
  have hss : ∀ x : κ → ℝ, sumSquares x = ∑ i, x i ^ 2 := by
    intro x; unfold sumSquares; exact Finset.sum_congr rfl fun _ _ => by ring
  obtain ⟨_, hY1, ht1, hy⟩ := gn_trust_run TrustRegion.defaults c4 (by rw [c3]; norm_num) cfg hs stepAt hd aux0 fn y0 st0 hi
  obtain ⟨_, _, _, hrule⟩ := C29_run_gauss_newton TrustRegion.defaults c4 (by rw [c3]; norm_num) cfg hs aux0 fn y0 st0 hi
  refine ⟨hY1, ht1, ?_⟩
  intro k p D P hD
  have hrule' : ∀ D P, D = sumSquares (fn (stateAt (GaussNewton.solver cfg aux0) fn aux0 y0 st0 (k + 1)).yEval).1 / 2 -
        sumSquares (fn (Y (k + 1))).1 / 2 →
      P = (∑ m, ((fn (Y (k + 1))).1 m + ∑ i, cfg.jac (Y (k + 1)) m i *
        ((stateAt (GaussNewton.solver cfg aux0) fn aux0 y0 st0 (k + 1)).yEval i - Y (k + 1) i)) ^ 2) / 2 -
        (∑ m, (fn (Y (k + 1))).1 m ^ 2) / 2 →
      (D ≤ 1 / 100 * P → Y (k + 1 + 1) = (stateAt (GaussNewton.solver cfg aux0) fn aux0 y0 st0 (k + 1)).yEval ∧
        t (k + 1 + 1) = (if D < 99 / 100 * P ∧ P < 0 then 7 / 2 * t (k + 1) else t (k + 1))) := by
    rintro _ _ rfl rfl
    have := (hrule (k + 1) (by omega)).1
    rw [c1, c2, c3] at this
    exact this
  have := hrule' D P (by
      show (∑ m, (fn fun i => Y (k + 1) i + p i).1 m ^ 2) / 2 - (∑ m, (fn (Y (k + 1))).1 m ^ 2) / 2 = _
      rw [hss, hss, hy k]) (by
      show linearisedChange _ _ _ = _
      unfold linearisedChange
      congr 2
      refine Finset.sum_congr rfl fun m _ => ?_
      rw [add_comm, hy k]
      congr 2
      simp only [Matrix.mulVec, dotProduct]
      exact Finset.sum_congr rfl fun i _ => by rw [add_sub_cancel_left]) hD
  exact ⟨by rw [this.1, hy k], this.2⟩

/-- What is asked of a descent: with a step size `t ≥ 1`, and where the Jacobian has full column rank, it solves the normal equations
with some damping `μ t` between `0` and `1 / t`, successfully. -/
def NewtonLike (stepAt : ℝ → (κ → ℝ) → Matrix κ ι ℝ → (ι → ℝ) × Result) (μ : ℝ → ℝ) : Prop :=
  ∀ t f J, 1 ≤ t → (∀ v : ι → ℝ, J.mulVec v = 0 → v = 0) →
    DampedNormal J f (μ t) (stepAt t f J).1 ∧ (stepAt t f J).2 = .successful

/-- The conclusion of C98 for a solver.  There is a neighbourhood of `r` such that every solve that starts in it
* reduces the distance to `r` by a factor `c < 1` at every step,
* converges to `r` superlinearly,
* satisfies `|y₊ - r| ≤ C (|y - r| + μₖ) |y - r|` if the residuals are linearised with a quadratic error, where `μₖ` is the damping for
  the step size `3.5ᵏ`,
* succeeds, with any budget from some number of steps on or none. -/
def ConvergesFast (S : Solver (ι → ℝ) (κ → ℝ) A (GaussNewton.State ι κ A ℝ DS) Unit) (fn : (ι → ℝ) → (κ → ℝ) × A) (aux0 : A)
    (jac : (ι → ℝ) → Matrix κ ι ℝ) (r : ι → ℝ) (μ : ℝ → ℝ) : Prop :=
  ∃ δ > 0, ∃ c < 1, ∀ y0 : ι → ℝ, euclid (fun i => y0 i - r i) ≤ δ →
    ∃ st0, S.init fn y0 = .ok st0 ∧
    let Y := iterateAt S fn aux0 y0 st0
    let err := fun k => euclid fun i => Y k i - r i
    Y 1 = y0 ∧
    (∀ k, err (k + 2) ≤ c * err (k + 1)) ∧
    (∀ η, 0 < η → ∃ K, ∀ k, K ≤ k → err (k + 1) ≤ η * err k) ∧
    (∀ L ρ, 0 < ρ → (∀ y, euclid (fun i => y i - r i) ≤ ρ → euclid (fun m => (fn y).1 m - (jac y).mulVec (fun i => y i - r i) m) ≤
        L * (euclid fun i => y i - r i) ^ 2) →
      ∃ C, ∀ k, err (k + 2) ≤ C * (err (k + 1) + μ ((7 / 2) ^ k)) * err (k + 1)) ∧
    ∃ n, ∀ ms throw, (∀ m, ms = some m → n ≤ m) →
      ∃ sol, iterativeSolve S (fun _ => true) fn aux0 y0 ms throw = some (.ok sol) ∧ sol.result = .successful ∧ sol.numSteps ≤ n

theorem converges_fast (cfg : GaussNewton.Cfg ι κ ℝ DS) (hs : cfg.search = TrustRegion.classical TrustRegion.defaults)
    (stepAt : ℝ → (κ → ℝ) → Matrix κ ι ℝ → (ι → ℝ) × Result) (hd : Memoryless cfg.descent stepAt) (μ : ℝ → ℝ)
    (hμ : ∀ t, 1 ≤ t → 0 ≤ μ t ∧ μ t ≤ 1 / t) (hstep : NewtonLike stepAt μ)
    (hat : 0 < cfg.atol) (hrt : 0 ≤ cfg.rtol) (hY : GoodNorm cfg.normY) (hF : GoodNorm cfg.normF)
    (aux0 : A) (fn : (ι → ℝ) → (κ → ℝ) × A) (r : ι → ℝ) (σ : ℝ) (h : ExactFit (fun y => (fn y).1) cfg.jac r σ)
    (hinit : ∀ y0, ∃ st0, (GaussNewton.solver cfg aux0).init fn y0 = .ok st0) :
    ConvergesFast (GaussNewton.solver cfg aux0) fn aux0 cfg.jac r μ := by
  obtain ⟨B, hB0, hnear⟩ := h.near
  have hσ := h.pos
  set s := σ / 2 with hsd
  have hs0 : 0 < s := by positivity
  set c : ℝ := (1 + s / 2) / (1 + s) with hcd
  have hc1 : c < 1 := by rw [hcd, div_lt_one (by positivity)]; linarith
  have hc0 : 0 < c := by positivity
  have h1c : 0 < 1 - c := by linarith
  set ε : ℝ := min 1 (min (s / (2 * B)) (s * (1 - c) ^ 2 / (800 * (B + 2)))) with hεd
  have hε0 : 0 < ε := by positivity
  have hε1 : ε ≤ 1 := min_le_left _ _
  have hε2 : B * ε ≤ s / 2 := by
    have : ε ≤ s / (2 * B) := (min_le_right _ _).trans (min_le_left _ _)
    rw [le_div_iff₀ (by positivity)] at this
    linarith
  have hε3 : ε * (2 * (B + 2)) < 1 / 200 * (s * (1 - c) ^ 2) := by
    have : ε ≤ s * (1 - c) ^ 2 / (800 * (B + 2)) := (min_le_right _ _).trans (min_le_right _ _)
    rw [le_div_iff₀ (by positivity)] at this
    have : 0 < s * (1 - c) ^ 2 := by positivity
    linarith
  obtain ⟨δ, hδ, hball⟩ := hnear ε hε0
  refine ⟨δ, hδ, c, hc1, fun y0 hy0 => ?_⟩
  obtain ⟨st0, hi⟩ := hinit y0
  refine ⟨st0, hi, ?_⟩
  obtain ⟨hY1, ht1, hrule⟩ := gn_trust_rule cfg hs stepAt hd aux0 fn y0 st0 hi
  intro Y err
  set t := fun k => (stateAt (GaussNewton.solver cfg aux0) fn aux0 y0 st0 k).searchState with ht
  -- full rank near the solution
  have hfull : ∀ y : ι → ℝ, euclid (fun i => y i - r i) ≤ δ → ∀ v, (cfg.jac y).mulVec v = 0 → v = 0 := by
    intro y hy v hv
    have h1 := (hball y hy).2.1 v
    have h0 : euclid ((cfg.jac y).mulVec v) = 0 := by rw [hv]; simp [euclid]
    rw [h0] at h1
    have h2 : euclid v ^ 2 ≤ 0 := by
      by_contra hn
      have : 0 < s * euclid v ^ 2 := mul_pos hs0 (not_le.1 hn)
      nlinarith
    have h3 : euclid v = 0 := by nlinarith [euclid_nonneg v, sq_nonneg (euclid v)]
    funext i
    have := (abs_le_euclid v i)
    rw [h3] at this
    simpa using this
  -- one step
  set p := fun k => (stepAt (t (k + 1)) (fn (Y (k + 1))).1 (cfg.jac (Y (k + 1)))).1 with hp
  have one : ∀ k, err (k + 1) ≤ δ → 1 ≤ t (k + 1) →
      (stepAt (t (k + 1)) (fn (Y (k + 1))).1 (cfg.jac (Y (k + 1)))).2 = .successful ∧
      (∑ m, (fn fun i => Y (k + 1) i + p k i).1 m ^ 2) / 2 - (∑ m, (fn (Y (k + 1))).1 m ^ 2) / 2 ≤
        1 / 100 * linearisedChange (cfg.jac (Y (k + 1))) (fn (Y (k + 1))).1 (p k) ∧
      Y (k + 2) = (fun i => Y (k + 1) i + p k i) ∧ err (k + 2) ≤ c * err (k + 1) ∧ 1 ≤ t (k + 2) ∧
      (err (k + 1) ≠ 0 → t (k + 2) = 7 / 2 * t (k + 1)) ∧
      ∀ ε', 0 ≤ ε' → euclid (fun m => (fn (Y (k + 1))).1 m - (cfg.jac (Y (k + 1))).mulVec (fun i => Y (k + 1) i - r i) m) ≤
        ε' * err (k + 1) → s * err (k + 2) ≤ (B * ε' + μ (t (k + 1))) * err (k + 1) := by
    intro k hk htk
    obtain ⟨hup, hlow, hlin⟩ := hball (Y (k + 1)) hk
    obtain ⟨hnorm, hok⟩ := hstep (t (k + 1)) (fn (Y (k + 1))).1 (cfg.jac (Y (k + 1))) htk (hfull _ hk)
    obtain ⟨hμ0, hμ1⟩ := hμ _ htk
    have hμ2 : μ (t (k + 1)) ≤ 1 := hμ1.trans (by rw [div_le_one (by linarith)]; exact htk)
    set l := μ (t (k + 1)) with hl
    have hge := fun ε' (h0 : 0 ≤ ε') hlin => damped_error (e := fun i => Y (k + 1) i - r i) hnorm hμ0 B s ε' hup hlow h0 hlin
    have hE0 : 0 ≤ err (k + 1) := euclid_nonneg _
    have hcon : euclid (fun i => Y (k + 1) i - r i + p k i) ≤ c * err (k + 1) := by
      have h1 := hge ε hε0.le (hlin _ hk)
      have h2 : (B * ε + l) * err (k + 1) ≤ (s + l) * (c * err (k + 1)) := by
        have : B * ε + l ≤ (s + l) * c := by
          have e : (1 + s) * c = 1 + s / 2 := by rw [hcd]; field_simp
          nlinarith
        calc _ ≤ (s + l) * c * err (k + 1) := mul_le_mul_of_nonneg_right this hE0
          _ = _ := by ring
      exact le_of_mul_le_mul_left (h1.trans h2) (by linarith)
    have hx : (fun i => Y (k + 1) i - r i + p k i) = fun i => (Y (k + 1) i + p k i) - r i := by funext i; ring
    have hlin' := hlin (fun i => Y (k + 1) i + p k i) (by
      rw [← hx]
      refine hcon.trans (le_trans ?_ hk)
      exact mul_le_of_le_one_left hE0 hc1.le)
    rw [← hx] at hlin'
    obtain ⟨hD, hgood⟩ := near_prediction (f' := (fn fun i => Y (k + 1) i + p k i).1) hnorm hμ0 B s ε c hup hB0 hlow hε0 hε1 hs0 hc1
      (hlin _ hk) hcon hlin' hε3
    obtain ⟨r1, r2⟩ := hrule k hD
    have herr : err (k + 2) = euclid fun i => Y (k + 1) i - r i + p k i := by
      show euclid (fun i => Y (k + 2) i - r i) = _
      rw [hx]
      exact congrArg (fun z : ι → ℝ => euclid fun i => z i - r i) r1
    refine ⟨hok, hD, r1, by rw [herr]; exact hcon, ?_, fun hne => ?_, fun ε' h0 hl' => ?_⟩
    · rw [show t (k + 2) = _ from r2]
      split
      · have : 1 ≤ t (k + 1) := htk
        show 1 ≤ 7 / 2 * t (k + 1)
        linarith
      · exact htk
    · rw [show t (k + 2) = _ from r2]
      exact if_pos (hgood hne)
    · rw [herr]
      refine le_trans (mul_le_mul_of_nonneg_right ?_ (euclid_nonneg _)) (hge ε' h0 hl')
      linarith
  have all : ∀ k, err (k + 1) ≤ δ ∧ 1 ≤ t (k + 1) := by
    intro k
    induction k with
    | zero =>
      refine ⟨?_, le_of_eq ht1.symm⟩
      show euclid (fun i => Y 1 i - r i) ≤ δ
      rw [show Y 1 = y0 from hY1]; exact hy0
    | succ k ih =>
      obtain ⟨_, _, _, h4, h5, _⟩ := one k ih.1 ih.2
      exact ⟨h4.trans ((mul_le_of_le_one_left (euclid_nonneg _) hc1.le).trans ih.1), h5⟩
  have step := fun k => one k (all k).1 (all k).2
  have herr0 : ∀ k, 0 ≤ err k := fun k => euclid_nonneg _
  have hgrow : ∀ k, err (k + 1) = 0 ∨ t (k + 1) = (7 / 2) ^ k := by
    intro k
    induction k with
    | zero => right; rw [pow_zero]; exact ht1
    | succ k ih =>
      obtain ⟨_, _, _, h4, _, h6, _⟩ := step k
      by_cases h0 : err (k + 1) = 0
      · left
        rw [h0, mul_zero] at h4
        exact le_antisymm h4 (herr0 _)
      · right
        rcases ih with ih | ih
        · exact absurd ih h0
        · rw [h6 h0, ih, pow_succ]; ring
  have hgeo : ∀ k, err (k + 1) ≤ c ^ k * δ := by
    intro k
    induction k with
    | zero => rw [pow_zero, one_mul]; exact (all 0).1
    | succ k ih =>
      refine (step k).2.2.2.1.trans ?_
      rw [pow_succ']
      calc c * err (k + 1) ≤ c * (c ^ k * δ) := mul_le_mul_of_nonneg_left ih hc0.le
        _ = _ := by ring
  have hpow : Tendsto (fun k => c ^ k * δ) atTop (𝓝 0) := by
    have := (tendsto_pow_atTop_nhds_zero_of_lt_one hc0.le hc1).mul_const δ
    rwa [zero_mul] at this
  have hlim : Tendsto Y atTop (𝓝 r) := by
    rw [← tendsto_add_atTop_iff_nat 1, tendsto_pi_nhds]
    intro i
    rw [tendsto_iff_norm_sub_tendsto_zero]
    exact squeeze_zero (fun _ => norm_nonneg _) (fun k => (abs_le_euclid (fun i => Y (k + 1) i - r i) i).trans (hgeo k)) hpow
  refine ⟨hY1, fun k => (step k).2.2.2.1, fun η hη => ?_, fun L ρ hρ hL => ?_, ?_⟩
  · -- superlinear convergence
    obtain ⟨δ', hδ', hball'⟩ := hnear (η * s / (2 * B)) (by positivity)
    have e1 : ∀ᶠ k in atTop, c ^ k * δ < δ' := hpow.eventually (gt_mem_nhds hδ')
    have e2 : ∀ᶠ k in atTop, ((2 : ℝ) / 7) ^ k < η * s / 2 :=
      (tendsto_pow_atTop_nhds_zero_of_lt_one (by norm_num) (by norm_num)).eventually (gt_mem_nhds (by positivity))
    obtain ⟨K, hK⟩ := eventually_atTop.1 (e1.and e2)
    refine ⟨K + 1, fun k hk => ?_⟩
    obtain ⟨k, rfl⟩ : ∃ j, k = j + 1 := ⟨k - 1, by omega⟩
    obtain ⟨g1, g2⟩ := hK k (by omega)
    obtain ⟨_, _, _, h4, _, _, h7⟩ := step k
    rcases hgrow k with h0 | h0
    · rw [h0, mul_zero] at h4 ⊢
      exact h4
    · have hnb := (hball' (Y (k + 1)) ((hgeo k).trans g1.le)).2.2 (Y (k + 1)) ((hgeo k).trans g1.le)
      have h8 := h7 _ (by positivity) hnb
      have h9 : μ (t (k + 1)) ≤ η * s / 2 := by
        refine (hμ _ (all k).2).2.trans (le_trans (le_of_eq ?_) g2.le)
        rw [h0, one_div, ← inv_pow]; norm_num
      have h10 : B * (η * s / (2 * B)) = η * s / 2 := by field_simp
      rw [h10] at h8
      have h11 : (η * s / 2 + μ (t (k + 1))) * err (k + 1) ≤ s * (η * err (k + 1)) := by
        calc _ ≤ (η * s / 2 + η * s / 2) * err (k + 1) := mul_le_mul_of_nonneg_right (by linarith) (herr0 _)
          _ = _ := by ring
      exact le_of_mul_le_mul_left (h8.trans h11) hs0
  · -- the rate
    refine ⟨(B * |L| + 1) / s + 1 / ρ, fun k => ?_⟩
    obtain ⟨_, _, _, h4, _, _, h7⟩ := step k
    have hE := herr0 (k + 1)
    rcases hgrow k with h0 | h0
    · rw [h0, mul_zero] at h4 ⊢
      exact h4
    have hm0 : 0 ≤ μ ((7 / 2) ^ k) := by rw [← h0]; exact (hμ _ (all k).2).1
    rw [h0] at h7
    by_cases hρk : err (k + 1) ≤ ρ
    · have h8 := h7 (|L| * err (k + 1)) (by positivity) ((hL _ hρk).trans (by
        have : L * err (k + 1) ^ 2 ≤ |L| * err (k + 1) ^ 2 := mul_le_mul_of_nonneg_right (le_abs_self L) (sq_nonneg _)
        calc _ ≤ _ := this
          _ = _ := by ring))
      have h9 : err (k + 2) ≤ (B * |L| * err (k + 1) + μ ((7 / 2) ^ k)) / s * err (k + 1) := by
        rw [div_mul_eq_mul_div, le_div_iff₀ hs0]
        calc err (k + 2) * s = s * err (k + 2) := mul_comm _ _
          _ ≤ _ := h8
          _ = _ := by ring
      refine h9.trans (mul_le_mul_of_nonneg_right ?_ hE)
      have h10 : (B * |L| * err (k + 1) + μ ((7 / 2) ^ k)) / s ≤ (B * |L| + 1) / s * (err (k + 1) + μ ((7 / 2) ^ k)) := by
        rw [div_mul_eq_mul_div]
        refine div_le_div_of_nonneg_right ?_ hs0.le
        have : 0 ≤ B * |L| * μ ((7 / 2) ^ k) := by positivity
        nlinarith
      refine h10.trans (mul_le_mul_of_nonneg_right ?_ (by positivity))
      have : 0 < 1 / ρ := by positivity
      linarith
    · have h8 : err (k + 2) ≤ 1 * err (k + 1) := h4.trans (mul_le_mul_of_nonneg_right hc1.le hE)
      refine h8.trans (mul_le_mul_of_nonneg_right ?_ hE)
      have h9 : 1 ≤ 1 / ρ * err (k + 1) := by
        rw [one_div, ← div_eq_inv_mul, le_div_iff₀ hρ, one_mul]
        exact (not_le.1 hρk).le
      have h10 : 0 ≤ (B * |L| + 1) / s := by positivity
      have h11 : 0 ≤ 1 / ρ := by positivity
      calc (1:ℝ) ≤ 1 / ρ * err (k + 1) := h9
        _ ≤ ((B * |L| + 1) / s + 1 / ρ) * (err (k + 1) + μ ((7 / 2) ^ k)) :=
          mul_le_mul (by linarith) (by linarith) hE (by linarith)
  · -- success
    have hcontF : ContinuousAt (fun y => (fn y).1) r := by
      obtain ⟨D, _, hD⟩ := h.deriv
      exact hD.continuousAt
    have hlimF : Tendsto (fun k => (fn (Y k)).1) atTop (𝓝 (fn r).1) := hcontF.tendsto.comp hlim
    refine gn_trust_stops_at TrustRegion.defaults (by norm_num [TrustRegion.defaults]) (by norm_num [TrustRegion.defaults]) cfg hs
      stepAt hd hat hrt hY hF aux0 fn y0 st0 hi (fun k => (step k).1) fun η hη => ?_
    have hYsmall : ∀ᶠ k in atTop, ∀ i, |Y (k + 1) i - Y k i| ≤ η := by
      refine eventually_all.2 fun i => ?_
      have h1 := ((tendsto_pi_nhds.1 ((tendsto_add_atTop_iff_nat 1).2 hlim)) i).sub ((tendsto_pi_nhds.1 hlim) i)
      rw [sub_self] at h1
      filter_upwards [h1 (Metric.closedBall_mem_nhds _ hη)] with k hk
      simpa [Real.dist_eq] using hk
    have hFsmall : ∀ᶠ k in atTop, ∀ m, |(fn (Y (k + 1))).1 m - (fn (Y k)).1 m| ≤ η := by
      refine eventually_all.2 fun m => ?_
      have h1 := ((tendsto_pi_nhds.1 ((tendsto_add_atTop_iff_nat 1).2 hlimF)) m).sub ((tendsto_pi_nhds.1 hlimF) m)
      rw [sub_self] at h1
      filter_upwards [h1 (Metric.closedBall_mem_nhds _ hη)] with k hk
      simpa [Real.dist_eq] using hk
    obtain ⟨k0, hk0⟩ := ((hYsmall.and hFsmall).and (eventually_ge_atTop 1)).exists
    obtain ⟨⟨hy1, hf1⟩, hk1⟩ := hk0
    obtain ⟨k, rfl⟩ : ∃ k, k0 = k + 1 := ⟨k0 - 1, by omega⟩
    obtain ⟨_, h2, h3, _⟩ := step k
    refine ⟨k, ?_, fun i => ?_, fun m => ?_⟩
    · have c1 : (TrustRegion.defaults).lowCutoff = 1 / 100 := by norm_num [TrustRegion.defaults]
      rw [c1]; exact h2
    · have := hy1 i
      rw [h3, add_sub_cancel_left] at this
      exact this
    · have := hf1 m
      rw [h3] at this
      exact this

/-! ### The solvers -/

theorem damped_newton_like [DecidableEq ι] (eps fmax : ℝ) (he : eps < 1) (ls : LinSolve ι (κ ⊕ ι)) (hls : SolvesFullRank ls) :
    NewtonLike (κ := κ) (fun t r J => (dampedNewtonDescent eps fmax ls).step t (.residualJac r J)) fun t => 1 / t := by
  intro t f J ht _
  have hl : lmParam eps fmax t = 1 / t := if_pos (by linarith)
  have hl0 : 0 < 1 / t := by positivity
  have hfull : ∀ v, (dampedOperator J (1 / t)).mulVec v = 0 → v = 0 := by
    intro v hv
    funext i
    have := congrFun hv (.inr i)
    have e : (dampedOperator J (1 / t)).mulVec v (.inr i) = √(1 / t) * v i := by
      simp [dampedOperator, Matrix.mulVec, dotProduct]
    rw [e, Pi.zero_apply] at this
    exact (mul_eq_zero.1 this).resolve_left (Real.sqrt_pos.2 hl0).ne'
  obtain ⟨h1, h2⟩ := hls _ hfull (dampedVector f)
  refine ⟨?_, ?_⟩
  · show DampedNormal J f (1 / t) fun i => -(ls.rect (dampedOperator J (lmParam eps fmax t)) (dampedVector f)).1 i
    rw [hl]
    exact regularised_stationary J f (1 / t) hl0.le _ fun q => damped_minimiser J f (1 / t) hl0.le _ h1 q
  · show (ls.rect (dampedOperator J (lmParam eps fmax t)) (dampedVector f)).2 = .successful
    rw [hl]; exact h2

theorem newton_normal (J : Matrix κ ι ℝ) (f : κ → ℝ) (d : ι → ℝ) (h : IsLeastSquares J f d) :
    DampedNormal J f 0 fun i => -d i := by
  intro i
  have h1 := normal_equations J f d h i
  have : ∑ m, J m i * (J.mulVec (fun i => -d i) m + f m) = -∑ m, J m i * (J.mulVec d m - f m) := by
    rw [← Finset.sum_neg_distrib]
    exact Finset.sum_congr rfl fun m _ => by rw [mulVec_neg']; ring
  rw [this, h1]; simp

theorem indirect_newton_like [DecidableEq ι] (eps fmax : ℝ) (ls : LinSolve ι κ) (hls : SolvesFullRank ls)
    (lsD : LinSolve ι (κ ⊕ ι)) (env : InnerEnv) :
    NewtonLike (indirectStep eps fmax ls lsD env) fun _ => 0 := by
  intro t f J ht hfull
  obtain ⟨h1, h2⟩ := hls J hfull f
  have hno : ¬ ((ls.rect J f).2 = .successful ∧ t < 1) := fun h => absurd h.2 (not_lt.2 ht)
  unfold indirectStep
  rw [if_neg hno]
  exact ⟨newton_normal J f _ h1, h2⟩

theorem dogleg_newton_like (eps : ℝ) (he : 0 ≤ eps) (ls : LinSolve ι κ) (hls : SolvesFullRank ls) :
    NewtonLike (fun t r J => Dogleg.step eps .twoNorm t (Dogleg.query eps ls .twoNorm (.residualJac r J))) fun _ => 0 := by
  classical
  intro t f J ht hfull
  obtain ⟨h1, h2⟩ := hls J hfull f
  -- a solver that agrees with `ls` here and solves all least-squares problems
  obtain ⟨lsE, hE⟩ := exact_least_squares_exists (ι := ι) (κ := κ)
  set ls' : LinSolve ι κ := ⟨fun M b => if ∀ v, M.mulVec v = 0 → v = 0 then ls.rect M b else lsE.rect M b, ls.square⟩ with hls'
  have hS : SolvesLeastSquares ls' := by
    intro M b
    show IsLeastSquares M b (if ∀ v, M.mulVec v = 0 → v = 0 then ls.rect M b else lsE.rect M b).1
    split
    · rename_i hM; exact (hls M hM b).1
    · exact hE M b
  have hsame : ls'.rect J f = ls.rect J f := if_pos hfull
  obtain ⟨b1, b2, b3, b4, b5, b6⟩ := C42_base_points eps ls J f he (fun _ => 0) (Dogleg.query eps ls .twoNorm (.residualJac f J))
  have hst : (Dogleg.descent eps ls .twoNorm).query (fun _ => 0) (.residualJac f J)
    (Dogleg.query eps ls .twoNorm (.residualJac f J)) = Dogleg.query eps ls .twoNorm (.residualJac f J) := rfl
  rw [hst] at b1 b2 b3 b4 b5 b6
  show DampedNormal J f 0 (Dogleg.step eps .twoNorm t (Dogleg.query eps ls .twoNorm (.residualJac f J))).1 ∧
    (Dogleg.step eps .twoNorm t (Dogleg.query eps ls .twoNorm (.residualJac f J))).2 = .successful
  generalize Dogleg.query eps ls .twoNorm (.residualJac f J) = st at *
  have hle : st.cauchyNorm ≤ st.newtonNorm := by
    rw [b3, b2]
    by_cases hc : curvatureAlongGradient J f ≤ eps
    · rw [b5 hc]
      have hz0 : twoNorm (fun _ : ι => (0:ℝ)) = 0 := by simp [twoNorm, sumSquares]
      rw [hz0]; exact twoNorm_nonneg _
    · push Not at hc
      obtain ⟨τ, hτ, hcau, hτC, _⟩ := b6 hc
      have := cauchy_le_newton ls' J f hS τ hτ hτC (lt_of_le_of_lt he hc)
      rw [hsame] at this
      rw [hcau, b1]; exact this
  have hN : 0 ≤ st.newtonNorm := by rw [b2]; exact twoNorm_nonneg _
  have hno : ¬ st.newtonNorm * t < st.cauchyNorm := not_lt.2 (hle.trans (le_mul_of_one_le_right hN ht))
  have hstep : Dogleg.step eps .twoNorm t st = (st.newton, .successful) := by
    simp only [Dogleg.step, if_neg hno, if_neg (not_lt.2 ht), b4, h2, if_true]
  rw [hstep]
  refine ⟨?_, rfl⟩
  rw [b1]
  exact newton_normal J f _ h1

/-- **C98.** `LevenbergMarquardt` near a nondegenerate solution with vanishing residuals: superlinear convergence, and with smooth
residuals the rate is `C (|y - r| + 3.5⁻ᵏ)`. -/
theorem C98_levenberg_marquardt [DecidableEq ι] (eps fmax rtol atol : ℝ) (he : eps < 1) (hr : 0 ≤ rtol) (ha : 0 < atol)
    (nY : (ι → ℝ) → ℝ) (nF : (κ → ℝ) → ℝ) (hY : GoodNorm nY) (hF : GoodNorm nF) (ls : LinSolve ι (κ ⊕ ι)) (hls : SolvesFullRank ls)
    (jac : (ι → ℝ) → Matrix κ ι ℝ) (aux0 : A) (fn : (ι → ℝ) → (κ → ℝ) × A) (r : ι → ℝ) (σ : ℝ)
    (h : ExactFit (fun y => (fn y).1) jac r σ) :
    ConvergesFast (GaussNewton.solver (GaussNewton.levenbergMarquardt eps fmax rtol atol nY nF ls jac) aux0) fn aux0 jac r
      fun t => 1 / t :=
  converges_fast (GaussNewton.levenbergMarquardt eps fmax rtol atol nY nF ls jac) rfl _ (damped_memoryless eps fmax ls) _
    (fun t ht => ⟨by positivity, le_rfl⟩) (damped_newton_like eps fmax he ls hls) ha hr hY hF aux0 fn r σ h fun _ => ⟨_, rfl⟩

/-- **C98.** `Dogleg`: superlinear convergence, quadratic with smooth residuals. -/
theorem C98_dogleg (eps rtol atol : ℝ) (he : 0 ≤ eps) (hr : 0 ≤ rtol) (ha : 0 < atol)
    (nY : (ι → ℝ) → ℝ) (nF : (κ → ℝ) → ℝ) (hY : GoodNorm nY) (hF : GoodNorm nF) (ls : LinSolve ι κ) (hls : SolvesFullRank ls)
    (jac : (ι → ℝ) → Matrix κ ι ℝ) (aux0 : A) (fn : (ι → ℝ) → (κ → ℝ) × A) (r : ι → ℝ) (σ : ℝ)
    (h : ExactFit (fun y => (fn y).1) jac r σ) :
    ConvergesFast (GaussNewton.solver (GaussNewton.dogleg eps rtol atol nY nF ls jac) aux0) fn aux0 jac r fun _ => 0 :=
  converges_fast (GaussNewton.dogleg eps rtol atol nY nF ls jac) rfl _ (dogleg_memoryless eps ls) _
    (fun t ht => ⟨le_rfl, by positivity⟩) (dogleg_newton_like eps he ls hls) ha hr hY hF aux0 fn r σ h fun _ => ⟨_, rfl⟩

/-- **C98.** `IndirectLevenbergMarquardt`: superlinear convergence, quadratic with smooth residuals. -/
theorem C98_indirect_levenberg_marquardt [DecidableEq ι] (eps fmax rtol atol : ℝ) (hr : 0 ≤ rtol) (ha : 0 < atol)
    (nY : (ι → ℝ) → ℝ) (nF : (κ → ℝ) → ℝ) (hY : GoodNorm nY) (hF : GoodNorm nF) (ls : LinSolve ι κ) (hls : SolvesFullRank ls)
    (lsD : LinSolve ι (κ ⊕ ι)) (env : InnerEnv) (jac : (ι → ℝ) → Matrix κ ι ℝ) (aux0 : A) (fn : (ι → ℝ) → (κ → ℝ) × A)
    (r : ι → ℝ) (σ : ℝ) (h : ExactFit (fun y => (fn y).1) jac r σ) :
    ConvergesFast (GaussNewton.solver (GaussNewton.indirectLevenbergMarquardt eps fmax rtol atol nY nF ls lsD
      (findLambdaNewton env 1) jac) aux0) fn aux0 jac r fun _ => 0 :=
  converges_fast (GaussNewton.indirectLevenbergMarquardt eps fmax rtol atol nY nF ls lsD (findLambdaNewton env 1) jac) rfl _
    (indirect_memoryless eps fmax ls lsD env) _ (fun t ht => ⟨le_rfl, by positivity⟩)
    (indirect_newton_like eps fmax ls hls lsD env) ha hr hY hF aux0 fn r σ h fun _ => ⟨_, rfl⟩

/-- Non-vacuous: fitting `y² = 1` and `y³ = 1` at once has the nondegenerate exact fit `1`. -/
theorem cubic_exact_fit : ExactFit (ι := Unit) (κ := Fin 2) (fun y => ![y () ^ 2 - 1, y () ^ 3 - 1])
    (fun y => Matrix.of fun m _ => (![2 * y (), 3 * y () ^ 2] : Fin 2 → ℝ) m) (fun _ => 1) 13 := by
  refine ⟨⟨ContinuousLinearMap.pi ![(2 : ℝ) • ContinuousLinearMap.proj (), (3 : ℝ) • ContinuousLinearMap.proj ()], ?_, ?_⟩, ?_, ?_,
    by norm_num, ?_⟩
  · intro v; funext m
    fin_cases m <;> simp [Matrix.mulVec, dotProduct]
  · refine hasFDerivAt_pi.2 fun m => ?_
    have hp : HasFDerivAt (fun y : Unit → ℝ => y ()) (ContinuousLinearMap.proj (R := ℝ) (φ := fun _ : Unit => ℝ) ()) (fun _ => 1) :=
      (ContinuousLinearMap.proj (R := ℝ) (φ := fun _ : Unit => ℝ) ()).hasFDerivAt
    fin_cases m
    · have := (hp.pow 2).sub_const 1
      refine HasFDerivAt.congr_fderiv (f := fun y : Unit → ℝ => y () ^ 2 - 1) this ?_
      ext; simp
    · have := (hp.pow 3).sub_const 1
      refine HasFDerivAt.congr_fderiv (f := fun y : Unit → ℝ => y () ^ 3 - 1) this ?_
      ext; simp
  · intro m i
    fin_cases m
    · show ContinuousAt (fun y : Unit → ℝ => 2 * y ()) _
      exact ((continuous_apply ()).const_mul 2).continuousAt
    · show ContinuousAt (fun y : Unit → ℝ => 3 * y () ^ 2) _
      exact (((continuous_apply ()).pow 2).const_mul 3).continuousAt
  · intro m; fin_cases m <;> simp
  · intro v
    simp [Matrix.mulVec, dotProduct, Fin.sum_univ_two]
    nlinarith [sq_nonneg (v ())]

/-- So the theorems apply to it, here `LevenbergMarquardt` with an exact linear solver and the maximum norm. -/
example : ∃ ls : LinSolve Unit (Fin 2 ⊕ Unit), ConvergesFast (GaussNewton.solver (GaussNewton.levenbergMarquardt (1/1000) 1000000
    (1/10) (1/100) maxNorm maxNorm ls
    (fun y => Matrix.of fun m _ => (![2 * y (), 3 * y () ^ 2] : Fin 2 → ℝ) m)) ()) (fun y => (![y () ^ 2 - 1, y () ^ 3 - 1], ()))
    () (fun y => Matrix.of fun m _ => (![2 * y (), 3 * y () ^ 2] : Fin 2 → ℝ) m) (fun _ => 1) fun t => 1 / t := by
  obtain ⟨ls, hls⟩ := full_rank_solver_exists (ι := Unit) (κ := Fin 2 ⊕ Unit)
  refine ⟨ls, C98_levenberg_marquardt _ _ _ _ (by norm_num) (by norm_num) (by norm_num) _ _ goodNorm_maxNorm goodNorm_maxNorm ls hls _ _ _
    _ _ cubic_exact_fit⟩

end Verif.Props
