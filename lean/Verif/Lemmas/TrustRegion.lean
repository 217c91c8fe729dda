import Verif.Lemmas.Converge

/-!
Proof devices: sequences produced by the trust-region rule.
-/

namespace Verif.SearchLoop

open Verif Verif.Spec Filter Topology

/-- Points `y` and radii `t` follow the trust-region rule: the trial point is taken if the objective changes by at most `c`
times the predicted change, and then the radius is kept or multiplied by `h`; otherwise the radius is multiplied by `l`. -/
structure TrustRun {X : Type} (f : X → ℝ) (trial : X → ℝ → X) (pred : X → ℝ → ℝ) (c l h : ℝ) (y : Nat → X) (t : Nat → ℝ) :
    Prop where
  pos : ∀ k, 0 < t k
  rule : ∀ k,
    (f (trial (y k) (t k)) - f (y k) ≤ c * pred (y k) (t k) ∧ y (k + 1) = trial (y k) (t k) ∧
      (t (k + 1) = h * t k ∨ t (k + 1) = t k)) ∨
    (¬ f (trial (y k) (t k)) - f (y k) ≤ c * pred (y k) (t k) ∧ y (k + 1) = y k ∧ t (k + 1) = l * t k)

section
variable {X : Type} {f : X → ℝ} {trial : X → ℝ → X} {pred : X → ℝ → ℝ} {c l h : ℝ} {y : Nat → X} {t : Nat → ℝ}

/-- If all short enough trials from the current point would be taken, one is taken from there, after finitely many steps. -/
theorem TrustRun.progress (R : TrustRun f trial pred c l h y t) (hl0 : 0 < l) (hl1 : l < 1) (K : Nat) (τ : ℝ) (hτ : 0 < τ)
    (hacc : ∀ s, 0 < s → s ≤ τ → f (trial (y K) s) - f (y K) ≤ c * pred (y K) s) :
    ∃ j, y (K + j) = y K ∧ f (trial (y K) (t (K + j))) - f (y K) ≤ c * pred (y K) (t (K + j)) ∧
      y (K + j + 1) = trial (y K) (t (K + j)) ∧ t (K + j) = l ^ j * t K := by
  classical
  by_contra hno
  push Not at hno
  have hgeo : ∀ j, y (K + j) = y K ∧ t (K + j) = l ^ j * t K := by
    intro j
    induction j with
    | zero => simp
    | succ j ih =>
      obtain ⟨h1, h2⟩ := ih
      rcases R.rule (K + j) with ⟨a1, a2, _⟩ | ⟨_, b2, b3⟩
      · rw [h1] at a1 a2
        exact absurd h2 (hno j h1 a1 a2)
      · refine ⟨by rw [← h1]; exact b2, ?_⟩
        have : t (K + (j + 1)) = l * t (K + j) := b3
        rw [this, h2, pow_succ]; ring
  have hz : Tendsto (fun j : Nat => l ^ j * t K) atTop (𝓝 0) := by
    simpa using (tendsto_pow_atTop_nhds_zero_of_lt_one hl0.le hl1).mul_const (t K)
  obtain ⟨j, hj⟩ := (hz.eventually (gt_mem_nhds hτ)).exists
  obtain ⟨h1, h2⟩ := hgeo j
  have hle : t (K + j) ≤ τ := by rw [h2]; exact hj.le
  have ha := hacc (t (K + j)) (R.pos _) hle
  rcases R.rule (K + j) with ⟨_, a2, _⟩ | ⟨b1, _⟩
  · rw [h1] at a2
    exact hno j h1 ha a2 h2
  · rw [h1] at b1; exact b1 ha

/-- If short trials are always taken, the radii stay away from zero. -/
theorem TrustRun.radius (R : TrustRun f trial pred c l h y t) (hl0 : 0 < l) (hh : 1 ≤ h) (τ : ℝ)
    (hacc : ∀ k s, 0 < s → s ≤ τ → f (trial (y k) s) - f (y k) ≤ c * pred (y k) s) (k : Nat) :
    min (t 0) (l * τ) ≤ t k := by
  induction k with
  | zero => exact min_le_left _ _
  | succ k ih =>
    have h0 := R.pos k
    rcases R.rule k with ⟨_, _, a3⟩ | ⟨b1, _, b3⟩
    · rcases a3 with a3 | a3
      · rw [a3]; nlinarith
      · rw [a3]; exact ih
    · have hlt : τ < t k := by
        by_contra hle
        exact b1 (hacc k _ h0 (not_lt.1 hle))
      rw [b3]
      exact (min_le_right _ _).trans (mul_le_mul_of_nonneg_left hlt.le hl0.le)

/-- Then a measure of stationarity that bounds the predicted decrease at such radii tends to zero. -/
theorem TrustRun.settles (R : TrustRun f trial pred c l h y t) (hc : 0 < c) (hl0 : 0 < l) (hl1 : l < 1) (hh : 1 ≤ h)
    (τ : ℝ) (hτ : 0 < τ)
    (hacc : ∀ k s, 0 < s → s ≤ τ → f (trial (y k) s) - f (y k) ≤ c * pred (y k) s)
    (m : ℝ) (hm : ∀ x, m ≤ f x) (G : X → ℝ) (hG : ∀ x, 0 ≤ G x) (γ : ℝ) (hγ : 0 < γ)
    (hpred : ∀ x s, min (t 0) (l * τ) ≤ s → pred x s ≤ -(γ * G x)) :
    Tendsto (fun k => G (y k)) atTop (𝓝 0) ∧ Tendsto (fun k => f (y k) - f (y (k + 1))) atTop (𝓝 0) ∧
    ∀ K, ∃ k, K ≤ k ∧ f (trial (y k) (t k)) - f (y k) ≤ c * pred (y k) (t k) ∧ y (k + 1) = trial (y k) (t k) := by
  have hrad := R.radius hl0 hh τ hacc
  have hanti : Antitone fun k => f (y k) := antitone_nat_of_succ_le fun k => by
    rcases R.rule k with ⟨a1, a2, _⟩ | ⟨_, b2, _⟩
    · have h1 := hpred (y k) (t k) (hrad k)
      have h2 : 0 ≤ γ * G (y k) := mul_nonneg hγ.le (hG _)
      have h3 : c * pred (y k) (t k) ≤ 0 := mul_nonpos_of_nonneg_of_nonpos hc.le (by linarith)
      show f (y (k + 1)) ≤ f (y k)
      rw [a2]; linarith
    · show f (y (k + 1)) ≤ f (y k)
      rw [b2]
  have hprog : ∀ k, ∃ a, k ≤ a ∧ (c * γ) * G (y k) ≤ f (y a) - f (y (a + 1)) := by
    intro k
    obtain ⟨j, h1, h2, h3, _⟩ := R.progress hl0 hl1 k τ hτ (hacc k)
    refine ⟨k + j, Nat.le_add_right _ _, ?_⟩
    rw [h1, h3]
    have h4 := mul_le_mul_of_nonneg_left (hpred (y k) (t (k + j)) (hrad _)) hc.le
    nlinarith
  obtain ⟨s1, s2⟩ := settle (fun k => f (y k)) (fun k => G (y k)) m (c * γ) hanti (fun k => hm _) (by positivity)
    (fun k => hG _) hprog
  refine ⟨s1, s2, fun K => ?_⟩
  obtain ⟨j, h1, h2, h3, _⟩ := R.progress hl0 hl1 K τ hτ (hacc K)
  exact ⟨K + j, Nat.le_add_right _ _, by rw [h1]; exact h2, by rw [h1]; exact h3⟩

/-- The same if only trials of radius between `min (t 0) (l * τ)` and `τ` are known to be taken. -/
theorem TrustRun.settles_between (R : TrustRun f trial pred c l h y t) (hc : 0 < c) (hl0 : 0 < l) (hl1 : l < 1) (hh : 1 ≤ h)
    (τ : ℝ) (hτ : 0 < τ)
    (hacc : ∀ k s, min (t 0) (l * τ) ≤ s → s ≤ τ → f (trial (y k) s) - f (y k) ≤ c * pred (y k) s)
    (m : ℝ) (hm : ∀ x, m ≤ f x) (G : X → ℝ) (hG : ∀ x, 0 ≤ G x) (γ : ℝ) (hγ : 0 < γ)
    (hpred : ∀ x s, min (t 0) (l * τ) ≤ s → pred x s ≤ -(γ * G x)) :
    Tendsto (fun k => G (y k)) atTop (𝓝 0) ∧ Tendsto (fun k => f (y k) - f (y (k + 1))) atTop (𝓝 0) ∧
    (∀ k, min (t 0) (l * τ) ≤ t k) ∧
    ∀ K, ∃ k, K ≤ k ∧ f (trial (y k) (t k)) - f (y k) ≤ c * pred (y k) (t k) ∧ y (k + 1) = trial (y k) (t k) := by
  have hrad : ∀ k, min (t 0) (l * τ) ≤ t k := by
    intro k
    induction k with
    | zero => exact min_le_left _ _
    | succ k ih =>
      have h0 := R.pos k
      rcases R.rule k with ⟨_, _, a3⟩ | ⟨b1, _, b3⟩
      · rcases a3 with a3 | a3
        · rw [a3]; nlinarith
        · rw [a3]; exact ih
      · have hlt : τ < t k := by
          by_contra hle
          exact b1 (hacc k _ ih (not_lt.1 hle))
        rw [b3]
        exact (min_le_right _ _).trans (mul_le_mul_of_nonneg_left hlt.le hl0.le)
  have hmin0 : 0 < min (t 0) (l * τ) := lt_min (R.pos 0) (mul_pos hl0 hτ)
  have hpr : ∀ K, ∃ j, y (K + j) = y K ∧ f (trial (y K) (t (K + j))) - f (y K) ≤ c * pred (y K) (t (K + j)) ∧
      y (K + j + 1) = trial (y K) (t (K + j)) := by
    intro K
    by_contra hno
    push Not at hno
    have hgeo : ∀ j, y (K + j) = y K ∧ t (K + j) = l ^ j * t K := by
      intro j
      induction j with
      | zero => simp
      | succ j ih =>
        obtain ⟨h1, h2⟩ := ih
        rcases R.rule (K + j) with ⟨a1, a2, _⟩ | ⟨_, b2, b3⟩
        · rw [h1] at a1 a2
          exact absurd a2 (hno j h1 a1)
        · refine ⟨by rw [← h1]; exact b2, ?_⟩
          have : t (K + (j + 1)) = l * t (K + j) := b3
          rw [this, h2, pow_succ]; ring
    have hz : Tendsto (fun j : Nat => l ^ j * t K) atTop (𝓝 0) := by
      simpa using (tendsto_pow_atTop_nhds_zero_of_lt_one hl0.le hl1).mul_const (t K)
    obtain ⟨j, hj⟩ := (hz.eventually (gt_mem_nhds hmin0)).exists
    have h1 := hrad (K + j)
    rw [(hgeo j).2] at h1
    exact absurd hj (not_lt.2 h1)
  have hanti : Antitone fun k => f (y k) := antitone_nat_of_succ_le fun k => by
    rcases R.rule k with ⟨a1, a2, _⟩ | ⟨_, b2, _⟩
    · have h1 := hpred (y k) (t k) (hrad k)
      have h2 : 0 ≤ γ * G (y k) := mul_nonneg hγ.le (hG _)
      have h3 : c * pred (y k) (t k) ≤ 0 := mul_nonpos_of_nonneg_of_nonpos hc.le (by linarith)
      show f (y (k + 1)) ≤ f (y k)
      rw [a2]; linarith
    · show f (y (k + 1)) ≤ f (y k)
      rw [b2]
  have hprog : ∀ k, ∃ a, k ≤ a ∧ (c * γ) * G (y k) ≤ f (y a) - f (y (a + 1)) := by
    intro k
    obtain ⟨j, h1, h2, h3⟩ := hpr k
    refine ⟨k + j, Nat.le_add_right _ _, ?_⟩
    rw [h1, h3]
    have h4 := mul_le_mul_of_nonneg_left (hpred (y k) (t (k + j)) (hrad _)) hc.le
    nlinarith
  obtain ⟨s1, s2⟩ := settle (fun k => f (y k)) (fun k => G (y k)) m (c * γ) hanti (fun k => hm _) (by positivity)
    (fun k => hG _) hprog
  refine ⟨s1, s2, hrad, fun K => ?_⟩
  obtain ⟨j, h1, h2, h3⟩ := hpr K
  exact ⟨K + j, Nat.le_add_right _ _, by rw [h1]; exact h2, by rw [h1]; exact h3⟩

end

section
variable {ι κ A DS St Out : Type} [Fintype κ] {S : Solver (ι → ℝ) Out A St Unit}
  {fn : (ι → ℝ) → Out × A} {obj : (ι → ℝ) → ℝ} {desc : Descent ι κ DS} {v : View ι κ A ℝ DS St}
  {Good : (ι → ℝ) → FnInfo ι κ → Prop} {c : TrustRegion.Cfg ℝ} {acc : FnInfo ι κ → Bool}
  {pred : (ι → ℝ) → FnInfo ι κ → ℝ}

/-- After the first step a trial point is taken exactly if the change of the objective is at most `low_cutoff` times the
predicted change. -/
theorem tr_ask (L : Laws S fn obj (TrustRegion.search c acc pred) desc v Good)
    (aux0 : A) (y0 : ι → ℝ) (st0 : St) (hi : S.init fn y0 = .ok st0) (k : Nat) :
    let y := iterateAt S fn aux0 y0 st0 (k + 1)
    let st := stateAt S fn aux0 y0 st0 (k + 1)
    (v.ask (TrustRegion.search c acc pred) y st).2.1 = true ↔
      obj (v.yEval st) - obj y ≤ c.lowCutoff * pred (fun i => v.yEval st i - y i) (v.fInfo st) := by
  intro y st
  have hstored := stored L (tr_first c acc pred) aux0 y0 st0 hi k
  have hf := first_at L aux0 y0 st0 k
  have hask : v.ask (TrustRegion.search c acc pred) y st = (TrustRegion.search c acc pred).step false y (v.yEval st)
      (v.fInfo st) (v.trial (v.yEval st)) (v.ss st) := by
    show (TrustRegion.search c acc pred).step (v.first st) _ _ _ _ _ = _
    rw [show v.first st = false from hf]
  have T := (tr_step c acc pred y (v.yEval st) (v.fInfo st) (v.trial (v.yEval st)) (v.ss st)).2
  rw [← hask] at T
  rw [L.trial, L.good _ _ hstored.1] at T
  rcases T with ⟨h1, h2, _⟩ | ⟨h1, h2, _⟩ | ⟨h1, h2, _⟩
  · exact ⟨fun _ => h1, fun _ => h2⟩
  · exact ⟨fun _ => h1, fun _ => h2⟩
  · refine ⟨fun h => ?_, fun h => absurd h h1⟩
    rw [h2] at h; cases h

end

end Verif.SearchLoop
