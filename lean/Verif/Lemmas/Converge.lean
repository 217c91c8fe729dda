import Verif.Lemmas.SearchLoop

/-!
Global convergence of search-based runs: proof devices.
-/

namespace Verif.SearchLoop

open Verif Verif.Spec Filter Topology

/-- If a sequence bounded below decreases by `c * G k` at some index after every `k`, then `G` tends to zero. -/
theorem settle (F G : Nat → ℝ) (m c : ℝ) (hF : Antitone F) (hm : ∀ k, m ≤ F k) (hc : 0 < c) (hG : ∀ k, 0 ≤ G k)
    (h : ∀ k, ∃ a, k ≤ a ∧ c * G k ≤ F a - F (a + 1)) :
    Tendsto G atTop (𝓝 0) ∧ Tendsto (fun k => F k - F (k + 1)) atTop (𝓝 0) := by
  have hlim := tendsto_atTop_ciInf hF ⟨m, by rintro _ ⟨k, rfl⟩; exact hm k⟩
  have hd : Tendsto (fun k => F k - F (k + 1)) atTop (𝓝 0) := by
    have := hlim.sub (hlim.comp (tendsto_add_atTop_nat 1))
    simpa using this
  refine ⟨?_, hd⟩
  rw [Metric.tendsto_atTop] at hd ⊢
  intro ε hε
  obtain ⟨N, hN⟩ := hd (c * ε) (by positivity)
  refine ⟨N, fun k hk => ?_⟩
  obtain ⟨a, hka, ha⟩ := h k
  have h1 := hN a (hk.trans hka)
  rw [Real.dist_eq, sub_zero] at h1 ⊢
  rw [abs_of_nonneg (hG k)]
  have h2 := lt_of_le_of_lt (ha.trans (le_abs_self _)) h1
  exact lt_of_mul_lt_mul_left h2 hc.le

variable {ι κ A DS St Out : Type} [Fintype ι] [Fintype κ] {S : Solver (ι → ℝ) Out A St Unit}
  {fn : (ι → ℝ) → Out × A} {obj : (ι → ℝ) → ℝ}
  {a : Armijo.Cfg ℝ} {desc : Descent ι κ DS} {v : View ι κ A ℝ DS St}
  {Good : (ι → ℝ) → FnInfo ι κ → Prop} {G : (ι → ℝ) → (ι → ℝ)}

/-- After the first step, a trial point is accepted exactly if Armijo's condition holds. -/
theorem armijo_ask (L : Laws S fn obj (Armijo.search a) desc v Good) (hG : ∀ y i, Good y i → i.grad? = some (G y))
    (aux0 : A) (y0 : ι → ℝ) (st0 : St) (hi : S.init fn y0 = .ok st0) (k : Nat) :
    let y := iterateAt S fn aux0 y0 st0 (k + 1)
    let st := stateAt S fn aux0 y0 st0 (k + 1)
    (v.ask (Armijo.search a) y st).2.1 = true ↔ ArmijoHolds a.slope obj (G y) y (v.yEval st) := by
  intro y st
  have hstored := stored L (armijo_first a) aux0 y0 st0 hi k
  have hf := first_at L aux0 y0 st0 k
  have hask : v.ask (Armijo.search a) y st = (Armijo.search a).step false y (v.yEval st) (v.fInfo st)
      (v.trial (v.yEval st)) (v.ss st) := by
    show (Armijo.search a).step (v.first st) _ _ _ _ _ = _
    rw [show v.first st = false from hf]
  rw [hask]
  exact (armijo_step a y (v.yEval st) (v.fInfo st) (v.trial (v.yEval st)) (v.ss st) obj (G y)
    (L.good _ _ hstored.1) (L.trial _) (hG _ _ hstored.1)).1

/-- The point tried next, for every step from the first on. -/
theorem armijo_trial (L : Laws S fn obj (Armijo.search a) desc v Good)
    (hG : ∀ y i, Good y i → i.grad? = some (G y))
    (aux0 : A) (y0 : ι → ℝ) (st0 : St) (hi : S.init fn y0 = .ok st0) (k : Nat) :
    v.yEval (stateAt S fn aux0 y0 st0 (k + 1)) = fun c => iterateAt S fn aux0 y0 st0 (k + 1) c +
      (desc.step (v.ss (stateAt S fn aux0 y0 st0 (k + 1))) (v.ds (stateAt S fn aux0 y0 st0 (k + 1)))).1 c := by
  cases k with
  | zero =>
    have := armijo_start L aux0 y0 st0 hi
    rw [this.1, this.2.1]
    exact this.2.2
  | succ k => exact (armijo_run L hG aux0 y0 st0 hi k).1

/-- Backtracking along directions that stay related to the gradient: the gradients tend to zero, the iterates and the
objective settle, and steps are accepted again and again. -/
theorem armijo_converges (L : Laws S fn obj (Armijo.search a) desc v Good)
    (hG : ∀ y i, Good y i → i.grad? = some (G y))
    (aux0 : A) (y0 : ι → ℝ) (st0 : St) (hi : S.init fn y0 = .ok st0)
    (hd0 : 0 < a.decreaseFactor) (hd1 : a.decreaseFactor < 1) (hs0 : 0 < a.slope) (hs1 : a.slope < 1)
    (hi0 : 0 < a.stepInit) (Lip m σ ρ : ℝ) (hσ : 0 < σ) (hρ : 0 < ρ)
    (hsmooth : ∀ k z, let y := iterateAt S fn aux0 y0 st0 (k + 1)
      obj z ≤ obj y + treeDot (G y) (fun i => z i - y i) + Lip / 2 * sumSquares fun i => z i - y i)
    (hlow : ∀ y, m ≤ obj y)
    (hdir : ∀ k, ∃ p : ι → ℝ,
      (∀ t, (desc.step t (v.ds (stateAt S fn aux0 y0 st0 (k + 1)))).1 = fun c => t * p c) ∧
      treeDot (G (iterateAt S fn aux0 y0 st0 (k + 1))) p ≤ -(σ * sumSquares (G (iterateAt S fn aux0 y0 st0 (k + 1)))) ∧
      sumSquares p ≤ ρ * sumSquares (G (iterateAt S fn aux0 y0 st0 (k + 1)))) :
    Tendsto (fun k => sumSquares (G (iterateAt S fn aux0 y0 st0 k))) atTop (𝓝 0) ∧
    Tendsto (fun k => obj (iterateAt S fn aux0 y0 st0 k) - obj (iterateAt S fn aux0 y0 st0 (k + 1))) atTop (𝓝 0) ∧
    Tendsto (fun k => sumSquares fun i => iterateAt S fn aux0 y0 st0 (k + 1) i - iterateAt S fn aux0 y0 st0 k i) atTop
      (𝓝 0) ∧
    ∀ K, ∃ k, K ≤ k ∧ (v.ask (Armijo.search a) (iterateAt S fn aux0 y0 st0 (k + 1))
      (stateAt S fn aux0 y0 st0 (k + 1))).2.1 = true := by
  classical
  set Y := iterateAt S fn aux0 y0 st0 with hY
  set T := fun k => v.ss (stateAt S fn aux0 y0 st0 (k + 1)) with hT
  choose p hp1 hp2 hp3 using hdir
  have hrun := armijo_run L hG aux0 y0 st0 hi
  have htrial : ∀ k, v.yEval (stateAt S fn aux0 y0 st0 (k + 1)) = fun c => Y (k + 1) c + T k * p k c := by
    intro k
    rw [armijo_trial L hG aux0 y0 st0 hi k, hp1]
  have hg0 : ∀ k, 0 ≤ sumSquares (G (Y (k + 1))) := fun k => Finset.sum_nonneg fun i _ => mul_self_nonneg _
  have hdot : ∀ k t, treeDot (G (Y (k + 1))) (fun i => (Y (k + 1) i + t * p k i) - Y (k + 1) i) =
      t * treeDot (G (Y (k + 1))) (p k) := by
    intro k t
    unfold treeDot
    rw [Finset.mul_sum]
    exact Finset.sum_congr rfl fun i _ => by ring
  have hsq : ∀ k t, sumSquares (fun i => (Y (k + 1) i + t * p k i) - Y (k + 1) i) = t ^ 2 * sumSquares (p k) := by
    intro k t
    unfold sumSquares
    rw [Finset.mul_sum]
    exact Finset.sum_congr rfl fun i _ => by ring
  -- short steps are accepted
  set M : ℝ := |Lip| * ρ + 1 with hM
  have hM0 : 0 < M := by positivity
  set τ : ℝ := 2 * (1 - a.slope) * σ / M with hτ
  have hτ0 : 0 < τ := by
    have : 0 < 1 - a.slope := by linarith
    positivity
  have hshort : ∀ k, 0 ≤ T k → T k ≤ τ →
      ArmijoHolds a.slope obj (G (Y (k + 1))) (Y (k + 1)) (v.yEval (stateAt S fn aux0 y0 st0 (k + 1))) := by
    intro k h0 h1
    rw [htrial, ArmijoHolds, hdot]
    have hneg : treeDot (G (Y (k + 1))) (p k) ≤ 0 := (hp2 k).trans (neg_nonpos.2 (mul_nonneg hσ.le (hg0 k)))
    refine ⟨?_, mul_nonpos_of_nonneg_of_nonpos h0 hneg⟩
    have h2 := hsmooth k (fun c => Y (k + 1) c + T k * p k c)
    dsimp only at h2
    rw [hdot, hsq] at h2
    refine h2.trans ?_
    have h3 : Lip / 2 * (T k ^ 2 * sumSquares (p k)) ≤ T k * (T k * (M / 2) * sumSquares (G (Y (k + 1)))) := by
      have hps : 0 ≤ sumSquares (p k) := Finset.sum_nonneg fun i _ => mul_self_nonneg _
      have h4 : Lip * sumSquares (p k) ≤ M * sumSquares (G (Y (k + 1))) := by
        calc Lip * sumSquares (p k) ≤ |Lip| * sumSquares (p k) := mul_le_mul_of_nonneg_right (le_abs_self _) hps
          _ ≤ |Lip| * (ρ * sumSquares (G (Y (k + 1)))) := mul_le_mul_of_nonneg_left (hp3 k) (abs_nonneg _)
          _ ≤ M * sumSquares (G (Y (k + 1))) := by rw [hM]; nlinarith [hg0 k]
      have : Lip / 2 * (T k ^ 2 * sumSquares (p k)) = T k ^ 2 / 2 * (Lip * sumSquares (p k)) := by ring
      rw [this]
      calc T k ^ 2 / 2 * (Lip * sumSquares (p k)) ≤ T k ^ 2 / 2 * (M * sumSquares (G (Y (k + 1)))) :=
            mul_le_mul_of_nonneg_left h4 (by positivity)
        _ = _ := by ring
    have h5 : T k * (M / 2) ≤ (1 - a.slope) * σ := by
      have := (le_div_iff₀ hM0).1 h1
      linarith
    have h6 : T k * (M / 2) * sumSquares (G (Y (k + 1))) ≤ (1 - a.slope) * -treeDot (G (Y (k + 1))) (p k) := by
      calc T k * (M / 2) * sumSquares (G (Y (k + 1))) ≤ (1 - a.slope) * σ * sumSquares (G (Y (k + 1))) :=
            mul_le_mul_of_nonneg_right h5 (hg0 k)
        _ = (1 - a.slope) * (σ * sumSquares (G (Y (k + 1)))) := by ring
        _ ≤ _ := mul_le_mul_of_nonneg_left (by linarith [hp2 k]) (by linarith)
    nlinarith [mul_le_mul_of_nonneg_left h6 h0]
  -- step sizes stay in a fixed range
  set tmin : ℝ := min a.stepInit (a.decreaseFactor * τ) with htmin
  have htmin0 : 0 < tmin := lt_min hi0 (by positivity)
  have hrange : ∀ k, tmin ≤ T k ∧ T k ≤ a.stepInit := by
    intro k
    induction k with
    | zero =>
      have h := (armijo_start L aux0 y0 st0 hi).2.1
      have : T 0 = a.stepInit := h
      rw [this]; exact ⟨min_le_left _ _, le_rfl⟩
    | succ k ih =>
      rcases (hrun k).2 with ⟨_, _, h⟩ | ⟨hn, _, h, _⟩
      · have : T (k + 1) = a.stepInit := h
        rw [this]; exact ⟨min_le_left _ _, le_rfl⟩
      · have hk0 : 0 ≤ T k := htmin0.le.trans ih.1
        have hlt : τ < T k := by
          by_contra hle
          exact hn (hshort k hk0 (not_lt.1 hle))
        have : T (k + 1) = a.decreaseFactor * T k := h
        rw [this]
        refine ⟨(min_le_right _ _).trans (mul_le_mul_of_nonneg_left hlt.le hd0.le), ?_⟩
        nlinarith [ih.2]
  -- acceptance again and again
  have hoften : ∀ K, ∃ k, K ≤ k ∧
      ArmijoHolds a.slope obj (G (Y (k + 1))) (Y (k + 1)) (v.yEval (stateAt S fn aux0 y0 st0 (k + 1))) := by
    intro K
    by_contra hno
    simp only [not_exists, not_and] at hno
    have hgeo : ∀ j, T (K + j) = a.decreaseFactor ^ j * T K := by
      intro j
      induction j with
      | zero => simp
      | succ j ih =>
        rcases (hrun (K + j)).2 with ⟨h, _⟩ | ⟨_, _, h, _⟩
        · exact absurd h (hno (K + j) (Nat.le_add_right _ _))
        · have : T (K + (j + 1)) = a.decreaseFactor * T (K + j) := h
          rw [this, ih, pow_succ]; ring
    have hz : Tendsto (fun j : Nat => a.decreaseFactor ^ j * T K) atTop (𝓝 0) := by
      simpa using (tendsto_pow_atTop_nhds_zero_of_lt_one hd0.le hd1).mul_const (T K)
    obtain ⟨j, hj⟩ := (hz.eventually (gt_mem_nhds htmin0)).exists
    rw [← hgeo j] at hj
    exact absurd (hrange (K + j)).1 (not_le.2 hj)
  -- what an accepted step gains
  have hgain : ∀ k, ArmijoHolds a.slope obj (G (Y (k + 1))) (Y (k + 1)) (v.yEval (stateAt S fn aux0 y0 st0 (k + 1))) →
      a.slope * tmin * σ * sumSquares (G (Y (k + 1))) ≤ obj (Y (k + 1)) - obj (Y (k + 2)) := by
    intro k hk
    have hy : Y (k + 2) = v.yEval (stateAt S fn aux0 y0 st0 (k + 1)) := by
      rcases (hrun k).2 with ⟨_, h, _⟩ | ⟨hn, _⟩
      · exact h
      · exact absurd hk hn
    rw [hy]
    rw [htrial, ArmijoHolds, hdot] at hk
    rw [htrial]
    have h1 : T k * treeDot (G (Y (k + 1))) (p k) ≤ -(tmin * (σ * sumSquares (G (Y (k + 1))))) := by
      have h2 : 0 ≤ σ * sumSquares (G (Y (k + 1))) := mul_nonneg hσ.le (hg0 k)
      calc T k * treeDot (G (Y (k + 1))) (p k) ≤ T k * -(σ * sumSquares (G (Y (k + 1)))) :=
            mul_le_mul_of_nonneg_left (hp2 k) (htmin0.le.trans (hrange k).1)
        _ ≤ tmin * -(σ * sumSquares (G (Y (k + 1)))) :=
            mul_le_mul_of_nonpos_right (hrange k).1 (neg_nonpos.2 h2)
        _ = _ := by ring
    have h3 := mul_le_mul_of_nonneg_left h1 hs0.le
    have h4 := hk.1
    nlinarith
  have hmono : ∀ k, obj (Y (k + 2)) ≤ obj (Y (k + 1)) := by
    intro k
    rcases (hrun k).2 with ⟨h, hy, _⟩ | ⟨_, hy, _⟩
    · have h1 := hgain k h
      have h2 : 0 ≤ a.slope * tmin * σ * sumSquares (G (Y (k + 1))) := by have := hg0 k; positivity
      linarith
    · have hy' : Y (k + 2) = Y (k + 1) := hy
      rw [hy']
  have hnext : ∀ k, ∃ b, k ≤ b ∧
      a.slope * tmin * σ * sumSquares (G (Y (k + 1))) ≤ obj (Y (b + 1)) - obj (Y (b + 1 + 1)) := by
    intro k
    have hex : ∃ j, ArmijoHolds a.slope obj (G (Y (k + j + 1))) (Y (k + j + 1))
        (v.yEval (stateAt S fn aux0 y0 st0 (k + j + 1))) := by
      obtain ⟨b, hb, h⟩ := hoften k
      obtain ⟨j, rfl⟩ := Nat.exists_eq_add_of_le hb
      exact ⟨j, h⟩
    have hsame : ∀ j, j ≤ Nat.find hex → Y (k + j + 1) = Y (k + 1) := by
      intro j
      induction j with
      | zero => intro _; rfl
      | succ j ih =>
        intro hj
        have hnot := Nat.find_min hex (Nat.lt_of_succ_le hj)
        rcases (hrun (k + j)).2 with ⟨h, _⟩ | ⟨_, hy, _⟩
        · exact absurd h hnot
        · have hy' : Y (k + (j + 1) + 1) = Y (k + j + 1) := hy
          rw [hy', ih (Nat.le_of_succ_le hj)]
    refine ⟨k + Nat.find hex, Nat.le_add_right _ _, ?_⟩
    have h := hgain _ (Nat.find_spec hex)
    rw [← hsame _ le_rfl]
    exact h
  have hanti : Antitone fun k => obj (Y (k + 1)) := antitone_nat_of_succ_le hmono
  obtain ⟨hlim, hdrop⟩ := settle (fun k => obj (Y (k + 1))) (fun k => sumSquares (G (Y (k + 1)))) m
    (a.slope * tmin * σ) hanti (fun k => hlow _) (by positivity) hg0 hnext
  refine ⟨(tendsto_add_atTop_iff_nat 1).1 hlim, (tendsto_add_atTop_iff_nat (f := fun k => obj (Y k) - obj (Y (k + 1))) 1).1
    hdrop, ?_, ?_⟩
  · rw [← tendsto_add_atTop_iff_nat 1]
    have hup : Tendsto (fun k => a.stepInit ^ 2 * (ρ * sumSquares (G (Y (k + 1))))) atTop (𝓝 0) := by
      simpa using (hlim.const_mul ρ).const_mul (a.stepInit ^ 2)
    refine squeeze_zero (fun k => Finset.sum_nonneg fun i _ => mul_self_nonneg _) (fun k => ?_) hup
    rcases (hrun k).2 with ⟨_, hy, _⟩ | ⟨_, hy, _⟩
    · have hy' : Y (k + 1 + 1) = v.yEval (stateAt S fn aux0 y0 st0 (k + 1)) := hy
      rw [hy', htrial, hsq]
      have h1 : T k ^ 2 ≤ a.stepInit ^ 2 := pow_le_pow_left₀ (htmin0.le.trans (hrange k).1) (hrange k).2 2
      have hps : 0 ≤ sumSquares (p k) := Finset.sum_nonneg fun i _ => mul_self_nonneg _
      calc T k ^ 2 * sumSquares (p k) ≤ a.stepInit ^ 2 * sumSquares (p k) := mul_le_mul_of_nonneg_right h1 hps
        _ ≤ _ := mul_le_mul_of_nonneg_left (hp3 k) (by positivity)
    · have hy' : Y (k + 1 + 1) = Y (k + 1) := hy
      rw [hy']
      have : sumSquares (fun i => Y (k + 1) i - Y (k + 1) i) = 0 := by simp [sumSquares]
      rw [this]
      have := hg0 k
      positivity
  · intro K
    obtain ⟨k, hk, h⟩ := hoften K
    exact ⟨k, hk, (armijo_ask L hG aux0 y0 st0 hi k).2 h⟩

end Verif.SearchLoop
