import Verif.Lemmas.Converge

/-!
Rates of convergence of backtracking runs: proof devices.
-/

namespace Verif.SearchLoop

open Verif Verif.Spec

variable {ι κ A DS St Out : Type} [Fintype ι] [Fintype κ] {S : Solver (ι → ℝ) Out A St Unit}
  {fn : (ι → ℝ) → Out × A} {obj : (ι → ℝ) → ℝ}
  {a : Armijo.Cfg ℝ} {desc : Descent ι κ DS} {v : View ι κ A ℝ DS St}
  {Good : (ι → ℝ) → FnInfo ι κ → Prop} {G : (ι → ℝ) → (ι → ℝ)}

/-- Backtracking along directions that stay related to the gradient from step `K` on, when step sizes have been at least `tmin`:
the objective never increases, and whenever `q` is so large that `stepInit * decreaseFactor ^ q < tmin`, some trial among `q` is
accepted and gains in proportion to the squared gradient. -/
theorem armijo_progress (L : Laws S fn obj (Armijo.search a) desc v Good)
    (hG : ∀ y i, Good y i → i.grad? = some (G y))
    (aux0 : A) (y0 : ι → ℝ) (st0 : St) (hi : S.init fn y0 = .ok st0)
    (hd0 : 0 < a.decreaseFactor) (hd1 : a.decreaseFactor < 1) (hs0 : 0 < a.slope) (hs1 : a.slope < 1)
    (hi0 : 0 < a.stepInit) (Lip M σ ρ : ℝ) (hσ : 0 < σ) (hM0 : 0 < M) (hLip : 0 ≤ Lip) (hM : Lip * ρ ≤ M)
    (hsmooth : ∀ y z, obj z ≤ obj y + treeDot (G y) (fun i => z i - y i) + Lip / 2 * sumSquares fun i => z i - y i)
    (hdir : ∀ k, ∃ p : ι → ℝ,
      (∀ t, (desc.step t (v.ds (stateAt S fn aux0 y0 st0 (k + 1)))).1 = fun c => t * p c) ∧
      treeDot (G (iterateAt S fn aux0 y0 st0 (k + 1))) p ≤ -(σ * sumSquares (G (iterateAt S fn aux0 y0 st0 (k + 1)))) ∧
      sumSquares p ≤ ρ * sumSquares (G (iterateAt S fn aux0 y0 st0 (k + 1))))
    (tmin : ℝ) (htm : tmin = min a.stepInit (a.decreaseFactor * (2 * (1 - a.slope) * σ / M)))
    (q : ℕ) (hq : a.stepInit * a.decreaseFactor ^ q < tmin) :
    let Y := iterateAt S fn aux0 y0 st0
    (∀ k, obj (Y (k + 2)) ≤ obj (Y (k + 1))) ∧
    (∀ k, sumSquares (fun i => Y (k + 2) i - Y (k + 1) i) ≤ a.stepInit ^ 2 * (ρ * sumSquares (G (Y (k + 1))))) ∧
    ∀ k, ∃ j < q, Y (k + j + 1) = Y (k + 1) ∧
      (v.ask (Armijo.search a) (Y (k + j + 1)) (stateAt S fn aux0 y0 st0 (k + j + 1))).2.1 = true ∧
      a.slope * tmin * σ * sumSquares (G (Y (k + 1))) ≤ obj (Y (k + 1)) - obj (Y (k + j + 2)) := by
  classical
  intro Y
  set T := fun k => v.ss (stateAt S fn aux0 y0 st0 (k + 1)) with hT
  choose p hp1 hp2 hp3 using hdir
  have hrun := armijo_run L hG aux0 y0 st0 hi
  have htrial : ∀ k, v.yEval (stateAt S fn aux0 y0 st0 (k + 1)) = fun c => Y (k + 1) c + T k * p k c := by
    intro k
    rw [armijo_trial L hG aux0 y0 st0 hi k, hp1]
  have hg0 : ∀ k, 0 ≤ sumSquares (G (Y (k + 1))) := fun k => Finset.sum_nonneg fun i _ => mul_self_nonneg _
  have hdot : ∀ k t, treeDot (G (Y (k + 1))) (fun i => (Y (k + 1) i + t * p k i) - Y (k + 1) i) =
      t * treeDot (G (Y (k + 1))) (p k) := by
    intro k t
    unfold treeDot
    rw [Finset.mul_sum]
    exact Finset.sum_congr rfl fun i _ => by ring
  have hsq : ∀ k t, sumSquares (fun i => (Y (k + 1) i + t * p k i) - Y (k + 1) i) = t ^ 2 * sumSquares (p k) := by
    intro k t
    unfold sumSquares
    rw [Finset.mul_sum]
    exact Finset.sum_congr rfl fun i _ => by ring
  set τ : ℝ := 2 * (1 - a.slope) * σ / M with hτ
  have hτ0 : 0 < τ := by
    have : 0 < 1 - a.slope := by linarith
    positivity
  have hshort : ∀ k, 0 ≤ T k → T k ≤ τ →
      ArmijoHolds a.slope obj (G (Y (k + 1))) (Y (k + 1)) (v.yEval (stateAt S fn aux0 y0 st0 (k + 1))) := by
    intro k h0 h1
    rw [htrial, ArmijoHolds, hdot]
    have hneg : treeDot (G (Y (k + 1))) (p k) ≤ 0 := (hp2 k).trans (neg_nonpos.2 (mul_nonneg hσ.le (hg0 k)))
    refine ⟨?_, mul_nonpos_of_nonneg_of_nonpos h0 hneg⟩
    have h2 := hsmooth (Y (k + 1)) (fun c => Y (k + 1) c + T k * p k c)
    rw [hdot, hsq] at h2
    refine h2.trans ?_
    have h3 : Lip / 2 * (T k ^ 2 * sumSquares (p k)) ≤ T k * (T k * (M / 2) * sumSquares (G (Y (k + 1)))) := by
      have h4 : Lip * sumSquares (p k) ≤ M * sumSquares (G (Y (k + 1))) := by
        calc Lip * sumSquares (p k) ≤ Lip * (ρ * sumSquares (G (Y (k + 1)))) := mul_le_mul_of_nonneg_left (hp3 k) hLip
          _ = Lip * ρ * sumSquares (G (Y (k + 1))) := by ring
          _ ≤ M * sumSquares (G (Y (k + 1))) := mul_le_mul_of_nonneg_right hM (hg0 k)
      have : Lip / 2 * (T k ^ 2 * sumSquares (p k)) = T k ^ 2 / 2 * (Lip * sumSquares (p k)) := by ring
      rw [this]
      calc T k ^ 2 / 2 * (Lip * sumSquares (p k)) ≤ T k ^ 2 / 2 * (M * sumSquares (G (Y (k + 1)))) :=
            mul_le_mul_of_nonneg_left h4 (by positivity)
        _ = _ := by ring
    have h5 : T k * (M / 2) ≤ (1 - a.slope) * σ := by
      have := (le_div_iff₀ hM0).1 h1
      linarith
    have h6 : T k * (M / 2) * sumSquares (G (Y (k + 1))) ≤ (1 - a.slope) * -treeDot (G (Y (k + 1))) (p k) := by
      calc T k * (M / 2) * sumSquares (G (Y (k + 1))) ≤ (1 - a.slope) * σ * sumSquares (G (Y (k + 1))) :=
            mul_le_mul_of_nonneg_right h5 (hg0 k)
        _ = (1 - a.slope) * (σ * sumSquares (G (Y (k + 1)))) := by ring
        _ ≤ _ := mul_le_mul_of_nonneg_left (by linarith [hp2 k]) (by linarith)
    nlinarith [mul_le_mul_of_nonneg_left h6 h0]
  have htmin0 : 0 < tmin := by rw [htm]; exact lt_min hi0 (by positivity)
  have hrange : ∀ k, tmin ≤ T k ∧ T k ≤ a.stepInit := by
    intro k
    induction k with
    | zero =>
      have h := (armijo_start L aux0 y0 st0 hi).2.1
      have : T 0 = a.stepInit := h
      rw [this, htm]; exact ⟨min_le_left _ _, le_rfl⟩
    | succ k ih =>
      rcases (hrun k).2 with ⟨_, _, h⟩ | ⟨hn, _, h, _⟩
      · have : T (k + 1) = a.stepInit := h
        rw [this, htm]; exact ⟨min_le_left _ _, le_rfl⟩
      · have hk0 : 0 ≤ T k := htmin0.le.trans ih.1
        have hlt : τ < T k := by
          by_contra hle
          exact hn (hshort k hk0 (not_lt.1 hle))
        have : T (k + 1) = a.decreaseFactor * T k := h
        rw [this]
        refine ⟨?_, ?_⟩
        · rw [htm]; exact (min_le_right _ _).trans (mul_le_mul_of_nonneg_left hlt.le hd0.le)
        · nlinarith [ih.2]
  have hgain : ∀ k, ArmijoHolds a.slope obj (G (Y (k + 1))) (Y (k + 1)) (v.yEval (stateAt S fn aux0 y0 st0 (k + 1))) →
      a.slope * tmin * σ * sumSquares (G (Y (k + 1))) ≤ obj (Y (k + 1)) - obj (Y (k + 2)) := by
    intro k hk
    have hy : Y (k + 2) = v.yEval (stateAt S fn aux0 y0 st0 (k + 1)) := by
      rcases (hrun k).2 with ⟨_, h, _⟩ | ⟨hn, _⟩
      · exact h
      · exact absurd hk hn
    rw [hy]
    rw [htrial, ArmijoHolds, hdot] at hk
    rw [htrial]
    have h1 : T k * treeDot (G (Y (k + 1))) (p k) ≤ -(tmin * (σ * sumSquares (G (Y (k + 1))))) := by
      have h2 : 0 ≤ σ * sumSquares (G (Y (k + 1))) := mul_nonneg hσ.le (hg0 k)
      calc T k * treeDot (G (Y (k + 1))) (p k) ≤ T k * -(σ * sumSquares (G (Y (k + 1)))) :=
            mul_le_mul_of_nonneg_left (hp2 k) (htmin0.le.trans (hrange k).1)
        _ ≤ tmin * -(σ * sumSquares (G (Y (k + 1)))) :=
            mul_le_mul_of_nonpos_right (hrange k).1 (neg_nonpos.2 h2)
        _ = _ := by ring
    have h3 := mul_le_mul_of_nonneg_left h1 hs0.le
    have h4 := hk.1
    nlinarith
  refine ⟨fun k => ?_, fun k => ?_, fun k => ?_⟩
  · rcases (hrun k).2 with ⟨h, hy, _⟩ | ⟨_, hy, _⟩
    · have h1 := hgain k h
      have h2 : 0 ≤ a.slope * tmin * σ * sumSquares (G (Y (k + 1))) := by have := hg0 k; positivity
      linarith
    · have hy' : Y (k + 2) = Y (k + 1) := hy
      rw [hy']
  · rcases (hrun k).2 with ⟨_, hy, _⟩ | ⟨_, hy, _⟩
    · have hy' : Y (k + 2) = v.yEval (stateAt S fn aux0 y0 st0 (k + 1)) := hy
      rw [hy', htrial, hsq]
      have h1 : T k ^ 2 ≤ a.stepInit ^ 2 := pow_le_pow_left₀ (htmin0.le.trans (hrange k).1) (hrange k).2 2
      have hps : 0 ≤ sumSquares (p k) := Finset.sum_nonneg fun i _ => mul_self_nonneg _
      calc T k ^ 2 * sumSquares (p k) ≤ a.stepInit ^ 2 * sumSquares (p k) := mul_le_mul_of_nonneg_right h1 hps
        _ ≤ _ := mul_le_mul_of_nonneg_left (hp3 k) (by positivity)
    · have hy' : Y (k + 2) = Y (k + 1) := hy
      rw [hy']
      have : sumSquares (fun i => Y (k + 1) i - Y (k + 1) i) = 0 := by simp [sumSquares]
      rw [this]
      have h1 : 0 ≤ ρ * sumSquares (G (Y (k + 1))) :=
        (Finset.sum_nonneg fun i _ => mul_self_nonneg _ : 0 ≤ sumSquares (p k)).trans (hp3 k)
      positivity
  · -- some trial among `q` is accepted
    have hex : ∃ j, j < q ∧ ArmijoHolds a.slope obj (G (Y (k + j + 1))) (Y (k + j + 1))
        (v.yEval (stateAt S fn aux0 y0 st0 (k + j + 1))) := by
      by_contra hno
      simp only [not_exists, not_and] at hno
      have hgeo : ∀ j, j ≤ q → T (k + j) = a.decreaseFactor ^ j * T k := by
        intro j
        induction j with
        | zero => intro _; simp
        | succ j ih =>
          intro hj
          rcases (hrun (k + j)).2 with ⟨h, _⟩ | ⟨_, _, h, _⟩
          · exact absurd h (hno j (by omega))
          · have : T (k + (j + 1)) = a.decreaseFactor * T (k + j) := h
            rw [this, ih (by omega), pow_succ]; ring
      have h1 := (hrange (k + q)).1
      rw [hgeo q le_rfl] at h1
      have h2 : a.decreaseFactor ^ q * T k ≤ a.decreaseFactor ^ q * a.stepInit :=
        mul_le_mul_of_nonneg_left (hrange k).2 (by positivity)
      linarith
    have hjq : Nat.find hex < q := (Nat.find_spec hex).1
    have hsame : ∀ j, j ≤ Nat.find hex → Y (k + j + 1) = Y (k + 1) := by
      intro j
      induction j with
      | zero => intro _; rfl
      | succ j ih =>
        intro hj
        have hnot := Nat.find_min hex (Nat.lt_of_succ_le hj)
        rcases (hrun (k + j)).2 with ⟨h, _⟩ | ⟨_, hy, _⟩
        · exact absurd ⟨by omega, h⟩ hnot
        · have hy' : Y (k + (j + 1) + 1) = Y (k + j + 1) := hy
          rw [hy', ih (Nat.le_of_succ_le hj)]
    have hs := hsame _ le_rfl
    refine ⟨Nat.find hex, hjq, hs, (armijo_ask L hG aux0 y0 st0 hi _).2 (Nat.find_spec hex).2, ?_⟩
    have h := hgain _ (Nat.find_spec hex).2
    rw [hs] at h
    exact h

/-- If moreover the squared gradient is at least `2 μ` times the distance to the bound `m` from below (as for strongly convex
functions): every `q` steps the distance shrinks by a constant factor. -/
theorem block_rate (F : ℕ → ℝ) (N : ℕ → ℝ) (m μ c : ℝ) (q : ℕ) (hmono : ∀ k, F (k + 1) ≤ F k) (hc : 0 ≤ c)
    (hPL : ∀ k, 2 * μ * (F k - m) ≤ N k) (h : ∀ k, ∃ j < q, c * N k ≤ F k - F (k + j + 1)) (k : ℕ) :
    F (k + q) - m ≤ (1 - 2 * μ * c) * (F k - m) := by
  obtain ⟨j, hj, hgain⟩ := h k
  have hanti : Antitone F := antitone_nat_of_succ_le hmono
  have h1 : F (k + q) ≤ F (k + j + 1) := hanti (by omega)
  have h2 := mul_le_mul_of_nonneg_left (hPL k) hc
  nlinarith

end Verif.SearchLoop
