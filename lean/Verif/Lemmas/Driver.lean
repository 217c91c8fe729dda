import Verif.Spec.Trace

namespace Verif.Driver
open Verif.Spec

variable {Y Out Aux St Stats : Type}

/-- The carry after `k` unconditional executions of the loop body. -/
theorem body_iterate (S : Solver Y Out Aux St Stats) (af : Y → Bool) (fn : Y → Out × Aux) (aux0 : Aux)
    (y0 : Y) (st0 : St) (k : Nat) :
    (body S af fn)^[k] (initCarry S af fn aux0 y0 st0) =
      { y := iterateAt S fn aux0 y0 st0 k, numSteps := k, state := stateAt S fn aux0 y0 st0 k,
        aux := auxAt S fn aux0 y0 st0 k, terminate := (verdictAt S fn aux0 y0 st0 k).1,
        result := if af (testedAt S fn aux0 y0 st0 k) then (verdictAt S fn aux0 y0 st0 k).2
          else .nonfinite } := by
  induction k with
  | zero => rfl
  | succ k ih =>
    rw [Function.iterate_succ_apply', ih]
    rfl

theorem cond_body_iterate (S : Solver Y Out Aux St Stats) (af : Y → Bool) (fn : Y → Out × Aux) (aux0 : Aux)
    (y0 : Y) (st0 : St) (k : Nat) :
    cond ((body S af fn)^[k] (initCarry S af fn aux0 y0 st0)) = true ↔
      Continues S af fn aux0 y0 st0 k := by
  rw [body_iterate]
  unfold cond Continues
  rcases h : verdictAt S fn aux0 y0 st0 k with ⟨t, r⟩
  cases h2 : af (testedAt S fn aux0 y0 st0 k) <;> simp

theorem whileLoop_spec {C : Type} (cond : C → Bool) (body : C → C) (n : Nat) (c : C) :
    ∃ k, k ≤ n ∧ whileLoop cond body n c = body^[k] c ∧ (∀ j, j < k → cond (body^[j] c) = true) ∧
      (k < n → cond (body^[k] c) = false) := by
  induction n generalizing c with
  | zero => exact ⟨0, le_refl _, rfl, by simp, by simp⟩
  | succ n ih =>
    unfold whileLoop
    cases hc : cond c with
    | false => exact ⟨0, Nat.zero_le _, by simp, by simp, by simp [hc]⟩
    | true =>
      obtain ⟨k, hk, he, hlt, hst⟩ := ih (body c)
      refine ⟨k + 1, by omega, by simpa [Function.iterate_succ_apply] using he, ?_, ?_⟩
      · intro j hj
        cases j with
        | zero => simpa using hc
        | succ j => rw [Function.iterate_succ_apply]; exact hlt j (by omega)
      · intro h; rw [Function.iterate_succ_apply]; exact hst (by omega)

theorem whileForever_spec {C : Type} (cond : C → Bool) (body : C → C) (c d : C) :
    whileForever cond body c = some d ↔
      ∃ k, d = body^[k] c ∧ (∀ j, j < k → cond (body^[j] c) = true) ∧ cond (body^[k] c) = false := by
  classical
  unfold whileForever
  constructor
  · intro h
    split at h
    · rename_i hex
      refine ⟨_, (Option.some.inj h).symm, ?_, ?_⟩
      · intro j hj
        have := Nat.find_min hex hj
        simpa using this
      · exact Nat.find_spec hex
    · cases h
  · rintro ⟨k, rfl, hlt, hk⟩
    have hex : ∃ n, cond (body^[n] c) = false := ⟨k, hk⟩
    rw [dif_pos hex]
    have hf : Nat.find hex = k := by
      rw [Nat.find_eq_iff]
      exact ⟨hk, fun n hn => by simp [hlt n hn]⟩
    rw [hf]

theorem whileForever_none {C : Type} (cond : C → Bool) (body : C → C) (c : C) :
    whileForever cond body c = none ↔ ∀ k, cond (body^[k] c) = true := by
  classical
  unfold whileForever
  split
  · rename_i h
    obtain ⟨n, hn⟩ := h
    simp only [reduceCtorEq, false_iff, not_forall]
    exact ⟨n, by simp [hn]⟩
  · rename_i h
    simp only [true_iff]
    intro k
    by_contra hk
    exact h ⟨k, by simpa using hk⟩

/-- Complete characterisation of `iterate` (all the driver properties are corollaries). -/
theorem iterate_eq_some_ok (S : Solver Y Out Aux St Stats) (af : Y → Bool) (fn : Y → Out × Aux) (aux0 : Aux)
    (y0 : Y) (st0 : St) (hinit : S.init fn y0 = .ok st0) (ms : Option Nat) (sol : Solution Y Aux St Stats) :
    iterate S af fn aux0 y0 ms = some (.ok sol) ↔
      ∃ k, (∀ j, j < k → Continues S af fn aux0 y0 st0 j) ∧
        ((¬ Continues S af fn aux0 y0 st0 k ∧ ∀ n, ms = some n → k ≤ n) ∨ ms = some k) ∧
        sol = package S fn ms ((body S af fn)^[k] (initCarry S af fn aux0 y0 st0)) := by
  unfold iterate
  rw [hinit]
  cases ms with
  | some n =>
    obtain ⟨k, hk, he, hlt, hst⟩ := whileLoop_spec cond (body S af fn) n (initCarry S af fn aux0 y0 st0)
    simp only [whileOpt, Option.map_some, Option.some.injEq, Except.ok.injEq]
    rw [he]
    constructor
    · rintro rfl
      refine ⟨k, fun j hj => (cond_body_iterate ..).1 (hlt j hj), ?_, rfl⟩
      rcases Nat.lt_or_eq_of_le hk with h | h
      · left
        refine ⟨?_, by rintro _ rfl; exact hk⟩
        rw [← cond_body_iterate]; simp [hst h]
      · right; exact h.symm
    · rintro ⟨k', hlt', hst', rfl⟩
      have : k = k' := by
        rcases Nat.lt_trichotomy k k' with h | h | h
        · exfalso
          have hkn : k < n := by
            rcases hst' with ⟨_, h2⟩ | h2
            · have := h2 n rfl; omega
            · omega
          have := hst hkn
          rw [(cond_body_iterate ..).2 (hlt' k h)] at this
          cases this
        · exact h
        · exfalso
          rcases hst' with ⟨h2, _⟩ | h2
          · exact h2 ((cond_body_iterate ..).1 (hlt k' h))
          · omega
      rw [this]
  | none =>
    simp only [whileOpt, Option.map_eq_some_iff, Except.ok.injEq]
    constructor
    · rintro ⟨c, hc, rfl⟩
      obtain ⟨k, rfl, hlt, hk⟩ := (whileForever_spec ..).1 hc
      refine ⟨k, fun j hj => (cond_body_iterate ..).1 (hlt j hj), Or.inl ⟨?_, by simp⟩, rfl⟩
      rw [← cond_body_iterate]; simp [hk]
    · rintro ⟨k, hlt, hst, rfl⟩
      refine ⟨_, (whileForever_spec ..).2 ⟨k, rfl, fun j hj => (cond_body_iterate ..).2 (hlt j hj), ?_⟩, rfl⟩
      rcases hst with ⟨h, _⟩ | h
      · rw [← cond_body_iterate] at h; simpa using h
      · cases h

theorem iterate_none (S : Solver Y Out Aux St Stats) (af : Y → Bool) (fn : Y → Out × Aux) (aux0 : Aux)
    (y0 : Y) (st0 : St) (hinit : S.init fn y0 = .ok st0) (ms : Option Nat) :
    iterate S af fn aux0 y0 ms = none ↔ ms = none ∧ ∀ k, Continues S af fn aux0 y0 st0 k := by
  unfold iterate
  rw [hinit]
  cases ms with
  | some n => simp [whileOpt]
  | none =>
    simp only [whileOpt, Option.map_eq_none_iff, true_and, whileForever_none]
    exact forall_congr' fun k => cond_body_iterate ..

theorem iterate_ne_error (S : Solver Y Out Aux St Stats) (af : Y → Bool) (fn : Y → Out × Aux) (aux0 : Aux)
    (y0 : Y) (st0 : St) (hinit : S.init fn y0 = .ok st0) (ms : Option Nat) (e : Err) :
    iterate S af fn aux0 y0 ms ≠ some (.error e) := by
  unfold iterate
  rw [hinit]
  simp

/-- With an infinite supply of `Continues` a finite budget `n` is used up entirely. -/
theorem iterate_init (S : Solver Y Out Aux St Stats) (af : Y → Bool) (fn : Y → Out × Aux) (aux0 : Aux)
    (y0 : Y) (ms : Option Nat) (sol : Solution Y Aux St Stats)
    (h : iterate S af fn aux0 y0 ms = some (.ok sol)) : ∃ st0, S.init fn y0 = .ok st0 := by
  unfold iterate at h
  cases hi : S.init fn y0 with
  | error e => rw [hi] at h; simp at h
  | ok st0 => exact ⟨st0, rfl⟩

end Verif.Driver
