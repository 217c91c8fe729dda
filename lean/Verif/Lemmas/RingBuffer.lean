import Verif.Model.LBFGS
import Mathlib.Algebra.BigOperators.Fin
import Mathlib.Data.Fintype.Card
import Mathlib.Data.Fintype.EquivFin
import Mathlib.Data.List.DropRight

/-! The ring buffers of L-BFGS, read from the oldest to the newest entry. -/

namespace Verif.Ring

open Verif Verif.LBFGS

variable {α : Type} {h : Nat} [NeZero h]

theorem slot_add (n : Nat) : slot h (n + h) = slot h n := by
  apply Fin.ext
  simp [slot, Fin.ofNat]

theorem slot_eq_iff (a b : Nat) : slot h a = slot h b ↔ a % h = b % h := by
  constructor
  · intro e; exact congrArg Fin.val e
  · intro e; exact Fin.ext e

theorem latest_eq (n : Nat) : latestSlot h n = slot h (h - 1 + n) := by
  rw [Nat.add_comm]; rfl

theorem slot_ne (n i : Nat) (h1 : 0 < i) (h2 : i < h) : slot h (i + n) ≠ slot h n := by
  rw [Ne, slot_eq_iff]
  intro e
  have : (i + n) ≡ n [MOD h] := e
  have h3 : i ≡ 0 [MOD h] := Nat.ModEq.add_right_cancel' n (by rw [Nat.zero_add]; exact this)
  have h4 : i % h = 0 % h := h3
  rw [Nat.mod_eq_of_lt h2, Nat.zero_mod] at h4
  omega

theorem slot_inj (n i j : Nat) (hi : i < h) (hj : j < h) (e : slot h (i + n) = slot h (j + n)) : i = j := by
  rw [slot_eq_iff] at e
  have : (i + n) ≡ (j + n) [MOD h] := e
  have h3 : i ≡ j [MOD h] := Nat.ModEq.add_right_cancel' n this
  have h4 : i % h = j % h := h3
  rwa [Nat.mod_eq_of_lt hi, Nat.mod_eq_of_lt hj] at h4

/-- Every position is reached from `index_start`. -/
theorem slot_surj (n : Nat) (i : Fin h) : ∃ t, t < h ∧ slot h (t + n) = i := by
  have hinj : Function.Injective fun t : Fin h => slot h (t.val + n) := fun a b e =>
    Fin.ext (slot_inj n a b a.2 b.2 e)
  obtain ⟨t, ht⟩ := Finite.surjective_of_injective hinj i
  exact ⟨t.val, t.2, ht⟩

/-- Sums over the buffer, from the oldest to the newest. -/
theorem sum_slots {M : Type} [AddCommMonoid M] (n : Nat) (f : Fin h → M) :
    ∑ i, f i = ∑ t ∈ Finset.range h, f (slot h (t + n)) := by
  have hinj : Function.Injective fun t : Fin h => slot h (t.val + n) := fun a b e =>
    Fin.ext (slot_inj n a b a.2 b.2 e)
  have hbij : Function.Bijective fun t : Fin h => slot h (t.val + n) :=
    ⟨hinj, Finite.surjective_of_injective hinj⟩
  rw [← hbij.sum_comp f, ← Fin.sum_univ_eq_sum_range (fun t => f (slot h (t + n))) h]

/-- The content from the oldest to the newest. -/
def window (f : Fin h → α) (n : Nat) : List α := (circIndex h n).map f

theorem window_length (f : Fin h → α) (n : Nat) : (window f n).length = h := by simp [window, circIndex]

theorem window_get (f : Fin h → α) (n t : Nat) (ht : t < h) :
    (window f n)[t]? = some (f (slot h (t + n))) := by
  simp [window, circIndex, ht]

/-- Recording drops the oldest entry and appends the new one. -/
theorem window_update (f : Fin h → α) (n : Nat) (p : α) :
    window (Function.update f (slot h n) p) (n + 1) = (window f n).tail ++ [p] := by
  obtain ⟨m, rfl⟩ : ∃ m, h = m + 1 := ⟨h - 1, by have := NeZero.pos h; omega⟩
  apply List.ext_getElem?
  intro t
  rcases Nat.lt_trichotomy t m with ht | rfl | ht
  · rw [window_get _ _ _ (by omega), List.getElem?_append_left (by simp [window_length, ht]), List.getElem?_tail,
      window_get _ _ _ (by omega)]
    have e : t + (n + 1) = t + 1 + n := by omega
    rw [e, Function.update_of_ne (slot_ne n (t + 1) (by omega) (by omega))]
  · rw [window_get _ _ _ (by omega), List.getElem?_append_right (by simp [window_length])]
    have e : t + (n + 1) = n + (t + 1) := by omega
    rw [e, slot_add, Function.update_self]
    simp [window_length]
  · rw [List.getElem?_eq_none (by rw [window_length]; omega),
      List.getElem?_eq_none (by simp [window_length]; omega)]

/-- Zeros, followed by the last (at most `h`) elements of a list. -/
def lastOf (h : Nat) (z : α) (l : List α) : List α :=
  List.replicate (h - l.length) z ++ l.drop (l.length - h)

theorem lastOf_snoc (z : α) (l : List α) (p : α) : lastOf h z (l ++ [p]) = (lastOf h z l).tail ++ [p] := by
  have hpos := NeZero.pos h
  unfold lastOf
  rw [List.length_append, List.length_singleton]
  rcases Nat.lt_or_ge l.length h with hl | hl
  · obtain ⟨m, hm⟩ : ∃ m, h - l.length = m + 1 := ⟨h - l.length - 1, by omega⟩
    rw [hm, show h - (l.length + 1) = m by omega, show l.length + 1 - h = 0 by omega,
      show l.length - h = 0 by omega]
    simp [List.replicate_succ]
  · rw [show h - (l.length + 1) = 0 by omega, show h - l.length = 0 by omega,
      List.drop_append_of_le_length (by omega)]
    simp only [List.replicate_zero, List.nil_append]
    rw [List.tail_drop, show l.length + 1 - h = l.length - h + 1 by omega]

theorem window_zero (z : α) : window (fun _ : Fin h => z) 0 = lastOf h z [] := by
  apply List.ext_getElem?
  intro t
  simp only [lastOf, List.length_nil, List.drop_nil, List.append_nil, Nat.sub_zero]
  rcases Nat.lt_or_ge t h with ht | ht
  · rw [window_get _ _ _ ht]; simp [ht]
  · rw [List.getElem?_eq_none (by rw [window_length]; omega), List.getElem?_eq_none (by simp; omega)]

end Verif.Ring
