import Verif.Model.PyTree
import Mathlib.Tactic.Ring
import Mathlib.Algebra.BigOperators.Group.List.Lemmas
import Mathlib.Data.List.Basic

/-! Lemmas about trees and arrays. -/

namespace Verif.PyTree

variable {α β γ δ : Type}

/-! ### Trees -/

mutual
theorem map_map (f : α → β) (g : β → γ) : ∀ t : Tree α, (t.map f).map g = t.map fun a => g (f a)
  | .leaf a => by simp [Tree.map]
  | .node k ts => by simp [Tree.map, mapList_map f g ts]
theorem mapList_map (f : α → β) (g : β → γ) : ∀ ts : List (Tree α),
    Tree.mapList g (Tree.mapList f ts) = Tree.mapList (fun a => g (f a)) ts
  | [] => by simp [Tree.mapList]
  | t :: ts => by simp [Tree.mapList, map_map f g t, mapList_map f g ts]
end

mutual
theorem leaves_map (f : α → β) : ∀ t : Tree α, (t.map f).leaves = t.leaves.map f
  | .leaf a => by simp [Tree.map, Tree.leaves]
  | .node k ts => by simp [Tree.map, Tree.leaves, leavesList_map f ts]
theorem leavesList_map (f : α → β) : ∀ ts : List (Tree α),
    Tree.leavesList (Tree.mapList f ts) = (Tree.leavesList ts).map f
  | [] => by simp [Tree.mapList, Tree.leavesList]
  | t :: ts => by simp [Tree.mapList, Tree.leavesList, leaves_map f t, leavesList_map f ts]
end

mutual
theorem leaves_bind (f : α → Tree β) : ∀ t : Tree α, (t.bind f).leaves = t.leaves.flatMap fun a => (f a).leaves
  | .leaf a => by simp [Tree.bind, Tree.leaves]
  | .node k ts => by simp [Tree.bind, Tree.leaves, leavesList_bind f ts]
theorem leavesList_bind (f : α → Tree β) : ∀ ts : List (Tree α),
    Tree.leavesList (Tree.bindList f ts) = (Tree.leavesList ts).flatMap fun a => (f a).leaves
  | [] => by simp [Tree.bindList, Tree.leavesList]
  | t :: ts => by simp [Tree.bindList, Tree.leavesList, leaves_bind f t, leavesList_bind f ts]
end

mutual
theorem map_bind (f : α → Tree β) (g : β → γ) : ∀ t : Tree α, (t.bind f).map g = t.bind fun a => (f a).map g
  | .leaf a => by simp [Tree.bind]
  | .node k ts => by simp [Tree.bind, Tree.map, mapList_bind f g ts]
theorem mapList_bind (f : α → Tree β) (g : β → γ) : ∀ ts : List (Tree α),
    Tree.mapList g (Tree.bindList f ts) = Tree.bindList (fun a => (f a).map g) ts
  | [] => by simp [Tree.bindList, Tree.mapList]
  | t :: ts => by simp [Tree.bindList, Tree.mapList, map_bind f g t, mapList_bind f g ts]
end

mutual
theorem bind_map (f : α → β) (g : β → Tree γ) : ∀ t : Tree α, (t.map f).bind g = t.bind fun a => g (f a)
  | .leaf a => by simp [Tree.bind, Tree.map]
  | .node k ts => by simp [Tree.bind, Tree.map, bindList_map f g ts]
theorem bindList_map (f : α → β) (g : β → Tree γ) : ∀ ts : List (Tree α),
    Tree.bindList g (Tree.mapList f ts) = Tree.bindList (fun a => g (f a)) ts
  | [] => by simp [Tree.bindList, Tree.mapList]
  | t :: ts => by simp [Tree.bindList, Tree.mapList, bind_map f g t, bindList_map f g ts]
end

mutual
theorem map_congr {f g : α → β} : ∀ t : Tree α, (∀ a ∈ t.leaves, f a = g a) → t.map f = t.map g
  | .leaf a, h => by simp [Tree.map, h a (by simp [Tree.leaves])]
  | .node k ts, h => by simp [Tree.map, mapList_congr ts (by simpa [Tree.leaves] using h)]
theorem mapList_congr {f g : α → β} : ∀ ts : List (Tree α), (∀ a ∈ Tree.leavesList ts, f a = g a) →
    Tree.mapList f ts = Tree.mapList g ts
  | [], _ => by simp [Tree.mapList]
  | t :: ts, h => by
    simp only [Tree.leavesList, List.mem_append] at h
    simp [Tree.mapList, map_congr t fun a ha => h a (Or.inl ha), mapList_congr ts fun a ha => h a (Or.inr ha)]
end

mutual
theorem bind_congr {f g : α → Tree β} : ∀ t : Tree α, (∀ a ∈ t.leaves, f a = g a) → t.bind f = t.bind g
  | .leaf a, h => by simp [Tree.bind, h a (by simp [Tree.leaves])]
  | .node k ts, h => by simp [Tree.bind, bindList_congr ts (by simpa [Tree.leaves] using h)]
theorem bindList_congr {f g : α → Tree β} : ∀ ts : List (Tree α), (∀ a ∈ Tree.leavesList ts, f a = g a) →
    Tree.bindList f ts = Tree.bindList g ts
  | [], _ => by simp [Tree.bindList]
  | t :: ts, h => by
    simp only [Tree.leavesList, List.mem_append] at h
    simp [Tree.bindList, bind_congr t fun a ha => h a (Or.inl ha), bindList_congr ts fun a ha => h a (Or.inr ha)]
end

mutual
theorem map_id' : ∀ t : Tree α, t.map (fun a => a) = t
  | .leaf a => by simp [Tree.map]
  | .node k ts => by simp [Tree.map, mapList_id' ts]
theorem mapList_id' : ∀ ts : List (Tree α), Tree.mapList (fun a => a) ts = ts
  | [] => by simp [Tree.mapList]
  | t :: ts => by simp [Tree.mapList, map_id' t, mapList_id' ts]
end

mutual
/-- A tree of the same structure is obtained by replacing the leaves. -/
theorem fill_of_struct : ∀ (s : Tree α) (t : Tree β) (rest : List β), s.map (fun _ => ()) = t.map (fun _ => ()) →
    s.fill (t.leaves ++ rest) = some (t, rest)
  | .leaf a, .leaf b, rest, _ => by simp [Tree.leaves, Tree.fill]
  | .leaf a, .node k ts, rest, h => by simp [Tree.map] at h
  | .node k ts, .leaf b, rest, h => by simp [Tree.map] at h
  | .node k ts, .node k' us, rest, h => by
    simp only [Tree.map, Tree.node.injEq] at h
    obtain ⟨rfl, h⟩ := h
    simp [Tree.leaves, Tree.fill, fillList_of_struct ts us rest h]
theorem fillList_of_struct : ∀ (ss : List (Tree α)) (ts : List (Tree β)) (rest : List β),
    Tree.mapList (fun _ => ()) ss = Tree.mapList (fun _ => ()) ts →
    Tree.fillList ss (Tree.leavesList ts ++ rest) = some (ts, rest)
  | [], [], rest, _ => by simp [Tree.leavesList, Tree.fillList]
  | [], t :: ts, rest, h => by simp [Tree.mapList] at h
  | s :: ss, [], rest, h => by simp [Tree.mapList] at h
  | s :: ss, t :: ts, rest, h => by
    simp only [Tree.mapList, List.cons.injEq] at h
    simp [Tree.leavesList, Tree.fillList, List.append_assoc, fill_of_struct s t _ h.1, fillList_of_struct ss ts rest h.2]
end

mutual
/-- Filling succeeds if there are enough leaves; the result has the structure and the given leaves. -/
theorem fill_exists : ∀ (s : Tree α) (L rest : List β), L.length = s.leaves.length →
    ∃ t : Tree β, s.fill (L ++ rest) = some (t, rest) ∧ t.leaves = L ∧ t.map (fun _ => ()) = s.map (fun _ => ())
  | .leaf a, L, rest, h => by
    simp only [Tree.leaves, List.length_singleton] at h
    obtain ⟨b, rfl⟩ := List.length_eq_one_iff.1 h
    exact ⟨.leaf b, by simp [Tree.fill], by simp [Tree.leaves], by simp [Tree.map]⟩
  | .node k ts, L, rest, h => by
    obtain ⟨us, h1, h2, h3⟩ := fillList_exists ts L rest (by simpa [Tree.leaves] using h)
    exact ⟨.node k us, by simp [Tree.fill, h1], by simp [Tree.leaves, h2], by simp [Tree.map, h3]⟩
theorem fillList_exists : ∀ (ss : List (Tree α)) (L rest : List β), L.length = (Tree.leavesList ss).length →
    ∃ ts : List (Tree β), Tree.fillList ss (L ++ rest) = some (ts, rest) ∧ Tree.leavesList ts = L ∧
      Tree.mapList (fun _ => ()) ts = Tree.mapList (fun _ => ()) ss
  | [], L, rest, h => by
    simp only [Tree.leavesList, List.length_nil, List.length_eq_zero_iff] at h
    subst h
    exact ⟨[], by simp [Tree.fillList], by simp [Tree.leavesList], by simp [Tree.mapList]⟩
  | s :: ss, L, rest, h => by
    simp only [Tree.leavesList, List.length_append] at h
    obtain ⟨t, h1, h2, h3⟩ := fill_exists s (L.take s.leaves.length) (L.drop s.leaves.length ++ rest)
      (by simp; omega)
    obtain ⟨ts, h4, h5, h6⟩ := fillList_exists ss (L.drop s.leaves.length) rest (by simp; omega)
    refine ⟨t :: ts, ?_, ?_, ?_⟩
    · rw [← List.append_assoc, List.take_append_drop] at h1
      simp [Tree.fillList, h1, h4]
    · simp [Tree.leavesList, h2, h5]
    · simp [Tree.mapList, h3, h6]
end

mutual
/-- Zipping along the structure of a tree whose leaves have been replaced by trees. -/
theorem zip_bind (f : α → Tree β → Except Err γ) (h : δ → Tree β) : ∀ (s : Tree α) (l : Tree δ),
    s.map (fun _ => ()) = l.map (fun _ => ()) → ∀ g : δ → Except Err γ, (∀ a d, f a (h d) = g d) →
    s.zip f (l.bind h) = l.mapM g
  | .leaf a, .leaf d, _, g, hg => by simp [Tree.zip, Tree.bind, Tree.mapM, hg]
  | .leaf a, .node k ts, e, _, _ => by simp [Tree.map] at e
  | .node k ts, .leaf b, e, _, _ => by simp [Tree.map] at e
  | .node k ts, .node k' us, e, g, hg => by
    simp only [Tree.map, Tree.node.injEq] at e
    obtain ⟨rfl, e⟩ := e
    simp [Tree.zip, Tree.bind, Tree.mapM, zipList_bind f h ts us e g hg]
theorem zipList_bind (f : α → Tree β → Except Err γ) (h : δ → Tree β) : ∀ (ss : List (Tree α)) (ls : List (Tree δ)),
    Tree.mapList (fun _ => ()) ss = Tree.mapList (fun _ => ()) ls →
    ∀ g : δ → Except Err γ, (∀ a d, f a (h d) = g d) → Tree.zipList f ss (Tree.bindList h ls) = Tree.mapMList g ls
  | [], [], _, g, hg => by simp [Tree.zipList, Tree.bindList, Tree.mapMList]
  | [], t :: ts, e, _, _ => by simp [Tree.mapList] at e
  | s :: ss, [], e, _, _ => by simp [Tree.mapList] at e
  | s :: ss, l :: ls, e, g, hg => by
    simp only [Tree.mapList, List.cons.injEq] at e
    simp [Tree.zipList, Tree.bindList, Tree.mapMList, zip_bind f h s l e.1 g hg, zipList_bind f h ss ls e.2 g hg]
end

mutual
theorem mapM_ok {f : α → Except Err β} {g : α → β} : ∀ t : Tree α, (∀ a ∈ t.leaves, f a = .ok (g a)) →
    t.mapM f = .ok (t.map g)
  | .leaf a, h => by simp [Tree.mapM, Tree.map, h a (by simp [Tree.leaves]), Except.map]
  | .node k ts, h => by simp [Tree.mapM, Tree.map, mapMList_ok ts (by simpa [Tree.leaves] using h), Except.map]
theorem mapMList_ok {f : α → Except Err β} {g : α → β} : ∀ ts : List (Tree α),
    (∀ a ∈ Tree.leavesList ts, f a = .ok (g a)) → Tree.mapMList f ts = .ok (Tree.mapList g ts)
  | [], _ => by simp [Tree.mapMList, Tree.mapList]
  | t :: ts, h => by
    simp only [Tree.leavesList, List.mem_append] at h
    simp [Tree.mapMList, Tree.mapList, mapM_ok t fun a ha => h a (Or.inl ha), mapMList_ok ts fun a ha => h a (Or.inr ha),
      Except.map, Except.bind]
end

mutual
/-- Filling a composed structure. -/
theorem fill_bind (inner : Tree β) (g : δ → List γ) (h : δ → Tree γ)
    (hg : ∀ d rest, inner.fill (g d ++ rest) = some (h d, rest)) : ∀ (s : Tree α) (l : Tree δ) (rest : List γ),
    s.map (fun _ => ()) = l.map (fun _ => ()) →
    (s.bind fun _ => inner).fill (l.leaves.flatMap g ++ rest) = some (l.bind h, rest)
  | .leaf a, .leaf d, rest, _ => by simp [Tree.bind, Tree.leaves, hg]
  | .leaf a, .node k ts, _, e => by simp [Tree.map] at e
  | .node k ts, .leaf b, _, e => by simp [Tree.map] at e
  | .node k ts, .node k' us, rest, e => by
    simp only [Tree.map, Tree.node.injEq] at e
    obtain ⟨rfl, e⟩ := e
    simp [Tree.bind, Tree.leaves, Tree.fill, fillList_bind inner g h hg ts us rest e]
theorem fillList_bind (inner : Tree β) (g : δ → List γ) (h : δ → Tree γ)
    (hg : ∀ d rest, inner.fill (g d ++ rest) = some (h d, rest)) : ∀ (ss : List (Tree α)) (ls : List (Tree δ))
    (rest : List γ), Tree.mapList (fun _ => ()) ss = Tree.mapList (fun _ => ()) ls →
    Tree.fillList (Tree.bindList (fun _ => inner) ss) ((Tree.leavesList ls).flatMap g ++ rest) =
      some (Tree.bindList h ls, rest)
  | [], [], rest, _ => by simp [Tree.bindList, Tree.leavesList, Tree.fillList]
  | [], t :: ts, _, e => by simp [Tree.mapList] at e
  | s :: ss, [], _, e => by simp [Tree.mapList] at e
  | s :: ss, l :: ls, rest, e => by
    simp only [Tree.mapList, List.cons.injEq] at e
    simp [Tree.bindList, Tree.leavesList, Tree.fillList, List.append_assoc, fill_bind inner g h hg s l _ e.1,
      fillList_bind inner g h hg ss ls rest e.2]
end

/-- A tree is determined by its structure and its leaves. -/
theorem tree_ext {t u : Tree α} (h : t.map (fun _ => ()) = u.map (fun _ => ())) (hl : t.leaves = u.leaves) : t = u := by
  have h1 := fill_of_struct t t [] rfl
  have h2 := fill_of_struct t u [] h
  rw [hl, h2] at h1
  simpa using h1.symm

mutual
/-- Two trees of the same structure are a tree of pairs. -/
theorem pair_exists (f : α → δ) (g : β → δ) : ∀ (t : Tree α) (u : Tree β), t.map f = u.map g →
    ∃ q : Tree (α × β), q.map Prod.fst = t ∧ q.map Prod.snd = u ∧ ∀ p ∈ q.leaves, f p.1 = g p.2
  | .leaf a, .leaf b, h => by
    simp only [Tree.map, Tree.leaf.injEq] at h
    exact ⟨.leaf (a, b), by simp [Tree.map], by simp [Tree.map], by simp [Tree.leaves, h]⟩
  | .leaf a, .node k ts, e => by simp [Tree.map] at e
  | .node k ts, .leaf b, e => by simp [Tree.map] at e
  | .node k ts, .node k' us, e => by
    simp only [Tree.map, Tree.node.injEq] at e
    obtain ⟨rfl, e⟩ := e
    obtain ⟨qs, h1, h2, h3⟩ := pairList_exists f g ts us e
    exact ⟨.node k qs, by simp [Tree.map, h1], by simp [Tree.map, h2], by simpa [Tree.leaves] using h3⟩
theorem pairList_exists (f : α → δ) (g : β → δ) : ∀ (ts : List (Tree α)) (us : List (Tree β)),
    Tree.mapList f ts = Tree.mapList g us →
    ∃ qs : List (Tree (α × β)), Tree.mapList Prod.fst qs = ts ∧ Tree.mapList Prod.snd qs = us ∧
      ∀ p ∈ Tree.leavesList qs, f p.1 = g p.2
  | [], [], _ => ⟨[], by simp [Tree.mapList], by simp [Tree.mapList], by simp [Tree.leavesList]⟩
  | [], t :: ts, e => by simp [Tree.mapList] at e
  | s :: ss, [], e => by simp [Tree.mapList] at e
  | t :: ts, u :: us, e => by
    simp only [Tree.mapList, List.cons.injEq] at e
    obtain ⟨q, h1, h2, h3⟩ := pair_exists f g t u e.1
    obtain ⟨qs, h4, h5, h6⟩ := pairList_exists f g ts us e.2
    refine ⟨q :: qs, by simp [Tree.mapList, h1, h4], by simp [Tree.mapList, h2, h5], ?_⟩
    intro p hp
    simp only [Tree.leavesList, List.mem_append] at hp
    exact hp.elim (h3 p) (h6 p)
end

mutual
/-- A tree whose shape is a composition is a composition. -/
theorem split_exists (f : β → δ) (g : α → Tree δ) : ∀ (x : Tree α) (A : Tree β), A.map f = x.bind g →
    ∃ c : Tree (α × Tree β), c.map Prod.fst = x ∧ c.bind Prod.snd = A ∧ ∀ p ∈ c.leaves, p.2.map f = g p.1
  | .leaf a, A, h => by
    simp only [Tree.bind] at h
    exact ⟨.leaf (a, A), by simp [Tree.map], by simp [Tree.bind], by simp [Tree.leaves, h]⟩
  | .node k ts, .leaf b, e => by simp [Tree.map, Tree.bind] at e
  | .node k ts, .node k' us, e => by
    simp only [Tree.map, Tree.bind, Tree.node.injEq] at e
    obtain ⟨rfl, e⟩ := e
    obtain ⟨qs, h1, h2, h3⟩ := splitList_exists f g ts us e
    exact ⟨.node k' qs, by simp [Tree.map, h1], by simp [Tree.bind, h2], by simpa [Tree.leaves] using h3⟩
theorem splitList_exists (f : β → δ) (g : α → Tree δ) : ∀ (xs : List (Tree α)) (As : List (Tree β)),
    Tree.mapList f As = Tree.bindList g xs →
    ∃ cs : List (Tree (α × Tree β)), Tree.mapList Prod.fst cs = xs ∧ Tree.bindList Prod.snd cs = As ∧
      ∀ p ∈ Tree.leavesList cs, p.2.map f = g p.1
  | [], [], _ => ⟨[], by simp [Tree.mapList], by simp [Tree.bindList], by simp [Tree.leavesList]⟩
  | [], t :: ts, e => by simp [Tree.mapList, Tree.bindList] at e
  | s :: ss, [], e => by simp [Tree.mapList, Tree.bindList] at e
  | t :: ts, u :: us, e => by
    simp only [Tree.mapList, Tree.bindList, List.cons.injEq] at e
    obtain ⟨q, h1, h2, h3⟩ := split_exists f g t u e.1
    obtain ⟨qs, h4, h5, h6⟩ := splitList_exists f g ts us e.2
    refine ⟨q :: qs, by simp [Tree.mapList, h1, h4], by simp [Tree.bindList, h2, h5], ?_⟩
    intro p hp
    simp only [Tree.leavesList, List.mem_append] at hp
    exact hp.elim (h3 p) (h6 p)
end

mutual
/-- `jtu.tree_map` on two trees of the same structure. -/
theorem map2_pair (g : α → β → Except Err γ) : ∀ q : Tree (α × β),
    map2 g (q.map Prod.fst) (q.map Prod.snd) = q.mapM fun p => g p.1 p.2
  | .leaf p => by simp [map2, Tree.map, Tree.zip, Tree.mapM, onLeaves]
  | .node k qs => by
    have h := map2List_pair g qs
    simp only [map2, Tree.map, Tree.zip, Tree.mapM, if_true, h]
theorem map2List_pair (g : α → β → Except Err γ) : ∀ qs : List (Tree (α × β)),
    Tree.zipList (onLeaves g) (Tree.mapList Prod.fst qs) (Tree.mapList Prod.snd qs) =
      Tree.mapMList (fun p => g p.1 p.2) qs
  | [] => by simp [Tree.mapList, Tree.zipList, Tree.mapMList]
  | q :: qs => by
    have h1 := map2_pair g q
    have h2 := map2List_pair g qs
    simp only [map2] at h1
    simp only [Tree.mapList, Tree.zipList, Tree.mapMList, h1, h2]
end

mutual
theorem zip_map_bind (F : α → Tree β → Except Err γ) (f : δ → α) (h : δ → Tree β) : ∀ c : Tree δ,
    (c.map f).zip F (c.bind h) = c.mapM fun d => F (f d) (h d)
  | .leaf d => by simp [Tree.map, Tree.bind, Tree.zip, Tree.mapM]
  | .node k cs => by simp [Tree.map, Tree.bind, Tree.zip, Tree.mapM, zipList_map_bind F f h cs]
theorem zipList_map_bind (F : α → Tree β → Except Err γ) (f : δ → α) (h : δ → Tree β) : ∀ cs : List (Tree δ),
    Tree.zipList F (Tree.mapList f cs) (Tree.bindList h cs) = Tree.mapMList (fun d => F (f d) (h d)) cs
  | [] => by simp [Tree.mapList, Tree.bindList, Tree.zipList, Tree.mapMList]
  | c :: cs => by
    simp [Tree.mapList, Tree.bindList, Tree.zipList, Tree.mapMList, zip_map_bind F f h c, zipList_map_bind F f h cs]
end

mutual
/-- Cutting a tree at the leaves of another one. -/
theorem zip_inv : ∀ (t : Tree α) (u : Tree β) (d : Tree (α × Tree β)), t.zip (fun a u => .ok (a, u)) u = .ok d →
    d.map Prod.fst = t ∧ d.bind Prod.snd = u
  | .leaf a, u, d, e => by
    simp only [Tree.zip, Except.map, Except.ok.injEq] at e
    subst e
    simp [Tree.map, Tree.bind]
  | .node k ts, .leaf b, d, e => by simp [Tree.zip] at e
  | .node k ts, .node k' us, d, e => by
    simp only [Tree.zip] at e
    split at e
    · rename_i hk
      subst hk
      cases hz : Tree.zipList (fun a u => (.ok (a, u) : Except Err _)) ts us with
      | error err => rw [hz] at e; cases e
      | ok ds =>
        rw [hz] at e
        simp only [Except.map, Except.ok.injEq] at e
        subst e
        obtain ⟨h1, h2⟩ := zipList_inv ts us ds hz
        simp [Tree.map, Tree.bind, h1, h2]
    · cases e
theorem zipList_inv : ∀ (ts : List (Tree α)) (us : List (Tree β)) (ds : List (Tree (α × Tree β))),
    Tree.zipList (fun a u => .ok (a, u)) ts us = .ok ds →
    Tree.mapList Prod.fst ds = ts ∧ Tree.bindList Prod.snd ds = us
  | [], [], ds, e => by
    simp only [Tree.zipList, Except.ok.injEq] at e
    subst e
    simp [Tree.mapList, Tree.bindList]
  | [], u :: us, ds, e => by simp [Tree.zipList] at e
  | t :: ts, [], ds, e => by simp [Tree.zipList] at e
  | t :: ts, u :: us, ds, e => by
    simp only [Tree.zipList] at e
    cases h1 : t.zip (fun a u => (.ok (a, u) : Except Err _)) u with
    | error err => rw [h1] at e; cases e
    | ok d =>
      cases h2 : Tree.zipList (fun a u => (.ok (a, u) : Except Err _)) ts us with
      | error err => rw [h1, h2] at e; cases e
      | ok ds' =>
        rw [h1, h2] at e
        simp only [Except.bind, Except.map, Except.ok.injEq] at e
        subst e
        obtain ⟨a1, a2⟩ := zip_inv t u d h1
        obtain ⟨b1, b2⟩ := zipList_inv ts us ds' h2
        simp [Tree.mapList, Tree.bindList, a1, a2, b1, b2]
end

mutual
/-- A function of two leaves can be mapped over two trees only if they have the same structure and it does not raise. -/
theorem map2_inv (g : α → β → Except Err γ) : ∀ (t : Tree α) (u : Tree β) (d : Tree γ), map2 g t u = .ok d →
    ∃ q : Tree (α × β), q.map Prod.fst = t ∧ q.map Prod.snd = u ∧ ∀ p ∈ q.leaves, ∃ r, g p.1 p.2 = .ok r
  | .leaf a, .leaf b, d, e => by
    simp only [map2, Tree.zip, onLeaves] at e
    refine ⟨.leaf (a, b), by simp [Tree.map], by simp [Tree.map], ?_⟩
    cases h : g a b with
    | error err => rw [h] at e; cases e
    | ok r => simp [Tree.leaves, h]
  | .leaf a, .node k us, d, e => by simp [map2, Tree.zip, onLeaves, Except.map] at e
  | .node k ts, .leaf b, d, e => by simp [map2, Tree.zip] at e
  | .node k ts, .node k' us, d, e => by
    simp only [map2, Tree.zip] at e
    split at e
    · rename_i hk
      subst hk
      cases hz : Tree.zipList (onLeaves g) ts us with
      | error err => rw [hz] at e; cases e
      | ok ds =>
        obtain ⟨qs, h1, h2, h3⟩ := map2List_inv g ts us ds hz
        exact ⟨.node k qs, by simp [Tree.map, h1], by simp [Tree.map, h2], by simpa [Tree.leaves] using h3⟩
    · cases e
theorem map2List_inv (g : α → β → Except Err γ) : ∀ (ts : List (Tree α)) (us : List (Tree β)) (ds : List (Tree γ)),
    Tree.zipList (onLeaves g) ts us = .ok ds →
    ∃ qs : List (Tree (α × β)), Tree.mapList Prod.fst qs = ts ∧ Tree.mapList Prod.snd qs = us ∧
      ∀ p ∈ Tree.leavesList qs, ∃ r, g p.1 p.2 = .ok r
  | [], [], ds, e => ⟨[], by simp [Tree.mapList], by simp [Tree.mapList], by simp [Tree.leavesList]⟩
  | [], u :: us, ds, e => by simp [Tree.zipList] at e
  | t :: ts, [], ds, e => by simp [Tree.zipList] at e
  | t :: ts, u :: us, ds, e => by
    simp only [Tree.zipList] at e
    cases h1 : t.zip (onLeaves g) u with
    | error err => rw [h1] at e; cases e
    | ok d =>
      cases h2 : Tree.zipList (onLeaves g) ts us with
      | error err => rw [h1, h2] at e; cases e
      | ok ds' =>
        obtain ⟨q, a1, a2, a3⟩ := map2_inv g t u d h1
        obtain ⟨qs, b1, b2, b3⟩ := map2List_inv g ts us ds' h2
        refine ⟨q :: qs, by simp [Tree.mapList, a1, b1], by simp [Tree.mapList, a2, b2], ?_⟩
        intro p hp
        simp only [Tree.leavesList, List.mem_append] at hp
        exact hp.elim (a3 p) (b3 p)
end

mutual
theorem mapM_inv (f : α → Except Err β) : ∀ (t : Tree α) (d : Tree β), t.mapM f = .ok d → ∀ a ∈ t.leaves, ∃ r, f a = .ok r
  | .leaf a, d, e => by
    cases h : f a with
    | error err => simp [Tree.mapM, h, Except.map] at e
    | ok r => simp [Tree.leaves, h]
  | .node k ts, d, e => by
    simp only [Tree.mapM] at e
    cases h : Tree.mapMList f ts with
    | error err => rw [h] at e; cases e
    | ok ds => simpa [Tree.leaves] using mapMList_inv f ts ds h
theorem mapMList_inv (f : α → Except Err β) : ∀ (ts : List (Tree α)) (ds : List (Tree β)), Tree.mapMList f ts = .ok ds →
    ∀ a ∈ Tree.leavesList ts, ∃ r, f a = .ok r
  | [], ds, e => by simp [Tree.leavesList]
  | t :: ts, ds, e => by
    simp only [Tree.mapMList] at e
    cases h1 : t.mapM f with
    | error err => rw [h1] at e; cases e
    | ok d =>
      cases h2 : Tree.mapMList f ts with
      | error err => rw [h1, h2] at e; cases e
      | ok ds' =>
        intro a ha
        simp only [Tree.leavesList, List.mem_append] at ha
        exact ha.elim (mapM_inv f t d h1 a) (mapMList_inv f ts ds' h2 a)
end

mutual
theorem bind_bind (f : α → Tree β) (g : β → Tree γ) : ∀ t : Tree α, (t.bind f).bind g = t.bind fun a => (f a).bind g
  | .leaf a => by simp [Tree.bind]
  | .node k ts => by simp [Tree.bind, bindList_bind f g ts]
theorem bindList_bind (f : α → Tree β) (g : β → Tree γ) : ∀ ts : List (Tree α),
    Tree.bindList g (Tree.bindList f ts) = Tree.bindList (fun a => (f a).bind g) ts
  | [] => by simp [Tree.bindList]
  | t :: ts => by simp [Tree.bindList, bind_bind f g t, bindList_bind f g ts]
end

/-! ### Arrays -/

theorem Arr.ext {K : Type} {a b : Arr K} (hs : a.shape = b.shape) (hd : a.data = b.data) : a = b := by
  cases a; cases b; simp_all

@[simp] theorem shape_ofFn {K : Type} (s : List Nat) (g : Nat → K) : (Arr.ofFn s g).shape = s := rfl

theorem get_ofFn {K : Type} [Zero K] (s : List Nat) (g : Nat → K) (k : Nat) (hk : k < s.prod) : (Arr.ofFn s g).get k = g k := by
  simp [Arr.ofFn, Arr.get, hk]

theorem arr_eq {K : Type} [Zero K] {a : Arr K} {s : List Nat} {g : Nat → K} (hs : a.shape = s)
    (h : ∀ k < s.prod, a.get k = g k) : a = .ofFn s g := by
  subst hs
  refine Arr.ext rfl (List.ext_getElem (by simp [Arr.ofFn, a.size_eq]) ?_)
  intro k h1 h2
  have hk : k < a.shape.prod := by rw [← a.size_eq]; exact h1
  have := h k hk
  simp only [Arr.get, List.getD_eq_getElem?_getD, List.getElem?_eq_getElem h1, Option.getD_some] at this
  simp [Arr.ofFn, this]

theorem ofFn_congr {K : Type} {s : List Nat} {g h : Nat → K} (e : ∀ k < s.prod, g k = h k) : Arr.ofFn s g = .ofFn s h := by
  refine Arr.ext rfl ?_
  simp only [Arr.ofFn, List.map_inj_left, List.mem_range]
  exact e

theorem arr_ofFn_get {K : Type} [Zero K] (a : Arr K) : Arr.ofFn a.shape a.get = a := (arr_eq rfl fun _ _ => rfl).symm

/-- Row `k` of a block times a vector. -/
noncomputable def rowDot (m v : Arr ℝ) (k : Nat) : ℝ := ((List.range v.size).map fun j => m.get (k * v.size + j) * v.get j).sum

theorem tensorApply_ok {m v : Arr ℝ} {s : List Nat} (h : m.shape = s ++ v.shape) :
    tensorApply m v = .ok (.ofFn s (rowDot m v)) := by
  have hd : m.shape.length - v.shape.length = s.length := by rw [h]; simp
  simp only [tensorApply, hd]
  simp only [h, List.drop_left, List.take_left, if_true]
  rfl

theorem foldlM_addArr (s : List Nat) : ∀ (l : List (Arr ℝ)) (a : Arr ℝ), a.shape = s → (∀ b ∈ l, b.shape = s) →
    l.foldlM addArr a = .ok (.ofFn s fun k => a.get k + (l.map fun b => b.get k).sum) := by
  intro l
  induction l with
  | nil =>
    intro a ha _
    have := arr_ofFn_get a
    rw [ha] at this
    simp [pure, Except.pure, this]
  | cons b l ih =>
    intro a ha hl
    have hb : b.shape = s := hl b (by simp)
    simp only [List.foldlM_cons, addArr, ha, hb, if_true]
    change List.foldlM addArr (Arr.ofFn s fun k => a.get k + b.get k) l = _
    rw [ih _ rfl fun c hc => hl c (by simp [hc])]
    congr 1
    apply ofFn_congr
    intro k hk
    rw [get_ofFn s _ k hk, List.map_cons, List.sum_cons, add_assoc]

theorem sumArr_ok {s : List Nat} {l : List (Arr ℝ)} (hne : l ≠ []) (hl : ∀ b ∈ l, b.shape = s) :
    sumArr l = .ok (.ofFn s fun k => (l.map fun b => b.get k).sum) := by
  cases l with
  | nil => exact absurd rfl hne
  | cons a l =>
    simp only [sumArr]
    rw [foldlM_addArr s l a (hl a (by simp)) fun b hb => hl b (by simp [hb])]
    simp

theorem list_mapM_ok {f : α → Except Err β} {g : α → β} : ∀ l : List α, (∀ a ∈ l, f a = .ok (g a)) →
    l.mapM f = .ok (l.map g) := by
  intro l
  induction l with
  | nil => intro _; rfl
  | cons a l ih =>
    intro h
    rw [List.mapM_cons, h a (by simp), ih fun b hb => h b (by simp [hb])]
    rfl

theorem rowApply_ok {row v : Tree (Arr ℝ)} {s : List Nat} (hlen : row.leaves.length = v.leaves.length) (hne : v.leaves ≠ [])
    (h : ∀ p ∈ row.leaves.zip v.leaves, p.1.shape = s ++ p.2.shape) :
    rowApply row v = .ok (.ofFn s fun k => ((row.leaves.zip v.leaves).map fun p => rowDot p.1 p.2 k).sum) := by
  simp only [rowApply, if_pos hlen]
  rw [list_mapM_ok (g := fun p => .ofFn s (rowDot p.1 p.2)) _ fun p hp => tensorApply_ok (h p hp)]
  simp only [Except.bind]
  rw [sumArr_ok (s := s)]
  · congr 1
    apply ofFn_congr
    intro k hk
    rw [List.map_map]
    congr 1
    apply List.map_congr_left
    intro p _
    exact get_ofFn s _ k hk
  · intro hz
    rw [List.map_eq_nil_iff, List.zip_eq_nil_iff] at hz
    rcases hz with hz | hz
    · rw [hz] at hlen
      exact hne (List.length_eq_zero_iff.1 hlen.symm)
    · exact hne hz
  · intro b hb
    obtain ⟨p, _, rfl⟩ := List.mem_map.1 hb
    rfl

end Verif.PyTree
