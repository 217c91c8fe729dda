import Verif.Spec.PyTree
import Verif.Lemmas.PyTree
import Mathlib.Algebra.BigOperators.Ring.List
import Mathlib.Tactic.NormNum
import Mathlib.Tactic.FieldSimp
import Mathlib.Tactic.Linarith

/-!
C69: trees are handled entry by entry, whatever their containers and array shapes.
-/

namespace Verif.PyTree

variable {α β γ δ : Type}

theorem struct_of_shapes {K K' : Type} {t : Tree (Arr K)} {u : Tree (Arr K')} (h : SameShapes t u) :
    t.map (fun _ => ()) = u.map (fun _ => ()) := by
  have := congrArg (Tree.map fun _ => ()) h
  simpa only [map_map] using this

theorem leaves_shapes {K K' : Type} {t : Tree (Arr K)} {u : Tree (Arr K')} (h : SameShapes t u) :
    t.leaves.map Arr.shape = u.leaves.map Arr.shape := by
  have := congrArg Tree.leaves h
  simpa only [leaves_map] using this

/-! ### The identity -/

theorem sum_pick {X : Type} (c : X → ℝ) (i : Nat) : ∀ (l : List X) (start : Nat),
    ((l.zipIdx start).map fun p => if i = p.2 then c p.1 else 0).sum =
      if h : start ≤ i ∧ i < start + l.length then c (l[i - start]'(by omega)) else 0 := by
  intro l
  induction l with
  | nil => intro start; rw [dif_neg (by simp)]; simp
  | cons a l ih =>
    intro start
    rw [List.zipIdx_cons, List.map_cons, List.sum_cons, ih]
    by_cases h1 : i = start
    · subst h1
      rw [if_pos rfl, dif_neg (by omega), dif_pos (by simp)]
      simp
    · rw [if_neg h1, zero_add]
      by_cases h2 : start + 1 ≤ i ∧ i < start + 1 + l.length
      · rw [dif_pos h2, dif_pos (by simp; omega)]
        congr 1
        rw [List.getElem_cons, dif_neg (by omega)]
        congr 1
      · rw [dif_neg h2, dif_neg (by simp; omega)]

theorem sum_range_ite (c : Nat → ℝ) (k n : Nat) :
    ((List.range n).map fun j => if j = k then c j else 0).sum = if k < n then c k else 0 := by
  induction n with
  | zero => simp
  | succ n ih =>
    rw [List.sum_range_succ, ih]
    by_cases h1 : n = k
    · subst h1; simp
    · by_cases h2 : k < n
      · simp [h1, h2, Nat.lt_succ_of_lt h2]
      · rw [if_neg h2, if_neg h1, if_neg (by omega), add_zero]

theorem zip_zipIdx {X Y Z : Type} (B : X × Nat → Z) : ∀ (L : List X) (V : List Y) (start : Nat),
    ((L.zipIdx start).map B).zip V = ((L.zip V).zipIdx start).map fun q => (B (q.1.1, q.2), q.1.2) := by
  intro L
  induction L with
  | nil => intro V start; simp
  | cons a L ih =>
    intro V start
    cases V with
    | nil => simp
    | cons v V => simp [List.zipIdx_cons, ih]

theorem rowDot_eye (s : List Nat) (v : Arr ℝ) (h : v.shape = s) (k : Nat) (hk : k < s.prod) :
    rowDot (eyeReshaped s) v k = v.get k := by
  have hn : v.size = s.prod := by rw [Arr.size, h]
  simp only [rowDot, hn]
  have : (List.range s.prod).map (fun j => (eyeReshaped s).get (k * s.prod + j) * v.get j) =
      (List.range s.prod).map fun j => if j = k then v.get j else 0 := by
    apply List.map_congr_left
    intro j hj
    rw [List.mem_range] at hj
    have hlt : k * s.prod + j < (s ++ s).prod := by
      rw [List.prod_append]
      calc k * s.prod + j < k * s.prod + s.prod := by omega
        _ = (k + 1) * s.prod := by ring
        _ ≤ s.prod * s.prod := Nat.mul_le_mul_right _ hk
    rw [eyeReshaped, get_ofFn _ _ _ hlt]
    have h1 : (k * s.prod + j) / s.prod = k := by
      rw [Nat.add_comm, Nat.add_mul_div_right _ _ (by omega), Nat.div_eq_of_lt hj, Nat.zero_add]
    have h2 : (k * s.prod + j) % s.prod = j := by
      rw [Nat.add_comm, Nat.add_mul_mod_self_right, Nat.mod_eq_of_lt hj]
    rw [h1, h2]
    by_cases hjk : j = k
    · rw [if_pos hjk.symm, if_pos hjk, one_mul]
    · rw [if_neg (fun e => hjk e.symm), if_neg hjk, zero_mul]
  rw [this, sum_range_ite, if_pos hk]

theorem rowDot_zeros (s : List Nat) (v : Arr ℝ) (k : Nat) : rowDot (zeros s) v k = 0 := by
  have hz : ∀ i, (zeros s).get i = 0 := by
    intro i
    by_cases h : i < s.prod
    · exact get_ofFn _ _ _ h
    · simp [zeros, Arr.ofFn, Arr.get, h]
  simp [rowDot, hz]

/-- **C69**: the operator the quasi-Newton solvers start from is the identity, for every PyTree of arrays. -/
theorem C69_identity (t v : Tree (Arr ℝ)) (h : SameShapes v t) : ∃ I, identityPytree t = .ok I ∧ IsOperator t t I ∧
    mv I t v = .ok v := by
  set L := t.leaves with hL
  set B : Arr ℝ × Nat → Arr ℝ × Nat → Arr ℝ := fun p1 p2 =>
    if p1.2 = p2.2 then eyeReshaped p1.1.shape else zeros (p1.1.shape ++ p2.1.shape) with hB
  have hg : ∀ p1 : Arr ℝ × Nat, ∃ u : Tree (Arr ℝ), (∀ rest, t.fill (L.zipIdx.map (B p1) ++ rest) = some (u, rest)) ∧
      u.leaves = L.zipIdx.map (B p1) ∧ u.map (fun _ => ()) = t.map (fun _ => ()) := by
    intro p1
    obtain ⟨u, h1, h2, h3⟩ := fill_exists t (L.zipIdx.map (B p1)) [] (by simp [hL])
    refine ⟨u, fun rest => ?_, h2, h3⟩
    rw [← h2]
    exact fill_of_struct t u rest h3.symm
  choose row hrow hrowl hrows using hg
  obtain ⟨lab, hl1, hl2, hl3⟩ := fill_exists t L.zipIdx [] (by simp [hL])
  have hfill := fill_bind t (fun p1 => L.zipIdx.map (B p1)) row hrow t lab [] hl3.symm
  rw [hl2] at hfill
  refine ⟨lab.bind row, ?_, ?_, ?_⟩
  · simp only [identityPytree, Tree.unflatten]
    rw [List.append_nil] at hfill
    simp only [← hL]
    rw [hfill]
  · have ht : lab.map Prod.fst = t := by
      apply tree_ext
      · rw [map_map]; exact hl3
      · rw [leaves_map, hl2, List.zipIdx_map_fst]
    have hgoal : (lab.bind row).map Arr.shape = (lab.map Prod.fst).bind fun a => t.map fun b => a.shape ++ b.shape := by
      rw [map_bind, bind_map]
      apply bind_congr
      intro p hp
      rw [hl2] at hp
      obtain ⟨_, hp2⟩ := List.mem_zipIdx' hp
      apply tree_ext
      · rw [map_map, map_map, hrows]
      · rw [leaves_map, leaves_map, hrowl, List.map_map, ← hL]
        conv_rhs => rw [← List.zipIdx_map_fst 0 L, List.map_map]
        apply List.map_congr_left
        intro q hq
        obtain ⟨_, hq2⟩ := List.mem_zipIdx' hq
        simp only [Function.comp, hB]
        split
        · rename_i e
          have : p.1 = q.1 := by
            rw [hp2, hq2]
            congr 1
          rw [← this]; rfl
        · rfl
    rw [ht] at hgoal
    exact hgoal
  · have hlen : L.length = v.leaves.length := by
      have := congrArg List.length (leaves_shapes h)
      simpa [hL] using this.symm
    have hrowok : ∀ p ∈ lab.leaves, rowApply (row p) v = .ok (v.leaves.getD p.2 (zeros [])) := by
      intro p hp
      rw [hl2] at hp
      obtain ⟨l, i⟩ := p
      obtain ⟨hi, hli⟩ := List.mem_zipIdx' hp
      have hshape : ∀ (n : Nat) (h1 : n < L.length) (h2 : n < v.leaves.length), (v.leaves[n]).shape = (L[n]).shape := by
        intro n h1 h2
        have := leaves_shapes h
        have e := List.getElem_of_eq this (i := n) (by simpa using h2)
        simpa [hL] using e
      have hzip : (row (l, i)).leaves.zip v.leaves =
          ((L.zip v.leaves).zipIdx).map fun q => (B (l, i) (q.1.1, q.2), q.1.2) := by
        rw [hrowl, zip_zipIdx]
      have hq : ∀ q ∈ (L.zip v.leaves).zipIdx, q.1.2.shape = q.1.1.shape ∧ (i = q.2 → q.1.1 = l) := by
        intro q hq
        obtain ⟨h1, h2⟩ := List.mem_zipIdx' hq
        simp only [List.length_zip, ← hlen, min_self] at h1
        rw [List.getElem_zip] at h2
        refine ⟨by rw [h2]; exact hshape _ h1 (hlen ▸ h1), ?_⟩
        intro e
        rw [h2, hli]
        simp only [e]
      have hvi : i < v.leaves.length := hlen ▸ hi
      rw [rowApply_ok (s := l.shape)]
      · congr 1
        rw [List.getD_eq_getElem?_getD, List.getElem?_eq_getElem hvi, Option.getD_some]
        symm
        apply arr_eq
        · rw [hshape i hi hvi, hli]
        · intro k hk
          rw [hzip, List.map_map]
          have : ((L.zip v.leaves).zipIdx).map ((fun p : Arr ℝ × Arr ℝ => rowDot p.1 p.2 k) ∘
              fun q => (B (l, i) (q.1.1, q.2), q.1.2)) =
              ((L.zip v.leaves).zipIdx).map fun q => if i = q.2 then q.1.2.get k else 0 := by
            apply List.map_congr_left
            intro q hqm
            obtain ⟨h1, h2⟩ := hq q hqm
            simp only [Function.comp, hB]
            split
            · rename_i e
              exact rowDot_eye _ _ (by rw [h1, h2 e]) k hk
            · exact rowDot_zeros _ _ _
          rw [this, sum_pick (fun x : Arr ℝ × Arr ℝ => x.2.get k), dif_pos (by simp [← hlen, hi])]
          simp
      · rw [hrowl]; simp [hlen]
      · intro e
        rw [e] at hvi
        exact absurd hvi (by simp)
      · intro p hp
        rw [hzip] at hp
        obtain ⟨q, hqm, rfl⟩ := List.mem_map.1 hp
        obtain ⟨h1, h2⟩ := hq q hqm
        simp only [hB]
        split
        · rename_i e
          rw [h1, h2 e]; rfl
        · rw [h1]; rfl
    have hz := zip_bind (fun _ r => rowApply r v) row t lab hl3.symm (fun p => rowApply (row p) v) fun _ _ => rfl
    simp only [mv]
    rw [hz, mapM_ok lab hrowok]
    congr 1
    apply tree_ext
    · rw [map_map, hl3]
      exact (struct_of_shapes h).symm
    · rw [leaves_map, hl2]
      apply List.ext_getElem
      · simp [hlen]
      · intro n h1 h2
        simp [List.getElem?_eq_getElem h2]

/-! ### Dot products -/

theorem sum_flatMap_zip : ∀ (q : List (Arr ℝ × Arr ℝ)), (∀ p ∈ q, p.1.shape = p.2.shape) →
    (q.map fun p => ((List.range p.1.size).map fun k => p.1.get k * p.2.get k).sum).sum =
      dot ((q.map Prod.fst).flatMap Arr.data) ((q.map Prod.snd).flatMap Arr.data) := by
  intro q
  induction q with
  | nil => intro _; simp [dot]
  | cons p q ih =>
    intro h
    have hp := h p (by simp)
    have hlen : p.1.data.length = p.2.data.length := by rw [p.1.size_eq, p.2.size_eq, hp]
    simp only [List.map_cons, List.sum_cons, List.flatMap_cons, dot]
    rw [ih fun r hr => h r (by simp [hr]), List.zipWith_append hlen, List.sum_append, dot]
    congr 2
    apply List.ext_getElem
    · simp [p.1.size_eq, ← hlen, Arr.size]
    · intro n h1 h2
      simp only [List.length_zipWith, lt_inf_iff] at h2
      simp [Arr.get, List.getElem?_eq_getElem h2.1, List.getElem?_eq_getElem h2.2]

/-- **C69**: `tree_dot` is the sum of products of corresponding entries. -/
theorem C69_dot (a b : Tree (Arr ℝ)) (h : SameShapes a b) : treeDot a b = .ok (dot (ravel a) (ravel b)) := by
  obtain ⟨q, rfl, rfl, h3⟩ := pair_exists _ _ a b h
  simp only [treeDot, map2_pair]
  rw [mapM_ok (g := fun p => ((List.range p.1.size).map fun k => p.1.get k * p.2.get k).sum) q
    fun p hp => if_pos (h3 p hp)]
  simp only [Except.map, leaves_map, ravel]
  rw [sum_flatMap_zip _ h3]

/-! ### Outer products -/

theorem rowDot_outer (x y z : Arr ℝ) (h : y.shape = z.shape) (k : Nat) (hk : k < x.shape.prod) :
    rowDot (tensorOuter x y) z k = x.get k * ((List.range y.size).map fun j => y.get j * z.get j).sum := by
  have hsz : z.size = y.size := by rw [Arr.size, Arr.size, h]
  rw [rowDot, hsz, ← List.sum_map_mul_left]
  congr 1
  apply List.map_congr_left
  intro j hj
  rw [List.mem_range] at hj
  have hlt : k * y.size + j < (x.shape ++ y.shape).prod := by
    rw [List.prod_append]
    calc k * y.size + j < k * y.size + y.size := by omega
      _ = (k + 1) * y.size := by ring
      _ ≤ x.shape.prod * y.shape.prod := Nat.mul_le_mul_right _ hk
  rw [tensorOuter, get_ofFn _ _ _ hlt]
  have h1 : (k * y.size + j) / y.size = k := by
    rw [Nat.add_comm, Nat.add_mul_div_right _ _ (by omega), Nat.div_eq_of_lt hj, Nat.zero_add]
  have h2 : (k * y.size + j) % y.size = j := by
    rw [Nat.add_comm, Nat.add_mul_mod_self_right, Nat.mod_eq_of_lt hj]
  rw [h1, h2, mul_assoc]

/-- **C69**: `_outer(x, y)` is the matrix of `z ↦ (y · z) x`. -/
theorem C69_outer (x y z : Tree (Arr ℝ)) (h : SameShapes y z) (hne : y.leaves ≠ []) :
    IsOperator x y (outer x y) ∧ mv (outer x y) x z = .ok (treeScale (dot (ravel y) (ravel z)) x) := by
  constructor
  · simp only [IsOperator, outer, map_bind, map_map]
    rfl
  · obtain ⟨q, rfl, rfl, h3⟩ := pair_exists _ _ y z h
    have hq : q.leaves ≠ [] := by simpa [leaves_map] using hne
    simp only [mv, outer]
    rw [zip_bind _ _ x x rfl (fun a => rowApply ((q.map Prod.fst).map (tensorOuter a)) (q.map Prod.snd)) fun _ _ => rfl]
    rw [treeScale, mapM_ok x]
    intro a _
    have hzip : ((q.map Prod.fst).map (tensorOuter a)).leaves.zip (q.map Prod.snd).leaves =
        q.leaves.map fun p => (tensorOuter a p.1, p.2) := by
      rw [leaves_map, leaves_map, leaves_map, List.map_map, List.zip_map']
      rfl
    rw [rowApply_ok (s := a.shape)]
    · congr 1
      apply ofFn_congr
      intro k hk
      rw [hzip, List.map_map, ravel, ravel, leaves_map, leaves_map, ← sum_flatMap_zip _ h3, mul_comm, ← List.sum_map_mul_left]
      congr 1
      apply List.map_congr_left
      intro p hp
      exact rowDot_outer a p.1 p.2 (h3 p hp) k hk
    · simp [leaves_map]
    · simpa [leaves_map] using hq
    · intro p hp
      rw [hzip] at hp
      obtain ⟨r, hr, rfl⟩ := List.mem_map.1 hp
      simp only
      rw [← h3 r hr]
      rfl

/-! ### Linear combinations -/

/-- One row of an operator applied to a vector. -/
noncomputable def rowSum (R V : List (Arr ℝ)) (k : Nat) : ℝ := ((R.zip V).map fun p => rowDot p.1 p.2 k).sum

theorem zip_shapes {s : List Nat} {R v y : Tree (Arr ℝ)} (hR : R.map Arr.shape = y.map fun b => s ++ b.shape)
    (hv : SameShapes v y) : R.leaves.length = v.leaves.length ∧ ∀ p ∈ R.leaves.zip v.leaves, p.1.shape = s ++ p.2.shape := by
  have h : R.map Arr.shape = v.map fun b => s ++ b.shape := by
    have := congrArg (Tree.map fun sh => s ++ sh) hv
    rw [map_map, map_map] at this
    rw [hR, this]
  obtain ⟨q, rfl, rfl, h3⟩ := pair_exists _ _ R v h
  rw [leaves_map, leaves_map, List.zip_map']
  refine ⟨by simp, ?_⟩
  intro p hp
  obtain ⟨r, hr, rfl⟩ := List.mem_map.1 hp
  exact h3 r hr

/-- The value of an operator, row by row. -/
theorem mv_ok {X : Type} {x y v : Tree (Arr ℝ)} {c : Tree (Arr ℝ × X)} {row : Arr ℝ × X → Tree (Arr ℝ)}
    (hc : c.map Prod.fst = x) (hrow : ∀ p ∈ c.leaves, (row p).map Arr.shape = y.map fun b => p.1.shape ++ b.shape)
    (hv : SameShapes v y) (hne : y.leaves ≠ []) :
    mv (c.bind row) x v = .ok (c.map fun p => .ofFn p.1.shape (rowSum (row p).leaves v.leaves)) := by
  have hs : x.map (fun _ => ()) = c.map (fun _ => ()) := by rw [← hc, map_map]
  rw [mv, zip_bind _ _ x c hs (fun p => rowApply (row p) v) fun _ _ => rfl]
  apply mapM_ok
  intro p hp
  obtain ⟨h1, h2⟩ := zip_shapes (hrow p hp) hv
  rw [rowApply_ok h1 ?_ h2]
  · rfl
  · have := congrArg List.length (leaves_shapes hv)
    simp only [List.length_map] at this
    intro e
    rw [e] at this
    exact hne (List.length_eq_zero_iff.1 this.symm)

theorem rowSum_linear (s : List Nat) (k : Nat) (hk : k < s.prod) (f : ℝ → ℝ → ℝ) (c1 c2 : ℝ)
    (hf : ∀ a b, f a b = c1 * a + c2 * b) : ∀ (l : List (Arr ℝ × Arr ℝ)) (V : List (Arr ℝ)),
    (∀ r ∈ l.zip V, r.1.1.shape = s ++ r.2.shape) →
    rowSum (l.map fun p => .ofFn p.1.shape fun k => f (p.1.get k) (p.2.get k)) V k =
      c1 * rowSum (l.map Prod.fst) V k + c2 * rowSum (l.map Prod.snd) V k := by
  intro l
  induction l with
  | nil => intro V _; simp [rowSum]
  | cons p l ih =>
    intro V h
    cases V with
    | nil => simp [rowSum]
    | cons v V =>
      have ih' := ih V fun r hr => h r (by simp [hr])
      have hp := h (p, v) (by simp)
      simp only at hp
      simp only [rowSum] at ih'
      simp only [rowSum, List.map_cons, List.zip_cons_cons, List.sum_cons, ih']
      have hd : rowDot (.ofFn p.1.shape fun k => f (p.1.get k) (p.2.get k)) v k =
          c1 * rowDot p.1 v k + c2 * rowDot p.2 v k := by
        simp only [rowDot]
        rw [← List.sum_map_mul_left, ← List.sum_map_mul_left, ← List.sum_map_add]
        congr 1
        apply List.map_congr_left
        intro j hj
        rw [List.mem_range] at hj
        have hlt : k * v.size + j < p.1.shape.prod := by
          rw [hp, List.prod_append]
          calc k * v.size + j < k * v.size + v.size := by omega
            _ = (k + 1) * v.size := by ring
            _ ≤ s.prod * v.shape.prod := Nat.mul_le_mul_right _ hk
        rw [get_ofFn _ _ _ hlt, hf]
        ring
      rw [hd]
      ring

/-- **C69**: adding matrices leaf by leaf adds what they do. -/
theorem C69_add (x y A B v : Tree (Arr ℝ)) (hA : IsOperator x y A) (hB : IsOperator x y B) (hv : SameShapes v y)
    (hne : y.leaves ≠ []) : ∃ S u w r, treeAdd A B = .ok S ∧ IsOperator x y S ∧ mv A x v = .ok u ∧ mv B x v = .ok w ∧
      treeAdd u w = .ok r ∧ mv S x v = .ok r ∧ SameShapes r x := by
  obtain ⟨Q, rfl, rfl, h3⟩ := pair_exists _ _ A B (hA.trans hB.symm)
  have hQ : Q.map (fun p => p.1.shape) = x.bind fun a => y.map fun b => a.shape ++ b.shape := by
    rw [← hA, map_map]
  obtain ⟨c, hc1, hc2, hc3⟩ := split_exists _ _ x Q hQ
  subst hc2
  have hS : treeAdd ((c.bind Prod.snd).map Prod.fst) ((c.bind Prod.snd).map Prod.snd) =
      .ok ((c.bind Prod.snd).map fun p => .ofFn p.1.shape fun k => p.1.get k + p.2.get k) := by
    rw [treeAdd, map2_pair, mapM_ok]
    intro p hp
    simp [addArr, h3 p hp]
  have hSop : IsOperator x y ((c.bind Prod.snd).map fun p => .ofFn p.1.shape fun k => p.1.get k + p.2.get k) := by
    rw [IsOperator, map_map]
    exact hQ
  have h3' : ∀ p ∈ c.leaves, ∀ q ∈ p.2.leaves, q.1.shape = q.2.shape := by
    intro p hp q hq
    apply h3
    rw [leaves_bind]
    exact List.mem_flatMap.2 ⟨p, hp, hq⟩
  refine ⟨_, c.map fun p => .ofFn p.1.shape (rowSum (p.2.map Prod.fst).leaves v.leaves),
    c.map fun p => .ofFn p.1.shape (rowSum (p.2.map Prod.snd).leaves v.leaves),
    c.map fun p => .ofFn p.1.shape (rowSum (p.2.map fun q => .ofFn q.1.shape fun k => q.1.get k + q.2.get k).leaves v.leaves),
    hS, hSop, ?_, ?_, ?_, ?_, ?_⟩
  · rw [map_bind]
    exact mv_ok hc1 (fun p hp => by rw [map_map]; exact hc3 p hp) hv hne
  · rw [map_bind]
    refine mv_ok hc1 (fun p hp => ?_) hv hne
    rw [map_map, ← hc3 p hp]
    exact map_congr _ fun q hq => (h3' p hp q hq).symm
  · have e1 : (c.map fun p => Arr.ofFn p.1.shape (rowSum (p.2.map Prod.fst).leaves v.leaves)) =
        (c.map fun p => (Arr.ofFn p.1.shape (rowSum (p.2.map Prod.fst).leaves v.leaves),
          Arr.ofFn p.1.shape (rowSum (p.2.map Prod.snd).leaves v.leaves))).map Prod.fst := by rw [map_map]
    have e2 : (c.map fun p => Arr.ofFn p.1.shape (rowSum (p.2.map Prod.snd).leaves v.leaves)) =
        (c.map fun p => (Arr.ofFn p.1.shape (rowSum (p.2.map Prod.fst).leaves v.leaves),
          Arr.ofFn p.1.shape (rowSum (p.2.map Prod.snd).leaves v.leaves))).map Prod.snd := by rw [map_map]
    rw [treeAdd, e1, e2, map2_pair, mapM_ok (g := fun p => .ofFn p.1.shape fun k => p.1.get k + p.2.get k)]
    · rw [map_map]
      congr 1
      apply map_congr
      intro p hp
      simp only [shape_ofFn]
      apply ofFn_congr
      intro k hk
      rw [get_ofFn _ _ _ hk, get_ofFn _ _ _ hk, leaves_map, leaves_map, leaves_map,
        rowSum_linear p.1.shape k hk (fun a b => a + b) 1 1 (fun a b => by ring), one_mul, one_mul]
      have hz := (zip_shapes (R := p.2.map Prod.fst) (by rw [map_map]; exact hc3 p hp) hv).2
      rw [leaves_map, List.zip_map_left] at hz
      intro r hr
      exact hz (r.1.1, r.2) (List.mem_map.2 ⟨r, hr, rfl⟩)
    · intro p hp
      rw [leaves_map] at hp
      obtain ⟨q, _, rfl⟩ := List.mem_map.1 hp
      simp [addArr]
  · rw [map_bind]
    exact mv_ok hc1 (fun p hp => by rw [map_map]; exact hc3 p hp) hv hne
  · rw [SameShapes, map_map, ← hc1, map_map]
    rfl

/-- **C69**: scaling a matrix leaf by leaf scales what it does. -/
theorem C69_scale (a : ℝ) (x y A v : Tree (Arr ℝ)) (hA : IsOperator x y A) (hv : SameShapes v y) (hne : y.leaves ≠ []) :
    ∃ u, mv A x v = .ok u ∧ IsOperator x y (treeScale a A) ∧ mv (treeScale a A) x v = .ok (treeScale a u) := by
  obtain ⟨c, hc1, hc2, hc3⟩ := split_exists _ _ x A hA
  subst hc2
  refine ⟨_, mv_ok hc1 hc3 hv hne, ?_, ?_⟩
  · rw [IsOperator, treeScale, map_map]
    exact hA
  · rw [treeScale, map_bind, mv_ok hc1 (fun p hp => by rw [map_map]; exact hc3 p hp) hv hne, treeScale, map_map]
    congr 1
    apply map_congr
    intro p hp
    apply ofFn_congr
    intro k hk
    have hk' : k < p.1.shape.prod := hk
    change _ = a * (Arr.ofFn p.1.shape _).get k
    rw [get_ofFn _ _ _ hk', leaves_map]
    have hz := (zip_shapes (hc3 p hp) hv).2
    have := rowSum_linear p.1.shape k hk (fun r _ => a * r) a 0 (fun r s => by ring) (p.2.leaves.map fun q => (q, q)) v.leaves
      (by
        intro r hr
        rw [List.zip_map_left] at hr
        obtain ⟨q, hq, rfl⟩ := List.mem_map.1 hr
        exact hz q hq)
    rw [List.map_map, List.map_map, List.map_map, zero_mul, add_zero] at this
    simp only [Function.comp_def, List.map_id'] at this
    exact this

/-! ### The helpers -/

/-- **C69**: `tree_full_like`: same shapes, and every entry is the fill value. -/
theorem C69_full_like {K : Type} (t : Tree (Arr K)) (c : K) :
    SameShapes (treeFullLike t c) t ∧ ∀ x ∈ ravel (treeFullLike t c), x = c := by
  constructor
  · rw [SameShapes, treeFullLike, map_map]; rfl
  · intro x hx
    rw [ravel, treeFullLike, leaves_map, List.mem_flatMap] at hx
    obtain ⟨a, ha, hx⟩ := hx
    obtain ⟨b, _, rfl⟩ := List.mem_map.1 ha
    simp only [Arr.ofFn, List.mem_map] at hx
    obtain ⟨_, _, rfl⟩ := hx
    rfl

/-- **C69**: `tree_allfinite` says whether all entries of all leaves are finite. -/
theorem C69_allfinite (t : Tree (Arr XR)) : treeAllfinite t = true ↔ ∀ x ∈ ravel t, x.isFinite = true := by
  have hf : ∀ (l : List Bool) (b : Bool), l.foldl (fun a b => a && b) b = (b && l.all id) := by
    intro l
    induction l with
    | nil => intro b; simp
    | cons a l ih => intro b; simp [ih, Bool.and_assoc]
  simp only [treeAllfinite, hf, leaves_map, ravel, Bool.true_and, List.all_map, Function.comp_def, id, List.all_eq_true,
    List.mem_flatMap]
  constructor
  · rintro h x ⟨a, ha, hx⟩
    exact h a ha x hx
  · intro h a ha x hx
    exact h x ⟨a, ha, hx⟩

theorem where_ok {K : Type} [Zero K] (p : Bool) (t f : Tree (Arr K)) (h : SameShapes t f) :
    map2 (whereArr p) t f = .ok (if p then t else f) := by
  obtain ⟨q, rfl, rfl, h3⟩ := pair_exists _ _ t f h
  rw [map2_pair]
  rw [mapM_ok (g := fun r => if p then r.1 else r.2)]
  · cases p <;> rfl
  · intro r hr
    simp only [whereArr, h3 r hr, if_true]
    congr 1
    cases p
    · exact arr_ofFn_get r.2
    · rw [← h3 r hr]; exact arr_ofFn_get r.1

/-- **C69**: `tree_where` succeeds exactly if the trees have the same structure and shapes and `pred` is a prefix of them, that
is, if `pred` is the same tree with subtrees of `true` and `false` collapsed to one flag each (`c` holds the flags and the
subtrees); then every subtree is taken from `true` or `false` according to its flag. -/
theorem C69_where {K : Type} [Zero K] (pred : Tree Bool) (t f r : Tree (Arr K)) :
    treeWhere pred t f = .ok r ↔ ∃ c : Tree (Bool × Tree (Arr K) × Tree (Arr K)),
      pred = c.map Prod.fst ∧ t = c.bind (fun p => p.2.1) ∧ f = c.bind (fun p => p.2.2) ∧
      (∀ p ∈ c.leaves, SameShapes p.2.1 p.2.2) ∧ r = c.bind fun p => if p.1 then p.2.1 else p.2.2 := by
  have hcut : ∀ c : Tree (Bool × Tree (Arr K) × Tree (Arr K)),
      cut2 (c.map Prod.fst) (c.bind fun p => p.2.1) (c.bind fun p => p.2.2) =
        .ok (c.map fun p => ((p.1, p.2.1), p.2.2)) := by
    intro c
    rw [cut2, zip_map_bind, mapM_ok (g := fun d => (d.1, d.2.1)) c fun _ _ => rfl]
    simp only [Except.bind]
    rw [zip_map_bind, mapM_ok (g := fun d => ((d.1, d.2.1), d.2.2)) c fun _ _ => rfl]
  have hgood : ∀ c : Tree (Bool × Tree (Arr K) × Tree (Arr K)), (∀ p ∈ c.leaves, SameShapes p.2.1 p.2.2) →
      treeWhere (c.map Prod.fst) (c.bind fun p => p.2.1) (c.bind fun p => p.2.2) =
        .ok (c.bind fun p => if p.1 then p.2.1 else p.2.2) := by
    intro c h
    simp only [treeWhere, hcut, Except.bind]
    rw [mapM_ok (g := fun p => if p.1.1 then p.1.2 else p.2)]
    · simp only [Except.map, bind_map, id]
    · intro p hp
      rw [leaves_map] at hp
      obtain ⟨q, hq, rfl⟩ := List.mem_map.1 hp
      exact where_ok _ _ _ (h q hq)
  constructor
  · intro h
    simp only [treeWhere] at h
    cases hc : cut2 pred t f with
    | error e => rw [hc] at h; cases h
    | ok c =>
      have hinv : pred = c.map (fun p => p.1.1) ∧ t = c.bind (fun p => p.1.2) ∧ f = c.bind (fun p => p.2) := by
        simp only [cut2] at hc
        cases h1 : pred.zip (fun p u => (.ok (p, u) : Except Err _)) t with
        | error e => rw [h1] at hc; cases hc
        | ok d =>
          rw [h1] at hc
          simp only [Except.bind] at hc
          obtain ⟨a1, a2⟩ := zip_inv pred t d h1
          obtain ⟨b1, b2⟩ := zip_inv d f c hc
          rw [← a1, ← a2, ← b1, map_map, bind_map]
          exact ⟨rfl, rfl, b2.symm⟩
      have hs : ∀ p ∈ c.leaves, SameShapes p.1.2 p.2 := by
        rw [hc] at h
        simp only [Except.bind] at h
        cases hm : c.mapM fun p => map2 (whereArr p.1.1) p.1.2 p.2 with
        | error e => rw [hm] at h; cases h
        | ok d =>
          intro p hp
          obtain ⟨r', hr'⟩ := mapM_inv _ c d hm p hp
          obtain ⟨q, h1, h2, h3⟩ := map2_inv _ _ _ _ hr'
          rw [SameShapes, ← h1, ← h2, map_map, map_map]
          apply map_congr
          intro a ha
          obtain ⟨r'', hr''⟩ := h3 a ha
          simp only [whereArr] at hr''
          split at hr''
          · assumption
          · cases hr''
      have hs' : ∀ p ∈ (c.map fun p => (p.1.1, p.1.2, p.2)).leaves, SameShapes p.2.1 p.2.2 := by
        intro p hp
        rw [leaves_map] at hp
        obtain ⟨q, hq, rfl⟩ := List.mem_map.1 hp
        exact hs q hq
      have hgood' := hgood (c.map fun p => (p.1.1, p.1.2, p.2)) hs'
      refine ⟨c.map fun p => (p.1.1, p.1.2, p.2), ?_, ?_, ?_, hs', ?_⟩
      · rw [map_map]; exact hinv.1
      · rw [bind_map]; exact hinv.2.1
      · rw [bind_map]; exact hinv.2.2
      · rw [map_map, bind_map, bind_map] at hgood'
        simp only at hgood'
        rw [← hinv.1, ← hinv.2.1, ← hinv.2.2] at hgood'
        simp only [treeWhere] at hgood'
        rw [hgood'] at h
        exact (Except.ok.inj h).symm
  · rintro ⟨c, rfl, rfl, rfl, h, rfl⟩
    exact hgood c h

/-! ### The hypotheses can be met -/

/-- A tree with two containers, an array of shape `(2, 2)`, a vector of length `3` and a scalar. -/
def sample : Tree (Arr ℝ) :=
  .node 0 [.leaf (.ofFn [2, 2] fun k => k), .node 1 [.leaf (.ofFn [3] fun _ => 1), .node 2 [], .leaf (.ofFn [] fun _ => 5)]]

/-- C69: `sample` has the same shapes as itself filled with zeros, and has leaves. -/
example : SameShapes (treeFullLike sample 0) sample ∧ sample.leaves ≠ [] ∧ (ravel sample).length = 8 := by
  refine ⟨(C69_full_like sample 0).1, by simp [sample, Tree.leaves, Tree.leavesList], ?_⟩
  simp [sample, ravel, Tree.leaves, Tree.leavesList, Arr.ofFn]

/-- C69: operators on such trees exist: `outer sample sample`. -/
example : IsOperator sample sample (outer sample sample) :=
  (C69_outer sample sample sample rfl (by simp [sample, Tree.leaves, Tree.leavesList])).1

/-- C69: one flag for the array, one for the whole inner container. -/
example (f : Tree (Arr ℝ)) (h : SameShapes sample f) : ∃ r, treeWhere (.leaf true) sample f = .ok r ∧ r = sample :=
  ⟨sample, (C69_where _ _ _ _).2 ⟨.leaf (true, sample, f), by simp [Tree.map], by simp [Tree.bind], by simp [Tree.bind],
    by simpa [Tree.leaves] using h, by simp [Tree.bind]⟩, rfl⟩

/-- C69: trees of different structure are rejected. -/
example (k : Nat) (ps : List (Tree Bool)) (a : Arr ℝ) (f : Tree (Arr ℝ)) :
    treeWhere (.node k ps) (.leaf a) f = .error mismatch := rfl

end Verif.PyTree
