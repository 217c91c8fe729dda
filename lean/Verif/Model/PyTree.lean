import Verif.Model.Iterate
import Verif.Model.XR
import Mathlib.Data.Real.Basic
import Mathlib.Algebra.BigOperators.Group.List.Basic

/-!
Model of PyTrees of arrays, of the `jax.tree_util` functions the package uses on them (trusted, from their documentation), of
the leaf-by-leaf helpers of `optimistix/_misc.py` and of `_identity_pytree`, `_outer` of
`optimistix/_solver/quasi_newton.py`.

Elsewhere in the model a PyTree is the family of its scalar entries.  Here the trees are kept.
-/

namespace Verif.PyTree

/-- A PyTree: a leaf, or a container with its children; `tag` stands for the type of the container and its static data (keys
of a dictionary, class of a module).  `None` is a container without children.
(The arguments of `_misc.py:49-134` and `quasi_newton.py:41-82`.) -/
inductive Tree (α : Type) where
  | leaf (a : α)
  | node (tag : Nat) (children : List (Tree α))

variable {α β γ : Type}

mutual
/-- `jtu.tree_leaves`.  Called in `nelder_mead.py:124`, `_iterate.py:333`. -/
def Tree.leaves : Tree α → List α
  | .leaf a => [a]
  | .node _ ts => Tree.leavesList ts
/-- `jtu.tree_leaves` on the children of a container.  (As `Tree.leaves`: `nelder_mead.py:124`.) -/
def Tree.leavesList : List (Tree α) → List α
  | [] => []
  | t :: ts => t.leaves ++ Tree.leavesList ts
end

mutual
/-- `jtu.tree_map` of a function on one tree; it may raise.  Called in `_misc.py:82, 240-241`. -/
def Tree.mapM (f : α → Except Err β) : Tree α → Except Err (Tree β)
  | .leaf a => (f a).map .leaf
  | .node k ts => (Tree.mapMList f ts).map (.node k)
/-- `jtu.tree_map` on the children of a container.  (As `Tree.mapM`: `_misc.py:82`.) -/
def Tree.mapMList (f : α → Except Err β) : List (Tree α) → Except Err (List (Tree β))
  | [] => .ok []
  | t :: ts => (t.mapM f).bind fun u => (Tree.mapMList f ts).map (u :: ·)
end

mutual
/-- `jtu.tree_map` of a function that does not raise.  Called in `_misc.py:86`, `quasi_newton.py:80-82`. -/
def Tree.map (f : α → β) : Tree α → Tree β
  | .leaf a => .leaf (f a)
  | .node k ts => .node k (Tree.mapList f ts)
/-- `jtu.tree_map` on the children of a container.  (As `Tree.map`: `_misc.py:86`.) -/
def Tree.mapList (f : α → β) : List (Tree α) → List (Tree β)
  | [] => []
  | t :: ts => t.map f :: Tree.mapList f ts
end

/-- The error of `jtu.tree_map` on trees that do not match.  (Raised below `_misc.py:99-104, 124`.) -/
def mismatch : Err := .valueError "Mismatch custom node data"

mutual
/-- `jtu.tree_map(f, t, u)`: the structure of `t` must be a prefix of that of `u`; `f` is given each leaf of `t` and the
subtree of `u` in its place.  Called in `_misc.py:99-104, 124, 207`. -/
def Tree.zip (f : α → Tree β → Except Err γ) : Tree α → Tree β → Except Err (Tree γ)
  | .leaf a, u => (f a u).map .leaf
  | .node k ts, .node k' us => if k = k' then (Tree.zipList f ts us).map (.node k) else .error mismatch
  | .node _ _, .leaf _ => .error mismatch
/-- `jtu.tree_map` on the children of two containers.  (As `Tree.zip`: `_misc.py:99-104`.) -/
def Tree.zipList (f : α → Tree β → Except Err γ) : List (Tree α) → List (Tree β) → Except Err (List (Tree γ))
  | [], [] => .ok []
  | t :: ts, u :: us => (Tree.zip f t u).bind fun v => (Tree.zipList f ts us).map (v :: ·)
  | _, _ => .error mismatch
end

mutual
/-- `jtu.tree_unflatten` with the structure of a tree: take the leaves from a list, left to right; the rest of the list is
returned.  Called in `quasi_newton.py:72`. -/
def Tree.fill : Tree α → List β → Option (Tree β × List β)
  | .leaf _, [] => none
  | .leaf _, b :: bs => some (.leaf b, bs)
  | .node k ts, bs => (Tree.fillList ts bs).map fun r => (.node k r.1, r.2)
/-- `jtu.tree_unflatten` for the children of a container.  (As `Tree.fill`: `quasi_newton.py:72`.) -/
def Tree.fillList : List (Tree α) → List β → Option (List (Tree β) × List β)
  | [], bs => some ([], bs)
  | t :: ts, bs => (t.fill bs).bind fun r => (Tree.fillList ts r.2).map fun r' => (r.1 :: r'.1, r'.2)
end

/-- `jtu.tree_unflatten`: the number of leaves must be right.  Called in `quasi_newton.py:72`, `nelder_mead.py:176`. -/
def Tree.unflatten (structure_ : Tree α) (leaves : List β) : Except Err (Tree β) :=
  match structure_.fill leaves with
  | some (t, []) => .ok t
  | _ => .error (.valueError "Too many or too few leaves for PyTreeDef")

mutual
/-- Every leaf replaced by a tree.  `structure.compose(inner)` is this with the same tree for every leaf, and so is
`jtu.tree_map` of a function that returns trees.  (`quasi_newton.py:55`.) -/
def Tree.bind (f : α → Tree β) : Tree α → Tree β
  | .leaf a => f a
  | .node k ts => .node k (Tree.bindList f ts)
/-- `Tree.bind` on the children of a container.  (As `Tree.bind`: `quasi_newton.py:55`.) -/
def Tree.bindList (f : α → Tree β) : List (Tree α) → List (Tree β)
  | [] => []
  | t :: ts => t.bind f :: Tree.bindList f ts
end

/-- An array: its shape and its entries in row-major order.  Simplification: dtypes are left out.
(The leaves in `_misc.py:49-134`, `quasi_newton.py:41-82`.) -/
structure Arr (K : Type) where
  shape : List Nat
  data : List K
  size_eq : data.length = shape.prod

/-- The array of a given shape with given entries.  (For the arrays made in `quasi_newton.py:62-67, 80`.) -/
def Arr.ofFn {K : Type} (shape : List Nat) (g : Nat → K) : Arr K := ⟨shape, (List.range shape.prod).map g, by simp⟩

/-- `jnp.size`.  Called in `quasi_newton.py:62`, `nelder_mead.py:150, 160`. -/
def Arr.size {K : Type} (a : Arr K) : Nat := a.shape.prod

/-- The entry at a row-major position; `0` outside.  (For the arrays of `quasi_newton.py:62-80`.) -/
def Arr.get {K : Type} [Zero K] (a : Arr K) (k : Nat) : K := a.data.getD k 0

/-! ### The helpers of `_misc.py` -/

/-- `_misc.py:61-82`, `tree_full_like`.  Simplification: the trees of this model have arrays only as leaves, so that
`allow_static` makes no difference. -/
def treeFullLike {K : Type} (struct : Tree (Arr K)) (fillValue : K) : Tree (Arr K) :=
  struct.map fun x => .ofFn x.shape fun _ => fillValue

/-- `_misc.py:85-87`, `tree_allfinite`. -/
def treeAllfinite (tree : Tree (Arr XR)) : Bool :=
  let bools := tree.map fun x => x.data.all XR.isFinite
  bools.leaves.foldl (fun a b => a && b) true

/-- `jnp.where(p, t, f)` for a scalar `p` and arrays of the same shape.  Called in `_misc.py:100`. -/
def whereArr {K : Type} [Zero K] (p : Bool) (t f : Arr K) : Except Err (Arr K) :=
  if t.shape = f.shape then .ok (.ofFn t.shape fun k => if p then t.get k else f.get k)
  else .error (.valueError "Incompatible shapes for broadcasting")

/-- A function of two leaves, given a leaf and a tree.  (The functions passed to `jtu.tree_map` in `_misc.py:100, 124`.) -/
def onLeaves (g : α → β → Except Err γ) (a : α) : Tree β → Except Err γ
  | .leaf b => g a b
  | .node _ _ => .error mismatch

/-- `jtu.tree_map(g, t, f)` for trees of the same structure and a function of two leaves.  Called in `_misc.py:100`. -/
def map2 (g : α → β → Except Err γ) (t : Tree α) (u : Tree β) : Except Err (Tree γ) := t.zip (onLeaves g) u

/-- Pairs of subtrees, as `jtu.tree_map(h, pred, true, false)` passes them to `h`: both trees are cut at the leaves of
`pred`.  (`_misc.py:99-104`.) -/
def cut2 (pred : Tree α) (t : Tree β) (f : Tree γ) : Except Err (Tree ((α × Tree β) × Tree γ)) :=
  (pred.zip (fun p u => .ok (p, u)) t).bind fun pt => pt.zip (fun p u => .ok (p, u)) f

/-- `_misc.py:90-105`, `tree_where`, for a tree of scalars `pred`. -/
def treeWhere {K : Type} [Zero K] (pred : Tree Bool) (true_ false_ : Tree (Arr K)) : Except Err (Tree (Arr K)) :=
  (cut2 pred true_ false_).bind fun c =>
    (c.mapM fun p => map2 (whereArr p.1.1) p.1.2 p.2).map fun nested => nested.bind id

/-- `jfu.ravel_pytree(tree)[0]` (used by `tree_min`, `tree_max`, `_misc.py:127-134`): all entries, one leaf after another. -/
def ravel {K : Type} (tree : Tree (Arr K)) : List K := tree.leaves.flatMap Arr.data

/-- `tree_dot` (`_misc.py:44`, imported from `lineax.internal`; trusted): the sum over the leaves of `jnp.vdot`. -/
def treeDot (a b : Tree (Arr ℝ)) : Except Err ℝ :=
  (map2 (fun x y => if x.shape = y.shape then .ok (((List.range x.size).map fun k => x.get k * y.get k).sum)
    else .error (.valueError "axes do not match")) a b).map fun t => t.leaves.sum

/-! ### The matrices of the quasi-Newton methods -/

/-- `jnp.eye(n).reshape(shape + shape)`, where `n` is the number of entries of `shape`.  Called in `quasi_newton.py:62-65`. -/
def eyeReshaped (shape : List Nat) : Arr ℝ :=
  .ofFn (shape ++ shape) fun k => if k / shape.prod = k % shape.prod then 1 else 0

/-- `jnp.zeros`.  Called in `quasi_newton.py:67`. -/
def zeros (shape : List Nat) : Arr ℝ := .ofFn shape fun _ => 0

/-- `jnp.tensordot(x, y, axes=0)`.  Called in `quasi_newton.py:80`. -/
def tensorOuter (x y : Arr ℝ) : Arr ℝ := .ofFn (x.shape ++ y.shape) fun k => x.get (k / y.size) * y.get (k % y.size)

/-- `jnp.tensordot(m, v, axes=jnp.ndim(v))`: contract the last axes of `m` with `v`.
Called by the operators of `quasi_newton.py:71-74` (`lineax`, trusted). -/
def tensorApply (m v : Arr ℝ) : Except Err (Arr ℝ) :=
  let d := m.shape.length - v.shape.length
  if m.shape.drop d = v.shape then
    .ok (.ofFn (m.shape.take d) fun i => ((List.range v.size).map fun j => m.get (i * v.size + j) * v.get j).sum)
  else .error (.valueError "axes do not match")

/-- `x + y` of arrays of the same shape.  Simplification: no broadcasting.  (Below the `ω` sums, e.g. `quasi_newton.py:379-395`.) -/
def addArr (x y : Arr ℝ) : Except Err (Arr ℝ) :=
  if x.shape = y.shape then .ok (.ofFn x.shape fun k => x.get k + y.get k)
  else .error (.valueError "Incompatible shapes for broadcasting")

/-- `quasi_newton.py:41-75`, `_identity_pytree`: the PyTree held by the operator. -/
def identityPytree (pytree : Tree (Arr ℝ)) : Except Err (Tree (Arr ℝ)) :=
  let leaves := pytree.leaves
  let eyeStructure := pytree.bind fun _ => pytree
  let eyeLeaves := leaves.zipIdx.flatMap fun p1 => leaves.zipIdx.map fun p2 =>
    if p1.2 = p2.2 then eyeReshaped p1.1.shape else zeros (p1.1.shape ++ p2.1.shape)
  eyeStructure.unflatten eyeLeaves

/-- `quasi_newton.py:78-82`, `_outer`. -/
def outer (tree1 tree2 : Tree (Arr ℝ)) : Tree (Arr ℝ) := tree1.bind fun x => tree2.map fun leaf => tensorOuter x leaf

/-- `(tree1**ω + tree2**ω).ω`: leaf by leaf.  (E.g. `quasi_newton.py:379-395`.) -/
def treeAdd (tree1 tree2 : Tree (Arr ℝ)) : Except Err (Tree (Arr ℝ)) := map2 addArr tree1 tree2

/-- `(c * tree**ω).ω`.  (E.g. `quasi_newton.py:379-395`.) -/
def treeScale (c : ℝ) (tree : Tree (Arr ℝ)) : Tree (Arr ℝ) := tree.map fun x => .ofFn x.shape fun k => c * x.get k

/-- Python's `sum` of a list of arrays.  (Below the operators of `quasi_newton.py:71-74`.) -/
def sumArr : List (Arr ℝ) → Except Err (Arr ℝ)
  | [] => .ok (zeros [])
  | a :: as => as.foldlM addArr a

/-- One block row of an operator applied to a vector (`lineax`, trusted): multiply leaf by leaf and add up.
(Operators of `quasi_newton.py:71-74`.) -/
def rowApply (row vector : Tree (Arr ℝ)) : Except Err (Arr ℝ) :=
  if row.leaves.length = vector.leaves.length then
    ((row.leaves.zip vector.leaves).mapM fun p => tensorApply p.1 p.2).bind sumArr
  else .error (.valueError "AssertionError")

/-- `lx.PyTreeLinearOperator(pytree, out_structure).mv(vector)` (`lineax`, trusted): one block row for every leaf of the
output structure.  (Operators of `quasi_newton.py:71-74`.) -/
def mv (pytree outStructure vector : Tree (Arr ℝ)) : Except Err (Tree (Arr ℝ)) :=
  outStructure.zip (fun _ row => rowApply row vector) pytree

end Verif.PyTree
