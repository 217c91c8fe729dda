import Verif.Model.NelderMead

/-!
Model of the option `y0_simplex` of `optimistix/_solver/nelder_mead.py`: the validation of a simplex given by the user.
-/

namespace Verif.NelderMead

/-- The shape of one leaf of a simplex given by the user: `leaf.shape[0]` (how many vertices) and the number of entries of
one row (how many coordinates this leaf contributes to a vertex).  (`nelder_mead.py:124-134`.) -/
structure LeafShape where
  vertices : Nat
  coords : Nat

/-- `nelder_mead.py:121-141`, the branch `y0_simplex=True` of `init`: the number of vertices, or the `ValueError`s.
`x[1:].size` (133) is the number of entries of all rows but the first.  Simplification: leaves without any axis, for which
`x.shape[0]` (124) raises an `IndexError`, are left out. -/
def checkSimplex (leaves : List LeafShape) : Except Err Nat :=
  match (leaves.map LeafShape.vertices).dedup with
  | [nVertices] =>
    let size := (leaves.map fun x => (x.vertices - 1) * x.coords).sum
    if nVertices ≠ size + 1 then .error (.valueError "The PyTree must form a valid simplex: vertices and dimension")
    else .ok nVertices
  | _ => .error (.valueError "The PyTree must form a valid simplex: different leading dimension")

/-- `x.shape[0]` and `x[0].size` of a leaf; `nelder_mead.py:124` raises an `IndexError` (a `valueError` here) for a leaf
without axes. -/
def leafShape (shape : List Nat) : Except Err LeafShape :=
  match shape with
  | [] => .error (.valueError "tuple index out of range")
  | v :: rest => .ok ⟨v, rest.prod⟩

/-- `_minimise.py:90`, `fn = eqx.filter_closure_convert(fn, y0, args)`: what comes of calling the result with `args` and another
`y`.  Equinox (trusted, from its documentation and source) raises a `ValueError` unless the arguments have the tree structure,
shapes and dtypes of those used for the conversion.  Only the shapes of the leaves are modelled. -/
def callConverted (y0Shapes yShapes : List (List Nat)) : Except Err Unit :=
  if yShapes = y0Shapes then .ok ()
  else .error (.valueError "Closure-converted function called with different dynamic arguments")

/-- `minimise(fn, NelderMead(...), y0, options=dict(y0_simplex=given))`, the shapes only, up to the first time that the objective is
called: `nelder_mead.py:121-141` (`init`) and then, while the first `step` is traced, `fn(x, args)` at a vertex `x`
(`nelder_mead.py:359`).  The simplex is `y0` itself if it is given, and `y0` with a new leading axis if not (`leaf[None, ...]`, 161);
`jax.vmap` removes the leading axis of each leaf of the simplex. -/
def firstEvaluation (given : Bool) (y0Shapes : List (List Nat)) : Except Err Unit := do
  let simplexShapes ←
    if given then do
      let leaves ← y0Shapes.mapM leafShape
      let _ ← checkSimplex leaves
      pure y0Shapes
    else pure (y0Shapes.map (((y0Shapes.map List.prod).sum + 1) :: ·))
  callConverted y0Shapes (simplexShapes.map List.tail)

end Verif.NelderMead
