import Verif.Model.PyTree

/-! Notions used to state the properties of trees of arrays. -/

namespace Verif.PyTree

/-- Same containers, same arrangement, same array shapes. -/
def SameShapes {K K' : Type} (t : Tree (Arr K)) (u : Tree (Arr K')) : Prop := t.map Arr.shape = u.map Arr.shape

/-- A tree that is a matrix from trees like `y` to trees like `x`: in the place of every leaf `a` of `x` there is a tree like
`y`, with an array of shape `a.shape + b.shape` in the place of every leaf `b`. -/
def IsOperator (x y A : Tree (Arr ℝ)) : Prop := A.map Arr.shape = x.bind fun a => y.map fun b => a.shape ++ b.shape

/-- The sum of products of corresponding numbers. -/
noncomputable def dot (a b : List ℝ) : ℝ := (List.zipWith (· * ·) a b).sum

end Verif.PyTree
