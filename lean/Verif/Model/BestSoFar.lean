import Verif.Model.Misc
import Verif.Model.Iterate
import Mathlib.Order.WithBot

/-!
Model of `optimistix/_solver/best_so_far.py`: the four `BestSoFar…` wrappers around an arbitrary iterative solver.
-/

namespace Verif.BestSoFar

variable {Y Out A St Stats L : Type}

/-- `best_so_far.py:21-25`, `_BestSoFarState`. -/
structure State (Y A L St : Type) where
  bestY : Y
  bestAux : A
  bestLoss : L
  state : St

/-- `best_so_far.py:28-30`, `_auxmented`: the user's function, reporting its own output as an extra auxiliary value. -/
def auxmented (fn : Y → Out × A) : Y → Out × (Out × A) := fun y => ((fn y).1, ((fn y).1, (fn y).2))

/-- `best_so_far.py:51-68`, `_AbstractBestSoFarSolver.init`.  `inf` is `jnp.inf` and `auxZero` is
`tree_full_like(aux_struct, 0)`. -/
def init (S : Solver Y Out (Out × A) St Stats) (inf : L) (auxZero : A) (fn : Y → Out × A) (y : Y) :
    Except Err (State Y A L St) :=
  match S.init (auxmented fn) y with
  | .error e => .error e
  | .ok st => .ok { bestY := y, bestAux := auxZero, bestLoss := inf, state := st }

/-- `best_so_far.py:69-90`, `_AbstractBestSoFarSolver.step`.  `toLoss` is the method `_to_loss`. -/
def step [LT L] [DecidableLT L] (S : Solver Y Out (Out × A) St Stats) (toLoss : Y → Out → L) (fn : Y → Out × A) (y : Y)
    (st : State Y A L St) : Y × State Y A L St × A :=
  let out := S.step (auxmented fn) y st.state
  let f := out.2.2.1
  let newAux := out.2.2.2
  let loss := toLoss y f
  let pred := loss < st.bestLoss
  (out.1,
    { bestY := if pred then y else st.bestY, bestAux := if pred then newAux else st.bestAux,
      bestLoss := if pred then loss else st.bestLoss, state := out.2.1 }, newAux)

/-- `best_so_far.py:33-115`, the wrapper as a solver (`terminate`: 92-102, `postprocess`: 104-115). -/
def solver [LT L] [DecidableLT L] (S : Solver Y Out (Out × A) St Stats) (toLoss : Y → Out → L) (inf : L)
    (auxZero : A) : Solver Y Out A (State Y A L St) Unit where
  init := init S inf auxZero
  step := step S toLoss
  terminate fn y st := S.terminate (auxmented fn) y st.state
  postprocess _ _ _ st _ := (st.bestY, st.bestAux, ())

/-- `best_so_far.py:132-133`, `BestSoFarMinimiser._to_loss`; for `XR`-valued functions. -/
def minLossX (_ : Y) (f : XR) : XR := f

/-- `best_so_far.py:132-133`, `BestSoFarMinimiser._to_loss`; for real-valued functions, `⊤` being `jnp.inf`. -/
def minLoss (_ : Y) (f : ℝ) : WithTop ℝ := f

variable {ι κ : Type} [Fintype ι] [Fintype κ]

/-- `best_so_far.py:172-173` and `210-211`, `BestSoFarLeastSquares._to_loss`, `BestSoFarRootFinder._to_loss`. -/
noncomputable def sqLoss (_ : Y) (f : κ → ℝ) : WithTop ℝ := (sumSquares f : ℝ)

/-- `best_so_far.py:248-249`, `BestSoFarFixedPoint._to_loss`. -/
noncomputable def fpLoss (y f : ι → ℝ) : WithTop ℝ := (sumSquares fun i => y i - f i : ℝ)

end Verif.BestSoFar
