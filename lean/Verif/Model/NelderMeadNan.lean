import Verif.Model.NelderMead
import Verif.Model.AnyScalar

/-!
Model of `optimistix/_solver/nelder_mead.py` for objectives whose values may be NaN or infinite (`XR`).  Coordinates are exact
reals, as in `NelderMead.lean`.  How `lax.top_k` ranks NaN is not documented and depends on the platform, so `lax.top_k` is a
parameter here.
-/

namespace Verif.NelderMeadNan

open NelderMead (Stats updateStats searchDirection along)

/-- The two calls of `lax.top_k` (`nelder_mead.py:383-385`): the position of the smallest entry (`top_k(-f, 1)`), of the largest and of
the second largest one (`top_k(f, 2)`). -/
structure TopK (n : Nat) where
  smallest : (Fin n → XR) → Fin n
  largest : (Fin n → XR) → Fin n
  second : (Fin n → XR) → Fin n

/-- `nelder_mead.py:27-71`, `_NelderMeadState`; `n` vertices, coordinates `ι`. -/
structure State (n : Nat) (ι A : Type) where
  simplex : Fin n → ι → ℝ
  fSimplex : Fin n → XR
  fBest : XR
  best : ι → ℝ
  bestIndex : Fin n
  fWorst : XR
  worst : ι → ℝ
  worstIndex : Fin n
  fSecondWorst : XR
  stats : Stats
  result : Result
  firstPass : Bool
  aux : A
  step : Nat

/-- `nelder_mead.py:104-108`: the fields of `NelderMead` used by `terminate`, the construction of the simplex, and `lax.top_k`. -/
structure Cfg (n : Nat) (ι : Type) where
  rtol : ℝ
  atol : ℝ
  normX : (Fin n × ι → XR) → XR
  normF : (Fin n → XR) → XR
  mkSimplex : (ι → ℝ) → Fin n → ι → ℝ
  topK : TopK n

variable {n : Nat} {ι A : Type} [NeZero n]

/-- `nelder_mead.py:110-204`, `NelderMead.init`, as in `NelderMead.init`. -/
noncomputable def init (cfg : Cfg n ι) (aux0 : A) (y : ι → ℝ) : Except Err (State n ι A) :=
  if n < 2 then .error (.valueError "k argument to top_k must be no larger than size along axis")
  else
    let simplex := cfg.mkSimplex y
    .ok { simplex, fSimplex := fun _ => .pinf, fBest := .fin 0, best := simplex 0, bestIndex := 0, fWorst := .fin 0,
          worst := simplex 0, worstIndex := 0, fSecondWorst := .fin 0, stats := ⟨0, 0, 0, 0, -1⟩, result := .successful,
          firstPass := true, aux := aux0, step := 0 }

/-- `nelder_mead.py:256-297`, `internal_eval`.  Every comparison with NaN is false. -/
noncomputable def internalEval (fBest fWorst fSecondWorst : XR) (worst dir vertex : ι → ℝ) (fVertex : XR) (s : Stats) :
    (ι → ℝ) × Stats :=
  let expand := decide (fVertex < fBest)
  let innerContract := decide (fWorst < fVertex)
  let contract := decide (fSecondWorst < fVertex)
  let outerContract := !(expand || contract)
  let reflect := decide (fBest < fVertex) && decide (fVertex < fSecondWorst)
  let contractConst : ℝ := if innerContract then 1 / 2 else 3 / 2
  let expanded := along worst dir 3
  let contracted := along worst dir contractConst
  let newVertex := if expand then expanded else vertex
  let newVertex := if contract then contracted else newVertex
  (newVertex, updateStats s reflect innerContract outerContract expand false)

/-- `nelder_mead.py:240-327`, `main_step`. -/
noncomputable def mainStep (fn : (ι → ℝ) → XR × A) (st : State n ι A) : (ι → ℝ) × XR × Stats × A :=
  let dir := searchDirection st.simplex st.worst
  let reflection := along st.worst dir 2
  let fReflection := (fn reflection).1
  let nv := internalEval st.fBest st.fWorst st.fSecondWorst st.worst dir reflection fReflection st.stats
  let out := fn nv.1
  (nv.1, out.1, nv.2, out.2)

/-- `nelder_mead.py:228-238`, `init_step`. -/
def initStep (st : State n ι A) : (ι → ℝ) × XR × Stats × A :=
  (st.simplex 0, .pinf, st.stats, st.aux)

/-- `nelder_mead.py:347-360`, `shrink_simplex`. -/
noncomputable def shrinkSimplex (fn : (ι → ℝ) → XR × A) (best : ι → ℝ) (simplex : Fin n → ι → ℝ) (firstPass : Bool) :
    (Fin n → XR) × (Fin n → ι → ℝ) :=
  let shrunk := fun i c => best c + 1 / 2 * (simplex i c - best c)
  let simplex := if firstPass then simplex else shrunk
  (fun i => (fn (simplex i)).1, simplex)

/-- `nelder_mead.py:362-367`, `update_simplex`. -/
def updateSimplex (worstIndex : Fin n) (newVertex : ι → ℝ) (fNewVertex : XR) (fSimplex : Fin n → XR)
    (simplex : Fin n → ι → ℝ) : (Fin n → XR) × (Fin n → ι → ℝ) :=
  (fun i => if i = worstIndex then fNewVertex else fSimplex i, fun i => if i = worstIndex then newVertex else simplex i)

/-- `nelder_mead.py:206-411`, `NelderMead.step` (without the option `y0_simplex`).  As in `NelderMead.step`, lines 387-388 take the
best and worst vertices from the simplex *before* this step. -/
noncomputable def step (topK : TopK n) (fn : (ι → ℝ) → XR × A) (_y : ι → ℝ) (st : State n ι A) :
    (ι → ℝ) × State n ι A × A :=
  let simplex := st.simplex
  let t := if st.firstPass then initStep st else mainStep fn st
  let newVertex := t.1
  let fNewVertex := t.2.1
  let aux := t.2.2.2
  let newBest := decide (fNewVertex < st.fBest)
  let best := if newBest then newVertex else st.best
  let shrink := if st.firstPass then true else decide (st.fWorst < fNewVertex)
  let stats := updateStats t.2.2.1 false false false false shrink
  let u := if shrink then shrinkSimplex fn best st.simplex st.firstPass
    else updateSimplex st.worstIndex newVertex fNewVertex st.fSimplex st.simplex
  let fNewSimplex := u.1
  let newSimplex := u.2
  let bestIndex := topK.smallest fNewSimplex
  let worstIndex := topK.largest fNewSimplex
  let best := simplex bestIndex
  let worst := simplex worstIndex
  (best,
   { simplex := newSimplex, fSimplex := fNewSimplex, fBest := fNewSimplex bestIndex, best, bestIndex,
     fWorst := fNewSimplex worstIndex, worst, worstIndex, fSecondWorst := fNewSimplex (topK.second fNewSimplex), stats,
     result := st.result, firstPass := false, aux, step := st.step + 1 },
   aux)

/-- `nelder_mead.py:413-443`, `NelderMead.terminate`: `NelderMeadAny.terminate`, with finite coordinates. -/
noncomputable def terminate (cfg : Cfg n ι) (st : State n ι A) : Bool × Result :=
  NelderMeadAny.terminate (R := Unit) (.fin cfg.rtol) (.fin cfg.atol) cfg.normX cfg.normF
    { simplex := fun i c => .fin (st.simplex i c), fSimplex := st.fSimplex, fBest := st.fBest,
      best := fun c => .fin (st.best c), rest := () }

/-- `nelder_mead.py:91-463`, the solver (`postprocess`: 445-463). -/
noncomputable def solver (cfg : Cfg n ι) (aux0 : A) : Solver (ι → ℝ) XR A (State n ι A) Stats where
  init _ y := init cfg aux0 y
  step := step cfg.topK
  terminate _ _ st := terminate cfg st
  postprocess _ y aux st _ := (y, aux, st.stats)

end Verif.NelderMeadNan
