import Verif.Model.Iterate
import Mathlib.Data.Real.Basic
import Mathlib.Data.List.MinMax
import Mathlib.Data.Fintype.BigOperators
import Mathlib.Algebra.BigOperators.Group.Finset.Basic
import Mathlib.Order.WithBot

/-!
Model of `optimistix/_solver/nelder_mead.py`.

Simplifications.  Coordinates are exact reals; values of the objective are reals or `+inf` (`⊤`), never NaN or `-inf`.
The validation of the option `y0_simplex` is in `NelderMeadInit.lean`; here the initial simplex is always made from `y`; how
it is made is a parameter of the
general solver, and `initialSimplex` below is the one of the code.
-/

namespace Verif.NelderMead

/-- Values of the objective: a real number or `+inf`.
(`f_simplex`, `nelder_mead.py:178`, filled with `inf` before the first evaluation.) -/
abbrev Val := WithTop ℝ

/-- `nelder_mead.py:19-24`, `_NMStats`. -/
structure Stats where
  nReflect : Int
  nInnerContract : Int
  nOuterContract : Int
  nExpand : Int
  nShrink : Int
  deriving DecidableEq

/-- `nelder_mead.py:27-71`, `_NelderMeadState`; `n` vertices, coordinates `ι`. -/
structure State (n : Nat) (ι A : Type) where
  simplex : Fin n → ι → ℝ
  fSimplex : Fin n → Val
  fBest : Val
  best : ι → ℝ
  bestIndex : Fin n
  fWorst : Val
  worst : ι → ℝ
  worstIndex : Fin n
  fSecondWorst : Val
  stats : Stats
  result : Result
  firstPass : Bool
  aux : A
  step : Nat

/-- `nelder_mead.py:74-88`, `_update_stats`. -/
def updateStats (s : Stats) (reflect innerContract outerContract expand shrink : Bool) : Stats :=
  { nReflect := s.nReflect + if reflect then 1 else 0
    nInnerContract := s.nInnerContract + if innerContract then 1 else 0
    nOuterContract := s.nOuterContract + if outerContract then 1 else 0
    nExpand := s.nExpand + if expand then 1 else 0
    nShrink := s.nShrink + if shrink then 1 else 0 }

/-- `nelder_mead.py:104-108`, the fields of `NelderMead` used by `terminate`, and the construction of the simplex.  The one
polymorphic `norm` appears at the two structures it is used at. -/
structure Cfg (n : Nat) (ι : Type) where
  rtol : ℝ
  atol : ℝ
  normX : (Fin n × ι → ℝ) → ℝ
  normF : (Fin n → ℝ) → ℝ
  mkSimplex : (ι → ℝ) → Fin n → ι → ℝ

variable {n : Nat} {ι A : Type}

section
variable [NeZero n]

/-- `lax.top_k(-f, 1)`: the index of the smallest entry, the first of several (`nelder_mead.py:383`). -/
noncomputable def topMin (f : Fin n → Val) : Fin n := ((List.finRange n).argmin f).getD 0

/-- `lax.top_k(f, 2)`, first index: the index of the largest entry, the first of several (`nelder_mead.py:385`). -/
noncomputable def topMax (f : Fin n → Val) : Fin n := ((List.finRange n).argmax f).getD 0

/-- `lax.top_k(f, 2)`, second value: the largest entry when the first one is left out (`nelder_mead.py:385`). -/
noncomputable def secondMax (f : Fin n → Val) : Val :=
  f ((((List.finRange n).filter fun i => i ≠ topMax f).argmax f).getD 0)

/-- `nelder_mead.py:110-204`, `NelderMead.init`.  `lax.top_k(…, 2)` in the first step raises when there is one vertex only
(a `y` without entries); the model raises here already. -/
noncomputable def init (cfg : Cfg n ι) (aux0 : A) (y : ι → ℝ) : Except Err (State n ι A) :=
  if n < 2 then .error (.valueError "k argument to top_k must be no larger than size along axis")
  else
    let simplex := cfg.mkSimplex y
    .ok { simplex, fSimplex := fun _ => ⊤, fBest := (0 : ℝ), best := simplex 0, bestIndex := 0, fWorst := (0 : ℝ),
          worst := simplex 0, worstIndex := 0, fSecondWorst := (0 : ℝ), stats := ⟨0, 0, 0, 0, -1⟩, result := .successful,
          firstPass := true, aux := aux0, step := 0 }

/-- `nelder_mead.py:243-250`: the mean over the other vertices, relative to `worst`. -/
noncomputable def searchDirection (simplex : Fin n → ι → ℝ) (worst : ι → ℝ) : ι → ℝ :=
  fun c => ∑ i, (simplex i c - worst c) / ((n : ℝ) - 1)

/-- `worst**ω + const * search_direction**ω`.  (`nelder_mead.py:251`.) -/
def along (worst dir : ι → ℝ) (const : ℝ) : ι → ℝ := fun c => worst c + const * dir c

/-- `nelder_mead.py:256-297`, `internal_eval`: the vertex to try, from the value at the reflection, and the statistics. -/
noncomputable def internalEval (fBest fWorst fSecondWorst : Val) (worst dir vertex : ι → ℝ) (fVertex : Val) (s : Stats) :
    (ι → ℝ) × Stats :=
  let expand := decide (fVertex < fBest)
  let innerContract := decide (fWorst < fVertex)
  let contract := decide (fSecondWorst < fVertex)
  let outerContract := !(expand || contract)
  let reflect := decide (fBest < fVertex) && decide (fVertex < fSecondWorst)
  let contractConst : ℝ := if innerContract then 1 / 2 else 3 / 2
  let expanded := along worst dir 3
  let contracted := along worst dir contractConst
  let newVertex := if expand then expanded else vertex
  let newVertex := if contract then contracted else newVertex
  (newVertex, updateStats s reflect innerContract outerContract expand false)

/-- `nelder_mead.py:240-327`, `main_step`: the trial vertex, its value, statistics and aux.  The scan of length two (322-326)
is unrolled: evaluate the reflection, choose the vertex, evaluate that. -/
noncomputable def mainStep (fn : (ι → ℝ) → Val × A) (st : State n ι A) : (ι → ℝ) × Val × Stats × A :=
  let dir := searchDirection st.simplex st.worst
  let reflection := along st.worst dir 2
  let fReflection := (fn reflection).1
  let nv := internalEval st.fBest st.fWorst st.fSecondWorst st.worst dir reflection fReflection st.stats
  let out := fn nv.1
  (nv.1, out.1, nv.2, out.2)

/-- `nelder_mead.py:228-238`, `init_step`. -/
def initStep (st : State n ι A) : (ι → ℝ) × Val × Stats × A :=
  (st.simplex 0, ⊤, st.stats, st.aux)

/-- `nelder_mead.py:347-360`, `shrink_simplex`. -/
noncomputable def shrinkSimplex (fn : (ι → ℝ) → Val × A) (best : ι → ℝ) (simplex : Fin n → ι → ℝ) (firstPass : Bool) :
    (Fin n → Val) × (Fin n → ι → ℝ) :=
  let shrunk := fun i c => best c + 1 / 2 * (simplex i c - best c)
  let simplex := if firstPass then simplex else shrunk
  (fun i => (fn (simplex i)).1, simplex)

/-- `nelder_mead.py:362-367`, `update_simplex`. -/
def updateSimplex (worstIndex : Fin n) (newVertex : ι → ℝ) (fNewVertex : Val) (fSimplex : Fin n → Val)
    (simplex : Fin n → ι → ℝ) : (Fin n → Val) × (Fin n → ι → ℝ) :=
  (fun i => if i = worstIndex then fNewVertex else fSimplex i, fun i => if i = worstIndex then newVertex else simplex i)

/-- `nelder_mead.py:206-411`, `NelderMead.step` (without the option `y0_simplex`).  Note that lines 387-388 take the best and
worst vertices from `simplex`, which is the simplex *before* this step, at the positions they have in the new one. -/
noncomputable def step (fn : (ι → ℝ) → Val × A) (_y : ι → ℝ) (st : State n ι A) : (ι → ℝ) × State n ι A × A :=
  let simplex := st.simplex
  let t := if st.firstPass then initStep st else mainStep fn st
  let newVertex := t.1
  let fNewVertex := t.2.1
  let aux := t.2.2.2
  let newBest := decide (fNewVertex < st.fBest)
  let best := if newBest then newVertex else st.best
  let shrink := if st.firstPass then true else decide (st.fWorst < fNewVertex)
  let stats := updateStats t.2.2.1 false false false false shrink
  let u := if shrink then shrinkSimplex fn best st.simplex st.firstPass
    else updateSimplex st.worstIndex newVertex fNewVertex st.fSimplex st.simplex
  let fNewSimplex := u.1
  let newSimplex := u.2
  let bestIndex := topMin fNewSimplex
  let worstIndex := topMax fNewSimplex
  let best := simplex bestIndex
  let worst := simplex worstIndex
  (best,
   { simplex := newSimplex, fSimplex := fNewSimplex, fBest := fNewSimplex bestIndex, best, bestIndex,
     fWorst := fNewSimplex worstIndex, worst, worstIndex, fSecondWorst := secondMax fNewSimplex, stats,
     result := st.result, firstPass := false, aux, step := st.step + 1 },
   aux)

open Classical in
/-- `nelder_mead.py:413-443`, `NelderMead.terminate`.  A simplex with an infinite value at some vertex is not converged
(426-430 compare `norm(inf) < 1` or `norm(nan) < 1`); division by a zero tolerance is not modelled (it is `inf` or `nan` in
the code, `0` here). -/
noncomputable def terminate (cfg : Cfg n ι) (st : State n ι A) : Bool × Result :=
  let xScale := fun c => cfg.atol + cfg.rtol * |st.best c|
  let xConverged := decide (cfg.normX (fun p => |st.simplex p.1 p.2 - st.best p.2| / xScale p.2) < 1)
  let fBest := st.fBest.untopD 0
  let fScale := cfg.atol + cfg.rtol * |fBest|
  let fConverged := decide (∀ i, st.fSimplex i ≠ ⊤) && decide (st.fBest ≠ ⊤) &&
    decide (cfg.normF (fun i => |(st.fSimplex i).untopD 0 - fBest| / fScale) < 1)
  let converged := xConverged && fConverged
  let diverged := decide (st.fBest = ⊤)
  (converged || diverged, if diverged then .nonlinearDivergence else .successful)

/-- `nelder_mead.py:91-463`, the solver (`postprocess`: 445-463). -/
noncomputable def solver (cfg : Cfg n ι) (aux0 : A) : Solver (ι → ℝ) Val A (State n ι A) Stats where
  init _ y := init cfg aux0 y
  step := step
  terminate _ _ st := terminate cfg st
  postprocess _ y aux st _ := (y, aux, st.stats)

end

/-! ### The initial simplex -/

/-- The entries of a PyTree with leaves of sizes `sizes l`: leaf and flat position within the leaf.  (`nelder_mead.py:150-176`.) -/
abbrev Entry {L : Nat} (sizes : Fin L → Nat) := (l : Fin L) × Fin (sizes l)

/-- The number of entries, `size` (`nelder_mead.py:150`). -/
def totalSize {L : Nat} (sizes : Fin L → Nat) : Nat := ∑ l, sizes l

/-- `running_size` when leaf `l` is reached (`nelder_mead.py:153, 174`). -/
def runningSize {L : Nat} (sizes : Fin L → Nat) (l : Fin L) : Nat := ∑ m ∈ Finset.univ.filter (· < l), sizes m

/-- `nelder_mead.py:143-176`: the simplex made from `y`.  Entry `c` of leaf `l` of vertex `v` is displaced iff
`(v, c)` is one of the positions obtained by unravelling `running_size + 1, …, running_size + leaf_size` in an array of
`size + 1` rows of `leaf_size` entries (161-173); the displacement is relative to the entry of the leaf at
`unravel_index(k - running_size, leaf.shape)` (165-167), where out-of-range indices are clipped by jax.
Simplification: the `int16` indices (163) do not overflow (`size < 32768`). -/
noncomputable def initialSimplex {L : Nat} (sizes : Fin L → Nat) (rdelta adelta : ℝ) (y : Entry sizes → ℝ)
    (v : Fin (totalSize sizes + 1)) (e : Entry sizes) : ℝ :=
  let leafSize := sizes e.1
  let running := runningSize sizes e.1
  match (List.range' (running + 1) leafSize).find? fun k => k / leafSize = v.1 ∧ k % leafSize = e.2.1 with
  | some k => y e + adelta + rdelta * y ⟨e.1, ⟨min (k - running) (leafSize - 1), by
      have : leafSize - 1 < leafSize := Nat.sub_lt (Nat.lt_of_le_of_lt (Nat.zero_le _) e.2.2) Nat.one_pos
      exact lt_of_le_of_lt (Nat.min_le_right _ _) this⟩⟩
  | none => y e

/-- `NelderMead(rtol, atol, norm, rdelta, adelta)` on a `y` with leaves of the given sizes.  (`nelder_mead.py:103-107`.) -/
noncomputable def cfgFor {L : Nat} (sizes : Fin L → Nat) (rtol atol : ℝ)
    (normX : (Fin (totalSize sizes + 1) × Entry sizes → ℝ) → ℝ) (normF : (Fin (totalSize sizes + 1) → ℝ) → ℝ)
    (rdelta adelta : ℝ) : Cfg (totalSize sizes + 1) (Entry sizes) :=
  { rtol, atol, normX, normF, mkSimplex := initialSimplex sizes rdelta adelta }

end Verif.NelderMead
