import Verif.Props.Passive

/-!
C153: wrapping a solver in `BestSoFar` twice is the same as wrapping it once.
-/

namespace Verif.Props

open Driver

variable {Y Out A St St' Stats Stats' ι κ K J SS DS HS OS L L' : Type}

/-- The two wrapped solvers do the same thing: same answers, result codes, errors, auxiliary outputs and numbers of steps. -/
def SameSolves (S : Solver Y Out A St Stats) (S' : Solver Y Out A St' Stats') : Prop :=
  ∀ (fn : Y → Out × A) (af : Y → Bool) (a : A) (y0 : Y) (ms : Option ℕ) (throw : Bool),
    Relabel.outcome (iterativeSolve S af fn a y0 ms throw) = Relabel.outcome (iterativeSolve S' af fn a y0 ms throw)

/-- **C153** for any solver to which the auxiliary output makes no difference (C150).  The loss the inner wrapper goes by does
not matter either. -/
theorem C153_twice [LT L] [DecidableLT L] [LT L'] [DecidableLT L'] {S : Solver Y Out (Out × A) St Stats}
    {S' : Solver Y Out (Out × (Out × A)) St' Stats'} (H : StateRides S' S Prod.snd) (toLoss : Y → Out → L)
    (toLoss' : Y → Out → L') (inf : L) (inf' : L') (z : A) (z' : Out × A) :
    SameSolves (BestSoFar.solver (BestSoFar.solver S' toLoss' inf' z') toLoss inf z) (BestSoFar.solver S toLoss inf z) := by
  intro fn af a y0 ms throw
  obtain ⟨mS, hS⟩ := H (BestSoFar.auxmented (BestSoFar.auxmented fn))
  have haux : changeAux Prod.snd (BestSoFar.auxmented (BestSoFar.auxmented fn)) = BestSoFar.auxmented fn := rfl
  rw [haux] at hS
  have hsim : Simulates (BestSoFar.solver (BestSoFar.solver S' toLoss' inf' z') toLoss inf z) fn
      (BestSoFar.solver S toLoss inf z) fn id id fun st => ⟨st.bestY, st.bestAux, st.bestLoss, mS st.state.state⟩ := by
    refine ⟨fun y => ?_, fun y st => ?_, fun y st => ?_, fun _ _ _ _ => rfl, fun _ _ _ _ => rfl⟩
    · have := hS.init y
      simp only [id] at this
      simp only [BestSoFar.solver, BestSoFar.init, id, this]
      cases S'.init (BestSoFar.auxmented (BestSoFar.auxmented fn)) y <;> rfl
    · have := hS.step y st.state.state
      simp only [id] at this
      simp only [BestSoFar.solver, BestSoFar.step, id, this]
      rfl
    · exact hS.terminate y st.state.state
  have := hsim.solve (allfinite := af) (allfinite' := af) (fun _ => rfl) a y0 ms throw
  simp only [id] at this
  rw [this]
  cases Relabel.outcome (iterativeSolve (BestSoFar.solver (BestSoFar.solver S' toLoss' inf' z') toLoss inf z) af fn a y0 ms
    throw) with
  | none => rfl
  | some r => cases r <;> rfl

/-- **C153** for the minimisers. -/
theorem C153_minimisers [LT L] [DecidableLT L] {n : ℕ} [NeZero n] (gd : GradientDescent.Cfg ι SS DS)
    (qn : QuasiNewton.Cfg ι SS DS HS) (nm : NelderMead.Cfg n ι) (gs : Golden.Cfg) (ox : Optax.Cfg ι OS)
    (loss : (ι → ℝ) → ℝ → L) (loss' : (ι → ℝ) → NelderMead.Val → L) (loss'' : ℝ → ℝ → L) (inf : L) (f0 f0' : ℝ)
    (v0 v0' : NelderMead.Val) (aux0 z : A) (z' : ℝ × A) (z'' : NelderMead.Val × A) :
    SameSolves (BestSoFar.solver (BestSoFar.solver (GradientDescent.solver gd (f0', (f0, aux0))) loss inf z') loss inf z)
        (BestSoFar.solver (GradientDescent.solver gd (f0, aux0)) loss inf z) ∧
      SameSolves (BestSoFar.solver (BestSoFar.solver (QuasiNewton.solver qn (f0', (f0, aux0))) loss inf z') loss inf z)
        (BestSoFar.solver (QuasiNewton.solver qn (f0, aux0)) loss inf z) ∧
      SameSolves (BestSoFar.solver (BestSoFar.solver (NelderMead.solver nm (v0', (v0, aux0))) loss' inf z'') loss' inf z)
        (BestSoFar.solver (NelderMead.solver nm (v0, aux0)) loss' inf z) ∧
      SameSolves (BestSoFar.solver (BestSoFar.solver (Golden.solver gs) loss'' inf z') loss'' inf z)
        (BestSoFar.solver (Golden.solver gs) loss'' inf z) ∧
      SameSolves (BestSoFar.solver (BestSoFar.solver (Optax.solver ox) loss inf z') loss inf z)
        (BestSoFar.solver (Optax.solver ox) loss inf z) :=
  ⟨C153_twice (stateRides_gradient gd (f0', (f0, aux0)) Prod.snd) loss loss inf inf z z',
    C153_twice (stateRides_quasiNewton qn (f0', (f0, aux0)) Prod.snd) loss loss inf inf z z',
    C153_twice (stateRides_nelderMead nm (v0', (v0, aux0)) Prod.snd) loss' loss' inf inf z z'',
    C153_twice (stateRides_golden gs Prod.snd) loss'' loss'' inf inf z z',
    C153_twice (stateRides_optax ox Prod.snd) loss loss inf inf z z'⟩

/-- **C153** for the least-squares solvers, root finders and fixed-point solvers (over the reals). -/
theorem C153_others [LT L] [DecidableLT L] (gn : GaussNewton.Cfg ι κ SS DS) (nc : NewtonChord.Cfg ι κ ℝ J)
    (fp : FixedPointIter.Cfg ι ℝ) (bi : Bisection.Cfg ℝ) (loss : (ι → ℝ) → (κ → ℝ) → L) (loss' : (ι → ℝ) → (ι → ℝ) → L)
    (loss'' : ℝ → ℝ → L) (inf : L) (r0 r0' : κ → ℝ) (aux0 z : A) (z' : (κ → ℝ) × A) (y' : (ι → ℝ) × A) (x' : ℝ × A) :
    SameSolves (BestSoFar.solver (BestSoFar.solver (GaussNewton.solver gn (r0', (r0, aux0))) loss inf z') loss inf z)
        (BestSoFar.solver (GaussNewton.solver gn (r0, aux0)) loss inf z) ∧
      SameSolves (BestSoFar.solver (BestSoFar.solver (NewtonChord.solver nc) loss inf z') loss inf z)
        (BestSoFar.solver (NewtonChord.solver nc) loss inf z) ∧
      SameSolves (BestSoFar.solver (BestSoFar.solver (FixedPointIter.solver fp) loss' inf y') loss' inf z)
        (BestSoFar.solver (FixedPointIter.solver fp) loss' inf z) ∧
      SameSolves (BestSoFar.solver (BestSoFar.solver (Bisection.solver bi) loss'' inf x') loss'' inf z)
        (BestSoFar.solver (Bisection.solver bi) loss'' inf z) :=
  ⟨C153_twice (stateRides_gaussNewton gn (r0', (r0, aux0)) Prod.snd) loss loss inf inf z z',
    C153_twice (stateRides_newtonChord nc Prod.snd) loss loss inf inf z z',
    C153_twice (stateRides_fixedPoint fp Prod.snd) loss' loss' inf inf z y',
    C153_twice (stateRides_bisection bi Prod.snd) loss'' loss'' inf inf z x'⟩

/-- The wrapped solvers are there: `FixedPointIteration` on two unknowns, with the loss of the code. -/
example (rtol atol damp : ℝ) : SameSolves (A := ℝ)
    (BestSoFar.solver (BestSoFar.solver (FixedPointIter.solver (ι := Fin 2) ⟨rtol, atol, maxNorm, damp⟩) BestSoFar.fpLoss ⊤
      (fun _ => 0, 0)) BestSoFar.fpLoss ⊤ 0)
    (BestSoFar.solver (FixedPointIter.solver ⟨rtol, atol, maxNorm, damp⟩) BestSoFar.fpLoss ⊤ 0) :=
  C153_twice (stateRides_fixedPoint _ Prod.snd) _ _ _ _ _ _

end Verif.Props
