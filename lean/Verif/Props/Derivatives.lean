import Verif.Model.Derivatives
import Verif.Props.Driver
import Mathlib.Analysis.Calculus.FDeriv.Mul
import Mathlib.Analysis.Calculus.FDeriv.Pow

/-!
C82: the options `autodiff_mode` and `jac` choose how derivatives are computed, not what is computed.
-/

namespace Verif.Props

open Driver Derivatives

variable {ι κ A SS DS HS : Type} [Fintype ι] [DecidableEq ι] [Fintype κ] [DecidableEq κ]

/-- A solve uses its solver at the function to be solved only. -/
theorem iterativeSolve_at {Y Out Aux St Stats : Type} {S S' : Solver Y Out Aux St Stats} {fn : Y → Out × Aux}
    (hi : S.init fn = S'.init fn) (hs : S.step fn = S'.step fn) (ht : S.terminate fn = S'.terminate fn)
    (hp : S.postprocess fn = S'.postprocess fn) (af : Y → Bool) (aux0 : Aux) (y0 : Y) (ms : Option ℕ) (throw : Bool) :
    iterativeSolve S af fn aux0 y0 ms throw = iterativeSolve S' af fn aux0 y0 ms throw := by
  have e : ∀ T : Solver Y Out Aux St Stats, iterativeSolve T af fn aux0 y0 ms throw =
      iterativeSolve ⟨fun _ => T.init fn, fun _ => T.step fn, fun _ => T.terminate fn, fun _ => T.postprocess fn⟩ af fn aux0 y0 ms
        throw := fun T => rfl
  rw [e S, e S', hi, hs, ht, hp]

omit [Fintype κ] [DecidableEq κ] in
theorem linear_jacfwd [Fintype κ] (lin : (ι → ℝ) →L[ℝ] (κ → ℝ)) (y : ι → ℝ) (k : κ) (i : ι) :
    jacfwd lin y k i = lin (Pi.single i 1) k := by
  simp [jacfwd]

theorem jacrev_entry (g : (ι → ℝ) → (κ → ℝ)) (y : ι → ℝ) (k : κ) (i : ι) :
    jacrev g y k i = fderiv ℝ g y (Pi.single i 1) k := by
  simp [jacrev, linearTranspose, Pi.single_apply]

/-- The gradient, by partial derivatives. -/
noncomputable def partials (f : (ι → ℝ) → ℝ) (y : ι → ℝ) : ι → ℝ := fun i => fderiv ℝ f y (Pi.single i 1)

/-- The Jacobian, by partial derivatives. -/
noncomputable def jacobian (g : (ι → ℝ) → (κ → ℝ)) (y : ι → ℝ) : Matrix κ ι ℝ := fun k i => fderiv ℝ g y (Pi.single i 1) k

/-- The two valid values. -/
def ValidMode (s : String) : Prop := s = "fwd" ∨ s = "bwd"

theorem scalar_fderiv (f : (ι → ℝ) → ℝ) (y : ι → ℝ) (hf : DifferentiableAt ℝ f y) (v : ι → ℝ) (u : Unit) :
    fderiv ℝ (fun y (_ : Unit) => f y) y v u = fderiv ℝ f y v := by
  have := (hasFDerivAt_pi (𝕜 := ℝ) (φ := fun (_ : Unit) => f) (φ' := fun _ => fderiv ℝ f y) (x := y)).2 fun _ => hf.hasFDerivAt
  rw [this.fderiv]; rfl

theorem gradAt_valid (o : Options) (fn : (ι → ℝ) → ℝ × A) (y : ι → ℝ) (hf : DifferentiableAt ℝ (fun y => (fn y).1) y)
    (hm : ValidMode (o.get "autodiff_mode" "bwd")) : gradAt o fn y = .ok (partials (fun y => (fn y).1) y) := by
  unfold gradAt linToGrad
  rcases hm with h | h
  · rw [h, if_neg (by decide), if_pos rfl]
    congr 1; funext i
    rw [linear_jacfwd]; exact scalar_fderiv _ _ hf _ _
  · rw [h, if_pos rfl]
    congr 1; funext i
    simp only [linearTranspose, one_mul, Finset.univ_unique, Finset.sum_singleton]
    exact scalar_fderiv _ _ hf _ _

theorem makeJac_valid (fn : (ι → ℝ) → (κ → ℝ) × A) (y : ι → ℝ) (s : String) (hm : ValidMode s) :
    makeJac fn y s = .ok (jacobian (fun y => (fn y).1) y) := by
  unfold makeJac
  rcases hm with h | h
  · rw [h, if_pos rfl]; rfl
  · rw [h, if_neg (by decide), if_pos rfl]
    congr 1; funext k i; exact jacrev_entry _ _ _ _

/-- **C82.** With both modes, and by default, the gradient is *the* gradient: its dot product with a direction is the directional derivative. -/
theorem C82_gradient (o : Options) (fn : (ι → ℝ) → ℝ × A) (y : ι → ℝ) (f' : (ι → ℝ) →L[ℝ] ℝ)
    (hf : HasFDerivAt (fun y => (fn y).1) f' y) (hm : o.lookup "autodiff_mode" ∈ [none, some "fwd", some "bwd"]) :
    ∃ g, gradAt o fn y = .ok g ∧ ∀ v, ∑ i, g i * v i = f' v := by
  have hv : ValidMode (o.get "autodiff_mode" "bwd") := by
    simp only [List.mem_cons, List.not_mem_nil, or_false] at hm
    rcases hm with h | h | h <;> simp [Options.get, h, ValidMode]
  refine ⟨_, gradAt_valid o fn y hf.differentiableAt hv, fun v => ?_⟩
  conv_rhs => rw [← Finset.univ_sum_single v]
  rw [map_sum]
  refine Finset.sum_congr rfl fun i _ => ?_
  rw [show (Pi.single i (v i) : ι → ℝ) = v i • Pi.single i 1 by rw [← Pi.single_smul]; simp, map_smul, smul_eq_mul, mul_comm,
    partials, hf.fderiv]

/-- **C82.** The same for Jacobians. -/
theorem C82_jacobian (o : Options) (fn : (ι → ℝ) → (κ → ℝ) × A) (y : ι → ℝ) (f' : (ι → ℝ) →L[ℝ] (κ → ℝ))
    (hf : HasFDerivAt (fun y => (fn y).1) f' y) (hm : o.lookup "jac" ∈ [none, some "fwd", some "bwd"]) :
    ∃ J, makeJac fn y (o.get "jac" "fwd") = .ok J ∧ ∀ v, J.mulVec v = f' v := by
  have hv : ValidMode (o.get "jac" "fwd") := by
    simp only [List.mem_cons, List.not_mem_nil, or_false] at hm
    rcases hm with h | h | h <;> simp [Options.get, h, ValidMode]
  refine ⟨_, makeJac_valid fn y _ hv, fun v => ?_⟩
  conv_rhs => rw [← Finset.univ_sum_single v]
  rw [map_sum]
  funext k
  rw [Finset.sum_apply, Matrix.mulVec, dotProduct]
  refine Finset.sum_congr rfl fun i _ => ?_
  rw [show (Pi.single i (v i) : ι → ℝ) = v i • Pi.single i 1 by rw [← Pi.single_smul]; simp, map_smul, jacobian, hf.fderiv,
    Pi.smul_apply, smul_eq_mul, mul_comm]

/-- **C82.** Gradient methods: with both modes, and by default, the solve is the one with the true gradient. -/
theorem C82_gradient_methods (cfg : GradientDescent.Cfg ι SS DS) (o : Options) (af : (ι → ℝ) → Bool) (fn : (ι → ℝ) → ℝ × A)
    (hf : Differentiable ℝ fun y => (fn y).1) (hm : o.lookup "autodiff_mode" ∈ [none, some "fwd", some "bwd"])
    (aux0 : A) (y0 : ι → ℝ) (ms : Option ℕ) (throw : Bool) :
    iterativeSolve (gradientSolver cfg o aux0) af fn aux0 y0 ms throw =
      iterativeSolve (GradientDescent.solver { cfg with grad := partials fun y => (fn y).1 } aux0) af fn aux0 y0 ms throw := by
  have hv : ValidMode (o.get "autodiff_mode" "bwd") := by
    simp only [List.mem_cons, List.not_mem_nil, or_false] at hm
    rcases hm with h | h | h <;> simp [Options.get, h, ValidMode]
  have hg : (fun y => unwrap 0 (gradAt o fn y)) = partials fun y => (fn y).1 := by
    funext y; rw [gradAt_valid o fn y (hf y) hv]; rfl
  refine iterativeSolve_at ?_ ?_ ?_ ?_ af aux0 y0 ms throw
  · funext y
    show ((GradientDescent.solver cfg aux0).init fn y >>= fun st => gradAt o fn y >>= fun _ => pure st) = _
    rw [gradAt_valid o fn y (hf y) hv]
    have : ((GradientDescent.solver cfg aux0).init fn y) = (GradientDescent.solver { cfg with grad := partials fun y => (fn y).1 } aux0).init fn y := rfl
    rw [this]
    cases (GradientDescent.solver { cfg with grad := partials fun y => (fn y).1 } aux0).init fn y <;> rfl
  · show (GradientDescent.solver { cfg with grad := fun y => unwrap 0 (gradAt o fn y) } aux0).step fn = _
    rw [hg]
  · rfl
  · rfl

/-- **C82.** Quasi-Newton methods. -/
theorem C82_quasi_newton (cfg : QuasiNewton.Cfg ι SS DS HS) (o : Options) (af : (ι → ℝ) → Bool) (fn : (ι → ℝ) → ℝ × A)
    (hf : Differentiable ℝ fun y => (fn y).1) (hm : o.lookup "autodiff_mode" ∈ [none, some "fwd", some "bwd"])
    (aux0 : A) (y0 : ι → ℝ) (ms : Option ℕ) (throw : Bool) :
    iterativeSolve (quasiNewtonSolver cfg o aux0) af fn aux0 y0 ms throw =
      iterativeSolve (QuasiNewton.solver { cfg with grad := partials fun y => (fn y).1 } aux0) af fn aux0 y0 ms throw := by
  have hv : ValidMode (o.get "autodiff_mode" "bwd") := by
    simp only [List.mem_cons, List.not_mem_nil, or_false] at hm
    rcases hm with h | h | h <;> simp [Options.get, h, ValidMode]
  have hg : (fun y => unwrap 0 (gradAt o fn y)) = partials fun y => (fn y).1 := by
    funext y; rw [gradAt_valid o fn y (hf y) hv]; rfl
  refine iterativeSolve_at ?_ ?_ ?_ ?_ af aux0 y0 ms throw
  · funext y
    show ((QuasiNewton.solver cfg aux0).init fn y >>= fun st => gradAt o fn y >>= fun _ => pure st) = _
    rw [gradAt_valid o fn y (hf y) hv]
    have : ((QuasiNewton.solver cfg aux0).init fn y) = (QuasiNewton.solver { cfg with grad := partials fun y => (fn y).1 } aux0).init fn y := rfl
    rw [this]
    cases (QuasiNewton.solver { cfg with grad := partials fun y => (fn y).1 } aux0).init fn y <;> rfl
  · show (QuasiNewton.solver { cfg with grad := fun y => unwrap 0 (gradAt o fn y) } aux0).step fn = _
    rw [hg]
  · rfl
  · rfl

/-- **C82.** Least-squares solvers: with both modes, and by default, the solve is the one with the true Jacobian. -/
theorem C82_gauss_newton (cfg : GaussNewton.Cfg ι κ SS DS) (o : Options) (af : (ι → ℝ) → Bool) (fn : (ι → ℝ) → (κ → ℝ) × A)
    (hm : o.lookup "jac" ∈ [none, some "fwd", some "bwd"]) (aux0 : A) (y0 : ι → ℝ) (ms : Option ℕ) (throw : Bool) :
    iterativeSolve (gaussNewtonSolver cfg o aux0) af fn aux0 y0 ms throw =
      iterativeSolve (GaussNewton.solver { cfg with jac := jacobian fun y => (fn y).1 } aux0) af fn aux0 y0 ms throw := by
  have hv : ValidMode (o.get "jac" "fwd") := by
    simp only [List.mem_cons, List.not_mem_nil, or_false] at hm
    rcases hm with h | h | h <;> simp [Options.get, h, ValidMode]
  have hg : (fun y => unwrap 0 (makeJac fn y (o.get "jac" "fwd"))) = jacobian fun y => (fn y).1 := by
    funext y; rw [makeJac_valid fn y _ hv]; rfl
  refine iterativeSolve_at ?_ ?_ ?_ ?_ af aux0 y0 ms throw
  · funext y
    show (makeJac fn y (o.get "jac" "fwd") >>= fun _ => (GaussNewton.solver cfg aux0).init fn y) = _
    rw [makeJac_valid fn y _ hv]; rfl
  · show (GaussNewton.solver { cfg with jac := fun y => unwrap 0 (makeJac fn y (o.get "jac" "fwd")) } aux0).step fn = _
    rw [hg]
  · rfl
  · rfl

/-- **C82.** Any other value is refused with a `ValueError` before the first step, on every problem, whatever `max_steps` and `throw`. -/
theorem C82_invalid (o : Options) (af : (ι → ℝ) → Bool) (aux0 : A) (y0 : ι → ℝ) (ms : Option ℕ) (throw : Bool) :
    (∀ s, o.lookup "autodiff_mode" = some s → s ≠ "fwd" → s ≠ "bwd" →
      (∀ (cfg : GradientDescent.Cfg ι SS DS) (fn : (ι → ℝ) → ℝ × A), ∃ m,
        iterativeSolve (gradientSolver cfg o aux0) af fn aux0 y0 ms throw = some (.error (.valueError m))) ∧
      (∀ (cfg : QuasiNewton.Cfg ι SS DS HS) (fn : (ι → ℝ) → ℝ × A), ∃ m,
        iterativeSolve (quasiNewtonSolver cfg o aux0) af fn aux0 y0 ms throw = some (.error (.valueError m)))) ∧
    (∀ s, o.lookup "jac" = some s → s ≠ "fwd" → s ≠ "bwd" →
      ∀ (cfg : GaussNewton.Cfg ι κ SS DS) (fn : (ι → ℝ) → (κ → ℝ) × A), ∃ m,
        iterativeSolve (gaussNewtonSolver cfg o aux0) af fn aux0 y0 ms throw = some (.error (.valueError m))) := by
  have herr : ∀ {Y Out Aux St Stats : Type} (S : Solver Y Out Aux St Stats) (af : Y → Bool) (fn : Y → Out × Aux) (aux0 : Aux) (y0 : Y) (e : Err),
      S.init fn y0 = .error e → iterativeSolve S af fn aux0 y0 ms throw = some (.error e) := by
    intro Y Out Aux St Stats S af fn aux0 y0 e h
    simp [iterativeSolve, Driver.iterate, h]
  refine ⟨fun s hs h1 h2 => ⟨fun cfg fn => ?_, fun cfg fn => ?_⟩, fun s hs h1 h2 cfg fn => ?_⟩
  · have hg : ∃ m, gradAt o fn y0 = .error (.valueError m) := ⟨_, by
      simp only [gradAt, linToGrad, Options.get, hs, Option.getD_some, if_neg h1, if_neg h2]; rfl⟩
    obtain ⟨m, hg⟩ := hg
    have : (gradientSolver cfg o aux0).init fn y0 =
      ((GradientDescent.solver cfg aux0).init fn y0 >>= fun st => gradAt o fn y0 >>= fun _ => pure st) := rfl
    rw [hg] at this
    simp only [GradientDescent.solver, GradientDescent.init] at this
    split at this
    · exact ⟨_, herr _ _ _ _ _ _ this⟩
    · exact ⟨_, herr _ _ _ _ _ _ this⟩
  · have hg : ∃ m, gradAt o fn y0 = .error (.valueError m) := ⟨_, by
      simp only [gradAt, linToGrad, Options.get, hs, Option.getD_some, if_neg h1, if_neg h2]; rfl⟩
    obtain ⟨m, hg⟩ := hg
    have : (quasiNewtonSolver cfg o aux0).init fn y0 =
      ((QuasiNewton.solver cfg aux0).init fn y0 >>= fun st => gradAt o fn y0 >>= fun _ => pure st) := rfl
    rw [hg] at this
    simp only [QuasiNewton.solver, QuasiNewton.init] at this
    split at this
    · exact ⟨_, herr _ _ _ _ _ _ this⟩
    · exact ⟨_, herr _ _ _ _ _ _ this⟩
  · refine ⟨"Only `jac='fwd'` or `jac='bwd'` are valid.", herr _ _ _ _ _ _ ?_⟩
    · show (makeJac fn y0 (o.get "jac" "fwd") >>= fun _ => (GaussNewton.solver cfg aux0).init fn y0) = _
      simp only [makeJac, Options.get, hs, Option.getD_some, if_neg h1, if_neg h2]
      rfl

/-- A function to which the theorems apply: `y₀² + 3 y₁`, with `autodiff_mode="fwd"`; its gradient at `(2, 5)` is `(4, 3)`. -/
example : ∃ g, gradAt [("autodiff_mode", "fwd")] (fun y : Fin 2 → ℝ => (y 0 ^ 2 + 3 * y 1, ())) ![2, 5] = .ok g ∧
    g 0 = 4 ∧ g 1 = 3 := by
  have hd : HasFDerivAt (fun y : Fin 2 → ℝ => y 0 ^ 2 + 3 * y 1)
      ((4 : ℝ) • ContinuousLinearMap.proj (R := ℝ) (φ := fun _ : Fin 2 => ℝ) 0 + (3 : ℝ) • ContinuousLinearMap.proj (R := ℝ) (φ := fun _ : Fin 2 => ℝ) 1)
      ![2, 5] := by
    have h0 : HasFDerivAt (fun y : Fin 2 → ℝ => y 0) (ContinuousLinearMap.proj (R := ℝ) (φ := fun _ : Fin 2 => ℝ) 0) ![2, 5] :=
      hasFDerivAt_apply 0 _
    have h1 : HasFDerivAt (fun y : Fin 2 → ℝ => y 1) (ContinuousLinearMap.proj (R := ℝ) (φ := fun _ : Fin 2 => ℝ) 1) ![2, 5] :=
      hasFDerivAt_apply 1 _
    have := (h0.pow 2).add (h1.const_mul 3)
    refine this.congr_fderiv ?_
    ext v
    norm_num
  obtain ⟨g, h, hv⟩ := C82_gradient [("autodiff_mode", "fwd")] (fun y : Fin 2 → ℝ => (y 0 ^ 2 + 3 * y 1, ())) ![2, 5] _ hd (by simp)
  refine ⟨g, h, ?_, ?_⟩
  · have := hv (Pi.single 0 1); simpa [Fin.sum_univ_two, Pi.single_apply] using this
  · have := hv (Pi.single 1 1); simpa [Fin.sum_univ_two, Pi.single_apply] using this

end Verif.Props
