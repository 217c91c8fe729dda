import Verif.Lemmas.Offset
import Verif.Props.Relabel

/-!
C80: adding a constant to the objective does not change the outcome of a minimisation, and the methods that use values only
(`GoldenSearch`, `NelderMead`) depend only on the order of the values.

The outcome is compared completely: whether the solve returns, the error raised, the result code, the answer, the auxiliary output
and the number of steps.  (The gradient of `f + a` is that of `f`.)  The stopping test of the objective is relative to its value
unless `rtol=0`, so it must be assumed to give the same verdict; that this cannot be dropped is `C80_rtol_matters`.
-/

namespace Verif.Offset

open Driver
open Verif.Relabel (Formula outcome)

variable {ι A SS DS HS : Type}

/-! ### Adding a constant -/

/-- With `rtol=0` the test on the objective ignores constants. -/
theorem verdict_zero (a atol : ℝ) (n : (Unit → ℝ) → ℝ) : SameVerdict a 0 atol n := by
  intro v d
  refine congrArg n (funext fun i => ?_)
  simp only [scaledDiff, zero_mul]

section
variable [Fintype ι] (a : ℝ) {rtol atol : ℝ} {normF : (Unit → ℝ) → ℝ} (hv : SameVerdict a rtol atol normF) (normY : (ι → ℝ) → ℝ)
  (fin : (ι → ℝ) → Bool) (f : (ι → ℝ) → ℝ × A) (g : (ι → ℝ) → ι → ℝ) (aux0 : A) (y0 : ι → ℝ) (ms : Option ℕ) (throw : Bool)

theorem unmoved {Y : Type} (o : Option (Except Err (Y × Result × A × Nat))) :
    (o.map fun r => r.map fun s => (id s.1, s.2)) = o := by
  cases o with
  | none => rfl
  | some r => cases r <;> rfl

/-- **C80** for every gradient method: any search that looks at differences of values only and any descent that does not look at
values.  The searches of the library are `learningRate_relative`, `armijo_relative`, `classical_relative` and `linear_relative`, the
descents `steepest_blind`, `cg_blind`, `newton_blind`, `dogleg_blind`, `damped_blind` and `indirect_blind`. -/
theorem C80_gradient_methods {c : GradientDescent.Cfg ι SS DS} (hs : Relative c.search) {R : DS → DS → Prop}
    (hd : Blind c.descent a R) (hv : SameVerdict a c.rtol c.atol c.normF) :
    outcome (iterativeSolve (GradientDescent.solver c aux0) fin (offset a f) aux0 y0 ms throw) =
      outcome (iterativeSolve (GradientDescent.solver c aux0) fin f aux0 y0 ms throw) :=
  ((gd_follows a hs hd hv f aux0).solve (fun _ => rfl) aux0 y0 ms throw).trans (unmoved _)

/-- **C80** for every quasi-Newton method; the Hessian approximations of the library are `bfgs_blind`, `dfp_blind`,
`lbfgs_inverse_blind` and `lbfgs_direct_blind`. -/
theorem C80_quasi_newton_methods {c : QuasiNewton.Cfg ι SS DS HS} (hs : Relative c.search) {R : DS → DS → Prop}
    (hd : Blind c.descent a R) (hh : HessianBlind c.hess) (hv : SameVerdict a c.rtol c.atol c.normF) :
    outcome (iterativeSolve (QuasiNewton.solver c aux0) fin (offset a f) aux0 y0 ms throw) =
      outcome (iterativeSolve (QuasiNewton.solver c aux0) fin f aux0 y0 ms throw) :=
  ((qn_follows a hs hd hh hv f aux0).solve (fun _ => rfl) aux0 y0 ms throw).trans (unmoved _)

include hv

/-- **C80** for `GradientDescent`. -/
theorem C80_gradient_descent (rate : ℝ) :
    outcome (iterativeSolve (GradientDescent.solver (GradientDescent.gradientDescent rate rtol atol normY normF g) aux0) fin
        (offset a f) aux0 y0 ms throw) =
      outcome (iterativeSolve (GradientDescent.solver (GradientDescent.gradientDescent rate rtol atol normY normF g) aux0) fin f
        aux0 y0 ms throw) :=
  C80_gradient_methods a fin f aux0 y0 ms throw (c := GradientDescent.gradientDescent rate rtol atol normY normF g)
    (learningRate_relative rate) (steepest_blind none a) hv

/-- **C80** for `NonlinearCG`, for each of its formulas. -/
theorem C80_nonlinear_cg (eps : ℝ) (b : Formula) (armijo : Armijo.Cfg ℝ) :
    outcome (iterativeSolve (GradientDescent.solver
        (NonlinearCG.cfg rtol atol normY normF (b.fn eps) (Armijo.search armijo) g) aux0) fin (offset a f) aux0 y0 ms throw) =
      outcome (iterativeSolve (GradientDescent.solver
        (NonlinearCG.cfg rtol atol normY normF (b.fn eps) (Armijo.search armijo) g) aux0) fin f aux0 y0 ms throw) :=
  C80_gradient_methods a fin f aux0 y0 ms throw
    (c := NonlinearCG.cfg rtol atol normY normF (b.fn eps) (Armijo.search armijo) g) (armijo_relative armijo) (cg_blind _ a) hv

/-- **C80** for `BFGS`, in both forms, with any linear solver. -/
theorem C80_bfgs [DecidableEq ι] (eps : ℝ) (useInverse : Bool) (ls : LinSolve ι Unit) (armijo : Armijo.Cfg ℝ) :
    outcome (iterativeSolve (QuasiNewton.solver
        (QuasiNewton.withArmijo rtol atol normY normF ls armijo (QuasiNewton.bfgs eps useInverse) g) aux0) fin (offset a f) aux0 y0
        ms throw) =
      outcome (iterativeSolve (QuasiNewton.solver
        (QuasiNewton.withArmijo rtol atol normY normF ls armijo (QuasiNewton.bfgs eps useInverse) g) aux0) fin f aux0 y0 ms
        throw) :=
  C80_quasi_newton_methods a fin f aux0 y0 ms throw
    (c := QuasiNewton.withArmijo rtol atol normY normF ls armijo (QuasiNewton.bfgs eps useInverse) g) (armijo_relative armijo)
    (newton_blind ls none a) (bfgs_blind eps useInverse) hv

/-- **C80** for `DFP`, in both forms, with any linear solver. -/
theorem C80_dfp [DecidableEq ι] (eps : ℝ) (useInverse : Bool) (ls : LinSolve ι Unit) (armijo : Armijo.Cfg ℝ) :
    outcome (iterativeSolve (QuasiNewton.solver
        (QuasiNewton.withArmijo rtol atol normY normF ls armijo (QuasiNewton.dfp eps useInverse) g) aux0) fin (offset a f) aux0 y0
        ms throw) =
      outcome (iterativeSolve (QuasiNewton.solver
        (QuasiNewton.withArmijo rtol atol normY normF ls armijo (QuasiNewton.dfp eps useInverse) g) aux0) fin f aux0 y0 ms
        throw) :=
  C80_quasi_newton_methods a fin f aux0 y0 ms throw
    (c := QuasiNewton.withArmijo rtol atol normY normF ls armijo (QuasiNewton.dfp eps useInverse) g) (armijo_relative armijo)
    (newton_blind ls none a) (dfp_blind eps useInverse) hv

/-- **C80** for `LBFGS` with `use_inverse=True`. -/
theorem C80_lbfgs_inverse [DecidableEq ι] (eps : ℝ) (h : ℕ) [NeZero h] (ls : LinSolve ι Unit) (armijo : Armijo.Cfg ℝ) :
    outcome (iterativeSolve (QuasiNewton.solver
        (QuasiNewton.withArmijo rtol atol normY normF ls armijo (LBFGS.inverse eps h) g) aux0) fin (offset a f) aux0 y0 ms throw) =
      outcome (iterativeSolve (QuasiNewton.solver
        (QuasiNewton.withArmijo rtol atol normY normF ls armijo (LBFGS.inverse eps h) g) aux0) fin f aux0 y0 ms throw) :=
  C80_quasi_newton_methods a fin f aux0 y0 ms throw
    (c := QuasiNewton.withArmijo rtol atol normY normF ls armijo (LBFGS.inverse eps h) g) (armijo_relative armijo)
    (newton_blind ls none a) (lbfgs_inverse_blind eps h) hv

/-- **C80** for `LBFGS` with `use_inverse=False`. -/
theorem C80_lbfgs_direct [DecidableEq ι] (eps : ℝ) (h : ℕ) [NeZero h] (la : LBFGS.DenseLA h) (ls : LinSolve ι Unit)
    (armijo : Armijo.Cfg ℝ) :
    outcome (iterativeSolve (QuasiNewton.solver
        (QuasiNewton.withArmijo rtol atol normY normF ls armijo (LBFGS.direct eps h la) g) aux0) fin (offset a f) aux0 y0 ms
        throw) =
      outcome (iterativeSolve (QuasiNewton.solver
        (QuasiNewton.withArmijo rtol atol normY normF ls armijo (LBFGS.direct eps h la) g) aux0) fin f aux0 y0 ms throw) :=
  C80_quasi_newton_methods a fin f aux0 y0 ms throw
    (c := QuasiNewton.withArmijo rtol atol normY normF ls armijo (LBFGS.direct eps h la) g) (armijo_relative armijo)
    (newton_blind ls none a) (lbfgs_direct_blind eps h la) hv

end

/-- The condition on the stopping test is needed: with `rtol=1/10` and `atol=1`, gradient descent on `50y²` from `1` has not converged
after two steps, but on `50y² + 1000` it has. -/
theorem C80_rtol_matters :
    let slv : Solver (Unit → ℝ) ℝ Unit _ Unit := GradientDescent.solver
      (GradientDescent.gradientDescent (1 / 200) (1 / 10) 1 (fun v => |v ()|) (fun v => |v ()|) fun y i => 100 * y i) ()
    let f : (Unit → ℝ) → ℝ × Unit := fun y => (50 * (y ()) ^ 2, ())
    (outcome (iterativeSolve slv (fun _ => true) f () (fun _ => 1) (some 2) false)).map
        (fun r => r.map fun s => s.2.1) = some (.ok .nonlinearMaxStepsReached) ∧
      (outcome (iterativeSolve slv (fun _ => true) (offset 1000 f) () (fun _ => 1) (some 2) false)).map
        (fun r => r.map fun s => s.2.1) = some (.ok .successful) := by
  constructor
  · norm_num [outcome, iterativeSolve, Driver.iterate, package, finalResult, initCarry, Driver.body, Driver.cond,
      terminateAndResult, whileOpt, whileLoop, Except.map, GradientDescent.solver, GradientDescent.gradientDescent,
      GradientDescent.init, GradientDescent.step, steepestDescent, learningRate, cauchyTermination, scaledDiff, HasAbs.abs,
      GradientDescent.fOf, FnInfo.grad?]
  · norm_num [outcome, iterativeSolve, Driver.iterate, package, finalResult, initCarry, Driver.body, Driver.cond,
      terminateAndResult, whileOpt, whileLoop, Except.map, GradientDescent.solver, GradientDescent.gradientDescent,
      GradientDescent.init, GradientDescent.step, steepestDescent, learningRate, cauchyTermination, scaledDiff, HasAbs.abs,
      GradientDescent.fOf, offset, FnInfo.grad?]

/-! ### Methods that compare values -/

/-- **C80** for `GoldenSearch`: any strictly increasing transformation of the objective. -/
theorem C80_golden (c : Golden.Cfg) (hr : 0 ≤ c.rtol) (ha : 0 ≤ c.atol) {φ : ℝ → ℝ} (hφ : StrictMono φ)
    (hk : KeepsTest φ c.rtol c.atol) (fin : ℝ → Bool) (f : ℝ → ℝ × A) (aux0 : A) (y0 : ℝ) (ms : Option ℕ) (throw : Bool) :
    outcome (iterativeSolve (Golden.solver c) fin (rescaled φ f) aux0 y0 ms throw) =
      outcome (iterativeSolve (Golden.solver c) fin f aux0 y0 ms throw) :=
  ((golden_follows c hr ha hφ hk f).solve (fun _ => rfl) aux0 y0 ms throw).trans (unmoved _)

/-- **C80** for `NelderMead`: any strictly increasing transformation of the objective, which may be `+inf`. -/
theorem C80_nelder_mead {n : ℕ} [NeZero n] (c : NelderMead.Cfg n ι) {φ : ℝ → ℝ} (hφ : StrictMono φ)
    (hk : KeepsSimplexTest φ c.rtol c.atol c.normF) (fin : (ι → ℝ) → Bool) (f : (ι → ℝ) → NelderMead.Val × A) (aux0 : A)
    (y0 : ι → ℝ) (ms : Option ℕ) (throw : Bool) :
    outcome (iterativeSolve (NelderMead.solver c aux0) fin (rescaledTop φ f) aux0 y0 ms throw) =
      outcome (iterativeSolve (NelderMead.solver c aux0) fin f aux0 y0 ms throw) :=
  ((nm_follows c hφ hk f aux0).solve (fun _ => rfl) aux0 y0 ms throw).trans (unmoved _)

/-- With `rtol=0`, adding a constant keeps the stopping tests of `GoldenSearch` and `NelderMead`. -/
theorem C80_offset_keeps_tests (a atol : ℝ) : StrictMono (fun v : ℝ => v + a) ∧ KeepsTest (fun v => v + a) 0 atol ∧
    ∀ (n : ℕ) (norm : (Fin n → ℝ) → ℝ), KeepsSimplexTest (fun v => v + a) 0 atol norm :=
  ⟨fun _ _ h => by simpa using h, fun v w => by simp, fun n norm v b => by simp⟩

/-- With `atol=0`, measuring the objective in another unit keeps them. -/
theorem C80_scaling_keeps_tests (k rtol : ℝ) (hk : 0 < k) : StrictMono (fun v : ℝ => k * v) ∧ KeepsTest (fun v => k * v) rtol 0 ∧
    ∀ (n : ℕ) (norm : (Fin n → ℝ) → ℝ), KeepsSimplexTest (fun v => k * v) rtol 0 norm := by
  have e : ∀ v w : ℝ, |k * w - k * v| / (0 + rtol * |k * v|) = |w - v| / (0 + rtol * |v|) := by
    intro v w
    rw [← mul_sub, abs_mul, abs_mul, abs_of_pos hk, zero_add, zero_add, mul_left_comm, mul_div_mul_left _ _ hk.ne']
  refine ⟨fun _ _ h => by simpa [hk] using h, fun v w => ?_, fun n norm v b => ?_⟩
  · rw [abs_sub_comm, e v w, abs_sub_comm]
  · simp only [e]

/-- The hypotheses are met: `L-BFGS` with history two and backtracking, on `y² + 3`, with `rtol=0`. -/
example (ls : LinSolve Unit Unit) (y0 : Unit → ℝ) (ms : Option ℕ) :
    outcome (iterativeSolve (QuasiNewton.solver (QuasiNewton.withArmijo 0 (1 / 100) (fun v => |v ()|) (fun v => |v ()|) ls
        ⟨1 / 2, 1 / 10, 1⟩ (LBFGS.inverse (1 / 1000) 2) fun y i => 2 * y i) ()) (fun _ => true)
        (offset 3 fun y => ((y ()) ^ 2, ())) () y0 ms true) =
      outcome (iterativeSolve (QuasiNewton.solver (QuasiNewton.withArmijo 0 (1 / 100) (fun v => |v ()|) (fun v => |v ()|) ls
        ⟨1 / 2, 1 / 10, 1⟩ (LBFGS.inverse (1 / 1000) 2) fun y i => 2 * y i) ()) (fun _ => true)
        (fun y => ((y ()) ^ 2, ())) () y0 ms true) :=
  C80_lbfgs_inverse 3 (verdict_zero 3 (1 / 100) _) _ _ _ _ () y0 ms true _ 2 ls _

/-- And for values: `GoldenSearch` on `y²` and on `5y²`, with `atol=0`. -/
example (y0 : ℝ) (ms : Option ℕ) (s : Struct) :
    outcome (iterativeSolve (Golden.solver ⟨1 / 10, 0, -1, 2, true, s⟩) (fun _ => true) (rescaled (fun v => 5 * v)
        fun y => (y ^ 2, ())) () y0 ms true) =
      outcome (iterativeSolve (Golden.solver ⟨1 / 10, 0, -1, 2, true, s⟩) (fun _ => true) (fun y => (y ^ 2, ())) () y0 ms true) :=
  C80_golden _ (by norm_num) (by norm_num) (C80_scaling_keeps_tests 5 (1 / 10) (by norm_num)).1
    (C80_scaling_keeps_tests 5 (1 / 10) (by norm_num)).2.1 _ _ () y0 ms true

end Verif.Offset
