import Verif.Props.Complex
import Verif.Props.GradientMethods
import Mathlib.Analysis.Calculus.Deriv.Mul
import Mathlib.Analysis.Calculus.Deriv.Add
import Mathlib.Analysis.Complex.RealDeriv

/-!
**C93.** Minimisation over complex unknowns.  The gradient the code works with is the one of JAX (`du/dx - i du/dy`), which is the
*conjugate* of the direction of steepest ascent, and nothing in the code conjugates it back.  So the direction derivative the code
computes is not the derivative, `GradientDescent` can run away from the minimum of `|z|²` for ever, and the Cauchy step of `Dogleg`
can increase the objective.  On real data given as complex numbers the solvers do what they do on real numbers.
-/

namespace Verif.Cx

open ComplexConjugate Matrix Driver Spec Relabel

variable {ι κ A : Type} [Fintype ι] [Fintype κ]

/-! ### The gradient -/

/-- **C93.** `compute_grad_dot` is the dot product with `compute_grad` (which conjugates its first argument). -/
theorem C93_grad_dot (r : κ → ℂ) (J : Matrix κ ι ℂ) (y : ι → ℂ) :
    computeGradDot r J y = treeDot (computeGrad r J) y := by
  simp only [computeGradDot, treeDot, computeGrad, mulVec, dotProduct, transpose_apply, map_sum, map_mul, Complex.conj_conj,
    Finset.sum_mul]
  rw [Finset.sum_comm]
  exact Finset.sum_congr rfl fun i _ => Finset.sum_congr rfl fun k _ => by ring

/-- **C93.** `compute_grad` is the gradient of the objective in the convention of JAX. -/
theorem C93_gradient_jax (r : (ι → ℂ) → κ → ℂ) (z : ι → ℂ) (J : Matrix κ ι ℂ) (h : HasJacobian r z J) :
    JaxGradient (fun z => (FnInfo.residualJac (r z) J).asMin) z (computeGrad (r z) J) := by
  intro v
  have h0 : (fun i => z i + ((0 : ℝ) : ℂ) * v i) = z := by simp
  have hk : ∀ k, HasDerivAt (fun t : ℝ => ‖r (fun i => z i + t * v i) k‖ ^ 2) (2 * (conj (r z k) * J.mulVec v k).re) 0 := by
    intro k
    have h1 := h v k
    have hre : HasDerivAt (fun t : ℝ => (r (fun i => z i + t * v i) k).re) (J.mulVec v k).re 0 :=
      (Complex.reCLM.hasFDerivAt.comp_hasDerivAt (0 : ℝ) h1)
    have him : HasDerivAt (fun t : ℝ => (r (fun i => z i + t * v i) k).im) (J.mulVec v k).im 0 :=
      (Complex.imCLM.hasFDerivAt.comp_hasDerivAt (0 : ℝ) h1)
    have h2 := (hre.mul hre).add (him.mul him)
    refine (h2.congr_of_eventuallyEq (.of_forall fun t => ?_)).congr_deriv ?_
    · simp only [Pi.add_apply, Pi.mul_apply]
      rw [← Complex.normSq_eq_norm_sq, Complex.normSq_apply]
    · simp only [h0, Complex.mul_re, Complex.conj_re, Complex.conj_im]
      ring
  have hs := (HasDerivAt.fun_sum fun k (_ : k ∈ Finset.univ) => hk k).const_mul (0.5 : ℝ)
  refine hs.congr_deriv ?_
  have : ∑ i, computeGrad (r z) J i * v i = ∑ k, conj (r z k) * J.mulVec v k := by
    simp only [computeGrad, mulVec, dotProduct, transpose_apply, Finset.sum_mul, Finset.mul_sum]
    rw [Finset.sum_comm]
    exact Finset.sum_congr rfl fun i _ => Finset.sum_congr rfl fun k _ => by ring
  rw [this, Complex.re_sum, ← Finset.mul_sum]
  ring

/-- **C93.** The gradient of the problem in real and imaginary parts is the *conjugate* of `compute_grad`. -/
theorem C93_gradient_conjugate (r : κ → ℂ) (J : Matrix κ ι ℂ) :
    (splitMatrix J).transpose.mulVec (split r) = split fun i => conj (computeGrad r J i) := by
  rw [split_transpose, split_mulVec]
  congr 1
  funext i
  simp only [computeGrad, mulVec, dotProduct, transpose_apply, conjTranspose_apply, map_sum, map_mul, Complex.conj_conj]
  rfl

/-- **C93.** A step of steepest descent changes the objective at the rate `-η Re ∑ g²` where the true gradient would give
`-η ∑ |g|²`: the step is uphill whenever the real part of `∑ g²` is negative. -/
theorem C93_steepest_direction (F : (ι → ℂ) → ℝ) (z g : ι → ℂ) (h : JaxGradient F z g) (η : ℝ) :
    HasDerivAt (fun t : ℝ => F fun i => z i + t * (((steepestDescent : Descent ι κ (ι → ℂ)).step η g).1 i))
      (-η * (∑ i, g i ^ 2).re) 0 := by
  refine (h _).congr_deriv ?_
  have : ∑ i, g i * ((steepestDescent : Descent ι κ (ι → ℂ)).step η g).1 i = ((-η : ℝ) : ℂ) * ∑ i, g i ^ 2 := by
    rw [Finset.mul_sum]
    refine Finset.sum_congr rfl fun i _ => ?_
    simp only [steepestDescent]
    push_cast
    ring
  rw [this, Complex.re_ofReal_mul]

/-- **C93** (as it should be, and is not): `compute_grad_dot` of the complex problem is the one of the problem in real and imaginary
parts.  This is the last assertion of `tests/test_least_squares.py` (265, after the `pytest.skip()` of 257: "complex numbers don't
seem to be behaving"), on its data. -/
theorem C93_grad_dot_wrong :
    let y : Fin 2 → ℂ := ![⟨2, 3⟩, ⟨4, 1⟩]
    let r : Fin 2 → ℂ := fun i => y i ^ 2
    let J : Matrix (Fin 2) (Fin 2) ℂ := Matrix.diagonal fun i => 2 * y i
    let z : Fin 2 → ℂ := ![⟨-1, 0⟩, ⟨2, -5⟩]
    (computeGradDot r J z).re = 390 ∧
      Verif.treeDot ((splitMatrix J).transpose.mulVec (split r)) (split z) = 50 := by
  intro y r J z
  refine ⟨?_, ?_⟩
  · rw [C93_grad_dot]
    simp only [treeDot, computeGrad, J, diagonal_transpose, mulVec_diagonal, Fin.sum_univ_two, r, y, z]
    simp [pow_two]
    norm_num
  · rw [C93_gradient_conjugate]
    simp only [Verif.treeDot, computeGrad, J, diagonal_transpose, mulVec_diagonal, Fintype.sum_sum_type, Fin.sum_univ_two, r, y,
      z, split]
    simp [pow_two]
    norm_num

/-! ### `GradientDescent` on `|z|²` -/

/-- The objective `∑ |z|²`. -/
noncomputable def normSquared : (ι → ℂ) → ℝ × Unit := fun z => (∑ i, ‖z i‖ ^ 2, ())

/-- Its gradient as computed by JAX. -/
def normSquaredGrad : (ι → ℂ) → ι → ℂ := fun z i => 2 * conj (z i)

theorem C93_norm_squared_gradient (z : ι → ℂ) : JaxGradient (fun z => (normSquared z).1) z (normSquaredGrad z) := by
  classical
  have h : HasJacobian (fun z : ι → ℂ => z) z (1 : Matrix ι ι ℂ) := by
    intro v k
    rw [one_mulVec]
    have := ((Complex.ofRealCLM.hasDerivAt (x := (0 : ℝ))).mul_const (v k)).const_add (z k)
    exact this.congr_deriv (by simp)
  intro v
  refine ((C93_gradient_jax _ z 1 h v).const_mul 2).congr_of_eventuallyEq (.of_forall fun t => ?_) |>.congr_deriv ?_
  · simp only [normSquared, FnInfo.asMin, sumSquares]
    ring
  · rw [← Complex.re_ofReal_mul, Finset.mul_sum]
    congr 1
    refine Finset.sum_congr rfl fun i _ => ?_
    simp only [computeGrad, normSquaredGrad, transpose_one, one_mulVec]
    push_cast
    ring

section gd

variable (η rtol atol : ℝ) (nY : (ι → ℝ) → ℝ) (nF : (Unit → ℝ) → ℝ) (grad : (ι → ℂ) → ι → ℂ) (F : (ι → ℂ) → ℝ × A) (aux0 : A)

/-- `GradientDescent` on complex unknowns. -/
noncomputable def gd : Solver (ι → ℂ) ℝ A (GradientDescent.State ι A Unit (ι → ℂ)) Unit :=
  GradientDescent.solver (GradientDescent.gradientDescent η rtol atol nY nF grad) aux0

omit [Fintype ι] in
/-- The state after `k + 1` steps. -/
theorem gd_state (y0 : ι → ℂ) (k : ℕ) :
    let S := gd η rtol atol nY nF grad aux0
    let x := fun k => (fun (z : ι → ℂ) i => z i - η * grad z i)^[k] y0
    iterateAt S F aux0 y0 (GradientDescent.init (GradientDescent.gradientDescent η rtol atol nY nF grad) aux0 y0) (k + 1) = x k ∧
      ∃ st, stateAt S F aux0 y0 (GradientDescent.init (GradientDescent.gradientDescent η rtol atol nY nF grad) aux0 y0) (k + 1) = st ∧
        st.yEval = x (k + 1) ∧ st.fInfo = .evalGrad (F (x k)).1 (grad (x k)) ∧ st.result = .successful ∧ st.firstStep = false ∧
        st.terminate = match k with
          | 0 => false
          | k + 1 => cauchyTermination rtol atol nY nF (x (k + 1)) (fun i => x (k + 1) i - x k i)
              (fun _ => ((F (x (k + 1))).1 : ℂ)) fun _ => (((F (x (k + 1))).1 - (F (x k)).1 : ℝ) : ℂ) := by
  intro S x
  induction k with
  | zero =>
    refine ⟨rfl, _, rfl, ?_, rfl, rfl, rfl, rfl⟩
    funext i
    show y0 i + -η * grad y0 i = y0 i - η * grad y0 i
    ring
  | succ k ih =>
    obtain ⟨h1, st, h2, h3, h4, h5, h6, h7⟩ := ih
    have e : trace S F aux0 y0 (GradientDescent.init (GradientDescent.gradientDescent η rtol atol nY nF grad) aux0 y0) (k + 2) =
        GradientDescent.step (GradientDescent.gradientDescent η rtol atol nY nF grad) F (x k) st := by
      rw [← h1, ← h2]; rfl
    refine ⟨(congrArg Prod.fst e).trans h3, _, congrArg (fun p => p.2.1) e, ?_, ?_, rfl, rfl, ?_⟩
    · show (fun i => st.yEval i + -η * grad st.yEval i) = _
      rw [h3]
      simp only [x]
      rw [Function.iterate_succ_apply' _ (k + 1)]
      funext i
      ring
    · show FnInfo.evalGrad (F st.yEval).1 (grad st.yEval) = _
      rw [h3]
    · show (if st.firstStep then false else cauchyTermination rtol atol nY nF st.yEval (fun i => st.yEval i - x k i)
        (fun _ => ((F st.yEval).1 : ℂ)) fun _ => (((F st.yEval).1 - st.fInfo.asMin : ℝ) : ℂ)) = _
      rw [h6, h3, h4]
      rfl

end gd

theorem gd_iterate (η : ℝ) (y0 : ι → ℂ) (k : ℕ) (i : ι) :
    ((fun (z : ι → ℂ) i => z i - η * normSquaredGrad z i)^[k] y0 i) =
      ⟨(1 - 2 * η) ^ k * (y0 i).re, (1 + 2 * η) ^ k * (y0 i).im⟩ := by
  induction k with
  | zero => simp
  | succ k ih =>
    rw [Function.iterate_succ_apply']
    show (_ : ℂ) - η * (2 * conj (_ : ℂ)) = _
    rw [ih]
    apply Complex.ext
    · simp; ring
    · simp; ring

/-- **C93.** `GradientDescent` on `∑ |z|²`: at every step the real parts shrink by `1 - 2 η` and the imaginary parts *grow* by
`1 + 2 η`. -/
theorem C93_gradient_descent_iterates (η rtol atol : ℝ) (nY : (ι → ℝ) → ℝ) (nF : (Unit → ℝ) → ℝ) (y0 : ι → ℂ) (k : ℕ) (i : ι) :
    ∃ st0, (gd η rtol atol nY nF normSquaredGrad ()).init normSquared y0 = .ok st0 ∧
      iterateAt (gd η rtol atol nY nF normSquaredGrad ()) normSquared () y0 st0 (k + 1) i =
        ⟨(1 - 2 * η) ^ k * (y0 i).re, (1 + 2 * η) ^ k * (y0 i).im⟩ :=
  ⟨_, rfl, by rw [(gd_state η rtol atol nY nF normSquaredGrad normSquared () y0 k).1]; exact gd_iterate η y0 k i⟩

/-- **C93** (fails): minimising `|z|²` from `i` by `GradientDescent` never ends, for every learning rate `η` and every smaller
tolerance; with a step limit it fails. -/
theorem C93_gradient_descent_runs_away (η rtol atol : ℝ) (nY nF : (Unit → ℝ) → ℝ) (hη : 0 < η) (ha : 0 < atol) (hr : 0 ≤ rtol)
    (hY : ∀ v i, |v i| ≤ nY v) (htol : atol + rtol * (1 + 2 * η) ≤ 2 * η) :
    iterativeSolve (gd η rtol atol nY nF normSquaredGrad ()) (fun _ => true) normSquared () (fun _ : Unit => Complex.I) none false =
        none ∧
      ∀ n, ∃ sol, iterativeSolve (gd η rtol atol nY nF normSquaredGrad ()) (fun _ => true) normSquared ()
        (fun _ : Unit => Complex.I) (some n) false = some (.ok sol) ∧ sol.result = .nonlinearMaxStepsReached := by
  set S := gd η rtol atol nY nF (normSquaredGrad (ι := Unit)) () with hS
  set st0 := GradientDescent.init (GradientDescent.gradientDescent η rtol atol nY nF (normSquaredGrad (ι := Unit))) ()
    (fun _ : Unit => Complex.I) with hst0
  have hst := gd_state η rtol atol nY nF (normSquaredGrad (ι := Unit)) normSquared () fun _ => Complex.I
  have hcont : ∀ k, Continues S (fun _ => true) normSquared () (fun _ : Unit => Complex.I) st0 k := by
    intro k
    refine ⟨rfl, ?_⟩
    obtain _ | k := k
    · rfl
    obtain ⟨-, st, h2, -, -, h5, -, h7⟩ := hst k
    have h2' : stateAt S normSquared () (fun _ : Unit => Complex.I) st0 (k + 1) = st := h2
    show ((stateAt S normSquared () (fun _ : Unit => Complex.I) st0 (k + 1)).terminate,
      (stateAt S normSquared () (fun _ : Unit => Complex.I) st0 (k + 1)).result) = _
    rw [h2', h5, h7]
    obtain _ | k := k
    · rfl
    refine Prod.ext ?_ rfl
    simp only [cauchyTermination, Bool.and_eq_false_iff, decide_eq_false_iff_not, not_lt]
    left
    refine le_trans ?_ ((le_abs_self _).trans (hY _ ()))
    simp only [scaledDiff, gd_iterate]
    set q := (1 + 2 * η) ^ k with hq
    have hq1 : 1 ≤ q := one_le_pow₀ (by linarith)
    have e1 : ‖(⟨(1 - 2 * η) ^ (k + 1) * Complex.I.re, (1 + 2 * η) ^ (k + 1) * Complex.I.im⟩ : ℂ)‖ = (1 + 2 * η) * q := by
      have : (⟨(1 - 2 * η) ^ (k + 1) * Complex.I.re, (1 + 2 * η) ^ (k + 1) * Complex.I.im⟩ : ℂ) =
          (((1 + 2 * η) * q : ℝ) : ℂ) * Complex.I := by
        apply Complex.ext
        · rw [Complex.re_ofReal_mul]; simp
        · rw [Complex.im_ofReal_mul]; simp [hq, pow_succ']
      rw [this, norm_mul, Complex.norm_I, mul_one, Complex.norm_real, Real.norm_eq_abs, abs_of_nonneg (by positivity)]
    have e2 : ‖(⟨(1 - 2 * η) ^ (k + 1) * Complex.I.re, (1 + 2 * η) ^ (k + 1) * Complex.I.im⟩ : ℂ) -
        ⟨(1 - 2 * η) ^ k * Complex.I.re, (1 + 2 * η) ^ k * Complex.I.im⟩‖ = 2 * η * q := by
      have : (⟨(1 - 2 * η) ^ (k + 1) * Complex.I.re, (1 + 2 * η) ^ (k + 1) * Complex.I.im⟩ : ℂ) -
        ⟨(1 - 2 * η) ^ k * Complex.I.re, (1 + 2 * η) ^ k * Complex.I.im⟩ = ((2 * η * q : ℝ) : ℂ) * Complex.I := by
        apply Complex.ext
        · rw [Complex.re_ofReal_mul]; simp
        · rw [Complex.im_ofReal_mul]
          simp [hq, pow_succ']
          ring
      rw [this, norm_mul, Complex.norm_I, mul_one, Complex.norm_real, Real.norm_eq_abs, abs_of_nonneg (by positivity)]
    rw [e1, e2, le_div_iff₀ (by positivity), one_mul]
    nlinarith
  refine ⟨?_, fun n => ?_⟩
  · unfold iterativeSolve
    rw [Option.map_eq_none_iff, iterate_none S (fun _ => true) normSquared () (fun _ : Unit => Complex.I) st0 rfl]
    exact ⟨rfl, hcont⟩
  · obtain ⟨sol, hsol, hn⟩ := Props.solve_exists S (fun _ => true) normSquared () (fun _ : Unit => Complex.I) st0 rfl (some n) n
      (fun j _ => hcont j) (Or.inr rfl)
    obtain ⟨st0', hi, -, -, -, -, -, hres⟩ := Props.solve_spec _ _ _ _ _ _ _ _ hsol
    obtain rfl : st0 = st0' := Except.ok.inj hi
    exact ⟨sol, hsol, by rw [hres, if_pos (hcont _)]⟩

example (nF : (Unit → ℝ) → ℝ) :
    iterativeSolve (gd 0.1 1e-3 1e-6 Verif.maxNorm nF normSquaredGrad ()) (fun _ => true) normSquared () (fun _ : Unit => Complex.I)
      none false = none :=
  (C93_gradient_descent_runs_away _ _ _ _ _ (by norm_num) (by norm_num) (by norm_num) (fun v i => abs_le_maxNorm v i)
    (by norm_num)).1

/-- **C93.** In real and imaginary parts the same problem is solved. -/
theorem C93_gradient_descent_split : ∃ N, ∀ ms throw, (∀ n, ms = some n → N ≤ n) →
    ∃ sol, iterativeSolve (Props.gdSolver (1/4) 0 (1/10) Verif.maxNorm Verif.maxNorm (fun (y : Unit ⊕ Unit → ℝ) i => 2 * y i) ())
      (fun _ => true) (fun v => normSquared (join v)) () (split fun _ => Complex.I) ms throw = some (.ok sol) ∧
      sol.result = .successful ∧ sol.numSteps ≤ N := by
  have e : ∀ v : Unit ⊕ Unit → ℝ, (normSquared (join v)).1 = v (.inl ()) ^ 2 + v (.inr ()) ^ 2 := by
    intro v
    simp [normSquared, join, ← Complex.normSq_eq_norm_sq, Complex.normSq_apply]
    ring
  refine Props.C31_converges (1/4) 0 (1/10) 2 0 (by norm_num) le_rfl Verif.maxNorm Verif.maxNorm goodNorm_maxNorm goodNorm_maxNorm _ ()
    (fun v => normSquared (join v)) _ (fun y z => ?_) (fun y => ?_) (by norm_num) (by norm_num) _ (fun _ => rfl)
  · simp only [e]
    simp
    nlinarith
  · simp only [e]
    positivity

/-! ### The Cauchy step of `Dogleg` -/

/-- **C93** (fails): the Cauchy step, along "the negative gradient", increases the objective: for the residual `z` at `z = i` it doubles
the residual. -/
theorem C93_cauchy_step_uphill (eps : ℝ) (he : eps < 1) :
    let z : Unit → ℂ := fun _ => Complex.I
    let p := cauchyStep eps z (1 : Matrix Unit Unit ℂ)
    HasJacobian (fun z : Unit → ℂ => z) z 1 ∧ p = (fun _ => Complex.I) ∧
      (FnInfo.eval (ι := Unit) (κ := Unit) (0.5 * sumSquares z)).asMin = 0.5 ∧
      (FnInfo.residualJac (fun i => z i + p i) (1 : Matrix Unit Unit ℂ)).asMin = 2 := by
  intro z p
  have hp : p = fun _ => Complex.I := by
    have hg : computeGrad z (1 : Matrix Unit Unit ℂ) = fun _ => -Complex.I := by
      funext i
      simp [computeGrad, z]
    have h1 : sumSquares (fun _ : Unit => -Complex.I) = 1 := by simp [sumSquares]
    funext i
    simp only [p, cauchyStep, hg, one_mulVec, h1, if_pos he]
    simp
  refine ⟨fun v k => ?_, hp, ?_, ?_⟩
  · rw [one_mulVec]
    have := ((Complex.ofRealCLM.hasDerivAt (x := (0 : ℝ))).mul_const (v k)).const_add (z k)
    exact this.congr_deriv (by simp)
  · simp [FnInfo.asMin, sumSquares, z]
  · rw [hp]
    have : ‖Complex.I + Complex.I‖ = 2 := by
      rw [← two_mul, norm_mul, Complex.norm_I]; simp
    simp only [FnInfo.asMin, sumSquares, z, Finset.univ_unique, Finset.sum_singleton, this]
    norm_num

/-! ### Real data -/

/-- A real vector as complex numbers. -/
def ofReal (x : ι → ℝ) : ι → ℂ := fun i => (x i : ℂ)

/-- **C93** (what remains true): on real data the Cauchy step is the one of real arithmetic, `-(|g|^2 / |J g|^2) g` for `g = Jᵀ r`. -/
theorem C93_cauchy_step_real (eps : ℝ) (r : κ → ℝ) (jac : Matrix κ ι ℝ) :
    cauchyStep eps (ofReal r) (jac.map fun a => (a : ℂ)) =
      ofReal (let g := jac.transpose.mulVec r
        let d := ∑ k, (jac.mulVec g k) ^ 2
        if eps < d then fun i => -((∑ i, g i ^ 2) / d) * g i else 0) := by
  have hg : computeGrad (ofReal r) (jac.map fun a => (a : ℂ)) = ofReal (jac.transpose.mulVec r) := by
    funext i
    simp [computeGrad, ofReal, Matrix.mulVec, dotProduct, mul_comm]
  have hj : (jac.map fun a => (a : ℂ)).mulVec (ofReal (jac.transpose.mulVec r)) =
      ofReal (jac.mulVec (jac.transpose.mulVec r)) := by
    funext k
    simp only [ofReal, Matrix.mulVec, dotProduct, Matrix.map_apply]
    push_cast
    rfl
  have hs : ∀ {μ : Type} [Fintype μ] (x : μ → ℝ), sumSquares (ofReal x) = ∑ i, x i ^ 2 := by
    intro μ _ x
    simp [sumSquares, ofReal]
  unfold cauchyStep
  simp only [hg, hj, hs]
  split_ifs with h
  · funext i; simp [ofReal]
  · funext i; simp [ofReal]

/-- Corresponding states. -/
structure GDReal (st : Verif.GradientDescent.State ι A Unit (ι → ℝ)) (st' : GradientDescent.State ι A Unit (ι → ℂ)) : Prop where
  firstStep : st'.firstStep = st.firstStep
  yEval : st'.yEval = ofReal st.yEval
  fInfo : ∃ f g, st.fInfo = .evalGrad f g ∧ st'.fInfo = .evalGrad f (ofReal g)
  aux : st'.aux = st.aux
  terminate : st'.terminate = st.terminate
  result : st'.result = st.result

/-- **C93** (what remains true): on data that happens to be real, `GradientDescent` on complex numbers does what `GradientDescent` does
on real numbers.  Missing: data with imaginary parts, for which the minimisers need not even go downhill
(`C93_gradient_descent_runs_away`, `C93_cauchy_step_uphill`). -/
theorem C93_gradient_descent_partial (η rtol atol : ℝ) (nY : (ι → ℝ) → ℝ) (nF : (Unit → ℝ) → ℝ) (f : (ι → ℝ) → ℝ × A)
    (g : (ι → ℝ) → ι → ℝ) (F : (ι → ℂ) → ℝ × A) (G : (ι → ℂ) → ι → ℂ) (hF : ∀ x, F (ofReal x) = f x)
    (hG : ∀ x, G (ofReal x) = ofReal (g x)) (aux0 : A) (fin : (ι → ℝ) → Bool) (fin' : (ι → ℂ) → Bool)
    (hfin : ∀ x, fin' (ofReal x) = fin x) (y0 : ι → ℝ) (ms : Option ℕ) (throw : Bool) :
    outcome (iterativeSolve (gd η rtol atol nY nF G aux0) fin' F aux0 (ofReal y0) ms throw) =
      (outcome (iterativeSolve (Props.gdSolver η rtol atol nY nF g aux0) fin f aux0 y0 ms throw)).map
        fun r => r.map fun s => (ofReal s.1, s.2) := by
  refine Follows.solve (S := Props.gdSolver η rtol atol nY nF g aux0) (fn := f) (S' := gd η rtol atol nY nF G aux0) (fn' := F)
    (m := ofReal) (R := GDReal) ?_ hfin aux0 y0 ms throw
  refine ⟨fun y => .inr ⟨_, _, rfl, rfl, ⟨rfl, rfl, ⟨0, y, rfl, rfl⟩, rfl, rfl, rfl⟩⟩, fun y st st' h => ?_,
    fun y st st' h => ?_, fun _ _ _ _ _ _ => rfl, fun _ _ _ _ _ _ => rfl⟩
  · obtain ⟨h1, h2, ⟨a, b, h3, h3'⟩, h4, h5, h6⟩ := h
    have hmove : ∀ x y : ι → ℝ, (fun i => ofReal x i - ofReal y i) = ofReal fun i => x i - y i := by
      intro x y; funext i; simp [ofReal]
    have hsc : ∀ x y : ι → ℝ, scaledDiff rtol atol (ofReal x) (ofReal y) = Verif.scaledDiff rtol atol x y := by
      intro x y; funext i; simp [scaledDiff, Verif.scaledDiff, ofReal, Real.norm_eq_abs]
    have hsc' : ∀ x y : ℝ, scaledDiff rtol atol (fun _ : Unit => (x : ℂ)) (fun _ => (y : ℂ)) =
        Verif.scaledDiff rtol atol (fun _ => x) fun _ => y := by
      intro x y; funext i; simp [scaledDiff, Verif.scaledDiff, Real.norm_eq_abs]
    refine ⟨h2, ⟨rfl, ?_, ⟨_, _, rfl, ?_⟩, ?_, ?_, rfl⟩, ?_⟩
    · show (fun i => st'.yEval i + -η * G st'.yEval i) = ofReal fun i => st.yEval i + -η * g st.yEval i
      rw [h2, hG]
      funext i
      simp [ofReal]
    · show FnInfo.evalGrad (F st'.yEval).1 (G st'.yEval) = .evalGrad (f st.yEval).1 (ofReal (g st.yEval))
      rw [h2, hF, hG]
    · show (F st'.yEval).2 = (f st.yEval).2
      rw [h2, hF]
    · show (if st'.firstStep then false else cauchyTermination rtol atol nY nF st'.yEval (fun i => st'.yEval i - ofReal y i)
        (fun _ => ((F st'.yEval).1 : ℂ)) fun _ => (((F st'.yEval).1 - st'.fInfo.asMin : ℝ) : ℂ)) =
        (if st.firstStep then false else Verif.cauchyTermination rtol atol nY nF st.yEval (fun i => st.yEval i - y i)
        (fun _ => (f st.yEval).1) fun _ => (f st.yEval).1 - Verif.GradientDescent.fOf st.fInfo)
      rw [h1, h2, h3, h3', hF]
      simp only [cauchyTermination, Verif.cauchyTermination, hmove, hsc, hsc', FnInfo.asMin, Verif.GradientDescent.fOf]
      congr
    · show (if st'.firstStep then (F st'.yEval).2 else st'.aux) = if st.firstStep then (f st.yEval).2 else st.aux
      rw [h1, h2, hF, h4]
  · exact Prod.ext h.terminate h.result

/-- `|z|²` on real numbers. -/
example (y0 : ι → ℝ) (ms : Option ℕ) :
    outcome (iterativeSolve (gd 0.1 1e-3 1e-6 Verif.maxNorm Verif.maxNorm normSquaredGrad ()) (fun _ => true) normSquared () (ofReal y0)
        ms true) =
      (outcome (iterativeSolve (Props.gdSolver 0.1 1e-3 1e-6 Verif.maxNorm Verif.maxNorm (fun x i => 2 * x i) ()) (fun _ => true)
        (fun x => (∑ i, x i ^ 2, ())) () y0 ms true)).map fun r => r.map fun s => (ofReal s.1, s.2) :=
  C93_gradient_descent_partial _ _ _ _ _ _ _ _ _ (fun x => by simp [normSquared, ofReal])
    (fun x => by funext i; simp [normSquaredGrad, ofReal]) _ _ _ (fun _ => rfl) _ _ _

end Verif.Cx
