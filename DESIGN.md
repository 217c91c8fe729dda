# Formal model of optimistix in Lean 4

## Layout

* `lean/Verif/Model/*.lean` – the model, one file per source file (or group of source files). Every definition cites the
  lines of `/repo` it models and says where it simplifies.
* `lean/Verif/Spec/*.lean` – small, model-independent vocabulary used by the property statements (runs and traces,
  acceptance rules, positive definiteness).
* `lean/Verif/Lemmas/*.lean` – helper lemmas.
* `lean/Verif/Props/*.lean` – the property theorems (names `Cnn_…`, listed in `MANIFEST.json`), together with `example`s
  that exhibit concrete, non-trivial instances of their hypotheses.
* `seeded/LOG.jsonl` – wrong programs the theorems were tested against.

## Trusted base

1. **Lean 4.33.0's kernel**; Mathlib as a library of kernel-checked theorems. Every theorem depends on at most the axioms
   `propext`, `Classical.choice`, `Quot.sound`. No axioms of our own, no `sorry`, no `native_decide`, no `bv_decide`.
2. **The reading of the Python source.** There is no mechanical link between the Python text and the model.
3. **Numbers.** Arrays of floats are modelled in one of four ways, stated at the top of each model file:
   * an arbitrary scalar type without any laws (`Bisection`, `FixedPoint`, `NewtonChord`, `Misc`): the theorems that use no laws
     hold for every floating-point format and rounding;
   * exact real numbers (everything that is about linear algebra or convergence);
   * `XR`, the reals extended by `+inf`, `-inf`, `nan` with the IEEE-754 rules, exact in the finite part, unsigned zero
     (wherever NaN or infinity matters).
   * `Fl F` (`Model/Float.lean`, C85–C87, C89, C90): the numbers of a floating-point format `F` together with `±inf` and `nan`, every operation
     being the exact one followed by `F.round`, which is monotone, odd and may overflow. Further hypotheses
     (`Format.Accurate`, `Gradual`, `Halves`) are proved of the binary formats of every precision and exponent range with round to
     nearest even, with gradual underflow (IEEE 754) and with results below the normal range flushed to zero (XLA on CPU). Operations are rounded one by one: fused multiply-add and
     reassociation by the compiler are not modelled; zero is unsigned.
   Outside of C85–C87, C89, C90 rounding and overflow of finite values are **not** modelled; integer overflow and dtype promotion nowhere.
   * `ℂ` (`Model/Complex.lean`, C92, C93): complex unknowns for `FixedPointIteration`, `Newton`, `Chord`, `GaussNewton`, `LevenbergMarquardt`, `IndirectLevenbergMarquardt`, `GradientDescent` and the Cauchy step of `Dogleg`; other solvers only on real numbers. Trusted: `jnp.abs` is the modulus, `tree_dot` conjugates its first argument, Jacobians of holomorphic functions are complex Jacobians, the gradient of a real function is `du/dx - i du/dy`, `lx.linear_solve` solves the complex (least-squares) system.
4. **PyTrees** of arrays are functions `ι → K` out of the finite set `ι` of all scalar entries. The split into leaves is
   kept only where the code depends on it (Nelder–Mead's initial simplex). That the leaf-by-leaf helpers amount to this is
   proved on actual trees of arrays (`Model/PyTree.lean`, C69), and that the packing does not matter in C67.
   `jax.tree_util` (flatten, unflatten, compose, map with prefixes), `jnp.tensordot`, `reshape` and
   `lx.PyTreeLinearOperator.mv` are modelled there from their documentation.
5. **External libraries** are parameters. What is assumed of them is a hypothesis of the theorems that need it, and an
   instance is constructed next to it:
   * JAX autodiff: `grad`/`jac` are arbitrary functions; theorems that need them to be the derivative say so
     (`HasFDerivAt`, …; `ExactInner` for the scalar derivative and division inside the inner root find of C70/C71). In `Model/Ad.lean` `jax.jvp`/`jax.grad` are Lean's `fderiv`; in `Model/AdHigher.lean` a program around a solve is differentiated by the chain rule with the tangent of `_ad.py` for the root, and reverse mode is the transpose of forward mode, `lx.linear_solve` being transposed to a solve with the transposed operator; in `Model/Derivatives.lean` `jax.linearize`, `jax.linear_transpose`, `jax.jacfwd` and `jax.jacrev` are the Fréchet derivative, its transpose, its columns and its rows. In `Model/Unrolled.lean` the derivative through the checkpointed loop is the `fderiv` of the loop body executed as many times as the primal run does.
   * `lineax.linear_solve`: an arbitrary function returning a vector and a result code. Theorems that need more assume
     `SolvesSPD` (on success solves symmetric positive definite systems), `SolvesLeastSquares` (on success returns a
     least-squares solution), `ExactLA` (L-BFGS: dense factorisations of invertible matrices), `SolvesMinimal` (C78, only for unused unknowns with the undamped
     descents: returns the shortest least-squares solution, as `lx.AutoLinearSolver(well_posed=None/False)` does with an SVD), `Exact` (C12: inverts invertible operators), `Approximate` (C96: relative error at most eta), `InexactSetting` (C97: relative residual at most eta), `Trustworthy` (C117: with structural tags, right whenever the tags are true of an invertible operator). What lineax does with a tag is not modelled.
   * `eqx.partition`/`combine`/`filter_cond`/`tree_equal` are modelled on trees of leaves (`Model/Partition.lean`, C106) from their documentation.
   * optax: an arbitrary pair of functions (`init`, `update`).
   * `eqxi.while_loop(max_steps=n)`: runs the body while the condition holds, at most `n` times. `lax.while_loop`
     without bound: `Nat.find` of the first index at which the condition fails, `none` (in the driver) or `Err.hangs` (inside an `init`)
     if there is none.
   * `eqx.error_if` raises iff its flag is set; `lax.cond`/`filter_cond`/`jnp.where` are if-then-else; `lax.top_k`, `argmin`, `argmax` return the
     first extremal index. How `lax.top_k` ranks NaN is a parameter (C119); elsewhere the arrays it is applied to hold no NaN.
   * `max_norm`, `rms_norm`, `two_norm`, `tree_dot` from `lineax.internal` are modelled by their mathematical definitions.
6. **Results.** `RESULTS` is an inductive type of codes. `promote` of a linear-solver code is the identity.

### Not modelled

jit, compilation and jaxpr caching (`filter_closure_convert`, `cached_eval`), formatting and ordering of `jax.debug.print` (what is printed, and by which step, is C81), warnings, type annotations,
documentation, performance, complex numbers outside of C92 and C93, dtypes, PyTree structure errors other than those in C11, C48 and C69,
the choice of checkpoints in `RecursiveCheckpointAdjoint`, `vmap` other than the masked loop of C52,
runs of `NelderMead` called by hand with a user-given simplex (`y0_simplex`; its validation and the first call of the objective are modelled), NaN coordinates in `NelderMead`, `history_length = 0`.

## Method

Functions are modelled branch by branch as total functions; a raised exception is a value of `Except`. The driver
(`_iterate.py`) is generic in the solver, and each solver is a value of the structure `Solver` (`init`, `step`, `terminate`, `postprocess`), as
in the code, so that theorems about whole solves are about `Driver.iterativeSolve` applied to the modelled solver. Properties are proved by
induction over the number of steps (invariants over all runs), refinement (driver = iterate until the first
stopping index; ring buffer = list; two-loop recursion = dense recursion; compact representation = dense matrix) or algebra.
Where a property is false of the code, the negation is proved with a concrete witness, and the true part is a theorem
with the suffix `_partial`.

Totalised operations (`x / 0 = 0` over the reals, `getD`) are only used where the code cannot reach them, where the statement excludes
them, or where the model says so; wherever the special values decide the outcome the model is over `XR`.

## Disagreements found between the code and what it promises

Each is a theorem about the model.

| where | what | theorem |
|---|---|---|
| `_iterate.py` | a successful solve may return a non-finite value (the finiteness test looks at the iterate before the last step) | `C07_not_finite_value` |
| `docs/api/norms.md` | zero padding is said to change `two_norm` ("not at all" invariant) and hardly `rms_norm`; it is the other way round | `C78_norm_padding` |
| `_root_find.py` | with a minimiser the objective is `norm(fn(y))`, not the documented `sum(fn(y)^2)` | `C56_documented_objective_false` |
| `_root_find.py`, `_ad.py` | with a minimiser the derivative of the root is taken through `grad(norm ∘ fn)`: for `y² - θ` it is 0 | `C12_root_find_minimiser_wrong` |
| `bisection.py` | an interval with a root at an end point is rejected | `C16_root_at_bound_rejected` |
| `bisection.py` | `expand_if_necessary` may loop for ever | `C17_expansion_can_hang` |
| `golden.py` | the first middle point lacks `lower +`: probes outside of the interval, no convergence, or success after one step far from the minimiser | `C18_probes_outside`, `C19_never_converges`, `C19_false_success`, `C84_golden_outside`, `C122_golden_shift_false` |
| `fixed_point.py` | `damp = 1` reports every point as a fixed point | `C20_damp_one_vacuous` |
| `newton_chord.py` | rate-based termination with bounds reports success far from a root | `C57_rate_mode_false_success` |
| `best_so_far.py` | the last iterate is never considered; with `GoldenSearch`/`NelderMead` value and aux do not belong together | `C25_last_iterate_ignored`, `C26_golden_wrong_aux` |
| `nonlinear_cg.py` | sign of `hestenes_stiefel` and `dai_yuan` | `C33_hs_dy_sign_flipped`, `C33_hs_not_conjugate` |
| `trust_region.py`, `backtracking.py` | zero constants and NaN pass the validation | `C55_zero_constant_accepted`, `C55_nan_accepted` |
| `gauss_newton.py` | the first step may "converge" by comparing `y0` with itself | `C58_gauss_newton_stops_at_start` |
| `levenberg_marquardt.py` | failure of the inner root find of the indirect variant is ignored | `C59_indirect_inner_ignored` |
| `dogleg.py` | 0/0 at a stationary point and at a reflected crossing | `C42_stationary_is_nan`, `C42_reflection_is_nan` |
| `dogleg.py`, `bisection.py` | with a trust-region norm other than `two_norm`, a Cauchy step exactly as long as the radius (in particular a stationary point with `step_size < 1`) raises "root is not contained", even with `throw=False` | `C72_boundary_raises` |
| `docs/examples/interactive.ipynb`, `_iterate.py` | the documented loop tests the new point (the solve tests the old one), and ends neither on failures reported without `done` nor on infinities/NaNs: it may stop elsewhere, turn failures into successes, or run for ever | `C74_bisection_differs`, `C74_failure_ignored`, `C74_nonfinite_ignored` |
| `docs/examples/interactive.ipynb`, search-based solvers, `best_so_far.py` | the documented alternative, repeated solves with `max_steps=1`, never moves at all with any search-based minimiser or least-squares solver or any `BestSoFar…` wrapper; starts again from the whole interval with `GoldenSearch` and `Bisection` | `C75_never_moves`, `C75_golden_restarts`, `C75_bisection_cycles` |
| `docs/api/searches/introduction.md` | the documented example of a hybrid solver (`DoglegDescent` with BFGS `use_inverse=True`) is refused on every problem | `C76_documented_hybrid` |
| `nelder_mead.py` | an improving step returns the previous *worst* vertex; best value may increase; stale worst; statistics mislabelled | `C44_improvement_returns_worst`, `C44_default_run_goes_back`, `C44_best_increases`, `C60_stale_worst`, `C60_statistics_mislabelled` |
| `nelder_mead.py` | `y0_simplex=True` rejects every simplex in two or more dimensions (`x[1:].size` for `x[0].size`, 133) | `C68_y0_simplex_rejected` |
| `_minimise.py`, `nelder_mead.py` | `y0_simplex=True` never works: the objective is converted to a closure at the shapes of `y0` (the simplex, 90) and called at vertices, which have one axis less (359), so equinox raises a `ValueError` | `C68_y0_simplex_never_works` |
| `nelder_mead.py` | the outcome depends on how the unknowns are packed into leaves | `C68_packing_matters` |
| `nelder_mead.py` | initial simplex degenerate for leaves with three or more entries | `C45_array_leaf_degenerate`, `C45_confined`, `C45_cannot_minimise` |
| `optax.py` | spurious success at the first step | `C49_first_step_spurious` |
| `compat/_impl.py` | option `norm` discarded; placeholders when no step was taken | `C48_norm_ignored`, `C48_zero_steps_dummy` |
| `cauchy_point.py` (not exported) | infinite loop, NaN, increase of the model | `C50_hangs`, `C50_nan`, `C50_model_increases` |
| `gauss_newton.py`, `quasi_newton.py` | with `verbose`, "Loss on the last accepted step" is that of the point before "y on the last accepted step" whenever the step is accepted, and 0 at the first step | `C81_loss_of_another_point` |
| `bisection.py` | with tolerances below the spacing of the floating-point numbers around the sign change the iteration reaches a fixed point without stopping: it never ends (without `max_steps`) | `C87_too_fine` |
| `fixed_point.py` | with tolerances below the error with which `fn` is computed the iteration may enter a cycle and never end (without `max_steps`), although the function is the constant `1` up to rounding | `C89_too_fine` |
| `trust_region.py` | if the predicted change overflows to `+inf`, a step to a point with objective `+inf` is accepted | `C90_trust_region_overflow` |
| `_search.py`, `gradient_methods.py` | on complex unknowns the gradient in JAX's convention is used as a direction without conjugation: `GradientDescent` on `\|z\|²` runs away from the minimum and never ends (without `max_steps`); the skipped assertion of `tests/test_least_squares.py` is false | `C93_gradient_descent_runs_away`, `C93_steepest_direction`, `C93_grad_dot_wrong` |
| `dogleg.py` | on complex unknowns the Cauchy step can increase the objective | `C93_cauchy_step_uphill` |
| `quasi_newton.py`, `limited_memory_bfgs.py` | the curvature guard `inner > finfo.eps` is absolute: on small objectives the quasi-Newton solvers never update their matrix and are steepest descent, arbitrarily slow, although the same objective in other units is solved in a few steps | `C100_bfgs_is_steepest_descent`, `C100_dfp_is_steepest_descent`, `C100_lbfgs_is_steepest_descent`, `C100_bfgs_not_superlinear` |
| `nelder_mead.py` | success is no evidence of a minimum: on McKinnon-type strongly convex objectives the solver contracts to the starting point and reports success there, at every tolerance (a known weakness of the algorithm, present in the code) | `C101_nelder_mead_stops_at_the_start` |
| `gradient_methods.py`, `gauss_newton.py` | with `norm` given, `SteepestDescent` and `NewtonDescent` divide 0/0 at a stationary point: the step is NaN instead of zero, and a solve that starts at (or lands exactly on) a minimum ends with `nonfinite` | `C107_stationary_step_nan`, `C107_stationary_start_fails` |
| `trust_region.py` | the acceptance test is `f_diff <= low_cutoff * predicted_reduction` with no check that the prediction is negative (a comment says it is assumed to be); `NewtonDescent` with `ClassicalTrustRegion` produces positive predictions once the radius exceeds two, and then steps that increase the objective are taken | `C109_newton_overshoots` |
| `_least_squares.py:88-91`, `gauss_newton.py:162-178` | `tags` are documented to describe the Hessian of the sum of squares, but are attached to the Jacobian of the residuals: with true promises `GaussNewton` can report success at the starting point | `C117_gauss_newton_wrong` |
| `_least_squares.py:20-28, 88-91` | the implicit adjoint solves with the Hessian of half the sum of squares, so the promise `unit_diagonal_tag`, true as documented, gives half the derivative | `C117_unit_diagonal_wrong` |
| `nelder_mead.py:256-297, 333-376` | a reflected vertex at which the objective is NaN replaces the worst vertex (every comparison with NaN is false, so there is neither a contraction nor a shrink); depending on how `lax.top_k` ranks NaN the solve then fails with `nonlinear_divergence` and can return a point worse than `y0` | `C119_nan_is_taken`, `C119_nan_wrong` |


## Per-property plan and result

(`theorems` are in namespace `Verif.Props`; the full statements of the properties are in `properties.jsonl`.)

### C01 The step budget is respected and counted exactly — proved

* Model and proof: `_iterate.py` driver, generic in the solver (`Model/Iterate`); full characterisation of a solve by its first stopping index, by induction on the fuel of the loop.
* Theorems: `C01_step_budget`, `C01_counts_calls`

### C02 A successful result is a certificate of termination — proved

* Model and proof: `_iterate.py` driver, generic in the solver (`Model/Iterate`); full characterisation of a solve by its first stopping index, by induction on the fuel of the loop.
* Theorems: `C02_success_is_certificate`, `C02_success_complete`

### C03 Failures stop the loop at once and are reported unchanged — proved

* Model and proof: `_iterate.py` driver, generic in the solver (`Model/Iterate`); full characterisation of a solve by its first stopping index, by induction on the fuel of the loop.
* Theorems: `C03_failure_reported`, `C03_result_origin`

### C04 max_steps_reached is reported exactly when the budget ran out undecided — proved

* Model and proof: `_iterate.py` driver, generic in the solver (`Model/Iterate`); full characterisation of a solve by its first stopping index, by induction on the fuel of the loop.
* Theorems: `C04_max_steps_reached_iff`

### C05 throw=True never returns a failed solution, throw=False never raises — proved

* Model and proof: `_iterate.py` driver, generic in the solver (`Model/Iterate`); full characterisation of a solve by its first stopping index, by induction on the fuel of the loop.
* Theorems: `C05_throw_returns_only_success`, `C05_throw_raises_iff`, `C05_nothrow_never_raises`, `C05_bounded_returns`

### C06 A non-finite starting point is rejected before any step — proved

* Model and proof: `_iterate.py` driver, generic in the solver (`Model/Iterate`); full characterisation of a solve by its first stopping index, by induction on the fuel of the loop.
* Theorems: `C06_nonfinite_start`, `C06_nonfinite_iterate`

### C07 A successful solve returns a finite value — partial

* Model and proof: driver over an abstract finiteness test; a concrete solver for the negation; the guarantee for the iterate tested last.
* Theorems: `C07_not_finite_value`, `C07_finite_value_partial`
* Note: False for arbitrary solvers (witness proved): the driver tests the iterate before the step, not the returned one. The guarantee that does hold is proved as _partial. For the built-in solvers the full statement holds: see C65.

### C08 Raising max_steps does not change a finished solve — proved

* Model and proof: `_iterate.py` driver, generic in the solver (`Model/Iterate`); full characterisation of a solve by its first stopping index, by induction on the fuel of the loop.
* Theorems: `C08_budget_monotone`, `C08_unbounded_diverges_iff`

### C09 Solution.aux comes from a real evaluation — proved

* Model and proof: `_iterate.py` driver, generic in the solver (`Model/Iterate`); full characterisation of a solve by its first stopping index, by induction on the fuel of the loop. For NelderMead the aux is shown to be the placeholder after the first step.
* Theorems: `C09_aux_provenance`, `C09_nelder_mead`

### C10 root_find through a minimiser or least-squares solver certifies a small residual — proved

* Model and proof: `_root_find.py` `_ToRoot` wrapper over an arbitrary inner solver, run by the driver; invariant: the stored value is fn at the point stepped from.
* Theorems: `C10_root_via_minimiser_certificate`, `C10_root_via_least_squares_certificate`, `C10_no_root_no_success`, `C10_root_aux_is_users`

### C11 Problem conversions preserve solutions — proved

* Model and proof: the conversion functions in `_root_find/_least_squares/_fixed_point/_minimise` (`Model/Problems`); algebra.
* Theorems: `C11_least_squares_objective`, `C11_fixed_point_root`, `C11_root_find_objective`, `C11_fixed_point_structure_rejected`, `C11_minimise_rejects_nonscalar`

### C12 Implicit differentiation returns the true derivative of the solution map — partial

* Model and proof: `_ad.py` tangent formula with `fderiv` for `jvp`; implicit function theorem and chain rule along a branch of solutions.
* Theorems: `C12_root_find_partial`, `C12_fixed_point`, `C12_minimise`, `C12_least_squares`, `C12_primal`, `C12_branch_exists`, `C12_approximate_roots`, `C12_root_find_minimiser_wrong`
* Note: Proved for the root-find, fixed-point, minimise and least-squares drivers with their own solvers, given the trusted behaviour of jax.jvp/grad and an exact linear solve. False of the code for root_find with a minimiser (C12_root_find_minimiser_wrong).

### C13 Bisection always brackets a sign change — proved

* Model and proof: `bisection.py` over an arbitrary scalar type without laws; invariant by induction over steps.
* Theorems: `C13_bracket_invariant`, `C13_stays_in_interval`

### C14 Bisection's answer is within tolerance of a true root — proved

* Model and proof: `bisection.py` over the reals; intermediate value theorem, uniform continuity, exact halving.
* Theorems: `C14_answer_near_root`

### C15 Bisection halves its interval and terminates — proved

* Model and proof: `bisection.py` over the reals; intermediate value theorem, uniform continuity, exact halving.
* Theorems: `C15_halves`, `C15_terminates`, `C15_rate`

### C16 Bisection accepts an interval iff its end values have opposite signs — partial

* Model and proof: `bisection.py` `init`; case analysis; counterexample with a root at a bound.
* Theorems: `C16_root_at_bound_rejected`, `C16_accepts_iff_partial`, `C16_bad_input_rejected`
* Note: The documented acceptance of a root exactly at a bound is false of the code (C16_root_at_bound_rejected); the exact acceptance condition is proved.

### C17 Bisection's interval expansion is sound — proved

* Model and proof: `_expand_interval` as an unbounded loop; invariant, IVT for termination, constant function for the hang.
* Theorems: `C17_expansion_sound`, `C17_expansion_terminates`, `C17_expansion_can_hang`

### C18 Golden-section search probes inside the user's interval — partial

* Model and proof: `golden.py`; invariants of the triple; negation because the first middle point lacks `lower +`. For other intervals whose first middle point is inside, the widths follow Euclid's algorithm on incommensurable lengths, which converges to zero.
* Theorems: `C18_probes_outside`, `C18_probes_inside_partial`, `C18_y0_ignored`, `C18_offset_inside_partial`, `C18_middle_inside_iff`
* Note: False of the code when lower != 0 (middle point lacks the lower offset): witness C18_probes_outside. Proved in full for lower = 0; for other (rational) bounds whose first middle point is inside (exactly when: C18_middle_inside_iff) everything but the factor 1/phi is proved (C18_offset_inside_partial).

### C19 Golden-section search keeps the minimiser of a unimodal function — partial

* Model and proof: `golden.py`; invariants of the triple; negation because the first middle point lacks `lower +`. For other intervals whose first middle point is inside, the widths follow Euclid's algorithm on incommensurable lengths, which converges to zero.
* Theorems: `C19_minimiser_kept_partial`, `C19_answer_near_minimiser_partial`, `C19_terminates_partial`, `C19_never_converges`, `C19_offset_kept_partial`, `C19_offset_terminates_partial`, `C19_false_success`
* Note: False in general for the same reason (C19_never_converges, C19_false_success). Proved in full for lower = 0; for other (rational) bounds whose first middle point is inside, the minimiser is kept, brackets shrink to it and solves terminate, but a success need not be near it.

### C20 FixedPointIteration success certifies a small scaled update — proved

* Model and proof: `fixed_point.py`; algebra, geometric decay of updates (Banach).
* Theorems: `C20_success_certificate`, `C20_same_fixed_points`, `C20_residual_bound`, `C20_damp_one_vacuous`

### C21 FixedPointIteration converges on contractions — proved

* Model and proof: `fixed_point.py`; algebra, geometric decay of updates (Banach).
* Theorems: `C21_terminates`, `C21_error_bound`, `C21_fixed_point_exists`, `C21_step_bound`

### C22 Newton/Chord with bounds never leave the box — proved

* Model and proof: `newton_chord.py`; case analysis, linear algebra over an arbitrary Jacobian and linear solver.
* Theorems: `C22_iterates_in_bounds`, `C22_value_in_bounds`, `C22_iterates_in_bounds_float`

### C23 Newton and Chord solve affine systems in one step — proved

* Model and proof: `newton_chord.py`; case analysis, linear algebra over an arbitrary Jacobian and linear solver.
* Theorems: `C23_affine_exact`, `C23_initial_test_fails`, `C23_step_solves_linearisation`

### C24 Newton/Chord classify divergence and linear-solver failure — proved

* Model and proof: `newton_chord.py`; case analysis, linear algebra over an arbitrary Jacobian and linear solver.
* Theorems: `C24_linear_failure_reported`, `C24_rate_classification`, `C24_nan_is_divergence`, `C24_divergence_means`, `C24_sizes_compared`

### C25 BestSoFar returns the best iterate it evaluated — proved

* Model and proof: `best_so_far.py` over an arbitrary inner solver; induction on steps; negations for inner solvers that break the contract.
* Theorems: `C25_best_of_iterates`, `C25_same_run`, `C25_minimiser_gradient_family`, `C25_least_squares_gauss_newton_family`, `C25_fixed_point`, `C25_root_finder_newton`, `C25_nan_never_wins`, `C25_last_iterate_ignored`
* Note: Proved for every inner solver that reports the function value at the point it steps from (instances: gradient family, Gauss-Newton family, Newton/Chord, FixedPointIteration). C25_last_iterate_ignored records that the last accepted iterate is not considered.

### C26 BestSoFar's aux belongs to its value — partial

* Model and proof: `best_so_far.py` over an arbitrary inner solver; induction on steps; negations for inner solvers that break the contract.
* Theorems: `C26_aux_of_value_partial`, `C26_golden_wrong_aux`
* Note: Proved for inner solvers that report at the point they step from; false for GoldenSearch (C26_golden_wrong_aux).

### C27 Backtracking line search never increases the objective — proved

* Model and proof: searches (`_search.py`, `backtracking.py`, `trust_region.py`, `learning_rate.py`) and the three solver skeletons (`gradient_methods.py`, `quasi_newton.py`, `gauss_newton.py`); invariants over runs, derivative argument for liveness.
* Theorems: `C27_gradient_family`, `C27_quasi_newton_family`, `C27_gauss_newton_family`

### C28 Backtracking terminates on a descent direction — proved

* Model and proof: searches (`_search.py`, `backtracking.py`, `trust_region.py`, `learning_rate.py`) and the three solver skeletons (`gradient_methods.py`, `quasi_newton.py`, `gauss_newton.py`); invariants over runs, derivative argument for liveness.
* Theorems: `C28_rule_gradient`, `C28_rule_quasi_newton`, `C28_accepts_gradient`, `C28_accepts_quasi_newton`, `C28_nan_trial_rejected`

### C29 Trust-region accept/resize rule — proved

* Model and proof: searches (`_search.py`, `backtracking.py`, `trust_region.py`, `learning_rate.py`) and the three solver skeletons (`gradient_methods.py`, `quasi_newton.py`, `gauss_newton.py`); invariants over runs, derivative argument for liveness.
* Theorems: `C29_rule`, `C29_nan_trial_rejected`, `C29_run_gauss_newton`, `C29_run_gradient_linear`, `C29_run_quasi_newton_linear`, `C29_run_quasi_newton_classical`, `C29_run_gauss_newton_linear`

### C30 Rejected steps leave the iterate and its information unchanged — proved

* Model and proof: searches (`_search.py`, `backtracking.py`, `trust_region.py`, `learning_rate.py`) and the three solver skeletons (`gradient_methods.py`, `quasi_newton.py`, `gauss_newton.py`); invariants over runs, derivative argument for liveness.
* Theorems: `C30_gradient_family`, `C30_quasi_newton_family`, `C30_gauss_newton_family`, `C30_aux_gradient_family`, `C30_aux_quasi_newton_family`, `C30_aux_gauss_newton_family`

### C31 GradientDescent is textbook gradient descent — proved

* Model and proof: `GradientDescent` in the driver; refinement to the textbook recursion, shifted by the evaluating first step.
* Theorems: `C31_textbook_recursion`, `C31_value`, `C31_success_small_gradient`, `C31_converges`

### C32 NonlinearCG always searches along a descent direction — proved

* Model and proof: `nonlinear_cg.py`; algebra; negation for the sign of HS/DY.
* Theorems: `C32_query_descent`, `C32_run_descent`, `C32_progress`

### C33 The nonlinear CG beta formulas are the published ones — partial

* Model and proof: `nonlinear_cg.py`; algebra; negation for the sign of HS/DY.
* Theorems: `C33_fr_pr_published_partial`, `C33_hs_dy_sign_flipped`, `C33_hs_not_conjugate`
* Note: Proved for Fletcher-Reeves and Polak-Ribiere; Hestenes-Stiefel and Dai-Yuan have the wrong sign in the code (C33_hs_dy_sign_flipped).

### C34 BFGS update: secant equation, symmetry, positive definiteness — proved

* Model and proof: `quasi_newton.py` with matrices; rank-two updates, positive definiteness by Cauchy–Schwarz; invariants over whole runs.
* Theorems: `C34_update_inverse`, `C34_update_direct`, `C34_run`, `C34_descent_direction`, `C34_progress`

### C35 DFP update: secant equation, symmetry, positive definiteness — proved

* Model and proof: `quasi_newton.py` with matrices; rank-two updates, positive definiteness by Cauchy–Schwarz; invariants over whole runs.
* Theorems: `C35_update_inverse`, `C35_update_direct`, `C35_run`, `C35_descent_direction`

### C36 use_inverse=True and use_inverse=False agree — proved

* Model and proof: `quasi_newton.py` with matrices; rank-two updates, positive definiteness by Cauchy–Schwarz; invariants over whole runs.
* Theorems: `C36_lbfgs`, `C36_bfgs`, `C36_dfp`
* Note: BFGS, DFP and L-BFGS, whole runs, for every search that does not read the Hessian approximation (HessianAgnostic), and for exact linear algebra (linear solves of positive definite systems return the solution; instances constructed).

### C37 L-BFGS ring buffer holds exactly the most recent accepted pairs — proved

* Model and proof: `limited_memory_bfgs.py`; refinement ring buffer → list; two-loop recursion = dense recursion; compact representation = dense matrix (by induction over the pairs).
* Theorems: `C37_inverse_memory`, `C37_direct_memory`

### C38 L-BFGS two-loop recursion equals the dense BFGS inverse — proved

* Model and proof: `limited_memory_bfgs.py`; refinement ring buffer → list; two-loop recursion = dense recursion; compact representation = dense matrix (by induction over the pairs).
* Theorems: `C38_run`, `C38_linear`, `C38_descent_direction`
* Note: Whole runs; two-loop recursion against the dense recursion from the same pairs.

### C39 L-BFGS compact direct Hessian equals the dense BFGS Hessian — proved

* Model and proof: `limited_memory_bfgs.py`; refinement ring buffer → list; two-loop recursion = dense recursion; compact representation = dense matrix (by induction over the pairs).
* Theorems: `C39_run`, `C39_descent_direction`
* Note: Whole runs with use_inverse=False; the inner dense factorisation/solve is assumed exact (ExactLA; an instance is constructed).

### C40 Levenberg-Marquardt damped step solves the regularised problem — proved

* Model and proof: `levenberg_marquardt.py` and the Gauss–Newton skeleton; normal equations over the reals, invariants over runs.
* Theorems: `C40_damped_step`, `C40_shrinks`, `C40_bounded`, `C40_damped_step_hessian`, `C40_run`

### C41 LevenbergMarquardt/Dogleg runs never increase the sum of squares — proved

* Model and proof: `levenberg_marquardt.py` and the Gauss–Newton skeleton; normal equations over the reals, invariants over runs.
* Theorems: `C41_dogleg`, `C41_monotone`, `C41_levenberg_marquardt`, `C41_indirect`
* Note: For LevenbergMarquardt, IndirectLevenbergMarquardt and Dogleg, with linear solves that return least-squares solutions (SolvesLeastSquares; such solvers exist). Dogleg: over the reals, with the crossing formula totalised where it is 0/0 (see C42).

### C42 Dogleg steps respect the trust region and follow the dogleg path — partial

* Model and proof: `dogleg.py` over `XR` for the crossing formula and over the reals for the rest; algebra.
* Theorems: `C42_dogleg_step_partial`, `C42_stationary_is_nan`, `C42_reflection_is_nan`, `C42_other_norm`, `C42_base_points`, `C42_newton_accepted`, `C42_predicted_decrease`, `C42_base_points_hessian`, `C42_newton_accepted_hessian`, `C42_predicted_decrease_hessian`
* Note: On the dogleg path and on the trust-region boundary, except where the crossing formula is 0/0: at a stationary point (C42_stationary_is_nan) and when the circle passes through the reflected Newton step (C42_reflection_is_nan).

### C43 GaussNewton solves linear least squares in one step — proved

* Model and proof: `gauss_newton.py`; normal equations.
* Theorems: `C43_recursion`, `C43_affine_one_step`, `C43_affine_solve`

### C44 NelderMead best value never increases and matches the returned point — partial

* Model and proof: `nelder_mead.py`; invariants; negations (stale vertices, degenerate simplex).
* Theorems: `C44_best_value_partial`, `C44_improvement_returns_worst`, `C44_success`, `C44_divergence`, `C44_default_run_goes_back`, `C44_best_increases`
* Note: False of the code: an improving step returns the previous worst vertex (C44_improvement_returns_worst, C44_default_run_goes_back) and the recorded best value can increase after a shrink (C44_best_increases). What does hold is C44_best_value_partial, C44_success, C44_divergence.

### C45 NelderMead's initial simplex is non-degenerate — partial

* Model and proof: `nelder_mead.py`; invariants; negations (stale vertices, degenerate simplex).
* Theorems: `C45_scalars_partial`, `C45_array_leaf_degenerate`, `C45_confined`, `C45_cannot_minimise`
* Note: Proved for PyTrees of scalars; false for every array leaf with three or more entries (C45_array_leaf_degenerate), which confines the run to a low-dimensional subspace (C45_confined, C45_cannot_minimise).

### C46 cauchy_termination needs both the iterate and the objective to settle — proved

* Model and proof: `_misc.py` over `XR`; case analysis incl. NaN.
* Theorems: `C46_cauchy_iff_all_entries`, `C46_cauchy_needs_both`, `C46_cauchy_monotone_tol`, `C46_cauchy_nonfinite_false`

### C47 feasible_step_length keeps points feasible — proved

* Model and proof: `_misc.py` over `XR`; case analysis incl. NaN.
* Theorems: `C47_feasible_step_keeps_box`, `C47_feasible_step_maximal`, `C47_feasible_step_outside`, `C47_feasible_step_strict_interior`, `C47_tree_clip`

### C48 compat.minimize reports faithfully — partial

* Model and proof: `compat/_impl.py` on top of the model of BFGS; decision table, invariants of BFGS runs.
* Theorems: `C48_error_kinds`, `C48_raises_iff`, `C48_status`, `C48_results_at_x_partial`, `C48_zero_steps_dummy`, `C48_norm_ignored`, `C48_norm_ignored_witness`
* Note: Validation, status codes, fun/jac/hess_inv at x, monotonicity and counters are proved for every request. Partial because two clauses are false of the code: with no evaluation (maxiter=0, non-finite x0) fun and jac are placeholders (C48_zero_steps_dummy), and the documented option `norm` is discarded (C48_norm_ignored, C48_norm_ignored_witness).

### C49 OptaxMinimiser follows the optax recursion — partial

* Model and proof: `optax.py` over an arbitrary optimiser; refinement.
* Theorems: `C49_recursion`, `C49_value`, `C49_success_partial`, `C49_sgd_is_gradient_descent`, `C49_first_step_spurious`
* Note: Recursion and reported value proved for every optimiser given as (init, update). Partial: success certifies the last two evaluated objective values only from the second evaluation on; at the first step the comparison is with the largest float, and a spurious success is proved (C49_first_step_spurious).

### C50 Generalised Cauchy point stays in the box and terminates — partial

* Model and proof: `cauchy_point.py` over `XR`; invariants of the loop, progress of the intercepts; negations by computation.
* Theorems: `C50_in_box_partial`, `C50_terminates_partial`, `C50_model_increases`, `C50_hangs`, `C50_nan`
* Note: Feasibility of every non-NaN result proved; termination and finiteness proved when a finite bound lies ahead of every entry. False of the code in general: hang (C50_hangs), NaN (C50_nan), model increase (C50_model_increases).

### C51 Function-information conversions agree — proved

* Model and proof: `_search.py` function information and `trust_region.py` predictions; algebra.
* Theorems: `C51_residual_conversions`, `C51_grad_dot_consistent`, `C51_gradient_is_derivative`

### C52 Batched (vmapped) solves equal individual solves — proved

* Model and proof: the driver's loop as `vmap` runs it (masked, until all lanes stop); induction.
* Theorems: `C52_batched_eq_individual`, `C52_batched_solve`

### C53 Indirect Levenberg-Marquardt honours the trust region — proved

* Model and proof: `levenberg_marquardt.py` and the Gauss–Newton skeleton; normal equations over the reals, invariants over runs.
* Theorems: `C53_indirect_step`, `C53_length_strictly_decreasing`
* Note: For the damping parameter in the representable range (0 < lambda, 1/lambda above the clipping threshold); strict monotonicity in the two-norm.

### C54 Predicted reductions equal the model's change — proved

* Model and proof: `_search.py` function information and `trust_region.py` predictions; algebra.
* Theorems: `C54_classical_hessian`, `C54_classical_residual`, `C54_forms_agree`, `C54_linear`, `C54_supported`

### C55 Constructor validation rejects exactly the invalid hyper-parameters — partial

* Model and proof: `__post_init__`/`__check_init__` checks over `XR`; case analysis.
* Theorems: `C55_armijo_valid_iff`, `C55_trust_region_valid_iff`, `C55_zero_constant_accepted`, `C55_nan_accepted`, `C55_step_size_positive_partial`
* Note: Exact acceptance conditions proved; the documented strict positivity of the trust-region constants is false of the code (zero accepted, C55_zero_constant_accepted) and NaN parameters pass every check (C55_nan_accepted).

### C56 root_find with a minimiser minimises the documented objective — partial

* Model and proof: `_root_find.py` objective; witness.
* Theorems: `C56_documented_objective_false`, `C56_documented_objective_partial`
* Note: False of the code (witness); proved for the norm actually used.

### C57 Newton/Chord success certifies a small residual — partial

* Model and proof: `newton_chord.py`; case analysis, linear algebra over an arbitrary Jacobian and linear solver.
* Theorems: `C57_cauchy_success_small_residual_partial`, `C57_rate_mode_false_success`
* Note: Proved for cauchy_termination=True (default); false of the code for cauchy_termination=False with bounds (C57_rate_mode_false_success).

### C58 Success of a search-based solver means the last two iterates agree — partial

* Model and proof: searches (`_search.py`, `backtracking.py`, `trust_region.py`, `learning_rate.py`) and the three solver skeletons (`gradient_methods.py`, `quasi_newton.py`, `gauss_newton.py`); invariants over runs, derivative argument for liveness.
* Theorems: `C58_gradient_family`, `C58_quasi_newton_family`, `C58_gauss_newton_family_partial`, `C58_gauss_newton_stops_at_start`
* Note: Proved for the gradient and quasi-Newton families; false for the Gauss-Newton family, whose first step may terminate by comparing y0 with itself (C58_gauss_newton_stops_at_start).

### C59 Failures inside a solver are reported — partial

* Model and proof: descents and searches with arbitrary result codes, in the driver; case analysis and induction.
* Theorems: `C59_newton`, `C59_dogleg`, `C59_indirect_partial`, `C59_damped`, `C59_search`, `C59_quasi_newton`, `C59_search_gradient`, `C59_search_quasi_newton`, `C59_indirect_inner_ignored`
* Note: Proved for the linear solves of all descents and for searches; false for the inner root find of IndirectDampedNewtonDescent, whose failure is ignored (C59_indirect_inner_ignored).

### C60 NelderMead performs the documented simplex moves and its statistics count them — partial

* Model and proof: `nelder_mead.py`; invariants; negations (stale vertices, degenerate simplex).
* Theorems: `C60_moves_partial`, `C60_statistics_mislabelled`, `C60_outer_counts_reflections`, `C60_stale_worst`
* Note: Moves proved; the centre of a shrink and the worst vertex may be stale (C60_stale_worst) and the statistics are mislabelled (C60_statistics_mislabelled, C60_outer_counts_reflections).

### C61 Newton and Chord converge locally — proved

* Model and proof: `newton_chord.py` over the reals with Fréchet derivatives; contraction near a nondegenerate root, both termination tests; mean value inequality for the quadratic rate.
* Theorems: `C61_local_convergence`, `C61_newton_quadratic`

### C62 Backtracking minimisers converge from every starting point and stop by themselves — proved

* Model and proof: backtracking runs over the reals; descent lemma, step sizes bounded below, telescoping sum of the decreases.
* Theorems: `C62_gradient_family`, `C62_quasi_newton_family`, `C62_steepest_descent`

### C63 BFGS, DFP, L-BFGS and backtracking steepest descent solve every strongly convex problem — proved

* Model and proof: the curvature guard is absolute, so that on a strongly convex objective only finitely many updates happen; then the directions are uniformly gradient related and C62 applies; compactness for the bounds on the matrices.
* Theorems: `C63_bfgs`, `C63_dfp`, `C63_lbfgs_inverse`, `C63_lbfgs_direct`, `C63_steepest_descent`

### C64 Levenberg-Marquardt does not get stuck and converges from every starting point — proved

* Model and proof: runs follow an abstract trust-region rule (points, radii); short damped steps are accepted by the descent lemma (globally) or the first-order expansion (locally), so radii stay away from zero; telescoping.
* Theorems: `C64_converges`, `C64_progress`

### C65 A successful answer is finite — proved

* Model and proof: The control flow of the solvers over any scalar type, run on XR. A finite quotient has a finite numerator and a finite sum finite summands, so a passed stopping test forces the compared points to be finite; C02 links success to the stopping test at the last step; invariants where the stopping test alone is not enough (GoldenSearch: the iterate is lower + (upper - middle)).
* Theorems: `C65_search_based`, `C65_fixed_point`, `C65_bisection`, `C65_newton_chord`, `C65_optax`, `C65_golden`, `C65_nelder_mead`, `C65_best_so_far`
* Note: On XR (reals, infinities, NaN; finite arithmetic exact, so without overflow of finite operands). The search-based, golden, optax and Nelder-Mead control flow is restated over any scalar type in Model/AnyScalar.lean and proved equal to the models over the reals (gradient_is_search, quasi_newton_is_search, gauss_newton_is_search, golden_is_golden, optax_is_optax); for Nelder-Mead the stopping test is restated and the moves are arbitrary.

### C66 Dogleg does not get stuck and converges from every starting point — proved

* Model and proof: the abstract trust-region rule of C64; case analysis of the dogleg path (truncated Cauchy step, second leg, scaled Newton step when the curvature is below eps) bounds the predicted decrease from below by the gradient and, at short step sizes, the step length by the predicted decrease.
* Theorems: `C66_converges`, `C66_progress`

### C67 The outcome of a solve does not depend on how the numbers are packed into PyTrees — proved

* Model and proof: repacking is a bijection of the index set; every ingredient (dots, norms, matrices, descents, searches, updates) commutes with it, so the solver on the repacked problem simulates the solver on the original one step by step; a general simulation theorem for the driver gives equal outcomes.
* Theorems: `C67_gradient_descent`, `C67_nonlinear_cg`, `C67_bfgs`, `C67_dfp`, `C67_lbfgs_inverse`, `C67_lbfgs_direct`, `C67_optax`, `C67_best_so_far_bfgs`, `C67_gauss_newton`, `C67_levenberg_marquardt`, `C67_indirect_levenberg_marquardt`, `C67_dogleg`, `C67_best_so_far_levenberg_marquardt`, `C67_newton_chord`, `C67_fixed_point`, `C67_best_so_far`, `C67_best_so_far_newton_chord`, `C67_best_so_far_fixed_point`, `C67_jacobian`
* Note: Unknowns and residuals are real vectors over arbitrary index types; a repacking is any bijection of index types. Linear solver, norm and optax optimiser are assumed not to depend on the packing (SameSolve, SameNorm), shown for the package's norms and for exact solves.

### C68 NelderMead treats all packings of its unknowns alike and accepts a simplex given by the user — partial

* Model and proof: the step and stopping test of `nelder_mead.py` by the same simulation; the initial simplex by a witness; the validation of `y0_simplex` over all lists of leaf shapes.
* Theorems: `C68_given_simplex_partial`, `C68_packing_matters`, `C68_y0_simplex_accepted`, `C68_y0_simplex_rejected`, `C68_y0_simplex_never_works`
* Note: Proved for a given simplex (C68_given_simplex_partial). False of the code: the simplex built from y0 depends on the packing (C68_packing_matters), and y0_simplex rejects every simplex in two or more dimensions (C68_y0_simplex_rejected; what it accepts: C68_y0_simplex_accepted).

### C69 Trees are handled entry by entry, whatever their containers and array shapes — proved

* Model and proof: PyTrees as an inductive type with `jax.tree_util`'s flatten, unflatten, compose and map (with prefixes and errors); arrays as shape and row-major entries; induction over trees.
* Theorems: `C69_identity`, `C69_dot`, `C69_outer`, `C69_add`, `C69_scale`, `C69_full_like`, `C69_allfinite`, `C69_where`

### C70 The inner root find of IndirectDampedNewtonDescent keeps the damping positive and the step close to the trust region — proved

* Model and proof: the inner root find is the modelled Newton solver run by the modelled driver on the scalar equation |p(l)| = radius; p(l) solves (J'J + l)p = -J'r, its length is differentiable, decreasing and convex-like (tangent bound by Cauchy-Schwarz), so Newton from the left never overshoots and grows the damping by a factor 1.9 while the step is ten times too long.
* Theorems: `C70_damping_positive`, `C70_step`

### C71 IndirectLevenbergMarquardt converges from every starting point — proved

* Model and proof: the abstract trust-region rule of C64; bounds of the damping found by the inner root find (C70) from above by B/step_size and from below by the Lipschitz constant for short radii.
* Theorems: `C71_converges`

### C72 DoglegDescent works with trust regions of any shape — partial

* Model and proof: the inner root find is the Bisection of C13-C16 on [1, 2]: lengths along the second leg are Lipschitz in the parameter, so that 255 halvings suffice; accuracy from C14's root nearby. Where the Cauchy step is exactly as long as the radius (in particular at stationary points) the bisection raises: proved as a disagreement
* Theorems: `C72_any_shape_partial`, `C72_boundary_raises`
* Note: Proved for every seminorm, except where the Cauchy step is exactly as long as the radius, where the code raises (C72_boundary_raises). That query establishes the hypotheses on the state: C72_query_norms.

### C73 Differentiating through the iterates agrees with the derivative of the solution in the limit — proved

* Model and proof: the tangent through the loop is the derivative of the n-fold loop body (n decided by the primal run); recursion for the derivatives of the iterates, which is a contraction up to an error tending to zero; the limit solves the linearised equation, as does the derivative of the branch (C12)
* Theorems: `C73_fixed_point`, `C73_newton`, `C73_fixed_point_nearby`, `C73_newton_nearby`

### C74 Stepping through a solve by hand, as documented, gives the answer of the solve — partial

* Model and proof: the notebook's loop as a second driver over the solver interface (test at the new point, only `done` ends it); equality with the driver by comparing the first index at which either stops; which solvers meet the hypotheses; three witnesses where the two differ.
* Theorems: `C74_by_hand_partial`, `C74_which_solvers`, `C74_finite`, `C74_bisection_differs`, `C74_failure_ignored`, `C74_nonfinite_ignored`
* Note: Proved for solvers whose test looks at their state only, on runs without infinities/NaNs and without failures reported without 'done'. Without each of these restrictions it is false: C74_bisection_differs, C74_failure_ignored, C74_nonfinite_ignored.

### C75 Repeated solves of one step, as documented, follow the solve — partial

* Model and proof: one-step solves chained; solvers whose next point depends on the present point only follow their iterates by induction; the search-based ones only evaluate the starting point in their first step and so never move.
* Theorems: `C75_one_by_one_partial`, `C75_fixed_point`, `C75_optax`, `C75_newton_chord`, `C75_never_moves`, `C75_golden_restarts`, `C75_bisection_cycles`
* Note: Proved for solvers whose next point depends on the present point only (FixedPointIteration, Newton, stateless Optax). False for all search-based solvers and BestSoFar wrappers (C75_never_moves), GoldenSearch (C75_golden_restarts), Bisection (C75_bisection_cycles); Chord turns into Newton (C75_newton_chord).

### C76 Which searches and descents can be combined is decided by what the solver knows — proved

* Model and proof: a table of requirements as specification; the acceptance tests of searches and descents in the model; every solver of each family refuses or runs according to the table; the solver documented in docs/api/searches/introduction.md is refused.
* Theorems: `C76_gradient_descent`, `C76_gauss_newton`, `C76_quasi_newton`, `C76_documented_hybrid`

### C77 GaussNewton converges near a solution that is not too curved — proved

* Model and proof: Taylor expansion of the residuals at the stationary point and the normal equations give a contraction by any factor above q/sigma; induction over the run and the stopping test; a family of one-dimensional problems on which the condition fails and GaussNewton is repelled by the minimiser.
* Theorems: `C77_local_convergence`, `C77_zero_residual`, `C77_condition_needed`

### C78 The outcome does not depend on Cartesian coordinates, unused unknowns or vanishing residuals — proved

* Model and proof: A relational version of the simulation theorem for the driver (states correspond instead of being equal up to a map); every ingredient (inner products, searches, descents, linear solves, BFGS/DFP/L-BFGS matrices) commutes with the isometry; uniqueness of minimum-norm and damped least-squares solutions; the invariance of the norms under padding.
* Theorems: `C78_gradient_descent`, `C78_nonlinear_cg`, `C78_bfgs`, `C78_dfp`, `C78_lbfgs_inverse`, `C78_lbfgs_direct`, `C78_gauss_newton`, `C78_levenberg_marquardt`, `C78_indirect_levenberg_marquardt`, `C78_dogleg`, `C78_gradient`, `C78_jacobian`, `C78_two_norm`, `C78_two_norm_residuals`, `C78_norm_padding`, `C78_unused_unknowns`, `C78_zero_residuals`

### C79 The outcome of Newton, Chord, Gauss-Newton and fixed-point solves does not depend on units — proved

* Model and proof: The relational simulation theorem of C78 with an invertible matrix instead of an isometry: exact solves of regular systems and full-rank least-squares solves are unique, hence commute with the change of coordinates; with atol=0 the relative size of an update is free of units; a witness that atol=0 is needed.
* Theorems: `C79_newton`, `C79_newton_equations`, `C79_newton_units`, `C79_fixed_point`, `C79_fixed_point_units`, `C79_atol_matters`, `C79_gauss_newton`, `C79_gauss_newton_units`, `C79_jacobian`

### C80 Adding a constant to the objective changes nothing — proved

* Model and proof: A relation between the states of the two runs, preserved by every step (searches use differences of values, descents and Hessian updates none, the first step is always accepted); argmin and argmax commute with increasing maps; a witness that the condition on the stopping test is needed.
* Theorems: `C80_gradient_methods`, `C80_quasi_newton_methods`, `C80_gradient_descent`, `C80_nonlinear_cg`, `C80_bfgs`, `C80_dfp`, `C80_lbfgs_inverse`, `C80_lbfgs_direct`, `C80_rtol_matters`, `C80_golden`, `C80_nelder_mead`, `C80_offset_keeps_tests`, `C80_scaling_keeps_tests`

### C81 What verbose shows is the history of the solve — partial

* Model and proof: A solver transformer that logs what is shown; a simulation shows that it changes nothing, induction over the run that the log is the list of reports; the reports are related to the run by the acceptance invariants of C30; witness for the loss that belongs to another point.
* Theorems: `C81_argument`, `C81_transparent`, `C81_one_report_per_step`, `C81_handlers`, `C81_gauss_newton_partial`, `C81_quasi_newton_partial`, `C81_optax`, `C81_gauss_newton_names`, `C81_quasi_newton_names`, `C81_optax_names`, `C81_loss_of_another_point`
* Note: False of the code for the loss on the last accepted step (witness C81_loss_of_another_point); everything else about the reports is proved.

### C82 The differentiation options choose how derivatives are computed, not what is computed — proved

* Model and proof: `linearize`/`linear_transpose`/`jacfwd`/`jacrev` in terms of the Fréchet derivative, options as a dictionary; both modes computed and compared with the true gradient or Jacobian, and the solves are then equal.
* Theorems: `C82_gradient`, `C82_jacobian`, `C82_gradient_methods`, `C82_quasi_newton`, `C82_gauss_newton`, `C82_invalid`

### C83 Solvers agree where the methods they implement coincide — proved

* Model and proof: The recursions of the models compared by induction; simulations where the whole outcome agrees; algebra with one unknown for the updates.
* Theorems: `C83_gauss_newton_is_newton`, `C83_chord_first_step`, `C83_chord_is_newton_affine`, `C83_fixed_point_is_gradient_descent`, `C83_secant_slope`, `C83_bfgs_is_dfp`, `C83_first_direction_cg`, `C83_first_direction_quasi_newton`, `C83_cg_without_memory`

### C84 A solve depends on the function only at the points it visits — partial

* Model and proof: Two runs compared: their traces agree step by step as long as the functions agree at the points visited (induction); invariants for the domains; witness for GoldenSearch.
* Theorems: `C84_gradient_family`, `C84_quasi_newton_family`, `C84_gauss_newton_family`, `C84_newton`, `C84_fixed_point`, `C84_optax`, `C84_bisection`, `C84_bisection_domain`, `C84_newton_domain`, `C84_fixed_point_domain`, `C84_golden_domain_partial`, `C84_golden_outside`
* Note: Proved for all solvers named; false of GoldenSearch with lower != 0, which evaluates the function outside [lower, upper] (C84_golden_outside).

### C85 Stopping tests mean what they say in floating-point arithmetic — proved

* Model and proof: The solvers over `Fl F`, the numbers of a format `F` with every operation rounded; the success certificate (C02) is unfolded to the last test and the rounding errors of `(y - y')/(atol + rtol*|y|)` are bounded.
* Theorems: `C85_fixed_point`, `C85_newton`, `C85_search`, `C85_round_to_nearest_even`

### C86 Line searches never accept an increase, in floating-point arithmetic — proved

* Model and proof: Acceptance test over `Fl F`: signs and comparisons survive rounding because it is monotone; with gradual underflow `fl(a - b) <= 0` iff `a <= b`; induction over the run.
* Theorems: `C86_armijo_never_increases`, `C86_armijo_flushing`, `C86_trust_region_never_increases`

### C87 Bisection in floating-point arithmetic — proved

* Model and proof: `Bisection` over `Fl F`: the rounded midpoint stays between the ends (monotonicity), invariants by induction, intermediate value theorem for the answer, halving of the width down to the resolution for termination; neighbouring numbers as the witness of the infinite loop.
* Theorems: `C87_stays_inside`, `C87_bracket`, `C87_answer`, `C87_stops`, `C87_too_fine`

### C88 Derivatives of every order through a solve are right, forwards and backwards — proved

* Model and proof: JAX's chain rule for programs that call the rule of `_ad.py`, iterated (the rule calls itself for the root); induction over the number of derivatives, with smoothness of the tangent as a function of root and inputs (derivative of the inverse) and of the branch (implicit function theorem); reverse mode by transposition.
* Theorems: `C88_root_find`, `C88_fixed_point`, `C88_minimise`, `C88_least_squares`, `C88_approximate_roots`, `C88_gradient_root_find`, `C88_gradient_fixed_point`, `C88_gradient_minimise`

### C89 Fixed-point iteration tolerates rounding errors — proved

* Model and proof: The solver model over `Fl F`; the error of one computed (damped) step; induction over the steps with the invariant `r^k * rho0 + e / (1 - r)`; on success the distance bound is improved repeatedly and passed to the limit; the witness of non-termination is a 2-cycle of neighbouring numbers.
* Theorems: `C89_stays_near`, `C89_accuracy`, `C89_stops`, `C89_too_fine`

### C90 Line searches keep away from points where the objective is infinite or undefined — proved

* Model and proof: The common control flow of the search-based solvers (`Model/AnyScalar.lean`) on `Fl F` and `XR`; invariant along the run from what acceptance says about the computed difference; for coming back, induction over the rejections and the derivative along the search direction.
* Theorems: `C90_line_search`, `C90_answer`, `C90_trust_region`, `C90_trust_region_overflow`, `C90_undefined_start`, `C90_recovers`, `C90_fixed_rate_leaves`

### C91 A solve that starts at a solution returns it — proved

* Model and proof: `Spec.ReturnsStart`. Generic: two steps that do not move and a passed test (`AtRest`) give the outcome by C01/C02. Every search accepts a proposed point that is the current one and keeps its step size (`Calm`); every descent is zero at a zero gradient (`Rests`; uniqueness of the damped or full-rank least-squares solution, positive definiteness of Hessian approximations, curvature guards). The cases the code gets wrong are elsewhere: C16 (Bisection, root at a bound), C42 (NaN for searches on the unit sphere), C58 (GaussNewton stops at a start that is no solution).
* Theorems: `C91_gradient_descent`, `C91_nonlinear_cg`, `C91_bfgs`, `C91_dfp`, `C91_lbfgs_inverse`, `C91_lbfgs_direct`, `C91_optax`, `C91_levenberg_marquardt`, `C91_gauss_newton`, `C91_indirect`, `C91_dogleg`, `C91_fixed_point`, `C91_newton_chord`, `C91_root_find_levenberg_marquardt`

### C92 Complex unknowns are solved as pairs of real numbers — proved

* Model and proof: `Spec/Complex.lean`: `split`, `splitMatrix` (P+iQ as the block matrix P,-Q;Q,P). Solvers modelled again over the complex numbers (`Model/Complex.lean`). The block matrix commutes with products and turns the conjugate transpose into the transpose, so that exact linear solvers (invertible, minimal, full rank) give corresponding steps; the steps preserve a relation between states along the trajectory.
* Theorems: `C92_split_jacobian`, `C92_same_test`, `C92_max_norm_differs`, `C92_fixed_point_iterates`, `C92_fixed_point`, `C92_newton_iterates`, `C92_chord_iterates`, `C92_newton_chord`, `C92_gauss_newton_iterates`, `C92_gauss_newton`, `C92_levenberg_marquardt_iterates`, `C92_levenberg_marquardt`, `C92_indirect_levenberg_marquardt_iterates`, `C92_indirect_levenberg_marquardt`, `C92_fixed_point_certificate`, `C92_newton_certificate`

### C93 Minimising over complex unknowns goes downhill — partial

* Model and proof: `JaxGradient` is the specification of the convention. compute_grad by the chain rule; the conjugate by the block matrix; GradientDescent on |z|^2 in closed form, `Continues` at every step; the real-data part by simulation along the inclusion of the reals.
* Theorems: `C93_grad_dot`, `C93_gradient_jax`, `C93_gradient_conjugate`, `C93_steepest_direction`, `C93_grad_dot_wrong`, `C93_norm_squared_gradient`, `C93_gradient_descent_iterates`, `C93_gradient_descent_runs_away`, `C93_gradient_descent_split`, `C93_cauchy_step_uphill`, `C93_cauchy_step_real`, `C93_gradient_descent_partial`

### C94 Comparison-based solvers depend only on comparisons — proved

* Model and proof: `Spec/Comparisons.lean`: `SameSigns`, `SameOrder`, `SameCourse`. A relation between the two states (the same points; the stored values are the values of the two functions at the same points) preserved by every step; sorting and the comparisons of NelderMead are shown to depend on the order only.
* Theorems: `C94_outcome`, `C94_bisection`, `C94_bisection_expand`, `C94_bisection_outcome`, `C94_golden`, `C94_golden_outcome`, `C94_nelder_mead`

### C95 Rate of convergence and accuracy of GradientDescent on convex problems — proved

* Model and proof: The standard inequalities for one step (decrease, squared distance), then induction over `gdMap` iterates and C31_value; (c) by Cauchy-Schwarz at the last rejected point; (d) by telescoping and `solve_succeeds_by`.
* Theorems: `C95_convex_rate`, `C95_strongly_convex_rate`, `C95_success_distance`, `C95_step_bound`

### C96 Derivatives taken at an approximate solution are off by at most a multiple of its error — proved

* Model and proof: `Approximate` linear solvers and `TangentsAccurate` (a statement about `implicitJvp` of C12's model). The exact tangent depends on the value in a Lipschitz way because the derivatives of the residual are C1 and inversion is smooth; the error of the linear solver is bounded by the inverse.
* Theorems: `C96_root_find`, `C96_fixed_point`, `C96_minimise`, `C96_least_squares`

### C97 Newton and Chord tolerate errors in the function, the Jacobian and the linear solves — proved

* Model and proof: `InexactSetting` is C61's setting with errors. One inexact step contracts (`inexact_contracts`, by perturbing the Jacobian at the root); then induction over iterates, clipping only brings iterates closer, and C57 for the accuracy of a successful answer.
* Theorems: `C97_errors_tolerated`

### C98 Near an exact fit the trust-region least-squares solvers converge superlinearly — proved

* Model and proof: `ExactFit` and `ConvergesFast` state setting and conclusion. With step size t >= 1 each descent solves the normal equations with damping at most 1/t (`NewtonLike`); close to r the ratio of actual to predicted reduction exceeds the high cutoff, so every step is accepted and the step size grows by 3.5 (`near_prediction`, `gn_trust_rule`); the error then contracts (`damped_error`).
* Theorems: `C98_levenberg_marquardt`, `C98_dogleg`, `C98_indirect_levenberg_marquardt`

### C99 Rates of convergence of backtracking minimisers on strongly convex problems — proved

* Model and proof: `GeometricRate` states the conclusion. Every run of rejections ends before the step size falls below the smallest one the Lipschitz bound allows (`armijo_progress`), the accepted step gains at least a multiple of the squared gradient, and strong convexity bounds the error by the squared gradient (`block_rate`). For the quasi-Newton solvers the matrices change finitely often (`guarded_related`), so the directions stay uniformly related to the gradient.
* Theorems: `C99_steepest_descent`, `C99_bfgs`, `C99_dfp`, `C99_lbfgs_inverse`, `C99_lbfgs_direct`

### C100 Quasi-Newton solvers learn the curvature, whatever the units of the objective — partial

* Model and proof: `SameSteps` says that two solvers have the same iterates. By C99 the iterates stay in the sublevel set of the start, where curvature products are at most 8 L / mu times the gap of the objective (`guarded_identity`); with the identity as matrix the runs are those of steepest descent (`directions_determine_runs`), whose steps are short (`steepest_slow`). The partial theorem follows the iterates along the line of the eigenvector, using the secant equation of C34.
* Theorems: `C100_bfgs_is_steepest_descent`, `C100_dfp_is_steepest_descent`, `C100_lbfgs_is_steepest_descent`, `C100_bfgs_not_superlinear`, `C100_bfgs_eigenvector_partial`

### C101 NelderMead reports success only near a minimum of a strongly convex objective — partial

* Model and proof: McKinnon's function (tau = 2, theta = 6, phi = 60) composed with the affine map that takes the initial simplex of C45 to McKinnon's. `Contracting` is the invariant that the simplex consists of the start and two consecutive points of the sequence, with the recorded best and worst points not stale; every step is an inner contraction (`contracting_step`). The roots of l^2 = l/4 + 1/2 are enclosed in rational intervals for the inequalities. The partial theorem combines C44 with the quadratic bounds.
* Theorems: `C101_nelder_mead_stops_at_the_start`, `C101_edges_partial`

### C102 Damping makes fixed-point iteration converge on non-expansive and on steep maps — proved

* Model and proof: Krasnosel'skii-Mann: the identity for |d a + (1-d) b|^2 bounds the sum of the squared updates, which do not increase; a limit point exists by compactness and is the limit by monotonicity of the distance. For steep maps the squared distance is expanded. `never_stops` turns a test that never says stop into a statement about every budget.
* Theorems: `C102_damping`, `C102_undamped_cycles`, `C102_steep`

### C103 Newton converges from every starting point on convex systems with inverse-positive Jacobians — proved

* Model and proof: Monotone Newton theorem: convexity along lines gives F(z) >= F(y) + F'(y)(z-y); with inverse positivity the iterates are ordered, hence converge; the residuals F(y_k) = J d_k tend to zero, so the limit is the unique root and both Cauchy tests eventually pass. The cycle is an induction on the step number.
* Theorems: `C103_newton_global`, `C103_chord_global`, `C103_newton_cycles`

### C104 The derivative through a successful solve is as accurate as its tolerances — proved

* Model and proof: The success certificates (C20, C57, C14, C95; those of C134 for the least-squares solvers and backtracking) bound the distance of the answer from the exact solution by a multiple of the tolerance; expansion of distances makes the solutions a continuous branch and the Jacobian invertible; C96 turns the distance into an error of the derivative.
* Theorems: `C104_certified_root_find`, `C104_root_find_least_squares`, `C104_certified_minimise`, `C104_backtracking`, `C104_certified_least_squares`, `C104_least_squares`, `C104_fixed_point`, `C104_newton`, `C104_bisection`, `C104_gradient_descent`

### C105 No failure is invented — proved

* Model and proof: The solver's own code for the last state is the code of the last descent step, which is the code of the linear solve for the function information at the last iterate (an invariant of the run); the driver adds only max-steps and nonfinite.
* Theorems: `C105_bisection`, `C105_golden`, `C105_fixed_point`, `C105_optax`, `C105_gauss_newton`, `C105_dogleg`, `C105_dogleg_other`, `C105_levenberg_marquardt`, `C105_indirect`, `C105_gradient_descent`, `C105_nonlinear_cg`, `C105_quasi_newton_inverse`, `C105_quasi_newton`, `C105_newton`, `C105_nelder_mead`, `C105_best_so_far`, `C105_unbounded_success`

### C106 Whatever a solver keeps in its state comes through a solve unharmed — proved

* Model and proof: PyTrees as lists of leaves; eqx.partition/combine and the loop with the static part outside are modelled; the partitioned loop simulates Driver.iterate (a lock-step argument) when steps keep the static part, and otherwise the assertion of the body fires.
* Theorems: `C106_partition_combine`, `C106_unwrap_wrap`, `C106_filter_cond`, `C106_state_split_invisible`, `C106_changed_static_rejected`, `C106_stats`, `C106_nelder_mead_stats`

### C107 Normalised descents take steps of the requested length — partial

* Model and proof: The step is grad/norm(grad) times -step_size, whose norm is |step_size| by homogeneity. On XR (Model/Normalised.lean, equal to the real model where the norm is not zero) the invariant 'the trial point is the iterate plus a normalised step' turns a passed Cauchy test into a bound on the learning rate; at a zero gradient 0/0 is NaN and the driver reports nonfinite at the third test.
* Theorems: `C107_steepest_length_partial`, `C107_newton_length_partial`, `C107_success_needs_small_rate`, `C107_large_rate_never_succeeds`, `C107_stationary_step_nan`, `C107_stationary_start_fails`

### C108 How small gradients get within a budget, and how large a learning rate may be — proved

* Model and proof: Telescope the decrease c|grad|^2 of each step (of each block of q trials, by armijo_progress, for backtracking) against f(y0)-m; the parabola is solved in closed form for the sharpness part.
* Theorems: `C108_gradient_descent`, `C108_backtracking`, `C108_rate_too_large`

### C109 Minimisation with a trust-region search never increases the objective — partial

* Model and proof: A generic lemma over the Laws of the search loop: the step from an accepted point is the descent queried at stored information, so a non-positive prediction for every step of that descent gives monotonicity. Signs of predictions: -t|g|^2, Cauchy-Schwarz guard of nonlinear CG, positive definiteness invariants C34/C35/C38/C39 for Newton, the model decrease of dogleg and damped steps (C42, C40). The negation is a run computed symbolically: direct BFGS, Newton steps, default ClassicalTrustRegion, one variable, a polynomial.
* Theorems: `C109_steepest_descent_partial`, `C109_nonlinear_cg_partial`, `C109_newton_linear_partial`, `C109_dogleg_partial`, `C109_damped_partial`, `C109_indirect_partial`, `C109_newton_overshoots`
* Note: False in general: C109_newton_overshoots is the counterexample (direct BFGS, NewtonDescent, default ClassicalTrustRegion). Proved for the combinations listed in the statement (DoglegDescent with its default norm); steepest descent or nonlinear CG steps inside a quasi-Newton solver are not covered.

### C110 Gradient descent with a trust-region search converges from everywhere — proved

* Model and proof: The run is a TrustRun (Lemmas/TrustRegion.lean): short trials are accepted by the descent lemma, the radius stays above a bound, each accepted step lowers the objective by low_cutoff*t*|g|^2, and the sums are bounded. Under the gradient-domination condition the radius at accepted steps is at most 1/(2 mu low_cutoff), so steps and changes of the value tend to zero and the Cauchy test passes.
* Theorems: `C110_gradient_vanishes`, `C110_success`

### C111 Trust-region solvers see a small gradient after a bounded number of steps — proved

* Model and proof: Counting along a TrustRun: after k steps with a accepted and b rejected trials, a*(c*gamma*e) <= f(start)-f and t_k * l^(r a) <= t_0 * l^b, where l^r*h <= 1; the radius has a lower bound (C110, C64), so b <= r*a + q. Applied to gradient descent with LinearTrustRegion and to LevenbergMarquardt, whose damping at radii above the bound is at most 4(L+1).
* Theorems: `C111_gradient_descent`, `C111_levenberg_marquardt`, `C111_dogleg`, `C111_indirect`

### C112 A condition at the starting point guarantees that Newton and Chord find a root — proved

* Model and proof: The step of the model preserves the condition with constants beta/(1-h), h*eta/(2(1-h)), h=beta*K*eta (Banach perturbation bound, Taylor with constant K/2 from a differential inequality); the balls are nested, the iterates are Cauchy, the limit is a root, the error is at most twice the current eta. Chord: the map y - A^{-1}F(y) is a contraction of the ball. Success from the convergence of steps and residuals to zero. Sharpness: x^2 + (2h-1) from 1. The explicit step counts (C112_newton_steps, C112_chord_steps) use the same argument in residual form: inside the ball each step is at most beta times the residual and the next residual at most K/2 (Newton) or K rho (Chord) times the step (squared).
* Theorems: `C112_newton`, `C112_chord`, `C112_half_is_sharp`, `C112_newton_steps`, `C112_chord_steps`

### C113 Tightening the tolerances only prolongs a solve — proved

* Model and proof: A relation between the states of the two solvers (equal up to the stored outcome of the stopping test, or up to stored step sizes) preserved by step; where the looser solver does not stop successfully the verdicts agree. Lemma Tightens.prolongs turns this into a statement about whole solves with any budget. Stopping tests are monotone in tolerances and norm. Counterexample for the rate test: a Chord run whose scaled step sizes grow by more than 2 with rtol=0 only.
* Theorems: `C113_gradient_descent`, `C113_quasi_newton`, `C113_gauss_newton`, `C113_optax`, `C113_fixed_point`, `C113_bisection`, `C113_golden`, `C113_nelder_mead`, `C113_newton_chord`, `C113_newton_chord_rate`, `C113_rate_needs_common_factor`, `C113_best_so_far`, `C113_root_find_by_other_solvers`

### C114 What a successful result says about the gradient — proved

* Model and proof: C58 gives the last accepted trial and its closeness to the point before it. The step size (radius, damping) is bounded below along every run, so the gradient before the last step is at most a constant times that step; Lipschitz continuity carries it to the returned point. For the counterexample K/2 x^2 + y^2/2 with K = 2^m: started next to the bottom of the valley, the search rejects all steps down to 1/K, and the accepted one is shorter than the tolerances.
* Theorems: `C114_gradient_descent`, `C114_backtracking`, `C114_trust_region`, `C114_gauss_newton`, `C114_levenberg_marquardt`, `C114_distance`, `C114_backtracking_far_from_minimum`, `C114_bfgs_far_from_minimum`

### C115 Problems without bad stationary points are solved globally — proved

* Model and proof: The decrease per accepted step, rate/2 |g|^2 or its search analogue, is at least a multiple of the height, so heights contract. Square roots of heights bound the step lengths, so the path has finite length and converges; continuity and the domination make the limit a minimiser. The success bounds combine C62/C110/C114 with domination.
* Theorems: `C115_gradient_descent`, `C115_backtracking`, `C115_trust_region`

### C116 Root finding with LevenbergMarquardt from every starting point — proved

* Model and proof: A Taylor bound for the residuals from the Lipschitz Jacobian; with damping at least K*R the actual change is below a hundredth of the predicted one, so the trust region accepts, which bounds the damping above; uniform ontoness makes the predicted change a fixed multiple of the squared residual. Then as C115: geometric decrease, finite path, limit is a root by continuity. Termination via the Cauchy flag of the inner solver and the residual test of the conversion; accuracy from the C10 certificate plus monotonicity.
* Theorems: `C116_run`, `C116_root_find`, `C116_accuracy`

### C117 True promises about matrix structure change nothing — partial

* Model and proof: The linear solver becomes a function of the tags, constrained only by a contract: right answers when the tags are true. Model of which tags reach which operator. Positive part: simulation over the subtype of truthful invertible matrices (Newton, Chord), equality of the solvers (GaussNewton, Dogleg query only fresh Jacobians), reduction to C12 (derivatives). Negative part: least_squares documents tags of the Hessian of the sum of squares but puts them on the residual Jacobian, and its adjoint solves with half of that Hessian; both refuted with a solver meeting the contract.
* Theorems: `C117_root_find_newton`, `C117_root_find_least_squares`, `C117_least_squares_partial`, `C117_gauss_newton_wrong`, `C117_root_find_derivative`, `C117_fixed_point_derivative`, `C117_minimise_derivative`, `C117_least_squares_derivative_partial`, `C117_unit_diagonal_wrong`, `C117_quasi_newton_promise`, `C117_lbfgs_promise`, `C117_damped_promise`

### C118 Fixed points of order-preserving functions — proved

* Model and proof: Induction: y_k <= fn(y_k) is preserved by a damped step of an order-preserving function, hence monotone iterates; comparison with any b, fn(b) <= b, by induction. Limit by monotone convergence. Every step that does not stop the solve raises the sum of the components by at least atol, which bounds their number.
* Theorems: `C118_increasing`, `C118_decreasing`, `C118_certified`, `C118_enclosure`, `C118_limit`, `C118_succeeds`

### C119 NelderMead and points where the objective is undefined — partial

* Model and proof: Nelder-Mead once more with values in XR (NaN, infinities) and lax.top_k as a parameter that is only known to sort numbers. Conservativity over the other model by simulation. The step with a NaN reflection is computed for every state of a run and every ranking; a concrete run refutes the property; the remaining claims by case analysis of the step.
* Theorems: `C119_never_nan`, `C119_success_is_finite`, `C119_nan_is_taken`, `C119_nan_ends_the_solve`, `C119_nan_wrong`, `C119_infinity_partial`

### C120 A successful root find has a true root nearby — proved

* Model and proof: An existence theorem for roots (minimise |r(x)| + c|x-y| over a ball, which is compact; at the minimiser the residual vanishes, or a direction with J p = -r would decrease it), applied to the certificates of C10, C30, C40, C41 and C57, which say that the residual is within tolerance where.
* Theorems: `C120_least_squares_solver`, `C120_minimiser`, `C120_levenberg_marquardt`, `C120_dogleg`, `C120_indirect`, `C120_newton_chord`, `C120_fixed_point`, `C120_no_root`

### C121 root_find with Dogleg converges from every starting point — proved

* Model and proof: Short trials are accepted (Taylor bound with the Lipschitz constant of the Jacobian against the sufficient decrease of the dogleg step), so the radius stays above a bound and every accepted trial removes a fixed fraction of the sum of squares, or the step is zero because of the guard; counting accepted and rejected trials gives the rate. The flags of the last step as in C66 and C116. Near a root: induction that the step size stays at least one, where the step is Newton's.
* Theorems: `C121_run`, `C121_root_find`, `C121_quadratic`

### C122 Moving a problem or drawing it to another scale moves or scales the answer of the solvers without derivatives — partial

* Model and proof: Simulation: the state of the redrawn solve is the redrawn state (points by the affine map, values by the increasing map), which every branch of every step preserves since the solvers only take affine combinations of points and compare values; the tests of convergence agree because the scales cancel. For GoldenSearch only scales; moving is refuted by an instance that converges in one place and never in another.
* Theorems: `C122_bisection`, `C122_bisection_mirror`, `C122_golden_scale_partial`, `C122_golden_shift_false`, `C122_nelder_mead_course`, `C122_nelder_mead`, `C122_initial_simplex`

### C123 In finite arithmetic a solve ends after a bounded number of steps or goes round in a circle — proved

* Model and proof: Pigeonhole: among as many steps as there are situations two agree; from then on the run repeats, and so do the verdicts. A situation is whatever determines the next one and the next verdict (the iterate and the state; for Newton and Chord without the step counter). The numbers of a binary format are integer multiples of its smallest number below a bound.
* Theorems: `C123_bound`, `C123_circle`, `C123_enough`, `C123_ends_or_circles`, `C123_whole`, `C123_newton`, `C123_binary_finite`, `C123_fixed_point`, `C123_newton_chord`, `C123_bisection`

### C124 GradientDescent tolerates errors in the objective and its gradient — proved

* Model and proof: The exact step contracts the distance to the minimiser by sqrt(1 - rate mu) (C95) and the error adds at most rate eps; summing the geometric series gives 2 eps / mu. Success means a small computed gradient, hence a small true gradient, hence (strong convexity) a small distance. For tolerances below the noise a two-point cycle on y^2/2.
* Theorems: `C124_rate`, `C124_success`, `C124_succeeds`, `C124_enough_steps`, `C124_below_the_noise`

### C125 Independent problems can be solved together — proved

* Model and proof: Induction over the steps: the states of the combined run are the states of the two runs side by side. The linear system of two independent problems is block diagonal and its (least-squares) solution unique, so it consists of the two solutions. The max norm of two vectors side by side is below a bound iff both norms are.
* Theorems: `C125_success`, `C125_steps`, `C125_fixed_point`, `C125_newton_iterates`, `C125_newton`, `C125_gauss_newton`, `C125_gradient_descent`, `C125_fixed_point_steps`

### C126 Root finding with IndirectLevenbergMarquardt converges from every starting point — proved

* Model and proof: As C121, with the damping found by the inner root find (bounds from C71): damping at least K R + 1 makes a trial acceptable (lemma of C116), so the radius stays above a bound, where the damping is bounded, and every accepted trial removes a fixed fraction of the sum of squares. For radius at least one the step is Newton's, which gives the quadratic phase.
* Theorems: `C126_run`, `C126_root_find`, `C126_quadratic`

### C127 Least-squares solvers with a line search converge from every starting point — proved

* Model and proof: The convergence argument of C62 (short enough steps pass Armijo's test, each accepted step removes a multiple of the squared gradient) applied to the least-squares loop. The Gauss-Newton direction satisfies the angle and length conditions by the normal equations and the rank bound. For square systems the quadratic upper bound only holds where the residual is bounded, which it is along the run. For the full Newton step Armijo's test reads |f(z)|^2 <= (1 - 2 slope)|f(y)|^2.
* Theorems: `C127_family`, `C127_gauss_newton`, `C127_steepest_descent`, `C127_root_run`, `C127_root_find`, `C127_quadratic`, `C127_slope_above_half`

### C128 Newton with warm starts follows a branch of solutions for ever — proved

* Model and proof: Induction over the solves. In each, the starting point is within beta atol + delta of the root, so C112_newton_steps applies with theta = 1/4; the root it finds is r_n because roots are isolated (Taylor with constant K/2); the last step before success had a residual below atol, so the answer is within beta atol.
* Theorems: `C128_follows_branch`

### C129 Errors in function values do little harm to solvers that compare values — proved

* Model and proof: (a) The bracket invariant C13 holds for fn, whatever it is; the true function is at most eps at one end and at least -eps at the other, so it is small at an end or changes sign (intermediate values). (b)-(d) C27, C41, C25 and C44 applied to fn and the triangle inequality. (e) While the squared gradient is above the floor, a step size between t and (1 - slope)/L passes the Armijo test in spite of the error, so step sizes stay above t and every q trials gain slope t |g|^2; the number of gains is bounded. The witness of being stuck: y^2/2 with the value at the start too small. (f) A wrong comparison needs two points on the same side of the minimiser whose true values differ by at most 2 eps; as they are a fixed fraction of the bracket apart, the bracket is then already small.
* Theorems: `C129_golden`, `C129_golden_terminates`, `C129_bisection`, `C129_bisection_root`, `C129_bisection_terminates`, `C129_gradient_family`, `C129_quasi_newton_family`, `C129_gauss_newton_family`, `C129_levenberg_marquardt`, `C129_dogleg`, `C129_best_so_far`, `C129_nelder_mead`, `C129_backtracking`, `C129_below_the_noise`

### C130 Solves inside solves: inner tolerances add up to outer errors — proved

* Model and proof: (a) C20, C21. (b) The computed tangent and the derivative of the fixed point (C12) solve linearised equations whose coefficients differ by K delta; subtracting them and using the contraction bounds the difference. (c) The chain rule and (b) give Spec.ComputedWithin, to which C124 applies. (d) C129.
* Theorems: `C130_inner`, `C130_tangent`, `C130_computed`, `C130_bilevel_rate`, `C130_bilevel_success`, `C130_bilevel_terminates`, `C130_bisection`

### C131 Solves do not drift along directions the problem ignores — proved

* Model and proof: Spec.Ignores says that the problem does not change along c. The reflection through the plane at the starting point orthogonal to c is a symmetry of the problem which keeps the starting point, so by C132 the answer is its own mirror image and lies in that plane. C131_nearest is Pythagoras.
* Theorems: `C131_gradient_descent`, `C131_nonlinear_cg`, `C131_bfgs`, `C131_dfp`, `C131_lbfgs_inverse`, `C131_lbfgs_direct`, `C131_gauss_newton`, `C131_dogleg`, `C131_levenberg_marquardt`, `C131_indirect_levenberg_marquardt`, `C131_true_gradient`, `C131_true_jacobian`, `C131_nearest`, `C131_nearest_levenberg_marquardt`, `C131_fixed_point`

### C132 A symmetric problem started symmetrically has a symmetric answer — proved

* Model and proof: Spec.KeepsObjective, KeepsResiduals and KeepsEquations say what a symmetry is. By C113 the points visited do not depend on the stopping test, so the test may be replaced by one that never passes. C78 is then applied to the symmetry, which leaves the problem and the starting point as they are, and says that the outcome is carried to itself. For Newton, Chord and FixedPointIteration by induction over the steps.
* Theorems: `C132_gradient_descent`, `C132_nonlinear_cg`, `C132_bfgs`, `C132_dfp`, `C132_lbfgs_inverse`, `C132_lbfgs_direct`, `C132_gauss_newton`, `C132_dogleg`, `C132_levenberg_marquardt`, `C132_indirect_levenberg_marquardt`, `C132_newton_chord`, `C132_fixed_point`, `C132_true_gradient`, `C132_true_jacobian`, `C132_interchangeable`

### C133 GaussNewton tolerates errors in the residuals, the Jacobian and the linear solves — proved

* Model and proof: Spec.ComputedFit and Spec.RoughLeastSquares say what the errors are. The error x after a step satisfies |Mx|^2 = Mx.(Me - (F(y)-F(r))) - Mx.(f - F(y)) - Mx.F(r) - x.M^T(Md - f) for the computed Jacobian M and residuals f; each term is bounded by the linearisation error, beta, gamma |F(r)| + q|e| and eta respectively (gauss_newton_noisy). Then as in C97.
* Theorems: `C133_errors_tolerated`

### C134 Successful answers are determined by the problem, up to the tolerances — proved

* Model and proof: Spec.Steep, NearlySolves and Within. C134_agree is the triangle inequality. For each solver a theorem says that a successful answer nearly solves the problem; they come from the certificates C10, C14, C20, C41, C57 and C114.
* Theorems: `C134_agree`, `C134_near_solution`, `C134_contraction_steep`, `C134_convex_steep`, `C134_newton_chord`, `C134_fixed_point_iteration`, `C134_bisection`, `C134_levenberg_marquardt`, `C134_dogleg`, `C134_indirect`, `C134_gradient_descent`, `C134_backtracking`, `C134_least_squares`, `C134_gauss_newton`

### C135 Least squares with a minimiser solves the fit — proved

* Model and proof: Spec.IndependentResiduals, LinearFit, ReachesExactFit and ReachesBestFit. The objective that least_squares gives to the minimiser is gradient dominated with minimum 0 in case (a) and strongly convex in case (b), so C115 and C63 apply; their conclusions are restated for the residuals and for the result of least_squares.
* Theorems: `C135_gradient_descent`, `C135_backtracking`, `C135_trust_region`, `C135_linear`

### C136 Bounds that contain the root do Newton no harm on convex problems — proved

* Model and proof: Spec.InsideBounds. A step that ends inside the bounds is the step without bounds (over the reals y - (y - d) = d), so runs are compared step by step. The iterates of C103 lie above the root and decrease, so the bounds are respected; in one unknown at most the first step is clipped, and from the second iterate on the run is the run of C103 from there. The converse is a constant run computed in closed form.
* Theorems: `C136_inactive`, `C136_systems`, `C136_one_unknown`, `C136_stuck`

### C137 fixed_point with the least-squares solvers finds the fixed points of contractions — proved

* Model and proof: Spec.SmoothContraction. The Jacobian G of a contraction shrinks vectors (limit of difference quotients), so all singular values of G - 1 and of its transpose lie between 1 - c and 1 + c; C116, C121 and C126 give success of the root find that fixed_point starts, C134 the distance of the answer.
* Theorems: `C137_one_fixed_point`, `C137_levenberg_marquardt`, `C137_indirect`, `C137_dogleg`

### C138 The BestSoFar wrappers keep the guarantees of the solvers they wrap — proved

* Model and proof: C25_same_run transfers success and the number of steps; C25's optimality compares the answer with the last point stepped from, at which C20, C57 and C58 bound the residual or gradient; a contraction and strong convexity turn small residuals, respectively small objective gaps, into distances.
* Theorems: `C138_fixed_point_succeeds`, `C138_fixed_point`, `C138_root_find`, `C138_minimise_succeeds`, `C138_minimise`

### C139 The eigenvalues decide whether FixedPointIteration converges — proved

* Model and proof: Spec.IsEigenvalue. Gelfand's formula (Mathlib) for the complexified matrix gives a power of the damped matrix that shrinks the max norm; iterates_tend splits the run into residue classes modulo that power; necessity by running from the real and imaginary parts of an eigenvector; the local statement by the chain rule for the power of the map.
* Theorems: `C139_power`, `C139_local`, `C139_affine`, `C139_affine_succeeds`

### C140 The eigenvalues of the Hessian decide which learning rates work for GradientDescent — proved

* Model and proof: Spec.IsEigenvalue as in C139. The step of GradientDescent is y - rate * grad y, whose matrix is 1 - rate H; eigenvalues of symmetric matrices are real (symmetric_eigenvalue), so the spectral condition becomes 0 < l < 2 / rate; spectral_affine and spectral_local of C139 then give both statements, gd_stops the termination.
* Theorems: `C140_quadratic`, `C140_local`

### C141 Solvers do not settle at maxima, saddles of quadratics and repelling fixed points — proved

* Model and proof: Spec.StrictLocalMax and Accumulates. descent_sequence: a monotone sequence of values bounded below by the value at an accumulation point, by continuity; monotonicity from C27, C41, C109. repelled: a distance that does not shrink near the point cannot tend to zero unless it is zero; for GradientDescent the squared Euclidean distance. Saddles: the component along the eigenvector is multiplied by 1 - rate * l at every step.
* Theorems: `C141_never_increases`, `C141_gradient_family`, `C141_quasi_newton_family`, `C141_levenberg_marquardt`, `C141_dogleg`, `C141_gradient_descent`, `C141_saddle`, `C141_fixed_point`

### C142 A larger budget or stricter tolerances never give a worse answer — proved

* Model and proof: Spec.BudgetLe and NeverWorseWithBudget. Two budgets run the same loop, and the larger stops no earlier (C142_more_steps, from C01 and C02 uniqueness of the stopping step); the value is antitone in the step (C27, C41, C46 via monotone_le); tolerances by C113, which says that a stricter solve continues the looser one. BestSoFar: the minimum over a longer list of iterates. C142_fails_without_search is the witness for plain GradientDescent.
* Theorems: `C142_more_steps`, `C142_tolerances`, `C142_gradient_family`, `C142_quasi_newton_family`, `C142_trust_region_quasi_newton`, `C142_trust_region_steepest_descent`, `C142_levenberg_marquardt`, `C142_dogleg`, `C142_indirect`, `C142_best_so_far`, `C142_best_so_far_tolerances`, `C142_fails_without_search`

### C143 What a solve costs in evaluations of the function and its derivatives — proved

* Model and proof: Spec.LooksAt, LooksAtBoth and moves: a finite set of points of bounded size determines the outcome. From C84 (runs of functions that agree at the visited points coincide), counting the points; for the gradient families the gradient points are the iterates, of which there are at most one more than moves. NelderMead: nmPoints collects the points of one step, nm_step_congr says they determine it, and the shrink count comes from the statistics. An example shows that the count is sharp.
* Theorems: `C143_gradient_family`, `C143_quasi_newton_family`, `C143_gauss_newton_family`, `C143_newton`, `C143_chord`, `C143_fixed_point`, `C143_optax`, `C143_bisection`, `C143_bisection_detect`, `C143_golden`, `C143_nelder_mead`

### C144 Warm-started solves of a slowly changing problem keep up with it — proved

* Model and proof: Induction over the sequence of problems: the answer is within e of its solution (C21, C95), so within e + delta of the next one, and from there the step bounds of C21 and C95 apply. The sequence of answers is built by recursion from the solutions of the single solves.
* Theorems: `C144_fixed_point`, `C144_gradient_descent`

### C145 Linear equations and invariant sets are kept by the iterates — proved

* Model and proof: The rows of the true Jacobian combine to the constant gradient of the affine combination (uniqueness of derivatives), and each exact step solves the linearised equations (C23). For FixedPointIteration: the damped step is a convex combination of the point and its image; induction. Outside the set: same_solution of C84.
* Theorems: `C145_linear_equations`, `C145_invariant_set`

### C146 The derivative of the optimal value is accurate to second order — proved

* Model and proof: The tangent of the objective is the partial derivative in args plus the gradient applied to the tangent of the answer. The first part differs from its value at the minimum by a term that the second cancels to first order: symmetry of the second derivative and the defining equation of the implicit tangent. Taylor bounds with Lipschitz derivatives and C104 give the second-order bound. Certified: C134 turns success into a distance.
* Theorems: `C146_stationary`, `C146_value_function`, `C146_second_order`, `C146_least_squares`, `C146_certified`, `C146_backtracking`

### C147 Ordered problems have ordered answers — proved

* Model and proof: Bisection: until the runs part they coincide; when they part the interval for g is to the left of that for f, and intervals are nested. FixedPointIteration: induction on the steps; C118 for different numbers of steps.
* Theorems: `C147_bisection`, `C147_fixed_point`, `C147_fixed_point_answers`

### C148 Solving again from an answer — proved

* Model and proof: FixedPointIteration: the damped map does not increase distances, so the next update is no larger than the last (C20). GradientDescent: co-coercivity of the gradient makes gradients and decreases shrink from step to step. Bisection: the width after the first step is at least the distance to the nearer end and halves afterwards (C15); success needs a width below the tolerance.
* Theorems: `C148_fixed_point`, `C148_gradient_descent`, `C148_bisection`

### C149 Names for affine expressions do not disturb Newton and Chord — proved

* Model and proof: The chain rule relates the Jacobians of the two systems: along directions (v, M v) they agree and the rows of the names vanish. So the larger one is regular where the smaller one is, the linear solves correspond, and induction does the rest.
* Theorems: `C149_iterates`, `C149_answers`

### C150 The auxiliary output only goes along for the ride — proved

* Model and proof: The states of the two solves correspond: they differ in the stored auxiliary output only, by h. Each step preserves this, branch by branch, and the wrappers preserve it for any wrapped solver.
* Theorems: `C150_root_finders`, `C150_minimisers`, `C150_least_squares`, `C150_best_so_far`, `C150_root_find`, `C150_has_aux`

### C151 Repeating an observation is the same as giving it more weight — proved

* Model and proof: For minimisers the two objectives are the same function. For the other solvers the repeated residuals are the weighted ones mapped by a matrix with orthonormal columns, so C78 applies; listing the whole data multiplies by a conformal matrix, so C79 applies.
* Theorems: `C151_minimisers`, `C151_two_norm`, `C151_gauss_newton`, `C151_levenberg_marquardt`, `C151_indirect_levenberg_marquardt`, `C151_dogleg`, `C151_norms`, `C151_whole_data`

### C152 A feedback loop may be cut open anywhere — proved

* Model and proof: After one step every iterate for z is P of an iterate for x, so its updates shrink geometrically; the distance of Q(z) from the fixed point is bounded through the contraction Q after P and mapped back by P.
* Theorems: `C152_iterates`, `C152_damped_iterates`, `C152_succeeds`, `C152_accuracy`

### C153 Wrapping a solver in BestSoFar twice is the same as wrapping it once — proved

* Model and proof: The outer wrapper sees the iterates and auxiliary outputs of the innermost solver; forgetting the state of the inner wrapper is a simulation, because by C150 the additional auxiliary output makes no difference to the innermost solver.
* Theorems: `C153_twice`, `C153_minimisers`, `C153_others`

### C154 On convex problems solves never move apart — proved

* Model and proof: The gradient of a convex L-smooth function is co-coercive (the descent lemma at one point and the gradient inequality at the other, twice), hence the map of a step does not increase distances for rates up to 2/L; a minimiser is a fixed point of it, and a step of it applied to two consecutive iterates compares their gradients. Below 2/L the step is a damped step of the map for 2/L, so C102 gives convergence; C108_rate_too_large shows that 2/L cannot be exceeded.
* Theorems: `C154_two_starts`, `C154_never_further`, `C154_gradient`, `C154_gradient_rate`, `C154_converges`, `C154_fixed_point`

### C155 Linear least-squares problems with the trust-region solvers — proved

* Model and proof: On linear residuals the predicted change is the actual one, so every step is accepted and the radius is 3.5^k unless a step vanishes; the damped normal equations, tested with the new error, give (sigma + lambda)|e+| <= lambda |e| with lambda = 1 / radius (0 for the Newton steps of Dogleg and IndirectLevenbergMarquardt). Damped steps are orthogonal to the null space of M, and so is the difference of the starting point from the closest best fit.
* Theorems: `C155_never_further`, `C155_levenberg_marquardt`, `C155_closest`, `C155_dogleg`, `C155_indirect_levenberg_marquardt`, `C155_no_rejections`

### C156 Answers become exact as the tolerances tend to zero — proved

* Model and proof: In a convergent sequence of iterates of a map, all but finitely many are near the limit, and each of the others is followed by an update which is not zero (or it would be the limit), so that small enough tolerances exclude them; the sequence is bounded, which takes care of the relative tolerance.
* Theorems: `C156_fixed_point`, `C156_gradient_descent`, `C156_convex`, `C156_gauss_newton`, `C156_newton`

### C157 Answers depend continuously on the problem and the starting point, except at ties — proved

* Model and proof: Iterates and scaled updates are continuous in the arguments; without ties the outcome of every stopping test up to the last one is an open condition, and there are finitely many of them.
* Theorems: `C157_fixed_point`, `C157_gradient_descent`, `C157_ties_jump`

### C158 Newton and Chord at multiple roots — proved

* Model and proof: With t = (y-r) g'(y) / g(y), which tends to zero, Newton's correction is (y-r)/(m+t); hence the factor 1 - 1/(m+t), and the error after a step is m+t-1 times the step. With s1, s2 the two last values of m+t the measured rate is (s1-1)/s2, so the estimate rate/(1-rate) times the last update is (s1-1)/(s2-s1+1) times it, while the true error is s2-1 times it. For Chord the correction times (y0-r)^(m-1) is (y-r)^m times g(y)/(m g(y0) + (y0-r) g'(y0)), a continuous function of (y, y0) with the value 1/m at (r, r); the relative distances decrease, and a positive limit would make them decrease geometrically.
* Theorems: `C158_chord`, `C158_multiple_root`, `C158_rate_estimate`

### C159 Fixed-point iteration at tangential fixed points — proved

* Model and proof: Each step multiplies the distance by one minus a positive quantity of at most one half, so the iterates decrease and keep at least half of the distance. A positive limit would give a geometric decrease, a contradiction. The error estimate of a step is exactly (1-damp) h(y) (y-r)^m; the last test passed and, after two steps or more, the previous one failed (otherwise the solve would have stopped there), which gives the two bounds. On the other side every step moves away by at least as much as a fixed positive amount as long as the iterates are near, so they leave.
* Theorems: `C159_tangential`, `C159_repelled`
