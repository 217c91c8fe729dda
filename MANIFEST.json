{
 "claims": [
  {
   "property": "C01",
   "status": "proved",
   "theorems": [
    "Verif.Props.C01_step_budget",
    "Verif.Props.C01_counts_calls"
   ],
   "note": ""
  },
  {
   "property": "C02",
   "status": "proved",
   "theorems": [
    "Verif.Props.C02_success_is_certificate",
    "Verif.Props.C02_success_complete"
   ],
   "note": ""
  },
  {
   "property": "C03",
   "status": "proved",
   "theorems": [
    "Verif.Props.C03_failure_reported",
    "Verif.Props.C03_result_origin"
   ],
   "note": ""
  },
  {
   "property": "C04",
   "status": "proved",
   "theorems": [
    "Verif.Props.C04_max_steps_reached_iff"
   ],
   "note": ""
  },
  {
   "property": "C05",
   "status": "proved",
   "theorems": [
    "Verif.Props.C05_throw_returns_only_success",
    "Verif.Props.C05_throw_raises_iff",
    "Verif.Props.C05_nothrow_never_raises",
    "Verif.Props.C05_bounded_returns"
   ],
   "note": ""
  },
  {
   "property": "C06",
   "status": "proved",
   "theorems": [
    "Verif.Props.C06_nonfinite_start",
    "Verif.Props.C06_nonfinite_iterate"
   ],
   "note": ""
  },
  {
   "property": "C07",
   "status": "partial",
   "theorems": [
    "Verif.Props.C07_not_finite_value",
    "Verif.Props.C07_finite_value_partial"
   ],
   "note": "False for arbitrary solvers (witness proved): the driver tests the iterate before the step, not the returned one. The guarantee that does hold is proved as _partial. For the built-in solvers the full statement holds: see C65."
  },
  {
   "property": "C08",
   "status": "proved",
   "theorems": [
    "Verif.Props.C08_budget_monotone",
    "Verif.Props.C08_unbounded_diverges_iff"
   ],
   "note": ""
  },
  {
   "property": "C09",
   "status": "proved",
   "theorems": [
    "Verif.Props.C09_aux_provenance",
    "Verif.Props.C09_nelder_mead"
   ],
   "note": ""
  },
  {
   "property": "C10",
   "status": "proved",
   "theorems": [
    "Verif.Props.C10_root_via_minimiser_certificate",
    "Verif.Props.C10_root_via_least_squares_certificate",
    "Verif.Props.C10_no_root_no_success",
    "Verif.Props.C10_root_aux_is_users"
   ],
   "note": ""
  },
  {
   "property": "C11",
   "status": "proved",
   "theorems": [
    "Verif.Props.C11_least_squares_objective",
    "Verif.Props.C11_fixed_point_root",
    "Verif.Props.C11_root_find_objective",
    "Verif.Props.C11_fixed_point_structure_rejected",
    "Verif.Props.C11_minimise_rejects_nonscalar"
   ],
   "note": ""
  },
  {
   "property": "C12",
   "status": "partial",
   "theorems": [
    "Verif.Props.C12_root_find_partial",
    "Verif.Props.C12_fixed_point",
    "Verif.Props.C12_minimise",
    "Verif.Props.C12_least_squares",
    "Verif.Props.C12_primal",
    "Verif.Props.C12_branch_exists",
    "Verif.Props.C12_approximate_roots",
    "Verif.Props.C12_root_find_minimiser_wrong"
   ],
   "note": "Proved for the root-find, fixed-point, minimise and least-squares drivers with their own solvers, given the trusted behaviour of jax.jvp/grad and an exact linear solve. False of the code for root_find with a minimiser (C12_root_find_minimiser_wrong)."
  },
  {
   "property": "C13",
   "status": "proved",
   "theorems": [
    "Verif.Props.C13_bracket_invariant",
    "Verif.Props.C13_stays_in_interval"
   ],
   "note": ""
  },
  {
   "property": "C14",
   "status": "proved",
   "theorems": [
    "Verif.Props.C14_answer_near_root"
   ],
   "note": ""
  },
  {
   "property": "C15",
   "status": "proved",
   "theorems": [
    "Verif.Props.C15_halves",
    "Verif.Props.C15_terminates",
    "Verif.Props.C15_rate"
   ],
   "note": ""
  },
  {
   "property": "C16",
   "status": "partial",
   "theorems": [
    "Verif.Props.C16_root_at_bound_rejected",
    "Verif.Props.C16_accepts_iff_partial",
    "Verif.Props.C16_bad_input_rejected"
   ],
   "note": "The documented acceptance of a root exactly at a bound is false of the code (C16_root_at_bound_rejected); the exact acceptance condition is proved."
  },
  {
   "property": "C17",
   "status": "proved",
   "theorems": [
    "Verif.Props.C17_expansion_sound",
    "Verif.Props.C17_expansion_terminates",
    "Verif.Props.C17_expansion_can_hang"
   ],
   "note": ""
  },
  {
   "property": "C18",
   "status": "partial",
   "theorems": [
    "Verif.Props.C18_probes_outside",
    "Verif.Props.C18_probes_inside_partial",
    "Verif.Props.C18_y0_ignored",
    "Verif.Props.C18_offset_inside_partial",
    "Verif.Props.C18_middle_inside_iff"
   ],
   "note": "False of the code when lower != 0 (middle point lacks the lower offset): witness C18_probes_outside. Proved in full for lower = 0; for other (rational) bounds whose first middle point is inside (exactly when: C18_middle_inside_iff) everything but the factor 1/phi is proved (C18_offset_inside_partial)."
  },
  {
   "property": "C19",
   "status": "partial",
   "theorems": [
    "Verif.Props.C19_minimiser_kept_partial",
    "Verif.Props.C19_answer_near_minimiser_partial",
    "Verif.Props.C19_terminates_partial",
    "Verif.Props.C19_never_converges",
    "Verif.Props.C19_offset_kept_partial",
    "Verif.Props.C19_offset_terminates_partial",
    "Verif.Props.C19_false_success"
   ],
   "note": "False in general for the same reason (C19_never_converges, C19_false_success). Proved in full for lower = 0; for other (rational) bounds whose first middle point is inside, the minimiser is kept, brackets shrink to it and solves terminate, but a success need not be near it."
  },
  {
   "property": "C20",
   "status": "proved",
   "theorems": [
    "Verif.Props.C20_success_certificate",
    "Verif.Props.C20_same_fixed_points",
    "Verif.Props.C20_residual_bound",
    "Verif.Props.C20_damp_one_vacuous"
   ],
   "note": ""
  },
  {
   "property": "C21",
   "status": "proved",
   "theorems": [
    "Verif.Props.C21_terminates",
    "Verif.Props.C21_error_bound",
    "Verif.Props.C21_fixed_point_exists",
    "Verif.Props.C21_step_bound"
   ],
   "note": ""
  },
  {
   "property": "C22",
   "status": "proved",
   "theorems": [
    "Verif.Props.C22_iterates_in_bounds",
    "Verif.Props.C22_value_in_bounds",
    "Verif.Props.C22_iterates_in_bounds_float"
   ],
   "note": ""
  },
  {
   "property": "C23",
   "status": "proved",
   "theorems": [
    "Verif.Props.C23_affine_exact",
    "Verif.Props.C23_initial_test_fails",
    "Verif.Props.C23_step_solves_linearisation"
   ],
   "note": ""
  },
  {
   "property": "C24",
   "status": "proved",
   "theorems": [
    "Verif.Props.C24_linear_failure_reported",
    "Verif.Props.C24_rate_classification",
    "Verif.Props.C24_nan_is_divergence",
    "Verif.Props.C24_divergence_means",
    "Verif.Props.C24_sizes_compared"
   ],
   "note": ""
  },
  {
   "property": "C25",
   "status": "proved",
   "theorems": [
    "Verif.Props.C25_best_of_iterates",
    "Verif.Props.C25_same_run",
    "Verif.Props.C25_minimiser_gradient_family",
    "Verif.Props.C25_least_squares_gauss_newton_family",
    "Verif.Props.C25_fixed_point",
    "Verif.Props.C25_root_finder_newton",
    "Verif.Props.C25_nan_never_wins",
    "Verif.Props.C25_last_iterate_ignored"
   ],
   "note": "Proved for every inner solver that reports the function value at the point it steps from (instances: gradient family, Gauss-Newton family, Newton/Chord, FixedPointIteration). C25_last_iterate_ignored records that the last accepted iterate is not considered."
  },
  {
   "property": "C26",
   "status": "partial",
   "theorems": [
    "Verif.Props.C26_aux_of_value_partial",
    "Verif.Props.C26_golden_wrong_aux"
   ],
   "note": "Proved for inner solvers that report at the point they step from; false for GoldenSearch (C26_golden_wrong_aux)."
  },
  {
   "property": "C27",
   "status": "proved",
   "theorems": [
    "Verif.Props.C27_gradient_family",
    "Verif.Props.C27_quasi_newton_family",
    "Verif.Props.C27_gauss_newton_family"
   ],
   "note": ""
  },
  {
   "property": "C28",
   "status": "proved",
   "theorems": [
    "Verif.Props.C28_rule_gradient",
    "Verif.Props.C28_rule_quasi_newton",
    "Verif.Props.C28_accepts_gradient",
    "Verif.Props.C28_accepts_quasi_newton",
    "Verif.Props.C28_nan_trial_rejected"
   ],
   "note": ""
  },
  {
   "property": "C29",
   "status": "proved",
   "theorems": [
    "Verif.Props.C29_rule",
    "Verif.Props.C29_nan_trial_rejected",
    "Verif.Props.C29_run_gauss_newton",
    "Verif.Props.C29_run_gradient_linear",
    "Verif.Props.C29_run_quasi_newton_linear",
    "Verif.Props.C29_run_quasi_newton_classical",
    "Verif.Props.C29_run_gauss_newton_linear"
   ],
   "note": ""
  },
  {
   "property": "C30",
   "status": "proved",
   "theorems": [
    "Verif.Props.C30_gradient_family",
    "Verif.Props.C30_quasi_newton_family",
    "Verif.Props.C30_gauss_newton_family",
    "Verif.Props.C30_aux_gradient_family",
    "Verif.Props.C30_aux_quasi_newton_family",
    "Verif.Props.C30_aux_gauss_newton_family"
   ],
   "note": ""
  },
  {
   "property": "C31",
   "status": "proved",
   "theorems": [
    "Verif.Props.C31_textbook_recursion",
    "Verif.Props.C31_value",
    "Verif.Props.C31_success_small_gradient",
    "Verif.Props.C31_converges"
   ],
   "note": ""
  },
  {
   "property": "C32",
   "status": "proved",
   "theorems": [
    "Verif.Props.C32_query_descent",
    "Verif.Props.C32_run_descent",
    "Verif.Props.C32_progress"
   ],
   "note": ""
  },
  {
   "property": "C33",
   "status": "partial",
   "theorems": [
    "Verif.Props.C33_fr_pr_published_partial",
    "Verif.Props.C33_hs_dy_sign_flipped",
    "Verif.Props.C33_hs_not_conjugate"
   ],
   "note": "Proved for Fletcher-Reeves and Polak-Ribiere; Hestenes-Stiefel and Dai-Yuan have the wrong sign in the code (C33_hs_dy_sign_flipped)."
  },
  {
   "property": "C34",
   "status": "proved",
   "theorems": [
    "Verif.Props.C34_update_inverse",
    "Verif.Props.C34_update_direct",
    "Verif.Props.C34_run",
    "Verif.Props.C34_descent_direction",
    "Verif.Props.C34_progress"
   ],
   "note": ""
  },
  {
   "property": "C35",
   "status": "proved",
   "theorems": [
    "Verif.Props.C35_update_inverse",
    "Verif.Props.C35_update_direct",
    "Verif.Props.C35_run",
    "Verif.Props.C35_descent_direction"
   ],
   "note": ""
  },
  {
   "property": "C36",
   "status": "proved",
   "theorems": [
    "Verif.Props.C36_lbfgs",
    "Verif.Props.C36_bfgs",
    "Verif.Props.C36_dfp"
   ],
   "note": "BFGS, DFP and L-BFGS, whole runs, for every search that does not read the Hessian approximation (HessianAgnostic), and for exact linear algebra (linear solves of positive definite systems return the solution; instances constructed)."
  },
  {
   "property": "C37",
   "status": "proved",
   "theorems": [
    "Verif.Props.C37_inverse_memory",
    "Verif.Props.C37_direct_memory"
   ],
   "note": ""
  },
  {
   "property": "C38",
   "status": "proved",
   "theorems": [
    "Verif.Props.C38_run",
    "Verif.Props.C38_linear",
    "Verif.Props.C38_descent_direction"
   ],
   "note": "Whole runs; two-loop recursion against the dense recursion from the same pairs."
  },
  {
   "property": "C39",
   "status": "proved",
   "theorems": [
    "Verif.Props.C39_run",
    "Verif.Props.C39_descent_direction"
   ],
   "note": "Whole runs with use_inverse=False; the inner dense factorisation/solve is assumed exact (ExactLA; an instance is constructed)."
  },
  {
   "property": "C40",
   "status": "proved",
   "theorems": [
    "Verif.Props.C40_damped_step",
    "Verif.Props.C40_shrinks",
    "Verif.Props.C40_bounded",
    "Verif.Props.C40_damped_step_hessian",
    "Verif.Props.C40_run"
   ],
   "note": ""
  },
  {
   "property": "C41",
   "status": "proved",
   "theorems": [
    "Verif.Props.C41_dogleg",
    "Verif.Props.C41_monotone",
    "Verif.Props.C41_levenberg_marquardt",
    "Verif.Props.C41_indirect"
   ],
   "note": "For LevenbergMarquardt, IndirectLevenbergMarquardt and Dogleg, with linear solves that return least-squares solutions (SolvesLeastSquares; such solvers exist). Dogleg: over the reals, with the crossing formula totalised where it is 0/0 (see C42)."
  },
  {
   "property": "C42",
   "status": "partial",
   "theorems": [
    "Verif.Props.C42_dogleg_step_partial",
    "Verif.Props.C42_stationary_is_nan",
    "Verif.Props.C42_reflection_is_nan",
    "Verif.Props.C42_other_norm",
    "Verif.Props.C42_base_points",
    "Verif.Props.C42_newton_accepted",
    "Verif.Props.C42_predicted_decrease",
    "Verif.Props.C42_base_points_hessian",
    "Verif.Props.C42_newton_accepted_hessian",
    "Verif.Props.C42_predicted_decrease_hessian"
   ],
   "note": "On the dogleg path and on the trust-region boundary, except where the crossing formula is 0/0: at a stationary point (C42_stationary_is_nan) and when the circle passes through the reflected Newton step (C42_reflection_is_nan)."
  },
  {
   "property": "C43",
   "status": "proved",
   "theorems": [
    "Verif.Props.C43_recursion",
    "Verif.Props.C43_affine_one_step",
    "Verif.Props.C43_affine_solve"
   ],
   "note": ""
  },
  {
   "property": "C44",
   "status": "partial",
   "theorems": [
    "Verif.Props.C44_best_value_partial",
    "Verif.Props.C44_improvement_returns_worst",
    "Verif.Props.C44_success",
    "Verif.Props.C44_divergence",
    "Verif.Props.C44_default_run_goes_back",
    "Verif.Props.C44_best_increases"
   ],
   "note": "False of the code: an improving step returns the previous worst vertex (C44_improvement_returns_worst, C44_default_run_goes_back) and the recorded best value can increase after a shrink (C44_best_increases). What does hold is C44_best_value_partial, C44_success, C44_divergence."
  },
  {
   "property": "C45",
   "status": "partial",
   "theorems": [
    "Verif.Props.C45_scalars_partial",
    "Verif.Props.C45_array_leaf_degenerate",
    "Verif.Props.C45_confined",
    "Verif.Props.C45_cannot_minimise"
   ],
   "note": "Proved for PyTrees of scalars; false for every array leaf with three or more entries (C45_array_leaf_degenerate), which confines the run to a low-dimensional subspace (C45_confined, C45_cannot_minimise)."
  },
  {
   "property": "C46",
   "status": "proved",
   "theorems": [
    "Verif.Props.C46_cauchy_iff_all_entries",
    "Verif.Props.C46_cauchy_needs_both",
    "Verif.Props.C46_cauchy_monotone_tol",
    "Verif.Props.C46_cauchy_nonfinite_false"
   ],
   "note": ""
  },
  {
   "property": "C47",
   "status": "proved",
   "theorems": [
    "Verif.Props.C47_feasible_step_keeps_box",
    "Verif.Props.C47_feasible_step_maximal",
    "Verif.Props.C47_feasible_step_outside",
    "Verif.Props.C47_feasible_step_strict_interior",
    "Verif.Props.C47_tree_clip"
   ],
   "note": ""
  },
  {
   "property": "C48",
   "status": "partial",
   "theorems": [
    "Verif.Props.C48_error_kinds",
    "Verif.Props.C48_raises_iff",
    "Verif.Props.C48_status",
    "Verif.Props.C48_results_at_x_partial",
    "Verif.Props.C48_zero_steps_dummy",
    "Verif.Props.C48_norm_ignored",
    "Verif.Props.C48_norm_ignored_witness"
   ],
   "note": "Validation, status codes, fun/jac/hess_inv at x, monotonicity and counters are proved for every request. Partial because two clauses are false of the code: with no evaluation (maxiter=0, non-finite x0) fun and jac are placeholders (C48_zero_steps_dummy), and the documented option `norm` is discarded (C48_norm_ignored, C48_norm_ignored_witness)."
  },
  {
   "property": "C49",
   "status": "partial",
   "theorems": [
    "Verif.Props.C49_recursion",
    "Verif.Props.C49_value",
    "Verif.Props.C49_success_partial",
    "Verif.Props.C49_sgd_is_gradient_descent",
    "Verif.Props.C49_first_step_spurious"
   ],
   "note": "Recursion and reported value proved for every optimiser given as (init, update). Partial: success certifies the last two evaluated objective values only from the second evaluation on; at the first step the comparison is with the largest float, and a spurious success is proved (C49_first_step_spurious)."
  },
  {
   "property": "C50",
   "status": "partial",
   "theorems": [
    "Verif.Props.C50_in_box_partial",
    "Verif.Props.C50_terminates_partial",
    "Verif.Props.C50_model_increases",
    "Verif.Props.C50_hangs",
    "Verif.Props.C50_nan"
   ],
   "note": "Feasibility of every non-NaN result proved; termination and finiteness proved when a finite bound lies ahead of every entry. False of the code in general: hang (C50_hangs), NaN (C50_nan), model increase (C50_model_increases)."
  },
  {
   "property": "C51",
   "status": "proved",
   "theorems": [
    "Verif.Props.C51_residual_conversions",
    "Verif.Props.C51_grad_dot_consistent",
    "Verif.Props.C51_gradient_is_derivative"
   ],
   "note": ""
  },
  {
   "property": "C52",
   "status": "proved",
   "theorems": [
    "Verif.Props.C52_batched_eq_individual",
    "Verif.Props.C52_batched_solve"
   ],
   "note": ""
  },
  {
   "property": "C53",
   "status": "proved",
   "theorems": [
    "Verif.Props.C53_indirect_step",
    "Verif.Props.C53_length_strictly_decreasing"
   ],
   "note": "For the damping parameter in the representable range (0 < lambda, 1/lambda above the clipping threshold); strict monotonicity in the two-norm."
  },
  {
   "property": "C54",
   "status": "proved",
   "theorems": [
    "Verif.Props.C54_classical_hessian",
    "Verif.Props.C54_classical_residual",
    "Verif.Props.C54_forms_agree",
    "Verif.Props.C54_linear",
    "Verif.Props.C54_supported"
   ],
   "note": ""
  },
  {
   "property": "C55",
   "status": "partial",
   "theorems": [
    "Verif.Props.C55_armijo_valid_iff",
    "Verif.Props.C55_trust_region_valid_iff",
    "Verif.Props.C55_zero_constant_accepted",
    "Verif.Props.C55_nan_accepted",
    "Verif.Props.C55_step_size_positive_partial"
   ],
   "note": "Exact acceptance conditions proved; the documented strict positivity of the trust-region constants is false of the code (zero accepted, C55_zero_constant_accepted) and NaN parameters pass every check (C55_nan_accepted)."
  },
  {
   "property": "C56",
   "status": "partial",
   "theorems": [
    "Verif.Props.C56_documented_objective_false",
    "Verif.Props.C56_documented_objective_partial"
   ],
   "note": "False of the code (witness); proved for the norm actually used."
  },
  {
   "property": "C57",
   "status": "partial",
   "theorems": [
    "Verif.Props.C57_cauchy_success_small_residual_partial",
    "Verif.Props.C57_rate_mode_false_success"
   ],
   "note": "Proved for cauchy_termination=True (default); false of the code for cauchy_termination=False with bounds (C57_rate_mode_false_success)."
  },
  {
   "property": "C58",
   "status": "partial",
   "theorems": [
    "Verif.Props.C58_gradient_family",
    "Verif.Props.C58_quasi_newton_family",
    "Verif.Props.C58_gauss_newton_family_partial",
    "Verif.Props.C58_gauss_newton_stops_at_start"
   ],
   "note": "Proved for the gradient and quasi-Newton families; false for the Gauss-Newton family, whose first step may terminate by comparing y0 with itself (C58_gauss_newton_stops_at_start)."
  },
  {
   "property": "C59",
   "status": "partial",
   "theorems": [
    "Verif.Props.C59_newton",
    "Verif.Props.C59_dogleg",
    "Verif.Props.C59_indirect_partial",
    "Verif.Props.C59_damped",
    "Verif.Props.C59_search",
    "Verif.Props.C59_quasi_newton",
    "Verif.Props.C59_search_gradient",
    "Verif.Props.C59_search_quasi_newton",
    "Verif.Props.C59_indirect_inner_ignored"
   ],
   "note": "Proved for the linear solves of all descents and for searches; false for the inner root find of IndirectDampedNewtonDescent, whose failure is ignored (C59_indirect_inner_ignored)."
  },
  {
   "property": "C60",
   "status": "partial",
   "theorems": [
    "Verif.Props.C60_moves_partial",
    "Verif.Props.C60_statistics_mislabelled",
    "Verif.Props.C60_outer_counts_reflections",
    "Verif.Props.C60_stale_worst"
   ],
   "note": "Moves proved; the centre of a shrink and the worst vertex may be stale (C60_stale_worst) and the statistics are mislabelled (C60_statistics_mislabelled, C60_outer_counts_reflections)."
  },
  {
   "property": "C61",
   "status": "proved",
   "theorems": [
    "Verif.Props.C61_local_convergence",
    "Verif.Props.C61_newton_quadratic"
   ],
   "note": ""
  },
  {
   "property": "C62",
   "status": "proved",
   "theorems": [
    "Verif.Props.C62_gradient_family",
    "Verif.Props.C62_quasi_newton_family",
    "Verif.Props.C62_steepest_descent"
   ],
   "note": ""
  },
  {
   "property": "C63",
   "status": "proved",
   "theorems": [
    "Verif.Props.C63_bfgs",
    "Verif.Props.C63_dfp",
    "Verif.Props.C63_lbfgs_inverse",
    "Verif.Props.C63_lbfgs_direct",
    "Verif.Props.C63_steepest_descent"
   ],
   "note": ""
  },
  {
   "property": "C64",
   "status": "proved",
   "theorems": [
    "Verif.Props.C64_converges",
    "Verif.Props.C64_progress"
   ],
   "note": ""
  },
  {
   "property": "C65",
   "status": "proved",
   "theorems": [
    "Verif.Props.C65_search_based",
    "Verif.Props.C65_fixed_point",
    "Verif.Props.C65_bisection",
    "Verif.Props.C65_newton_chord",
    "Verif.Props.C65_optax",
    "Verif.Props.C65_golden",
    "Verif.Props.C65_nelder_mead",
    "Verif.Props.C65_best_so_far"
   ],
   "note": "On XR (reals, infinities, NaN; finite arithmetic exact, so without overflow of finite operands). The search-based, golden, optax and Nelder-Mead control flow is restated over any scalar type in Model/AnyScalar.lean and proved equal to the models over the reals (gradient_is_search, quasi_newton_is_search, gauss_newton_is_search, golden_is_golden, optax_is_optax); for Nelder-Mead the stopping test is restated and the moves are arbitrary."
  },
  {
   "property": "C66",
   "status": "proved",
   "theorems": [
    "Verif.Props.C66_converges",
    "Verif.Props.C66_progress"
   ],
   "note": ""
  },
  {
   "property": "C67",
   "status": "proved",
   "theorems": [
    "Verif.Relabel.C67_gradient_descent",
    "Verif.Relabel.C67_nonlinear_cg",
    "Verif.Relabel.C67_bfgs",
    "Verif.Relabel.C67_dfp",
    "Verif.Relabel.C67_lbfgs_inverse",
    "Verif.Relabel.C67_lbfgs_direct",
    "Verif.Relabel.C67_optax",
    "Verif.Relabel.C67_best_so_far_bfgs",
    "Verif.Relabel.C67_gauss_newton",
    "Verif.Relabel.C67_levenberg_marquardt",
    "Verif.Relabel.C67_indirect_levenberg_marquardt",
    "Verif.Relabel.C67_dogleg",
    "Verif.Relabel.C67_best_so_far_levenberg_marquardt",
    "Verif.Relabel.C67_newton_chord",
    "Verif.Relabel.C67_fixed_point",
    "Verif.Relabel.C67_best_so_far",
    "Verif.Relabel.C67_best_so_far_newton_chord",
    "Verif.Relabel.C67_best_so_far_fixed_point",
    "Verif.Relabel.C67_jacobian"
   ],
   "note": "Unknowns and residuals are real vectors over arbitrary index types; a repacking is any bijection of index types. Linear solver, norm and optax optimiser are assumed not to depend on the packing (SameSolve, SameNorm), shown for the package's norms and for exact solves."
  },
  {
   "property": "C68",
   "status": "partial",
   "theorems": [
    "Verif.Relabel.C68_given_simplex_partial",
    "Verif.Relabel.C68_packing_matters",
    "Verif.Relabel.C68_y0_simplex_accepted",
    "Verif.Relabel.C68_y0_simplex_rejected",
    "Verif.Relabel.C68_y0_simplex_never_works"
   ],
   "note": "Proved for a given simplex (C68_given_simplex_partial). False of the code: the simplex built from y0 depends on the packing (C68_packing_matters), and y0_simplex rejects every simplex in two or more dimensions (C68_y0_simplex_rejected; what it accepts: C68_y0_simplex_accepted)."
  },
  {
   "property": "C69",
   "status": "proved",
   "theorems": [
    "Verif.PyTree.C69_identity",
    "Verif.PyTree.C69_dot",
    "Verif.PyTree.C69_outer",
    "Verif.PyTree.C69_add",
    "Verif.PyTree.C69_scale",
    "Verif.PyTree.C69_full_like",
    "Verif.PyTree.C69_allfinite",
    "Verif.PyTree.C69_where"
   ],
   "note": ""
  },
  {
   "property": "C70",
   "status": "proved",
   "theorems": [
    "Verif.Props.C70_damping_positive",
    "Verif.Props.C70_step"
   ],
   "note": ""
  },
  {
   "property": "C71",
   "status": "proved",
   "theorems": [
    "Verif.Props.C71_converges"
   ],
   "note": ""
  },
  {
   "property": "C72",
   "status": "partial",
   "theorems": [
    "Verif.Props.C72_any_shape_partial",
    "Verif.Props.C72_boundary_raises"
   ],
   "note": "Proved for every seminorm, except where the Cauchy step is exactly as long as the radius, where the code raises (C72_boundary_raises). That query establishes the hypotheses on the state: C72_query_norms."
  },
  {
   "property": "C73",
   "status": "proved",
   "theorems": [
    "Verif.Props.C73_fixed_point",
    "Verif.Props.C73_newton",
    "Verif.Props.C73_fixed_point_nearby",
    "Verif.Props.C73_newton_nearby"
   ],
   "note": ""
  },
  {
   "property": "C74",
   "status": "partial",
   "theorems": [
    "Verif.Props.C74_by_hand_partial",
    "Verif.Props.C74_which_solvers",
    "Verif.Props.C74_finite",
    "Verif.Props.C74_bisection_differs",
    "Verif.Props.C74_failure_ignored",
    "Verif.Props.C74_nonfinite_ignored"
   ],
   "note": "Proved for solvers whose test looks at their state only, on runs without infinities/NaNs and without failures reported without 'done'. Without each of these restrictions it is false: C74_bisection_differs, C74_failure_ignored, C74_nonfinite_ignored."
  },
  {
   "property": "C75",
   "status": "partial",
   "theorems": [
    "Verif.Props.C75_one_by_one_partial",
    "Verif.Props.C75_fixed_point",
    "Verif.Props.C75_optax",
    "Verif.Props.C75_newton_chord",
    "Verif.Props.C75_never_moves",
    "Verif.Props.C75_golden_restarts",
    "Verif.Props.C75_bisection_cycles"
   ],
   "note": "Proved for solvers whose next point depends on the present point only (FixedPointIteration, Newton, stateless Optax). False for all search-based solvers and BestSoFar wrappers (C75_never_moves), GoldenSearch (C75_golden_restarts), Bisection (C75_bisection_cycles); Chord turns into Newton (C75_newton_chord)."
  },
  {
   "property": "C76",
   "status": "proved",
   "theorems": [
    "Verif.Props.C76_gradient_descent",
    "Verif.Props.C76_gauss_newton",
    "Verif.Props.C76_quasi_newton",
    "Verif.Props.C76_documented_hybrid"
   ],
   "note": ""
  },
  {
   "property": "C77",
   "status": "proved",
   "theorems": [
    "Verif.Props.C77_local_convergence",
    "Verif.Props.C77_zero_residual",
    "Verif.Props.C77_condition_needed"
   ],
   "note": ""
  },
  {
   "property": "C78",
   "status": "proved",
   "theorems": [
    "Verif.Rigid.C78_gradient_descent",
    "Verif.Rigid.C78_nonlinear_cg",
    "Verif.Rigid.C78_bfgs",
    "Verif.Rigid.C78_dfp",
    "Verif.Rigid.C78_lbfgs_inverse",
    "Verif.Rigid.C78_lbfgs_direct",
    "Verif.Rigid.C78_gauss_newton",
    "Verif.Rigid.C78_levenberg_marquardt",
    "Verif.Rigid.C78_indirect_levenberg_marquardt",
    "Verif.Rigid.C78_dogleg",
    "Verif.Rigid.C78_gradient",
    "Verif.Rigid.C78_jacobian",
    "Verif.Rigid.C78_two_norm",
    "Verif.Rigid.C78_two_norm_residuals",
    "Verif.Rigid.C78_norm_padding",
    "Verif.Rigid.C78_unused_unknowns",
    "Verif.Rigid.C78_zero_residuals"
   ],
   "note": ""
  },
  {
   "property": "C79",
   "status": "proved",
   "theorems": [
    "Verif.Units.C79_newton",
    "Verif.Units.C79_newton_equations",
    "Verif.Units.C79_newton_units",
    "Verif.Units.C79_fixed_point",
    "Verif.Units.C79_fixed_point_units",
    "Verif.Units.C79_atol_matters",
    "Verif.Units.C79_gauss_newton",
    "Verif.Units.C79_gauss_newton_units",
    "Verif.Units.C79_jacobian"
   ],
   "note": ""
  },
  {
   "property": "C80",
   "status": "proved",
   "theorems": [
    "Verif.Offset.C80_gradient_methods",
    "Verif.Offset.C80_quasi_newton_methods",
    "Verif.Offset.C80_gradient_descent",
    "Verif.Offset.C80_nonlinear_cg",
    "Verif.Offset.C80_bfgs",
    "Verif.Offset.C80_dfp",
    "Verif.Offset.C80_lbfgs_inverse",
    "Verif.Offset.C80_lbfgs_direct",
    "Verif.Offset.C80_rtol_matters",
    "Verif.Offset.C80_golden",
    "Verif.Offset.C80_nelder_mead",
    "Verif.Offset.C80_offset_keeps_tests",
    "Verif.Offset.C80_scaling_keeps_tests"
   ],
   "note": ""
  },
  {
   "property": "C81",
   "status": "partial",
   "theorems": [
    "Verif.Props.C81_argument",
    "Verif.Props.C81_transparent",
    "Verif.Props.C81_one_report_per_step",
    "Verif.Props.C81_handlers",
    "Verif.Props.C81_gauss_newton_partial",
    "Verif.Props.C81_quasi_newton_partial",
    "Verif.Props.C81_optax",
    "Verif.Props.C81_gauss_newton_names",
    "Verif.Props.C81_quasi_newton_names",
    "Verif.Props.C81_optax_names",
    "Verif.Props.C81_loss_of_another_point"
   ],
   "note": "False of the code for the loss on the last accepted step (witness C81_loss_of_another_point); everything else about the reports is proved."
  },
  {
   "property": "C82",
   "status": "proved",
   "theorems": [
    "Verif.Props.C82_gradient",
    "Verif.Props.C82_jacobian",
    "Verif.Props.C82_gradient_methods",
    "Verif.Props.C82_quasi_newton",
    "Verif.Props.C82_gauss_newton",
    "Verif.Props.C82_invalid"
   ],
   "note": ""
  },
  {
   "property": "C83",
   "status": "proved",
   "theorems": [
    "Verif.Props.C83_gauss_newton_is_newton",
    "Verif.Props.C83_chord_first_step",
    "Verif.Props.C83_chord_is_newton_affine",
    "Verif.Props.C83_fixed_point_is_gradient_descent",
    "Verif.Props.C83_secant_slope",
    "Verif.Props.C83_bfgs_is_dfp",
    "Verif.Props.C83_first_direction_cg",
    "Verif.Props.C83_first_direction_quasi_newton",
    "Verif.Props.C83_cg_without_memory"
   ],
   "note": ""
  },
  {
   "property": "C84",
   "status": "partial",
   "theorems": [
    "Verif.Props.C84_gradient_family",
    "Verif.Props.C84_quasi_newton_family",
    "Verif.Props.C84_gauss_newton_family",
    "Verif.Props.C84_newton",
    "Verif.Props.C84_fixed_point",
    "Verif.Props.C84_optax",
    "Verif.Props.C84_bisection",
    "Verif.Props.C84_bisection_domain",
    "Verif.Props.C84_newton_domain",
    "Verif.Props.C84_fixed_point_domain",
    "Verif.Props.C84_golden_domain_partial",
    "Verif.Props.C84_golden_outside"
   ],
   "note": "Proved for all solvers named; false of GoldenSearch with lower != 0, which evaluates the function outside [lower, upper] (C84_golden_outside)."
  },
  {
   "property": "C85",
   "status": "proved",
   "theorems": [
    "Verif.Props.C85_fixed_point",
    "Verif.Props.C85_newton",
    "Verif.Props.C85_search",
    "Verif.Props.C85_round_to_nearest_even"
   ],
   "note": ""
  },
  {
   "property": "C86",
   "status": "proved",
   "theorems": [
    "Verif.Props.C86_armijo_never_increases",
    "Verif.Props.C86_armijo_flushing",
    "Verif.Props.C86_trust_region_never_increases"
   ],
   "note": ""
  },
  {
   "property": "C87",
   "status": "proved",
   "theorems": [
    "Verif.Props.C87_stays_inside",
    "Verif.Props.C87_bracket",
    "Verif.Props.C87_answer",
    "Verif.Props.C87_stops",
    "Verif.Props.C87_too_fine"
   ],
   "note": ""
  },
  {
   "property": "C88",
   "status": "proved",
   "theorems": [
    "Verif.Props.C88_root_find",
    "Verif.Props.C88_fixed_point",
    "Verif.Props.C88_minimise",
    "Verif.Props.C88_least_squares",
    "Verif.Props.C88_approximate_roots",
    "Verif.Props.C88_gradient_root_find",
    "Verif.Props.C88_gradient_fixed_point",
    "Verif.Props.C88_gradient_minimise"
   ],
   "note": ""
  },
  {
   "property": "C89",
   "status": "proved",
   "theorems": [
    "Verif.Props.C89_stays_near",
    "Verif.Props.C89_accuracy",
    "Verif.Props.C89_stops",
    "Verif.Props.C89_too_fine"
   ],
   "note": ""
  },
  {
   "property": "C90",
   "status": "proved",
   "theorems": [
    "Verif.Props.C90_line_search",
    "Verif.Props.C90_answer",
    "Verif.Props.C90_trust_region",
    "Verif.Props.C90_trust_region_overflow",
    "Verif.Props.C90_undefined_start",
    "Verif.Props.C90_recovers",
    "Verif.Props.C90_fixed_rate_leaves"
   ],
   "note": ""
  },
  {
   "property": "C91",
   "status": "proved",
   "theorems": [
    "Verif.Props.C91_gradient_descent",
    "Verif.Props.C91_nonlinear_cg",
    "Verif.Props.C91_bfgs",
    "Verif.Props.C91_dfp",
    "Verif.Props.C91_lbfgs_inverse",
    "Verif.Props.C91_lbfgs_direct",
    "Verif.Props.C91_optax",
    "Verif.Props.C91_levenberg_marquardt",
    "Verif.Props.C91_gauss_newton",
    "Verif.Props.C91_indirect",
    "Verif.Props.C91_dogleg",
    "Verif.Props.C91_fixed_point",
    "Verif.Props.C91_newton_chord",
    "Verif.Props.C91_root_find_levenberg_marquardt"
   ],
   "note": ""
  },
  {
   "property": "C92",
   "status": "proved",
   "theorems": [
    "Verif.Cx.C92_split_jacobian",
    "Verif.Cx.C92_same_test",
    "Verif.Cx.C92_max_norm_differs",
    "Verif.Cx.C92_fixed_point_iterates",
    "Verif.Cx.C92_fixed_point",
    "Verif.Cx.C92_newton_iterates",
    "Verif.Cx.C92_chord_iterates",
    "Verif.Cx.C92_newton_chord",
    "Verif.Cx.C92_gauss_newton_iterates",
    "Verif.Cx.C92_gauss_newton",
    "Verif.Cx.C92_levenberg_marquardt_iterates",
    "Verif.Cx.C92_levenberg_marquardt",
    "Verif.Cx.C92_indirect_levenberg_marquardt_iterates",
    "Verif.Cx.C92_indirect_levenberg_marquardt",
    "Verif.Cx.C92_fixed_point_certificate",
    "Verif.Cx.C92_newton_certificate"
   ],
   "note": ""
  },
  {
   "property": "C93",
   "status": "partial",
   "theorems": [
    "Verif.Cx.C93_grad_dot",
    "Verif.Cx.C93_gradient_jax",
    "Verif.Cx.C93_gradient_conjugate",
    "Verif.Cx.C93_steepest_direction",
    "Verif.Cx.C93_grad_dot_wrong",
    "Verif.Cx.C93_norm_squared_gradient",
    "Verif.Cx.C93_gradient_descent_iterates",
    "Verif.Cx.C93_gradient_descent_runs_away",
    "Verif.Cx.C93_gradient_descent_split",
    "Verif.Cx.C93_cauchy_step_uphill",
    "Verif.Cx.C93_cauchy_step_real",
    "Verif.Cx.C93_gradient_descent_partial"
   ],
   "note": ""
  },
  {
   "property": "C94",
   "status": "proved",
   "theorems": [
    "Verif.Comparisons.C94_outcome",
    "Verif.Comparisons.C94_bisection",
    "Verif.Comparisons.C94_bisection_expand",
    "Verif.Comparisons.C94_bisection_outcome",
    "Verif.Comparisons.C94_golden",
    "Verif.Comparisons.C94_golden_outcome",
    "Verif.Comparisons.C94_nelder_mead"
   ],
   "note": ""
  },
  {
   "property": "C95",
   "status": "proved",
   "theorems": [
    "Verif.Props.C95_convex_rate",
    "Verif.Props.C95_strongly_convex_rate",
    "Verif.Props.C95_success_distance",
    "Verif.Props.C95_step_bound"
   ],
   "note": ""
  },
  {
   "property": "C96",
   "status": "proved",
   "theorems": [
    "Verif.Props.C96_root_find",
    "Verif.Props.C96_fixed_point",
    "Verif.Props.C96_minimise",
    "Verif.Props.C96_least_squares"
   ],
   "note": ""
  },
  {
   "property": "C97",
   "status": "proved",
   "theorems": [
    "Verif.Props.C97_errors_tolerated"
   ],
   "note": ""
  },
  {
   "property": "C98",
   "status": "proved",
   "theorems": [
    "Verif.Props.C98_levenberg_marquardt",
    "Verif.Props.C98_dogleg",
    "Verif.Props.C98_indirect_levenberg_marquardt"
   ],
   "note": ""
  },
  {
   "property": "C99",
   "status": "proved",
   "theorems": [
    "Verif.Props.C99_steepest_descent",
    "Verif.Props.C99_bfgs",
    "Verif.Props.C99_dfp",
    "Verif.Props.C99_lbfgs_inverse",
    "Verif.Props.C99_lbfgs_direct"
   ],
   "note": ""
  },
  {
   "property": "C100",
   "status": "partial",
   "theorems": [
    "Verif.Props.C100_bfgs_is_steepest_descent",
    "Verif.Props.C100_dfp_is_steepest_descent",
    "Verif.Props.C100_lbfgs_is_steepest_descent",
    "Verif.Props.C100_bfgs_not_superlinear",
    "Verif.Props.C100_bfgs_eigenvector_partial"
   ],
   "note": ""
  },
  {
   "property": "C101",
   "status": "partial",
   "theorems": [
    "Verif.Props.C101_nelder_mead_stops_at_the_start",
    "Verif.Props.C101_edges_partial"
   ],
   "note": ""
  },
  {
   "property": "C102",
   "status": "proved",
   "theorems": [
    "Verif.Props.C102_damping",
    "Verif.Props.C102_undamped_cycles",
    "Verif.Props.C102_steep"
   ],
   "note": ""
  },
  {
   "property": "C103",
   "status": "proved",
   "theorems": [
    "Verif.Props.C103_newton_global",
    "Verif.Props.C103_chord_global",
    "Verif.Props.C103_newton_cycles"
   ],
   "note": ""
  },
  {
   "property": "C104",
   "status": "proved",
   "theorems": [
    "Verif.Props.C104_certified_root_find",
    "Verif.Props.C104_root_find_least_squares",
    "Verif.Props.C104_certified_minimise",
    "Verif.Props.C104_backtracking",
    "Verif.Props.C104_certified_least_squares",
    "Verif.Props.C104_least_squares",
    "Verif.Props.C104_fixed_point",
    "Verif.Props.C104_newton",
    "Verif.Props.C104_bisection",
    "Verif.Props.C104_gradient_descent"
   ],
   "note": ""
  },
  {
   "property": "C105",
   "status": "proved",
   "theorems": [
    "Verif.Props.C105_bisection",
    "Verif.Props.C105_golden",
    "Verif.Props.C105_fixed_point",
    "Verif.Props.C105_optax",
    "Verif.Props.C105_gauss_newton",
    "Verif.Props.C105_dogleg",
    "Verif.Props.C105_dogleg_other",
    "Verif.Props.C105_levenberg_marquardt",
    "Verif.Props.C105_indirect",
    "Verif.Props.C105_gradient_descent",
    "Verif.Props.C105_nonlinear_cg",
    "Verif.Props.C105_quasi_newton_inverse",
    "Verif.Props.C105_quasi_newton",
    "Verif.Props.C105_newton",
    "Verif.Props.C105_nelder_mead",
    "Verif.Props.C105_best_so_far",
    "Verif.Props.C105_unbounded_success"
   ],
   "note": ""
  },
  {
   "property": "C106",
   "status": "proved",
   "theorems": [
    "Verif.Props.C106_partition_combine",
    "Verif.Props.C106_unwrap_wrap",
    "Verif.Props.C106_filter_cond",
    "Verif.Props.C106_state_split_invisible",
    "Verif.Props.C106_changed_static_rejected",
    "Verif.Props.C106_stats",
    "Verif.Props.C106_nelder_mead_stats"
   ],
   "note": ""
  },
  {
   "property": "C107",
   "status": "partial",
   "theorems": [
    "Verif.Props.C107_steepest_length_partial",
    "Verif.Props.C107_newton_length_partial",
    "Verif.Props.C107_success_needs_small_rate",
    "Verif.Props.C107_large_rate_never_succeeds",
    "Verif.Props.C107_stationary_step_nan",
    "Verif.Props.C107_stationary_start_fails"
   ],
   "note": ""
  },
  {
   "property": "C108",
   "status": "proved",
   "theorems": [
    "Verif.Props.C108_gradient_descent",
    "Verif.Props.C108_backtracking",
    "Verif.Props.C108_rate_too_large"
   ],
   "note": ""
  },
  {
   "property": "C109",
   "status": "partial",
   "theorems": [
    "Verif.Props.C109_steepest_descent_partial",
    "Verif.Props.C109_nonlinear_cg_partial",
    "Verif.Props.C109_newton_linear_partial",
    "Verif.Props.C109_dogleg_partial",
    "Verif.Props.C109_damped_partial",
    "Verif.Props.C109_indirect_partial",
    "Verif.Props.C109_newton_overshoots"
   ],
   "note": "False in general: C109_newton_overshoots is the counterexample (direct BFGS, NewtonDescent, default ClassicalTrustRegion). Proved for the combinations listed in the statement (DoglegDescent with its default norm); steepest descent or nonlinear CG steps inside a quasi-Newton solver are not covered."
  },
  {
   "property": "C110",
   "status": "proved",
   "theorems": [
    "Verif.Props.C110_gradient_vanishes",
    "Verif.Props.C110_success"
   ],
   "note": ""
  },
  {
   "property": "C111",
   "status": "proved",
   "theorems": [
    "Verif.Props.C111_gradient_descent",
    "Verif.Props.C111_levenberg_marquardt",
    "Verif.Props.C111_dogleg",
    "Verif.Props.C111_indirect"
   ],
   "note": ""
  },
  {
   "property": "C112",
   "status": "proved",
   "theorems": [
    "Verif.Props.C112_newton",
    "Verif.Props.C112_chord",
    "Verif.Props.C112_half_is_sharp",
    "Verif.Props.C112_newton_steps",
    "Verif.Props.C112_chord_steps"
   ],
   "note": ""
  },
  {
   "property": "C113",
   "status": "proved",
   "theorems": [
    "Verif.Props.C113_gradient_descent",
    "Verif.Props.C113_quasi_newton",
    "Verif.Props.C113_gauss_newton",
    "Verif.Props.C113_optax",
    "Verif.Props.C113_fixed_point",
    "Verif.Props.C113_bisection",
    "Verif.Props.C113_golden",
    "Verif.Props.C113_nelder_mead",
    "Verif.Props.C113_newton_chord",
    "Verif.Props.C113_newton_chord_rate",
    "Verif.Props.C113_rate_needs_common_factor",
    "Verif.Props.C113_best_so_far",
    "Verif.Props.C113_root_find_by_other_solvers"
   ],
   "note": ""
  },
  {
   "property": "C114",
   "status": "proved",
   "theorems": [
    "Verif.Props.C114_gradient_descent",
    "Verif.Props.C114_backtracking",
    "Verif.Props.C114_trust_region",
    "Verif.Props.C114_gauss_newton",
    "Verif.Props.C114_levenberg_marquardt",
    "Verif.Props.C114_distance",
    "Verif.Props.C114_backtracking_far_from_minimum",
    "Verif.Props.C114_bfgs_far_from_minimum"
   ],
   "note": ""
  },
  {
   "property": "C115",
   "status": "proved",
   "theorems": [
    "Verif.Props.C115_gradient_descent",
    "Verif.Props.C115_backtracking",
    "Verif.Props.C115_trust_region"
   ],
   "note": ""
  },
  {
   "property": "C116",
   "status": "proved",
   "theorems": [
    "Verif.Props.C116_run",
    "Verif.Props.C116_root_find",
    "Verif.Props.C116_accuracy"
   ],
   "note": ""
  },
  {
   "property": "C117",
   "status": "partial",
   "theorems": [
    "Verif.Props.C117_root_find_newton",
    "Verif.Props.C117_root_find_least_squares",
    "Verif.Props.C117_least_squares_partial",
    "Verif.Props.C117_gauss_newton_wrong",
    "Verif.Props.C117_root_find_derivative",
    "Verif.Props.C117_fixed_point_derivative",
    "Verif.Props.C117_minimise_derivative",
    "Verif.Props.C117_least_squares_derivative_partial",
    "Verif.Props.C117_unit_diagonal_wrong",
    "Verif.Props.C117_quasi_newton_promise",
    "Verif.Props.C117_lbfgs_promise",
    "Verif.Props.C117_damped_promise"
   ],
   "note": ""
  },
  {
   "property": "C118",
   "status": "proved",
   "theorems": [
    "Verif.Props.C118_increasing",
    "Verif.Props.C118_decreasing",
    "Verif.Props.C118_certified",
    "Verif.Props.C118_enclosure",
    "Verif.Props.C118_limit",
    "Verif.Props.C118_succeeds"
   ],
   "note": ""
  },
  {
   "property": "C119",
   "status": "partial",
   "theorems": [
    "Verif.NanSimplex.C119_never_nan",
    "Verif.NanSimplex.C119_success_is_finite",
    "Verif.NanSimplex.C119_nan_is_taken",
    "Verif.NanSimplex.C119_nan_ends_the_solve",
    "Verif.NanSimplex.C119_nan_wrong",
    "Verif.NanSimplex.C119_infinity_partial"
   ],
   "note": ""
  },
  {
   "property": "C120",
   "status": "proved",
   "theorems": [
    "Verif.Props.C120_least_squares_solver",
    "Verif.Props.C120_minimiser",
    "Verif.Props.C120_levenberg_marquardt",
    "Verif.Props.C120_dogleg",
    "Verif.Props.C120_indirect",
    "Verif.Props.C120_newton_chord",
    "Verif.Props.C120_fixed_point",
    "Verif.Props.C120_no_root"
   ],
   "note": ""
  },
  {
   "property": "C121",
   "status": "proved",
   "theorems": [
    "Verif.Props.C121_run",
    "Verif.Props.C121_root_find",
    "Verif.Props.C121_quadratic"
   ],
   "note": ""
  },
  {
   "property": "C122",
   "status": "partial",
   "theorems": [
    "Verif.Placement.C122_bisection",
    "Verif.Placement.C122_bisection_mirror",
    "Verif.Placement.C122_golden_scale_partial",
    "Verif.Placement.C122_golden_shift_false",
    "Verif.Placement.C122_nelder_mead_course",
    "Verif.Placement.C122_nelder_mead",
    "Verif.Placement.C122_initial_simplex"
   ],
   "note": ""
  },
  {
   "property": "C123",
   "status": "proved",
   "theorems": [
    "Verif.Props.C123_bound",
    "Verif.Props.C123_circle",
    "Verif.Props.C123_enough",
    "Verif.Props.C123_ends_or_circles",
    "Verif.Props.C123_whole",
    "Verif.Props.C123_newton",
    "Verif.Props.C123_binary_finite",
    "Verif.Props.C123_fixed_point",
    "Verif.Props.C123_newton_chord",
    "Verif.Props.C123_bisection"
   ],
   "note": ""
  },
  {
   "property": "C124",
   "status": "proved",
   "theorems": [
    "Verif.Props.C124_rate",
    "Verif.Props.C124_success",
    "Verif.Props.C124_succeeds",
    "Verif.Props.C124_enough_steps",
    "Verif.Props.C124_below_the_noise"
   ],
   "note": ""
  },
  {
   "property": "C125",
   "status": "proved",
   "theorems": [
    "Verif.Props.C125_success",
    "Verif.Props.C125_steps",
    "Verif.Props.C125_fixed_point",
    "Verif.Props.C125_newton_iterates",
    "Verif.Props.C125_newton",
    "Verif.Props.C125_gauss_newton",
    "Verif.Props.C125_gradient_descent",
    "Verif.Props.C125_fixed_point_steps"
   ],
   "note": ""
  },
  {
   "property": "C126",
   "status": "proved",
   "theorems": [
    "Verif.Props.C126_run",
    "Verif.Props.C126_root_find",
    "Verif.Props.C126_quadratic"
   ],
   "note": ""
  },
  {
   "property": "C127",
   "status": "proved",
   "theorems": [
    "Verif.Props.C127_family",
    "Verif.Props.C127_gauss_newton",
    "Verif.Props.C127_steepest_descent",
    "Verif.Props.C127_root_run",
    "Verif.Props.C127_root_find",
    "Verif.Props.C127_quadratic",
    "Verif.Props.C127_slope_above_half"
   ],
   "note": ""
  },
  {
   "property": "C128",
   "status": "proved",
   "theorems": [
    "Verif.Props.C128_follows_branch"
   ],
   "note": ""
  },
  {
   "property": "C129",
   "status": "proved",
   "theorems": [
    "Verif.Props.C129_golden",
    "Verif.Props.C129_golden_terminates",
    "Verif.Props.C129_bisection",
    "Verif.Props.C129_bisection_root",
    "Verif.Props.C129_bisection_terminates",
    "Verif.Props.C129_gradient_family",
    "Verif.Props.C129_quasi_newton_family",
    "Verif.Props.C129_gauss_newton_family",
    "Verif.Props.C129_levenberg_marquardt",
    "Verif.Props.C129_dogleg",
    "Verif.Props.C129_best_so_far",
    "Verif.Props.C129_nelder_mead",
    "Verif.Props.C129_backtracking",
    "Verif.Props.C129_below_the_noise"
   ],
   "note": ""
  },
  {
   "property": "C130",
   "status": "proved",
   "theorems": [
    "Verif.Props.C130_inner",
    "Verif.Props.C130_tangent",
    "Verif.Props.C130_computed",
    "Verif.Props.C130_bilevel_rate",
    "Verif.Props.C130_bilevel_success",
    "Verif.Props.C130_bilevel_terminates",
    "Verif.Props.C130_bisection"
   ],
   "note": ""
  },
  {
   "property": "C131",
   "status": "proved",
   "theorems": [
    "Verif.Props.C131_gradient_descent",
    "Verif.Props.C131_nonlinear_cg",
    "Verif.Props.C131_bfgs",
    "Verif.Props.C131_dfp",
    "Verif.Props.C131_lbfgs_inverse",
    "Verif.Props.C131_lbfgs_direct",
    "Verif.Props.C131_gauss_newton",
    "Verif.Props.C131_dogleg",
    "Verif.Props.C131_levenberg_marquardt",
    "Verif.Props.C131_indirect_levenberg_marquardt",
    "Verif.Props.C131_true_gradient",
    "Verif.Props.C131_true_jacobian",
    "Verif.Props.C131_nearest",
    "Verif.Props.C131_nearest_levenberg_marquardt",
    "Verif.Props.C131_fixed_point"
   ],
   "note": ""
  },
  {
   "property": "C132",
   "status": "proved",
   "theorems": [
    "Verif.Props.C132_gradient_descent",
    "Verif.Props.C132_nonlinear_cg",
    "Verif.Props.C132_bfgs",
    "Verif.Props.C132_dfp",
    "Verif.Props.C132_lbfgs_inverse",
    "Verif.Props.C132_lbfgs_direct",
    "Verif.Props.C132_gauss_newton",
    "Verif.Props.C132_dogleg",
    "Verif.Props.C132_levenberg_marquardt",
    "Verif.Props.C132_indirect_levenberg_marquardt",
    "Verif.Props.C132_newton_chord",
    "Verif.Props.C132_fixed_point",
    "Verif.Props.C132_true_gradient",
    "Verif.Props.C132_true_jacobian",
    "Verif.Props.C132_interchangeable"
   ],
   "note": ""
  },
  {
   "property": "C133",
   "status": "proved",
   "theorems": [
    "Verif.Props.C133_errors_tolerated"
   ],
   "note": ""
  },
  {
   "property": "C134",
   "status": "proved",
   "theorems": [
    "Verif.Props.C134_agree",
    "Verif.Props.C134_near_solution",
    "Verif.Props.C134_contraction_steep",
    "Verif.Props.C134_convex_steep",
    "Verif.Props.C134_newton_chord",
    "Verif.Props.C134_fixed_point_iteration",
    "Verif.Props.C134_bisection",
    "Verif.Props.C134_levenberg_marquardt",
    "Verif.Props.C134_dogleg",
    "Verif.Props.C134_indirect",
    "Verif.Props.C134_gradient_descent",
    "Verif.Props.C134_backtracking",
    "Verif.Props.C134_least_squares",
    "Verif.Props.C134_gauss_newton"
   ],
   "note": ""
  },
  {
   "property": "C135",
   "status": "proved",
   "theorems": [
    "Verif.Props.C135_gradient_descent",
    "Verif.Props.C135_backtracking",
    "Verif.Props.C135_trust_region",
    "Verif.Props.C135_linear"
   ],
   "note": ""
  },
  {
   "property": "C136",
   "status": "proved",
   "theorems": [
    "Verif.Props.C136_inactive",
    "Verif.Props.C136_systems",
    "Verif.Props.C136_one_unknown",
    "Verif.Props.C136_stuck"
   ],
   "note": ""
  },
  {
   "property": "C137",
   "status": "proved",
   "theorems": [
    "Verif.Props.C137_one_fixed_point",
    "Verif.Props.C137_levenberg_marquardt",
    "Verif.Props.C137_indirect",
    "Verif.Props.C137_dogleg"
   ],
   "note": ""
  },
  {
   "property": "C138",
   "status": "proved",
   "theorems": [
    "Verif.Props.C138_fixed_point_succeeds",
    "Verif.Props.C138_fixed_point",
    "Verif.Props.C138_root_find",
    "Verif.Props.C138_minimise_succeeds",
    "Verif.Props.C138_minimise"
   ],
   "note": ""
  },
  {
   "property": "C139",
   "status": "proved",
   "theorems": [
    "Verif.Props.C139_power",
    "Verif.Props.C139_local",
    "Verif.Props.C139_affine",
    "Verif.Props.C139_affine_succeeds"
   ],
   "note": ""
  },
  {
   "property": "C140",
   "status": "proved",
   "theorems": [
    "Verif.Props.C140_quadratic",
    "Verif.Props.C140_local"
   ],
   "note": ""
  },
  {
   "property": "C141",
   "status": "proved",
   "theorems": [
    "Verif.Props.C141_never_increases",
    "Verif.Props.C141_gradient_family",
    "Verif.Props.C141_quasi_newton_family",
    "Verif.Props.C141_levenberg_marquardt",
    "Verif.Props.C141_dogleg",
    "Verif.Props.C141_gradient_descent",
    "Verif.Props.C141_saddle",
    "Verif.Props.C141_fixed_point"
   ],
   "note": ""
  },
  {
   "property": "C142",
   "status": "proved",
   "theorems": [
    "Verif.Props.C142_more_steps",
    "Verif.Props.C142_tolerances",
    "Verif.Props.C142_gradient_family",
    "Verif.Props.C142_quasi_newton_family",
    "Verif.Props.C142_trust_region_quasi_newton",
    "Verif.Props.C142_trust_region_steepest_descent",
    "Verif.Props.C142_levenberg_marquardt",
    "Verif.Props.C142_dogleg",
    "Verif.Props.C142_indirect",
    "Verif.Props.C142_best_so_far",
    "Verif.Props.C142_best_so_far_tolerances",
    "Verif.Props.C142_fails_without_search"
   ],
   "note": ""
  },
  {
   "property": "C143",
   "status": "proved",
   "theorems": [
    "Verif.Props.C143_gradient_family",
    "Verif.Props.C143_quasi_newton_family",
    "Verif.Props.C143_gauss_newton_family",
    "Verif.Props.C143_newton",
    "Verif.Props.C143_chord",
    "Verif.Props.C143_fixed_point",
    "Verif.Props.C143_optax",
    "Verif.Props.C143_bisection",
    "Verif.Props.C143_bisection_detect",
    "Verif.Props.C143_golden",
    "Verif.Props.C143_nelder_mead"
   ],
   "note": ""
  },
  {
   "property": "C144",
   "status": "proved",
   "theorems": [
    "Verif.Props.C144_fixed_point",
    "Verif.Props.C144_gradient_descent"
   ],
   "note": ""
  },
  {
   "property": "C145",
   "status": "proved",
   "theorems": [
    "Verif.Props.C145_linear_equations",
    "Verif.Props.C145_invariant_set"
   ],
   "note": ""
  },
  {
   "property": "C146",
   "status": "proved",
   "theorems": [
    "Verif.Props.C146_stationary",
    "Verif.Props.C146_value_function",
    "Verif.Props.C146_second_order",
    "Verif.Props.C146_least_squares",
    "Verif.Props.C146_certified",
    "Verif.Props.C146_backtracking"
   ],
   "note": ""
  },
  {
   "property": "C147",
   "status": "proved",
   "theorems": [
    "Verif.Props.C147_bisection",
    "Verif.Props.C147_fixed_point",
    "Verif.Props.C147_fixed_point_answers"
   ],
   "note": ""
  },
  {
   "property": "C148",
   "status": "proved",
   "theorems": [
    "Verif.Props.C148_fixed_point",
    "Verif.Props.C148_gradient_descent",
    "Verif.Props.C148_bisection"
   ],
   "note": ""
  },
  {
   "property": "C149",
   "status": "proved",
   "theorems": [
    "Verif.Props.C149_iterates",
    "Verif.Props.C149_answers"
   ],
   "note": ""
  },
  {
   "property": "C150",
   "status": "proved",
   "theorems": [
    "Verif.Props.C150_root_finders",
    "Verif.Props.C150_minimisers",
    "Verif.Props.C150_least_squares",
    "Verif.Props.C150_best_so_far",
    "Verif.Props.C150_root_find",
    "Verif.Props.C150_has_aux"
   ],
   "note": ""
  },
  {
   "property": "C151",
   "status": "proved",
   "theorems": [
    "Verif.Props.C151_minimisers",
    "Verif.Props.C151_two_norm",
    "Verif.Props.C151_gauss_newton",
    "Verif.Props.C151_levenberg_marquardt",
    "Verif.Props.C151_indirect_levenberg_marquardt",
    "Verif.Props.C151_dogleg",
    "Verif.Props.C151_norms",
    "Verif.Props.C151_whole_data"
   ],
   "note": ""
  },
  {
   "property": "C152",
   "status": "proved",
   "theorems": [
    "Verif.Props.C152_iterates",
    "Verif.Props.C152_damped_iterates",
    "Verif.Props.C152_succeeds",
    "Verif.Props.C152_accuracy"
   ],
   "note": ""
  },
  {
   "property": "C153",
   "status": "proved",
   "theorems": [
    "Verif.Props.C153_twice",
    "Verif.Props.C153_minimisers",
    "Verif.Props.C153_others"
   ],
   "note": ""
  },
  {
   "property": "C154",
   "status": "proved",
   "theorems": [
    "Verif.Props.C154_two_starts",
    "Verif.Props.C154_never_further",
    "Verif.Props.C154_gradient",
    "Verif.Props.C154_gradient_rate",
    "Verif.Props.C154_converges",
    "Verif.Props.C154_fixed_point"
   ],
   "note": ""
  },
  {
   "property": "C155",
   "status": "proved",
   "theorems": [
    "Verif.Props.C155_never_further",
    "Verif.Props.C155_levenberg_marquardt",
    "Verif.Props.C155_closest",
    "Verif.Props.C155_dogleg",
    "Verif.Props.C155_indirect_levenberg_marquardt",
    "Verif.Props.C155_no_rejections"
   ],
   "note": ""
  },
  {
   "property": "C156",
   "status": "proved",
   "theorems": [
    "Verif.Props.C156_fixed_point",
    "Verif.Props.C156_gradient_descent",
    "Verif.Props.C156_convex",
    "Verif.Props.C156_gauss_newton",
    "Verif.Props.C156_newton"
   ],
   "note": ""
  },
  {
   "property": "C157",
   "status": "proved",
   "theorems": [
    "Verif.Props.C157_fixed_point",
    "Verif.Props.C157_gradient_descent",
    "Verif.Props.C157_ties_jump"
   ],
   "note": ""
  },
  {
   "property": "C158",
   "status": "proved",
   "theorems": [
    "Verif.Props.C158_chord",
    "Verif.Props.C158_multiple_root",
    "Verif.Props.C158_rate_estimate"
   ],
   "note": ""
  },
  {
   "property": "C159",
   "status": "proved",
   "theorems": [
    "Verif.Props.C159_tangential",
    "Verif.Props.C159_repelled"
   ],
   "note": ""
  }
 ]
}