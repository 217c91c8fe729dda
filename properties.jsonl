{"id": "C01", "title": "The step budget is respected and counted exactly", "statement": "For every solver and problem, a solve with max_steps=n performs at most n solver steps, stats['num_steps'] is exactly the number of steps performed, and the returned state is the one obtained by applying the solver's step that many times from its initial state.", "quantifier": "all solvers (any init/step/terminate), all functions, all y0, all max_steps (including None)", "why_tests_cant": "Tests run a handful of solvers for a handful of budgets; the claim is about every solver a user may subclass and every budget.", "anchors": ["optimistix/_iterate.py:_iterate", "optimistix/_iterate.py:iterative_solve"]}
{"id": "C02", "title": "A successful result is a certificate of termination", "statement": "If Solution.result is `successful` then the solver's own termination test returned (True, successful) on the final state, no earlier state satisfied it, and every iterate handed to it was finite.", "quantifier": "all solvers, functions, initial points, budgets", "why_tests_cant": "A spurious 'successful' on one rare path cannot be excluded by sampling runs.", "anchors": ["optimistix/_iterate.py:_iterate"]}
{"id": "C03", "title": "Failures stop the loop at once and are reported unchanged", "statement": "If the solver's termination test reports a failure code at some step (and no earlier test stopped the loop) then no further step is taken and exactly this code is the Solution.result; it is never masked as success or as max_steps_reached. The only override is `nonfinite` when the tested iterate is not finite.", "quantifier": "all solvers, functions, failure codes, step indices", "why_tests_cant": "Needs every interleaving of terminate flag and failure code at every step index.", "anchors": ["optimistix/_iterate.py:_iterate"]}
{"id": "C04", "title": "max_steps_reached is reported exactly when the budget ran out undecided", "statement": "Provided the solver itself never emits it, result == nonlinear_max_steps_reached iff exactly max_steps steps were taken and none of the states so far (including the last) satisfied the stopping test.", "quantifier": "all solvers, functions, budgets", "why_tests_cant": "The boundary case 'converged on the very last permitted step' has to be right for every budget.", "anchors": ["optimistix/_iterate.py:_iterate"]}
{"id": "C05", "title": "throw=True never returns a failed solution, throw=False never raises", "statement": "With throw=True a Solution is returned iff its result is successful, and otherwise the error raised carries that result; with throw=False the identical solution is returned whatever the result.", "quantifier": "all solves and all result codes", "why_tests_cant": "All result codes on all solvers.", "anchors": ["optimistix/_iterate.py:iterative_solve"]}
{"id": "C06", "title": "A non-finite starting point is rejected before any step", "statement": "If y0 contains NaN or inf the solve takes zero steps and reports `nonfinite`; if a later iterate y_k is non-finite and the loop continues, the loop stops right after the next step and reports nonfinite.", "quantifier": "all solvers, all y0, all iterates", "why_tests_cant": "Non-finite values can appear in any coordinate at any step.", "anchors": ["optimistix/_iterate.py:_iterate", "optimistix/_misc.py:tree_allfinite"]}
{"id": "C07", "title": "A successful solve returns a finite value", "statement": "If result is successful then Solution.value is finite.", "quantifier": "all solvers and functions", "why_tests_cant": "Requires reasoning about the last step of every run. (The code tests the previous iterate rather than the new one, so this is expected to fail: see DESIGN.md.)", "anchors": ["optimistix/_iterate.py:_iterate"]}
{"id": "C08", "title": "Raising max_steps does not change a finished solve", "statement": "If a solve finished without exhausting max_steps=n then with any larger budget, or None, it yields the same value, result, aux, state and num_steps; max_steps=None halts iff some finite budget suffices.", "quantifier": "all pairs of budgets, all solvers", "why_tests_cant": "Quantifies over all pairs of budgets.", "anchors": ["optimistix/_iterate.py:_iterate", "optimistix/_iterate.py:iterative_solve"]}
{"id": "C09", "title": "Solution.aux comes from a real evaluation", "statement": "If at least one step was taken, Solution.aux (before post-processing) is the aux output of the last solver step; if none was taken it is the all-zeros placeholder.", "quantifier": "all solvers, functions, budgets", "why_tests_cant": "Every number of steps including zero.", "anchors": ["optimistix/_iterate.py:_iterate"]}
{"id": "C10", "title": "root_find through a minimiser or least-squares solver certifies a small residual", "statement": "When root_find is called with a minimiser or least-squares solver, a successful result implies that the inner solver's test succeeded and that norm(fn(y)) < atol at the last point the solver stepped from; a nonzero local minimum is never reported as a root.", "quantifier": "all functions, inner solvers, tolerances, runs", "why_tests_cant": "An optimiser may stop at any non-root stationary point; tests only use problems with roots.", "anchors": ["optimistix/_root_find.py:_ToRoot", "optimistix/_root_find.py:root_find"]}
{"id": "C11", "title": "Problem conversions preserve solutions", "statement": "Zeros of the function handed to the inner solver are exactly the solutions of the user's problem: least_squares -> minimise uses 1/2*sum(residual^2), which is >=0 and 0 iff all residuals vanish; fixed_point -> root_find uses fn(y)-y, zero iff y is a fixed point; root_find -> least_squares uses fn itself; root_find -> minimise uses a function >=0 and 0 iff fn vanishes; aux is passed through unchanged.", "quantifier": "all functions and points", "why_tests_cant": "Universal over functions and points.", "anchors": ["optimistix/_least_squares.py:_ToMinimiseFn", "optimistix/_fixed_point.py:_ToRootFn", "optimistix/_root_find.py:_to_minimise_fn"]}
{"id": "C12", "title": "Implicit differentiation returns the true derivative of the solution map", "statement": "The tangent returned by ImplicitAdjoint equals the Frechet derivative of every continuous branch of solutions theta -> y(theta) of the optimality condition, whenever the Jacobian in y is invertible; for root_find the condition is fn=0, for fixed_point fn(y)-y=0, for minimise grad fn=0, for least_squares grad of 1/2 sum r^2 = 0.", "quantifier": "all continuously differentiable problems, all parameter directions", "why_tests_cant": "Finite-difference tests sample a few functions and directions with tolerances.", "anchors": ["optimistix/_ad.py:implicit_jvp", "optimistix/_adjoint.py:ImplicitAdjoint"]}
{"id": "C13", "title": "Bisection always brackets a sign change", "statement": "From an accepted initial interval, after every number of steps the function value at `lower` and at `upper` are on opposite (weak) sides of zero in the recorded orientation, for arbitrary functions, any y0, any rounding of the midpoint.", "quantifier": "all functions, intervals, y0, step counts", "why_tests_cant": "Invariant over every reachable state.", "anchors": ["optimistix/_solver/bisection.py:Bisection.init", "optimistix/_solver/bisection.py:Bisection.step"]}
{"id": "C14", "title": "Bisection's answer is within tolerance of a true root", "statement": "For continuous fn, if the solve succeeds then there is an exact root in the final bracket, at distance at most half of (atol + rtol*|y|) from the returned value.", "quantifier": "all continuous functions, intervals, tolerances", "why_tests_cant": "Universal over continuous functions.", "anchors": ["optimistix/_solver/bisection.py:Bisection"]}
{"id": "C15", "title": "Bisection halves its interval and terminates", "statement": "From the second step on, each step halves the bracket exactly; for continuous fn and atol>0 the solve terminates successfully given a sufficiently large (or no) budget.", "quantifier": "all continuous functions with a sign change, all positive tolerances", "why_tests_cant": "A liveness claim over all functions.", "anchors": ["optimistix/_solver/bisection.py:Bisection.step", "optimistix/_solver/bisection.py:Bisection.terminate"]}
{"id": "C16", "title": "Bisection accepts an interval iff its end values have opposite signs", "statement": "Without expansion, a solve is rejected with an error exactly when the end-point values do not straddle zero; in particular every interval with a root at one end is accepted.", "quantifier": "all functions and intervals", "why_tests_cant": "Needs the zero-valued boundary cases on both sides and both orientations.", "anchors": ["optimistix/_solver/bisection.py:Bisection.init"]}
{"id": "C17", "title": "Bisection's interval expansion is sound", "statement": "With expand_if_necessary, whenever the expansion loop stops, the interval used by the solver has end values on opposite weak sides of zero, for every function; for strictly monotone continuous functions with a root it does stop.", "quantifier": "all functions, start intervals", "why_tests_cant": "Unbounded loop over arbitrary functions.", "anchors": ["optimistix/_solver/bisection.py:_expand_interval_repeatedly"]}
{"id": "C18", "title": "Golden-section search probes inside the user's interval", "statement": "The middle point and every probe of GoldenSearch lie within [lower, upper], the interval shrinks by 1/phi per step, and the interval ratio stays golden.", "quantifier": "all intervals, functions, step counts", "why_tests_cant": "Universal over intervals, tests use few intervals.", "anchors": ["optimistix/_solver/golden.py:GoldenSearch.init", "optimistix/_solver/golden.py:GoldenSearch.step"]}
{"id": "C19", "title": "Golden-section search keeps the minimiser of a unimodal function", "statement": "For a unimodal fn on [lower, upper] the minimiser is always inside the current interval, so on success it is within the interval width of the returned value.", "quantifier": "all unimodal functions and intervals", "why_tests_cant": "Universal over functions.", "anchors": ["optimistix/_solver/golden.py:GoldenSearch.step"]}
{"id": "C20", "title": "FixedPointIteration success certifies a small scaled update", "statement": "On success, the returned value is (1-damp)*fn(y)+damp*y for the previous iterate y and norm((y-value)/(atol+rtol*|value|))<1; fixed points of the damped map are those of fn (damp != 1).", "quantifier": "all functions, tolerances, damping", "why_tests_cant": "Universal over functions.", "anchors": ["optimistix/_solver/fixed_point.py:FixedPointIteration"]}
{"id": "C21", "title": "FixedPointIteration converges on contractions", "statement": "If fn is a contraction and atol>0, the solve terminates successfully given a sufficient budget, and the returned value is within q/(1-q) * (last update) of the unique fixed point.", "quantifier": "all contractions, starting points, damping in [0,1)", "why_tests_cant": "Liveness over all contractions.", "anchors": ["optimistix/_solver/fixed_point.py:FixedPointIteration"]}
{"id": "C22", "title": "Newton/Chord with bounds never leave the box", "statement": "With options lower/upper (lower<=upper), every iterate after the first step, and the returned value, satisfies lower <= y <= upper componentwise, whatever the function and the linear solver return.", "quantifier": "all functions, Jacobians, linear-solver outputs, bounds", "why_tests_cant": "Must hold for all iterates.", "anchors": ["optimistix/_solver/newton_chord.py:_NewtonChord.step"]}
{"id": "C23", "title": "Newton and Chord solve affine systems in one step", "statement": "For affine fn with invertible Jacobian, without bounds, the iterate after one step is the exact root; a Newton step solves the linearised system at the current point, a Chord step the one at y0.", "quantifier": "all invertible affine systems, all y0", "why_tests_cant": "Universal over systems.", "anchors": ["optimistix/_solver/newton_chord.py:_NewtonChord.step"]}
{"id": "C24", "title": "Newton/Chord classify divergence and linear-solver failure", "statement": "The rate-based test reports nonlinear_divergence iff the contraction estimate is non-finite or exceeds 2 (after at least two steps), converges only if factor*diffsize<kappa or the update is negligible, and a failed linear solve stops the solve with the linear solver's code.", "quantifier": "all states", "why_tests_cant": "NaN/inf corner cases for every state.", "anchors": ["optimistix/_solver/newton_chord.py:_NewtonChord.terminate"]}
{"id": "C25", "title": "BestSoFar returns the best iterate it evaluated", "statement": "For an inner solver whose step reports the function value at the point it stepped from, the returned value has loss <= the loss of every iterate stepped from (NaN losses never win), and it is one of them.", "quantifier": "all inner solvers, functions, run lengths", "why_tests_cant": "Universal over trajectories.", "anchors": ["optimistix/_solver/best_so_far.py:_AbstractBestSoFarSolver"]}
{"id": "C26", "title": "BestSoFar's aux belongs to its value", "statement": "The returned aux is the aux output of fn at the returned value.", "quantifier": "all inner solvers, functions", "why_tests_cant": "Universal over trajectories.", "anchors": ["optimistix/_solver/best_so_far.py:_AbstractBestSoFarSolver"]}
{"id": "C27", "title": "Backtracking line search never increases the objective", "statement": "Any minimise/least_squares run using BacktrackingArmijo (BFGS, DFP, L-BFGS, NonlinearCG, custom combinations with any descent) has non-increasing objective along its iterates, and fn(value) <= fn(y0).", "quantifier": "all objectives, descents, Hessian approximations, run lengths", "why_tests_cant": "Universal over trajectories, descents and functions.", "anchors": ["optimistix/_solver/backtracking.py:BacktrackingArmijo.step", "optimistix/_solver/gradient_methods.py:AbstractGradientDescent.step", "optimistix/_solver/quasi_newton.py:AbstractQuasiNewton.step", "optimistix/_solver/gauss_newton.py:AbstractGaussNewton.step"]}
{"id": "C28", "title": "Backtracking terminates on a descent direction", "statement": "Along a direction with negative directional derivative, BacktrackingArmijo accepts after finitely many rejections, and the trial step sizes are exactly step_init*decrease_factor^k.", "quantifier": "all differentiable objectives and descent directions", "why_tests_cant": "Liveness.", "anchors": ["optimistix/_solver/backtracking.py:BacktrackingArmijo.step"]}
{"id": "C29", "title": "Trust-region accept/resize rule", "statement": "After the first step a step is accepted iff actual change <= low_cutoff * predicted change; the radius is multiplied by high_constant on good accepted steps, low_constant on rejections and unchanged otherwise; it stays positive; accepted steps with non-positive prediction never increase the objective.", "quantifier": "all histories of accept/reject", "why_tests_cant": "All histories.", "anchors": ["optimistix/_solver/trust_region.py:_AbstractTrustRegion.step"]}
{"id": "C30", "title": "Rejected steps leave the iterate and its information unchanged", "statement": "In every search-based solver, a rejected step keeps y, function value, gradient/Hessian and aux; an accepted step moves to exactly the point that was evaluated; the function value stored always is fn at the current iterate; termination is only ever triggered by an accepted step.", "quantifier": "all searches and descents, all histories", "why_tests_cant": "All histories.", "anchors": ["optimistix/_solver/gradient_methods.py:AbstractGradientDescent.step", "optimistix/_solver/quasi_newton.py:AbstractQuasiNewton.step", "optimistix/_solver/gauss_newton.py:AbstractGaussNewton.step"]}
{"id": "C31", "title": "GradientDescent is textbook gradient descent", "statement": "minimise with GradientDescent(learning_rate) generates exactly y_{k+1} = y_k - learning_rate * grad fn(y_k).", "quantifier": "all objectives, rates, step counts", "why_tests_cant": "Refinement for all step counts.", "anchors": ["optimistix/_solver/gradient_methods.py:GradientDescent"]}
{"id": "C32", "title": "NonlinearCG always searches along a descent direction", "statement": "Every search direction d of NonlinearCG satisfies grad . d < 0 unless grad = 0, for every beta formula, and the first one is the steepest-descent direction.", "quantifier": "all objectives, beta methods, histories", "why_tests_cant": "All histories.", "anchors": ["optimistix/_solver/nonlinear_cg.py:NonlinearCGDescent.query"]}
{"id": "C33", "title": "The nonlinear CG beta formulas are the published ones", "statement": "polak_ribiere, fletcher_reeves, hestenes_stiefel and dai_yuan compute the documented coefficients (PR clipped at zero); in particular hestenes_stiefel makes the new direction conjugate to the old one with respect to the gradient difference.", "quantifier": "all gradients and directions", "why_tests_cant": "Sign errors are invisible to convergence tests because of the safeguard.", "anchors": ["optimistix/_solver/nonlinear_cg.py:hestenes_stiefel", "optimistix/_solver/nonlinear_cg.py:dai_yuan", "optimistix/_solver/nonlinear_cg.py:polak_ribiere", "optimistix/_solver/nonlinear_cg.py:fletcher_reeves"]}
{"id": "C34", "title": "BFGS update: secant equation, symmetry, positive definiteness", "statement": "Whenever the curvature guard lets the update through, the new (inverse) Hessian approximation satisfies the secant equation, is symmetric and positive definite if the old one was; if the guard blocks, it is unchanged; hence it is symmetric positive definite after every step of every run.", "quantifier": "all histories of accepted steps and gradients", "why_tests_cant": "Invariant over all histories.", "anchors": ["optimistix/_solver/quasi_newton.py:AbstractBFGS", "optimistix/_solver/quasi_newton.py:AbstractQuasiNewton"]}
{"id": "C35", "title": "DFP update: secant equation, symmetry, positive definiteness", "statement": "Same as for BFGS, for the DFP update formula.", "quantifier": "all histories", "why_tests_cant": "Invariant over all histories.", "anchors": ["optimistix/_solver/quasi_newton.py:AbstractDFP"]}
{"id": "C36", "title": "use_inverse=True and use_inverse=False agree", "statement": "For BFGS, DFP and L-BFGS, the inverse-form update maintained with use_inverse=True is at every step the matrix inverse of the direct-form update maintained with use_inverse=False on the same history, so both produce the same Newton step and therefore identical runs.", "quantifier": "all histories", "why_tests_cant": "Matrix identity over all inputs.", "anchors": ["optimistix/_solver/quasi_newton.py:AbstractBFGS", "optimistix/_solver/quasi_newton.py:AbstractDFP"]}
{"id": "C37", "title": "L-BFGS ring buffer holds exactly the most recent accepted pairs", "statement": "After any sequence of updates the stored history contains exactly the last min(k, history_length) accepted curvature pairs in order, and blocked updates change nothing.", "quantifier": "all histories, all history lengths", "why_tests_cant": "Wrap-around for all lengths.", "anchors": ["optimistix/_solver/limited_memory_bfgs.py:LBFGSUpdate"]}
{"id": "C38", "title": "L-BFGS two-loop recursion equals the dense BFGS inverse", "statement": "The vector computed by the two-loop recursion equals the dense BFGS inverse Hessian, built from gamma*I by applying the stored pairs oldest to newest, times the vector; in particular it is symmetric positive definite and satisfies the newest secant equation.", "quantifier": "all histories, lengths, vectors", "why_tests_cant": "Universal over histories.", "anchors": ["optimistix/_solver/limited_memory_bfgs.py:_lbfgs_inverse_hessian_operator_fn"]}
{"id": "C39", "title": "L-BFGS compact direct Hessian equals the dense BFGS Hessian", "statement": "With use_inverse=False the operator built from the compact representation equals the dense direct BFGS matrix from the same pairs.", "quantifier": "all histories, lengths, vectors", "why_tests_cant": "Universal over histories.", "anchors": ["optimistix/_solver/limited_memory_bfgs.py:_lbfgs_hessian_operator_fn"]}
{"id": "C40", "title": "Levenberg-Marquardt damped step solves the regularised problem", "statement": "The damped Newton step for residual problems is the unique minimiser of |J d + r|^2 + lambda |d|^2, its predicted reduction is non-positive, and it shrinks as lambda grows.", "quantifier": "all Jacobians (any rank/shape), residuals, lambda > 0", "why_tests_cant": "Universal over matrices.", "anchors": ["optimistix/_solver/levenberg_marquardt.py:damped_newton_step"]}
{"id": "C41", "title": "LevenbergMarquardt/Dogleg runs never increase the sum of squares", "statement": "In any least_squares run with the classical trust region and a descent whose steps have non-positive predicted reduction, the objective 1/2 sum r^2 at the iterates is non-increasing, and fn(value) <= fn(y0).", "quantifier": "all residual functions, runs", "why_tests_cant": "All trajectories.", "anchors": ["optimistix/_solver/gauss_newton.py:AbstractGaussNewton.step", "optimistix/_solver/trust_region.py:ClassicalTrustRegion"]}
{"id": "C42", "title": "Dogleg steps respect the trust region and follow the dogleg path", "statement": "The step returned by DoglegDescent lies on the piecewise linear path 0 -> Cauchy -> Newton, equals the Newton step for step_size >= 1 (when the Cauchy point is inside), and has norm exactly step_size*|newton| on the interior branches.", "quantifier": "all Cauchy and Newton points, step sizes", "why_tests_cant": "Universal over geometry, incl. degenerate cases.", "anchors": ["optimistix/_solver/dogleg.py:DoglegDescent.step"]}
{"id": "C43", "title": "GaussNewton solves linear least squares in one step", "statement": "For affine residuals, the point reached by the first full Gauss-Newton step satisfies the normal equations, hence is a global minimiser.", "quantifier": "all affine residual functions", "why_tests_cant": "Universal over systems.", "anchors": ["optimistix/_solver/gauss_newton.py:newton_step", "optimistix/_solver/gauss_newton.py:NewtonDescent"]}
{"id": "C44", "title": "NelderMead best value never increases and matches the returned point", "statement": "The recorded best value is non-increasing, equals fn at the recorded best vertex, and the returned value attains the best value found.", "quantifier": "all objectives, simplices, run lengths", "why_tests_cant": "All trajectories.", "anchors": ["optimistix/_solver/nelder_mead.py:NelderMead.step"]}
{"id": "C45", "title": "NelderMead's initial simplex is non-degenerate", "statement": "The simplex built from y0 has d+1 affinely independent vertices.", "quantifier": "all dimensions d and y0", "why_tests_cant": "Universal over dimensions; tests use small d.", "anchors": ["optimistix/_solver/nelder_mead.py:NelderMead.init"]}
{"id": "C46", "title": "cauchy_termination needs both the iterate and the objective to settle", "statement": "It is True iff norm(y_diff/(atol+rtol*|y|))<1 and norm(f_diff/(atol+rtol*|f|))<1; any NaN in the differences makes it False; larger tolerances never turn a True into a False.", "quantifier": "all values incl. NaN/inf, tolerances, norms", "why_tests_cant": "NaN/inf corner cases everywhere.", "anchors": ["optimistix/_misc.py:cauchy_termination"]}
{"id": "C47", "title": "feasible_step_length keeps points feasible", "statement": "For y inside the box, every returned length is in [0,1] and y + t*step is inside the box, for both conventions of offset; a step pointing inside is not shortened.", "quantifier": "all y, steps, bounds incl. infinite", "why_tests_cant": "Universal over geometry.", "anchors": ["optimistix/_misc.py:feasible_step_length"]}
{"id": "C48", "title": "compat.minimize reports faithfully", "statement": "status is 0 iff successful, 1 iff max steps were reached, 3 otherwise; success iff status 0; fun/jac are those at x; unknown options and malformed inputs are rejected; documented options take effect.", "quantifier": "all inputs, options, results", "why_tests_cant": "All option combinations and result codes.", "anchors": ["optimistix/compat/_impl.py:minimize"]}
{"id": "C49", "title": "OptaxMinimiser follows the optax recursion", "statement": "Iterates are y_{k+1} = apply_updates(y_k, u_k) with (u_k, s_{k+1}) = optim.update(grad fn(y_k), s_k, y_k); success means the last update and last function change are within tolerance.", "quantifier": "all gradient transformations, objectives", "why_tests_cant": "Universal over optimisers and step counts.", "anchors": ["optimistix/_solver/optax.py:OptaxMinimiser"]}
{"id": "C50", "title": "Generalised Cauchy point stays in the box and terminates", "statement": "cauchy_point returns a point within [lower, upper] after finitely many iterations and its quadratic model value is not above the one at y.", "quantifier": "all boxes, gradients, Hessians", "why_tests_cant": "Unbounded loop and universal geometry.", "anchors": ["optimistix/_solver/cauchy_point.py:cauchy_point"]}
{"id": "C51", "title": "Function-information conversions agree", "statement": "For residual information, as_min and compute_grad_dot agree with the gradient of 1/2 sum r^2: value 1/2|r|^2, gradient J^T r, and grad-dot (J^T r).y for every y.", "quantifier": "all residuals, Jacobians, directions", "why_tests_cant": "Universal identity.", "anchors": ["optimistix/_search.py:FunctionInfo"]}
{"id": "C52", "title": "Batched (vmapped) solves equal individual solves", "statement": "Running many problems in one batched masked loop yields, for each lane, the same value, result, aux and num_steps as solving it alone.", "quantifier": "all batch sizes and lane lengths", "why_tests_cant": "All combinations of lane stopping times.", "anchors": ["optimistix/_iterate.py:_iterate"]}
{"id": "C53", "title": "Indirect Levenberg-Marquardt honours the trust region", "statement": "IndirectDampedNewtonDescent returns the Newton step when step_size >= 1, otherwise the damped step at the lambda found by its inner root find, and if that root find is exact the step norm equals step_size*|newton step|; the damped-step norm is monotone in lambda so such a lambda is unique.", "quantifier": "all Jacobians, residuals, step sizes", "why_tests_cant": "Universal over matrices.", "anchors": ["optimistix/_solver/levenberg_marquardt.py:IndirectDampedNewtonDescent"]}
{"id": "C54", "title": "Predicted reductions equal the model's change", "statement": "ClassicalTrustRegion and LinearTrustRegion/BacktrackingArmijo predict exactly m(y_diff)-m(0) for the quadratic resp. linear model, in gradient+Hessian form as well as in residual+Jacobian form; the forms agree with H = J^T J.", "quantifier": "all gradients, Hessians, residuals, Jacobians, steps", "why_tests_cant": "Universal identity.", "anchors": ["optimistix/_solver/trust_region.py:ClassicalTrustRegion.predict_reduction", "optimistix/_solver/trust_region.py:LinearTrustRegion.predict_reduction"]}
{"id": "C55", "title": "Constructor validation rejects exactly the invalid hyper-parameters", "statement": "BacktrackingArmijo, ClassicalTrustRegion and LinearTrustRegion raise exactly for parameters outside their documented ranges, and every accepted parameter set keeps the step size positive for ever.", "quantifier": "all parameter values", "why_tests_cant": "Boundary values.", "anchors": ["optimistix/_solver/backtracking.py:BacktrackingArmijo.__post_init__", "optimistix/_solver/trust_region.py:_AbstractTrustRegion"]}
{"id": "C56", "title": "root_find with a minimiser minimises the documented objective", "statement": "The documentation promises that root_find(fn, minimiser) minimises sum(fn(y)^2): the scalar objective handed to the minimiser must rank points as sum(fn(y)^2) does.", "quantifier": "all functions, points, norms", "why_tests_cant": "A statement about the order induced on all points.", "anchors": ["optimistix/_root_find.py:root_find", "optimistix/_root_find.py:_to_minimise_fn"]}
{"id": "C57", "title": "Newton/Chord success certifies a small residual", "statement": "If root_find with Newton or Chord reports success then fn at the last evaluated iterate is below atol in the scaled norm and the last update is within tolerance.", "quantifier": "all functions, Jacobians, linear-solver answers, bounds, tolerances, both termination modes", "why_tests_cant": "Needs every trajectory; bounds interact with the stopping rule.", "anchors": ["optimistix/_solver/newton_chord.py:_AbstractNewtonChord.terminate", "optimistix/_solver/newton_chord.py:_AbstractNewtonChord.step"]}
{"id": "C58", "title": "Success of a search-based solver means the last two iterates agree", "statement": "If minimise/least_squares with a gradient-descent, nonlinear-CG, quasi-Newton or Gauss-Newton type solver reports success, then at least two points were compared: the returned value differs from the previously accepted iterate by less than the tolerance, and so do their objective values.", "quantifier": "all functions, gradients/Jacobians, descents, searches, tolerances, budgets", "why_tests_cant": "Needs every trajectory; the stopping test runs inside the accept/reject loop.", "anchors": ["optimistix/_solver/gradient_methods.py:AbstractGradientDescent.step", "optimistix/_solver/quasi_newton.py:AbstractQuasiNewton.step", "optimistix/_solver/gauss_newton.py:AbstractGaussNewton.step"]}
{"id": "C59", "title": "Failures inside a solver are reported", "statement": "If a linear solve made by a descent (Newton, damped Newton, dogleg, indirect), an inner root find, or the search reports failure at some step, that step is the last one and the solve reports that failure (never success).", "quantifier": "all functions, linear solvers, searches, descents, step counts", "why_tests_cant": "A failure may occur at any step of any run, and must not be masked by termination at the same step.", "anchors": ["optimistix/_solver/gauss_newton.py:AbstractGaussNewton.step", "optimistix/_solver/quasi_newton.py:AbstractQuasiNewton.step", "optimistix/_solver/gradient_methods.py:AbstractGradientDescent.step", "optimistix/_solver/levenberg_marquardt.py:IndirectDampedNewtonDescent.step", "optimistix/_solver/dogleg.py:DoglegDescent.step"]}
{"id": "C60", "title": "NelderMead performs the documented simplex moves and its statistics count them", "statement": "Each step after the first replaces exactly the worst vertex by its reflection, expansion, inner or outer contraction through the centroid of the others (chosen by the standard comparison rule), or shrinks the whole simplex towards the best vertex; the statistics count how often each kind of move was made.", "quantifier": "all objectives, simplices, step counts", "why_tests_cant": "Which of the five moves happens, and from which stored data, depends on the whole history.", "anchors": ["optimistix/_solver/nelder_mead.py:NelderMead.step"]}
{"id": "C61", "title": "Newton and Chord converge locally", "statement": "If fn is continuously differentiable near a root with invertible Jacobian (inside the bounds, if any), then from every starting point close enough to the root, root_find with Newton or Chord reduces the error by any prescribed factor at each step and reports success given a large enough (or no) budget, with either kind of termination test; Newton converges quadratically if the Jacobian is Lipschitz.", "quantifier": "all functions, nondegenerate roots, nearby starting points, tolerances, bounds, both termination modes", "why_tests_cant": "Quantifies over a neighbourhood of starting points and over unbounded runs.", "anchors": ["optimistix/_solver/newton_chord.py:_AbstractNewtonChord.step", "optimistix/_solver/newton_chord.py:_AbstractNewtonChord.terminate", "optimistix/_solver/newton_chord.py:Newton", "optimistix/_solver/newton_chord.py:Chord"]}
{"id": "C62", "title": "Backtracking minimisers converge from every starting point and stop by themselves", "statement": "If the objective is bounded below and has a Lipschitz gradient, then minimise with BacktrackingArmijo and search directions that stay related to the gradient (for steepest descent: always) drives the gradient to zero from every starting point, and with positive tolerances reports success after finitely many steps, given a large enough budget or none.", "quantifier": "all objectives bounded below with Lipschitz gradient, starting points, valid backtracking parameters, tolerances, admissible norms, aux", "why_tests_cant": "A statement about infinite runs from all starting points; no finite set of runs can show that no run stalls away from a stationary point.", "anchors": ["optimistix/_solver/backtracking.py:BacktrackingArmijo.step", "optimistix/_solver/gradient_methods.py:AbstractGradientDescent.step", "optimistix/_solver/quasi_newton.py:AbstractQuasiNewton.step", "optimistix/_misc.py:cauchy_termination"]}
{"id": "C63", "title": "BFGS, DFP, L-BFGS and backtracking steepest descent solve every strongly convex problem", "statement": "If the objective is strongly convex with Lipschitz gradient, then minimise with BFGS or DFP (use_inverse either way), L-BFGS (either variant, any history length) or steepest descent, with BacktrackingArmijo, converges from every starting point to the unique minimiser, and with positive tolerances reports success after finitely many steps, given a large enough budget or none.", "quantifier": "all strongly convex objectives with Lipschitz gradient, starting points, backtracking parameters, curvature guards, history lengths, tolerances, admissible norms, aux", "why_tests_cant": "Infinite runs of a method whose matrix depends on the whole history; convergence from every starting point cannot be sampled.", "anchors": ["optimistix/_solver/quasi_newton.py:AbstractQuasiNewton.step", "optimistix/_solver/quasi_newton.py:AbstractBFGS.update_hessian", "optimistix/_solver/quasi_newton.py:AbstractDFP.update_hessian", "optimistix/_solver/limited_memory_bfgs.py:AbstractLBFGS.update_hessian", "optimistix/_solver/backtracking.py:BacktrackingArmijo.step"]}
{"id": "C64", "title": "Levenberg-Marquardt does not get stuck and converges from every starting point", "statement": "At every point where the residuals are differentiable and the gradient of the sum of squares is not zero, least_squares with LevenbergMarquardt, after finitely many rejected trials, moves to a point with a smaller sum of squares. If moreover the Jacobian is bounded and the gradient Lipschitz, the gradients at the iterates tend to zero from every starting point; and if the Jacobian has full column rank uniformly, the solve reports success after finitely many steps, given a large enough budget or none.", "quantifier": "all residual functions as stated, shapes, starting points, points of a run, tolerances, admissible norms, least-squares solvers, aux", "why_tests_cant": "A statement about all points a run may reach and about infinite runs; the number of rejections has no bound over all problems.", "anchors": ["optimistix/_solver/levenberg_marquardt.py:LevenbergMarquardt", "optimistix/_solver/levenberg_marquardt.py:DampedNewtonDescent", "optimistix/_solver/trust_region.py:_AbstractTrustRegion.step", "optimistix/_solver/trust_region.py:ClassicalTrustRegion", "optimistix/_solver/gauss_newton.py:AbstractGaussNewton.step"]}
{"id": "C65", "title": "A successful answer is finite", "statement": "With NaN and infinities possible everywhere (user function, gradients, Jacobians, linear solves, searches, options), a solve by FixedPointIteration, Newton, Chord, Bisection, GoldenSearch, NelderMead, an OptaxMinimiser, a gradient-descent, nonlinear-CG, quasi-Newton or Gauss-Newton type solver, or a BestSoFar wrapper around any solver, that reports success returns a finite value (and, for the search-based solvers, one at which the function's output is finite).", "quantifier": "all functions with values in the extended reals plus NaN, starting points, options, norms that do not hide special values, budgets", "why_tests_cant": "Special values may appear at any step of any run; the driver tests the iterate before the step, so only the solvers' stopping tests protect the returned one.", "anchors": ["optimistix/_iterate.py:_iterate", "optimistix/_misc.py:cauchy_termination", "optimistix/_solver/gradient_methods.py:AbstractGradientDescent.step", "optimistix/_solver/newton_chord.py:_AbstractNewtonChord.terminate", "optimistix/_solver/bisection.py:Bisection.terminate", "optimistix/_solver/golden.py:GoldenSearch.step", "optimistix/_solver/nelder_mead.py:NelderMead.terminate", "optimistix/_solver/optax.py:OptaxMinimiser.step", "optimistix/_solver/best_so_far.py:_AbstractBestSoFarSolver.step"]}
{"id": "C66", "title": "Dogleg does not get stuck and converges from every starting point", "statement": "At every point where the residuals are differentiable, the gradient of the sum of squares is not zero and the Cauchy step is not shorter than machine epsilon, least_squares with Dogleg, after finitely many rejected trials, moves to a point with a smaller sum of squares. If moreover the Jacobian is bounded and has full column rank, uniformly, and the gradient is Lipschitz, then along every run that never divides zero by zero in the crossing formula the gradients at the iterates tend to zero up to a multiple of machine epsilon, from every starting point, and the solve reports success after finitely many steps, given a large enough budget or none.", "quantifier": "all residual functions as stated, shapes, starting points, points of a run, tolerances, admissible norms, exact least-squares solvers, aux", "why_tests_cant": "A statement about all points a run may reach and about infinite runs; the number of rejections has no bound over all problems.", "anchors": ["optimistix/_solver/dogleg.py:DoglegDescent", "optimistix/_solver/dogleg.py:Dogleg", "optimistix/_solver/trust_region.py:_AbstractTrustRegion.step", "optimistix/_solver/trust_region.py:ClassicalTrustRegion", "optimistix/_solver/gauss_newton.py:AbstractGaussNewton.step"]}
{"id": "C67", "title": "The outcome of a solve does not depend on how the numbers are packed into PyTrees", "statement": "Rewriting a problem so that the same unknowns and residuals are arranged in other PyTrees (one array instead of several, another order, shape or container) changes nothing but the arrangement of the answer: the solve returns iff it did before, raises the same error, and otherwise gives the same numbers, result code, auxiliary output and number of steps. This holds for FixedPointIteration, Newton, Chord, GradientDescent, NonlinearCG, BFGS, DFP, L-BFGS (both variants), OptaxMinimiser, GaussNewton, LevenbergMarquardt, IndirectLevenbergMarquardt, Dogleg and the BestSoFar wrappers, whenever the norm, linear solver and optax optimiser do not depend on the packing themselves.", "quantifier": "all problems, bijections between the entries of the two trees of unknowns and of residuals, starting points, options, budgets, aux", "why_tests_cant": "Relates two runs for every problem, every pair of arrangements and any number of steps.", "anchors": ["optimistix/_misc.py:tree_dot", "optimistix/_misc.py:sum_squares", "optimistix/_misc.py:max_norm", "optimistix/_solver/quasi_newton.py:_identity_pytree", "optimistix/_solver/quasi_newton.py:_outer", "optimistix/_solver/quasi_newton.py:AbstractQuasiNewton.step", "optimistix/_solver/gauss_newton.py:AbstractGaussNewton.step", "optimistix/_solver/gradient_methods.py:AbstractGradientDescent.step", "optimistix/_solver/newton_chord.py:_AbstractNewtonChord.step", "optimistix/_solver/fixed_point.py:FixedPointIteration.step"]}
{"id": "C68", "title": "NelderMead treats all packings of its unknowns alike and accepts a simplex given by the user", "statement": "Solving with NelderMead does not depend on how the unknowns are packed into a PyTree, and with options=dict(y0_simplex=True) it accepts exactly the PyTrees that hold d+1 vertices in dimension d.", "quantifier": "all objectives, packings, starting points, deltas, tolerances, norms, budgets; all shapes of user-given simplices", "why_tests_cant": "Relates two runs for every problem and arrangement; shapes of all dimensions.", "anchors": ["optimistix/_solver/nelder_mead.py:NelderMead.init", "optimistix/_solver/nelder_mead.py:NelderMead.step"]}
{"id": "C69", "title": "Trees are handled entry by entry, whatever their containers and array shapes", "statement": "For every PyTree of arrays: the operator BFGS, DFP and L-BFGS start from maps every tree of the same shapes to itself; the outer product of two trees is the operator z -> (y . z) x; adding and scaling such operators leaf by leaf adds and scales what they do; tree_dot is the sum of the products of corresponding entries; tree_full_like keeps structure and shapes and fills every entry; tree_allfinite is true iff every entry of every leaf is finite; tree_where succeeds iff pred is a prefix of two trees of equal structure and shapes, and then selects every subtree by its flag.", "quantifier": "all PyTrees of arrays: any nesting of containers, any number of leaves, any array shapes including scalars and empty arrays, any entries", "why_tests_cant": "Induction over trees of any depth and arrays of any rank and size.", "anchors": ["optimistix/_solver/quasi_newton.py:_identity_pytree", "optimistix/_solver/quasi_newton.py:_outer", "optimistix/_misc.py:tree_full_like", "optimistix/_misc.py:tree_allfinite", "optimistix/_misc.py:tree_where", "optimistix/_misc.py:tree_dot"]}
{"id": "C70", "title": "The inner root find of IndirectDampedNewtonDescent keeps the damping positive and the step close to the trust region", "statement": "With its default root finder (Newton, tolerance 0.01, lower bound 1e-5, at most 32 steps, starting at lambda_0 = 1), IndirectDampedNewtonDescent uses a damping of at least 1e-5 whatever the root find does, and for 0 < step_size < 1 returns the damped step of some damping below 1/eps, not longer than the Newton step, not shorter than step_size*|newton step| unless the damping is the smallest allowed; if the step at damping one is not shorter than that, the returned one is at most ten times that length (or the damping has grown by 1.9^32), and at most 1/0.98 of that length if the root find reports success.", "quantifier": "all Jacobians, residuals, shapes, step sizes in (0,1), exact least-squares solvers, radii some damping can meet; derivatives of the scalar equation computed exactly", "why_tests_cant": "The iterates of the inner Newton method depend on the whole spectrum of the Jacobian; the bound must hold for every problem.", "anchors": ["optimistix/_solver/levenberg_marquardt.py:IndirectDampedNewtonDescent.step", "optimistix/_solver/newton_chord.py:_AbstractNewtonChord.step"]}
{"id": "C71", "title": "IndirectLevenbergMarquardt converges from every starting point", "statement": "For residuals with a bounded, uniformly full-rank Jacobian and a Lipschitz gradient of the sum of squares (Lipschitz constant at most 1e8, condition number not too large for machine epsilon), least_squares with IndirectLevenbergMarquardt and its default root finder has gradients at the iterates that tend to zero, from every starting point, although its inner root find is stopped after at most 32 inexact steps, and reports success after finitely many steps, given a large enough budget or none.", "quantifier": "all residual functions as stated, shapes, starting points, tolerances, admissible norms, exact least-squares solvers, aux", "why_tests_cant": "A statement about infinite runs, from every starting point.", "anchors": ["optimistix/_solver/levenberg_marquardt.py:IndirectLevenbergMarquardt", "optimistix/_solver/levenberg_marquardt.py:IndirectDampedNewtonDescent", "optimistix/_solver/trust_region.py:ClassicalTrustRegion", "optimistix/_solver/gauss_newton.py:AbstractGaussNewton.step"]}
{"id": "C72", "title": "DoglegDescent works with trust regions of any shape", "statement": "With any norm as trust_region_norm and the default root finder, DoglegDescent returns a step for every step_size >= 0, with R = step_size*norm(newton): the Cauchy step shortened to length R if it is longer than that; otherwise the Newton step if step_size >= 1; otherwise a point on the segment from the Cauchy to the Newton step whose length differs from R by at most 0.15% of the length of the segment, with the inner root find always succeeding.", "quantifier": "all seminorms on all spaces of trees, Cauchy and Newton steps (less than 2^200 apart), step sizes >= 0, machine epsilons", "why_tests_cant": "Over all norms and all pairs of steps; the inner bisection must succeed within its 256 steps for every one of them.", "anchors": ["optimistix/_solver/dogleg.py:DoglegDescent.step", "optimistix/_solver/dogleg.py:DoglegDescent.query", "optimistix/_solver/bisection.py:Bisection"]}
{"id": "C73", "title": "Differentiating through the iterates agrees with the derivative of the solution in the limit", "statement": "With adjoint=RecursiveCheckpointAdjoint(), the derivative of fixed_point (FixedPointIteration, 0 <= damp < 1, converging to a fixed point at which the function is contracting) and of root_find (Newton without bounds, converging to a nondegenerate root) with respect to args and y0 is the derivative of the solution, that is, what ImplicitAdjoint computes, up to a relative error that is as small as wanted once the solve takes enough steps, whatever the tolerances, norm, budget and auxiliary output.", "quantifier": "all smooth functions and parameters as stated, differentiable starting points, tolerances, norms, budgets, aux; convergence holds from all starting points near the solution", "why_tests_cant": "A limit over runs of every length and derivatives in every direction.", "anchors": ["optimistix/_adjoint.py:RecursiveCheckpointAdjoint", "optimistix/_iterate.py:_iterate", "optimistix/_solver/fixed_point.py:FixedPointIteration.step", "optimistix/_solver/newton_chord.py:_AbstractNewtonChord.step"]}
{"id": "C74", "title": "Stepping through a solve by hand, as documented, gives the answer of the solve", "statement": "The documented loop (init, then step and terminate until done, then postprocess) ends with the same value, result, auxiliary output, statistics and number of steps as the solve with max_steps=None, raises the same errors, and runs for ever iff the solve does.", "quantifier": "all solvers, functions, starting points, aux", "why_tests_cant": "Two loops compared on runs of every length, including the infinite ones.", "anchors": ["docs/examples/interactive.ipynb", "optimistix/_iterate.py:_iterate", "optimistix/_iterate.py:AbstractIterativeSolver"]}
{"id": "C75", "title": "Repeated solves of one step, as documented, follow the solve", "statement": "Calling the solve again and again with max_steps=1, throw=False, each time from the value returned before (the first alternative the documentation gives for stepping through a solve), visits the points the solve visits.", "quantifier": "all solvers, functions, starting points, numbers of calls", "why_tests_cant": "Any number of calls; what a solver keeps in its state is lost between them.", "anchors": ["docs/examples/interactive.ipynb", "optimistix/_iterate.py:iterative_solve", "optimistix/_solver/gradient_methods.py:AbstractGradientDescent.step", "optimistix/_solver/quasi_newton.py:AbstractQuasiNewton.step", "optimistix/_solver/gauss_newton.py:AbstractGaussNewton.step", "optimistix/_solver/best_so_far.py", "optimistix/_solver/golden.py:GoldenSearch", "optimistix/_solver/bisection.py:Bisection"]}
{"id": "C76", "title": "Which searches and descents can be combined is decided by what the solver knows", "statement": "A user-made gradient-descent, quasi-Newton (BFGS, DFP, L-BFGS; direct or inverse Hessians) or Gauss-Newton type solver with any public search and any public descent is refused with a ValueError before the first step, on every problem, whatever max_steps and throw, if the search or the descent needs something the solver does not compute (ClassicalTrustRegion and the damped and dogleg descents need a Hessian or residuals, NewtonDescent also accepts an inverse Hessian); every other combination is accepted on every problem.", "quantifier": "all pairs of search and descent, all families of solvers, parameters, functions, starting points, budgets, throw", "why_tests_cant": "A table over all combinations, each for all problems; the tests try a few of them on a few problems.", "anchors": ["optimistix/_solver/gradient_methods.py:AbstractGradientDescent.init", "optimistix/_solver/quasi_newton.py:AbstractQuasiNewton.init", "optimistix/_solver/gauss_newton.py:AbstractGaussNewton.init", "optimistix/_solver/trust_region.py:ClassicalTrustRegion.predict_reduction", "optimistix/_solver/gauss_newton.py:newton_step", "optimistix/_solver/levenberg_marquardt.py:DampedNewtonDescent", "optimistix/_solver/dogleg.py:DoglegDescent.query", "docs/api/searches/introduction.md"]}
{"id": "C77", "title": "GaussNewton converges near a solution that is not too curved", "statement": "Near a stationary point r of the sum of squares at which the Jacobian has full column rank, with smallest squared singular value sigma, and at which jac(y)^T F(r) varies by less than q|y-r| with q < sigma (q = 0 if the residuals vanish at r), least_squares with GaussNewton converges to r from every starting point close enough, the error shrinking at each step by any chosen factor c with q/sigma < c < 1 (by every factor if F(r) = 0), and reports success after finitely many steps with a value no farther from r than y0. The condition cannot be dropped.", "quantifier": "all residual functions as stated, shapes, starting points near r, tolerances, admissible norms, linear solvers exact on full-rank systems, budgets, aux", "why_tests_cant": "A limit statement about all nearby starting points and about every smooth residual function.", "anchors": ["optimistix/_solver/gauss_newton.py:GaussNewton", "optimistix/_solver/gauss_newton.py:NewtonDescent", "optimistix/_solver/gauss_newton.py:newton_step", "optimistix/_solver/learning_rate.py:LearningRate"]}
{"id": "C78", "title": "The outcome does not depend on Cartesian coordinates, unused unknowns or vanishing residuals", "statement": "Rotating, reflecting or shifting the coordinates of the unknowns (and rotating those of the residuals), adding unknowns the function ignores, or adding residuals that are always zero does not change the outcome of a solve with the gradient, quasi-Newton and Gauss-Newton type solvers: same error or result code, same number of steps, same aux, and the same answer in the new coordinates, whenever the stopping test gives the same verdict; it does for unused unknowns and vanishing residuals with max_norm and two_norm, and for any coordinates with two_norm and rtol=0.", "quantifier": "all functions, sizes, orthonormal coordinate changes, starting points, tolerances, parameters, budgets, throw, aux", "why_tests_cant": "A relation between two runs of every length for every function and every rotation; floating-point tests cannot compare them exactly.", "anchors": ["optimistix/_solver/gradient_methods.py:AbstractGradientDescent.step", "optimistix/_solver/nonlinear_cg.py:NonlinearCGDescent", "optimistix/_solver/quasi_newton.py:AbstractQuasiNewton.step", "optimistix/_solver/limited_memory_bfgs.py:AbstractLBFGS", "optimistix/_solver/gauss_newton.py:AbstractGaussNewton.step", "optimistix/_solver/levenberg_marquardt.py", "optimistix/_solver/dogleg.py:DoglegDescent", "optimistix/_misc.py:max_norm", "docs/api/norms.md"]}
{"id": "C79", "title": "The outcome of Newton, Chord, Gauss-Newton and fixed-point solves does not depend on units", "statement": "Expressing the unknowns in other units (more generally in other affine coordinates) and, for Newton and Chord, scaling or combining the equations by any invertible matrix (for GaussNewton, rotating the residuals and changing their common unit) does not change the outcome of a solve: same error or result code, same number of steps, same aux, same answer in the new units. The stopping test must not depend on the units either, which is so with atol=0 (and cauchy_termination=False for Newton and Chord); with cauchy_termination=False the way the equations are combined never matters.", "quantifier": "all functions, sizes, invertible coordinate changes, starting points, tolerances, norms, bounds, budgets, throw, aux", "why_tests_cant": "A relation between two runs of every length for every function and every change of units; floating-point tests cannot compare them exactly.", "anchors": ["optimistix/_solver/newton_chord.py:_AbstractNewtonChord.step", "optimistix/_solver/newton_chord.py:_NewtonChord.terminate", "optimistix/_solver/gauss_newton.py:GaussNewton", "optimistix/_solver/fixed_point.py:FixedPointIteration", "optimistix/_misc.py:cauchy_termination"]}
{"id": "C80", "title": "Adding a constant to the objective changes nothing", "statement": "minimise with GradientDescent, NonlinearCG, BFGS, DFP, L-BFGS, or any combination of the library's searches, descents and Hessian approximations, has the same outcome (answer, result code, error, aux, number of steps) on f + a as on f whenever the stopping test on the objective gives the same verdict, in particular always with rtol=0; GoldenSearch and NelderMead have the same outcome on phi(f) for every strictly increasing phi that keeps the verdict of their stopping test, in particular for f + a with rtol=0 and for k*f, k > 0, with atol=0.", "quantifier": "all objectives, constants, increasing transformations as stated, starting points, tolerances, norms, parameters, linear solvers, budgets, throw, aux", "why_tests_cant": "A relation between two runs of every length for every objective.", "anchors": ["optimistix/_solver/gradient_methods.py:AbstractGradientDescent.step", "optimistix/_solver/quasi_newton.py:AbstractQuasiNewton.step", "optimistix/_solver/backtracking.py:BacktrackingArmijo.step", "optimistix/_solver/trust_region.py:_AbstractTrustRegion.step", "optimistix/_solver/golden.py:GoldenSearch.step", "optimistix/_solver/nelder_mead.py:NelderMead.step", "optimistix/_misc.py:cauchy_termination"]}
{"id": "C81", "title": "What verbose shows is the history of the solve", "statement": "verbose accepts booleans and callables only; it changes nothing about the outcome; False shows nothing, True prints one line per step, a callable is called once per step; the reports are those of the steps of the solve, in order, one each: num_steps is the number of steps taken so far, the accepted-step counters count the accepted candidates and the rejections since, the loss and y of this step are the candidate just evaluated and its loss, and the loss and y on the last accepted step are the iterate after this step and its loss.", "quantifier": "all functions, configurations (searches, descents, Hessian approximations, optax optimisers), starting points, numbers of steps, budgets, throw", "why_tests_cant": "A statement about every line of every run; the tests never look at what is printed.", "anchors": ["optimistix/_misc.py:default_verbose", "optimistix/_solver/gauss_newton.py:AbstractGaussNewton.step", "optimistix/_solver/quasi_newton.py:AbstractQuasiNewton.step", "optimistix/_solver/optax.py:OptaxMinimiser.step"]}
{"id": "C82", "title": "The differentiation options choose how derivatives are computed, not what is computed", "statement": "With autodiff_mode unset, 'fwd' or 'bwd', minimise with the gradient and quasi-Newton solvers has the outcome of the solve with the true gradient (the vector whose dot product with a direction is the directional derivative); with jac unset, 'fwd' or 'bwd', least_squares with the Gauss-Newton type solvers has the outcome of the solve with the true Jacobian; hence the outcome does not depend on the option. Every other value of the option raises an error.", "quantifier": "all differentiable functions, options, configurations (searches, descents, Hessian approximations), starting points, budgets, throw, aux", "why_tests_cant": "Equality of two solves for every function; tests compare a few functions to rounding error.", "anchors": ["optimistix/_misc.py:lin_to_grad", "optimistix/_solver/gauss_newton.py:_make_f_info", "optimistix/_solver/gradient_methods.py:AbstractGradientDescent.step", "optimistix/_solver/quasi_newton.py:AbstractQuasiNewton.step"]}
{"id": "C83", "title": "Solvers agree where the methods they implement coincide", "statement": "On a square system with nonsingular Jacobians, GaussNewton takes exactly Newton's steps (after its first step, which only evaluates y0), whatever the tolerances, norms and linear solvers. Chord's first step is Newton's, and on affine functions both have the same outcome. FixedPointIteration(damp) on y - rate*grad f(y) takes the steps of GradientDescent((1-damp)*rate) on f. With one unknown BFGS and DFP hold the secant slope and have the same outcome. NonlinearCG (every method), BFGS and DFP set out from y0 along the negative gradient; NonlinearCG with a method returning zero has the outcome of steepest descent with the same search.", "quantifier": "all functions as stated, sizes, starting points, tolerances, norms, searches accepting the first point, linear solvers exact on nonsingular systems, budgets, throw, aux, numbers of steps", "why_tests_cant": "Equalities between two runs of every length for every function.", "anchors": ["optimistix/_solver/newton_chord.py:Newton", "optimistix/_solver/newton_chord.py:Chord", "optimistix/_solver/gauss_newton.py:GaussNewton", "optimistix/_solver/fixed_point.py:FixedPointIteration", "optimistix/_solver/gradient_methods.py:GradientDescent", "optimistix/_solver/nonlinear_cg.py:NonlinearCGDescent", "optimistix/_solver/quasi_newton.py:AbstractBFGS.update_hessian", "optimistix/_solver/quasi_newton.py:AbstractDFP.update_hessian"]}
{"id": "C84", "title": "A solve depends on the function only at the points it visits", "statement": "If a solve returns a solution, every other function (with its derivatives) that has the same values, aux and derivatives at the points the solve evaluated has the same solution: one evaluation in each step for gradient, quasi-Newton and Gauss-Newton type solvers (gradients at the iterates only), Newton, Chord (Jacobian at y0 only), FixedPointIteration, Bisection and optax optimisers that do not call value_fn. In particular the function need not make sense elsewhere: Bisection and GoldenSearch stay in [lower, upper], Newton and Chord with bounds in the box, FixedPointIteration with 0<=damp<=1 in every convex set the function maps to itself.", "quantifier": "all pairs of functions, configurations, starting points (in the domain), tolerances, budgets, throw, aux", "why_tests_cant": "Quantifies over all functions that agree on a set of points; no test can tell what a solver would have done on another function.", "anchors": ["optimistix/_solver/bisection.py:Bisection.step", "optimistix/_solver/golden.py:GoldenSearch.init", "optimistix/_solver/newton_chord.py:_AbstractNewtonChord.step", "optimistix/_solver/fixed_point.py:FixedPointIteration.step", "optimistix/_solver/gradient_methods.py:AbstractGradientDescent.step", "optimistix/_solver/quasi_newton.py:AbstractQuasiNewton.step", "optimistix/_solver/gauss_newton.py:AbstractGaussNewton.step", "optimistix/_solver/optax.py:OptaxMinimiser.step"]}
{"id": "C85", "title": "Stopping tests mean what they say in floating-point arithmetic", "statement": "With every arithmetic operation rounded: when FixedPointIteration reports success, each entry of the returned value differs from the previous iterate (for damp = 0, the value is the computed fn of it) by less than atol + rtol*|value|, up to explicit relative (a few units in the last place) and absolute (underflow) errors. When Newton or Chord with the Cauchy test report success, every entry of the computed residual at the last point evaluated is below atol and the last step is below atol + rtol*|y| up to such errors. When a search-based solver (gradient, quasi-Newton, Gauss-Newton type) reports success after its first step, neither the value nor any entry of the function moved by more than that in the last step. In particular no success is reported with NaN or infinite values in the tested quantities, unless the tolerance itself overflowed.", "quantifier": "all rounding functions (monotone, odd, accurate up to relative error u and absolute error eta), in particular IEEE binary formats with and without subnormal numbers; all functions, norms dominating the entries, tolerances, starting points, budgets, throw, aux", "why_tests_cant": "Tests run in one format on a few functions; this is about every format, function and rounding pattern.", "anchors": ["optimistix/_misc.py:cauchy_termination", "optimistix/_solver/fixed_point.py:FixedPointIteration.step", "optimistix/_solver/newton_chord.py:_NewtonChord.terminate", "optimistix/_solver/gradient_methods.py:AbstractGradientDescent.step", "optimistix/_solver/quasi_newton.py:AbstractQuasiNewton.step", "optimistix/_solver/gauss_newton.py:AbstractGaussNewton.step"]}
{"id": "C86", "title": "Line searches never accept an increase, in floating-point arithmetic", "statement": "With every arithmetic operation rounded, BacktrackingArmijo never accepts a point where the computed objective is larger than at the last accepted point: the computed objective along the run never increases (after the first step, which only evaluates y0). In formats that flush small numbers to zero it may increase by at most about the smallest normal number. Trust-region searches have the same property at every step for which the computed predicted reduction is not positive.", "quantifier": "all rounding functions as in C85, all objectives, gradients (right or wrong), descents, starting points, slopes in (0,1), numbers of steps", "why_tests_cant": "Rounding could break monotonicity at any step of any run; tests see a few runs.", "anchors": ["optimistix/_solver/backtracking.py:BacktrackingArmijo.step", "optimistix/_solver/trust_region.py:_AbstractTrustRegion.step"]}
{"id": "C87", "title": "Bisection in floating-point arithmetic", "statement": "With every arithmetic operation rounded, and as long as the width of the interval does not overflow: Bisection only evaluates the function inside of the initial interval; the computed function keeps opposite signs at the ends of the current interval; when it reports success, the answer is within the tolerance (up to explicit rounding errors) of a zero of every continuous function whose sign the computed one tells up to eps, and the computed value at the last point evaluated is below atol; it reports success after finitely many steps if the tolerance is larger than the spacing of the numbers and the computed function is continuous enough. If the tolerance is smaller than the spacing of the numbers around the sign change, it never stops.", "quantifier": "all rounding functions as in C85 that halve exactly where they can, all functions, intervals, tolerances, starting points, budgets, expansion and detection options", "why_tests_cant": "Quantifies over every function, interval and rounding pattern; the infinite loop shows up only for tolerances below the resolution.", "anchors": ["optimistix/_solver/bisection.py:Bisection.init", "optimistix/_solver/bisection.py:Bisection.step", "optimistix/_solver/bisection.py:Bisection.terminate"]}
{"id": "C88", "title": "Derivatives of every order through a solve are right, forwards and backwards", "statement": "Differentiate, any number of times and along any directions, a program that runs root_find, fixed_point, minimise or least_squares with the default ImplicitAdjoint and computes something from the answer and the inputs: the result is the derivative of that order of the same program with the exact branch of solutions in place of the solver. jax.grad of a scalar loss computed from the answer is the gradient of the loss along the branch. Inputs other than args and the arrays fn closes over (y0, options, solver) have derivative zero through the solve. As the answer of the solver gets better, the derivatives of every order converge to the true ones.", "quantifier": "all problems that are smooth enough and have an invertible Jacobian (Hessian) at the solution, all programs, numbers of derivatives, directions, inputs with and without tangents, exact linear solvers", "why_tests_cant": "Tests compare a few first derivatives with finite differences; here all orders, directions and programs are covered.", "anchors": ["optimistix/_ad.py:_implicit_impl_jvp", "optimistix/_ad.py:implicit_jvp", "optimistix/_adjoint.py:ImplicitAdjoint", "optimistix/_root_find.py:_rewrite_fn", "optimistix/_fixed_point.py:_rewrite_fn", "optimistix/_minimise.py:_rewrite_fn", "optimistix/_least_squares.py:_rewrite_fn"]}
{"id": "C89", "title": "Fixed-point iteration tolerates rounding errors", "statement": "In floating-point arithmetic, on a function that is computed with error eps from a contraction with factor q: with FixedPointIteration, with or without damping, the iterates stay finite and their distance to the fixed point is at most the one of exact arithmetic plus a fixed multiple of the error of one step, however many steps are made; on success the answer is within (r * tolerance + error) / (1 - r) of the fixed point; if atol is above a fixed multiple of the error, the solve succeeds, within the number of steps the contraction needs. If atol is below the error the solve need not stop at all.", "quantifier": "all floating-point formats with their overflow and underflow, all functions computed with bounded error from a local contraction, dampings, norms, tolerances, starting points, budgets", "why_tests_cant": "The bound has to hold for every sequence of rounding errors, of any length; a test sees one.", "anchors": ["optimistix/_solver/fixed_point.py:FixedPointIteration", "optimistix/_misc.py:max_norm", "optimistix/_iterate.py:iterative_solve"]}
{"id": "C90", "title": "Line searches keep away from points where the objective is infinite or undefined", "statement": "Let the objective be NaN or +inf outside of some region (a logarithm, a barrier, a simulation that fails). If it is a number at y0, then a minimiser or least-squares solver with BacktrackingArmijo never moves to, and never returns, a point where the objective, as computed, is NaN or +inf; trust regions neither, unless the predicted change overflows to +inf. If a trial point is outside, backtracking comes back: after finitely many rejections a point inside is accepted, with a smaller objective, provided that the objective is defined for short steps and has the computed slope. From a y0 where the objective is NaN the solver never moves and never claims success. With a fixed learning rate there is no such guarantee.", "quantifier": "all objectives with values in the numbers, infinities and NaN, floating-point formats, search-based solvers, descent directions, tolerances, starting points, numbers of steps", "why_tests_cant": "Where the region ends and which trial points are outside differs from problem to problem; a test sees one.", "anchors": ["optimistix/_solver/backtracking.py:BacktrackingArmijo", "optimistix/_solver/trust_region.py:_AbstractTrustRegion", "optimistix/_solver/gradient_methods.py:AbstractGradientDescent", "optimistix/_solver/quasi_newton.py:AbstractQuasiNewton", "optimistix/_solver/gauss_newton.py:AbstractGaussNewton", "optimistix/_solver/learning_rate.py:LearningRate"]}
{"id": "C91", "title": "A solve that starts at a solution returns it", "statement": "If y0 is already a solution - the gradient vanishes (minimise, least_squares), fn(y0) = 0 (root_find), fn(y0) = y0 (fixed_point) - then the solve succeeds within two steps and returns exactly y0 and the aux of fn at y0: for GradientDescent, NonlinearCG (all methods and searches), BFGS, DFP and LBFGS in both representations, OptaxMinimiser with optimisers that do not move without a gradient, GaussNewton, Dogleg and IndirectLevenbergMarquardt where the Jacobian has full column rank, LevenbergMarquardt whatever the rank, also inside of root_find, Newton and Chord with the root within the bounds, and FixedPointIteration with every damping (one step). In particular warm-starting with a previous answer is free and does not perturb it.", "quantifier": "all functions with their derivatives, solutions y0 (for minimisers: minima, saddles and maxima alike), sizes, tolerances, norms, dampings, histories, exact linear solvers, budgets of at least two steps, throw, aux", "why_tests_cant": "Holds for every function and every stationary point; tests start at a few.", "anchors": ["optimistix/_solver/gradient_methods.py:AbstractGradientDescent", "optimistix/_solver/nonlinear_cg.py:NonlinearCG", "optimistix/_solver/quasi_newton.py:AbstractQuasiNewton", "optimistix/_solver/limited_memory_bfgs.py:LBFGS", "optimistix/_solver/optax.py:OptaxMinimiser", "optimistix/_solver/gauss_newton.py:GaussNewton", "optimistix/_solver/levenberg_marquardt.py:LevenbergMarquardt", "optimistix/_solver/dogleg.py:Dogleg", "optimistix/_solver/newton_chord.py:Newton", "optimistix/_solver/fixed_point.py:FixedPointIteration", "optimistix/_misc.py:cauchy_termination"]}
{"id": "C92", "title": "Complex unknowns are solved as pairs of real numbers", "statement": "Running FixedPointIteration, Newton, Chord, GaussNewton, LevenbergMarquardt or IndirectLevenbergMarquardt on a problem with complex unknowns (and, except for FixedPointIteration, a holomorphic function) produces at every step the complex numbers whose real and imaginary parts the same solver produces on the real problem in real and imaginary parts. With stopping tests that agree (absolute tolerance and two_norm) the whole outcomes agree: answer, result code, number of steps, aux, and non-termination. With max_norm the stopping tests differ, moduli against parts. A success of FixedPointIteration, or of Newton and Chord with Cauchy termination, certifies the answer to the tolerance in modulus.", "quantifier": "all complex functions and Jacobians, starting points, sizes, tolerances, dampings, exact linear solvers, budgets, throw, aux; for Newton and Chord: Jacobians invertible along the trajectory", "why_tests_cant": "Holds for every complex function; the tests have one complex fixed-point problem and one complex root-finding problem.", "anchors": ["optimistix/_iterate.py:iterative_solve", "optimistix/_solver/fixed_point.py:FixedPointIteration", "optimistix/_solver/newton_chord.py:Newton", "optimistix/_solver/newton_chord.py:Chord", "optimistix/_solver/gauss_newton.py:GaussNewton", "optimistix/_solver/levenberg_marquardt.py:LevenbergMarquardt", "optimistix/_solver/trust_region.py:ClassicalTrustRegion", "optimistix/_misc.py:cauchy_termination"]}
{"id": "C93", "title": "Minimising over complex unknowns goes downhill", "statement": "Minimising a real objective of complex unknowns by gradients does what the same solver does in real and imaginary parts; in particular the directional derivative the library computes is the derivative, and steps along the negative gradient decrease the objective. FALSE of the code, which uses the gradient in JAX's convention (the conjugate of the direction of steepest ascent) as a direction: GradientDescent on |z|^2 multiplies imaginary parts by 1 + 2 eta at every step and never ends, the Cauchy step of Dogleg can increase the objective, and the last (skipped) assertion of the library's own test of compute_grad_dot does not hold. What is true: compute_grad is JAX's gradient of the objective, compute_grad_dot the dot product with it, and on data that happens to be real complex GradientDescent does what the real one does.", "quantifier": "all residual functions with complex Jacobians, directions, learning rates, tolerances, norms; for the real-data part all objectives, gradients, starting points, budgets, aux", "why_tests_cant": "The library's test is skipped with 'TODO: figure out what is going on here'; the identities hold for all inputs and the divergence is a statement about infinitely many steps.", "anchors": ["optimistix/_search.py:FunctionInfo.ResidualJac.compute_grad", "optimistix/_search.py:FunctionInfo.ResidualJac.compute_grad_dot", "optimistix/_solver/gradient_methods.py:GradientDescent", "optimistix/_solver/gradient_methods.py:SteepestDescent", "optimistix/_solver/dogleg.py:DoglegDescent", "optimistix/_misc.py:lin_to_grad"]}
{"id": "C94", "title": "Comparison-based solvers depend only on comparisons", "statement": "Bisection looks only at the sign of the function (with interval expansion: also at the order of its values at the two ends), GoldenSearch and NelderMead only at the order of the objective's values. If two functions cannot be told apart in this way (for example an objective and an increasing transformation of it), the solver produces at every step the same iterate, aux, interval or simplex and statistics on both. If in addition the stopping tests agree, the outcomes are equal: answer, result code, number of steps, aux, errors, non-termination. Nothing is assumed about the functions (continuity, unimodality); for NelderMead the values may be real or +inf.", "quantifier": "all pairs of functions with the same signs (order), solver configurations, intervals, sizes, simplices, starting points, aux, budgets, throw", "why_tests_cant": "Holds for every pair of functions and every step.", "anchors": ["optimistix/_solver/bisection.py:Bisection", "optimistix/_solver/golden.py:GoldenSearch", "optimistix/_solver/nelder_mead.py:NelderMead"]}
{"id": "C95", "title": "Rate of convergence and accuracy of GradientDescent on convex problems", "statement": "With a learning rate eta <= 1/L on an L-smooth objective f: (a) if f is convex then after n >= 2 steps, whatever the outcome of the solve, f(answer) - f(x) <= |y0 - x|^2/(2 eta (n-1)) for every x; (b) if f is mu-strongly convex then |answer - x*|^2 <= (1 - eta mu)^(n-1) |y0 - x*|^2; (c) then also success (default norm) means that eta mu |answer - x*| is at most the Euclidean norm of the tolerances atol + rtol |answer_i|; (d) if f is bounded below by m then N + 2 steps are enough for success when f(y0) - m < N min(atol^2/(2 eta), atol), also for non-convex f.", "quantifier": "all such objectives, gradients, sizes, starting points, learning rates, tolerances, budgets, throw, aux", "why_tests_cant": "A rate is a statement about every objective in the class and every number of steps.", "anchors": ["optimistix/_solver/gradient_methods.py:GradientDescent", "optimistix/_solver/learning_rate.py:LearningRate", "optimistix/_misc.py:cauchy_termination"]}
{"id": "C96", "title": "Derivatives taken at an approximate solution are off by at most a multiple of its error", "statement": "Implicit differentiation linearises at the value the solver returned, not at the true solution, and solves a linear system with a solver that may be inexact. For root_find, fixed_point, minimise and least_squares, near a nondegenerate solution of a smooth problem, the tangent that comes out differs from the true derivative of the solution map applied to the input tangent v by at most C (|value - solution| + eta) |v|, for a constant C that depends only on the problem, where eta is the relative error of the linear solver. It holds whatever solver produced the value.", "quantifier": "all smooth problems with a nondegenerate solution, parameter and solution spaces, returned values near the solution, input tangents, approximate linear solvers", "why_tests_cant": "Tests compare gradients at a few converged solutions; the constant must work for every value near the solution and every linear solver.", "anchors": ["optimistix/_adjoint.py:ImplicitAdjoint", "optimistix/_ad.py:implicit_jvp", "optimistix/_root_find.py:root_find", "optimistix/_fixed_point.py:fixed_point", "optimistix/_minimise.py:minimise", "optimistix/_least_squares.py:least_squares"]}
{"id": "C97", "title": "Newton and Chord tolerate errors in the function, the Jacobian and the linear solves", "statement": "If near a nondegenerate root of a smooth function the values are computed with an absolute error of at most beta, the Jacobian with an error of at most gamma and linear systems with a relative residual of at most eta (gamma and eta small enough compared with the condition of the root), then from every starting point close enough every step of Newton and Chord reduces the error by a constant factor c < 1 up to a multiple B of beta, all iterates satisfy |y_k - root| <= c^k |y_0 - root| + B/(1-c), Cauchy termination succeeds within some number of steps when atol is larger than a multiple of beta, and a successful answer is within c * 2K(atol + beta) + B of the root. Bounds lower/upper may be set if they contain the root.", "quantifier": "all smooth functions with a nondegenerate root, sizes, computed functions, Jacobians and linear solvers with such errors, starting points near the root, bounds, tolerances, budgets, throw", "why_tests_cant": "Rounding and iterative linear solves produce unforeseeable errors; the bound must hold for every one of them.", "anchors": ["optimistix/_solver/newton_chord.py:Newton", "optimistix/_solver/newton_chord.py:Chord", "optimistix/_misc.py:cauchy_termination"]}
{"id": "C98", "title": "Near an exact fit the trust-region least-squares solvers converge superlinearly", "statement": "If residuals can be made to vanish at a point r where the Jacobian is continuous and has full column rank, then LevenbergMarquardt, IndirectLevenbergMarquardt and Dogleg, started close enough to r, reduce the distance to r at every step by a constant factor, converge to r superlinearly (every factor is beaten from some step on) and report success within some number of steps. If the linearisation error is quadratic, the new error is at most C (error + mu_k) error, where mu_k = 0 for Dogleg and IndirectLevenbergMarquardt (quadratic convergence) and mu_k = 3.5^-k for LevenbergMarquardt.", "quantifier": "all residual functions with a nondegenerate exact fit, sizes, starting points close enough to it, full-rank linear solvers, norms, tolerances, budgets, throw", "why_tests_cant": "A rate of convergence is a statement about the infinite sequence of iterates from every starting point in a neighbourhood, including the trust-region bookkeeping that must never reject.", "anchors": ["optimistix/_solver/levenberg_marquardt.py:LevenbergMarquardt", "optimistix/_solver/levenberg_marquardt.py:IndirectLevenbergMarquardt", "optimistix/_solver/dogleg.py:Dogleg", "optimistix/_solver/trust_region.py:ClassicalTrustRegion", "optimistix/_solver/gauss_newton.py:AbstractGaussNewton"]}
{"id": "C99", "title": "Rates of convergence of backtracking minimisers on strongly convex problems", "statement": "On a strongly convex objective with Lipschitz gradient, the error of the objective (and the squared distance to the minimiser) in a backtracking solve shrinks geometrically: for steepest descent with an explicit factor every q steps, where the factor and q depend only on the line-search parameters and the two curvature bounds, and the solve succeeds within an explicit number of steps; for BFGS, DFP and both forms of L-BFGS with some factor and q.", "quantifier": "all objectives with Lipschitz gradient and positive curvature, sizes, starting points, line-search parameters, tolerances, norms, budgets, throw, history lengths", "why_tests_cant": "A rate is a bound on the whole infinite sequence of iterates, for every objective in a class.", "anchors": ["optimistix/_solver/backtracking.py:BacktrackingArmijo", "optimistix/_solver/gradient_methods.py:AbstractGradientDescent", "optimistix/_solver/quasi_newton.py:AbstractQuasiNewton", "optimistix/_solver/limited_memory_bfgs.py:AbstractLBFGS"]}
{"id": "C100", "title": "Quasi-Newton solvers learn the curvature, whatever the units of the objective", "statement": "BFGS, DFP and L-BFGS are expected to learn the curvature of a smooth strongly convex objective, so that they converge superlinearly and do not degenerate to steepest descent when the objective is multiplied by a constant. This is false: the curvature guard compares with the fixed number finfo.eps, so on objectives that start close to their minimum (relative to eps) all three take exactly the steps of backtracking steepest descent, and for every factor theta < 1 a small enough multiple of any objective makes every step of BFGS reduce the squared distance to the minimiser by at most theta. What holds: if the error of the starting point is an eigenvector of a quadratic objective, then after the first step that passes the guard the next iterate is the minimiser.", "quantifier": "all strongly convex objectives with Lipschitz gradient, sizes, starting points, scales, line-search parameters, tolerances, norms, both forms of the matrices, history lengths", "why_tests_cant": "A claim about the whole sequence of iterates at every scale of the objective; a test sees only one scale, usually of order one.", "anchors": ["optimistix/_solver/quasi_newton.py:AbstractBFGS.update_hessian", "optimistix/_solver/quasi_newton.py:AbstractDFP.update_hessian", "optimistix/_solver/limited_memory_bfgs.py:AbstractLBFGS.update_hessian"]}
{"id": "C101", "title": "NelderMead reports success only near a minimum of a strongly convex objective", "statement": "A successful NelderMead solve of a smooth strongly convex problem is expected to end near the minimum. This is false, at every tolerance: from every starting point of two scalars with a non-degenerate initial simplex, and for every gap > 0, there is a strongly convex objective with Lipschitz gradient whose value at the starting point exceeds the minimum by gap, such that the solver stops, reports success and returns the starting point unchanged. What holds: at success no vertex is better than the best vertex b, b is within tolerance of the returned point, and the slope of the objective at b along every edge of the final simplex is at least -L/2 times the squared length of the edge and below the tolerance.", "quantifier": "all starting points, initial simplex parameters, gaps, tolerances, norms, step budgets", "why_tests_cant": "The failure depends on an infinite sequence of inner contractions on a specially shaped objective; tests on standard problems do not meet it, and no finite set of objectives shows what success guarantees.", "anchors": ["optimistix/_solver/nelder_mead.py:NelderMead.step", "optimistix/_solver/nelder_mead.py:NelderMead.terminate", "optimistix/_solver/nelder_mead.py:NelderMead.init", "optimistix/_minimise.py:minimise"]}
{"id": "C102", "title": "Damping makes fixed-point iteration converge on non-expansive and on steep maps", "statement": "With 0 < damp < 1 FixedPointIteration converges from every starting point to a fixed point of every map that does not increase Euclidean distances and has a fixed point: the iterates never get further from any fixed point, the squared update in step k+1 is at most (1-damp)/damp |y0-p|^2/(k+1), and the solve stops with success within every number of steps for which this is within tolerance. Maps with one-sided Lipschitz constant m < 1 and any Lipschitz constant L converge geometrically when (1-damp)(L^2-2m+1) < 2(1-m). Without damping this fails: on fn(y) = -y the solver never stops unless 2|y0| is within tolerance.", "quantifier": "all maps of these kinds, sizes, dampings, starting points, tolerances, norms, step budgets", "why_tests_cant": "A statement about limits of infinite sequences and step counts over all non-expansive maps.", "anchors": ["optimistix/_solver/fixed_point.py:FixedPointIteration.step", "optimistix/_solver/fixed_point.py:FixedPointIteration.terminate", "optimistix/_fixed_point.py:fixed_point"]}
{"id": "C103", "title": "Newton converges from every starting point on convex systems with inverse-positive Jacobians", "statement": "Let fn be continuously differentiable with convex components and Jacobians whose inverses are nonnegative (in one unknown: convex with positive derivative), with a root r. From every y0, without bounds, the iterates of Newton after the first lie above r and decrease entry by entry to r, and with Cauchy termination the solve stops and reports success for every large enough budget. Chord does the same from every y0 with fn(y0) >= 0 if the Jacobians are isotone. Without convexity this fails: on x^3-2x+2 from 0 Newton alternates between 0 and 1, so a solve without budget never returns and any budget is used up.", "quantifier": "all such systems, numbers of unknowns, starting points (near or far), tolerances, norms, budgets", "why_tests_cant": "Global convergence is a statement about infinite sequences from every starting point; a finite set of solves cannot tell it from convergence in a neighbourhood.", "anchors": ["optimistix/_solver/newton_chord.py:Newton", "optimistix/_solver/newton_chord.py:Chord", "optimistix/_solver/newton_chord.py:_AbstractNewtonChord.terminate", "optimistix/_root_find.py:root_find"]}
{"id": "C104", "title": "The derivative through a successful solve is as accurate as its tolerances", "statement": "Whenever a solve reports success, the derivative that implicit differentiation computes at its answer differs from the derivative of the exact solution by at most a constant (depending on the problem, not on y0, the budget or the tolerances) times atol + rtol |value| plus the relative residual of the linear solve, as soon as the tolerances are small enough: fixed_point with FixedPointIteration (any damping up to d0 < 1) on contractions, root_find with Newton or Chord (Cauchy termination, with or without bounds) and with Bisection on functions that expand distances, minimise with GradientDescent, or with steepest descent and BacktrackingArmijo, on strongly convex smooth objectives, root_find with LevenbergMarquardt, IndirectLevenbergMarquardt or Dogleg on well conditioned equations, least_squares with LevenbergMarquardt or GaussNewton (in more than one step) where the gradient of the sum of squares is well conditioned.", "quantifier": "all such problems, arguments, starting points, tolerances below a threshold, budgets, solves that report success, tangents, linear solvers", "why_tests_cant": "It relates every run of an iterative method to a derivative of a function that is only defined implicitly, with one constant for all runs.", "anchors": ["optimistix/_ad.py:_implicit_impl_jvp", "optimistix/_adjoint.py:ImplicitAdjoint", "optimistix/_solver/fixed_point.py:FixedPointIteration", "optimistix/_solver/newton_chord.py:Newton", "optimistix/_solver/newton_chord.py:Chord", "optimistix/_solver/bisection.py:Bisection", "optimistix/_solver/gradient_methods.py:GradientDescent", "optimistix/_solver/levenberg_marquardt.py:LevenbergMarquardt", "optimistix/_solver/levenberg_marquardt.py:IndirectLevenbergMarquardt", "optimistix/_solver/dogleg.py:Dogleg", "optimistix/_solver/gauss_newton.py:GaussNewton", "optimistix/_solver/backtracking.py:BacktrackingArmijo"]}
{"id": "C105", "title": "No failure is invented", "statement": "A solve ends with success, by using up its step budget, because the point its last step started from is not finite, or with a failure of the solver's own. FixedPointIteration, Bisection, GoldenSearch, OptaxMinimiser, GradientDescent, NonlinearCG and the quasi-Newton solvers with use_inverse=True have no failures of their own. Newton, Chord, GaussNewton, LevenbergMarquardt, IndirectLevenbergMarquardt, Dogleg and the quasi-Newton solvers with use_inverse=False only pass on what the linear solver reports for the last iterate (Dogleg with another norm: also what its inner root find reports; Newton and Chord without Cauchy termination: also divergence, after two steps). NelderMead only reports divergence, and only if the objective is infinite at every vertex. The best-so-far wrappers add nothing.", "quantifier": "all functions, starting points, configurations, linear solvers, searches of the library, budgets", "why_tests_cant": "It excludes an outcome for every run of every solver; tests can only fail to observe it.", "anchors": ["optimistix/_iterate.py:iterative_solve", "optimistix/_solution.py:RESULTS", "optimistix/_solver/nonlinear_cg.py:NonlinearCGDescent", "optimistix/_solver/gauss_newton.py:newton_step", "optimistix/_solver/dogleg.py:DoglegDescent", "optimistix/_solver/levenberg_marquardt.py:damped_newton_step", "optimistix/_solver/newton_chord.py:Newton", "optimistix/_solver/nelder_mead.py:NelderMead"]}
{"id": "C106", "title": "Whatever a solver keeps in its state comes through a solve unharmed", "statement": "Solver states may mix arrays with things that are not arrays (functions, traced programs, strings). The driver carries the arrays through its loop and everything else outside of it. This is invisible: for every solver whose non-array part does not change, the solve is exactly the one in which the whole state is passed from step to step, and a step that changes the non-array part is rejected with an error rather than silently ignored. Splitting a tree and putting it together again gives the tree back, wrapping and unwrapping traced programs gives the tree back, a conditional on such trees is the selected branch, and the statistics returned are those of the driver together with those of the solver, the solver's winning where names clash.", "quantifier": "all solvers, trees of any size, states, numbers of steps, functions", "why_tests_cant": "It is a statement about every state tree and every run; a test fixes one solver with one state.", "anchors": ["optimistix/_iterate.py:iterative_solve", "optimistix/_iterate.py:_iterate", "optimistix/_misc.py:filter_cond", "optimistix/_misc.py:wrap_jaxpr", "optimistix/_misc.py:unwrap_jaxpr"]}
{"id": "C107", "title": "Normalised descents take steps of the requested length", "statement": "SteepestDescent(norm) and NewtonDescent(norm) document that the returned step has length step_size with respect to the norm. This holds, with the right direction, wherever the gradient (Newton step) has non-zero norm; at a stationary point it fails: the step is NaN. Consequences for gradient descent with such a descent and a constant learning rate, whatever the objective does (NaNs and infinities included): success at v implies learning_rate < atol + rtol*max|v|, so a learning rate of at least atol (rtol = 0) can never succeed; and a solve started exactly at a stationary point, a minimum say, ends with nonfinite.", "quantifier": "all norms (max, rms, two and any homogeneous monotone one), gradients, step sizes, objectives, starts, tolerances, budgets", "why_tests_cant": "The length must be right for every gradient, and the outcome claims range over all objectives and runs.", "anchors": ["optimistix/_solver/gradient_methods.py:SteepestDescent", "optimistix/_solver/gauss_newton.py:NewtonDescent", "optimistix/_solver/gradient_methods.py:AbstractGradientDescent", "optimistix/_solver/learning_rate.py:LearningRate"]}
{"id": "C108", "title": "How small gradients get within a budget, and how large a learning rate may be", "statement": "Objectives need not be convex here. On an objective with L-Lipschitz gradient that is bounded below by m, gradient descent with 0 < learning_rate < 2/L visits, within any n >= 2 steps, a point with |grad|^2 <= (f(y0)-m)/(c (n-1)), c = learning_rate (1 - learning_rate L/2), and returns a point no worse than y0. Steepest descent with backtracking visits, within the first q N steps, a point with |grad|^2 <= (f(y0)-m)/(N slope t), t the smallest step the search can be forced to and q the number of trials after which that step is reached; the objective never increases. The limit 2/L is sharp: on L/2 x^2 with a learning rate of 2/L or more, no solve from a start at least atol away from the minimum ever succeeds (rtol <= 1), and the distance to the minimum is multiplied by learning_rate L - 1 at every step.", "quantifier": "all smooth objectives bounded below, starting points, tolerances, norms, numbers of steps, learning rates, Armijo parameters", "why_tests_cant": "The bounds hold for every number of steps and every objective of the class; a test sees one run on one objective.", "anchors": ["optimistix/_solver/gradient_methods.py:GradientDescent", "optimistix/_solver/gradient_methods.py:AbstractGradientDescent", "optimistix/_solver/backtracking.py:BacktrackingArmijo", "optimistix/_solver/learning_rate.py:LearningRate"]}
{"id": "C109", "title": "Minimisation with a trust-region search never increases the objective", "statement": "A trust-region search takes a trial point only if the objective falls by at least a fraction of the fall the model predicts. Users rely on the consequence: along the iterates the objective never goes up, and the value returned is not above the value at the start. This holds, for every objective, start and budget, for gradient descent (with or without a norm for the direction) and nonlinear CG with LinearTrustRegion, for Newton steps (with or without a norm) from the BFGS, DFP and L-BFGS approximations with LinearTrustRegion, and for DoglegDescent, DampedNewtonDescent and IndirectDampedNewtonDescent with either trust region: in all these the predicted change cannot be positive. It fails for NewtonDescent with ClassicalTrustRegion: after the radius has grown beyond two, the quadratic model predicts an increase for the overlong step, and the test accepts every increase that is at most low_cutoff times the predicted one.", "quantifier": "all objectives, gradients, starts, budgets, solvers of the gradient and quasi-Newton families, constants of the search", "why_tests_cant": "The predicted change must have the right sign at every iterate of every run; a test sees the runs it makes.", "anchors": ["optimistix/_solver/trust_region.py:_AbstractTrustRegion.step", "optimistix/_solver/trust_region.py:ClassicalTrustRegion", "optimistix/_solver/trust_region.py:LinearTrustRegion", "optimistix/_solver/gradient_methods.py:AbstractGradientDescent", "optimistix/_solver/quasi_newton.py:AbstractQuasiNewton"]}
{"id": "C110", "title": "Gradient descent with a trust-region search converges from everywhere", "statement": "For every objective that is bounded below and has a Lipschitz gradient, gradient descent with LinearTrustRegion has gradients that tend to zero from every start; the step size never falls below a bound that depends only on the Lipschitz constant and the constants of the search, trial points keep being taken, and the objective does not increase. If moreover 2*mu*(f - min) <= |grad f|^2, as for strongly convex objectives, the solve stops and reports success with every sufficiently large budget, and with none.", "quantifier": "all such objectives, dimensions, starts, constants of the search with 0<low_cutoff<1, low_constant<1<=high_constant, tolerances, budgets", "why_tests_cant": "Convergence is a statement about infinite runs for a class of objectives.", "anchors": ["optimistix/_solver/trust_region.py:LinearTrustRegion", "optimistix/_solver/gradient_methods.py:AbstractGradientDescent", "optimistix/_solver/gradient_methods.py:SteepestDescent"]}
{"id": "C111", "title": "Trust-region solvers see a small gradient after a bounded number of steps", "statement": "The number of steps until an iterate with gradient norm at most delta is seen is bounded, for every start, by a constant times (f(start) - inf f) / delta^2, plus a number that grows like the logarithm of the Lipschitz constant, rejected trials included. For gradient descent with LinearTrustRegion the constant is explicit in the Lipschitz constant of the gradient and the constants of the search; for LevenbergMarquardt with its default search it is explicit in the bound on the Jacobian and the Lipschitz constant of J^T r; for Dogleg and IndirectLevenbergMarquardt, with Jacobians of full rank, also in the smallest singular value. So a budget can be chosen beforehand.", "quantifier": "all objectives bounded below with Lipschitz gradient, all residual functions with bounded Jacobian and Lipschitz J^T r, starts, thresholds, constants of the search", "why_tests_cant": "A bound on the worst case over all objectives of a class; a test times the objectives it has.", "anchors": ["optimistix/_solver/trust_region.py:_AbstractTrustRegion.step", "optimistix/_solver/trust_region.py:LinearTrustRegion", "optimistix/_solver/trust_region.py:ClassicalTrustRegion", "optimistix/_solver/levenberg_marquardt.py:LevenbergMarquardt", "optimistix/_solver/gradient_methods.py:AbstractGradientDescent"]}
{"id": "C112", "title": "A condition at the starting point guarantees that Newton and Chord find a root", "statement": "If at the starting point the inverse of the Jacobian is bounded by beta, the first Newton step has length at most eta, the Jacobian is K-Lipschitz within distance 2*eta, and beta*K*eta <= 1/2 (Newton-Kantorovich), then there is exactly one root within distance 2*eta of the start; Newton stays within this distance, converges to the root with error at most 2*eta/2^k*(2*beta*K*eta)^(2^k-1) after k steps, and, with Cauchy termination, returns successfully a point within 2*eta/2^num_steps of the root. If beta*K*eta < 1/2, Chord converges to a root there too, with factor 2*beta*K*eta per step, and succeeds. If the inverse is bounded by beta on the whole ball of radius rho, with theta = beta^2 K |f(y0)| / 2 < 1 and beta |f(y0)| <= (1 - theta) rho, the residuals of Newton fall like theta^(2^k - 1), bounds that contain the ball change nothing, and success is reported within k + 1 steps as soon as these bounds are below the tolerance, also with cauchy_termination=False (if theta (atol + rtol (|y0| + rho)) <= 2 atol); likewise for Chord with theta = beta K rho and theta^k. The bound 1/2 is the best possible: beyond it there are functions without any root, and on these no successful result is reported.", "quantifier": "all systems of equations and starting points satisfying the condition, all tolerances, budgets and dimensions; for the sharpness all values above 1/2", "why_tests_cant": "A guarantee for every system satisfying a quantitative condition, including that a root exists; a test knows the root of the system it uses.", "anchors": ["optimistix/_solver/newton_chord.py:AbstractNewtonChord.step", "optimistix/_solver/newton_chord.py:AbstractNewtonChord.terminate", "optimistix/_solver/newton_chord.py:Newton", "optimistix/_solver/newton_chord.py:Chord"]}
{"id": "C113", "title": "Tightening the tolerances only prolongs a solve", "statement": "A solver with smaller rtol and atol (or a larger norm) visits the same points as the original and never stops earlier: for every budget it raises the same errors at initialisation; whenever it succeeds the original succeeds in at most as many steps; when the original fails it fails in the same way, at the same step with the same value, aux and statistics; and the answer of the original is what the stricter solver returns when its max_steps is the number of steps the original took. This holds for every minimiser, least-squares solver, root finder and fixed-point solver, any search and descent, the BestSoFar wrappers, and root finding through other solvers. With cauchy_termination=False, Newton and Chord need both tolerances to be multiplied by the same factor: making rtol alone smaller can turn a solve that goes on into a reported divergence.", "quantifier": "all functions, starting points, budgets (also None), pairs of tolerances and monotone norms, and all solvers with any search and descent", "why_tests_cant": "A relation between two runs of different configurations on every problem, step by step; tests compare a solve with a known answer, for one configuration.", "anchors": ["optimistix/_misc.py:cauchy_termination", "optimistix/_iterate.py:iterative_solve", "optimistix/_solver/newton_chord.py:AbstractNewtonChord.terminate", "optimistix/_solver/nelder_mead.py:NelderMead.terminate", "optimistix/_solver/bisection.py:Bisection.terminate", "optimistix/_root_find.py:_ToRoot"]}
{"id": "C114", "title": "What a successful result says about the gradient", "statement": "The stopping test compares the last two points and their objective values, not the gradient. Still, if the gradient is L-Lipschitz, a successful result bounds the gradient at the returned point by a constant times the vector of tolerances (atol + rtol*|value|), whatever the function, starting point and number of steps: the constant is 1/learning_rate + L for GradientDescent, 1/(smallest step backtracking can make) + L for steepest descent with BacktrackingArmijo, 1/(smallest radius) + L with LinearTrustRegion, B + L for GaussNewton and B + 4(L+1) + L for LevenbergMarquardt (B bounding J^T J, solves of more than one step). For strongly convex objectives this is an error bound for the answer. The dependence on L cannot be removed: for all tolerances, however small, there is a strongly convex quadratic on which backtracking steepest descent, BFGS and DFP report success at distance at least 3/4 from the minimiser.", "quantifier": "all objectives and residuals with Lipschitz gradients, starting points, budgets, tolerances, norms dominating the entries, and all search parameters the constructors accept", "why_tests_cant": "A bound at the returned point for every smooth function and every number of steps, and a family of counterexamples indexed by the tolerance; tests check the error on a fixed collection of problems.", "anchors": ["optimistix/_misc.py:cauchy_termination", "optimistix/_solver/gradient_methods.py:AbstractGradientDescent.step", "optimistix/_solver/backtracking.py:BacktrackingArmijo", "optimistix/_solver/trust_region.py:LinearTrustRegion", "optimistix/_solver/gauss_newton.py:GaussNewton", "optimistix/_solver/levenberg_marquardt.py:LevenbergMarquardt", "optimistix/_solver/quasi_newton.py:BFGS"]}
{"id": "C115", "title": "Problems without bad stationary points are solved globally", "statement": "If the gradient is L-Lipschitz and its squared length is everywhere at least 2*mu times the height of the objective above its greatest lower bound m (no convexity, no unique minimiser and not even the existence of a minimiser is assumed), then from every starting point: GradientDescent with rate at most 1/L reduces the height by the factor 1 - rate*mu per step; steepest descent with BacktrackingArmijo by a fixed factor every q trials; with LinearTrustRegion by a fixed factor per accepted trial, with at most r*a+q rejected trials while a are accepted. A global minimiser exists, the iterates converge to one, and the squared distance still to go is at all times bounded by a multiple of the height. The solve stops by itself with success (for the two searches), and the value of a successful result is within a multiple of the squared tolerances of the global minimum.", "quantifier": "all objectives satisfying the Polyak-Lojasiewicz inequality, convex or not, starting points, tolerances, budgets, good norms and all search parameters the constructors accept", "why_tests_cant": "Global convergence on a class of functions with a rate for every number of steps; tests run a fixed collection of problems from fixed starting points.", "anchors": ["optimistix/_solver/gradient_methods.py:GradientDescent", "optimistix/_solver/gradient_methods.py:AbstractGradientDescent.step", "optimistix/_solver/backtracking.py:BacktrackingArmijo", "optimistix/_solver/trust_region.py:LinearTrustRegion", "optimistix/_minimise.py:minimise"]}
{"id": "C116", "title": "Root finding with LevenbergMarquardt from every starting point", "statement": "Suppose the Jacobian of the equations is K-Lipschitz and maps onto the residuals uniformly, |J^T v|^2 >= mu |v|^2 (square or underdetermined systems; the Jacobian may be unbounded). Then root_find with LevenbergMarquardt, from every starting point with |f(y0)| <= R: a root exists, the iterates converge to one, the squared residual falls by a fixed factor with every accepted trial, at most a+q trials are rejected while a are accepted, and the squared distance to the root is at all times at most a fixed multiple of the squared residual. root_find stops by itself and reports success with every sufficiently large budget and with none; and whenever it reports success, a true root lies within a fixed multiple of atol of the value returned.", "quantifier": "all systems with Lipschitz and uniformly onto Jacobian, starting points, tolerances, budgets, norms, exact least-squares solvers, machine epsilon below 1/(4(K*R+1)) and largest number above K*R", "why_tests_cant": "Global convergence and existence of the root for a class of nonlinear systems, from every start and for every number of steps.", "anchors": ["optimistix/_root_find.py:root_find", "optimistix/_root_find.py:_ToRoot", "optimistix/_solver/levenberg_marquardt.py:LevenbergMarquardt", "optimistix/_solver/levenberg_marquardt.py:DampedNewtonDescent", "optimistix/_solver/trust_region.py:ClassicalTrustRegion", "optimistix/_solver/gauss_newton.py:AbstractGaussNewton.step"]}
{"id": "C117", "title": "True promises about matrix structure change nothing", "statement": "The tags argument lets the caller promise structure (diagonal, triangular, symmetric, definite, ...) of the matrix named in the documentation of each entry point. If the promises are true, and the linear solver answers correctly whenever the promises made to it are true and the matrix is invertible, then promises do not change results: root_find with Newton, Chord, GaussNewton and Dogleg behaves exactly as without them, and the implicit derivatives of root_find, fixed_point, minimise and least_squares are the derivatives of the solution. The promises the library itself makes (positive semidefinite quasi-Newton operators, and their damped versions) are true after every step of every run.", "quantifier": "all functions, starting points, tolerances, budgets, lists of promises true of the documented matrix, and linear solvers that are right when told the truth (with arbitrary behaviour otherwise)", "why_tests_cant": "Quantifies over all linear solvers that meet a contract and over all promises; a test runs one solver that may happen to ignore the promise.", "anchors": ["optimistix/_root_find.py:root_find", "optimistix/_least_squares.py:least_squares", "optimistix/_fixed_point.py:fixed_point", "optimistix/_minimise.py:minimise", "optimistix/_ad.py:_implicit_impl_jvp", "optimistix/_solver/newton_chord.py:_AbstractNewtonChord.step", "optimistix/_solver/gauss_newton.py:_make_f_info", "optimistix/_solver/quasi_newton.py:AbstractBFGS.update_hessian", "optimistix/_solver/limited_memory_bfgs.py:AbstractLBFGS.update_hessian"]}
{"id": "C118", "title": "Fixed points of order-preserving functions", "statement": "If the function preserves the componentwise order and y0 <= fn(y0), then FixedPointIteration with any damping in [0,1) only moves up and never passes a point b above y0 with fn(b) <= b. Whatever fixed_point returns (success or failure) lies above y0 and below every fixed point above y0. Together with a second solve from above it encloses all fixed points in between. If such a b exists the iterates converge, the limit is the least fixed point above y0 if fn is continuous there, and the solve succeeds within N steps whenever the sum of the gaps b - y0 is below N*atol, with no continuity or contraction assumed.", "quantifier": "all order-preserving functions (continuous or not), starting points with y0 <= fn(y0) (or >=), dampings in [0,1), tolerances, budgets and norms dominated by the maximum norm", "why_tests_cant": "A statement for every order-preserving function and number of steps, including discontinuous functions and functions with infinitely many fixed points.", "anchors": ["optimistix/_fixed_point.py:fixed_point", "optimistix/_solver/fixed_point.py:FixedPointIteration"]}
{"id": "C119", "title": "NelderMead and points where the objective is undefined", "statement": "A point at which the objective is NaN is worse than every point with a value: minimise with NelderMead does not take it into its simplex and goes on with the points it has. FALSE of the code: when the reflected vertex has the value NaN, all comparisons are false, so it replaces the worst vertex, no contraction is tried and the simplex is not shrunk; if lax.top_k ranks NaN first the solve then ends with nonlinear_divergence and may return a point worse than y0. What is true: success is only reported when the values at all vertices are finite; for objectives that are never NaN (numbers and +inf) the ranking of NaN is irrelevant; and an objective that returns +inf instead of NaN is handled as claimed: from a simplex with finite values a step takes a vertex with a finite value or shrinks the simplex.", "quantifier": "all objectives with values in the numbers, +-inf and NaN, simplices, sizes, norms, tolerances, budgets, steps of a run, and all ways lax.top_k may rank NaN", "why_tests_cant": "Where an objective is undefined depends on the problem, and how NaN is ranked on the platform; a test sees one of each.", "anchors": ["optimistix/_solver/nelder_mead.py:NelderMead.step", "optimistix/_solver/nelder_mead.py:NelderMead.terminate"]}
{"id": "C120", "title": "A successful root find has a true root nearby", "statement": "When root_find (with Newton, Chord, a least-squares solver or a minimiser) or fixed_point reports success, and wherever the residual is within tolerance the functions are differentiable with a Jacobian J that is onto (|J^T v|^2 >= mu |v|^2) in a ball of radius rho with sqrt(n) tol < sqrt(mu) rho, then a true root (fixed point) exists, and it lies within sqrt(n) tol / sqrt(mu) of the answer: of the value returned for LevenbergMarquardt, IndirectLevenbergMarquardt and Dogleg, and of the point last stepped from otherwise, from which the value returned differs by less than the tolerance for Newton, Chord and FixedPointIteration. Without regularity nothing of the kind holds: success is reported although there is no root at all.", "quantifier": "all systems of equations with such Jacobians, starting points, tolerances, norms bounding the entries, solvers of the kinds named, budgets and runs that report success", "why_tests_cant": "Existence of a root near an approximate one is a statement about the reals; a test can only look at the residual, which is small by construction.", "anchors": ["optimistix/_root_find.py:root_find", "optimistix/_fixed_point.py:fixed_point", "optimistix/_solver/newton_chord.py", "optimistix/_solver/levenberg_marquardt.py", "optimistix/_solver/dogleg.py", "optimistix/_solver/fixed_point.py"]}
{"id": "C121", "title": "root_find with Dogleg converges from every starting point", "statement": "On systems of as many equations as unknowns whose Jacobian is Lipschitz and has all singular values between two positive bounds, root_find with Dogleg reports success from every starting point, with every sufficiently large max_steps and with none; the residual decreases geometrically along the run, at an explicit rate, down to the level of the machine-epsilon guard in the Cauchy step; and every iterate has a true root at a distance bounded by its residual. If the residual at the start is small enough, every step is the full Newton step, is accepted, at least halves the residual, and convergence is quadratic. (Runs that meet the degenerate crossing of C42, where the code computes 0/0, are excluded; near a root there are none.)", "quantifier": "all such systems, starting points, positive tolerances, monotone homogeneous norms, exact least-squares linear solvers, budgets", "why_tests_cant": "It is a statement about all systems in an infinite class and about the limit of infinitely many steps.", "anchors": ["optimistix/_root_find.py:root_find", "optimistix/_solver/dogleg.py:Dogleg", "optimistix/_solver/trust_region.py:ClassicalTrustRegion", "optimistix/_solver/gauss_newton.py:AbstractGaussNewton.step"]}
{"id": "C122", "title": "Moving a problem or drawing it to another scale moves or scales the answer of the solvers without derivatives", "statement": "If a problem is moved and drawn to another scale (the starting point, interval, displacements of the initial simplex and absolute tolerance with it; relative tolerances only for changes of scale), Bisection and NelderMead return the old answer moved and scaled, with the same result code, aux and number of steps, or raise the same error; with Bisection so does the mirror image of a problem. NelderMead takes the same course, vertex by vertex, after any affine change of the coordinates and any strictly increasing change of the values. GoldenSearch is promised to do the same.", "quantifier": "all functions, intervals and starting points, scales c > 0, shifts, tolerances, budgets; for the course of NelderMead all affine maps and strictly increasing changes of the values, all initial simplices", "why_tests_cant": "A test compares a few problems with a few copies; the claim is about every function and every placement, and the two runs must agree in every comparison.", "anchors": ["optimistix/_solver/bisection.py:Bisection", "optimistix/_solver/golden.py:GoldenSearch", "optimistix/_solver/nelder_mead.py:NelderMead"]}
{"id": "C123", "title": "In finite arithmetic a solve ends after a bounded number of steps or goes round in a circle", "statement": "If a solver can only be in finitely many situations (as every solver is that computes with numbers of a fixed number of bits), a solve without max_steps ends after at most as many steps as there are situations, or never, and then its iterates repeat periodically from some step on. A max_steps of that size is as good as none, and a solve that exhausts it would never have ended.", "quantifier": "all solvers with finitely many situations, functions, starting points; for floating-point numbers all binary formats (with and without gradual underflow), with FixedPointIteration, Newton, Chord and Bisection on any number of unknowns", "why_tests_cant": "No test can wait for a solve that never ends, nor tell one that never ends from one that takes long.", "anchors": ["optimistix/_iterate.py:iterative_solve", "optimistix/_solver/fixed_point.py:FixedPointIteration", "optimistix/_solver/newton_chord.py:Newton", "optimistix/_solver/newton_chord.py:Chord", "optimistix/_solver/bisection.py:Bisection"]}
{"id": "C124", "title": "GradientDescent tolerates errors in the objective and its gradient", "statement": "On a smooth strongly convex objective whose gradient is only computed within eps and whose values are only computed within eps_f (by anything bounded: rounding, truncation, inconsistent differentiation), GradientDescent with a learning rate up to 1/L still approaches the true minimiser geometrically down to a distance of 2 eps / mu, a reported success still certifies a distance (tolerance / rate + eps) / mu + rate eps, and success is reported after a known number of steps if the tolerance exceeds the noise. With a tolerance below the noise it may never be.", "quantifier": "all L-smooth mu-strongly convex objectives on any number of unknowns, all bounded errors, learning rates up to 1/L, starting points, tolerances, budgets", "why_tests_cant": "A test fixes one objective and one pattern of errors; the errors of rounding depend on the machine and the compiler.", "anchors": ["optimistix/_solver/gradient_methods.py:GradientDescent", "optimistix/_solver/gradient_methods.py:AbstractGradientDescent.step", "optimistix/_misc.py:cauchy_termination"]}
{"id": "C125", "title": "Independent problems can be solved together", "statement": "Packing two independent problems into one PyTree does not change what FixedPointIteration, Newton, Chord, GaussNewton and GradientDescent do to either: after every number of steps the iterate of the combined problem consists of the iterates of the two problems. With the default norm (and, for Newton and Chord, the Cauchy criterion) the combined solve stops exactly when both stopping tests hold, so if it succeeds then each problem succeeds alone in no more steps with the same budget; for functions that do not increase distances, iterated with an absolute tolerance, it takes exactly as many steps as the slower of the two.", "quantifier": "all pairs of problems of any sizes, tolerances, damping, bounds, budgets; regular (full-rank) Jacobians at the points met, exact linear solves; for GradientDescent the iterates only (its test looks at the change of the sum)", "why_tests_cant": "A test fixes two problems; the claim is about all pairs and every number of steps.", "anchors": ["optimistix/_solver/fixed_point.py:FixedPointIteration", "optimistix/_solver/newton_chord.py:Newton", "optimistix/_solver/newton_chord.py:Chord", "optimistix/_solver/gauss_newton.py:GaussNewton", "optimistix/_solver/gradient_methods.py:GradientDescent", "optimistix/_misc.py:max_norm", "optimistix/_misc.py:cauchy_termination"]}
{"id": "C126", "title": "Root finding with IndirectLevenbergMarquardt converges from every starting point", "statement": "For square systems with a Lipschitz Jacobian that is uniformly invertible, root_find with IndirectLevenbergMarquardt (default trust region and default root finder for the damping) reduces the residual geometrically from every starting point, with an explicit bound on the number of rejected trials, and finishes successfully with every large enough budget and with none. Every iterate has a true root within a distance bounded by its residual. If the starting residual is small (at most mu/K), every step is the full Newton step and the residual converges to zero quadratically.", "quantifier": "all systems with Jacobian bounded above and below and Lipschitz with constant K, all starting points with K |f(y0)| up to 1e8 and conditioning within the precision, tolerances, good norms, budgets; exact linear solves", "why_tests_cant": "A test fixes a system and a starting point; global convergence is a statement about all of them and about unboundedly many steps.", "anchors": ["optimistix/_solver/levenberg_marquardt.py:IndirectLevenbergMarquardt", "optimistix/_solver/levenberg_marquardt.py:IndirectDampedNewtonDescent", "optimistix/_solver/trust_region.py:ClassicalTrustRegion", "optimistix/_root_find.py:root_find", "optimistix/_root_find.py:_ToRoot"]}
{"id": "C127", "title": "Least-squares solvers with a line search converge from every starting point", "statement": "A least-squares solver that combines BacktrackingArmijo with search directions that stay related to the gradient drives the gradient of the sum of squares to zero from every starting point and reports success after finitely many steps, given a large enough budget or none, if the Jacobian is bounded and the gradient Lipschitz. For SteepestDescent nothing else is needed, for NewtonDescent (damped Gauss-Newton) uniformly full column rank. root_find with damped Gauss-Newton succeeds from every starting point on square systems with a Lipschitz, uniformly invertible Jacobian; with step_init 1 and slope below one half it takes full Newton steps near a root and converges quadratically, while with slope above one half it turns down the full Newton step everywhere.", "quantifier": "all residual functions as stated, shapes, starting points, valid backtracking parameters, tolerances, good norms, budgets, aux; exact least-squares solves", "why_tests_cant": "A test fixes a problem and a starting point; global convergence is a statement about all of them and about unboundedly many steps.", "anchors": ["optimistix/_solver/gauss_newton.py:AbstractGaussNewton", "optimistix/_solver/gauss_newton.py:NewtonDescent", "optimistix/_solver/gradient_methods.py:SteepestDescent", "optimistix/_solver/backtracking.py:BacktrackingArmijo", "optimistix/_root_find.py:root_find"]}
{"id": "C128", "title": "Newton with warm starts follows a branch of solutions for ever", "statement": "A sequence of problems f_n(y) = 0 with roots r_n that move by at most delta from one problem to the next is solved one after the other with Newton, each root_find being started at the answer of the previous one. If near the roots the Jacobians are bounded by M, Lipschitz with constant K and have inverses bounded by beta, and 2 beta^2 K M (beta atol + delta) <= 1, then every one of the infinitely many solves succeeds, each within N + 1 steps where N >= 1 only has to satisfy max(1, beta) (1/4)^(2^N - 1) M (beta atol + delta) < atol, and every answer is within beta atol of r_n: errors do not accumulate and the solver does not change to another branch. Bounds that contain the neighbourhoods change nothing.", "quantifier": "all sequences of functions, Jacobians and roots as stated, all starting points within beta atol + delta of the first root, tolerances, budgets of at least N + 1 steps, aux; exact linear solves, cauchy_termination=True, max_norm", "why_tests_cant": "A test follows one branch for finitely many solves; that errors never accumulate is a statement about all sequences of problems, of any length.", "anchors": ["optimistix/_solver/newton_chord.py:Newton", "optimistix/_root_find.py:root_find", "optimistix/_solution.py:Solution"]}
{"id": "C129", "title": "Errors in function values do little harm to solvers that compare values", "statement": "Let the function handed to the solver differ from the function that is meant by at most eps at every point, with no regularity of the error. (a) If a Bisection root_find succeeds, then within half its tolerance of the answer the true (continuous) function is at most eps in magnitude; if it leaves zero at rate m at least, the true root is within eps/m plus half the tolerance; and if 2 eps < atol the solve does succeed. (b) Minimisers with a backtracking line search return a point whose true objective exceeds that of y0 by at most 2 eps, whatever gradients they use; least-squares solvers with backtracking, LevenbergMarquardt and Dogleg return a point whose true residual norm exceeds that of y0 by at most 2 eps. (c) BestSoFarMinimiser returns a point whose true objective is at most 2 eps above that of every point stepped from. (d) If NelderMead succeeds, the true values at the vertices of its simplex agree within tolerance plus 2 eps. (e) Steepest descent with backtracking and true gradients on an L-smooth objective gets within a known number of steps to a gradient with squared norm at most 4 eps / ((1 - slope) t), t being the smallest step size it ever tries; below that nothing is promised: one value that is too small by eps can make it reject every trial for ever, so that the solve ends only by max_steps. (f) GoldenSearch on [0, upper], for a true objective that rises from its minimiser at least like mu/2 (t - x)^2: on success the answer is as near to the minimiser as without errors, or within 2 phi^3 sqrt(eps/mu); it succeeds if 2 eps < atol.", "quantifier": "all true functions, all errors bounded by eps, all solver settings, starting points, tolerances, budgets, numbers of unknowns; for (e) all L-smooth objectives bounded below", "why_tests_cant": "The error is an arbitrary bounded function, such as rounding produces; a test samples a few errors.", "anchors": ["optimistix/_solver/bisection.py:Bisection", "optimistix/_solver/backtracking.py:BacktrackingArmijo", "optimistix/_solver/trust_region.py:ClassicalTrustRegion", "optimistix/_solver/best_so_far.py:BestSoFarMinimiser", "optimistix/_solver/nelder_mead.py:NelderMead"]}
{"id": "C130", "title": "Solves inside solves: inner tolerances add up to outer errors", "statement": "Let the function handed to an outer solve call fixed_point with FixedPointIteration (atol tau, rtol 0, max_norm, any damping in [0,1), any starting points, which may depend on the parameters) on maps that contract at rate q < 1 for every value of the parameters, and let the outer solve see the inner answers through a function with slope at most Lambda. With r = (1 - damp) q + damp and delta = r/(1-r) tau: (a) the inner solves succeed and their answers are within delta of the fixed points. (b) Derivatives of the inner answers, computed through the default adjoint at those answers with linear solves of relative residual eta, differ from the derivatives of the fixed points by at most an explicit multiple of delta plus eta, the same for all parameters. (c) An outer GradientDescent on a smooth strongly convex true objective, fed with the inexact values and gradients, converges at its usual rate up to 2 eps/mu, eps being the resulting error of the gradients; if the outer tolerance is above these errors the outer solve succeeds, and its answer is within the outer tolerance plus the inner errors of the true optimum. (d) An outer Bisection succeeds if the inner errors are less than half its atol, and its answer is within Lambda delta over the slope plus half its tolerance of the true root.", "quantifier": "all contraction families with bounded and Lipschitz derivatives, all outer functions with bounded and Lipschitz derivatives, all inner and outer settings, starting points and budgets, numbers of inner and outer unknowns, all linear solvers with a relative residual bound", "why_tests_cant": "Every outer evaluation is itself a loop; errors of the inner loops depend on the history of the outer one, and a test sees a few of these combinations.", "anchors": ["optimistix/_fixed_point.py:fixed_point", "optimistix/_solver/fixed_point.py:FixedPointIteration", "optimistix/_adjoint.py:ImplicitAdjoint", "optimistix/_ad.py:implicit_jvp", "optimistix/_solver/gradient_methods.py:GradientDescent", "optimistix/_solver/bisection.py:Bisection"]}
{"id": "C131", "title": "Solves do not drift along directions the problem ignores", "statement": "If moving the unknowns along a direction c changes neither the function nor its aux (redundant parameters, a gauge freedom, a rank-deficient linear problem), then every answer returned by minimise with GradientDescent, NonlinearCG (all four formulas), BFGS, DFP (both forms) or L-BFGS, and by least_squares with GaussNewton, LevenbergMarquardt, IndirectLevenbergMarquardt or Dogleg, successful or not, has the same component along c as the starting point. In particular on linear least squares with infinitely many solutions an answer that solves the problem is the solution nearest to the starting point. FixedPointIteration keeps every linear total that the map keeps, whatever the damping. That the gradient and Jacobian also ignore c follows from the function doing so.", "quantifier": "all problems, ignored directions, starting points, norms, tolerances, step budgets, search settings and history lengths; linear solvers that return the smallest least-squares solution (GaussNewton, Dogleg, undamped part of the indirect solver), or are exact on the full-rank systems of the others", "why_tests_cant": "Which of infinitely many solutions is returned depends on the whole history of steps; a test sees one problem and one starting point.", "anchors": ["optimistix/_solver/gradient_methods.py:AbstractGradientDescent", "optimistix/_solver/nonlinear_cg.py:NonlinearCG", "optimistix/_solver/quasi_newton.py:AbstractQuasiNewton", "optimistix/_solver/limited_memory_bfgs.py:AbstractLBFGS", "optimistix/_solver/gauss_newton.py:AbstractGaussNewton", "optimistix/_solver/levenberg_marquardt.py:LevenbergMarquardt", "optimistix/_solver/dogleg.py:Dogleg", "optimistix/_solver/fixed_point.py:FixedPointIteration"]}
{"id": "C132", "title": "A symmetric problem started symmetrically has a symmetric answer", "statement": "Let a rigid motion of the unknowns (exchange of interchangeable unknowns, reflection, rotation, translation) leave the objective and its aux unchanged, or turn the residuals into each other, and let the starting point be a fixed point of the motion. Then so is every answer, successful or not, of minimise with GradientDescent, NonlinearCG, BFGS, DFP or L-BFGS and of least_squares with GaussNewton, LevenbergMarquardt, IndirectLevenbergMarquardt or Dogleg; so interchangeable unknowns which start equal stay equal, whatever the tolerances and norms (which need not be symmetric). For Newton, Chord (without bounds, regular Jacobians) and FixedPointIteration the same holds for every affine map that commutes with the problem, invertible or not. That derivatives have the symmetry follows from the function having it.", "quantifier": "all symmetric problems, motions, symmetric starting points, norms, tolerances, budgets and search settings; exact linear solvers", "why_tests_cant": "Symmetry of the answer has to survive every step of a history of unknown length and any stopping test.", "anchors": ["optimistix/_solver/gradient_methods.py:AbstractGradientDescent", "optimistix/_solver/nonlinear_cg.py:NonlinearCG", "optimistix/_solver/quasi_newton.py:AbstractQuasiNewton", "optimistix/_solver/limited_memory_bfgs.py:AbstractLBFGS", "optimistix/_solver/gauss_newton.py:AbstractGaussNewton", "optimistix/_solver/newton_chord.py:Newton", "optimistix/_solver/fixed_point.py:FixedPointIteration"]}
{"id": "C133", "title": "GaussNewton tolerates errors in the residuals, the Jacobian and the linear solves", "statement": "Let r be a stationary point of the sum of squares of F at which the Jacobian has full column rank and the residuals are not too curved (as in C77), and suppose that near r the residuals are computed with an error of at most beta, the Jacobian with an error of at most gamma, and linear least-squares problems up to a relative residual eta of the normal equations, gamma and eta being small enough for the rate c < 1. Then from every starting point close enough every step of least_squares with GaussNewton reduces the distance to r by the factor c up to a constant B, which is a multiple of beta plus a multiple of gamma |F(r)|; all iterates satisfy |y_k - r| <= c^k |y_0 - r| + B/(1-c); the solve reports success within some number of steps when atol is larger than an explicit multiple of the errors; and the answer of a successful solve of more than one step is within (c (n+1) T + B)/(1-c) of r, n being the number of unknowns and T the tolerance atol + rtol |y|.", "quantifier": "all residual functions, solutions, error bounds, computed residuals and Jacobians (not related to each other), linear solvers, tolerances, starting points close enough and budgets", "why_tests_cant": "Rounding and truncation errors differ from call to call and are not known; tests see one realisation of them, and no test can tell how far from the solution an accumulation of errors may leave the answer.", "anchors": ["optimistix/_solver/gauss_newton.py:GaussNewton", "optimistix/_solver/gauss_newton.py:newton_step", "optimistix/_solver/gauss_newton.py:AbstractGaussNewton", "optimistix/_misc.py:cauchy_termination"]}
{"id": "C134", "title": "Successful answers are determined by the problem, up to the tolerances", "statement": "Let the equations F = 0 be well conditioned: |F(x) - F(y)| >= mu |x - y| (as for y - g(y) with a contraction g, or the gradient of a strongly convex function). Then the answers of any two successful solves agree up to (eps + eps' + beta)/mu + tau + tau', whatever the two solvers, their settings, starting points and budgets, and even if the second one solved another problem, at most beta away from F; and each is within eps/mu + tau of the solution. Here eps and tau are explicit multiples of the tolerances of the solver concerned: root_find with Newton, Chord, Bisection, LevenbergMarquardt, IndirectLevenbergMarquardt and Dogleg, fixed_point with FixedPointIteration, minimise with gradient descent (fixed step or backtracking), least_squares with GaussNewton and LevenbergMarquardt.", "quantifier": "all well conditioned problems, pairs of nearby problems, pairs of solvers with their settings, starting points, budgets and tolerances", "why_tests_cant": "Tests compare solvers on particular problems; that no pair of successful runs can disagree by more than the tolerances allow is a statement about all runs.", "anchors": ["optimistix/_root_find.py:root_find", "optimistix/_fixed_point.py:fixed_point", "optimistix/_minimise.py:minimise", "optimistix/_least_squares.py:least_squares", "optimistix/_solver/newton_chord.py:_AbstractNewtonChord", "optimistix/_solver/bisection.py:Bisection", "optimistix/_solver/fixed_point.py:FixedPointIteration", "optimistix/_root_find.py:_ToRoot"]}
{"id": "C135", "title": "Least squares with a minimiser solves the fit", "statement": "least_squares accepts minimisers. (a) If the residuals can be moved independently of each other (uniformly independent rows of the Jacobian, so at least as many unknowns as residuals) and Jacobian-transpose times residual is Lipschitz, then from every starting point GradientDescent with rate at most 1/L, and steepest descent with BacktrackingArmijo or LinearTrustRegion, converge to a point where every residual is zero, with explicit rates for the sum of squares and the distance still to go; the two searches stop by themselves with success; and a successful answer has a sum of squared residuals of at most a multiple of the squared tolerances. (b) For linear residuals My - b with independent columns, BFGS, DFP (use_inverse either way), L-BFGS (either variant, every history length) and steepest descent, with BacktrackingArmijo, converge from every starting point to the one best fit, and report success after finitely many steps.", "quantifier": "all residual functions of these classes with aux, starting points, tolerances, budgets, good norms and search parameters the constructors accept", "why_tests_cant": "Global convergence, with a rate, on classes of problems through the conversion between two entry points; tests run single fits.", "anchors": ["optimistix/_least_squares.py:least_squares", "optimistix/_least_squares.py:_ToMinimiseFn", "optimistix/_minimise.py:minimise", "optimistix/_solver/gradient_methods.py:AbstractGradientDescent", "optimistix/_solver/quasi_newton.py:AbstractQuasiNewton"]}
{"id": "C136", "title": "Bounds that contain the root do Newton no harm on convex problems", "statement": "A solve with Newton or Chord that would stay inside given bounds anyway is unchanged, entry for entry of its solution, by giving the bounds. On a convex system with inverse-positive Jacobians (in one unknown: a convex increasing function), lower bounds that the root satisfies change nothing about a Newton solve from any starting point, and neither do upper bounds that the starting point satisfies if the function is nonnegative there; in one unknown Newton with any bounds that contain the root converges to it from every starting point, inside or outside the bounds, and reports success after finitely many steps. Where the function is not increasing this is false: with bounds that contain a root, Newton can stay at one of them for ever (and says so when its budget is used up).", "quantifier": "all such functions, starting points, bounds, tolerances, budgets; all solves for the first part", "why_tests_cant": "Whether a bound interferes depends on every iterate of the run, and convergence is about all starting points.", "anchors": ["optimistix/_solver/newton_chord.py:_AbstractNewtonChord", "optimistix/_solver/newton_chord.py:Newton", "optimistix/_solver/newton_chord.py:Chord", "optimistix/_root_find.py:root_find"]}
{"id": "C137", "title": "fixed_point with the least-squares solvers finds the fixed points of contractions", "statement": "If the function shrinks Euclidean distances by a factor c < 1 and its Jacobian is Lipschitz, then it has exactly one fixed point, and from every starting point fixed_point with LevenbergMarquardt, IndirectLevenbergMarquardt or Dogleg (at a tolerance above the level of its guard, and away from its degenerate crossings) stops by itself, with every sufficiently large budget and with none, reports success, and returns a point at most sqrt(n) atol / (1 - c) from the fixed point.", "quantifier": "all such functions with aux, starting points, structures of y, tolerances, good norms that dominate the entries, budgets, exact linear solvers", "why_tests_cant": "Global convergence through two conversions between entry points (fixed point to root to least squares); tests run single problems.", "anchors": ["optimistix/_fixed_point.py:fixed_point", "optimistix/_root_find.py:root_find", "optimistix/_fixed_point.py:_ToRootFn", "optimistix/_root_find.py:_ToRoot", "optimistix/_solver/levenberg_marquardt.py:LevenbergMarquardt", "optimistix/_solver/levenberg_marquardt.py:IndirectLevenbergMarquardt", "optimistix/_solver/dogleg.py:Dogleg"]}
{"id": "C138", "title": "The BestSoFar wrappers keep the guarantees of the solvers they wrap", "statement": "fixed_point with BestSoFarFixedPoint(FixedPointIteration) on a contraction (factor q < 1 in the default norm, any damping in [0, 1)) succeeds whenever the budget is large enough, and a successful answer y satisfies (1 - damp)(1 - q)|y_i - y*_i| <= the Euclidean length of the tolerances atol + rtol |v|, where v is what FixedPointIteration alone would return. root_find with BestSoFarRootFinder(Newton or Chord) and the Cauchy criterion: a successful answer itself (not only the point before it) has residuals of Euclidean length at most sqrt(n) atol. minimise with BestSoFarMinimiser(GradientDescent): with a learning rate of at most 1/L success comes within the same bound on the number of steps as without the wrapper, and on strongly convex objectives a successful answer is, for every learning rate, as close to the minimiser and to the minimum as the tolerances promise. In all three cases the aux is that of the answer.", "quantifier": "all such functions with aux, starting points, tolerances, dampings, learning rates, budgets, Jacobians and linear solvers", "why_tests_cant": "Bounds over a class of functions, for a wrapper that returns another point than the one the wrapped solver tested; tests compare single runs.", "anchors": ["optimistix/_solver/best_so_far.py:_AbstractBestSoFarSolver", "optimistix/_solver/best_so_far.py:BestSoFarMinimiser", "optimistix/_solver/best_so_far.py:BestSoFarRootFinder", "optimistix/_solver/best_so_far.py:BestSoFarFixedPoint", "optimistix/_solver/fixed_point.py:FixedPointIteration", "optimistix/_solver/newton_chord.py:Newton", "optimistix/_solver/gradient_methods.py:GradientDescent"]}
{"id": "C139", "title": "The eigenvalues decide whether FixedPointIteration converges", "statement": "On an affine map with matrix G and a fixed point, FixedPointIteration converges to the fixed point from every starting point if and only if |(1 - damp) z + damp| < 1 for every (real or complex) eigenvalue z of G; it then stops by itself, with every sufficiently large budget and with none, and reports success. The same condition on the eigenvalues of the Jacobian at a fixed point of any map that is strictly differentiable there gives convergence and success from all nearby starting points. If some power of the damped map is a contraction, there is exactly one fixed point and the solve converges to it and succeeds from everywhere, although the map itself need not contract in any of the norms a user would try.", "quantifier": "all such functions with aux, starting points, dampings other than 1, tolerances with atol > 0, good norms, budgets", "why_tests_cant": "Asymptotic behaviour for all starting points and all maps of a class, including the necessity of the condition; tests iterate single maps.", "anchors": ["optimistix/_fixed_point.py:fixed_point", "optimistix/_solver/fixed_point.py:FixedPointIteration"]}
{"id": "C140", "title": "The eigenvalues of the Hessian decide which learning rates work for GradientDescent", "statement": "On a quadratic objective with Hessian H and stationary point xs, the iterates of GradientDescent converge to xs from every starting point if and only if every eigenvalue of H lies strictly between 0 and 2 / learning_rate. Near a stationary point of any objective whose gradient is strictly differentiable there, the same condition on the Hessian gives convergence from all nearby starting points, and the solve stops by itself and reports success with every sufficiently large budget and with none.", "quantifier": "all such objectives with aux, starting points, positive learning rates, tolerances with atol > 0, good norms, budgets", "why_tests_cant": "A sharp threshold for all objectives of a class and all starting points, including that larger rates fail; tests try single rates.", "anchors": ["optimistix/_minimise.py:minimise", "optimistix/_solver/gradient_methods.py:GradientDescent", "optimistix/_solver/learning_rate.py:LearningRate"]}
{"id": "C141", "title": "Solvers do not settle at maxima, saddles of quadratics and repelling fixed points", "statement": "If the iterates of a minimiser or least-squares solver whose objective never increases (gradient and quasi-Newton families with backtracking or trust regions, LevenbergMarquardt, Dogleg) come arbitrarily close to a point again and again, the objective there is not above that at any iterate, and if the point is a strict local maximum, some iterate is exactly equal to it. GradientDescent with any positive learning rate converges to a point near which the gradient points towards it (a maximum of a locally concave objective) only by landing on it exactly. On a quadratic with a negative eigenvalue, or one above 2 / learning_rate, it runs away along the eigenvector from every starting point with a component along it. FixedPointIteration converges to a fixed point that attracts no nearby point only by landing on it exactly.", "quantifier": "all such objectives and functions, starting points, runs, learning rates, dampings, tolerances", "why_tests_cant": "About the limits of all infinite runs; tests see finitely many finite runs.", "anchors": ["optimistix/_solver/gradient_methods.py:AbstractGradientDescent", "optimistix/_solver/quasi_newton.py:AbstractQuasiNewton", "optimistix/_solver/levenberg_marquardt.py:LevenbergMarquardt", "optimistix/_solver/dogleg.py:Dogleg", "optimistix/_solver/fixed_point.py:FixedPointIteration"]}
{"id": "C142", "title": "A larger budget or stricter tolerances never give a worse answer", "statement": "If the same solve returns with two values of max_steps, the one with the larger value takes at least as many steps. For the gradient and quasi-Newton families with backtracking, gradient descent with a trust region, LevenbergMarquardt, IndirectLevenbergMarquardt and Dogleg, the objective at the answer with the larger max_steps is never larger, and with the same max_steps the objective at the answer with stricter tolerances (smaller rtol and atol, larger norm) is never larger. BestSoFar has the first guarantee for every wrapped solver whose steps report the function output of the point they accept. Without a search it fails: GradientDescent with learning rate 2 on y**2 returns 1 with max_steps=1 and -3 with max_steps=2.", "quantifier": "all functions, derivatives supplied, starting points, pairs of budgets (including none), pairs of tolerances and norms, values of throw", "why_tests_cant": "Relates every pair of settings on every function.", "anchors": ["optimistix/_iterate.py:iterative_solve", "optimistix/_solver/gradient_methods.py:AbstractGradientDescent", "optimistix/_solver/quasi_newton.py:AbstractQuasiNewton", "optimistix/_solver/levenberg_marquardt.py:LevenbergMarquardt", "optimistix/_solver/dogleg.py:Dogleg", "optimistix/_solver/best_so_far.py:BestSoFarMinimiser"]}
{"id": "C143", "title": "What a solve costs in evaluations of the function and its derivatives", "statement": "The outcome of a solve that took n steps depends on the user's function at no more than this many points: n for FixedPointIteration, Newton, Chord, the gradient, quasi-Newton and Gauss-Newton families, OptaxMinimiser and Bisection (two more with flip='detect'), n + 1 for GoldenSearch, and 2 (n - 1) + v (1 + shrinks) for NelderMead on a simplex with v vertices, where shrinks is what its statistics report. It depends on the derivative at no more than n points for Newton and the Gauss-Newton family, at a single point for Chord, and for the gradient and quasi-Newton families at one point more than the number of steps that moved the iterate, so that rejected steps need no gradient.", "quantifier": "all functions and derivatives, starting points, budgets, values of throw, searches and descents, numbers of steps", "why_tests_cant": "Says that the outcome is the same for all functions that agree at a few points.", "anchors": ["optimistix/_iterate.py:iterative_solve", "optimistix/_solver/gradient_methods.py:AbstractGradientDescent.step", "optimistix/_solver/quasi_newton.py:AbstractQuasiNewton.step", "optimistix/_solver/gauss_newton.py:AbstractGaussNewton.step", "optimistix/_solver/newton_chord.py:_AbstractNewtonChord.step", "optimistix/_solver/fixed_point.py:FixedPointIteration.step", "optimistix/_solver/bisection.py:Bisection", "optimistix/_solver/golden.py:GoldenSearch", "optimistix/_solver/nelder_mead.py:NelderMead.step", "optimistix/_solver/optax.py:OptaxMinimiser.step"]}
{"id": "C144", "title": "Warm-started solves of a slowly changing problem keep up with it", "statement": "Solve a sequence of problems, each started at the answer of the one before. If the maps are contractions with a common factor and their fixed points move by at most delta from one problem to the next, every FixedPointIteration solve succeeds within the same number of steps, which depends on the tolerance and delta and not on how many problems came before, and every answer is as close to its fixed point as the tolerance says: errors do not build up. The same holds of GradientDescent with learning rate at most 1/L on strongly convex L-smooth objectives whose minimisers move by at most delta.", "quantifier": "all sequences of contractions or of strongly convex smooth objectives, of any length, starting points near the first solution, tolerances, budgets that are large enough", "why_tests_cant": "Says that a bound holds uniformly over sequences of problems of any length.", "anchors": ["optimistix/_iterate.py:iterative_solve", "optimistix/_solver/fixed_point.py:FixedPointIteration", "optimistix/_solver/gradient_methods.py:GradientDescent", "optimistix/_fixed_point.py:fixed_point", "optimistix/_minimise.py:minimise"]}
{"id": "C145", "title": "Linear equations and invariant sets are kept by the iterates", "statement": "If one equation of a system, or a combination of equations, is affine, Newton and Chord without bounds satisfy it exactly from the first step on, whatever the other equations and the starting point: the answer of a solve that succeeded or ran out of steps after at least one step satisfies it. If a function maps a convex set into itself, FixedPointIteration with any damping in [0, 1] started in the set stays in it, its answer is in the set whatever the result, and what the function does outside the set does not matter.", "quantifier": "all systems with an affine combination, starting points, budgets, linear solvers that are exact when they report success; all convex sets, functions that map them into themselves, dampings", "why_tests_cant": "Says that infinitely many inputs keep an equation exactly, or stay in an arbitrary convex set.", "anchors": ["optimistix/_solver/newton_chord.py:_NewtonChord.step", "optimistix/_solver/newton_chord.py:Newton", "optimistix/_solver/newton_chord.py:Chord", "optimistix/_solver/fixed_point.py:FixedPointIteration.step"]}
{"id": "C146", "title": "The derivative of the optimal value is accurate to second order", "statement": "Evaluating the objective at the answer of minimise and differentiating the result in args with the default adjoint gives, at a stationary point, the partial derivative of the objective with the unknowns held fixed, whatever the linear solver returns and even if the Hessian is singular. Along a branch of minima this is the derivative of the optimal value. At an answer at distance e from a nondegenerate minimum, with linear solves of relative residual eta, the error is at most C * e * (e + eta), although the derivative of the answer itself is only accurate to order e + eta. The same holds for the sum of squares at the answer of least_squares. For strongly convex objectives and successful answers of minimise with backtracking the error is of the order of tol * (tol + eta).", "quantifier": "all objectives and residuals that are smooth enough, args, branches of nondegenerate minima, answers near them, linear solvers, tangents, tolerances", "why_tests_cant": "Bounds the error of a derivative for every smooth objective, answer, tolerance and linear solver.", "anchors": ["optimistix/_ad.py:implicit_jvp", "optimistix/_ad.py:_implicit_impl_jvp", "optimistix/_minimise.py:_rewrite_fn", "optimistix/_least_squares.py:_rewrite_fn", "optimistix/_adjoint.py:ImplicitAdjoint"]}
{"id": "C147", "title": "Ordered problems have ordered answers", "statement": "Making the function larger moves the answers to one side. Bisection: if f <= g on the interval, the answer for g is to the left of the answer for f where the functions go from negative to positive, and to the right otherwise; if the two solves took different numbers of steps, up to the width of the interval they had in common. Neither continuity nor monotonicity is needed. FixedPointIteration with any damping in [0, 1]: if f <= g componentwise and one of them preserves the order, iterates and answers for f are below those for g after equally many steps, and also if g took more steps and starts by going up.", "quantifier": "all pairs of ordered functions, intervals, starting points, tolerances, budgets, dampings", "why_tests_cant": "Compares the solves of any two ordered problems.", "anchors": ["optimistix/_solver/bisection.py:Bisection", "optimistix/_solver/fixed_point.py:FixedPointIteration.step"]}
{"id": "C148", "title": "Solving again from an answer", "statement": "A second solve that starts at the answer of a successful one stops at once where the method is settled: FixedPointIteration with rtol = 0 on a function that does not increase distances succeeds after one step and moves by less than atol; GradientDescent with rtol = 0 and the Euclidean norm on a convex objective with learning rate at most 1/L succeeds after two steps, the first of which does not move. Bisection does not profit from its starting point: whatever the function, a successful solve takes as many steps as are needed to halve the distance from the starting point to the nearer end of the interval down to the tolerance, even if it starts at the root.", "quantifier": "all functions that do not increase distances, convex smooth objectives, functions for Bisection; all starting points, tolerances, budgets, dampings", "why_tests_cant": "Relates two solves for every function and starting point; the bound for Bisection holds for every function.", "anchors": ["optimistix/_solver/fixed_point.py:FixedPointIteration", "optimistix/_solver/gradient_methods.py:GradientDescent", "optimistix/_solver/bisection.py:Bisection"]}
{"id": "C149", "title": "Names for affine expressions do not disturb Newton and Chord", "statement": "Adding unknowns u together with the equations u = M x + b that define them to a system F(x, u) = 0, instead of substituting M x + b for u, does not change what Newton and Chord without bounds do: started with the right values of u, the iterates consist of the iterates of the substituted system and the right values of u, no linear solve fails, and if both solves take equally many steps their answers agree.", "quantifier": "all systems, affine expressions, starting points at whose iterates the Jacobian of the substituted system is regular, budgets, tolerances, linear solvers that solve regular systems", "why_tests_cant": "Relates the solves of two formulations of an arbitrary system.", "anchors": ["optimistix/_solver/newton_chord.py:_NewtonChord.step", "optimistix/_solver/newton_chord.py:Newton", "optimistix/_solver/newton_chord.py:Chord", "optimistix/_root_find.py:root_find"]}
{"id": "C150", "title": "The auxiliary output only goes along for the ride", "statement": "Changing the auxiliary output of the user's function from a to h(a), for any h, changes nothing but the auxiliary output of the solution, from a to h(a): the answer, the result code, the errors raised and the number of steps stay the same. In particular a solve with has_aux=True finds what the solve of the same function without auxiliary output finds. This holds for every root finder, fixed-point solver, minimiser and least-squares solver, for the BestSoFar wrappers and for root_find with least-squares solvers.", "quantifier": "all functions, auxiliary outputs and their changes, solvers with their searches and descents, starting points, budgets, throw", "why_tests_cant": "Relates the solves of all functions with all auxiliary outputs; a solver that peeks at the auxiliary output, or mixes up that of two points, may do so on rare branches only.", "anchors": ["optimistix/_misc.py:NoneAux", "optimistix/_iterate.py:iterative_solve", "optimistix/_solver/best_so_far.py:_auxmented", "optimistix/_root_find.py:root_find"]}
{"id": "C151", "title": "Repeating an observation is the same as giving it more weight", "statement": "In a least-squares fit, listing residual i c_i times is the same as multiplying it by the square root of c_i: same answer, result code, errors, auxiliary output and number of steps, for least_squares with every minimiser and, whenever the stopping test gives the same verdict on the residuals (as it does with two_norm and rtol=0), with GaussNewton, LevenbergMarquardt, IndirectLevenbergMarquardt and Dogleg, whatever the rank of the Jacobian. With GaussNewton, listing the whole data n times gives the outcome of listing it once, with max_norm and with rms_norm.", "quantifier": "all residual functions, multiplicities, starting points, budgets, tolerances, linear solvers that solve their problems", "why_tests_cant": "Relates the solves of infinitely many pairs of fits of different sizes.", "anchors": ["optimistix/_least_squares.py:least_squares", "optimistix/_solver/gauss_newton.py:GaussNewton", "optimistix/_solver/levenberg_marquardt.py:LevenbergMarquardt", "optimistix/_solver/dogleg.py:Dogleg", "optimistix/_misc.py:rms_norm"]}
{"id": "C152", "title": "A feedback loop may be cut open anywhere", "statement": "If two processes feed each other, z = P(x) and x = Q(z), one can ask fixed_point for x (the fixed points of Q after P) or for z (those of P after Q). FixedPointIteration does the same either way: the iterates for z started at P(y0) are the images under P of those for x started at y0 (with damping, if P is affine). A guarantee for one cut carries over to the other even if the map there is not a contraction: if Q after P is a contraction and P is Lipschitz, the solve for z succeeds from every starting point within every large enough budget, and every successful answer lies within L M / (1 - q) times the tolerance of P(x*).", "quantifier": "all pairs of maps, dimensions, starting points, budgets, tolerances", "why_tests_cant": "Relates the solves of two problems of different dimension for arbitrary maps, and concerns all starting points.", "anchors": ["optimistix/_fixed_point.py:fixed_point", "optimistix/_solver/fixed_point.py:FixedPointIteration"]}
{"id": "C153", "title": "Wrapping a solver in BestSoFar twice is the same as wrapping it once", "statement": "A solve with BestSoFarX(BestSoFarX(solver)) has the answer, result code, errors, auxiliary output and number of steps of the solve with BestSoFarX(solver), for the minimiser, least-squares, root-finder and fixed-point wrappers and every solver they wrap. What the inner wrapper goes by makes no difference: only the outer one decides.", "quantifier": "all solvers, functions, starting points, budgets, losses of the inner and outer wrapper", "why_tests_cant": "Relates all solves with two solvers; the wrappers communicate through the auxiliary output, in which mix-ups need not show on examples.", "anchors": ["optimistix/_solver/best_so_far.py:_AbstractBestSoFarSolver.step", "optimistix/_solver/best_so_far.py:_auxmented"]}
{"id": "C154", "title": "On convex problems solves never move apart", "statement": "With a learning rate up to 2/L on a convex L-smooth objective, and whatever the result codes: two GradientDescent solves that took equally many steps have answers at most as far apart as their starting points; no answer is further from any minimiser than the starting point, and an answer after more steps is not further than one after fewer; the gradient at the answer is not longer than at the start, nor does it get longer with more steps, and after n steps (n-1) eta (2/L - eta) |gradient|^2 <= |y0 - x*|^2 for every minimiser x*. With a rate below 2/L the answers after more and more steps converge to one minimiser, which depends on the starting point but not on tolerances and budgets. FixedPointIteration with any damping in [0, 1] keeps two solves together in the same sense on every map that does not increase distances in max_norm.", "quantifier": "all convex smooth objectives (with any set of minimisers), starting points, budgets, tolerances, norms", "why_tests_cant": "A statement about all pairs of solves, including unsuccessful ones, and every minimiser.", "anchors": ["optimistix/_solver/gradient_methods.py:GradientDescent", "optimistix/_solver/learning_rate.py:LearningRate.step", "optimistix/_solver/fixed_point.py:FixedPointIteration.step"]}
{"id": "C155", "title": "Linear least-squares problems with the trust-region solvers", "statement": "On linear residuals M y + b, whatever the result code: LevenbergMarquardt never rejects a step and never shrinks its trust region; its answer is not further from any best fit than the starting point, whatever the rank of M; if sigma |v|^2 <= |M v|^2 with sigma > 0, its distance from the best fit after n steps is at most that of the starting point divided by (1+sigma)(1+3.5 sigma)(1+3.5^2 sigma)... with n-1 factors, faster than every geometric rate; if there are many best fits the same holds for the one closest to the starting point, with sigma the smallest squared singular value that is not zero. With full rank, the answer of Dogleg and IndirectLevenbergMarquardt after two or more steps is the best fit.", "quantifier": "all matrices, right-hand sides, starting points, tolerances, norms, budgets", "why_tests_cant": "Depends on the prediction of the trust region being exact at every step of every solve; an error in the radius update only slows convergence down, which no unit test with a tolerance notices.", "anchors": ["optimistix/_solver/levenberg_marquardt.py:LevenbergMarquardt", "optimistix/_solver/levenberg_marquardt.py:IndirectLevenbergMarquardt", "optimistix/_solver/dogleg.py:Dogleg", "optimistix/_solver/trust_region.py:ClassicalTrustRegion.predict_reduction"]}
{"id": "C156", "title": "Answers become exact as the tolerances tend to zero", "statement": "Suppose that the iterates of FixedPointIteration (with any damping), of GradientDescent, of GaussNewton (with a linear solver answering zero with zero) or of Newton and Chord (with Cauchy termination, with or without bounds) converge to a point q, for whatever reason. Then for every eps > 0 there is a delta > 0 such that, for all tolerances below delta, every solve with the default norm that reports success returns a point within eps of q, entry by entry. For GradientDescent on convex, smooth objectives with a minimiser and a learning rate below 2 / L such a q exists, and is a minimiser.", "quantifier": "all problems, starting points, dampings and learning rates for which the iterates converge, all sufficiently small tolerances, all budgets", "why_tests_cant": "Success only says that the last update was small, which does not imply that the limit is near; that the accuracy can nevertheless be driven to any level is a statement about all tolerances at once.", "anchors": ["optimistix/_solver/fixed_point.py:FixedPointIteration", "optimistix/_solver/gradient_methods.py:GradientDescent", "optimistix/_solver/gauss_newton.py:GaussNewton", "optimistix/_solver/newton_chord.py:Newton", "optimistix/_solver/newton_chord.py:Chord", "optimistix/_misc.py:cauchy_termination"]}
{"id": "C157", "title": "Answers depend continuously on the problem and the starting point, except at ties", "statement": "Let the function (for GradientDescent: with its gradient) and the starting point depend continuously on arguments, and let a solve by FixedPointIteration or GradientDescent, with continuous norms, succeed such that no scaled update before the last one was exactly 1. Then all solves with arguments near enough succeed too, after the same number of steps, and their answers tend to the answer of the first as the arguments do. The condition cannot be dropped: halving with atol=1 started at 2 makes two steps and returns 1/2, but started anywhere in (0, 2) it makes one step and returns y0/2.", "quantifier": "all problems, starting points and arguments (of any topological space), tolerances, continuous norms, dampings, learning rates, budgets", "why_tests_cant": "Continuity is a statement about all arguments near a given one; a test compares finitely many.", "anchors": ["optimistix/_solver/fixed_point.py:FixedPointIteration", "optimistix/_solver/gradient_methods.py:GradientDescent", "optimistix/_misc.py:cauchy_termination", "optimistix/_iterate.py:iterative_solve"]}
{"id": "C158", "title": "Newton and Chord at multiple roots", "statement": "Let r be a root of multiplicity m >= 2 of a function of one unknown, f(y) = (y-r)^m g(y) with g(r) != 0, g differentiable with derivative continuous at r. For every eps < 1, Newton (without bounds, with exact derivatives and linear solves) started near enough to r, but not at r, never meets a singular derivative, stays on the same side of r and shrinks the distance from r in every step by a factor between 1 - 1/(m-eps) and 1 - 1/(m+eps). With the default Cauchy termination the solve stops with success, and the answer of every successful solve is off by at most (m-1+eps)(atol + rtol |y|), where y is the iterate before it. With cauchy_termination=False (absolute tolerance, default norm) and eps < 1/2 the solve also stops with success, divergence is never reported, and the answer is off by at most (m-1+eps)(1+2 eps)/(m-1-eps) times kappa*atol, or by at most (m-1+eps) times the resolution times atol if the last update was at the limit of resolution. Chord, for eps < 1/2, also never meets a singular derivative, stays on the same side and converges, but more slowly than every geometric sequence: the distance is multiplied by 1 - c ((y-r)/(y0-r))^(m-1) with |m c - 1| <= eps; with Cauchy termination it stops with success, and of an answer the m-th power of the error, times 1-eps, is at most m |y0-r|^(m-1) (atol + rtol |y|).", "quantifier": "all multiplicities, functions, starting points near the root, tolerances, norms, budgets", "why_tests_cant": "The derivative vanishes at the root, so the usual guarantees do not apply; the statement is about limits and about all starting points in a neighbourhood.", "anchors": ["optimistix/_solver/newton_chord.py:Newton", "optimistix/_solver/newton_chord.py:Chord", "optimistix/_root_find.py:root_find", "optimistix/_misc.py:cauchy_termination"]}
{"id": "C159", "title": "Fixed-point iteration at tangential fixed points", "statement": "Let a function of one unknown touch the diagonal at its fixed point r: f(y) = y - (y-r)^m h(y) with m >= 2, h continuous at r and h(r) > 0; let the damping be in [0,1). For every eps with 0 < eps < h(r), from every starting point right of r and near enough, FixedPointIteration decreases towards r and never passes it; in every step the distance is multiplied by 1 - (1-damp) c (y-r)^(m-1) with |c - h(r)| <= eps; so it converges, but the factors tend to one. With atol > 0, rtol >= 0 and the default norm the solve stops with success, given a sufficient budget. But the error of an answer is of the order of the m-th root of the tolerance: (1-damp)(h(r)-eps) error^m <= atol + rtol |y|, and, unless the solve stopped after one step, atol <= (1-damp)(h(r)+eps) (4 error)^m. On the other side, for even m, every start near enough moves away from r in every step until it has left a neighbourhood of r which does not depend on the start.", "quantifier": "all multiplicities, functions, dampings, starting points near the fixed point on the attracting side, tolerances, budgets", "why_tests_cant": "The map is no contraction at the fixed point, so the usual guarantee that success means an error of about one tolerance fails; both bounds are about all tolerances and starting points.", "anchors": ["optimistix/_solver/fixed_point.py:FixedPointIteration", "optimistix/_fixed_point.py:fixed_point"]}
