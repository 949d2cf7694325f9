{"id": "C01", "title": "Time only moves forward and never passes t1", "statement": "During `diffeqsolve`, the time the solve has reached never decreases from one attempted step to the next and never exceeds t1, and every solver step is attempted over an interval [a, b] with a <= b <= t1 where a is exactly the time reached so far.", "quantifier": "every solver, every step size controller that does not move time backwards, every t0 <= t1, every max_steps, every history of accepted and rejected steps", "why_tests_cant": "Ranges over all solvers, all controllers and unboundedly long accept/reject histories; a test runs one.", "anchors": ["diffrax/_integrate.py: loop.body_fun_aux, _clip_to_end, loop.cond_fun"]}
{"id": "C02", "title": "Step statistics add up and respect max_steps", "statement": "The reported num_steps equals the number of times the solver was asked to step, equals num_accepted_steps + num_rejected_steps, and is at most max_steps.", "quantifier": "every solver, controller, event, SaveAt and max_steps", "why_tests_cant": "The identity must hold after every possible interleaving of accepted and rejected steps, not just for sampled problems.", "anchors": ["diffrax/_integrate.py: loop.body_fun_aux, loop, diffeqsolve (stats)"]}
{"id": "C03", "title": "The reported result says what actually happened", "statement": "If `result` is successful then the solve reached t1 exactly. If `result` is max_steps_reached then exactly max_steps steps were made, t1 was not reached and no error or event had occurred. If `result` is event_occurred then an event condition triggered at the last time reached. With throw=True an error is raised exactly when `result` is neither successful nor event_occurred.", "quantifier": "every solver, controller (StepTo as well), event and max_steps", "why_tests_cant": "Concerns every way a solve can end; tests cover a handful of endings.", "anchors": ["diffrax/_integrate.py: loop.cond_fun, loop (final result), diffeqsolve (throw)", "diffrax/_solution.py: RESULTS, is_okay, is_successful"]}
{"id": "C04", "title": "Rejected steps leave no trace", "statement": "A rejected step changes neither the current solution value, nor the solver's internal state, nor the jump flag, nor anything saved (ts, steps or dense output); the final value is the composition of the accepted solver steps only.", "quantifier": "every solver, controller and accept/reject history", "why_tests_cant": "Needs an induction over arbitrary interleavings of rejected and accepted steps.", "anchors": ["diffrax/_integrate.py: loop.body_fun_aux (keep, save_ts, save_steps, dense)"]}
{"id": "C05", "title": "The first error stops the solve and is the one reported", "statement": "If an accepted step reports a solver error, or any step a controller error, no further step is made and (when no event triggers on that same step) that error is the final result, the solver's error taking precedence over the controller's; errors of rejected steps are discarded.", "quantifier": "every solver, controller and history", "why_tests_cant": "A claim about all possible positions and kinds of failure.", "anchors": ["diffrax/_integrate.py: loop.body_fun_aux (result), loop.cond_fun", "diffrax/_solution.py: is_okay"]}
{"id": "C06", "title": "An event never hides a solver failure", "statement": "If the step on which an event triggers also reported an error, the final result is that error and not event_occurred.", "quantifier": "every solver, controller, event", "why_tests_cant": "Needs a failing step coinciding with an event; tests never produce the coincidence.", "anchors": ["diffrax/_integrate.py: loop.body_fun_aux (result override by had_event)"]}
{"id": "C07", "title": "SaveAt(ts=...) saves each requested time exactly once, in order, with the right value", "statement": "When a solve with SaveAt(ts=ts) is successful, the returned times are exactly ts, in order, and the value at each is fn applied to the interpolation, over the first accepted step whose end is not before that time, evaluated at that time.", "quantifier": "every nondecreasing ts within [t0, t1] (including repeats and end points), every solver, controller and number of steps", "why_tests_cant": "Steps can contain zero, one or many requested times and any number of rejections may intervene; requires induction over steps.", "anchors": ["diffrax/_integrate.py: loop.save_ts_impl, diffeqsolve._check_subsaveat_ts, _allocate_output"]}
{"id": "C08", "title": "SaveAt(steps=n) saves every n-th accepted step and nothing else", "statement": "With SaveAt(steps=n), the k-th saved entry is the time and value after accepted step number k*n; no other entries are written and rejected steps are never saved.", "quantifier": "every n >= 1, every solver, controller, max_steps, accept/reject history", "why_tests_cant": "Requires reasoning about all accept/reject patterns and moduli.", "anchors": ["diffrax/_integrate.py: loop.save_steps", "diffrax/_saveat.py: SubSaveAt"]}
{"id": "C09", "title": "Saved output is exactly the predicted sequence, padded", "statement": "For each SubSaveAt, the returned buffer is: the t0 entry if requested; then, for each accepted step in order, the requested ts reached by that step followed by the step entry if its number is a multiple of n; then the final entry if t1 was requested and the final value was not already saved via steps; then only padding. In particular no entry is ever lost, overwritten or written out of bounds, for the buffer size that is allocated.", "quantifier": "every combination of t0/t1/ts/steps/fn, every max_steps >= 1, every number of accepted and rejected steps (no event root finder, t0 < t1)", "why_tests_cant": "Index arithmetic with clamping array updates must be right for every combination of options and step counts.", "anchors": ["diffrax/_integrate.py: _save, loop.save_t0, loop.save_ts_impl, loop.save_steps, loop._save_t1, diffeqsolve._allocate_output"]}
{"id": "C10", "title": "SaveAt(t1=True) always saves the final value", "statement": "With t1=True the last non-padding entry of the output is the final time and fn of the final value, whatever `steps` is, also when no step was needed.", "quantifier": "every SubSaveAt with t1=True, every solver, controller, t0 <= t1", "why_tests_cant": "The interaction of t1 with steps=n and with zero-step solves is a corner not enumerated by tests.", "anchors": ["diffrax/_integrate.py: loop._save_t1, loop._save_if_t0_equals_t1"]}
{"id": "C11", "title": "What is saved never influences the solve", "statement": "The final value, statistics, result, solver state and controller state do not depend on SaveAt; and the output of each SubSaveAt does not depend on the other SubSaveAts.", "quantifier": "every two SaveAt configurations, every solver, controller, event", "why_tests_cant": "A two-run (hyper)property over all configurations.", "anchors": ["diffrax/_integrate.py: loop.body_fun_aux, loop._save_t1"]}
{"id": "C12", "title": "Raising max_steps does not change a solve that finished", "statement": "If a solve finishes with at most n steps (any result other than max_steps_reached), every larger max_steps gives the same final value, statistics, result and saved entries.", "quantifier": "every solver, controller, event and pair n <= m", "why_tests_cant": "Two-run property over all problem instances.", "anchors": ["diffrax/_integrate.py: loop, diffeqsolve (max_steps)"]}
{"id": "C13", "title": "Dense output agrees with SaveAt(ts=...)", "statement": "For a solve with SaveAt(dense=True) (and no jumps), evaluating the interpolation at any t in [t0, reached time] uses the accepted step containing t (the earlier one at shared end points), i.e. returns exactly the value that SaveAt(ts=[t]) would have saved in the same solve.", "quantifier": "every solver, controller, number of steps, every query time t with t0 < t <= final time", "why_tests_cant": "Quantifies over all query times and all step histories; relates two different code paths (search in a padded buffer vs in-loop saving).", "anchors": ["diffrax/_integrate.py: loop (dense_ts, dense_infos, dense_save_index)", "diffrax/_global_interpolation.py: AbstractGlobalInterpolation._interpret_t, DenseInterpolation.evaluate"]}
{"id": "C14", "title": "Exactly one event is reported, the first that triggered", "statement": "`event_mask` has a single True exactly when the solve ended because of an event, and it is the first condition (in pytree order) that triggered on the last step; otherwise it is all False.", "quantifier": "every collection of event conditions (any number, boolean or floating), every solve", "why_tests_cant": "Any number of simultaneous events; must hold for all lengths.", "anchors": ["diffrax/_integrate.py: loop.body_fun_aux (event_mask), diffeqsolve (event init)"]}
{"id": "C15", "title": "A solve with events stops at the first step on which a condition triggers", "statement": "With `event`, the solve makes no step after the first attempted step at which some condition triggers, it never stops with event_occurred if none has triggered, and a floating condition triggers exactly when its sign before and after the step satisfies the requested direction (None: signs differ; True: from <= 0 to > 0; False: from > 0 to <= 0), a boolean one exactly when it is true.", "quantifier": "every collection of conditions and directions, every solver and controller", "why_tests_cant": "All histories of event values.", "anchors": ["diffrax/_integrate.py: loop.body_fun_aux._outer_cond_fn", "diffrax/_event.py: Event"]}
{"id": "C16", "title": "Upcrossing and downcrossing events are complementary", "statement": "direction=None triggers on every sign change; a strict sign change from negative to positive triggers direction=True and not False, and vice versa; a rejected step never triggers an event.", "quantifier": "every pair of event values and every history", "why_tests_cant": "All sign combinations across arbitrary rejected/accepted histories.", "anchors": ["diffrax/_integrate.py: loop.body_fun_aux._outer_cond_fn"]}
{"id": "C17", "title": "No saved value lies beyond the event time", "statement": "With an event root finder, if an event triggers then every saved entry that remains has a time <= the event time, entries with times <= the event time are all kept with their values in order, and with t1=True the next entry is the event time with the interpolated value there.", "quantifier": "every solve with root finder returning a time inside the last step, every SubSaveAt", "why_tests_cant": "Depends on how many saved entries lie after the root, over all histories.", "anchors": ["diffrax/_integrate.py: loop.unsave, loop._save_t1, loop._root_find"]}
{"id": "C18", "title": "Saving steps with an event root finder saves each value once", "statement": "With an event root finder and SaveAt(steps=n), no accepted step is saved twice and nothing is saved when no step was accepted.", "quantifier": "every solve with a root finder", "why_tests_cant": "Only visible when the event does not trigger (or triggers exactly at a step end), which tests do not check entry by entry.", "anchors": ["diffrax/_integrate.py: loop._save_t1 (pred = t1 | t1_saved_via_steps)"]}
{"id": "C19", "title": "Empty time intervals return the initial value", "statement": "If t0 == t1 then no step is made, the result is successful (absent a boolean event true at t0), every requested ts entry is (t0, fn(y0)), and the final value is y0.", "quantifier": "every solver, controller, SaveAt", "why_tests_cant": "Combination of all SaveAt options with the zero-step path.", "anchors": ["diffrax/_integrate.py: loop._save_if_t0_equals_t1, loop.cond_fun"]}
{"id": "C20", "title": "Backward-in-time solves mirror forward solves", "statement": "Solving from t0 down to t1 < t0 gives exactly the same values, statistics and result as solving the time-negated problem forward, with all returned times negated.", "quantifier": "every Runge-Kutta solver and term, every t1 < t0, every controller and SaveAt", "why_tests_cant": "Two-run property across all problems.", "anchors": ["diffrax/_integrate.py: diffeqsolve (direction)", "diffrax/_term.py: WrapTerm", "diffrax/_solver/runge_kutta.py: AbstractRungeKutta.step"]}
{"id": "C21", "title": "ConstantStepSize takes equal steps of size dt0", "statement": "With ConstantStepSize every step has size dt0, except possibly the last which is shortened to end at t1.", "quantifier": "every t0 < t1 finite and dt0 > 0", "why_tests_cant": "All (t0, t1, dt0); tests use dt0 dividing t1 - t0.", "anchors": ["diffrax/_step_size_controller/constant.py: ConstantStepSize.init, adapt_step_size"]}
{"id": "C22", "title": "ConstantStepSize finishes in the minimal number of steps", "statement": "With ConstantStepSize the solve accepts every step, ends exactly at t1 after exactly ceil((t1-t0)/dt0) steps, and no step is longer than dt0 nor of zero or negative length.", "quantifier": "every t0 < t1 finite and dt0 > 0 (exact arithmetic)", "why_tests_cant": "All real (t0, t1, dt0).", "anchors": ["diffrax/_step_size_controller/constant.py: ConstantStepSize.init, adapt_step_size", "diffrax/_integrate.py: loop"]}
{"id": "C23", "title": "StepTo visits exactly the given times", "statement": "With StepTo(ts), the solver is stepped over exactly the consecutive intervals [ts[0],ts[1]], ..., [ts[-2],ts[-1]], each once and in order, and ends at t1.", "quantifier": "every strictly increasing ts of length >= 2 (whose interior points are not within 100 ULP of t1)", "why_tests_cant": "All lengths and all placements of ts.", "anchors": ["diffrax/_step_size_controller/constant.py: StepTo", "diffrax/_integrate.py: loop.cond_fun"]}
{"id": "C24", "title": "PIDController accepts a step exactly when its scaled error is below one", "statement": "Without dtmin, a step is kept iff norm(y_error / (atol + rtol * max(|y0|, |y1|))) < 1 (y1 replaced by y0 where it contains NaN); an infinite error (failed step) is always rejected. With dtmin, steps at dtmin are also kept.", "quantifier": "every error, state, tolerance, coefficient setting and controller history", "why_tests_cant": "All real inputs and all controller states.", "anchors": ["diffrax/_step_size_controller/pid.py: PIDController.adapt_step_size"]}
{"id": "C25", "title": "PIDController step changes stay within the configured factors", "statement": "The next step size is between factormin and safety times the current one after a rejection and between 1 and factormax times after an acceptance (before dtmin/dtmax clipping), and it then respects dtmin <= dt <= dtmax.", "quantifier": "every error, coefficient setting and controller history", "why_tests_cant": "All real inputs.", "anchors": ["diffrax/_step_size_controller/pid.py: PIDController.adapt_step_size, init"]}
{"id": "C26", "title": "PIDController with dtmin cannot get stuck", "statement": "With dtmin > 0 and force_dtmin=True, whatever errors the solver reports, at most a bounded number of consecutive steps is rejected and each accepted step that is not clipped advances time by at least dtmin, so the number of steps needed to reach t1 is bounded by an explicit function of t1 - t0, dt0, dtmin and safety.", "quantifier": "every sequence of error estimates, every 0 < safety < 1", "why_tests_cant": "Liveness against an adversarial solver.", "anchors": ["diffrax/_step_size_controller/pid.py: PIDController.adapt_step_size", "diffrax/_integrate.py: loop"]}
{"id": "C27", "title": "PIDController history contains only accepted, finite errors", "statement": "The error history used by the proportional and derivative terms consists of the inverse scaled errors of the most recent accepted steps only, with zero and infinite ones replaced by 1; rejected steps do not enter it.", "quantifier": "every history of accepted and rejected steps", "why_tests_cant": "All histories.", "anchors": ["diffrax/_step_size_controller/pid.py: PIDController.adapt_step_size"]}
{"id": "C28", "title": "ClipStepSizeController steps exactly to every step_ts", "statement": "With ClipStepSizeController(step_ts=...), every requested time strictly between t0 and t1 is the end of an accepted step if the solve is successful.", "quantifier": "every inner adaptive controller, every step_ts, every accept/reject history", "why_tests_cant": "All inner controllers and all floating-point placements of step_ts.", "anchors": ["diffrax/_step_size_controller/clip.py: ClipStepSizeController.init, adapt_step_size, _clip_t, _bump_next_t0", "diffrax/_integrate.py: _clip_to_end"]}
{"id": "C29", "title": "ClipStepSizeController never steps across a jump", "statement": "With jump_ts=..., no step interval [a, b] contains a jump time j > t0: each step ends strictly before j or starts strictly after it; after crossing a jump the solver is told so (made_jump) on the next accepted step.", "quantifier": "every inner controller, every jump_ts, every history", "why_tests_cant": "All floating-point placements and all inner controllers.", "anchors": ["diffrax/_step_size_controller/clip.py: ClipStepSizeController.adapt_step_size, _bump_next_t0", "diffrax/_integrate.py: _clip_to_end"]}
{"id": "C30", "title": "Rejected step times are revisited exactly", "statement": "With store_rejected_steps, every rejected end time is later the exact end of an attempted step before any later time is, most recent first, unless the solve ends with an error before; the buffer overflowing is reported as max_steps_rejected.", "quantifier": "every inner controller, every pattern of rejections of any depth", "why_tests_cant": "Unbounded stack discipline over all histories.", "anchors": ["diffrax/_step_size_controller/clip.py: ClipStepSizeController.adapt_step_size (reject_info)"]}
{"id": "C31", "title": "Cached search indices are only a hint", "statement": "The step and jump times used by ClipStepSizeController depend only on the current time, never on the cached index: from any valid hint the search returns the position of the first listed time strictly after the current time.", "quantifier": "every sorted list, every time, every hint in range", "why_tests_cant": "All lists and hints.", "anchors": ["diffrax/_step_size_controller/clip.py: _find_idx_with_hint"]}
{"id": "C32", "title": "ClipStepSizeController preserves progress", "statement": "If the wrapped controller proposes a nonempty forward interval then so does ClipStepSizeController, except for the documented case of two jump times closer than the floating-point grid allows.", "quantifier": "every inner controller and every step_ts / jump_ts / rejected times", "why_tests_cant": "All placements.", "anchors": ["diffrax/_step_size_controller/clip.py: ClipStepSizeController.adapt_step_size"]}
{"id": "C33", "title": "Interpolations pick the segment containing the query", "statement": "For a query t between the first and last knot, the segment used is the one with ts[i] < t <= ts[i+1] (left=True) or ts[i] <= t < ts[i+1] (left=False); outside, the first or last segment is used; the index is always in range.", "quantifier": "every strictly increasing ts of length >= 2, every t", "why_tests_cant": "All lists and all real queries.", "anchors": ["diffrax/_global_interpolation.py: AbstractGlobalInterpolation._interpret_t"]}
{"id": "C34", "title": "LinearInterpolation is the piecewise linear interpolant", "statement": "evaluate(ts[i]) = ys[i] for both left and right, on each segment evaluate is the affine function through its end points, derivative is its slope, and evaluate(a, b) = evaluate(b) - evaluate(a) so increments over adjacent intervals add up.", "quantifier": "every strictly increasing ts, every ys, every query", "why_tests_cant": "All data and all real queries.", "anchors": ["diffrax/_global_interpolation.py: LinearInterpolation.evaluate, derivative", "diffrax/_misc.py: linear_rescale"]}
{"id": "C35", "title": "Backward Hermite cubic interpolation is C1, causal and interpolates the data", "statement": "CubicInterpolation built from backward_hermite_coefficients passes through every data point, has continuous derivative, whose value at each knot after the first is the preceding difference quotient, and the piece on [ts[i], ts[i+1]] depends only on data up to index i+1.", "quantifier": "every strictly increasing ts and every ys (no missing data)", "why_tests_cant": "All data sets of all lengths.", "anchors": ["diffrax/_global_interpolation.py: _hermite_forward, _hermite_coeffs, _hermite_impl, CubicInterpolation.evaluate, derivative"]}
{"id": "C36", "title": "Missing data is filled by linear interpolation between neighbours", "statement": "linear_interpolation leaves observed values untouched, replaces each NaN between two observed values by the value at that time of the straight line through the neighbouring observations, replaces NaNs after the last observation by that observation if fill_forward_nans_at_end is set (else leaves NaN), and leaves NaNs before the first observation unless replace_nans_at_start is passed, in which case they are filled from that value.", "quantifier": "every pattern of missing values of any length", "why_tests_cant": "All missingness patterns.", "anchors": ["diffrax/_global_interpolation.py: linear_interpolation, _linear_interpolation, _linear_interpolation_forward, _interpolation_reverse"]}
{"id": "C37", "title": "Forward filling carries the last observation forward", "statement": "fill_forward replaces each NaN by the most recent earlier observation (or by replace_nans_at_start before the first one), leaves observations untouched and is idempotent.", "quantifier": "every pattern of missing values of any length", "why_tests_cant": "All missingness patterns.", "anchors": ["diffrax/_misc.py: fill_forward"]}
{"id": "C38", "title": "Rectilinear interpolation moves one coordinate at a time", "statement": "rectilinear_interpolation returns 2n-1 points which alternately hold the value and advance time, then hold time and move to the next (forward-filled) value; it is causal and contains every observation.", "quantifier": "every ts, ys of any length", "why_tests_cant": "All lengths and data.", "anchors": ["diffrax/_global_interpolation.py: rectilinear_interpolation"]}
{"id": "C39", "title": "Local interpolations match the step's end points", "statement": "The interpolations used inside a step return the step's start value at its start and end value at its end exactly, and the Hermite ones also match the supplied slopes; so output is continuous across steps.", "quantifier": "every step interval of nonzero length, all values and slopes", "why_tests_cant": "All real data.", "anchors": ["diffrax/_local_interpolation.py: LocalLinearInterpolation, ThirdOrderHermitePolynomialInterpolation, FourthOrderPolynomialInterpolation"]}
{"id": "C40", "title": "FSAL reuse is invisible", "statement": "A solve with an FSAL (or any explicit) Runge-Kutta method, reusing the last stage of the previous accepted step, produces exactly the same values, errors and decisions as evaluating every stage from scratch, across all rejections and jumps, provided every discontinuity of the vector field at a step start is flagged as a jump.", "quantifier": "every tableau satisfying the class's own checks, every vector field, every history of accepted, rejected and jump steps", "why_tests_cant": "Equivalence of two programs over all histories.", "anchors": ["diffrax/_solver/runge_kutta.py: AbstractRungeKutta.init, step, _common", "diffrax/_integrate.py: loop.body_fun_aux"]}
{"id": "C41", "title": "Explicit Runge-Kutta step computes the tableau's formula", "statement": "For an explicit tableau the step returns y0 + sum b_i k_i with k_i = f(t0 + c_i dt, y0 + sum_j a_ij k_j) dt, the error estimate sum e_i k_i, and (first-same-as-last) the stage at the end of the step.", "quantifier": "every tableau, vector field, interval and state", "why_tests_cant": "All tableaus and vector fields.", "anchors": ["diffrax/_solver/runge_kutta.py: AbstractRungeKutta.step, rk_stage"]}
{"id": "C42", "title": "Built-in tableaus have their stated order on quadrature and linear problems", "statement": "For each built-in explicit method of order p, integrating any polynomial vector field of degree < p in t is exact, and on y' = lambda y one step multiplies y by a polynomial agreeing with exp(lambda dt) to order p, for every dt, lambda and y; every tableau is consistent (rows sum to c, weights sum to one, error weights sum to zero).", "quantifier": "all dt, lambda, polynomial coefficients, initial values (coefficients as exact rationals; where the source uses truncated decimals, up to a stated rounding)", "why_tests_cant": "Tests estimate order numerically on one problem.", "anchors": ["diffrax/_solver/heun.py", "diffrax/_solver/midpoint.py", "diffrax/_solver/ralston.py", "diffrax/_solver/bosh3.py", "diffrax/_solver/dopri5.py", "diffrax/_solver/euler.py"]}
{"id": "C43", "title": "HalfSolver takes two half steps and reports their distance to the full step", "statement": "The value returned is that of two consecutive half steps of the wrapped solver (state threaded through, jump flag only on the first), the error is the absolute difference to the single full step from the original state, and an error in any of the three is reported, the first half step's first.", "quantifier": "every wrapped solver", "why_tests_cant": "All solvers and results.", "anchors": ["diffrax/_solver/base.py: HalfSolver.step", "diffrax/_solution.py: update_result"]}
{"id": "C44", "title": "update_result keeps the most serious, earliest outcome", "statement": "Combining results: errors beat events beat success; of two errors the older is kept, of two events the older is kept; combining is associative with success as identity.", "quantifier": "all results", "why_tests_cant": "Associativity etc. over all values including library-extended enumerations.", "anchors": ["diffrax/_solution.py: update_result"]}
{"id": "C45", "title": "ReversibleHeun is algebraically reversible", "statement": "From the state after a step (value, auxiliary value, vector field) the state before it is recovered exactly by the documented inverse step with the control negated, for every vector field.", "quantifier": "every term, interval and state whose cached vector field is consistent", "why_tests_cant": "All vector fields.", "anchors": ["diffrax/_solver/reversible_heun.py: ReversibleHeun.step, init"]}
{"id": "C46", "title": "SemiImplicitEuler is symplectic", "statement": "The step map of SemiImplicitEuler is symplectic (preserves area for separable Hamiltonian systems) and is inverted exactly by the reversed-order step with negated controls.", "quantifier": "every pair of vector fields, interval and state", "why_tests_cant": "All vector fields.", "anchors": ["diffrax/_solver/semi_implicit_euler.py: SemiImplicitEuler.step"]}
{"id": "C47", "title": "Brownian increments over adjacent intervals add up", "statement": "For VirtualBrownianTree, evaluate(s, t) + evaluate(t, u) = evaluate(s, u) for the Brownian motion, and the space-time (and space-time-time) Levy areas combine by Chen's relation; evaluate(t, t) is zero.", "quantifier": "every key, every s, t, u in [t0, t1]", "why_tests_cant": "All query times.", "anchors": ["diffrax/_brownian/tree.py: VirtualBrownianTree.evaluate, _levy_diff, _make_levy_val"]}
{"id": "C48", "title": "VirtualBrownianTree is one fixed path", "statement": "The value returned for a time depends only on the key and that time, never on other queries; queries at times that are dyadic ancestors of other queries return exactly the values those other queries were bridged from; the search always terminates after the number of levels given by tol.", "quantifier": "every key, query time and tolerance > 0", "why_tests_cant": "All query times and depths.", "anchors": ["diffrax/_brownian/tree.py: VirtualBrownianTree._evaluate_leaf, _split_interval"]}
{"id": "C49", "title": "VirtualBrownianTree has Brownian covariance", "statement": "Treating the random draws attached to distinct keys as independent standard normals, the values at the tree's nodes and at any query have variance equal to elapsed time and covariance min(s, t) (up to the leaf resolution), for each Levy area setting; H has variance t/12.", "quantifier": "all tree depths and all node pairs / queries", "why_tests_cant": "A statistical test can only estimate; this is exact for all depths.", "anchors": ["diffrax/_brownian/tree.py: VirtualBrownianTree._brownian_arch, _evaluate_leaf"]}
{"id": "C50", "title": "Terms are linear in their control and direction flips cancel", "statement": "vf_prod equals prod of vf for every built-in term; MultiTerm is the sum of its terms' contributions; wrapping a term with direction -1 twice gives back the term; contributions over adjacent intervals add for a fixed vector field.", "quantifier": "every term, control, interval and state", "why_tests_cant": "All terms and values.", "anchors": ["diffrax/_term.py: ODETerm, ControlTerm, MultiTerm, WrapTerm"]}
{"id": "C51", "title": "BacksolveAdjoint integrates each interval once and injects each cotangent once", "statement": "The backward pass of BacksolveAdjoint integrates from the last requested time down to t0 over consecutive intervals that tile [t0, last] exactly once, adding each saved value's cotangent exactly once, at its own time, including repeated times.", "quantifier": "every nondecreasing ts of any length, all combinations of SaveAt(t0/t1/ts) it accepts", "why_tests_cant": "All lengths.", "anchors": ["diffrax/_adjoint.py: _loop_backsolve_bwd"]}
{"id": "C52", "title": "Progress meters are independent and cleaned up", "statement": "Each open progress meter has its own identifier; steps and closes act on that meter only; after close the meter's resources are removed exactly once.", "quantifier": "every interleaving of init/step/close calls from any number of concurrent solves", "why_tests_cant": "All schedules.", "anchors": ["diffrax/_progress_meter.py: _ProgressMeterManager"]}
{"id": "C53", "title": "TextProgressMeter reports are increasing and throttled", "statement": "The text meter prints 0% first and 100% last; the percentages printed increase strictly, each except the final 100% by more than `minimum_increase`; 100% is printed once; and after each step the last percentage printed is at most `minimum_increase` behind the progress made.", "quantifier": "every sequence of progress values; every solve (any solver, controller, events, failures); batches of solves", "why_tests_cant": "All sequences.", "anchors": ["diffrax/_progress_meter.py: TextProgressMeter"]}
{"id": "C54", "title": "Invalid SaveAt / StepTo / dt0 arguments are rejected", "statement": "diffeqsolve raises unless saveat.ts is monotone in the direction of integration and lies within [t0, t1], dt0 has the sign of t1 - t0, and StepTo.ts is strictly monotone with ends t0 and t1; SaveAt with nothing to save is rejected.", "quantifier": "all argument values", "why_tests_cant": "All inputs.", "anchors": ["diffrax/_integrate.py: diffeqsolve._check_subsaveat_ts, diffeqsolve (dt0 check)", "diffrax/_saveat.py: SubSaveAt.__init__, SaveAt.__init__", "diffrax/_step_size_controller/constant.py: StepTo.wrap, StepTo.init"]}
{"id": "C55", "title": "VeryChord stops only for a stated reason", "statement": "The chord root finder reports success only if the last update was negligible or the estimated remaining error is below kappa, never before two iterations, and with every linear solve successful; it stops at the first reason to stop; it reports failure on divergence, values that are not finite, linear solve failure or running out of iterations; when the iteration contracts at the rate observed, the reported root is within kappa of the true one; a failed implicit stage makes the step's error infinite so an adaptive controller retries.", "quantifier": "all iteration histories", "why_tests_cant": "All real histories.", "anchors": ["diffrax/_root_finder/_verychord.py: VeryChord.terminate", "diffrax/_solver/runge_kutta.py: AbstractRungeKutta.step"]}
{"id": "C56", "title": "Event conditions see the user's own time in backward solves", "statement": "When t1 < t0, the time passed to each event condition function is a time in [t1, t0], as it is for vector fields and SaveAt(fn=...).", "quantifier": "every backward-in-time solve with events", "why_tests_cant": "All problems; a test with an autonomous condition function cannot see it.", "anchors": ["diffrax/_integrate.py: diffeqsolve, loop", "diffrax/_event.py: Event"]}
{"id": "C57", "title": "Backward Hermite cubic paths are continuous across missing data", "statement": "CubicInterpolation built from backward_hermite_coefficients on data with NaNs between observations is a continuous path which passes through every observation.", "quantifier": "every pattern of interior missing values", "why_tests_cant": "All missingness patterns; needs runs of missing values longer than one.", "anchors": ["diffrax/_global_interpolation.py: _backward_hermite_coefficients, _hermite_impl, _hermite_forward"]}
{"id": "C58", "title": "replace_nans_at_start only replaces NaNs", "statement": "Passing replace_nans_at_start to linear_interpolation, rectilinear_interpolation or backward_hermite_coefficients does not change the result when the first value is observed.", "quantifier": "every data set whose first value is observed, every replacement", "why_tests_cant": "All data sets and lengths.", "anchors": ["diffrax/_global_interpolation.py: linear_interpolation, rectilinear_interpolation, backward_hermite_coefficients", "diffrax/_misc.py: fill_forward"]}
{"id": "C59", "title": "A rejected step is retried with a strictly shorter one", "statement": "Whenever a step is rejected and the step size controller proposes the same start with an earlier end, the next attempted step has the same start and ends strictly earlier than the rejected one, so that no step is ever retried unchanged.", "quantifier": "every solver, controller and problem; every rejected step", "why_tests_cant": "The rounding of step ends near t1 interacts with rejections only in the last couple of hundred floating point numbers before t1, for arbitrary controllers; tests would have to hit that zone with a rejection.", "anchors": ["diffrax/_integrate.py: _clip_to_end, loop"]}
{"id": "C61", "title": "Runge-Kutta steps have the order of accuracy that is documented", "statement": "For every built-in Runge-Kutta method (explicit, diagonally implicit, implicit-explicit), one step of size h from an exact value differs from the exact solution by O(h^(p+1)), where p is the value returned by `order`, and the error estimate is O(h^q), where q is the documented order of the embedded method plus one; for every analytic (possibly time-dependent) vector field on any Banach space. Where the coefficients are given as truncated decimals, up to a stated multiple of the truncation error.", "quantifier": "all analytic vector fields, all initial values and times, all exact solutions, h -> 0", "why_tests_cant": "Order of accuracy is a statement about a limit, over all vector fields; convergence tests see a few problems and a few step sizes and cannot distinguish a wrong high-order coefficient that those problems do not excite.", "anchors": ["diffrax/_solver/heun.py", "diffrax/_solver/midpoint.py", "diffrax/_solver/ralston.py", "diffrax/_solver/bosh3.py", "diffrax/_solver/tsit5.py", "diffrax/_solver/dopri5.py", "diffrax/_solver/dopri8.py", "diffrax/_solver/kvaerno3.py", "diffrax/_solver/kvaerno4.py", "diffrax/_solver/kvaerno5.py", "diffrax/_solver/kencarp3.py", "diffrax/_solver/kencarp4.py", "diffrax/_solver/kencarp5.py", "diffrax/_solver/sil3.py", "diffrax/_solver/runge_kutta.py: AbstractRungeKutta.step"]}
{"id": "C62", "title": "A step whose nonlinear solve failed is rejected and retried", "statement": "If the nonlinear solve inside a step of an implicit solver fails to converge, the step is rejected by an adaptive step size controller and tried again with a smaller step (as the documentation of root_find_max_steps says); the solve does not end with the nonlinear solver's error while smaller steps are possible.", "quantifier": "every implicit solver, also wrapped in HalfSolver, every adaptive controller rejecting infinite errors, every problem", "why_tests_cant": "Whether a failed solve comes with a large error estimate depends on the vector field and the iterate the root finder stopped at.", "anchors": ["diffrax/_solver/implicit_euler.py: ImplicitEuler.step", "diffrax/_solver/runge_kutta.py: AbstractRungeKutta.step (y_error = inf on failure)", "diffrax/_solver/base.py: HalfSolver.step", "diffrax/_integrate.py: body_fun"]}
{"id": "C63", "title": "LeapfrogMidpoint is reversible", "statement": "Each step of LeapfrogMidpoint is undone exactly by the same method with the roles of previous and next point exchanged; the first step is Euler's; with equal steps y' = a + b t is integrated exactly.", "quantifier": "every term, every three times, every two values", "why_tests_cant": "All vector fields and step sizes.", "anchors": ["diffrax/_solver/leapfrog_midpoint.py: LeapfrogMidpoint.step, init"]}
{"id": "C64", "title": "ItoMilstein and StratonovichMilstein agree on equivalent equations", "statement": "A step of ItoMilstein for drift f and diffusion g equals the step of StratonovichMilstein for drift f - 1/2 sum_j (Dg_j) g_j and diffusion g, for any number of noises and without commutativity assumption.", "quantifier": "every drift, every differentiable diffusion, every increment", "why_tests_cant": "All vector fields, dimensions and increments.", "anchors": ["diffrax/_solver/milstein.py: StratonovichMilstein.step, ItoMilstein.step"]}
{"id": "C60", "title": "Automatic first step adapts to the ODE", "statement": "With dt0=None and a PIDController, the first step of an ODE solve is chosen from the size of the initial value and of the vector field relative to the tolerances (Hairer, Norsett, Wanner II.4): it is positive and at most d0/d1 in their notation.", "quantifier": "every ODE, initial value and tolerances", "why_tests_cant": "All problems; a solve with a badly chosen first step still gives an accurate answer.", "anchors": ["diffrax/_step_size_controller/pid.py: _select_initial_step, PIDController.init", "diffrax/_integrate.py: diffeqsolve (WrapTerm)"]}
{"id": "C65", "title": "Levy areas of backward solves", "statement": "A solve backwards in time (t1 < t0) driven by a path w is a solve forwards in time driven by the time-reversed path. So over each step the solver is given what belongs to the reversed path: the increment W, and the space-time Levy areas H and K, computed from their integral definitions.", "quantifier": "every continuous path and every step of a backward solve", "why_tests_cant": "Requires comparing with the integral definition of H and K over every path; the existing tests only look at distributions, which are symmetric.", "anchors": ["diffrax/_term.py: WrapTerm.contr", "diffrax/_custom_types.py: SpaceTimeLevyArea, SpaceTimeTimeLevyArea", "diffrax/_solver/srk.py: AbstractSRK.step"]}
{"id": "C66", "title": "Stochastic Runge-Kutta steps are the documented formulas", "statement": "The step of SEA, SRA1, ShARK, GeneralShARK, SlowRK and SPaRK gives the y_{n+1} and the error estimate of the formulas in the documentation, including the stages that are skipped as an optimisation; in forward and backward solves alike (a backward solve of dy = v dt moves by -h v).", "quantifier": "every tableau, drift, diffusion, interval and value", "why_tests_cant": "All tableaus and vector fields; the skipped stages and the treatment of additive noise are separate code paths.", "anchors": ["diffrax/_solver/srk.py: AbstractSRK.step", "diffrax/_solver/sea.py", "diffrax/_solver/sra1.py", "diffrax/_solver/shark.py", "diffrax/_solver/shark_general.py", "diffrax/_solver/slowrk.py", "diffrax/_solver/spark.py"]}
{"id": "C67", "title": "Strong order of the stochastic Runge-Kutta methods for additive noise", "statement": "For dy = f(t,y) dt + g(t) dw with additive noise, one step of SRA1, ShARK, GeneralShARK, SlowRK or SPaRK of size h differs from the exact solution along the same Brownian path by a term of order h^2 that has mean zero, up to terms of order h^(5/2) (strong order 3/2); one step of SEA by a term of order h^2 (strong order 1).", "quantifier": "every smooth drift and diffusion, any dimension, any number of noises, every continuous path (scaled as Brownian motion is), every process with the second moments of Brownian motion", "why_tests_cant": "The claim is an asymptotic statement over all vector fields and paths; tests estimate an order by regression on a few equations with a loose tolerance.", "anchors": ["diffrax/_solver/srk.py: AbstractSRK.step", "diffrax/_solver/sea.py", "diffrax/_solver/sra1.py", "diffrax/_solver/shark.py", "diffrax/_solver/shark_general.py", "diffrax/_solver/slowrk.py", "diffrax/_solver/spark.py"]}
{"id": "C68", "title": "With exact backward solves, BacksolveAdjoint returns the gradient", "statement": "If the solves of the backward pass follow the adjoint equations exactly, then the cotangents of y0 and of the parameters that BacksolveAdjoint returns are the gradient of the loss, for every differentiable loss of the saved values: along every direction, their pairing with the direction is the derivative of the loss. A solver that keeps an earlier value must not lose a cotangent.", "quantifier": "every ODE with smooth right-hand side, any number of saved times (with repetitions), SaveAt(t0=...) or not, every direction and loss", "why_tests_cant": "All equations, losses and numbers of saved times; finite differences only check samples to rounding.", "anchors": ["diffrax/_adjoint.py: _loop_backsolve_bwd", "diffrax/_term.py: AdjointTerm"]}
{"id": "C69", "title": "A step after a jump starts afresh", "statement": "A solver told of a jump (made_jump=True) makes a step that depends on the interval and the value only and equals the first step of a new solve, whatever the state left by earlier steps.", "quantifier": "every solver, equation, interval, value and state", "why_tests_cant": "All states and equations.", "anchors": ["diffrax/_solver/base.py: AbstractSolver.step", "diffrax/_solver/runge_kutta.py", "diffrax/_solver/leapfrog_midpoint.py", "diffrax/_solver/reversible_heun.py"]}
{"id": "C70", "title": "Solves converge with the order of their method", "statement": "For every equation with analytic, Lipschitz vector fields and every solution of it on [t0, t1], there are constants such that any solve with a built-in Runge-Kutta solver of order p, whose accepted steps are at most eta long, is off by at most exp(K (t1-t0)) (initial error + (t1-t0) B eta^p), at every step and at the end, whatever the step size controller, the rejected steps and the outputs. With ConstantStepSize and an explicit method the solve succeeds, ends at t1 and its error is at most a constant times dt0^p. Where the coefficients are truncated decimals, a stated multiple of the truncation is added.", "quantifier": "all analytic Lipschitz vector fields on Banach spaces, all intervals, initial values, step size controllers without jumps, patterns of accepted and rejected steps, numbers of steps", "why_tests_cant": "Convergence is a statement about all step sizes and all equations; tests fit a slope on a few.", "anchors": ["diffrax/_integrate.py: loop", "diffrax/_solver/runge_kutta.py: AbstractRungeKutta.step", "diffrax/_step_size_controller/constant.py"]}
{"id": "C71", "title": "Taylor and direct coefficients of the Langevin solvers agree", "statement": "For ALIGN, ShOULD and QUICSORT, wherever |gamma h| <= 1 every coefficient computed by its Taylor expansion differs from the one computed directly by at most |gamma h|^6 / 100 (relative to 1 or to the time 1/|gamma|), so that at any taylor_threshold the choice between them makes a difference of this order only.", "quantifier": "all gamma != 0 and h != 0 of either sign with |gamma h| <= 1, all coefficients of the three solvers", "why_tests_cant": "All gamma and h.", "anchors": ["diffrax/_solver/align.py", "diffrax/_solver/should.py", "diffrax/_solver/quicsort.py", "diffrax/_solver/foster_langevin_srk.py: _eval_taylor"]}
{"id": "C72", "title": "The Langevin solvers are exact in the cases they are built on", "statement": "A step of ALIGN is the exact solution of the underdamped Langevin equation if the force is constant and the driving path is a parabola; that of ShOULD if there is no force and the path is a polynomial of third degree; that of QUICSORT if there is no force and the path is straight.", "quantifier": "all dimensions, frictions, dampings, initial values, step lengths (with directly computed coefficients) and paths of these kinds", "why_tests_cant": "All paths and parameters; exactness cannot be seen from rounded numbers.", "anchors": ["diffrax/_solver/align.py: _compute_step", "diffrax/_solver/should.py: _compute_step", "diffrax/_solver/quicsort.py: _compute_step", "diffrax/_solver/foster_langevin_srk.py: step"]}
{"id": "C73", "title": "The Langevin solvers have their documented strong orders, locally", "statement": "Over a step of length h, driven by Brownian motion, the step of ALIGN differs from the exact solution of the underdamped Langevin equation by h^(5/2) times a random variable of mean zero plus a remainder of order h^3; those of ShOULD and QUICSORT by h^(7/2) times one of mean zero plus a remainder of order h^4: the local errors of methods of strong order 2, 3 and 3. Without noise the local errors are of order h^3, h^4 and h^4. At every sufficiently small step the same holds whether coefficients come from the Taylor expansion or not.", "quantifier": "all dimensions, non-zero frictions, dampings, forces twice expandable at the initial point, initial values, continuous driving paths (Brownian scaling), taylor thresholds", "why_tests_cant": "The order is an asymptotic statement about all forces, frictions and paths; tests fit a slope on a few samples.", "anchors": ["diffrax/_solver/align.py: _compute_step, order", "diffrax/_solver/should.py", "diffrax/_solver/quicsort.py", "diffrax/_solver/foster_langevin_srk.py: step"]}
{"id": "C74", "title": "The Langevin solvers use coefficients that fit the step", "statement": "Every step of ALIGN, ShOULD and QUICSORT uses the coefficients that belong to its own length: those of the exponential integrator, up to the error of the Taylor expansion where gamma |h| is below the threshold.", "quantifier": "all sequences of step lengths, forward or backward, of any number", "why_tests_cant": "Depends on long sequences of step lengths and on their scale.", "anchors": ["diffrax/_solver/foster_langevin_srk.py: step, _recompute_coeffs"]}
{"id": "C75", "title": "Dense output of the Runge-Kutta solvers has its documented local order", "statement": "Within one successful step of length h from an exact value, the interpolated value at every fraction of the step differs from the exact solution by O(h^q), q the documented order of the solver's interpolation (up to the rounding of the decimal coefficients in the source): 2 for Heun, Midpoint, Ralston, Sil3, KenCarp3; 3 for Bosh3, Kvaerno3, Kvaerno4, Kvaerno5, KenCarp4, KenCarp5; 5 for Dopri5 and Tsit5; 8 for Dopri8.", "quantifier": "all smooth vector fields (split ones for the IMEX solvers), Banach spaces, initial values, fractions of the step, solver states that are valid, exact root finders", "why_tests_cant": "Asymptotic statement about all smooth vector fields; tests compare single values with a tolerance and would not notice a wrong coefficient or a lost order.", "anchors": ["diffrax/_local_interpolation.py", "diffrax/_solver/dopri8.py: _Dopri8Interpolation", "diffrax/_solver/tsit5.py: _Tsit5Interpolation", "diffrax/_solver/kencarp3.py", "diffrax/_solver/kencarp4.py", "diffrax/_solver/kencarp5.py", "diffrax/_solver/dopri5.py", "diffrax/_solver/sil3.py"]}
{"id": "C76", "title": "Values from SaveAt(ts) and dense output converge with the order of solver and interpolation", "statement": "For solves whose accepted steps are at most h long, all values returned by SaveAt(ts=...) and by SaveAt(dense=True) have an error of at most a constant times (initial error + h^N) plus a constant times h^(q+1), N the order of the solver and O(h^(q+1)) the documented local error of its interpolation. In particular, with a documented interpolation order of at least N-1 they converge with the order of the solver.", "quantifier": "all analytic Lipschitz vector fields on Banach spaces, step size controllers without jumps, patterns of accepted and rejected steps, requested times, events, exact root finders", "why_tests_cant": "Asymptotic statement about all equations, step patterns and requested times; tests look at a few step sizes for a few equations.", "anchors": ["diffrax/_integrate.py: save_ts", "diffrax/_global_interpolation.py: DenseInterpolation.evaluate", "diffrax/_solver/runge_kutta.py", "diffrax/_solver/dopri8.py: _Dopri8Interpolation"]}
{"id": "C77", "title": "Dense output and SaveAt(ts) join up with the states of the solve", "statement": "At the two ends of every accepted step, dense output is the value from which the step was made and the value that the step returned. So the value saved at t1 by SaveAt(ts=[..., t1]), the value of dense output at the final time, and the value saved by SaveAt(t1=True) are the same.", "quantifier": "all solvers, terms, step size controllers, numbers of steps, rejected steps in between", "why_tests_cant": "Depends on coefficients of every solver and on whole runs with any sequence of accepted and rejected steps.", "anchors": ["diffrax/_local_interpolation.py", "diffrax/_global_interpolation.py: DenseInterpolation.evaluate", "diffrax/_integrate.py: save_ts, final value", "diffrax/_solver/base.py: HalfSolver.step"]}
{"id": "C78", "title": "The ODE solvers that are not Runge-Kutta tableaus converge with their documented order", "statement": "For solves whose accepted steps are at most h long, the error of Euler, ImplicitEuler and SemiImplicitEuler, at every step and at the end, is at most a constant times (initial error + h), that of ReversibleHeun and LeapfrogMidpoint a constant times (initial error + h^2), and that of HalfSolver(s) has the order of s with a constant smaller by 2^order; the error estimate of HalfSolver has the documented order. A step of ImplicitEuler that is reported as successful solves the equation of the method.", "quantifier": "all Lipschitz (for order 2: sufficiently smooth) vector fields on normed spaces, step size controllers without jumps, patterns of accepted and rejected steps, outputs, events", "why_tests_cant": "Asymptotic statement about all equations and all step patterns; the tests look at a few equations with constant steps.", "anchors": ["diffrax/_solver/euler.py", "diffrax/_solver/implicit_euler.py", "diffrax/_solver/semi_implicit_euler.py", "diffrax/_solver/reversible_heun.py", "diffrax/_solver/leapfrog_midpoint.py", "diffrax/_solver/base.py: HalfSolver"]}
{"id": "C79", "title": "Solvers for SDEs converge strongly, to the solution of the documented (Itô or Stratonovich) kind", "statement": "When an SDE with Brownian motion is solved with fixed steps of length at most h, the mean square of the error at the end is at most a constant times (initial mean square error + h). The error is taken to the Itô solution for Euler and ItoMilstein, and to the Stratonovich solution for EulerHeun and StratonovichMilstein. The noise may be multidimensional and need not commute.", "quantifier": "all drifts and diffusions that are Lipschitz in y and Hölder continuous in time (for the Milstein methods and EulerHeun: with a differentiable diffusion), dimensions, initial values, numbers of steps, sequences of step lengths, outputs", "why_tests_cant": "A statement about the mean over all Brownian paths in the limit of small steps, for all equations; the tests estimate it by sampling, for a few equations and step sizes.", "anchors": ["diffrax/_solver/euler.py", "diffrax/_solver/milstein.py", "diffrax/_solver/euler_heun.py", "diffrax/_term.py: ControlTerm, MultiTerm", "diffrax/_integrate.py: diffeqsolve"]}
{"id": "C80", "title": "The Milstein methods have strong order one for commutative noise", "statement": "When an SDE with commutative Brownian noise is solved with ItoMilstein (StratonovichMilstein) and fixed steps of length at most h, the mean square of the error to the Itô (Stratonovich) solution at the end is at most a constant times (initial mean square error + h²). The same holds for Euler if the noise is additive.", "quantifier": "all drifts and diffusions that are Lipschitz in y and in time and have a second order remainder in the directions of the noise, all dimensions, initial values, numbers of steps, sequences of step lengths, outputs", "why_tests_cant": "A statement about the mean over all Brownian paths in the limit of small steps, for all equations; the tests estimate it by sampling, for a few equations and step sizes.", "anchors": ["diffrax/_solver/milstein.py: strong_order, step", "diffrax/_solver/euler.py", "diffrax/_term.py: ControlTerm, MultiTerm", "diffrax/_integrate.py: diffeqsolve"]}
{"id": "C81", "title": "Heun, Midpoint, Ralston and higher-order explicit Runge-Kutta solvers converge to the Stratonovich solution of SDEs", "statement": "When an SDE with Brownian motion is solved with Heun, Midpoint, Ralston, Bosh3 or Dopri5 and fixed steps of length at most h, the mean square of the error to the Stratonovich solution at the end is at most a constant times (initial mean square error + h). The noise may be multidimensional and need not commute.", "quantifier": "all drifts and diffusions that are Lipschitz (the diffusion also in time, and with a second order remainder in the directions of the noise), all explicit tableaus satisfying the conditions of order 2 exactly, all dimensions, initial values, numbers of steps, sequences of step lengths, outputs", "why_tests_cant": "A statement about the mean over all Brownian paths in the limit of small steps, for all equations; the tests estimate it by sampling, for a few equations and step sizes.", "anchors": ["diffrax/_solver/heun.py", "diffrax/_solver/midpoint.py", "diffrax/_solver/ralston.py", "diffrax/_solver/bosh3.py", "diffrax/_solver/dopri5.py", "diffrax/_solver/runge_kutta.py", "docs/api/solvers/sde_solvers.md"]}
{"id": "C82", "title": "Adaptive solves of Lipschitz equations finish", "statement": "Solving an ODE with Lipschitz vector field with Heun, Midpoint, Ralston, Bosh3, Dopri5, Tsit5 or Dopri8 and PIDController without dtmin needs a bounded number of steps, whatever steps are rejected on the way: if max_steps is at least this bound, the solve is successful and ends at t1. In general, if steps of length at most H have a scaled error below one, the number of steps is bounded in terms of H, dtmax, the first step, safety and factormin. The exception is that H is shorter than the last 100 floating point numbers before t1.", "quantifier": "all Lipschitz vector fields continuous in time, all dimensions, intervals, initial values in a ball, positive atol, rtol, norms between zero and the largest component, PID coefficients, factors, dtmax and first steps, all outputs", "why_tests_cant": "Termination for all equations and tolerances; a test can only run some equations to the end. Rejections interact with rounding to t1, which replaces the step asked for by another one.", "anchors": ["diffrax/_step_size_controller/pid.py", "diffrax/_integrate.py", "diffrax/_solver/runge_kutta.py"]}
{"id": "C83", "title": "A batch behaves like its elements", "statement": "jax.vmap over diffeqsolve gives each element of the batch exactly what it gets when it is solved alone: saved values, dense output, statistics, internal states and result, although all elements share one loop and some decisions (evaluating the first stage of a step, recomputing coefficients, evaluating the function to be saved, running the event root finder) are made for the whole batch.", "quantifier": "all batch sizes, all configurations, initial values and step size histories of the elements, all numbers of steps, rejections, jumps, events and failures", "why_tests_cant": "All combinations of histories of all elements of a batch of any size.", "anchors": ["diffrax/_integrate.py: loop", "diffrax/_solver/runge_kutta.py: step", "diffrax/_solver/foster_langevin_srk.py: step", "diffrax/_solver/base.py: HalfSolver"]}
{"id": "C84", "title": "Events stop a solve, and do nothing else", "statement": "A solve with events takes exactly the same steps, and saves exactly the same values, as the solve without events, up to the point where it is stopped by an event. If no event is reported, it returns the same final time, value, result, statistics, internal states, dense output and (without root finder) saved values.", "quantifier": "all solvers, controllers, conditions, directions, numbers of steps and rejections", "why_tests_cant": "All conditions and all step size histories; a test compares particular solves.", "anchors": ["diffrax/_integrate.py: loop", "diffrax/_integrate.py: diffeqsolve", "diffrax/_event.py: Event"]}
{"id": "C85", "title": "Event times converge", "statement": "If the solution of an ODE crosses the zero of an event condition with non-zero slope, then a solve with small enough steps reports the event. Without root finder, the time reported is wrong by at most about one step; with a root finder, it and the value there converge with the order of the solver and its interpolation, up to the tolerances of the root finder.", "quantifier": "all analytic Lipschitz ODEs, all Lipschitz conditions, all crossings in either direction, all step size controllers and step sequences", "why_tests_cant": "A limit statement about infinitely many step sizes, equations and conditions.", "anchors": ["diffrax/_integrate.py: loop", "diffrax/_event.py: Event", "diffrax/_solver/runge_kutta.py: step"]}
{"id": "C86", "title": "Implicit solvers converge although their equations are solved only up to a tolerance", "statement": "With a root finder that, when it reports success, has made the equation of an implicit stage true only up to a tolerance, the solve still converges with the order of the method, up to an error proportional to the tolerance. For solvers that solve for increments rather than slopes, the tolerance has to be relative to the length of the shortest step.", "quantifier": "all analytic Lipschitz ODEs, all root finders, tolerances, step size controllers and step sequences", "why_tests_cant": "A limit statement about infinitely many step sizes, tolerances, root finders and equations.", "anchors": ["diffrax/_solver/runge_kutta.py: _implicit_relation_f", "diffrax/_solver/runge_kutta.py: _implicit_relation_k", "diffrax/_solver/runge_kutta.py: step", "diffrax/_root_finder/_verychord.py: VeryChord"]}
{"id": "C87", "title": "Controlled differential equations: convergence of Runge-Kutta methods, and its limit", "statement": "Solving MultiTerm(ODETerm(f), ControlTerm(g, x)) with an explicit Runge-Kutta method converges to the solution of y' = f(t, y) + g(t, y) x'(t): with order 1 if the control has finite speed (it may have corners, like a linear interpolation of data), with order 2 if the vector fields are smooth and the speed of the control is Lipschitz (like a cubic interpolation). The order is not higher than 2 in general, whatever the order of the solver.", "quantifier": "all Lipschitz vector fields, all control paths, all step size controllers and step sequences", "why_tests_cant": "A limit statement about infinitely many step sizes, equations and controls.", "anchors": ["diffrax/_term.py: ControlTerm", "diffrax/_term.py: MultiTerm", "diffrax/_solver/runge_kutta.py: step", "diffrax/_integrate.py: loop"]}
{"id": "C88", "title": "steady_state_event stops at steady states only, and does stop there", "statement": "A solve with steady_state_event(rtol, atol, norm) stops at the first step at which norm(f) < atol + rtol * norm(y), f being the vector field. Missing tolerances are those of an adaptive step size controller, and an error otherwise. So for an equation with an attracting steady state (rate mu), the reported value is within (atol + rtol |y|) / mu of it, and the event is reported if t1 is large enough and the steps are small enough.", "quantifier": "all equations with an attracting steady state, all tolerances, solvers and step sequences", "why_tests_cant": "All equations and all tolerances; whether the event is reported at all depends on the limit of small steps.", "anchors": ["diffrax/_event.py: steady_state_event", "diffrax/_solver/runge_kutta.py: func", "diffrax/_term.py: MultiTerm.vf", "diffrax/_integrate.py: loop"]}
{"id": "C89", "title": "ImplicitAdjoint gives the derivative of the steady state", "statement": "When a solve towards a steady state is differentiated with adjoint=ImplicitAdjoint(), the derivative of the result in the parameters of the vector field is the derivative of the steady state, up to an error proportional to the distance of the result from the steady state, and so, with steady_state_event, to its tolerances.", "quantifier": "all smooth contracting vector fields with parameters, all solvers, all tolerances", "why_tests_cant": "Statement about exact derivatives, for all vector fields and all solutions the solver may return.", "anchors": ["diffrax/_adjoint.py: ImplicitAdjoint", "diffrax/_adjoint.py: _vf", "diffrax/_event.py: steady_state_event", "diffrax/_solver/runge_kutta.py: func"]}
{"id": "C90", "title": "UnsafeBrownianPath: increments over different intervals are independent", "statement": "The increments (and Lévy areas) that an UnsafeBrownianPath returns for different intervals are independent and have the variances of a Brownian motion, so that on the steps of a solve they are those of a Brownian motion, in single and in double precision.", "quantifier": "all finite collections of intervals, all Lévy areas, all keys, float32 and float64 times", "why_tests_cant": "Independence is a property of the joint law; which times share a key depends on their bits, and tests sample few times.", "anchors": ["diffrax/_brownian/path.py: UnsafeBrownianPath.evaluate", "diffrax/_misc.py: force_bitcast_convert_type"]}
{"id": "C91", "title": "Stopping and resuming a solve", "statement": "A solve that is stopped (by max_steps, at an intermediate time, or by an event) and resumed from its final time and value, with solver_state, controller_state and made_jump as returned by SaveAt(...), ends with the same value, states and result as a single solve would have done, and its steps go forward in time.", "quantifier": "all problems, solvers, controllers, all numbers of steps after which the solve is stopped", "why_tests_cant": "It relates pairs of executions of arbitrary length, for all places where the solve may be cut.", "anchors": ["diffrax/_integrate.py: diffeqsolve (solver_state, controller_state, made_jump)", "diffrax/_step_size_controller/constant.py: ConstantStepSize", "diffrax/_saveat.py: SaveAt"]}
{"id": "C92", "title": "Strong order for additive noise", "statement": "Solving dY = f(t,Y) dt + g(t) dW with constant or prescribed steps, SRA1, ShARK, GeneralShARK, SlowRK and SPaRK converge with strong order 3/2, and SEA with strong order 1: the mean square of the error of the final value of the whole solve is at most a constant times the third power (for SEA: the square) of the length of the longest step, plus a constant times the mean square of the initial error.", "quantifier": "all smooth drifts and time-dependent diffusions, all Brownian motions (any dimension), all step sequences, all initial values", "why_tests_cant": "It is a bound on the mean over all paths of the noise, in the limit of small steps, for all equations.", "anchors": ["diffrax/_solver/srk.py: AbstractSRK.step", "diffrax/_solver/sra1.py: SRA1", "diffrax/_solver/shark.py: ShARK", "diffrax/_solver/shark_general.py: GeneralShARK", "diffrax/_solver/slowrk.py: SlowRK", "diffrax/_solver/spark.py: SPaRK", "diffrax/_solver/sea.py: SEA"]}
{"id": "C93", "title": "Smaller tolerances give smaller errors", "statement": "For a solve with PIDController, the distance of the final value from the exact solution can be made as small as wanted by choosing rtol and atol small enough.", "quantifier": "all equations with smooth Lipschitz vector fields, all explicit Runge-Kutta solvers with an error estimate, all first steps, all other settings of the controller", "why_tests_cant": "It is a limit over all tolerances for all equations; a test tries a few tolerances on equations where the estimate happens to work.", "anchors": ["diffrax/_step_size_controller/pid.py: PIDController.adapt_step_size", "diffrax/_solver/runge_kutta.py: AbstractRungeKutta.step", "diffrax/_integrate.py: diffeqsolve"]}
{"id": "C94", "title": "The Langevin terms have the Gibbs distribution as invariant distribution", "statement": "The diffusion given by UnderdampedLangevinDriftTerm(gamma, u, grad_f) and UnderdampedLangevinDiffusionTerm(gamma, u, bm) leaves the density exp(-f(x) - sum_i v_i^2/(2 u_i)) invariant, so that positions are distributed as exp(-f).", "quantifier": "all dimensions, all potentials f with continuous gradient, all gamma >= 0, all u > 0", "why_tests_cant": "It is an identity of integrals for all test functions and potentials; a test samples finitely many noisy trajectories.", "anchors": ["diffrax/_term.py: UnderdampedLangevinDriftTerm", "diffrax/_term.py: UnderdampedLangevinDiffusionTerm"]}
{"id": "C95", "title": "Solves converge wherever the exact solution exists", "statement": "If the exact solution exists on [t0, t1] and the vector field is analytic near it, then the error of a solve with an explicit Runge-Kutta solver of order N is at most a constant times (initial error + (longest accepted step)^N), once both are small enough. The vector field need not be Lipschitz, nor be defined away from the solution.", "quantifier": "all equations in finite dimension, all open domains of the vector field, all solutions, all step size controllers, patterns of rejected steps, outputs and events", "why_tests_cant": "It is a limit over all step sizes for all equations; a test tries a few step sizes on a few equations, usually globally Lipschitz ones.", "anchors": ["diffrax/_solver/runge_kutta.py: AbstractRungeKutta.step", "diffrax/_integrate.py: diffeqsolve", "diffrax/_solver/dopri5.py: Dopri5", "diffrax/_solver/tsit5.py: Tsit5"]}
{"id": "C96", "title": "Derivatives of solves converge to the derivatives of the exact solution", "statement": "Differentiating a solve with an explicit Runge-Kutta solver of order N, with respect to the initial value or the arguments (discretise-then-optimise), gives the derivative of the exact solution up to a constant times (longest accepted step)^N, once the steps are small enough. The accepted steps are held fixed, as the step size controllers are not differentiated. With ConstantStepSize the solve is differentiable as a function of its inputs and this is its derivative.", "quantifier": "all families of analytic equations in finite dimension with a parameter, all families of solutions, all step size controllers, patterns of rejected steps, outputs and events without root finder", "why_tests_cant": "It is a limit over all step sizes for all equations; tests compare a few gradients with finite differences of the same solve, which says nothing about the exact solution.", "anchors": ["diffrax/_adjoint.py: RecursiveCheckpointAdjoint, DirectAdjoint, ForwardMode", "diffrax/_solver/runge_kutta.py: AbstractRungeKutta.step", "diffrax/_step_size_controller/pid.py: PIDController.adapt_step_size", "diffrax/_integrate.py: diffeqsolve"]}
{"id": "C97", "title": "Gradients of BacksolveAdjoint converge to the exact gradients", "statement": "With BacksolveAdjoint and an explicit Runge-Kutta solver of order N, the gradient of a loss of the saved values with respect to the initial value and the parameters differs from the gradient of the same loss of the exact solution by at most a constant times (error of the saved values and of the gradients of the loss there) + (longest accepted step of the backward solves)^N, once these are small enough. In particular it converges to the exact gradient, although it is not the gradient of the discretised solve.", "quantifier": "all analytic equations in finite dimension with parameters, all their solutions on the interval, any number of saved times, all losses, all step size controllers without jumps and patterns of rejected steps in the backward pass", "why_tests_cant": "It is a limit over all step sizes for all equations and losses; tests compare a few gradients with those of other adjoints at fixed tolerances.", "anchors": ["diffrax/_adjoint.py: BacksolveAdjoint, _loop_backsolve_bwd", "diffrax/_term.py: AdjointTerm", "diffrax/_solver/runge_kutta.py: AbstractRungeKutta.step", "diffrax/_integrate.py: diffeqsolve"]}
{"id": "C98", "title": "Backward solves of BacksolveAdjoint with a constant step size step like solves of their own", "statement": "With BacksolveAdjoint and ConstantStepSize, each of the solves of the backward pass (one for every interval between saved times) reaches its end with as many steps as a solve over this interval on its own would make, all of them in the direction of the solve and at most dt0 long.", "quantifier": "all equations, all saved times and gradients, all dt0", "why_tests_cant": "Tests use equally spaced saved times or adaptive steps; what goes wrong depends on the spacing of the saved times relative to dt0.", "anchors": ["diffrax/_adjoint.py: _loop_backsolve_bwd, _scan_fun", "diffrax/_step_size_controller/constant.py: ConstantStepSize.init, ConstantStepSize.adapt_step_size", "diffrax/_integrate.py: diffeqsolve (passed controller_state)"]}
{"id": "C99", "title": "ClipStepSizeController in resumed solves and in the backward pass of BacksolveAdjoint", "statement": "A solve with ClipStepSizeController that is resumed with the controller state of an earlier solve (as are all but the first solve of the backward pass of BacksolveAdjoint) steps to every time of step_ts inside its interval, steps across no time of jump_ts, and with store_rejected_steps steps to the times of rejected steps.", "quantifier": "all equations, all step_ts and jump_ts, all wrapped controllers, all points of resumption, with and without dt0", "why_tests_cant": "Tests use ClipStepSizeController in solves that are not resumed; whether a time is missed depends on how it lies relative to the point of resumption and dt0.", "anchors": ["diffrax/_integrate.py: diffeqsolve (passed controller_state)", "diffrax/_step_size_controller/clip.py: ClipStepSizeController.init, ClipStepSizeController.adapt_step_size", "diffrax/_adjoint.py: _loop_backsolve_bwd"]}
{"id": "C100", "title": "If the arguments of a solve are accepted then its backward pass with BacksolveAdjoint accepts them", "statement": "If diffeqsolve accepts the step size controller, dt0 and times of a solve with BacksolveAdjoint, then so does every one of the solves of the backward pass, and the gradient is computed.", "quantifier": "all problems, all step size controllers, both directions of time", "why_tests_cant": "Tests differentiate solves with few combinations of controllers and adjoints; this one fails for a whole controller, whatever its times.", "anchors": ["diffrax/_adjoint.py: _loop_backsolve_bwd, _scan_fun", "diffrax/_step_size_controller/constant.py: StepTo.wrap, StepTo.init", "diffrax/_integrate.py: diffeqsolve (wrapping of the controller)"]}
{"id": "C101", "title": "sol.derivative is the derivative of the dense output and converges to the vector field", "statement": "Between the ends of the steps sol.derivative(t) is the derivative of sol.evaluate at t, whichever the direction of time. For Runge-Kutta solvers with SaveAt(dense=True), its distance from the vector field along the exact solution at any time reached tends to zero with the size of the steps, with the order of the interpolation (one less than that of the values).", "quantifier": "all equations with analytic Lipschitz vector fields, all solvers named, all step size controllers, all step sequences, all times", "why_tests_cant": "Tests compare sol.derivative with finite differences at a few times of a few equations; convergence is about all step sizes tending to zero, at all times of a step.", "anchors": ["diffrax/_solution.py: Solution.derivative", "diffrax/_global_interpolation.py: DenseInterpolation.derivative", "diffrax/_path.py: AbstractPath.derivative", "diffrax/_local_interpolation.py: ThirdOrderHermitePolynomialInterpolation, FourthOrderPolynomialInterpolation"]}
{"id": "C102", "title": "Quantities integrated alongside do not change the solution", "statement": "If the state holds further quantities on which a part of it does not depend (a running cost, or in the backward pass of BacksolveAdjoint the gradients of the parameters), and the step size controller does not look at them, then everything computed for the part is what is computed without the further quantities: the same steps are attempted and accepted, and the same values, dense output, events and statistics result. PIDController does not look at them if its norm is adjoint_rms_seminorm: then the gradient with respect to the initial value is the one computed, with the ordinary norm, if there are no parameters.", "quantifier": "all problems and parts of them, all explicit Runge-Kutta tableaus, all step size controllers that respect the part, all save times and gradients", "why_tests_cant": "Tests can compare the number of steps of a few gradient computations; that the two computations agree step by step for every problem is a statement about all executions.", "anchors": ["diffrax/_misc.py: adjoint_rms_seminorm", "diffrax/_integrate.py: loop", "diffrax/_solver/runge_kutta.py: step", "diffrax/_step_size_controller/pid.py: adapt_step_size", "diffrax/_adjoint.py: _loop_backsolve_bwd"]}
{"id": "C103", "title": "The solvers for stiff equations are A-stable and L-stable as documented", "statement": "Modes of the solution that do not grow (components l with d l(y)/dt = lambda l(y), Re lambda <= 0, such as those of a linear equation with respect to left eigenvectors) do not grow in any solve with Kvaerno3, Kvaerno4, Kvaerno5, ImplicitEuler, or with KenCarp3, KenCarp4, KenCarp5, Sil3 when they come from the implicit term, however long the steps are and however they are chosen. Very stiff modes are removed by a single step: the factor tends to zero as step length times rate tends to infinity. ImplicitEuler moreover brings solutions of dissipative nonlinear equations closer together. (The explicit solvers have none of these properties.)", "quantifier": "all equations with such a mode, all step size controllers and sequences of accepted and rejected steps of any length, all exact root finders, all initial values", "why_tests_cant": "Stability is a bound for all step sizes and all rates in the left half plane and for arbitrarily many steps; tests integrate a handful of stiff problems.", "anchors": ["diffrax/_solver/kvaerno3.py", "diffrax/_solver/kvaerno4.py", "diffrax/_solver/kvaerno5.py", "diffrax/_solver/kencarp3.py", "diffrax/_solver/kencarp4.py", "diffrax/_solver/kencarp5.py", "diffrax/_solver/sil3.py", "diffrax/_solver/implicit_euler.py", "diffrax/_solver/runge_kutta.py: step"]}
{"id": "C104", "title": "Custom term classes are checked with the type arguments they really have", "statement": "diffeqsolve checks the vector field and the control of a term against the type arguments with which the solver's declared term class specialises AbstractTerm. These arguments are found through any hierarchy of generic classes: what is returned is what the class statements say, with Any for type variables that are not filled in; an error is raised only if the class does not inherit from the base class or does so with two different sets of arguments. Annotated[X, ...] stands for X.", "quantifier": "all hierarchies of (multiply inheriting) generic classes of any depth, all base classes, all annotations", "why_tests_cant": "Tests contain a few dozen hierarchies of depth two or three; how type arguments travel through a hierarchy is a statement about all inheritance graphs.", "anchors": ["diffrax/_typing.py: get_args_of", "diffrax/_typing.py: _get_args_of_impl", "diffrax/_typing.py: get_origin_no_specials", "diffrax/_integrate.py: _assert_term_compatible"]}
{"id": "C105", "title": "The unit and the origin of time do not matter", "statement": "Writing a problem in another unit of time, counting time from another moment, or writing the state in other linear coordinates does not change what is computed: if the equation and all times that are passed (t0, t1, dt0, dtmin, dtmax, the times of SaveAt, StepTo and ClipStepSizeController) are converted, the same steps are attempted and accepted, and all saved values, dense output, counters and results are the same ones at the converted times. With dt0=None too.", "quantifier": "all affine increasing changes of time, all linear maps of the state, all Runge-Kutta solvers explicit or implicit, all step size controllers, all SaveAt, all events, any number of steps", "why_tests_cant": "Comparing two solves in different units in floating point shows only that they agree up to tolerances for a few problems; that no step depends on the unit is a statement about every branch of the loop and of the controllers.", "anchors": ["diffrax/_integrate.py: loop", "diffrax/_integrate.py: _clip_to_end", "diffrax/_solver/runge_kutta.py: AbstractRungeKutta.step", "diffrax/_step_size_controller/pid.py: PIDController.adapt_step_size", "diffrax/_step_size_controller/pid.py: _select_initial_step", "diffrax/_step_size_controller/clip.py: ClipStepSizeController.adapt_step_size", "diffrax/_step_size_controller/constant.py"]}
{"id": "C106", "title": "Linear conserved quantities are conserved exactly", "statement": "If a linear function of the state (a total mass, a number of people, a total momentum) is not changed by the vector field, then every state that a solve returns has the same value of it as the initial state, in exact arithmetic: the values saved at t0, at steps, at ts (by interpolation), at the time of an event and at t1, and every value of the dense output. This holds however large the steps are, whatever the step size controller, also for terms driven by a path, and when a solve is resumed. For implicit solvers it holds if the root finds are exact where they report success and the solve reports success.", "quantifier": "all linear functions, all vector fields that conserve them, all Runge-Kutta solvers explicit, implicit or IMEX, Euler, ImplicitEuler, LeapfrogMidpoint, ReversibleHeun, EulerHeun, all step size controllers, all SaveAt, all events, any number of steps", "why_tests_cant": "A test sees a drift of the size of rounding errors for a few problems and cannot tell it from a small systematic one; whether the interpolations and the reuse of vector field values between steps conserve the quantity as well depends on every coefficient.", "anchors": ["diffrax/_integrate.py: loop", "diffrax/_solver/runge_kutta.py: AbstractRungeKutta.step", "diffrax/_local_interpolation.py: ThirdOrderHermitePolynomialInterpolation, FourthOrderPolynomialInterpolation", "diffrax/_solver/tsit5.py: _Tsit5Interpolation", "diffrax/_solver/dopri8.py: _Dopri8Interpolation", "diffrax/_solver/kencarp3.py: KenCarpInterpolation", "diffrax/_solver/reversible_heun.py: ReversibleHeun.step"]}
{"id": "C107", "title": "Combinations of solver, controller, path and adjoint that cannot work are refused, the others are accepted", "statement": "Terms count as a stochastic equation exactly if a Brownian path occurs anywhere among them. For a stochastic equation, adaptive steps with Euler's method and adaptive steps with UnsafeBrownianPath are refused, and there is a warning exactly if the solver is marked neither as Ito nor as Stratonovich; BacksolveAdjoint refuses Ito solvers and UnsafeBrownianPath. A solver inside HalfSolver counts as what it is, however often it is wrapped. Nothing else is refused: in particular solvers inside HalfSolver can be used with every adjoint with which the solver itself can be used.", "quantifier": "all terms, all solvers of the library wrapped any number of times, all controllers, all adjoints that make such checks", "why_tests_cant": "The checks depend on class relations between nested objects; the tests cover HalfSolver(Euler()) and a few refusals, while the combinations of solver, wrapper, controller, path and adjoint are too many to list, and nesting has no bound.", "anchors": ["diffrax/_heuristics.py: is_sde, is_unsafe_sde, is_cde", "diffrax/_solver/base.py: _MetaAbstractSolver.__instancecheck__, AbstractWrappedSolver, HalfSolver", "diffrax/_integrate.py: diffeqsolve", "diffrax/_adjoint.py: RecursiveCheckpointAdjoint.loop, DirectAdjoint.loop, BacksolveAdjoint.loop, ForwardMode.loop"]}
{"id": "C108", "title": "Implicit solvers use the tolerances of the step size controller", "statement": "If the root finder of an implicit solver was given no tolerances, the solve uses the relative and absolute tolerance and the norm that were given to the PIDController, also when that is wrapped in ClipStepSizeController; attributes that were given are kept. With fixed steps, an implicit solver is accepted exactly if its root finder has tolerances and a norm of its own. Every solve that starts has values for all of them. This also holds for an implicit solver inside HalfSolver. Explicit solvers are not changed.", "quantifier": "all solvers of the library wrapped any number of times, all root finders, all controllers", "why_tests_cant": "Wrong tolerances do not change the shape of the result, only its accuracy and cost; which attributes are taken from where has to be known for every combination of given and missing ones, and for wrapped solvers and controllers.", "anchors": ["diffrax/_integrate.py: diffeqsolve", "diffrax/_root_finder/_with_tols.py: with_stepsize_controller_tols", "diffrax/_step_size_controller/clip.py: ClipStepSizeController.__init__, rtol, atol, norm", "diffrax/_solver/base.py: AbstractImplicitSolver, HalfSolver"]}
{"id": "C109", "title": "The terms are checked against those that the solver expects", "statement": "Before a solve starts, the terms are compared with what the solver expects: the class of each term, the types of its vector field and control (with Levy area where the solver needs it), sums of terms and tuples of terms together with tuples of states, nested in any way. Terms are accepted exactly if they match; all others are refused with an error that says what was expected. For EulerHeun and the Milstein solvers the deprecated pair (drift, diffusion) is still accepted, with a warning, wherever the sum MultiTerm(drift, diffusion) is.", "quantifier": "all term structures, all terms, all states, all type annotations built from classes, generics and unions", "why_tests_cant": "Structures and terms nest without bound, and the error depends on which of several nested comparisons fails first; tests compare a few examples.", "anchors": ["diffrax/_integrate.py: _assert_term_compatible, diffeqsolve", "diffrax/_typing.py: better_isinstance", "diffrax/_solver/base.py: _term_compatible_contr_kwargs", "diffrax/_solver/euler_heun.py: EulerHeun.term_structure", "diffrax/_solver/srk.py: AbstractSRK.term_structure, term_compatible_contr_kwargs"]}
{"id": "C110", "title": "Dense output agrees with events", "statement": "If an event stops a solve with dense output and its time is located by a root finder, then evaluating the solution at the time of the event gives the final saved value, and the solution has no values (NaN) at later times, as for any time outside of the interval that was solved over.", "quantifier": "all solvers, step size controllers, events, root finders, problems and times of evaluation", "why_tests_cant": "Whether values exist after the event depends on where in the last step the event lies; tests evaluate dense output without events or at a few times.", "anchors": ["diffrax/_integrate.py: loop, diffeqsolve", "diffrax/_global_interpolation.py: DenseInterpolation.evaluate", "diffrax/_solution.py: Solution.evaluate"]}
{"id": "C111", "title": "The event time is decided by the first condition that triggered", "statement": "If several events are watched, a root finder is used and the solve reports an event, then the reported time is decided by the first condition that triggered on the last step alone: if it is real-valued it is zero at the reported time and value; if it is boolean the reported time is the end of the step. Whenever there is such a time on the last step and the root finder finds roots between the ends of the step, the event is reported.", "quantifier": "all lists of real-valued and boolean conditions, all root finders that return roots, all solvers, controllers and problems", "why_tests_cant": "Which conditions trigger together, in which order, and where their roots lie on the step varies without bound; tests use one or two conditions with roots known in advance.", "anchors": ["diffrax/_integrate.py: loop (event root finding), body_fun (event mask)", "diffrax/_event.py: Event"]}
{"id": "C112", "title": "Every SaveAt works with every max_steps", "statement": "Every SaveAt that can be built can be used with every max_steps: the solve starts, and the returned arrays have one place for t0, one for each of ts, one for each n-th of max_steps steps, and one for t1 unless the last of these steps takes it. In particular SaveAt(steps=n) with n greater than max_steps returns empty arrays.", "quantifier": "all SaveAts, all max_steps, with and without a root finder for events, all solvers, controllers and problems", "why_tests_cant": "The failing combinations depend on the remainder of max_steps by steps and on every other way of saving; tests use a few combinations with steps far below max_steps.", "anchors": ["diffrax/_integrate.py: _save, _save_t1, _allocate_output, _save_if_t0_equals_t1", "diffrax/_saveat.py: SubSaveAt"]}
{"id": "C113", "title": "Zero crossings are never missed, and only crossings are events", "statement": "If a real-valued event condition has opposite signs at any two states of a solve, and the direction fits, the solve ends with an event, however the crossing is spread over steps and even if the condition is exactly zero at states in between. Conversely an event with direction=None happens only if the condition had one strict sign at the start and at every state up to the last step, and no longer has it afterwards.", "quantifier": "all conditions, directions, solvers, controllers, problems and numbers of accepted and rejected steps", "why_tests_cant": "The crossing may be spread over any number of accepted and rejected steps, with exact zeros in between; tests use conditions that are nonzero at every step.", "anchors": ["diffrax/_integrate.py: body_fun (event conditions), loop", "diffrax/_event.py: Event"]}
{"id": "C114", "title": "An event that is true at the start ends the solve there", "statement": "If a boolean event condition is true at t0, no step is made, the solve reports the event and returns the initial value at t0, also with a root finder. SaveAt saves the initial value for t0, for t1, and (if t0 == t1) for each of ts, and nothing else.", "quantifier": "all lists of conditions of which one is a boolean one that is true at t0, all solvers, controllers, root finders that return roots, problems, and SaveAts without steps", "why_tests_cant": "The root find is done with an interpolation that does not exist yet; which of the conditions decides, and what is evaluated on the way, depends on the whole list of conditions.", "anchors": ["diffrax/_integrate.py: diffeqsolve (event_mask at the start), loop (event root finding)"]}
{"id": "C115", "title": "NaN values of event conditions are neither events nor hide them", "statement": "A real-valued event condition that is NaN after a step does not end the solve with an event by itself, and a zero crossing is found even if the condition is NaN on steps in between. Infinite values count with their sign.", "quantifier": "all sequences of values of a condition (numbers, infinities and NaN), all directions", "why_tests_cant": "NaN may appear on any step, next to any values; tests use conditions that are always finite.", "anchors": ["diffrax/_integrate.py: body_fun (event conditions)", "diffrax/_event.py: Event"]}
{"id": "C116", "title": "The sign of dt0 is checked correctly whatever types the times have", "statement": "diffeqsolve raises for a dt0 whose sign differs from that of t1 - t0, and accepts one of the right sign, whether t0, t1 and dt0 are Python numbers, floating point arrays, or integer arrays (signed or unsigned, of any size, in any mixture).", "quantifier": "all values and types of t0, t1 and dt0, with and without jax_enable_x64", "why_tests_cant": "The outcome depends on combinations of types and values, with wrap-around at the ends of each integer type; tests pass floats and small Python integers.", "anchors": ["diffrax/_integrate.py: diffeqsolve (check of dt0, conversion of times)", "diffrax/_step_size_controller/constant.py: ConstantStepSize"]}
{"id": "C117", "title": "Rounding of the times to the time type does not invalidate a solve", "statement": "diffeqsolve converts t0, t1, dt0 and SaveAt(ts=...) to one floating point type, which may round them. Arguments that are valid as passed stay valid: the direction of the solve, the order of ts, their lying within the interval and the sign of dt0 are kept, and the solve runs from the rounded t0 to the rounded t1. A solve over a non-empty interval makes at least one step.", "quantifier": "all problems and all monotone roundings", "why_tests_cant": "Depends on the relation of all times to the spacing of the time type; tests use times that are represented exactly or nearly so.", "anchors": ["diffrax/_integrate.py: diffeqsolve (conversion of times, normalisation of time, checks of ts)"]}
