{
 "claims": [
  {
   "property": "C01",
   "status": "proved",
   "theorems": [
    "Verif.C01_time_forward",
    "Verif.log_eq_history"
   ],
   "note": "Stated on the log of calls an observer around solver and controller sees. Hypothesis: the controller's answers do not move time backwards (shown for the concrete controllers separately)."
  },
  {
   "property": "C02",
   "status": "proved",
   "theorems": [
    "Verif.C02_stats"
   ],
   "note": ""
  },
  {
   "property": "C03",
   "status": "proved",
   "theorems": [
    "Verif.C03_result_classification",
    "Verif.C03_stepTo"
   ],
   "note": "Hypothesis: solver, controller and root finder do not themselves return the codes of the loop. C03_stepTo is about StepTo (no time but the last within rounding of t1), C03_result_classification about all other controllers."
  },
  {
   "property": "C04",
   "status": "proved",
   "theorems": [
    "Verif.C04_composition",
    "Verif.C04_rejected_no_trace"
   ],
   "note": ""
  },
  {
   "property": "C05",
   "status": "proved",
   "theorems": [
    "Verif.C05_first_error"
   ],
   "note": ""
  },
  {
   "property": "C06",
   "status": "partial",
   "theorems": [
    "Verif.C06_violated",
    "Verif.C06_event_hides_failure_partial"
   ],
   "note": "False of the code: an event triggering on the failing step hides the failure (witness). The partial theorem says this is the only way."
  },
  {
   "property": "C07",
   "status": "partial",
   "theorems": [
    "Verif.C07_saveat_ts_any_end",
    "Verif.C07_saveat_ts",
    "Verif.C07_stepTo",
    "Verif.C07_reaching_partial",
    "Verif.C07_clip_partial",
    "Verif.C07_violated"
   ],
   "note": "False as stated: with ClipStepSizeController(jump_ts=...) and a jump at t1 (or at the float before t1), a first step that goes up to t1 stops before the jump, the solve ends successfully without a step reaching t1, and a requested time t1 is left at inf (C07_violated). Holds for every controller whose accepted steps end where asked (C07_saveat_ts), for StepTo (C07_stepTo), and for ClipStepSizeController with any other jump times (C07_clip_partial). C07_saveat_ts_any_end says what is saved for every controller and ending."
  },
  {
   "property": "C08",
   "status": "proved",
   "theorems": [
    "Verif.C08_saveat_steps"
   ],
   "note": ""
  },
  {
   "property": "C09",
   "status": "proved",
   "theorems": [
    "Verif.C09_output_refines"
   ],
   "note": "No event root finder, t0 != t1, non-empty buffer."
  },
  {
   "property": "C10",
   "status": "partial",
   "theorems": [
    "Verif.C10_violated",
    "Verif.C10_final_value_saved_partial"
   ],
   "note": "False of the code for zero-step solves with steps != 0 (witness)."
  },
  {
   "property": "C11",
   "status": "proved",
   "theorems": [
    "Verif.C11_saving_does_not_influence",
    "Verif.C11_subs_independent"
   ],
   "note": ""
  },
  {
   "property": "C12",
   "status": "partial",
   "theorems": [
    "Verif.C12_max_steps_monotone",
    "Verif.C12_max_steps_entries",
    "Verif.C12_empty_interval",
    "Verif.C12_root_finder_partial",
    "Verif.C12_violated"
   ],
   "note": "State, final value, statistics and result for all configurations; saved entries without event root finder (also for empty intervals), and with one if there was room for the final entry. Partial because the code violates it: with a root finder and SaveAt(steps=True), a solve without event that takes exactly max_steps steps returns one entry less than with a larger max_steps (C12_violated)."
  },
  {
   "property": "C19",
   "status": "proved",
   "theorems": [
    "Verif.C19_empty_interval",
    "Verif.C19_empty_interval_root"
   ],
   "note": "Without a root finder for events, and with one. StepTo is excluded: it refuses empty intervals. With a root finder and SaveAt(steps=...) the final value is saved as well, although no step was made."
  },
  {
   "property": "C14",
   "status": "proved",
   "theorems": [
    "Verif.C14_one_hot"
   ],
   "note": "The returned mask is true exactly at the first condition (in flattening order) that triggered on the last step."
  },
  {
   "property": "C15",
   "status": "proved",
   "theorems": [
    "Verif.C15_stops_at_first_trigger"
   ],
   "note": "Also characterises when each kind of condition triggers; direction semantics via the separate specification `Crosses`."
  },
  {
   "property": "C16",
   "status": "partial",
   "theorems": [
    "Verif.C16_directions",
    "Verif.C16_rejected_never_triggers",
    "Verif.C16_clip_partial",
    "Verif.C16_violated"
   ],
   "note": "The directions hold as stated. A rejected step triggers nothing if it is retried from the same time (C16_rejected_never_triggers), as by every built-in controller, and by ClipStepSizeController unless the step starts at a jump time or one float before one (C16_clip_partial). False otherwise: with a jump time at t0 a rejected first step moves the time but not the value, and an event can trigger (C16_violated)."
  },
  {
   "property": "C17",
   "status": "proved",
   "theorems": [
    "Verif.C17_nothing_after_event"
   ],
   "note": "Exact list of entries with a root finder. The root finder itself is a parameter."
  },
  {
   "property": "C18",
   "status": "partial",
   "theorems": [
    "Verif.C18_violated",
    "Verif.C18_steps_once_partial"
   ],
   "note": "False of the code: witness of the final value saved twice with SaveAt(steps=True) and a root finder when no event triggers. The partial theorem covers an event located strictly inside the last step."
  },
  {
   "property": "C13",
   "status": "proved",
   "theorems": [
    "Verif.C13_dense_value",
    "Verif.C13_dense_agrees_with_ts"
   ],
   "note": "Dense evaluation equals the covering accepted step's interpolant, hence the SaveAt(ts=...) value with the identity fn (left=True)."
  },
  {
   "property": "C33",
   "status": "proved",
   "theorems": [
    "Verif.C33_segment"
   ],
   "note": "The segment returned by the search contains the query, for both sides, with clamping outside the knots."
  },
  {
   "property": "C36",
   "status": "proved",
   "theorems": [
    "Verif.C36_linear_fill",
    "Verif.C36_replace_violated"
   ],
   "note": "Per-index description of linear_interpolation. The docstring of replace_nans_at_start is refuted by C36_replace_violated."
  },
  {
   "property": "C37",
   "status": "proved",
   "theorems": [
    "Verif.C37_fill_forward",
    "Verif.C37_observed_untouched",
    "Verif.C37_idempotent"
   ],
   "note": ""
  },
  {
   "property": "C38",
   "status": "proved",
   "theorems": [
    "Verif.C38_rectilinear",
    "Verif.C38_causal"
   ],
   "note": ""
  },
  {
   "property": "C34",
   "status": "proved",
   "theorems": [
    "Verif.C34_linear",
    "Verif.C34_knots"
   ],
   "note": ""
  },
  {
   "property": "C35",
   "status": "proved",
   "theorems": [
    "Verif.C35_interpolates",
    "Verif.C35_causal",
    "Verif.C35_continuously_differentiable"
   ],
   "note": "Fully observed data. Continuous differentiability over the reals; the rest over any ordered field."
  },
  {
   "property": "C39",
   "status": "proved",
   "theorems": [
    "Verif.C39_linear",
    "Verif.C39_hermite_ends",
    "Verif.C39_quartic_ends",
    "Verif.C39_increment",
    "Verif.C39_continuous_across_steps",
    "Verif.C39_zero_length",
    "Verif.C39_slopes"
   ],
   "note": "Linear, cubic Hermite and quartic local interpolation."
  },
  {
   "property": "C57",
   "status": "partial",
   "theorems": [
    "Verif.C57_violated",
    "Verif.C57_partial"
   ],
   "note": "False of the code for runs of two or more missing values (witness). The partial theorem: passes through every observation, C1 at an isolated missing knot."
  },
  {
   "property": "C58",
   "status": "partial",
   "theorems": [
    "Verif.C58_violated",
    "Verif.C58_partial"
   ],
   "note": "False of backward_hermite_coefficients (witness). Holds for linear and rectilinear interpolation."
  },
  {
   "property": "C21",
   "status": "partial",
   "theorems": [
    "Verif.C21_violated",
    "Verif.C21_equal_steps_partial",
    "Verif.C21_infinite_end"
   ],
   "note": "False of the code when dt0 does not divide t1 - t0 (witness). Holds when it does, and for an infinite t1."
  },
  {
   "property": "C22",
   "status": "proved",
   "theorems": [
    "Verif.C22_constant_steps"
   ],
   "note": "Exact arithmetic, with nextafter(dt0) as an arbitrary slightly larger number. Hypothesis: the last grid point before t1 is not inside the clipping zone just below t1."
  },
  {
   "property": "C23",
   "status": "proved",
   "theorems": [
    "Verif.C23_stepTo"
   ],
   "note": ""
  },
  {
   "property": "C24",
   "status": "proved",
   "theorems": [
    "Verif.C24_accept_iff",
    "Verif.C24_failed_step_rejected"
   ],
   "note": ""
  },
  {
   "property": "C25",
   "status": "proved",
   "theorems": [
    "Verif.C25_factor_bounds",
    "Verif.C25_dtmin_dtmax",
    "Verif.C25_dt_min_reached",
    "Verif.pid_answers_forward"
   ],
   "note": "For all histories without NaN errors, reachable states only. The third theorem shows that PIDController meets the hypotheses of the loop theorems."
  },
  {
   "property": "C26",
   "status": "partial",
   "theorems": [
    "Verif.C26_violated",
    "Verif.C26_step_bound_partial",
    "Verif.C26_consecutive_rejections"
   ],
   "note": "False of the code when a step overflows to infinity: the scaled error is NaN, and so is every later step end (witness). Holds for non-NaN errors up to dtmin before the end."
  },
  {
   "property": "C27",
   "status": "proved",
   "theorems": [
    "Verif.C27_history"
   ],
   "note": ""
  },
  {
   "property": "C28",
   "status": "partial",
   "theorems": [
    "Verif.C28_step_ts_partial",
    "Verif.C28_violated",
    "Verif.C28_violated_end"
   ],
   "note": "False as stated: a requested time one float after a visited time is skipped (C28_violated), and requested times in the rounding zone just before t1 are skipped (C28_violated_end). Apart from these two cases proved for every inner controller that does not jump itself, every pattern of rejections, together with jump times and rejected times."
  },
  {
   "property": "C29",
   "status": "partial",
   "theorems": [
    "Verif.C29_no_crossing_partial",
    "Verif.C29_told",
    "Verif.C29_violated_end",
    "Verif.C29_violated_adjacent",
    "Verif.C29_violated_unflagged"
   ],
   "note": "False as stated for jumps within the rounding zone before t1 (including t1 itself), for jumps at neighbouring floats, and the flag is lost when a first step starting just before a jump is rejected. Otherwise proved for every inner controller and history."
  },
  {
   "property": "C30",
   "status": "proved",
   "theorems": [
    "Verif.C30_revisited",
    "Verif.C30_result",
    "Verif.C30_revisited_success",
    "Verif.C30_revisited_with_jumps",
    "Verif.C30_spurious_internal_error"
   ],
   "note": "Every rejected time is attempted exactly before any later time, or the solve fails with internal_error at that attempt; in successful solves it is later the end of an accepted step. Overflow is max_steps_rejected, characterised exactly. C30_spurious_internal_error: the error case does occur in healthy solves."
  },
  {
   "property": "C31",
   "status": "proved",
   "theorems": [
    "Verif.Clip.mk?_sorted",
    "Verif.Clip.wrap_sorted",
    "Verif.C31_hint",
    "Verif.C31_hint_irrelevant",
    "Verif.C31_hint_valid"
   ],
   "note": ""
  },
  {
   "property": "C32",
   "status": "proved",
   "theorems": [
    "Verif.C32_progress",
    "Verif.C32_positive_steps"
   ],
   "note": "Separation of jump times by two floats is the documented exception; C32_positive_steps lifts it to whole solves."
  },
  {
   "property": "C40",
   "status": "proved",
   "theorems": [
    "Verif.C40_step",
    "Verif.C40_fsal_invisible",
    "Verif.C40_exact",
    "Verif.C40_clip"
   ],
   "note": "A whole solve with an FSAL Runge-Kutta method equals (up to the private solver state) the solve in which every step re-evaluates its first stage, for every controller that restarts where it left off (C40_exact) and for ClipStepSizeController with arbitrary jump_ts and rejections (C40_clip). Hypotheses FsalOK: the tableau has c1 = 0 and last abscissa exactly 1 (the code only checks approximate equality); implicit FSAL methods additionally need a root finder that solves the explicit-first-stage equation exactly."
  },
  {
   "property": "C41",
   "status": "proved",
   "theorems": [
    "Verif.C41_step_formula",
    "Verif.C41_failed_solve",
    "Verif.C41_explicit_succeeds",
    "Verif.C41_explicit_unique"
   ],
   "note": "For explicit, DIRK/ESDIRK and additive IMEX methods: a successful step returns y0 + sum b_i k_i with error sum e_i k_i, where the k_i satisfy the stage equations; a failed nonlinear solve yields an infinite error estimate."
  },
  {
   "property": "C59",
   "status": "partial",
   "theorems": [
    "Verif.C59_retry_shorter_partial",
    "Verif.C59_violated"
   ],
   "note": "Proved whenever the midpoint between the step start and t1 is not in the zone that is rounded to t1 (the last 100 floating point numbers). Inside that zone the statement is false: the same step can be retried unchanged until max_steps (C59_violated)."
  },
  {
   "property": "C42",
   "status": "proved",
   "theorems": [
    "Verif.integratesPoly_of_check",
    "Verif.amplifies_of_check",
    "Verif.C42_heun",
    "Verif.C42_midpoint",
    "Verif.C42_ralston",
    "Verif.C42_bosh3",
    "Verif.C42_dopri5",
    "Verif.C42_tsit5",
    "Verif.C42_dopri8",
    "Verif.C42_implicit",
    "Verif.C42_imex",
    "Verif.C42_sil3_explicit_violated"
   ],
   "note": "Exact for Heun, Midpoint, Ralston, Bosh3, Dopri5, Kvaerno3/4, Sil3; up to the stated rounding for Tsit5, Dopri8, Kvaerno5 and KenCarp3/4/5 whose coefficients are truncated decimals (KenCarp5: row sums off by 2e-12). C42_sil3_explicit_violated: the docstring of Sil3 says third order in the explicit term, which is false for y' = t^2 (order() returns 2, which is right). The equation y' = lambda y is treated for explicit methods."
  },
  {
   "property": "C61",
   "status": "proved",
   "theorems": [
    "Verif.stepOrder_of_check",
    "Verif.StepOrder.explicit",
    "Verif.StepOrder.lipschitz",
    "Verif.C61_ideal",
    "Verif.C61_heun",
    "Verif.C61_midpoint",
    "Verif.C61_ralston",
    "Verif.C61_bosh3",
    "Verif.C61_dopri5",
    "Verif.C61_tsit5",
    "Verif.C61_kvaerno3",
    "Verif.C61_kvaerno4",
    "Verif.C61_kvaerno5",
    "Verif.C61_kencarp3",
    "Verif.C61_kencarp4",
    "Verif.C61_kencarp5",
    "Verif.C61_dopri8",
    "Verif.C61_sil3"
   ],
   "note": "Proved with B-series over ordered rooted trees for every analytic vector field on a Banach space. Explicit methods need no further hypothesis; implicit ones assume an exact root finder that succeeds and stays near the solution (StepOrder), which holds for Lipschitz vector fields (StepOrder.lipschitz) and for an ideal root finder (C61_ideal). Methods with truncated decimal coefficients: O(h^(p+1)) plus eps times the elementary differentials, with eps stated (at most 4e-12 for KenCarp5, 1e-14 or less for the others). Coefficients are the rationals written in the source, arithmetic is exact."
  },
  {
   "property": "C43",
   "status": "proved",
   "theorems": [
    "Verif.C43_step",
    "Verif.C43_solve"
   ],
   "note": "for every wrapped solver; the whole solve is the wrapped solver on the halved grid of accepted steps"
  },
  {
   "property": "C44",
   "status": "proved",
   "theorems": [
    "Verif.C44_update",
    "Verif.C44_assoc",
    "Verif.C44_identity",
    "Verif.C44_first_error"
   ],
   "note": "library-extended enumerations are the constructor other n"
  },
  {
   "property": "C45",
   "status": "partial",
   "theorems": [
    "Verif.C45_reversible",
    "Verif.C45_reversible_grid",
    "Verif.C45_violated_jump"
   ],
   "note": "Proved for every step, and any grid of steps, that is not flagged as following a jump. False for a flagged step even if the cached vector field is consistent: it evaluates the vector field at the value and not at the auxiliary value (C45_violated_jump)."
  },
  {
   "property": "C46",
   "status": "proved",
   "theorems": [
    "Verif.C46_invertible",
    "Verif.C46_symplectic_of_symm",
    "Verif.C46_symplectic"
   ],
   "note": "every separable C^2 Hamiltonian on a Hilbert space"
  },
  {
   "property": "C62",
   "status": "partial",
   "theorems": [
    "Verif.C62_retry",
    "Verif.C62_rk",
    "Verif.C62_violated_implicit_euler",
    "Verif.C62_violated_half_solver"
   ],
   "note": "true of all Runge-Kutta methods; false of ImplicitEuler and of HalfSolver (witnesses)"
  },
  {
   "property": "C63",
   "status": "proved",
   "theorems": [
    "Verif.C63_leapfrog_reversible",
    "Verif.C63_leapfrog_first",
    "Verif.C63_leapfrog_second_order",
    "Verif.C63_violated_unequal"
   ],
   "note": "with unequal steps second order is lost (witness)"
  },
  {
   "property": "C64",
   "status": "proved",
   "theorems": [
    "Verif.C64_ito_stratonovich",
    "Verif.C64_gbm"
   ],
   "note": "real numbers; the pytree transposition is left out of the model"
  },
  {
   "property": "C20",
   "status": "proved",
   "theorems": [
    "Verif.C20_mirror",
    "Verif.C20_mirror_rk",
    "Verif.odeK_mirror",
    "Verif.controlK_mirror",
    "Verif.rk_signInvariant",
    "Verif.euler_signInvariant",
    "Verif.implicitEuler_signInvariant",
    "Verif.leapfrog_signInvariant",
    "Verif.reversibleHeun_signInvariant",
    "Verif.stepToClass_mirror",
    "Verif.stepToClass_blind",
    "Verif.clipClass_mirror",
    "Verif.clipClass_blind",
    "Verif.constClass_mirror",
    "Verif.constClass_blind",
    "Verif.pidClass_mirror",
    "Verif.pidClass_blind"
   ],
   "note": "Events must not look at the time (see C56); the root finder of implicit stages must commute with negation."
  },
  {
   "property": "C54",
   "status": "proved",
   "theorems": [
    "Verif.C54_accepts_iff",
    "Verif.C54_dt0_sign",
    "Verif.C54_stepTo",
    "Verif.C54_subSaveAt",
    "Verif.C54_saveAt"
   ],
   "note": ""
  },
  {
   "property": "C56",
   "status": "partial",
   "theorems": [
    "Verif.C56_violated",
    "Verif.C56_times_partial"
   ],
   "note": "The code violates the property: conditions of backward solves are given the negated time. C56_times_partial says which times they are given."
  },
  {
   "property": "C60",
   "status": "partial",
   "theorems": [
    "Verif.C60_violated",
    "Verif.C60_selection_partial"
   ],
   "note": "The code violates the property: diffeqsolve wraps the terms before PIDController.init looks at their class, so the first step is always 0.01. C60_selection_partial is about the selection algorithm itself."
  },
  {
   "property": "C65",
   "status": "partial",
   "theorems": [
    "Verif.C65_violated",
    "Verif.C65_reversed",
    "Verif.C65_wrapped_partial",
    "Verif.C65_forward"
   ],
   "note": "The code violates the property: WrapTerm negates H and K alike, but only W and K change sign under time reversal. C65_wrapped_partial says exactly what the solver is given; forward solves are right (C65_forward)."
  },
  {
   "property": "C66",
   "status": "partial",
   "theorems": [
    "Verif.C66_formula_partial",
    "Verif.C66_violated",
    "Verif.C66_violated_solve",
    "Verif.C66_constant_forward",
    "Verif.sea_wf",
    "Verif.sra1_wf",
    "Verif.shark_wf",
    "Verif.generalShark_wf",
    "Verif.slowRK_wf",
    "Verif.spark_wf"
   ],
   "note": "Forward solves are proved. The code violates the property in backward solves: the drift gets the wrong sign (C66_violated for one step, C66_violated_solve for a whole diffeqsolve)."
  },
  {
   "property": "C67",
   "status": "proved",
   "theorems": [
    "Verif.C67_order_three_halves",
    "Verif.C67_order_one",
    "Verif.C67_general",
    "Verif.brownianMoments_of_brownian",
    "Verif.HasJet2.of_analytic",
    "Verif.C67_error_estimate_constant",
    "Verif.C67_error_sums"
   ],
   "note": "Local error of one step in exact real arithmetic, in forward solves (see C66 for backward solves)."
  },
  {
   "property": "C47",
   "status": "proved",
   "theorems": [
    "Verif.C47_range",
    "Verif.C47_increments",
    "Verif.C47_zero",
    "Verif.C47_path",
    "Verif.C47_value"
   ],
   "note": "Model of VirtualBrownianTree over the reals, any vector space, any random generator, all three kinds of L\u00e9vy area. The increments and areas between any finite set of times in [t0, t1] are those of one continuous path (from which Chen's relation follows), provided the times are at least sqrt(eps) apart relative to t1 - t0; closer together the code sets K, and at eps H, to zero (C49_violated_small)."
  },
  {
   "property": "C48",
   "status": "proved",
   "theorems": [
    "Verif.C48_terminates",
    "Verif.C48_ends",
    "Verif.C48_refine"
   ],
   "note": "The number of levels is max 0 \u2308log2((t1-t0)/tol)\u2309; the ends of the interval in which a query lies have the values that queries at the ends get; a smaller tolerance leaves the values at the nodes alone. That the value depends on the key and time only is the type of the model (evaluate is a function)."
  },
  {
   "property": "C49",
   "status": "proved",
   "theorems": [
    "Verif.C49_law",
    "Verif.C49_separated",
    "Verif.C49_cov",
    "Verif.C49_below_tolerance",
    "Verif.C49_violated_small",
    "Verif.C49_unsafe"
   ],
   "note": "Draws of distinct keys and entries are independent standard normals (IdealPrng; jax.random itself is not modelled). The joint law of increments and L\u00e9vy areas over any number of adjacent intervals with a node of the tree in each is that of Brownian motion: independent normals of variances h, h/12, h/720. Below the tolerance it is not (C49_below_tolerance), as documented; K is zero for a relative gap below sqrt(eps) (C49_violated_small)."
  },
  {
   "property": "C52",
   "status": "proved",
   "theorems": [
    "Verif.C52_own_index",
    "Verif.C52_independent",
    "Verif.C52_cleaned_up"
   ],
   "note": "For every interleaving of the calls of any number of solves, and any meter."
  },
  {
   "property": "C53",
   "status": "partial",
   "theorems": [
    "Verif.C53_throttled",
    "Verif.C53_up_to_date",
    "Verif.C53_increasing",
    "Verif.C53_solve",
    "Verif.C53_stepTo",
    "Verif.C53_any_interleaving",
    "Verif.C53_batched_partial",
    "Verif.C53_violated_repeats",
    "Verif.C53_violated_silent",
    "Verif.C53_ones"
   ],
   "note": "Holds for single solves (C53_solve, and C53_stepTo for StepTo) and for batches whose lanes all go on to the end; violated in batches where a lane stops early: the same percentage is printed any number of times (C53_violated_repeats), or nothing is printed any more (C53_violated_silent)."
  },
  {
   "property": "C55",
   "status": "proved",
   "theorems": [
    "Verif.C55_success",
    "Verif.C55_succeeds",
    "Verif.C55_failure",
    "Verif.C55_not_finite",
    "Verif.C55_linear_failure",
    "Verif.C55_accuracy",
    "Verif.C41_failed_solve",
    "Verif.C62_rk"
   ],
   "note": "Exact arithmetic with NaN and infinities; the loop of optimistix.root_find is modelled from its documentation. The last part of the claim is C41_failed_solve and C62_rk."
  },
  {
   "property": "C50",
   "status": "partial",
   "theorems": [
    "Verif.C50_bilinear",
    "Verif.C50_adds_up",
    "Verif.C50_multi",
    "Verif.C50_wrap_wrap",
    "Verif.C50_wrap_contribution",
    "Verif.C50_adjoint",
    "Verif.C50_to_ode",
    "Verif.C50_violated_complex",
    "Verif.C50_violated_adjoint"
   ],
   "note": "Proved for real numbers and every nesting of the built-in terms; violated for complex numbers, where ControlTerm and AdjointTerm conjugate the vector field (C50_violated_complex, C50_violated_adjoint)."
  },
  {
   "property": "C51",
   "status": "proved",
   "theorems": [
    "Verif.Backsolve.C51_schedule",
    "Verif.Backsolve.C51_once",
    "Verif.Backsolve.C51_sum"
   ],
   "note": "For every list of saved times; the solves are an oracle. C51_once: every instant between t0 and the last saved time is passed exactly once; C51_sum: with exact solves each cotangent is added once, at its own time."
  },
  {
   "property": "C68",
   "status": "partial",
   "theorems": [
    "Verif.Backsolve.C68_gradient",
    "Verif.Backsolve.C68_gradient_along",
    "Verif.Backsolve.C68_violated_leapfrog"
   ],
   "note": "The first sentence is C68_gradient (ODEs; real numbers). The second is violated: with LeapfrogMidpoint a cotangent is lost (C68_violated_leapfrog; dy/dt = 0, odd numbers of steps)."
  },
  {
   "property": "C69",
   "status": "partial",
   "theorems": [
    "Verif.C69_runge_kutta",
    "Verif.C69_stateless",
    "Verif.C69_half_solver",
    "Verif.C69_euler",
    "Verif.C69_implicit_euler",
    "Verif.C69_violated_leapfrog",
    "Verif.C69_violated_reversible_heun",
    "Verif.C69_langevin_partial",
    "Verif.C69_langevin_fsal",
    "Verif.C69_violated_quicsort"
   ],
   "note": "Holds for Runge-Kutta methods, stateless solvers and HalfSolver of these, and for ALIGN and ShOULD up to C74; violated by LeapfrogMidpoint, ReversibleHeun and QUICSORT (which cannot be traced if jumps are possible)."
  },
  {
   "property": "C70",
   "status": "proved",
   "theorems": [
    "Verif.global_error",
    "Verif.C70_accepted_succeeded",
    "Verif.C70_converges",
    "Verif.C70_explicit",
    "Verif.C70_constant",
    "Verif.C70_ideal",
    "Verif.C70_order2",
    "Verif.C70_bosh3",
    "Verif.C70_dopri5",
    "Verif.C70_tsit5",
    "Verif.C70_dopri8",
    "Verif.C70_kvaerno",
    "Verif.C70_imex"
   ],
   "note": "Real numbers, forward time, no jumps, no root finding of events; the accepted steps have succeeded (C70_accepted_succeeded: so they have if the solve reports success). Explicit methods: steps of any length (C70_explicit); implicit ones: steps shorter than some delta depending on the equation, with a root finder that is right when it reports success (C70_ideal: an ideal one succeeds). Vector fields are globally Lipschitz."
  },
  {
   "property": "C71",
   "status": "proved",
   "theorems": [
    "Verif.C71_align",
    "Verif.C71_should",
    "Verif.C71_quicsort"
   ],
   "note": "Exact arithmetic; rounding errors, the reason for the Taylor expansions, are not modelled."
  },
  {
   "property": "C72",
   "status": "proved",
   "theorems": [
    "Verif.C72_align",
    "Verif.C72_should",
    "Verif.C72_quicsort"
   ],
   "note": "With directly computed coefficients (gamma h above the threshold in every coordinate)."
  },
  {
   "property": "C74",
   "status": "partial",
   "theorems": [
    "Verif.C74_changed_partial",
    "Verif.C74_constant_partial",
    "Verif.C74_violated_drift",
    "Verif.C74_violated_short",
    "Verif.C74_short_beta",
    "Verif.C74_violated_backward",
    "Verif.C74_violated_backward_value"
   ],
   "note": "Holds for steps whose length differs from that of the step before (isclose), and for equal steps. Violated: slowly changing step lengths (C74_violated_drift), steps shorter than 1e-12 (C74_violated_short), and backward solves with long steps (C74_violated_backward)."
  },
  {
   "property": "C73",
   "status": "proved",
   "theorems": [
    "Verif.C73_align",
    "Verif.C73_should",
    "Verif.C73_quicsort",
    "Verif.C73_deterministic",
    "Verif.run_upToDate",
    "Verif.centred_of_brownian"
   ],
   "note": "Pathwise expansion along w with the step [t0, t0+eps^2] driven by eps w(./eps^2), which has the law of Brownian motion over a step of length h = eps^2; M is linear in the path and has mean zero for every centred process (centred_of_brownian). Remainders are O(eps^(p+1)) along each path, not uniformly in the path. States up to date: see run_upToDate and C74. Local, not global, error."
  },
  {
   "property": "C75",
   "status": "partial",
   "theorems": [
    "Verif.C75_heun",
    "Verif.C75_midpoint",
    "Verif.C75_ralston",
    "Verif.C75_bosh3",
    "Verif.C75_dopri5",
    "Verif.C75_tsit5",
    "Verif.C75_kvaerno3",
    "Verif.C75_kvaerno4",
    "Verif.C75_kvaerno5",
    "Verif.C75_sil3",
    "Verif.C75_kencarp3",
    "Verif.C75_kencarp4",
    "Verif.C75_kencarp5",
    "Verif.C75_dopri8_partial",
    "Verif.C75_dopri8_sharp",
    "Verif.C75_dopri8_not_8th",
    "Verif.C75_kvaerno5_sharp",
    "Verif.C75_kencarp5_sharp",
    "Verif.C75_ideal",
    "Verif.DenseOrder.explicit"
   ],
   "note": "In C75_x the number N means local error O(h^(N+1)). Violated by Dopri8: documented as 8th order, but the local error is of size h^6 (C75_dopri8_sharp, C75_dopri8_not_8th). Midpoint, Ralston, Dopri5, Tsit5 meet their documented order q only as a local error O(h^q). Coefficients written as decimals satisfy the conditions up to a stated residual."
  },
  {
   "property": "C76",
   "status": "partial",
   "theorems": [
    "Verif.C76_converges",
    "Verif.C76_order2",
    "Verif.C76_bosh3",
    "Verif.C76_dopri5",
    "Verif.C76_tsit5",
    "Verif.C76_kvaerno",
    "Verif.C76_imex",
    "Verif.C76_dopri8_partial",
    "Verif.C76_dopri8_not_8th",
    "Verif.C76_constant",
    "Verif.saved_error"
   ],
   "note": "Violated by Dopri8: with its documented 8th order interpolation the values would converge with order 8, but the error in the middle of a step is at least 4e-6 h^6 for every h (C76_dopri8_not_8th); proved with order 6 (C76_dopri8_partial). Kvaerno5 and KenCarp5, documented with 3rd order interpolation, get order 4. Coefficients written as decimals enter with a stated residual."
  },
  {
   "property": "C77",
   "status": "partial",
   "theorems": [
    "Verif.C77_joined",
    "Verif.C77_final",
    "Verif.C77_dense_final",
    "Verif.C77_ts_final",
    "Verif.C77_stepTo",
    "Verif.C77_euler",
    "Verif.C77_leapfrog",
    "Verif.C77_semi_implicit_euler",
    "Verif.C77_implicit_euler",
    "Verif.C77_reversible_heun",
    "Verif.C77_euler_heun",
    "Verif.C77_stratonovich_milstein",
    "Verif.C77_ito_milstein",
    "Verif.C77_srk",
    "Verif.C77_langevin",
    "Verif.C77_hermite",
    "Verif.C77_sil3",
    "Verif.C77_dopri5",
    "Verif.C77_tsit5",
    "Verif.C77_dopri8",
    "Verif.C77_kencarp3",
    "Verif.C77_kencarp4",
    "Verif.C77_kencarp5",
    "Verif.C77_half_solver_not"
   ],
   "note": "Violated by HalfSolver (C77_half_solver_not): the value is that of the two half steps, dense output that of the full step. Tsit5, Dopri8 and KenCarp join up only to the rounding of their decimal coefficients, up to 1e-12 times the stages for Dopri8."
  },
  {
   "property": "C78",
   "status": "partial",
   "theorems": [
    "Verif.C78_euler",
    "Verif.C78_implicit_euler",
    "Verif.C78_implicit_euler_step",
    "Verif.C78_semi_implicit_euler",
    "Verif.C78_reversible_heun",
    "Verif.C78_half",
    "Verif.C78_half_estimate",
    "Verif.C78_half_rk",
    "Verif.C78_constant",
    "Verif.C78_leapfrog_first_order",
    "Verif.C78_leapfrog_partial",
    "Verif.C78_leapfrog_constant",
    "Verif.C78_violated_leapfrog"
   ],
   "note": "Violated by LeapfrogMidpoint with unequal steps: with steps of alternating lengths 2h, h the error for y'=2t is h (C78_violated_leapfrog). Proved for it: first order for any steps, second order up to the variation of the step lengths (C78_leapfrog_partial), second order with ConstantStepSize (C78_leapfrog_constant). Constants are explicit."
  },
  {
   "property": "C79",
   "status": "proved",
   "theorems": [
    "Verif.C79_euler",
    "Verif.C79_ito_milstein",
    "Verif.C79_stratonovich_milstein",
    "Verif.C79_euler_heun",
    "Verif.C79_near_euler",
    "Verif.C79_of_step",
    "Verif.C79_constant",
    "Verif.C79_stepTo"
   ],
   "note": "The noise is any process with the moments of Brownian motion (of the higher ones only the order of magnitude) and increments independent of the past; that Mathlib's Brownian motion is one is proved (brownianNoise_of_brownian). An It\u00f4 solution is a process whose increments are the mean square limits of the left-point sums; a Stratonovich solution solves the It\u00f4 equation with the corrected drift. Steps are the same for all paths (ConstantStepSize, StepTo); adaptive steps depend on the path and are not covered. EulerHeun: with a bound on the second order terms of the diffusion."
  },
  {
   "property": "C80",
   "status": "proved",
   "theorems": [
    "Verif.C80_ito_milstein",
    "Verif.C80_stratonovich_milstein",
    "Verif.C80_euler_additive",
    "Verif.C80_near_milstein"
   ],
   "note": "As C79: steps that are the same for all paths; Brownian motion through its moments. The hypotheses on the coefficients are met by linear coefficients, and by bounded diffusions with Lipschitz derivatives."
  },
  {
   "property": "C81",
   "status": "proved",
   "theorems": [
    "Verif.C81_heun",
    "Verif.C81_midpoint",
    "Verif.C81_ralston",
    "Verif.C81_bosh3",
    "Verif.C81_dopri5",
    "Verif.C81_of_order",
    "Verif.C81_explicit_rk",
    "Verif.C81_stratonovich_sums"
   ],
   "note": "As C79: steps that are the same for all paths. For any explicit tableau, with any number of stages, whose row sums and order conditions hold exactly; those of Tsit5 and Dopri8 hold only up to rounding of their decimal coefficients, so these two are not covered. First-same-as-last state included. C81_stratonovich_sums shows that the increments of what is called a Stratonovich solution here are the limits in mean of the trapezoidal sums that define the Stratonovich integral."
  },
  {
   "property": "C82",
   "status": "proved",
   "theorems": [
    "Verif.C82_finishes",
    "Verif.C82_tame",
    "Verif.C82_explicit",
    "Verif.C82_solvers",
    "Verif.C82_floor_stuck"
   ],
   "note": "Exact arithmetic. No events and no dtmin (C26 is about dtmin). The hypothesis that the interval in which tnext is rounded to t1 is at most H is needed (C82_floor_stuck): within this interval a rejected step is retried with half of what remains, again and again."
  },
  {
   "property": "C83",
   "status": "partial",
   "theorems": [
    "Verif.C83_batch",
    "Verif.C83_rk",
    "Verif.C83_rk_exact",
    "Verif.C83_rk_clip",
    "Verif.C83_rk_step",
    "Verif.C83_half",
    "Verif.C83_batch_own_event_partial",
    "Verif.C83_batch_success_partial",
    "Verif.C83_violated",
    "Verif.C83_langevin_partial",
    "Verif.C83_langevin_violated"
   ],
   "note": "Exact arithmetic. Without event root finders: all solvers without communication between lanes, Runge-Kutta methods, HalfSolver around these. With an event root finder: elements stopped by their own event and elements that succeed get what they get alone; elements that fail or run out of steps after a rejected step do not (C83_violated). Langevin solvers: step by step, if the stored coefficients are exactly those of the step; otherwise violated (C83_langevin_violated)."
  },
  {
   "property": "C84",
   "status": "proved",
   "theorems": [
    "Verif.C84_same_steps",
    "Verif.C84_same_output",
    "Verif.C84_no_event"
   ],
   "note": "For all configurations. Saved values: without root finder (with one, see C17, C18)."
  },
  {
   "property": "C85",
   "status": "proved",
   "theorems": [
    "Verif.C85_converges",
    "Verif.C85_order2",
    "Verif.C85_bosh3",
    "Verif.C85_dopri5",
    "Verif.C85_tsit5",
    "Verif.C85_dopri8",
    "Verif.C85_kvaerno",
    "Verif.C85_imex",
    "Verif.C85_constant"
   ],
   "note": "Exact arithmetic, one condition. The event root finder is assumed to return a time in its bracket that is within its tolerances of a root whenever it reports success. The errors are those of C76; the order is that of the solver or of its interpolation, whichever is smaller."
  },
  {
   "property": "C86",
   "status": "proved",
   "theorems": [
    "Verif.C86_converges",
    "Verif.C86_kvaerno",
    "Verif.C86_imex",
    "Verif.C86_modes",
    "Verif.C86_drift",
    "Verif.C86_picard"
   ],
   "note": "As C70: real numbers, forward time, globally Lipschitz vector fields, steps shorter than some delta depending on the equation. Root finders are any that, when reporting success, leave a residual of at most tau for equations close to the identity; C86_picard: fixed point iteration is one and always succeeds. VeryChord is not shown to be one: it reports success when an estimate of its error is small. C86_drift: for methods solving for increments the dependence on the step length is real."
  },
  {
   "property": "C87",
   "status": "proved",
   "theorems": [
    "Verif.C87_first",
    "Verif.C87_second",
    "Verif.C87_exact",
    "Verif.C87_decimal",
    "Verif.C87_corners",
    "Verif.C87_not_third"
   ],
   "note": "Exact arithmetic, forward time, explicit methods; globally Lipschitz vector fields. Coefficients written as decimals (Tsit5, Dopri8) enter with a residual of 1e-14. C87_not_third: for a control with two components the error is at least rho^2 t / 6 if no step is shorter than rho, so that Dopri5 and the like are of second order only."
  },
  {
   "property": "C88",
   "status": "partial",
   "theorems": [
    "Verif.C88_condition",
    "Verif.C88_not_missed",
    "Verif.C88_solvers",
    "Verif.C88_accurate",
    "Verif.C88_rms",
    "Verif.C88_found_partial",
    "Verif.C88_imex_accurate",
    "Verif.C88_violated_imex"
   ],
   "note": "Violated by the implicit-explicit methods: func returns the tuple of the values of the terms, so that the condition compares the norm of the tuple instead of that of the sum, and the event is never reported at a steady state where the terms balance (C88_violated_imex). With one ODETerm: C88_accurate for every solver and controller; C88_found_partial for explicit Runge-Kutta methods with constant steps, C88_not_missed for all Runge-Kutta methods and controllers. Without event root finder."
  },
  {
   "property": "C89",
   "status": "partial",
   "theorems": [
    "Verif.C89_derivative",
    "Verif.C89_solve",
    "Verif.C89_violated_imex"
   ],
   "note": "Violated by the implicit-explicit methods: func returns the tuple of the values of the terms, the linear system is overdetermined, and the default linear solver silently gives its least-squares solution, which is not the derivative (C89_violated_imex: 0 instead of 1). C89_derivative and C89_solve are for one ODETerm. The behaviour of optx.implicit_jvp and of the linear solver is assumed."
  },
  {
   "property": "C90",
   "status": "partial",
   "theorems": [
    "Verif.C90_float32",
    "Verif.C90_grid",
    "Verif.C90_float64_partial",
    "Verif.C90_violated_float64"
   ],
   "note": "Proved for float32 times. Violated for float64 times: the two halves of a time are combined by XOR, and on the times 1 + k (2^-20 + 2^-52), k < 2^20, all steps get the same key and the same increment (C90_violated_float64). For float64 times of at most 21 significant bits it holds (C90_float64_partial). jax.random is idealised: distinct keys give independent draws."
  },
  {
   "property": "C91",
   "status": "partial",
   "theorems": [
    "Verif.C91_resume_partial",
    "Verif.C91_constant",
    "Verif.C91_constant_segments",
    "Verif.C91_violated_constant",
    "Verif.C91_violated_adaptive",
    "Verif.C91_violated_event"
   ],
   "note": "Proved for solves stopped by max_steps if the second solve is also given the step that the first would have made next (C91_resume_partial), which holds for ConstantStepSize with the same dt0 if the steps are equal (C91_constant, C91_constant_segments). Violated otherwise: PIDController does not return that step (C91_violated_adaptive); a ConstantStepSize state from an interval that is not a multiple of dt0 leads to steps backwards in time and of the wrong size (C91_violated_constant); after an event root find the returned solver state is that of the end of the step (C91_violated_event)."
  },
  {
   "property": "C92",
   "status": "proved",
   "theorems": [
    "Verif.C92_order15",
    "Verif.C92_order1",
    "Verif.C92_sra1",
    "Verif.C92_shark",
    "Verif.C92_generalShark",
    "Verif.C92_slowRK",
    "Verif.C92_spark",
    "Verif.C92_sea"
   ],
   "note": "Mean square of the error of whole solves, in exact arithmetic, with the exact space-time Levy area of a Brownian motion with continuous paths; the drift has two bounded Lipschitz derivatives in y and one in time, the solution has moments up to the sixth at the start."
  },
  {
   "property": "C93",
   "status": "partial",
   "theorems": [
    "Verif.C93_blind",
    "Verif.C93_violated",
    "Verif.C93_violated_solvers",
    "Verif.C93_dtmax_partial",
    "Verif.C93_sees_partial"
   ],
   "note": "Violated by every explicit Runge-Kutta method: with dt0 = 1 on [0, 1] there is a polynomial y' = p(t) that vanishes at all stage times, so the first step is accepted with estimate 0 and returns y0, for all tolerances (C93_blind, C93_violated; Heun, Midpoint, Ralston, Bosh3, Dopri5, Tsit5, Dopri8 in C93_violated_solvers). What holds: with dtmax the error is at most a constant times dtmax^N for all tolerances (C93_dtmax_partial); and where the estimate is at least c*h^q along the solve, the error is at most a constant times tol^(N/q) (C93_sees_partial)."
  },
  {
   "property": "C94",
   "status": "proved",
   "theorems": [
    "Verif.C94_gibbs"
   ],
   "note": "Invariance is stated through the generator: the integral of L(phi) against the density is zero for every C^2 test function phi of compact support. Exact arithmetic, gamma and u already broadcast."
  },
  {
   "property": "C95",
   "status": "proved",
   "theorems": [
    "Verif.C95_near",
    "Verif.C95_converges",
    "Verif.C95_constant",
    "Verif.C95_solvers",
    "Verif.C95_solvers_upTo"
   ],
   "note": "Strengthens C70 for explicit methods: no global Lipschitz condition, and the vector field needs to be analytic only near the solution. For Tsit5 and Dopri8, whose coefficients satisfy their order conditions only up to rounding, the solution is tracked while the bound stays below a radius rho. Exact arithmetic, finite dimension."
  },
  {
   "property": "C96",
   "status": "proved",
   "theorems": [
    "Verif.C96_replay",
    "Verif.C96_near",
    "Verif.C96_converges",
    "Verif.C96_constant",
    "Verif.C96_solvers",
    "Verif.C96_solvers_upTo"
   ],
   "note": "The derivative is the mathematical derivative of the value along the accepted steps of the solve, in one direction of (initial value, arguments); C96_replay shows that the solve is its value along these steps. That jax.jvp / jax.grad compute derivatives of compositions correctly is trusted, and so are the stop_gradients in pid.py 374, 499, 529-530, by which the steps are held fixed. For C96_constant the steps do not depend on the parameter, so the derivative is that of the solve itself. For Tsit5 and Dopri8 the order conditions hold up to rounding."
  },
  {
   "property": "C97",
   "status": "proved",
   "theorems": [
    "Verif.Backsolve.C97_converges",
    "Verif.Backsolve.C97_constant",
    "Verif.Backsolve.C97_solvers"
   ],
   "note": "For a single ODETerm; the solves of the backward pass are the loop with the Runge-Kutta step for the mirrored adjoint equations (C20), whose product with a control is linear (adjTerm_linear). The states of the solver are handed from one backward solve to the next as in the code. That every backward solve reaches its end with accepted steps of at most eta is a hypothesis (AllSolves); for SaveAt(t1=True) and ConstantStepSize it is proved (C97_constant)."
  },
  {
   "property": "C98",
   "status": "partial",
   "theorems": [
    "Verif.Backsolve.C98_violated",
    "Verif.Backsolve.C98_violated_empty",
    "Verif.Backsolve.C98_steps_partial",
    "Verif.Backsolve.C98_converges_partial"
   ],
   "note": "The code violates the property: the controller state handed from one backward solve to the next is about the interval of the first of them. Saved times 2.9 and 3 with dt0=1 give a step in the wrong direction, then steps of 0.1, and max_steps is reached (C98_violated). Proved where dt0 divides all the intervals into steps of the same size, e.g. for equally spaced saved times or spacings that are multiples of dt0; the gradients then converge by C97 (C98_converges_partial). In C98_violated_empty the quotient by zero is NaN for floats; the model shows only that it is computed."
  },
  {
   "property": "C99",
   "status": "partial",
   "theorems": [
    "Verif.C99_violated_dt0",
    "Verif.C99_violated_backsolve",
    "Verif.C99_violated_rejected",
    "Verif.C99_step_ts_partial",
    "Verif.C99_jump_ts_partial",
    "Verif.C99_state"
   ],
   "note": "The code violates the property: with a passed controller_state and a dt0 the first step is t0+dt0 and is not clipped, so a resumed solve, and every backward solve of BacksolveAdjoint but the first, can step across times of step_ts and jump_ts; with store_rejected_steps a solve stopped by max_steps among rejections fails with an internal error when resumed. With dt0=None step_ts and jump_ts are respected from every state in range (C99_step_ts_partial, C99_jump_ts_partial), and the states that solves return are in range (C99_state)."
  },
  {
   "property": "C100",
   "status": "partial",
   "theorems": [
    "Verif.C100_violated_stepTo",
    "Verif.C100_constant_partial",
    "Verif.C100_pid_partial",
    "Verif.C100_clip_partial"
   ],
   "note": "The code violates the property: the backward pass is given the controller after wrap, so StepTo has increasing times and is rejected by every backward solve, whatever the times. Proved for ConstantStepSize, PIDController and ClipStepSizeController around a controller that accepts. About the checks of dt0, times and controller that C54 is about; a StepTo passed to BacksolveAdjoint(stepsize_controller=...) is not the one of the forward pass and is not covered."
  },
  {
   "property": "C101",
   "status": "proved",
   "theorems": [
    "Verif.C101_is_derivative",
    "Verif.C101_converges",
    "Verif.C101_order2",
    "Verif.C101_bosh3",
    "Verif.C101_dopri5",
    "Verif.C101_tsit5",
    "Verif.C101_dopri8",
    "Verif.C101_kvaerno",
    "Verif.C101_imex",
    "Verif.C101_constant"
   ],
   "note": "The bound is the error of the solve times L, plus a constant times (length of the steps)^N' plus a term from the rounding of the decimal coefficients (0 for the methods with rational ones). Orders: Heun 2, Midpoint and Ralston 1, Bosh3 3, Dopri5 and Tsit5 4, Dopri8 5, Kvaerno3/4/5 3, KenCarp3/4/5 2, 3, 3, Sil3 2. jax.jvp is modelled as the derivative. left=True, the default; at the end of a step it is the derivative of the interpolation over that step. Solvers with linear interpolation (Euler, SDE solvers) are not covered."
  },
  {
   "property": "C102",
   "status": "proved",
   "theorems": [
    "Verif.C102_solve",
    "Verif.C102_rk",
    "Verif.hermiteInterp_part",
    "Verif.dopri5Interp_part",
    "Verif.tsit5Interp_part",
    "Verif.dopri8Interp_part",
    "Verif.C102_constant",
    "Verif.C102_stepTo",
    "Verif.C102_clip",
    "Verif.C102_pid",
    "Verif.Backsolve.C102_backsolve",
    "Verif.Backsolve.C102_backsolve_pid",
    "Verif.C102_ordinary_norm"
   ],
   "note": "C102_solve is for any solver and controller that respect the part; C102_rk (explicit Runge-Kutta methods with their interpolations), C102_constant, C102_stepTo, C102_clip and C102_pid say which do. Implicit methods are not covered: the root finder looks at the whole state. C102_ordinary_norm shows that with an ordinary norm the further quantities do change the steps."
  },
  {
   "property": "C103",
   "status": "partial",
   "theorems": [
    "Verif.C103_aStable",
    "Verif.C103_lStable",
    "Verif.C103_kvaerno",
    "Verif.C103_imex",
    "Verif.C103_lStable_imex",
    "Verif.C103_lStable_partial",
    "Verif.C103_kencarp_grow",
    "Verif.C103_explicit",
    "Verif.C103_implicitEuler",
    "Verif.C103_implicitEuler_contractive",
    "Verif.C103_implicitEuler_equilibrium"
   ],
   "note": "Proved as stated for Kvaerno3/4/5, KenCarp4 and Sil3 (A-stable), KenCarp4 and Sil3 (L-stable) and ImplicitEuler (A-, B- and L-stable). Partial because the coefficients in the code are rounded: KenCarp3 and KenCarp5 are A-stable only up to a factor of 1 + 1e-25 and 1 + 1e-10 per step, and C103_kencarp_grow shows oscillations that do grow; the limits at infinity of Kvaerno3/4/5, KenCarp3 and KenCarp5 are tiny (at most 1e-10) but not zero (C103_lStable_partial)."
  },
  {
   "property": "C104",
   "status": "partial",
   "theorems": [
    "Verif.Typing.C104_sound",
    "Verif.Typing.C104_errors",
    "Verif.Typing.C104_specials",
    "Verif.Typing.C104_complete_partial",
    "Verif.Typing.C104_violated",
    "Verif.Typing.C104_violated_annotated"
   ],
   "note": "Nothing wrong is returned for classes and subscripted classes (C104_sound), errors are raised only for the stated reasons (C104_errors), and arguments are found if every class statement on the way has type arguments (C104_complete_partial). Partial because the code violates the statement: a base class without type arguments is passed over if there is another base with type arguments, and then Any is returned although the arguments are determined (C104_violated); for Annotated[X[...], ...] the arguments of Annotated are returned instead of those of X, or an assertion fails (C104_violated_annotated)."
  },
  {
   "property": "C105",
   "status": "partial",
   "theorems": [
    "Verif.C105_solve",
    "Verif.C105_dense",
    "Verif.C105_rk",
    "Verif.C105_hermite",
    "Verif.C105_dopri5Interp",
    "Verif.C105_tsit5Interp",
    "Verif.C105_dopri8Interp",
    "Verif.C105_constant_init",
    "Verif.C105_constant",
    "Verif.C105_stepTo",
    "Verif.C105_stepTo_init",
    "Verif.C105_clip_init",
    "Verif.C105_clip",
    "Verif.C105_pid_init",
    "Verif.C105_pid",
    "Verif.C105_pid_solve",
    "Verif.C105_first_step_origin",
    "Verif.C105_violated"
   ],
   "note": "Proved by a simulation of the whole solve (C105_solve, C105_dense) for Runge-Kutta solvers (C105_rk; root finders of implicit ones have to be independent of units themselves), their interpolations, and all step size controllers; put together in C105_pid_solve. Partial because the code violates the statement for dt0=None: the first step chosen by PIDController does not depend on the origin of time (C105_first_step_origin) but does depend on its unit (C105_violated). Exact arithmetic; for ClipStepSizeController the map of times has to respect neighbouring floating point numbers."
  },
  {
   "property": "C106",
   "status": "proved",
   "theorems": [
    "Verif.C106_solve",
    "Verif.C106_rk",
    "Verif.C106_explicit_rk",
    "Verif.C106_ode",
    "Verif.C106_hermite",
    "Verif.C106_dopri5",
    "Verif.C106_tsit5",
    "Verif.C106_dopri8",
    "Verif.C106_kencarp",
    "Verif.C106_sil3",
    "Verif.C106_euler",
    "Verif.C106_leapfrog",
    "Verif.C106_implicit_euler",
    "Verif.C106_reversible_heun",
    "Verif.C106_euler_heun"
   ],
   "note": "An invariant of the whole loop with its save buffers, event root find and dense output (C106_solve), applied to Runge-Kutta methods with arbitrary terms (C106_rk, C106_explicit_rk, C106_ode), their interpolations, and the solvers that interpolate linearly. In exact arithmetic. Implicit methods: root finders that are right when they report success, and either a solve without event root find that reports success, or success of all steps that can be seen. Milstein, SRK and Langevin solvers are not covered."
  },
  {
   "property": "C107",
   "status": "partial",
   "theorems": [
    "Verif.Preflight.C107_is_sde",
    "Verif.Preflight.C107_is_unsafe",
    "Verif.Preflight.C107_is_cde",
    "Verif.Preflight.C107_isinstance_sound",
    "Verif.Preflight.C107_isinstance_partial",
    "Verif.Preflight.C107_isinstance_nested",
    "Verif.Preflight.C107_isinstance_violated",
    "Verif.Preflight.C107_sde_refusals",
    "Verif.Preflight.C107_sde_partial",
    "Verif.Preflight.C107_sde_violated",
    "Verif.Preflight.C107_backsolve_partial",
    "Verif.Preflight.C107_backsolve_violated",
    "Verif.Preflight.C107_forward_partial",
    "Verif.Preflight.C107_forward_others",
    "Verif.Preflight.C107_forward_violated",
    "Verif.Preflight.C107_ode_accepted",
    "Verif.Preflight.C107_recursive",
    "Verif.Preflight.C107_accepted",
    "Verif.Preflight.C107_unsafe_refused",
    "Verif.Preflight.C107_markings"
   ],
   "note": "The code violates the property: isinstance is forwarded through one wrapper only, so that Euler's method wrapped twice is accepted with adaptive steps for every stochastic equation, and Ito solvers wrapped twice by BacksolveAdjoint (C107_isinstance_nested, C107_sde_violated, C107_backsolve_violated); and a Runge-Kutta solver inside HalfSolver makes DirectAdjoint and ForwardMode raise an AttributeError (C107_forward_violated). Proved: finding paths in terms of any depth, refusals only for the documented reasons for any number of wrappers, and exact conditions for solvers wrapped at most once."
  },
  {
   "property": "C108",
   "status": "partial",
   "theorems": [
    "Verif.Preflight.C108_controllers",
    "Verif.Preflight.C108_adaptive_partial",
    "Verif.Preflight.C108_fixed_partial",
    "Verif.Preflight.C108_explicit",
    "Verif.Preflight.C108_half_violated",
    "Verif.Preflight.C108_nested_violated",
    "Verif.Preflight.C108_solve_partial"
   ],
   "note": "The code violates the property for wrapped implicit solvers: inside HalfSolver they raise an AttributeError whatever the tolerances are (C108_half_violated), and wrapped twice they start without tolerances (C108_nested_violated). Proved for all implicit solvers that are not wrapped, all root finders and all controllers, and for explicit solvers wrapped any number of times."
  },
  {
   "property": "C109",
   "status": "partial",
   "theorems": [
    "Verif.Compat.C109_types",
    "Verif.Compat.C109_kwargs",
    "Verif.Compat.C109_sound",
    "Verif.Compat.C109_accepts",
    "Verif.Compat.C109_refuses_partial",
    "Verif.Compat.C109_count_violated",
    "Verif.Compat.C109_pair_partial",
    "Verif.Compat.C109_pair_violated"
   ],
   "note": "The code violates the property: a MultiTerm with the wrong number of terms raises a bare AssertionError (C109_count_violated), and the deprecated pair of terms is refused unless the state is a pair as well, because the pair of classes is also compared with the state (C109_pair_violated). Proved for all structures and terms: acceptance exactly of what matches, and refusal with the documented error if numbers of terms agree."
  },
  {
   "property": "C110",
   "status": "partial",
   "theorems": [
    "Verif.C110_dense_at_event_partial",
    "Verif.C110_continues_after_event",
    "Verif.C110_violated"
   ],
   "note": "The code violates the property: saved values after the event are deleted, but the dense output still covers the whole step on which the event occurred, whatever time was located (C110_continues_after_event, for all solves; C110_violated). Proved for all solves: at the time of the event dense output is the final value, and after the end of that step there are no values."
  },
  {
   "property": "C111",
   "status": "proved",
   "theorems": [
    "Verif.C111_event_time",
    "Verif.C111_reported"
   ],
   "note": "For all configurations and any number of conditions. The root finder is a parameter: it returns roots when it claims success (C111_event_time), or finds one between the ends of the step if there is one (C111_reported)."
  },
  {
   "property": "C112",
   "status": "partial",
   "theorems": [
    "Verif.C112_starts_partial",
    "Verif.C112_sizes",
    "Verif.C112_fails_iff",
    "Verif.C112_violated"
   ],
   "note": "Violated: SaveAt(steps=n) alone fails with an error about shapes before the solve if max_steps < n and n >= 2 (C112_violated). C112_fails_iff says exactly which combinations fail; for all others the returned arrays have the documented size (C112_sizes)."
  },
  {
   "property": "C113",
   "status": "partial",
   "theorems": [
    "Verif.C113_none_missed",
    "Verif.C113_crossing_found",
    "Verif.C113_true_crossing_partial",
    "Verif.C113_violated"
   ],
   "note": "No crossing is missed (C113_none_missed, C113_crossing_found). Partial because the code violates the converse: a condition that is zero at the start and positive afterwards ends the solve on its first accepted step, with direction None or True, although it never crosses zero (C113_violated); this happens when a solve is resumed from an event. C113_true_crossing_partial is the converse for conditions that are not zero at the start."
  },
  {
   "property": "C114",
   "status": "proved",
   "theorems": [
    "Verif.C114_event_at_start",
    "Verif.C114_saved"
   ],
   "note": "For all configurations. The root finder is a parameter: it returns roots when it claims success, and finds one between the ends if there is one. With steps=n see C10 and C18."
  },
  {
   "property": "C115",
   "status": "partial",
   "theorems": [
    "Verif.C115_numbers_partial",
    "Verif.C115_nan",
    "Verif.C115_violated"
   ],
   "note": "Numbers and infinities behave as stated (C115_numbers_partial; condTriggers_loop ties this to the condition of the loop model). Partial because the code violates the statement for NaN: with direction=None a NaN ends the solve with an event, with True or False a crossing over NaN is missed (C115_nan, C115_violated)."
  },
  {
   "property": "C116",
   "status": "partial",
   "theorems": [
    "Verif.C116_sign_partial",
    "Verif.C116_python_partial",
    "Verif.C116_unsigned",
    "Verif.C116_never_ends",
    "Verif.C116_violated",
    "Verif.C116_promotion",
    "Verif.C116_promotion_32",
    "Verif.C116_promotion_python",
    "Verif.C116_wrap",
    "Verif.bits_sizes"
   ],
   "note": "Holds if no integer array overflows, in particular for Python numbers and floating point arrays (C116_sign_partial, C116_python_partial). Partial because the code violates the statement: the check is evaluated before the conversion to floating point, so unsigned times of a backward solve have it the wrong way round (C116_unsigned, C116_violated), and with ConstantStepSize a solve accepted that way never reaches t1 (C116_never_ends). Rounding and floating point types are not modelled."
  },
  {
   "property": "C117",
   "status": "partial",
   "theorems": [
    "Verif.C117_direction",
    "Verif.C117_ts",
    "Verif.C117_dt0",
    "Verif.C117_accepted",
    "Verif.C117_steps",
    "Verif.C117_violated"
   ],
   "note": "For every monotone rounding (that keeps 0, for dt0), valid arguments stay valid (C117_direction, C117_ts, C117_dt0, C117_accepted). Partial because the last sentence is violated: a solve makes no step exactly if the ends of its interval are rounded to the same time (C117_steps), and it is then reported as successful (C117_violated). Arithmetic after the rounding is exact in the model; times inside the controller are not converted, and that it accepts the rounded times is a hypothesis of C117_accepted."
  }
 ]
}