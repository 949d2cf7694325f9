import Verif.Props.Loop
import Verif.Props.Save
import Verif.Props.Event
import Verif.Props.Dense
import Verif.Props.Fill
import Verif.Props.Interp
import Verif.Props.Hermite
import Verif.Props.Missing
import Verif.Props.LocalInterp
import Verif.Props.Constant
import Verif.Props.Pid
import Verif.Props.Clip
import Verif.Props.ClipJump
import Verif.Props.ClipReject
import Verif.Props.ClipProgress
import Verif.Props.RK
import Verif.Props.Retry
import Verif.Props.Order
import Verif.Props.OrderSolvers
import Verif.Props.OrderIdeal
import Verif.Props.OrderLarge
import Verif.Props.Quadrature
import Verif.Props.Solvers
import Verif.Props.Front
import Verif.Props.FrontTime
import Verif.Props.SRK
import Verif.Props.SrkOrder
import Verif.Props.Brownian
import Verif.Props.BrownianLaw
import Verif.Props.Progress
import Verif.Props.VeryChord
import Verif.Props.Terms
import Verif.Props.Backsolve
import Verif.Props.BacksolveGradient
import Verif.Props.FreshStart
import Verif.Props.Convergence
import Verif.Props.LangevinCoeffs
import Verif.Props.Langevin
import Verif.Props.LangevinOrder
import Verif.Props.DenseOrder
import Verif.Props.DenseEnds
import Verif.Props.DenseConvergence
import Verif.Props.OtherSolvers
import Verif.Props.ReversibleHeun
import Verif.Props.Leapfrog
import Verif.Props.StrongSolve
import Verif.Props.StrongConvergence
import Verif.Props.StrongExamples
import Verif.Props.StrongOrderOne
import Verif.Props.StrongRK
import Verif.Props.StratonovichSum
import Verif.Props.AdaptiveFinish
import Verif.Props.AdaptiveExplicit
import Verif.Props.SrkError
import Verif.Props.Batch
import Verif.Props.BatchLangevin
import Verif.Props.EventPrefix
import Verif.Props.EventConvergence
import Verif.Props.InexactRoot
import Verif.Props.Cde
import Verif.Props.SteadyState
import Verif.Props.ImplicitAdjoint
import Verif.Props.UnsafePath
import Verif.Props.Resume
import Verif.Props.AdditiveStrong
import Verif.Props.AdditiveExamples
import Verif.Props.Tolerance
import Verif.Props.LangevinInvariant
import Verif.Props.LocalConvergence
import Verif.Props.SolveDerivative
import Verif.Props.BacksolveConvergence
import Verif.Props.BacksolveConstant
import Verif.Props.ClipResume
import Verif.Props.BacksolveAccepts
import Verif.Props.DerivativeConvergence
import Verif.Props.Subsystem
import Verif.Props.Stability
import Verif.Props.Typing
import Verif.Props.Units
import Verif.Props.Conserved
import Verif.Props.Preflight
import Verif.Props.Compat
import Verif.Props.EventEnd
import Verif.Props.EventRoot
import Verif.Props.SaveShapes
import Verif.Props.EventCrossing
import Verif.Props.MaxSteps
import Verif.Props.EventStart
import Verif.Props.EventNan
import Verif.Props.TimeTypes
import Verif.Props.TimeRound
import Verif.Props.EmptyRoot
import Verif.Props.StepToResult
import Verif.Props.SaveJump
import Verif.Props.EventJump

/-! Prints the axioms of every property theorem named in `MANIFEST.json`. -/

#print axioms Verif.C01_time_forward
#print axioms Verif.log_eq_history
#print axioms Verif.C02_stats
#print axioms Verif.C03_result_classification
#print axioms Verif.C03_stepTo
#print axioms Verif.C04_composition
#print axioms Verif.C04_rejected_no_trace
#print axioms Verif.C05_first_error
#print axioms Verif.C06_violated
#print axioms Verif.C06_event_hides_failure_partial
#print axioms Verif.C07_saveat_ts_any_end
#print axioms Verif.C07_saveat_ts
#print axioms Verif.C07_stepTo
#print axioms Verif.C07_reaching_partial
#print axioms Verif.C07_clip_partial
#print axioms Verif.C07_violated
#print axioms Verif.C08_saveat_steps
#print axioms Verif.C09_output_refines
#print axioms Verif.C10_violated
#print axioms Verif.C10_final_value_saved_partial
#print axioms Verif.C11_saving_does_not_influence
#print axioms Verif.C11_subs_independent
#print axioms Verif.C12_max_steps_monotone
#print axioms Verif.C12_max_steps_entries
#print axioms Verif.C12_empty_interval
#print axioms Verif.C12_root_finder_partial
#print axioms Verif.C12_violated
#print axioms Verif.C19_empty_interval
#print axioms Verif.C19_empty_interval_root
#print axioms Verif.C14_one_hot
#print axioms Verif.C15_stops_at_first_trigger
#print axioms Verif.C16_directions
#print axioms Verif.C16_rejected_never_triggers
#print axioms Verif.C16_clip_partial
#print axioms Verif.C16_violated
#print axioms Verif.C17_nothing_after_event
#print axioms Verif.C18_violated
#print axioms Verif.C18_steps_once_partial
#print axioms Verif.C13_dense_value
#print axioms Verif.C13_dense_agrees_with_ts
#print axioms Verif.C33_segment
#print axioms Verif.C36_linear_fill
#print axioms Verif.C36_replace_violated
#print axioms Verif.C37_fill_forward
#print axioms Verif.C37_observed_untouched
#print axioms Verif.C37_idempotent
#print axioms Verif.C38_rectilinear
#print axioms Verif.C38_causal
#print axioms Verif.C34_linear
#print axioms Verif.C34_knots
#print axioms Verif.C35_interpolates
#print axioms Verif.C35_causal
#print axioms Verif.C35_continuously_differentiable
#print axioms Verif.C39_linear
#print axioms Verif.C39_hermite_ends
#print axioms Verif.C39_quartic_ends
#print axioms Verif.C39_increment
#print axioms Verif.C39_continuous_across_steps
#print axioms Verif.C39_zero_length
#print axioms Verif.C39_slopes
#print axioms Verif.C57_violated
#print axioms Verif.C57_partial
#print axioms Verif.C58_violated
#print axioms Verif.C58_partial
#print axioms Verif.C21_violated
#print axioms Verif.C21_equal_steps_partial
#print axioms Verif.C21_infinite_end
#print axioms Verif.C22_constant_steps
#print axioms Verif.C23_stepTo
#print axioms Verif.C24_accept_iff
#print axioms Verif.C24_failed_step_rejected
#print axioms Verif.C25_factor_bounds
#print axioms Verif.C25_dtmin_dtmax
#print axioms Verif.C25_dt_min_reached
#print axioms Verif.pid_answers_forward
#print axioms Verif.C26_violated
#print axioms Verif.C26_step_bound_partial
#print axioms Verif.C26_consecutive_rejections
#print axioms Verif.C27_history
#print axioms Verif.C28_step_ts_partial
#print axioms Verif.C28_violated
#print axioms Verif.C28_violated_end
#print axioms Verif.C29_no_crossing_partial
#print axioms Verif.C29_told
#print axioms Verif.C29_violated_end
#print axioms Verif.C29_violated_adjacent
#print axioms Verif.C29_violated_unflagged
#print axioms Verif.C30_revisited
#print axioms Verif.C30_result
#print axioms Verif.C30_revisited_success
#print axioms Verif.C30_revisited_with_jumps
#print axioms Verif.C30_spurious_internal_error
#print axioms Verif.Clip.mk?_sorted
#print axioms Verif.Clip.wrap_sorted
#print axioms Verif.C31_hint
#print axioms Verif.C31_hint_irrelevant
#print axioms Verif.C31_hint_valid
#print axioms Verif.C32_progress
#print axioms Verif.C32_positive_steps
#print axioms Verif.C40_step
#print axioms Verif.C40_fsal_invisible
#print axioms Verif.C40_exact
#print axioms Verif.C40_clip
#print axioms Verif.C41_step_formula
#print axioms Verif.C41_failed_solve
#print axioms Verif.C41_explicit_succeeds
#print axioms Verif.C41_explicit_unique
#print axioms Verif.C59_retry_shorter_partial
#print axioms Verif.C59_violated
#print axioms Verif.integratesPoly_of_check
#print axioms Verif.amplifies_of_check
#print axioms Verif.C42_heun
#print axioms Verif.C42_midpoint
#print axioms Verif.C42_ralston
#print axioms Verif.C42_bosh3
#print axioms Verif.C42_dopri5
#print axioms Verif.C42_tsit5
#print axioms Verif.C42_dopri8
#print axioms Verif.C42_implicit
#print axioms Verif.C42_imex
#print axioms Verif.C42_sil3_explicit_violated
#print axioms Verif.stepOrder_of_check
#print axioms Verif.StepOrder.explicit
#print axioms Verif.StepOrder.lipschitz
#print axioms Verif.C61_ideal
#print axioms Verif.C61_heun
#print axioms Verif.C61_midpoint
#print axioms Verif.C61_ralston
#print axioms Verif.C61_bosh3
#print axioms Verif.C61_dopri5
#print axioms Verif.C61_tsit5
#print axioms Verif.C61_kvaerno3
#print axioms Verif.C61_kvaerno4
#print axioms Verif.C61_kvaerno5
#print axioms Verif.C61_kencarp3
#print axioms Verif.C61_kencarp4
#print axioms Verif.C61_kencarp5
#print axioms Verif.C61_dopri8
#print axioms Verif.C61_sil3
#print axioms Verif.C43_step
#print axioms Verif.C43_solve
#print axioms Verif.C44_update
#print axioms Verif.C44_assoc
#print axioms Verif.C44_identity
#print axioms Verif.C44_first_error
#print axioms Verif.C45_reversible
#print axioms Verif.C45_reversible_grid
#print axioms Verif.C45_violated_jump
#print axioms Verif.C46_invertible
#print axioms Verif.C46_symplectic_of_symm
#print axioms Verif.C46_symplectic
#print axioms Verif.C62_retry
#print axioms Verif.C62_rk
#print axioms Verif.C62_violated_implicit_euler
#print axioms Verif.C62_violated_half_solver
#print axioms Verif.C63_leapfrog_reversible
#print axioms Verif.C63_leapfrog_first
#print axioms Verif.C63_leapfrog_second_order
#print axioms Verif.C63_violated_unequal
#print axioms Verif.C64_ito_stratonovich
#print axioms Verif.C64_gbm
#print axioms Verif.C20_mirror
#print axioms Verif.C20_mirror_rk
#print axioms Verif.odeK_mirror
#print axioms Verif.controlK_mirror
#print axioms Verif.rk_signInvariant
#print axioms Verif.euler_signInvariant
#print axioms Verif.implicitEuler_signInvariant
#print axioms Verif.leapfrog_signInvariant
#print axioms Verif.reversibleHeun_signInvariant
#print axioms Verif.stepToClass_mirror
#print axioms Verif.stepToClass_blind
#print axioms Verif.clipClass_mirror
#print axioms Verif.clipClass_blind
#print axioms Verif.constClass_mirror
#print axioms Verif.constClass_blind
#print axioms Verif.pidClass_mirror
#print axioms Verif.pidClass_blind
#print axioms Verif.C54_accepts_iff
#print axioms Verif.C54_dt0_sign
#print axioms Verif.C54_stepTo
#print axioms Verif.C54_subSaveAt
#print axioms Verif.C54_saveAt
#print axioms Verif.C56_violated
#print axioms Verif.C56_times_partial
#print axioms Verif.C60_violated
#print axioms Verif.C60_selection_partial
#print axioms Verif.C65_violated
#print axioms Verif.C65_reversed
#print axioms Verif.C65_wrapped_partial
#print axioms Verif.C65_forward
#print axioms Verif.C66_formula_partial
#print axioms Verif.C66_violated
#print axioms Verif.C66_violated_solve
#print axioms Verif.C66_constant_forward
#print axioms Verif.sea_wf
#print axioms Verif.sra1_wf
#print axioms Verif.shark_wf
#print axioms Verif.generalShark_wf
#print axioms Verif.slowRK_wf
#print axioms Verif.spark_wf
#print axioms Verif.C67_order_three_halves
#print axioms Verif.C67_order_one
#print axioms Verif.C67_general
#print axioms Verif.brownianMoments_of_brownian
#print axioms Verif.HasJet2.of_analytic
#print axioms Verif.C67_error_estimate_constant
#print axioms Verif.C67_error_sums
#print axioms Verif.C47_range
#print axioms Verif.C47_increments
#print axioms Verif.C47_zero
#print axioms Verif.C47_path
#print axioms Verif.C47_value
#print axioms Verif.C48_terminates
#print axioms Verif.C48_ends
#print axioms Verif.C48_refine
#print axioms Verif.C49_law
#print axioms Verif.C49_separated
#print axioms Verif.C49_cov
#print axioms Verif.C49_below_tolerance
#print axioms Verif.C49_violated_small
#print axioms Verif.C49_unsafe
#print axioms Verif.C52_own_index
#print axioms Verif.C52_independent
#print axioms Verif.C52_cleaned_up
#print axioms Verif.C53_throttled
#print axioms Verif.C53_up_to_date
#print axioms Verif.C53_increasing
#print axioms Verif.C53_solve
#print axioms Verif.C53_stepTo
#print axioms Verif.C53_any_interleaving
#print axioms Verif.C53_batched_partial
#print axioms Verif.C53_violated_repeats
#print axioms Verif.C53_violated_silent
#print axioms Verif.C53_ones
#print axioms Verif.C55_success
#print axioms Verif.C55_succeeds
#print axioms Verif.C55_failure
#print axioms Verif.C55_not_finite
#print axioms Verif.C55_linear_failure
#print axioms Verif.C55_accuracy
#print axioms Verif.C50_bilinear
#print axioms Verif.C50_adds_up
#print axioms Verif.C50_multi
#print axioms Verif.C50_wrap_wrap
#print axioms Verif.C50_wrap_contribution
#print axioms Verif.C50_adjoint
#print axioms Verif.C50_to_ode
#print axioms Verif.C50_violated_complex
#print axioms Verif.C50_violated_adjoint
#print axioms Verif.Backsolve.C51_schedule
#print axioms Verif.Backsolve.C51_once
#print axioms Verif.Backsolve.C51_sum
#print axioms Verif.Backsolve.C68_gradient
#print axioms Verif.Backsolve.C68_gradient_along
#print axioms Verif.Backsolve.C68_violated_leapfrog
#print axioms Verif.C69_runge_kutta
#print axioms Verif.C69_stateless
#print axioms Verif.C69_half_solver
#print axioms Verif.C69_euler
#print axioms Verif.C69_implicit_euler
#print axioms Verif.C69_violated_leapfrog
#print axioms Verif.C69_violated_reversible_heun
#print axioms Verif.C69_langevin_partial
#print axioms Verif.C69_langevin_fsal
#print axioms Verif.C69_violated_quicsort
#print axioms Verif.global_error
#print axioms Verif.C70_accepted_succeeded
#print axioms Verif.C70_converges
#print axioms Verif.C70_explicit
#print axioms Verif.C70_constant
#print axioms Verif.C70_ideal
#print axioms Verif.C70_order2
#print axioms Verif.C70_bosh3
#print axioms Verif.C70_dopri5
#print axioms Verif.C70_tsit5
#print axioms Verif.C70_dopri8
#print axioms Verif.C70_kvaerno
#print axioms Verif.C70_imex
#print axioms Verif.C71_align
#print axioms Verif.C71_should
#print axioms Verif.C71_quicsort
#print axioms Verif.C72_align
#print axioms Verif.C72_should
#print axioms Verif.C72_quicsort
#print axioms Verif.C74_changed_partial
#print axioms Verif.C74_constant_partial
#print axioms Verif.C74_violated_drift
#print axioms Verif.C74_violated_short
#print axioms Verif.C74_short_beta
#print axioms Verif.C74_violated_backward
#print axioms Verif.C74_violated_backward_value
#print axioms Verif.C73_align
#print axioms Verif.C73_should
#print axioms Verif.C73_quicsort
#print axioms Verif.C73_deterministic
#print axioms Verif.run_upToDate
#print axioms Verif.centred_of_brownian
#print axioms Verif.C75_heun
#print axioms Verif.C75_midpoint
#print axioms Verif.C75_ralston
#print axioms Verif.C75_bosh3
#print axioms Verif.C75_dopri5
#print axioms Verif.C75_tsit5
#print axioms Verif.C75_kvaerno3
#print axioms Verif.C75_kvaerno4
#print axioms Verif.C75_kvaerno5
#print axioms Verif.C75_sil3
#print axioms Verif.C75_kencarp3
#print axioms Verif.C75_kencarp4
#print axioms Verif.C75_kencarp5
#print axioms Verif.C75_dopri8_partial
#print axioms Verif.C75_dopri8_sharp
#print axioms Verif.C75_dopri8_not_8th
#print axioms Verif.C75_kvaerno5_sharp
#print axioms Verif.C75_kencarp5_sharp
#print axioms Verif.C75_ideal
#print axioms Verif.DenseOrder.explicit
#print axioms Verif.C76_converges
#print axioms Verif.C76_order2
#print axioms Verif.C76_bosh3
#print axioms Verif.C76_dopri5
#print axioms Verif.C76_tsit5
#print axioms Verif.C76_kvaerno
#print axioms Verif.C76_imex
#print axioms Verif.C76_dopri8_partial
#print axioms Verif.C76_dopri8_not_8th
#print axioms Verif.C76_constant
#print axioms Verif.saved_error
#print axioms Verif.C77_joined
#print axioms Verif.C77_final
#print axioms Verif.C77_dense_final
#print axioms Verif.C77_ts_final
#print axioms Verif.C77_stepTo
#print axioms Verif.C77_euler
#print axioms Verif.C77_leapfrog
#print axioms Verif.C77_semi_implicit_euler
#print axioms Verif.C77_implicit_euler
#print axioms Verif.C77_reversible_heun
#print axioms Verif.C77_euler_heun
#print axioms Verif.C77_stratonovich_milstein
#print axioms Verif.C77_ito_milstein
#print axioms Verif.C77_srk
#print axioms Verif.C77_langevin
#print axioms Verif.C77_hermite
#print axioms Verif.C77_sil3
#print axioms Verif.C77_dopri5
#print axioms Verif.C77_tsit5
#print axioms Verif.C77_dopri8
#print axioms Verif.C77_kencarp3
#print axioms Verif.C77_kencarp4
#print axioms Verif.C77_kencarp5
#print axioms Verif.C77_half_solver_not
#print axioms Verif.C78_euler
#print axioms Verif.C78_implicit_euler
#print axioms Verif.C78_implicit_euler_step
#print axioms Verif.C78_semi_implicit_euler
#print axioms Verif.C78_reversible_heun
#print axioms Verif.C78_half
#print axioms Verif.C78_half_estimate
#print axioms Verif.C78_half_rk
#print axioms Verif.C78_constant
#print axioms Verif.C78_leapfrog_first_order
#print axioms Verif.C78_leapfrog_partial
#print axioms Verif.C78_leapfrog_constant
#print axioms Verif.C78_violated_leapfrog
#print axioms Verif.C79_euler
#print axioms Verif.C79_ito_milstein
#print axioms Verif.C79_stratonovich_milstein
#print axioms Verif.C79_euler_heun
#print axioms Verif.C79_near_euler
#print axioms Verif.C79_of_step
#print axioms Verif.C79_constant
#print axioms Verif.C79_stepTo
#print axioms Verif.C80_ito_milstein
#print axioms Verif.C80_stratonovich_milstein
#print axioms Verif.C80_euler_additive
#print axioms Verif.C80_near_milstein
#print axioms Verif.C81_heun
#print axioms Verif.C81_midpoint
#print axioms Verif.C81_ralston
#print axioms Verif.C81_bosh3
#print axioms Verif.C81_dopri5
#print axioms Verif.C81_of_order
#print axioms Verif.C81_explicit_rk
#print axioms Verif.C81_stratonovich_sums
#print axioms Verif.C82_finishes
#print axioms Verif.C82_tame
#print axioms Verif.C82_explicit
#print axioms Verif.C82_solvers
#print axioms Verif.C82_floor_stuck
#print axioms Verif.C83_batch
#print axioms Verif.C83_rk
#print axioms Verif.C83_rk_exact
#print axioms Verif.C83_rk_clip
#print axioms Verif.C83_rk_step
#print axioms Verif.C83_half
#print axioms Verif.C83_batch_own_event_partial
#print axioms Verif.C83_batch_success_partial
#print axioms Verif.C83_violated
#print axioms Verif.C83_langevin_partial
#print axioms Verif.C83_langevin_violated
#print axioms Verif.C84_same_steps
#print axioms Verif.C84_same_output
#print axioms Verif.C84_no_event
#print axioms Verif.C85_converges
#print axioms Verif.C85_order2
#print axioms Verif.C85_bosh3
#print axioms Verif.C85_dopri5
#print axioms Verif.C85_tsit5
#print axioms Verif.C85_dopri8
#print axioms Verif.C85_kvaerno
#print axioms Verif.C85_imex
#print axioms Verif.C85_constant
#print axioms Verif.C86_converges
#print axioms Verif.C86_kvaerno
#print axioms Verif.C86_imex
#print axioms Verif.C86_modes
#print axioms Verif.C86_drift
#print axioms Verif.C86_picard
#print axioms Verif.C87_first
#print axioms Verif.C87_second
#print axioms Verif.C87_exact
#print axioms Verif.C87_decimal
#print axioms Verif.C87_corners
#print axioms Verif.C87_not_third
#print axioms Verif.C88_condition
#print axioms Verif.C88_not_missed
#print axioms Verif.C88_solvers
#print axioms Verif.C88_accurate
#print axioms Verif.C88_rms
#print axioms Verif.C88_found_partial
#print axioms Verif.C88_imex_accurate
#print axioms Verif.C88_violated_imex
#print axioms Verif.C89_derivative
#print axioms Verif.C89_solve
#print axioms Verif.C89_violated_imex
#print axioms Verif.C90_float32
#print axioms Verif.C90_grid
#print axioms Verif.C90_float64_partial
#print axioms Verif.C90_violated_float64
#print axioms Verif.C91_resume_partial
#print axioms Verif.C91_constant
#print axioms Verif.C91_constant_segments
#print axioms Verif.C91_violated_constant
#print axioms Verif.C91_violated_adaptive
#print axioms Verif.C91_violated_event
#print axioms Verif.C92_order15
#print axioms Verif.C92_order1
#print axioms Verif.C92_sra1
#print axioms Verif.C92_shark
#print axioms Verif.C92_generalShark
#print axioms Verif.C92_slowRK
#print axioms Verif.C92_spark
#print axioms Verif.C92_sea
#print axioms Verif.C93_blind
#print axioms Verif.C93_violated
#print axioms Verif.C93_violated_solvers
#print axioms Verif.C93_dtmax_partial
#print axioms Verif.C93_sees_partial
#print axioms Verif.C94_gibbs
#print axioms Verif.C95_near
#print axioms Verif.C95_converges
#print axioms Verif.C95_constant
#print axioms Verif.C95_solvers
#print axioms Verif.C95_solvers_upTo
#print axioms Verif.C96_replay
#print axioms Verif.C96_near
#print axioms Verif.C96_converges
#print axioms Verif.C96_constant
#print axioms Verif.C96_solvers
#print axioms Verif.C96_solvers_upTo
#print axioms Verif.Backsolve.C97_converges
#print axioms Verif.Backsolve.C97_constant
#print axioms Verif.Backsolve.C97_solvers
#print axioms Verif.Backsolve.C98_violated
#print axioms Verif.Backsolve.C98_violated_empty
#print axioms Verif.Backsolve.C98_steps_partial
#print axioms Verif.Backsolve.C98_converges_partial
#print axioms Verif.C99_violated_dt0
#print axioms Verif.C99_violated_backsolve
#print axioms Verif.C99_violated_rejected
#print axioms Verif.C99_step_ts_partial
#print axioms Verif.C99_jump_ts_partial
#print axioms Verif.C99_state
#print axioms Verif.C100_violated_stepTo
#print axioms Verif.C100_constant_partial
#print axioms Verif.C100_pid_partial
#print axioms Verif.C100_clip_partial
#print axioms Verif.C101_is_derivative
#print axioms Verif.C101_converges
#print axioms Verif.C101_order2
#print axioms Verif.C101_bosh3
#print axioms Verif.C101_dopri5
#print axioms Verif.C101_tsit5
#print axioms Verif.C101_dopri8
#print axioms Verif.C101_kvaerno
#print axioms Verif.C101_imex
#print axioms Verif.C101_constant
#print axioms Verif.C102_solve
#print axioms Verif.C102_rk
#print axioms Verif.hermiteInterp_part
#print axioms Verif.dopri5Interp_part
#print axioms Verif.tsit5Interp_part
#print axioms Verif.dopri8Interp_part
#print axioms Verif.C102_constant
#print axioms Verif.C102_stepTo
#print axioms Verif.C102_clip
#print axioms Verif.C102_pid
#print axioms Verif.Backsolve.C102_backsolve
#print axioms Verif.Backsolve.C102_backsolve_pid
#print axioms Verif.C102_ordinary_norm
#print axioms Verif.C103_aStable
#print axioms Verif.C103_lStable
#print axioms Verif.C103_kvaerno
#print axioms Verif.C103_imex
#print axioms Verif.C103_lStable_imex
#print axioms Verif.C103_lStable_partial
#print axioms Verif.C103_kencarp_grow
#print axioms Verif.C103_explicit
#print axioms Verif.C103_implicitEuler
#print axioms Verif.C103_implicitEuler_contractive
#print axioms Verif.C103_implicitEuler_equilibrium
#print axioms Verif.Typing.C104_sound
#print axioms Verif.Typing.C104_errors
#print axioms Verif.Typing.C104_specials
#print axioms Verif.Typing.C104_complete_partial
#print axioms Verif.Typing.C104_violated
#print axioms Verif.Typing.C104_violated_annotated
#print axioms Verif.C105_solve
#print axioms Verif.C105_dense
#print axioms Verif.C105_rk
#print axioms Verif.C105_hermite
#print axioms Verif.C105_dopri5Interp
#print axioms Verif.C105_tsit5Interp
#print axioms Verif.C105_dopri8Interp
#print axioms Verif.C105_constant_init
#print axioms Verif.C105_constant
#print axioms Verif.C105_stepTo
#print axioms Verif.C105_stepTo_init
#print axioms Verif.C105_clip_init
#print axioms Verif.C105_clip
#print axioms Verif.C105_pid_init
#print axioms Verif.C105_pid
#print axioms Verif.C105_pid_solve
#print axioms Verif.C105_first_step_origin
#print axioms Verif.C105_violated
#print axioms Verif.C106_solve
#print axioms Verif.C106_rk
#print axioms Verif.C106_explicit_rk
#print axioms Verif.C106_ode
#print axioms Verif.C106_hermite
#print axioms Verif.C106_dopri5
#print axioms Verif.C106_tsit5
#print axioms Verif.C106_dopri8
#print axioms Verif.C106_kencarp
#print axioms Verif.C106_sil3
#print axioms Verif.C106_euler
#print axioms Verif.C106_leapfrog
#print axioms Verif.C106_implicit_euler
#print axioms Verif.C106_reversible_heun
#print axioms Verif.C106_euler_heun
#print axioms Verif.Preflight.C107_is_sde
#print axioms Verif.Preflight.C107_is_unsafe
#print axioms Verif.Preflight.C107_is_cde
#print axioms Verif.Preflight.C107_isinstance_sound
#print axioms Verif.Preflight.C107_isinstance_partial
#print axioms Verif.Preflight.C107_isinstance_nested
#print axioms Verif.Preflight.C107_isinstance_violated
#print axioms Verif.Preflight.C107_sde_refusals
#print axioms Verif.Preflight.C107_sde_partial
#print axioms Verif.Preflight.C107_sde_violated
#print axioms Verif.Preflight.C107_backsolve_partial
#print axioms Verif.Preflight.C107_backsolve_violated
#print axioms Verif.Preflight.C107_forward_partial
#print axioms Verif.Preflight.C107_forward_others
#print axioms Verif.Preflight.C107_forward_violated
#print axioms Verif.Preflight.C107_ode_accepted
#print axioms Verif.Preflight.C107_recursive
#print axioms Verif.Preflight.C107_accepted
#print axioms Verif.Preflight.C107_unsafe_refused
#print axioms Verif.Preflight.C107_markings
#print axioms Verif.Preflight.C108_controllers
#print axioms Verif.Preflight.C108_adaptive_partial
#print axioms Verif.Preflight.C108_fixed_partial
#print axioms Verif.Preflight.C108_explicit
#print axioms Verif.Preflight.C108_half_violated
#print axioms Verif.Preflight.C108_nested_violated
#print axioms Verif.Preflight.C108_solve_partial
#print axioms Verif.Compat.C109_types
#print axioms Verif.Compat.C109_kwargs
#print axioms Verif.Compat.C109_sound
#print axioms Verif.Compat.C109_accepts
#print axioms Verif.Compat.C109_refuses_partial
#print axioms Verif.Compat.C109_count_violated
#print axioms Verif.Compat.C109_pair_partial
#print axioms Verif.Compat.C109_pair_violated
#print axioms Verif.C110_dense_at_event_partial
#print axioms Verif.C110_continues_after_event
#print axioms Verif.C110_violated
#print axioms Verif.C111_event_time
#print axioms Verif.C111_reported
#print axioms Verif.C112_starts_partial
#print axioms Verif.C112_sizes
#print axioms Verif.C112_fails_iff
#print axioms Verif.C112_violated
#print axioms Verif.C113_none_missed
#print axioms Verif.C113_crossing_found
#print axioms Verif.C113_true_crossing_partial
#print axioms Verif.C113_violated
#print axioms Verif.C114_event_at_start
#print axioms Verif.C114_saved
#print axioms Verif.C115_numbers_partial
#print axioms Verif.C115_nan
#print axioms Verif.C115_violated
#print axioms Verif.C116_sign_partial
#print axioms Verif.C116_python_partial
#print axioms Verif.C116_unsigned
#print axioms Verif.C116_never_ends
#print axioms Verif.C116_violated
#print axioms Verif.C116_promotion
#print axioms Verif.C116_promotion_32
#print axioms Verif.C116_promotion_python
#print axioms Verif.C116_wrap
#print axioms Verif.bits_sizes
#print axioms Verif.C117_direction
#print axioms Verif.C117_ts
#print axioms Verif.C117_dt0
#print axioms Verif.C117_accepted
#print axioms Verif.C117_steps
#print axioms Verif.C117_violated
