# Formal model of diffrax: design

Subject: `patrick-kidger/diffrax` at the pinned commit in `/repo` (read as text only, never run).
Proof assistant: Lean 4 (4.33.0) with Mathlib. Project: `/verif/lean`, build with `lake build`.

## 1. Trusted base

* The Lean 4 kernel (and the elaborator insofar as it produced the statements one reads).
* Axioms: only Lean's own `propext`, `Classical.choice`, `Quot.sound`. `lean/Verif/Audit.lean`
  prints the axioms of each property theorem during the build. No own axioms, no `sorry`,
  no `native_decide`, no `bv_decide`.
* The correspondence between the Python source and the Lean definitions. Each model definition
  cites the file and lines it transcribes, and says where it simplifies. This correspondence is
  by reading; nothing checks it mechanically.

### What is modelled

See section 3 (per property) and the comments in each file. In short: the integration loop and its
output buffers, events, the four step size controllers, dense/linear/cubic/local
interpolation, missing-data filling, Runge-Kutta stepping (FSAL/SSAL included), several other solvers, the Langevin solvers,
terms, the virtual Brownian tree, the Backsolve interval schedule, progress meters, argument
checks.

### What is not modelled (trusted or out of scope)

* Floating point rounding. Times are elements of an arbitrary linear order (loop), of an arbitrary
  discrete linear order with `nextafter`/`prevbefore` as successor/predecessor (clip controller), or
  exact field elements (constant step size, PID, interpolation, Runge-Kutta, Brownian tree).
  `t1_clip_floor` is an arbitrary time `<= t1`.
* NaN in times. NaN in data is modelled (as `none`) for the filling functions, the PID controller and event conditions.
* JAX tracing, jit, autodiff (`stop_gradient`, `nondifferentiable`), dtype promotion,
  `eqxi` buffers, checkpointed while loops. A while loop is modelled as iteration, an array update as
  a list update with JAX's clamping/dropping semantics for out-of-range indices where the code can
  reach them. Batching (`vmap`) is modelled for the loop, Runge-Kutta, `HalfSolver` and Langevin steps
  only (`Model/Batch`); the other models are of a single solve, in which `unvmap_any` is the identity.
  In `Model/Batch` loops inside one step (saving at `ts`, root finds) run lane by lane, and the
  `unvmap` in `_global_interpolation.py` 375 is left out.
* Pytrees of states are modelled as an arbitrary type (or an arbitrary module over a field).
* External libraries: the root finders (optimistix), linear solvers (lineax), the PRNG (jax.random).
  They appear as arbitrary functions (oracles); hypotheses on them are stated in the theorems. In
  particular the laws of the Brownian paths (C49) assume an ideal generator (`IdealPrng`): independent
  standard normals for distinct keys, `split` never repeating a key. The loop of `optimistix.root_find`
  around `VeryChord` (C55) follows its documentation.
* In C79 a Brownian path is a process with the moments of Brownian motion (of the higher ones only the order of magnitude) and increments
  independent of the past (`BrownianNoise`); `brownianNoise_of_brownian` shows that Mathlib's pre-Brownian motion
  is one. The existence of Brownian motion is not in Mathlib, and so the examples of C79 quantify over it.
  A Stratonovich solution is defined through the drift correction; `C81_stratonovich_sums` shows that its
  increments are the limits in mean of the trapezoidal sums. Adaptive steps, which depend on the path,
  are not covered.

## 2. Architecture

`Verif/Model/*.lean` contains only definitions transcribing `/repo`;
`Verif/Spec/*.lean` contains the small independent specifications;
`Verif/Lemmas/*.lean` helper lemmas; `Verif/Props/*.lean` the property theorems (one block per
property with a non-vacuity `example` beside it). Where the code violates the property as a user
would state it, the file contains a theorem proving the violation for a concrete input, and a theorem
with suffix `_partial` for what does hold.

## 3. Properties: what is modelled, how it is proved

| id | model | proof |
|---|---|---|
| C01-C06 | main loop (`loop`, `cond_fun`, `body_fun_aux`), arbitrary solver and controller oracles | invariant by induction on the number of iterations. C06 is false in the code: witness + partial |
| C07-C10 | save buffers with index semantics | refinement: index-based buffers refine a list-concatenation specification over the trace of accepted steps. C07 false for a jump time at `t1`, C10 for zero-step solves with `steps != 0`: witnesses + partial |
| C11-C12 | as above | simulation between two runs |
| C13 | dense buffers + `_interpret_t` + `DenseInterpolation.evaluate` | refinement through sortedness of the dense knots |
| C14-C18 | events (mask, direction, root find, unsave) | invariants; C16 (jump time at `t0`) and C18 false: witnesses + partial |
| C19 | `t0 == t1` path | direct |
| C20 | direction, `WrapTerm`, Runge-Kutta step | simulation of the mirrored run |
| C21-C22 | ConstantStepSize + loop, exact arithmetic | closed form of the k-th step end by induction; C21 false in general: witness + partial |
| C23 | StepTo + loop | induction over ts |
| C24-C27 | PIDController with real powers | case analysis on the clip; C26: potential function |
| C28-C32 | ClipStepSizeController over an arbitrary inner controller, discrete time | loop invariants; parts of C28/C29/C30 false near t1 and for adjacent floats: witnesses + partial |
| C33-C39 | interpolation over an arbitrary ordered field | algebra + sorted search lemmas |
| C40-C42 | Runge-Kutta step over a module | C40: simulation relation between the FSAL run and the from-scratch run; C42: ring identities for all dt, lambda |
| C43-C46 | HalfSolver, update_result, ReversibleHeun, SemiImplicitEuler | algebra; symplecticity through the derivative of the step map |
| C47-C49 | VirtualBrownianTree | C47 algebra of `_levy_diff`; C48 descent along the dyadic path; C49: values as linear forms in independent normals, covariance by induction on depth |
| C50 | all built-in terms, nested in any way | structural induction over terms; violated for complex numbers |
| C51 | schedule of the backward pass of BacksolveAdjoint; the solves are an oracle | induction over ts |
| C52-C53 | progress meters | invariants over arbitrary call sequences |
| C54 | argument checks | direct |
| C55 | VeryChord (`init`, `step`, `terminate`), numbers exact, NaN or infinite | the states of the loop are described by the sequence of iterates; case analysis; contraction estimate |
| C56 | front end of `diffeqsolve`: events in backward solves | mirrored run; violated: witness + partial |
| C57-C58 | backward Hermite coefficients with missing values | algebra; violated: witnesses + partial |
| C59 | clip to `t1` + rejected steps | violated: witness + partial |
| C60 | `dt0=None` | violated: witness + partial |
| C61 | local order of the Runge-Kutta methods | B-series; order conditions checked by the kernel, lifted to all analytic vector fields |
| C62 | failed nonlinear solves | loop invariant; violated for ImplicitEuler and HalfSolver |
| C63 | LeapfrogMidpoint, SemiImplicitEuler | algebra |
| C64 | Milstein's methods | calculus (Fréchet derivatives) |
| C65-C66 | backward stochastic solves | witness + partial |
| C67 | strong order of the stochastic Runge-Kutta methods for additive noise | stochastic Taylor expansion with remainder estimates; moments of Brownian motion and its Lévy areas |
| C68 | backward pass with exact solves of the adjoint equations (ODEs) | conserved quantity modulo O(ε²), Gronwall |
| C69 | `made_jump` of all solvers | case analysis; violated by three solvers |
| C70 | whole solves with Runge-Kutta methods, over ℝ | loop invariant (discrete Gronwall) on top of C61, made uniform along the solution |
| C71 | coefficients of ALIGN, ShOULD, QUICSORT | remainders of the exponential series |
| C72 | steps of these solvers | closed form of the linear equation (uniqueness by differentiation), algebra |
| C73 | local strong order of these solvers | expansion in ε = √h along rescaled paths of both the exact solution and the step (jets with values in Banach spaces); means by Fubini |
| C74 | `step`, `_recompute_coeffs` over any sequence of steps | induction; violated: witnesses + partial |
| C75 | `interpolation_cls` of the Runge-Kutta solvers | every power of the fraction of the step is a Runge-Kutta method; order conditions checked by the kernel as in C61; violated by Dopri8: witness + partial |
| C76 | `SaveAt(ts=...)` and dense output of whole solves with Runge-Kutta methods, over ℝ | C70 and C75 made uniform in time and in the fraction of the step, C07/C13 to say which step a value comes from; violated by Dopri8: witness + partial |
| C77 | dense output at the ends of the steps, whole solves | loop invariant; algebra of the interpolations; violated by HalfSolver: witness |
| C78 | Euler, ImplicitEuler, SemiImplicitEuler, ReversibleHeun, LeapfrogMidpoint, HalfSolver on ODEs, whole solves, over ℝ | one-step (for leapfrog: two-step) estimates + loop invariant; violated by LeapfrogMidpoint with unequal steps: witness + partial |
| C79 | Euler, ItoMilstein, StratonovichMilstein, EulerHeun on a `MultiTerm` of drift and Brownian noise, whole solves, once per path, over ℝ | the spec defines Itô solutions as mean square limits of left-point sums; orthogonality of martingale increments, one-step mean square estimates, discrete Gronwall; the loop of C01 turned into the recursion over the steps |
| C80 | ItoMilstein, StratonovichMilstein with commutative noise, Euler with additive noise, as C79 | second order expansion of the solution from its left-point sums (iterated sums with symmetric coefficients are squares, quadratic variation), then as C79 |
| C81 | explicit Runge-Kutta tableaus on `MultiTerm(ODETerm, ControlTerm)`: Heun, Midpoint, Ralston, Bosh3, Dopri5, as C79 | expansion of the stages by induction over them, bounds by powers of the increments, then as C79; validity of the first-same-as-last state as invariant |
| C82 | the loop with PIDController, explicit Runge-Kutta tableaus | invariant counting the rejections since the last accepted step; linear growth of the stages, by induction over them |
| C83 | `jax.vmap` of the loop, of Runge-Kutta, Half- and Langevin solvers (`Model/Batch`) | refinement: each lane of the batched loop refines the single loop; validity of the first-same-as-last state along each lane; violated by event root finds for failed lanes and by Langevin coefficients: witnesses + partial |
| C84 | loop with events vs. loop without | simulation: the attempts with events are a prefix of those without |
| C85 | loop with one event condition, event root finder (oracle), Runge-Kutta with dense output | invariant until the event: the condition has not crossed and time has not passed the crossing by more than the error allows; error bounds of C70 and C76 |
| C86 | implicit Runge-Kutta stages with an inexact root finder, loop | stages of the inexact method are compared with those of the exact one (perturbation of the stage equations); then the fan of C70 with the extra local error |
| C87 | explicit Runge-Kutta methods on `MultiTerm(ODETerm, ControlTerm)`, loop | time is one of the controls; stages and solution expanded to second order along the solution (mean value theorem with right derivatives); then the fan of C70. Lower bound: exact invariant of the accepted steps |
| C88 | `steady_state_event`, `func` of the solvers, loop | run invariant on top of C15 and C70; decay of the solution; violated for `MultiTerm`: witness + partial |
| C89 | `ImplicitAdjoint`, `_vf` (`optx.implicit_jvp` and the linear solver by their documentation) | implicit function theorem by hand, perturbation of the linear system; on top of C88; violated for `MultiTerm`: witness + partial |
| C90 | `UnsafeBrownianPath.evaluate`, `force_bitcast_convert_type` (bit patterns of times; `jax.random` idealised as in C49, `fold_in` injective) | keys injective in the bits of the times, joint law as in C49; violated in float64: witness + partial |
| C91 | `diffeqsolve` with `solver_state`, `controller_state`, `made_jump` (Front, Loop), `ConstantStepSize` | simulation between the resumed solve and the rest of the uninterrupted one; violated: 3 witnesses + partial |
| C92 | `AbstractSRK.step` with the tableaus of SRA1, ShARK, GeneralShARK, SlowRK, SPaRK, SEA (SRK), inside `diffeqsolve` (Loop) | Taylor expansion of the solution and of a step along a path, with bounds in mean square; the leading error is orthogonal to the past; discrete Gronwall over the steps |
| C93 | `PIDController` (PidWith) with explicit Runge-Kutta methods (RK), inside `diffeqsolve` (Loop) | one unrolled step on a field that vanishes at the stage times; otherwise a bound on the length of accepted steps, from `dtmax` or from the estimate, and C70 |
| C94 | `UnderdampedLangevinDriftTerm`, `UnderdampedLangevinDiffusionTerm` (Terms) | integration by parts in each position and velocity coordinate (Mathlib), which turns the integral of `Lφ` against the Gibbs density into zero |
| C95 | explicit Runge-Kutta methods (RK) inside `diffeqsolve` (Loop) | a tube around the solution where the field is bounded and Lipschitz (compactness); stages of short steps stay in it; a smooth cut-off gives the local error of C70; the error bound itself is part of the loop invariant |
| C96 | explicit Runge-Kutta methods (RK) inside `diffeqsolve` (Loop) | the derivative of a step is the step of the same method for the equation together with its variational equation (induction over stages); the derivative of the exact solution solves that equation (symmetry of second derivatives); C95 applied to it |
| C97 | the backward pass of BacksolveAdjoint (Backsolve), explicit Runge-Kutta methods (RK) inside `diffeqsolve` (Loop) | solutions of the adjoint equations exist on the whole interval (truncated Picard iteration, Gronwall); C68 for them; C95 from any valid solver state for each backward solve; errors propagated through the pass by induction over the saved times |
| C98 | the backward pass of BacksolveAdjoint (Backsolve), `ConstantStepSize` (Constant), `diffeqsolve` (Loop, Front) | violated (witnesses); otherwise the steps of every backward solve computed by induction over the saved times, from the last to the first |
| C99 | `ClipStepSizeController` (Clip), `diffeqsolve` with a passed controller state (Front, Loop), the backward pass (Backsolve) | violated (witnesses); with `dt0=None` by the invariants of C28-C30, from any state in range. The code keeps `step_ts` and `jump_ts` in the controller state, so a solve resumed with other times uses the old ones after its first step; the model has the same `ClipStepSizeController` in both |
| C100 | the checks of `diffeqsolve` and the `wrap`s of the controllers (Front) | violated for `StepTo`; otherwise by `C54_accepts_iff` |
| C101 | `Solution.derivative`, `DenseInterpolation.derivative`, `AbstractPath.derivative` (DenseDerivative), the dense output of C76 | errors of the interpolation polynomials over one step, Markov's inequality for polynomials of bounded degree, then the global error of C75 and C76. `jax.jvp` is the derivative of Mathlib |
| C102 | the loop and explicit Runge-Kutta steps, `adjoint_rms_seminorm` (Seminorm), the backward pass (Backsolve) | a simulation: the projection of the state commutes with every definition of the loop |
| C103 | the tableaus (Tableaus), Runge-Kutta steps (RK), `ImplicitEuler`, the loop | the stability function as a quotient of polynomials computed by the kernel from the tableau; its modulus on the imaginary axis; Phragmén–Lindelöf for the half plane; induction over the steps |
| C104 | `get_args_of`, `_get_args_of_impl`, `get_origin_no_specials` (Typing); classes are a table with bases and method resolution order as input | induction over the order of definition; inherited `__orig_bases__` belong to a class that is reached without type arguments, since subclasses come first in the method resolution order. Type variables inside type arguments (`tuple[T]`) are opaque: the code does not fill them in. Violated: witnesses + partial |
| C105 | loop, RK, all step size controllers, interpolations (models as before) | simulation: every function of the loop commutes with a strictly increasing map of times and a map of states; Runge-Kutta steps commute with affine maps of time and linear maps of the state. Violated for `dt0=None`: witness + partial |
| C106 | loop, RK, interpolations, `Solvers` (models as before) | invariant of the loop including save buffers, dense output and event root find: all states are in a set that steps and interpolations do not leave; for Runge-Kutta methods induction over the stages |
| C107, C108 | `_heuristics.py`, `isinstance` for solvers, the checks of `diffeqsolve` and of the adjoints, tolerances of implicit solvers, `_with_tols.py` (`Model/Preflight`) | induction over trees and over the class statements; violated by HalfSolver around implicit and Runge-Kutta solvers and by solvers wrapped twice: witnesses + partial |
| C109 | `_assert_term_compatible`, `better_isinstance`, `_term_compatible_contr_kwargs`, conversion of pairs of terms (`Model/Compat`) | mutual induction over structures; violated by wrong numbers of terms and by the deprecated pair: witnesses + partial |
| C110 | `loop` with event root finder, `DenseInterpolation.evaluate` (`Model/Loop`) | last accepted step covers the event; violated, values remain up to the end of the step: general theorem + witness + partial |
| C111 | `_to_root_find`, `_root_find`, event mask (`Model/Loop`) | one entry of the mask is set, all other values are zero; root finder as parameter |
| C112 | traced calls of `_save`, sizes of the buffers (`Model/SaveShapes`) | case analysis; sizes kept by every write; violated by `steps` above `max_steps`: witness + partial |
| C113 | event conditions over a whole solve (`Model/Loop`) | states of a solve form a chain, being quiet is transitive; violated by conditions that start at zero: witness + partial |
| C114 | events at the start, root find without steps (`Model/Loop`) | the values handed to the root finder vanish at `t0` only; every write to the buffers |
| C115 | signs of condition values with NaN and infinities (`Model/EventNan`), for sequences of values | case analysis, induction on the sequence; violated by NaN: witnesses for sequences of any length + partial |
| C116 | the check of the sign of `dt0` on integers that wrap around, of every size (`Model/TimeTypes`) | case analysis on the types; violated by overflow: witnesses for every size, induction on the steps + partial |
| C117 | `diffeqsolve` with times rounded by any monotone function (`Model/TimeRound`) | order arguments on top of C54; step count from C02; empty intervals: exact characterisation + witness |

The order of the Runge-Kutta methods (C42 and the theorems `C42_*`, `C61_*`) is proved through rooted
trees: elementary differentials and B-series with remainder (`Lemmas/BSeries`), the order conditions of
the tableaus in `/repo` checked by the kernel as exact rationals (or, for tableaus written in decimals,
up to a stated residual), lifted to "for every analytic vector field the local error is `O(h^(p+1))`".
For C70 this local statement is made uniform on compact pieces of a solution (`Lemmas/UniformTaylor`: a
jointly smooth function whose Taylor polynomial vanishes pointwise is bounded uniformly). The stages of an
implicit method are compared with finitely many fixed point iterations, which are smooth
(`Lemmas/ConvergenceImplicit`). Lady Windermere's fan is then an invariant of the loop.

## 4. Findings (code vs. expectation)

Places where the code does not do what a user would expect; each has a theorem with a concrete witness
(name in brackets) unless marked "reading".

Time stepping
* ConstantStepSize takes a first step of `dt0` and then equally spaced points `t0 + (t1-t0) k/n`, so the
  steps are not all `dt0` long (`C21_violated`).
* PIDController: an accepted step size that overflows to infinity makes the next scaled error NaN and the
  next step end NaN for ever (`C26_violated`).
* `dt0=None` without a controller that picks the step always starts with 0.01, whatever the scale of the
  problem (`C60_violated`).
* ClipStepSizeController: steps may jump over or fall short of `step_ts`, `jump_ts` near `t1` and for
  adjacent floats (`C28_violated`, `C28_violated_end`, `C29_violated_end`, `C29_violated_adjacent`,
  `C29_violated_unflagged`); a legal run may end in an internal error (`C30_spurious_internal_error`).
* In the last stretch before `t1` a rejected step is retried unchanged until `max_steps`
  (`C59_violated`).

Saving and events
* With `ClipStepSizeController(jump_ts=[t1])` a solve whose first step would reach `t1` is successful without any step reaching
  `t1`, and `SaveAt(ts=...)` returns `inf` for a requested time `t1` (`C07_violated`). With `jump_ts=[t0]` a rejected first step moves the time past `t0`,
  and may trigger an event (`C16_violated`).
* `SaveAt(t1=True, steps=n)` saves nothing if no step is accepted (`C10_violated`).
* A root find without event together with saving of steps saves a step twice (`C18_violated`), unless the buffer is full;
  so raising `max_steps` changes what is saved (`C12_violated`).
* An event hides the failure of the step in which it happens (`C06_violated`).
* In a batch in which some element is stopped by an event with a root finder, an element that fails or runs out of
  steps after a rejected step reports the end time and end value of the rejected step (`C83_violated`).
* In a batch, a Langevin solver may use other coefficients for an element than it does for the element alone
  (`C83_langevin_violated`).
* In backward solves the condition function of an event is given negated times (`C56_violated`).
* `SaveAt(steps=n)` with `max_steps < n` allocates a buffer of size 0 and fails with a shape error
  (`C112_violated`).
* Dense output is not truncated at the time of the event (`C110_violated`).
* An event with `direction=None` or `True` whose condition starts at exactly 0 triggers on leaving 0 upwards
  (`C113_violated`), for example if a solve is resumed from the time of an event.
* A condition that is NaN ends the solve with an event for `direction=None`, and hides a crossing for `True` and `False`
  (`C115_violated`).
* The sign of `dt0` is checked before times are converted to floating point. For a backward solve with unsigned integer times
  the check is the wrong way round, and with `ConstantStepSize` the solve that is accepted never reaches `t1`
  (`C116_unsigned`, `C116_never_ends`).
* If `t0` and `t1` differ but are rounded to the same floating point time, the solve is successful without a step and returns the
  initial value at every requested time (`C117_steps`, `C117_violated`).

Interpolation
* `linear_interpolation(replace_nans_at_start=...)` (`C36_replace_violated`),
  `backward_hermite_coefficients` with missing values (`C57_violated`, `C58_violated`).
* Reading: `evaluate(t0, t1)` of dense output, of the global interpolations and of the local ones subtracts two results of
  `evaluate` with `-`, which raises an error when `y` is a tuple or dictionary instead of an array.
* Reading: `sol.t1` is the requested end of the solve, also when an event stopped it earlier.

Solvers
* Documented orders: Sil3 is not of third order in its explicit term (`C42_sil3_explicit_violated`);
  reading: the rows of the implicit tableau of KenCarp5 sum to its nodes only up to 2e-12.
* ImplicitEuler does not make the error infinite when its nonlinear solve fails, and HalfSolver drops an
  infinite error: the solve fails instead of retrying (`C62_violated_implicit_euler`,
  `C62_violated_half_solver`).
* The interpolation of Dopri8 is documented as 8th order, but its local error is of size h^6
  (`C75_dopri8_not_8th`), less than that of the steps themselves. The values saved by a whole solve inherit this
  (`C76_dopri8_not_8th`): they converge with order 6 only (`C76_dopri8_partial`).
* Dense output and `SaveAt(ts=...)` of HalfSolver do not end at the value of the step: the interpolation is
  that of the full step, the value that of the two half steps (`C77_half_solver_not`).
* `LeapfrogMidpoint` has its documented second order only if the steps are (nearly) equal. With steps of
  alternating lengths `2h` and `h` it is off by `h` even for `y' = 2t` (`C78_violated_leapfrog`), so an adaptive
  controller or `StepTo` makes it a first order method. `C78_leapfrog_partial` gives the error in terms of the
  variation of the step lengths.
* For controlled differential equations with several controls all explicit Runge-Kutta methods are of order 2 at most,
  because they only see the increments of the control: with Dopri5, Tsit5 or Dopri8 the error is at least `h^2 t / 6`
  for a smooth example (`C87_not_third`). (`ControlTerm.to_ode` does not have this limit.)
* With the implicit-explicit methods `steady_state_event` looks at the norm of the tuple of the two vector fields
  instead of their sum, and never stops the solve of `y' = 1 - y` split into `1` and `-y` (`C88_violated_imex`).
* `ImplicitAdjoint` has the same problem: with the implicit-explicit methods its linear system is overdetermined, and
  the derivative is that of a least-squares solution: `0` instead of `1` for `y' = θ - y` (`C89_violated_imex`).
* `UnsafeBrownianPath` with float64 times folds `high half XOR low half` of each time into its key. Different times can
  give the same number: on the equally spaced times `1 + k (2^-20 + 2^-52)` all the increments are equal, and the sum of
  `N` of them has variance `N^2 dt` instead of `N dt` (`C90_violated_float64`).
* Resuming a solve with its returned states does not always continue it. `PIDController`'s next step is not returned, so the
  resumed solve starts with `1/100` or `dt0` (`C91_violated_adaptive`). The state of `ConstantStepSize` contains the old
  interval and number of steps: a solve with `dt0=1` over `[0, 0.1]`, resumed up to `3`, makes a step backwards from `1.1` to
  `0.3` and then steps of size `0.1` (`C91_violated_constant`). After an event root find the returned solver state belongs
  to the end of the step and not to the returned final time (`C91_violated_event`).
* No tolerance makes an adaptive solve accurate if the first step misses the equation: a vector field that is zero at the
  stage times of the first step gives an error estimate of zero, and the step is accepted for every `rtol` and `atol`.
  A `dtmax` limits the damage (C93).
* The backward pass of `BacksolveAdjoint` hands the state of the step size controller from one solve to the next. With
  `ConstantStepSize` it is about the last interval between saved times: values saved at `2.9` and `3` with `dt0=1` give a
  backward solve over `[0, 2.9]` with a step in the wrong direction and then steps of `0.1`, which can reach `max_steps`
  although the forward solve needs three steps (`C98_violated`). If `t1` is saved twice, as with `SaveAt(ts=[..., t1], t1=True)`,
  the times of the backward steps are computed as `0 * (k / 0)`, which is NaN in floating point (`C98_violated_empty`).
* With a passed `controller_state` and a `dt0` the first step of a solve is not clipped by `ClipStepSizeController`. A resumed
  solve steps across `step_ts` and `jump_ts` (`C99_violated_dt0`), and so do the backward solves of `BacksolveAdjoint` after the
  first (`C99_violated_backsolve`). With `store_rejected_steps`, a solve stopped by `max_steps` among rejections and resumed
  fails with an internal error (`C99_violated_rejected`).
* `StepTo` cannot be used with `BacksolveAdjoint`: the forward pass is accepted, but every solve of the backward pass raises that
  the times are not monotone, as they have been multiplied by the direction already (`C100_violated_stepTo`).
* The documentation calls the Kvaerno and KenCarp solvers A-stable and L-stable. With the rounded coefficients of the code,
  KenCarp3 and KenCarp5 are only almost A-stable (`C103_kencarp_grow`), and Kvaerno3/4/5, KenCarp3 and KenCarp5 only almost
  L-stable (`C103_lStable_partial`). The deviations are far below anything visible in practice.
* Type arguments are lost for `class Leaf(Mid, Bar[S])` with `class Mid(Foo[int])` (`C104_violated`), and `Annotated[Foo[int], ...]`
  gives the arguments of `Annotated` (`C104_violated_annotated`). Reading: type variables inside type arguments are not filled in.
* With `dt0=None` the first step of `PIDController` depends on the unit of time, as `max(d1, d2)` (`pid.py` 33-81) compares quantities of
  different dimensions and the thresholds are absolute (`C105_violated`): in a unit 10000 times smaller, a first step of `0.1`
  becomes `10` instead of `1000`.
* `HalfSolver` cannot be used with any implicit solver: `isinstance(solver, AbstractImplicitSolver)` is
  forwarded to the wrapped solver, but `solver.root_finder` is not (C108). In the same way
  `HalfSolver(Heun())`, or any other Runge-Kutta solver, fails with `ForwardMode` and `DirectAdjoint`, which
  ask for `solver.scan_kind` (C107).
* `isinstance` is forwarded through one wrapper only: `HalfSolver(HalfSolver(Euler()))` is accepted with
  adaptive steps for stochastic equations, and a twice wrapped Itô solver by `BacksolveAdjoint` (C107).
* A `MultiTerm` with the wrong number of terms raises an `AssertionError` without message instead of
  `TermAndSolverIncompatible`, and the deprecated `terms=(drift, diffusion)` for `EulerHeun` and the
  Milstein solvers is refused unless `y0` is a pair, too (C109).
* After an event located by a root finder, saved values later than the event are deleted, but dense
  output still has values up to the end of the step on which the event occurred (C110).
* KenCarp3, KenCarp4 and KenCarp5 solve for increments, so that what the root finder leaves over is not multiplied by
  the length of the step: with a fixed absolute tolerance the error grows with the number of steps, even for `y' = 0`
  (`C86_drift`). The Kvaerno methods and Sil3 solve for slopes and have no such effect (`C86_modes`).
* ReversibleHeun is not reversible across a jump (`C45_violated_jump`); LeapfrogMidpoint is not
  consistent with steps of unequal length (`C63_violated_unequal`).

* Langevin solvers: the coefficients are not recomputed if the length of the step is close to that of the
  step before. Steps that drift slowly keep the coefficients of the first (`C74_violated_drift`), and with
  the absolute tolerance 1e-12 all steps shorter than that are taken to be equal, for example in units of
  seconds for molecules (`C74_violated_short`). In backward solves the truncated Taylor expansion is used
  however long the step is (`C74_violated_backward`). QUICSORT cannot be used where jumps are possible
  (`C69_violated_quicsort`).

Stochastic
* In backward solves the space-time Lévy area is negated along with the increment, although it is
  invariant under time reversal (`C65_violated`), and the stochastic Runge-Kutta methods use the drift
  with the wrong sign (`C66_violated`, `C66_violated_solve`).
* VirtualBrownianTree: queries closer than the tolerance share their randomness, as documented
  (`C49_below_tolerance`); for very short intervals far from `t0` the Lévy areas are set to 0
  (`C49_violated_small`).

Step sizes
* Within the last 100 floating point numbers before `t1` a rejected step is always retried with half of what
  remains, so that two rejections in a row are repeated until `max_steps` (`C82_floor_stuck`).

Terms
* `ControlTerm.prod` and `AdjointTerm.prod` conjugate the vector field: for complex numbers a control term
  contributes `conj(f) dx` (`C50_violated_complex`), and `prod(vf)` is the conjugate of `vf_prod`
  for the adjoint (`C50_violated_adjoint`).

Adjoints
* BacksolveAdjoint with LeapfrogMidpoint loses cotangents: the solver steps from the value before the
  current one, to which the cotangent has not been added (`C68_violated_leapfrog`,
  `C69_violated_leapfrog`). With ReversibleHeun they are counted with an error of first order
  (`C69_violated_reversible_heun`).
* Reading: a failed forward solve with `throw=False` leaves
  infinite times for the backward pass.

Progress meter
* In a batched solve in which a lane stops early, the text meter prints the same percentage again and
  again, or nothing any more (`C53_violated_repeats`, `C53_violated_silent`).
