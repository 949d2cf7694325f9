import Mathlib.Analysis.SpecialFunctions.Pow.Real
import Verif.Model.Loop

/-!
# `steady_state_event`

`diffrax/_event.py` 120-177, and the method `func` of the solvers, which it calls.

Simplifications: a pytree of arrays is represented by the list of its entries (`norm`s such as `optx.rms_norm` and
`optx.max_norm` flatten their argument first); raising the `ValueError` is `none`. (The error is raised when the
condition function is called, which `diffeqsolve` does before the first step, `_integrate.py` 1369.)
-/

namespace Verif

/-- The arguments of `steady_state_event` (120-124); `none` is Python's `None`. -/
structure SteadyArgs (R : Type) where
  rtol : Option R
  atol : Option R
  norm : Option (List R → R)

/-- The attributes of an `AbstractAdaptiveStepSizeController` (`_step_size_controller/base.py`) that are used as
defaults. -/
structure AdaptiveTols (R : Type) where
  rtol : R
  atol : R
  norm : List R → R

section
variable {R T Y V : Type} [Add R] [Mul R] [LT R] [DecidableLT R]

/-- One of the three blocks 150-170: the value given, or else that of the controller if it is adaptive
(`ctrl = some _`), or else an error. -/
def steadyDefault {A : Type} (given : Option A) (ctrl : Option (AdaptiveTols R)) (get : AdaptiveTols R → A) :
    Option A :=
  match given with
  | none =>
    match ctrl with
    | some c => some (get c)
    | none => none
  | some x => some x

/-- `steady_state_event` (120-177): the condition function. `func` is `solver.func(terms, ·, ·, args)`; `leavesV`
and `leavesY` list the entries of a vector field value and of a state. -/
def steadyStateEvent (a : SteadyArgs R) (ctrl : Option (AdaptiveTols R)) (func : T → Y → V)
    (leavesV : V → List R) (leavesY : Y → List R) : Option (T → Y → Bool) :=
  match steadyDefault a.rtol ctrl AdaptiveTols.rtol, steadyDefault a.atol ctrl AdaptiveTols.atol,
    steadyDefault a.norm ctrl AdaptiveTols.norm with
  | some rtol, some atol, some norm =>
    some fun t y => decide (norm (leavesV (func t y)) < atol + rtol * norm (leavesY y))
  | _, _, _ => none

end

/-- `func` for an `ODETerm`: `terms.vf(t0, y0, args)` (`_solver/runge_kutta.py` 406-413, `euler.py` 63-70,
`implicit_euler.py` 102-109, `leapfrog_midpoint.py` 84-85, `reversible_heun.py` 85-86; `HalfSolver`, `base.py`
343-346, calls that of the solver it wraps). -/
def odeFunc {T Y : Type} (f : T → Y → Y) : T → Y → Y := fun t y => f t y

/-- `func` for a `MultiTerm`, as the implicit-explicit methods have it: the same method returns
`MultiTerm.vf(t0, y0, args)`, the tuple of the values of all terms (`_term.py` 693-697). -/
def multiFunc {m : Nat} {T Y : Type} (f : Fin m → T → Y → Y) : T → Y → Fin m → Y := fun t y p => f p t y

/-- The entries of a tuple of pytrees. -/
def tupleLeaves {m : Nat} {R Y : Type} (leaves : Y → List R) (v : Fin m → Y) : List R :=
  (List.ofFn fun p => leaves (v p)).flatten

/-- `optx.rms_norm`: the square root of the mean of the squares of all entries, and zero if there are none. This is
the default `norm` of `PIDController`. -/
noncomputable def rmsNormList (l : List ℝ) : ℝ :=
  if l = [] then 0 else Real.sqrt ((l.map fun x => x ^ 2).sum / l.length)

end Verif
