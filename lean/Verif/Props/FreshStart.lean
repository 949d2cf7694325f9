import Verif.Props.Backsolve
import Verif.Model.RK
import Verif.Props.Solvers
import Mathlib.Tactic.FinCases

/-!
# C69: a step after a jump starts afresh

When a solver is told of a jump (`made_jump=True`), its step is a function of the interval and the value only, as the
first step of a solve is. `BacksolveAdjoint` relies on it: it changes the value between solves and hands the state of the
solver on.
-/

namespace Verif

/-- With `made_jump=True` the state does not matter, and a step from the state of `init` is the same. -/
def Solver.FreshAfterJump {T Y E D S : Type} (s : Solver T Y E D S) (init : T → Y → S) : Prop :=
  ∀ t0 t1 y st, s.step t0 t1 y st true = s.step t0 t1 y (init t0 y) false

/-- **C69.** Runge-Kutta methods: explicit, implicit and additive ones, FSAL or not. -/
theorem C69_runge_kutta {m : ℕ} {T K Y VF Ct J : Type} [Field K] [DecidableEq K] [AddCommGroup Y] [Module K Y]
    [AddCommGroup VF] [Module K VF] (rk : RK m T K Y VF Ct J) (interp : T → T → RK.Dense m Y → T → Y) :
    (rk.solver interp).FreshAfterJump (fun _ _ => rk.init) := by
  intro t0 t1 y st
  have h : rk.initStage t0 t1 y st true = rk.initStage t0 t1 y rk.init false := by
    unfold RK.initStage RK.init
    split <;> simp
  show rk.step t0 t1 y st true = rk.step t0 t1 y rk.init false
  unfold RK.step
  rw [h]

/-- **C69.** A solver without state. (Euler, SemiImplicitEuler, ImplicitEuler, the Milstein methods, EulerHeun.) -/
theorem C69_stateless {T Y E D : Type} (s : Solver T Y E D Unit) (hs : ∀ t0 t1 y, s.step t0 t1 y () true = s.step t0 t1 y () false) :
    s.FreshAfterJump fun _ _ => () := fun t0 t1 y _ => hs t0 t1 y

/-- **C69.** HalfSolver of a solver with the property has it. -/
theorem C69_half_solver {T Y E E' D S : Type} (half : T → T → T) (dist : Y → Y → E') (s : Solver T Y E D S)
    (init : T → Y → S) (hs : s.FreshAfterJump init) : (halfSolver half dist s).FreshAfterJump init := by
  intro t0 t1 y st
  simp only [halfSolver, hs _ _ _ st]

theorem C69_euler {T Y VF Ct : Type} [AddCommGroup Y] (term : Term T Y VF Ct) (interp : LocalLin T Y) :
    (euler term interp).FreshAfterJump fun _ _ => () := C69_stateless _ fun _ _ _ => rfl

theorem C69_implicit_euler {T K Y VF Ct : Type} [Field K] [AddCommGroup Y] [Module K Y] (term : Term T Y VF Ct)
    (root : (Y → Y) → Y → Y × Result) (interp : LocalLin T Y) :
    (implicitEuler K term root interp).FreshAfterJump fun _ _ => () := C69_stateless _ fun _ _ _ => rfl

/-- **C69 is false for `LeapfrogMidpoint`**, which ignores `made_jump`: whatever the equation, two values before the current
one that differ give different steps. -/
theorem C69_violated_leapfrog {T Y VF Ct : Type} [AddCommGroup Y] (term : Term T Y VF Ct) (interp : LocalLin T Y)
    (t0 t1 tm : T) (y ym ym' : Y) (h : ym ≠ ym') :
    ((leapfrog term interp).step t0 t1 y (tm, ym) true).y ≠ ((leapfrog term interp).step t0 t1 y (tm, ym') true).y := by
  simpa [leapfrog] using h

/-- **C69 is false for `ReversibleHeun`**, which evaluates the vector field afresh but keeps the auxiliary value. For
`dy/dt = y`, a step of size `h` from `y` in a state that was left by an auxiliary value `y - g` is wrong by `h g / 2`: a
cotangent `g` added before the step is counted with an error of first order. -/
theorem C69_violated_reversible_heun (interp : LocalLin ℚ ℚ) (t0 h y g : ℚ) (vf : ℚ) :
    let s := reversibleHeun ℚ (Y := ℚ) (ratTerm fun _ y => y) interp
    (s.step t0 (t0 + h) y (y - g, vf) true).y - (s.step t0 (t0 + h) y (y, y) false).y = h * g / 2 := by
  intro s
  simp only [s, reversibleHeun, ratTerm, smul_eq_mul, if_true, Bool.false_eq_true, if_false]
  ring

/-- An FSAL method and two states. -/
example : ∃ st st' : RK.State 1 ℚ, st ≠ st' := ⟨some (false, fun _ => 1), some (false, fun _ => 2), by
  intro h
  have := congrFun (Prod.mk.inj (Option.some.inj h)).2 0
  norm_num at this⟩

end Verif
