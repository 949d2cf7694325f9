import Verif.Spec.Loop
import Verif.Spec.Clip
import Mathlib.Analysis.Normed.Module.Basic
import Mathlib.Data.Real.Basic

/-!
# The error of whole solves with any solver
-/

namespace Verif

variable {E Er D S : Type} [NormedAddCommGroup E]

/-- Every solve over `[a, b]` with this solver, whose accepted steps are at most `η ≤ δ` long, stays within
`bound (initial error) η` of `y`, at every call of the solver, and, unless an event is located by a root
finder, at the end. This is for any step size controller without jumps, any pattern of rejected steps, any
outputs and any events. Accepted steps are to have succeeded. -/
def ErrorAtMost (sv : Solver ℝ E Er D S) (init : ℝ → E → S) (y : ℝ → E) (a b δ : ℝ) (bound : ℝ → ℝ → ℝ) :
    Prop :=
  ∀ (C O F : Type) [LinearOrder F] [Zero F] (cfg : Cfg ℝ E Er D S C O F) (_ : cfg.WF)
    (_ : cfg.t0 = a) (_ : cfg.t1 = b) (_ : cfg.solver.step = sv.step) (_ : cfg.controller.Exact)
    (y0 : E) (tnext : ℝ) (ctrl : C) (mj : Bool) (η : ℝ) (_ : 0 ≤ η) (_ : η ≤ δ)
    (_ : ∀ c ∈ callLog cfg y0 tnext ctrl (init a y0) mj, c.solverT0 ≤ c.solverT1 ∧ c.solverMadeJump = false)
    (_ : ∀ c ∈ callLog cfg y0 tnext ctrl (init a y0) mj, (c.answer cfg).keep = true →
      (cfg.solver.step c.solverT0 c.solverT1 c.solverY c.solverState c.solverMadeJump).result.isOkay = true ∧
      c.solverT1 - c.solverT0 ≤ η),
    (∀ c ∈ callLog cfg y0 tnext ctrl (init a y0) mj, ‖c.solverY - y c.solverT0‖ ≤ bound ‖y0 - y a‖ η) ∧
    (cfg.rootFinder = none →
      ‖(solve cfg y0 tnext ctrl (init a y0) mj).yfinal
        - y (solve cfg y0 tnext ctrl (init a y0) mj).tfinal‖ ≤ bound ‖y0 - y a‖ η)

end Verif
