import Verif.Spec.Ito
import Verif.Spec.Loop
import Verif.Spec.Clip

/-!
# The error in mean square of whole solves of stochastic equations
-/

namespace Verif
open MeasureTheory

variable {Ω : Type} {mΩ : MeasurableSpace Ω} {E Er D S : Type} [NormedAddCommGroup E]

/-- `diffeqsolve` over `[a, b]`, once for every path `ω` of the noise. If the steps are the same for all paths (as
with `ConstantStepSize` and `StepTo`), increasing, and at most `η` long, then at the end the mean of the square of the
distance to `Y` is at most `bound (its initial value) η`. This is for any outputs. `init` is the solver's `init`. -/
def StrongErrorAtMost (P : Measure Ω) (F : ℝ → MeasurableSpace Ω) (sv : Ω → Solver ℝ E Er D S)
    (init : Ω → E → S) (Y : ℝ → Ω → E) (a b : ℝ) (bound : ℝ → ℝ → ℝ) : Prop :=
  ∀ (C O G : Type) [LinearOrder G] [Zero G] (cfg : Ω → Cfg ℝ E Er D S C O G)
    (_ : ∀ ω, (cfg ω).WF ∧ (cfg ω).t0 = a ∧ (cfg ω).t1 = b ∧ (cfg ω).solver.step = (sv ω).step ∧
      (cfg ω).controller.Exact ∧ (cfg ω).rootFinder = none)
    (y0 : Ω → E) (_ : StronglyMeasurable[F a] y0) (_ : MemLp y0 2 P) (tnext : ℝ) (ctrl : C) (mj : Bool)
    (p : ℕ → ℝ) (N : ℕ) (η : ℝ) (_ : 0 ≤ η) (_ : p 0 = a) (_ : p N = b) (_ : ∀ k < N, p k < p (k + 1))
    (_ : ∀ k < N, p (k + 1) - p k ≤ η)
    (_ : ∀ ω, (callLog (cfg ω) (y0 ω) tnext ctrl (init ω (y0 ω)) mj).map (fun c => (c.solverT0, c.solverT1))
      = (List.range N).map (fun j => (p j, p (j + 1))))
    (_ : ∀ ω, (solve (cfg ω) (y0 ω) tnext ctrl (init ω (y0 ω)) mj).tfinal = b),
    MemLp (fun ω => (solve (cfg ω) (y0 ω) tnext ctrl (init ω (y0 ω)) mj).yfinal) 2 P ∧
    rms P (fun ω => (solve (cfg ω) (y0 ω) tnext ctrl (init ω (y0 ω)) mj).yfinal - Y b ω) ^ 2
      ≤ bound (rms P (fun ω => y0 ω - Y a ω) ^ 2) η

end Verif
