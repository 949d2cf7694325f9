import Verif.Spec.OrderStep
import Verif.Spec.Loop
import Verif.Spec.Clip
import Mathlib.Analysis.Complex.Basic

/-!
# Stability of solves of stiff linear equations
-/

namespace Verif

variable {m : ℕ} {E : Type} [NormedAddCommGroup E] [NormedSpace ℝ E]

/-- `ℓ` is a mode of the system of equations `dy/dt = ∑ f`, of rate `lam`, and comes from the term `p`: for every solution,
`d ℓ(y)/dt = lam ℓ(y)`. For `dy/dt = A y` the modes are the left eigenvectors of `A`, with the eigenvalues as rates. -/
structure IsMode (f : Fin m → ℝ → E → E) (p : Fin m) (ℓ : E →ₗ[ℝ] ℂ) (lam : ℂ) : Prop where
  rate : ∀ t y, ℓ (f p t y) = lam * ℓ y
  others : ∀ q, q ≠ p → ∀ t y, ℓ (f q t y) = 0

/-- Every solve of this kind does what `Pr` says. The solver is the Runge-Kutta method with tableaus `tab`; `ℓ` is a mode
of rate `lam`, with nonnegative decay, of the term `p`. The step size controller (without jumps), the pattern of rejected steps,
the outputs and the events are arbitrary, and there is no limit on the lengths of the steps. Accepted steps are to have succeeded,
and the root finder is to be right whenever it succeeds. -/
def EveryStiffSolve (tab : Fin m → Tableau ℚ) (p : Fin m)
    (Pr : ∀ {E C O F : Type} [NormedAddCommGroup E] [NormedSpace ℝ E] [LinearOrder F] [Zero F] (_ : E →ₗ[ℝ] ℂ) (_ : ℂ)
      (_ : Cfg ℝ E (Option E) (RK.Dense m E) (RK.State m E) C O F) (_ : E) (_ : ℝ) (_ : C) (_ : RK.State m E) (_ : Bool), Prop) :
    Prop :=
  ∀ (E J : Type) [NormedAddCommGroup E] [NormedSpace ℝ E] [Module ℚ E]
    (f : Fin m → ℝ → E → E) (cj : CalcJac) (rF rK : RootFinder E J) (nj : J) (_ : rF.Exact ∧ rK.Exact)
    (ℓ : E →ₗ[ℝ] ℂ) (lam : ℂ) (_ : IsMode f p ℓ lam) (_ : lam.re ≤ 0)
    (C O F : Type) [LinearOrder F] [Zero F]
    (cfg : Cfg ℝ E (Option E) (RK.Dense m E) (RK.State m E) C O F) (_ : cfg.WF)
    (_ : cfg.solver.step = (odeRK tab f cj rF rK nj).step) (_ : cfg.controller.Exact) (y0 : E) (tnext : ℝ) (ctrl : C) (mj : Bool)
    (_ : ∀ c ∈ callLog cfg y0 tnext ctrl (odeRK tab f cj rF rK nj).init mj, c.solverT0 ≤ c.solverT1)
    (_ : ∀ c ∈ callLog cfg y0 tnext ctrl (odeRK tab f cj rF rK nj).init mj, (c.answer cfg).keep = true →
      (cfg.solver.step c.solverT0 c.solverT1 c.solverY c.solverState c.solverMadeJump).result.isOkay = true),
    Pr ℓ lam cfg y0 tnext ctrl (odeRK tab f cj rF rK nj).init mj

/-- A-stable, up to `ε`: modes that do not grow in the exact solution do not grow in any solve. (With `ε` for the rounding of the
coefficients, each accepted step may multiply by `1 + ε`.) -/
def AStable (tab : Fin m → Tableau ℚ) (p : Fin m) (ε : ℚ) : Prop :=
  EveryStiffSolve tab p fun ℓ _ cfg y0 tnext ctrl ss mj =>
    (∀ s ∈ history cfg y0 tnext ctrl ss mj, ‖ℓ s.y‖ ≤ (1 + ε : ℝ) ^ s.numAccepted * ‖ℓ y0‖) ∧
    (cfg.rootFinder = none → ‖ℓ (solve cfg y0 tnext ctrl ss mj).yfinal‖
      ≤ (1 + ε : ℝ) ^ (solve cfg y0 tnext ctrl ss mj).core.numAccepted * ‖ℓ y0‖)

/-- L-stable, up to `r`: a step multiplies a mode by `r` (ideally `0`), up to something inversely proportional to the length of
the step and the rate. -/
def LStable (tab : Fin m → Tableau ℚ) (p : Fin m) (r : ℚ) : Prop :=
  ∃ B : ℝ, 0 ≤ B ∧ EveryStiffSolve tab p fun ℓ lam cfg y0 tnext ctrl ss mj =>
    ∀ s ∈ history cfg y0 tnext ctrl ss mj, accepted cfg s = true →
      ‖ℓ (cfg.solver.step s.tprev s.tnext s.y s.solverState s.madeJump).y - (r : ℂ) * ℓ s.y‖
        ≤ B / (1 + (s.tnext - s.tprev) * ‖lam‖) * ‖ℓ s.y‖

/-- Modes grow by a factor of at least `q` in every step, if the steps of the solve have rate times length `z`. -/
def BlowsUp (tab : Fin m → Tableau ℚ) (p : Fin m) (z : ℂ) (q : ℝ) : Prop :=
  EveryStiffSolve tab p fun ℓ lam cfg y0 tnext ctrl ss mj =>
    (∀ s ∈ history cfg y0 tnext ctrl ss mj, accepted cfg s = true → ((s.tnext - s.tprev : ℝ) : ℂ) * lam = z) →
    (∀ s ∈ history cfg y0 tnext ctrl ss mj, q ^ s.numAccepted * ‖ℓ y0‖ ≤ ‖ℓ s.y‖) ∧
    (cfg.rootFinder = none → q ^ (solve cfg y0 tnext ctrl ss mj).core.numAccepted * ‖ℓ y0‖
      ≤ ‖ℓ (solve cfg y0 tnext ctrl ss mj).yfinal‖)

end Verif
