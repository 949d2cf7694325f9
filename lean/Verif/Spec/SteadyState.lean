import Mathlib.Analysis.InnerProductSpace.Basic
import Verif.Spec.Convergence
import Verif.Props.Loop

/-!
# What it means to stop at a steady state
-/

namespace Verif
open Set

/-- A steady state that attracts: the vector field is zero at `z`, at all times, and it points towards `z`
everywhere, at a rate of at least `μ`. -/
structure Attracting {E : Type} [NormedAddCommGroup E] [InnerProductSpace ℝ E] (f : ℝ → E → E) (z : E) (μ : ℝ) :
    Prop where
  pos : 0 < μ
  steady : ∀ t, f t z = 0
  inward : ∀ t x, inner ℝ (f t x) (x - z) ≤ -(μ * ‖x - z‖ ^ 2)

/-- Solves stop at the first step at which a boolean condition holds, if it clearly holds for long enough. The solver
and the errors are as for `Converges`: all accepted steps are at most `η ≤ δ` long, and `e` is the error given there.
If the condition fails up to `τ₀` for all states within `e` of the solution, and holds for those from `τ` to `τ + η`,
then the solve does not run to its end; it stops between `τ₀` and `τ + η`, at a state for which the condition holds
and which is within `e` of the solution. -/
def BoolEventStops {m : ℕ} (tab : Fin m → Tableau ℚ) (N : ℕ) (ε : ℚ) : Prop :=
  ∃ κ : ℝ, 0 ≤ κ ∧ ∀ (E J : Type) [NormedAddCommGroup E] [NormedSpace ℝ E] [Module ℚ E] [CompleteSpace E]
    (f : Fin m → ℝ → E → E) (cj : CalcJac) (rF rK : RootFinder E J) (nj : J)
    (_ : (∃ p, (tab p).implicit = true) → rF.Exact ∧ rK.Exact)
    (L : ℝ) (_ : NiceODE f L) (y : ℝ → E) (_ : ∀ t, HasDerivAt y (∑ p, f p t (y t)) t)
    (a b D : ℝ) (_ : ElemBound f y a b N D),
    ∃ δ B : ℝ, 0 < δ ∧ 0 ≤ B ∧ ∀ (C O F : Type) [LinearOrder F] [Zero F]
      (cfg : Cfg ℝ E (Option E) (RK.Dense m E) (RK.State m E) C O F) (_ : cfg.WF)
      (_ : cfg.t0 = a) (_ : cfg.t1 = b) (_ : cfg.solver.step = (odeRK tab f cj rF rK nj).step)
      (_ : cfg.OwnCodes) (_ : cfg.controller.Exact) (_ : cfg.controller.stepTo = none)
      (y0 : E) (tnext : ℝ) (ctrl : C) (mj : Bool) (η : ℝ) (_ : 0 ≤ η) (_ : η ≤ δ)
      (_ : ∀ c ∈ callLog cfg y0 tnext ctrl (odeRK tab f cj rF rK nj).init mj, c.solverT0 ≤ c.solverT1)
      (_ : ∀ c ∈ callLog cfg y0 tnext ctrl (odeRK tab f cj rF rK nj).init mj, (c.answer cfg).keep = true →
        (cfg.solver.step c.solverT0 c.solverT1 c.solverY c.solverState c.solverMadeJump).result.isOkay = true ∧
        c.solverT1 - c.solverT0 ≤ η)
      (cond : ℝ → E → Bool) (_ : cfg.events = [.bool cond]) (_ : cfg.rootFinder = none)
      (e : ℝ) (_ : e = Real.exp (κ * |L| * (b - a)) * (‖y0 - y a‖ + (b - a) * (B * η ^ N + ε * D)))
      (τ₀ τ : ℝ) (_ : a < τ) (_ : τ + η ≤ b)
      (_ : ∀ t, a ≤ t → t < τ₀ → ∀ x, ‖x - y t‖ ≤ e → cond t x = false)
      (_ : ∀ t ∈ Icc τ (τ + η), ∀ x, ‖x - y t‖ ≤ e → cond t x = true),
      (solve cfg y0 tnext ctrl (odeRK tab f cj rF rK nj).init mj).result ≠ .successful ∧
      ((solve cfg y0 tnext ctrl (odeRK tab f cj rF rK nj).init mj).result = .eventOccurred →
        τ₀ ≤ (solve cfg y0 tnext ctrl (odeRK tab f cj rF rK nj).init mj).tfinal ∧
        (solve cfg y0 tnext ctrl (odeRK tab f cj rF rK nj).init mj).tfinal ≤ τ + η ∧
        cond (solve cfg y0 tnext ctrl (odeRK tab f cj rF rK nj).init mj).tfinal
          (solve cfg y0 tnext ctrl (odeRK tab f cj rF rK nj).init mj).yfinal = true ∧
        ‖(solve cfg y0 tnext ctrl (odeRK tab f cj rF rK nj).init mj).yfinal
          - y (solve cfg y0 tnext ctrl (odeRK tab f cj rF rK nj).init mj).tfinal‖ ≤ e)

end Verif
