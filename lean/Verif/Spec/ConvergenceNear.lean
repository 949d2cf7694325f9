import Verif.Spec.Convergence
import Mathlib.Analysis.Normed.Module.FiniteDimension

/-!
# What it means for a solver to converge wherever the solution exists
-/

namespace Verif
open Set

/-- The vector fields are analytic on an open set `U`, and `y` is a solution that stays in `U` on an open interval
containing `[a, b]`. Nothing is assumed of the vector fields outside `U`, and they need not be Lipschitz. -/
structure SolutionNear {m : ℕ} {E : Type} [NormedAddCommGroup E] [NormedSpace ℝ E] (f : Fin m → ℝ → E → E)
    (U : Set (ℝ × E)) (y : ℝ → E) (a b : ℝ) : Prop where
  isOpen : IsOpen U
  analytic : ∀ p, AnalyticOnNhd ℝ (fun x : ℝ × E => f p x.1 x.2) U
  le : a ≤ b
  solves : ∃ a' < a, ∃ b' > b, ∀ t ∈ Ioo a' b', (t, y t) ∈ U ∧ HasDerivAt y (∑ p, f p t (y t)) t

/-- The explicit solver with tableaus `tab` converges with order `N` wherever the solution exists. For every
equation and every solution `y` of it on `[a, b]` there are constants `B` and `δ > 0` such that, for all solves with
this solver that start within `δ` of `y` and whose accepted steps are at most `η ≤ δ` long, the error is at most
`B * (initial error + η^N)`, at every call of the solver, and, unless an event is located by a root finder, at the
end. This is for any step size controller (without jumps), any pattern of rejected steps, any outputs and any
events. -/
def ConvergesNear {m : ℕ} (tab : Fin m → Tableau ℚ) (N : ℕ) : Prop :=
  ∀ (E J : Type) [NormedAddCommGroup E] [NormedSpace ℝ E] [Module ℚ E] [FiniteDimensional ℝ E]
    (f : Fin m → ℝ → E → E) (cj : CalcJac) (rF rK : RootFinder E J) (nj : J)
    (U : Set (ℝ × E)) (y : ℝ → E) (a b : ℝ) (_ : SolutionNear f U y a b),
    ∃ δ B : ℝ, 0 < δ ∧ 0 ≤ B ∧ ∀ (C O F : Type) [LinearOrder F] [Zero F]
      (cfg : Cfg ℝ E (Option E) (RK.Dense m E) (RK.State m E) C O F) (_ : cfg.WF)
      (_ : cfg.t0 = a) (_ : cfg.t1 = b) (_ : cfg.solver.step = (odeRK tab f cj rF rK nj).step)
      (_ : cfg.controller.Exact) (y0 : E) (_ : ‖y0 - y a‖ ≤ δ) (tnext : ℝ) (ctrl : C) (mj : Bool) (η : ℝ)
      (_ : 0 ≤ η) (_ : η ≤ δ)
      (_ : ∀ c ∈ callLog cfg y0 tnext ctrl (odeRK tab f cj rF rK nj).init mj, c.solverT0 ≤ c.solverT1)
      (_ : ∀ c ∈ callLog cfg y0 tnext ctrl (odeRK tab f cj rF rK nj).init mj, (c.answer cfg).keep = true →
        c.solverT1 - c.solverT0 ≤ η),
      (∀ c ∈ callLog cfg y0 tnext ctrl (odeRK tab f cj rF rK nj).init mj,
        ‖c.solverY - y c.solverT0‖ ≤ B * (‖y0 - y a‖ + η ^ N)) ∧
      (cfg.rootFinder = none →
        ‖(solve cfg y0 tnext ctrl (odeRK tab f cj rF rK nj).init mj).yfinal
          - y (solve cfg y0 tnext ctrl (odeRK tab f cj rF rK nj).init mj).tfinal‖ ≤ B * (‖y0 - y a‖ + η ^ N))

/-- The same for solvers whose order conditions hold only up to `ε`, where `D` bounds the elementary differentials of the
equation along `y`. The solution is tracked as long as the bound on the error is at most `ρ`. -/
def ConvergesNearUpTo {m : ℕ} (tab : Fin m → Tableau ℚ) (N : ℕ) (ε : ℚ) : Prop :=
  ∀ (E J : Type) [NormedAddCommGroup E] [NormedSpace ℝ E] [Module ℚ E] [FiniteDimensional ℝ E]
    (f : Fin m → ℝ → E → E) (cj : CalcJac) (rF rK : RootFinder E J) (nj : J)
    (U : Set (ℝ × E)) (y : ℝ → E) (a b : ℝ) (_ : SolutionNear f U y a b) (D : ℝ) (_ : ElemBound f y a b N D),
    ∃ ρ δ A K : ℝ, 0 < ρ ∧ 0 < δ ∧ 0 ≤ A ∧ 0 ≤ K ∧ ∀ (C O F : Type) [LinearOrder F] [Zero F]
      (cfg : Cfg ℝ E (Option E) (RK.Dense m E) (RK.State m E) C O F) (_ : cfg.WF)
      (_ : cfg.t0 = a) (_ : cfg.t1 = b) (_ : cfg.solver.step = (odeRK tab f cj rF rK nj).step)
      (_ : cfg.controller.Exact) (y0 : E) (tnext : ℝ) (ctrl : C) (mj : Bool) (η : ℝ)
      (_ : 0 ≤ η) (_ : η ≤ δ) (_ : Real.exp (K * (b - a)) * (‖y0 - y a‖ + (b - a) * (A * η ^ N + ε * D)) ≤ ρ)
      (_ : ∀ c ∈ callLog cfg y0 tnext ctrl (odeRK tab f cj rF rK nj).init mj, c.solverT0 ≤ c.solverT1)
      (_ : ∀ c ∈ callLog cfg y0 tnext ctrl (odeRK tab f cj rF rK nj).init mj, (c.answer cfg).keep = true →
        c.solverT1 - c.solverT0 ≤ η),
      (∀ c ∈ callLog cfg y0 tnext ctrl (odeRK tab f cj rF rK nj).init mj,
        ‖c.solverY - y c.solverT0‖ ≤ Real.exp (K * (b - a)) * (‖y0 - y a‖ + (b - a) * (A * η ^ N + ε * D))) ∧
      (cfg.rootFinder = none →
        ‖(solve cfg y0 tnext ctrl (odeRK tab f cj rF rK nj).init mj).yfinal
          - y (solve cfg y0 tnext ctrl (odeRK tab f cj rF rK nj).init mj).tfinal‖
          ≤ Real.exp (K * (b - a)) * (‖y0 - y a‖ + (b - a) * (A * η ^ N + ε * D)))

end Verif
