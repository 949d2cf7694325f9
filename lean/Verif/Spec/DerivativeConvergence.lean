import Verif.Spec.Convergence
import Verif.Spec.DenseOrder
import Verif.Model.DenseDerivative

/-!
# What it means for `Solution.derivative` to converge
-/

namespace Verif
open Set

/-- Over successful steps `[t, t'] ⊆ [a, b]` no longer than `δ`, from states satisfying `V`, the derivative of the interpolation is
the derivative of `y` up to `K` times the error at the start, `A (t' - t)^N` and `B`. -/
def Solver.DerivativeAccurate {E : Type} [NormedAddCommGroup E] [NormedSpace ℝ E] {Er D S : Type} (sv : Solver ℝ E Er D S)
    (V : ℝ → E → S → Bool → Prop) (y : ℝ → E) (a b δ A B K : ℝ) (N : ℕ) : Prop :=
  ∀ t t' x st mj, V t x st mj → a ≤ t → t < t' → t' ≤ b → t' - t ≤ δ →
    (sv.step t t' x st mj).result.isOkay = true → ∀ τ, t ≤ τ → τ ≤ t' →
    ‖deriv (sv.interp t t' (sv.step t t' x st mj).dense) τ - deriv y τ‖ ≤ K * ‖x - y t‖ + A * (t' - t) ^ N + B

/-- The derivative returned by the solver with tableaus `tab` and dense output of order `N'` converges to the vector field along
the solution. As for `DenseConverges`, with `κ` and `μ` depending only on the solver: for solves whose accepted steps are at most
`η ≤ δ` long, `sol.derivative(t)` differs from `f(t, y(t))` by at most

  `μ L exp(κ L (b - a)) * (initial error + (b - a) * (B η^N + ε D)) + B η^N' + μ ε' D`. -/
def DerivativeConverges {m : ℕ} (tab : Fin m → Tableau ℚ) (interp : InterpRule m) (N N' : ℕ) (ε ε' : ℚ) : Prop :=
  ∃ κ μ : ℝ, 0 ≤ κ ∧ 0 ≤ μ ∧ ∀ (E J : Type) [NormedAddCommGroup E] [NormedSpace ℝ E] [Module ℚ E] [CompleteSpace E]
    (f : Fin m → ℝ → E → E) (cj : CalcJac) (rF rK : RootFinder E J) (nj : J)
    (_ : (∃ p, (tab p).implicit = true) → rF.Exact ∧ rK.Exact)
    (L : ℝ) (_ : NiceODE f L) (y : ℝ → E) (_ : ∀ t, HasDerivAt y (∑ p, f p t (y t)) t)
    (a b D : ℝ) (_ : ElemBound f y a b N D),
    ∃ δ B : ℝ, 0 < δ ∧ 0 ≤ B ∧ ∀ (C O F : Type) [LinearOrder F] [Zero F]
      (cfg : Cfg ℝ E (Option E) (RK.Dense m E) (RK.State m E) C O F) (_ : cfg.WF)
      (_ : cfg.t0 = a) (_ : cfg.t1 = b) (_ : cfg.solver.step = (odeRK tab f cj rF rK nj).step)
      (_ : cfg.solver.interp = interp E)
      (_ : cfg.controller.Exact) (y0 : E) (tnext : ℝ) (ctrl : C) (mj : Bool) (η : ℝ) (_ : 0 ≤ η) (_ : η ≤ δ)
      (_ : ∀ c ∈ callLog cfg y0 tnext ctrl (odeRK tab f cj rF rK nj).init mj, c.solverT0 < c.solverT1)
      (_ : ∀ c ∈ callLog cfg y0 tnext ctrl (odeRK tab f cj rF rK nj).init mj, (c.answer cfg).keep = true →
        (cfg.solver.step c.solverT0 c.solverT1 c.solverY c.solverState c.solverMadeJump).result.isOkay = true ∧
        c.solverT1 - c.solverT0 ≤ η),
      cfg.dense = true →
      0 < (solve cfg y0 tnext ctrl (odeRK tab f cj rF rK nj).init mj).core.numAccepted →
      ∀ t, a ≤ t → t ≤ (solve cfg y0 tnext ctrl (odeRK tab f cj rF rK nj).init mj).core.tprev →
        ∃ v, (denseOf cfg y0 (solve cfg y0 tnext ctrl (odeRK tab f cj rF rK nj).init mj)).derivative t true = some v ∧
          ‖v - ∑ p, f p t (y t)‖
            ≤ μ * |L| * (Real.exp (κ * |L| * (b - a)) * (‖y0 - y a‖ + (b - a) * (B * η ^ N + ε * D)))
              + B * η ^ N' + μ * ε' * D

end Verif
