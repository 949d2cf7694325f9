import Verif.Spec.Convergence

/-!
# Convergence of implicit methods whose equations are only solved up to a tolerance
-/

namespace Verif
open Set

/-- `rel` differs from the identity by a map that halves distances. The equations of implicit stages are like this
if the step is short. -/
def NearIdentity {X : Type} [NormedAddCommGroup X] (rel : X → X) : Prop :=
  ∀ x x', ‖(rel x - rel x') - (x - x')‖ ≤ 1 / 2 * ‖x - x'‖

/-- A root finder which, whenever it reports success, has made the equation true up to `τ`. Only equations that are
near the identity count. -/
def RootFinder.Within {X J : Type} [NormedAddCommGroup X] (r : RootFinder X J) (τ : ℝ) : Prop :=
  ∀ i rel guess jac, NearIdentity rel → (r.find i rel guess jac).2.isOkay = true →
    ‖rel (r.find i rel guess jac).1‖ ≤ τ

variable {m : ℕ}

/-- The solver with tableaus `tab` converges with order `N` (up to `ε`) although its implicit equations are only
solved up to a tolerance. The constants `κ`, `δ` and `B` are as in `Converges`, and they do not depend on the root
finder or its tolerance. The tolerance adds `κ τ` to the error per unit of time, if

* the method solves for values of the vector field (first-same-as-last methods), and these have residual at most `τ`; or
* the method solves for increments, and these have residual at most `τ ρ` where no accepted step is shorter than `ρ`. -/
def ConvergesWithin (tab : Fin m → Tableau ℚ) (N : ℕ) (ε : ℚ) : Prop :=
  ∃ κ : ℝ, 0 ≤ κ ∧ ∀ (E : Type) [NormedAddCommGroup E] [NormedSpace ℝ E] [Module ℚ E] [CompleteSpace E]
    (f : Fin m → ℝ → E → E) (L : ℝ) (_ : NiceODE f L) (y : ℝ → E) (_ : ∀ t, HasDerivAt y (∑ p, f p t (y t)) t)
    (a b D : ℝ) (_ : ElemBound f y a b N D),
    ∃ δ B : ℝ, 0 < δ ∧ 0 ≤ B ∧ ∀ (J : Type) (cj : CalcJac) (rF rK : RootFinder E J) (nj : J) (τ ρ : ℝ) (_ : 0 ≤ τ)
      (_ : (∃ p, (tab p).implicit = true) → (∀ p, (tab p).fsal = true) → rF.Within τ)
      (_ : (∃ p, (tab p).implicit = true) → (¬ ∀ p, (tab p).fsal = true) → rK.Within (τ * ρ))
      (C O F : Type) [LinearOrder F] [Zero F]
      (cfg : Cfg ℝ E (Option E) (RK.Dense m E) (RK.State m E) C O F) (_ : cfg.WF)
      (_ : cfg.t0 = a) (_ : cfg.t1 = b) (_ : cfg.solver.step = (odeRK tab f cj rF rK nj).step)
      (_ : cfg.controller.Exact) (y0 : E) (tnext : ℝ) (ctrl : C) (mj : Bool) (η : ℝ) (_ : 0 ≤ η) (_ : η ≤ δ)
      (_ : ∀ c ∈ callLog cfg y0 tnext ctrl (odeRK tab f cj rF rK nj).init mj, c.solverT0 ≤ c.solverT1)
      (_ : ∀ c ∈ callLog cfg y0 tnext ctrl (odeRK tab f cj rF rK nj).init mj, (c.answer cfg).keep = true →
        (cfg.solver.step c.solverT0 c.solverT1 c.solverY c.solverState c.solverMadeJump).result.isOkay = true ∧
        ρ ≤ c.solverT1 - c.solverT0 ∧ c.solverT1 - c.solverT0 ≤ η),
      (∀ c ∈ callLog cfg y0 tnext ctrl (odeRK tab f cj rF rK nj).init mj,
        ‖c.solverY - y c.solverT0‖
          ≤ Real.exp (κ * |L| * (b - a)) * (‖y0 - y a‖ + (b - a) * (B * η ^ N + ε * D + κ * τ))) ∧
      (cfg.rootFinder = none →
        ‖(solve cfg y0 tnext ctrl (odeRK tab f cj rF rK nj).init mj).yfinal
          - y (solve cfg y0 tnext ctrl (odeRK tab f cj rF rK nj).init mj).tfinal‖
          ≤ Real.exp (κ * |L| * (b - a)) * (‖y0 - y a‖ + (b - a) * (B * η ^ N + ε * D + κ * τ)))

end Verif
