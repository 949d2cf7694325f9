import Verif.Spec.OrderStep
import Verif.Spec.Loop
import Verif.Spec.Clip
import Mathlib.Analysis.SpecialFunctions.Exp

/-!
# What it means for a solver to converge
-/

namespace Verif
open Set

variable {m : ℕ} {E : Type} [NormedAddCommGroup E] [NormedSpace ℝ E]

/-- Along the solution `y`, on `[a, b]`, the elementary differentials of the equation up to order `N` are
bounded (in sum) by `D`. They depend on the equation only. -/
def ElemBound (f : Fin m → ℝ → E → E) (y : ℝ → E) (a b : ℝ) (N : ℕ) (D : ℝ) : Prop :=
  ∃ G : ℝ → Fin m → FormalMultilinearSeries ℝ (ℝ × E) E, ∀ t ∈ Icc a b,
    (∀ p, HasFPowerSeriesAt (fun x : ℝ × E => f p x.1 x.2) (G t p) (t, y t)) ∧
    ∑ τ ∈ PTree.upTo (Fin (m + 1)) N, ‖(τ.diff (autoSeries (G t))).2‖ ≤ D

/-- The vector fields are analytic everywhere and Lipschitz with constant `L`. -/
structure NiceODE (f : Fin m → ℝ → E → E) (L : ℝ) : Prop where
  analytic : ∀ p, AnalyticOnNhd ℝ (fun x : ℝ × E => f p x.1 x.2) univ
  lipschitz : ∀ p t x x', ‖f p t x - f p t x'‖ ≤ L * ‖x - x'‖

/-- One-step methods: successful steps over `[t, t'] ⊆ [a, b]` no longer than `δ`, from states satisfying
`V`, lead to such states again, and add at most `A (t' - t)^(N+1) + B (t' - t)` to the distance from the
solution `y`. -/
structure Solver.Accurate {Er D S : Type} (sv : Solver ℝ E Er D S) (V : ℝ → E → S → Bool → Prop)
    (y : ℝ → E) (a b δ A B K : ℝ) (N : ℕ) : Prop where
  valid : ∀ t t' x st mj, V t x st mj → a ≤ t → t ≤ t' → t' ≤ b →
    (sv.step t t' x st mj).result.isOkay = true →
    ∀ mj', V t' (sv.step t t' x st mj).y (sv.step t t' x st mj).state mj'
  error : ∀ t t' x st mj, V t x st mj → a ≤ t → t ≤ t' → t' ≤ b → t' - t ≤ δ →
    (sv.step t t' x st mj).result.isOkay = true →
    ‖(sv.step t t' x st mj).y - y t'‖
      ≤ (1 + K * (t' - t)) * ‖x - y t‖ + A * (t' - t) ^ (N + 1) + B * (t' - t)

/-- The solver with tableaus `tab` converges with order `N`, up to `ε`. There is a constant `κ` that depends on
the solver only. For every equation with analytic, `L`-Lipschitz vector fields and every solution `y` of it on
`[a, b]`, there are constants `B` and `δ > 0` such that for all solves with this solver whose accepted steps are
at most `η ≤ δ` long, the error is at most

  `exp(κ L (b - a)) * (initial error + (b - a) * (B η^N + ε D))`,

at every call of the solver, and, unless an event is located by a root finder, at the end. This is for any
step size controller (without jumps), any pattern of rejected steps, any outputs and any events. Accepted
steps are to have succeeded, and the root finder of an implicit method is to be right whenever it
succeeds. -/
def Converges (tab : Fin m → Tableau ℚ) (N : ℕ) (ε : ℚ) : Prop :=
  ∃ κ : ℝ, 0 ≤ κ ∧ ∀ (E J : Type) [NormedAddCommGroup E] [NormedSpace ℝ E] [Module ℚ E] [CompleteSpace E]
    (f : Fin m → ℝ → E → E) (cj : CalcJac) (rF rK : RootFinder E J) (nj : J)
    (_ : (∃ p, (tab p).implicit = true) → rF.Exact ∧ rK.Exact)
    (L : ℝ) (_ : NiceODE f L) (y : ℝ → E) (_ : ∀ t, HasDerivAt y (∑ p, f p t (y t)) t)
    (a b D : ℝ) (_ : ElemBound f y a b N D),
    ∃ δ B : ℝ, 0 < δ ∧ 0 ≤ B ∧ ∀ (C O F : Type) [LinearOrder F] [Zero F]
      (cfg : Cfg ℝ E (Option E) (RK.Dense m E) (RK.State m E) C O F) (_ : cfg.WF)
      (_ : cfg.t0 = a) (_ : cfg.t1 = b) (_ : cfg.solver.step = (odeRK tab f cj rF rK nj).step)
      (_ : cfg.controller.Exact) (y0 : E) (tnext : ℝ) (ctrl : C) (mj : Bool) (η : ℝ) (_ : 0 ≤ η) (_ : η ≤ δ)
      (_ : ∀ c ∈ callLog cfg y0 tnext ctrl (odeRK tab f cj rF rK nj).init mj, c.solverT0 ≤ c.solverT1)
      (_ : ∀ c ∈ callLog cfg y0 tnext ctrl (odeRK tab f cj rF rK nj).init mj, (c.answer cfg).keep = true →
        (cfg.solver.step c.solverT0 c.solverT1 c.solverY c.solverState c.solverMadeJump).result.isOkay = true ∧
        c.solverT1 - c.solverT0 ≤ η),
      (∀ c ∈ callLog cfg y0 tnext ctrl (odeRK tab f cj rF rK nj).init mj,
        ‖c.solverY - y c.solverT0‖
          ≤ Real.exp (κ * |L| * (b - a)) * (‖y0 - y a‖ + (b - a) * (B * η ^ N + ε * D))) ∧
      (cfg.rootFinder = none →
        ‖(solve cfg y0 tnext ctrl (odeRK tab f cj rF rK nj).init mj).yfinal
          - y (solve cfg y0 tnext ctrl (odeRK tab f cj rF rK nj).init mj).tfinal‖
          ≤ Real.exp (κ * |L| * (b - a)) * (‖y0 - y a‖ + (b - a) * (B * η ^ N + ε * D)))

end Verif
