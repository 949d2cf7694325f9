import Verif.Spec.Loop
import Verif.Spec.Clip
import Verif.Model.Sde
import Mathlib.Analysis.Calculus.ContDiff.Basic
import Mathlib.Analysis.Calculus.Deriv.Basic

/-!
# Controlled differential equations `dy = f(t, y) dt + g(t, y) dx` with a path `x` of finite speed
-/

namespace Verif
open Set Finset

variable {E : Type} [NormedAddCommGroup E] [NormedSpace ℝ E] {d : ℕ}

/-- Lipschitz in `y`, and in `t` with linear growth. -/
structure LipschitzField (φ : ℝ → E → E) (a b L : ℝ) : Prop where
  space : ∀ t ∈ Icc a b, ∀ x x', ‖φ t x - φ t x'‖ ≤ L * ‖x - x'‖
  time : ∀ s ∈ Icc a b, ∀ t ∈ Icc a b, ∀ x, ‖φ t x - φ s x‖ ≤ L * |t - s| * (1 + ‖x‖)

/-- A path with speed `x'`, at most `M`. Only the right derivative is needed, so the path may have corners, as linear
interpolations of data have. -/
structure ControlPath (x x' : ℝ → Fin d → ℝ) (a b M : ℝ) : Prop where
  cont : ∀ j, ContinuousOn (fun t => x t j) (Icc a b)
  speed : ∀ t ∈ Ico a b, ∀ j, HasDerivWithinAt (fun u => x u j) (x' t j) (Ici t) t
  bound : ∀ t ∈ Ico a b, ∀ j, |x' t j| ≤ M

/-- `y` solves `dy = f(t, y) dt + Σ g_j(t, y) dx_j`, that is `y' = f(t, y) + Σ g_j(t, y) x_j'`. -/
structure ControlledSolution (f : ℝ → E → E) (g : Fin d → ℝ → E → E) (x' : ℝ → Fin d → ℝ) (a b : ℝ) (y : ℝ → E) :
    Prop where
  cont : ContinuousOn y (Icc a b)
  solves : ∀ t ∈ Ico a b, HasDerivWithinAt y (f t (y t) + ∑ j, x' t j • g j t (y t)) (Ici t) t

/-- For a `diffeqsolve` of `MultiTerm(ODETerm(f), ControlTerm(g, x))` over `[a, b]` with the Runge-Kutta method of this
tableau, any step size controller, any outputs and any pattern of rejected steps: if the accepted steps are at most `η`
long then the distance to `y` is at most `bound (its initial value) η`, at the beginning of every attempted step and at
the end. -/
def CdeErrorAtMost [Module ℚ E] (tab : Tableau ℚ) (f : ℝ → E → E) (g : Fin d → ℝ → E → E) (x : ℝ → Fin d → ℝ)
    (a b : ℝ) (y : ℝ → E) (bound : ℝ → ℝ → ℝ) : Prop :=
  ∀ (J : Type) (cj : CalcJac) (rF : RootFinder (E × (Fin d → E)) J) (rK : RootFinder E J) (nj : J)
    (C O F : Type) [LinearOrder F] [Zero F]
    (cfg : Cfg ℝ E (Option E) (RK.Dense 1 E) (RK.State 1 (E × (Fin d → E))) C O F) (_ : cfg.WF)
    (_ : cfg.t0 = a) (_ : cfg.t1 = b) (_ : cfg.solver.step = (sdeRK tab f g x cj rF rK nj).step)
    (_ : cfg.controller.Exact) (y0 : E) (tnext : ℝ) (ctrl : C) (mj : Bool) (η : ℝ) (_ : 0 ≤ η)
    (_ : ∀ c ∈ callLog cfg y0 tnext ctrl (sdeRK tab f g x cj rF rK nj).init mj, c.solverT0 ≤ c.solverT1)
    (_ : ∀ c ∈ callLog cfg y0 tnext ctrl (sdeRK tab f g x cj rF rK nj).init mj, (c.answer cfg).keep = true →
      c.solverT1 - c.solverT0 ≤ η),
    (∀ c ∈ callLog cfg y0 tnext ctrl (sdeRK tab f g x cj rF rK nj).init mj,
      ‖c.solverY - y c.solverT0‖ ≤ bound ‖y0 - y a‖ η) ∧
    (cfg.rootFinder = none →
      ‖(solve cfg y0 tnext ctrl (sdeRK tab f g x cj rF rK nj).init mj).yfinal
        - y (solve cfg y0 tnext ctrl (sdeRK tab f g x cj rF rK nj).init mj).tfinal‖ ≤ bound ‖y0 - y a‖ η)

/-- The method of this tableau converges with order 1 for every Lipschitz controlled equation, up to `ε` times a
constant of the equation. -/
def CdeFirstOrder (tab : Tableau ℚ) (ε : ℚ) : Prop :=
  ∀ (E : Type) [NormedAddCommGroup E] [NormedSpace ℝ E] [Module ℚ E] (d : ℕ) (f : ℝ → E → E)
    (g : Fin d → ℝ → E → E) (x x' : ℝ → Fin d → ℝ) (a b L M : ℝ) (y : ℝ → E) (_ : a ≤ b)
    (_ : LipschitzField f a b L) (_ : ∀ j, LipschitzField (g j) a b L) (_ : ControlPath x x' a b M)
    (_ : ControlledSolution f g x' a b y),
    ∃ K, 0 ≤ K ∧ CdeErrorAtMost tab f g x a b y (fun e η => K * (e + η + ε))

/-- The method of this tableau converges with order 2 if moreover the vector fields are twice differentiable and the
speed of the control is Lipschitz. -/
def CdeSecondOrder (tab : Tableau ℚ) (ε : ℚ) : Prop :=
  ∀ (E : Type) [NormedAddCommGroup E] [NormedSpace ℝ E] [Module ℚ E] (d : ℕ) (f : ℝ → E → E)
    (g : Fin d → ℝ → E → E) (x x' : ℝ → Fin d → ℝ) (a b L M : ℝ) (y : ℝ → E) (_ : a ≤ b)
    (_ : LipschitzField f a b L) (_ : ∀ j, LipschitzField (g j) a b L)
    (_ : ContDiff ℝ 2 (fun p : ℝ × E => f p.1 p.2)) (_ : ∀ j, ContDiff ℝ 2 (fun p : ℝ × E => g j p.1 p.2))
    (_ : ControlPath x x' a b M) (_ : ∀ s ∈ Ico a b, ∀ t ∈ Ico a b, ∀ j, |x' t j - x' s j| ≤ M * |t - s|)
    (_ : ControlledSolution f g x' a b y),
    ∃ K, 0 ≤ K ∧ CdeErrorAtMost tab f g x a b y (fun e η => K * (e + η ^ 2 + ε))

end Verif
