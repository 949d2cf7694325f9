import Verif.Spec.Convergence
import Mathlib.Analysis.Calculus.ContDiff.Basic
import Mathlib.LinearAlgebra.FiniteDimensional.Defs

/-!
# Derivatives of solves with respect to initial values and arguments
-/

namespace Verif
open Filter Topology Set

variable {m : ℕ} {E J : Type} [NormedAddCommGroup E] [NormedSpace ℝ E]

/-- The steps that a solve accepted, as pairs of start and end. -/
noncomputable def acceptedSteps {Y Er D S C O F : Type} [LinearOrder F] [Zero F] (cfg : Cfg ℝ Y Er D S C O F) (y0 : Y) (tnext : ℝ)
    (ctrl : C) (ss : S) (mj : Bool) : List (ℝ × ℝ) :=
  ((callLog cfg y0 tnext ctrl ss mj).filter fun c => (c.answer cfg).keep).map fun c => (c.solverT0, c.solverT1)

/-- The value after the given steps, each taken from a fresh solver state. -/
noncomputable def valueAlong [Module ℚ E] (rk : RK m ℝ ℚ E E ℝ J) (steps : List (ℝ × ℝ)) (y0 : E) : E :=
  steps.foldl (fun y p => (rk.step p.1 p.2 y rk.init false).y) y0

/-- The equation `y' = ∑ₚ gₚ(θ, t, y)` with parameter `θ` has analytic vector fields, and `Y θ'` solves it for all
parameters `θ'` near `θ`, on an open interval containing `[a, b]`, and is twice continuously differentiable. The parameter
is one direction in the space of the initial values and the arguments: derivatives with respect to `θ` are the
directional derivatives that `jax.jvp` computes. -/
structure SolutionFamily (g : Fin m → ℝ × ℝ × E → E) (Y : ℝ → ℝ → E) (θ a b : ℝ) : Prop where
  analytic : ∀ p, AnalyticOnNhd ℝ (g p) univ
  le : a ≤ b
  solves : ∃ a' < a, ∃ b' > b, ∀ t ∈ Ioo a' b', ContDiffAt ℝ 2 (fun x : ℝ × ℝ => Y x.1 x.2) (θ, t) ∧
    ∀ᶠ θ' in 𝓝 θ, HasDerivAt (Y θ') (∑ p, g p (θ', t, Y θ' t)) t

/-- The vector fields at the parameter `θ`. -/
def fieldAt (g : Fin m → ℝ × ℝ × E → E) (θ : ℝ) : Fin m → ℝ → E → E := fun p t x => g p (θ, t, x)

/-- The equation together with its derivative in the direction of the parameter. -/
noncomputable def varField (g : Fin m → ℝ × ℝ × E → E) (θ : ℝ) : Fin m → ℝ → E × E → E × E := fun p t z =>
  (g p (θ, t, z.1), fderiv ℝ (g p) (θ, t, z.1) (1, 0, z.2))

/-- `d` is the derivative of a solve with respect to the parameter, in the sense of `jax.jvp`: the value of the solve is the
value along its accepted steps, and `d` is the derivative of the value along these steps, which are held fixed (the step
size controllers are not differentiated). `x θ'` are the initial values. -/
structure IsSolveDerivative {C O F : Type} [LinearOrder F] [Zero F] [Module ℚ E]
    (cfg : Cfg ℝ E (Option E) (RK.Dense m E) (RK.State m E) C O F) (rk : ℝ → RK m ℝ ℚ E E ℝ J) (x : ℝ → E) (θ tnext : ℝ)
    (ctrl : C) (mj : Bool) (d : E) : Prop where
  value : (solve cfg (x θ) tnext ctrl (rk θ).init mj).yfinal
    = valueAlong (rk θ) (acceptedSteps cfg (x θ) tnext ctrl (rk θ).init mj) (x θ)
  deriv : HasDerivAt (fun θ' => valueAlong (rk θ') (acceptedSteps cfg (x θ) tnext ctrl (rk θ).init mj) (x θ')) d θ

/-- The derivatives of solves with the tableaus `tab` converge with order `N`. For every family of solutions there are
constants `B` and `δ > 0` such that the derivative of a solve whose accepted steps are at most `η ≤ δ` long exists, and
differs from the derivative of the exact solution by at most `B η^N`. This is for any step size controller (without jumps),
any pattern of rejected steps, any outputs and any events without a root finder. -/
def DerivativesConverge (tab : Fin m → Tableau ℚ) (N : ℕ) : Prop :=
  ∀ (E J : Type) [NormedAddCommGroup E] [NormedSpace ℝ E] [Module ℚ E] [FiniteDimensional ℝ E]
    (g : Fin m → ℝ × ℝ × E → E) (cj : CalcJac) (rF rK : RootFinder E J) (nj : J) (Y : ℝ → ℝ → E) (θ a b : ℝ)
    (_ : SolutionFamily g Y θ a b),
    ∃ δ B : ℝ, 0 < δ ∧ 0 ≤ B ∧ ∀ (C O F : Type) [LinearOrder F] [Zero F]
      (cfg : Cfg ℝ E (Option E) (RK.Dense m E) (RK.State m E) C O F) (_ : cfg.WF)
      (_ : cfg.t0 = a) (_ : cfg.t1 = b) (_ : cfg.solver.step = (odeRK tab (fieldAt g θ) cj rF rK nj).step)
      (_ : cfg.controller.Exact) (_ : cfg.rootFinder = none) (tnext : ℝ) (ctrl : C) (mj : Bool) (η : ℝ)
      (_ : 0 ≤ η) (_ : η ≤ δ)
      (_ : ∀ c ∈ callLog cfg (Y θ a) tnext ctrl (odeRK tab (fieldAt g θ) cj rF rK nj).init mj, c.solverT0 ≤ c.solverT1)
      (_ : ∀ c ∈ callLog cfg (Y θ a) tnext ctrl (odeRK tab (fieldAt g θ) cj rF rK nj).init mj,
        (c.answer cfg).keep = true → c.solverT1 - c.solverT0 ≤ η),
      ∃ d, IsSolveDerivative cfg (fun θ' => odeRK tab (fieldAt g θ') cj rF rK nj) (fun θ' => Y θ' a) θ tnext ctrl mj d ∧
        ‖d - deriv (fun θ' => Y θ' (solve cfg (Y θ a) tnext ctrl
          (odeRK tab (fieldAt g θ) cj rF rK nj).init mj).tfinal) θ‖ ≤ B * η ^ N

/-- The same for solvers whose order conditions hold only up to `ε`, where `D` bounds the elementary differentials of the
equation together with its derivative. -/
def DerivativesConvergeUpTo (tab : Fin m → Tableau ℚ) (N : ℕ) (ε : ℚ) : Prop :=
  ∀ (E J : Type) [NormedAddCommGroup E] [NormedSpace ℝ E] [Module ℚ E] [FiniteDimensional ℝ E]
    (g : Fin m → ℝ × ℝ × E → E) (cj : CalcJac) (rF rK : RootFinder E J) (nj : J) (Y : ℝ → ℝ → E) (θ a b : ℝ)
    (_ : SolutionFamily g Y θ a b) (D : ℝ)
    (_ : ElemBound (varField g θ) (fun t => (Y θ t, deriv (fun θ' => Y θ' t) θ)) a b N D),
    ∃ ρ δ A K : ℝ, 0 < ρ ∧ 0 < δ ∧ 0 ≤ A ∧ 0 ≤ K ∧ ∀ (C O F : Type) [LinearOrder F] [Zero F]
      (cfg : Cfg ℝ E (Option E) (RK.Dense m E) (RK.State m E) C O F) (_ : cfg.WF)
      (_ : cfg.t0 = a) (_ : cfg.t1 = b) (_ : cfg.solver.step = (odeRK tab (fieldAt g θ) cj rF rK nj).step)
      (_ : cfg.controller.Exact) (_ : cfg.rootFinder = none) (tnext : ℝ) (ctrl : C) (mj : Bool) (η : ℝ)
      (_ : 0 ≤ η) (_ : η ≤ δ) (_ : Real.exp (K * (b - a)) * ((b - a) * (A * η ^ N + ε * D)) ≤ ρ)
      (_ : ∀ c ∈ callLog cfg (Y θ a) tnext ctrl (odeRK tab (fieldAt g θ) cj rF rK nj).init mj, c.solverT0 ≤ c.solverT1)
      (_ : ∀ c ∈ callLog cfg (Y θ a) tnext ctrl (odeRK tab (fieldAt g θ) cj rF rK nj).init mj,
        (c.answer cfg).keep = true → c.solverT1 - c.solverT0 ≤ η),
      ∃ d, IsSolveDerivative cfg (fun θ' => odeRK tab (fieldAt g θ') cj rF rK nj) (fun θ' => Y θ' a) θ tnext ctrl mj d ∧
        ‖d - deriv (fun θ' => Y θ' (solve cfg (Y θ a) tnext ctrl
          (odeRK tab (fieldAt g θ) cj rF rK nj).init mj).tfinal) θ‖
          ≤ Real.exp (K * (b - a)) * ((b - a) * (A * η ^ N + ε * D))

end Verif
