import Verif.Spec.Ito
import Mathlib.Analysis.Calculus.ContDiff.Basic

/-!
# Smoothness of the coefficients of stochastic equations
-/

namespace Verif
open Set

variable {E : Type} [NormedAddCommGroup E] [NormedSpace ℝ E] {d : ℕ}

/-- Lipschitz in time. -/
def TimeLipschitz (φ : ℝ → E → E) (a b L : ℝ) : Prop :=
  ∀ s ∈ Icc a b, ∀ t ∈ Icc a b, ∀ x, ‖φ t x - φ s x‖ ≤ L * |t - s| * (1 + ‖x‖)

/-- Differentiable in `y`, and in the directions of the noise the remainder of the linear approximation is of second
order. This holds for example if `φ t` and `g i t` are linear, or if `g` is bounded and the derivative of `φ t` is
Lipschitz. -/
def SmoothAlong (φ : ℝ → E → E) (g : Fin d → ℝ → E → E) (a b Λ : ℝ) : Prop :=
  ∀ t ∈ Icc a b, ContDiff ℝ 1 (φ t) ∧ ∀ y (x : Fin d → ℝ),
    ‖φ t (y + ∑ i, x i • g i t y) - φ t y - fderiv ℝ (φ t) y (∑ i, x i • g i t y)‖ ≤ Λ * (∑ i, |x i|) ^ 2 * (1 + ‖y‖)

/-- The noise is commutative. -/
def CommutativeNoise (g : Fin d → ℝ → E → E) (a b : ℝ) : Prop :=
  ∀ t ∈ Icc a b, ∀ i j y, fderiv ℝ (g j t) y (g i t y) = fderiv ℝ (g i t) y (g j t y)

/-- The derivatives of the noise along the noise are Lipschitz. -/
def MilsteinLipschitz (g : Fin d → ℝ → E → E) (a b L : ℝ) : Prop :=
  ∀ t ∈ Icc a b, ∀ i j x x', ‖fderiv ℝ (g j t) x (g i t x) - fderiv ℝ (g j t) x' (g i t x')‖ ≤ L * ‖x - x'‖

end Verif
