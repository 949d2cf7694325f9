import Mathlib.Analysis.Calculus.ContDiff.Basic
import Mathlib.MeasureTheory.Integral.Bochner.Basic
import Mathlib.MeasureTheory.Measure.Haar.OfBasis

/-!
# Invariant densities of diffusions
-/

namespace Verif
open MeasureTheory

variable {E : Type} [NormedAddCommGroup E] [NormedSpace ℝ E] [MeasureSpace E]

/-- `ρ` is an invariant density of the diffusion `dY = b(Y) dt + ∑ⱼ σⱼ(Y) dWⱼ`: for every test function `φ`, the
integral of `Lφ` against `ρ` is zero, where `Lφ = Dφ·b + ½ ∑ⱼ D²φ(σⱼ, σⱼ)` is the rate of change of the mean of `φ`. -/
def InvariantDensity {J : Type} [Fintype J] (b : E → E) (σ : J → E → E) (ρ : E → ℝ) : Prop :=
  ∀ φ : E → ℝ, ContDiff ℝ 2 φ → HasCompactSupport φ →
    ∫ y, (fderiv ℝ φ y (b y) + 1 / 2 * ∑ j, fderiv ℝ (fun z => fderiv ℝ φ z (σ j y)) y (σ j y)) * ρ y = 0

/-- `g` is the gradient of `f`. -/
def IsGradient {I : Type} [Fintype I] (f : (I → ℝ) → ℝ) (g : (I → ℝ) → I → ℝ) : Prop :=
  ∀ x, ∃ D : (I → ℝ) →L[ℝ] ℝ, HasFDerivAt f D x ∧ ∀ h, D h = ∑ i, g x i * h i

end Verif
