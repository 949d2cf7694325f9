import Mathlib.Analysis.Asymptotics.Lemmas
import Mathlib.Analysis.Calculus.Deriv.Basic
import Mathlib.MeasureTheory.Integral.IntervalIntegral.Basic
import Verif.Spec.Levy

/-!
# Local accuracy for equations with additive noise, independent of any implementation

For additive noise, `dy = f(t, y) dt + g(t) dw` makes sense path by path. A Brownian path over an interval of
length `ε²` looks like `ε w((t - t0) / ε²)`, where `w` is a Brownian path over `[0, 1]`. So the local error of a
method is described by what happens as `ε → 0`, for a given continuous path `w` over `[0, 1]`.
-/

namespace Verif
open Filter Topology Set

variable {E X B : Type} [NormedAddCommGroup E] [NormedSpace ℝ E] [NormedAddCommGroup X] [NormedSpace ℝ X]
  [NormedAddCommGroup B] [NormedSpace ℝ B]

/-- `F` has the Taylor expansion `F x0 + L d + Q d d` at `x0`, with a remainder of third order, and is continuous
near `x0`. -/
structure HasJet2 (F : X → E) (x0 : X) (L : X →L[ℝ] E) (Q : X →L[ℝ] X →L[ℝ] E) : Prop where
  expansion : (fun d => F (x0 + d) - (F x0 + L d + Q d d)) =O[𝓝 0] fun d => ‖d‖ ^ 3
  continuous : ∀ᶠ x in 𝓝 x0, ContinuousAt F x

/-- The path `w` over `[0, 1]`, scaled to the interval `[t0, t0 + ε²]` as Brownian motion is. -/
noncomputable def scaledPath (w : ℝ → B) (t0 ε : ℝ) (t : ℝ) : B := ε • w ((t - t0) / ε ^ 2)

/-- `∫ g dw` over `[t0, t]`, integrated by parts. -/
noncomputable def wienerIntegral (g g' : ℝ → B →L[ℝ] E) (w : ℝ → B) (t0 t : ℝ) : E :=
  g t (w t - w t0) - ∫ r in t0..t, g' r (w r - w t0)

/-- `y` solves `dy = f(t, y) dt + g(t) dw` on `[t0, t1]`, `y(t0) = y0`. -/
structure SolvesAdditive (f : ℝ → E → E) (g g' : ℝ → B →L[ℝ] E) (w : ℝ → B) (t0 t1 : ℝ) (y0 : E) (y : ℝ → E) :
    Prop where
  continuous : ContinuousOn y (Icc t0 t1)
  equation : ∀ t ∈ Icc t0 t1, y t = y0 + (∫ r in t0..t, f r (y r)) + wienerIntegral g g' w t0 t

/-- `g'` is the derivative of `g` near `t0`, and is Lipschitz at `t0`. -/
structure SmoothDiffusion (g g' : ℝ → B →L[ℝ] E) (t0 : ℝ) : Prop where
  deriv : ∀ᶠ t in 𝓝 t0, HasDerivAt g (g' t) t
  lipschitz : (fun t => g' t - g' t0) =O[𝓝 t0] fun t => t - t0
  continuous : ∀ᶠ t in 𝓝 t0, ContinuousAt g' t

end Verif
