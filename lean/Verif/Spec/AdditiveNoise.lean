import Verif.Spec.Ito
import Verif.Spec.SrkOrder

/-!
# Equations with additive noise: smoothness of the coefficients, and solutions

`dY = f(t, Y) dt + g(t) dW`. Nothing here refers to the solvers.
-/

namespace Verif
open MeasureTheory ProbabilityTheory Set

variable {Ω : Type} {mΩ : MeasurableSpace Ω} {E B : Type} [NormedAddCommGroup E] [NormedSpace ℝ E]
  [NormedAddCommGroup B] [NormedSpace ℝ B]

/-- On `[a, b]` the drift has the derivative `ft` in time and the derivatives `fy`, `fyy` in `y`. The latter are bounded,
and all of them are Lipschitz (in time: with a constant that may grow with `y`). -/
structure SmoothDrift (f ft : ℝ → E → E) (fy : ℝ → E → E →L[ℝ] E) (fyy : ℝ → E → E →L[ℝ] E →L[ℝ] E) (a b L : ℝ) :
    Prop where
  deriv : ∀ t ∈ Icc a b, ∀ x, HasFDerivAt (f t) (fy t x) x
  deriv2 : ∀ t ∈ Icc a b, ∀ x, HasFDerivAt (fy t) (fyy t x) x
  le1 : ∀ t ∈ Icc a b, ∀ x, ‖fy t x‖ ≤ L
  le2 : ∀ t ∈ Icc a b, ∀ x, ‖fyy t x‖ ≤ L
  lip2 : ∀ t ∈ Icc a b, ∀ x x', ‖fyy t x - fyy t x'‖ ≤ L * ‖x - x'‖
  time : ∀ t ∈ Icc a b, ∀ x, HasDerivWithinAt (fun r => f r x) (ft t x) (Icc a b) t
  time_le : ∀ t ∈ Icc a b, ∀ x, ‖ft t x‖ ≤ L * (1 + ‖x‖)
  time_lip : ∀ s ∈ Icc a b, ∀ t ∈ Icc a b, ∀ x, ‖ft t x - ft s x‖ ≤ L * |t - s| * (1 + ‖x‖)
  mixed : ∀ t ∈ Icc a b, ∀ x x', ‖ft t x - ft t x'‖ ≤ L * ‖x - x'‖

/-- On `[a, b]` the diffusion has the derivative `g'`; both are bounded, and `g'` is Lipschitz. -/
structure SmoothNoise (g g' : ℝ → B →L[ℝ] E) (a b L : ℝ) : Prop where
  deriv : ∀ t ∈ Icc a b, HasDerivWithinAt g (g' t) (Icc a b) t
  le : ∀ t ∈ Icc a b, ‖g t‖ ≤ L
  le' : ∀ t ∈ Icc a b, ‖g' t‖ ≤ L
  lip' : ∀ s ∈ Icc a b, ∀ t ∈ Icc a b, ‖g' t - g' s‖ ≤ L * |t - s|

/-- Brownian noise with continuous paths, all of whose future is independent of the past. -/
structure BrownianPaths (P : Measure Ω) (F : ℝ → MeasurableSpace Ω) (a : ℝ) {d : ℕ} (W : ℝ → Ω → Fin d → ℝ) : Prop
    extends BrownianNoise P F a W where
  continuous : ∀ ω, Continuous fun t => W t ω
  future : ∀ s, a ≤ s →
    Indep (⨆ t ∈ Ici s, MeasurableSpace.comap (fun ω => W t ω - W s ω) inferInstance) (F s) P

/-- `Y` solves `dY = f(t, Y) dt + g(t) dW` on `[a, b]` along every path, is adapted, and its initial value has moments up
to the sixth. -/
structure AdditiveSolution (P : Measure Ω) (F : ℝ → MeasurableSpace Ω) {d : ℕ} (W : ℝ → Ω → Fin d → ℝ)
    (f : ℝ → E → E) (g g' : ℝ → (Fin d → ℝ) →L[ℝ] E) (a b : ℝ) (Y : ℝ → Ω → E) : Prop where
  adapted : ∀ t ∈ Icc a b, StronglyMeasurable[F t] (Y t)
  initial : MemLp (Y a) 6 P
  paths : ∀ ω, SolvesAdditive f g g' (fun t => W t ω) a b (Y a ω) (fun t => Y t ω)

end Verif
