import Mathlib.MeasureTheory.Integral.IntervalIntegral.Basic

/-!
# Brownian increments with their Lévy areas, as integrals of the path

The definitions in the documentation of `AbstractSRK`.
-/

namespace Verif

variable {E : Type} [NormedAddCommGroup E] [NormedSpace ℝ E]

/-- `W_r` minus the straight line from `W_s` to `W_t`. -/
noncomputable def bridgeOf (W : ℝ → E) (s t r : ℝ) : E := (W r - W s) - ((r - s) / (t - s)) • (W t - W s)

/-- The space-time Lévy area `H`. -/
noncomputable def areaH (W : ℝ → E) (s t : ℝ) : E := (1 / (t - s)) • ∫ r in s..t, bridgeOf W s t r

/-- The space-time-time Lévy area `K`. -/
noncomputable def areaK (W : ℝ → E) (s t : ℝ) : E :=
  (1 / (t - s) ^ 2) • ∫ r in s..t, ((t + s) / 2 - r) • bridgeOf W s t r

/-- The four leaves `dt`, `W`, `H`, `K` of the increment over `[s, t]`. -/
noncomputable def levyOf (W : ℝ → E) (s t : ℝ) : ℝ × E × E × E :=
  (t - s, W t - W s, areaH W s t, areaK W s t)

end Verif
