import Mathlib.MeasureTheory.Function.LpSpace.Basic
import Mathlib.MeasureTheory.Integral.Bochner.Basic
import Mathlib.MeasureTheory.Measure.Lebesgue.Basic

/-!
# What is used about Brownian motion over `[0, 1]`: its second moments
-/

namespace Verif
open MeasureTheory Set

/-- A process over `[0, 1]` with the second moments of `d`-dimensional Brownian motion. -/
structure BrownianMoments {Ω : Type} [MeasurableSpace Ω] (P : Measure Ω) {d : ℕ} (W : Ω → ℝ → Fin d → ℝ) : Prop where
  measurable : Measurable fun x : Ω × ℝ => W x.1 x.2
  zero : ∀ ω, W ω 0 = 0
  paths : ∀ ω i, MemLp (fun r => W ω r i) 2 (volume.restrict (Ioc 0 1))
  sq : ∀ i, ∀ s ∈ Icc (0 : ℝ) 1, MemLp (fun ω => W ω s i) 2 P
  cov : ∀ i j, ∀ s ∈ Icc (0 : ℝ) 1, ∀ t ∈ Icc (0 : ℝ) 1, ∫ ω, W ω s i * W ω t j ∂P = if i = j then min s t else 0

end Verif
