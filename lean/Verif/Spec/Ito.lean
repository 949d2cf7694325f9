import Mathlib.MeasureTheory.Function.LpSpace.Basic
import Mathlib.MeasureTheory.Integral.Bochner.Basic
import Mathlib.Probability.Independence.Basic
import Mathlib.Analysis.InnerProductSpace.Basic
import Mathlib.Data.Real.Sqrt
import Mathlib.Analysis.Calculus.FDeriv.Basic

/-!
# Itô equations

What the solution of `dY = f(t, Y) dt + g(t, Y) dW` is: an adapted process whose increments are the limits, in mean
square, of the left-point sums `∑ f(r, Y_r) Δr + g(r, Y_r) ΔW`. Nothing here refers to the solvers.
-/

namespace Verif
open MeasureTheory ProbabilityTheory Filter Set Topology

variable {Ω : Type} {mΩ : MeasurableSpace Ω}

/-- From time `a` on, `W` is adapted to the filtration `F`, its increments are independent of the past, and have the
moments of `d`-dimensional Brownian motion (of the higher moments only the order of magnitude). -/
structure BrownianNoise (P : Measure Ω) (F : ℝ → MeasurableSpace Ω) (a : ℝ) {d : ℕ} (W : ℝ → Ω → Fin d → ℝ) :
    Prop where
  mono : ∀ s t, s ≤ t → F s ≤ F t
  le : ∀ t, F t ≤ mΩ
  adapted : ∀ t j, a ≤ t → Measurable[F t] fun ω => W t ω j
  indep : ∀ s t, a ≤ s → s ≤ t → Indep (MeasurableSpace.comap (fun ω => W t ω - W s ω) inferInstance) (F s) P
  even : ∀ n : ℕ, ∃ c, ∀ s t j, a ≤ s → s ≤ t → MemLp (fun ω => W t ω j - W s ω j) (2 * n : ℕ) P ∧
    ∫ ω, (W t ω j - W s ω j) ^ (2 * n) ∂P ≤ c * (t - s) ^ n
  mean : ∀ s t j, a ≤ s → s ≤ t → ∫ ω, (W t ω j - W s ω j) ∂P = 0
  cov : ∀ s t i j, a ≤ s → s ≤ t →
    ∫ ω, (W t ω i - W s ω i) * (W t ω j - W s ω j) ∂P = if i = j then t - s else 0

variable {E : Type} [NormedAddCommGroup E]

/-- The square root of the mean of the square. -/
noncomputable def rms (P : Measure Ω) (X : Ω → E) : ℝ := (eLpNorm X 2 P).toReal

variable [NormedSpace ℝ E] {d : ℕ}

/-- `∑ f(r, Y_r) Δr + g(r, Y_r) ΔW` over `n` equal parts of `[s, t]`. The columns of `g` are `g j`. -/
noncomputable def leftSum (f : ℝ → E → E) (g : Fin d → ℝ → E → E) (W : ℝ → Ω → Fin d → ℝ) (Y : ℝ → Ω → E) (s t : ℝ)
    (n : ℕ) (ω : Ω) : E :=
  ∑ i ∈ Finset.range n,
    (((t - s) / n) • f (s + i * ((t - s) / n)) (Y (s + i * ((t - s) / n)) ω)
      + ∑ j, (W (s + (i + 1 : ℕ) * ((t - s) / n)) ω j - W (s + i * ((t - s) / n)) ω j)
        • g j (s + i * ((t - s) / n)) (Y (s + i * ((t - s) / n)) ω))

/-- `Y` solves `dY = f(t, Y) dt + g(t, Y) dW` on `[a, b]` in the sense of Itô. -/
structure ItoSolution (P : Measure Ω) (F : ℝ → MeasurableSpace Ω) {d : ℕ} (W : ℝ → Ω → Fin d → ℝ)
    (f : ℝ → E → E) (g : Fin d → ℝ → E → E) (a b : ℝ) (Y : ℝ → Ω → E) : Prop where
  adapted : ∀ t ∈ Icc a b, StronglyMeasurable[F t] (Y t)
  memLp : ∀ t ∈ Icc a b, MemLp (Y t) 2 P
  bounded : ∃ R, ∀ t ∈ Icc a b, rms P (Y t) ≤ R
  increments : ∀ s t, a ≤ s → s ≤ t → t ≤ b →
    Tendsto (fun n => rms P fun ω => Y t ω - Y s ω - leftSum f g W Y s t n ω) atTop (𝓝 0)

/-- The drift with the correction that turns a Stratonovich equation into an Itô equation: `f + 1/2 ∑ (∂g_j) g_j`. -/
noncomputable def stratonovichCorrected (f : ℝ → E → E) (g : Fin d → ℝ → E → E) (t : ℝ) (y : E) : E :=
  f t y + (1 / 2 : ℝ) • ∑ j, fderiv ℝ (g j t) y (g j t y)

/-- `Y` solves `dY = f(t, Y) dt + g(t, Y) ∘ dW` on `[a, b]` in the sense of Stratonovich. -/
def StratonovichSolution (P : Measure Ω) (F : ℝ → MeasurableSpace Ω) {d : ℕ} (W : ℝ → Ω → Fin d → ℝ)
    (f : ℝ → E → E) (g : Fin d → ℝ → E → E) (a b : ℝ) (Y : ℝ → Ω → E) : Prop :=
  ItoSolution P F W (stratonovichCorrected f g) g a b Y

/-- Lipschitz in `y`, Hölder continuous in time with exponent 1/2. -/
def ItoLipschitz (f : ℝ → E → E) (a b L : ℝ) : Prop :=
  ∀ s ∈ Icc a b, ∀ t ∈ Icc a b, ∀ x x', ‖f t x - f s x'‖ ≤ L * (√|t - s| * (1 + ‖x'‖) + ‖x - x'‖)

end Verif
