import Verif.Spec.Langevin
import Verif.Spec.BrownianMoments

/-!
# The local error of methods for underdamped Langevin equations
-/

namespace Verif
open MeasureTheory Set Filter Topology

/-- A process over `[0, 1]` with continuous paths, starting at zero, and with mean zero; for example Brownian
motion. -/
structure CentredProcess {Ω : Type} [MeasurableSpace Ω] (P : Measure Ω) {d : ℕ} (W : Ω → ℝ → Fin d → ℝ) : Prop where
  measurable : Measurable fun x : Ω × ℝ => W x.1 x.2
  continuous : ∀ ω, Continuous (W ω)
  zero : ∀ ω, W ω 0 = 0
  integrable : ∀ s ∈ Icc (0 : ℝ) 1, Integrable (fun ω => W ω s) P
  bound : ∃ C, ∀ s ∈ Icc (0 : ℝ) 1, ∫ ω, ‖W ω s‖ ∂P ≤ C
  mean : ∀ s ∈ Icc (0 : ℝ) 1, ∫ ω, W ω s ∂P = 0

/-- A quantity that depends on the path has mean zero under every such process. -/
def MeanZero {d : ℕ} {E : Type} [NormedAddCommGroup E] [NormedSpace ℝ E] (M : (ℝ → Fin d → ℝ) → E) : Prop :=
  ∀ (Ω : Type) [MeasurableSpace Ω] (P : Measure Ω) [IsProbabilityMeasure P] (W : Ω → ℝ → Fin d → ℝ),
    CentredProcess P W → Integrable (fun ω => M (W ω)) P ∧ ∫ ω, M (W ω) ∂P = 0

/-- The terms, with time and the path `w` as controls. -/
noncomputable def LangevinTerms.along {d : ℕ} (T : LangevinTerms d) (w : ℝ → RVec d) : LangevinTerms d :=
  { T with
    contr := fun a b => b - a
    levy := fun a b => ⟨(levyOf w a b).2.1, (levyOf w a b).2.2.1, (levyOf w a b).2.2.2⟩ }

/-- A solver state that is up to date: a step over `[t0, t1]` uses the coefficients for its length, and the gradient
at its starting point. -/
structure LangevinState.UpToDate {Co : Type} {d : ℕ} (sv : LangevinSolver Co) (T : LangevinTerms d) (t0 t1 : ℝ)
    (y0 : RVec d × RVec d) (st : LangevinState d Co) : Prop where
  coeffs : sv.stepCoeffs T st (T.contr t0 t1) = fun i => sv.recompute (T.contr t0 t1) (T.gamma i)
  prevF : st.prevF = if sv.isFsal then some (T.gradF y0.1) else none

/-- Along every continuous path, over `[t0, t0 + h]` with `h = ε²`, a step has the error
`ε^p M(w) + O(ε^(p+1))`, where `M` has mean zero, and vanishes in the absence of noise. -/
def LangevinLocalOrder {Co : Type} {d : ℕ} (sv : LangevinSolver Co) (T : LangevinTerms d) (t0 : ℝ)
    (y0 : RVec d × RVec d) (p : ℕ) : Prop :=
  ∃ M : (ℝ → RVec d) → RVec d × RVec d, MeanZero M ∧ M 0 = 0 ∧
    ∀ w : ℝ → RVec d, Continuous w → w 0 = 0 → ∀ y : ℝ → ℝ → RVec d × RVec d,
      (∀ᶠ ε in 𝓝[>] (0 : ℝ), SolvesLangevinSDE T (scaledPath w t0 ε) t0 (t0 + ε ^ 2) y0 (y ε)) →
      ∀ st : ℝ → LangevinState d Co,
      (∀ ε, (st ε).UpToDate sv (T.along (scaledPath w t0 ε)) t0 (t0 + ε ^ 2) y0) →
      ∃ s : ℝ → RVec d × RVec d,
        (∀ ε, ∃ o, sv.tracedStep (T.along (scaledPath w t0 ε)) t0 (t0 + ε ^ 2) y0 (st ε) none = some o ∧ o.y = s ε) ∧
        (fun ε => s ε - y ε (t0 + ε ^ 2) - ε ^ p • M w) =O[𝓝[>] 0] fun ε => ε ^ (p + 1)

end Verif
