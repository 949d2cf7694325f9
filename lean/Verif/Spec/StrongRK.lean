import Verif.Spec.StrongError
import Verif.Spec.ItoSmooth
import Verif.Model.Sde

/-!
# Runge-Kutta methods for stochastic equations
-/

namespace Verif
open MeasureTheory

/-- Solving `MultiTerm(ODETerm(f), ControlTerm(g, W))` with the method of this tableau converges to the solution in the
sense of Stratonovich of `dY = f(t, Y) dt + g(t, Y) ∘ dW`, with strong order 1/2, whenever `f`, the corrected `f` and
the `g j` are Lipschitz and the `g j` are smooth in the directions of the noise. -/
def ConvergesToStratonovich (tab : Tableau ℚ) : Prop :=
  ∀ (Ω : Type) (F : ℝ → MeasurableSpace Ω) (mΩ : MeasurableSpace Ω) (P : Measure Ω) [IsProbabilityMeasure P]
    (E J : Type) [NormedAddCommGroup E] [InnerProductSpace ℝ E] [Module ℚ E] (d : ℕ) (W : ℝ → Ω → Fin d → ℝ)
    (a b L Λ : ℝ) (f : ℝ → E → E) (g : Fin d → ℝ → E → E) (Y : ℝ → Ω → E)
    (_ : BrownianNoise P F a W) (_ : StratonovichSolution P F W f g a b Y) (_ : 0 ≤ L) (_ : 0 ≤ Λ)
    (_ : ItoLipschitz f a b L) (_ : ItoLipschitz (stratonovichCorrected f g) a b L)
    (_ : ∀ j, ItoLipschitz (g j) a b L) (_ : ∀ j, TimeLipschitz (g j) a b L) (_ : ∀ j, SmoothAlong (g j) g a b Λ)
    (cj : CalcJac) (rF : RootFinder (E × (Fin d → E)) J) (rK : RootFinder E J) (nj : J)
    (interp : ℝ → ℝ → RK.Dense 1 E → ℝ → E),
    ∃ K, StrongErrorAtMost P F (fun ω => ⟨(sdeRK tab f g (fun t => W t ω) cj rF rK nj).step, interp⟩)
      (fun ω _ => (sdeRK tab f g (fun t => W t ω) cj rF rK nj).init) Y a b (fun e η => K * (e + η))

end Verif
