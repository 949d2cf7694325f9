import Verif.Spec.OrderStep

/-!
# What it means for the dense output of a Runge-Kutta solver to have some order
-/

namespace Verif
open Filter Topology

/-- How the value at a time is computed from the two ends of a step and what the solver stored about it. -/
abbrev InterpRule (m : ℕ) : Type 1 :=
  ∀ (E : Type) [AddCommGroup E] [Module ℝ E], ℝ → ℝ → RK.Dense m E → ℝ → E

/-- One step of the solver with tableaus `tab`, applied to `y' = sum_p f_p(t, y)` for analytic `f_p` on
any normed space, from an exact value at `t0` to `t0 + h`; then the interpolated value at any fixed fraction
`θ` of the step has error `O(h^(N+1))` as `h → 0`, up to `ε`. The conditions are those of
`StepOrder`. -/
def DenseOrder {m : ℕ} (tab : Fin m → Tableau ℚ) (interp : InterpRule m) (N : ℕ) (ε : ℚ) : Prop :=
  ∀ (E : Type) [NormedAddCommGroup E] [NormedSpace ℝ E] [Module ℚ E] (J : Type)
    (f : Fin m → ℝ → E → E) (cj : CalcJac) (rF rK : RootFinder E J) (nj : J) (t0 : ℝ) (y0 : E)
    (G : Fin m → FormalMultilinearSeries ℝ (ℝ × E) E)
    (_ : ∀ p, HasFPowerSeriesAt (fun x : ℝ × E => f p x.1 x.2) (G p) (t0, y0))
    (y : ℝ → E) (_ : SolvesODE f t0 y0 y) (st : RK.State m E) (mj : Bool)
    (_ : (odeRK tab f cj rF rK nj).ValidState t0 y0 st mj)
    (_ : (∃ p, (tab p).implicit = true) → rF.Exact ∧ rK.Exact)
    (_ : (∃ p, (tab p).implicit = true) → ∀ᶠ h in 𝓝 (0 : ℝ),
      ((odeRK tab f cj rF rK nj).step t0 (t0 + h) y0 st mj).result.isOkay = true)
    (_ : (∃ p, (tab p).implicit = true) → ∀ p, ∀ i < (tab p).bSol.length, Tendsto
      (fun h => ((odeRK tab f cj rF rK nj).step t0 (t0 + h) y0 st mj).dense.ks p i) (𝓝 0) (𝓝 0))
    (θ : ℝ) (_ : 0 ≤ θ) (_ : θ ≤ 1),
    NearOrder G N ε (fun h =>
      interp E t0 (t0 + h) ((odeRK tab f cj rF rK nj).step t0 (t0 + h) y0 st mj).dense (t0 + θ * h)
        - y (t0 + θ * h))

end Verif
