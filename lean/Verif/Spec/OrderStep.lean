import Verif.Spec.Order
import Verif.Spec.RK
import Verif.Model.Term

/-!
# What it means for a Runge-Kutta solver to have some order
-/

namespace Verif
open Filter Topology

/-- One step of the solver with tableaus `tab`, applied to `y' = sum_p f_p(t, y)` for analytic `f_p` on
any normed space, from an exact value at `t0` to `t0 + h`, has error `O(h^(N+1))` as `h → 0`, up to `ε`;
and its error estimate is `O(h^(M+1))`, up to `δ`. If there are implicit stages, this is provided that the root
finder is right whenever it reports success, that it reports success for all small `h`, and that it
finds that solution of the stages which tends to zero as `h → 0`. -/
def StepOrder {m : ℕ} (tab : Fin m → Tableau ℚ) (N : ℕ) (ε : ℚ) (M : ℕ) (δ : ℚ) : Prop :=
  ∀ (E : Type) [NormedAddCommGroup E] [NormedSpace ℝ E] [Module ℚ E] (J : Type)
    (f : Fin m → ℝ → E → E) (cj : CalcJac) (rF rK : RootFinder E J) (nj : J) (t0 : ℝ) (y0 : E)
    (G : Fin m → FormalMultilinearSeries ℝ (ℝ × E) E)
    (_ : ∀ p, HasFPowerSeriesAt (fun x : ℝ × E => f p x.1 x.2) (G p) (t0, y0))
    (y : ℝ → E) (_ : SolvesODE f t0 y0 y) (st : RK.State m E) (mj : Bool)
    (_ : (odeRK tab f cj rF rK nj).ValidState t0 y0 st mj)
    (_ : (∃ p, (tab p).implicit = true) → rF.Exact ∧ rK.Exact)
    (_ : (∃ p, (tab p).implicit = true) → ∀ᶠ h in 𝓝 (0 : ℝ),
      ((odeRK tab f cj rF rK nj).step t0 (t0 + h) y0 st mj).result.isOkay = true)
    (_ : (∃ p, (tab p).implicit = true) → ∀ p, ∀ i < (tab p).bSol.length, Tendsto
      (fun h => ((odeRK tab f cj rF rK nj).step t0 (t0 + h) y0 st mj).dense.ks p i) (𝓝 0) (𝓝 0)),
    NearOrder G N ε (fun h => ((odeRK tab f cj rF rK nj).step t0 (t0 + h) y0 st mj).y - y (t0 + h)) ∧
    ∃ e : ℝ → E, (∀ᶠ h in 𝓝 (0 : ℝ),
        ((odeRK tab f cj rF rK nj).step t0 (t0 + h) y0 st mj).err = some (e h)) ∧
      NearOrder G M δ e

end Verif
