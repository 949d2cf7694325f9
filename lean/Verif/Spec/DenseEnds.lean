import Verif.Spec.DenseOrder
import Verif.Spec.Loop

/-!
# What it means for dense output to join up with the states of the solve
-/

namespace Verif
open Finset

/-- Between two different times, the interpolation over a step starts at the value from which the step was
made, and ends at the value which the step returned. -/
def Solver.Joins {T Y Er D S : Type} (sv : Solver T Y Er D S) : Prop :=
  ∀ (t0 t1 : T) (y0 : Y) (st : S) (mj : Bool), t0 ≠ t1 →
    sv.interp t0 t1 (sv.step t0 t1 y0 st mj).dense t0 = y0 ∧
    sv.interp t0 t1 (sv.step t0 t1 y0 st mj).dense t1 = (sv.step t0 t1 y0 st mj).y

/-- The same up to `ε` times the size of the stages, for successful steps of a Runge-Kutta solver: in any
normed space, for any vector fields. -/
def JoinsUpTo {m : ℕ} (tab : Fin m → Tableau ℚ) (interp : InterpRule m) (s : ℕ) (ε : ℚ) : Prop :=
  ∀ (E : Type) [NormedAddCommGroup E] [NormedSpace ℝ E] [Module ℚ E] (J : Type)
    (f : Fin m → ℝ → E → E) (cj : CalcJac) (rF rK : RootFinder E J) (nj : J) (t0 t1 : ℝ) (y0 : E)
    (st : RK.State m E) (mj : Bool) (_ : t0 ≠ t1)
    (_ : (odeRK tab f cj rF rK nj).ValidState t0 y0 st mj)
    (_ : (∃ p, (tab p).implicit = true) → rF.Exact ∧ rK.Exact)
    (_ : ((odeRK tab f cj rF rK nj).step t0 t1 y0 st mj).result.isOkay = true),
    interp E t0 t1 ((odeRK tab f cj rF rK nj).step t0 t1 y0 st mj).dense t0 = y0 ∧
    ‖interp E t0 t1 ((odeRK tab f cj rF rK nj).step t0 t1 y0 st mj).dense t1
        - ((odeRK tab f cj rF rK nj).step t0 t1 y0 st mj).y‖
      ≤ ε * ∑ p, ∑ i ∈ range s, ‖((odeRK tab f cj rF rK nj).step t0 t1 y0 st mj).dense.ks p i‖

end Verif
