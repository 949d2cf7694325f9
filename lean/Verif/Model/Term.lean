import Mathlib.Data.Real.Basic
import Mathlib.Algebra.Module.Rat
import Verif.Model.RK

/-!
# Model of `ODETerm` (`/repo/diffrax/_term.py`), and Runge-Kutta methods applied to it

Exact real arithmetic. `args`, pytree structure checks and dtype promotion are left out.
-/

namespace Verif

variable {m : ℕ} {E J : Type} [AddCommGroup E] [Module ℝ E] [Module ℚ E]

/-- `ODETerm` (174-226); `vf_prod` is the default one (133-140). -/
def odeTerm (f : ℝ → E → E) : Term ℝ E E ℝ where
  vf := f
  contr t0 t1 := t1 - t0
  prod v c := c • v
  vfProd t y c := c • f t y

/-- A Runge-Kutta method with tableaus `tab`, applied to `MultiTerm(ODETerm(f 0), ODETerm(f 1), ...)`
(or to one `ODETerm`). -/
noncomputable def odeRK (tab : Fin m → Tableau ℚ) (f : Fin m → ℝ → E → E) (calcJac : CalcJac)
    (rootF rootK : RootFinder E J) (noJac : J) : RK m ℝ ℚ E E ℝ J where
  tab := tab
  term p := odeTerm (f p)
  at' t0 t1 c := t0 + (c : ℝ) * (t1 - t0)
  calcJac := calcJac
  rootF := rootF
  rootK := rootK
  noJac := noJac

end Verif
