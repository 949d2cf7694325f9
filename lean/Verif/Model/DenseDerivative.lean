import Verif.Model.Front
import Mathlib.Analysis.Calculus.Deriv.Basic

/-!
# `Solution.derivative`

`/repo/diffrax/_solution.py` 158-201 and `DenseInterpolation.derivative` (`_global_interpolation.py` 357-364). None of the local
interpolations has a `derivative` of its own, so that it is `AbstractPath.derivative` (`_path.py` 80-102): `jax.jvp` of
`evaluate`, which is the derivative here. Times and values are real.
-/

namespace Verif

variable {Y D : Type} [NormedAddCommGroup Y] [NormedSpace ℝ Y]

/-- `DenseInterpolation.derivative(t)` in internal time, `none` standing for NaN. -/
noncomputable def DenseInterp.derivative (d : DenseInterp ℝ Y D) (t : ℝ) (left : Bool) : Option Y :=
  if d.outOfBounds t then none
  else
    let i := segIndex d.ts d.tsSize t left
    match d.ts[i]?, d.ts[i + 1]?, d.infos[i]? with
    | some (some a), some (some b), some (some info) => some (deriv (d.interp a b info) t)
    | _, _, _ => none

/-- `sol.derivative(t)`. -/
noncomputable def Sol.derivative {S C O F : Type} (s : Sol ℝ Y D S C O F) (t : ℝ) (left : Bool) : Option Y :=
  (s.interpolation.derivative (t * s.direction) left).map ((s.direction : ℝ) • ·)

end Verif
