import Mathlib.Analysis.Calculus.FDeriv.Basic
import Verif.Model.SteadyState

/-!
# `ImplicitAdjoint`

`diffrax/_adjoint.py` 410-522. The derivative itself is taken by `optx.implicit_jvp(_solve, _vf, inputs, tags,
linear_solver)` of Optimistix, of which the documented behaviour is modelled: for the output `y` of `_solve`, the
tangent of `y` for a tangent of the inputs is what `linear_solver` returns for the linear system whose operator is the
Jacobian of `_vf` in `y`, and whose right hand side is minus the derivative of `_vf` along the tangent of the inputs.

Simplifications: the inputs are the parameters `θ` on which the vector field depends (`args` and `terms`; the
derivative of `_vf` in all other inputs is zero); reverse-mode differentiation is the transpose of the linear map
given here.
-/

namespace Verif

section
variable {Θ E V : Type} [NormedAddCommGroup Θ] [NormedSpace ℝ Θ] [NormedAddCommGroup E] [NormedSpace ℝ E]
  [NormedAddCommGroup V] [NormedSpace ℝ V]

/-- `_vf` (410-420): `solver.func(terms, t, y, args)`, as a function of the parameters and of `y`. -/
def implicitVf (func : Θ → ℝ → E → V) (t : ℝ) (θ : Θ) (y : E) : V := func θ t y

/-- `ImplicitAdjoint.loop` (485-522): the tangent of the output `y` for the tangent `dθ` of the parameters. `lin A b`
is the answer of `linear_solver` for `A x = b`. -/
noncomputable def implicitJvp (lin : (E →L[ℝ] V) → V → E) (func : Θ → ℝ → E → V) (t : ℝ) (θ : Θ) (y : E) (dθ : Θ) :
    E :=
  lin (fderiv ℝ (fun y => implicitVf func t θ y) y) (-(fderiv ℝ (fun θ => implicitVf func t θ y) θ dθ))

end

end Verif
