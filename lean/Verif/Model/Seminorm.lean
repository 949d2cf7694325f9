import Verif.Model.PidWith

/-!
# `adjoint_rms_seminorm` (`/repo/diffrax/_misc.py` 85-116)

In the backward pass of `BacksolveAdjoint` the state is a tuple `(y, a_y, a_args, a_terms)`. As a list of leaves it starts
with the `k` leaves of `y` and the `k` leaves of `a_y`.
-/

namespace Verif
variable {K Y Er : Type}

/-- `adjoint_rms_seminorm`, `rms` being `optimistix.rms_norm`, if `y` has `k` leaves. -/
def adjointRmsSeminorm (rms : XTree K → XVal K) (k : Nat) (x : XTree K) : XVal K := rms (x.take (2 * k))

variable [Field K] [LinearOrder K]

/-- The scaled error (`pid.py` 473-486) for states and error estimates that are represented as trees. -/
def Pid.scaledVia (p : Pid K) (tree : Y → XTree K) (errTree : Er → XTree K) (y0 y1 : Y) (err : Er) : XVal K :=
  p.scaledError (tree y0) (tree y1) (errTree err)

end Verif
