import Verif.Model.Loop
import Verif.Model.XReal

/-!
# Event conditions with NaN and infinite values

`Model/Loop` takes the values of real-valued conditions from a linear order. Here they are floating point values, which may be
NaN or infinite (`diffrax/_integrate.py` 586-599). Simplified: only the condition itself is modelled, for the sequence of the
values it has at the start and after each attempted step.
-/

namespace Verif

variable {K : Type} [Field K] [LinearOrder K]

/-- `jnp.sign`: NaN stays NaN, infinities become 1 and -1. -/
def XVal.sign : XVal K → XVal K
  | .nan => .nan
  | .ninf => .fin (-1)
  | .fin x => .fin (if x < 0 then -1 else if 0 < x then 1 else 0)
  | .pinf => .fin 1

/-- `x != y`: true if one of them is NaN. -/
def XVal.ne : XVal K → XVal K → Bool
  | .nan, _ => true
  | _, .nan => true
  | x, y => decide (x ≠ y)

/-- 586-599: does a real-valued condition trigger when its value goes from `old` to `new`? -/
def condTriggers (direction : Option Bool) (old new : XVal K) : Bool :=
  match direction with
  | none => old.sign.ne new.sign
  | some true => old.sign.le (.fin 0) && (XVal.fin 0).lt new.sign
  | some false => (XVal.fin 0).lt old.sign && new.sign.le (.fin 0)

/-- On which attempt does the condition end the solve, if its values are `v` at the start and then those in the list? -/
def firstEvent (direction : Option Bool) : XVal K → List (XVal K) → Option Nat
  | _, [] => none
  | v, w :: ws => if condTriggers direction v w then some 0 else (firstEvent direction w ws).map (· + 1)

end Verif
