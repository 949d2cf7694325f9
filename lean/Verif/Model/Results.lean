/-!
# Model of `diffrax/_solution.py`: `RESULTS`, `is_okay`, `update_result`

`/repo/diffrax/_solution.py` lines 13-79.
-/

namespace Verif

/-- `RESULTS` (`_solution.py` 13-31). `RESULTS` extends `optimistix.RESULTS`, whose members
(nonlinear divergence, linear solver failures, ...) are represented by `other n`. -/
inductive Result where
  | successful
  | maxStepsReached
  | dtMinReached
  | eventOccurred
  | maxStepsRejected
  | internalError
  | other (n : Nat)
deriving DecidableEq, Repr, Inhabited

namespace Result

/-- `is_successful` (`_solution.py` 57-58). -/
def isSuccessful (r : Result) : Bool := r == successful

/-- `is_event` (`_solution.py` 61-62). -/
def isEvent (r : Result) : Bool := r == eventOccurred

/-- `is_okay` (`_solution.py` 52-54). -/
def isOkay (r : Result) : Bool := r.isSuccessful || r.isEvent

/-- `RESULTS.where(pred, a, b)`. -/
def where' (pred : Bool) (a b : Result) : Result := if pred then a else b

/-- `update_result` (`_solution.py` 65-79). -/
def update (old new : Result) : Result :=
  let out := where' old.isOkay new old
  let pred := new.isOkay && old.isEvent
  where' pred old out

end Result
end Verif
