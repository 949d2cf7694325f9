import Mathlib.Data.List.Basic
import Mathlib.Algebra.Field.Basic

/-! # Specifications for interpolation and filling of missing data -/

namespace Verif

variable {α K : Type}

/-- The last value that is present. -/
def lastSome (l : List (Option α)) : Option α := (l.filterMap id).getLast?

/-- The observations in a list of (time, value-or-missing). -/
def observations (l : List (K × Option K)) : List (K × K) :=
  l.filterMap (fun p => p.2.map (fun y => (p.1, y)))

/-- The straight line through two points. -/
def line [Field K] (p q : K × K) (t : K) : K := p.2 + (q.2 - p.2) * (t - p.1) / (q.1 - p.1)

/-- The slope required at knot `i`: the difference quotient of the preceding segment; at the first knot
the user's `deriv0`, or else the difference quotient of the first segment. -/
def knotSlope [Field K] (ts vs : List K) (deriv0 : Option K) : Nat → K
  | 0 => deriv0.getD ((vs.getD 1 0 - vs.getD 0 0) / (ts.getD 1 0 - ts.getD 0 0))
  | i + 1 => (vs.getD (i + 1) 0 - vs.getD i 0) / (ts.getD (i + 1) 0 - ts.getD i 0)

end Verif
