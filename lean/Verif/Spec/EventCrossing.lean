import Verif.Spec.Loop

/-!
# Crossings of zero between any two states of a solve
-/

namespace Verif

variable {T Y E D S C O F : Type} [LinearOrder T] [LinearOrder F] [Zero F]

/-- Where a solve is. -/
def Core.point (s : Core T Y D S C F) : T × Y := (s.tprev, s.y)

/-- No event should have happened between two states, whatever happened between them: the sign is the same, or there is no
upcrossing, or no downcrossing; a boolean condition is not true. -/
def EventCond.Quiet (e : EventCond T Y F) (p q : T × Y) : Prop :=
  match e with
  | .bool c => c q.1 q.2 = false
  | .flt c none => (c p.1 p.2 < 0 ↔ c q.1 q.2 < 0) ∧ (0 < c p.1 p.2 ↔ 0 < c q.1 q.2)
  | .flt c (some true) => ¬ (c p.1 p.2 ≤ 0 ∧ 0 < c q.1 q.2)
  | .flt c (some false) => ¬ (0 < c p.1 p.2 ∧ c q.1 q.2 ≤ 0)

end Verif
