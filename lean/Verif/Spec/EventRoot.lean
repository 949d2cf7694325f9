import Verif.Model.Loop

/-!
# Where an event should be located

An event with a real-valued condition happens where its condition vanishes; an event with a boolean condition
happens at the end of the step on which the condition became true. Other conditions play no role.
-/

namespace Verif

variable {T Y F : Type} [LinearOrder T] [LinearOrder F] [Zero F]

/-- The condition `e` locates the event at time `t`, on a step that ends at `t1` and is interpolated by `ip`. -/
def EventCond.LocatedAt (e : EventCond T Y F) (ip : T → Y) (t1 t : T) : Prop :=
  match e with
  | .bool _ => t = t1
  | .flt c _ => c t (ip t) = 0

/-- A root finder that claims success returns a root: all values of the function it was given are zero there. -/
def FindsRoots (f : (T → List F) → T → T → T × Option Result) : Prop :=
  ∀ g a b, (f g a b).2 = none → ∀ x ∈ g (f g a b).1, x = 0

/-- A root finder that finds a root between the ends if there is one. -/
def FindsIfAny (f : (T → List F) → T → T → T × Option Result) : Prop :=
  ∀ g a b, (∃ t, a ≤ t ∧ t ≤ b ∧ ∀ x ∈ g t, x = 0) → (f g a b).2 = none

end Verif
