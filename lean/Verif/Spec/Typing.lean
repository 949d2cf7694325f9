import Verif.Model.Typing
import Mathlib.Logic.Relation

/-!
# How a generic class specialises its base classes
-/

namespace Verif.Typing

/-- The type arguments `ps` for the parameters `params`, put in for a type variable; what is not given is `Any`. -/
def fill (params : List Nat) (ps : List (Arg α)) : Arg α → Arg α
  | .tvar v => if v ∈ params then ps.getD (params.idxOf v) .any else .any
  | a => a

/-- `Specialises H c ps b r`: the class `c` with type arguments `ps` is, by its definition and those of its base classes, a `b` with
type arguments `r`. A base class without type arguments has the arguments `Any`. -/
inductive Specialises (H : Hier α) : Nat → List (Arg α) → Nat → List (Arg α) → Prop
  | refl (c ps) : Specialises H c ps c ps
  | sub {c ps d args b r} : Base.sub d args ∈ (H c).bases → Specialises H d (args.map (fill (H c).params ps)) b r →
      Specialises H c ps b r
  | plain {c ps d b r} : Base.cls d ∈ (H c).bases → Specialises H d (List.replicate (H d).params.length .any) b r →
      Specialises H c ps b r

/-- The same, with type arguments written in every class statement on the way. -/
inductive Subscripted (H : Hier α) : Nat → List (Arg α) → Nat → List (Arg α) → Prop
  | refl (c ps) : Subscripted H c ps c ps
  | sub {c ps d args b r} : Base.sub d args ∈ (H c).bases → Subscripted H d (args.map (fill (H c).params ps)) b r →
      Subscripted H c ps b r

/-- `d` is one of the base classes of `c`. -/
def IsBase (H : Hier α) (c d : Nat) : Prop := ∃ x ∈ (H c).bases, x.class = d

/-- `c` is `d` or inherits from it. -/
def Inherits (H : Hier α) : Nat → Nat → Prop := Relation.ReflTransGen (IsBase H)

/-- What Python guarantees about classes. -/
structure Hier.WF (H : Hier α) : Prop where
  /-- base classes are defined earlier -/
  earlier : ∀ c d, IsBase H c d → d < c
  /-- the method resolution order consists of the class and what it inherits from -/
  mro_mem : ∀ c x, x ∈ (H c).mro ↔ Inherits H c x
  /-- subclasses come first -/
  mro_order : ∀ c, (H c).mro.Pairwise fun x y => ¬ Inherits H y x
  /-- the number of type arguments is right (`Generic` and `Protocol` take any number) -/
  arity : ∀ c d args, Base.sub d args ∈ (H c).bases → d ≠ 0 → d ≠ 1 → args.length = (H d).params.length
  /-- classes get their parameters from the type arguments of their bases -/
  params : ∀ c, (∀ x ∈ (H c).bases, ∃ d, x = .cls d) → (H c).params = []
  /-- `Generic` and `Protocol` -/
  generic : (H 0).bases = []
  protocol : ∀ d, IsBase H 1 d → d = 0

end Verif.Typing
