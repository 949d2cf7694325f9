/-!
# Type arguments of generic classes (`_typing.py`)

Classes are numbers, in the order of their definition; `0` is `Generic` and `1` is `Protocol`. Type arguments are type variables,
`Any`, or other types, into which the code does not look.
-/

namespace Verif.Typing

inductive Arg (α : Type) where
  | any
  | tvar (v : Nat)
  | ty (a : α)
deriving DecidableEq, Repr

/-- A base class in a class statement: `D` or `D[args]`. -/
inductive Base (α : Type) where
  | cls (d : Nat)
  | sub (d : Nat) (args : List (Arg α))
deriving DecidableEq, Repr

def Base.class : Base α → Nat
  | .cls d => d
  | .sub d _ => d

def Base.isSub : Base α → Bool
  | .cls _ => false
  | .sub _ _ => true

/-- An annotation: a class, a subscripted class, `Annotated[a, ...]` (with what `typing.get_args` gives for it), a union, or
something else such as `Literal`. -/
inductive Ann (α : Type) where
  | cls (c : Nat)
  | sub (c : Nat) (args : List (Arg α))
  | annotated (a : Ann α) (args : List (Arg α))
  | union
  | special
deriving Repr

/-- What Python knows about a class: `__parameters__` (if there is such an attribute, `generic`), the bases as they are written, and
`__mro__`. -/
structure ClassDef (α : Type) where
  generic : Bool
  params : List Nat
  bases : List (Base α)
  mro : List Nat

abbrev Hier (α : Type) := Nat → ClassDef α

inductive Err where
  | notImplemented
  | typeError
  | assertion
deriving DecidableEq, Repr

/-- `issubclass`. -/
def isSubclass (H : Hier α) (c b : Nat) : Bool := (H c).mro.contains b

/-- Classes with a subscripted base have an attribute `__orig_bases__` of their own. -/
def hasOwn (H : Hier α) (c : Nat) : Bool := (H c).bases.any Base.isSub

/-- `cls.__orig_bases__`. Like any attribute it is inherited, from the first class in the method resolution order that has it. -/
def origBases (H : Hier α) (c : Nat) : List (Base α) :=
  match (H c).mro.find? (hasOwn H) with
  | some e => (H e).bases
  | none => []

/-- `get_origin_no_specials` (`_typing.py` 52-76). -/
def getOrigin : Ann α → Except Err (Option Nat)
  | .union => .error .notImplemented
  | .annotated a _ => getOrigin a
  | .cls _ => .ok none
  | .sub c _ => .ok (some c)
  | .special => .error .notImplemented

/-- `param_lookup.get(arg, Any) if isinstance(arg, TypeVar) else arg` (149, 165-168). -/
def substArg (params : List Nat) (ps : List (Arg α)) : Arg α → Arg α
  | .tvar v => ((params.zip ps).lookup v).getD .any
  | a => a

/-- The loop over the bases (154-178); `rec` is the recursive call. -/
def collect (H : Hier α) (base : Nat) (params : List Nat) (ps : List (Arg α))
    (rec : Nat → List (Arg α) → Except Err (Option (List (Arg α)))) : List (Base α) → Except Err (List (List (Arg α)))
  | [] => .ok []
  | .cls _ :: l => collect H base params ps rec l
  | .sub d args :: l =>
    if d = 0 ∨ d = 1 then collect H base params ps rec l
    else if isSubclass H d base then
      match rec d (args.map (substArg params ps)) with
      | .error e => .error e
      | .ok none => collect H base params ps rec l
      | .ok (some r) =>
        match collect H base params ps rec l with
        | .error e => .error e
        | .ok rs => .ok (r :: rs)
    else collect H base params ps rec l

/-- `_get_args_of_impl` (143-190). The number bounds the depth of the recursion; base classes are defined earlier, so that the
number of the class is enough. -/
def getArgsImpl [DecidableEq α] (H : Hier α) (base : Nat) : Nat → Nat → List (Arg α) → Except Err (Option (List (Arg α)))
  | 0, _, _ => .error .assertion
  | n + 1, c, ps =>
    if c = base then .ok (some ps)
    else if (H c).params.length ≠ ps.length then .error .assertion
    else
      match collect H base (H c).params ps (getArgsImpl H base n) (origBases H c) with
      | .error e => .error e
      | .ok [] => .ok none
      | .ok (r :: rs) => if rs.all (· == r) then .ok (some r) else .error .typeError

def Arg.close : Arg α → Arg α
  | .tvar _ => .any
  | a => a

/-- `get_args_of` (79-140). -/
def getArgsOf [DecidableEq α] (H : Hier α) (base : Nat) (a : Ann α) : Except Err (List (Arg α)) :=
  if (H base).generic = false then .error .typeError
  else
    match getOrigin a with
    | .error e => .error e
    | .ok origin =>
      let target : Except Err (Nat × List (Arg α)) :=
        match a, origin with
        | .cls c, _ => .ok (c, List.replicate (H c).params.length .any)
        | .sub _ args, some c => .ok (c, args.map Arg.close)
        | .annotated _ args, some c => .ok (c, args.map Arg.close)
        | _, _ => .error .assertion
      match target with
      | .error e => .error e
      | .ok (c, ps) =>
        if isSubclass H c base then
          match getArgsImpl H base (c + 1) c ps with
          | .error e => .error e
          | .ok none => .ok (List.replicate (H base).params.length .any)
          | .ok (some r) => .ok r
        else .error .typeError

end Verif.Typing
