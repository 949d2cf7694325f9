import Mathlib.Logic.Basic

/-!
# Are the terms those that the solver expects?

`_assert_term_compatible` (`diffrax/_integrate.py` 119-218), `better_isinstance` (`diffrax/_typing.py`
34-50), `_term_compatible_contr_kwargs` (`diffrax/_solver/base.py` 60-69) and the conversion of pairs of
terms to `MultiTerm` (`diffrax/_integrate.py` 1102-1126).

Classes are numbers, with `inst` for `issubclass`; values are of a type `τ`, with `val` for `isinstance`.
What is known of a term is its class, the value of its vector field for each part of the state, and the
value of its control, with and without Lévy area. Simplified: the PyTrees of term classes are tuples, the
dictionary of keyword arguments is whether `use_levy=True` is in it, and the type arguments of a term class
(`get_args_of`, see `Model/Typing`) are part of the expected structure. They are always two, since those of
the unsubscripted `AbstractTerm` are `(Any, Any)` (`_typing.py` 120-123).
-/

namespace Verif.Compat

/-- Exceptions. -/
inductive Err
  /-- `TermAndSolverIncompatible` -/
  | incompatible
  /-- a bare `AssertionError` -/
  | assertion
  /-- `NotImplementedError`, `_typing.py` 48 -/
  | notImplemented
  /-- an exception raised by the vector field or the control -/
  | user
  deriving DecidableEq

/-- A type annotation: `Any`, a class, a subscripted class, a union, or something else. -/
inductive Annot
  | any
  | cls (c : Nat)
  | generic (origin : Nat)
  | union (l : List Annot)
  | special

/-- What Python knows: `issubclass` for term classes and `isinstance` for values. -/
structure World (τ : Type) where
  inst : Nat → Nat → Bool
  val : τ → Nat → Bool

variable {τ : Type}

mutual
/-- `better_isinstance`, `_typing.py` 34-50. -/
def betterIsinstance (W : World τ) (x : τ) : Annot → Except Err Bool
  | .union l => anyInstance W x l
  | .generic c => .ok (W.val x c)
  | .any => .ok true
  | .cls c => .ok (W.val x c)
  | .special => .error .notImplemented
/-- `any(better_isinstance(x, arg) for arg in …)`. -/
def anyInstance (W : World τ) (x : τ) : List Annot → Except Err Bool
  | [] => .ok false
  | a :: l =>
    match betterIsinstance W x a with
    | .error e => .error e
    | .ok true => .ok true
    | .ok false => anyInstance W x l
end

/-- The state: an array or a tuple. -/
inductive State
  | array (n : Nat)
  | tuple (l : List State)

/-- `term_structure`: a class with its two type arguments, `MultiTerm[tuple[…]]`, or a tuple. -/
inductive Struct
  | cls (c : Nat) (vf contr : Annot)
  | multi (l : List Struct)
  | tuple (l : List Struct)

/-- The class, vector field and control of a term. -/
structure Info (τ : Type) where
  cls : Nat
  vf : State → Except Err τ
  contr : Bool → Except Err τ

/-- What is passed as `terms`: a term, a `MultiTerm`, a tuple, or something that is no term. -/
inductive Terms (τ : Type)
  | term (i : Info τ)
  | multi (i : Info τ) (l : List (Terms τ))
  | tuple (l : List (Terms τ))
  | other

/-- The keyword arguments for `contr`. -/
inductive Kwargs
  | dict (levy : Bool)
  | tuple (l : List Kwargs)

mutual
/-- `_term_compatible_contr_kwargs`, `_solver/base.py` 60-69. -/
def kwargsOf : Struct → Kwargs
  | .cls _ _ _ => .dict false
  | .multi l => .tuple (kwargsAll l)
  | .tuple l => .tuple (kwargsAll l)
def kwargsAll : List Struct → List Kwargs
  | [] => []
  | s :: l => kwargsOf s :: kwargsAll l
end

mutual
/-- Does `jtu.tree_map(lambda *a: None, term_structure, terms, contr_kwargs, y)` work, `_integrate.py`
196-197? The structure has to be a prefix of the other trees. -/
def prefixOk : Struct → Terms τ → Kwargs → State → Bool
  | .tuple l, .tuple ts, .tuple ks, .tuple ys => prefixAll l ts ks ys
  | .tuple _, _, _, _ => false
  | _, _, _, _ => true
def prefixAll : List Struct → List (Terms τ) → List Kwargs → List State → Bool
  | [], [], [], [] => true
  | s :: l, t :: ts, k :: ks, y :: ys => prefixOk s t k y && prefixAll l ts ks ys
  | _, _, _, _ => false
end

/-- The class, vector field and control, if this is a term. -/
def Terms.info? : Terms τ → Option (Info τ)
  | .term i => some i
  | .multi i _ => some i
  | _ => none

/-- `_check` for a class, `_integrate.py` 148-193. -/
def checkLeaf (W : World τ) (c : Nat) (va ca : Annot) (t : Terms τ) (levy : Bool) (y : State) :
    Except Err Unit :=
  match t.info? with
  | none => .error .incompatible
  | some i =>
    if W.inst i.cls c then do
      let v ← i.vf y
      if ← betterIsinstance W v va then do
        let u ← i.contr levy
        if ← betterIsinstance W u ca then .ok () else .error .incompatible
      else .error .incompatible
    else .error .incompatible

mutual
/-- `jtu.tree_map(_check, term_structure, terms, contr_kwargs, y)`, `_integrate.py` 131-193, 206-208. A
tuple of keyword arguments for a class cannot be used as `**kwargs`. -/
def check (W : World τ) : Struct → Terms τ → Kwargs → State → Except Err Unit
  | .cls c va ca, t, .dict levy, y => checkLeaf W c va ca t levy y
  | .cls _ _ _, _, .tuple _, _ => .error .user
  | .multi l, .multi _ ts, k, y =>
    if ts.length = l.length then
      match k with
      | .tuple ks => if ts.length = ks.length then checkMulti W l ts ks y else .error .assertion
      | .dict _ => .error .assertion
    else .error .assertion
  | .multi _, _, _, _ => .error .incompatible
  | .tuple l, .tuple ts, .tuple ks, .tuple ys => checkTuple W l ts ks ys
  | .tuple _, _, _, _ => .error .incompatible
/-- The loop over the terms of a `MultiTerm`, `_integrate.py` 139-142, with the check of the structure at
the beginning of the recursive call, 195-205. -/
def checkMulti (W : World τ) : List Struct → List (Terms τ) → List Kwargs → State → Except Err Unit
  | s :: l, t :: ts, k :: ks, y =>
    if prefixOk s t k y then
      match check W s t k y with
      | .error e => .error e
      | .ok () => checkMulti W l ts ks y
    else .error .incompatible
  | _, _, _, _ => .ok ()
/-- `jtu.tree_map` over a tuple. -/
def checkTuple (W : World τ) : List Struct → List (Terms τ) → List Kwargs → List State → Except Err Unit
  | s :: l, t :: ts, k :: ks, y :: ys =>
    match check W s t k y with
    | .error e => .error e
    | .ok () => checkTuple W l ts ks ys
  | _, _, _, _ => .ok ()
end

/-- `_assert_term_compatible`, `_integrate.py` 119-218. -/
def assertCompatible (W : World τ) (s : Struct) (t : Terms τ) (k : Kwargs) (y : State) : Except Err Unit :=
  if prefixOk s t k y then check W s t k y else .error .incompatible

/-- `_integrate.py` 1102-1135 for `EulerHeun`, `ItoMilstein` and `StratonovichMilstein`, whose
`term_structure` is `s`: a pair of an `ODETerm` and another term is replaced by their `MultiTerm`, with a
warning, then the terms are checked. `ode` is the class `ODETerm` and its type arguments, `anyTerm` that of
`AbstractTerm`, `mk` the constructor of `MultiTerm`. The result is whether there was a warning, and the
terms used in the solve. -/
def convertPair (W : World τ) (mk : List (Terms τ) → Terms τ) (ode anyTerm s : Struct) (t : Terms τ)
    (y : State) : Except Err (Bool × Terms τ) :=
  match assertCompatible W (.tuple [ode, anyTerm]) t (kwargsOf s) y with
  | .ok () =>
    match t with
    | .tuple l => (assertCompatible W s (mk l) (kwargsOf s) y).map fun _ => (true, mk l)
    | _ => .error .user
  | .error _ => (assertCompatible W s t (kwargsOf s) y).map fun _ => (false, t)

end Verif.Compat
