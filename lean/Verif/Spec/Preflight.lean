import Verif.Model.Preflight
import Mathlib.Logic.Relation

/-!
# What the checks before a solve should do

The terms are a stochastic equation if a Brownian path occurs anywhere among them. A wrapped solver is
whatever the solver inside is, however often it is wrapped: `AbstractWrappedSolver` (`_solver/base.py`
236-247) promises that "all `isinstance` checks will be forwarded on to the wrapped solver". A root finder
without tolerances takes those of the controller.
-/

namespace Verif.Preflight

/-- A node whose class satisfies `q` occurs somewhere in the tree. -/
inductive Contains (q : Kind → Prop) : PyTree → Prop
  | here {k : Kind} {cs : List PyTree} : q k → Contains q (.node k cs)
  | child {k : Kind} {cs : List PyTree} {t : PyTree} : t ∈ cs → Contains q t → Contains q (.node k cs)

/-- A stochastic equation: some path is Brownian. -/
def Stochastic (t : PyTree) : Prop := Contains (fun k => k = .brownian ∨ k = .unsafeBrownian) t

/-- Some path is an `UnsafeBrownianPath`. -/
def UsesUnsafe (t : PyTree) : Prop := Contains (fun k => k = .unsafeBrownian) t

/-- Some path, which is not part of another path, is not Brownian. -/
inductive Controlled : PyTree → Prop
  | here {cs : List PyTree} : Controlled (.node .path cs)
  | child {cs : List PyTree} {t : PyTree} : t ∈ cs → Controlled t → Controlled (.node .other cs)

/-- `c` inherits from `d`, directly or not, or is `d`. -/
def Sub (c d : Cls) : Prop := Relation.ReflTransGen (fun c b => b ∈ bases c) c d

variable {V : Type}

/-- What `isinstance` is documented to be: wrappers are transparent. -/
def Solver.Is : Solver V → Cls → Prop
  | .base k _, c => Sub k c
  | .half s, c => Sub .half c ∨ s.Is c

/-- How often a solver is wrapped. -/
def Solver.depth : Solver V → Nat
  | .base _ _ => 0
  | .half s => s.depth + 1

/-- The solver that makes the steps in the end. -/
def Solver.core : Solver V → Cls × Fields V
  | .base c f => (c, f)
  | .half s => s.core

/-- The solvers that Python lets one build: the innermost one is an instance of one of the concrete
classes, has a root finder if it is implicit, and a `scan_kind` if it is a Runge-Kutta method. -/
structure Solver.Built (s : Solver V) : Prop where
  notHalf : ¬ Sub s.core.1 .wrapped
  root : Sub s.core.1 .implicit → s.core.2.rootFinder.isSome
  scan : Sub s.core.1 .rungeKutta ∨ Sub s.core.1 .srk → s.core.2.scanKind.isSome

/-- The controllers that Python lets one build: only adaptive controllers are clipped. -/
inductive Ctrl.Built : Ctrl V → Prop
  | constant : Ctrl.Built .constant
  | stepTo : Ctrl.Built .stepTo
  | pid (r a n : V) : Ctrl.Built (.pid r a n)
  | clip {c c' : Ctrl V} : Ctrl.Built c → mkClip c = .ok c' → Ctrl.Built c'

/-- The tolerances `r`, `a` and the norm `n` were given to the `PIDController` inside `c`. -/
inductive Ctrl.Tols : Ctrl V → V → V → V → Prop
  | pid (r a n : V) : Ctrl.Tols (.pid r a n) r a n
  | clip {c : Ctrl V} {r a n : V} : Ctrl.Tols c r a n → Ctrl.Tols (.clip c) r a n

/-- What an attribute of the root finder should become: its own value if it has one, and the value `v` of
the controller if it was left to the controller. -/
def Attr.filled (own : Attr V) (v : V) : Attr V :=
  match own with
  | .stepsize => .val v
  | a => a

/-- The attribute has a value. -/
def Attr.Given (a : Attr V) : Prop := ∃ v, a = .val v

/-- The root finder has values for all of its attributes. -/
def RootFinder.Given (r : RootFinder V) : Prop := r.rtol.Given ∧ r.atol.Given ∧ r.norm.Given

/-- The root finder has all three attributes. -/
def RootFinder.Complete (r : RootFinder V) : Prop := r.rtol ≠ .missing ∧ r.atol ≠ .missing ∧ r.norm ≠ .missing

end Verif.Preflight
