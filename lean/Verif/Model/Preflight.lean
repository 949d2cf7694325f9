import Mathlib.Logic.Basic

/-!
# The checks made before a solve starts

`diffeqsolve` looks at the classes of the solver, of the step size controller and of the paths inside the
terms, refuses combinations that cannot work, and copies the tolerances of the controller to the root
finder of the solver. This file models

* `diffrax/_heuristics.py` 21-46: `is_sde`, `is_unsafe_sde`, `is_cde`;
* `diffrax/_solver/base.py` 44-52: what `isinstance` means for solvers, and the class statements of
  all solvers of the library;
* `diffrax/_integrate.py` 1136-1154: the checks for stochastic equations;
* `diffrax/_integrate.py` 1178-1219: the tolerances of implicit solvers;
* `diffrax/_root_finder/_with_tols.py` 70-81: root finders without tolerances of their own;
* `diffrax/_step_size_controller/clip.py` 175-185, 216-220: the tolerances of a clipped controller, and the
  controllers that can be clipped;
* `diffrax/_adjoint.py` 277-282, 362-389, 826-846, 904-910: what the adjoints check and what they change
  in the solver.

Simplified: a PyTree is a tree whose nodes carry the only fact about their class that is looked at, namely
which kind of path it is. Tolerances and norms are values of one type `V`. Classes written by users are
not modelled, except through the paths.
-/

namespace Verif.Preflight

/-- The classes of PyTree nodes that are told apart: `AbstractPath` (`_path.py` 20),
`AbstractBrownianPath` (`_brownian/base.py` 19) and `UnsafeBrownianPath` (`_brownian/path.py` 30), each a
subclass of the one before. -/
inductive Kind
  | other
  | path
  | brownian
  | unsafeBrownian
  deriving DecidableEq

/-- A PyTree: leaves (arrays, functions) and nodes (modules, tuples, …) with their children. Static fields
are not children. -/
inductive PyTree
  | leaf
  | node (k : Kind) (children : List PyTree)

/-- `_is_brownian`, `_heuristics.py` 21-22. -/
def isBrownian : PyTree → Bool
  | .node .brownian _ => true
  | .node .unsafeBrownian _ => true
  | _ => false

/-- `_is_unsafe_brownian`, `_heuristics.py` 25-26. -/
def isUnsafeBrownian : PyTree → Bool
  | .node .unsafeBrownian _ => true
  | _ => false

/-- `_is_path`, `_heuristics.py` 29-30. -/
def isPath : PyTree → Bool
  | .node .other _ => false
  | .node _ _ => true
  | .leaf => false

mutual
/-- `jtu.tree_flatten(tree, is_leaf=p)[0]`. -/
def flatten (p : PyTree → Bool) : PyTree → List PyTree
  | .leaf => [.leaf]
  | .node k cs => if p (.node k cs) then [.node k cs] else flattenAll p cs
/-- The leaves of the children of a node. -/
def flattenAll (p : PyTree → Bool) : List PyTree → List PyTree
  | [] => []
  | t :: ts => flatten p t ++ flattenAll p ts
end

/-- `is_sde`, `_heuristics.py` 33-35. -/
def isSde (terms : PyTree) : Bool := (flatten isBrownian terms).any isBrownian

/-- `is_unsafe_sde`, `_heuristics.py` 38-40. -/
def isUnsafeSde (terms : PyTree) : Bool := (flatten isUnsafeBrownian terms).any isUnsafeBrownian

/-- `is_cde`, `_heuristics.py` 43-45. -/
def isCde (terms : PyTree) : Bool := (flatten isPath terms).any fun l => isPath l && !isBrownian l

/-- The solver classes of the library, abstract ones first. -/
inductive Cls
  | solver | implicit | ito | stratonovich | adaptive | wrapped | rungeKutta | erk | dirk | sdirk | esdirk
  | srk | langevin
  | half
  | align | bosh3 | dopri5 | dopri8 | euler | eulerHeun | heun | implicitEuler | kencarp3 | kencarp4
  | kencarp5 | kvaerno3 | kvaerno4 | kvaerno5 | leapfrog | midpoint | stratMilstein | itoMilstein
  | quicsort | ralston | reversibleHeun | sea | semiImplicit | shark | generalShark | should | sil3
  | slowrk | spark | sra1 | tsit5
  deriving DecidableEq

/-- The class statements: `_solver/base.py` 72-252, `runge_kutta.py` 342-1244, `srk.py` 207,
`foster_langevin_srk.py` 101, and one line in the file of every solver. -/
def bases : Cls → List Cls
  | .solver => []
  | .implicit | .ito | .stratonovich | .adaptive | .wrapped | .srk => [.solver]
  | .rungeKutta => [.adaptive]
  | .erk => [.rungeKutta]
  | .dirk => [.rungeKutta, .implicit]
  | .sdirk | .esdirk => [.dirk]
  | .langevin => [.stratonovich]
  | .half => [.adaptive, .wrapped]
  | .align => [.langevin, .adaptive]
  | .bosh3 | .dopri5 | .dopri8 | .tsit5 => [.erk]
  | .euler => [.ito]
  | .eulerHeun => [.stratonovich]
  | .heun | .midpoint | .ralston => [.erk, .stratonovich]
  | .implicitEuler => [.implicit, .adaptive]
  | .kencarp3 | .kencarp4 | .kencarp5 | .sil3 => [.rungeKutta, .implicit]
  | .kvaerno3 | .kvaerno4 | .kvaerno5 => [.esdirk]
  | .leapfrog | .semiImplicit => [.solver]
  | .stratMilstein => [.stratonovich]
  | .itoMilstein => [.ito]
  | .quicsort | .should => [.langevin]
  | .reversibleHeun => [.adaptive, .stratonovich]
  | .sea | .shark | .generalShark | .slowrk | .sra1 => [.srk, .stratonovich]
  | .spark => [.srk, .stratonovich, .adaptive]

/-- `issubclass`, following the class statements at most `n` levels up. -/
def subFuel : Nat → Cls → Cls → Bool
  | 0, c, d => c == d
  | n + 1, c, d => c == d || (bases c).any fun b => subFuel n b d

/-- `issubclass(c, d)`. Six levels are enough for the classes of the library (`issub_iff`). -/
def issub (c d : Cls) : Bool := subFuel 6 c d

/-- The value of one of the attributes `rtol`, `atol`, `norm` of a root finder. -/
inductive Attr (V : Type)
  /-- no such attribute -/
  | missing
  /-- `use_stepsize_tol`, `_with_tols.py` 14 -/
  | stepsize
  | val (v : V)
  deriving DecidableEq

/-- A root finder, up to its attributes `rtol`, `atol` and `norm`. -/
structure RootFinder (V : Type) where
  rtol : Attr V
  atol : Attr V
  norm : Attr V
  deriving DecidableEq

/-- `with_stepsize_controller_tols(cls)()`, `_with_tols.py` 70-81. -/
def withTols (V : Type) : RootFinder V := ⟨.stepsize, .stepsize, .stepsize⟩

/-- The values of `scan_kind`. -/
inductive Scan
  | lax | checkpointed | bounded
  deriving DecidableEq

/-- The attributes of a solver that are looked at: `root_finder`, if there is one, and `scan_kind`
(`runge_kutta.py` 356, `srk.py` 266), if there is one, which may itself be `None`. -/
structure Fields (V : Type) where
  rootFinder : Option (RootFinder V)
  scanKind : Option (Option Scan)
  deriving DecidableEq

/-- A solver object: an instance of a class, or a `HalfSolver` (`base.py` 250-274) around another solver,
which has neither `root_finder` nor `scan_kind`. -/
inductive Solver (V : Type)
  | base (c : Cls) (f : Fields V)
  | half (s : Solver V)
  deriving DecidableEq

variable {V : Type}

/-- `type(obj)`. -/
def Solver.cls : Solver V → Cls
  | .base c _ => c
  | .half _ => .half

/-- `_MetaAbstractSolver.__instancecheck__`, `base.py` 44-52: what `isinstance(s, c)` is. -/
def isinstance (s : Solver V) (c : Cls) : Bool :=
  match s with
  | .base k _ => issub k c
  | .half inner => issub .half c || issub inner.cls c

/-- `obj.root_finder`. `none` is the `AttributeError`. -/
def Solver.rootFinder : Solver V → Option (RootFinder V)
  | .base _ f => f.rootFinder
  | .half _ => none

/-- `obj.scan_kind`. `none` is the `AttributeError`. -/
def Solver.scanKind : Solver V → Option (Option Scan)
  | .base _ f => f.scanKind
  | .half _ => none

/-- The step size controllers of the library. -/
inductive Ctrl (V : Type)
  | constant
  | stepTo
  | pid (rtol atol norm : V)
  | clip (inner : Ctrl V)
  deriving DecidableEq

/-- `isinstance(c, AbstractAdaptiveStepSizeController)`: the class statements `constant.py` 20, 113,
`pid.py` 109, `clip.py` 120. -/
def Ctrl.adaptive : Ctrl V → Bool
  | .constant => false
  | .stepTo => false
  | .pid .. => true
  | .clip _ => true

/-- `c.rtol`: a field of `PIDController`, a property of `ClipStepSizeController` (`clip.py` 179-181).
`none` is the `AttributeError`. -/
def Ctrl.rtol : Ctrl V → Option V
  | .pid r _ _ => some r
  | .clip c => c.rtol
  | _ => none

/-- `c.atol`, `clip.py` 175-177. -/
def Ctrl.atol : Ctrl V → Option V
  | .pid _ a _ => some a
  | .clip c => c.atol
  | _ => none

/-- `c.norm`, `clip.py` 183-185. -/
def Ctrl.norm : Ctrl V → Option V
  | .pid _ _ n => some n
  | .clip c => c.norm
  | _ => none

/-- The exceptions raised by the checks. -/
inductive Err
  /-- `_integrate.py` 1146: adaptive steps with Euler's method for a stochastic equation -/
  | sdeEuler
  /-- `_integrate.py` 1152: adaptive steps with `UnsafeBrownianPath` -/
  | unsafeAdaptive
  /-- `_integrate.py` 1196: an implicit solver without tolerances and fixed steps -/
  | noTols
  /-- `clip.py` 217: clipping a controller that is not adaptive -/
  | clipFixed
  /-- `_adjoint.py` 278, 827 -/
  | adjointUnsafe
  /-- `_adjoint.py` 833: `BacksolveAdjoint` with an Itô solver -/
  | adjointIto
  /-- `AttributeError` -/
  | attribute
  deriving DecidableEq

/-- `ClipStepSizeController(c)`, `clip.py` 216-220. -/
def mkClip (c : Ctrl V) : Except Err (Ctrl V) :=
  if c.adaptive then .ok (.clip c) else .error .clipFixed

/-- The checks for stochastic equations, `_integrate.py` 1136-1154. The result tells whether there was a
warning that the solver is not marked as converging to the Itô or the Stratonovich solution. -/
def sdeChecks (terms : PyTree) (s : Solver V) (c : Ctrl V) : Except Err Bool :=
  let warned := isSde terms && !(isinstance s .ito || isinstance s .stratonovich)
  if isSde terms && c.adaptive && isinstance s .euler then .error .sdeEuler
  else if isUnsafeSde terms && c.adaptive then .error .unsafeAdaptive
  else .ok warned

/-- One round of the loop of `_get_tols` together with the replacement by `eqx.tree_at`,
`_integrate.py` 1182-1194: the attribute of the root finder that holds `use_stepsize_tol` becomes that of
the controller. -/
def copyTol (own : Attr V) (ctrl : Option V) : Except Err (Attr V) :=
  match own, ctrl with
  | .missing, _ => .error .attribute
  | .stepsize, some v => .ok (.val v)
  | .stepsize, none => .error .attribute
  | .val v, _ => .ok (.val v)

/-- One round of the loop of `_get_tols` for a controller that is not adaptive, `_integrate.py` 1182-1189:
does the attribute hold `use_stepsize_tol`? -/
def unset (own : Attr V) : Except Err Bool :=
  match own with
  | .missing => .error .attribute
  | .stepsize => .ok true
  | .val _ => .ok false

/-- `eqx.tree_at(lambda s: … s.root_finder …, solver, …)`. -/
def Solver.setRootFinder : Solver V → RootFinder V → Solver V
  | .base c f, r => .base c { f with rootFinder := some r }
  | .half s, _ => .half s

/-- The tolerances of implicit solvers, `_integrate.py` 1178-1219: the solver used for the solve. -/
def setTols (s : Solver V) (c : Ctrl V) : Except Err (Solver V) :=
  if isinstance s .implicit then
    match s.rootFinder with
    | none => .error .attribute
    | some r =>
      if c.adaptive then do
        let rtol ← copyTol r.rtol c.rtol
        let atol ← copyTol r.atol c.atol
        let norm ← copyTol r.norm c.norm
        .ok (s.setRootFinder ⟨rtol, atol, norm⟩)
      else do
        let b₁ ← unset r.rtol
        let b₂ ← unset r.atol
        let b₃ ← unset r.norm
        if b₁ || b₂ || b₃ then .error .noTols else .ok s
  else .ok s

/-- The adjoints that look at the terms or at the solver. -/
inductive Adj
  | recursiveCheckpoint
  | direct
  | backsolve
  | forward
  deriving DecidableEq

/-- `eqx.tree_at(lambda s: s.scan_kind, solver, kind)`. -/
def Solver.setScanKind : Solver V → Scan → Solver V
  | .base c f, k => .base c { f with scanKind := some (some k) }
  | .half s, _ => .half s

/-- `_adjoint.py` 383-389, 906-910: a Runge-Kutta solver without a `scan_kind` of its own gets one that can
be differentiated in forward mode. -/
def setScan (k : Scan) (s : Solver V) : Except Err (Solver V) :=
  if isinstance s .rungeKutta || isinstance s .srk then
    match s.scanKind with
    | none => .error .attribute
    | some none => .ok (s.setScanKind k)
    | some (some _) => .ok s
  else .ok s

/-- What an adjoint checks and changes: `RecursiveCheckpointAdjoint` (`_adjoint.py` 277-282),
`DirectAdjoint` (383-389), `BacksolveAdjoint` (826-846) and `ForwardMode` (904-910). The Boolean is the
warning of `BacksolveAdjoint`. -/
def adjointChecks (a : Adj) (terms : PyTree) (s : Solver V) : Except Err (Bool × Solver V) :=
  match a with
  | .recursiveCheckpoint => if isUnsafeSde terms then .error .adjointUnsafe else .ok (false, s)
  | .direct => (setScan .bounded s).map fun s => (false, s)
  | .backsolve =>
    if isUnsafeSde terms then .error .adjointUnsafe
    else if isSde terms && isinstance s .ito then .error .adjointIto
    else .ok (isSde terms && !isinstance s .stratonovich, s)
  | .forward => (setScan .lax s).map fun s => (false, s)

/-- All the checks, in the order in which they are made: the result is whether there was a warning, and
the solver used for the solve. -/
def preflight (a : Adj) (terms : PyTree) (s : Solver V) (c : Ctrl V) : Except Err (Bool × Solver V) := do
  let w ← sdeChecks terms s c
  let s ← setTols s c
  let (w', s) ← adjointChecks a terms s
  .ok (w || w', s)

end Verif.Preflight
