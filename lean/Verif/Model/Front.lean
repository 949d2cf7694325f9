import Verif.Model.RK
import Verif.Model.Interp
import Verif.Model.Constant
import Verif.Model.Solvers
import Verif.Model.Pid
import Verif.Model.Clip
import Mathlib.Algebra.Order.Ring.Defs
import Mathlib.Data.Int.Cast.Basic

/-!
# Model of the front end: `diffeqsolve` (`/repo/diffrax/_integrate.py` 890-1543), `WrapTerm`
(`_term.py` 734-764), `SubSaveAt`/`SaveAt` construction (`_saveat.py`), automatic first step sizes
(`_step_size_controller/pid.py` 33-81, 317-380)

Simplifications:
* exact arithmetic in a ring `T` of times; `t1 - 100 ULP` and the midpoint are functions, as in `Loop.lean`;
* the pytree of terms is a family indexed by `Fin m`; which Python class a term has is a field;
* raising is `Except.error`; run-time errors (`eqxi.error_if`) and Python exceptions are not distinguished,
  and the first one in program order is returned;
* dtype promotion, deprecation shims, `_assert_term_compatible`, warnings and `adjoint` are left out.
-/

namespace Verif

variable {T Y VF Ct E D S C O F : Type} {m : Nat}

/-- The Python class of a term. -/
inductive TermClass where
  | ode | control | wrap
deriving DecidableEq

/-- A term together with its class. -/
structure KTerm (T Y VF Ct : Type) extends Term T Y VF Ct where
  cls : TermClass

/-- `WrapTerm` (`_term.py` 734-764). -/
def wrapTerm [Ring T] [AddCommGroup Ct] (dir : Int) (k : KTerm T Y VF Ct) : KTerm T Y VF Ct where
  vf t y := k.vf (t * dir) y
  contr t0 t1 :=
    let t0' := if dir = 1 then t0 else -t1
    let t1' := if dir = 1 then t1 else -t0
    dir • k.contr t0' t1'
  prod := k.prod
  vfProd t y c := k.vfProd (t * dir) y c
  vfExpensive := k.vfExpensive
  cls := .wrap

/-- What can go wrong before the loop starts. -/
inductive FrontError where
  | dt0Sign | tsNotMonotone | tsOutOfRange | stepToNotMonotone | stepToTooShort | stepToEnds | dt0Given
  | dt0Missing | emptySaveAt | subsAndFields | stepsNeedMaxSteps | denseNeedsMaxSteps
deriving DecidableEq

/-- A solver class: how it is initialised and how it steps, given the terms. -/
structure SolverClass (m : Nat) (T Y VF Ct E D S : Type) where
  init : (Fin m → Term T Y VF Ct) → T → T → Y → S
  step : (Fin m → Term T Y VF Ct) → (t0 t1 : T) → (y0 : Y) → S → Bool → StepOut Y E D S
  interp : (t0 t1 : T) → (dense : D) → (t : T) → Y
  /-- an all-zeros `dense_info` -/
  dummy : D

/-- A step size controller after `wrap`: its `init` sees the terms. -/
structure WrappedController (m : Nat) (T Y VF Ct E C : Type) where
  init : (Fin m → KTerm T Y VF Ct) → (t0 t1 : T) → Y → (dt0 : Option T) → Except FrontError (T × C)
  ctrl : Controller T Y E C

/-- The arguments of `diffeqsolve` (890-912). -/
structure Problem (m : Nat) (T Y VF Ct E D S C O F : Type) where
  terms : Fin m → KTerm T Y VF Ct
  solver : SolverClass m T Y VF Ct E D S
  /-- `stepsize_controller.wrap` -/
  controller : Int → Except FrontError (WrappedController m T Y VF Ct E C)
  t0 : T
  t1 : T
  dt0 : Option T
  y0 : Y
  subs : List (SubSaveAt T Y O)
  dense : Bool
  events : List (EventCond T Y F)
  rootFinder : Option ((T → List F) → T → T → T × Option Result)
  dist : T → T → F
  maxSteps : Nat
  cleanErr : E → E
  floorOf : T → T
  mid : T → T → T
  solverState : Option S := none
  ctrlState : Option C := none
  madeJump : Option Bool := none

/-- What `diffeqsolve` returns (1514-1543). -/
structure Sol (T Y D S C O F : Type) where
  t0 : T
  t1 : T
  saved : List (List (Slot T O))
  interpolation : DenseInterp T Y D
  direction : Int
  numSteps : Nat
  numAccepted : Nat
  numRejected : Nat
  result : Result
  solverState : S
  ctrlState : C
  madeJump : Bool
  eventMask : List Bool

/-- `direction * t` on one entry of the output buffers (1480-1482); the padding is symbolic. -/
def Slot.scale [Mul T] (d : T) : Slot T O → Slot T O
  | .val t o => .val (t * d) o
  | .empty => .empty
  | .deleted => .deleted

section
variable [Ring T] [LinearOrder T] [LinearOrder F] [Zero F] [AddCommGroup Ct]

/-- Lines 1157. -/
def Problem.direction (p : Problem m T Y VF Ct E D S C O F) : Int := if p.t0 < p.t1 then 1 else -1

/-- `_check_subsaveat_ts` (1222-1235), on one `ts` after multiplication by the direction. -/
def checkTs (t0 t1 : T) (ts : List T) : Except FrontError Unit :=
  if (List.zipWith (fun a b => decide (b < a)) ts ts.tail).any id then .error .tsNotMonotone
  else if ts.any (fun t => decide (t1 < t) || decide (t < t0)) then .error .tsOutOfRange
  else .ok ()

/-- Lines 1036-1045. -/
def Problem.checkDt0 (p : Problem m T Y VF Ct E D S C O F) : Except FrontError Unit :=
  match p.dt0 with
  | some dt0 => if (p.t1 - p.t0) * dt0 < 0 then .error .dt0Sign else .ok ()
  | none => .ok ()

/-- The end of the first step and the initial state of the controller (1250-1265). -/
def firstStep (controller : WrappedController m T Y VF Ct E C) (terms : Fin m → KTerm T Y VF Ct) (t0 t1 : T)
    (y0 : Y) (dt0 : Option T) (ctrlState : Option C) : Except FrontError (T × C) :=
  match ctrlState with
  | none => controller.init terms t0 t1 y0 dt0
  | some c =>
    match dt0 with
    | none => do
      let r ← controller.init terms t0 t1 y0 none
      pure (r.1, c)
    | some dt0 => pure (t0 + dt0, c)

/-- Everything before the loop (1029-1340): the configuration of the loop, the first proposed end time,
and the initial states. -/
def Problem.setup (p : Problem m T Y VF Ct E D S C O F) :
    Except FrontError (Cfg T Y E D S C O F × T × C × S) := do
  p.checkDt0
  -- 1157-1176
  let direction := p.direction
  let t0 := p.t0 * direction
  let t1 := p.t1 * direction
  let dt0 := p.dt0.map (· * (direction : T))
  let subs := p.subs.map (fun s => { s with ts := s.ts.map (· * (direction : T)) })
  let controller ← p.controller direction
  let terms := fun i => wrapTerm direction (p.terms i)
  -- 1222-1235
  subs.forM (fun s => checkTs t0 t1 s.ts)
  -- 1237-1247; `save_y` ignores the time
  let subs := subs.map (fun s => { s with fn := fun t y => s.fn (direction * t) y })
  let (tnext, ctrl) ← firstStep controller terms t0 t1 p.y0 dt0 p.ctrlState
  let plain : Fin m → Term T Y VF Ct := fun i => (terms i).toTerm
  let solverState := p.solverState.getD (p.solver.init plain t0 (min tnext t1) p.y0)
  let cfg : Cfg T Y E D S C O F :=
    { solver := { step := p.solver.step plain, interp := p.solver.interp }
      controller := controller.ctrl, cleanErr := p.cleanErr, events := p.events
      rootFinder := p.rootFinder, dist := p.dist, dummyDense := p.solver.dummy, t0 := t0, t1 := t1
      floor := p.floorOf t1, mid := p.mid, subs := subs, dense := p.dense, maxSteps := p.maxSteps }
  pure (cfg, tnext, ctrl, solverState)

/-- Lines 1478-1536. -/
def Problem.finish (p : Problem m T Y VF Ct E D S C O F) (cfg : Cfg T Y E D S C O F)
    (out : Output T Y D S C O F) : Sol T Y D S C O F :=
  let direction := p.direction
  { t0 := cfg.t0 * direction, t1 := cfg.t1 * direction
    saved := out.saves.map (fun s => s.buf.map (Slot.scale (direction : T)))
    interpolation := denseOf cfg p.y0 out, direction := direction
    numSteps := out.core.numSteps, numAccepted := out.core.numAccepted
    numRejected := out.core.numRejected, result := out.result
    solverState := out.core.solverState, ctrlState := out.core.ctrlState
    madeJump := out.core.madeJump, eventMask := out.core.evMask }

/-- `diffeqsolve` (890-1543) with `throw=False`. -/
def diffeqsolve (p : Problem m T Y VF Ct E D S C O F) : Except FrontError (Sol T Y D S C O F) := do
  let (cfg, tnext, ctrl, solverState) ← p.setup
  pure (p.finish cfg (solve cfg p.y0 tnext ctrl solverState (p.madeJump.getD false)))

/-- `sol.evaluate(t)`: `DenseInterpolation.evaluate(t)` (`_global_interpolation.py` 342-355). -/
def Sol.evaluate (s : Sol T Y D S C O F) (t : T) (left : Bool) : Option Y :=
  s.interpolation.evaluate (t * s.direction) left

/-! ### Controllers -/

/-- `StepTo` (`constant.py` 112-178). -/
def stepToClass (ts : List T) (dir : Int) : Except FrontError (WrappedController m T Y VF Ct E Nat) :=
  if ts.length < 2 then .error .stepToTooShort
  else
    let ts := ts.map (· * (dir : T))
    if (List.zipWith (fun a b => decide (b ≤ a)) ts ts.tail).any id then .error .stepToNotMonotone
    else .ok
      { init := fun _ t0 t1 _ dt0 =>
          match dt0 with
          | some _ => .error .dt0Given
          | none =>
            match stepToInit ts t0 t1 false with
            | some r => .ok r
            | none => .error .stepToEnds
        ctrl := stepTo ts 0 }

/-- `ClipStepSizeController` (`clip.py` 188-302) around another controller. -/
def clipClass [SuccOrder T] [PredOrder T] (c : Clip T)
    (inner : Int → Except FrontError (WrappedController m T Y VF Ct E C)) (dir : Int) :
    Except FrontError (WrappedController m T Y VF Ct E (ClipState T C)) := do
  let w ← inner dir
  let c := c.wrap (· * (dir : T))
  pure
    { init := fun terms t0 t1 y0 dt0 => do
        let r ← w.init terms t0 t1 y0 dt0
        pure (c.init t0 r)
      ctrl := clipController c w.ctrl }

/-- `ConstantStepSize` (`constant.py` 20-104). -/
def constClass {K : Type} [Field K] [LinearOrder K] [FloorRing K] (up : K → K) (_dir : Int) :
    Except FrontError (WrappedController m K Y VF Ct E (ConstState K)) :=
  .ok
    { init := fun _ t0 t1 _ dt0 =>
        match constInit up t0 (some t1) dt0 with
        | some r => .ok r
        | none => .error .dt0Missing
      ctrl := constantStepSize }

/-- The first step size of `PIDController` when `dt0=None`: `_select_initial_step` (`pid.py` 33-81) with
the test of the class of `terms` (47-48). `terms` is an `ODETerm` only if it is a single term. -/
def pidFirst {K : Type} [Field K] [LinearOrder K] (p : Pid K)
    (terms : Fin m → KTerm K (XTree K) (XTree K) Ct) (t0 : K) (y0 : XTree K) : XVal K :=
  if h : m = 1 then
    let term := terms ⟨0, by omega⟩
    match term.cls with
    | .ode =>
      p.selectInitialStep (fun t y => match t with
        | .fin t => term.vf t y
        | _ => y.map (fun l => l.map (fun _ => XVal.nan))) (.fin t0) y0
    | _ => .fin (1 / 100)
  else .fin (1 / 100)

/-- `PIDController` (`pid.py` 313-392); `wrap` returns `self`. -/
def pidClass {K : Type} [Field K] [LinearOrder K] (p : Pid K) (_dir : Int) :
    Except FrontError (WrappedController m K (XTree K) (XTree K) Ct (XTree K) (PidState K)) :=
  .ok
    { init := fun terms t0 _ y0 dt0 =>
        let dt0 := match dt0 with
          | some d => .fin d
          | none => pidFirst p terms t0 y0
        let r := p.init (.fin t0) dt0
        .ok (r.1.toK t0, r.2)
      ctrl := pidController p }

end

/-! ### Construction of `SubSaveAt` and `SaveAt` (`_saveat.py`) -/

/-- `SubSaveAt.__init__` (28-44) and `__check_init__` (46-48). -/
def subSaveAtNew (t0 t1 : Bool) (ts : Option (List T)) (steps : Nat) (fn : T → Y → O) :
    Except FrontError (SubSaveAt T Y O) :=
  let ts := match ts with
    | some l => if l.length > 0 then some l else none
    | none => none
  if !t0 && !t1 && ts.isNone && steps == 0 then .error .emptySaveAt
  else .ok { t0 := t0, t1 := t1, ts := ts.getD [], steps := steps, fn := fn }

/-- `SaveAt.__init__` (76-108): the list of `SubSaveAt`s. -/
def saveAtNew (t0 t1 : Bool) (ts : Option (List T)) (steps : Nat) (fn : T → Y → O)
    (subs : Option (List (SubSaveAt T Y O))) : Except FrontError (List (SubSaveAt T Y O)) :=
  let given := t0 || t1 || ts.isSome || steps != 0
  match subs with
  | none => if given then do
      let s ← subSaveAtNew t0 t1 ts steps fn
      pure [s]
    else .ok []
  | some l => if given then .error .subsAndFields else .ok l

end Verif
