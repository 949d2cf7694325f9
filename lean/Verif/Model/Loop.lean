import Mathlib.Order.Defs.LinearOrder
import Mathlib.Algebra.Notation.Defs
import Verif.Model.Results

/-!
# Model of the integration loop, `/repo/diffrax/_integrate.py`

Transcribes `loop` (302-885) and the parts of `diffeqsolve` (890-1543) that build the initial state
and allocate the output buffers. The solver, the step size controller, the event conditions, the
save functions and the event root finder are arbitrary functions.

Simplifications (all definitions in this file):
* times are elements of an arbitrary linear order `T` (no NaN); `t1_clip_floor` (319-322) is a field
  of the configuration, and the midpoint `tprev + 0.5 * (t1 - tprev)` (283) is a function `mid`;
* pytrees of `SubSaveAt`s and of event conditions are lists (in pytree-leaf order);
* `max_steps` is a number (the `None` case behaves as any number that is large enough);
* progress meters, `args`, tracing-time specialisation (`_handle_static`), `vmap` are left out;
* trace-time errors (shape mismatches, dtype changes in events) are left out.
-/

namespace Verif

variable {T Y E D S C O F : Type}

/-- What `AbstractSolver.step` returns (`_solver/base.py` 141-182). -/
structure StepOut (Y E D S : Type) where
  y : Y
  err : E
  dense : D
  state : S
  result : Result

/-- A solver as the loop sees it: `solver.step` (`_integrate.py` 373-381) at given terms and args;
`solver.interpolation_cls(t0=, t1=, **dense_info).evaluate(t)` (443-445, 466). -/
structure Solver (T Y E D S : Type) where
  step : (t0 t1 : T) → (y0 : Y) → (state : S) → (madeJump : Bool) → StepOut Y E D S
  interp : (t0 t1 : T) → (dense : D) → (t : T) → Y

/-- What `AbstractStepSizeController.adapt_step_size` returns
(`_step_size_controller/base.py`; `_integrate.py` 389-396). -/
structure AdaptOut (T C : Type) where
  keep : Bool
  tprev : T
  tnext : T
  madeJump : Bool
  state : C
  result : Result

/-- A step size controller as the loop sees it (`_integrate.py` 396-405).
`stepTo = some n` iff it is a `StepTo` with `n` times (356-359). -/
structure Controller (T Y E C : Type) where
  adapt : (t0 t1 : T) → (y0 y1 : Y) → (err : E) → (state : C) → AdaptOut T C
  stepTo : Option Nat := none

/-- `SubSaveAt` (`_saveat.py`), `ts = []` standing for `ts=None`, `steps = 0` for no steps. -/
structure SubSaveAt (T Y O : Type) where
  t0 : Bool
  t1 : Bool
  ts : List T
  steps : Nat
  fn : T → Y → O

/-- One leaf of `Event.cond_fn` together with the matching leaf of `Event.direction`
(`_event.py` 23-24). Whether it returns booleans or floats is static (578-606). -/
inductive EventCond (T Y F : Type) where
  | bool (cond : T → Y → Bool)
  | flt (cond : T → Y → F) (direction : Option Bool)

/-- The value of one event condition. -/
inductive EventVal (F : Type) where
  | bool (b : Bool)
  | flt (x : F)
deriving DecidableEq

/-- One entry of a save buffer. `empty` is the initial padding (1296-1300), `deleted` is the value
written by `unsave` (805-811). Both are `inf` in a forward solve; in a backward solve the returned
times are `+inf` for `empty` and `-inf` for `deleted` (1296, 805, 1480-1482). -/
inductive Slot (T O : Type) where
  | empty
  | deleted
  | val (t : T) (o : O)
deriving DecidableEq

/-- `SaveState` (68-72); `ts` and `ys` buffers are zipped into one list. -/
structure SaveState (T O : Type) where
  tsIndex : Nat
  buf : List (Slot T O)
  saveIndex : Nat

/-- The static arguments of `loop` (302-318) and of `diffeqsolve`. -/
structure Cfg (T Y E D S C O F : Type) where
  solver : Solver T Y E D S
  controller : Controller T Y E C
  /-- replaces NaN by inf in the error estimate (386) -/
  cleanErr : E → E
  events : List (EventCond T Y F)
  /-- `event.root_finder`: given the function, `lower` and `upper` (also the initial guess), returns
  the root and `none` for success or `some` failure code (761-784) -/
  rootFinder : Option ((T → List F) → T → T → T × Option Result)
  /-- `final_state.event_tnext - _t` (711) -/
  dist : T → T → F
  /-- the all-zeros dense info used before the first step (1363-1366) -/
  dummyDense : D
  t0 : T
  t1 : T
  /-- `t1_clip_floor` (319-322) -/
  floor : T
  /-- `fun a b => a + 0.5 * (b - a)` (283) -/
  mid : T → T → T
  subs : List (SubSaveAt T Y O)
  dense : Bool
  maxSteps : Nat

/-- The part of `State` (75-110) that evolves independently of what is being saved. -/
structure Core (T Y D S C F : Type) where
  y : Y
  tprev : T
  tnext : T
  madeJump : Bool
  solverState : S
  ctrlState : C
  result : Result
  numSteps : Nat
  numAccepted : Nat
  numRejected : Nat
  evTprev : T
  evTnext : T
  evDense : D
  evVals : List (EventVal F)
  evMask : List Bool

/-- `dense_ts`, `dense_infos`, `dense_save_index` (97-99); `none` is the `inf` padding. -/
structure DenseState (T D : Type) where
  ts : List (Option T)
  infos : List (Option D)
  index : Nat

/-- `State` (75-110). -/
structure LState (T Y D S C O F : Type) where
  core : Core T Y D S C F
  saves : List (SaveState T O)
  dense : DenseState T D

/-- What one execution of the loop body hands from the numerical step to the saving code. -/
structure StepInfo (T Y D : Type) where
  /-- `state.tprev`, the start of the step -/
  t0 : T
  /-- `state.tnext`, the end of the step -/
  t1 : T
  keep : Bool
  /-- the new `tprev` (412) -/
  tprev : T
  /-- the new `y` (423) -/
  y : Y
  dense : D
  /-- `num_accepted_steps` after this step (434) -/
  numAccepted : Nat

section
variable [LinearOrder T]

/-- `_clip_to_end` (278-284). -/
def clipToEnd (mid : T → T → T) (tprev tnext t1 floor : T) (keep : Bool) : T :=
  let clip := floor < tnext
  let tclip := if keep then t1 else mid tprev t1
  if clip then tclip else tnext

/-! ### Saving -/

/-- `lax.dynamic_update_slice_in_dim(buf, [v] * repeat, idx)`: JAX clamps the start index so that the
slice fits (`repeat ≤ len` is a static requirement). -/
def updateSlice {α : Type} (buf : List α) (rep : Nat) (v : α) (idx : Nat) : List α :=
  let s := min idx (buf.length - rep)
  buf.take s ++ List.replicate rep v ++ buf.drop (s + rep)

/-- `ts[save_index]`: reading clamps to the last element. -/
def readClamped (buf : List (Slot T O)) (idx : Nat) : Slot T O :=
  (buf[min idx (buf.length - 1)]?).getD .empty

/-- `_save` (244-275). -/
def save (t : T) (y : Y) (fn : T → Y → O) (s : SaveState T O) (rep : Nat) (pred : Bool := true) :
    SaveState T O :=
  let v := if pred then .val t (fn t y) else readClamped s.buf s.saveIndex
  { s with buf := updateSlice s.buf rep v s.saveIndex, saveIndex := s.saveIndex + rep }

/-- `save_t0` (329-334). -/
def saveT0 (cfg : Cfg T Y E D S C O F) (y0 : Y) (sub : SubSaveAt T Y O) (s : SaveState T O) :
    SaveState T O :=
  if sub.t0 then save cfg.t0 y0 sub.fn s 1 else s

/-- One iteration of `save_ts_impl._body_fun` (464-478). `.at[i].set` drops out-of-range writes. -/
def saveTsBody (sub : SubSaveAt T Y O) (ip : T → Y) (t : T) (s : SaveState T O) : SaveState T O :=
  { tsIndex := s.tsIndex + 1
    buf := s.buf.set s.saveIndex (.val t (sub.fn t (ip t)))
    saveIndex := s.saveIndex + 1 }

/-- `save_ts_impl` (456-487): while `keep_step & ts[i] <= state.tnext & i < len(ts)`, at most
`len(ts)` iterations (the fuel). The read `ts[i]` clamps but `i < len(ts)` is checked as well. -/
def saveTsLoop (sub : SubSaveAt T Y O) (ip : T → Y) (keep : Bool) (tnext : T) :
    Nat → SaveState T O → SaveState T O
  | 0, s => s
  | fuel + 1, s =>
    match sub.ts[s.tsIndex]? with
    | some t =>
      if keep && decide (t ≤ tnext) then
        saveTsLoop sub ip keep tnext fuel (saveTsBody sub ip t s)
      else s
    | none => s

/-- `save_ts` (451-454). `interpolator` (443-445) is built from the step's own end points. -/
def saveTs (cfg : Cfg T Y E D S C O F) (sub : SubSaveAt T Y O) (i : StepInfo T Y D)
    (s : SaveState T O) : SaveState T O :=
  saveTsLoop sub (cfg.solver.interp i.t0 i.t1 i.dense) i.keep i.t1 sub.ts.length s

/-- `save_steps` (493-524). -/
def saveSteps (sub : SubSaveAt T Y O) (i : StepInfo T Y D) (s : SaveState T O) : SaveState T O :=
  if sub.steps ≠ 0 then
    let saveStep := i.numAccepted % sub.steps = 0
    let shouldSave := i.keep && decide saveStep
    if shouldSave then
      { s with buf := s.buf.set s.saveIndex (.val i.tprev (sub.fn i.tprev i.y))
               saveIndex := s.saveIndex + 1 }
    else s
  else s

/-- Saving of dense output (529-540). -/
def saveDense (dense : Bool) (i : StepInfo T Y D) (d : DenseState T D) : DenseState T D :=
  if dense && i.keep then
    { ts := d.ts.set (d.index + 1) (some i.tprev)
      infos := d.infos.set d.index (some i.dense)
      index := d.index + 1 }
  else d

/-! ### Events -/

section
variable [LinearOrder F] [Zero F]

/-- `jnp.sign`. -/
def sgn (x : F) : Int := if 0 < x then 1 else if x < 0 then -1 else 0

/-- The value of an event condition. -/
def EventCond.value (e : EventCond T Y F) (t : T) (y : Y) : EventVal F :=
  match e with
  | .bool c => .bool (c t y)
  | .flt c _ => .flt (c t y)

/-- `_outer_cond_fn` (553-607): does this condition trigger? `old` is the value stored at the
previous step. -/
def EventCond.triggers (e : EventCond T Y F) (old : EventVal F) (t : T) (y : Y) : Bool :=
  match e, old with
  | .bool c, _ => c t y
  | .flt c none, .flt o => decide (sgn o ≠ sgn (c t y))
  | .flt c (some true), .flt o => decide (sgn o ≤ 0) && decide (sgn (c t y) > 0)
  | .flt c (some false), .flt o => decide (sgn o > 0) && decide (sgn (c t y) ≤ 0)
  | .flt _ _, .bool _ => false  -- dtype change: raises (580-585)

/-- The mask a condition starts with (1393-1396). -/
def EventCond.initMask (e : EventCond T Y F) (t : T) (y : Y) : Bool :=
  match e with
  | .bool c => c t y
  | .flt _ _ => false

/-- The loop over mask leaves (623-628 and 1415-1420): keeps only the first `True`. -/
def firstTrue : Bool → List Bool → List Bool × Bool
  | had, [] => ([], had)
  | had, m :: ms =>
    let r := firstTrue (m || had) ms
    ((m && !had) :: r.1, r.2)

/-! ### The loop -/

/-- `cond_fun` (355-363). -/
def condFun (cfg : Cfg T Y E D S C O F) (s : Core T Y D S C F) : Bool :=
  (match cfg.controller.stepTo with
   | some n => decide (s.numSteps < n - 1)
   | none => decide (s.tprev < cfg.t1)) && s.result.isSuccessful

/-- `body_fun_aux` (365-656) without the saving of outputs: the new evolving state, and what is
handed to the saving code. -/
def coreBody (cfg : Cfg T Y E D S C O F) (s : Core T Y D S C F) :
    Core T Y D S C F × StepInfo T Y D :=
  -- 373-381
  let so := cfg.solver.step s.tprev s.tnext s.y s.solverState s.madeJump
  -- 386
  let err := cfg.cleanErr so.err
  -- 389-405
  let ao := cfg.controller.adapt s.tprev s.tnext s.y so.y err s.ctrlState
  let keep := ao.keep
  -- 412-413
  let tprev := min ao.tprev cfg.t1
  let tnext := clipToEnd cfg.mid tprev ao.tnext cfg.t1 cfg.floor keep
  -- 422-426
  let y := if keep then so.y else s.y
  let solverState := if keep then so.state else s.solverState
  let madeJump := if keep then ao.madeJump else s.madeJump
  let solverResult := Result.where' keep so.result .successful
  -- 429-430
  let result := Result.where' s.result.isOkay solverResult s.result
  let result := Result.where' result.isOkay ao.result result
  -- 433-437
  let numSteps := s.numSteps + 1
  let numAccepted := s.numAccepted + (if keep then 1 else 0)
  let numRejected := s.numRejected + (if keep then 0 else 1)
  -- 549-633
  let evVals := cfg.events.map (fun e => e.value tprev y)
  let evTriggers := List.zipWith (fun e old => e.triggers old tprev y) cfg.events s.evVals
  let mh := firstTrue false evTriggers
  let result := Result.where' mh.2 .eventOccurred result
  ({ y := y, tprev := tprev, tnext := tnext, madeJump := madeJump, solverState := solverState,
     ctrlState := ao.state, result := result, numSteps := numSteps, numAccepted := numAccepted,
     numRejected := numRejected, evTprev := s.tprev, evTnext := s.tnext, evDense := so.dense,
     evVals := evVals, evMask := mh.1 },
   { t0 := s.tprev, t1 := s.tnext, keep := keep, tprev := tprev, y := y, dense := so.dense,
     numAccepted := numAccepted })

/-- `body_fun` (365-662, 681-683). -/
def body (cfg : Cfg T Y E D S C O F) (s : LState T Y D S C O F) : LState T Y D S C O F :=
  let r := coreBody cfg s.core
  { core := r.1
    saves := List.zipWith (fun sub sv => saveSteps sub r.2 (saveTs cfg sub r.2 sv)) cfg.subs s.saves
    dense := saveDense cfg.dense r.2 s.dense }

/-- `outer_while_loop(cond_fun, body_fun, init_state, max_steps=max_steps)` (685-687). -/
def whileLoop (cfg : Cfg T Y E D S C O F) : Nat → LState T Y D S C O F → LState T Y D S C O F
  | 0, s => s
  | n + 1, s => if condFun cfg s.core then whileLoop cfg n (body cfg s) else s

/-- The function handed to the event root finder (710-759). -/
def toRootFind (cfg : Cfg T Y E D S C O F) (s : Core T Y D S C F) (happened : Bool) (t : T) :
    List F :=
  let ip := cfg.solver.interp s.evTprev s.evTnext s.evDense
  List.zipWith (fun m (e : EventCond T Y F) =>
    let v : F := if m then
        match e with
        | .bool _ => cfg.dist s.evTnext t
        | .flt c _ => c t (ip t)
      else 0
    if happened then v else cfg.dist s.evTnext t) s.evMask cfg.events

/-- Lines 691-795: the final time, value and result, after a possible event root find. -/
def finalise (cfg : Cfg T Y E D S C O F) (s : Core T Y D S C F) : T × Y × Result :=
  match cfg.rootFinder with
  | none => (s.tprev, s.y, s.result)
  | some find =>
    let happened := s.evMask.any id
    if happened then
      let r := find (toRootFind cfg s happened) s.evTprev s.evTnext
      let tfinal := r.1
      let yfinal := if s.numSteps = 0 then s.y
        else cfg.solver.interp s.evTprev s.evTnext s.evDense tfinal
      let result := match r.2 with
        | none => s.result
        | some e => e
      (tfinal, yfinal, result)
    else (s.tprev, s.y, s.result)

/-- `mask = ts > tfinal` on one slot, for entries that hold a value (800-802). -/
def Slot.after (tfinal : T) : Slot T O → Bool
  | .val t _ => decide (tfinal < t)
  | _ => false

/-- `unsave` (798-817). -/
def unsave (tfinal : T) (s : SaveState T O) : SaveState T O :=
  let cnt := s.buf.countP (Slot.after tfinal)
  { tsIndex := s.tsIndex - cnt
    buf := s.buf.map (fun x => if x.after tfinal then .deleted else x)
    saveIndex := s.saveIndex - cnt }

/-- `_save_if_t0_equals_t1` (823-828), guarded by `t0 == t1` (833-845). -/
def saveIfT0EqT1 (cfg : Cfg T Y E D S C O F) (yfinal : Y) (sub : SubSaveAt T Y O)
    (s : SaveState T O) : SaveState T O :=
  if cfg.t0 = cfg.t1 then
    if sub.ts ≠ [] then save cfg.t0 yfinal sub.fn s sub.ts.length else s
  else s

/-- `_save_t1` (847-875). -/
def saveT1 (cfg : Cfg T Y E D S C O F) (numAccepted : Nat) (tfinal : T) (yfinal : Y)
    (sub : SubSaveAt T Y O) (s : SaveState T O) : SaveState T O :=
  let savedViaSteps : Bool :=
    if sub.steps = 0 then false
    else if sub.steps = 1 then true
    else decide (numAccepted % sub.steps = 0)
  let pred : Bool :=
    match cfg.rootFinder with
    | none => sub.t1 && !savedViaSteps
    | some _ => sub.t1 || savedViaSteps
  -- `pred is not False` (871): `pred` is the Python constant `False` iff
  -- `steps` is 0 or 1 and it evaluates to false
  if pred || decide (2 ≤ sub.steps) then save tfinal yfinal sub.fn s 1 pred else s

/-- What `loop` (302-885) and then `diffeqsolve` return. -/
structure Output (T Y D S C O F : Type) where
  core : Core T Y D S C F
  tfinal : T
  yfinal : Y
  result : Result
  saves : List (SaveState T O)
  dense : DenseState T D

/-- `loop` (302-885). -/
def loop (cfg : Cfg T Y E D S C O F) (init : LState T Y D S C O F) : Output T Y D S C O F :=
  -- 324-341
  let init : LState T Y D S C O F :=
    { init with
      saves := List.zipWith (fun sub sv => saveT0 cfg init.core.y sub sv) cfg.subs init.saves
      dense := if cfg.dense then { init.dense with ts := init.dense.ts.set 0 (some cfg.t0) }
               else init.dense }
  -- 685-687
  let fin := whileLoop cfg cfg.maxSteps init
  -- 691-795
  let f := finalise cfg fin.core
  let tfinal := f.1
  let yfinal := f.2.1
  let result := f.2.2
  -- 797-821
  let saves := match cfg.rootFinder with
    | none => fin.saves
    | some _ => fin.saves.map (unsave tfinal)
  -- 833-845, 877
  let saves := List.zipWith (fun sub sv =>
    saveT1 cfg fin.core.numAccepted tfinal yfinal sub (saveIfT0EqT1 cfg yfinal sub sv))
    cfg.subs saves
  -- 883
  let result := if condFun cfg fin.core then .maxStepsReached else result
  { core := fin.core, tfinal := tfinal, yfinal := yfinal, result := result, saves := saves,
    dense := fin.dense }

/-! ### Initial state -/

/-- The buffer size computed in `_allocate_output` (1273-1293). -/
def allocSize (maxSteps : Nat) (sub : SubSaveAt T Y O) : Nat :=
  (if sub.t0 then 1 else 0) + sub.ts.length +
  (if sub.steps ≠ 0 then maxSteps / sub.steps else 0) +
  (if sub.t1 ∧ (sub.steps = 0 ∨ maxSteps % sub.steps ≠ 0) then 1 else 0)

/-- `_allocate_output` (1273-1303). -/
def allocate (maxSteps : Nat) (sub : SubSaveAt T Y O) : SaveState T O :=
  { tsIndex := 0, buf := List.replicate (allocSize maxSteps sub) .empty, saveIndex := 0 }

/-- The state built at 1250-1450. `tnext` is the first proposed end time (1254-1264), `ctrl`,
`solverState`, `madeJump` the initial (or user-passed) states. -/
def initState (cfg : Cfg T Y E D S C O F) (y0 : Y) (tnext : T) (ctrl : C) (solverState : S)
    (madeJump : Bool) : LState T Y D S C O F :=
  let mh := firstTrue false (cfg.events.map (fun e => e.initMask cfg.t0 y0))
  { core :=
      { y := y0, tprev := cfg.t0, tnext := min tnext cfg.t1, madeJump := madeJump
        solverState := solverState, ctrlState := ctrl
        result := Result.where' mh.2 .eventOccurred .successful
        numSteps := 0, numAccepted := 0, numRejected := 0
        evTprev := cfg.t0, evTnext := cfg.t0, evDense := cfg.dummyDense
        evVals := cfg.events.map (fun e => e.value cfg.t0 y0)
        evMask := mh.1 }
    saves := cfg.subs.map (allocate cfg.maxSteps)
    dense := if cfg.dense then
        { ts := List.replicate (cfg.maxSteps + 1) none, infos := List.replicate cfg.maxSteps none,
          index := 0 }
      else { ts := [], infos := [], index := 0 } }

/-- `diffeqsolve` (890-1543) after argument processing and time normalisation. -/
def solve (cfg : Cfg T Y E D S C O F) (y0 : Y) (tnext : T) (ctrl : C) (solverState : S)
    (madeJump : Bool) : Output T Y D S C O F :=
  loop cfg (initState cfg y0 tnext ctrl solverState madeJump)

/-- `throw=True` raises (1541-1542). -/
def throws (out : Output T Y D S C O F) : Bool := !out.result.isOkay

end
end
end Verif
