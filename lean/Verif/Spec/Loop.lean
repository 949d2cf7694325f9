import Verif.Model.Loop

/-!
# Specifications for the integration loop

Nothing here is used by the model. A solve is described by the list of attempted steps; outputs are
described by plain list functions of that history (no buffers, no indices).
-/

namespace Verif

variable {T Y E D S C O F : Type} [LinearOrder T] [LinearOrder F] [Zero F]

/-- The states in which the loop body was entered, in order: one per attempted step, starting in
state `s`, at most `n` of them. `Spec.log_eq_attempts` (in `Props/Loop.lean`) ties this list to an
observable: the arguments that the solver and the controller were actually called with. -/
def attempts (cfg : Cfg T Y E D S C O F) : Nat → Core T Y D S C F → List (Core T Y D S C F)
  | 0, _ => []
  | n + 1, s => if condFun cfg s then s :: attempts cfg n (coreBody cfg s).1 else []

/-- The attempted steps of a whole solve. -/
def history (cfg : Cfg T Y E D S C O F) (y0 : Y) (tnext : T) (ctrl : C) (ss : S) (mj : Bool) :
    List (Core T Y D S C F) :=
  attempts cfg cfg.maxSteps (initState cfg y0 tnext ctrl ss mj).core

/-- The solver call made in a state. -/
def solverOut (cfg : Cfg T Y E D S C O F) (s : Core T Y D S C F) : StepOut Y E D S :=
  cfg.solver.step s.tprev s.tnext s.y s.solverState s.madeJump

/-- The controller call made in a state. -/
def adaptOut (cfg : Cfg T Y E D S C O F) (s : Core T Y D S C F) : AdaptOut T C :=
  cfg.controller.adapt s.tprev s.tnext s.y (solverOut cfg s).y (cfg.cleanErr (solverOut cfg s).err)
    s.ctrlState

/-- Was the step attempted in this state accepted? -/
def accepted (cfg : Cfg T Y E D S C O F) (s : Core T Y D S C F) : Bool := (adaptOut cfg s).keep

/-- An accepted step: it started at `t0`, was asked to end at `t1`, produced `y` and `dense`, and
left the solve at time `reached`. -/
structure Piece (T Y D : Type) where
  t0 : T
  t1 : T
  reached : T
  y : Y
  dense : D

def piece (cfg : Cfg T Y E D S C O F) (s : Core T Y D S C F) : Piece T Y D :=
  { t0 := s.tprev, t1 := s.tnext, reached := min (adaptOut cfg s).tprev cfg.t1
    y := (solverOut cfg s).y, dense := (solverOut cfg s).dense }

/-- The accepted steps of a solve, in order. -/
def pieces (cfg : Cfg T Y E D S C O F) (y0 : Y) (tnext : T) (ctrl : C) (ss : S) (mj : Bool) :
    List (Piece T Y D) :=
  ((history cfg y0 tnext ctrl ss mj).filter (accepted cfg)).map (piece cfg)

/-- The value the solver's local interpolation has at `t` on an accepted step. -/
def Piece.eval (sv : Solver T Y E D S) (p : Piece T Y D) (t : T) : Y := sv.interp p.t0 p.t1 p.dense t

/-- What a `SubSaveAt` should record during the steps `ps`, of which the first has number `k + 1`,
`rest` being the requested times that have not been reached before. -/
def stepEntries (sv : Solver T Y E D S) (sub : SubSaveAt T Y O) :
    List (Piece T Y D) → Nat → List T → List (T × O)
  | [], _, _ => []
  | p :: ps, k, rest =>
    (rest.takeWhile (· ≤ p.t1)).map (fun t => (t, sub.fn t (p.eval sv t)))
    ++ (if sub.steps ≠ 0 ∧ sub.steps ∣ k + 1 then [(p.reached, sub.fn p.reached p.y)] else [])
    ++ stepEntries sv sub ps (k + 1) (rest.dropWhile (· ≤ p.t1))

/-- What a `SubSaveAt` should record in a whole solve without event root finder. -/
def expectedEntries (sv : Solver T Y E D S) (sub : SubSaveAt T Y O) (t0 : T) (y0 : Y)
    (ps : List (Piece T Y D)) (tfinal : T) (yfinal : Y) : List (T × O) :=
  (if sub.t0 then [(t0, sub.fn t0 y0)] else [])
  ++ stepEntries sv sub ps 0 sub.ts
  ++ (if sub.t1 ∧ ¬ (sub.steps ≠ 0 ∧ sub.steps ∣ ps.length) then [(tfinal, sub.fn tfinal yfinal)]
      else [])

/-- Entries followed by padding, in a buffer of a given size. -/
def padded (size : Nat) (es : List (T × O)) : List (Slot T O) :=
  es.map (fun e => .val e.1 e.2) ++ List.replicate (size - es.length) .empty

/-- The entries that hold a value. -/
def entriesOf (buf : List (Slot T O)) : List (T × O) :=
  buf.filterMap fun s => match s with
    | .val t o => some (t, o)
    | _ => none

/-- One observable call: the arguments `AbstractSolver.step` and `adapt_step_size` received. -/
structure CallLog (T Y E S C : Type) where
  solverT0 : T
  solverT1 : T
  solverY : Y
  solverState : S
  solverMadeJump : Bool
  ctrlT0 : T
  ctrlT1 : T
  ctrlY0 : Y
  ctrlY1 : Y
  ctrlErr : E
  ctrlState : C

/-- The same problem with a solver that passes its arguments along in the error estimate, and a
controller that writes down every call in its own state. Only user-suppliable components are
replaced, so the log is what an observer outside diffrax would see. -/
def logged (cfg : Cfg T Y E D S C O F) :
    Cfg T Y (E × T × T × Y × S × Bool) D S (C × List (CallLog T Y E S C)) O F :=
  { solver :=
      { step := fun a b y s j =>
          let o := cfg.solver.step a b y s j
          { y := o.y, err := (o.err, a, b, y, s, j), dense := o.dense, state := o.state,
            result := o.result }
        interp := cfg.solver.interp }
    controller :=
      { adapt := fun a b y0 y1 err st =>
          let r := cfg.controller.adapt a b y0 y1 err.1 st.1
          { keep := r.keep, tprev := r.tprev, tnext := r.tnext, madeJump := r.madeJump,
            state := (r.state, st.2 ++
              [{ solverT0 := err.2.1, solverT1 := err.2.2.1, solverY := err.2.2.2.1,
                 solverState := err.2.2.2.2.1, solverMadeJump := err.2.2.2.2.2,
                 ctrlT0 := a, ctrlT1 := b, ctrlY0 := y0, ctrlY1 := y1, ctrlErr := err.1,
                 ctrlState := st.1 }])
            result := r.result }
        stepTo := cfg.controller.stepTo }
    cleanErr := fun e => (cfg.cleanErr e.1, e.2)
    events := cfg.events, rootFinder := cfg.rootFinder, dist := cfg.dist,
    dummyDense := cfg.dummyDense, t0 := cfg.t0, t1 := cfg.t1, floor := cfg.floor, mid := cfg.mid,
    subs := cfg.subs, dense := cfg.dense, maxSteps := cfg.maxSteps }

/-- The call that an attempt in state `s` should make. -/
def expectedCall (cfg : Cfg T Y E D S C O F) (s : Core T Y D S C F) : CallLog T Y E S C :=
  let o := cfg.solver.step s.tprev s.tnext s.y s.solverState s.madeJump
  { solverT0 := s.tprev, solverT1 := s.tnext, solverY := s.y, solverState := s.solverState,
    solverMadeJump := s.madeJump, ctrlT0 := s.tprev, ctrlT1 := s.tnext, ctrlY0 := s.y,
    ctrlY1 := o.y, ctrlErr := cfg.cleanErr o.err, ctrlState := s.ctrlState }

end Verif

namespace Verif

variable {T Y E D S C O F : Type} [LinearOrder T] [LinearOrder F] [Zero F]

/-- What an observer wrapped around solver and controller sees during a solve. -/
def callLog (cfg : Cfg T Y E D S C O F) (y0 : Y) (tnext : T) (ctrl : C) (ss : S) (mj : Bool) :
    List (CallLog T Y E S C) :=
  (solve (logged cfg) y0 tnext (ctrl, []) ss mj).core.ctrlState.2

/-- The controller's answer to a logged call. -/
def CallLog.answer (cfg : Cfg T Y E D S C O F) (c : CallLog T Y E S C) : AdaptOut T C :=
  cfg.controller.adapt c.ctrlT0 c.ctrlT1 c.ctrlY0 c.ctrlY1 c.ctrlErr c.ctrlState

/-- A controller answer that does not move time backwards: an accepted step ends no earlier than
asked, a rejected one restarts no earlier than it started, the next step has non-negative length. -/
def AdaptOut.Forward (r : AdaptOut T C) (t0 t1 : T) : Prop :=
  (r.keep = true → t1 ≤ r.tprev) ∧ (r.keep = false → t0 ≤ r.tprev) ∧ r.tprev ≤ r.tnext

/-- The configuration makes sense: `t0 ≤ t1`, the clip floor is at most `t1`, and the midpoint of
`[a, t1]` lies in it. -/
structure Cfg.WF (cfg : Cfg T Y E D S C O F) : Prop where
  le : cfg.t0 ≤ cfg.t1
  floor_le : cfg.floor ≤ cfg.t1
  le_mid : ∀ a, a ≤ cfg.t1 → a ≤ cfg.mid a cfg.t1
  mid_le : ∀ a, a ≤ cfg.t1 → cfg.mid a cfg.t1 ≤ cfg.t1

/-- Time and value after the attempt made in state `s`. -/
def nextT (cfg : Cfg T Y E D S C O F) (s : Core T Y D S C F) : T :=
  min (adaptOut cfg s).tprev cfg.t1
def nextY (cfg : Cfg T Y E D S C O F) (s : Core T Y D S C F) : Y :=
  if accepted cfg s then (solverOut cfg s).y else s.y

/-- Which event conditions triggered on the attempt made in state `s`. -/
def triggered (cfg : Cfg T Y E D S C O F) (s : Core T Y D S C F) : List Bool :=
  List.zipWith (fun e old => e.triggers old (nextT cfg s) (nextY cfg s)) cfg.events s.evVals

end Verif

namespace Verif

variable {T Y E D S C O F : Type} [LinearOrder T] [LinearOrder F] [Zero F]

/-- A controller answer without jumps: an accepted step ends where it was asked to end, a rejected one
is retried from where it started. -/
def AdaptOut.Exact (r : AdaptOut T C) (t0 t1 : T) : Prop :=
  (r.keep = true → r.tprev = t1) ∧ (r.keep = false → r.tprev = t0)

/-- The first accepted step that ends at or after `t`. -/
def firstCovering (ps : List (Piece T Y D)) (t : T) : Option (Piece T Y D) :=
  ps.find? (fun p => decide (t ≤ p.t1))

/-- The same problem with other output requests. -/
def Cfg.reSave {O' : Type} (cfg : Cfg T Y E D S C O F) (subs : List (SubSaveAt T Y O'))
    (dense : Bool) : Cfg T Y E D S C O' F :=
  { solver := cfg.solver, controller := cfg.controller, cleanErr := cfg.cleanErr,
    events := cfg.events, rootFinder := cfg.rootFinder, dist := cfg.dist,
    dummyDense := cfg.dummyDense, t0 := cfg.t0, t1 := cfg.t1, floor := cfg.floor, mid := cfg.mid,
    subs := subs, dense := dense, maxSteps := cfg.maxSteps }

end Verif

namespace Verif

variable {T Y E D S C O F : Type} [LinearOrder T] [LinearOrder F] [Zero F]

/-- When a floating event condition going from `old` to `new` should trigger: `direction=True` on
upcrossings, `False` on downcrossings, `None` when the sign changes (being zero counts as a sign). -/
def Crosses (direction : Option Bool) (old new : F) : Prop :=
  match direction with
  | none => ¬ ((0 < old ∧ 0 < new) ∨ (old < 0 ∧ new < 0) ∨ (old = 0 ∧ new = 0))
  | some true => old ≤ 0 ∧ 0 < new
  | some false => 0 < old ∧ new ≤ 0

/-- When an event condition should trigger on a step from `(t, y)` to `(t', y')`. -/
def ShouldTrigger (e : EventCond T Y F) (t : T) (y : Y) (t' : T) (y' : Y) : Prop :=
  match e with
  | .bool c => c t' y' = true
  | .flt c dir => Crosses dir (c t y) (c t' y')

end Verif
