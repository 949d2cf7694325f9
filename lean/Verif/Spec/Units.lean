import Verif.Spec.Loop
import Mathlib.Data.List.Forall2
import Mathlib.Data.Option.Basic

/-!
# The same problem in other units

What it means that two problems are the same one, written in other units: times are counted from another origin and in
another unit, and the state is written in other coordinates.
-/

namespace Verif

/-- How what occurs in a solve is written in the other units. -/
structure Units (T T' Y Y' E E' D D' S S' C C' : Type) where
  time : T → T'
  y : Y → Y'
  err : E → E'
  dense : D → D'
  state : S → S'
  ctrl : C → C'

variable {T T' Y Y' E E' D D' S S' C C' O F : Type}

def StepOut.inUnits (u : Units T T' Y Y' E E' D D' S S' C C') (o : StepOut Y E D S) : StepOut Y' E' D' S' :=
  { y := u.y o.y, err := u.err o.err, dense := u.dense o.dense, state := u.state o.state, result := o.result }

def AdaptOut.inUnits (u : Units T T' Y Y' E E' D D' S S' C C') (o : AdaptOut T C) : AdaptOut T' C' :=
  { keep := o.keep, tprev := u.time o.tprev, tnext := u.time o.tnext, madeJump := o.madeJump, state := u.ctrl o.state
    result := o.result }

def Core.inUnits (u : Units T T' Y Y' E E' D D' S S' C C') (s : Core T Y D S C F) : Core T' Y' D' S' C' F :=
  { y := u.y s.y, tprev := u.time s.tprev, tnext := u.time s.tnext, madeJump := s.madeJump
    solverState := u.state s.solverState, ctrlState := u.ctrl s.ctrlState, result := s.result, numSteps := s.numSteps
    numAccepted := s.numAccepted, numRejected := s.numRejected, evTprev := u.time s.evTprev, evTnext := u.time s.evTnext
    evDense := u.dense s.evDense, evVals := s.evVals, evMask := s.evMask }

def DenseState.inUnits (u : Units T T' Y Y' E E' D D' S S' C C') (d : DenseState T D) : DenseState T' D' :=
  { ts := d.ts.map (·.map u.time), infos := d.infos.map (·.map u.dense), index := d.index }

def Slot.inUnits (f : T → T') : Slot T O → Slot T' O
  | .empty => .empty
  | .deleted => .deleted
  | .val t o => .val (f t) o

def SaveState.inUnits (f : T → T') (s : SaveState T O) : SaveState T' O :=
  { tsIndex := s.tsIndex, buf := s.buf.map (·.inUnits f), saveIndex := s.saveIndex }

/-- The output in the other units: the counters, the results, and what the functions `fn` of the user return are the same. -/
def Output.inUnits (u : Units T T' Y Y' E E' D D' S S' C C') (o : Output T Y D S C O F) : Output T' Y' D' S' C' O F :=
  { core := o.core.inUnits u, tfinal := u.time o.tfinal, yfinal := u.y o.yfinal, result := o.result
    saves := o.saves.map (·.inUnits u.time), dense := o.dense.inUnits u }

/-- An event condition of the problem in the other units, as one for the original problem. -/
def EventCond.fromUnits (f : T → T') (g : Y → Y') : EventCond T' Y' F → EventCond T Y F
  | .bool c => .bool fun t y => c (f t) (g y)
  | .flt c d => .flt (fun t y => c (f t) (g y)) d

/-- The solver does the same in both units. -/
structure Solver.Same (u : Units T T' Y Y' E E' D D' S S' C C') (sv : Solver T Y E D S) (sv' : Solver T' Y' E' D' S') :
    Prop where
  step : ∀ a b y s j, sv'.step (u.time a) (u.time b) (u.y y) (u.state s) j = (sv.step a b y s j).inUnits u
  interp : ∀ a b d t, sv'.interp (u.time a) (u.time b) (u.dense d) (u.time t) = u.y (sv.interp a b d t)

/-- Two lists of numbers agree, except that some entries may be written in another unit. -/
def SameValues (scale : F → F) (a b : List F) : Prop := List.Forall₂ (fun x y => x = y ∨ x = scale y) a b

/-- A root finder does the same in both units. -/
def SameFinder (f : T → T') (scale : F → F) (find : (T → List F) → T → T → T × Option Result)
    (find' : (T' → List F) → T' → T' → T' × Option Result) : Prop :=
  ∀ g g' a b, (∀ t, SameValues scale (g' (f t)) (g t)) → find' g' (f a) (f b) = (f (find g a b).1, (find g a b).2)

/-- What is to be saved is the same. -/
structure SubSaveAt.Same (f : T → T') (g : Y → Y') (s : SubSaveAt T Y O) (s' : SubSaveAt T' Y' O) : Prop where
  t0 : s'.t0 = s.t0
  t1 : s'.t1 = s.t1
  ts : s'.ts = s.ts.map f
  steps : s'.steps = s.steps
  fn : ∀ t y, s'.fn (f t) (g y) = s.fn t y

/-- The problem `cfg'` is the problem `cfg` in other units. Differences of times, which are the values whose zero is sought if an
event is boolean, are scaled by `scale`. -/
structure Cfg.Same (u : Units T T' Y Y' E E' D D' S S' C C') (scale : F → F) (cfg : Cfg T Y E D S C O F)
    (cfg' : Cfg T' Y' E' D' S' C' O F) : Prop where
  solver : cfg.solver.Same u cfg'.solver
  adapt : ∀ a b y0 y1 e c, cfg'.controller.adapt (u.time a) (u.time b) (u.y y0) (u.y y1) (cfg'.cleanErr (u.err e)) (u.ctrl c)
    = (cfg.controller.adapt a b y0 y1 (cfg.cleanErr e) c).inUnits u
  stepTo : cfg'.controller.stepTo = cfg.controller.stepTo
  events : cfg.events = cfg'.events.map (·.fromUnits u.time u.y)
  subs : List.Forall₂ (SubSaveAt.Same u.time u.y) cfg.subs cfg'.subs
  rootFinder : Option.Rel (SameFinder u.time scale) cfg.rootFinder cfg'.rootFinder
  dist : ∀ a b, cfg'.dist (u.time a) (u.time b) = scale (cfg.dist a b)
  dummy : cfg'.dummyDense = u.dense cfg.dummyDense
  t0 : cfg'.t0 = u.time cfg.t0
  t1 : cfg'.t1 = u.time cfg.t1
  floor : cfg'.floor = u.time cfg.floor
  mid : ∀ a b, cfg'.mid (u.time a) (u.time b) = u.time (cfg.mid a b)
  dense : cfg'.dense = cfg.dense
  maxSteps : cfg'.maxSteps = cfg.maxSteps

end Verif
