import Verif.Spec.Loop

/-!
# Part of a system

What it means that one problem is part of another one: its state is a function of the state of the larger problem, which
holds further quantities on which it does not depend.
-/

namespace Verif

/-- How to obtain the states, error estimates, dense information and solver states of the part. -/
structure Part (Y Y' E E' D D' S S' : Type) where
  y : Y → Y'
  err : E → E'
  dense : D → D'
  state : S → S'

variable {T Y Y' E E' D D' S S' C O F : Type}

def StepOut.part (π : Part Y Y' E E' D D' S S') (o : StepOut Y E D S) : StepOut Y' E' D' S' :=
  { y := π.y o.y, err := π.err o.err, dense := π.dense o.dense, state := π.state o.state, result := o.result }

def Core.part (π : Part Y Y' E E' D D' S S') (s : Core T Y D S C F) : Core T Y' D' S' C F :=
  { y := π.y s.y, tprev := s.tprev, tnext := s.tnext, madeJump := s.madeJump, solverState := π.state s.solverState
    ctrlState := s.ctrlState, result := s.result, numSteps := s.numSteps, numAccepted := s.numAccepted
    numRejected := s.numRejected, evTprev := s.evTprev, evTnext := s.evTnext, evDense := π.dense s.evDense
    evVals := s.evVals, evMask := s.evMask }

def DenseState.part (π : Part Y Y' E E' D D' S S') (d : DenseState T D) : DenseState T D' :=
  { ts := d.ts, infos := d.infos.map (·.map π.dense), index := d.index }

/-- The output of the part: all times, counters and results are the same. -/
def Output.part (π : Part Y Y' E E' D D' S S') (o : Output T Y D S C O F) : Output T Y' D' S' C O F :=
  { core := o.core.part π, tfinal := o.tfinal, yfinal := π.y o.yfinal, result := o.result, saves := o.saves
    dense := o.dense.part π }

/-- An event condition on the part, as one on the whole. -/
def EventCond.onWhole (f : Y → Y') : EventCond T Y' F → EventCond T Y F
  | .bool c => .bool fun t y => c t (f y)
  | .flt c d => .flt (fun t y => c t (f y)) d

/-- A `SubSaveAt` of the part, as one of the whole. -/
def SubSaveAt.onWhole (f : Y → Y') (s : SubSaveAt T Y' O) : SubSaveAt T Y O :=
  { t0 := s.t0, t1 := s.t1, ts := s.ts, steps := s.steps, fn := fun t y => s.fn t (f y) }

/-- The solver treats the part as if it were alone. -/
structure Solver.IsPart (π : Part Y Y' E E' D D' S S') (sv : Solver T Y E D S) (sv' : Solver T Y' E' D' S') : Prop where
  step : ∀ a b y s j, sv'.step a b (π.y y) (π.state s) j = (sv.step a b y s j).part π
  interp : ∀ a b d t, sv'.interp a b (π.dense d) t = π.y (sv.interp a b d t)

/-- The problem `cfg'` is part of the problem `cfg`: the solver and the step size controller do with it what they do with it
alone, and only it is saved and seen by events. -/
structure Cfg.IsPart (π : Part Y Y' E E' D D' S S') (cfg : Cfg T Y E D S C O F) (cfg' : Cfg T Y' E' D' S' C O F) : Prop where
  solver : cfg.solver.IsPart π cfg'.solver
  adapt : ∀ a b y0 y1 e c, cfg'.controller.adapt a b (π.y y0) (π.y y1) (cfg'.cleanErr (π.err e)) c
    = cfg.controller.adapt a b y0 y1 (cfg.cleanErr e) c
  stepTo : cfg'.controller.stepTo = cfg.controller.stepTo
  events : cfg.events = cfg'.events.map (·.onWhole π.y)
  subs : cfg.subs = cfg'.subs.map (·.onWhole π.y)
  rootFinder : cfg'.rootFinder = cfg.rootFinder
  dist : cfg'.dist = cfg.dist
  dummy : cfg'.dummyDense = π.dense cfg.dummyDense
  t0 : cfg'.t0 = cfg.t0
  t1 : cfg'.t1 = cfg.t1
  floor : cfg'.floor = cfg.floor
  mid : cfg'.mid = cfg.mid
  dense : cfg'.dense = cfg.dense
  maxSteps : cfg'.maxSteps = cfg.maxSteps

end Verif
