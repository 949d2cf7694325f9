import Verif.Model.Front
import Verif.Lemmas.Sim

/-!
# Specifications for the front end
-/

namespace Verif

variable {T Y VF Ct E D S C O F : Type} {m : Nat}

/-- `B` is `A` with vector field values and controls multiplied by the same sign. -/
structure TermSign [AddCommGroup VF] [AddCommGroup Ct] (A B : Term T Y VF Ct) (ε : Int) : Prop where
  sign : ε = 1 ∨ ε = -1
  vf : ∀ t y, B.vf t y = ε • A.vf t y
  contr : ∀ t0 t1, B.contr t0 t1 = ε • A.contr t0 t1
  prod : B.prod = A.prod
  vfProd : ∀ t y c, B.vfProd t y (ε • c) = A.vfProd t y c
  expensive : B.vfExpensive = A.vfExpensive
  bilinear : ∀ v c, A.prod (-v) (-c) = A.prod v c

/-- A solver whose steps do not change (but for its internal state) if vector field values and controls of
some terms change sign together. All that a solver should use are their products. -/
def SolverClass.SignInvariant [AddCommGroup VF] [AddCommGroup Ct] (sc : SolverClass m T Y VF Ct E D S) : Prop :=
  ∀ (A B : Fin m → Term T Y VF Ct) (ε : Fin m → Int), (∀ i, TermSign (A i) (B i) (ε i)) →
    ∃ R : S → S → Prop, (∀ t0 t1 y0, R (sc.init A t0 t1 y0) (sc.init B t0 t1 y0)) ∧
      ∀ s s', R s s' → ∀ t0 t1 y mj, (sc.step A t0 t1 y s mj).Agree (sc.step B t0 t1 y s' mj) ∧
        R (sc.step A t0 t1 y s mj).state (sc.step B t0 t1 y s' mj).state

variable [Ring T] [LinearOrder T] [LinearOrder F] [Zero F] [AddCommGroup Ct] [AddCommGroup VF]

/-- `ODETerm(f)`. -/
def odeK (f : T → VF → VF) [Module T VF] : KTerm T VF VF T where
  vf := f
  contr t0 t1 := t1 - t0
  prod v c := c • v
  vfProd t y c := c • f t y
  cls := .ode

/-- `ControlTerm(f, path)`, where `path` is a function of time. -/
def controlK (f : T → Y → VF) (prod : VF → Ct → Y) (path : T → Ct) : KTerm T Y VF Ct where
  vf := f
  contr t0 t1 := path t1 - path t0
  prod := prod
  vfProd t y c := prod (f t y) c
  cls := .control

/-- `k'` describes, in the time `s = -t`, what `k` describes in the time `t`: with `ε = -1` the vector field
changes sign (`ODETerm`), with `ε = 1` the control does (`ControlTerm`). -/
structure KTerm.MirrorOf (k k' : KTerm T Y VF Ct) (ε : Int) : Prop where
  sign : ε = 1 ∨ ε = -1
  vf : ∀ s y, k'.vf s y = ε • k.vf (-s) y
  contr : ∀ s0 s1, k'.contr s0 s1 = (-ε) • k.contr (-s1) (-s0)
  prod : k'.prod = k.prod
  vfProd : ∀ s y c, k'.vfProd s y c = k.vfProd (-s) y (ε • c)
  expensive : k'.vfExpensive = k.vfExpensive
  bilinear : ∀ v c, k.prod (-v) (-c) = k.prod v c

/-- The same condition, of the negated time. -/
def EventCond.mirror (e : EventCond T Y F) : EventCond T Y F :=
  match e with
  | .bool c => .bool (fun t y => c (-t) y)
  | .flt c d => .flt (fun t y => c (-t) y) d

/-- A condition on the state only. -/
def EventCond.Autonomous (e : EventCond T Y F) : Prop :=
  match e with
  | .bool c => ∀ t t' y, c t y = c t' y
  | .flt c _ => ∀ t t' y, c t y = c t' y

/-- A controller that does not look inside terms that are wrapped. -/
def WrappedController.Blind (w : WrappedController m T Y VF Ct E C) : Prop :=
  ∀ terms terms' : Fin m → KTerm T Y VF Ct, (∀ i, (terms i).cls = .wrap) → (∀ i, (terms' i).cls = .wrap) →
    ∀ t0 t1 y dt0, w.init terms t0 t1 y dt0 = w.init terms' t0 t1 y dt0

/-- `p'` is `p` with time running the other way. -/
structure Problem.MirrorOf (p p' : Problem m T Y VF Ct E D S C O F) : Prop where
  terms : ∃ ε : Fin m → Int, ∀ i, (p.terms i).MirrorOf (p'.terms i) (ε i)
  solver : p'.solver = p.solver
  controller : p'.controller 1 = p.controller (-1)
  blind : ∀ w, p.controller (-1) = .ok w → w.Blind
  t0 : p'.t0 = -p.t0
  t1 : p'.t1 = -p.t1
  dt0 : p'.dt0 = p.dt0.map (- ·)
  y0 : p'.y0 = p.y0
  subs : p'.subs = p.subs.map (fun s => { s with ts := s.ts.map (- ·), fn := fun t y => s.fn (-t) y })
  dense : p'.dense = p.dense
  events : p'.events = p.events.map EventCond.mirror
  autonomous : ∀ e ∈ p.events, e.Autonomous
  rootFinder : p'.rootFinder = p.rootFinder
  dist : p'.dist = p.dist
  maxSteps : p'.maxSteps = p.maxSteps
  cleanErr : p'.cleanErr = p.cleanErr
  floorOf : p'.floorOf = p.floorOf
  mid : p'.mid = p.mid
  solverState : p.solverState = none ∧ p'.solverState = none
  ctrlState : p'.ctrlState = p.ctrlState
  madeJump : p'.madeJump = p.madeJump

/-- The solution `s'` is the solution `s` with all times negated. -/
structure Sol.MirrorOf (s s' : Sol T Y D S C O F) : Prop where
  t0 : s'.t0 = -s.t0
  t1 : s'.t1 = -s.t1
  saved : s'.saved = s.saved.map (fun l => l.map (Slot.scale (-1)))
  evaluate : ∀ t left, s'.evaluate t left = s.evaluate (-t) left
  numSteps : s'.numSteps = s.numSteps
  numAccepted : s'.numAccepted = s.numAccepted
  numRejected : s'.numRejected = s.numRejected
  result : s'.result = s.result
  ctrlState : s'.ctrlState = s.ctrlState
  madeJump : s'.madeJump = s.madeJump
  eventMask : s'.eventMask = s.eventMask

/-- Both are solutions, mirroring each other, or both are the same error. -/
def MirrorResult (a b : Except FrontError (Sol T Y D S C O F)) : Prop :=
  match a, b with
  | .ok s, .ok s' => s.MirrorOf s'
  | .error e, .error e' => e = e'
  | _, _ => False

/-- Requested times as `diffeqsolve` wants them: in the order of integration, and within the interval. -/
def Problem.TsValid (p : Problem m T Y VF Ct E D S C O F) : Prop :=
  ∀ s ∈ p.subs, (p.t0 < p.t1 → s.ts.Pairwise (· ≤ ·) ∧ ∀ t ∈ s.ts, p.t0 ≤ t ∧ t ≤ p.t1) ∧
    (¬ p.t0 < p.t1 → s.ts.Pairwise (· ≥ ·) ∧ ∀ t ∈ s.ts, p.t1 ≤ t ∧ t ≤ p.t0)

end Verif
