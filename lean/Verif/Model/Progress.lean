import Mathlib.Algebra.Order.Field.Basic
import Mathlib.Data.Finset.Lattice.Fold
import Mathlib.Data.Fintype.Basic

/-!
# Model of the progress meters (`/repo/diffrax/_progress_meter.py`)

The manager lives on the host and is shared by all solves; its methods hold a lock, so calls happen one after the
other. Left out: callbacks and their ordering (`io_callback`, `pure_callback`), `int32` overflow of the counter,
the formatting of numbers, and what `tqdm` does with its bar.
-/

namespace Verif

/-- The host-side part of a meter: `_init_bar`, `_step_bar` and `_close_bar` (112-114, 120-129, 157-160 for the text
meter), each with what it prints. -/
structure MeterFns (B P O : Type) where
  initBar : B × List O
  stepBar : B → P → B × List O
  closeBar : B → List O

/-- `_ProgressMeterManager` (252-259). -/
structure Manager (B : Type) where
  idx : ℕ
  bars : ℕ → Option B

namespace Manager
variable {B P O : Type}

/-- `__init__` (255-257). -/
def new : Manager B := { idx := 0, bars := fun _ => none }

def set (m : Manager B) (i : ℕ) (b : Option B) : Manager B :=
  { m with bars := fun j => if j = i then b else m.bars j }

/-- `init` (261-273): the new manager, the index handed out, and what is printed. -/
def init (f : MeterFns B P O) (m : Manager B) : Manager B × ℕ × List O :=
  let bar := f.initBar
  let m := { m with idx := m.idx + 1 }
  (m.set m.idx (some bar.1), m.idx, bar.2)

/-- `step` (275-303). -/
def step (f : MeterFns B P O) (m : Manager B) (p : P) (i : ℕ) : Manager B × List O :=
  match m.bars i with
  | none => (m, [])
  | some bar => let r := f.stepBar bar p; (m.set i (some r.1), r.2)

/-- `close` (305-315); `none` is a `KeyError`. -/
def close (f : MeterFns B P O) (m : Manager B) (i : ℕ) : Option (Manager B × List O) :=
  match m.bars i with
  | none => none
  | some bar => some (m.set i none, f.closeBar bar)

end Manager

/-! ### Solves that use the manager -/

/-- What a solve does with its meter. -/
inductive MeterCall (P : Type) where
  | init
  | step (p : P)
  | close

/-- What comes of it. -/
inductive MeterEvent (O : Type) where
  | printed (o : List O)
  | keyError

/-- The manager together with the index that each solve has been given. -/
structure MeterSys (Tid B : Type) where
  manager : Manager B
  held : Tid → Option ℕ

variable {Tid B P O : Type} [DecidableEq Tid]

/-- One call by solve `τ`, with its own index. Steps and closes come after the solve's `init`, whose result they take. -/
def MeterSys.call (f : MeterFns B P O) (s : MeterSys Tid B) (τ : Tid) : MeterCall P → MeterSys Tid B × MeterEvent O
  | .init =>
    let r := s.manager.init f
    ({ manager := r.1, held := fun σ => if σ = τ then some r.2.1 else s.held σ }, .printed r.2.2)
  | .step p =>
    match s.held τ with
    | none => (s, .printed [])
    | some i => let r := s.manager.step f p i; ({ s with manager := r.1 }, .printed r.2)
  | .close =>
    match s.held τ with
    | none => (s, .printed [])
    | some i =>
      match s.manager.close f i with
      | none => (s, .keyError)
      | some r => ({ s with manager := r.1 }, .printed r.2)

def MeterSys.start : MeterSys Tid B := { manager := .new, held := fun _ => none }

/-- Any number of solves, whose calls are interleaved in any way; the log of what happens. -/
def MeterSys.run (f : MeterFns B P O) : MeterSys Tid B → List (Tid × MeterCall P) →
    MeterSys Tid B × List (Tid × MeterEvent O)
  | s, [] => (s, [])
  | s, (τ, c) :: rest =>
    let r := s.call f τ c
    let r' := MeterSys.run f r.1 rest
    (r'.1, (τ, r.2) :: r'.2)

/-! ### The meters -/

variable {K : Type} [Field K] [LinearOrder K]

/-- `TextProgressMeter._init_bar`, `_step_bar`, `_close_bar` (112-114, 120-129, 157-160): the bar is the number last
printed. -/
def textFns : MeterFns K K K where
  initBar := (0, [0])
  stepBar _ p := (p, [p])
  closeBar bar := if bar ≠ 1 then [1] else []

/-- `TextProgressMeter.step` (131-155), not batched: the new `state.progress`, and the number given to the manager. -/
def textStep (minInc : K) (last p : K) : K × Option K :=
  if minInc < p - last ∨ p = 1 then (p, some p) else (last, none)

/-- The calls of the manager made by a solve with a text meter, `ps` being the progress after each attempted step
(`_integrate.py` 415-417, 1330, 1478). -/
def textCalls (minInc : K) : K → List K → List (MeterCall K)
  | _, [] => [.close]
  | last, p :: ps =>
    match (textStep minInc last p).2 with
    | none => textCalls minInc (textStep minInc last p).1 ps
    | some q => .step q :: textCalls minInc (textStep minInc last p).1 ps

def textSolve (minInc : K) (ps : List K) : List (MeterCall K) := .init :: textCalls minInc 0 ps

/-- `TextProgressMeter.step` in a batched solve. Each lane has its `state.progress`, its progress, and whether it is still
running; a lane that is not keeps its state (`lax.while_loop`). The number printed is the smallest progress
(`_unvmap_min`). -/
def textBatch {n : ℕ} (minInc : K) (last p : Fin (n + 1) → K) (running : Fin (n + 1) → Bool) :
    (Fin (n + 1) → K) × Option K :=
  if ∀ i, minInc < p i - last i ∨ p i = 1 then
    (fun i => if running i then p i else last i, some (Finset.univ.inf' Finset.univ_nonempty p))
  else (last, none)

/-- The numbers given to the manager in a batched solve. -/
def textBatchRun {n : ℕ} (minInc : K) : (Fin (n + 1) → K) → List ((Fin (n + 1) → K) × (Fin (n + 1) → Bool)) → List K
  | _, [] => []
  | last, r :: rest =>
    (textBatch minInc last r.1 r.2).2.toList ++ textBatchRun minInc (textBatch minInc last r.1 r.2).1 rest

/-- `TqdmProgressMeter.step` (208-228): the new `state.step`, and the number given to the manager. -/
def tqdmStep (refresh : ℕ) (step : ℕ) (p : K) : ℕ × Option K :=
  (step + 1, if step % refresh = 0 then some p else none)

end Verif
