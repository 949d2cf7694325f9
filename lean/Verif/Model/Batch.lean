import Verif.Model.RK
import Verif.Model.Solvers
import Verif.Model.Langevin

/-!
# Model of `jax.vmap` over a solve

`jax.vmap(diffeqsolve)` runs one loop for the whole batch. Its body is executed for every element ("lane") of
the batch until no lane wants to go on; lanes that do not want to go on keep their state (the batching rule of
while loops: `select(cond, body(state), state)`). Most operations act on each lane separately. The exceptions are
the `unvmap_any` and `unvmap_all` in diffrax, through which lanes see each other:

* whether to evaluate the first stage of a Runge-Kutta step (`_solver/runge_kutta.py` 687);
* whether to recompute the coefficients and the force of a Langevin solver (`foster_langevin_srk.py` 223, 393, 411);
* whether to evaluate the function to be saved (`_integrate.py` 503);
* whether to run the event root finder (`_integrate.py` 792);
* whether to look at solves with `t0 == t1` (`_integrate.py` 834).

The lanes' configurations may differ in everything (JAX makes the static parts agree). Each is as in
`Model/Loop.lean`, with its simplifications. While loops inside of the body (saving at `ts`, root finders) act on
each lane separately, so they are those of the single solve. `_global_interpolation.py` 375 and the progress meters
(`Model/Progress.lean`) are left out here.
-/

namespace Verif

variable {n : ℕ} {T Y E D S C O F : Type}

/-- `eqxi.unvmap_any`. -/
def unvmapAny (p : Fin n → Bool) : Bool := (List.finRange n).any p

/-- `eqxi.unvmap_all`. -/
def unvmapAll (p : Fin n → Bool) : Bool := (List.finRange n).all p

/-- The arguments of `solver.step` in one lane (`_integrate.py` 373-381). -/
structure StepCall (T Y S : Type) where
  t0 : T
  t1 : T
  y0 : Y
  state : S
  madeJump : Bool

/-- `solver.step` on a whole batch. -/
abbrev BatchStep (n : ℕ) (T Y E D S : Type) := (Fin n → StepCall T Y S) → Fin n → StepOut Y E D S

/-! ### Solvers -/

/-- A solver without communication between lanes: all of them but those below. -/
def laneStep (solver : Fin n → Solver T Y E D S) : BatchStep n T Y E D S := fun calls i =>
  (solver i).step (calls i).t0 (calls i).t1 (calls i).y0 (calls i).state (calls i).madeJump

/-- `AbstractRungeKutta.step` (`runge_kutta.py` 446-1203). `made_jump` and `first_step` are only used in
`eval_first_stage = eqxi.unvmap_any(first_step | made_jump)` (687), which replaces them here. -/
def rkBatch {m : ℕ} {K VF Ct J : Type} [Field K] [DecidableEq K] [AddCommGroup Y] [Module K Y]
    [AddCommGroup VF] [Module K VF] (rk : Fin n → RK m T K Y VF Ct J) :
    BatchStep n T Y (Option Y) (RK.Dense m Y) (RK.State m VF) := fun calls =>
  let evalFirst := unvmapAny fun i => ((calls i).state.getD (true, fun _ => 0)).1 || (calls i).madeJump
  fun i => (rk i).step (calls i).t0 (calls i).t1 (calls i).y0
    ((calls i).state.map fun st => (evalFirst, st.2)) evalFirst

/-- `HalfSolver.step` (`base.py` 313-341) around a solver. -/
def halfBatch {E' : Type} (half : T → T → T) (dist : Y → Y → E') (step : BatchStep n T Y E D S) :
    BatchStep n T Y E' D S := fun calls =>
  let o1 := step fun i => { calls i with t1 := half (calls i).t0 (calls i).t1 }
  let o2 := step fun i => { t0 := half (calls i).t0 (calls i).t1, t1 := (calls i).t1, y0 := (o1 i).y,
                            state := (o1 i).state, madeJump := false }
  let o3 := step calls
  fun i =>
    { y := (o2 i).y
      err := dist (o2 i).y (o3 i).y
      dense := (o3 i).dense
      state := (o2 i).state
      result := (o1 i).result.update ((o2 i).result.update (o3 i).result) }

open Classical in
/-- `_recompute_coeffs` (`foster_langevin_srk.py` 184-244) for one entry of `gamma`, given
`eqxi.unvmap_all(cond)` (223). -/
noncomputable def LangevinSolver.recomputeB {Co : Type} (sv : LangevinSolver Co) (all : Bool) (h c : ℝ) : Co :=
  let tay := sv.taylor h c
  if all then tay else if h * c < sv.threshold then tay else sv.direct h c

open Classical in
/-- `step` (`foster_langevin_srk.py` 365-443) of a solver that stores the force, with `made_jump` traced. -/
noncomputable def langevinBatch {Co : Type} {d : ℕ} (sv : LangevinSolver Co) (T : Fin n → LangevinTerms d) :
    BatchStep n ℝ (RVec d × RVec d) (Option (RVec d × RVec d)) ((RVec d × RVec d) × (RVec d × RVec d))
      (LangevinState d Co) := fun calls =>
  let h := fun i => (T i).contr (calls i).t0 (calls i).t1
  -- 391-397
  let allClose := unvmapAll fun i => decide (LangevinSolver.isclose (calls i).state.h (h i))
  let allSmall : Fin d → Bool := fun k => unvmapAll fun i => decide (h i * (T i).gamma k < sv.threshold)
  let co := fun i => if allClose then (calls i).state.coeffs
    else fun k => sv.recomputeB (allSmall k) (h i) ((T i).gamma k)
  -- 410-412
  let anyJump := unvmapAny fun i => (calls i).madeJump
  let prevF := fun i => if anyJump then some ((T i).gradF (calls i).y0.1) else (calls i).state.prevF
  fun i =>
    let c := calls i
    let o := sv.compute (h i) ((T i).levy c.t0 c.t1) c.y0.1 c.y0.2 (T i) (co i) (prevF i)
    { y := (o.x, o.v), err := o.err, dense := (c.y0, (o.x, o.v)),
      state := { h := h i, coeffs := co i, prevF := o.fFsal }, result := .successful }

/-! ### The loop -/

section
variable [LinearOrder T] [LinearOrder F] [Zero F]

/-- The loop body of one lane (`body_fun_aux`, 365-656), given what `solver.step` returned for it. -/
def laneCore (cfg : Cfg T Y E D S C O F) (out : StepOut Y E D S) (s : Core T Y D S C F) :
    Core T Y D S C F × StepInfo T Y D :=
  coreBody { cfg with solver := { cfg.solver with step := fun _ _ _ _ _ => out } } s

/-- `should_save` (495-496). -/
def shouldSave (sub : SubSaveAt T Y O) (i : StepInfo T Y D) : Bool :=
  i.keep && decide (i.numAccepted % sub.steps = 0)

/-- `save_steps` (493-524), given `eqxi.unvmap_any(should_save)` (503). `zero` is the `zeros_like` of 505. -/
def saveStepsB (zero : O) (any : Bool) (sub : SubSaveAt T Y O) (i : StepInfo T Y D) (s : SaveState T O) :
    SaveState T O :=
  if sub.steps ≠ 0 then
    let yToSave := if sub.steps = 1 then sub.fn i.tprev i.y
      else if any then sub.fn i.tprev i.y else zero
    if shouldSave sub i then
      { s with buf := s.buf.set s.saveIndex (.val i.tprev yToSave), saveIndex := s.saveIndex + 1 }
    else s
  else s

/-- `body_fun` (365-662, 681-683) on the batch. -/
def bodyB (cfg : Fin n → Cfg T Y E D S C O F) (step : BatchStep n T Y E D S) (zero : O)
    (s : Fin n → LState T Y D S C O F) : Fin n → LState T Y D S C O F :=
  let out := step fun i =>
    { t0 := (s i).core.tprev, t1 := (s i).core.tnext, y0 := (s i).core.y, state := (s i).core.solverState
      madeJump := (s i).core.madeJump }
  let r := fun i => laneCore (cfg i) (out i) (s i).core
  let anySave : ℕ → Bool := fun j => unvmapAny fun i =>
    ((cfg i).subs[j]?.map fun sub => shouldSave sub (r i).2).getD false
  fun i =>
    { core := (r i).1
      saves := List.zipWith (fun (p : SubSaveAt T Y O × ℕ) sv =>
        saveStepsB zero (anySave p.2) p.1 (r i).2 (saveTs (cfg i) p.1 (r i).2 sv))
        (cfg i).subs.zipIdx (s i).saves
      dense := saveDense (cfg i).dense (r i).2 (s i).dense }

/-- `outer_while_loop(cond_fun, body_fun, init_state, max_steps=max_steps)` (685-687) on the batch. -/
def whileLoopB (cfg : Fin n → Cfg T Y E D S C O F) (step : BatchStep n T Y E D S) (zero : O) :
    ℕ → (Fin n → LState T Y D S C O F) → Fin n → LState T Y D S C O F
  | 0, s => s
  | k + 1, s =>
    if unvmapAny fun i => condFun (cfg i) (s i).core then
      let s' := bodyB cfg step zero s
      whileLoopB cfg step zero k fun i => if condFun (cfg i) (s i).core then s' i else s i
    else s

/-- `_root_find` (702-788) in one lane. -/
def rootFindLane (cfg : Cfg T Y E D S C O F) (find : (T → List F) → T → T → T × Option Result)
    (s : Core T Y D S C F) : T × Y × Result :=
  let r := find (toRootFind cfg s (s.evMask.any id)) s.evTprev s.evTnext
  let yfinal := if s.numSteps = 0 then s.y else cfg.solver.interp s.evTprev s.evTnext s.evDense r.1
  let result := match r.2 with
    | none => s.result
    | some e => e
  (r.1, yfinal, result)

/-- Lines 691-795 in one lane, given `eqxi.unvmap_any(event_happened)` (792). -/
def finaliseB (cfg : Cfg T Y E D S C O F) (anyEvent : Bool) (s : Core T Y D S C F) : T × Y × Result :=
  match cfg.rootFinder with
  | none => (s.tprev, s.y, s.result)
  | some find => if anyEvent then rootFindLane cfg find s else (s.tprev, s.y, s.result)

/-- `loop` (302-885) on the batch. -/
def loopB (cfg : Fin n → Cfg T Y E D S C O F) (step : BatchStep n T Y E D S) (zero : O) (maxSteps : ℕ)
    (init : Fin n → LState T Y D S C O F) : Fin n → Output T Y D S C O F :=
  -- 324-341
  let init : Fin n → LState T Y D S C O F := fun i =>
    { init i with
      saves := List.zipWith (fun sub sv => saveT0 (cfg i) (init i).core.y sub sv) (cfg i).subs (init i).saves
      dense := if (cfg i).dense then { (init i).dense with ts := (init i).dense.ts.set 0 (some (cfg i).t0) }
               else (init i).dense }
  -- 685-687
  let fin := whileLoopB cfg step zero maxSteps init
  -- 691-795
  let anyEvent := unvmapAny fun i => (fin i).core.evMask.any id
  -- 834
  let anyTrivial := unvmapAny fun i => decide ((cfg i).t0 = (cfg i).t1)
  fun i =>
    let f := finaliseB (cfg i) anyEvent (fin i).core
    -- 797-821
    let saves := match (cfg i).rootFinder with
      | none => (fin i).saves
      | some _ => (fin i).saves.map (unsave f.1)
    -- 833-845, 877
    let saves := List.zipWith (fun sub sv =>
      saveT1 (cfg i) (fin i).core.numAccepted f.1 f.2.1 sub
        (if anyTrivial then saveIfT0EqT1 (cfg i) f.2.1 sub sv else sv)) (cfg i).subs saves
    { core := (fin i).core, tfinal := f.1, yfinal := f.2.1
      -- 883
      result := if condFun (cfg i) (fin i).core then .maxStepsReached else f.2.2
      saves := saves, dense := (fin i).dense }

/-- What varies from lane to lane besides the configuration. -/
structure Start (T Y S C : Type) where
  y0 : Y
  tnext : T
  ctrl : C
  state : S
  madeJump : Bool

/-- `jax.vmap(diffeqsolve)` (890-1543 on the batch). `max_steps` is static, so shared. -/
def solveB (cfg : Fin n → Cfg T Y E D S C O F) (step : BatchStep n T Y E D S) (zero : O) (maxSteps : ℕ)
    (start : Fin n → Start T Y S C) : Fin n → Output T Y D S C O F :=
  loopB cfg step zero maxSteps fun i =>
    initState (cfg i) (start i).y0 (start i).tnext (start i).ctrl (start i).state (start i).madeJump

end
end Verif
