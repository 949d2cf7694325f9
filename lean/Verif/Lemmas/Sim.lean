import Verif.Lemmas.Log

/-!
# Simulation: two solvers that agree on everything but their internal state

If two solvers give the same values, errors, dense information and results from related internal states,
then whole solves agree on everything but the final internal state.
-/

set_option linter.unusedSectionVars false

namespace Verif

variable {T Y E D S S' C O F : Type} [LinearOrder T] [LinearOrder F] [Zero F]

/-- The same problem with another solver (and the same interpolation). -/
def Cfg.withStep (cfg : Cfg T Y E D S C O F)
    (step : T → T → Y → S' → Bool → StepOut Y E D S') : Cfg T Y E D S' C O F :=
  { solver := { step := step, interp := cfg.solver.interp }
    controller := cfg.controller, cleanErr := cfg.cleanErr, events := cfg.events
    rootFinder := cfg.rootFinder, dist := cfg.dist, dummyDense := cfg.dummyDense, t0 := cfg.t0
    t1 := cfg.t1, floor := cfg.floor, mid := cfg.mid, subs := cfg.subs, dense := cfg.dense
    maxSteps := cfg.maxSteps }

/-- The same state, but for the solver's internal state. -/
def Core.withState (s : Core T Y D S C F) (x : S') : Core T Y D S' C F :=
  { y := s.y, tprev := s.tprev, tnext := s.tnext, madeJump := s.madeJump, solverState := x
    ctrlState := s.ctrlState, result := s.result, numSteps := s.numSteps
    numAccepted := s.numAccepted, numRejected := s.numRejected, evTprev := s.evTprev
    evTnext := s.evTnext, evDense := s.evDense, evVals := s.evVals, evMask := s.evMask }

/-- Everything a solve returns, but for the solver's final internal state. -/
def Output.forget (o : Output T Y D S C O F) : Output T Y D Unit C O F :=
  { core := o.core.withState (), tfinal := o.tfinal, yfinal := o.yfinal, result := o.result
    saves := o.saves, dense := o.dense }

/-- Two steps agree on all but the new internal state. -/
structure StepOut.Agree (a : StepOut Y E D S) (b : StepOut Y E D S') : Prop where
  y : a.y = b.y
  err : a.err = b.err
  dense : a.dense = b.dense
  result : a.result = b.result

theorem coreBody_sim (cfg : Cfg T Y E D S C O F) (step : T → T → Y → S' → Bool → StepOut Y E D S')
    (s : Core T Y D S C F) (x : S')
    (h : (solverOut cfg s).Agree (step s.tprev s.tnext s.y x s.madeJump)) :
    coreBody (cfg.withStep step) (s.withState x)
      = ((coreBody cfg s).1.withState
          (if accepted cfg s then (step s.tprev s.tnext s.y x s.madeJump).state else x),
         (coreBody cfg s).2) := by
  obtain ⟨h1, h2, h3, h4⟩ := h
  simp only [solverOut] at h1 h2 h3 h4
  simp only [coreBody, Core.withState, Cfg.withStep, accepted, adaptOut, solverOut]
  simp only [← h1, ← h2, ← h3, ← h4]
  rfl

theorem whileLoop_sim (cfg : Cfg T Y E D S C O F) (step : T → T → Y → S' → Bool → StepOut Y E D S')
    (R : Core T Y D S C F → S' → Prop) (n : Nat) (s : LState T Y D S C O F) (x : S')
    (hR : R s.core x)
    (hstep : ∀ c ∈ attempts cfg n s.core, ∀ x, R c x →
      (solverOut cfg c).Agree (step c.tprev c.tnext c.y x c.madeJump) ∧
      (condFun cfg (coreBody cfg c).1 = true → R (coreBody cfg c).1
        (if accepted cfg c then (step c.tprev c.tnext c.y x c.madeJump).state else x))) :
    ∃ x', whileLoop (cfg.withStep step) n
        { core := s.core.withState x, saves := s.saves, dense := s.dense }
      = { core := (whileLoop cfg n s).core.withState x', saves := (whileLoop cfg n s).saves,
          dense := (whileLoop cfg n s).dense } := by
  induction n generalizing s x with
  | zero => exact ⟨x, rfl⟩
  | succ n ih =>
    have hcc : condFun (cfg.withStep step) (s.core.withState x) = condFun cfg s.core := rfl
    by_cases hc : condFun cfg s.core = true
    · simp only [whileLoop, hcc, hc, if_true]
      simp only [attempts, hc, if_true, List.mem_cons, forall_eq_or_imp] at hstep
      obtain ⟨h1, h2⟩ := hstep
      obtain ⟨ha, hn⟩ := h1 x hR
      have hb := coreBody_sim cfg step s.core x ha
      have hbody : body (cfg.withStep step)
          { core := s.core.withState x, saves := s.saves, dense := s.dense }
          = { core := (body cfg s).core.withState
                (if accepted cfg s.core then
                  (step s.core.tprev s.core.tnext s.core.y x s.core.madeJump).state else x),
              saves := (body cfg s).saves, dense := (body cfg s).dense } := by
        simp only [body, hb]
        rfl
      rw [hbody]
      by_cases hc2 : condFun cfg (coreBody cfg s.core).1 = true
      · exact ih (body cfg s) _ (hn hc2) h2
      · have hc2' : condFun cfg (body cfg s).core = false := by simpa [body] using hc2
        have e1 : whileLoop cfg n (body cfg s) = body cfg s := by
          cases n <;> simp [whileLoop, hc2']
        have hcc2 : ∀ x : S', condFun (cfg.withStep step) ((body cfg s).core.withState x) = false :=
          fun x => hc2'
        have e2 : ∀ x : S', whileLoop (cfg.withStep step) n
            { core := (body cfg s).core.withState x, saves := (body cfg s).saves,
              dense := (body cfg s).dense } =
            { core := (body cfg s).core.withState x, saves := (body cfg s).saves,
              dense := (body cfg s).dense } := by
          intro x
          cases n with
          | zero => rfl
          | succ n => simp only [whileLoop, hcc2, Bool.false_eq_true, if_false]
        rw [e1, e2]
        exact ⟨_, rfl⟩
    · have hc' : condFun cfg s.core = false := by simpa using hc
      refine ⟨x, ?_⟩
      simp only [whileLoop, hcc, hc', Bool.false_eq_true, if_false]

/-- What `loop` does after the while loop. -/
def loopEnd (cfg : Cfg T Y E D S C O F) (fin : LState T Y D S C O F) : Output T Y D S C O F :=
  let f := finalise cfg fin.core
  let saves := match cfg.rootFinder with
    | none => fin.saves
    | some _ => fin.saves.map (unsave f.1)
  { core := fin.core, tfinal := f.1, yfinal := f.2.1
    result := if condFun cfg fin.core then .maxStepsReached else f.2.2
    saves := List.zipWith (fun sub sv =>
      saveT1 cfg fin.core.numAccepted f.1 f.2.1 sub (saveIfT0EqT1 cfg f.2.1 sub sv)) cfg.subs saves
    dense := fin.dense }

/-- The state the while loop starts in. -/
def loopStart (cfg : Cfg T Y E D S C O F) (init : LState T Y D S C O F) : LState T Y D S C O F :=
  { core := init.core
    saves := List.zipWith (fun sub sv => saveT0 cfg init.core.y sub sv) cfg.subs init.saves
    dense := if cfg.dense then { init.dense with ts := init.dense.ts.set 0 (some cfg.t0) }
               else init.dense }

theorem solve_eq (cfg : Cfg T Y E D S C O F) (y0 : Y) (tnext : T) (ctrl : C) (ss : S) (mj : Bool) :
    solve cfg y0 tnext ctrl ss mj = loopEnd cfg (whileLoop cfg cfg.maxSteps
      (loopStart cfg (initState cfg y0 tnext ctrl ss mj))) := rfl

theorem loopEnd_sim (cfg : Cfg T Y E D S C O F) (step : T → T → Y → S' → Bool → StepOut Y E D S')
    (fin : LState T Y D S C O F) (x : S') :
    (loopEnd (cfg.withStep step)
      { core := fin.core.withState x, saves := fin.saves, dense := fin.dense }).forget
      = (loopEnd cfg fin).forget := rfl

/-- Simulation of whole solves. `R` relates a state of the first solve to an internal state of the second
solver; it has to be kept only while the solve goes on. -/
theorem solve_sim (cfg : Cfg T Y E D S C O F) (step : T → T → Y → S' → Bool → StepOut Y E D S')
    (R : Core T Y D S C F → S' → Prop) (y0 : Y) (tnext : T) (ctrl : C) (ss : S) (ss' : S') (mj : Bool)
    (hR : R (initState cfg y0 tnext ctrl ss mj).core ss')
    (hstep : ∀ c ∈ history cfg y0 tnext ctrl ss mj, ∀ x, R c x →
      (solverOut cfg c).Agree (step c.tprev c.tnext c.y x c.madeJump) ∧
      (condFun cfg (coreBody cfg c).1 = true → R (coreBody cfg c).1
        (if accepted cfg c then (step c.tprev c.tnext c.y x c.madeJump).state else x))) :
    (solve (cfg.withStep step) y0 tnext ctrl ss' mj).forget = (solve cfg y0 tnext ctrl ss mj).forget := by
  obtain ⟨x', h⟩ := whileLoop_sim cfg step R cfg.maxSteps
    (loopStart cfg (initState cfg y0 tnext ctrl ss mj)) ss' hR hstep
  rw [solve_eq, solve_eq]
  have e : loopStart (cfg.withStep step) (initState (cfg.withStep step) y0 tnext ctrl ss' mj)
      = { core := (loopStart cfg (initState cfg y0 tnext ctrl ss mj)).core.withState ss',
          saves := (loopStart cfg (initState cfg y0 tnext ctrl ss mj)).saves,
          dense := (loopStart cfg (initState cfg y0 tnext ctrl ss mj)).dense } := rfl
  rw [e]
  change (loopEnd (cfg.withStep step) (whileLoop (cfg.withStep step) cfg.maxSteps _)).forget = _
  rw [h, loopEnd_sim]

end Verif
