import Verif.Props.Event

/-!
# C84: events stop a solve, and do nothing else
-/

set_option linter.unusedSectionVars false

namespace Verif

variable {T Y E D S C O F : Type} [LinearOrder T] [LinearOrder F] [Zero F]

/-- The same problem, with `event=None`. -/
def noEvents (cfg : Cfg T Y E D S C O F) : Cfg T Y E D S C O F :=
  { cfg with events := [], rootFinder := none }

/-- A state without what it knows about events. -/
def stripEvents (s : Core T Y D S C F) : Core T Y D S C F := { s with evVals := [], evMask := [] }

theorem noEvents_body (cfg : Cfg T Y E D S C O F) (s : Core T Y D S C F)
    (h : (triggered cfg s).any id = false) :
    coreBody (noEvents cfg) (stripEvents s) = (stripEvents (coreBody cfg s).1, (coreBody cfg s).2) := by
  have h1 : (firstTrue false (triggered cfg s)).2 = false := by rw [firstTrue_snd, h]; rfl
  have h2 : (coreBody cfg s).1.result = (coreBody (noEvents cfg) (stripEvents s)).1.result := by
    have e : (coreBody cfg s).1.result = Result.where' (firstTrue false (triggered cfg s)).2 .eventOccurred
      (coreBody (noEvents cfg) (stripEvents s)).1.result := rfl
    rw [e, h1]; rfl
  refine Prod.ext ?_ rfl
  show _ = { (coreBody cfg s).1 with evVals := [], evMask := [] }
  rw [show ({ (coreBody cfg s).1 with evVals := [], evMask := [] } : Core T Y D S C F)
    = { (coreBody cfg s).1 with evVals := [], evMask := [], result := (coreBody cfg s).1.result } from rfl, h2]
  rfl

theorem triggered_stops (cfg : Cfg T Y E D S C O F) (s : Core T Y D S C F)
    (h : (triggered cfg s).any id = true) :
    condFun cfg (coreBody cfg s).1 = false ∧ (coreBody cfg s).1.evMask.any id = true := by
  have h1 : (firstTrue false (triggered cfg s)).2 = true := by rw [firstTrue_snd, h]; rfl
  have e : (coreBody cfg s).1.result = Result.where' (firstTrue false (triggered cfg s)).2 .eventOccurred
      (coreBody (noEvents cfg) (stripEvents s)).1.result := rfl
  rw [h1] at e
  refine ⟨?_, ?_⟩
  · unfold condFun
    rw [e]
    simp [Result.where', Result.isSuccessful]
  · rw [coreBody_mask, firstTrue_any, h]

/-- The attempts made with events are the first ones of those made without. -/
theorem attempts_noEvents (cfg : Cfg T Y E D S C O F) (n : Nat) (s : Core T Y D S C F) :
    (attempts cfg n s).map stripEvents <+: attempts (noEvents cfg) n (stripEvents s) := by
  induction n generalizing s with
  | zero => simp [attempts]
  | succ n ih =>
    have hc' : condFun (noEvents cfg) (stripEvents s) = condFun cfg s := rfl
    unfold attempts
    rw [hc']
    by_cases hc : condFun cfg s = true
    · rw [if_pos hc, if_pos hc, List.map_cons, List.prefix_cons_inj]
      cases ht : (triggered cfg s).any id with
      | true =>
        have := (triggered_stops cfg s ht).1
        have : attempts cfg n (coreBody cfg s).1 = [] := by
          cases n with
          | zero => rfl
          | succ n => unfold attempts; rw [this]; rfl
        rw [this]; exact List.nil_prefix
      | false =>
        rw [noEvents_body cfg s ht]
        exact ih _
    · rw [if_neg hc, if_neg hc]; exact List.prefix_refl _

/-- Without events triggering, the loops do the same. -/
theorem whileLoop_noEvents (cfg : Cfg T Y E D S C O F) (n : Nat) (s : LState T Y D S C O F)
    (h : (whileLoop cfg n s).core.evMask.any id = false) :
    whileLoop (noEvents cfg) n { s with core := stripEvents s.core }
      = { whileLoop cfg n s with core := stripEvents (whileLoop cfg n s).core } := by
  induction n generalizing s with
  | zero => rfl
  | succ n ih =>
    have hc' : condFun (noEvents cfg) (stripEvents s.core) = condFun cfg s.core := rfl
    unfold whileLoop at h ⊢
    dsimp only
    rw [hc']
    by_cases hc : condFun cfg s.core = true
    · rw [if_pos hc] at h
      rw [if_pos hc, if_pos hc]
      cases ht : (triggered cfg s.core).any id with
      | true =>
        obtain ⟨h1, h2⟩ := triggered_stops cfg s.core ht
        have e : whileLoop cfg n (body cfg s) = body cfg s := by
          cases n with
          | zero => rfl
          | succ n =>
            unfold whileLoop
            rw [if_neg (show ¬ condFun cfg (body cfg s).core = true from by
              show ¬ condFun cfg (coreBody cfg s.core).1 = true
              rw [h1]; simp)]
        rw [e] at h
        exact absurd (h2.symm.trans h) (by simp)
      | false =>
        have e : body (noEvents cfg) { s with core := stripEvents s.core }
            = { body cfg s with core := stripEvents (body cfg s).core } := by
          unfold body
          dsimp only
          rw [noEvents_body cfg s.core ht]
          rfl
        rw [e]
        exact ih _ h
    · rw [if_neg hc, if_neg hc]

theorem stepEntries_prefix (sv : Solver T Y E D S) (sub : SubSaveAt T Y O) (ps qs : List (Piece T Y D))
    (k : Nat) (rest : List T) : stepEntries sv sub ps k rest <+: stepEntries sv sub (ps ++ qs) k rest := by
  induction ps generalizing k rest with
  | nil => simp [stepEntries]
  | cons p ps ih =>
    simp only [stepEntries, List.cons_append]
    exact (List.prefix_append_right_inj _).2 (ih _ _)

theorem initState_stripped (cfg : Cfg T Y E D S C O F) (y0 : Y) (tnext : T) (ctrl : C) (ss : S) (mj : Bool)
    (h : (cfg.events.map (fun e => e.initMask cfg.t0 y0)).any id = false) :
    initState (noEvents cfg) y0 tnext ctrl ss mj
      = { initState cfg y0 tnext ctrl ss mj with core := stripEvents (initState cfg y0 tnext ctrl ss mj).core } := by
  have h1 : (firstTrue false (cfg.events.map (fun e => e.initMask cfg.t0 y0))).2 = false := by
    rw [firstTrue_snd, h]; rfl
  simp only [initState, stripEvents, h1]
  rfl

theorem initState_stops (cfg : Cfg T Y E D S C O F) (y0 : Y) (tnext : T) (ctrl : C) (ss : S) (mj : Bool)
    (h : (cfg.events.map (fun e => e.initMask cfg.t0 y0)).any id = true) :
    condFun cfg (initState cfg y0 tnext ctrl ss mj).core = false ∧
    (initState cfg y0 tnext ctrl ss mj).core.evMask.any id = true := by
  have h1 : (firstTrue false (cfg.events.map (fun e => e.initMask cfg.t0 y0))).2 = true := by
    rw [firstTrue_snd, h]; rfl
  refine ⟨?_, ?_⟩
  · simp [condFun, initState, h1, Result.where', Result.isSuccessful]
  · show (firstTrue false _).1.any id = true
    rw [firstTrue_any, h]

theorem history_noEvents (cfg : Cfg T Y E D S C O F) (y0 : Y) (tnext : T) (ctrl : C) (ss : S) (mj : Bool) :
    (history cfg y0 tnext ctrl ss mj).map stripEvents <+: history (noEvents cfg) y0 tnext ctrl ss mj := by
  unfold history
  cases h : (cfg.events.map (fun e => e.initMask cfg.t0 y0)).any id with
  | true =>
    have : attempts cfg cfg.maxSteps (initState cfg y0 tnext ctrl ss mj).core = [] := by
      cases cfg.maxSteps with
      | zero => rfl
      | succ n => unfold attempts; rw [(initState_stops cfg y0 tnext ctrl ss mj h).1]; rfl
    rw [this]; exact List.nil_prefix
  | false =>
    rw [initState_stripped cfg y0 tnext ctrl ss mj h]
    exact attempts_noEvents cfg cfg.maxSteps _

theorem pieces_noEvents (cfg : Cfg T Y E D S C O F) (y0 : Y) (tnext : T) (ctrl : C) (ss : S) (mj : Bool) :
    pieces cfg y0 tnext ctrl ss mj <+: pieces (noEvents cfg) y0 tnext ctrl ss mj := by
  have h := ((history_noEvents cfg y0 tnext ctrl ss mj).filter (accepted (noEvents cfg))).map
    (piece (noEvents cfg))
  rw [List.filter_map, List.map_map] at h
  exact h

/-- **C84, steps.** The calls that a solve with events makes to the solver and to the step size controller are the
first ones of those that the solve without events makes. -/
theorem C84_same_steps (cfg : Cfg T Y E D S C O F) (y0 : Y) (tnext : T) (ctrl : C) (ss : S) (mj : Bool) :
    callLog cfg y0 tnext ctrl ss mj <+: callLog (noEvents cfg) y0 tnext ctrl ss mj := by
  rw [log_eq_history, log_eq_history]
  have h := (history_noEvents cfg y0 tnext ctrl ss mj).map (expectedCall (noEvents cfg))
  rw [List.map_map] at h
  exact h

/-- **C84, output.** What a solve with events (and no root finder) saves, apart from the value at its end, are the
first ones of the values saved by the solve without events. -/
theorem C84_same_output (cfg : Cfg T Y E D S C O F) (hroot : cfg.rootFinder = none) (hlt : cfg.t0 ≠ cfg.t1)
    (hcap : ∀ sub ∈ cfg.subs, 1 ≤ allocSize cfg.maxSteps sub) (ht1 : ∀ sub ∈ cfg.subs, sub.t1 = false)
    (y0 : Y) (tnext : T) (ctrl : C) (ss : S) (mj : Bool) :
    List.Forall₂ (fun es es' => es <+: es')
      ((solve cfg y0 tnext ctrl ss mj).saves.map (fun sv => entriesOf sv.buf))
      ((solve (noEvents cfg) y0 tnext ctrl ss mj).saves.map (fun sv => entriesOf sv.buf)) := by
  have h1 := (C09_output_refines cfg hroot hlt hcap y0 tnext ctrl ss mj).1
  have h2 := (C09_output_refines (noEvents cfg) rfl hlt hcap y0 tnext ctrl ss mj).1
  have e : ∀ svs : List (SaveState T O), svs.map (fun sv => entriesOf sv.buf) = (svs.map (·.buf)).map entriesOf := by
    intro svs; rw [List.map_map]; rfl
  rw [e, e, h1, h2, List.map_map, List.map_map, List.forall₂_map_left_iff, List.forall₂_map_right_iff]
  refine List.forall₂_same.2 ?_
  intro sub hsub
  simp only [Function.comp, entriesOf_padded]
  unfold expectedEntries
  rw [ht1 sub hsub]
  simp only [Bool.false_eq_true, false_and, if_false, List.append_nil]
  obtain ⟨qs, hqs⟩ := pieces_noEvents cfg y0 tnext ctrl ss mj
  rw [← hqs]
  exact (List.prefix_append_right_inj _).2 (stepEntries_prefix _ _ _ _ _ _)

/-- **C84, no event.** If no event is reported, the solve is the solve without events: the same final time and
value, result, statistics, dense output, internal states, and (without root finder) the same saved values. -/
theorem C84_no_event (cfg : Cfg T Y E D S C O F) (y0 : Y) (tnext : T) (ctrl : C) (ss : S) (mj : Bool)
    (hno : ∀ b ∈ (solve cfg y0 tnext ctrl ss mj).core.evMask, b = false) :
    let out := solve cfg y0 tnext ctrl ss mj
    let out' := solve (noEvents cfg) y0 tnext ctrl ss mj
    out.tfinal = out'.tfinal ∧ out.yfinal = out'.yfinal ∧ out.result = out'.result ∧
    out.core.numSteps = out'.core.numSteps ∧ out.core.numAccepted = out'.core.numAccepted ∧
    out.core.numRejected = out'.core.numRejected ∧ out.dense = out'.dense ∧
    out.core.solverState = out'.core.solverState ∧ out.core.ctrlState = out'.core.ctrlState ∧
    out.core.madeJump = out'.core.madeJump ∧ (cfg.rootFinder = none → out.saves = out'.saves) := by
  have hno' : (solve cfg y0 tnext ctrl ss mj).core.evMask.any id = false := by
    rw [List.any_eq_false]
    intro b hb
    rw [hno b hb]; simp
  -- the initial states agree
  have hinit : (cfg.events.map (fun e => e.initMask cfg.t0 y0)).any id = false := by
    by_contra hne
    have h1 := initState_stops cfg y0 tnext ctrl ss mj (by simpa using hne)
    have h2 : (solve cfg y0 tnext ctrl ss mj).core = (initState cfg y0 tnext ctrl ss mj).core := by
      rw [solve_core]
      cases cfg.maxSteps with
      | zero => rfl
      | succ n => unfold coreRun; rw [h1.1]; rfl
    rw [h2, h1.2] at hno'
    exact absurd hno' (by simp)
  have hs := initState_stripped cfg y0 tnext ctrl ss mj hinit
  set i : LState T Y D S C O F :=
    { initState cfg y0 tnext ctrl ss mj with
      saves := List.zipWith (fun sub sv => saveT0 cfg (initState cfg y0 tnext ctrl ss mj).core.y sub sv) cfg.subs
        (initState cfg y0 tnext ctrl ss mj).saves
      dense := if cfg.dense then { (initState cfg y0 tnext ctrl ss mj).dense with
          ts := (initState cfg y0 tnext ctrl ss mj).dense.ts.set 0 (some cfg.t0) }
        else (initState cfg y0 tnext ctrl ss mj).dense } with hi
  have hw := whileLoop_noEvents cfg cfg.maxSteps i hno'
  set w := whileLoop cfg cfg.maxSteps i with hwdef
  have hfin : finalise cfg w.core = (w.core.tprev, w.core.y, w.core.result) := by
    unfold finalise
    cases cfg.rootFinder with
    | none => rfl
    | some f =>
      have : w.core.evMask.any id = false := hno'
      simp only [this]
      rfl
  have hout' : solve (noEvents cfg) y0 tnext ctrl ss mj
      = { core := stripEvents w.core, tfinal := w.core.tprev, yfinal := w.core.y,
          saves := List.zipWith (fun sub sv => saveT1 (noEvents cfg) w.core.numAccepted w.core.tprev w.core.y sub
            (saveIfT0EqT1 (noEvents cfg) w.core.y sub sv)) cfg.subs w.saves,
          result := if condFun cfg w.core then .maxStepsReached else w.core.result, dense := w.dense } := by
    have e1 : solve (noEvents cfg) y0 tnext ctrl ss mj = loop (noEvents cfg)
        { initState cfg y0 tnext ctrl ss mj with
          core := stripEvents (initState cfg y0 tnext ctrl ss mj).core } := by unfold solve; rw [hs]
    let fin (x : LState T Y D S C O F) : Output T Y D S C O F :=
      { core := x.core, tfinal := x.core.tprev, yfinal := x.core.y,
        saves := List.zipWith (fun sub sv => saveT1 (noEvents cfg) x.core.numAccepted x.core.tprev x.core.y sub
            (saveIfT0EqT1 (noEvents cfg) x.core.y sub sv)) cfg.subs x.saves,
        result := if condFun (noEvents cfg) x.core then .maxStepsReached else x.core.result, dense := x.dense }
    have e2 : loop (noEvents cfg)
        { initState cfg y0 tnext ctrl ss mj with core := stripEvents (initState cfg y0 tnext ctrl ss mj).core }
        = fin (whileLoop (noEvents cfg) cfg.maxSteps { i with core := stripEvents i.core }) := rfl
    rw [e1, e2, hw]
    rfl
  have hout : solve cfg y0 tnext ctrl ss mj
      = { core := w.core, tfinal := (finalise cfg w.core).1, yfinal := (finalise cfg w.core).2.1,
          saves := List.zipWith (fun sub sv => saveT1 cfg w.core.numAccepted (finalise cfg w.core).1
            (finalise cfg w.core).2.1 sub (saveIfT0EqT1 cfg (finalise cfg w.core).2.1 sub sv)) cfg.subs
            (match cfg.rootFinder with
              | none => w.saves
              | some _ => w.saves.map (unsave (finalise cfg w.core).1)),
          result := if condFun cfg w.core then .maxStepsReached else (finalise cfg w.core).2.2,
          dense := w.dense } := rfl
  dsimp only
  rw [hout', hout, hfin]
  refine ⟨rfl, rfl, rfl, rfl, rfl, rfl, rfl, rfl, rfl, rfl, ?_⟩
  intro hroot
  have hT1 : ∀ sub sv, saveT1 cfg w.core.numAccepted w.core.tprev w.core.y sub sv
      = saveT1 (noEvents cfg) w.core.numAccepted w.core.tprev w.core.y sub sv := by
    intro sub sv
    unfold saveT1
    rw [hroot]
    rfl
  simp only [hroot, hT1]
  rfl

/-- Non-vacuity: an event stops the toy solve at time 5 after three calls; without, there are more calls. -/
example : (callLog { toyCfg with events := toyEvents } 100 3 0 0 false).length
    < (callLog (noEvents { toyCfg with events := toyEvents }) 100 3 0 0 false).length := by decide

/-- Non-vacuity: a condition that never triggers. -/
example : ∀ b ∈ (solve { toyCfg with events := [.flt (fun t _ => t - 100) none] } 100 3 0 0 false).core.evMask,
    b = false := by decide

end Verif
