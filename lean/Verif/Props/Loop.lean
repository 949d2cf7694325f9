import Verif.Lemmas.Log
import Verif.Spec.Toy
import Mathlib.Data.List.Chain

/-!
# Properties of the integration loop: C01-C06
-/

set_option linter.unusedSectionVars false

namespace Verif

variable {T Y E D S C O F : Type} [LinearOrder T] [LinearOrder F] [Zero F]

/-! ## The history is observable

An observer wrapped around the solver and the controller sees exactly the calls that `history`
describes, and wrapping it does not change the solve. -/

theorem log_eq_history (cfg : Cfg T Y E D S C O F) (y0 : Y) (tnext : T) (ctrl : C) (ss : S)
    (mj : Bool) :
    callLog cfg y0 tnext ctrl ss mj = (history cfg y0 tnext ctrl ss mj).map (expectedCall cfg) :=
  log_eq cfg y0 tnext ctrl ss mj

theorem log_transparent (cfg : Cfg T Y E D S C O F) (y0 : Y) (tnext : T) (ctrl : C) (ss : S)
    (mj : Bool) :
    (solve (logged cfg) y0 tnext (ctrl, []) ss mj).result = (solve cfg y0 tnext ctrl ss mj).result ∧
    (solve (logged cfg) y0 tnext (ctrl, []) ss mj).tfinal = (solve cfg y0 tnext ctrl ss mj).tfinal ∧
    (solve (logged cfg) y0 tnext (ctrl, []) ss mj).yfinal = (solve cfg y0 tnext ctrl ss mj).yfinal := by
  have h : (solve (logged cfg) y0 tnext (ctrl, []) ss mj).core
      = liftCore (solve cfg y0 tnext ctrl ss mj).core
          ((history cfg y0 tnext ctrl ss mj).map (expectedCall cfg)) := by
    rw [solve_core, solve_core]
    exact logged_run cfg cfg.maxSteps (initState cfg y0 tnext ctrl ss mj).core []
  rw [solve_result, solve_result, solve_tfinal, solve_tfinal, solve_yfinal, solve_yfinal, h]
  exact ⟨rfl, rfl, rfl⟩

/-! ## C01: time only moves forward and never passes `t1` -/

/-- Every solver call is over an interval inside `[t0, t1]` of non-negative length, the first starts at
`t0`, each later one starts exactly at the time reached by its predecessor, which is not earlier than
the predecessor's start (its end, if it was accepted); the final time is the time reached by the last
one and is at most `t1`. -/
theorem C01_time_forward (cfg : Cfg T Y E D S C O F) (hwf : cfg.WF) (y0 : Y) (tnext : T) (ctrl : C)
    (ss : S) (mj : Bool) (htn : cfg.t0 ≤ tnext)
    (hc : ∀ c ∈ callLog cfg y0 tnext ctrl ss mj, (c.answer cfg).Forward c.ctrlT0 c.ctrlT1) :
    (∀ c ∈ callLog cfg y0 tnext ctrl ss mj,
      cfg.t0 ≤ c.solverT0 ∧ c.solverT0 ≤ c.solverT1 ∧ c.solverT1 ≤ cfg.t1) ∧
    (∀ c ∈ (callLog cfg y0 tnext ctrl ss mj).head?, c.solverT0 = cfg.t0) ∧
    List.IsChain (fun c d : CallLog T Y E S C =>
        d.solverT0 = min (c.answer cfg).tprev cfg.t1 ∧ c.solverT0 ≤ d.solverT0 ∧
        ((c.answer cfg).keep = true → c.solverT1 ≤ d.solverT0))
      (callLog cfg y0 tnext ctrl ss mj) ∧
    (solve cfg y0 tnext ctrl ss mj).core.tprev ≤ cfg.t1 ∧
    (∀ c ∈ (callLog cfg y0 tnext ctrl ss mj).getLast?,
      (solve cfg y0 tnext ctrl ss mj).core.tprev = min (c.answer cfg).tprev cfg.t1) := by
  rw [log_eq_history] at hc ⊢
  have hfor : ∀ s ∈ history cfg y0 tnext ctrl ss mj,
      (adaptOut cfg s).Forward s.tprev s.tnext := by
    intro s hs
    exact hc _ (List.mem_map_of_mem hs)
  have hinv := run_inv cfg (fun s => cfg.t0 ≤ s.tprev ∧ s.tprev ≤ s.tnext ∧ s.tnext ≤ cfg.t1)
    cfg.maxSteps (initState cfg y0 tnext ctrl ss mj).core
    ⟨le_refl _, le_min htn hwf.le, min_le_right _ _⟩ (by
      rintro s hs - ⟨h1, h2, h3⟩
      obtain ⟨f1, f2, f3⟩ := hfor s hs
      have htp : s.tprev ≤ (adaptOut cfg s).tprev := by
        cases hk : (adaptOut cfg s).keep with
        | true => exact le_trans h2 (f1 hk)
        | false => exact f2 hk
      have e1 : (coreBody cfg s).1.tprev = min (adaptOut cfg s).tprev cfg.t1 := rfl
      have e2 : (coreBody cfg s).1.tnext = clipToEnd cfg.mid (min (adaptOut cfg s).tprev cfg.t1)
        (adaptOut cfg s).tnext cfg.t1 cfg.floor (adaptOut cfg s).keep := rfl
      have hle : min (adaptOut cfg s).tprev cfg.t1 ≤ cfg.t1 := min_le_right _ _
      refine ⟨?_, ?_, ?_⟩
      · rw [e1]; exact le_min (le_trans h1 htp) hwf.le
      · rw [e1, e2]; unfold clipToEnd
        dsimp only
        split
        · split
          · exact hle
          · exact hwf.le_mid _ hle
        · exact le_trans (min_le_left _ _) f3
      · rw [e2]; unfold clipToEnd
        dsimp only
        split
        · split
          · exact le_refl _
          · exact hwf.mid_le _ hle
        · rename_i hcl; exact le_trans (not_lt.1 hcl) hwf.floor_le)
  obtain ⟨hall, hfin⟩ := hinv
  refine ⟨?_, ?_, ?_, ?_, ?_⟩
  · intro c hcm
    obtain ⟨s, hs, rfl⟩ := List.mem_map.1 hcm
    exact hall s hs
  · intro c hcm
    unfold history at hcm
    cases hn : cfg.maxSteps with
    | zero => rw [hn] at hcm; simp [attempts] at hcm
    | succ n =>
      rw [hn] at hcm
      simp only [attempts] at hcm
      split at hcm
      · simp only [List.map_cons, List.head?_cons, Option.mem_def, Option.some.injEq] at hcm
        rw [← hcm]; rfl
      · simp at hcm
  · rw [List.isChain_map]
    have key : ∀ (n : Nat) (s : Core T Y D S C F),
        (∀ s' ∈ attempts cfg n s, (adaptOut cfg s').Forward s'.tprev s'.tnext ∧
          s'.tprev ≤ s'.tnext ∧ s'.tnext ≤ cfg.t1) →
        List.IsChain (fun c d : Core T Y D S C F =>
          d.tprev = min (adaptOut cfg c).tprev cfg.t1 ∧ c.tprev ≤ d.tprev ∧
          ((adaptOut cfg c).keep = true → c.tnext ≤ d.tprev)) (attempts cfg n s) := by
      intro n
      induction n with
      | zero => intro s _; simp [attempts]
      | succ n ih =>
        intro s hs
        by_cases hcd : condFun cfg s = true
        · simp only [attempts, hcd, if_true, List.mem_cons, forall_eq_or_imp] at hs ⊢
          have ht := ih (coreBody cfg s).1 hs.2
          rw [List.isChain_cons]
          refine ⟨?_, ht⟩
          intro d hd
          have hde : d = (coreBody cfg s).1 := by
            cases n with
            | zero => simp [attempts] at hd
            | succ n =>
              simp only [attempts] at hd
              split at hd
              · simpa using hd.symm
              · simp at hd
          subst hde
          obtain ⟨⟨f1, f2, f3⟩, g1, g2⟩ := hs.1
          refine ⟨rfl, le_min ?_ (le_trans g1 g2), fun hk => le_min (f1 hk) g2⟩
          cases hk : (adaptOut cfg s).keep with
          | true => exact le_trans g1 (f1 hk)
          | false => exact f2 hk
        · have hc' : condFun cfg s = false := by simpa using hcd
          simp [attempts, hc']
    exact key cfg.maxSteps _ (fun s hs => ⟨hfor s hs, (hall s hs).2⟩)
  · rw [solve_core]; exact le_trans hfin.2.1 hfin.2.2
  · intro c hcm
    rw [solve_core, coreRun_eq_last]
    rw [List.getLast?_map] at hcm
    unfold history at hcm
    cases hl : (attempts cfg cfg.maxSteps (initState cfg y0 tnext ctrl ss mj).core).getLast? with
    | none => rw [hl] at hcm; simp at hcm
    | some s =>
      rw [hl] at hcm
      simp only [Option.map_some, Option.mem_def, Option.some.injEq] at hcm
      subst hcm
      rfl

/-- Non-vacuity: the toy problem satisfies the hypotheses and makes six attempts, two rejected. -/
example : toyCfg.WF ∧ (toyCfg.t0 ≤ 3) ∧
    (∀ c ∈ callLog toyCfg 100 3 0 0 false, (c.answer toyCfg).Forward c.ctrlT0 c.ctrlT1) ∧
    (callLog toyCfg 100 3 0 0 false).length = 6 :=
  ⟨toyCfg_WF, by decide, by unfold AdaptOut.Forward; decide, by decide⟩

/-! ## C02: step statistics -/

theorem C02_stats (cfg : Cfg T Y E D S C O F) (y0 : Y) (tnext : T) (ctrl : C) (ss : S) (mj : Bool) :
    let out := solve cfg y0 tnext ctrl ss mj
    let log := callLog cfg y0 tnext ctrl ss mj
    out.core.numSteps = log.length ∧
    out.core.numAccepted = (log.filter (fun c => (c.answer cfg).keep)).length ∧
    out.core.numRejected = (log.filter (fun c => !(c.answer cfg).keep)).length ∧
    out.core.numSteps = out.core.numAccepted + out.core.numRejected ∧
    out.core.numSteps ≤ cfg.maxSteps := by
  dsimp only
  rw [log_eq_history, solve_core]
  obtain ⟨h1, h2, h3⟩ := coreRun_counts cfg cfg.maxSteps (initState cfg y0 tnext ctrl ss mj).core
  have e1 : (initState cfg y0 tnext ctrl ss mj).core.numSteps = 0 := rfl
  have e2 : (initState cfg y0 tnext ctrl ss mj).core.numAccepted = 0 := rfl
  have e3 : (initState cfg y0 tnext ctrl ss mj).core.numRejected = 0 := rfl
  rw [e1, Nat.zero_add] at h1
  rw [e2, Nat.zero_add] at h2
  rw [e3, Nat.zero_add] at h3
  have hl := attempts_length_le cfg cfg.maxSteps (initState cfg y0 tnext ctrl ss mj).core
  rw [h1, h2, h3]
  refine ⟨by simp [history], ?_, ?_, ?_, hl⟩
  · rw [List.filter_map, List.length_map]; rfl
  · rw [List.filter_map, List.length_map]; rfl
  · exact List.length_eq_length_filter_add _

example : (solve toyCfg 100 3 0 0 false).core.numAccepted = 4 ∧
    (solve toyCfg 100 3 0 0 false).core.numRejected = 2 := by decide

/-! ## C03: the reported result -/

/-- Solver, controller and root finder use only their own result codes: they never claim to be the
loop by returning `max_steps_reached` or `event_occurred`. (True of everything in diffrax.) -/
structure Cfg.OwnCodes (cfg : Cfg T Y E D S C O F) : Prop where
  solver : ∀ a b y s j, (cfg.solver.step a b y s j).result ≠ .maxStepsReached ∧
    (cfg.solver.step a b y s j).result ≠ .eventOccurred
  controller : ∀ a b y y' e c, (cfg.controller.adapt a b y y' e c).result ≠ .maxStepsReached ∧
    (cfg.controller.adapt a b y y' e c).result ≠ .eventOccurred
  root : ∀ f ∈ cfg.rootFinder, ∀ g a b, ∀ r ∈ (f g a b).2, r ≠ .maxStepsReached ∧
    r ≠ .eventOccurred ∧ r ≠ .successful

theorem core_result_classification (cfg : Cfg T Y E D S C O F) (hown : cfg.OwnCodes) (y0 : Y)
    (tnext : T) (ctrl : C) (ss : S) (mj : Bool) :
    let s := (solve cfg y0 tnext ctrl ss mj).core
    s.result ≠ .maxStepsReached ∧ (s.result = .eventOccurred ↔ s.evMask.any id = true) := by
  dsimp only
  rw [solve_core]
  refine (run_inv cfg (fun s => s.result ≠ .maxStepsReached ∧
    (s.result = .eventOccurred ↔ s.evMask.any id = true)) cfg.maxSteps _ ?_ ?_).2
  · have e1 : (initState cfg y0 tnext ctrl ss mj).core.result = Result.where'
      (firstTrue false (cfg.events.map (fun e => e.initMask cfg.t0 y0))).2 .eventOccurred
      .successful := rfl
    have e2 : (initState cfg y0 tnext ctrl ss mj).core.evMask
      = (firstTrue false (cfg.events.map (fun e => e.initMask cfg.t0 y0))).1 := rfl
    rw [e1, e2, firstTrue_any, firstTrue_snd, Bool.false_or]
    unfold Result.where'
    cases List.any (cfg.events.map (fun e => e.initMask cfg.t0 y0)) id <;> simp
  · intro s _ hc _
    rw [coreBody_result cfg s (condFun_succ cfg s hc), coreBody_mask, firstTrue_any]
    have h1 := hown.solver s.tprev s.tnext s.y s.solverState s.madeJump
    have h2 := hown.controller s.tprev s.tnext s.y (solverOut cfg s).y
      (cfg.cleanErr (solverOut cfg s).err) s.ctrlState
    cases (triggered cfg s).any id
    · simp only [Bool.false_eq_true, if_false, iff_false]
      split
      · exact h1
      · exact h2
    · simp

/-- `successful` means `t1` was reached exactly; `max_steps_reached` means exactly `max_steps` attempts
were made, `t1` was not reached, and no error or event had occurred; `event_occurred` means a
condition triggered at the last time reached (which includes the initial time if no step was made);
anything else raises with `throw=True`. -/
theorem C03_result_classification (cfg : Cfg T Y E D S C O F) (hwf : cfg.WF) (hown : cfg.OwnCodes)
    (hst : cfg.controller.stepTo = none) (y0 : Y)
    (tnext : T) (ctrl : C) (ss : S) (mj : Bool) :
    let out := solve cfg y0 tnext ctrl ss mj
    (out.result = .successful → out.tfinal = cfg.t1 ∧ out.core.tprev = cfg.t1) ∧
    (out.result = .maxStepsReached ↔
      out.core.tprev < cfg.t1 ∧ out.core.result = .successful) ∧
    (out.result = .maxStepsReached → out.core.numSteps = cfg.maxSteps ∧
      out.core.evMask.any id = false) ∧
    (out.result = .eventOccurred → out.core.evMask.any id = true ∧
      match (history cfg y0 tnext ctrl ss mj).getLast? with
      | none => ∃ e ∈ cfg.events, e.initMask cfg.t0 y0 = true
      | some s => (triggered cfg s).any id = true) ∧
    (throws out = true ↔ out.result ≠ .successful ∧ out.result ≠ .eventOccurred) := by
  have hclass := core_result_classification cfg hown y0 tnext ctrl ss mj
  dsimp only at hclass ⊢
  obtain ⟨hne, hev⟩ := hclass
  have hcore := solve_core cfg y0 tnext ctrl ss mj
  have hres := solve_result cfg y0 tnext ctrl ss mj
  have htf := solve_tfinal cfg y0 tnext ctrl ss mj
  have hcond : ∀ s : Core T Y D S C F, condFun cfg s = true ↔ s.tprev < cfg.t1 ∧
      s.result = .successful := by
    intro s; simp [condFun, hst, Result.isSuccessful]
  have htp : (solve cfg y0 tnext ctrl ss mj).core.tprev ≤ cfg.t1 := by
    rw [hcore]
    exact (run_inv cfg (fun s => s.tprev ≤ cfg.t1) cfg.maxSteps _ hwf.le
      (fun s _ _ _ => min_le_right _ _)).2
  -- whatever `finalise` does, it returns the loop's result or a root finder's error
  have hfin : ∀ s : Core T Y D S C F, (finalise cfg s).2.2 = s.result ∨
      ((finalise cfg s).2.2 ≠ .maxStepsReached ∧ (finalise cfg s).2.2 ≠ .eventOccurred ∧
        (finalise cfg s).2.2 ≠ .successful) := by
    intro s
    unfold finalise
    split
    · left; rfl
    · rename_i f hf
      dsimp only
      split
      · cases hr : (f (toRootFind cfg s (s.evMask.any id)) s.evTprev s.evTnext).2 with
        | none => left; simp
        | some r =>
          right
          simpa using hown.root f (by rw [hf]; rfl) _ _ _ r (by rw [hr]; rfl)
      · left; rfl
  generalize hs : (solve cfg y0 tnext ctrl ss mj).core = s at *
  have hmax : (solve cfg y0 tnext ctrl ss mj).result = .maxStepsReached ↔
      s.tprev < cfg.t1 ∧ s.result = .successful := by
    rw [hres, ← hcond]
    cases hc : condFun cfg s with
    | true => simp
    | false =>
      simp only [Bool.false_eq_true, if_false, iff_false]
      rcases hfin s with h | h
      · rw [h]; exact hne
      · exact h.1
  refine ⟨?_, hmax, ?_, ?_, ?_⟩
  · intro hsucc
    rw [hres] at hsucc
    have hc : ¬ condFun cfg s = true := by
      intro hc; simp [hc] at hsucc
    rw [if_neg hc] at hsucc
    have hrs : s.result = .successful := by
      rcases hfin s with h | h
      · rw [← h, hsucc]
      · exact absurd hsucc h.2.2
    have heq : s.tprev = cfg.t1 := by
      rcases lt_or_eq_of_le htp with h | h
      · exact absurd ((hcond s).2 ⟨h, hrs⟩) hc
      · exact h
    refine ⟨?_, heq⟩
    have hm : s.evMask.any id = false := by
      cases hm : s.evMask.any id with
      | false => rfl
      | true => rw [hev.2 hm] at hrs; simp at hrs
    rw [htf, finalise_no_event cfg s hm]; exact heq
  · intro hmx
    obtain ⟨h1, h2⟩ := hmax.1 hmx
    constructor
    · rw [hcore, (coreRun_counts cfg _ _).1, attempts_length_eq]
      · exact Nat.zero_add _
      · rw [← hcore]; exact (hcond s).2 ⟨h1, h2⟩
    · cases hm : s.evMask.any id with
      | false => rfl
      | true => rw [hev.2 hm] at h2; simp at h2
  · intro hevt
    have hm : s.evMask.any id = true := by
      rw [hres] at hevt
      split at hevt
      · simp at hevt
      · rcases hfin s with h | h
        · exact hev.1 (by rw [← h, hevt])
        · exact absurd hevt h.2.1
    refine ⟨hm, ?_⟩
    rw [hcore, coreRun_eq_last] at hm
    unfold history
    split at hm
    · rename_i hl
      rw [hl]
      dsimp only
      have e2 : (initState cfg y0 tnext ctrl ss mj).core.evMask
        = (firstTrue false (cfg.events.map (fun e => e.initMask cfg.t0 y0))).1 := rfl
      rw [e2, firstTrue_any] at hm
      simpa using hm
    · rename_i s' hl
      rw [hl]
      rwa [coreBody_mask, firstTrue_any] at hm
  · unfold throws Result.isOkay Result.isSuccessful Result.isEvent
    simp

theorem toyCfg_OwnCodes : toyCfg.OwnCodes where
  solver := by intro a b y s j; simp [toyCfg, toySolver]
  controller := by
    intro a b y y' e c; simp only [toyCfg, toyController]; split <;> simp
  root := by intro f hf; simp [toyCfg] at hf

example : toyCfg.OwnCodes ∧ toyCfg.controller.stepTo = none ∧
    (solve toyCfg 100 3 0 0 false).result = .successful ∧
    (solve { toyCfg with maxSteps := 5 } 100 3 0 0 false).result = .maxStepsReached ∧
    (solve { toyCfg with events := [.bool fun _ y => decide (y = 105)] } 100 3 0 0 false).result
      = .eventOccurred :=
  ⟨toyCfg_OwnCodes, rfl, by decide, by decide, by decide⟩

/-! ## C04: rejected steps leave no trace -/

/-- One accepted step as seen by the solver: interval, and whether a jump precedes the next step. -/
def acceptedCalls (cfg : Cfg T Y E D S C O F) (log : List (CallLog T Y E S C)) :
    List (T × T × Bool) :=
  (log.filter (fun c => (c.answer cfg).keep)).map
    (fun c => (c.solverT0, c.solverT1, (c.answer cfg).madeJump))

/-- The final value, solver state and jump flag are the composition of the accepted solver steps,
starting from the initial ones; the rejected steps do not occur. -/
theorem C04_composition (cfg : Cfg T Y E D S C O F) (y0 : Y) (tnext : T) (ctrl : C) (ss : S)
    (mj : Bool) :
    ((solve cfg y0 tnext ctrl ss mj).core.y, (solve cfg y0 tnext ctrl ss mj).core.solverState,
      (solve cfg y0 tnext ctrl ss mj).core.madeJump) =
    (acceptedCalls cfg (callLog cfg y0 tnext ctrl ss mj)).foldl
      (fun (st : Y × S × Bool) (c : T × T × Bool) =>
        let o := cfg.solver.step c.1 c.2.1 st.1 st.2.1 st.2.2
        (o.y, o.state, c.2.2)) (y0, ss, mj) := by
  rw [log_eq_history, solve_core]
  unfold history
  have key : ∀ (n : Nat) (s : Core T Y D S C F),
      ((coreRun cfg n s).y, (coreRun cfg n s).solverState, (coreRun cfg n s).madeJump) =
      (acceptedCalls cfg ((attempts cfg n s).map (expectedCall cfg))).foldl
        (fun (st : Y × S × Bool) (c : T × T × Bool) =>
          let o := cfg.solver.step c.1 c.2.1 st.1 st.2.1 st.2.2
          (o.y, o.state, c.2.2)) (s.y, s.solverState, s.madeJump) := by
    intro n
    induction n with
    | zero => intro s; simp [coreRun, attempts, acceptedCalls]
    | succ n ih =>
      intro s
      by_cases hc : condFun cfg s = true
      · simp only [coreRun, attempts, hc, if_true, List.map_cons]
        rw [ih]
        have hans : (expectedCall cfg s).answer cfg = adaptOut cfg s := rfl
        have e1 : (coreBody cfg s).1.y = if accepted cfg s then (solverOut cfg s).y else s.y := rfl
        have e2 : (coreBody cfg s).1.solverState
          = if accepted cfg s then (solverOut cfg s).state else s.solverState := rfl
        have e3 : (coreBody cfg s).1.madeJump
          = if accepted cfg s then (adaptOut cfg s).madeJump else s.madeJump := rfl
        cases ha : accepted cfg s with
        | true =>
          have ha' : (adaptOut cfg s).keep = true := ha
          rw [e1, e2, e3, ha]
          simp only [acceptedCalls, List.filter_cons, hans, ha', if_true, List.map_cons,
            List.foldl_cons]
          rfl
        | false =>
          have ha' : (adaptOut cfg s).keep = false := ha
          rw [e1, e2, e3, ha]
          simp only [acceptedCalls, List.filter_cons, hans, ha', Bool.false_eq_true, if_false]
      · have hc' : condFun cfg s = false := by simpa using hc
        simp [coreRun, attempts, hc', acceptedCalls]
  exact key _ _

/-- A rejected step changes neither value, solver state nor jump flag, and nothing that is saved. -/
theorem C04_rejected_no_trace (cfg : Cfg T Y E D S C O F) (s : LState T Y D S C O F)
    (hlen : s.saves.length = cfg.subs.length)
    (hrej : (cfg.controller.adapt s.core.tprev s.core.tnext s.core.y
        (cfg.solver.step s.core.tprev s.core.tnext s.core.y s.core.solverState s.core.madeJump).y
        (cfg.cleanErr (cfg.solver.step s.core.tprev s.core.tnext s.core.y s.core.solverState
          s.core.madeJump).err) s.core.ctrlState).keep = false) :
    (body cfg s).core.y = s.core.y ∧ (body cfg s).core.solverState = s.core.solverState ∧
    (body cfg s).core.madeJump = s.core.madeJump ∧
    (body cfg s).core.numAccepted = s.core.numAccepted ∧
    (body cfg s).saves = s.saves ∧ (body cfg s).dense = s.dense := by
  have hacc : accepted cfg s.core = false := hrej
  have e1 : (coreBody cfg s.core).1.y
    = if accepted cfg s.core then (solverOut cfg s.core).y else s.core.y := rfl
  have e2 : (coreBody cfg s.core).1.solverState
    = if accepted cfg s.core then (solverOut cfg s.core).state else s.core.solverState := rfl
  have e3 : (coreBody cfg s.core).1.madeJump
    = if accepted cfg s.core then (adaptOut cfg s.core).madeJump else s.core.madeJump := rfl
  refine ⟨?_, ?_, ?_, ?_, ?_, ?_⟩
  · simp only [body, e1, hacc]; rfl
  · simp only [body, e2, hacc]; rfl
  · simp only [body, e3, hacc]; rfl
  · simp only [body, coreBody_numAccepted, hacc]; rfl
  · simp only [body]
    apply List.ext_getElem
    · simp [hlen]
    · intro i h1 h2
      simp only [List.getElem_zipWith]
      exact save_rejected cfg _ _ hacc _
  · exact saveDense_rejected _ _ hacc _

example : (acceptedCalls toyCfg (callLog toyCfg 100 3 0 0 false)).length = 4 ∧
    (callLog toyCfg 100 3 0 0 false).length = 6 ∧
    (solve toyCfg 100 3 0 0 false).core.solverState = 4 := by decide

/-! ## C05: the first error stops the solve and is reported -/

/-- If an accepted step reports a solver error, or any step a controller error, and no event triggers
on that step, it is the last attempt and its error is the final result, solver errors taking
precedence. A solver error on a rejected step is discarded. -/
theorem C05_first_error (cfg : Cfg T Y E D S C O F) (y0 : Y) (tnext : T) (ctrl : C) (ss : S)
    (mj : Bool) (s : Core T Y D S C F) (hs : s ∈ history cfg y0 tnext ctrl ss mj)
    (hev : (triggered cfg s).any id = false) :
    (accepted cfg s = true → (solverOut cfg s).result.isOkay = false →
      (history cfg y0 tnext ctrl ss mj).getLast? = some s ∧
      (solve cfg y0 tnext ctrl ss mj).result = (solverOut cfg s).result) ∧
    ((accepted cfg s = true → (solverOut cfg s).result.isOkay = true) →
      (adaptOut cfg s).result.isOkay = false →
      (history cfg y0 tnext ctrl ss mj).getLast? = some s ∧
      (solve cfg y0 tnext ctrl ss mj).result = (adaptOut cfg s).result) ∧
    (accepted cfg s = false → (coreBody cfg s).1.result = (adaptOut cfg s).result) := by
  have hcond := attempts_cond _ _ _ _ hs
  have hres := coreBody_result cfg s (condFun_succ cfg s hcond)
  rw [hev] at hres
  simp only [Bool.false_eq_true, if_false] at hres
  have hlast : ∀ r : Result, r.isOkay = false → (coreBody cfg s).1.result = r →
      (history cfg y0 tnext ctrl ss mj).getLast? = some s ∧
      (solve cfg y0 tnext ctrl ss mj).result = r := by
    intro r hr he
    have hns : (coreBody cfg s).1.result.isSuccessful = false := by
      rw [he]; simp only [Result.isOkay, Bool.or_eq_false_iff] at hr; exact hr.1
    obtain ⟨h1, h2⟩ := attempts_last cfg _ _ s hs hns
    refine ⟨h1, ?_⟩
    rw [solve_result, solve_core, h2]
    have hc : condFun cfg (coreBody cfg s).1 = false := by simp [condFun, hns]
    rw [hc, finalise_no_event]
    · simpa using he
    · rw [coreBody_mask, firstTrue_any, hev]
  refine ⟨?_, ?_, ?_⟩
  · intro ha he
    apply hlast _ he
    rw [hres, if_pos ⟨ha, he⟩]
  · intro ha he
    apply hlast _ he
    rw [hres, if_neg]
    rintro ⟨h1, h2⟩
    rw [ha h1] at h2; exact Bool.noConfusion h2
  · intro ha
    rw [hres, if_neg]
    rintro ⟨h1, -⟩
    rw [ha] at h1; exact Bool.noConfusion h1

/-- A solver that reports an error from time 3 on (its result is ignored on rejected steps). -/
def failSolver : Solver Int Int Int Int Int :=
  { toySolver with step := fun a b y s j =>
      { toySolver.step a b y s j with result := if 3 ≤ a then .other 1 else .successful } }

example : (history { toyCfg with solver := failSolver } 100 3 0 0 false).length = 5 ∧
    (solve { toyCfg with solver := failSolver } 100 3 0 0 false).result = .other 1 := by decide

/-! ## C06: an event never hides a solver failure

This is false of the code: `RESULTS.where(had_event, RESULTS.event_occurred, result)`
(`_integrate.py` 630) overrides errors of the same step. -/

/-- Witness: the accepted step ending at time 5 reports an error, and an event triggers on it; the
final result is `event_occurred`, and `throw=True` does not raise. -/
theorem C06_violated :
    ∃ (cfg : Cfg Int Int Int Int Int Int Int Int),
      (∃ s ∈ (history cfg 100 3 0 0 false).getLast?,
        accepted cfg s = true ∧ (solverOut cfg s).result.isOkay = false) ∧
      (solve cfg 100 3 0 0 false).result = .eventOccurred ∧
      throws (solve cfg 100 3 0 0 false) = false := by
  refine ⟨{ toyCfg with solver := failSolver, events := [.bool fun t _ => decide (5 ≤ t)] },
    ?_, by decide, by decide⟩
  exact ⟨_, rfl, by decide, by decide⟩

/-- What does hold: an error can only be hidden by an event triggering on the very step that reports
it; a solve never continues past an error, and never ends `successful` or `max_steps_reached` after
one. Missing: that the error is the final result also when an event triggers on that step. -/
theorem C06_event_hides_failure_partial (cfg : Cfg T Y E D S C O F) (y0 : Y) (tnext : T) (ctrl : C)
    (ss : S) (mj : Bool) (hroot : cfg.rootFinder = none) (s : Core T Y D S C F)
    (hs : s ∈ history cfg y0 tnext ctrl ss mj)
    (herr : accepted cfg s = true ∧ (solverOut cfg s).result.isOkay = false) :
    (history cfg y0 tnext ctrl ss mj).getLast? = some s ∧
    ((solve cfg y0 tnext ctrl ss mj).result = (solverOut cfg s).result ∨
      ((solve cfg y0 tnext ctrl ss mj).result = .eventOccurred ∧
        (triggered cfg s).any id = true)) := by
  have hcond := attempts_cond _ _ _ _ hs
  have hres := coreBody_result cfg s (condFun_succ cfg s hcond)
  cases hev : (triggered cfg s).any id with
  | false =>
    have h := (C05_first_error cfg y0 tnext ctrl ss mj s hs hev).1 herr.1 herr.2
    exact ⟨h.1, Or.inl h.2⟩
  | true =>
    rw [hev, if_pos rfl] at hres
    have hns : (coreBody cfg s).1.result.isSuccessful = false := by rw [hres]; rfl
    obtain ⟨h1, h2⟩ := attempts_last cfg _ _ s hs hns
    refine ⟨h1, Or.inr ⟨?_, rfl⟩⟩
    rw [solve_result, solve_core, h2, finalise_no_root cfg _ hroot]
    have hc : condFun cfg (coreBody cfg s).1 = false := by simp [condFun, hns]
    rw [hc]; simpa using hres

end Verif
