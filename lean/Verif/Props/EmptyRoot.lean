import Verif.Props.EventStart

/-!
# C19 with a root finder for events
-/

namespace Verif

variable {T Y E D S C O F : Type} [LinearOrder T] [LinearOrder F] [Zero F]

/-- Without a boolean event that is true at the start, the root finder is not used. -/
theorem empty_stops (cfg : Cfg T Y E D S C O F) (hst : cfg.controller.stepTo = none) (h01 : cfg.t0 = cfg.t1)
    (y0 : Y) (tnext : T) (ctrl : C) (ss : S) (mj : Bool) (hev : ∀ e ∈ cfg.events, e.initMask cfg.t0 y0 = false) :
    let out := solve cfg y0 tnext ctrl ss mj
    history cfg y0 tnext ctrl ss mj = [] ∧ out.core.numSteps = 0 ∧ out.core.numAccepted = 0 ∧
      out.tfinal = cfg.t0 ∧ out.yfinal = y0 ∧ out.result = .successful := by
  dsimp only
  have hc : condFun cfg (initState cfg y0 tnext ctrl ss mj).core = false := by
    have : (initState cfg y0 tnext ctrl ss mj).core.tprev = cfg.t0 := rfl
    simp [condFun, hst, this, h01]
  have hrun : coreRun cfg cfg.maxSteps (initState cfg y0 tnext ctrl ss mj).core
      = (initState cfg y0 tnext ctrl ss mj).core := by
    cases cfg.maxSteps <;> simp [coreRun, hc]
  have hatt : history cfg y0 tnext ctrl ss mj = [] := by
    unfold history
    cases cfg.maxSteps <;> simp [attempts, hc]
  have hcore : (solve cfg y0 tnext ctrl ss mj).core = (initState cfg y0 tnext ctrl ss mj).core := by
    rw [solve_core, hrun]
  have hnone : (cfg.events.map (fun e => e.initMask cfg.t0 y0)).any id = false := by simpa using hev
  have hmask : (initState cfg y0 tnext ctrl ss mj).core.evMask.any id = false := by
    have e : (initState cfg y0 tnext ctrl ss mj).core.evMask
      = (firstTrue false (cfg.events.map (fun e => e.initMask cfg.t0 y0))).1 := rfl
    rw [e, firstTrue_any]
    simpa using hnone
  have hres : (initState cfg y0 tnext ctrl ss mj).core.result = .successful := by
    have e1 : (initState cfg y0 tnext ctrl ss mj).core.result = Result.where'
      (firstTrue false (cfg.events.map (fun e => e.initMask cfg.t0 y0))).2 .eventOccurred .successful := rfl
    rw [e1, firstTrue_snd, hnone]
    rfl
  have hfin : finalise cfg (initState cfg y0 tnext ctrl ss mj).core = (cfg.t0, y0, .successful) := by
    unfold finalise
    cases cfg.rootFinder with
    | none => simp only [hres]; rfl
    | some f =>
      simp only [hmask, Bool.false_eq_true, if_false, hres]
      rfl
  refine ⟨hatt, by rw [hcore]; rfl, by rw [hcore]; rfl, ?_, ?_, ?_⟩
  · rw [solve_tfinal, hcore, hfin]
  · rw [solve_yfinal, hcore, hfin]
  · rw [solve_result, hcore, hc, hfin]
    rfl

/-- **C19** with a root finder: no step is made, the solve is successful, and the final value is the initial one. Each `SubSaveAt`
saves the initial value once for `t0`, once for every requested time, and once for the final value if it was asked for or if steps
are saved (there is room for it if `max_steps` allows for saving a step). -/
theorem C19_empty_interval_root (cfg : Cfg T Y E D S C O F) (find : (T → List F) → T → T → T × Option Result)
    (hroot : cfg.rootFinder = some find) (hst : cfg.controller.stepTo = none) (h01 : cfg.t0 = cfg.t1)
    (y0 : Y) (tnext : T) (ctrl : C) (ss : S) (mj : Bool) (hev : ∀ e ∈ cfg.events, e.initMask cfg.t0 y0 = false) :
    let out := solve cfg y0 tnext ctrl ss mj
    callLog cfg y0 tnext ctrl ss mj = [] ∧ out.core.numSteps = 0 ∧ out.tfinal = cfg.t0 ∧ out.yfinal = y0 ∧
    out.result = .successful ∧
    ∀ (i : Nat) (sub : SubSaveAt T Y O), cfg.subs[i]? = some sub → sub.steps ≤ cfg.maxSteps →
      (out.saves[i]?).map (fun s => entriesOf s.buf) =
        some (List.replicate ((if sub.t0 then 1 else 0) + sub.ts.length + (if sub.t1 ∨ sub.steps ≠ 0 then 1 else 0))
          (cfg.t0, sub.fn cfg.t0 y0)) := by
  dsimp only
  obtain ⟨h2, hn, hna, ht, hy, hres⟩ := empty_stops cfg hst h01 y0 tnext ctrl ss mj hev
  refine ⟨by rw [log_eq, h2]; rfl, hn, ht, hy, hres, ?_⟩
  intro i sub hi hsteps
  rw [solve_saves, List.getElem?_map, hi, ht, hy, hna]
  simp only [Option.map_some, Option.some.injEq, hroot]
  have hps : pieces cfg y0 tnext ctrl ss mj = [] := by simp [pieces, h2]
  have hr := (subLoop_rep cfg y0 tnext ctrl ss mj sub).weaken
  rw [hps] at hr
  have hle : loopEntries cfg y0 ([] : List (Piece T Y D)) sub
      = List.replicate (if sub.t0 then 1 else 0) (cfg.t0, sub.fn cfg.t0 y0) := by
    unfold loopEntries stepEntries
    cases sub.t0 <;> rfl
  rw [hle] at hr
  have hr1 : Rep' (allocSize cfg.maxSteps sub) (List.replicate (if sub.t0 then 1 else 0) (cfg.t0, sub.fn cfg.t0 y0))
      (unsave cfg.t0 (subLoop cfg y0 tnext ctrl ss mj sub)) := by
    have := hr.unsave cfg.t0 (List.pairwise_replicate.2 (.inr (le_refl _)))
    rwa [List.filter_eq_self.2 (by
      intro e he
      rw [List.eq_of_mem_replicate he]
      simp)] at this
  have hroom : (if sub.t0 then 1 else 0) + sub.ts.length + (if sub.t1 ∨ sub.steps ≠ 0 then 1 else 0)
      ≤ allocSize cfg.maxSteps sub := by
    unfold allocSize
    by_cases hs : sub.steps = 0
    · simp [hs]
    · have : 1 ≤ cfg.maxSteps / sub.steps := (Nat.one_le_div_iff (by omega)).2 hsteps
      simp only [hs, ne_eq, not_false_eq_true, or_true, if_true]
      omega
  have hr2 : Rep' (allocSize cfg.maxSteps sub)
      (List.replicate ((if sub.t0 then 1 else 0) + sub.ts.length) (cfg.t0, sub.fn cfg.t0 y0))
      (saveIfT0EqT1 cfg y0 sub (unsave cfg.t0 (subLoop cfg y0 tnext ctrl ss mj sub))) := by
    unfold saveIfT0EqT1
    rw [if_pos h01]
    by_cases hts : sub.ts = []
    · rw [if_neg (c := sub.ts ≠ []) (fun h => h hts)]
      simpa [hts] using hr1
    · rw [if_pos hts]
      have := hr1.save sub.ts.length (by rw [List.length_replicate]; omega) cfg.t0 y0 sub.fn
      rwa [List.replicate_append_replicate] at this
  by_cases hp : sub.t1 = true ∨ sub.steps ≠ 0
  · rw [if_pos hp] at hroom ⊢
    have h3 := hr2.save 1 (by rw [List.length_replicate]; exact hroom) cfg.t0 y0 sub.fn
    rw [List.replicate_append_replicate] at h3
    have hpred : (sub.t1 || (if sub.steps = 0 then false else if sub.steps = 1 then true
        else decide (0 % sub.steps = 0))) = true := by
      rcases hp with hp | hp
      · simp [hp]
      · simp [hp]
    unfold saveT1
    simp only [hroot, hpred, Bool.true_or, if_true]
    exact h3.entries
  · have hp' : sub.t1 = false ∧ sub.steps = 0 := by
      simpa using hp
    rw [if_neg hp]
    unfold saveT1
    simp only [hroot, hp'.1, hp'.2]
    simpa using hr2.entries

/-- An empty interval, a root finder, a condition that is not true at the start, and steps that are saved. -/
def emptyRootCfg : Cfg Int Int Int Int Int Int Int Int :=
  { toyEventCfg with
    t1 := 0
    events := [.bool fun t _ => decide (5 ≤ t)]
    subs := [{ toySub with t0 := false, t1 := false, ts := [0, 0], steps := 1 }] }

/-- Non-vacuity. -/
example : ((solve emptyRootCfg 100 3 0 0 false).saves[0]?).map (fun s => entriesOf s.buf)
    = some [(0, 100), (0, 100), (0, 100)] :=
  (C19_empty_interval_root emptyRootCfg toyRoot rfl rfl rfl 100 3 0 0 false
    (fun e he => by
      obtain rfl := List.mem_singleton.1 he
      decide)).2.2.2.2.2 0 _ rfl (by decide)

end Verif
