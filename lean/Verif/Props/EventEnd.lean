import Verif.Props.Dense
import Verif.Props.Event

/-!
# Dense output and events: C110
-/

set_option linter.unusedSectionVars false

namespace Verif

variable {T Y E D S C O F : Type} [LinearOrder T] [LinearOrder F] [Zero F]

/-- If the last attempted step was accepted, it is the step that covers the times after its start. -/
theorem last_covers (cfg : Cfg T Y E D S C O F) (y0 : Y) (tnext : T) (ctrl : C) (ss : S) (mj : Bool)
    (hhist : ∀ s ∈ history cfg y0 tnext ctrl ss mj, (adaptOut cfg s).Exact s.tprev s.tnext ∧
      s.tprev ≤ s.tnext ∧ s.tnext ≤ cfg.t1)
    (s : Core T Y D S C F) (hl : (history cfg y0 tnext ctrl ss mj).getLast? = some s)
    (hacc : accepted cfg s = true) (t : T) (hlo : s.tprev < t) (hhi : t ≤ s.tnext) :
    firstCovering (pieces cfg y0 tnext ctrl ss mj) t = some (piece cfg s) := by
  obtain ⟨p1, p2⟩ := piecesFrom_sorted cfg cfg.maxSteps (initState cfg y0 tnext ctrl ss mj).core hhist
  have p3 := piecesFrom_chain cfg cfg.maxSteps (initState cfg y0 tnext ctrl ss mj).core
    (fun s hs => ⟨(hhist s hs).1.2, le_trans (hhist s hs).2.1 (hhist s hs).2.2⟩)
  rw [← pieces_eq] at p1 p2 p3
  obtain ⟨ini, hini⟩ : ∃ ini, history cfg y0 tnext ctrl ss mj = ini ++ [s] := by
    rw [List.getLast?_eq_some_iff] at hl
    exact hl
  have hps : pieces cfg y0 tnext ctrl ss mj
      = (ini.filter (accepted cfg)).map (piece cfg) ++ [piece cfg s] := by
    unfold pieces
    rw [hini, List.filter_append, List.map_append, List.filter_singleton, hacc]
    rfl
  rw [hps] at p1 p2 p3 ⊢
  generalize (ini.filter (accepted cfg)).map (piece cfg) = A at *
  -- every earlier step ends at or before the start of the last one
  have hA : ∀ p ∈ A, p.t1 ≤ s.tprev := by
    intro p hp
    have h3 := p3 A.length (piece cfg s) (by simp)
    cases hq : A.getLast? with
    | none => rw [List.getLast?_eq_none_iff] at hq; rw [hq] at hp; simp at hp
    | some q =>
      obtain ⟨B, rfl⟩ := List.getLast?_eq_some_iff.1 hq
      have hr : q.reached = s.tprev := by
        have e : (B ++ [q]).length = B.length + 1 := by simp
        rw [e, List.getElem?_cons_succ, List.getElem?_map] at h3
        simpa [piece] using h3
      have hqt : q.t1 = s.tprev := by rw [← hr]; exact ((p2 q (by simp)).2).symm
      rw [← hqt]
      rcases List.mem_append.1 hp with hb | hb
      · rw [List.append_assoc] at p1
        exact (List.pairwise_append.1 p1).2.2 p hb q (by simp)
      · rw [List.mem_singleton] at hb; rw [hb]
  unfold firstCovering
  rw [List.find?_append]
  have hn : A.find? (fun p => decide (t ≤ p.t1)) = none := by
    rw [List.find?_eq_none]
    intro p hp
    simpa using lt_of_le_of_lt (hA p hp) hlo
  rw [hn, Option.none_or, List.find?_cons_of_pos]
  exact decide_eq_true hhi

/-- What dense output gives on the step on which an event triggered. -/
theorem dense_on_last_step (cfg : Cfg T Y E D S C O F) (hwf : cfg.WF) (hd : cfg.dense = true)
    (y0 : Y) (tnext : T) (ctrl : C) (ss : S) (mj : Bool) (htn : cfg.t0 ≤ tnext)
    (hc : ∀ c ∈ callLog cfg y0 tnext ctrl ss mj, (c.answer cfg).Forward c.ctrlT0 c.ctrlT1 ∧
      (c.answer cfg).Exact c.ctrlT0 c.ctrlT1)
    (s : Core T Y D S C F) (hl : (history cfg y0 tnext ctrl ss mj).getLast? = some s)
    (htr : (triggered cfg s).any id = true) :
    (∀ t, s.tprev < t → t ≤ s.tnext →
      (denseOf cfg y0 (solve cfg y0 tnext ctrl ss mj)).evaluate t true
        = some (cfg.solver.interp s.tprev s.tnext (solverOut cfg s).dense t)) ∧
    (∀ t, s.tnext < t →
      (denseOf cfg y0 (solve cfg y0 tnext ctrl ss mj)).evaluate t true = none) := by
  have hf1 := C01_time_forward cfg hwf y0 tnext ctrl ss mj htn (fun c hcm => (hc c hcm).1)
  have hc' := hc
  rw [log_eq] at hc' hf1
  have hhist : ∀ s ∈ history cfg y0 tnext ctrl ss mj, (adaptOut cfg s).Exact s.tprev s.tnext ∧
      s.tprev ≤ s.tnext ∧ s.tnext ≤ cfg.t1 := by
    intro s hs
    refine ⟨(hc' _ (List.mem_map_of_mem hs)).2, ?_⟩
    exact (hf1.1 _ (List.mem_map_of_mem hs)).2
  have hs : s ∈ history cfg y0 tnext ctrl ss mj := List.mem_of_getLast? hl
  obtain ⟨⟨hx1, hx2⟩, hle, hle1⟩ := hhist s hs
  -- the step was accepted
  have hacc : accepted cfg s = true := by
    cases ha : accepted cfg s with
    | true => rfl
    | false =>
      have := C16_rejected_never_triggers cfg y0 tnext ctrl ss mj hwf.le s hs ha (hx2 ha)
      rw [List.any_eq_true] at htr
      obtain ⟨b, hb, hb'⟩ := htr
      rw [this b hb] at hb'
      simp at hb'
  have hmem : piece cfg s ∈ pieces cfg y0 tnext ctrl ss mj :=
    List.mem_map_of_mem (List.mem_filter.2 ⟨hs, hacc⟩)
  have hne : 0 < (solve cfg y0 tnext ctrl ss mj).core.numAccepted := by
    rw [← (pieces_length cfg y0 tnext ctrl ss mj).1]
    exact List.length_pos_of_mem hmem
  have hcore : (solve cfg y0 tnext ctrl ss mj).core.tprev = s.tnext := by
    rw [solve_core, coreRun_eq_last]
    unfold history at hl
    rw [hl]
    change min (adaptOut cfg s).tprev cfg.t1 = s.tnext
    rw [hx1 hacc, min_eq_left hle1]
  have h0 : cfg.t0 ≤ s.tprev := (hf1.1 _ (List.mem_map_of_mem hs)).1
  refine ⟨fun t hlo hhi => ?_, fun t ht => ?_⟩
  · obtain ⟨p, hp, hev⟩ := (C13_dense_value cfg hwf hd y0 tnext ctrl ss mj htn hc hne t).1
      (le_trans h0 (le_of_lt hlo)) (by rw [hcore]; exact hhi)
    rw [last_covers cfg y0 tnext ctrl ss mj hhist s hl hacc t hlo hhi] at hp
    rw [hev, ← Option.some.inj hp]
    rfl
  · exact (C13_dense_value cfg hwf hd y0 tnext ctrl ss mj htn hc hne t).2
      (.inr (by rw [hcore]; exact ht))

/-- What holds: if an event triggered and its time was located inside the last step, the dense output of the
solve at that time is the final value of the solve. It is undefined after the end of the step.
Missing: it should be undefined after the event already; see `C110_continues_after_event`. -/
theorem C110_dense_at_event_partial (cfg : Cfg T Y E D S C O F) (hwf : cfg.WF) (f)
    (hroot : cfg.rootFinder = some f) (hd : cfg.dense = true)
    (y0 : Y) (tnext : T) (ctrl : C) (ss : S) (mj : Bool) (htn : cfg.t0 ≤ tnext)
    (hc : ∀ c ∈ callLog cfg y0 tnext ctrl ss mj, (c.answer cfg).Forward c.ctrlT0 c.ctrlT1 ∧
      (c.answer cfg).Exact c.ctrlT0 c.ctrlT1)
    (s : Core T Y D S C F) (hl : (history cfg y0 tnext ctrl ss mj).getLast? = some s)
    (htr : ∃ e ∈ cfg.events, ShouldTrigger e s.tprev s.y (nextT cfg s) (nextY cfg s))
    (hin : s.tprev < (solve cfg y0 tnext ctrl ss mj).tfinal ∧
      (solve cfg y0 tnext ctrl ss mj).tfinal ≤ s.tnext) :
    (denseOf cfg y0 (solve cfg y0 tnext ctrl ss mj)).evaluate (solve cfg y0 tnext ctrl ss mj).tfinal true
      = some (solve cfg y0 tnext ctrl ss mj).yfinal ∧
    (∀ t, s.tnext < t →
      (denseOf cfg y0 (solve cfg y0 tnext ctrl ss mj)).evaluate t true = none) := by
  have hs : s ∈ history cfg y0 tnext ctrl ss mj := List.mem_of_getLast? hl
  have htr' : (triggered cfg s).any id = true := by
    rw [triggered_get cfg y0 tnext ctrl ss mj s hs]
    simp only [List.any_map, List.any_eq_true, Function.comp, id]
    obtain ⟨e, he, h⟩ := htr
    exact ⟨e, he, (triggers_iff e _ _ _ _).2 h⟩
  obtain ⟨h1, h2⟩ := dense_on_last_step cfg hwf hd y0 tnext ctrl ss mj htn hc s hl htr'
  refine ⟨?_, h2⟩
  rw [h1 _ hin.1 hin.2]
  have hcore : (solve cfg y0 tnext ctrl ss mj).core = (coreBody cfg s).1 := by
    rw [solve_core, coreRun_eq_last]
    unfold history at hl
    rw [hl]
  have hm : (coreBody cfg s).1.evMask.any id = true := by
    rw [coreBody_mask, firstTrue_any]; exact htr'
  have hns : ¬ (coreBody cfg s).1.numSteps = 0 := by rw [coreBody_numSteps]; omega
  rw [solve_yfinal, solve_tfinal, hcore]
  unfold finalise
  rw [hroot]
  simp only [hm, if_true, if_neg hns]
  rfl

/-- Whenever an event triggered, and whatever time the root finder located: the dense output is defined for
all times of the last step, also after the event; there it is the interpolation of a step that the solve is not
reported to have completed. -/
theorem C110_continues_after_event (cfg : Cfg T Y E D S C O F) (hwf : cfg.WF) (hd : cfg.dense = true)
    (y0 : Y) (tnext : T) (ctrl : C) (ss : S) (mj : Bool) (htn : cfg.t0 ≤ tnext)
    (hc : ∀ c ∈ callLog cfg y0 tnext ctrl ss mj, (c.answer cfg).Forward c.ctrlT0 c.ctrlT1 ∧
      (c.answer cfg).Exact c.ctrlT0 c.ctrlT1)
    (s : Core T Y D S C F) (hl : (history cfg y0 tnext ctrl ss mj).getLast? = some s)
    (htr : ∃ e ∈ cfg.events, ShouldTrigger e s.tprev s.y (nextT cfg s) (nextY cfg s))
    (t : T) (hlo : s.tprev < t) (hhi : t ≤ s.tnext) :
    (denseOf cfg y0 (solve cfg y0 tnext ctrl ss mj)).evaluate t true
      = some (cfg.solver.interp s.tprev s.tnext (solverOut cfg s).dense t) := by
  have hs : s ∈ history cfg y0 tnext ctrl ss mj := List.mem_of_getLast? hl
  have htr' : (triggered cfg s).any id = true := by
    rw [triggered_get cfg y0 tnext ctrl ss mj s hs]
    simp only [List.any_map, List.any_eq_true, Function.comp, id]
    obtain ⟨e, he, h⟩ := htr
    exact ⟨e, he, (triggers_iff e _ _ _ _).2 h⟩
  exact (dense_on_last_step cfg hwf hd y0 tnext ctrl ss mj htn hc s hl htr').1 t hlo hhi

/-- Non-vacuity of both: the event at time 4 lies inside the step from 3 to 5. -/
example : ∃ s, (history toyEventCfg 100 3 0 0 false).getLast? = some s ∧
    (triggered toyEventCfg s).any id = true ∧ s.tprev = 3 ∧ s.tnext = 5 ∧
    (solve toyEventCfg 100 3 0 0 false).tfinal = 4 ∧
    (denseOf toyEventCfg 100 (solve toyEventCfg 100 3 0 0 false)).evaluate 4 true
      = some (solve toyEventCfg 100 3 0 0 false).yfinal :=
  ⟨_, rfl, by decide, by decide, by decide, by decide, by decide⟩

/-- The code violates the property: an event is located at time 4, the last saved time is 4, and dense output has a
value at time 5. -/
theorem C110_violated :
    (solve toyEventCfg 100 3 0 0 false).result = .eventOccurred ∧
    (solve toyEventCfg 100 3 0 0 false).tfinal = 4 ∧
    (∀ es ∈ (solve toyEventCfg 100 3 0 0 false).saves.map (fun s => entriesOf s.buf), ∀ e ∈ es, e.1 ≤ 4) ∧
    (denseOf toyEventCfg 100 (solve toyEventCfg 100 3 0 0 false)).evaluate 5 true ≠ none := by
  decide

end Verif
