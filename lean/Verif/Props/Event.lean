import Verif.Lemmas.Sorted
import Verif.Props.Loop
import Verif.Props.Save

/-!
# Properties of events: C14-C18
-/

set_option linter.unusedSectionVars false

namespace Verif

variable {T Y E D S C O F : Type} [LinearOrder T] [LinearOrder F] [Zero F]

/-! ## C14: exactly one event is reported, the first that triggered -/

/-- Which conditions triggered on the last attempted step (or at the initial time, if there was no
attempt). -/
def lastTriggered (cfg : Cfg T Y E D S C O F) (y0 : Y) (tnext : T) (ctrl : C) (ss : S) (mj : Bool) :
    List Bool :=
  match (history cfg y0 tnext ctrl ss mj).getLast? with
  | none => cfg.events.map (fun e => e.initMask cfg.t0 y0)
  | some s => triggered cfg s

theorem firstTrue_get (l : List Bool) (i : Nat) :
    (firstTrue false l).1[i]? = some true ↔ l[i]? = some true ∧ ∀ j < i, l[j]? ≠ some true := by
  induction l generalizing i with
  | nil => simp [firstTrue]
  | cons m ms ih =>
    cases m with
    | true =>
      cases i with
      | zero => simp [firstTrue]
      | succ i =>
        constructor
        · intro h
          simp only [firstTrue, Bool.true_or, Bool.not_false, Bool.and_self,
            List.getElem?_cons_succ, firstTrue_true, List.getElem?_map] at h
          cases hm : ms[i]? <;> simp [hm] at h
        · rintro ⟨-, h⟩
          exact absurd (h 0 (Nat.succ_pos i)) (by simp)
    | false =>
      cases i with
      | zero => simp [firstTrue]
      | succ i =>
        simp only [firstTrue, Bool.false_or, Bool.false_and, List.getElem?_cons_succ]
        rw [ih]
        constructor
        · rintro ⟨h1, h2⟩
          refine ⟨h1, ?_⟩
          intro j hj
          cases j with
          | zero => simp
          | succ j => simpa using h2 j (by omega)
        · rintro ⟨h1, h2⟩
          exact ⟨h1, fun j hj => by simpa using h2 (j + 1) (by omega)⟩

theorem evMask_eq (cfg : Cfg T Y E D S C O F) (y0 : Y) (tnext : T) (ctrl : C) (ss : S) (mj : Bool) :
    (solve cfg y0 tnext ctrl ss mj).core.evMask
      = (firstTrue false (lastTriggered cfg y0 tnext ctrl ss mj)).1 := by
  rw [solve_core, coreRun_eq_last]
  unfold lastTriggered history
  split <;> rename_i h <;> rw [h] <;> rfl

/-- The returned mask is `True` at index `i` exactly if condition `i` triggered on the last step and no
earlier condition did; so it has at most one `True`. The loop ends with `event_occurred` exactly if
there is one, and then the final result is `event_occurred` or the root finder's failure. -/
theorem C14_one_hot (cfg : Cfg T Y E D S C O F) (hown : cfg.OwnCodes) (y0 : Y) (tnext : T) (ctrl : C)
    (ss : S) (mj : Bool) :
    let out := solve cfg y0 tnext ctrl ss mj
    let trig := lastTriggered cfg y0 tnext ctrl ss mj
    (∀ i : Nat, out.core.evMask[i]? = some true ↔ trig[i]? = some true ∧ ∀ j < i, trig[j]? ≠ some true) ∧
    (∀ i j : Nat, out.core.evMask[i]? = some true → out.core.evMask[j]? = some true → i = j) ∧
    ((∃ i : Nat, out.core.evMask[i]? = some true) ↔ out.core.result = .eventOccurred) ∧
    (out.result = .eventOccurred → ∃ i : Nat, out.core.evMask[i]? = some true) ∧
    ((∃ i : Nat, out.core.evMask[i]? = some true) → cfg.rootFinder = none →
      out.result = .eventOccurred) := by
  dsimp only
  have h1 : ∀ i : Nat, (solve cfg y0 tnext ctrl ss mj).core.evMask[i]? = some true ↔
      (lastTriggered cfg y0 tnext ctrl ss mj)[i]? = some true ∧
      ∀ j < i, (lastTriggered cfg y0 tnext ctrl ss mj)[j]? ≠ some true := by
    intro i; rw [evMask_eq]; exact firstTrue_get _ i
  have hany : ∀ l : List Bool, (∃ i : Nat, l[i]? = some true) ↔ l.any id = true := by
    intro l
    rw [List.any_eq_true]
    constructor
    · rintro ⟨i, hi⟩; exact ⟨true, List.mem_of_getElem? hi, rfl⟩
    · rintro ⟨x, hx, hx'⟩
      have : x = true := by simpa using hx'
      subst this
      exact List.mem_iff_getElem?.1 hx
  have hcl := core_result_classification cfg hown y0 tnext ctrl ss mj
  dsimp only at hcl
  refine ⟨h1, ?_, ?_, ?_, ?_⟩
  · intro i j hi hj
    rw [h1] at hi hj
    rcases Nat.lt_trichotomy i j with h | h | h
    · exact absurd hi.1 (hj.2 i h)
    · exact h
    · exact absurd hj.1 (hi.2 j h)
  · rw [hany]; exact hcl.2.symm
  · intro he
    rw [hany]
    rw [solve_result] at he
    split at he
    · simp at he
    · rw [← hcl.2]
      unfold finalise at he
      split at he
      · exact he
      · rename_i f hf
        dsimp only at he
        split at he
        · rename_i hm; exact hcl.2.2 hm
        · exact he
  · rw [hany]
    intro hm hr
    rw [solve_result, finalise_no_root cfg _ hr]
    have hres := hcl.2.2 hm
    have : condFun cfg (solve cfg y0 tnext ctrl ss mj).core = false := by
      simp [condFun, hres, Result.isSuccessful]
    rw [this]; simpa using hres

def toyEvents : List (EventCond Int Int Int) :=
  [.bool fun _ y => decide (y = 200), .flt (fun t _ => t - 4) none, .bool fun t _ => decide (5 ≤ t)]

example : lastTriggered { toyCfg with events := toyEvents } 100 3 0 0 false = [false, true, true] ∧
    (solve { toyCfg with events := toyEvents } 100 3 0 0 false).core.evMask = [false, true, false] ∧
    (solve { toyCfg with events := toyEvents } 100 3 0 0 false).result = .eventOccurred := by decide

/-! ## C15: stops at the first trigger; direction semantics -/

theorem sgn_pos (x : F) : sgn x > 0 ↔ 0 < x := by
  unfold sgn; split
  · simp_all
  · split <;> simp_all

theorem sgn_nonpos (x : F) : sgn x ≤ 0 ↔ x ≤ 0 := by
  have := sgn_pos x
  rw [← not_lt, ← not_lt]; exact not_congr this

theorem sgn_eq (x y : F) : sgn x = sgn y ↔
    (0 < x ∧ 0 < y) ∨ (x < 0 ∧ y < 0) ∨ (x = 0 ∧ y = 0) := by
  unfold sgn
  rcases lt_trichotomy x 0 with hx | hx | hx <;> rcases lt_trichotomy y 0 with hy | hy | hy <;>
    simp [hx, hy, lt_asymm, ne_of_gt, ne_of_lt]

theorem triggers_iff (e : EventCond T Y F) (t : T) (y : Y) (t' : T) (y' : Y) :
    e.triggers (e.value t y) t' y' = true ↔ ShouldTrigger e t y t' y' := by
  cases e with
  | bool c => simp [EventCond.triggers, ShouldTrigger]
  | flt c d =>
    cases d with
    | none =>
      simp only [EventCond.triggers, EventCond.value, ShouldTrigger, Crosses, decide_eq_true_eq]
      rw [ne_eq, sgn_eq]
    | some b =>
      cases b
      · simp only [EventCond.triggers, EventCond.value, ShouldTrigger, Crosses, Bool.and_eq_true,
          decide_eq_true_eq, sgn_pos, sgn_nonpos]
      · simp only [EventCond.triggers, EventCond.value, ShouldTrigger, Crosses, Bool.and_eq_true,
          decide_eq_true_eq, sgn_pos, sgn_nonpos]

/-- At every attempt the stored event values are those at the current time and value. -/
theorem history_evVals (cfg : Cfg T Y E D S C O F) (y0 : Y) (tnext : T) (ctrl : C) (ss : S)
    (mj : Bool) : ∀ s ∈ history cfg y0 tnext ctrl ss mj,
      s.evVals = cfg.events.map (fun e => e.value s.tprev s.y) :=
  (run_inv cfg (fun s => s.evVals = cfg.events.map (fun e => e.value s.tprev s.y)) cfg.maxSteps
    (initState cfg y0 tnext ctrl ss mj).core rfl (fun _ _ _ _ => rfl)).1

theorem triggered_get (cfg : Cfg T Y E D S C O F) (y0 : Y) (tnext : T) (ctrl : C) (ss : S)
    (mj : Bool) (s : Core T Y D S C F) (hs : s ∈ history cfg y0 tnext ctrl ss mj) :
    triggered cfg s = cfg.events.map (fun e =>
      e.triggers (e.value s.tprev s.y) (nextT cfg s) (nextY cfg s)) := by
  unfold triggered
  rw [history_evVals cfg y0 tnext ctrl ss mj s hs]
  apply List.ext_getElem <;> simp

/-- On an attempt from `(t, y)` that leaves the solve at `(t', y')`, condition `i` triggers exactly if
its direction says so. If some condition triggers, that attempt is the last one and the loop ends
with `event_occurred`; the result is never `event_occurred` unless some condition triggered on the last
attempt (or a boolean one was true at the start). -/
theorem C15_stops_at_first_trigger (cfg : Cfg T Y E D S C O F) (hown : cfg.OwnCodes) (y0 : Y)
    (tnext : T) (ctrl : C) (ss : S) (mj : Bool) :
    let out := solve cfg y0 tnext ctrl ss mj
    (∀ s ∈ history cfg y0 tnext ctrl ss mj, ∀ (i : Nat) (e : EventCond T Y F), cfg.events[i]? = some e →
      ((triggered cfg s)[i]? = some true ↔
        ShouldTrigger e s.tprev s.y (nextT cfg s) (nextY cfg s))) ∧
    (∀ s ∈ history cfg y0 tnext ctrl ss mj,
      (∃ e ∈ cfg.events, ShouldTrigger e s.tprev s.y (nextT cfg s) (nextY cfg s)) →
      (history cfg y0 tnext ctrl ss mj).getLast? = some s ∧ out.core.result = .eventOccurred ∧
      out.core.tprev = nextT cfg s ∧ out.core.y = nextY cfg s) ∧
    (out.result = .eventOccurred →
      match (history cfg y0 tnext ctrl ss mj).getLast? with
      | none => ∃ e ∈ cfg.events, e.initMask cfg.t0 y0 = true
      | some s => ∃ e ∈ cfg.events,
          ShouldTrigger e s.tprev s.y (nextT cfg s) (nextY cfg s)) := by
  dsimp only
  have hget : ∀ s ∈ history cfg y0 tnext ctrl ss mj, ∀ (i : Nat) (e : EventCond T Y F), cfg.events[i]? = some e →
      ((triggered cfg s)[i]? = some true ↔
        ShouldTrigger e s.tprev s.y (nextT cfg s) (nextY cfg s)) := by
    intro s hs i e he
    rw [triggered_get cfg y0 tnext ctrl ss mj s hs, List.getElem?_map, he, Option.map_some,
      ← triggers_iff]
    simp
  have hany : ∀ s ∈ history cfg y0 tnext ctrl ss mj, ((triggered cfg s).any id = true ↔
      ∃ e ∈ cfg.events, ShouldTrigger e s.tprev s.y (nextT cfg s) (nextY cfg s)) := by
    intro s hs
    rw [triggered_get cfg y0 tnext ctrl ss mj s hs]
    simp only [List.any_map, List.any_eq_true, Function.comp, id]
    exact exists_congr fun e => and_congr_right fun _ => triggers_iff e _ _ _ _
  refine ⟨hget, ?_, ?_⟩
  · intro s hs hex
    have htr := (hany s hs).2 hex
    have hcond := attempts_cond _ _ _ _ hs
    have hres := coreBody_result cfg s (condFun_succ cfg s hcond)
    rw [htr, if_pos rfl] at hres
    obtain ⟨h1, h2⟩ := attempts_last cfg _ _ s hs (by rw [hres]; rfl)
    refine ⟨h1, ?_, ?_, ?_⟩ <;> rw [solve_core, h2]
    · exact hres
    · rfl
    · rfl
  · intro he
    obtain ⟨h14, -, -, hx, -⟩ := C14_one_hot cfg hown y0 tnext ctrl ss mj
    obtain ⟨i, hi⟩ := hx he
    have := ((h14 i).1 hi).1
    unfold lastTriggered at this
    cases hl : (history cfg y0 tnext ctrl ss mj).getLast? with
    | none =>
      rw [hl] at this
      simp only [List.getElem?_map] at this
      cases hev : cfg.events[i]? with
      | none => rw [hev] at this; simp at this
      | some e =>
        rw [hev] at this
        simp only [Option.map_some, Option.some.injEq] at this
        exact ⟨e, List.mem_of_getElem? hev, this⟩
    | some s =>
      rw [hl] at this
      simp only at this ⊢
      have hs : s ∈ history cfg y0 tnext ctrl ss mj := List.mem_of_getLast? hl
      rw [← hany s hs, List.any_eq_true]
      exact ⟨true, List.mem_of_getElem? this, rfl⟩

example : ({ toyCfg with events := toyEvents } : Cfg Int Int Int Int Int Int Int Int).OwnCodes ∧
    (solve { toyCfg with events := toyEvents } 100 3 0 0 false).core.tprev = 5 :=
  ⟨⟨toyCfg_OwnCodes.solver, toyCfg_OwnCodes.controller, toyCfg_OwnCodes.root⟩, by decide⟩

/-! ## C16: up- and downcrossings; rejected steps -/

/-- `None` triggers on every sign change, in particular whenever `True` or `False` does; a strict sign
change triggers exactly one of `True` and `False`; an unchanged value never triggers. -/
theorem C16_directions (old new : F) (e : T → Y → F) (t : T) (y : Y) (ho : e t y = old) :
    (∀ t' y', e t' y' = new →
      ((EventCond.flt e none).triggers (.flt old) t' y' = true ↔
        ¬ ((0 < old ∧ 0 < new) ∨ (old < 0 ∧ new < 0) ∨ (old = 0 ∧ new = 0))) ∧
      (old < 0 → 0 < new →
        (EventCond.flt e (some true)).triggers (.flt old) t' y' = true ∧
        (EventCond.flt e (some false)).triggers (.flt old) t' y' = false) ∧
      (0 < old → new < 0 →
        (EventCond.flt e (some true)).triggers (.flt old) t' y' = false ∧
        (EventCond.flt e (some false)).triggers (.flt old) t' y' = true) ∧
      (∀ b, (EventCond.flt e (some b)).triggers (.flt old) t' y' = true →
        (EventCond.flt e none).triggers (.flt old) t' y' = true) ∧
      ((EventCond.flt e (some true)).triggers (.flt old) t' y' = true →
        (EventCond.flt e (some false)).triggers (.flt old) t' y' = false)) ∧
    (∀ d, (EventCond.flt e d).triggers (.flt old) t y = false) := by
  have key : ∀ d t' y', (EventCond.flt e d).triggers (.flt old) t' y' = true ↔
      Crosses d old (e t' y') := by
    intro d t' y'
    have := triggers_iff (EventCond.flt e d) t y t' y'
    simpa [EventCond.value, ShouldTrigger, ho] using this
  have keyf : ∀ d t' y', (EventCond.flt e d).triggers (.flt old) t' y' = false ↔
      ¬ Crosses d old (e t' y') := by
    intro d t' y'; rw [← key]; simp
  refine ⟨?_, ?_⟩
  · intro t' y' hn
    simp only [key, keyf, hn, Crosses]
    refine ⟨trivial, ?_, ?_, ?_, ?_⟩
    · intro h1 h2; exact ⟨⟨le_of_lt h1, h2⟩, fun h => lt_asymm h1 h.1⟩
    · intro h1 h2; exact ⟨fun h => lt_asymm h2 h.2, ⟨h1, le_of_lt h2⟩⟩
    · intro b hb hh
      cases b
      · obtain ⟨h1, h2⟩ := hb
        rcases hh with h | h | h
        · exact not_lt.2 h2 h.2
        · exact lt_asymm h1 h.1
        · exact (ne_of_gt h1) h.1
      · obtain ⟨h1, h2⟩ := hb
        rcases hh with h | h | h
        · exact not_lt.2 h1 h.1
        · exact lt_asymm h2 h.2
        · exact (ne_of_gt h2) h.2
    · intro h1 h2; exact not_lt.2 h1.1 h2.1
  · intro d
    rw [keyf, ho]
    cases d with
    | none =>
      simp only [Crosses, not_not]
      rcases lt_trichotomy old 0 with h | h | h
      · right; left; exact ⟨h, h⟩
      · right; right; exact ⟨h, h⟩
      · left; exact ⟨h, h⟩
    | some b =>
      cases b
      · rintro ⟨h1, h2⟩; exact not_lt.2 h2 h1
      · rintro ⟨h1, h2⟩; exact not_lt.2 h1 h2

/-- A rejected step that is retried from where it started never triggers any event. -/
theorem C16_rejected_never_triggers (cfg : Cfg T Y E D S C O F) (y0 : Y) (tnext : T) (ctrl : C)
    (ss : S) (mj : Bool) (hle : cfg.t0 ≤ cfg.t1)
    (s : Core T Y D S C F) (hs : s ∈ history cfg y0 tnext ctrl ss mj)
    (hrej : accepted cfg s = false) (hexact : (adaptOut cfg s).tprev = s.tprev) :
    ∀ b ∈ triggered cfg s, b = false := by
  -- a boolean condition that is true ends the solve
  have hbool : ∀ s ∈ history cfg y0 tnext ctrl ss mj, s.tprev ≤ cfg.t1 ∧
      (s.result.isSuccessful = true → ∀ e ∈ cfg.events, e.initMask s.tprev s.y = false) := by
    refine (run_inv cfg (fun s => s.tprev ≤ cfg.t1 ∧ (s.result.isSuccessful = true →
      ∀ e ∈ cfg.events, e.initMask s.tprev s.y = false)) cfg.maxSteps
      (initState cfg y0 tnext ctrl ss mj).core ⟨hle, ?_⟩ ?_).1
    · intro hsucc e he
      have e1 : (initState cfg y0 tnext ctrl ss mj).core.result = Result.where'
        (firstTrue false (cfg.events.map (fun e => e.initMask cfg.t0 y0))).2 .eventOccurred
        .successful := rfl
      rw [e1, firstTrue_snd, Bool.false_or] at hsucc
      by_contra hne
      have hm : (cfg.events.map (fun e => e.initMask cfg.t0 y0)).any id = true := by
        rw [List.any_eq_true]
        refine ⟨true, List.mem_map.2 ⟨e, he, ?_⟩, rfl⟩
        have : ¬ e.initMask cfg.t0 y0 = false := hne
        simpa using this
      rw [hm] at hsucc
      simp [Result.where', Result.isSuccessful] at hsucc
    · intro s hs' hc _
      refine ⟨min_le_right _ _, ?_⟩
      intro hsucc e he
      rw [coreBody_result cfg s (condFun_succ cfg s hc)] at hsucc
      cases htr : (triggered cfg s).any id with
      | true => rw [htr] at hsucc; simp [Result.isSuccessful] at hsucc
      | false =>
        rw [triggered_get cfg y0 tnext ctrl ss mj s hs'] at htr
        cases e with
        | flt c d => rfl
        | bool c =>
          have := List.any_eq_false.1 htr (c (nextT cfg s) (nextY cfg s))
            (List.mem_map.2 ⟨_, he, rfl⟩)
          change c (nextT cfg s) (nextY cfg s) = false
          simpa using this
  obtain ⟨htp, hb⟩ := hbool s hs
  have hb := hb (condFun_succ cfg s (attempts_cond _ _ _ _ hs))
  have e1 : nextT cfg s = s.tprev := by
    unfold nextT; rw [hexact, min_eq_left htp]
  have e2 : nextY cfg s = s.y := by unfold nextY; rw [hrej]; rfl
  intro b hbm
  rw [triggered_get cfg y0 tnext ctrl ss mj s hs, e1, e2] at hbm
  obtain ⟨e, he, rfl⟩ := List.mem_map.1 hbm
  cases e with
  | bool c => exact hb _ he
  | flt c d => exact (C16_directions (c s.tprev s.y) (c s.tprev s.y) c s.tprev s.y rfl).2 d

example : ∃ s ∈ history { toyCfg with events := toyEvents } 100 3 0 0 false,
    accepted { toyCfg with events := toyEvents } s = false ∧
    (adaptOut { toyCfg with events := toyEvents } s).tprev = s.tprev :=
  ⟨_, List.mem_cons_self .., by decide, by decide⟩

/-! ## C17: no saved value lies beyond the event time -/

/-- `final value is (also) due via steps`, the condition used by `_save_t1`. -/
def dueViaSteps (sub : SubSaveAt T Y O) (k : Nat) : Prop := sub.steps ≠ 0 ∧ sub.steps ∣ k

theorem saveT1_root (cfg : Cfg T Y E D S C O F) (f) (hroot : cfg.rootFinder = some f)
    (sub : SubSaveAt T Y O) (k : Nat) (tf : T) (yf : Y) (size : Nat) (hcap : 1 ≤ size)
    (es : List (T × O)) (sv : SaveState T O) (h : Rep' size es sv) :
    (¬ (sub.t1 = true ∨ dueViaSteps sub k) → entriesOf (saveT1 cfg k tf yf sub sv).buf = es) ∧
    (sub.t1 = true ∨ dueViaSteps sub k → es.length < size →
      entriesOf (saveT1 cfg k tf yf sub sv).buf = es ++ [(tf, sub.fn tf yf)]) ∧
    (sub.t1 = true ∨ dueViaSteps sub k → es.length = size →
      entriesOf (saveT1 cfg k tf yf sub sv).buf = es.dropLast ++ [(tf, sub.fn tf yf)]) := by
  have hpred : (sub.t1 || (if sub.steps = 0 then false else if sub.steps = 1 then true
      else decide (k % sub.steps = 0))) = decide (sub.t1 = true ∨ (sub.steps ≠ 0 ∧ sub.steps ∣ k)) := by
    by_cases h0 : sub.steps = 0
    · simp [h0]
    · by_cases h1 : sub.steps = 1
      · simp [h1]
      · simp [h0, h1, Nat.dvd_iff_mod_eq_zero]
  unfold saveT1
  rw [hroot]
  dsimp only
  rw [hpred]
  unfold dueViaSteps
  by_cases hp : sub.t1 = true ∨ (sub.steps ≠ 0 ∧ sub.steps ∣ k)
  · simp only [hp, decide_true, Bool.true_or, if_true, not_true_eq_false, false_implies,
      true_implies, true_and]
    refine ⟨fun hl => ?_, fun hl => h.save_full hl (by omega) tf yf sub.fn⟩
    have := h.save 1 (by omega) tf yf sub.fn
    simpa using this.entries
  · simp only [hp, decide_false, Bool.false_or, not_false_eq_true, true_implies, false_implies,
      and_true]
    split
    · rw [save_false_buf _ sv rfl (by rw [h.choose_spec.2.2.2]; exact hcap)]
      exact h.entries
    · exact h.entries

/-- With an event root finder (and `t0 != t1`) the entries saved by each `SubSaveAt` are: what was saved
during the loop with time `≤ tfinal`, all of it and in order; followed by the final entry if `t1=True`,
or if the number of accepted steps is a multiple of `steps` (in a full buffer it replaces the last
entry). In particular no time after `tfinal` remains. If an event triggered, `tfinal` is the root that
was found, and the final value is the interpolation of the last attempted step at that root. With
`t1=True` there is room for the final entry, except when the event time is not strictly before the end
of the last step, all `max_steps` steps were accepted, and this last step was saved via `steps`. -/
theorem C17_nothing_after_event (cfg : Cfg T Y E D S C O F) (hwf : cfg.WF) (f)
    (hroot : cfg.rootFinder = some f) (hlt : cfg.t0 ≠ cfg.t1)
    (hcap : ∀ sub ∈ cfg.subs, 1 ≤ allocSize cfg.maxSteps sub)
    (hts : ∀ sub ∈ cfg.subs, sub.ts.Pairwise (· ≤ ·) ∧ ∀ t ∈ sub.ts, cfg.t0 ≤ t)
    (y0 : Y) (tnext : T) (ctrl : C) (ss : S) (mj : Bool) (htn : cfg.t0 ≤ tnext)
    (hc : ∀ c ∈ callLog cfg y0 tnext ctrl ss mj, (c.answer cfg).Forward c.ctrlT0 c.ctrlT1 ∧
      (c.answer cfg).Exact c.ctrlT0 c.ctrlT1) :
    let out := solve cfg y0 tnext ctrl ss mj
    let ps := pieces cfg y0 tnext ctrl ss mj
    let kept := fun sub : SubSaveAt T Y O =>
      ((if sub.t0 then [(cfg.t0, sub.fn cfg.t0 y0)] else [])
        ++ stepEntries cfg.solver sub ps 0 sub.ts).filter (fun e => decide (e.1 ≤ out.tfinal))
    let final := fun sub : SubSaveAt T Y O => [(out.tfinal, sub.fn out.tfinal out.yfinal)]
    (∀ (i : Nat) (sub : SubSaveAt T Y O), cfg.subs[i]? = some sub → ∃ sv, out.saves[i]? = some sv ∧
      (∀ e ∈ entriesOf sv.buf, e.1 ≤ out.tfinal) ∧
      (¬ (sub.t1 = true ∨ dueViaSteps sub ps.length) → entriesOf sv.buf = kept sub) ∧
      (sub.t1 = true ∨ dueViaSteps sub ps.length →
        (kept sub).length < allocSize cfg.maxSteps sub →
        entriesOf sv.buf = kept sub ++ final sub) ∧
      (sub.t1 = true ∨ dueViaSteps sub ps.length →
        (kept sub).length = allocSize cfg.maxSteps sub →
        entriesOf sv.buf = (kept sub).dropLast ++ final sub) ∧
      (kept sub).length ≤ allocSize cfg.maxSteps sub ∧
      (sub.t1 = true → (¬ dueViaSteps sub ps.length ∨ ps.length < cfg.maxSteps ∨
          (0 < ps.length ∧ out.tfinal < out.core.tprev)) →
        (kept sub).length < allocSize cfg.maxSteps sub)) ∧
    (∀ s, (history cfg y0 tnext ctrl ss mj).getLast? = some s → (triggered cfg s).any id = true →
      out.tfinal = (f (toRootFind cfg out.core true) s.tprev s.tnext).1 ∧
      out.yfinal = cfg.solver.interp s.tprev s.tnext (solverOut cfg s).dense out.tfinal) := by
  dsimp only
  have hf1 := C01_time_forward cfg hwf y0 tnext ctrl ss mj htn (fun c hcm => (hc c hcm).1)
  rw [log_eq] at hc hf1
  have hhist : ∀ s ∈ history cfg y0 tnext ctrl ss mj, (adaptOut cfg s).Exact s.tprev s.tnext ∧
      s.tprev ≤ s.tnext ∧ s.tnext ≤ cfg.t1 := by
    intro s hs
    refine ⟨(hc _ (List.mem_map_of_mem hs)).2, ?_⟩
    exact (hf1.1 _ (List.mem_map_of_mem hs)).2
  refine ⟨?_, ?_⟩
  · intro i sub hi
    have hmem : sub ∈ cfg.subs := List.mem_of_getElem? hi
    have hsv := congrArg (fun l => l[i]?) (solve_saves cfg y0 tnext ctrl ss mj)
    have hid : ∀ sv : SaveState T O,
        saveIfT0EqT1 cfg (solve cfg y0 tnext ctrl ss mj).yfinal sub sv = sv := by
      intro sv; simp [saveIfT0EqT1, hlt]
    simp only [List.getElem?_map, hi, Option.map_some, hroot, hid] at hsv
    refine ⟨_, hsv, ?_⟩
    have hrep := (subLoop_rep cfg y0 tnext ctrl ss mj sub).weaken
    have hsorted := loopEntries_sorted cfg y0 tnext ctrl ss mj sub hhist (hts sub hmem).1
      (hts sub hmem).2
    have hun := hrep.unsave (solve cfg y0 tnext ctrl ss mj).tfinal hsorted
    have hpl := (pieces_length cfg y0 tnext ctrl ss mj).1
    rw [← hpl]
    obtain ⟨g1, g2, g3⟩ := saveT1_root cfg f hroot sub (pieces cfg y0 tnext ctrl ss mj).length
      (solve cfg y0 tnext ctrl ss mj).tfinal (solve cfg y0 tnext ctrl ss mj).yfinal _
      (hcap sub hmem) _ _ hun
    have hkle := hun.length_le
    have hkept : ∀ e ∈ (loopEntries cfg y0 (pieces cfg y0 tnext ctrl ss mj) sub).filter
        (fun e => decide (e.1 ≤ (solve cfg y0 tnext ctrl ss mj).tfinal)),
        e.1 ≤ (solve cfg y0 tnext ctrl ss mj).tfinal := by
      intro e he; simpa using (List.mem_filter.1 he).2
    refine ⟨?_, g1, g2, g3, hkle, ?_⟩
    · by_cases hp : sub.t1 = true ∨ dueViaSteps sub (pieces cfg y0 tnext ctrl ss mj).length
      · rcases Nat.lt_or_eq_of_le hkle with hl | hl
        · rw [g2 hp hl]
          intro e he
          rcases List.mem_append.1 he with he | he
          · exact hkept e he
          · rw [List.mem_singleton] at he; rw [he]
        · rw [g3 hp hl]
          intro e he
          rcases List.mem_append.1 he with he | he
          · exact hkept e (List.dropLast_subset _ he)
          · rw [List.mem_singleton] at he; rw [he]
      · rw [g1 hp]; exact hkept
    · intro ht1 hroom
      have hfl : ((loopEntries cfg y0 (pieces cfg y0 tnext ctrl ss mj) sub).filter
        (fun e => decide (e.1 ≤ (solve cfg y0 tnext ctrl ss mj).tfinal))).length
          ≤ (loopEntries cfg y0 (pieces cfg y0 tnext ctrl ss mj) sub).length :=
        List.length_filter_le _ _
      have hps := (pieces_length cfg y0 tnext ctrl ss mj).2
      have hll := loopEntries_length cfg y0 (pieces cfg y0 tnext ctrl ss mj) sub hps
      change ((loopEntries cfg y0 (pieces cfg y0 tnext ctrl ss mj) sub).filter
        (fun e => decide (e.1 ≤ (solve cfg y0 tnext ctrl ss mj).tfinal))).length < _
      by_cases hd : dueViaSteps sub (pieces cfg y0 tnext ctrl ss mj).length
      · rcases hroom with hroom | hroom | hroom
        · exact absurd hd hroom
        · -- fewer than `max_steps` accepted steps
          refine lt_of_le_of_lt hfl (lt_of_le_of_lt hll.1 ?_)
          obtain ⟨hd0, hd1⟩ := hd
          have hpos : 0 < sub.steps := Nat.pos_of_ne_zero hd0
          unfold allocSize
          by_cases hm : cfg.maxSteps % sub.steps = 0
          · have : (pieces cfg y0 tnext ctrl ss mj).length / sub.steps
                < cfg.maxSteps / sub.steps := by
              rw [Nat.div_lt_iff_lt_mul hpos, Nat.div_mul_cancel (Nat.dvd_of_mod_eq_zero hm)]
              exact hroom
            simp only [ne_eq, hd0, not_false_eq_true, if_true]
            omega
          · have : (pieces cfg y0 tnext ctrl ss mj).length / sub.steps
                ≤ cfg.maxSteps / sub.steps := Nat.div_le_div_right hps
            have hb : sub.t1 = true ∧ (sub.steps = 0 ∨ cfg.maxSteps % sub.steps ≠ 0) :=
              ⟨ht1, Or.inr hm⟩
            simp only [ne_eq, hd0, not_false_eq_true, if_true]
            rw [if_pos (c := sub.t1 = true ∧ (False ∨ _)) ⟨ht1, Or.inr hm⟩]
            omega
        · -- the entry of the last step is deleted
          obtain ⟨hpos, htl⟩ := hroom
          refine lt_of_lt_of_le ?_ hll.2
          cases hl : (pieces cfg y0 tnext ctrl ss mj).getLast? with
          | none => rw [List.getLast?_eq_none_iff] at hl; rw [hl] at hpos; simp at hpos
          | some p =>
            have hlast := stepEntries_getLast cfg.solver sub hd.1 _ 0 sub.ts p hl (by
              rw [Nat.zero_add]; exact hd.2)
            have hfin := last_piece_final cfg cfg.maxSteps (initState cfg y0 tnext ctrl ss mj).core
              (fun s hs ha => (hhist s hs).1.2 ha)
              (fun s hs => le_trans (hhist s hs).2.1 (hhist s hs).2.2)
            rw [← pieces_eq, ← solve_core, hl] at hfin
            simp only at hfin
            have hmem' : (p.reached, sub.fn p.reached p.y)
                ∈ loopEntries cfg y0 (pieces cfg y0 tnext ctrl ss mj) sub :=
              List.mem_append_right _ (List.mem_of_getLast? hlast)
            rw [List.length_filter_lt_length_iff_exists]
            refine ⟨_, hmem', ?_⟩
            rw [hfin.1] at htl
            simpa using htl
      · have := expectedEntries_length cfg.solver sub cfg.t0 y0
          (pieces cfg y0 tnext ctrl ss mj) (solve cfg y0 tnext ctrl ss mj).tfinal
          (solve cfg y0 tnext ctrl ss mj).yfinal cfg.maxSteps hps
        unfold expectedEntries at this
        rw [if_pos (c := sub.t1 = true ∧ ¬ (sub.steps ≠ 0 ∧ _)) ⟨ht1, hd⟩] at this
        rw [List.length_append, List.length_singleton] at this
        exact lt_of_le_of_lt hfl this
  · intro s hl htr
    have hs : s ∈ history cfg y0 tnext ctrl ss mj := List.mem_of_getLast? hl
    have hcore : (solve cfg y0 tnext ctrl ss mj).core = (coreBody cfg s).1 := by
      rw [solve_core, coreRun_eq_last]
      unfold history at hl
      rw [hl]
    have hm : (coreBody cfg s).1.evMask.any id = true := by
      rw [coreBody_mask, firstTrue_any]; exact htr
    have hns : ¬ (coreBody cfg s).1.numSteps = 0 := by rw [coreBody_numSteps]; omega
    rw [solve_yfinal, solve_tfinal, hcore]
    unfold finalise
    rw [hroot]
    simp only [hm, if_true, if_neg hns]
    exact ⟨rfl, rfl⟩

/-- A root finder for the toy problem: scan for the first integer time at which all values are zero. -/
def toyRoot : (Int → List Int) → Int → Int → Int × Option Result := fun f a b =>
  match (List.range (b - a + 1).toNat).find? (fun k => (f (a + k)).all (· == 0)) with
  | some k => (a + k, none)
  | none => (b, some (.other 7))

def toyEventCfg : Cfg Int Int Int Int Int Int Int Int :=
  { toyCfg with events := toyEvents, rootFinder := some toyRoot }

/-- Non-vacuity: an event at time 4, inside the step from 3 to 5. -/
example : (∀ c ∈ callLog toyEventCfg 100 3 0 0 false,
      (c.answer toyEventCfg).Forward c.ctrlT0 c.ctrlT1 ∧
      (c.answer toyEventCfg).Exact c.ctrlT0 c.ctrlT1) ∧
    (solve toyEventCfg 100 3 0 0 false).tfinal = 4 ∧
    (solve toyEventCfg 100 3 0 0 false).saves.map (fun s => entriesOf s.buf)
      = [[(0, 100), (0, 100), (1, 111), (1, 111), (3, 133), (3, 133), (4, 144)]] := by
  unfold AdaptOut.Forward AdaptOut.Exact; decide

/-! ## C18: saving steps with an event root finder saves each value once

False of the code. -/

/-- Witness 1: with a root finder and `SaveAt(steps=True)` but no event triggering, the final value is
saved twice. Witness 2: an entry is saved although no step was accepted (`steps=2`, `t0 == t1`). -/
theorem C18_violated :
    (∃ cfg : Cfg Int Int Int Int Int Int Int Int,
      (solve cfg 100 3 0 0 false).result = .successful ∧
      (solve cfg 100 3 0 0 false).saves.map (fun s => entriesOf s.buf)
        = [[(1, 111), (3, 133), (5, 155), (7, 177), (7, 177)]] ∧
      (solve cfg 100 3 0 0 false).core.numAccepted = 4 ∧
      cfg.subs.map (fun s => (s.t0, s.t1, s.ts, s.steps)) = [(false, false, [], 1)]) ∧
    (∃ cfg : Cfg Int Int Int Int Int Int Int Int,
      (solve cfg 100 3 0 0 false).core.numAccepted = 0 ∧
      (solve cfg 100 3 0 0 false).saves.map (fun s => entriesOf s.buf) = [[(0, 100)]] ∧
      cfg.subs.map (fun s => (s.t0, s.t1, s.ts, s.steps)) = [(false, false, [], 2)]) := by
  refine ⟨⟨{ toyCfg with
      rootFinder := some toyRoot, subs := [{ toySub with t0 := false, t1 := false, ts := [], steps := 1 }] },
      by decide, by decide, by decide, by decide⟩,
    ⟨{ toyCfg with
      t1 := 0, rootFinder := some toyRoot,
      subs := [{ toySub with t0 := false, t1 := false, ts := [], steps := 2 }] },
      by decide, by decide, by decide⟩⟩

/-- What does hold: if `tfinal` lies strictly inside the last (accepted) step (an event was located there), and steps have
positive length, then with `SaveAt(steps=n)` alone no time is saved twice.
Missing: no event, or an event located exactly at the end of the step (every boolean event). -/
theorem C18_steps_once_partial (cfg : Cfg T Y E D S C O F) (hwf : cfg.WF) (f)
    (hroot : cfg.rootFinder = some f) (hlt : cfg.t0 ≠ cfg.t1) (n : Nat) (hn : 1 ≤ n)
    (hcap : n ≤ cfg.maxSteps) (fn : T → Y → O)
    (hsub : cfg.subs = [{ t0 := false, t1 := false, ts := [], steps := n, fn := fn }])
    (y0 : Y) (tnext : T) (ctrl : C) (ss : S) (mj : Bool) (htn : cfg.t0 ≤ tnext)
    (hc : ∀ c ∈ callLog cfg y0 tnext ctrl ss mj, (c.answer cfg).Forward c.ctrlT0 c.ctrlT1 ∧
      (c.answer cfg).Exact c.ctrlT0 c.ctrlT1 ∧ c.solverT0 < c.solverT1)
    (s : Core T Y D S C F) (hl : (history cfg y0 tnext ctrl ss mj).getLast? = some s)
    (hacc : accepted cfg s = true)
    (hin : s.tprev < (solve cfg y0 tnext ctrl ss mj).tfinal ∧
      (solve cfg y0 tnext ctrl ss mj).tfinal < s.tnext) :
    ∃ sv, (solve cfg y0 tnext ctrl ss mj).saves = [sv] ∧
      (entriesOf sv.buf).Pairwise (fun a b => a.1 < b.1) := by
  have hcap' : ∀ sub ∈ cfg.subs, 1 ≤ allocSize cfg.maxSteps sub := by
    rw [hsub]
    intro sub hs
    rw [List.mem_singleton] at hs
    subst hs
    have h0 : n ≠ 0 := by omega
    simp only [allocSize, Bool.false_eq_true, if_false, List.length_nil, ne_eq, h0,
      not_false_eq_true, if_true, false_and]
    have := Nat.div_pos hcap (by omega : 0 < n)
    omega
  have h17 := C17_nothing_after_event cfg hwf f hroot hlt hcap' (by
    rw [hsub]; intro sub hs; rw [List.mem_singleton] at hs; subst hs; simp) y0 tnext ctrl ss mj htn
    (fun c hcm => ⟨(hc c hcm).1, (hc c hcm).2.1⟩)
  dsimp only at h17
  obtain ⟨sv, hsv, -, hno, hyes, hfull, hkle, -⟩ := h17.1 0 _ (by rw [hsub]; rfl)
  have hlen : (solve cfg y0 tnext ctrl ss mj).saves.length = 1 := by
    rw [solve_saves, hsub]; rfl
  have hsaves : (solve cfg y0 tnext ctrl ss mj).saves = [sv] := by
    match hq : (solve cfg y0 tnext ctrl ss mj).saves with
    | [] => rw [hq] at hlen; simp at hlen
    | [a] => rw [hq] at hsv; simpa using hsv
    | a :: b :: l => rw [hq] at hlen; simp at hlen
  refine ⟨sv, hsaves, ?_⟩
  have hs : s ∈ history cfg y0 tnext ctrl ss mj := List.mem_of_getLast? hl
  rw [log_eq] at hc
  have hhist : ∀ s ∈ history cfg y0 tnext ctrl ss mj, (adaptOut cfg s).Exact s.tprev s.tnext ∧
      s.tprev < s.tnext := fun s hs =>
    ⟨(hc _ (List.mem_map_of_mem hs)).2.1, (hc _ (List.mem_map_of_mem hs)).2.2⟩
  have hle := history_le cfg hwf y0 tnext ctrl ss mj
  -- accepted steps end at strictly increasing times; all but the last end before `s.tprev`
  have key : ∀ (m : Nat) (c : Core T Y D S C F),
      (∀ s' ∈ attempts cfg m c, ((adaptOut cfg s').Exact s'.tprev s'.tnext ∧ s'.tprev < s'.tnext) ∧
        s'.tprev ≤ cfg.t1 ∧ s'.tnext ≤ cfg.t1) →
      (piecesFrom cfg m c).Pairwise (fun p q => p.reached < q.reached) ∧
      (∀ p ∈ piecesFrom cfg m c, c.tprev < p.reached) ∧
      (∀ l, (attempts cfg m c).getLast? = some l → accepted cfg l = true →
        ∃ ps, piecesFrom cfg m c = ps ++ [piece cfg l] ∧ ∀ p ∈ ps, p.reached ≤ l.tprev) := by
    intro m
    induction m with
    | zero => intro c _; simp [piecesFrom, attempts]
    | succ m ih =>
      intro c h
      by_cases hcd : condFun cfg c = true
      · have hat : attempts cfg (m + 1) c = c :: attempts cfg m (coreBody cfg c).1 := by
          simp [attempts, hcd]
        rw [hat] at h ⊢
        simp only [List.mem_cons, forall_eq_or_imp] at h
        obtain ⟨⟨⟨⟨hk, hrj⟩, hlt'⟩, hle1, hle2⟩, hrest⟩ := h
        obtain ⟨i1, i2, i3⟩ := ih (coreBody cfg c).1 hrest
        have e1 : (coreBody cfg c).1.tprev = min (adaptOut cfg c).tprev cfg.t1 := rfl
        cases ha : accepted cfg c with
        | true =>
          have hp : piecesFrom cfg (m + 1) c
              = piece cfg c :: piecesFrom cfg m (coreBody cfg c).1 := by
            simp [piecesFrom, attempts, hcd, ha]
          have e2 : (piece cfg c).reached = (coreBody cfg c).1.tprev := rfl
          have e3 : (coreBody cfg c).1.tprev = c.tnext := by rw [e1, hk ha, min_eq_left hle2]
          rw [hp, List.pairwise_cons]
          refine ⟨⟨fun q hq => e2 ▸ i2 q hq, i1⟩, ?_, ?_⟩
          · intro p hpm
            rcases List.mem_cons.1 hpm with rfl | hpm
            · rw [e2, e3]; exact hlt'
            · refine lt_trans ?_ (i2 p hpm)
              rw [e3]; exact hlt'
          · intro l hl hal
            cases hnx : attempts cfg m (coreBody cfg c).1 with
            | nil =>
              rw [hnx] at hl
              have : c = l := by simpa using hl
              subst this
              exact ⟨[], by simp [piecesFrom, hnx], by simp⟩
            | cons a t =>
              rw [hnx, List.getLast?_cons_cons, ← hnx] at hl
              obtain ⟨ps, hps, hple⟩ := i3 l hl hal
              refine ⟨piece cfg c :: ps, by rw [hps]; rfl, ?_⟩
              intro p hpm
              rcases List.mem_cons.1 hpm with rfl | hpm
              · rw [e2]
                -- times of later attempts are not before this one's end
                have hmono : ∀ (m : Nat) (c' : Core T Y D S C F),
                    (∀ s' ∈ attempts cfg m c', ((adaptOut cfg s').Exact s'.tprev s'.tnext ∧
                      s'.tprev < s'.tnext) ∧ s'.tprev ≤ cfg.t1 ∧ s'.tnext ≤ cfg.t1) →
                    ∀ l ∈ attempts cfg m c', c'.tprev ≤ l.tprev := by
                  intro m
                  induction m with
                  | zero => intro c' _ l hl; simp [attempts] at hl
                  | succ m ihm =>
                    intro c' h' l hl
                    by_cases hcd' : condFun cfg c' = true
                    · have hat' : attempts cfg (m + 1) c'
                          = c' :: attempts cfg m (coreBody cfg c').1 := by simp [attempts, hcd']
                      rw [hat'] at h' hl
                      simp only [List.mem_cons, forall_eq_or_imp] at h'
                      rcases List.mem_cons.1 hl with rfl | hl
                      · exact le_refl _
                      · refine le_trans ?_ (ihm _ h'.2 l hl)
                        change c'.tprev ≤ min (adaptOut cfg c').tprev cfg.t1
                        refine le_min ?_ h'.1.2.1
                        cases ha' : accepted cfg c' with
                        | true => rw [h'.1.1.1.1 ha']; exact le_of_lt h'.1.1.2
                        | false => rw [h'.1.1.1.2 ha']
                    · simp [attempts, hcd'] at hl
                exact hmono m _ hrest l (List.mem_of_getLast? hl)
              · exact hple p hpm
        | false =>
          have hp : piecesFrom cfg (m + 1) c = piecesFrom cfg m (coreBody cfg c).1 := by
            simp [piecesFrom, attempts, hcd, ha]
          have e3 : (coreBody cfg c).1.tprev = c.tprev := by rw [e1, hrj ha, min_eq_left hle1]
          rw [hp]
          rw [e3] at i2
          refine ⟨i1, i2, ?_⟩
          intro l hl hal
          cases hnx : attempts cfg m (coreBody cfg c).1 with
          | nil =>
            rw [hnx] at hl
            have : c = l := by simpa using hl
            subst this
            rw [ha] at hal; exact Bool.noConfusion hal
          | cons a t =>
            rw [hnx, List.getLast?_cons_cons, ← hnx] at hl
            exact i3 l hl hal
      · simp [piecesFrom, attempts, hcd]
  obtain ⟨k1, -, k3⟩ := key cfg.maxSteps (initState cfg y0 tnext ctrl ss mj).core
    (fun s hs => ⟨hhist s hs, hle s hs⟩)
  obtain ⟨ps, hps, hple⟩ := k3 s hl hacc
  rw [← pieces_eq] at k1 hps
  -- entries saved during the loop are some of the step ends
  have hsublist : ∀ (qs : List (Piece T Y D)) (k : Nat) (sub : SubSaveAt T Y O),
      ((stepEntries cfg.solver sub qs k []).map Prod.fst).Sublist (qs.map (·.reached)) := by
    intro qs
    induction qs with
    | nil => intro k sub; simp [stepEntries]
    | cons q qs ih =>
      intro k sub
      simp only [stepEntries, List.takeWhile_nil, List.map_nil, List.nil_append,
        List.dropWhile_nil, List.map_cons]
      split
      · simpa using ih (k + 1) sub
      · rw [List.nil_append]; exact (ih (k + 1) sub).cons _
  set sub : SubSaveAt T Y O := { t0 := false, t1 := false, ts := [], steps := n, fn := fn } with hsubdef
  have hnil : (if sub.t0 then [(cfg.t0, sub.fn cfg.t0 y0)] else []) = [] := rfl
  rw [hnil, List.nil_append] at hno hyes hfull hkle
  have hstrict : (stepEntries cfg.solver sub (pieces cfg y0 tnext ctrl ss mj) 0 sub.ts).Pairwise
      (fun a b => a.1 < b.1) := by
    have h1 : ((pieces cfg y0 tnext ctrl ss mj).map (·.reached)).Pairwise (· < ·) := by
      rw [List.pairwise_map]; exact k1
    have h2 := h1.sublist (hsublist (pieces cfg y0 tnext ctrl ss mj) 0 sub)
    rwa [List.pairwise_map] at h2
  have hkstrict := hstrict.sublist (List.filter_sublist
    (p := fun e => decide (e.1 ≤ (solve cfg y0 tnext ctrl ss mj).tfinal)))
  have hklt : ∀ e ∈ (stepEntries cfg.solver sub (pieces cfg y0 tnext ctrl ss mj) 0 sub.ts).filter
      (fun e => decide (e.1 ≤ (solve cfg y0 tnext ctrl ss mj).tfinal)),
      e.1 < (solve cfg y0 tnext ctrl ss mj).tfinal := by
    intro e he
    obtain ⟨he1, he2⟩ := List.mem_filter.1 he
    have he2 : e.1 ≤ (solve cfg y0 tnext ctrl ss mj).tfinal := by simpa using he2
    have hm : e.1 ∈ (pieces cfg y0 tnext ctrl ss mj).map (·.reached) :=
      (hsublist (pieces cfg y0 tnext ctrl ss mj) 0 sub).subset (List.mem_map_of_mem he1)
    obtain ⟨p, hpm, hpe⟩ := List.mem_map.1 hm
    rw [hps] at hpm
    rcases List.mem_append.1 hpm with hpm | hpm
    · rw [← hpe]; exact lt_of_le_of_lt (hple p hpm) hin.1
    · rw [List.mem_singleton] at hpm
      have hr : p.reached = s.tnext := by
        rw [hpm]
        change min (adaptOut cfg s).tprev cfg.t1 = _
        rw [(hhist s hs).1.1 hacc, min_eq_left (hle s hs).2]
      rw [← hpe, hr] at he2
      exact absurd hin.2 (not_lt.2 he2)
  by_cases hd : sub.t1 = true ∨ dueViaSteps sub (pieces cfg y0 tnext ctrl ss mj).length
  · rcases Nat.lt_or_eq_of_le hkle with hsz | hsz
    · rw [hyes hd hsz, List.pairwise_append]
      refine ⟨hkstrict, by simp, ?_⟩
      intro a ha b hb
      rw [List.mem_singleton] at hb
      rw [hb]; exact hklt a ha
    · rw [hfull hd hsz, List.pairwise_append]
      refine ⟨hkstrict.sublist (List.dropLast_sublist _), by simp, ?_⟩
      intro a ha b hb
      rw [List.mem_singleton] at hb
      rw [hb]; exact hklt a (List.dropLast_subset _ ha)
  · rw [hno hd]; exact hkstrict

example : (solve { toyEventCfg with
        subs := [{ toySub with t0 := false, t1 := false, ts := [], steps := 1 }] }
      100 3 0 0 false).saves.map (fun s => entriesOf s.buf) = [[(1, 111), (3, 133), (4, 144)]] ∧
    ∃ s ∈ (history toyEventCfg 100 3 0 0 false).getLast?, accepted toyEventCfg s = true ∧
      s.tprev < (solve toyEventCfg 100 3 0 0 false).tfinal ∧
      (solve toyEventCfg 100 3 0 0 false).tfinal < s.tnext :=
  ⟨by decide, _, rfl, by decide, by decide, by decide⟩

end Verif
