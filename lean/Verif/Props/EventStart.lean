import Verif.Props.EventRoot

/-!
# Events at the start of a solve: C114
-/

set_option linter.unusedSectionVars false

namespace Verif

variable {T Y E D S C O F : Type} [LinearOrder T] [LinearOrder F] [Zero F]

/-- A boolean condition that is true at the start. -/
def TrueAtStart (cfg : Cfg T Y E D S C O F) (y0 : Y) : Prop :=
  ∃ c, EventCond.bool c ∈ cfg.events ∧ c cfg.t0 y0 = true

theorem start_mask (cfg : Cfg T Y E D S C O F) (y0 : Y) (h : TrueAtStart cfg y0) :
    (cfg.events.map (fun e => e.initMask cfg.t0 y0)).any id = true := by
  obtain ⟨c, hc, ht⟩ := h
  simp only [List.any_map, List.any_eq_true, Function.comp, id]
  exact ⟨_, hc, ht⟩

theorem start_stops (cfg : Cfg T Y E D S C O F) (y0 : Y) (tnext : T) (ctrl : C) (ss : S) (mj : Bool)
    (h : TrueAtStart cfg y0) :
    (initState cfg y0 tnext ctrl ss mj).core.result = .eventOccurred ∧ history cfg y0 tnext ctrl ss mj = [] ∧
      (solve cfg y0 tnext ctrl ss mj).core = (initState cfg y0 tnext ctrl ss mj).core := by
  have hres : (initState cfg y0 tnext ctrl ss mj).core.result = .eventOccurred := by
    have e1 : (initState cfg y0 tnext ctrl ss mj).core.result = Result.where'
      (firstTrue false (cfg.events.map (fun e => e.initMask cfg.t0 y0))).2 .eventOccurred .successful := rfl
    rw [e1, firstTrue_snd, start_mask cfg y0 h]
    rfl
  obtain ⟨h1, h2⟩ := attempts_not_succ cfg cfg.maxSteps (initState cfg y0 tnext ctrl ss mj).core (by rw [hres]; rfl)
  exact ⟨hres, h1, by rw [solve_core, h2]⟩

/-- The values handed to the root finder vanish at the start only. -/
theorem start_root (cfg : Cfg T Y E D S C O F) (hdist : ∀ a b, cfg.dist a b = 0 ↔ a = b)
    (y0 : Y) (tnext : T) (ctrl : C) (ss : S) (mj : Bool) (h : TrueAtStart cfg y0) (t : T) :
    (initState cfg y0 tnext ctrl ss mj).core.evMask.any id = true ∧
    ((∀ x ∈ toRootFind cfg (initState cfg y0 tnext ctrl ss mj).core true t, x = 0) ↔ t = cfg.t0) := by
  have hmask : (initState cfg y0 tnext ctrl ss mj).core.evMask
      = (firstTrue false (cfg.events.map (fun e => e.initMask cfg.t0 y0))).1 := rfl
  have hany : (initState cfg y0 tnext ctrl ss mj).core.evMask.any id = true := by
    rw [hmask, firstTrue_any]
    simpa using start_mask cfg y0 h
  refine ⟨hany, ?_⟩
  -- entries of the mask that are set belong to boolean conditions
  have hbool : ∀ (i : Nat) (e : EventCond T Y F), (initState cfg y0 tnext ctrl ss mj).core.evMask[i]? = some true →
      cfg.events[i]? = some e → ∃ c, e = .bool c := by
    intro i e hm he
    rw [hmask, firstTrue_get] at hm
    have h1 := hm.1
    rw [List.getElem?_map, he] at h1
    cases e with
    | bool c => exact ⟨c, rfl⟩
    | flt c d => simp [EventCond.initMask] at h1
  have hval : ∀ (i : Nat) (x : F), (toRootFind cfg (initState cfg y0 tnext ctrl ss mj).core true t)[i]? = some x →
      x = if (initState cfg y0 tnext ctrl ss mj).core.evMask[i]? = some true then cfg.dist cfg.t0 t else 0 := by
    intro i x hx
    unfold toRootFind at hx
    rw [List.getElem?_zipWith] at hx
    cases hm : (initState cfg y0 tnext ctrl ss mj).core.evMask[i]? with
    | none => rw [hm] at hx; simp at hx
    | some m =>
      cases he : cfg.events[i]? with
      | none => rw [hm, he] at hx; simp at hx
      | some e =>
        rw [hm, he] at hx
        cases m with
        | false => simpa using hx.symm
        | true =>
          obtain ⟨c, rfl⟩ := hbool i e hm he
          simp only [if_true, Option.some.injEq] at hx ⊢
          exact hx.symm
  constructor
  · intro hall
    obtain ⟨m, hm, hmt⟩ := List.any_eq_true.1 hany
    obtain ⟨i, hi⟩ := List.mem_iff_getElem?.1 hm
    have hmt' : m = true := hmt
    subst hmt'
    have hlen : i < cfg.events.length := by
      have h1 := hi
      rw [hmask, firstTrue_get] at h1
      have := (List.getElem?_eq_some_iff.1 h1.1).1
      simpa using this
    have hget : ∃ x, (toRootFind cfg (initState cfg y0 tnext ctrl ss mj).core true t)[i]? = some x := by
      unfold toRootFind
      rw [List.getElem?_zipWith, hi, List.getElem?_eq_getElem hlen]
      exact ⟨_, rfl⟩
    obtain ⟨x, hx⟩ := hget
    have h0 := hall x (List.mem_of_getElem? hx)
    rw [hval i x hx, if_pos hi, hdist] at h0
    exact h0.symm
  · rintro rfl x hx
    obtain ⟨i, hi⟩ := List.mem_iff_getElem?.1 hx
    rw [hval i x hi]
    split
    · exact (hdist _ _).2 rfl
    · rfl

/-- **C114**: if a boolean condition is true at the start, no step is made, and the solve returns the initial value and time and
reports the event; with a root finder as well, if it returns a root whenever it claims success, and finds the one that is
there. -/
theorem C114_event_at_start (cfg : Cfg T Y E D S C O F) (hdist : ∀ a b, cfg.dist a b = 0 ↔ a = b)
    (hroot : ∀ f, cfg.rootFinder = some f → FindsRoots f ∧ FindsIfAny f)
    (y0 : Y) (tnext : T) (ctrl : C) (ss : S) (mj : Bool) (h : TrueAtStart cfg y0) :
    let out := solve cfg y0 tnext ctrl ss mj
    callLog cfg y0 tnext ctrl ss mj = [] ∧ out.core.numSteps = 0 ∧ out.tfinal = cfg.t0 ∧ out.yfinal = y0 ∧
      out.result = .eventOccurred := by
  dsimp only
  obtain ⟨h1, h2, h3⟩ := start_stops cfg y0 tnext ctrl ss mj h
  have hc : condFun cfg (initState cfg y0 tnext ctrl ss mj).core = false := by
    simp [condFun, h1, Result.isSuccessful]
  refine ⟨by rw [log_eq, h2]; rfl, by rw [h3]; rfl, ?_⟩
  rw [solve_tfinal, solve_yfinal, solve_result, h3, hc]
  simp only [Bool.false_eq_true, if_false]
  cases hf : cfg.rootFinder with
  | none =>
    rw [finalise_no_root cfg _ hf]
    exact ⟨rfl, rfl, h1⟩
  | some f =>
    obtain ⟨hr1, hr2⟩ := hroot f hf
    have hany := (start_root cfg hdist y0 tnext ctrl ss mj h cfg.t0).1
    have hfind : (f (toRootFind cfg (initState cfg y0 tnext ctrl ss mj).core true) cfg.t0 cfg.t0).2 = none :=
      hr2 _ _ _ ⟨cfg.t0, le_refl _, le_refl _, (start_root cfg hdist y0 tnext ctrl ss mj h cfg.t0).2.2 rfl⟩
    have hval := (start_root cfg hdist y0 tnext ctrl ss mj h _).2.1 (hr1 _ _ _ hfind)
    unfold finalise
    rw [hf]
    dsimp only
    rw [hany, if_pos rfl]
    refine ⟨hval, rfl, ?_⟩
    change (match (f (toRootFind cfg (initState cfg y0 tnext ctrl ss mj).core true) cfg.t0 cfg.t0).2 with
      | none => _ | some e => e) = _
    rw [hfind]
    exact h1

theorem start_saves (cfg : Cfg T Y E D S C O F) (y0 : Y) (sub : SubSaveAt T Y O) (hst : sub.steps = 0) (k : Nat)
    (sv : SaveState T O)
    (hr1 : Rep' (allocSize cfg.maxSteps sub) (List.replicate (if sub.t0 then 1 else 0) (cfg.t0, sub.fn cfg.t0 y0)) sv) :
    entriesOf (saveT1 cfg k cfg.t0 y0 sub (saveIfT0EqT1 cfg y0 sub sv)).buf =
      List.replicate ((if sub.t0 then 1 else 0) + (if cfg.t0 = cfg.t1 then sub.ts.length else 0)
        + (if sub.t1 then 1 else 0)) (cfg.t0, sub.fn cfg.t0 y0) := by
  have hsz : allocSize cfg.maxSteps sub = (if sub.t0 then 1 else 0) + sub.ts.length + (if sub.t1 then 1 else 0) := by
    simp [allocSize, hst]
  have hr2 : Rep' (allocSize cfg.maxSteps sub)
      (List.replicate ((if sub.t0 then 1 else 0) + (if cfg.t0 = cfg.t1 then sub.ts.length else 0))
        (cfg.t0, sub.fn cfg.t0 y0)) (saveIfT0EqT1 cfg y0 sub sv) := by
    unfold saveIfT0EqT1
    by_cases h01 : cfg.t0 = cfg.t1
    · rw [if_pos h01, if_pos h01]
      by_cases hts : sub.ts = []
      · rw [if_neg (c := sub.ts ≠ []) (fun h => h hts)]
        simpa [hts] using hr1
      · rw [if_pos hts]
        have := hr1.save sub.ts.length (by rw [List.length_replicate, hsz]; omega) cfg.t0 y0 sub.fn
        rwa [List.replicate_append_replicate] at this
    · rw [if_neg h01, if_neg h01]
      exact hr1
  have hts : (if cfg.t0 = cfg.t1 then sub.ts.length else 0) ≤ sub.ts.length := by split <;> omega
  unfold saveT1
  rw [hst]
  cases ht1 : sub.t1 with
  | false => cases cfg.rootFinder <;> simpa using hr2.entries
  | true =>
    have h3 := hr2.save 1 (by
      rw [List.length_replicate, hsz, ht1]
      simp only [if_true]
      omega) cfg.t0 y0 sub.fn
    rw [List.replicate_append_replicate] at h3
    cases cfg.rootFinder <;> simpa using h3.entries

/-- **C114**: and what is saved, by a `SubSaveAt` that does not save steps, is the initial value: for `t0`, for `t1`, and if the
interval is empty for each of `ts`. -/
theorem C114_saved (cfg : Cfg T Y E D S C O F) (hdist : ∀ a b, cfg.dist a b = 0 ↔ a = b)
    (hroot : ∀ f, cfg.rootFinder = some f → FindsRoots f ∧ FindsIfAny f)
    (y0 : Y) (tnext : T) (ctrl : C) (ss : S) (mj : Bool) (h : TrueAtStart cfg y0) (i : Nat) (sub : SubSaveAt T Y O)
    (hi : cfg.subs[i]? = some sub) (hst : sub.steps = 0) :
    ((solve cfg y0 tnext ctrl ss mj).saves[i]?).map (fun s => entriesOf s.buf) =
      some (List.replicate ((if sub.t0 then 1 else 0) + (if cfg.t0 = cfg.t1 then sub.ts.length else 0)
        + (if sub.t1 then 1 else 0)) (cfg.t0, sub.fn cfg.t0 y0)) := by
  obtain ⟨-, -, ht, hy, -⟩ := C114_event_at_start cfg hdist hroot y0 tnext ctrl ss mj h
  obtain ⟨-, h2, -⟩ := start_stops cfg y0 tnext ctrl ss mj h
  rw [solve_saves, List.getElem?_map, hi, ht, hy]
  simp only [Option.map_some, Option.some.injEq]
  have hps : pieces cfg y0 tnext ctrl ss mj = [] := by simp [pieces, h2]
  have hr := (subLoop_rep cfg y0 tnext ctrl ss mj sub).weaken
  rw [hps] at hr
  have hle : loopEntries cfg y0 ([] : List (Piece T Y D)) sub
      = List.replicate (if sub.t0 then 1 else 0) (cfg.t0, sub.fn cfg.t0 y0) := by
    unfold loopEntries stepEntries
    cases sub.t0 <;> rfl
  rw [hle] at hr
  -- deleting does nothing
  have hr1 : Rep' (allocSize cfg.maxSteps sub) (List.replicate (if sub.t0 then 1 else 0) (cfg.t0, sub.fn cfg.t0 y0))
      (match cfg.rootFinder with
        | none => subLoop cfg y0 tnext ctrl ss mj sub
        | some _ => unsave cfg.t0 (subLoop cfg y0 tnext ctrl ss mj sub)) := by
    cases cfg.rootFinder with
    | none => exact hr
    | some f =>
      have := hr.unsave cfg.t0 (List.pairwise_replicate.2 (.inr (le_refl _)))
      rwa [List.filter_eq_self.2 (by
        intro e he
        rw [List.eq_of_mem_replicate he]
        simp)] at this
  have := start_saves cfg y0 sub hst (solve cfg y0 tnext ctrl ss mj).core.numAccepted _ hr1
  cases hf : cfg.rootFinder with
  | none => rw [hf] at this; exact this
  | some f => rw [hf] at this; exact this

/-- Non-vacuity, with a root finder, and an interval that is not empty. -/
example : ((solve { toyEventCfg with events := [.bool fun t _ => decide (t ≤ 0)], subs := [{ toySub with steps := 0 }] }
      100 3 0 0 false).saves[0]?).map (fun s => entriesOf s.buf) = some [(0, 100), (0, 100)] :=
  C114_saved { toyEventCfg with events := [.bool fun t _ => decide (t ≤ 0)], subs := [{ toySub with steps := 0 }] }
    (fun a b => by show a - b = 0 ↔ a = b; omega)
    (fun f hf => by obtain rfl := Option.some.inj hf; exact toyRoot_finds)
    100 3 0 0 false ⟨_, List.mem_singleton.2 rfl, by decide⟩ 0 _ rfl rfl

end Verif
