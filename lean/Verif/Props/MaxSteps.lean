import Verif.Props.Event

/-!
# Raising `max_steps`, with a root finder for events and for empty intervals: C12
-/

set_option linter.unusedSectionVars false

namespace Verif

variable {T Y E D S C O F : Type} [LinearOrder T] [LinearOrder F] [Zero F]

/-- There is never less room with a larger `max_steps`. -/
theorem allocSize_mono (sub : SubSaveAt T Y O) {n m : Nat} (h : n ≤ m) : allocSize n sub ≤ allocSize m sub := by
  unfold allocSize
  by_cases h0 : sub.steps = 0
  · simp [h0]
  · have hpos : 0 < sub.steps := Nat.pos_of_ne_zero h0
    have hd := Nat.div_le_div_right (c := sub.steps) h
    have hn := Nat.div_add_mod n sub.steps
    have hm := Nat.div_add_mod m sub.steps
    simp only [h0, false_or, ne_eq, not_false_eq_true, if_true]
    generalize (if sub.t0 = true then 1 else 0) = a
    generalize sub.ts.length = l
    by_cases heq : n / sub.steps = m / sub.steps
    · rw [heq] at hn ⊢
      have hz : m % sub.steps = 0 → n % sub.steps = 0 := by intro; omega
      cases sub.t1
      · simp
      · by_cases h1 : n % sub.steps = 0 <;> by_cases h2 : m % sub.steps = 0 <;> simp [h1, h2]
        exact h1 (hz h2)
    · split <;> split <;> omega

theorem max_steps_history (cfg : Cfg T Y E D S C O F) (m : Nat) (hm : cfg.maxSteps ≤ m)
    (y0 : Y) (tnext : T) (ctrl : C) (ss : S) (mj : Bool)
    (hfin : (solve cfg y0 tnext ctrl ss mj).result ≠ .maxStepsReached) :
    callLog { cfg with maxSteps := m } y0 tnext ctrl ss mj = callLog cfg y0 tnext ctrl ss mj := by
  have hc : condFun cfg (coreRun cfg cfg.maxSteps (initState cfg y0 tnext ctrl ss mj).core) = false := by
    rw [solve_result, solve_core] at hfin
    cases h : condFun cfg (coreRun cfg cfg.maxSteps (initState cfg y0 tnext ctrl ss mj).core) with
    | false => rfl
    | true => rw [h] at hfin; simp at hfin
  obtain ⟨k, rfl⟩ := Nat.exists_eq_add_of_le hm
  have hatt : ∀ n s, attempts { cfg with maxSteps := cfg.maxSteps + k } n s = attempts cfg n s := by
    intro n
    induction n with
    | zero => intro s; rfl
    | succ n ih => intro s; unfold attempts; rw [ih]; rfl
  rw [log_eq, log_eq]
  unfold history
  change (attempts { cfg with maxSteps := cfg.maxSteps + k } (cfg.maxSteps + k)
    (initState cfg y0 tnext ctrl ss mj).core).map _ = _
  rw [hatt, attempts_add _ _ _ _ hc]
  rfl

/-- **C12** for empty intervals. -/
theorem C12_empty_interval (cfg : Cfg T Y E D S C O F) (m : Nat) (hm : cfg.maxSteps ≤ m)
    (hroot : cfg.rootFinder = none) (hst : cfg.controller.stepTo = none) (h01 : cfg.t0 = cfg.t1)
    (hcap : ∀ sub ∈ cfg.subs, 1 ≤ allocSize cfg.maxSteps sub)
    (y0 : Y) (tnext : T) (ctrl : C) (ss : S) (mj : Bool) :
    (solve { cfg with maxSteps := m } y0 tnext ctrl ss mj).saves.map (fun s => entriesOf s.buf)
      = (solve cfg y0 tnext ctrl ss mj).saves.map (fun s => entriesOf s.buf) := by
  have h1 := (C19_empty_interval cfg hroot hst h01 hcap y0 tnext ctrl ss mj).2.2.2.2.2
  have h2 := (C19_empty_interval { cfg with maxSteps := m } hroot hst h01
    (fun sub hs => (hcap sub hs).trans (allocSize_mono sub hm)) y0 tnext ctrl ss mj).2.2.2.2.2
  have g1 := congrArg (List.map entriesOf) h1
  have g2 := congrArg (List.map entriesOf) h2
  rw [List.map_map] at g1 g2
  change List.map (fun s : SaveState T O => entriesOf s.buf) _ = _ at g1
  change List.map (fun s : SaveState T O => entriesOf s.buf) _ = _ at g2
  rw [g1, g2, List.map_map, List.map_map]
  apply List.map_congr_left
  intro sub _
  simp only [Function.comp, entriesOf_padded]

/-- **C12** (partial) with a root finder: the saved entries are the same if there was room for the final entry. Missing: solves
in which the final entry found a full buffer, see `C12_violated`. -/
theorem C12_root_finder_partial (cfg : Cfg T Y E D S C O F) (hwf : cfg.WF) (f) (hroot : cfg.rootFinder = some f)
    (hlt : cfg.t0 ≠ cfg.t1) (m : Nat) (hm : cfg.maxSteps ≤ m)
    (hcap : ∀ sub ∈ cfg.subs, 1 ≤ allocSize cfg.maxSteps sub)
    (hts : ∀ sub ∈ cfg.subs, sub.ts.Pairwise (· ≤ ·) ∧ ∀ t ∈ sub.ts, cfg.t0 ≤ t)
    (y0 : Y) (tnext : T) (ctrl : C) (ss : S) (mj : Bool) (htn : cfg.t0 ≤ tnext)
    (hc : ∀ c ∈ callLog cfg y0 tnext ctrl ss mj, (c.answer cfg).Forward c.ctrlT0 c.ctrlT1 ∧
      (c.answer cfg).Exact c.ctrlT0 c.ctrlT1)
    (hfin : (solve cfg y0 tnext ctrl ss mj).result ≠ .maxStepsReached)
    (hroom : ∀ sub ∈ cfg.subs,
      (sub.t1 = true ∨ (sub.steps ≠ 0 ∧ sub.steps ∣ (pieces cfg y0 tnext ctrl ss mj).length)) →
      (((if sub.t0 then [(cfg.t0, sub.fn cfg.t0 y0)] else [])
        ++ stepEntries cfg.solver sub (pieces cfg y0 tnext ctrl ss mj) 0 sub.ts).filter
          (fun e => decide (e.1 ≤ (solve cfg y0 tnext ctrl ss mj).tfinal))).length < allocSize cfg.maxSteps sub) :
    (solve { cfg with maxSteps := m } y0 tnext ctrl ss mj).saves.map (fun s => entriesOf s.buf)
      = (solve cfg y0 tnext ctrl ss mj).saves.map (fun s => entriesOf s.buf) := by
  obtain ⟨-, ht, hy, -, hp⟩ := C12_max_steps_monotone cfg m hm y0 tnext ctrl ss mj hfin
  have h1 := (C17_nothing_after_event cfg hwf f hroot hlt hcap hts y0 tnext ctrl ss mj htn hc).1
  have h2 := (C17_nothing_after_event { cfg with maxSteps := m } ⟨hwf.le, hwf.floor_le, hwf.le_mid, hwf.mid_le⟩ f hroot hlt
    (fun sub hs => (hcap sub hs).trans (allocSize_mono sub hm)) hts y0 tnext ctrl ss mj htn
    (by rw [max_steps_history cfg m hm y0 tnext ctrl ss mj hfin]; exact hc)).1
  dsimp only at h1 h2
  rw [ht, hy, hp] at h2
  apply List.ext_getElem?
  intro i
  rw [List.getElem?_map, List.getElem?_map]
  cases hi : cfg.subs[i]? with
  | none =>
    have hlen : cfg.subs.length ≤ i := List.getElem?_eq_none_iff.1 hi
    rw [solve_saves, solve_saves, List.getElem?_eq_none (by simpa using hlen), List.getElem?_eq_none (by simpa using hlen)]
  | some sub =>
    obtain ⟨sv, hsv, -, a1, a2, -⟩ := h1 i sub hi
    obtain ⟨sv', hsv', -, b1, b2, -⟩ := h2 i sub hi
    have hmem : sub ∈ cfg.subs := List.mem_of_getElem? hi
    rw [hsv, hsv', Option.map_some, Option.map_some]
    by_cases hd : sub.t1 = true ∨ dueViaSteps sub (pieces cfg y0 tnext ctrl ss mj).length
    · have hr := hroom sub hmem hd
      rw [a2 hd hr, b2 hd (lt_of_lt_of_le hr (allocSize_mono sub hm))]
    · rw [a1 hd, b1 hd]

/-- Non-vacuity: an event inside a step, with room for the final entry. -/
example : (solve { toyEventCfg with maxSteps := 30 } 100 3 0 0 false).saves.map (fun s => entriesOf s.buf)
    = (solve toyEventCfg 100 3 0 0 false).saves.map (fun s => entriesOf s.buf) :=
  C12_root_finder_partial toyEventCfg ⟨toyCfg_WF.le, toyCfg_WF.floor_le, toyCfg_WF.le_mid, toyCfg_WF.mid_le⟩ toyRoot rfl
    (by decide) 30 (by decide) (by decide) (by decide) 100 3 0 0 false (by decide)
    (by unfold AdaptOut.Forward AdaptOut.Exact; decide) (by decide) (by decide)

example : (solve { toyCfg with t1 := 0, maxSteps := 30 } 100 3 0 0 false).saves.map (fun s => entriesOf s.buf)
    = (solve { toyCfg with t1 := 0 } 100 3 0 0 false).saves.map (fun s => entriesOf s.buf) :=
  C12_empty_interval { toyCfg with t1 := 0 } 30 (by decide) rfl rfl rfl (by decide) 100 3 0 0 false

/-- A controller that accepts each step and asks for steps of size 2. -/
def plainController : Controller Int Int Int Int :=
  { toyController with adapt := fun _ t1 _ _ _ c => { keep := true, tprev := t1, tnext := t1 + 2, madeJump := false, state := c,
                                                      result := .successful } }

/-- **C12** (violated): with a root finder and `SaveAt(steps=True)`, a solve that needs exactly `max_steps` steps and has no event
returns one entry less than with a larger `max_steps`, since then the last one is saved twice. -/
theorem C12_violated : ∃ cfg : Cfg Int Int Int Int Int Int Int Int, cfg.maxSteps = 4 ∧
    (solve cfg 100 1 0 0 false).result = .successful ∧
    (solve cfg 100 1 0 0 false).saves.map (fun s => (entriesOf s.buf).map (·.1)) = [[1, 3, 5, 7]] ∧
    (solve { cfg with maxSteps := 5 } 100 1 0 0 false).saves.map (fun s => (entriesOf s.buf).map (·.1)) = [[1, 3, 5, 7, 7]] :=
  ⟨{ toyCfg with
      controller := plainController, maxSteps := 4, rootFinder := some toyRoot
      subs := [{ toySub with t0 := false, t1 := false, ts := [], steps := 1 }] }, by decide, by decide, by decide, by decide⟩

end Verif
