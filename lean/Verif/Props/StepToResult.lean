import Verif.Props.Constant
import Verif.Props.Loop
import Verif.Props.Progress
import Verif.Props.Save
import Verif.Props.DenseEnds

/-!
# C03 for `StepTo`
-/

set_option linter.unusedSectionVars false

namespace Verif

variable {T Y E D S O F : Type} [LinearOrder T] [LinearOrder F] [Zero F]

/-- Where a solve with `StepTo` is after some steps, whatever the solver returns and whatever events there are. -/
def OnTs (ts : List T) (s : Core T Y D S Nat F) : Prop :=
  s.numSteps < ts.length ∧ s.ctrlState = s.numSteps + 2 ∧ ts[s.numSteps]? = some s.tprev ∧
    (s.numSteps + 1 < ts.length → ts[s.numSteps + 1]? = some s.tnext)

/-- With `StepTo`, the time after `n` steps is the `n`-th of the given times. -/
theorem stepTo_onTs (ts : List T) (dflt : T) (cfg : Cfg T Y E D S Nat O F) (y0 : Y) (ss : S) (mj : Bool)
    (tnext : T) (ctrl : Nat) (hvalid : stepToValid ts = true)
    (hinit : stepToInit ts cfg.t0 cfg.t1 false = some (tnext, ctrl)) (hc : cfg.controller = stepTo ts dflt)
    (hfl : ∀ i (hi : i < ts.length), i + 1 < ts.length → ts[i] ≤ cfg.floor) :
    ((∀ s ∈ history cfg y0 tnext ctrl ss mj, OnTs ts s ∧ s.numSteps + 1 < ts.length) ∧
      OnTs ts (solve cfg y0 tnext ctrl ss mj).core) ∧ ts[ts.length - 1]? = some cfg.t1 ∧ 2 ≤ ts.length ∧
      ∀ i (hi : i < ts.length), i + 1 < ts.length → ts[i] < cfg.t1 := by
  obtain ⟨hlen, hpw⟩ := stepToValid_pairwise ts hvalid
  unfold stepToInit at hinit
  simp only [Bool.false_eq_true, if_false] at hinit
  split at hinit
  · exact absurd hinit (by simp)
  rename_i hends
  rw [not_or, not_not, not_not] at hends
  have hl : ts.getLast? = some (ts[ts.length - 1]'(by omega)) := by
    rw [List.getLast?_eq_getElem?, List.getElem?_eq_getElem (by omega)]
  have h0 : ts.head? = some (ts[0]'(by omega)) := by
    rw [List.head?_eq_getElem?, List.getElem?_eq_getElem (by omega)]
  have hlast : ts[ts.length - 1]'(by omega) = cfg.t1 := by
    have := hends.2; rw [hl] at this; exact Option.some.inj this
  have hfirst : ts[0]'(by omega) = cfg.t0 := by
    have := hends.1; rw [h0] at this; exact Option.some.inj this
  rw [List.getElem?_eq_getElem (by omega : 1 < ts.length)] at hinit
  simp only [Option.some.injEq, Prod.mk.injEq] at hinit
  obtain ⟨rfl, rfl⟩ := hinit
  have hlt : ∀ i (hi : i < ts.length), i + 1 < ts.length → ts[i] < cfg.t1 := by
    intro i hi h
    rw [← hlast]
    exact hpw i (ts.length - 1) (by omega) (by omega)
  have hle : ∀ k (hk : k < ts.length), ts[k] ≤ cfg.t1 := by
    intro k hk
    rcases Nat.lt_or_ge (k + 1) ts.length with h | h
    · exact (hlt k hk h).le
    · have : k = ts.length - 1 := by omega
      subst this; exact hlast.le
  refine ⟨?_, by rw [List.getElem?_eq_getElem (by omega), hlast], hlen, hlt⟩
  have hmore : ∀ s : Core T Y D S Nat F, condFun cfg s = true → OnTs ts s → s.numSteps + 1 < ts.length := by
    intro s hcond hs
    have : s.numSteps < ts.length - 1 := by
      unfold condFun at hcond
      rw [hc] at hcond
      simp only [stepTo, Bool.and_eq_true, decide_eq_true_eq] at hcond
      exact hcond.1
    omega
  rw [solve_core]
  suffices h : (∀ s ∈ history cfg y0 ts[1] 2 ss mj, OnTs ts s) ∧
      OnTs ts (coreRun cfg cfg.maxSteps (initState cfg y0 ts[1] 2 ss mj).core) from
    ⟨fun s hs => ⟨h.1 s hs, hmore s (attempts_cond cfg _ _ s hs) (h.1 s hs)⟩, h.2⟩
  refine run_inv cfg (OnTs ts) cfg.maxSteps _ ?_ ?_
  · refine ⟨by show 0 < ts.length; omega, rfl, ?_, fun _ => ?_⟩
    · show ts[0]? = some cfg.t0
      rw [List.getElem?_eq_getElem (by omega), hfirst]
    · have h1 : ts[1]? = some (min (ts[1]'(by omega)) cfg.t1) := by
        rw [List.getElem?_eq_getElem (by omega), min_eq_left (hle 1 (by omega))]
      exact h1
  · intro s _ hcond ⟨i1, i2, i3, i4⟩
    have hn : s.numSteps + 1 < ts.length := hmore s hcond ⟨i1, i2, i3, i4⟩
    have htn : s.tnext = ts[s.numSteps + 1] := by
      have := i4 hn
      rw [List.getElem?_eq_getElem hn] at this
      exact (Option.some.inj this).symm
    have e1 : (coreBody cfg s).1.tprev = ts[s.numSteps + 1] := by
      have : (coreBody cfg s).1.tprev = min (cfg.controller.adapt s.tprev s.tnext s.y
        (cfg.solver.step s.tprev s.tnext s.y s.solverState s.madeJump).y
        (cfg.cleanErr (cfg.solver.step s.tprev s.tnext s.y s.solverState s.madeJump).err) s.ctrlState).tprev cfg.t1 := rfl
      rw [this, hc]
      show min s.tnext cfg.t1 = _
      rw [htn, min_eq_left (hle _ hn)]
    have e2 : (coreBody cfg s).1.tnext = clipToEnd cfg.mid (coreBody cfg s).1.tprev
        ((ts[min (s.numSteps + 2) (ts.length - 1)]?).getD dflt) cfg.t1 cfg.floor true := by
      have : (coreBody cfg s).1.tnext = clipToEnd cfg.mid (coreBody cfg s).1.tprev (cfg.controller.adapt s.tprev s.tnext s.y
        (cfg.solver.step s.tprev s.tnext s.y s.solverState s.madeJump).y
        (cfg.cleanErr (cfg.solver.step s.tprev s.tnext s.y s.solverState s.madeJump).err) s.ctrlState).tnext cfg.t1 cfg.floor
        (cfg.controller.adapt s.tprev s.tnext s.y
        (cfg.solver.step s.tprev s.tnext s.y s.solverState s.madeJump).y
        (cfg.cleanErr (cfg.solver.step s.tprev s.tnext s.y s.solverState s.madeJump).err) s.ctrlState).keep := rfl
      rw [this, hc, i2]
      rfl
    have e3 : (coreBody cfg s).1.ctrlState = s.numSteps + 1 + 2 := by
      have : (coreBody cfg s).1.ctrlState = (cfg.controller.adapt s.tprev s.tnext s.y
        (cfg.solver.step s.tprev s.tnext s.y s.solverState s.madeJump).y
        (cfg.cleanErr (cfg.solver.step s.tprev s.tnext s.y s.solverState s.madeJump).err) s.ctrlState).state := rfl
      rw [this, hc, i2]
      rfl
    refine ⟨hn, e3, ?_, ?_⟩
    · rw [coreBody_numSteps, List.getElem?_eq_getElem hn, e1]
    · intro h2
      rw [coreBody_numSteps] at h2 ⊢
      rw [e2, Nat.min_eq_left (by omega), List.getElem?_eq_getElem h2, Option.getD_some]
      unfold clipToEnd
      simp only [if_true]
      split
      · rename_i hclip
        by_cases hh : s.numSteps + 1 + 1 + 1 < ts.length
        · exact absurd (hfl _ h2 hh) (not_le.2 hclip)
        · rw [← hlast]
          have : s.numSteps + 1 + 1 = ts.length - 1 := by omega
          simp only [this]
      · rfl

/-- **C03** for `StepTo`, with any solver and any events: `successful` means that all steps were made and `t1` was reached exactly;
`max_steps_reached` means that exactly `max_steps` steps were made, that there were more to make, and that no error or event had
occurred; `event_occurred` means that a condition triggered at the last time reached; anything else raises with `throw=True`. -/
theorem C03_stepTo (ts : List T) (dflt : T) (cfg : Cfg T Y E D S Nat O F) (hown : cfg.OwnCodes) (y0 : Y) (ss : S) (mj : Bool)
    (tnext : T) (ctrl : Nat) (hvalid : stepToValid ts = true)
    (hinit : stepToInit ts cfg.t0 cfg.t1 false = some (tnext, ctrl)) (hc : cfg.controller = stepTo ts dflt)
    (hfl : ∀ i (hi : i < ts.length), i + 1 < ts.length → ts[i] ≤ cfg.floor) :
    let out := solve cfg y0 tnext ctrl ss mj
    (out.result = .successful → out.tfinal = cfg.t1 ∧ out.core.tprev = cfg.t1 ∧ out.core.numSteps + 1 = ts.length) ∧
    (out.result = .maxStepsReached ↔ out.core.tprev < cfg.t1 ∧ out.core.result = .successful) ∧
    (out.result = .maxStepsReached → out.core.numSteps = cfg.maxSteps ∧ cfg.maxSteps + 1 < ts.length ∧
      out.core.evMask.any id = false) ∧
    (out.result = .eventOccurred → out.core.evMask.any id = true ∧
      match (history cfg y0 tnext ctrl ss mj).getLast? with
      | none => ∃ e ∈ cfg.events, e.initMask cfg.t0 y0 = true
      | some s => (triggered cfg s).any id = true) ∧
    (throws out = true ↔ out.result ≠ .successful ∧ out.result ≠ .eventOccurred) := by
  have hclass := core_result_classification cfg hown y0 tnext ctrl ss mj
  obtain ⟨⟨-, o1, -, o3, -⟩, hlast, hlen, hlt⟩ := stepTo_onTs ts dflt cfg y0 ss mj tnext ctrl hvalid hinit hc hfl
  dsimp only at hclass ⊢
  obtain ⟨hne, hev⟩ := hclass
  have hcore := solve_core cfg y0 tnext ctrl ss mj
  have hres := solve_result cfg y0 tnext ctrl ss mj
  have htf := solve_tfinal cfg y0 tnext ctrl ss mj
  have hcond : ∀ s : Core T Y D S Nat F, condFun cfg s = true ↔ s.numSteps + 1 < ts.length ∧
      s.result = .successful := by
    intro s
    have : s.numSteps < ts.length - 1 ↔ s.numSteps + 1 < ts.length := by omega
    simp [condFun, hc, stepTo, Result.isSuccessful, this]
  -- whatever `finalise` does, it returns the loop's result or a root finder's error
  have hfin : ∀ s : Core T Y D S Nat F, (finalise cfg s).2.2 = s.result ∨
      ((finalise cfg s).2.2 ≠ .maxStepsReached ∧ (finalise cfg s).2.2 ≠ .eventOccurred ∧
        (finalise cfg s).2.2 ≠ .successful) := by
    intro s
    unfold finalise
    split
    · left; rfl
    · rename_i f hf
      dsimp only
      split
      · cases hr : (f (toRootFind cfg s (s.evMask.any id)) s.evTprev s.evTnext).2 with
        | none => left; simp
        | some r =>
          right
          simpa using hown.root f (by rw [hf]; rfl) _ _ _ r (by rw [hr]; rfl)
      · left; rfl
  generalize hs : (solve cfg y0 tnext ctrl ss mj).core = s at *
  have hmore : s.numSteps + 1 < ts.length ↔ s.tprev < cfg.t1 := by
    rw [List.getElem?_eq_getElem o1] at o3
    have o3 := Option.some.inj o3
    rw [← o3]
    constructor
    · exact hlt _ o1
    · intro h
      by_contra hh
      have e : s.numSteps = ts.length - 1 := by omega
      rw [List.getElem?_eq_getElem (by omega)] at hlast
      have hlast := Option.some.inj hlast
      simp only [e, hlast] at h
      exact lt_irrefl _ h
  have hend : ¬ s.numSteps + 1 < ts.length → s.tprev = cfg.t1 := by
    intro h
    have e : s.numSteps = ts.length - 1 := by omega
    rw [e, hlast] at o3
    exact (Option.some.inj o3).symm
  have hmax : (solve cfg y0 tnext ctrl ss mj).result = .maxStepsReached ↔
      s.numSteps + 1 < ts.length ∧ s.result = .successful := by
    rw [hres, ← hcond]
    cases hc : condFun cfg s with
    | true => simp
    | false =>
      simp only [Bool.false_eq_true, if_false, iff_false]
      rcases hfin s with h | h
      · rw [h]; exact hne
      · exact h.1
  refine ⟨?_, by rw [hmax, hmore], ?_, ?_, ?_⟩
  · intro hsucc
    rw [hres] at hsucc
    have hc : ¬ condFun cfg s = true := by
      intro hc; simp [hc] at hsucc
    rw [if_neg hc] at hsucc
    have hrs : s.result = .successful := by
      rcases hfin s with h | h
      · rw [← h, hsucc]
      · exact absurd hsucc h.2.2
    have hn : ¬ s.numSteps + 1 < ts.length := fun h => hc ((hcond s).2 ⟨h, hrs⟩)
    have heq := hend hn
    refine ⟨?_, heq, by omega⟩
    have hm : s.evMask.any id = false := by
      cases hm : s.evMask.any id with
      | false => rfl
      | true => rw [hev.2 hm] at hrs; simp at hrs
    rw [htf, finalise_no_event cfg s hm]; exact heq
  · intro hmx
    obtain ⟨h1, h2⟩ := hmax.1 hmx
    have hns : s.numSteps = cfg.maxSteps := by
      rw [hcore, (coreRun_counts cfg _ _).1, attempts_length_eq]
      · exact Nat.zero_add _
      · rw [← hcore]; exact (hcond s).2 ⟨h1, h2⟩
    refine ⟨hns, by omega, ?_⟩
    cases hm : s.evMask.any id with
    | false => rfl
    | true => rw [hev.2 hm] at h2; simp at h2
  · intro hevt
    have hm : s.evMask.any id = true := by
      rw [hres] at hevt
      split at hevt
      · simp at hevt
      · rcases hfin s with h | h
        · exact hev.1 (by rw [← h, hevt])
        · exact absurd hevt h.2.1
    refine ⟨hm, ?_⟩
    rw [hcore, coreRun_eq_last] at hm
    unfold history
    split at hm
    · rename_i hl
      rw [hl]
      dsimp only
      have e2 : (initState cfg y0 tnext ctrl ss mj).core.evMask
        = (firstTrue false (cfg.events.map (fun e => e.initMask cfg.t0 y0))).1 := rfl
      rw [e2, firstTrue_any] at hm
      simpa using hm
    · rename_i s' hl
      rw [hl]
      rwa [coreBody_mask, firstTrue_any] at hm
  · unfold throws Result.isOkay Result.isSuccessful Result.isEvent
    simp

/-- A successful solve with `StepTo` and no root finder ends at `t1`. -/
theorem stepTo_end (steps : List T) (dflt : T) (cfg : Cfg T Y E D S Nat O F) (hroot : cfg.rootFinder = none)
    (y0 : Y) (ss : S) (mj : Bool) (tnext : T) (ctrl : Nat)
    (hvalid : stepToValid steps = true) (hinit : stepToInit steps cfg.t0 cfg.t1 false = some (tnext, ctrl))
    (hc : cfg.controller = stepTo steps dflt)
    (hfl : ∀ i (hi : i < steps.length), i + 1 < steps.length → steps[i] ≤ cfg.floor)
    (hsucc : (solve cfg y0 tnext ctrl ss mj).result = .successful) :
    (solve cfg y0 tnext ctrl ss mj).core.tprev = cfg.t1 := by
  obtain ⟨⟨-, o1, -, o3, -⟩, hlast, hlen, -⟩ := stepTo_onTs steps dflt cfg y0 ss mj tnext ctrl hvalid hinit hc hfl
  have hres := solve_result cfg y0 tnext ctrl ss mj
  rw [hsucc] at hres
  have hcf : condFun cfg (solve cfg y0 tnext ctrl ss mj).core = false := by
    cases h : condFun cfg (solve cfg y0 tnext ctrl ss mj).core with
    | false => rfl
    | true => rw [h] at hres; simp at hres
  rw [hcf, finalise_no_root cfg _ hroot] at hres
  simp only [Bool.false_eq_true, if_false] at hres
  have hn : ¬ (solve cfg y0 tnext ctrl ss mj).core.numSteps < steps.length - 1 := by
    simpa [condFun, hc, stepTo, ← hres, Result.isSuccessful] using hcf
  have e : (solve cfg y0 tnext ctrl ss mj).core.numSteps = steps.length - 1 := by omega
  rw [e, hlast] at o3
  exact (Option.some.inj o3).symm

theorem stepTo_first (ts : List T) (cfg : Cfg T Y E D S Nat O F)
    (tnext : T) (ctrl : Nat) (hvalid : stepToValid ts = true)
    (hinit : stepToInit ts cfg.t0 cfg.t1 false = some (tnext, ctrl)) : cfg.t0 ≤ tnext := by
  obtain ⟨hlen, hpw⟩ := stepToValid_pairwise ts hvalid
  unfold stepToInit at hinit
  simp only [Bool.false_eq_true, if_false] at hinit
  split at hinit
  · exact absurd hinit (by simp)
  rename_i hends
  rw [not_or, not_not, not_not, List.head?_eq_getElem?, List.getElem?_eq_getElem (by omega)] at hends
  rw [List.getElem?_eq_getElem (by omega : 1 < ts.length)] at hinit
  simp only [Option.some.injEq, Prod.mk.injEq] at hinit
  rw [← hinit.1, ← Option.some.inj hends.1]
  exact (hpw 0 1 (by omega) (by omega)).le

/-- `StepTo` only moves forward, and its steps are not empty. -/
theorem stepTo_forward (ts : List T) (dflt : T) (cfg : Cfg T Y E D S Nat O F)
    (y0 : Y) (ss : S) (mj : Bool) (tnext : T) (ctrl : Nat) (hvalid : stepToValid ts = true)
    (hinit : stepToInit ts cfg.t0 cfg.t1 false = some (tnext, ctrl)) (hc : cfg.controller = stepTo ts dflt)
    (hfl : ∀ i (hi : i < ts.length), i + 1 < ts.length → ts[i] ≤ cfg.floor) :
    ∀ c ∈ callLog cfg y0 tnext ctrl ss mj, (c.answer cfg).Forward c.ctrlT0 c.ctrlT1 ∧
      (c.answer cfg).Exact c.ctrlT0 c.ctrlT1 ∧ c.solverT0 ≠ c.solverT1 := by
  obtain ⟨⟨hh, -⟩, hlast, hlen, hlt⟩ := stepTo_onTs ts dflt cfg y0 ss mj tnext ctrl hvalid hinit hc hfl
  obtain ⟨-, hpw⟩ := stepToValid_pairwise ts hvalid
  intro c hcm
  rw [log_eq_history] at hcm
  obtain ⟨s, hs, rfl⟩ := List.mem_map.1 hcm
  obtain ⟨⟨i1, i2, i3, i4⟩, hn⟩ := hh s hs
  have htn := i4 hn
  rw [List.getElem?_eq_getElem hn] at htn
  have htn := Option.some.inj htn
  have e : (CallLog.answer cfg (expectedCall cfg s)) = (stepTo (Y := Y) (E := E) ts dflt).adapt s.tprev s.tnext s.y
      (cfg.solver.step s.tprev s.tnext s.y s.solverState s.madeJump).y
      (cfg.cleanErr (cfg.solver.step s.tprev s.tnext s.y s.solverState s.madeJump).err) s.ctrlState := by
    unfold CallLog.answer
    rw [hc]
    rfl
  rw [e]
  refine ⟨⟨fun _ => le_refl _, fun h => by simp [stepTo] at h, ?_⟩, ⟨fun _ => rfl, fun h => by simp [stepTo] at h⟩, ?_⟩
  swap
  · show s.tprev ≠ s.tnext
    rw [List.getElem?_eq_getElem i1] at i3
    rw [← Option.some.inj i3, ← htn]
    exact (hpw _ _ hn (by omega)).ne
  show s.tnext ≤ (ts[min s.ctrlState (ts.length - 1)]?).getD dflt
  rw [i2, ← htn]
  by_cases h2 : s.numSteps + 2 < ts.length
  · rw [Nat.min_eq_left (by omega), List.getElem?_eq_getElem h2, Option.getD_some]
    exact (hpw _ _ h2 (by omega)).le
  · have e2 : min (s.numSteps + 2) (ts.length - 1) = s.numSteps + 1 := by omega
    rw [e2, List.getElem?_eq_getElem hn, Option.getD_some]

/-- **C07** for `StepTo`: a successful solve returns exactly the requested times in order, each with `fn` of the interpolation over
the first step whose end is not before that time. -/
theorem C07_stepTo (steps : List T) (dflt : T) (cfg : Cfg T Y E D S Nat O F) (hwf : cfg.WF) (hroot : cfg.rootFinder = none)
    (ts : List T) (fn : T → Y → O) (hne : ts ≠ [])
    (hsub : cfg.subs = [{ t0 := false, t1 := false, ts := ts, steps := 0, fn := fn }])
    (hsort : ts.Pairwise (· ≤ ·)) (hrange : ∀ t ∈ ts, t ≤ cfg.t1) (y0 : Y) (ss : S) (mj : Bool) (tnext : T) (ctrl : Nat)
    (hvalid : stepToValid steps = true) (hinit : stepToInit steps cfg.t0 cfg.t1 false = some (tnext, ctrl))
    (hc : cfg.controller = stepTo steps dflt)
    (hfl : ∀ i (hi : i < steps.length), i + 1 < steps.length → steps[i] ≤ cfg.floor)
    (hsucc : (solve cfg y0 tnext ctrl ss mj).result = .successful) :
    ∃ cover : T → Piece T Y D,
      (∀ t ∈ ts, firstCovering (pieces cfg y0 tnext ctrl ss mj) t = some (cover t)) ∧
      (solve cfg y0 tnext ctrl ss mj).saves.map (·.buf)
        = [ts.map (fun t => .val t (fn t ((cover t).eval cfg.solver t)))] := by
  obtain ⟨-, -, hlen, hbefore⟩ := stepTo_onTs steps dflt cfg y0 ss mj tnext ctrl hvalid hinit hc hfl
  have hlt : cfg.t0 < cfg.t1 := by
    have h0 := hbefore 0 (by omega) (by omega)
    unfold stepToInit at hinit
    simp only [Bool.false_eq_true, if_false] at hinit
    split at hinit
    · exact absurd hinit (by simp)
    rename_i hends
    rw [not_or, not_not, not_not, List.head?_eq_getElem?, List.getElem?_eq_getElem (by omega)] at hends
    rwa [Option.some.inj hends.1] at h0
  have hany := C07_saveat_ts_any_end cfg hroot (ne_of_lt hlt) ts fn hne hsub hsort y0 tnext ctrl ss mj
  have hex' : ∀ s ∈ history cfg y0 tnext ctrl ss mj, (adaptOut cfg s).Exact s.tprev s.tnext := by
    intro s _
    unfold adaptOut
    rw [hc]
    exact ⟨fun _ => rfl, fun h => by simp [stepTo] at h⟩
  have htf := stepTo_end steps dflt cfg hroot y0 ss mj tnext ctrl hvalid hinit hc hfl hsucc
  have hp : ∃ p ∈ pieces cfg y0 tnext ctrl ss mj, p.t1 = cfg.t1 := by
    rcases reached_final cfg cfg.maxSteps (initState cfg y0 tnext ctrl ss mj).core hex'
      (history_le cfg hwf y0 tnext ctrl ss mj) with h | ⟨p, hp, h⟩
    · rw [← solve_core, htf] at h
      exact absurd h.symm (ne_of_lt hlt)
    · rw [← solve_core, htf] at h; exact ⟨p, hp, h⟩
  obtain ⟨p, hp, hpt⟩ := hp
  have hcov : ∀ t ∈ ts, ∃ q, firstCovering (pieces cfg y0 tnext ctrl ss mj) t = some q := by
    intro t ht
    have : (firstCovering (pieces cfg y0 tnext ctrl ss mj) t).isSome = true := by
      unfold firstCovering
      rw [List.find?_isSome]
      exact ⟨p, hp, by simpa [hpt] using hrange t ht⟩
    exact Option.isSome_iff_exists.1 this
  refine ⟨fun t => ((firstCovering (pieces cfg y0 tnext ctrl ss mj) t).getD p), ?_, ?_⟩
  · intro t ht
    obtain ⟨q, hq⟩ := hcov t ht
    simp [hq]
  · rw [hany]
    have hfm : ts.filterMap (fun t => (firstCovering (pieces cfg y0 tnext ctrl ss mj) t).map
        (fun p => (t, fn t (p.eval cfg.solver t))))
        = ts.map (fun t => (t, fn t (((firstCovering (pieces cfg y0 tnext ctrl ss mj) t).getD p).eval
            cfg.solver t))) := by
      rw [← List.filterMap_eq_map]
      apply List.filterMap_congr
      intro t ht
      obtain ⟨q, hq⟩ := hcov t ht
      simp [hq]
    rw [hfm]
    simp [padded, Function.comp_def]

/-- **C53** for `StepTo`, with any solver and any events, and whether or not the solve succeeds. -/
theorem C53_stepTo {K : Type} [Field K] [LinearOrder K] [IsStrictOrderedRing K] (ts : List K) (dflt : K)
    (cfg : Cfg K Y E D S Nat O F) (hwf : cfg.WF) (y0 : Y) (ss : S) (mj : Bool) (tnext : K) (ctrl : Nat)
    (hvalid : stepToValid ts = true) (hinit : stepToInit ts cfg.t0 cfg.t1 false = some (tnext, ctrl))
    (hc : cfg.controller = stepTo ts dflt) (hfl : ∀ i (hi : i < ts.length), i + 1 < ts.length → ts[i] ≤ cfg.floor)
    (minInc : K) (hm : 0 ≤ minInc) :
    (textPrinted minInc (progressOf cfg y0 tnext ctrl ss mj)).head? = some 0 ∧
    (textPrinted minInc (progressOf cfg y0 tnext ctrl ss mj)).getLast? = some 1 ∧
    (textPrinted minInc (progressOf cfg y0 tnext ctrl ss mj)).IsChain (· < ·) ∧
    (textPrinted minInc (progressOf cfg y0 tnext ctrl ss mj)).dropLast.IsChain (fun a b => minInc < b - a) := by
  obtain ⟨⟨hh, -⟩, hlast, hlen, hlt⟩ := stepTo_onTs ts dflt cfg y0 ss mj tnext ctrl hvalid hinit hc hfl
  refine C53_solve_of_lt cfg hwf y0 tnext ctrl ss mj (stepTo_first ts cfg tnext ctrl hvalid hinit)
    (fun c hcm => (stepTo_forward ts dflt cfg y0 ss mj tnext ctrl hvalid hinit hc hfl c hcm).1) ?_ minInc hm
  intro c hcm
  rw [log_eq_history] at hcm
  obtain ⟨s, hs, rfl⟩ := List.mem_map.1 hcm
  obtain ⟨⟨i1, i2, i3, i4⟩, hn⟩ := hh s hs
  rw [List.getElem?_eq_getElem i1] at i3
  show s.tprev < cfg.t1
  rw [← Option.some.inj i3]
  exact hlt _ i1 hn

/-- **C77** for `StepTo`: the value saved at `t1` by `SaveAt(ts=...)` is that of `SaveAt(t1=True)`. -/
theorem C77_stepTo (steps : List T) (dflt : T) (cfg : Cfg T Y E D S Nat O F) (hwf : cfg.WF) (hroot : cfg.rootFinder = none)
    (hj : cfg.solver.Joins) (ts : List T) (fn : T → Y → O) (hts : cfg.t1 ∈ ts)
    (hsub : cfg.subs = [{ t0 := false, t1 := false, ts := ts, steps := 0, fn := fn }])
    (hsort : ts.Pairwise (· ≤ ·)) (hrange : ∀ t ∈ ts, t ≤ cfg.t1) (y0 : Y) (ss : S) (mj : Bool) (tnext : T) (ctrl : Nat)
    (hvalid : stepToValid steps = true) (hinit : stepToInit steps cfg.t0 cfg.t1 false = some (tnext, ctrl))
    (hc : cfg.controller = stepTo steps dflt)
    (hfl : ∀ i (hi : i < steps.length), i + 1 < steps.length → steps[i] ≤ cfg.floor)
    (hsucc : (solve cfg y0 tnext ctrl ss mj).result = .successful) :
    ∃ out : T → O, out cfg.t1 = fn cfg.t1 (solve cfg y0 tnext ctrl ss mj).yfinal ∧
      (solve cfg y0 tnext ctrl ss mj).saves.map (·.buf) = [ts.map (fun t => .val t (out t))] := by
  have hfw := stepTo_forward steps dflt cfg y0 ss mj tnext ctrl hvalid hinit hc hfl
  have htf := stepTo_end steps dflt cfg hroot y0 ss mj tnext ctrl hvalid hinit hc hfl hsucc
  obtain ⟨cover, h1, h2⟩ := C07_stepTo steps dflt cfg hwf hroot ts fn (List.ne_nil_of_mem hts) hsub hsort hrange
    y0 ss mj tnext ctrl hvalid hinit hc hfl hsucc
  refine ⟨fun t => fn t ((cover t).eval cfg.solver t), ?_, h2⟩
  rw [solve_yfinal, finalise_no_root cfg (solve cfg y0 tnext ctrl ss mj).core hroot]
  have := C77_final cfg hwf hj y0 tnext ctrl ss mj (stepTo_first steps cfg tnext ctrl hvalid hinit)
    (fun c hcm => ⟨(hfw c hcm).1, (hfw c hcm).2.1⟩) (fun c hcm _ => (hfw c hcm).2.2) (cover cfg.t1)
    (by rw [htf]; exact h1 _ hts)
  rw [htf] at this
  simp only [this]

/-- Three steps, and an event that triggers at the end of the second one if `t ≤ 3`. -/
def stepToToy (n : Nat) (t : Int) : Cfg Int Int Int Int Int Nat Int Int :=
  { solver := toySolver, controller := stepTo [0, 1, 3, 7] 0, cleanErr := id
    events := [.bool fun u _ => decide (t ≤ u)]
    rootFinder := none, dist := fun a b => a - b, dummyDense := 0, t0 := 0, t1 := 7, floor := 6, mid := fun a b => (a + b) / 2
    subs := [], dense := false, maxSteps := n }

/-- Non-vacuity: the hypotheses, and three ways to end. -/
example : stepToValid ([0, 1, 3, 7] : List Int) = true ∧ stepToInit ([0, 1, 3, 7] : List Int) 0 7 false = some (1, 2) ∧
    (solve (stepToToy 10 8) 100 1 2 0 false).result = .successful ∧
    (solve (stepToToy 2 8) 100 1 2 0 false).result = .maxStepsReached ∧
    (solve (stepToToy 10 3) 100 1 2 0 false).result = .eventOccurred := by
  decide

/-- Non-vacuity of `C53_stepTo`: the hypotheses, and what is printed. -/
example : stepToValid ([0, 1 / 2, 51 / 100, 4 / 5, 1] : List ℚ) = true ∧
    stepToInit ([0, 1 / 2, 51 / 100, 4 / 5, 1] : List ℚ) 0 1 false = some (1 / 2, 2) ∧
    (constCfg Nat (stepTo [0, 1 / 2, 51 / 100, 4 / 5, 1] 0)).WF ∧
    (∀ t ∈ ([0, 1 / 2, 51 / 100, 4 / 5] : List ℚ), t ≤ (constCfg Nat (stepTo [0, 1 / 2, 51 / 100, 4 / 5, 1] 0)).floor) ∧
    textPrinted (1 / 50) (progressOf (constCfg Nat (stepTo [0, 1 / 2, 51 / 100, 4 / 5, 1] 0)) 0 (1 / 2) 2 0 false) =
      [0, 1 / 2, 4 / 5, 1] := by
  refine ⟨by decide +kernel, by decide +kernel, ⟨?_, ?_, ?_, ?_⟩, by decide +kernel, by decide +kernel⟩
  · norm_num [constCfg]
  · norm_num [constCfg]
  · intro a h; simp only [constCfg] at *; linarith
  · intro a h; simp only [constCfg] at *; linarith

def stepToSave : Cfg Int Int Int Int Int Nat Int Int :=
  { stepToToy 10 8 with
    subs := [{ t0 := false, t1 := false, ts := [0, 1, 1, 2, 7], steps := 0, fn := fun t y => 10 * t + y }] }

/-- Non-vacuity of `C07_stepTo`. -/
example : (solve stepToSave 100 1 2 0 false).result = .successful ∧
    (solve stepToSave 100 1 2 0 false).saves.map (·.buf) = [[.val 0 100, .val 1 111, .val 1 111, .val 2 122, .val 7 177]] := by
  decide

example : stepToSave.WF := by
  refine ⟨by decide, by decide, ?_, ?_⟩ <;> intro a h <;> simp only [stepToSave, stepToToy] at * <;> omega

end Verif
