import Verif.Spec.EventCrossing
import Verif.Props.Event

/-!
# No crossing is missed: C113
-/

set_option linter.unusedSectionVars false

namespace Verif

variable {T Y E D S C O F : Type} [LinearOrder T] [LinearOrder F] [Zero F]

theorem quiet_trans (e : EventCond T Y F) {p q r : T × Y} (h1 : e.Quiet p q) (h2 : e.Quiet q r) : e.Quiet p r := by
  match e, h1, h2 with
  | .bool c, _, h2 => exact h2
  | .flt c none, h1, h2 => exact ⟨h1.1.trans h2.1, h1.2.trans h2.2⟩
  | .flt c (some true), h1, h2 =>
    rintro ⟨ha, hb⟩
    rcases le_or_gt (c q.1 q.2) 0 with h | h
    · exact h2 ⟨h, hb⟩
    · exact h1 ⟨ha, h⟩
  | .flt c (some false), h1, h2 =>
    rintro ⟨ha, hb⟩
    rcases le_or_gt (c q.1 q.2) 0 with h | h
    · exact h1 ⟨ha, h⟩
    · exact h2 ⟨h, hb⟩

theorem quiet_iff (e : EventCond T Y F) (p q : T × Y) : e.Quiet p q ↔ ¬ ShouldTrigger e p.1 p.2 q.1 q.2 := by
  match e with
  | .bool c => simp [EventCond.Quiet, ShouldTrigger]
  | .flt c none =>
    simp only [EventCond.Quiet, ShouldTrigger, Crosses, not_not]
    generalize c p.1 p.2 = a
    generalize c q.1 q.2 = b
    have key : ∀ x : F, (x < 0 ∧ ¬ 0 < x ∧ x ≠ 0) ∨ (x = 0 ∧ ¬ x < 0 ∧ ¬ 0 < x) ∨ (0 < x ∧ ¬ x < 0 ∧ x ≠ 0) := by
      intro x
      rcases lt_trichotomy x 0 with h | h | h
      · exact .inl ⟨h, h.not_gt, h.ne⟩
      · exact .inr (.inl ⟨h, h.not_lt, h.not_gt⟩)
      · exact .inr (.inr ⟨h, h.not_gt, h.ne'⟩)
    rcases key a with ⟨a1, a2, a3⟩ | ⟨a1, a2, a3⟩ | ⟨a1, a2, a3⟩ <;>
      rcases key b with ⟨b1, b2, b3⟩ | ⟨b1, b2, b3⟩ | ⟨b1, b2, b3⟩ <;> simp [*]
  | .flt c (some true) => rfl
  | .flt c (some false) => rfl

theorem attempts_point_chain (cfg : Cfg T Y E D S C O F) (Q : T × Y → T × Y → Prop) (n : Nat) (s : Core T Y D S C F)
    (h : ∀ s' ∈ attempts cfg n s, (coreBody cfg s').1.result.isSuccessful = true → Q s'.point (coreBody cfg s').1.point) :
    ((attempts cfg n s).map Core.point).IsChain Q ∧
      ((∀ s' ∈ attempts cfg n s, Q s'.point (coreBody cfg s').1.point) →
        ((attempts cfg n s).map Core.point ++ [(coreRun cfg n s).point]).IsChain Q) ∧
      ∀ p ∈ ((attempts cfg n s).map Core.point).head?, p = s.point := by
  induction n generalizing s with
  | zero => simp [attempts]
  | succ n ih =>
    by_cases hc : condFun cfg s = true
    · simp only [attempts, coreRun, hc, if_true] at h ⊢
      obtain ⟨i1, i2, i3⟩ := ih _ fun s' hs' => h s' (List.mem_cons_of_mem _ hs')
      refine ⟨?_, ?_, by simp⟩
      · rw [List.map_cons, List.isChain_cons]
        refine ⟨fun p hp => ?_, i1⟩
        rw [i3 p hp]
        refine h s List.mem_cons_self ?_
        -- another attempt is made, so the result is successful
        cases n with
        | zero => simp [attempts] at hp
        | succ n =>
          by_contra hns
          rw [(attempts_not_succ cfg _ _ (by simpa using hns)).1] at hp
          simp at hp
      · intro hall
        rw [List.map_cons, List.cons_append, List.isChain_cons]
        refine ⟨fun p hp => ?_, i2 fun s' hs' => hall s' (List.mem_cons_of_mem _ hs')⟩
        have hpe : p = (coreBody cfg s).1.point := by
          by_cases hn : attempts cfg n (coreBody cfg s).1 = []
          · have hrun : coreRun cfg n (coreBody cfg s).1 = (coreBody cfg s).1 := by
              cases n with
              | zero => rfl
              | succ n =>
                by_cases hc' : condFun cfg (coreBody cfg s).1 = true
                · simp [attempts, hc'] at hn
                · simp [coreRun, hc']
            rw [hn, hrun] at hp
            simpa using hp.symm
          · obtain ⟨a, l, hal⟩ := List.exists_cons_of_ne_nil hn
            rw [hal] at hp i3
            have ha := i3 a.point (by simp)
            simp only [List.map_cons, List.cons_append, List.head?_cons, Option.mem_def, Option.some.injEq] at hp
            rw [← hp, ha]
        rw [hpe]
        exact hall s List.mem_cons_self
    · simp [attempts, coreRun, hc]

/-- **C113**: no crossing is missed, however it is spread over the steps (for example by a state at which the condition is exactly
zero). Between any two states of a solve with later steps no event should have happened; and if the solve does not end with an
event, this includes its last state. -/
theorem C113_none_missed (cfg : Cfg T Y E D S C O F) (hown : cfg.OwnCodes) (y0 : Y) (tnext : T) (ctrl : C) (ss : S)
    (mj : Bool) (e : EventCond T Y F) (he : e ∈ cfg.events) :
    let steps := history cfg y0 tnext ctrl ss mj
    let final := (solve cfg y0 tnext ctrl ss mj).core
    (steps.map Core.point).Pairwise e.Quiet ∧
      (final.result ≠ .eventOccurred → (steps.map Core.point ++ [final.point]).Pairwise e.Quiet) := by
  dsimp only
  obtain ⟨-, h2, -⟩ := C15_stops_at_first_trigger cfg hown y0 tnext ctrl ss mj
  have hQ : ∀ s ∈ history cfg y0 tnext ctrl ss mj, (coreBody cfg s).1.result ≠ .eventOccurred →
      e.Quiet s.point (coreBody cfg s).1.point := by
    intro s hs hne
    rw [quiet_iff]
    intro htr
    apply hne
    have hcond := attempts_cond _ _ _ _ hs
    have hres := coreBody_result cfg s (condFun_succ cfg s hcond)
    rw [hres, if_pos]
    rw [triggered_get cfg y0 tnext ctrl ss mj s hs]
    simp only [List.any_map, List.any_eq_true, Function.comp, id]
    exact ⟨e, he, (triggers_iff e _ _ _ _).2 htr⟩
  have hch := attempts_point_chain cfg e.Quiet cfg.maxSteps (initState cfg y0 tnext ctrl ss mj).core
    fun s hs hsucc => hQ s hs (by intro h; rw [h] at hsucc; cases hsucc)
  have : IsTrans (T × Y) e.Quiet := ⟨fun _ _ _ => quiet_trans e⟩
  refine ⟨List.isChain_iff_pairwise.1 hch.1, fun hne => List.isChain_iff_pairwise.1 ?_⟩
  rw [solve_core]
  refine hch.2.1 fun s hs => hQ s hs fun hev => hne ?_
  obtain ⟨-, h⟩ := attempts_last cfg _ _ s hs (by rw [hev]; rfl)
  rw [solve_core, h, hev]

/-- **C113**: if the condition has strictly opposite signs at any two states of the solve, and its direction fits, the solve ends
with an event. -/
theorem C113_crossing_found (cfg : Cfg T Y E D S C O F) (hown : cfg.OwnCodes) (y0 : Y) (tnext : T) (ctrl : C) (ss : S)
    (mj : Bool) (c : T → Y → F) (dir : Option Bool) (he : .flt c dir ∈ cfg.events) (s : Core T Y D S C F)
    (hs : s ∈ history cfg y0 tnext ctrl ss mj) :
    let final := (solve cfg y0 tnext ctrl ss mj).core
    (c s.tprev s.y < 0 ∧ 0 < c final.tprev final.y ∧ dir ≠ some false ∨
      0 < c s.tprev s.y ∧ c final.tprev final.y < 0 ∧ dir ≠ some true) → final.result = .eventOccurred := by
  intro final h
  by_contra hne
  have hp := (C113_none_missed cfg hown y0 tnext ctrl ss mj _ he).2 hne
  rw [List.pairwise_append] at hp
  have hq := hp.2.2 s.point (List.mem_map_of_mem hs) final.point (List.mem_singleton.2 rfl)
  change EventCond.Quiet _ s.point final.point at hq
  simp only [Core.point, EventCond.Quiet] at hq
  rcases dir with _ | _ | _ <;> simp only at hq
  · rcases h with ⟨h1, h2, -⟩ | ⟨h1, h2, -⟩
    · exact absurd (hq.1.1 h1) (not_lt.2 h2.le)
    · exact absurd (hq.2.1 h1) (not_lt.2 h2.le)
  · rcases h with ⟨-, -, h⟩ | ⟨h1, h2, -⟩
    · exact h rfl
    · exact hq ⟨h1, h2.le⟩
  · rcases h with ⟨h1, h2, -⟩ | ⟨-, -, h⟩
    · exact hq ⟨h1.le, h2⟩
    · exact h rfl

/-- **C113** (partial): an event in both directions is a crossing with respect to the whole solve: up to the last step the condition
has the strict sign it had at the start, and afterwards it has not. Missing: conditions that are exactly zero at the start, see
`C113_violated`. -/
theorem C113_true_crossing_partial (cfg : Cfg T Y E D S C O F) (hown : cfg.OwnCodes) (y0 : Y) (tnext : T) (ctrl : C) (ss : S)
    (mj : Bool) (c : T → Y → F) (he : .flt c none ∈ cfg.events) (h0 : c cfg.t0 y0 ≠ 0) (s : Core T Y D S C F)
    (hs : s ∈ history cfg y0 tnext ctrl ss mj)
    (htr : ShouldTrigger (.flt c none) s.tprev s.y (nextT cfg s) (nextY cfg s)) :
    let final := (solve cfg y0 tnext ctrl ss mj).core
    (0 < c cfg.t0 y0 ∧ (∀ s' ∈ history cfg y0 tnext ctrl ss mj, 0 < c s'.tprev s'.y) ∧ c final.tprev final.y ≤ 0) ∨
      (c cfg.t0 y0 < 0 ∧ (∀ s' ∈ history cfg y0 tnext ctrl ss mj, c s'.tprev s'.y < 0) ∧ 0 ≤ c final.tprev final.y) := by
  intro final
  obtain ⟨-, h2, -⟩ := C15_stops_at_first_trigger cfg hown y0 tnext ctrl ss mj
  obtain ⟨hlast, -, ht, hy⟩ := h2 s hs ⟨_, he, htr⟩
  have hp := (C113_none_missed cfg hown y0 tnext ctrl ss mj _ he).1
  have hhead := (attempts_point_chain cfg (fun _ _ => True) cfg.maxSteps (initState cfg y0 tnext ctrl ss mj).core
    fun _ _ _ => trivial).2.2
  have hsame : ∀ s' ∈ history cfg y0 tnext ctrl ss mj,
      (c cfg.t0 y0 < 0 ↔ c s'.tprev s'.y < 0) ∧ (0 < c cfg.t0 y0 ↔ 0 < c s'.tprev s'.y) := by
    obtain ⟨a, l, hal⟩ := List.exists_cons_of_ne_nil (List.ne_nil_of_mem hs)
    have ha : a.point = (cfg.t0, y0) := by
      have := hhead a.point (by
        change _ ∈ ((history cfg y0 tnext ctrl ss mj).map Core.point).head?
        rw [hal]; simp)
      rw [this]; rfl
    intro s' hs'
    rw [hal] at hp hs'
    rw [List.map_cons, List.pairwise_cons] at hp
    simp only [Core.point, Prod.mk.injEq] at ha
    rcases List.mem_cons.1 hs' with rfl | hs'
    · rw [ha.1, ha.2]; exact ⟨Iff.rfl, Iff.rfl⟩
    · have := hp.1 s'.point (List.mem_map_of_mem hs')
      simpa only [EventCond.Quiet, Core.point, ha.1, ha.2] using this
  have hq := (quiet_iff (.flt c none) s.point final.point).not.2 (by
    rw [not_not]
    change ShouldTrigger _ s.tprev s.y final.tprev final.y
    rw [ht, hy]; exact htr)
  simp only [EventCond.Quiet, Core.point] at hq
  have hss := hsame s hs
  rcases lt_or_gt_of_ne h0 with h | h
  · refine .inr ⟨h, fun s' hs' => (hsame s' hs').1.1 h, ?_⟩
    by_contra hneg
    rw [not_le] at hneg
    exact hq ⟨⟨fun _ => hneg, fun _ => hss.1.1 h⟩,
      ⟨fun h' => absurd h' (not_lt.2 (hss.1.1 h).le), fun h' => absurd h' (not_lt.2 hneg.le)⟩⟩
  · refine .inl ⟨h, fun s' hs' => (hsame s' hs').2.1 h, ?_⟩
    by_contra hneg
    rw [not_le] at hneg
    exact hq ⟨⟨fun h' => absurd h' (not_lt.2 (hss.2.1 h).le), fun h' => absurd h' (not_lt.2 hneg.le)⟩,
      ⟨fun _ => hneg, fun _ => hss.2.1 h⟩⟩

/-- **C113** (violated): if the condition is zero at the start and positive everywhere after, the solve ends at once with an event,
for `direction=None` and for `direction=True`. This happens if a solve is resumed from the time of an event. -/
theorem C113_violated : ∀ dir ∈ [none, some true],
    let cfg : Cfg Int Int Int Int Int Int Int Int := { toyCfg with events := [.flt (fun t _ => t - toyCfg.t0) dir] }
    (∀ s ∈ history cfg 100 3 0 0 false, 0 ≤ s.tprev - toyCfg.t0) ∧ (solve cfg 100 3 0 0 false).result = .eventOccurred ∧
      0 < (solve cfg 100 3 0 0 false).core.tprev - toyCfg.t0 := by
  decide

/-- Non-vacuity: a condition that is negative at the start and positive at the end. -/
example : (solve { toyCfg with events := toyEvents } 100 3 0 0 false).core.result = .eventOccurred :=
  C113_crossing_found { toyCfg with events := toyEvents }
    ⟨toyCfg_OwnCodes.solver, toyCfg_OwnCodes.controller, toyCfg_OwnCodes.root⟩ 100 3 0 0 false (fun t _ => t - 4) none
    (by simp [toyEvents]) (initState { toyCfg with events := toyEvents } 100 3 0 0 false).core
    List.mem_cons_self (by decide)

end Verif
