import Verif.Props.Clip

/-! # C29: jumps are never stepped across, and the solver is told about them -/

set_option linter.unusedSectionVars false

namespace Verif

section
variable {T Y E D S C O F : Type} [LinearOrder T] [SuccOrder T] [PredOrder T] [NoMaxOrder T]
  [NoMinOrder T] [LinearOrder F] [Zero F]

/-- With no two jumps at neighbouring floats, the next step does not start at a jump. -/
theorem bump_not_mem {ts : List T} (hna : NoAdjacent ts) (t : T) : (bumpT0 t ts).1 ∉ ts := by
  rcases bump_cases t ts with ⟨h1, _, h⟩ | ⟨h1, h⟩ | ⟨_, h2, h⟩ <;> rw [h]
  · exact h1
  · exact hna t h1
  · exact hna _ h2

theorem jump_safe (cfg : Cfg T Y E D S (ClipState T C) O F) (c : Clip T) (hs : c.Sorted)
    (hna : NoAdjacent c.jumps) (inner : Controller T Y E C)
    (hctl : cfg.controller = clipController c inner) (s : Core T Y D S (ClipState T C) F)
    (hr : s.ctrlState.InRange c) (j : T) (hj : j ∈ c.jumps) (hfl : Order.pred j ≤ cfg.floor)
    (hlt : (coreBody cfg s).1.tprev < cfg.t1) :
    ¬ ((coreBody cfg s).1.tprev ≤ j ∧ j ≤ (coreBody cfg s).1.tnext) := by
  rintro ⟨h1, h2⟩
  have e1 : (coreBody cfg s).1.tprev = min (adaptOut cfg s).tprev cfg.t1 := rfl
  have e2 : (coreBody cfg s).1.tnext = clipToEnd cfg.mid (min (adaptOut cfg s).tprev cfg.t1)
    (adaptOut cfg s).tnext cfg.t1 cfg.floor (adaptOut cfg s).keep := rfl
  have e3 : (coreBody cfg s).1.tprev = (adaptOut cfg s).tprev := by
    rw [e1] at hlt ⊢
    rcases min_lt_iff.1 hlt with h | h
    · exact min_eq_left (le_of_lt h)
    · exact absurd h (lt_irrefl _)
  rw [e3] at h1
  rw [adaptOut_clip cfg c inner hctl] at h1
  have hne : (c.adapt inner s.tprev s.tnext s.y (solverOut cfg s).y
      (cfg.cleanErr (solverOut cfg s).err) s.ctrlState).tprev ≠ j := by
    rw [(adapt_tprev c inner _ _ _ _ _ _).1]
    intro h
    exact bump_not_mem hna _ (h ▸ hj)
  have h3 := adapt_tnext_jump c hs inner s.tprev s.tnext s.y (solverOut cfg s).y
    (cfg.cleanErr (solverOut cfg s).err) s.ctrlState hr j hj (lt_of_le_of_ne h1 hne)
  rw [← adaptOut_clip cfg c inner hctl] at h3
  rw [e2] at h2
  unfold clipToEnd at h2
  dsimp only at h2
  rw [if_neg (not_lt.2 (le_trans h3 hfl))] at h2
  exact absurd (le_trans h2 h3) (not_le.2 (Order.pred_lt j))

/-- Part of C29 that holds: if no two jump times are neighbouring floats, then no solver call is over an
interval containing a jump time after `t0` (for jumps outside the rounding zone just before `t1`).
Wrapped controllers are arbitrary. What is missing from the full C29 is refuted by
`C29_violated_end` and `C29_violated_adjacent`. -/
theorem C29_no_crossing_partial (cfg : Cfg T Y E D S (ClipState T C) O F) (c : Clip T)
    (hs : c.Sorted) (hna : NoAdjacent c.jumps) (inner : Controller T Y E C)
    (hctl : cfg.controller = clipController c inner) (y0 : Y) (i0 : T × C) (ss : S) (mj : Bool)
    (j : T) (hj : j ∈ c.jumps) (h0 : cfg.t0 < j) (hfl : Order.pred j ≤ cfg.floor) :
    ∀ l ∈ callLog cfg y0 (c.init cfg.t0 i0).1 (c.init cfg.t0 i0).2 ss mj,
      l.solverT1 < j ∨ j < l.solverT0 := by
  have hinv := (run_inv cfg (fun s => s.ctrlState.InRange c ∧
    (s.tprev < cfg.t1 → ¬ (s.tprev ≤ j ∧ j ≤ s.tnext))) cfg.maxSteps
    (initState cfg y0 (c.init cfg.t0 i0).1 (c.init cfg.t0 i0).2 ss mj).core
    ⟨init_inRange c hs cfg.t0 i0, by
      rintro - ⟨_, h⟩
      have h1 : (initState cfg y0 (c.init cfg.t0 i0).1 (c.init cfg.t0 i0).2 ss mj).core.tnext
        ≤ (c.init cfg.t0 i0).1 := min_le_left _ _
      exact absurd (le_trans h (le_trans h1 (init_jump c hs cfg.t0 i0 j hj h0)))
        (not_le.2 (Order.pred_lt j))⟩
    (by
      rintro s - - ⟨hr, _⟩
      exact ⟨coreBody_inRange cfg c hs inner hctl s hr,
        jump_safe cfg c hs hna inner hctl s hr j hj hfl⟩)).1
  intro l hl
  rw [log_eq_history] at hl
  obtain ⟨s, hsm, rfl⟩ := List.mem_map.1 hl
  have hc := attempts_cond cfg _ _ s hsm
  have hlt : s.tprev < cfg.t1 := by
    simp only [condFun, hctl, clipController, Bool.and_eq_true, decide_eq_true_eq] at hc
    exact hc.1
  have := (hinv s hsm).2 hlt
  change s.tnext < j ∨ j < s.tprev
  by_contra hcon
  rw [not_or, not_lt, not_lt] at hcon
  exact this ⟨hcon.2, hcon.1⟩

theorem told_run (cfg : Cfg T Y E D S (ClipState T C) O F) (c : Clip T)
    (inner : Controller T Y E C) (hctl : cfg.controller = clipController c inner)
    (hex : inner.Exact) (a : T) (n : Nat) (st : Core T Y D S (ClipState T C) F)
    (rej : List (Core T Y D S (ClipState T C) F)) (s' : Core T Y D S (ClipState T C) F)
    (l : List (Core T Y D S (ClipState T C) F)) (h : attempts cfg n st = rej ++ s' :: l)
    (hrej : ∀ x ∈ rej, accepted cfg x = false)
    (hq : st.madeJump = true ∨ (st.tprev < cfg.t1 → st.tprev = a) ∧ a ∉ c.jumps ∧
      Order.succ a ∉ c.jumps) :
    s'.madeJump = true ∨ s'.tprev = a ∧ a ∉ c.jumps := by
  induction n generalizing st rej with
  | zero => simp [attempts] at h
  | succ n ih =>
    by_cases hc : condFun cfg st = true
    · have hlt : st.tprev < cfg.t1 := by
        simp only [condFun, hctl, clipController, Bool.and_eq_true, decide_eq_true_eq] at hc
        exact hc.1
      simp only [attempts, hc, if_true] at h
      cases rej with
      | nil =>
        simp only [List.nil_append, List.cons.injEq] at h
        rw [← h.1]
        rcases hq with hq | ⟨h1, h2, _⟩
        · exact Or.inl hq
        · exact Or.inr ⟨h1 hlt, h2⟩
      | cons x rej =>
        simp only [List.cons_append, List.cons.injEq] at h
        have hx : accepted cfg st = false := by rw [h.1]; exact hrej x (by simp)
        apply ih (coreBody cfg st).1 rej h.2 (fun y hy => hrej y (List.mem_cons_of_mem _ hy))
        have e1 : (coreBody cfg st).1.madeJump
          = if accepted cfg st then (adaptOut cfg st).madeJump else st.madeJump := rfl
        rcases hq with hq | ⟨h1, h2, h3⟩
        · left; rw [e1, hx]; simpa using hq
        · right
          refine ⟨?_, h2, h3⟩
          intro hlt'
          have e2 : (coreBody cfg st).1.tprev = min (adaptOut cfg st).tprev cfg.t1 := rfl
          rw [e2] at hlt' ⊢
          have e3 : min (adaptOut cfg st).tprev cfg.t1 = (adaptOut cfg st).tprev := by
            rcases min_lt_iff.1 hlt' with h | h
            · exact min_eq_left (le_of_lt h)
            · exact absurd h (lt_irrefl _)
          rw [e3, adaptOut_clip cfg c inner hctl, (adapt_tprev c inner _ _ _ _ _ _).1]
          have hk : (inner.adapt st.tprev st.tnext st.y (solverOut cfg st).y
              (cfg.cleanErr (solverOut cfg st).err) st.ctrlState.inner).keep = false := by
            unfold accepted at hx; rw [adaptOut_clip cfg c inner hctl] at hx; exact hx
          rw [(hex _ _ _ _ _ _).2 hk, h1 hlt, bump_none h2 h3]
    · simp [attempts, hc] at h

/-- After crossing a jump the solver is told: if `s` is an accepted step, the attempts `rej` after it
are all rejected, and `s'` is the next attempt, and a jump lies between the end of `s` and the
start of `s'`, then `s'` is made with the jump flag set. In particular the flag survives any number of
rejections until a step is accepted. Conversely, if the start of `s'` differs from the end of `s` there
was a jump. -/
theorem C29_told (cfg : Cfg T Y E D S (ClipState T C) O F) (c : Clip T)
    (inner : Controller T Y E C) (hctl : cfg.controller = clipController c inner)
    (hex : inner.Exact) (y0 : Y) (tnext : T) (ctrl : ClipState T C) (ss : S) (mj : Bool)
    (l : List (Core T Y D S (ClipState T C) F)) (s : Core T Y D S (ClipState T C) F)
    (rej : List (Core T Y D S (ClipState T C) F)) (s' : Core T Y D S (ClipState T C) F)
    (l' : List (Core T Y D S (ClipState T C) F))
    (h : history cfg y0 tnext ctrl ss mj = l ++ s :: (rej ++ s' :: l'))
    (hacc : accepted cfg s = true) (hrej : ∀ x ∈ rej, accepted cfg x = false)
    (hjump : (∃ j ∈ c.jumps, s.tnext ≤ j ∧ j ≤ s'.tprev) ∨ s'.tprev ≠ s.tnext) :
    s'.madeJump = true := by
  obtain ⟨m, hm, _⟩ := attempts_split cfg _ _ l s _ h
  have hk : (inner.adapt s.tprev s.tnext s.y (solverOut cfg s).y
      (cfg.cleanErr (solverOut cfg s).err) s.ctrlState.inner).keep = true := by
    unfold accepted at hacc; rw [adaptOut_clip cfg c inner hctl] at hacc; exact hacc
  have hres := told_run cfg c inner hctl hex s.tnext m (coreBody cfg s).1 rej s' l' hm.symm hrej (by
    have e1 : (coreBody cfg s).1.madeJump
      = if accepted cfg s then (adaptOut cfg s).madeJump else s.madeJump := rfl
    have e2 : (coreBody cfg s).1.tprev = min (adaptOut cfg s).tprev cfg.t1 := rfl
    rw [e1, e2, hacc, if_pos rfl, adaptOut_clip cfg c inner hctl,
      (adapt_tprev c inner _ _ _ _ _ _).1, (adapt_tprev c inner _ _ _ _ _ _).2,
      (hex _ _ _ _ _ _).1 hk]
    rcases bump_cases s.tnext c.jumps with ⟨h1, h2, h3⟩ | ⟨_, h3⟩ | ⟨_, _, h3⟩
    · right
      refine ⟨?_, h1, h2⟩
      intro hlt
      rw [h3] at hlt ⊢
      rcases min_lt_iff.1 hlt with h | h
      · exact min_eq_left (le_of_lt h)
      · exact absurd h (lt_irrefl _)
    · left; rw [h3]; simp
    · left; rw [h3]; simp)
  rcases hres with hres | ⟨h1, h2⟩
  · exact hres
  · exfalso
    rcases hjump with ⟨j, hj, h3, h4⟩ | hne
    · rw [h1] at h4
      exact h2 (le_antisymm h3 h4 ▸ hj)
    · exact hne h1

end

/-- Non-vacuity for `C29_no_crossing_partial` and `C29_told`: the toy problem with jumps at 10 and 17
(see the trace in `Props/Clip.lean`: steps over `[7, 9]` and `[11, 13]`, the latter flagged). -/
example : NoAdjacent clipToyC.jumps ∧ (10 : Int) ∈ clipToyC.jumps ∧
    Order.pred (10 : Int) ≤ (clipToy clipToyC 30 28).floor ∧
    (callLog (clipToy clipToyC 30 28) 100 (clipToyC.init 0 (3, 0)).1 (clipToyC.init 0 (3, 0)).2 0
      false).length = 19 := by
  refine ⟨?_, by decide, by decide, by decide +kernel⟩
  unfold NoAdjacent; decide

/-- C29 as stated is false for a jump at `t1` itself: the step that should stop before it is lengthened
to `t1`, so the vector field may be evaluated at the jump. -/
theorem C29_violated_end :
    ∃ (c : Clip Int) (first : Int), c.Sorted ∧ NoAdjacent c.jumps ∧ 12 ∈ c.jumps ∧
      (clipToy c 12 10).WF ∧ (clipToy c 12 10).OwnCodes ∧ toyController.Exact ∧
      ∃ l ∈ callLog (clipToy c 12 10) 100 (c.init 0 (first, 0)).1 (c.init 0 (first, 0)).2 0 false,
        l.solverT0 ≤ 12 ∧ 12 ≤ l.solverT1 := by
  refine ⟨{ stepTs := none, jumpTs := some [12], storeRejected := none }, 2, ?_, ?_, by decide,
    clipToy_WF _ _ _ (by decide) (by decide), clipToy_own _ _ _, toyController_exact,
    by decide +kernel⟩
  · constructor <;> intro ts h <;> simp at h
    subst h; decide
  · unfold NoAdjacent; decide

/-- C29 as stated is false for jumps at neighbouring floats: stepping past the first lands on the
second. -/
theorem C29_violated_adjacent :
    ∃ (c : Clip Int) (first : Int), c.Sorted ∧ 6 ∈ c.jumps ∧
      (clipToy c 12 10).WF ∧ (clipToy c 12 10).OwnCodes ∧ toyController.Exact ∧
      ∃ l ∈ callLog (clipToy c 12 10) 100 (c.init 0 (first, 0)).1 (c.init 0 (first, 0)).2 0 false,
        l.solverT0 ≤ 6 ∧ 6 ≤ l.solverT1 := by
  refine ⟨{ stepTs := none, jumpTs := some [5, 6], storeRejected := none }, 2, ?_, by decide,
    clipToy_WF _ _ _ (by decide) (by decide), clipToy_own _ _ _, toyController_exact,
    by decide +kernel⟩
  constructor <;> intro ts h <;> simp at h
  subst h; decide

/-- Rejects the first step whatever it is, then accepts. -/
def grumpyController : Controller Int Int Int Int where
  adapt a b _ _ _ c :=
    if c = 0 then
      { keep := false, tprev := a, tnext := a + 2, madeJump := false, state := 1,
        result := .successful }
    else
      { keep := true, tprev := b, tnext := b + 2, madeJump := false, state := 1,
        result := .successful }

/-- C29 as stated is false before the first accepted step: starting one float before a jump, a rejected
first step moves the start of the solve across the jump without the flag ever being set. -/
theorem C29_violated_unflagged :
    ∃ c : Clip Int, c.Sorted ∧ c.jumps = [1] ∧ grumpyController.Exact ∧
      let cfg : Cfg Int Int Int Int Int (ClipState Int Int) Int Int :=
        { clipToy c 12 10 with controller := clipController c grumpyController }
      (history cfg 100 (c.init 0 (4, 0)).1 (c.init 0 (4, 0)).2 0 false).map
        (fun s => (s.tprev, s.tnext, accepted cfg s, s.madeJump))
        = [(0, 0, false, false), (2, 3, true, false), (3, 5, true, false), (5, 7, true, false),
           (7, 9, true, false), (9, 12, true, false)] := by
  refine ⟨{ stepTs := none, jumpTs := some [1], storeRejected := none }, ?_, rfl, ?_,
    by decide +kernel⟩
  · constructor <;> intro ts h <;> simp at h
    subst h; decide
  · intro a b y0 y1 e st
    unfold grumpyController AdaptOut.Exact
    dsimp only
    split <;> simp

end Verif
