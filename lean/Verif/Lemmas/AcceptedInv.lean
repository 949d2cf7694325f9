import Verif.Props.Convergence

/-!
# Invariants of the accepted steps of a solve
-/

set_option linter.unusedSectionVars false

namespace Verif

section
variable {E Er D S C O F : Type} [LinearOrder F] [Zero F]

/-- What holds at the beginning and is preserved by accepted steps holds at the beginning of every attempted step and
at the end. -/
theorem accepted_inv (cfg : Cfg ℝ E Er D S C O F) (hwf : cfg.WF) (V : ℝ → E → S → Bool → Prop) (Ok : ℝ → ℝ → Prop)
    (hvalid : ∀ t t' x st mj, V t x st mj → cfg.t0 ≤ t → t ≤ t' → t' ≤ cfg.t1 → Ok t t' →
      ∀ mj', V t' (cfg.solver.step t t' x st mj).y (cfg.solver.step t t' x st mj).state mj')
    (hctrl : cfg.controller.Exact) (y0 : E) (tnext : ℝ) (ctrl : C) (ss : S) (mj : Bool)
    (hV : V cfg.t0 y0 ss mj)
    (hfor : ∀ c ∈ callLog cfg y0 tnext ctrl ss mj, c.solverT0 ≤ c.solverT1)
    (hOk : ∀ c ∈ callLog cfg y0 tnext ctrl ss mj, (c.answer cfg).keep = true → Ok c.solverT0 c.solverT1) :
    (∀ c ∈ callLog cfg y0 tnext ctrl ss mj, (cfg.t0 ≤ c.solverT0 ∧ c.solverT1 ≤ cfg.t1) ∧
      V c.solverT0 c.solverY c.solverState c.solverMadeJump) ∧
    (cfg.t0 ≤ (solve cfg y0 tnext ctrl ss mj).core.tprev ∧
      (solve cfg y0 tnext ctrl ss mj).core.tprev ≤ cfg.t1) ∧
    V (solve cfg y0 tnext ctrl ss mj).core.tprev (solve cfg y0 tnext ctrl ss mj).core.y
      (solve cfg y0 tnext ctrl ss mj).core.solverState (solve cfg y0 tnext ctrl ss mj).core.madeJump := by
  rw [log_eq_history] at hfor hOk ⊢
  have hmain := run_inv cfg (fun s => cfg.t0 ≤ s.tprev ∧ s.tprev ≤ cfg.t1 ∧ s.tnext ≤ cfg.t1 ∧
      V s.tprev s.y s.solverState s.madeJump)
    cfg.maxSteps (initState cfg y0 tnext ctrl ss mj).core
    ⟨le_refl _, hwf.le, min_le_right _ _, hV⟩ (by
      rintro s hs - ⟨h1, h0, h3, h4⟩
      have h2 : s.tprev ≤ s.tnext := hfor _ (List.mem_map_of_mem hs)
      have hOks : (adaptOut cfg s).keep = true → Ok s.tprev s.tnext := hOk _ (List.mem_map_of_mem hs)
      have hex := hctrl s.tprev s.tnext s.y (solverOut cfg s).y (cfg.cleanErr (solverOut cfg s).err) s.ctrlState
      have e1 : (coreBody cfg s).1.tprev = min (adaptOut cfg s).tprev cfg.t1 := rfl
      have e2 : (coreBody cfg s).1.tnext = clipToEnd cfg.mid (min (adaptOut cfg s).tprev cfg.t1)
        (adaptOut cfg s).tnext cfg.t1 cfg.floor (adaptOut cfg s).keep := rfl
      have e3 : (coreBody cfg s).1.solverState
          = if accepted cfg s then (solverOut cfg s).state else s.solverState := rfl
      have e4 : (coreBody cfg s).1.y = if accepted cfg s then (solverOut cfg s).y else s.y := rfl
      have e5 : (coreBody cfg s).1.madeJump
          = if accepted cfg s then (adaptOut cfg s).madeJump else s.madeJump := rfl
      have hle : min (adaptOut cfg s).tprev cfg.t1 ≤ cfg.t1 := min_le_right _ _
      have hnew : (coreBody cfg s).1.tprev = if accepted cfg s then s.tnext else s.tprev := by
        rw [e1]
        cases hk : accepted cfg s with
        | true =>
          have : (adaptOut cfg s).tprev = s.tnext := hex.1 hk
          rw [this, min_eq_left h3]; rfl
        | false =>
          have : (adaptOut cfg s).tprev = s.tprev := hex.2 hk
          rw [this, min_eq_left (h2.trans h3)]; rfl
      refine ⟨?_, ?_, ?_, ?_⟩
      · rw [hnew]; split
        · exact h1.trans h2
        · exact h1
      · rw [e1]; exact hle
      · rw [e2]; unfold clipToEnd
        dsimp only
        split
        · split
          · exact le_refl _
          · exact hwf.mid_le _ hle
        · rename_i hcl; exact le_trans (not_lt.1 hcl) hwf.floor_le
      · rw [hnew, e3, e4, e5]
        cases hk : accepted cfg s with
        | true =>
          simp only [if_true]
          exact hvalid _ _ _ _ _ h4 h1 h2 h3 (hOks hk) _
        | false =>
          simp only [Bool.false_eq_true, if_false]
          exact h4)
  obtain ⟨hall, hfin⟩ := hmain
  refine ⟨?_, ?_⟩
  · intro c hc
    obtain ⟨s, hs, rfl⟩ := List.mem_map.1 hc
    exact ⟨⟨(hall s hs).1, (hall s hs).2.2.1⟩, (hall s hs).2.2.2⟩
  · rw [solve_core]
    exact ⟨⟨hfin.1, hfin.2.1⟩, hfin.2.2.2⟩

end

end Verif
