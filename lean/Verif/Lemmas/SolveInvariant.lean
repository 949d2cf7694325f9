import Verif.Props.Loop
import Verif.Spec.Clip

/-!
# Invariants of accepted steps hold throughout a solve
-/

set_option linter.unusedSectionVars false

namespace Verif

variable {T Y Er D S C O F : Type} [LinearOrder T] [LinearOrder F] [Zero F]

/-- A property of time, value, solver state and jump flag that holds at the start, and is preserved by every
accepted step, holds whenever the solver is called, and at the end. -/
theorem solve_invariant (cfg : Cfg T Y Er D S C O F) (hwf : cfg.WF) (hctrl : cfg.controller.Exact)
    (y0 : Y) (tnext : T) (ctrl : C) (ss : S) (mj : Bool) (I : T → Y → S → Prop)
    (h0 : I cfg.t0 y0 ss)
    (hfor : ∀ c ∈ callLog cfg y0 tnext ctrl ss mj, c.solverT0 ≤ c.solverT1)
    (hstep : ∀ c ∈ callLog cfg y0 tnext ctrl ss mj, (c.answer cfg).keep = true →
      cfg.t0 ≤ c.solverT0 → c.solverT1 ≤ cfg.t1 → I c.solverT0 c.solverY c.solverState →
      I c.solverT1 (cfg.solver.step c.solverT0 c.solverT1 c.solverY c.solverState c.solverMadeJump).y
        (cfg.solver.step c.solverT0 c.solverT1 c.solverY c.solverState c.solverMadeJump).state) :
    (∀ c ∈ callLog cfg y0 tnext ctrl ss mj, (cfg.t0 ≤ c.solverT0 ∧ c.solverT1 ≤ cfg.t1) ∧
      I c.solverT0 c.solverY c.solverState) ∧
    (cfg.t0 ≤ (solve cfg y0 tnext ctrl ss mj).core.tprev ∧
      (solve cfg y0 tnext ctrl ss mj).core.tprev ≤ cfg.t1) ∧
    I (solve cfg y0 tnext ctrl ss mj).core.tprev (solve cfg y0 tnext ctrl ss mj).core.y
      (solve cfg y0 tnext ctrl ss mj).core.solverState := by
  rw [log_eq_history] at hfor hstep ⊢
  have hmain := run_inv cfg (fun s => cfg.t0 ≤ s.tprev ∧ s.tprev ≤ cfg.t1 ∧ s.tnext ≤ cfg.t1 ∧
      I s.tprev s.y s.solverState)
    cfg.maxSteps (initState cfg y0 tnext ctrl ss mj).core
    ⟨le_refl _, hwf.le, min_le_right _ _, h0⟩ (by
      rintro s hs - ⟨h1, h0, h3, h4⟩
      have h2 : s.tprev ≤ s.tnext := hfor _ (List.mem_map_of_mem hs)
      have hst : (adaptOut cfg s).keep = true → I s.tnext (solverOut cfg s).y (solverOut cfg s).state :=
        fun hk => hstep _ (List.mem_map_of_mem hs) hk h1 h3 h4
      have hex := hctrl s.tprev s.tnext s.y (solverOut cfg s).y (cfg.cleanErr (solverOut cfg s).err) s.ctrlState
      have e1 : (coreBody cfg s).1.tprev = min (adaptOut cfg s).tprev cfg.t1 := rfl
      have e2 : (coreBody cfg s).1.tnext = clipToEnd cfg.mid (min (adaptOut cfg s).tprev cfg.t1)
        (adaptOut cfg s).tnext cfg.t1 cfg.floor (adaptOut cfg s).keep := rfl
      have e3 : (coreBody cfg s).1.solverState
          = if accepted cfg s then (solverOut cfg s).state else s.solverState := rfl
      have e4 : (coreBody cfg s).1.y = if accepted cfg s then (solverOut cfg s).y else s.y := rfl
      have hle : min (adaptOut cfg s).tprev cfg.t1 ≤ cfg.t1 := min_le_right _ _
      have hnew : (coreBody cfg s).1.tprev = if accepted cfg s then s.tnext else s.tprev := by
        rw [e1]
        cases hk : accepted cfg s with
        | true =>
          have : (adaptOut cfg s).tprev = s.tnext := hex.1 hk
          rw [this, min_eq_left h3]; rfl
        | false =>
          have : (adaptOut cfg s).tprev = s.tprev := hex.2 hk
          rw [this, min_eq_left (h2.trans h3)]; rfl
      refine ⟨?_, ?_, ?_, ?_⟩
      · rw [hnew]; split
        · exact h1.trans h2
        · exact h1
      · rw [e1]; exact hle
      · rw [e2]; unfold clipToEnd
        dsimp only
        split
        · split
          · exact le_refl _
          · exact hwf.mid_le _ hle
        · rename_i hcl; exact le_trans (not_lt.1 hcl) hwf.floor_le
      · rw [hnew, e3, e4]
        cases hk : accepted cfg s with
        | true => simp only [if_true]; exact hst hk
        | false => simp only [Bool.false_eq_true, if_false]; exact h4)
  obtain ⟨hall, hfin⟩ := hmain
  refine ⟨?_, ?_⟩
  · intro c hc
    obtain ⟨s, hs, rfl⟩ := List.mem_map.1 hc
    exact ⟨⟨(hall s hs).1, (hall s hs).2.2.1⟩, (hall s hs).2.2.2⟩
  · rw [solve_core]
    exact ⟨⟨hfin.1, hfin.2.1⟩, hfin.2.2.2⟩

end Verif
