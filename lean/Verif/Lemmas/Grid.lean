import Verif.Lemmas.Log

/-! # Solves that step along a prescribed grid -/

set_option linter.unusedSectionVars false

namespace Verif

variable {T Y E D S C O F : Type} [LinearOrder T] [LinearOrder F] [Zero F]

/-- Hypotheses on a grid `p 0, ..., p n`: the controller always accepts, and leads from grid point to
grid point; no events; the solver never fails. -/
structure OnGrid (cfg : Cfg T Y E D S C O F) (n : Nat) (p : Nat → T) (st : Nat → C) : Prop where
  le : ∀ j, j ≤ n → p j ≤ cfg.t1
  adapt : ∀ j, j < n → ∀ y y' e, ∃ q,
    cfg.controller.adapt (p j) (p (j + 1)) y y' e (st j)
      = { keep := true, tprev := p (j + 1), tnext := q, madeJump := false, state := st (j + 1),
          result := .successful } ∧
    (j + 1 < n → clipToEnd cfg.mid (p (j + 1)) q cfg.t1 cfg.floor true = p (j + 2))
  cond : ∀ j, j ≤ n → ∀ s : Core T Y D S C F, s.tprev = p j → s.numSteps = j →
    s.result = .successful → (condFun cfg s = true ↔ j < n)
  events : cfg.events = []
  okay : ∀ a b y s j, (cfg.solver.step a b y s j).result = .successful

theorem grid_run (cfg : Cfg T Y E D S C O F) (n : Nat) (p : Nat → T) (st : Nat → C)
    (h : OnGrid cfg n p st) (m : Nat) (k : Nat) (hk : k ≤ n) (hm : n - k ≤ m)
    (s : Core T Y D S C F) (h1 : s.tprev = p k) (h2 : k < n → s.tnext = p (k + 1))
    (h3 : s.ctrlState = st k) (h4 : s.result = .successful) (h5 : s.numSteps = k) :
    (attempts cfg m s).map (fun s => (s.tprev, s.tnext))
      = (List.range' k (n - k)).map (fun j => (p j, p (j + 1))) ∧
    (coreRun cfg m s).tprev = p n ∧ (coreRun cfg m s).result = .successful ∧
    (coreRun cfg m s).numSteps = n ∧
    (coreRun cfg m s).numRejected = s.numRejected := by
  induction m generalizing k s with
  | zero =>
    have : n = k := by omega
    subst this
    simp [attempts, coreRun, h1, h4, h5]
  | succ m ih =>
    by_cases hlt : k < n
    · have hc := (h.cond k hk s h1 h5 h4).2 hlt
      obtain ⟨q, hq, hclip⟩ := h.adapt k hlt s.y
        (cfg.solver.step s.tprev s.tnext s.y s.solverState s.madeJump).y
        (cfg.cleanErr (cfg.solver.step s.tprev s.tnext s.y s.solverState s.madeJump).err)
      have ha : adaptOut cfg s =
          { keep := true, tprev := p (k + 1), tnext := q, madeJump := false,
            state := st (k + 1), result := .successful } := by
        unfold adaptOut solverOut
        rw [← hq, h3]
        have e1 := h1
        have e2 := h2 hlt
        rw [e1, e2]
      have b1 : (coreBody cfg s).1.tprev = p (k + 1) := by
        have : (coreBody cfg s).1.tprev = min (adaptOut cfg s).tprev cfg.t1 := rfl
        rw [this, ha]; exact min_eq_left (h.le (k + 1) (by omega))
      have b2 : k + 1 < n → (coreBody cfg s).1.tnext = p (k + 1 + 1) := by
        intro hk2
        have : (coreBody cfg s).1.tnext = clipToEnd cfg.mid (min (adaptOut cfg s).tprev cfg.t1)
          (adaptOut cfg s).tnext cfg.t1 cfg.floor (adaptOut cfg s).keep := rfl
        rw [this, ha]
        simp only
        rw [min_eq_left (h.le (k + 1) (by omega))]
        exact hclip hk2
      have b3 : (coreBody cfg s).1.ctrlState = st (k + 1) := by
        have : (coreBody cfg s).1.ctrlState = (adaptOut cfg s).state := rfl
        rw [this, ha]
      have b4 : (coreBody cfg s).1.result = .successful := by
        rw [coreBody_result cfg s (by rw [h4]; rfl)]
        have ht : (triggered cfg s).any id = false := by simp [triggered, h.events]
        have hs : (solverOut cfg s).result = .successful := h.okay _ _ _ _ _
        rw [ht, hs, ha]
        simp [Result.isOkay, Result.isSuccessful]
      have b5 : (coreBody cfg s).1.numSteps = k + 1 := by rw [coreBody_numSteps, h5]
      have b6 : (coreBody cfg s).1.numRejected = s.numRejected := by
        have : (coreBody cfg s).1.numRejected
          = s.numRejected + (if (adaptOut cfg s).keep then 0 else 1) := rfl
        rw [this, ha]; simp
      obtain ⟨i1, i2, i3, i4, i5⟩ := ih (k + 1) (by omega) (by omega) _ b1 b2 b3 b4 b5
      have hr : n - k = (n - (k + 1)) + 1 := by omega
      simp only [attempts, coreRun, hc, if_true, List.map_cons]
      rw [hr, List.range'_succ, List.map_cons, i1, h1, h2 hlt]
      exact ⟨rfl, i2, i3, i4, i5.trans b6⟩
    · have hkn : k = n := by omega
      subst hkn
      have hc : condFun cfg s = false := by
        rw [Bool.eq_false_iff]
        intro hh
        exact hlt ((h.cond k (le_refl _) s h1 h5 h4).1 hh)
      simp [attempts, coreRun, hc, h1, h4, h5]

/-- A solve on a grid visits exactly the grid intervals. -/
theorem grid_solve (cfg : Cfg T Y E D S C O F) (n : Nat) (p : Nat → T) (st : Nat → C)
    (h : OnGrid cfg n p st) (hmax : n ≤ cfg.maxSteps) (y0 : Y) (tnext : T) (ss : S) (mj : Bool)
    (h0 : p 0 = cfg.t0) (h1 : 0 < n → min tnext cfg.t1 = p 1) :
    (callLog cfg y0 tnext (st 0) ss mj).map (fun c => (c.solverT0, c.solverT1))
      = (List.range n).map (fun j => (p j, p (j + 1))) ∧
    (solve cfg y0 tnext (st 0) ss mj).tfinal = p n ∧
    (solve cfg y0 tnext (st 0) ss mj).result = .successful ∧
    (solve cfg y0 tnext (st 0) ss mj).core.numSteps = n ∧
    (solve cfg y0 tnext (st 0) ss mj).core.numAccepted = n ∧
    (solve cfg y0 tnext (st 0) ss mj).core.numRejected = 0 := by
  have hinit : (initState cfg y0 tnext (st 0) ss mj).core.result = .successful := by
    simp [initState, h.events, firstTrue, Result.where']
  obtain ⟨g1, g2, g3, g4, g5⟩ := grid_run cfg n p st h cfg.maxSteps 0 (Nat.zero_le _) (by omega)
    (initState cfg y0 tnext (st 0) ss mj).core h0.symm h1 rfl hinit rfl
  have hcore := solve_core cfg y0 tnext (st 0) ss mj
  have hmask : (solve cfg y0 tnext (st 0) ss mj).core.evMask.any id = false := by
    have hnil : (solve cfg y0 tnext (st 0) ss mj).core.evMask = [] := by
      rw [hcore]
      have := run_inv cfg (fun s => s.evMask = []) cfg.maxSteps
        (initState cfg y0 tnext (st 0) ss mj).core
        (by simp [initState, h.events, firstTrue]) (by
          intro s _ _ _
          rw [coreBody_mask]
          simp [triggered, h.events, firstTrue])
      exact this.2
    rw [hnil]; rfl
  have hfin := finalise_no_event cfg _ hmask
  have hcond : condFun cfg (solve cfg y0 tnext (st 0) ss mj).core = false := by
    rw [hcore, Bool.eq_false_iff]
    intro hh
    exact absurd ((h.cond n (le_refl _) _ g2 g4 g3).1 hh) (lt_irrefl _)
  have hcnt : (coreRun cfg cfg.maxSteps (initState cfg y0 tnext (st 0) ss mj).core).numAccepted
      + (coreRun cfg cfg.maxSteps (initState cfg y0 tnext (st 0) ss mj).core).numRejected
      = (coreRun cfg cfg.maxSteps (initState cfg y0 tnext (st 0) ss mj).core).numSteps := by
    obtain ⟨c1, c2, c3⟩ := coreRun_counts cfg cfg.maxSteps (initState cfg y0 tnext (st 0) ss mj).core
    have e1 : (initState cfg y0 tnext (st 0) ss mj).core.numSteps = 0 := rfl
    have e2 : (initState cfg y0 tnext (st 0) ss mj).core.numAccepted = 0 := rfl
    have e3 : (initState cfg y0 tnext (st 0) ss mj).core.numRejected = 0 := rfl
    rw [c1, c2, c3, e1, e2, e3]
    simp only [Nat.zero_add]
    exact (List.length_eq_length_filter_add _).symm
  have g5' : (coreRun cfg cfg.maxSteps (initState cfg y0 tnext (st 0) ss mj).core).numRejected = 0 := g5
  refine ⟨?_, ?_, ?_, ?_, ?_, ?_⟩
  · rw [log_eq, List.map_map]
    have : ((fun c : CallLog T Y E S C => (c.solverT0, c.solverT1)) ∘ expectedCall cfg)
        = fun s : Core T Y D S C F => (s.tprev, s.tnext) := rfl
    rw [this, List.range_eq_range']
    exact g1
  · rw [solve_tfinal, hfin, hcore]; exact g2
  · rw [solve_result, hcond, hfin]; rw [hcore]; exact g3
  · rw [hcore]; exact g4
  · rw [hcore]; omega
  · rw [hcore]; exact g5'

end Verif
