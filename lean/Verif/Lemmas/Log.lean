import Verif.Lemmas.Loop

/-! # Helper lemmas: the logging wrapper, results, event masks -/

set_option linter.unusedSectionVars false

namespace Verif

variable {T Y E D S C O F : Type} [LinearOrder T] [LinearOrder F] [Zero F]

/-- A state of the plain run as a state of the logged run. -/
def liftCore (s : Core T Y D S C F) (l : List (CallLog T Y E S C)) :
    Core T Y D S (C × List (CallLog T Y E S C)) F :=
  { y := s.y, tprev := s.tprev, tnext := s.tnext, madeJump := s.madeJump,
    solverState := s.solverState, ctrlState := (s.ctrlState, l), result := s.result,
    numSteps := s.numSteps, numAccepted := s.numAccepted, numRejected := s.numRejected,
    evTprev := s.evTprev, evTnext := s.evTnext, evDense := s.evDense, evVals := s.evVals,
    evMask := s.evMask }

theorem logged_body (cfg : Cfg T Y E D S C O F) (s : Core T Y D S C F)
    (l : List (CallLog T Y E S C)) :
    coreBody (logged cfg) (liftCore s l)
      = (liftCore (coreBody cfg s).1 (l ++ [expectedCall cfg s]), (coreBody cfg s).2) := rfl

theorem logged_cond (cfg : Cfg T Y E D S C O F) (s : Core T Y D S C F)
    (l : List (CallLog T Y E S C)) : condFun (logged cfg) (liftCore s l) = condFun cfg s := rfl

theorem logged_run (cfg : Cfg T Y E D S C O F) (n : Nat) (s : Core T Y D S C F)
    (l : List (CallLog T Y E S C)) :
    coreRun (logged cfg) n (liftCore s l)
      = liftCore (coreRun cfg n s) (l ++ (attempts cfg n s).map (expectedCall cfg)) := by
  induction n generalizing s l with
  | zero => simp [coreRun, attempts]
  | succ n ih =>
    have hl := logged_cond cfg s l
    unfold coreRun attempts
    by_cases hc : condFun cfg s = true
    · rw [if_pos (hl.trans hc), if_pos hc, if_pos hc, logged_body, ih]; simp
    · rw [if_neg (fun h => hc (hl.symm.trans h)), if_neg hc, if_neg hc]; simp

theorem solve_core (cfg : Cfg T Y E D S C O F) (y0 : Y) (tnext : T) (ctrl : C) (ss : S) (mj : Bool) :
    (solve cfg y0 tnext ctrl ss mj).core
      = coreRun cfg cfg.maxSteps (initState cfg y0 tnext ctrl ss mj).core := by
  unfold solve loop
  simp only [whileLoop_core]

theorem log_eq (cfg : Cfg T Y E D S C O F) (y0 : Y) (tnext : T) (ctrl : C) (ss : S) (mj : Bool) :
    callLog cfg y0 tnext ctrl ss mj = (history cfg y0 tnext ctrl ss mj).map (expectedCall cfg) := by
  have h : (initState (logged cfg) y0 tnext (ctrl, []) ss mj).core
      = liftCore (initState cfg y0 tnext ctrl ss mj).core [] := rfl
  unfold callLog history
  rw [solve_core, h]
  have := logged_run cfg cfg.maxSteps (initState cfg y0 tnext ctrl ss mj).core []
  rw [List.nil_append] at this
  change (coreRun (logged cfg) cfg.maxSteps _).ctrlState.2 = _
  rw [this]
  rfl

/-! ### Event masks -/

theorem firstTrue_snd (had : Bool) (l : List Bool) : (firstTrue had l).2 = (had || l.any id) := by
  induction l generalizing had with
  | nil => simp [firstTrue]
  | cons m ms ih => simp [firstTrue, ih, Bool.or_left_comm]; cases had <;> cases m <;> simp

theorem firstTrue_true (l : List Bool) : (firstTrue true l).1 = l.map (fun _ => false) := by
  induction l with
  | nil => rfl
  | cons m ms ih => simp [firstTrue, ih]

theorem firstTrue_any (l : List Bool) : (firstTrue false l).1.any id = l.any id := by
  induction l with
  | nil => rfl
  | cons m ms ih =>
    cases m with
    | true => simp [firstTrue]
    | false => simpa [firstTrue] using ih

theorem coreBody_mask (cfg : Cfg T Y E D S C O F) (s : Core T Y D S C F) :
    (coreBody cfg s).1.evMask = (firstTrue false (triggered cfg s)).1 := rfl

theorem coreBody_tprev (cfg : Cfg T Y E D S C O F) (s : Core T Y D S C F) :
    (coreBody cfg s).1.tprev = nextT cfg s := rfl

theorem coreBody_y (cfg : Cfg T Y E D S C O F) (s : Core T Y D S C F) :
    (coreBody cfg s).1.y = nextY cfg s := rfl

/-- The result after one attempt. -/
theorem coreBody_result (cfg : Cfg T Y E D S C O F) (s : Core T Y D S C F)
    (hs : s.result.isSuccessful = true) :
    (coreBody cfg s).1.result =
      if (triggered cfg s).any id then .eventOccurred
      else if accepted cfg s = true ∧ (solverOut cfg s).result.isOkay = false then
        (solverOut cfg s).result
      else (adaptOut cfg s).result := by
  have hok : s.result.isOkay = true := by simp [Result.isOkay, hs]
  have h : (coreBody cfg s).1.result
      = Result.where' (firstTrue false (triggered cfg s)).2 .eventOccurred
          (Result.where' (Result.where' s.result.isOkay
            (Result.where' (accepted cfg s) (solverOut cfg s).result .successful) s.result).isOkay
            (adaptOut cfg s).result
            (Result.where' s.result.isOkay
              (Result.where' (accepted cfg s) (solverOut cfg s).result .successful) s.result)) := rfl
  rw [h, firstTrue_snd, Bool.false_or, hok]
  unfold Result.where'
  by_cases ht : (triggered cfg s).any id = true
  · simp [ht]
  · simp only [ht, Bool.false_eq_true, if_false, if_true]
    cases ha : accepted cfg s with
    | true =>
      simp only [if_true, true_and]
      cases hr : (solverOut cfg s).result.isOkay <;> simp
    | false => simp [Result.isOkay, Result.isSuccessful]

theorem condFun_succ (cfg : Cfg T Y E D S C O F) (s : Core T Y D S C F)
    (h : condFun cfg s = true) : s.result.isSuccessful = true := by
  simp only [condFun, Bool.and_eq_true] at h; exact h.2

/-- A state with a non-successful result is the end of the run. -/
theorem attempts_not_succ (cfg : Cfg T Y E D S C O F) (n : Nat) (s : Core T Y D S C F)
    (h : s.result.isSuccessful = false) : attempts cfg n s = [] ∧ coreRun cfg n s = s := by
  have hc : condFun cfg s = false := by simp [condFun, h]
  cases n <;> simp [attempts, coreRun, hc]

/-- An attempt after which the result is not successful is the last one. -/
theorem attempts_last (cfg : Cfg T Y E D S C O F) (n : Nat) (s s' : Core T Y D S C F)
    (hm : s' ∈ attempts cfg n s) (h : (coreBody cfg s').1.result.isSuccessful = false) :
    (attempts cfg n s).getLast? = some s' ∧ coreRun cfg n s = (coreBody cfg s').1 := by
  induction n generalizing s with
  | zero => simp [attempts] at hm
  | succ n ih =>
    by_cases hc : condFun cfg s = true
    · simp only [attempts, coreRun, hc, if_true, List.mem_cons] at hm ⊢
      rcases hm with rfl | hm
      · obtain ⟨h1, h2⟩ := attempts_not_succ cfg n (coreBody cfg s').1 h
        simp [h1, h2]
      · obtain ⟨h1, h2⟩ := ih _ hm
        refine ⟨?_, h2⟩
        cases hl : attempts cfg n (coreBody cfg s).1 with
        | nil => rw [hl] at h1; simp at h1
        | cons a l => rw [List.getLast?_cons_cons, ← hl]; exact h1
    · have hc' : condFun cfg s = false := by simpa using hc
      simp [attempts, hc'] at hm

theorem solve_result (cfg : Cfg T Y E D S C O F) (y0 : Y) (tnext : T) (ctrl : C) (ss : S) (mj : Bool) :
    (solve cfg y0 tnext ctrl ss mj).result =
      if condFun cfg (solve cfg y0 tnext ctrl ss mj).core then .maxStepsReached
      else (finalise cfg (solve cfg y0 tnext ctrl ss mj).core).2.2 := rfl

theorem solve_tfinal (cfg : Cfg T Y E D S C O F) (y0 : Y) (tnext : T) (ctrl : C) (ss : S) (mj : Bool) :
    (solve cfg y0 tnext ctrl ss mj).tfinal =
      (finalise cfg (solve cfg y0 tnext ctrl ss mj).core).1 := rfl

theorem solve_yfinal (cfg : Cfg T Y E D S C O F) (y0 : Y) (tnext : T) (ctrl : C) (ss : S) (mj : Bool) :
    (solve cfg y0 tnext ctrl ss mj).yfinal =
      (finalise cfg (solve cfg y0 tnext ctrl ss mj).core).2.1 := rfl

theorem finalise_no_event (cfg : Cfg T Y E D S C O F) (s : Core T Y D S C F)
    (h : s.evMask.any id = false) : finalise cfg s = (s.tprev, s.y, s.result) := by
  unfold finalise
  split
  · rfl
  · simp [h]

theorem finalise_no_root (cfg : Cfg T Y E D S C O F) (s : Core T Y D S C F)
    (h : cfg.rootFinder = none) : finalise cfg s = (s.tprev, s.y, s.result) := by
  unfold finalise
  rw [h]

end Verif
