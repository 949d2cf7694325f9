import Verif.Spec.Batch
import Verif.Props.RK
import Verif.Spec.DenseEnds
import Verif.Spec.Toy

/-!
# C83: a batch behaves like its elements
-/

set_option linter.unusedSectionVars false

namespace Verif

variable {n : ℕ} {T Y E D S C O F : Type}

theorem unvmapAny_iff (p : Fin n → Bool) : unvmapAny p = true ↔ ∃ i, p i = true := by
  simp [unvmapAny, List.any_eq_true]

theorem unvmapAny_self {p : Fin n → Bool} {i : Fin n} (h : p i = true) : unvmapAny p = true :=
  (unvmapAny_iff p).2 ⟨i, h⟩

theorem unvmapAll_iff (p : Fin n → Bool) : unvmapAll p = true ↔ ∀ i, p i = true := by
  simp [unvmapAll, List.all_eq_true]

section
variable [LinearOrder T] [LinearOrder F] [Zero F]

theorem laneCore_eq (cfg : Cfg T Y E D S C O F) (out : StepOut Y E D S) (s : Core T Y D S C F)
    (h : out = solverOut cfg s) : laneCore cfg out s = coreBody cfg s := by
  subst h; rfl

theorem saveStepsB_eq (zero : O) (any : Bool) (sub : SubSaveAt T Y O) (i : StepInfo T Y D)
    (s : SaveState T O) (h : shouldSave sub i = true → any = true) :
    saveStepsB zero any sub i s = saveSteps sub i s := by
  unfold saveStepsB saveSteps
  by_cases h0 : sub.steps ≠ 0
  · rw [if_pos h0, if_pos h0]
    by_cases hs : shouldSave sub i = true
    · have hs' : (i.keep && decide (i.numAccepted % sub.steps = 0)) = true := hs
      simp only [hs, h hs, if_true, hs', ite_self]
    · have hs' : ¬ (i.keep && decide (i.numAccepted % sub.steps = 0)) = true := hs
      simp only [hs, hs', Bool.false_eq_true, if_false]
  · rw [if_neg h0, if_neg h0]

theorem zipWith_zipIdx {α β γ : Type} (f : α × ℕ → β → γ) (g : α → β → γ) (l : List α) (l' : List β) (k : ℕ)
    (h : ∀ j a, l[j]? = some a → ∀ b, f (a, k + j) b = g a b) :
    List.zipWith f (l.zipIdx k) l' = List.zipWith g l l' := by
  induction l generalizing l' k with
  | nil => simp
  | cons a l ih =>
    cases l' with
    | nil => simp
    | cons b l' =>
      simp only [List.zipIdx_cons, List.zipWith_cons_cons]
      rw [ih l' (k + 1) fun j a' ha b => by
        have := h (j + 1) a' (by simpa using ha) b
        rwa [show k + (j + 1) = k + 1 + j by omega] at this]
      rw [show f (a, k) b = g a b by simpa using h 0 a (by simp) b]

/-- One iteration: a lane whose solver call is faithful does what it would do on its own. -/
theorem bodyB_eq (cfg : Fin n → Cfg T Y E D S C O F) (step : BatchStep n T Y E D S) (zero : O)
    (s : Fin n → LState T Y D S C O F) (i : Fin n)
    (h : step (fun i =>
      { t0 := (s i).core.tprev, t1 := (s i).core.tnext, y0 := (s i).core.y, state := (s i).core.solverState
        madeJump := (s i).core.madeJump }) i = solverOut (cfg i) (s i).core) :
    bodyB cfg step zero s i = body (cfg i) (s i) := by
  have hr := laneCore_eq (cfg i) _ (s i).core h
  unfold bodyB body
  simp only [hr]
  congr 1
  apply zipWith_zipIdx
  intro j sub hj sv
  refine saveStepsB_eq _ _ _ _ _ fun hs => ?_
  refine unvmapAny_self (i := i) ?_
  simp only [Nat.zero_add, hj, Option.map_some, Option.getD_some, hr, hs]

theorem whileLoop_stop (cfg : Cfg T Y E D S C O F) (k : ℕ) (s : LState T Y D S C O F)
    (h : condFun cfg s.core = false) : whileLoop cfg k s = s := by
  cases k <;> simp [whileLoop, h]

/-- The loop: every lane ends in the state in which it would end on its own. -/
theorem whileLoopB_eq (cfg : Fin n → Cfg T Y E D S C O F) (step : BatchStep n T Y E D S) (zero : O)
    (valid : Fin n → T → Y → S → Bool → Prop) (hf : step.Faithful (fun i => (cfg i).solver) valid)
    (k : ℕ) (s : Fin n → LState T Y D S C O F)
    (hv : ∀ i, ∀ c ∈ attempts (cfg i) k (s i).core, valid i c.tprev c.y c.solverState c.madeJump) (i : Fin n) :
    whileLoopB cfg step zero k s i = whileLoop (cfg i) k (s i) := by
  induction k generalizing s with
  | zero => rfl
  | succ k ih =>
    unfold whileLoopB
    by_cases hany : (unvmapAny fun i => condFun (cfg i) (s i).core) = true
    · rw [if_pos hany]
      have hlane : ∀ j, condFun (cfg j) (s j).core = true → bodyB cfg step zero s j = body (cfg j) (s j) := by
        intro j hj
        apply bodyB_eq
        exact hf _ j (hv j _ (by simp [attempts, hj]))
      rw [ih]
      · by_cases hi : condFun (cfg i) (s i).core = true
        · rw [if_pos hi, hlane i hi]
          conv_rhs => unfold whileLoop
          rw [if_pos hi]
        · have hi' : condFun (cfg i) (s i).core = false := by simpa using hi
          rw [if_neg hi, whileLoop_stop _ _ _ hi', whileLoop_stop _ _ _ hi']
      · intro j c hc
        by_cases hj : condFun (cfg j) (s j).core = true
        · rw [if_pos hj, hlane j hj] at hc
          exact hv j c (by simp only [attempts, hj, if_true]; exact List.mem_cons_of_mem _ hc)
        · rw [if_neg hj] at hc
          have := attempts_cond _ _ _ c hc
          have hj' : condFun (cfg j) (s j).core = false := by simpa using hj
          have hnil : attempts (cfg j) k (s j).core = [] := by cases k <;> simp [attempts, hj']
          rw [hnil] at hc; simp at hc
    · rw [if_neg hany]
      have hi : condFun (cfg i) (s i).core = false := by
        by_contra h
        exact hany (unvmapAny_self (i := i) (by simpa using h))
      rw [whileLoop_stop _ _ _ hi]

/-- Everything but the event root find: a lane gets what it gets on its own, if its final time, value and
result are those it gets on its own. -/
theorem solveB_lane (cfg : Fin n → Cfg T Y E D S C O F) (step : BatchStep n T Y E D S) (zero : O)
    (maxSteps : ℕ) (hmax : ∀ i, (cfg i).maxSteps = maxSteps) (start : Fin n → Start T Y S C)
    (valid : Fin n → T → Y → S → Bool → Prop) (hf : step.Faithful (fun i => (cfg i).solver) valid)
    (hv : ∀ i, ∀ c ∈ (start i).history (cfg i), valid i c.tprev c.y c.solverState c.madeJump) (i : Fin n)
    (hfin : finaliseB (cfg i) (unvmapAny fun j => ((start j).solve (cfg j)).core.evMask.any id)
      ((start i).solve (cfg i)).core = finalise (cfg i) ((start i).solve (cfg i)).core) :
    solveB cfg step zero maxSteps start i = (start i).solve (cfg i) := by
  have hw : ∀ j, whileLoopB cfg step zero maxSteps (fun i => loopStart (cfg i) (initState (cfg i) (start i).y0
      (start i).tnext (start i).ctrl (start i).state (start i).madeJump)) j
      = whileLoop (cfg j) (cfg j).maxSteps (loopStart (cfg j) (initState (cfg j) (start j).y0
      (start j).tnext (start j).ctrl (start j).state (start j).madeJump)) := by
    intro j
    rw [hmax j]
    apply whileLoopB_eq cfg step zero valid hf
    intro j' c hc
    refine hv j' c ?_
    unfold Start.history Verif.history
    rw [hmax j']
    exact hc
  have hcore : ∀ j, ((start j).solve (cfg j)).core = (whileLoop (cfg j) (cfg j).maxSteps (loopStart (cfg j)
      (initState (cfg j) (start j).y0 (start j).tnext (start j).ctrl (start j).state
      (start j).madeJump))).core := fun j => rfl
  have hany : (unvmapAny fun j => ((start j).solve (cfg j)).core.evMask.any id)
      = unvmapAny fun j => (whileLoopB cfg step zero maxSteps (fun i => loopStart (cfg i) (initState (cfg i)
      (start i).y0 (start i).tnext (start i).ctrl (start i).state (start i).madeJump)) j).core.evMask.any id := by
    congr 1
    funext j
    rw [hw j, hcore j]
  rw [hany, hcore i, ← hw i] at hfin
  have htriv : ∀ (y : Y) (sub : SubSaveAt T Y O) (sv : SaveState T O),
      (if (unvmapAny fun i => decide ((cfg i).t0 = (cfg i).t1)) = true then saveIfT0EqT1 (cfg i) y sub sv else sv)
        = saveIfT0EqT1 (cfg i) y sub sv := by
    intro y sub sv
    by_cases h : (cfg i).t0 = (cfg i).t1
    · rw [if_pos (unvmapAny_self (i := i) (by simpa using h))]
    · have : saveIfT0EqT1 (cfg i) y sub sv = sv := by unfold saveIfT0EqT1; rw [if_neg h]
      rw [this, ite_self]
  have hL : solveB cfg step zero maxSteps start i = loopEnd (cfg i) (whileLoopB cfg step zero maxSteps
      (fun i => loopStart (cfg i) (initState (cfg i) (start i).y0
      (start i).tnext (start i).ctrl (start i).state (start i).madeJump)) i) := by
    have hz : ∀ (N : ℕ) (t : T) (y : Y), (fun (sub : SubSaveAt T Y O) (sv : SaveState T O) =>
        saveT1 (cfg i) N t y sub (saveIfT0EqT1 (cfg i) y sub sv)) = fun sub sv => saveT1 (cfg i) N t y sub
          (if (unvmapAny fun i => decide ((cfg i).t0 = (cfg i).t1)) = true then saveIfT0EqT1 (cfg i) y sub sv
            else sv) := by
      intro N t y
      funext sub sv
      rw [htriv]
    unfold loopEnd
    rw [← hfin]
    dsimp only
    rw [hz]
    rfl
  rw [hL, hw i]
  rfl

/-- **C83, without event root finding.** In a batch, each element gets exactly what it gets when it is solved
alone: saved values, dense output, statistics, internal states and result. Elements may make different
numbers of steps, be rejected, jump, be stopped by events (without `root_finder`) or fail at different times. -/
theorem C83_batch (cfg : Fin n → Cfg T Y E D S C O F) (step : BatchStep n T Y E D S) (zero : O)
    (maxSteps : ℕ) (hmax : ∀ i, (cfg i).maxSteps = maxSteps) (start : Fin n → Start T Y S C)
    (valid : Fin n → T → Y → S → Bool → Prop) (hf : step.Faithful (fun i => (cfg i).solver) valid)
    (hv : ∀ i, ∀ c ∈ (start i).history (cfg i), valid i c.tprev c.y c.solverState c.madeJump)
    (hroot : ∀ i, (cfg i).rootFinder = none) : BatchAgrees cfg step zero maxSteps start := by
  intro i
  apply solveB_lane cfg step zero maxSteps hmax start valid hf hv
  unfold finaliseB finalise
  rw [hroot i]

/-- **C83 with event root finding, part.** An element that is stopped by an event of its own gets what it gets
alone; and if there is no event in the whole batch, so does every element. -/
theorem C83_batch_own_event_partial (cfg : Fin n → Cfg T Y E D S C O F) (step : BatchStep n T Y E D S) (zero : O)
    (maxSteps : ℕ) (hmax : ∀ i, (cfg i).maxSteps = maxSteps) (start : Fin n → Start T Y S C)
    (valid : Fin n → T → Y → S → Bool → Prop) (hf : step.Faithful (fun i => (cfg i).solver) valid)
    (hv : ∀ i, ∀ c ∈ (start i).history (cfg i), valid i c.tprev c.y c.solverState c.madeJump) (i : Fin n)
    (h : ((start i).solve (cfg i)).core.evMask.any id = true ∨
      ∀ j, ((start j).solve (cfg j)).core.evMask.any id = false) :
    solveB cfg step zero maxSteps start i = (start i).solve (cfg i) := by
  apply solveB_lane cfg step zero maxSteps hmax start valid hf hv
  unfold finaliseB finalise
  cases (cfg i).rootFinder with
  | none => rfl
  | some find =>
    dsimp only
    rcases h with h | h
    · rw [if_pos (unvmapAny_self (i := i) h), if_pos h]
      rfl
    · have hno : (unvmapAny fun j => ((start j).solve (cfg j)).core.evMask.any id) = false := by
        by_contra hc
        obtain ⟨j, hj⟩ := (unvmapAny_iff _).1 (by simpa using hc)
        rw [h j] at hj; exact absurd hj (by simp)
      rw [hno, h i, if_neg (by simp), if_neg (by simp)]

/-- How a successful solve ends: either without any step, or with an accepted step to the end. -/
theorem success_end (cfg : Cfg T Y E D S C O F) (hwf : cfg.WF) (hctrl : cfg.controller.Exact)
    (hst : cfg.controller.stepTo = none) (start : Start T Y S C)
    (hok : condFun cfg (start.solve cfg).core = false)
    (hres : (start.solve cfg).core.result.isSuccessful = true) :
    ((start.solve cfg).core.numSteps = 0 ∧ (start.solve cfg).core.evTnext = (start.solve cfg).core.tprev) ∨
    ∃ s, s.tprev ≠ s.tnext ∧ (start.solve cfg).core.tprev = s.tnext ∧
      (start.solve cfg).core.y = (solverOut cfg s).y ∧ (start.solve cfg).core.evTprev = s.tprev ∧
      (start.solve cfg).core.evTnext = s.tnext ∧ (start.solve cfg).core.evDense = (solverOut cfg s).dense := by
  unfold Start.solve at *
  rw [solve_core] at *
  have hle : ∀ s ∈ attempts cfg cfg.maxSteps (initState cfg start.y0 start.tnext start.ctrl start.state
      start.madeJump).core, s.tnext ≤ cfg.t1 := by
    refine (run_inv cfg (fun s => s.tnext ≤ cfg.t1) cfg.maxSteps _ (min_le_right _ _) ?_).1
    intro s _ _ _
    change clipToEnd cfg.mid (min (adaptOut cfg s).tprev cfg.t1) (adaptOut cfg s).tnext cfg.t1 cfg.floor
      (adaptOut cfg s).keep ≤ cfg.t1
    unfold clipToEnd
    dsimp only
    split
    · split
      · exact le_refl _
      · exact hwf.mid_le _ (min_le_right _ _)
    · rename_i hcl; exact le_trans (not_lt.1 hcl) hwf.floor_le
  rw [coreRun_eq_last] at *
  cases hl : (attempts cfg cfg.maxSteps (initState cfg start.y0 start.tnext start.ctrl start.state
      start.madeJump).core).getLast? with
  | none => exact Or.inl ⟨rfl, rfl⟩
  | some s =>
    rw [hl] at hok hres
    simp only at hok hres ⊢
    have hm : s ∈ attempts cfg cfg.maxSteps (initState cfg start.y0 start.tnext start.ctrl start.state
      start.madeJump).core := List.mem_of_getLast? hl
    have hc := attempts_cond _ _ _ s hm
    have hlt : s.tprev < cfg.t1 := by
      simp only [condFun, hst, Bool.and_eq_true, decide_eq_true_eq] at hc
      exact hc.1
    have hend : cfg.t1 ≤ (coreBody cfg s).1.tprev := by
      simp only [condFun, hst, hres, Bool.and_true, decide_eq_false_iff_not, not_lt] at hok
      exact hok
    have e1 : (coreBody cfg s).1.tprev = min (adaptOut cfg s).tprev cfg.t1 := rfl
    have hex := hctrl s.tprev s.tnext s.y (solverOut cfg s).y (cfg.cleanErr (solverOut cfg s).err) s.ctrlState
    have hacc : accepted cfg s = true := by
      by_contra hna
      have h1 : (adaptOut cfg s).tprev = s.tprev := hex.2 (by simpa [accepted, adaptOut] using hna)
      rw [e1, h1, min_eq_left hlt.le] at hend
      exact absurd hlt (not_lt.2 hend)
    have h1 : (adaptOut cfg s).tprev = s.tnext := hex.1 hacc
    have h2 : (coreBody cfg s).1.tprev = s.tnext := by rw [e1, h1, min_eq_left (hle s hm)]
    refine Or.inr ⟨s, ?_, h2, ?_, rfl, rfl, rfl⟩
    · intro he
      rw [h2, ← he] at hend
      exact absurd hlt (not_lt.2 hend)
    · change (if accepted cfg s then (solverOut cfg s).y else s.y) = _
      rw [hacc, if_pos rfl]

/-- **C83 with event root finding, part.** An element whose own solve succeeds gets what it gets alone, even if
other elements are stopped by events, provided that the root finder returns its starting point if that is a
root, and that interpolations end at the value of their step. Missing: elements whose solve fails, or runs out
of steps (`C83_violated`). -/
theorem C83_batch_success_partial (cfg : Fin n → Cfg T Y E D S C O F) (step : BatchStep n T Y E D S) (zero : O)
    (maxSteps : ℕ) (hmax : ∀ i, (cfg i).maxSteps = maxSteps) (start : Fin n → Start T Y S C)
    (valid : Fin n → T → Y → S → Bool → Prop) (hf : step.Faithful (fun i => (cfg i).solver) valid)
    (hv : ∀ i, ∀ c ∈ (start i).history (cfg i), valid i c.tprev c.y c.solverState c.madeJump) (i : Fin n)
    (hwf : (cfg i).WF) (hctrl : (cfg i).controller.Exact) (hst : (cfg i).controller.stepTo = none)
    (hfind : ∀ find ∈ (cfg i).rootFinder, FindsStart find) (hdist : ∀ t, (cfg i).dist t t = 0)
    (hjoin : (cfg i).solver.Joins) (hok : ((start i).solve (cfg i)).result = .successful) :
    solveB cfg step zero maxSteps start i = (start i).solve (cfg i) := by
  by_cases hown : ((start i).solve (cfg i)).core.evMask.any id = true
  · exact C83_batch_own_event_partial cfg step zero maxSteps hmax start valid hf hv i (Or.inl hown)
  have hown' : ((start i).solve (cfg i)).core.evMask.any id = false := by simpa using hown
  apply solveB_lane cfg step zero maxSteps hmax start valid hf hv
  have hres : ((start i).solve (cfg i)).result
      = if condFun (cfg i) ((start i).solve (cfg i)).core then .maxStepsReached
        else (finalise (cfg i) ((start i).solve (cfg i)).core).2.2 := rfl
  generalize (unvmapAny fun j => ((start j).solve (cfg j)).core.evMask.any id) = any
  rw [hres] at hok
  have hc : condFun (cfg i) ((start i).solve (cfg i)).core = false := by
    by_contra h
    rw [if_pos (by simpa using h)] at hok
    simp at hok
  rw [hc, if_neg (by simp)] at hok
  have hfin : finalise (cfg i) ((start i).solve (cfg i)).core
      = (((start i).solve (cfg i)).core.tprev, ((start i).solve (cfg i)).core.y,
        ((start i).solve (cfg i)).core.result) := by
    unfold finalise
    cases (cfg i).rootFinder with
    | none => rfl
    | some find => dsimp only; rw [hown', if_neg (by simp)]
  rw [hfin] at hok ⊢
  have hend := success_end (cfg i) hwf hctrl hst (start i) hc (by simp only at hok; rw [hok]; rfl)
  unfold finaliseB
  cases hrf : (cfg i).rootFinder with
  | none => rfl
  | some find =>
    dsimp only
    cases any with
    | false => rw [if_neg (by simp)]
    | true =>
      rw [if_pos rfl]
      have hroot := hfind find (by rw [hrf]; rfl)
        (toRootFind (cfg i) ((start i).solve (cfg i)).core false)
        ((start i).solve (cfg i)).core.evTprev ((start i).solve (cfg i)).core.evTnext (by
          intro x hx
          unfold toRootFind at hx
          simp only [Bool.false_eq_true, if_false] at hx
          obtain ⟨k, hk, rfl⟩ := List.mem_iff_getElem.1 hx
          simp [hdist])
      unfold rootFindLane
      rw [hown', hroot]
      dsimp only
      rcases hend with ⟨h0, h1⟩ | ⟨s, hne, h1, h2, h3, h4, h5⟩
      · rw [if_pos h0, h1]
      · have hj : (cfg i).solver.interp s.tprev s.tnext (solverOut (cfg i) s).dense s.tnext
            = (solverOut (cfg i) s).y := (hjoin s.tprev s.tnext s.y s.solverState s.madeJump hne).2
        rw [h3, h4, h5, h1, h2, hj, ite_self]

end

/-! ### Solvers -/

/-- Solvers without communication between lanes. -/
theorem laneStep_faithful (solver : Fin n → Solver T Y E D S) :
    (laneStep solver).Faithful solver fun _ _ _ _ _ => True := fun _ _ _ => rfl

section
variable {m : ℕ} {K VF Ct J : Type} [Field K] [DecidableEq K] [AddCommGroup Y] [Module K Y]
  [AddCommGroup VF] [Module K VF]

/-- A Runge-Kutta step does not depend on `first_step`, `made_jump` but through their disjunction. -/
theorem RK.step_flags (rk : RK m T K Y VF Ct J) (t0 t1 : T) (y0 : Y) (b b' mj mj' : Bool) (f0 : Fin m → VF)
    (h : (b || mj) = (b' || mj')) :
    rk.step t0 t1 y0 (some (b, f0)) mj = rk.step t0 t1 y0 (some (b', f0)) mj' := by
  have : rk.initStage t0 t1 y0 (some (b, f0)) mj = rk.initStage t0 t1 y0 (some (b', f0)) mj' := by
    simp only [RK.initStage, Option.getD_some, h]
  unfold RK.step
  rw [this]

/-- If the first stage is evaluated, the stored vector field is not looked at. -/
theorem RK.step_first (rk : RK m T K Y VF Ct J) (t0 t1 : T) (y0 : Y) (f0 : Fin m → VF) (mj mj' : Bool)
    (hfs : rk.fsal = true) :
    rk.step t0 t1 y0 (some (true, f0)) mj = rk.step t0 t1 y0 rk.init mj' := by
  have : rk.initStage t0 t1 y0 (some (true, f0)) mj = rk.initStage t0 t1 y0 rk.init mj' := by
    simp [RK.initStage, RK.init, hfs]
  unfold RK.step
  rw [this]

/-- **C83, Runge-Kutta steps.** If some lane needs its first stage to be evaluated then it is evaluated in all
lanes; this makes no difference to the lanes that did not need it. -/
theorem C83_rk_step (rk : Fin n → RK m T K Y VF Ct J) (h : ∀ i, (rk i).WF) (hf : ∀ i, (rk i).FsalOK)
    (hs : ∀ i, (rk i).SkipOK) (interp : Fin n → T → T → RK.Dense m Y → T → Y) :
    (rkBatch rk).Faithful (fun i => (rk i).solver (interp i)) fun i => (rk i).ValidState := by
  intro calls i hv
  change (rk i).step _ _ _ _ _ = (rk i).step _ _ _ _ _
  set e := unvmapAny fun i => ((calls i).state.getD (true, fun _ => 0)).1 || (calls i).madeJump with he
  by_cases hfs : (rk i).fsal = true
  · obtain ⟨b, f0, hst, hb⟩ := hv hfs
    have hstep := C40_step (rk i) (h i) (hf i) (hs i) (calls i).t0 (calls i).t1 (calls i).y0 _ _ hv
    rw [hst, Option.map_some]
    by_cases hown : (b || (calls i).madeJump) = true
    · have : e = true := unvmapAny_self (i := i) (by rw [hst]; simpa using hown)
      exact (rk i).step_flags _ _ _ _ _ _ _ _ (by rw [this, hown]; rfl)
    · have hown' : (b || (calls i).madeJump) = false := by simpa using hown
      cases e with
      | false => exact (rk i).step_flags _ _ _ _ _ _ _ _ (by rw [hown']; rfl)
      | true => rw [(rk i).step_first _ _ _ f0 true (calls i).madeJump hfs, ← hstep, hst]
  · have hfs' : (rk i).fsal = false := by simpa using hfs
    have : ∀ st mj, (rk i).initStage (calls i).t0 (calls i).t1 (calls i).y0 st mj
        = (rk i).initStage (calls i).t0 (calls i).t1 (calls i).y0 none false := by
      intro st mj; simp [RK.initStage, hfs']
    unfold RK.step
    rw [this, this (calls i).state]

/-- **C83, `HalfSolver`.** Around a solver whose batched steps are faithful, if a step from a valid state leaves a
valid state. -/
theorem C83_half {E' : Type} (half : T → T → T) (dist : Y → Y → E') (step : BatchStep n T Y E D S)
    (solver : Fin n → Solver T Y E D S) (valid : Fin n → T → Y → S → Bool → Prop)
    (hf : step.Faithful solver valid)
    (hkeep : ∀ i t0 t1 y0 st mj, valid i t0 y0 st mj →
      valid i (half t0 t1) ((solver i).step t0 (half t0 t1) y0 st mj).y
        ((solver i).step t0 (half t0 t1) y0 st mj).state false) :
    (halfBatch half dist step).Faithful (fun i => halfSolver half dist (solver i)) valid := by
  intro calls i hv
  have h1 := hf (fun i => { calls i with t1 := half (calls i).t0 (calls i).t1 }) i hv
  have h3 := hf calls i hv
  have h2 := hf (fun j => { t0 := half (calls j).t0 (calls j).t1, t1 := (calls j).t1
                            y0 := (step (fun i => { calls i with t1 := half (calls i).t0 (calls i).t1 }) j).y
                            state := (step (fun i => { calls i with t1 := half (calls i).t0 (calls i).t1 }) j).state
                            madeJump := false }) i (by
    dsimp only
    rw [h1]
    exact hkeep i _ _ _ _ _ hv)
  unfold halfBatch halfSolver
  dsimp only at h1 h2 h3 ⊢
  rw [h3, h2, h1]

section
variable [LinearOrder T] [LinearOrder F] [Zero F]

/-- **C83 for Runge-Kutta methods.** Explicit or diagonally implicit, first-same-as-last or not, with any
controller that flags jumps (next two theorems): each element of the batch gets exactly what it gets alone. -/
theorem C83_rk (rk : Fin n → RK m T K Y VF Ct J) (h : ∀ i, (rk i).WF) (hf : ∀ i, (rk i).FsalOK)
    (hs : ∀ i, (rk i).SkipOK) (hroot : ∀ i, (rk i).RootExact)
    (interp : Fin n → T → T → RK.Dense m Y → T → Y)
    (cfg : Fin n → Cfg T Y (Option Y) (RK.Dense m Y) (RK.State m VF) C O F) (hwf : ∀ i, (cfg i).WF)
    (hsolver : ∀ i, (cfg i).solver = (rk i).solver (interp i)) (zero : O) (maxSteps : ℕ)
    (hmax : ∀ i, (cfg i).maxSteps = maxSteps) (hev : ∀ i, (cfg i).rootFinder = none)
    (start : Fin n → Start T Y (RK.State m VF) C)
    (hst : ∀ i, (rk i).ValidState (cfg i).t0 (start i).y0 (start i).state (start i).madeJump)
    (hctrl : ∀ i, ∀ s ∈ (start i).history (cfg i), Flagged (cfg i) ((start i).state = (rk i).init) s) :
    BatchAgrees cfg (rkBatch rk) zero maxSteps start := by
  refine C83_batch cfg _ zero maxSteps hmax start (fun i => (rk i).ValidState) ?_ ?_ hev
  · have := C83_rk_step rk h hf hs interp
    simpa only [hsolver] using this
  · intro i
    exact (rk i).valid_history (h i) (hf i) (hroot i) (cfg i) (hwf i) (by rw [hsolver i]; rfl) _ _ _ _ _ (hst i)
      (hctrl i)

/-- Constant step sizes, `StepTo`, PID. -/
theorem C83_rk_exact (rk : Fin n → RK m T K Y VF Ct J) (h : ∀ i, (rk i).WF) (hf : ∀ i, (rk i).FsalOK)
    (hs : ∀ i, (rk i).SkipOK) (hroot : ∀ i, (rk i).RootExact)
    (interp : Fin n → T → T → RK.Dense m Y → T → Y)
    (cfg : Fin n → Cfg T Y (Option Y) (RK.Dense m Y) (RK.State m VF) C O F) (hwf : ∀ i, (cfg i).WF)
    (hsolver : ∀ i, (cfg i).solver = (rk i).solver (interp i)) (zero : O) (maxSteps : ℕ)
    (hmax : ∀ i, (cfg i).maxSteps = maxSteps) (hev : ∀ i, (cfg i).rootFinder = none)
    (start : Fin n → Start T Y (RK.State m VF) C)
    (hst : ∀ i, (rk i).ValidState (cfg i).t0 (start i).y0 (start i).state (start i).madeJump)
    (hctrl : ∀ i, (cfg i).controller.Exact) :
    BatchAgrees cfg (rkBatch rk) zero maxSteps start :=
  C83_rk rk h hf hs hroot interp cfg hwf hsolver zero maxSteps hmax hev start hst
    fun i s _ => flagged_exact (cfg i) (hctrl i) _ s

/-- The same with a `ClipStepSizeController` around such a controller; elements may have different jumps. -/
theorem C83_rk_clip [SuccOrder T] [PredOrder T] [NoMaxOrder T] [NoMinOrder T]
    (rk : Fin n → RK m T K Y VF Ct J) (h : ∀ i, (rk i).WF) (hf : ∀ i, (rk i).FsalOK)
    (hs : ∀ i, (rk i).SkipOK) (hroot : ∀ i, (rk i).RootExact)
    (interp : Fin n → T → T → RK.Dense m Y → T → Y)
    (cfg : Fin n → Cfg T Y (Option Y) (RK.Dense m Y) (RK.State m VF) (ClipState T C) O F)
    (hwf : ∀ i, (cfg i).WF)
    (hsolver : ∀ i, (cfg i).solver = (rk i).solver (interp i)) (zero : O) (maxSteps : ℕ)
    (hmax : ∀ i, (cfg i).maxSteps = maxSteps) (hev : ∀ i, (cfg i).rootFinder = none)
    (start : Fin n → Start T Y (RK.State m VF) (ClipState T C))
    (hst : ∀ i, (start i).state = (rk i).init) (c : Fin n → Clip T)
    (inner : Fin n → Controller T Y (Option Y) C) (hin : ∀ i, (inner i).Exact)
    (hctrl : ∀ i, (cfg i).controller = clipController (c i) (inner i)) :
    BatchAgrees cfg (rkBatch rk) zero maxSteps start := by
  refine C83_rk rk h hf hs hroot interp cfg hwf hsolver zero maxSteps hmax hev start ?_ ?_
  · intro i hfs
    rw [hst i]
    exact ⟨true, fun _ => 0, by simp [RK.init, hfs], Or.inl rfl⟩
  · intro i
    exact flagged_clip (cfg i) (hwf i) (c i) (inner i) (hin i) (hctrl i) _ _ _ _ _ _ (hst i)

end
end

/-! ### Examples -/

/-- Two lanes with the FSAL method Bosh3: one with a jump at 10, the other with none and a different first step.
They make different numbers of steps, and need their first stages at different steps. -/
def batchCfg : Fin 2 → Cfg Int Rat (Option Rat) (RK.Dense 1 Rat) (RK.State 1 Rat) (ClipState Int Int) Rat Rat :=
  ![rkToyCfg bosh3Toy ⟨none, some [10], none⟩, rkToyCfg bosh3Toy ⟨none, none, none⟩]

def batchStart : Fin 2 → Start Int Rat (RK.State 1 Rat) (ClipState Int Int) :=
  ![⟨1, 3, ⟨0, 0, 0, [], 0⟩, (rkToy bosh3Toy).init, false⟩,
    ⟨2, 1, ⟨0, 0, 0, [], 0⟩, (rkToy bosh3Toy).init, false⟩]

example : BatchAgrees batchCfg (rkBatch fun _ => rkToy bosh3Toy) 0 20 batchStart := by
  refine C83_rk_clip (fun _ => rkToy bosh3Toy) (fun _ => rkToy_WF _ bosh3Toy_shape (by decide))
    (fun _ => rkToy_fsalOK _ rfl (by decide +kernel)) (fun _ => rkToy_skipOK _) (fun _ => rkToy_root _)
    (fun _ _ _ d _ => d.y1) batchCfg ?_ ?_ 0 20 ?_ ?_ batchStart ?_
    ![⟨none, some [10], none⟩, ⟨none, none, none⟩] (fun _ => rkToyController)
    (fun _ => rkToyController_exact) ?_
  · intro i
    refine ⟨?_, ?_, ?_, ?_⟩ <;> fin_cases i <;> simp [batchCfg, rkToyCfg] <;> intros <;> omega
  all_goals intro i; fin_cases i <;> rfl

/-- In this example the second lane is made to evaluate a first stage that it could have taken over. -/
example : ((batchStart 0).history (batchCfg 0)).map (fun s => (s.tprev, s.madeJump))
      = [(0, false), (0, false), (1, false), (3, false), (3, false), (5, false), (5, false), (7, false),
        (11, true), (13, false)] ∧
    ((batchStart 1).history (batchCfg 1)).map (fun s => (s.tprev, s.madeJump))
      = [(0, false), (1, false), (3, false), (3, false), (5, false), (5, false), (7, false), (7, false),
        (9, false), (9, false), (11, false), (11, false), (12, false)] := by decide +kernel

/-! ### What is wrong -/

/-- Steps of 1 and 3 are tried; the event is that `y` lies in `[101, 200)`; it is located by a root finder that is
right for boolean events. -/
def eventBatchCfg : Cfg Int Int Int Int Int Int Int Int :=
  { toyCfg with
    events := [.bool fun _ y => decide (101 ≤ y) && decide (y < 200)]
    rootFinder := some fun _ _ hi => (hi, none), maxSteps := 2 }

def eventBatchStart : Fin 2 → Start Int Int Int Int :=
  ![⟨100, 1, 0, 0, false⟩, ⟨300, 6, 0, 0, false⟩]

/-- **C83, violated.** The first element of this batch is stopped by an event, the second runs out of steps after
a rejected step. Alone, it reports time 0 and its value there. In the batch it reports time 3, the end of the
rejected step, and the value which the rejected step had there. -/
theorem C83_violated : eventBatchCfg.WF ∧ eventBatchCfg.controller.Exact ∧ eventBatchCfg.solver.Joins ∧
    (∀ find ∈ eventBatchCfg.rootFinder, FindsStart find) ∧
    ¬ BatchAgrees (fun _ => eventBatchCfg) (laneStep fun _ => eventBatchCfg.solver) 0 2 eventBatchStart ∧
    ((eventBatchStart 0).solve eventBatchCfg).result = .eventOccurred ∧
    (((eventBatchStart 1).solve eventBatchCfg).result,
      ((eventBatchStart 1).solve eventBatchCfg).tfinal, ((eventBatchStart 1).solve eventBatchCfg).yfinal)
      = (.maxStepsReached, 0, 300) ∧
    (fun o : Output Int Int Int Int Int Int Int => (o.result, o.tfinal, o.yfinal))
      (solveB (fun _ => eventBatchCfg) (laneStep fun _ => eventBatchCfg.solver) 0 2 eventBatchStart 1)
      = (.maxStepsReached, 3, 303) := by
  have hlast : (fun o : Output Int Int Int Int Int Int Int => (o.result, o.tfinal, o.yfinal))
      (solveB (fun _ => eventBatchCfg) (laneStep fun _ => eventBatchCfg.solver) 0 2 eventBatchStart 1)
      = (.maxStepsReached, 3, 303) := by decide +kernel
  have hown : (((eventBatchStart 1).solve eventBatchCfg).result,
      ((eventBatchStart 1).solve eventBatchCfg).tfinal, ((eventBatchStart 1).solve eventBatchCfg).yfinal)
      = (.maxStepsReached, 0, 300) := by decide +kernel
  refine ⟨⟨by decide, by decide, ?_, ?_⟩, ?_, ?_, ?_, ?_, by decide +kernel, hown, hlast⟩
  · intro a h; simp only [eventBatchCfg, toyCfg] at *; omega
  · intro a h; simp only [eventBatchCfg, toyCfg] at *; omega
  · intro a b y0 y1 e st
    simp only [eventBatchCfg, toyCfg, toyController, AdaptOut.Exact]
    split <;> simp
  · intro t0 t1 y0 st mj _
    simp [eventBatchCfg, toyCfg, toySolver]
  · intro find hfind g lo hi _
    simp only [eventBatchCfg, Option.mem_def, Option.some.injEq] at hfind
    rw [← hfind]
  · intro h
    have := h 1
    rw [this] at hlast
    exact absurd (hown.symm.trans hlast) (by simp)

/-- `C83_batch_success_partial` applies to the second element if it has enough steps: it then succeeds in spite of
the other one's event. -/
example : ((eventBatchStart 1).solve { eventBatchCfg with maxSteps := 20 }).result = .successful ∧
    ((eventBatchStart 0).solve { eventBatchCfg with maxSteps := 20 }).result = .eventOccurred ∧
    (fun o : Output Int Int Int Int Int Int Int => (o.result, o.tfinal, o.yfinal))
      (solveB (fun _ => { eventBatchCfg with maxSteps := 20 }) (laneStep fun _ => eventBatchCfg.solver) 0 20
        eventBatchStart 1) = (.successful, 7, 307) := by decide +kernel

end Verif
