import Verif.Props.FrontTime
import Verif.Props.Constant

/-!
# Stopping a solve and going on with it later (C91)

A solve returns its final time and value, and `SaveAt(solver_state=True, controller_state=True, made_jump=True)` lets it
return its states, which may be passed to another solve. If that other solve also begins with the step that the first
one would have made next, then it goes on exactly as the first one would have done. That step is not returned.
-/

set_option linter.unusedSectionVars false

namespace Verif

variable {T Y VF Ct E D S C O F : Type} {m : Nat}

section
variable [LinearOrder T] [LinearOrder F] [Zero F]

/-- Two states of solves from which the same steps are made; the first one is of a solve that has made `a` steps
more, `b` of them accepted and `c` rejected. -/
structure Agree (a b c : ℕ) (s s' : Core T Y D S C F) : Prop where
  y : s.y = s'.y
  tprev : s.tprev = s'.tprev
  tnext : s.tnext = s'.tnext
  madeJump : s.madeJump = s'.madeJump
  solverState : s.solverState = s'.solverState
  ctrlState : s.ctrlState = s'.ctrlState
  result : s.result = s'.result
  evVals : s.evVals = s'.evVals
  evMask : s.evMask = s'.evMask
  steps : s.numSteps = a + s'.numSteps
  accepted : s.numAccepted = b + s'.numAccepted
  rejected : s.numRejected = c + s'.numRejected
  event : (s.evTprev = s'.evTprev ∧ s.evTnext = s'.evTnext ∧ s.evDense = s'.evDense ∧ s.numSteps ≠ 0 ∧ s'.numSteps ≠ 0) ∨
    s.evMask.any id = false

/-- The same solve with another beginning. -/
def Cfg.begin (cfg : Cfg T Y E D S C O F) (t0 : T) (subs : List (SubSaveAt T Y O)) (dense : Bool) (maxSteps : ℕ) :
    Cfg T Y E D S C O F := { cfg with t0 := t0, subs := subs, dense := dense, maxSteps := maxSteps }

theorem Agree.body {a b c : ℕ} {s s' : Core T Y D S C F} (h : Agree a b c s s') (cfg : Cfg T Y E D S C O F) (t0 : T)
    (subs : List (SubSaveAt T Y O)) (dense : Bool) (maxSteps : ℕ) :
    Agree a b c (coreBody cfg s).1 (coreBody (cfg.begin t0 subs dense maxSteps) s').1 := by
  obtain ⟨h1, h2, h3, h4, h5, h6, h7, h8, h9, h10, h11, h12, h13⟩ := h
  obtain ⟨y, tp, tn, mj, ss, cs, r, ns, na, nr, e1, e2, e3, e4, e5⟩ := s
  obtain ⟨y', tp', tn', mj', ss', cs', r', ns', na', nr', e1', e2', e3', e4', e5'⟩ := s'
  simp only at h1 h2 h3 h4 h5 h6 h7 h8 h9 h10 h11 h12
  subst h1 h2 h3 h4 h5 h6 h7 h8 h9 h10 h11 h12
  refine ⟨rfl, rfl, rfl, rfl, rfl, rfl, rfl, rfl, rfl, ?_, ?_, ?_, .inl ⟨rfl, rfl, rfl, ?_, ?_⟩⟩
  · show a + ns' + 1 = a + (ns' + 1); omega
  · exact Nat.add_assoc _ _ _
  · exact Nat.add_assoc _ _ _
  · exact Nat.succ_ne_zero _
  · exact Nat.succ_ne_zero _

theorem Agree.cond {a b c : ℕ} {s s' : Core T Y D S C F} (h : Agree a b c s s') (cfg : Cfg T Y E D S C O F)
    (hc : cfg.controller.stepTo = none) (t0 : T) (subs : List (SubSaveAt T Y O)) (dense : Bool) (maxSteps : ℕ) :
    condFun cfg s = condFun (cfg.begin t0 subs dense maxSteps) s' := by
  unfold condFun Cfg.begin
  simp only [hc, h.tprev, h.result]

theorem Agree.run {a b c : ℕ} (cfg : Cfg T Y E D S C O F)
    (hc : cfg.controller.stepTo = none) (t0 : T) (subs : List (SubSaveAt T Y O)) (dense : Bool) (maxSteps : ℕ) (n : ℕ) :
    ∀ {s s' : Core T Y D S C F}, Agree a b c s s' →
    Agree a b c (coreRun cfg n s) (coreRun (cfg.begin t0 subs dense maxSteps) n s') := by
  induction n with
  | zero => exact fun h => h
  | succ n ih =>
    intro s s' h
    simp only [coreRun, ← h.cond cfg hc t0 subs dense maxSteps]
    split
    · exact ih (h.body cfg t0 subs dense maxSteps)
    · exact h

theorem Agree.finalise {a b c : ℕ} {s s' : Core T Y D S C F} (h : Agree a b c s s') (cfg : Cfg T Y E D S C O F)
    (t0 : T) (subs : List (SubSaveAt T Y O)) (dense : Bool) (maxSteps : ℕ) :
    finalise cfg s = finalise (cfg.begin t0 subs dense maxSteps) s' := by
  rcases h.event with ⟨e1, e2, e3, e4, e5⟩ | e
  · unfold Verif.finalise toRootFind Cfg.begin
    simp only [h.tprev, h.y, h.result, h.evMask, e1, e2, e3, if_neg e4, if_neg e5]
  · rw [finalise_no_event _ _ e, finalise_no_event _ _ (h.evMask ▸ e), h.tprev, h.y, h.result]

/-- A run that has not come to an end goes on. -/
theorem coreRun_split (cfg : Cfg T Y E D S C O F) (n k : ℕ) (s : Core T Y D S C F)
    (h : condFun cfg (coreRun cfg n s) = true) : coreRun cfg (n + k) s = coreRun cfg k (coreRun cfg n s) := by
  induction n generalizing s with
  | zero => simp [coreRun]
  | succ n ih =>
    rw [Nat.succ_add]
    simp only [coreRun] at h ⊢
    by_cases hc : condFun cfg s = true
    · simp only [hc, if_true] at h ⊢
      exact ih _ h
    · simp only [hc] at h
      exact absurd h hc

theorem firstTrue_all_false : ∀ l : List Bool, l.any id = false → (firstTrue false l).1 = l ∧ (firstTrue false l).2 = false
  | [], _ => ⟨rfl, rfl⟩
  | b :: l, h => by
    simp only [List.any_cons, id, Bool.or_eq_false_iff] at h
    obtain ⟨rfl, h⟩ := h
    obtain ⟨i1, i2⟩ := firstTrue_all_false l h
    simp only [firstTrue, Bool.false_or, Bool.false_and, i1, i2, and_self]

/-- A run that has not come to an end makes another step. -/
theorem attempts_mem (cfg : Cfg T Y E D S C O F) (n k : ℕ) (s : Core T Y D S C F)
    (h : condFun cfg (coreRun cfg n s) = true) : coreRun cfg n s ∈ attempts cfg (n + (k + 1)) s := by
  induction n generalizing s with
  | zero =>
    simp only [coreRun] at h ⊢
    rw [Nat.zero_add]
    simp only [attempts, h, if_true]
    exact List.mem_cons_self
  | succ n ih =>
    rw [Nat.succ_add]
    simp only [coreRun, attempts] at h ⊢
    by_cases hc : condFun cfg s = true
    · simp only [hc, if_true] at h ⊢
      exact List.mem_cons_of_mem _ (ih _ h)
    · simp only [hc] at h
      exact absurd h hc

theorem isSuccessful_iff (r : Result) : r.isSuccessful = true ↔ r = .successful := by
  cases r <;> simp [Result.isSuccessful]

/-- What is known of the events in any state of a solve. -/
structure EventInv (cfg : Cfg T Y E D S C O F) (s : Core T Y D S C F) : Prop where
  vals : s.evVals = cfg.events.map (fun e => e.value s.tprev s.y)
  len : s.evMask.length = cfg.events.length
  quiet : s.result = .successful → s.evMask.any id = false ∧ ∀ e ∈ cfg.events, e.initMask s.tprev s.y = false

theorem firstTrue_length : ∀ (b : Bool) (l : List Bool), (firstTrue b l).1.length = l.length
  | _, [] => rfl
  | b, m :: l => by simp only [firstTrue, List.length_cons, firstTrue_length]

theorem eventInv_init (cfg : Cfg T Y E D S C O F) (y0 : Y) (tnext : T) (ctrl : C) (ss : S) (mj : Bool) :
    EventInv cfg (initState cfg y0 tnext ctrl ss mj).core where
  vals := rfl
  len := by
    show (firstTrue false _).1.length = _
    rw [firstTrue_length, List.length_map]
  quiet := by
    intro h
    have h2 : (cfg.events.map fun e => e.initMask cfg.t0 y0).any id = false := by
      by_contra hne
      rw [Bool.not_eq_false] at hne
      have : (initState cfg y0 tnext ctrl ss mj).core.result = .eventOccurred := by
        show Result.where' (firstTrue false _).2 _ _ = _
        rw [firstTrue_snd, hne]
        rfl
      rw [this] at h
      cases h
    refine ⟨?_, ?_⟩
    · show (firstTrue false _).1.any id = false
      rw [firstTrue_any, h2]
    · intro e he
      have := List.any_eq_false.1 h2 (e.initMask cfg.t0 y0) (List.mem_map_of_mem he)
      show e.initMask cfg.t0 y0 = false
      simpa using this

theorem eventInv_body (cfg : Cfg T Y E D S C O F) (s : Core T Y D S C F) (h : EventInv cfg s) :
    EventInv cfg (coreBody cfg s).1 where
  vals := rfl
  len := by
    rw [coreBody_mask, firstTrue_length]
    unfold triggered
    rw [List.length_zipWith, h.vals, List.length_map, min_self]
  quiet := by
    intro hr
    have h2 : (triggered cfg s).any id = false := by
      by_contra hne
      rw [Bool.not_eq_false] at hne
      have : (coreBody cfg s).1.result = .eventOccurred := by
        show Result.where' (firstTrue false (triggered cfg s)).2 _ _ = _
        rw [firstTrue_snd, hne]
        rfl
      rw [this] at hr
      cases hr
    refine ⟨?_, ?_⟩
    · rw [coreBody_mask, firstTrue_any, h2]
    · intro e he
      cases e with
      | flt c d => rfl
      | bool c =>
        show c (nextT cfg s) (nextY cfg s) = false
        obtain ⟨i, hi, hie⟩ := List.getElem_of_mem he
        have hlen : i < (triggered cfg s).length := by
          unfold triggered
          rw [List.length_zipWith, h.vals, List.length_map, min_self]
          exact hi
        have h3 := List.any_eq_false.1 h2 _ (List.getElem_mem hlen)
        simp only [triggered, List.getElem_zipWith, hie, EventCond.triggers, id] at h3
        simpa using h3

theorem eventInv_run (cfg : Cfg T Y E D S C O F) (n : ℕ) (s : Core T Y D S C F) (h : EventInv cfg s) :
    EventInv cfg (coreRun cfg n s) :=
  (run_inv cfg (EventInv cfg) n s h fun s' _ _ hs' => eventInv_body cfg s' hs').2

/-- The new solve begins where the other one was. -/
theorem agree_init (cfg : Cfg T Y E D S C O F) (s : Core T Y D S C F) (h : EventInv cfg s)
    (hr : s.result = .successful) (htn : s.tnext ≤ cfg.t1) (subs : List (SubSaveAt T Y O)) (dense : Bool) (k : ℕ) :
    Agree s.numSteps s.numAccepted s.numRejected s
      (initState (cfg.begin s.tprev subs dense k) s.y s.tnext s.ctrlState s.solverState s.madeJump).core := by
  obtain ⟨q1, q2⟩ := h.quiet hr
  have hm : (cfg.events.map fun e => e.initMask s.tprev s.y) = s.evMask := by
    apply List.ext_getElem (by rw [List.length_map, h.len])
    intro i h1 h2
    rw [List.getElem_map, q2 _ (List.getElem_mem _)]
    have := List.any_eq_false.1 q1 _ (List.getElem_mem h2)
    have h3 : s.evMask[i] = false := by simpa using this
    exact h3.symm
  obtain ⟨f1, f2⟩ := firstTrue_all_false s.evMask q1
  refine ⟨rfl, rfl, (min_eq_left htn).symm, rfl, rfl, rfl, ?_, h.vals, ?_, rfl, rfl, rfl, .inr q1⟩
  · show s.result = Result.where' (firstTrue false (cfg.events.map fun e => e.initMask s.tprev s.y)).2 _ _
    rw [hm, f2, hr]
    rfl
  · show s.evMask = (firstTrue false (cfg.events.map fun e => e.initMask s.tprev s.y)).1
    rw [hm, f1]

theorem coreRun_begin (cfg : Cfg T Y E D S C O F) (k n : ℕ) (s : Core T Y D S C F) :
    coreRun { cfg with maxSteps := k } n s = coreRun cfg n s := by
  induction n generalizing s with
  | zero => rfl
  | succ n ih =>
    simp only [coreRun]
    rw [show condFun { cfg with maxSteps := k } s = condFun cfg s from rfl,
      show (coreBody { cfg with maxSteps := k } s).1 = (coreBody cfg s).1 from rfl, ih]

theorem attempts_begin (cfg : Cfg T Y E D S C O F) (k n : ℕ) (s : Core T Y D S C F) :
    attempts { cfg with maxSteps := k } n s = attempts cfg n s := by
  induction n generalizing s with
  | zero => rfl
  | succ n ih =>
    simp only [attempts]
    rw [show condFun { cfg with maxSteps := k } s = condFun cfg s from rfl,
      show (coreBody { cfg with maxSteps := k } s).1 = (coreBody cfg s).1 from rfl, ih]

/-- What is seen at the end of a solve. -/
theorem solve_end (cfg : Cfg T Y E D S C O F) (y0 : Y) (tnext : T) (ctrl : C) (ss : S) (mj : Bool) :
    let o := solve cfg y0 tnext ctrl ss mj
    o.tfinal = (finalise cfg o.core).1 ∧ o.yfinal = (finalise cfg o.core).2.1 ∧
      o.result = if condFun cfg o.core then .maxStepsReached else (finalise cfg o.core).2.2 := ⟨rfl, rfl, rfl⟩

/-- A solve that is stopped after `n` steps and resumed with all its states and its next step. -/
theorem resume_solve (cfg : Cfg T Y E D S C O F) (hwf : cfg.WF) (hst : cfg.controller.stepTo = none) (y0 : Y) (tnext : T)
    (ctrl : C) (ss : S) (mj : Bool) (htn : cfg.t0 ≤ tnext) (n k : ℕ) (hmax : cfg.maxSteps = n + (k + 1))
    (hc : ∀ c ∈ callLog cfg y0 tnext ctrl ss mj, (c.answer cfg).Forward c.ctrlT0 c.ctrlT1)
    (subs : List (SubSaveAt T Y O)) (dense : Bool) (o1 : Output T Y D S C O F)
    (ho1 : o1 = solve { cfg with maxSteps := n } y0 tnext ctrl ss mj)
    (hs1 : o1.core.tprev < cfg.t1) (hs2 : o1.core.result = .successful) :
    let o := solve cfg y0 tnext ctrl ss mj
    let o2 := solve (cfg.begin o1.tfinal subs dense (k + 1)) o1.yfinal o1.core.tnext o1.core.ctrlState
      o1.core.solverState o1.core.madeJump
    o1.tfinal = o1.core.tprev ∧ cfg.t0 ≤ o1.core.tprev ∧ o1.core.tprev ≤ o1.core.tnext ∧ o1.core.tnext ≤ cfg.t1 ∧
      Agree o1.core.numSteps o1.core.numAccepted o1.core.numRejected o.core o2.core ∧
      o2.tfinal = o.tfinal ∧ o2.yfinal = o.yfinal ∧ o2.result = o.result := by
  intro o o2
  set s0 := (initState cfg y0 tnext ctrl ss mj).core with hs0
  set s := coreRun cfg n s0 with hsdef
  have hcore1 : o1.core = s := by
    rw [ho1, solve_core]
    exact coreRun_begin cfg n n s0
  rw [hcore1] at hs1 hs2 ⊢
  have hcond : condFun cfg s = true := by
    unfold condFun
    rw [hst, hs2]
    simp [hs1, Result.isSuccessful]
  have hinv : EventInv cfg s := eventInv_run cfg n s0 (eventInv_init cfg y0 tnext ctrl ss mj)
  obtain ⟨q1, -⟩ := hinv.quiet hs2
  have hmem : s ∈ history cfg y0 tnext ctrl ss mj := by
    unfold history
    rw [hmax]
    exact attempts_mem cfg n k s0 hcond
  have hfw := (C01_time_forward cfg hwf y0 tnext ctrl ss mj htn hc).1
  rw [log_eq] at hfw
  obtain ⟨f1, f2, f3⟩ := hfw _ (List.mem_map_of_mem hmem)
  replace f1 : cfg.t0 ≤ s.tprev := f1
  replace f2 : s.tprev ≤ s.tnext := f2
  replace f3 : s.tnext ≤ cfg.t1 := f3
  have hfin1 : finalise { cfg with maxSteps := n } o1.core = (s.tprev, s.y, s.result) := by
    rw [hcore1]; exact finalise_no_event _ _ q1
  have ht1 : o1.tfinal = s.tprev := by
    have := (solve_end { cfg with maxSteps := n } y0 tnext ctrl ss mj).1
    rw [← ho1, hfin1] at this
    exact this
  have hy1 : o1.yfinal = s.y := by
    have := (solve_end { cfg with maxSteps := n } y0 tnext ctrl ss mj).2.1
    rw [← ho1, hfin1] at this
    exact this
  have hA : Agree s.numSteps s.numAccepted s.numRejected o.core o2.core := by
    have h1 : o.core = coreRun cfg (k + 1) s := by
      show (solve cfg y0 tnext ctrl ss mj).core = _
      rw [solve_core, hmax]
      exact coreRun_split cfg n (k + 1) s0 hcond
    have h2 : o2.core = coreRun (cfg.begin s.tprev subs dense (k + 1)) (k + 1)
        (initState (cfg.begin s.tprev subs dense (k + 1)) s.y s.tnext s.ctrlState s.solverState s.madeJump).core := by
      show (solve _ _ _ _ _ _).core = _
      rw [solve_core, ht1, hy1, hcore1]
      rfl
    rw [h1, h2]
    exact Agree.run cfg hst s.tprev subs dense (k + 1) (k + 1) (agree_init cfg s hinv hs2 f3 subs dense (k + 1))
  obtain ⟨a1, a2, a3⟩ := solve_end cfg y0 tnext ctrl ss mj
  obtain ⟨b1, b2, b3⟩ := solve_end (cfg.begin o1.tfinal subs dense (k + 1)) o1.yfinal o1.core.tnext o1.core.ctrlState
      o1.core.solverState o1.core.madeJump
  have hf := hA.finalise cfg o1.tfinal subs dense (k + 1)
  have hcd := hA.cond cfg hst o1.tfinal subs dense (k + 1)
  refine ⟨ht1, f1, f2, f3, hA, ?_, ?_, ?_⟩
  · exact b1.trans ((congrArg (·.1) hf).symm.trans a1.symm)
  · exact b2.trans ((congrArg (·.2.1) hf).symm.trans a2.symm)
  · refine b3.trans (Eq.trans ?_ a3.symm)
    show (if condFun _ o2.core then _ else _) = if condFun cfg o.core then _ else _
    rw [hcd]
    split
    · rfl
    · exact (congrArg (·.2.2) hf).symm

end

section
variable [CommRing T] [LinearOrder T] [IsStrictOrderedRing T] [LinearOrder F] [Zero F] [AddCommGroup Ct]

theorem direction_sq (p : Problem m T Y VF Ct E D S C O F) (a : T) : a * p.direction * p.direction = a := by
  unfold Problem.direction
  split <;> simp

/-- The problem that goes on with a solve of the problem `p` that has given `o`: with the final time, value and states,
a first step `dt0`, and other `SaveAt(...)` and `max_steps`. -/
def Problem.resume (p : Problem m T Y VF Ct E D S C O F) (o : Output T Y D S C O F) (dt0 : Option T)
    (subs : List (SubSaveAt T Y O)) (maxSteps : ℕ) : Problem m T Y VF Ct E D S C O F :=
  { p with t0 := o.tfinal * p.direction, y0 := o.yfinal, dt0 := dt0, subs := subs, maxSteps := maxSteps
           solverState := some o.core.solverState, ctrlState := some o.core.ctrlState
           madeJump := some o.core.madeJump }

/-- The loop of the resumed solve. -/
theorem resume_setup (p : Problem m T Y VF Ct E D S C O F) (cfg : Cfg T Y E D S C O F) (tnext : T) (ctrl : C) (ss : S)
    (hs : p.setup = .ok (cfg, tnext, ctrl, ss)) (o : Output T Y D S C O F) (h0 : cfg.t0 ≤ o.tfinal)
    (h1 : o.tfinal < cfg.t1) (dt : T) (hdt : 0 ≤ dt) (subs : List (SubSaveAt T Y O)) (hsubs : ∀ s ∈ subs, s.ts = [])
    (k : ℕ) :
    ∃ subs', (p.resume o (some (dt * p.direction)) subs k).setup =
      .ok (cfg.begin o.tfinal subs' p.dense k, o.tfinal + dt, o.core.ctrlState, o.core.solverState) := by
  set p2 := p.resume o (some (dt * p.direction)) subs k with hp2
  have hd : p2.direction = p.direction := by
    have k1 := (setup_ok p cfg tnext ctrl ss hs).t1
    rw [k1] at h1
    show (if o.tfinal * p.direction < p.t1 then (1 : ℤ) else -1) = p.direction
    by_cases h : p.t0 < p.t1
    · have e : p.direction = 1 := if_pos h
      rw [e] at h1 ⊢
      simp only [Int.cast_one, mul_one] at h1 ⊢
      exact if_pos h1
    · have e : p.direction = -1 := if_neg h
      rw [e] at h1 ⊢
      simp only [Int.cast_neg, Int.cast_one, mul_neg, mul_one] at h1 ⊢
      exact if_neg (not_lt.2 (by linarith))
  have hcheck : p2.checkDt0 = .ok () := by
    have k1 := (setup_ok p cfg tnext ctrl ss hs).t1
    show (if (p.t1 - o.tfinal * p.direction) * (dt * p.direction) < 0 then _ else _) = _
    refine if_neg (not_lt.2 ?_)
    have : (p.t1 - o.tfinal * p.direction) * (dt * p.direction)
        = (p.t1 * p.direction - o.tfinal * p.direction * p.direction) * dt := by ring
    rw [this, direction_sq, ← k1]
    exact mul_nonneg (sub_nonneg.2 h1.le) hdt
  have hts : ∀ (l : List (SubSaveAt T Y O)) (t0 t1 : T), (∀ s ∈ l, s.ts = []) →
      (l.map (fun s => { s with ts := s.ts.map (· * (p.direction : T)) })).forM (fun s => checkTs t0 t1 s.ts) = .ok () := by
    intro l t0 t1 hl
    induction l with
    | nil => rfl
    | cons a l ih =>
      have e : checkTs t0 t1 (a.ts.map (· * (p.direction : T))) = .ok () := by
        rw [hl a List.mem_cons_self]; rfl
      change (checkTs t0 t1 (a.ts.map (· * (p.direction : T))) >>= fun _ => _) = _
      rw [e]
      exact ih fun s hs => hl s (List.mem_cons_of_mem _ hs)
  unfold Problem.setup at hs
  simp only [bind, Except.bind] at hs
  split at hs
  · cases hs
  split at hs
  · cases hs
  rename_i w hw
  split at hs
  · cases hs
  split at hs
  · cases hs
  rename_i r hr
  simp only [pure, Except.pure, Except.ok.injEq, Prod.mk.injEq] at hs
  obtain ⟨rfl, rfl, rfl, rfl⟩ := hs
  refine ⟨(subs.map (fun s => { s with ts := s.ts.map (· * (p.direction : T)) })).map
    (fun s => { s with fn := fun t y => s.fn (p.direction * t) y }), ?_⟩
  unfold Problem.setup
  rw [hcheck, hd]
  have hw2 : p2.controller p.direction = .ok w := hw
  have hts2 := hts p2.subs (p2.t0 * p.direction) (p2.t1 * p.direction) hsubs
  have hfirst : firstStep w (fun i => wrapTerm p.direction (p2.terms i)) (p2.t0 * p.direction) (p2.t1 * p.direction) p2.y0
      (p2.dt0.map (· * (p.direction : T))) p2.ctrlState = .ok (o.tfinal + dt, o.core.ctrlState) := by
    show Except.ok (o.tfinal * p.direction * p.direction + dt * p.direction * p.direction, o.core.ctrlState) = _
    rw [direction_sq, direction_sq]
  have ht0 : p2.t0 * p.direction = o.tfinal := direction_sq p o.tfinal
  rw [ht0] at hts2 hfirst
  simp only [bind, Except.bind, hw2, ht0, hts2, hfirst]
  rfl

/-- **C91.** A solve is given too few steps, `n`; it is then resumed with its final time, value and states, and with the
step that it would have made next. Then this second solve ends as the first would have done if it had been given more
steps: at the same time with the same value, result and states. -/
theorem C91_resume_partial (p : Problem m T Y VF Ct E D S C O F) (cfg : Cfg T Y E D S C O F) (tnext : T) (ctrl : C) (ss : S)
    (hs : p.setup = .ok (cfg, tnext, ctrl, ss)) (hwf : cfg.WF) (hst : cfg.controller.stepTo = none)
    (htn : cfg.t0 ≤ tnext)
    (hc : ∀ c ∈ callLog cfg p.y0 tnext ctrl ss (p.madeJump.getD false), (c.answer cfg).Forward c.ctrlT0 c.ctrlT1)
    (n k : ℕ) (hmax : p.maxSteps = n + (k + 1)) (subs : List (SubSaveAt T Y O)) (hsubs : ∀ s ∈ subs, s.ts = [])
    (o1 : Output T Y D S C O F)
    (ho1 : o1 = solve { cfg with maxSteps := n } p.y0 tnext ctrl ss (p.madeJump.getD false))
    (hs1 : o1.core.tprev < cfg.t1) (hs2 : o1.core.result = .successful) :
    let p2 := p.resume o1 (some ((o1.core.tnext - o1.core.tprev) * p.direction)) subs (k + 1)
    let o := solve cfg p.y0 tnext ctrl ss (p.madeJump.getD false)
    ∃ cfg2 tnext2 ctrl2 ss2, p2.setup = .ok (cfg2, tnext2, ctrl2, ss2) ∧
      let o2 := solve cfg2 p2.y0 tnext2 ctrl2 ss2 (p2.madeJump.getD false)
      o2.tfinal = o.tfinal ∧ o2.yfinal = o.yfinal ∧ o2.result = o.result ∧
        o2.core.solverState = o.core.solverState ∧ o2.core.ctrlState = o.core.ctrlState ∧
        o2.core.madeJump = o.core.madeJump ∧ o2.core.evMask = o.core.evMask ∧
        o1.core.numSteps + o2.core.numSteps = o.core.numSteps ∧
        o1.core.numAccepted + o2.core.numAccepted = o.core.numAccepted ∧
        o1.core.numRejected + o2.core.numRejected = o.core.numRejected := by
  intro p2 o
  have k1 := setup_ok p cfg tnext ctrl ss hs
  have key := fun subs' => resume_solve cfg hwf hst p.y0 tnext ctrl ss (p.madeJump.getD false) htn n k
    (k1.maxSteps.trans hmax) hc subs' p.dense o1 ho1 hs1 hs2
  obtain ⟨e1, e2, e3, e4, -⟩ := key []
  obtain ⟨subs', hset⟩ := resume_setup p cfg tnext ctrl ss hs o1 (e1 ▸ e2) (e1 ▸ hs1) (o1.core.tnext - o1.core.tprev)
    (sub_nonneg.2 e3) subs hsubs (k + 1)
  obtain ⟨-, -, -, -, hA, r1, r2, r3⟩ := key subs'
  refine ⟨_, _, _, _, hset, ?_⟩
  rw [e1, add_sub_cancel]
  rw [e1] at hA r1 r2 r3
  exact ⟨r1, r2, r3, hA.solverState.symm, hA.ctrlState.symm, hA.madeJump.symm, hA.evMask.symm, hA.steps.symm,
    hA.accepted.symm, hA.rejected.symm⟩

end

/-! ## `ConstantStepSize` -/

section
variable {K : Type} [Field K] [LinearOrder K] [IsStrictOrderedRing K] [FloorRing K] [LinearOrder F] [Zero F]

/-- The state of a solve with steps `dt0`, that has made `j` of them. -/
structure ConstAt (t0 t1 dt0 : K) (N j : ℕ) (s : Core K Y D S (ConstState K) F) : Prop where
  tprev : s.tprev = t0 + j * dt0
  tnext : j < N → s.tnext = t0 + (j + 1) * dt0
  ctrl : s.ctrlState = { completed := j + 1, numSteps := N, t0 := t0, t1OrDt0 := t1 }

/-- What the controller answers in such a state. -/
theorem constAt_adapt (cfg : Cfg K Y E D S (ConstState K) O F) (hc : cfg.controller = constantStepSize) (t0 t1 dt0 : K)
    (N j : ℕ) (hN : 0 < N) (ht1 : t1 = t0 + N * dt0) (s : Core K Y D S (ConstState K) F) (h : ConstAt t0 t1 dt0 N j s) :
    adaptOut cfg s = { keep := true, tprev := s.tnext, tnext := t0 + (j + 2) * dt0, madeJump := false,
                       state := { completed := j + 1 + 1, numSteps := N, t0 := t0, t1OrDt0 := t1 }, result := .successful } := by
  have hN' : (N : K) ≠ 0 := by exact_mod_cast hN.ne'
  unfold adaptOut
  rw [hc]
  show constAdapt s.tnext s.ctrlState = _
  rw [h.ctrl]
  unfold constAdapt
  have hge : (N : ℤ) ≥ 0 := by omega
  simp only [hge, if_true]
  congr 1
  split
  · rename_i e
    have e' : (N : K) = j + 2 := by
      have : N = j + 2 := by omega
      rw [this]; push_cast; ring
    rw [ht1, e']
  · rw [ht1]
    push_cast
    field_simp
    ring

theorem constAt_body (cfg : Cfg K Y E D S (ConstState K) O F) (hc : cfg.controller = constantStepSize) (t0 dt0 : K)
    (hdt : 0 < dt0) (N j : ℕ) (hj : j < N) (ht1 : cfg.t1 = t0 + N * dt0) (hfl : cfg.t1 - dt0 ≤ cfg.floor)
    (s : Core K Y D S (ConstState K) F) (h : ConstAt t0 cfg.t1 dt0 N j s) :
    ConstAt t0 cfg.t1 dt0 N (j + 1) (coreBody cfg s).1 := by
  have ha := constAt_adapt cfg hc t0 cfg.t1 dt0 N j (by omega) ht1 s h
  have hle : s.tnext ≤ cfg.t1 := by
    rw [h.tnext hj, ht1]
    have : ((j : K) + 1) ≤ N := by exact_mod_cast hj
    nlinarith
  have e1 : (coreBody cfg s).1.tprev = min (adaptOut cfg s).tprev cfg.t1 := rfl
  have e2 : (coreBody cfg s).1.tnext = clipToEnd cfg.mid (min (adaptOut cfg s).tprev cfg.t1)
    (adaptOut cfg s).tnext cfg.t1 cfg.floor (adaptOut cfg s).keep := rfl
  have e3 : (coreBody cfg s).1.ctrlState = (adaptOut cfg s).state := rfl
  rw [ha] at e1 e2 e3
  refine ⟨?_, fun hj2 => ?_, ?_⟩
  · rw [e1]
    simp only
    rw [min_eq_left hle, h.tnext hj]
    push_cast; ring
  · rw [e2]
    unfold clipToEnd
    simp only [if_true]
    push_cast
    have e4 : t0 + ((j : K) + 1 + 1) * dt0 = t0 + (j + 2) * dt0 := by ring
    rw [e4]
    split
    · rename_i hclip
      rcases Nat.lt_or_ge (j + 2) N with hl | hl
      · exfalso
        have : ((j : K) + 3) ≤ N := by exact_mod_cast hl
        nlinarith
      · have : (N : K) = j + 2 := by
          have : N = j + 2 := by omega
          rw [this]; push_cast; ring
        rw [ht1, this]
    · rfl
  · rw [e3]
    push_cast
    rfl

/-- The states of a solve with steps `dt0`. -/
theorem constAt_run (cfg : Cfg K Y E D S (ConstState K) O F) (hc : cfg.controller = constantStepSize) (t0 dt0 : K)
    (hdt : 0 < dt0) (N : ℕ) (ht1 : cfg.t1 = t0 + N * dt0) (hfl : cfg.t1 - dt0 ≤ cfg.floor) (n : ℕ)
    (s : Core K Y D S (ConstState K) F) (h : ∃ j, j ≤ N ∧ ConstAt t0 cfg.t1 dt0 N j s) :
    (∀ s' ∈ attempts cfg n s, ∃ j, j < N ∧ ConstAt t0 cfg.t1 dt0 N j s') ∧
      ∃ j, j ≤ N ∧ ConstAt t0 cfg.t1 dt0 N j (coreRun cfg n s) := by
  have hlt : ∀ s : Core K Y D S (ConstState K) F, (∃ j, j ≤ N ∧ ConstAt t0 cfg.t1 dt0 N j s) → condFun cfg s = true →
      ∃ j, j < N ∧ ConstAt t0 cfg.t1 dt0 N j s := by
    rintro s ⟨j, hj, h⟩ hcond
    refine ⟨j, lt_of_le_of_ne hj ?_, h⟩
    rintro rfl
    have h3 : condFun cfg s = (decide (s.tprev < cfg.t1) && s.result.isSuccessful) := by
      unfold condFun
      rw [hc]
      rfl
    rw [h3, h.tprev, ht1] at hcond
    simp at hcond
  have := run_inv cfg (fun s => ∃ j, j ≤ N ∧ ConstAt t0 cfg.t1 dt0 N j s) n s h (by
    intro s _ hcond hs
    obtain ⟨j, hj, h⟩ := hlt s hs hcond
    exact ⟨j + 1, hj, constAt_body cfg hc t0 dt0 hdt N j hj ht1 hfl s h⟩)
  exact ⟨fun s' hs' => hlt s' (this.1 s' hs') (attempts_cond cfg n s s' hs'), this.2⟩

/-- The loop begins in such a state. -/
theorem constAt_init (cfg : Cfg K Y E D S (ConstState K) O F) (dt0 : K) (hdt : 0 < dt0) (N : ℕ) (hN : 0 < N)
    (ht1 : cfg.t1 = cfg.t0 + N * dt0) (y0 : Y) (tnext : K) (ctrl : ConstState K)
    (hinit : constInit id cfg.t0 (some cfg.t1) (some dt0) = some (tnext, ctrl)) (ss : S) (mj : Bool) :
    tnext = cfg.t0 + dt0 ∧ ConstAt cfg.t0 cfg.t1 dt0 N 0 (initState cfg y0 tnext ctrl ss mj).core := by
  simp only [constInit, Option.some.injEq, Prod.mk.injEq, id] at hinit
  obtain ⟨rfl, rfl⟩ := hinit
  refine ⟨rfl, by simp [initState], fun _ => ?_, ?_⟩
  · show min (cfg.t0 + dt0) cfg.t1 = _
    rw [min_eq_left]
    · push_cast; ring
    · rw [ht1]
      have : (1 : K) ≤ N := by exact_mod_cast hN
      nlinarith
  · show ConstState.mk _ _ _ _ = _
    have : (cfg.t1 - cfg.t0) / dt0 = ((N : ℤ) : K) := by
      rw [ht1, add_sub_cancel_left, mul_div_assoc, div_self hdt.ne']
      push_cast; ring
    rw [this, Int.ceil_intCast]
    push_cast
    rfl

/-- **C91.** With `ConstantStepSize`, where `dt0` divides the whole time into equal steps, a solve that was stopped by
`max_steps` is resumed by passing its states together with the same `dt0`: the second solve ends as the first would
have done if it had been given more steps. -/
theorem C91_constant [AddCommGroup Ct] (p : Problem m K Y VF Ct E D S (ConstState K) O F) (hctrl : p.controller = constClass id)
    (hstate : p.ctrlState = none) (dt0 : K) (hdt0 : p.dt0 = some dt0) (cfg : Cfg K Y E D S (ConstState K) O F) (tnext : K)
    (ctrl : ConstState K) (ss : S) (hs : p.setup = .ok (cfg, tnext, ctrl, ss)) (hwf : cfg.WF) (hdt : 0 < dt0 * p.direction)
    (N : ℕ) (hN : (p.t1 - p.t0) = N * dt0) (hN0 : 0 < N) (hfl : cfg.t1 - dt0 * p.direction ≤ cfg.floor)
    (n k : ℕ) (hmax : p.maxSteps = n + (k + 1)) (subs : List (SubSaveAt K Y O)) (hsubs : ∀ s ∈ subs, s.ts = [])
    (o1 : Output K Y D S (ConstState K) O F)
    (ho1 : o1 = solve { cfg with maxSteps := n } p.y0 tnext ctrl ss (p.madeJump.getD false))
    (hs1 : o1.core.tprev < cfg.t1) (hs2 : o1.core.result = .successful) :
    let p2 := p.resume o1 p.dt0 subs (k + 1)
    let o := solve cfg p.y0 tnext ctrl ss (p.madeJump.getD false)
    ∃ cfg2 tnext2 ctrl2 ss2, p2.setup = .ok (cfg2, tnext2, ctrl2, ss2) ∧
      let o2 := solve cfg2 p2.y0 tnext2 ctrl2 ss2 (p2.madeJump.getD false)
      o2.tfinal = o.tfinal ∧ o2.yfinal = o.yfinal ∧ o2.result = o.result ∧
        o2.core.solverState = o.core.solverState ∧ o2.core.ctrlState = o.core.ctrlState ∧
        o2.core.madeJump = o.core.madeJump ∧ o2.core.evMask = o.core.evMask ∧
        o1.core.numSteps + o2.core.numSteps = o.core.numSteps ∧
        o1.core.numAccepted + o2.core.numAccepted = o.core.numAccepted ∧
        o1.core.numRejected + o2.core.numRejected = o.core.numRejected := by
  intro p2 o
  have k1 := setup_ok p cfg tnext ctrl ss hs
  obtain ⟨w, hw, hwc, hf⟩ := k1.first
  rw [hctrl] at hw
  cases hw
  have hcc : cfg.controller = constantStepSize := hwc
  unfold firstStep at hf
  rw [hstate, hdt0] at hf
  simp only [Option.map_some] at hf
  have hinit : constInit id cfg.t0 (some cfg.t1) (some (dt0 * p.direction)) = some (tnext, ctrl) := by
    split at hf
    · rename_i r hr
      rw [hr]
      exact congrArg some (Except.ok.inj hf)
    · cases hf
  set d := dt0 * (p.direction : K) with hd
  have ht1 : cfg.t1 = cfg.t0 + N * d := by
    rw [k1.t0, k1.t1, hd]
    linear_combination (p.direction : K) * hN
  obtain ⟨e0, h0⟩ := constAt_init cfg d hdt N hN0 ht1 p.y0 tnext ctrl hinit ss (p.madeJump.getD false)
  have hrun := fun n => constAt_run cfg hcc cfg.t0 d hdt N ht1 hfl n
    (initState cfg p.y0 tnext ctrl ss (p.madeJump.getD false)).core ⟨0, Nat.zero_le _, h0⟩
  have hdt1 : o1.core.tnext - o1.core.tprev = d := by
    have hcore : o1.core = coreRun cfg n (initState cfg p.y0 tnext ctrl ss (p.madeJump.getD false)).core := by
      rw [ho1, solve_core]
      exact coreRun_begin cfg n n _
    obtain ⟨j, hj, h⟩ := (hrun n).2
    rw [← hcore] at h
    have hlt : j < N := by
      refine lt_of_le_of_ne hj ?_
      rintro rfl
      rw [h.tprev, ht1] at hs1
      exact lt_irrefl _ hs1
    rw [h.tprev, h.tnext hlt]
    ring
  have hfw : ∀ c ∈ callLog cfg p.y0 tnext ctrl ss (p.madeJump.getD false), (c.answer cfg).Forward c.ctrlT0 c.ctrlT1 := by
    intro c hc
    rw [log_eq] at hc
    obtain ⟨s, hs, rfl⟩ := List.mem_map.1 hc
    obtain ⟨j, hj, h⟩ := (hrun cfg.maxSteps).1 s hs
    have ha := constAt_adapt cfg hcc cfg.t0 cfg.t1 d N j hN0 ht1 s h
    show (adaptOut cfg s).Forward s.tprev s.tnext
    rw [ha]
    refine ⟨fun _ => le_refl _, fun h => Bool.noConfusion h, ?_⟩
    show s.tnext ≤ _
    rw [h.tnext hj]
    nlinarith
  have key := C91_resume_partial p cfg tnext ctrl ss hs hwf (by rw [hcc]; rfl) (by rw [e0]; linarith) hfw n k hmax subs
    hsubs o1 ho1 hs1 hs2
  rw [hdt1, hd, direction_sq, ← hdt0] at key
  exact key

/-- Values and states of the solver along a grid. -/
def gridVal (step : K → K → Y → S → Bool → StepOut Y E D S) (p : ℕ → K) (y0 : Y) (ss : S) (mj : Bool) : ℕ → Y × S × Bool
  | 0 => (y0, ss, mj)
  | k + 1 =>
    let v := gridVal step p y0 ss mj k
    let r := step (p k) (p (k + 1)) v.1 v.2.1 v.2.2
    (r.y, r.state, false)

theorem gridVal_add (step : K → K → Y → S → Bool → StepOut Y E D S) (p : ℕ → K) (y0 : Y) (ss : S) (mj : Bool) (a b : ℕ) :
    gridVal step p y0 ss mj (a + b) = gridVal step (fun j => p (a + j)) (gridVal step p y0 ss mj a).1
      (gridVal step p y0 ss mj a).2.1 (gridVal step p y0 ss mj a).2.2 b := by
  induction b with
  | zero => rfl
  | succ b ih =>
    rw [← Nat.add_assoc, gridVal, ih]
    rfl

/-- A solve on a grid gives the values along that grid. -/
theorem grid_values {C : Type} (cfg : Cfg K Y E D S C O F) (n : ℕ) (p : ℕ → K) (st : ℕ → C) (h : OnGrid cfg n p st)
    (y0 : Y) (ss : S) (mj : Bool) (i k : ℕ) (hk : k ≤ n) (hi : n - k ≤ i) (s : Core K Y D S C F) (h1 : s.tprev = p k)
    (h2 : k < n → s.tnext = p (k + 1)) (h3 : s.ctrlState = st k) (h4 : s.result = .successful) (h5 : s.numSteps = k)
    (hv : (s.y, s.solverState, s.madeJump) = gridVal cfg.solver.step p y0 ss mj k) :
    let r := coreRun cfg i s
    (r.y, r.solverState, r.madeJump) = gridVal cfg.solver.step p y0 ss mj n ∧ r.ctrlState = st n ∧ r.tprev = p n ∧
      r.result = .successful ∧ r.numSteps = n := by
  induction i generalizing k s with
  | zero =>
    obtain rfl : n = k := by omega
    exact ⟨hv, h3, h1, h4, h5⟩
  | succ i ih =>
    by_cases hlt : k < n
    · have hc := (h.cond k hk s h1 h5 h4).2 hlt
      obtain ⟨q, hq, hclip⟩ := h.adapt k hlt s.y
        (cfg.solver.step s.tprev s.tnext s.y s.solverState s.madeJump).y
        (cfg.cleanErr (cfg.solver.step s.tprev s.tnext s.y s.solverState s.madeJump).err)
      have ha : adaptOut cfg s =
          { keep := true, tprev := p (k + 1), tnext := q, madeJump := false,
            state := st (k + 1), result := .successful } := by
        unfold adaptOut solverOut
        rw [← hq, h3]
        have e1 := h1
        have e2 := h2 hlt
        rw [e1, e2]
      have b1 : (coreBody cfg s).1.tprev = p (k + 1) := by
        have : (coreBody cfg s).1.tprev = min (adaptOut cfg s).tprev cfg.t1 := rfl
        rw [this, ha]; exact min_eq_left (h.le (k + 1) (by omega))
      have b2 : k + 1 < n → (coreBody cfg s).1.tnext = p (k + 1 + 1) := by
        intro hk2
        have : (coreBody cfg s).1.tnext = clipToEnd cfg.mid (min (adaptOut cfg s).tprev cfg.t1)
          (adaptOut cfg s).tnext cfg.t1 cfg.floor (adaptOut cfg s).keep := rfl
        rw [this, ha]
        simp only
        rw [min_eq_left (h.le (k + 1) (by omega))]
        exact hclip hk2
      have b3 : (coreBody cfg s).1.ctrlState = st (k + 1) := by
        have : (coreBody cfg s).1.ctrlState = (adaptOut cfg s).state := rfl
        rw [this, ha]
      have b4 : (coreBody cfg s).1.result = .successful := by
        rw [coreBody_result cfg s (by rw [h4]; rfl)]
        have ht : (triggered cfg s).any id = false := by simp [triggered, h.events]
        have hs : (solverOut cfg s).result = .successful := h.okay _ _ _ _ _
        rw [ht, hs, ha]
        simp [Result.isOkay, Result.isSuccessful]
      have b5 : (coreBody cfg s).1.numSteps = k + 1 := by rw [coreBody_numSteps, h5]
      have b6 : ((coreBody cfg s).1.y, (coreBody cfg s).1.solverState, (coreBody cfg s).1.madeJump)
          = gridVal cfg.solver.step p y0 ss mj (k + 1) := by
        have e1 : (coreBody cfg s).1.y = if (adaptOut cfg s).keep then
          (cfg.solver.step s.tprev s.tnext s.y s.solverState s.madeJump).y else s.y := rfl
        have e2 : (coreBody cfg s).1.solverState = if (adaptOut cfg s).keep then
          (cfg.solver.step s.tprev s.tnext s.y s.solverState s.madeJump).state else s.solverState := rfl
        have e3 : (coreBody cfg s).1.madeJump = if (adaptOut cfg s).keep then (adaptOut cfg s).madeJump else s.madeJump := rfl
        rw [e1, e2, e3, ha, gridVal, ← hv, h1, h2 hlt]
        rfl
      have hr : coreRun cfg (i + 1) s = coreRun cfg i (coreBody cfg s).1 := by simp only [coreRun, hc, if_true]
      intro r
      rw [show r = coreRun cfg i (coreBody cfg s).1 from hr]
      exact ih (k + 1) (by omega) (by omega) _ b1 b2 b3 b4 b5 b6
    · obtain rfl : k = n := by omega
      have hc : condFun cfg s = false := by
        rw [Bool.eq_false_iff]
        intro hh
        exact hlt ((h.cond k (le_refl _) s h1 h5 h4).1 hh)
      have hr : coreRun cfg (i + 1) s = s := by simp [coreRun, hc]
      intro r
      rw [show r = s from hr]
      exact ⟨hv, h3, h1, h4, h5⟩

/-- What is seen at the end of a solve on a grid. -/
theorem grid_end {C : Type} (cfg : Cfg K Y E D S C O F) (n : ℕ) (p : ℕ → K) (st : ℕ → C) (h : OnGrid cfg n p st)
    (hmax : n ≤ cfg.maxSteps) (y0 : Y) (tnext : K) (ss : S) (mj : Bool) (h0 : cfg.t0 = p 0)
    (h1 : 0 < n → min tnext cfg.t1 = p 1) :
    let o := solve cfg y0 tnext (st 0) ss mj
    (o.yfinal, o.core.solverState, o.core.madeJump) = gridVal cfg.solver.step p y0 ss mj n ∧ o.core.ctrlState = st n ∧
      o.tfinal = p n ∧ o.result = .successful ∧ o.core.numSteps = n := by
  intro o
  have hinit : (initState cfg y0 tnext (st 0) ss mj).core.result = .successful := by
    simp [initState, h.events, firstTrue, Result.where']
  obtain ⟨v1, v2, v3, v4, v5⟩ := grid_values cfg n p st h y0 ss mj cfg.maxSteps 0 (Nat.zero_le _) (by omega)
    (initState cfg y0 tnext (st 0) ss mj).core h0 h1 rfl hinit rfl rfl
  rw [← solve_core] at v1 v2 v3 v4 v5
  have hmask : o.core.evMask.any id = false := by
    have hl := (eventInv_run cfg cfg.maxSteps _ (eventInv_init cfg y0 tnext (st 0) ss mj)).len
    rw [← solve_core, h.events] at hl
    rw [show o.core.evMask = [] from List.eq_nil_of_length_eq_zero hl]
    rfl
  have hfin := finalise_no_event cfg o.core hmask
  have hcond : condFun cfg o.core = false := by
    rw [Bool.eq_false_iff]
    intro hh
    exact absurd ((h.cond n (le_refl _) _ v3 v5 v4).1 hh) (lt_irrefl _)
  obtain ⟨e1, e2, e3⟩ := solve_end cfg y0 tnext (st 0) ss mj
  have hy : o.yfinal = o.core.y := by
    rw [show o.yfinal = _ from e2, hfin]
  refine ⟨?_, v2, ?_, ?_, v5⟩
  · rw [hy]; exact v1
  · rw [show o.tfinal = _ from e1, hfin]; exact v3
  · rw [show o.result = _ from e3, hcond, hfin]; exact v4

/-- The steps of `ConstantStepSize` with a state that belongs to steps of the same size: `c` of them made already, and
`M` to be made. -/
theorem constGrid (cfg : Cfg K Y E D S (ConstState K) O F) (hc : cfg.controller = constantStepSize)
    (hev : cfg.events = []) (hok : ∀ a b y s j, (cfg.solver.step a b y s j).result = .successful)
    (a dt0 : K) (hdt : 0 < dt0) (c M N : ℕ) (hM : 0 < M) (ht1 : cfg.t1 = a + (c + N : ℕ) * dt0)
    (hfl : cfg.t1 - dt0 ≤ cfg.floor) :
    OnGrid cfg N (fun j => a + (c + j : ℕ) * dt0)
      (fun j => { completed := (c + j : ℕ) + 1, numSteps := M, t0 := a, t1OrDt0 := a + M * dt0 }) where
  le j hj := by
    rw [ht1]
    have : ((c + j : ℕ) : K) ≤ (c + N : ℕ) := by exact_mod_cast Nat.add_le_add_left hj c
    nlinarith
  adapt j hj y y' e := by
    rw [hc]
    have hM' : (M : K) ≠ 0 := by exact_mod_cast hM.ne'
    have hnext : (constAdapt (a + ((c + (j + 1) : ℕ) : K) * dt0)
        ({ completed := ((c + j : ℕ) : ℤ) + 1, numSteps := M, t0 := a, t1OrDt0 := a + M * dt0 } : ConstState K)).tnext
        = a + ((c + (j + 2) : ℕ) : K) * dt0 := by
      unfold constAdapt
      have hge : (M : ℤ) ≥ 0 := by omega
      simp only [hge, if_true]
      split
      · rename_i e
        have : M = c + (j + 2) := by omega
        rw [this]
      · push_cast
        field_simp
        ring
    refine ⟨a + ((c + (j + 2) : ℕ) : K) * dt0, ?_, fun hj2 => ?_⟩
    · rw [← hnext]
      show constAdapt _ _ = _
      unfold constAdapt
      simp only [AdaptOut.mk.injEq, ConstState.mk.injEq, true_and, and_true]
      push_cast
      ring
    · unfold clipToEnd
      simp only [if_true]
      split
      · rename_i hclip
        rcases Nat.lt_or_ge (j + 2) N with hl | hl
        · exfalso
          have h1 : ((c + (j + 2) : ℕ) : K) + 1 ≤ (c + N : ℕ) := by exact_mod_cast (by omega : c + (j + 2) + 1 ≤ c + N)
          rw [ht1] at hfl
          nlinarith
        · have : N = j + 2 := by omega
          rw [ht1, this]
      · rfl
  cond j hj s hs _ hr := by
    have : condFun cfg s = decide (s.tprev < cfg.t1) := by
      unfold condFun
      rw [hc, hr]
      simp [constantStepSize, Result.isSuccessful]
    rw [this, decide_eq_true_iff, hs, ht1]
    constructor
    · intro h
      by_contra hh
      obtain rfl : j = N := by omega
      exact lt_irrefl _ h
    · intro h
      have : ((c + j : ℕ) : K) + 1 ≤ (c + N : ℕ) := by exact_mod_cast (by omega : c + j + 1 ≤ c + N)
      nlinarith
  events := hev
  okay := hok

/-- **C91.** With `ConstantStepSize`, where `dt0` divides both `[t0, t']` and `[t', t1]` into equal steps: a solve up to
`t'`, followed by a solve from `t'` with the final value and states of the first one and the same `dt0`, gives the
same as a single solve. -/
theorem C91_constant_segments (cfg cfg1 cfg2 : Cfg K Y E D S (ConstState K) O F) (dt0 : K) (hdt : 0 < dt0) (N1 N2 : ℕ)
    (hN1 : 0 < N1) (hN2 : 0 < N2)
    (hc : ∀ c ∈ [cfg, cfg1, cfg2], c.controller = constantStepSize ∧ c.events = [] ∧ c.solver = cfg.solver ∧
      c.t1 - dt0 ≤ c.floor ∧ N1 + N2 ≤ c.maxSteps)
    (hok : ∀ a b y s j, (cfg.solver.step a b y s j).result = .successful)
    (hend : cfg.t1 = cfg.t0 + (N1 + N2 : ℕ) * dt0) (h10 : cfg1.t0 = cfg.t0) (h11 : cfg1.t1 = cfg.t0 + N1 * dt0)
    (h20 : cfg2.t0 = cfg1.t1) (h21 : cfg2.t1 = cfg.t1) (y0 : Y) (ss : S) (mj : Bool) (tnext tnext1 : K)
    (ctrl ctrl1 : ConstState K) (hi : constInit id cfg.t0 (some cfg.t1) (some dt0) = some (tnext, ctrl))
    (hi1 : constInit id cfg1.t0 (some cfg1.t1) (some dt0) = some (tnext1, ctrl1)) :
    let o := solve cfg y0 tnext ctrl ss mj
    let o1 := solve cfg1 y0 tnext1 ctrl1 ss mj
    let o2 := solve cfg2 o1.yfinal (cfg2.t0 + dt0) o1.core.ctrlState o1.core.solverState o1.core.madeJump
    o1.tfinal = cfg1.t1 ∧ o2.tfinal = o.tfinal ∧ o2.yfinal = o.yfinal ∧ o2.result = .successful ∧
      o2.core.solverState = o.core.solverState ∧ o2.core.madeJump = o.core.madeJump ∧
      o1.core.numSteps + o2.core.numSteps = o.core.numSteps := by
  intro o o1 o2
  obtain ⟨⟨a1, a2, a3, a4, a5⟩, ⟨b1, b2, b3, b4, b5⟩, c1, c2, c3, c4, c5⟩ :
    (_ ∧ _ ∧ _ ∧ _ ∧ _) ∧ (_ ∧ _ ∧ _ ∧ _ ∧ _) ∧ (_ ∧ _ ∧ _ ∧ _ ∧ _) :=
    ⟨hc cfg (by simp), hc cfg1 (by simp), hc cfg2 (by simp)⟩
  have hsteps : ∀ N : ℕ, ⌈((N : K) * dt0) / dt0⌉ = (N : ℤ) := by
    intro N
    rw [mul_div_assoc, div_self hdt.ne', mul_one]
    exact Int.ceil_natCast N
  have hfirst : ∀ (c N : ℕ) (t : K), 0 < N → min (t + (c + 1 : ℕ) * dt0) (t + (c + N : ℕ) * dt0) = t + (c + 1 : ℕ) * dt0 := by
    intro c N t hN
    refine min_eq_left ?_
    have : ((c + 1 : ℕ) : K) ≤ (c + N : ℕ) := by exact_mod_cast Nat.add_le_add_left hN c
    nlinarith
  simp only [constInit, Option.some.injEq, Prod.mk.injEq, id] at hi hi1
  obtain ⟨rfl, hi⟩ := hi
  obtain ⟨rfl, hi1⟩ := hi1
  have g := constGrid cfg a1 a2 hok cfg.t0 dt0 hdt 0 (N1 + N2) (N1 + N2) (by omega) (by rw [hend, Nat.zero_add]) a4
  have g1 := constGrid cfg1 b1 b2 (by rw [b3]; exact hok) cfg.t0 dt0 hdt 0 N1 N1 hN1 (by rw [h11, Nat.zero_add]) b4
  have g2 := constGrid cfg2 c1 c2 (by rw [c3]; exact hok) cfg.t0 dt0 hdt N1 N1 N2 hN1 (by rw [h21, hend]) c4
  have hst : ctrl = { completed := ((0 + 0 : ℕ) : ℤ) + 1, numSteps := (N1 + N2 : ℕ), t0 := cfg.t0, t1OrDt0 := cfg.t0 + (N1 + N2 : ℕ) * dt0 } := by
    rw [← hi, hend, add_sub_cancel_left, hsteps]
    rfl
  have hst1 : ctrl1 = { completed := ((0 + 0 : ℕ) : ℤ) + 1, numSteps := (N1 : ℕ), t0 := cfg.t0, t1OrDt0 := cfg.t0 + N1 * dt0 } := by
    rw [← hi1, h10, h11, add_sub_cancel_left, hsteps]
    rfl
  have e := grid_end cfg (N1 + N2) _ _ g a5 y0 (cfg.t0 + dt0) ss mj (by simp) (fun h => by
    have := hfirst 0 (N1 + N2) cfg.t0 h
    rw [hend]
    simpa using this)
  have e1 := grid_end cfg1 N1 _ _ g1 (by omega) y0 (cfg1.t0 + dt0) ss mj (by simp [h10]) (fun h => by
    have := hfirst 0 N1 cfg.t0 h
    rw [h10, h11]
    simpa using this)
  simp only [← hst] at e
  simp only [← hst1] at e1
  obtain ⟨u1, u2, u3, u4, u5⟩ := e
  obtain ⟨v1, v2, v3, v4, v5⟩ := e1
  have e2 := grid_end cfg2 N2 _ _ g2 (by omega) o1.yfinal (cfg2.t0 + dt0) o1.core.solverState o1.core.madeJump
    (by rw [h20, h11]; simp) (fun h => by
      have := hfirst N1 N2 cfg.t0 h
      rw [h21, hend, h20, h11, ← this]
      congr 1
      push_cast
      ring)
  have hst2 : o1.core.ctrlState = { completed := ((N1 + 0 : ℕ) : ℤ) + 1, numSteps := (N1 : ℕ), t0 := cfg.t0, t1OrDt0 := cfg.t0 + N1 * dt0 } := by
    rw [show o1.core.ctrlState = _ from v2]
    simp
  simp only [← hst2] at e2
  obtain ⟨w1, w2, w3, w4, w5⟩ := e2
  have hgp : (fun j => cfg.t0 + ((0 + j : ℕ) : K) * dt0) = fun j : ℕ => cfg.t0 + (j : K) * dt0 := by
    funext j; rw [Nat.zero_add]
  rw [hgp] at u1 v1
  rw [b3] at v1
  rw [c3] at w1
  have hv' : gridVal cfg.solver.step (fun j : ℕ => cfg.t0 + (j : K) * dt0) y0 ss mj N1
      = (o1.yfinal, o1.core.solverState, o1.core.madeJump) := v1.symm
  have key : (o2.yfinal, o2.core.solverState, o2.core.madeJump) = (o.yfinal, o.core.solverState, o.core.madeJump) := by
    rw [show (o.yfinal, o.core.solverState, o.core.madeJump) = _ from u1, gridVal_add, hv']
    exact w1
  simp only [Prod.mk.injEq] at key
  refine ⟨?_, ?_, key.1, w4, key.2.1, key.2.2, ?_⟩
  · rw [show o1.tfinal = _ from v3, h11]; simp
  · rw [show o2.tfinal = _ from w3, show o.tfinal = _ from u3]; simp
  · rw [show o1.core.numSteps = _ from v5, show o2.core.numSteps = _ from w5, show o.core.numSteps = _ from u5]
end

/-! ## Witnesses -/

/-- `y' = y` with Euler's method and `ConstantStepSize`, from `t0` to `t1` with a step `dt0`. -/
def constP (t0 t1 dt0 : ℚ) : Problem 1 ℚ ℚ ℚ ℚ Unit (ℚ × ℚ) Unit (ConstState ℚ) ℚ ℚ :=
  { terms := fun _ => odeK (fun _ y => y)
    solver := statelessClass (fun t => euler t (fun _ _ d _ => d.1)) (fun _ _ d _ => d.1) (0, 0)
    controller := constClass id, t0 := t0, t1 := t1, dt0 := some dt0, y0 := 1
    subs := [], dense := false, events := [], rootFinder := none, dist := fun a b => a - b, maxSteps := 10, cleanErr := id
    floorOf := fun t => t - 1 / 1000000, mid := fun a b => (a + b) / 2 }

/-- The intervals over which the solver makes its steps. -/
def stepsOf [Ring T] [LinearOrder T] [LinearOrder F] [Zero F] [AddCommGroup Ct] (p : Problem m T Y VF Ct E D S C O F) :
    List (T × T) :=
  match p.setup with
  | .error _ => []
  | .ok (cfg, tnext, ctrl, ss) =>
    (callLog cfg p.y0 tnext ctrl ss (p.madeJump.getD false)).map (fun c => (c.solverT0, c.solverT1))

/-- What the loop of a problem gives. -/
def outOf [Ring T] [LinearOrder T] [LinearOrder F] [Zero F] [AddCommGroup Ct] (p : Problem m T Y VF Ct E D S C O F) :
    Option (Output T Y D S C O F) :=
  match p.setup with
  | .error _ => none
  | .ok (cfg, tnext, ctrl, ss) => some (solve cfg p.y0 tnext ctrl ss (p.madeJump.getD false))

/-- **C91 is false for `ConstantStepSize`.** A solve with `dt0=1` from `0` to `1/10` makes one short step. It is resumed with
all its states and the same `dt0` up to the time `3`, where one would expect steps of size `1`. The second step goes
backwards in time, from `11/10` to `3/10`, and after that the steps have size `1/10`. -/
theorem C91_violated_constant :
    (outOf (constP 0 (1 / 10) 1)).map (fun o =>
        (o.result, o.tfinal, stepsOf { (constP 0 (1 / 10) 1).resume o (some 1) [] 10 with t1 := 3 })) =
      some (.successful, 1 / 10,
        [(1 / 10, 11 / 10), (11 / 10, 3 / 10), (3 / 10, 4 / 10), (4 / 10, 5 / 10), (5 / 10, 6 / 10), (6 / 10, 7 / 10),
         (7 / 10, 8 / 10), (8 / 10, 9 / 10), (9 / 10, 1), (1, 11 / 10)]) ∧
    stepsOf (constP (1 / 10) 3 1) = [(1 / 10, 11 / 10), (11 / 10, 61 / 30), (61 / 30, 3)] := by
  decide +kernel

/-- `y' = -1000000 y` with a solver that always estimates its error as zero, and `PIDController`. -/
def pidP (maxSteps : ℕ) (dt0 : Option ℚ) :
    Problem 1 ℚ (XTree ℚ) (XTree ℚ) ℚ (XTree ℚ) Unit Unit (PidState ℚ) (XTree ℚ) ℚ :=
  { stiffProblem with t1 := 20, maxSteps := maxSteps, dt0 := dt0 }

/-- **C91 is false for `PIDController`.** A solve is stopped after three steps, where it would have made a step of size 10
next. It is resumed with all its states. Its first step has the size `1/100` if `dt0=None` and otherwise the size `dt0`:
the step size that had been found is neither returned nor part of the state of the controller. -/
theorem C91_violated_adaptive :
    stepsOf (pidP 4 none) = [(0, 1 / 100), (1 / 100, 11 / 100), (11 / 100, 111 / 100), (111 / 100, 1111 / 100)] ∧
    (outOf (pidP 3 none)).map (fun o => (o.result, o.tfinal, stepsOf ((pidP 3 none).resume o none [] 1))) =
      some (.maxStepsReached, 111 / 100, [(111 / 100, 112 / 100)]) := by
  decide +kernel

/-- The hypotheses of `C91_constant`, and so those of `C91_resume_partial`, hold for a solve from `0` to `1` with ten steps that is
stopped after three. -/
example : (match (constP 0 1 (1 / 10)).setup with
    | .error _ => false
    | .ok (cfg, tnext, ctrl, ss) =>
      let o1 := solve { cfg with maxSteps := 3 } (1 : ℚ) tnext ctrl ss false
      decide (cfg.t0 ≤ cfg.t1 ∧ cfg.floor ≤ cfg.t1 ∧ cfg.t1 - (1 / 10 : ℚ) ≤ cfg.floor ∧ o1.core.tprev = 3 / 10 ∧
        o1.core.tprev < cfg.t1 ∧ o1.core.result = .successful ∧ o1.result = .maxStepsReached)) = true ∧
    (∀ a b : ℚ, a ≤ b → a ≤ (constP 0 1 (1 / 10)).mid a b ∧ (constP 0 1 (1 / 10)).mid a b ≤ b) ∧
    (constP 0 1 (1 / 10)).t1 - (constP 0 1 (1 / 10)).t0 = (10 : ℕ) * (1 / 10) := by
  refine ⟨by decide +kernel, fun a b h => ⟨?_, ?_⟩, by norm_num [constP]⟩
  · show a ≤ (a + b) / 2
    linarith
  · show (a + b) / 2 ≤ b
    linarith

/-- A loop of `constP`. -/
def segCfg (t0 t1 : ℚ) : Cfg ℚ ℚ Unit (ℚ × ℚ) Unit (ConstState ℚ) ℚ ℚ :=
  { solver := euler (odeK (fun _ (y : ℚ) => y)).toTerm (fun _ _ d _ => d.1), controller := constantStepSize, cleanErr := id
    events := [], rootFinder := none, dist := fun a b => a - b, dummyDense := (0, 0), t0 := t0, t1 := t1
    floor := t1 - 1 / 1000000, mid := fun a b => (a + b) / 2, subs := [], dense := false, maxSteps := 10 }

/-- `C91_constant_segments` for four steps followed by six. -/
example :
    let o := solve (segCfg 0 1) (1 : ℚ) (1 / 10) ⟨1, 10, 0, 1⟩ () false
    let o1 := solve (segCfg 0 (2 / 5)) (1 : ℚ) (1 / 10) ⟨1, 4, 0, 2 / 5⟩ () false
    let o2 := solve (segCfg (2 / 5) 1) o1.yfinal (1 / 2) o1.core.ctrlState () o1.core.madeJump
    o1.tfinal = 2 / 5 ∧ o2.tfinal = o.tfinal ∧ o2.yfinal = o.yfinal := by
  have h := C91_constant_segments (segCfg 0 1) (segCfg 0 (2 / 5)) (segCfg (2 / 5) 1) (1 / 10) (by norm_num) 4 6
    (by norm_num) (by norm_num)
    (by
      intro c hc
      simp only [List.mem_cons, List.not_mem_nil, or_false] at hc
      rcases hc with rfl | rfl | rfl <;> exact ⟨rfl, rfl, rfl, by norm_num [segCfg], le_refl _⟩)
    (fun _ _ _ _ _ => rfl) (by norm_num [segCfg]) rfl (by norm_num [segCfg]) rfl rfl 1 () false (1 / 10) (1 / 10)
    ⟨1, 10, 0, 1⟩ ⟨1, 4, 0, 2 / 5⟩ (by decide +kernel) (by decide +kernel)
  obtain ⟨h1, h2, h3, -⟩ := h
  have e : (segCfg (2 / 5) 1).t0 + 1 / 10 = 1 / 2 := by norm_num [segCfg]
  rw [e] at h2 h3
  exact ⟨h1, h2, h3⟩

/-- `y' = t` with `ReversibleHeun`, and an event at the time `1/2` that is found by the root finder. -/
def eventP : Problem 1 ℚ ℚ ℚ ℚ ℚ (ℚ × ℚ) (ℚ × ℚ) (ConstState ℚ) ℚ ℚ :=
  { terms := fun _ => odeK (fun t _ => t)
    solver := reversibleHeunClass (T := ℚ) ℚ (fun t0 t1 d t => d.1 + (t - t0) / (t1 - t0) * (d.2 - d.1)) (0, 0)
    controller := constClass id, t0 := 0, t1 := 1, dt0 := some 1, y0 := 0
    subs := [], dense := false, events := [.flt (fun t _ => t - 1 / 2) none], rootFinder := some (fun _ _ _ => (1 / 2, none))
    dist := fun a b => a - b, maxSteps := 10, cleanErr := id
    floorOf := fun t => t - 1 / 1000000, mid := fun a b => (a + b) / 2 }

/-- **C91 is false after an event.** The solve ends at the event, at the time `1/2`, inside a step; the returned state of
the solver is that at the end of the step. Resumed with it and without the event, one step up to the time `1` adds `1/2` to the
value. A solve that starts anew adds the correct value `3/8`. -/
theorem C91_violated_event :
    (outOf eventP).map (fun o => (o.result, o.tfinal,
        (outOf { eventP.resume o (some (1 / 2)) [] 10 with events := [] }).map (fun o2 => (o2.tfinal, o2.yfinal - o.yfinal)),
        (outOf { eventP.resume o (some (1 / 2)) [] 10 with events := [], solverState := none }).map
          (fun o2 => (o2.tfinal, o2.yfinal - o.yfinal)))) =
      some (.eventOccurred, 1 / 2, some (1, 1 / 2), some (1, 3 / 8)) := by
  decide +kernel

end Verif
