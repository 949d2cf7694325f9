import Verif.Props.ClipJump
import Verif.Props.BacksolveConstant

/-!
# C99: `ClipStepSizeController` in solves that are given a controller state

Such solves are resumed ones (`diffeqsolve(..., controller_state=...)`), and all but the first of the solves of the backward
pass of `BacksolveAdjoint`. The first step is chosen at `/repo/diffrax/_integrate.py` 1250-1265.

The code keeps `step_ts` and `jump_ts` in the state, so that a resumed solve uses the times of the solve before; here the
two solves have the same `ClipStepSizeController`.
-/

set_option linter.unusedSectionVars false

namespace Verif

section
variable {T Y VF Ct E D S C O F : Type} {m : Nat}
variable [CommRing T] [LinearOrder T] [IsStrictOrderedRing T] [SuccOrder T] [PredOrder T] [NoMaxOrder T] [NoMinOrder T]
  [LinearOrder F] [Zero F] [AddCommGroup Ct]

/-- With `dt0=None` the first step is clipped, whatever the state. -/
theorem resume_first (p : Problem m T Y VF Ct E D S (ClipState T C) O F) (c : Clip T)
    (inner : Int → Except FrontError (WrappedController m T Y VF Ct E C)) (hc : p.controller = clipClass c inner)
    (hdt : p.dt0 = none) (st : ClipState T C) (hst : p.ctrlState = some st) (cfg : Cfg T Y E D S (ClipState T C) O F)
    (tnext : T) (ctrl : ClipState T C) (ss : S) (hs : p.setup = .ok (cfg, tnext, ctrl, ss)) :
    ∃ (w : WrappedController m T Y VF Ct E C) (i0 : T × C), inner p.direction = .ok w ∧ cfg.controller = clipController (c.wrap (· * (p.direction : T))) w.ctrl ∧
      tnext = ((c.wrap (· * (p.direction : T))).init cfg.t0 i0).1 ∧ ctrl = st := by
  obtain ⟨w', hw', hcc, hf⟩ := (setup_ok p cfg tnext ctrl ss hs).first
  rw [hc] at hw'
  unfold clipClass at hw'
  cases hi : inner p.direction with
  | error e => rw [hi] at hw'; cases hw'
  | ok w =>
    rw [hi] at hw'
    cases hw'
    rw [hdt, hst] at hf
    simp only [Option.map_none, firstStep, bind, Except.bind] at hf
    cases hr : w.init (fun i => wrapTerm p.direction (p.terms i)) cfg.t0 cfg.t1 p.y0 none with
    | error e => rw [hr] at hf; cases hf
    | ok r =>
      rw [hr] at hf
      cases hf
      exact ⟨w, r, rfl, hcc, rfl, rfl⟩

/-- **C99, partial: `step_ts`.** A solve that is given the state of a `ClipStepSizeController` and `dt0=None` steps exactly to the
requested times, as a new solve does (C28). -/
theorem C99_step_ts_partial (p : Problem m T Y VF Ct E D S (ClipState T C) O F) (c : Clip T)
    (inner : Int → Except FrontError (WrappedController m T Y VF Ct E C)) (hc : p.controller = clipClass c inner)
    (hex : ∀ w, inner p.direction = .ok w → w.ctrl.Exact)
    (hdt : p.dt0 = none) (st : ClipState T C) (hst : p.ctrlState = some st)
    (hr : st.InRange (c.wrap (· * (p.direction : T)))) (cfg : Cfg T Y E D S (ClipState T C) O F)
    (tnext : T) (ctrl : ClipState T C) (ss : S) (hs : p.setup = .ok (cfg, tnext, ctrl, ss)) (hwf : cfg.WF)
    (hown : cfg.OwnCodes) (mj : Bool) (hok : (solve cfg p.y0 tnext ctrl ss mj).result = .successful)
    (s : T) (hm : s ∈ c.steps) (h0 : cfg.t0 < s * p.direction) (hfl : s * p.direction ≤ cfg.floor) :
    (∃ x ∈ history cfg p.y0 tnext ctrl ss mj, accepted cfg x = true ∧ x.tnext = s * p.direction) ∨
    ∃ x ∈ history cfg p.y0 tnext ctrl ss mj, Near (c.wrap (· * (p.direction : T))) x.tprev (s * p.direction) ∨
      (accepted cfg x = true ∧ Near (c.wrap (· * (p.direction : T))) x.tnext (s * p.direction)) := by
  obtain ⟨w, i0, hw, hctl, rfl, rfl⟩ := resume_first p c inner hc hdt st hst cfg tnext ctrl ss hs
  obtain ⟨hsort, hmem, -, -⟩ := Clip.wrap_sorted (· * (p.direction : T)) c
  have hm' := (hmem (s * p.direction)).2 ⟨s, hm, rfl⟩
  generalize c.wrap (· * (p.direction : T)) = c' at *
  have hsu := solve_successful cfg hwf hown (by rw [hctl]; rfl) p.y0 _ _ ss mj hok
  have hend : s * p.direction ≤ (coreRun cfg cfg.maxSteps
      (initState cfg p.y0 (c'.init cfg.t0 i0).1 ctrl ss mj).core).tprev := by
    rw [← solve_core, hsu.1]; exact le_trans hfl hwf.floor_le
  obtain ⟨x, hx, h⟩ := step_hit cfg c' hsort w.ctrl hctl (hex w hw) (s * p.direction) hm' hfl cfg.maxSteps
    (initState cfg p.y0 (c'.init cfg.t0 i0).1 ctrl ss mj).core hr h0
    (le_trans (min_le_left _ _) (init_step c' hsort cfg.t0 i0 _ hm' h0)) hend
  rcases h with h | h
  · exact Or.inl ⟨x, hx, h⟩
  · exact Or.inr ⟨x, hx, h⟩

/-- **C99, partial: `jump_ts`.** Such a solve makes no step over an interval that contains a jump (C29). -/
theorem C99_jump_ts_partial (p : Problem m T Y VF Ct E D S (ClipState T C) O F) (c : Clip T)
    (inner : Int → Except FrontError (WrappedController m T Y VF Ct E C)) (hc : p.controller = clipClass c inner)
    (hdt : p.dt0 = none) (st : ClipState T C) (hst : p.ctrlState = some st)
    (hr : st.InRange (c.wrap (· * (p.direction : T)))) (hna : NoAdjacent (c.wrap (· * (p.direction : T))).jumps)
    (cfg : Cfg T Y E D S (ClipState T C) O F)
    (tnext : T) (ctrl : ClipState T C) (ss : S) (hs : p.setup = .ok (cfg, tnext, ctrl, ss)) (mj : Bool)
    (j : T) (hj : j ∈ c.jumps) (h0 : cfg.t0 < j * p.direction) (hfl : Order.pred (j * p.direction) ≤ cfg.floor) :
    ∀ l ∈ callLog cfg p.y0 tnext ctrl ss mj, l.solverT1 < j * p.direction ∨ j * p.direction < l.solverT0 := by
  obtain ⟨w, i0, hw, hctl, rfl, rfl⟩ := resume_first p c inner hc hdt st hst cfg tnext ctrl ss hs
  obtain ⟨hsort, -, hmem, -⟩ := Clip.wrap_sorted (· * (p.direction : T)) c
  have hj' := (hmem (j * p.direction)).2 ⟨j, hj, rfl⟩
  generalize c.wrap (· * (p.direction : T)) = c' at *
  have hinv := (run_inv cfg (fun s => s.ctrlState.InRange c' ∧
    (s.tprev < cfg.t1 → ¬ (s.tprev ≤ j * p.direction ∧ j * p.direction ≤ s.tnext))) cfg.maxSteps
    (initState cfg p.y0 (c'.init cfg.t0 i0).1 ctrl ss mj).core
    ⟨hr, by
      rintro - ⟨_, h⟩
      have h1 : (initState cfg p.y0 (c'.init cfg.t0 i0).1 ctrl ss mj).core.tnext
        ≤ (c'.init cfg.t0 i0).1 := min_le_left _ _
      exact absurd (le_trans h (le_trans h1 (init_jump c' hsort cfg.t0 i0 _ hj' h0)))
        (not_le.2 (Order.pred_lt _))⟩
    (by
      rintro s - - ⟨hr, _⟩
      exact ⟨coreBody_inRange cfg c' hsort w.ctrl hctl s hr,
        jump_safe cfg c' hsort hna w.ctrl hctl s hr _ hj' hfl⟩)).1
  intro l hl
  rw [log_eq_history] at hl
  obtain ⟨s, hsm, rfl⟩ := List.mem_map.1 hl
  have hcond := attempts_cond cfg _ _ s hsm
  have hlt : s.tprev < cfg.t1 := by
    simp only [condFun, hctl, clipController, Bool.and_eq_true, decide_eq_true_eq] at hcond
    exact hcond.1
  have := (hinv s hsm).2 hlt
  show s.tnext < _ ∨ _ < s.tprev
  rcases lt_or_ge s.tnext (j * p.direction) with h | h
  · exact Or.inl h
  · exact Or.inr (lt_of_not_ge fun h' => this ⟨h', h⟩)

/-- The state at the end of any solve with the same controller, in either direction, meets the hypothesis of the two theorems
above: its indices are in range. -/
theorem C99_state (cfg : Cfg T Y E D S (ClipState T C) O F) (c : Clip T) (dir dir' : T → T) (inner : Controller T Y E C)
    (hctl : cfg.controller = clipController (c.wrap dir) inner) (y0 : Y) (tnext : T) (ctrl : ClipState T C) (ss : S)
    (mj : Bool) (hr : ctrl.InRange (c.wrap dir)) :
    (solve cfg y0 tnext ctrl ss mj).core.ctrlState.InRange (c.wrap dir') := by
  have h : (solve cfg y0 tnext ctrl ss mj).core.ctrlState.InRange (c.wrap dir) := by
    rw [solve_core]
    exact (run_inv cfg (fun s => s.ctrlState.InRange (c.wrap dir)) cfg.maxSteps _ hr
      fun s _ _ h => coreBody_inRange cfg _ (Clip.wrap_sorted dir c).1 inner hctl s h).2
  have l1 : ∀ d : T → T, (c.wrap d).steps.length = c.steps.length := by
    intro d; unfold Clip.wrap Clip.steps; cases c.stepTs <;> simp
  have l2 : ∀ d : T → T, (c.wrap d).jumps.length = c.jumps.length := by
    intro d; unfold Clip.wrap Clip.jumps; cases c.jumpTs <;> simp
  exact ⟨by rw [l1, ← l1 dir]; exact h.step, by rw [l2, ← l2 dir]; exact h.jump⟩

end

/-! ## Witnesses -/

/-- An adaptive controller on integer times: it rejects steps longer than `longest` and tries half the length, and otherwise
accepts; the next step has the length `2`, as has the first if `dt0=None`. -/
def halvingClass (longest : Int) (_dir : Int) :
    Except FrontError (WrappedController 1 Int Int Int Int Unit Unit) :=
  .ok
    { init := fun _ t0 _ _ dt0 => .ok (t0 + dt0.getD 2, ())
      ctrl :=
        { adapt := fun a b _ _ _ _ =>
            if longest < b - a then
              { keep := false, tprev := a, tnext := a + (b - a) / 2, madeJump := false, state := (), result := .successful }
            else
              { keep := true, tprev := b, tnext := b + 2, madeJump := false, state := (), result := .successful }
          stepTo := none } }

/-- `y' = y` with Euler's method. -/
def clipP (ctl : Int → Except FrontError (WrappedController 1 Int Int Int Int Unit (ClipState Int Unit))) (t0 t1 : Int)
    (dt0 : Option Int) (maxSteps : ℕ) : Problem 1 Int Int Int Int Unit (Int × Int) Unit (ClipState Int Unit) Int Int :=
  { terms := fun _ => odeK (fun _ y => y)
    solver := statelessClass (fun t => euler t (fun _ _ d _ => d.1)) (fun _ _ d _ => d.1) (0, 0)
    controller := ctl, t0 := t0, t1 := t1, dt0 := dt0, y0 := 1
    subs := [], dense := false, events := [], rootFinder := none, dist := fun a b => a - b, maxSteps := maxSteps
    cleanErr := id, floorOf := fun t => t - 1, mid := fun a b => (a + b) / 2 }

/-- `ClipStepSizeController` with at most one time in each list, where there is nothing to be sorted. -/
def singleClass {Y VF Ct E C : Type} {m : ℕ} (a b : Option Int) (n : Option ℕ)
    (inner : Int → Except FrontError (WrappedController m Int Y VF Ct E C)) (dir : Int) :
    Except FrontError (WrappedController m Int Y VF Ct E (ClipState Int C)) := do
  let w ← inner dir
  let c : Clip Int := { stepTs := a.map fun x => [x * dir], jumpTs := b.map fun x => [x * dir], storeRejected := n }
  pure
    { init := fun terms t0 t1 y0 dt0 => do
        let r ← w.init terms t0 t1 y0 dt0
        pure (c.init t0 r)
      ctrl := clipController c w.ctrl }

theorem clipClass_single {Y VF Ct E C : Type} {m : ℕ} (a b : Option Int) (n : Option ℕ)
    (inner : Int → Except FrontError (WrappedController m Int Y VF Ct E C)) :
    clipClass { stepTs := a.map ([·]), jumpTs := b.map ([·]), storeRejected := n } inner = singleClass a b n inner := by
  funext dir
  have h : Clip.wrap (· * ((dir : Int) : Int)) { stepTs := a.map ([·]), jumpTs := b.map ([·]), storeRejected := n } =
      { stepTs := a.map fun x => [x * dir], jumpTs := b.map fun x => [x * dir], storeRejected := n } := by
    cases a <;> cases b <;> simp [Clip.wrap]
  unfold clipClass singleClass
  simp only [Int.cast_id, h]

/-- A step to `9` is asked for, and there is a jump at `7`. -/
def exClip1 : Int → Except FrontError (WrappedController 1 Int Int Int Int Unit (ClipState Int Unit)) :=
  clipClass { stepTs := some [9], jumpTs := some [7], storeRejected := none } (halvingClass 5)

theorem exClip1_eq : exClip1 = singleClass (some 9) (some 7) none (halvingClass 5) := clipClass_single (some 9) (some 7) none _

/-- **C99 is false if `dt0` is given.** A solve from `0` to `5` with `dt0=5` is resumed up to `20` with its controller state and the
same `dt0`. There is a jump at `7`, and a step to `9` is asked for. The first step is from `5` to `10`, across both. A new solve
stops before the jump, and the solve resumed with `dt0=None` does too. -/
theorem C99_violated_dt0 :
    (outOf (clipP exClip1 0 5 (some 5) 20)).map (fun o =>
        (o.result, o.tfinal, (stepsOf { (clipP exClip1 0 5 (some 5) 20).resume o (some 5) [] 20 with t1 := 20 }).take 2)) =
      some (.successful, 5, [(5, 10), (10, 12)]) ∧
    (outOf (clipP exClip1 0 5 (some 5) 20)).map (fun o =>
        (stepsOf { (clipP exClip1 0 5 (some 5) 20).resume o none [] 20 with t1 := 20 }).take 2) =
      some [(5, 6), (8, 9)] ∧
    (stepsOf (clipP exClip1 5 20 (some 5) 20)).take 2 = [(5, 6), (8, 9)] := by
  rw [exClip1_eq]
  decide +kernel

/-- A controller that accepts all steps and makes steps of size `4`. -/
def fourClass (_dir : Int) :
    Except FrontError (WrappedController 1 Int (Int × Int × Int) (Int × Int × Int) Int Unit Unit) :=
  .ok
    { init := fun _ t0 _ _ dt0 => .ok (t0 + dt0.getD 2, ())
      ctrl :=
        { adapt := fun _ b _ _ _ _ =>
            { keep := true, tprev := b, tnext := b + 4, madeJump := false, state := (), result := .successful }
          stepTo := none } }

/-- A solve of the backward pass of `BacksolveAdjoint` for `y' = θ y`, with `dt0=5`, together with its steps. -/
def clipBackSolve (ctl : Int → Except FrontError
      (WrappedController 1 Int (Int × Int × Int) (Int × Int × Int) Int Unit (ClipState Int Unit))) :
    Backsolve.Solve Int Int Int (ClipState Int Unit × List (List (Int × Int))) :=
  fun s t z st mj =>
    let p : Problem 1 Int (Int × Int × Int) (Int × Int × Int) Int Unit ((Int × Int × Int) × (Int × Int × Int)) Unit
        (ClipState Int Unit) Int Int :=
      { terms := fun _ => odeK (fun _ z => (z.1, -z.2.1, -(z.1 * z.2.1)))
        solver := statelessClass (fun t => euler t (fun _ _ d _ => d.1)) (fun _ _ d _ => d.1) (0, 0)
        controller := ctl, t0 := s, t1 := t, dt0 := some (-5), y0 := z
        subs := [], dense := false, events := [], rootFinder := none, dist := fun a b => a - b, maxSteps := 20
        cleanErr := id, floorOf := fun t => t - 1, mid := fun a b => (a + b) / 2, ctrlState := st.map (·.1)
        madeJump := some mj }
    match outOf p with
    | none => (z, ⟨0, 0, 0, [], ()⟩, [])
    | some o => (o.yfinal, o.core.ctrlState, (st.map (·.2)).getD [] ++ [stepsOf p])

/-- **C99 is false in the backward pass of `BacksolveAdjoint`, if `dt0` is given.** There is a jump at `9`. The times are mirrored.
The first solve is from `20` to `12`. The second one, from `12` to `0`, starts with a step from `12` to `7`, across the jump. If
it is made on its own it stops before the jump. -/
theorem C99_violated_backsolve :
    (Backsolve.sweep (clipBackSolve (clipClass { stepTs := none, jumpTs := some [9], storeRejected := none } fourClass))
      (Backsolve.chain 0 [(12, 1, 1), (20, 1, 1)])).2.map (·.2) =
      some [[(-20, -15), (-15, -12)], [(-12, -7), (-7, -3), (-3, 0)]] ∧
    (Backsolve.sweep (clipBackSolve (clipClass { stepTs := none, jumpTs := some [9], storeRejected := none } fourClass))
      (Backsolve.chain 0 [(12, 1, 1)])).2.map (·.2) = some [[(-12, -10), (-8, -6), (-6, -2), (-2, 0)]] := by
  have e : clipClass (Y := Int × Int × Int) (VF := Int × Int × Int) (Ct := Int) (E := Unit) (C := Unit) (m := 1) (T := Int)
      { stepTs := none, jumpTs := some [9], storeRejected := none } fourClass
      = singleClass none (some 9) none fourClass := clipClass_single none (some 9) none _
  rw [e]
  decide +kernel

/-- Rejected times are stored. -/
def exClip2 : Int → Except FrontError (WrappedController 1 Int Int Int Int Unit (ClipState Int Unit)) :=
  clipClass { stepTs := none, jumpTs := none, storeRejected := some 4 } (halvingClass 3)

theorem exClip2_eq : exClip2 = singleClass none none (some 4) (halvingClass 3) := clipClass_single none none (some 4) _

/-- **C99 is false for rejected times.** With `store_rejected_steps=4` and `dt0=12`, two steps are rejected, and the
solve is stopped by `max_steps=2`. Resumed with its state, it makes the step of size `12` again, across the time `6` of the
rejected step that it ought to step to: the solve fails with an internal error. A new solve succeeds. -/
theorem C99_violated_rejected :
    stepsOf (clipP exClip2 0 20 (some 12) 2) = [(0, 12), (0, 6)] ∧
    (outOf (clipP exClip2 0 20 (some 12) 2)).map (fun o => (o.result, o.tfinal)) = some (.maxStepsReached, 0) ∧
    (outOf (clipP exClip2 0 20 (some 12) 2)).map (fun o =>
        (outOf ((clipP exClip2 0 20 (some 12) 2).resume o (some 12) [] 20)).map (fun o2 => (o2.result, o2.tfinal))) =
      some (some (.internalError, 0)) ∧
    (outOf (clipP exClip2 0 20 (some 12) 20)).map (fun o => (o.result, o.tfinal)) = some (.successful, 20) := by
  rw [exClip2_eq]
  decide +kernel

/-- The hypotheses of `C99_step_ts_partial` and `C99_jump_ts_partial` for a solve from `0` to `5` that is resumed up to `20`
with `dt0=None`. -/
example :
    (match outOf (clipP exClip1 0 5 none 20) with
      | none => false
      | some o =>
        let p : Problem 1 Int Int Int Int Unit (Int × Int) Unit (ClipState Int Unit) Int Int :=
          { (clipP exClip1 0 5 none 20).resume o none [] 20 with t1 := 20 }
        decide (p.dt0 = none ∧ p.ctrlState = some o.core.ctrlState ∧ o.core.ctrlState.stepIdx ≤ 1 ∧ o.core.ctrlState.jumpIdx ≤ 1) &&
        match p.setup with
        | .error _ => false
        | .ok (cfg, tnext, ctrl, ss) =>
          decide ((solve cfg p.y0 tnext ctrl ss false).result = .successful ∧ cfg.t0 = 5 ∧ cfg.floor = 19 ∧ cfg.floor ≤ cfg.t1)) =
      true := by
  rw [exClip1_eq]
  decide +kernel

end Verif
