import Verif.Props.Front
import Verif.Props.Loop
import Verif.Lemmas.Pid
import Mathlib.Data.Rat.Floor
import Mathlib.Algebra.Order.Ring.Rat
import Mathlib.Tactic.NormNum
import Mathlib.Tactic.FieldSimp

/-!
# C56 (times seen by event conditions) and C60 (automatic first step); examples for C20 and C54
-/

set_option linter.unusedSectionVars false

namespace Verif

variable {T Y VF Ct E D S C O F : Type} {m : Nat}

section
variable [CommRing T] [LinearOrder T] [IsStrictOrderedRing T] [LinearOrder F] [Zero F] [AddCommGroup Ct]

/-- What the loop is given. -/
structure Problem.SetupOk (p : Problem m T Y VF Ct E D S C O F) (cfg : Cfg T Y E D S C O F) (tnext : T)
    (ctrl : C) : Prop where
  t0 : cfg.t0 = p.t0 * p.direction
  t1 : cfg.t1 = p.t1 * p.direction
  events : cfg.events = p.events
  rootFinder : cfg.rootFinder = p.rootFinder
  mid : cfg.mid = p.mid
  floor : cfg.floor = p.floorOf cfg.t1
  maxSteps : cfg.maxSteps = p.maxSteps
  first : ∃ w, p.controller p.direction = .ok w ∧ cfg.controller = w.ctrl ∧
    firstStep w (fun i => wrapTerm p.direction (p.terms i)) cfg.t0 cfg.t1 p.y0
      (p.dt0.map (· * (p.direction : T))) p.ctrlState = .ok (tnext, ctrl)

theorem setup_ok (p : Problem m T Y VF Ct E D S C O F) (cfg : Cfg T Y E D S C O F) (tnext : T) (ctrl : C) (ss : S)
    (hs : p.setup = .ok (cfg, tnext, ctrl, ss)) : p.SetupOk cfg tnext ctrl := by
  unfold Problem.setup at hs
  simp only [bind, Except.bind] at hs
  split at hs
  · cases hs
  split at hs
  · cases hs
  rename_i w hw
  split at hs
  · cases hs
  split at hs
  · cases hs
  rename_i r hr
  simp only [pure, Except.pure, Except.ok.injEq, Prod.mk.injEq] at hs
  obtain ⟨rfl, rfl, rfl, rfl⟩ := hs
  exact ⟨rfl, rfl, rfl, rfl, rfl, rfl, rfl, w, hw, rfl, hr⟩

theorem diffeqsolve_ok (p : Problem m T Y VF Ct E D S C O F) (s : Sol T Y D S C O F) (h : diffeqsolve p = .ok s) :
    ∃ cfg tnext ctrl ss, p.setup = .ok (cfg, tnext, ctrl, ss) ∧
      s = p.finish cfg (solve cfg p.y0 tnext ctrl ss (p.madeJump.getD false)) := by
  unfold diffeqsolve at h
  cases hs : p.setup with
  | error e => rw [hs] at h; cases h
  | ok r =>
    obtain ⟨cfg, tnext, ctrl, ss⟩ := r
    rw [hs] at h
    cases h
    exact ⟨cfg, tnext, ctrl, ss, rfl, rfl⟩

/-! ## C56 -/

/-- A solve with an event that is true at the beginning makes no step. -/
theorem solve_event_at_start (cfg : Cfg T Y E D S C O F) (c : T → Y → Bool) (he : cfg.events = [.bool c])
    (y0 : Y) (tnext : T) (ctrl : C) (ss : S) (mj : Bool) (hc : c cfg.t0 y0 = true) :
    (solve cfg y0 tnext ctrl ss mj).core.numSteps = 0 ∧ (solve cfg y0 tnext ctrl ss mj).core.evMask = [true] := by
  have hi : (initState cfg y0 tnext ctrl ss mj).core.result = .eventOccurred ∧
      (initState cfg y0 tnext ctrl ss mj).core.evMask = [true] := by
    simp [initState, he, EventCond.initMask, hc, firstTrue, Result.where']
  have hcond : condFun cfg (loopStart cfg (initState cfg y0 tnext ctrl ss mj)).core = false := by
    show condFun cfg (initState cfg y0 tnext ctrl ss mj).core = false
    unfold condFun
    rw [hi.1]
    simp [Result.isSuccessful]
  have hw : ∀ n, whileLoop cfg n (loopStart cfg (initState cfg y0 tnext ctrl ss mj))
      = loopStart cfg (initState cfg y0 tnext ctrl ss mj) := by
    intro n
    cases n with
    | zero => rfl
    | succ n => simp only [whileLoop, hcond, Bool.false_eq_true, if_false]
  rw [solve_eq, hw]
  exact ⟨rfl, hi.2⟩

/-- **C56 is false.** Solve any problem backwards over `[t1, t0]` with `0 < t0`, and an event whose condition
is that the time be negative. If `0 ≤ t1` no time of the problem is negative, but the event triggers at once:
the condition is given `-t0` in place of `t0`. -/
theorem C56_violated (p : Problem m T Y VF Ct E D S C O F) (hback : p.t1 < p.t0) (h0 : 0 < p.t0)
    (he : p.events = [.bool (fun t _ => decide (t < 0))]) (s : Sol T Y D S C O F) (h : diffeqsolve p = .ok s) :
    s.numSteps = 0 ∧ s.eventMask = [true] := by
  obtain ⟨cfg, tnext, ctrl, ss, hs, rfl⟩ := diffeqsolve_ok p s h
  have k := setup_ok p cfg tnext ctrl ss hs
  have hd : p.direction = -1 := by simp [Problem.direction, not_lt.2 hback.le]
  exact solve_event_at_start cfg _ (k.events.trans he) p.y0 tnext ctrl ss _ (by
    rw [k.t0, hd]; simpa using h0)

/-- **C56, what holds.** Forwards, the conditions are given the user's times. Backwards they are given the
negated ones: if the condition gets time `t`, it is `-t` that lies in `[t1, t0]`. -/
theorem C56_times_partial (p : Problem m T Y VF Ct E D S C O F) (cfg : Cfg T Y E D S C O F) (tnext : T) (ctrl : C)
    (ss : S) (hs : p.setup = .ok (cfg, tnext, ctrl, ss)) (hwf : cfg.WF) (htn : cfg.t0 ≤ tnext)
    (hc : ∀ c ∈ callLog cfg p.y0 tnext ctrl ss (p.madeJump.getD false),
      (c.answer cfg).Forward c.ctrlT0 c.ctrlT1) :
    cfg.events = p.events ∧
    ∀ c ∈ callLog cfg p.y0 tnext ctrl ss (p.madeJump.getD false),
      (p.t0 < p.t1 → p.t0 ≤ c.solverT0 ∧ c.solverT0 ≤ c.solverT1 ∧ c.solverT1 ≤ p.t1) ∧
      (¬ p.t0 < p.t1 → p.t1 ≤ -c.solverT1 ∧ -c.solverT1 ≤ -c.solverT0 ∧ -c.solverT0 ≤ p.t0) := by
  have k := setup_ok p cfg tnext ctrl ss hs
  refine ⟨k.events, fun c hcm => ?_⟩
  have h1 := (C01_time_forward cfg hwf p.y0 tnext ctrl ss _ htn hc).1 c hcm
  rw [k.t0, k.t1] at h1
  constructor
  · intro hlt
    have hd : p.direction = 1 := by simp [Problem.direction, hlt]
    rw [hd] at h1
    simpa using h1
  · intro hlt
    have hd : p.direction = -1 := by simp [Problem.direction, hlt]
    rw [hd] at h1
    simp only [Int.cast_neg, Int.cast_one, mul_neg, mul_one] at h1
    refine ⟨?_, neg_le_neg h1.2.1, ?_⟩
    · linarith [h1.2.2]
    · linarith [h1.1]

end

/-! ## C60 -/

section
variable {K : Type} [Field K] [LinearOrder K] [IsStrictOrderedRing K]

/-- **C60 is false.** With `dt0=None` and a `PIDController`, the first step of every solve is `1/100` (then
limited by `dtmax` and `dtmin`), whatever the equation, its initial value and the tolerances: the terms
have been wrapped, so they are never recognised as an ODE. -/
theorem C60_violated [LinearOrder F] [Zero F] [AddCommGroup Ct] (pid : Pid K)
    (p : Problem m K (XTree K) (XTree K) Ct (XTree K) D S (PidState K) O F)
    (hctrl : p.controller = pidClass pid) (hdt0 : p.dt0 = none) (cfg : Cfg K (XTree K) (XTree K) D S (PidState K) O F)
    (tnext : K) (ctrl : PidState K) (ss : S) (hs : p.setup = .ok (cfg, tnext, ctrl, ss)) :
    tnext = p.t0 * p.direction +
      (let h := match pid.dtmax with
        | some m => min (1 / 100) m
        | none => 1 / 100
       match pid.dtmin with
        | some m => max h m
        | none => h) := by
  have k := setup_ok p cfg tnext ctrl ss hs
  obtain ⟨w, hw, _, hf⟩ := k.first
  rw [hctrl] at hw
  cases hw
  have hpf : ∀ t0 y0, pidFirst pid (fun i => wrapTerm p.direction (p.terms i)) t0 y0 = .fin (1 / 100) :=
    pidFirst_wrapped pid _ (fun _ => rfl)
  have key : ∀ t : K, ((pid.init (.fin t) (.fin (1 / 100))).1).toK t = t +
      (let h := match pid.dtmax with
        | some m => min (1 / 100) m
        | none => 1 / 100
       match pid.dtmin with
        | some m => max h m
        | none => h) := by
    intro t
    unfold Pid.init
    cases pid.dtmax <;> cases pid.dtmin <;> simp [XVal.min_fin, XVal.max_fin, XVal.add, XVal.toK]
  rw [← k.t0, ← key]
  unfold firstStep at hf
  cases hc : p.ctrlState with
  | none =>
    rw [hc] at hf
    simp only [hdt0, Option.map_none, hpf, Except.ok.injEq, Prod.mk.injEq] at hf
    exact hf.1.symm
  | some c =>
    rw [hc] at hf
    simp only [hdt0, Option.map_none, hpf, bind, Except.bind, pure, Except.pure, Except.ok.injEq,
      Prod.mk.injEq] at hf
    exact hf.1.symm

/-- The size of the vector field relative to the tolerances, and of the initial value, as in Hairer,
Nørsett and Wanner, section II.4. -/
def Pid.relSize (p : Pid K) (y0 v : XTree K) : XVal K :=
  p.norm (XTree.map₂ XVal.div v (y0.map (fun l => l.map (fun a => XVal.add (.fin p.atol) (a.abs.mul (.fin p.rtol))))))

/-- **C60, what holds.** The step selection algorithm itself, given an ODE and finite norms, returns a
positive step of at most `d0 / d1`, where `d0` and `d1` are the sizes of the initial value and of the
vector field relative to the tolerances (at most `1e-4` if one of them is nearly zero). -/
theorem C60_selection_partial (p : Pid K) (f : XVal K → XTree K → XTree K) (t0 : XVal K) (y0 : XTree K)
    (d0 d1 : K) (h0 : p.relSize y0 y0 = .fin d0) (h1 : p.relSize y0 (f t0 y0) = .fin d1)
    (hfin : ∀ h : K, ∃ d, p.relSize y0 (XTree.map₂ XVal.sub (f (t0.add (.fin h))
      (XTree.map₂ (fun a b => a.add (XVal.mul (.fin h) b)) y0 (f t0 y0))) (f t0 y0)) = .fin d) (hpow : ∀ x e, 0 < x → 0 < p.rpow x e) (hord : p.order ≠ 0) :
    ∃ h, p.selectInitialStep f t0 y0 = .fin h ∧ 0 < h ∧
      h ≤ if d0 < 1 / 10 ^ 5 ∨ d1 < 1 / 10 ^ 5 then 1 / 10 ^ 4 else d0 / d1 := by
  unfold Pid.relSize at h0 h1 hfin
  have e5 : (0 : K) < 1 / 10 ^ 5 := by positivity
  have hlt : ∀ a b : K, XVal.lt (.fin a) (.fin b) = decide (a < b) := fun _ _ => rfl
  unfold Pid.selectInitialStep
  simp only [h0, h1, hlt]
  have hor : ((decide (d0 < 1 / 10 ^ 5) || decide (d1 < 1 / 10 ^ 5)) = true) ↔
      (d0 < 1 / 10 ^ 5 ∨ d1 < 1 / 10 ^ 5) := by simp
  -- the first guess
  obtain ⟨g, hg, hg0, hg1⟩ : ∃ g : K, (if (decide (d0 < 1 / 10 ^ 5) || decide (d1 < 1 / 10 ^ 5)) = true then
      XVal.fin (1 / 10 ^ 6) else XVal.mul (.fin (1 / 100)) (XVal.div (.fin d0)
        (if (decide (d0 < 1 / 10 ^ 5) || decide (d1 < 1 / 10 ^ 5)) = true then .fin 1 else .fin d1))) = .fin g
      ∧ 0 < g ∧ 100 * g = if d0 < 1 / 10 ^ 5 ∨ d1 < 1 / 10 ^ 5 then 1 / 10 ^ 4 else d0 / d1 := by
    by_cases hc : d0 < 1 / 10 ^ 5 ∨ d1 < 1 / 10 ^ 5
    · refine ⟨1 / 10 ^ 6, ?_, by positivity, ?_⟩
      · rw [if_pos (hor.2 hc)]
      · rw [if_pos hc]; norm_num
    · have hc' := hc
      simp only [not_or, not_lt] at hc'
      have p0 : 0 < d0 := e5.trans_le hc'.1
      have p1 : 0 < d1 := e5.trans_le hc'.2
      refine ⟨1 / 100 * (d0 / d1), ?_, by positivity, ?_⟩
      · rw [if_neg (fun h => hc (hor.1 h)), if_neg (fun h => hc (hor.1 h))]
        show XVal.mul _ (if d1 = 0 then _ else _) = _
        rw [if_neg p1.ne']
        rfl
      · rw [if_neg hc]; ring
  rw [hg]
  obtain ⟨d2, hd2⟩ := hfin g
  rw [hd2]
  have hdiv : XVal.div (.fin d2) (.fin g) = .fin (d2 / g) := by
    show (if g = 0 then _ else _) = _
    rw [if_neg hg0.ne']
  rw [hdiv, XVal.max_fin]
  have hmul : XVal.mul (.fin 100) (.fin g) = .fin (100 * g) := rfl
  rw [hmul, ← hg1]
  have hle : XVal.le (.fin (max d1 (d2 / g))) (.fin (1 / 10 ^ 15)) = decide (max d1 (d2 / g) ≤ 1 / 10 ^ 15) := rfl
  rw [hle]
  by_cases hm : max d1 (d2 / g) ≤ 1 / 10 ^ 15
  · rw [if_pos (by simpa using hm)]
    have : XVal.mul (.fin g) (.fin (1 / 10 ^ 3)) = .fin (g * (1 / 10 ^ 3)) := rfl
    rw [this, XVal.max_fin, XVal.min_fin]
    exact ⟨_, rfl, lt_min (by positivity) (lt_max_of_lt_left (by positivity)), min_le_left _ _⟩
  · rw [if_neg (by simpa using hm)]
    have hmp : 0 < max d1 (d2 / g) := lt_trans (by positivity) (not_le.1 hm)
    have hdv : XVal.div (.fin (1 / 100)) (.fin (max d1 (d2 / g))) = .fin (1 / 100 / max d1 (d2 / g)) := by
      show (if max d1 (d2 / g) = 0 then _ else _) = _
      rw [if_neg hmp.ne']
    have hb : (0 : K) < 1 / 100 / max d1 (d2 / g) := by positivity
    have hpw : XVal.pow p.rpow (.fin (1 / 100 / max d1 (d2 / g))) (1 / p.order)
        = .fin (p.rpow (1 / 100 / max d1 (d2 / g)) (1 / p.order)) := by
      unfold XVal.pow
      rw [if_neg (one_div_ne_zero hord)]
      simp only
      rw [if_neg hb.ne', if_pos hb]
    rw [hdv, hpw, XVal.min_fin]
    exact ⟨_, rfl, lt_min (by positivity) (hpow _ _ hb), min_le_left _ _⟩

end

/-! ## Examples -/

/-- `y' = -10^6 y`, `y(0) = 1`, from 0 to 1. -/
def stiffPid : Pid ℚ :=
  { rtol := 1 / 1000, atol := 1 / 1000, norm := fun v => ((v.headD []).headD .nan).abs, rpow := fun x _ => x
    pcoeff := 0, icoeff := 1, dcoeff := 0, dtmin := none, dtmax := none, forceDtmin := true
    factormin := 1 / 5, factormax := 10, safety := 9 / 10, order := 1 }

def stiffField : ℚ → XTree ℚ → XTree ℚ := fun _ y => y.map (fun l => l.map (XVal.mul (.fin (-1000000))))

def stiffTerm : KTerm ℚ (XTree ℚ) (XTree ℚ) ℚ :=
  { vf := stiffField, contr := fun a b => b - a
    prod := fun v c => v.map (fun l => l.map (XVal.mul (.fin c)))
    vfProd := fun t y c => (stiffField t y).map (fun l => l.map (XVal.mul (.fin c))), cls := .ode }

def stiffProblem : Problem 1 ℚ (XTree ℚ) (XTree ℚ) ℚ (XTree ℚ) Unit Unit (PidState ℚ) (XTree ℚ) ℚ :=
  { terms := fun _ => stiffTerm
    solver :=
      { init := fun _ _ _ _ => ()
        step := fun terms t0 t1 y _ _ =>
          { y := XTree.map₂ XVal.add y ((terms 0).vfProd t0 y ((terms 0).contr t0 t1)), err := [[.fin 0]]
            dense := (), state := (), result := .successful }
        interp := fun _ _ _ _ => [], dummy := () }
    controller := pidClass stiffPid, t0 := 0, t1 := 1, dt0 := none, y0 := [[.fin 1]]
    subs := [{ t0 := false, t1 := true, ts := [], steps := 0, fn := fun _ y => y }], dense := false
    events := [], rootFinder := none, dist := fun a b => a - b, maxSteps := 1, cleanErr := id
    floorOf := fun t => t - 1 / 1000000, mid := fun a b => (a + b) / 2 }

/-- The problem is accepted; its first step is `1/100`, where the algorithm would have chosen at most
`1e-6` (times a factor close to one). -/
example : (∃ r, stiffProblem.setup = .ok r ∧ r.2.1 = 1 / 100) ∧
    ∃ h, pidFirst stiffPid stiffProblem.terms 0 stiffProblem.y0 = .fin h ∧ 0 < h ∧ h ≤ 1 / 10 ^ 6 := by
  refine ⟨⟨_, rfl, by decide +kernel⟩, 2 / 10 ^ 17, by decide +kernel, by norm_num, by norm_num⟩

/-- The hypotheses of `C60_selection_partial` hold for it. -/
example : stiffPid.relSize [[.fin 1]] [[.fin 1]] = .fin 500 ∧
    (∀ h : ℚ, ∃ d, stiffPid.relSize [[.fin 1]] (XTree.map₂ XVal.sub
      (stiffField (0 + h) (XTree.map₂ (fun a b => a.add (XVal.mul (.fin h) b)) [[.fin 1]]
        (stiffField 0 [[.fin 1]]))) (stiffField 0 [[.fin 1]])) = .fin d) := by
  refine ⟨by decide +kernel, fun h => ?_⟩
  simp [Pid.relSize, stiffPid, stiffField, XTree.map₂, XVal.abs, XVal.mul, XVal.add, XVal.sub, XVal.neg, XVal.div]
  norm_num

section
/-! A backward solve of `y' = 2 t` from `t = 4` to `t = 0` on the integers, with Euler's method and `StepTo`,
and an event. -/

def backP (ev : List (EventCond Int Int Int)) : Problem 1 Int Int Int Int Unit (Int × Int) Unit Nat Int Int :=
  { terms := fun _ => odeK (fun t _ => 2 * t)
    solver := statelessClass (fun t => euler t (fun _ _ d _ => d.1)) (fun _ _ d _ => d.1) (0, 0)
    controller := stepToClass [4, 3, 1, 0], t0 := 4, t1 := 0, dt0 := none, y0 := 16
    subs := [{ t0 := true, t1 := true, ts := [3, 2, 2, 1], steps := 1, fn := fun t y => 100 * t + y }], dense := true
    events := ev, rootFinder := none, dist := fun a b => a - b, maxSteps := 10, cleanErr := id
    floorOf := fun t => t, mid := fun a b => (a + b) / 2 }

def foreP (ev : List (EventCond Int Int Int)) : Problem 1 Int Int Int Int Unit (Int × Int) Unit Nat Int Int :=
  { backP [] with
    terms := fun _ => odeK (fun s _ => -(2 * -s))
    controller := stepToClass [-4, -3, -1, 0], t0 := -4, t1 := 0, events := ev
    subs := [{ t0 := true, t1 := true, ts := [-3, -2, -2, -1], steps := 1, fn := fun t y => 100 * (-t) + y }] }

/-- The hypotheses of `C20_mirror`, and that the solve succeeds and saves something. -/
example : (backP [.flt (fun _ y => y - 3) none]).MirrorOf (foreP [.flt (fun _ y => y - 3) none]) ∧
    (backP []).solver.SignInvariant := by
  refine ⟨?_, euler_signInvariant _ _⟩
  constructor
  · exact ⟨fun _ => -1, fun _ => odeK_mirror _⟩
  · rfl
  · exact stepToClass_mirror ([4, 3, 1, 0] : List Int)
  · intro w h
    simp only [backP] at h
    exact stepToClass_blind _ _ w h
  all_goals first | rfl | skip
  · intro e he
    simp only [backP, List.mem_singleton] at he
    subst he
    intro _ _ _; rfl
  · exact ⟨rfl, rfl⟩

example : ((diffeqsolve (backP [.flt (fun _ y => y - 3) none])).toOption.map
    (fun s => (s.saved.map (List.take 7), s.result, s.numSteps))) = some ([[.val 4 416, .val 3 316, .val 3 308,
      .val 2 208, .val 2 208, .val 1 108, .val 1 96]], .eventOccurred, 2) := by
  decide +kernel

/-- `C56_violated`: accepted, and no time of the interval is negative. -/
example : (diffeqsolve (backP [.bool (fun t _ => decide (t < 0))])).toOption.map (fun s => (s.numSteps, s.eventMask))
    = some (0, [true]) := by
  decide +kernel

/-- `C54`: rejected arguments. -/
example : (diffeqsolve { backP [] with t0 := 0, t1 := 4 }).toOption.isNone ∧
    (diffeqsolve { backP [] with dt0 := some 1 }).toOption.isNone ∧
    (diffeqsolve { backP [] with subs := [{ t0 := false, t1 := false, ts := [1, 2], steps := 0, fn := fun _ y => y }] }).toOption.isNone ∧
    (diffeqsolve { backP [] with subs := [{ t0 := false, t1 := false, ts := [5, 2], steps := 0, fn := fun _ y => y }] }).toOption.isNone ∧
    (diffeqsolve (backP [])).toOption.isSome := by
  decide +kernel

end

end Verif
