import Verif.Model.TimeRound
import Verif.Props.FrontTime
import Verif.Props.Resume
import Mathlib.Order.Monotone.Basic

/-!
# Times that are rounded to the time type: C117
-/

set_option linter.unusedSectionVars false

namespace Verif

variable {T Y VF Ct E D S C O F : Type} {m : Nat}
variable [CommRing T] [LinearOrder T] [IsStrictOrderedRing T] [LinearOrder F] [Zero F] [AddCommGroup Ct]

/-- **C117**: rounding never turns the direction of the solve around; it is the same unless the interval becomes empty. -/
theorem C117_direction (rnd : T → T) (hr : Monotone rnd) (p : Problem m T Y VF Ct E D S C O F)
    (hne : rnd p.t0 ≠ rnd p.t1) :
    ((p.roundTimes rnd).t0 < (p.roundTimes rnd).t1 ↔ p.t0 < p.t1) ∧ (p.roundTimes rnd).direction = p.direction := by
  have h : rnd p.t0 < rnd p.t1 ↔ p.t0 < p.t1 :=
    ⟨fun h => hr.reflect_lt h, fun h => lt_of_le_of_ne (hr h.le) hne⟩
  refine ⟨h, ?_⟩
  simp only [Problem.direction, Problem.roundTimes, h]

/-- **C117**: requested times that are in order and within the interval still are after rounding. -/
theorem C117_ts (rnd : T → T) (hr : Monotone rnd) (p : Problem m T Y VF Ct E D S C O F) (h : p.TsValid) :
    (p.roundTimes rnd).TsValid := by
  intro s hs
  simp only [Problem.roundTimes, List.mem_map] at hs
  obtain ⟨s, hs, rfl⟩ := hs
  obtain ⟨h1, h2⟩ := h s hs
  simp only [Problem.roundTimes, List.pairwise_map, List.mem_map, forall_exists_index, and_imp, forall_apply_eq_imp_iff₂]
  refine ⟨fun hlt => ?_, fun hlt => ?_⟩
  · obtain ⟨a, b⟩ := h1 (hr.reflect_lt hlt)
    exact ⟨a.imp (fun h => hr h), fun t ht => ⟨hr (b t ht).1, hr (b t ht).2⟩⟩
  · by_cases h0 : p.t0 < p.t1
    · -- the interval has become empty, so all requested times are equal
      obtain ⟨a, b⟩ := h1 h0
      have he : rnd p.t0 = rnd p.t1 := le_antisymm (hr h0.le) (not_lt.1 hlt)
      have hall : ∀ t ∈ s.ts, rnd t = rnd p.t0 := fun t ht =>
        le_antisymm ((hr (b t ht).2).trans he.ge) (hr (b t ht).1)
      refine ⟨List.pairwise_of_forall_mem_list fun x hx y hy => ?_, fun t ht => ?_⟩
      · rw [hall x hx, hall y hy]
      · rw [hall t ht, he]
        exact ⟨le_refl _, le_refl _⟩
    · obtain ⟨a, b⟩ := h2 h0
      exact ⟨a.imp (fun h => hr h), fun t ht => ⟨hr (b t ht).1, hr (b t ht).2⟩⟩

/-- **C117**: a `dt0` of the right sign still has it after rounding. -/
theorem C117_dt0 (rnd : T → T) (hr : Monotone rnd) (h0 : rnd 0 = 0) (p : Problem m T Y VF Ct E D S C O F)
    (h : ∀ dt0, p.dt0 = some dt0 → 0 ≤ (p.t1 - p.t0) * dt0) :
    ∀ dt0, (p.roundTimes rnd).dt0 = some dt0 → 0 ≤ ((p.roundTimes rnd).t1 - (p.roundTimes rnd).t0) * dt0 := by
  intro dt0 hd
  simp only [Problem.roundTimes, Option.map_eq_some_iff] at hd
  obtain ⟨d, hd, rfl⟩ := hd
  have := h d hd
  show 0 ≤ (rnd p.t1 - rnd p.t0) * rnd d
  rcases lt_trichotomy p.t0 p.t1 with hlt | heq | hlt
  · have hd0 : 0 ≤ d := nonneg_of_mul_nonneg_right this (sub_pos.2 hlt)
    exact mul_nonneg (sub_nonneg.2 (hr hlt.le)) (h0 ▸ hr hd0)
  · rw [heq]; simp
  · have hd0 : d ≤ 0 := by
      by_contra hc
      exact absurd this (not_le.2 (mul_neg_of_neg_of_pos (sub_neg.2 hlt) (not_le.1 hc)))
    exact mul_nonneg_of_nonpos_of_nonpos (sub_nonpos.2 (hr hlt.le)) (h0 ▸ hr hd0)

/-- **C117**: arguments that are right as passed are accepted after rounding, provided that the controller accepts the rounded times. -/
theorem C117_accepted (rnd : T → T) (hr : Monotone rnd) (h0 : rnd 0 = 0) (p : Problem m T Y VF Ct E D S C O F)
    (hdt : ∀ dt0, p.dt0 = some dt0 → 0 ≤ (p.t1 - p.t0) * dt0) (hts : p.TsValid)
    (hc : let q := p.roundTimes rnd
      ∃ w, p.controller q.direction = .ok w ∧
        ∃ r, firstStep w (fun i => wrapTerm q.direction (p.terms i)) (q.t0 * q.direction)
          (q.t1 * q.direction) p.y0 (q.dt0.map (· * (q.direction : T))) p.ctrlState = .ok r) :
    ∃ s, diffeqsolveRounded rnd p = .ok s ∧ s.t0 = rnd p.t0 ∧ s.t1 = rnd p.t1 := by
  obtain ⟨s, hs⟩ := (C54_accepts_iff (p.roundTimes rnd)).2 ⟨C117_dt0 rnd hr h0 p hdt, C117_ts rnd hr p hts, hc⟩
  have hchk : p.checkDt0 = .ok () := by
    unfold Problem.checkDt0
    cases hd : p.dt0 with
    | none => rfl
    | some d => simp [not_lt.2 (hdt d hd)]
  refine ⟨s, ?_, ?_⟩
  · simp only [diffeqsolveRounded, hchk]
    exact hs
  · obtain ⟨cfg, tnext, ctrl, ss, hset, rfl⟩ := diffeqsolve_ok _ _ hs
    have ok := setup_ok _ _ _ _ _ hset
    simp only [Problem.finish, ok.t0, ok.t1, direction_sq]
    exact ⟨rfl, rfl⟩

/-- **C117**: how many steps a solve without events makes. It makes none exactly if rounding maps both ends of the interval to the same
time. -/
theorem C117_steps (rnd : T → T) (p : Problem m T Y VF Ct E D S C O F) (hev : p.events = [])
    (hst : ∀ d w, p.controller d = .ok w → w.ctrl.stepTo = none) (hmax : 0 < p.maxSteps)
    (s : Sol T Y D S C O F) (h : diffeqsolveRounded rnd p = .ok s) :
    s.numSteps = 0 ↔ rnd p.t0 = rnd p.t1 := by
  have hs : diffeqsolve (p.roundTimes rnd) = .ok s := by
    unfold diffeqsolveRounded at h
    cases hc : p.checkDt0 with
    | error e => rw [hc] at h; cases h
    | ok u => rw [hc] at h; exact h
  obtain ⟨cfg, tnext, ctrl, ss, hset, rfl⟩ := diffeqsolve_ok _ _ hs
  have ok := setup_ok _ _ _ _ _ hset
  obtain ⟨w, hw, hwc, -⟩ := ok.first
  have hstep : cfg.controller.stepTo = none := by rw [hwc]; exact hst _ w hw
  have he : cfg.events = [] := ok.events.trans hev
  have hm : cfg.maxSteps = p.maxSteps := ok.maxSteps
  have hn : ((p.roundTimes rnd).finish cfg (solve cfg (p.roundTimes rnd).y0 tnext ctrl ss
      ((p.roundTimes rnd).madeJump.getD false))).numSteps
      = (solve cfg (p.roundTimes rnd).y0 tnext ctrl ss ((p.roundTimes rnd).madeJump.getD false)).core.numSteps := rfl
  rw [hn, (C02_stats cfg _ tnext ctrl ss _).1, log_eq_history, List.length_map]
  set c0 := (initState cfg (p.roundTimes rnd).y0 tnext ctrl ss ((p.roundTimes rnd).madeJump.getD false)).core with hc0
  have hcond : condFun cfg c0 = decide (cfg.t0 < cfg.t1) := by
    have hres : c0.result = .successful := by simp [hc0, initState, he, firstTrue, Result.where']
    have htp : c0.tprev = cfg.t0 := rfl
    simp [condFun, hstep, hres, htp, Result.isSuccessful]
  have hlt : cfg.t0 < cfg.t1 ↔ rnd p.t0 ≠ rnd p.t1 := by
    rw [ok.t0, ok.t1]
    simp only [Problem.roundTimes, Problem.direction]
    by_cases hlt : rnd p.t0 < rnd p.t1
    · simp [hlt, hlt.ne]
    · simp only [hlt, if_false, Int.cast_neg, Int.cast_one, mul_neg, mul_one, neg_lt_neg_iff]
      exact ⟨fun h => h.ne', fun h => lt_of_le_of_ne (not_lt.1 hlt) h.symm⟩
  have hhist : (history cfg (p.roundTimes rnd).y0 tnext ctrl ss ((p.roundTimes rnd).madeJump.getD false)).length = 0
      ↔ condFun cfg c0 = false := by
    unfold history
    rw [hm, ← hc0]
    obtain ⟨n, hn⟩ := Nat.exists_eq_succ_of_ne_zero hmax.ne'
    rw [hn]
    simp only [attempts]
    cases condFun cfg c0 <;> simp
  rw [hhist, hcond, decide_eq_false_iff_not, hlt, not_not]

/-- Times that are multiples of 4, as for large integers in single precision. -/
def round4 (t : Int) : Int := t / 4 * 4

theorem round4_mono : Monotone round4 := fun a b h => by
  unfold round4
  have := Int.ediv_le_ediv (c := 4) (by norm_num) h
  omega

/-- Interpolation of a step of size 1, exact at its ends. -/
def unitInterp (t0 _t1 : Int) (d : Int × Int) (t : Int) : Int := d.1 + (t - t0) * (d.2 - d.1)

/-- Euler's method for `dy/dt = 2 t` with steps of size 1. -/
def unitP (t0 t1 dt0 : Int) (ts : List Int) : Problem 1 Int Int Int Int Unit (Int × Int) Unit Unit Int Int :=
  { terms := fun _ => odeK (fun t _ => 2 * t)
    solver := statelessClass (fun t => euler t unitInterp) unitInterp (0, 0)
    controller := fun _ => .ok
      { init := fun _ t0 _ _ _ => .ok (t0 + 1, ())
        ctrl := { adapt := fun _ t1 _ _ _ s =>
          { keep := true, tprev := t1, tnext := t1 + 1, madeJump := false, state := s, result := .successful } } }
    t0 := t0, t1 := t1, dt0 := some dt0, y0 := 16
    subs := [{ t0 := false, t1 := false, ts := ts, steps := 0, fn := fun _ y => y }], dense := false
    events := [], rootFinder := none, dist := fun a b => a - b, maxSteps := 10, cleanErr := id
    floorOf := fun t => t, mid := fun a b => (a + b) / 2 }

/-- **C117** is violated: a solve from 20 to 22 that saves at 20, 21 and 22. With exact times it makes two steps. With rounded times it
is successful without any step, and three times the initial value is returned as the solution. -/
theorem C117_violated :
    (diffeqsolve (unitP 20 22 1 [20, 21, 22])).toOption.map (fun s => (s.saved, s.result, s.numSteps))
      = some ([[.val 20 16, .val 21 56, .val 22 98]], .successful, 2) ∧
    (diffeqsolveRounded round4 (unitP 20 22 1 [20, 21, 22])).toOption.map (fun s => (s.saved, s.result, s.numSteps))
      = some ([[.val 20 16, .val 20 16, .val 20 16]], .successful, 0) := by
  decide +kernel

/-- The hypotheses of the other theorems, for a solve backwards from 22 to 3. -/
example : (unitP 22 3 (-1) [22, 15, 7]).TsValid ∧ round4 22 ≠ round4 3 ∧ round4 0 = 0 ∧
    (diffeqsolveRounded round4 (unitP 22 3 (-1) [22, 15, 7])).toOption.isSome = true := by
  refine ⟨?_, by decide, by decide, by decide +kernel⟩
  intro s hs
  simp only [unitP, List.mem_singleton] at hs
  subst hs
  exact ⟨fun h => absurd h (by decide), fun _ => by decide⟩

end Verif
