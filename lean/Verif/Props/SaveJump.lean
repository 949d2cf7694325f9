import Verif.Props.Save
import Verif.Props.Clip

/-!
# `SaveAt(ts=...)` with controllers that jump (C07)

`C07_saveat_ts` is for controllers whose accepted steps end where they were asked to. A `ClipStepSizeController` with `jump_ts` moves
the time past a jump after the step that stops before it. If the jump is at `t1` this can end the solve before any step has reached
`t1`, and then nothing is saved there.
-/

namespace Verif

section
variable {T Y E D S C O F : Type} [LinearOrder T] [LinearOrder F] [Zero F]

/-- Part of C07 that holds, for any controller that reports `t1` as reached only after an accepted step that ends there. Missing:
controllers that move the time past a jump at the end of the interval (`C07_violated`). -/
theorem C07_reaching_partial (cfg : Cfg T Y E D S C O F) (hwf : cfg.WF) (hroot : cfg.rootFinder = none)
    (hst : cfg.controller.stepTo = none)
    (hlt : cfg.t0 < cfg.t1) (ts : List T) (fn : T → Y → O) (hne : ts ≠ [])
    (hsub : cfg.subs = [{ t0 := false, t1 := false, ts := ts, steps := 0, fn := fn }])
    (hsort : ts.Pairwise (· ≤ ·)) (hrange : ∀ t ∈ ts, t ≤ cfg.t1)
    (y0 : Y) (tnext : T) (ctrl : C) (ss : S) (mj : Bool)
    (hreach : ∀ c ∈ callLog cfg y0 tnext ctrl ss mj, c.ctrlT0 < cfg.t1 → cfg.t1 ≤ (c.answer cfg).tprev →
      (c.answer cfg).keep = true ∧ cfg.t1 ≤ c.ctrlT1)
    (hsucc : (solve cfg y0 tnext ctrl ss mj).result = .successful) :
    ∃ cover : T → Piece T Y D,
      (∀ t ∈ ts, firstCovering (pieces cfg y0 tnext ctrl ss mj) t = some (cover t)) ∧
      (solve cfg y0 tnext ctrl ss mj).saves.map (·.buf)
        = [ts.map (fun t => .val t (fn t ((cover t).eval cfg.solver t)))] := by
  have hany := C07_saveat_ts_any_end cfg hroot (ne_of_lt hlt) ts fn hne hsub hsort y0 tnext ctrl ss mj
  rw [log_eq] at hreach
  have hreach' : ∀ s ∈ history cfg y0 tnext ctrl ss mj, s.tprev < cfg.t1 → cfg.t1 ≤ (adaptOut cfg s).tprev →
      accepted cfg s = true ∧ cfg.t1 ≤ s.tnext :=
    fun s hs => hreach _ (List.mem_map_of_mem hs)
  have hge : cfg.t1 ≤ (solve cfg y0 tnext ctrl ss mj).core.tprev := by
    have hres := solve_result cfg y0 tnext ctrl ss mj
    rw [hsucc] at hres
    have hc : condFun cfg (solve cfg y0 tnext ctrl ss mj).core = false := by
      cases h : condFun cfg (solve cfg y0 tnext ctrl ss mj).core with
      | false => rfl
      | true => rw [h] at hres; simp at hres
    rw [hc, finalise_no_root cfg _ hroot] at hres
    simp only [Bool.false_eq_true, if_false] at hres
    have : ¬ (solve cfg y0 tnext ctrl ss mj).core.tprev < cfg.t1 := by
      simpa [condFun, hst, ← hres, Result.isSuccessful] using hc
    exact not_lt.1 this
  have hp : ∃ p ∈ pieces cfg y0 tnext ctrl ss mj, p.t1 = cfg.t1 := by
    rw [solve_core, coreRun_eq_last] at hge
    cases hl : (attempts cfg cfg.maxSteps (initState cfg y0 tnext ctrl ss mj).core).getLast? with
    | none =>
      rw [hl] at hge
      exact absurd hlt (not_lt.2 hge)
    | some s =>
      rw [hl] at hge
      have hm : s ∈ history cfg y0 tnext ctrl ss mj := List.mem_of_getLast? hl
      have hcond := attempts_cond _ _ _ s hm
      have hs : s.tprev < cfg.t1 := by
        simp only [condFun, hst, Bool.and_eq_true, decide_eq_true_eq] at hcond
        exact hcond.1
      obtain ⟨hk, hn⟩ := hreach' s hm hs (le_trans hge (min_le_left _ _))
      exact ⟨piece cfg s, List.mem_map_of_mem (List.mem_filter.2 ⟨hm, hk⟩),
        le_antisymm (history_le cfg hwf y0 tnext ctrl ss mj s hm).2 hn⟩
  obtain ⟨p, hp, hpt⟩ := hp
  have hcov : ∀ t ∈ ts, ∃ q, firstCovering (pieces cfg y0 tnext ctrl ss mj) t = some q := by
    intro t ht
    have : (firstCovering (pieces cfg y0 tnext ctrl ss mj) t).isSome = true := by
      unfold firstCovering
      rw [List.find?_isSome]
      exact ⟨p, hp, by simpa [hpt] using hrange t ht⟩
    exact Option.isSome_iff_exists.1 this
  refine ⟨fun t => ((firstCovering (pieces cfg y0 tnext ctrl ss mj) t).getD p), ?_, ?_⟩
  · intro t ht
    obtain ⟨q, hq⟩ := hcov t ht
    simp [hq]
  · rw [hany]
    have hfm : ts.filterMap (fun t => (firstCovering (pieces cfg y0 tnext ctrl ss mj) t).map
        (fun p => (t, fn t (p.eval cfg.solver t))))
        = ts.map (fun t => (t, fn t (((firstCovering (pieces cfg y0 tnext ctrl ss mj) t).getD p).eval
            cfg.solver t))) := by
      rw [← List.filterMap_eq_map]
      apply List.filterMap_congr
      intro t ht
      obtain ⟨q, hq⟩ := hcov t ht
      simp [hq]
    rw [hfm]
    simp [padded, Function.comp_def]

end

section
variable {T Y E D S C O F : Type} [LinearOrder T] [SuccOrder T] [PredOrder T] [LinearOrder F] [Zero F]

omit [PredOrder T] in
theorem bumpT0_reach (t e : T) (ts : List T) (hlt : t < e) (hge : e ≤ (bumpT0 t ts).1) :
    ∃ x ∈ ts, x ≤ e ∧ e ≤ Order.succ x := by
  unfold bumpT0 at hge
  dsimp only at hge
  split at hge
  · rename_i h
    obtain ⟨x, hx, he⟩ := List.any_eq_true.1 h
    obtain rfl : t = x := by simpa using he
    exact ⟨t, hx, hlt.le, hge⟩
  · split at hge
    · rename_i h
      obtain ⟨x, hx, he⟩ := List.any_eq_true.1 h
      obtain rfl : Order.succ t = x := by simpa using he
      exact ⟨_, hx, Order.succ_le_of_lt hlt, hge⟩
    · exact absurd hlt (not_lt.2 hge)

/-- **C07** for `ClipStepSizeController` around any controller that does not jump itself, with any `step_ts`, `jump_ts` and
`store_rejected_steps`, if neither `t1` nor the float before `t1` is a jump time. -/
theorem C07_clip_partial (cfg : Cfg T Y E D S (ClipState T C) O F) (hwf : cfg.WF) (hroot : cfg.rootFinder = none)
    (c : Clip T) (inner : Controller T Y E C) (hctl : cfg.controller = clipController c inner) (hex : inner.Exact)
    (hjump : ∀ x ∈ c.jumps, x ≤ cfg.t1 → Order.succ x < cfg.t1)
    (hlt : cfg.t0 < cfg.t1) (ts : List T) (fn : T → Y → O) (hne : ts ≠ [])
    (hsub : cfg.subs = [{ t0 := false, t1 := false, ts := ts, steps := 0, fn := fn }])
    (hsort : ts.Pairwise (· ≤ ·)) (hrange : ∀ t ∈ ts, t ≤ cfg.t1)
    (y0 : Y) (tnext : T) (ctrl : ClipState T C) (ss : S) (mj : Bool)
    (hsucc : (solve cfg y0 tnext ctrl ss mj).result = .successful) :
    ∃ cover : T → Piece T Y D,
      (∀ t ∈ ts, firstCovering (pieces cfg y0 tnext ctrl ss mj) t = some (cover t)) ∧
      (solve cfg y0 tnext ctrl ss mj).saves.map (·.buf)
        = [ts.map (fun t => .val t (fn t ((cover t).eval cfg.solver t)))] := by
  refine C07_reaching_partial cfg hwf hroot (by rw [hctl]; rfl) hlt ts fn hne hsub hsort hrange y0 tnext ctrl ss mj ?_ hsucc
  rw [log_eq]
  intro l hl
  obtain ⟨s, hs, rfl⟩ := List.mem_map.1 hl
  change s.tprev < cfg.t1 → cfg.t1 ≤ (adaptOut cfg s).tprev → (adaptOut cfg s).keep = true ∧ cfg.t1 ≤ s.tnext
  have hout : adaptOut cfg s = c.adapt inner s.tprev s.tnext s.y (solverOut cfg s).y (cfg.cleanErr (solverOut cfg s).err) s.ctrlState := by
    unfold adaptOut; rw [hctl]; rfl
  rw [hout]
  intro h0 h1
  have hin := hex s.tprev s.tnext s.y (solverOut cfg s).y (cfg.cleanErr (solverOut cfg s).err) s.ctrlState.inner
  let r := inner.adapt s.tprev s.tnext s.y (solverOut cfg s).y (cfg.cleanErr (solverOut cfg s).err) s.ctrlState.inner
  change cfg.t1 ≤ (c.adaptJump s.ctrlState.jumpIdx r.tprev _ _).2.1 at h1
  change r.keep = true ∧ _
  change r.Exact s.tprev s.tnext at hin
  have h2 : cfg.t1 ≤ r.tprev := by
    by_contra hn
    rw [not_le] at hn
    unfold Clip.adaptJump at h1
    cases hj : c.jumpTs with
    | none => rw [hj] at h1; exact absurd hn (not_lt.2 h1)
    | some js =>
      rw [hj] at h1
      obtain ⟨x, hx, hx1, hx2⟩ := bumpT0_reach _ _ _ hn h1
      exact absurd hx2 (not_le.2 (hjump x (by simp [Clip.jumps, hj, hx]) hx1))
  cases hk : r.keep with
  | true => exact ⟨rfl, by rw [← hin.1 hk]; exact h2⟩
  | false =>
    rw [hin.2 hk] at h2
    exact absurd h0 (not_lt.2 h2)
end

/-- The toy problem from 0 to 3 with the jump times `js`, saving at 1 and 3. -/
def jumpSaveCfg (js : List Int) : Cfg Int Int Int Int Int (ClipState Int Int) Int Int :=
  { clipToy { stepTs := none, jumpTs := some js, storeRejected := none } 3 1 with
    subs := [{ t0 := false, t1 := false, ts := [1, 3], steps := 0, fn := fun t y => 10 * t + y }] }

/-- Its solution, if the wrapped controller asks for a first step to `first`. -/
def jumpSave (js : List Int) (first : Int) : Output Int Int Int Int (ClipState Int Int) Int Int :=
  let c : Clip Int := { stepTs := none, jumpTs := some js, storeRejected := none }
  solve (jumpSaveCfg js) 100 (c.init 0 (first, 0)).1 (c.init 0 (first, 0)).2 0 false

theorem jumpSaveCfg_WF (js : List Int) : (jumpSaveCfg js).WF where
  le := by show (0 : Int) ≤ 3; decide
  floor_le := by show (1 : Int) ≤ 3; decide
  le_mid := by intro a h; simp only [jumpSaveCfg, clipToy] at *; omega
  mid_le := by intro a h; simp only [jumpSaveCfg, clipToy] at *; omega

/-- **C07 is false of the code.** With `jump_ts=[t1]` and a first step at least as long as the interval, the step stops at the float
before `t1`, and then the time is moved past the jump and cut to `t1`. The solve is successful, but no step has reached `t1`, and the
requested time `t1` is left empty: `inf` is returned for it. The same happens if the float before `t1` is a jump time. -/
theorem C07_violated : ∀ j ∈ ([2, 3] : List Int), (jumpSaveCfg [j]).WF ∧ toyController.Exact ∧
    (jumpSave [j] 5).result = .successful ∧ (jumpSave [j] 5).tfinal = 3 ∧
    (jumpSave [j] 5).saves.map (·.buf) = [[.val 1 111, .empty]] := by
  intro j hj
  refine ⟨jumpSaveCfg_WF _, toyController_exact, ?_⟩
  revert j
  decide +kernel

/-- Non-vacuity: with an earlier jump time, or a shorter first step, both times are saved. -/
example : (∀ x ∈ ({ stepTs := none, jumpTs := some [1], storeRejected := none } : Clip Int).jumps,
      x ≤ (jumpSaveCfg [1]).t1 → Order.succ x < (jumpSaveCfg [1]).t1) ∧
    (jumpSave [1] 5).result = .successful ∧ (jumpSave [1] 5).saves.map (·.buf) = [[.val 1 109, .val 3 131]] ∧
    (jumpSave [3] 1).result = .successful ∧ (jumpSave [3] 1).saves.map (·.buf) = [[.val 1 111, .val 3 133]] := by
  decide +kernel

end Verif
