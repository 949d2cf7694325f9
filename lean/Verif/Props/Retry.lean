import Verif.Props.Loop

/-!
# C59: a rejected step is retried with a strictly shorter one
-/

set_option linter.unusedSectionVars false

namespace Verif

section
variable {T Y E D S C O F : Type} [LinearOrder T] [LinearOrder F] [Zero F]

theorem attempts_chain (cfg : Cfg T Y E D S C O F) (n : Nat) (s : Core T Y D S C F) :
    List.IsChain (fun c d => d = (coreBody cfg c).1) (attempts cfg n s) := by
  induction n generalizing s with
  | zero => simp [attempts]
  | succ n ih =>
    by_cases hcd : condFun cfg s = true
    · simp only [attempts, hcd, if_true]
      rw [List.isChain_cons]
      refine ⟨?_, ih _⟩
      intro d hd
      cases n with
      | zero => simp [attempts] at hd
      | succ n =>
        simp only [attempts] at hd
        split at hd
        · simp only [List.head?_cons, Option.mem_def, Option.some.injEq] at hd
          exact hd.symm
        · simp at hd
    · simp [attempts, hcd]

/-- **C59, full statement.** If a step is rejected, by a controller that answers with the same start and
an earlier end, then the next attempt has the same start and an earlier end. -/
def RetryShorter (cfg : Cfg T Y E D S C O F) (y0 : Y) (tnext : T) (ctrl : C) (ss : S) (mj : Bool) : Prop :=
  List.IsChain (fun c d : CallLog T Y E S C =>
      (c.answer cfg).keep = false → (c.answer cfg).tprev = c.solverT0 →
      (c.answer cfg).tnext < c.solverT1 → d.solverT0 = c.solverT0 ∧ d.solverT1 < c.solverT1)
    (callLog cfg y0 tnext ctrl ss mj)

/-- **C59** (partial: steps that start so close to the end that the midpoint is still in the zone
in which step ends are rounded to `t1` are excluded, see `C59_violated`). -/
theorem C59_retry_shorter_partial (cfg : Cfg T Y E D S C O F) (hwf : cfg.WF) (y0 : Y) (tnext : T)
    (ctrl : C) (ss : S) (mj : Bool)
    (hmid : ∀ c ∈ callLog cfg y0 tnext ctrl ss mj, cfg.mid c.solverT0 cfg.t1 ≤ cfg.floor) :
    RetryShorter cfg y0 tnext ctrl ss mj := by
  unfold RetryShorter
  rw [log_eq_history] at hmid ⊢
  rw [List.isChain_map]
  have hle := (run_inv cfg (fun s => s.tprev ≤ cfg.t1) cfg.maxSteps
    (initState cfg y0 tnext ctrl ss mj).core hwf.le
    (fun s _ _ _ => by
      have e1 : (coreBody cfg s).1.tprev = min (adaptOut cfg s).tprev cfg.t1 := rfl
      rw [e1]; exact min_le_right _ _)).1
  have hch := attempts_chain cfg cfg.maxSteps (initState cfg y0 tnext ctrl ss mj).core
  have hm : ∀ s ∈ attempts cfg cfg.maxSteps (initState cfg y0 tnext ctrl ss mj).core,
      s.tprev ≤ cfg.t1 ∧ cfg.mid s.tprev cfg.t1 ≤ cfg.floor := by
    intro s hs
    exact ⟨hle s hs, hmid _ (List.mem_map_of_mem hs)⟩
  unfold history
  generalize attempts cfg cfg.maxSteps (initState cfg y0 tnext ctrl ss mj).core = l at hch hm
  induction l with
  | nil => simp
  | cons c l ih =>
    rw [List.isChain_cons] at hch ⊢
    refine ⟨?_, ih hch.2 (fun s hs => hm s (List.mem_cons_of_mem _ hs))⟩
    intro d hd hk htp htn
    obtain rfl := hch.1 d hd
    obtain ⟨h1, h2⟩ := hm c List.mem_cons_self
    change (adaptOut cfg c).keep = false at hk
    change (adaptOut cfg c).tprev = c.tprev at htp
    change (adaptOut cfg c).tnext < c.tnext at htn
    change min (adaptOut cfg c).tprev cfg.t1 = c.tprev ∧
      clipToEnd cfg.mid (min (adaptOut cfg c).tprev cfg.t1) (adaptOut cfg c).tnext cfg.t1 cfg.floor
        (adaptOut cfg c).keep < c.tnext
    rw [hk, htp, min_eq_left h1]
    refine ⟨rfl, ?_⟩
    unfold clipToEnd
    simp only [Bool.false_eq_true, if_false]
    split
    · rename_i hcl
      exact lt_of_le_of_lt h2 (lt_trans hcl htn)
    · exact htn

end

/-- `C59_retry_shorter_partial` applies to the toy problem, which has rejected steps: from 0 to 7, to 3,
and to 1. -/
example : toyCfg.WF ∧
    (∀ c ∈ callLog { toyCfg with maxSteps := 3 } 5 7 0 0 false, toyCfg.mid c.solverT0 toyCfg.t1 ≤ toyCfg.floor) ∧
    (callLog { toyCfg with maxSteps := 3 } 5 7 0 0 false).map (fun c => (c.solverT0, c.solverT1, (c.answer toyCfg).keep))
      = [(0, 7, false), (0, 3, false), (0, 1, true)] := by
  refine ⟨toyCfg_WF, by decide +kernel, by decide +kernel⟩

/-- A controller that wants steps a little shorter than those it rejects. -/
def stubborn : Controller Int Int Int Int where
  adapt a b _ _ _ c :=
    { keep := false, tprev := a, tnext := b - 1, madeJump := false, state := c, result := .successful }

def stubbornCfg : Cfg Int Int Int Int Int Int Int Int :=
  { toyCfg with controller := stubborn, t1 := 28, floor := 20, t0 := 18 }

/-- **C59 is violated** within the last couple of hundred representable times before `t1`: the end the
controller asks for is in the zone that is rounded to `t1`, hence replaced by the midpoint, which is
what has just been rejected. Every later attempt is the same until `max_steps` is reached. -/
theorem C59_violated : stubbornCfg.WF ∧ ¬ RetryShorter stubbornCfg 5 28 0 0 false ∧
    ((callLog stubbornCfg 5 28 0 0 false).map (fun c => (c.solverT0, c.solverT1))
      = (18, 28) :: List.replicate 19 (18, 23)) ∧
    (solve stubbornCfg 5 28 0 0 false).result = .maxStepsReached := by
  have hl : (callLog stubbornCfg 5 28 0 0 false).map (fun c => (c.solverT0, c.solverT1))
      = (18, 28) :: List.replicate 19 (18, 23) := by decide +kernel
  refine ⟨⟨by decide, by decide, ?_, ?_⟩, ?_, hl, by decide +kernel⟩
  · intro a h; simp only [stubbornCfg, toyCfg] at *; omega
  · intro a h; simp only [stubbornCfg, toyCfg] at *; omega
  · intro h
    have h2 := (List.isChain_map (R := fun x y : Int × Int × Bool × Int × Int => x.2.2.1 = false →
      x.2.2.2.1 = x.1 → x.2.2.2.2 < x.2.1 → y.1 = x.1 ∧ y.2.1 < x.2.1)
      (fun c : CallLog Int Int Int Int Int => (c.solverT0, c.solverT1, (c.answer stubbornCfg).keep,
        (c.answer stubbornCfg).tprev, (c.answer stubbornCfg).tnext))).2 h
    have hl2 : (callLog stubbornCfg 5 28 0 0 false).map (fun c => (c.solverT0, c.solverT1,
        (c.answer stubbornCfg).keep, (c.answer stubbornCfg).tprev, (c.answer stubbornCfg).tnext))
        = (18, 28, false, 18, 27) :: List.replicate 19 (18, 23, false, 18, 22) := by decide +kernel
    rw [hl2] at h2
    simp [List.replicate, List.isChain_cons] at h2

end Verif
