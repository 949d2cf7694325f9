import Verif.Props.Clip
import Verif.Props.Event

/-!
# Events and rejected steps with controllers that jump (C16)

A `ClipStepSizeController` whose first step starts at a jump time moves the time past the jump even if that step is rejected. The
conditions of the events are then looked at for the new time and the old value, and may trigger.
-/

namespace Verif

section
variable {T Y E D S C O F : Type} [LinearOrder T] [SuccOrder T] [PredOrder T] [LinearOrder F] [Zero F]

/-- Part of C16 that holds for `ClipStepSizeController` around a controller that does not jump itself: a rejected step triggers no
event if it starts neither at a jump time nor one float before one. Missing: such steps (`C16_violated`). -/
theorem C16_clip_partial (cfg : Cfg T Y E D S (ClipState T C) O F) (c : Clip T) (inner : Controller T Y E C)
    (hctl : cfg.controller = clipController c inner) (hex : inner.Exact) (y0 : Y) (tnext : T) (ctrl : ClipState T C)
    (ss : S) (mj : Bool) (hle : cfg.t0 ≤ cfg.t1) (s : Core T Y D S (ClipState T C) F)
    (hs : s ∈ history cfg y0 tnext ctrl ss mj) (hrej : accepted cfg s = false)
    (hj : s.tprev ∉ c.jumps ∧ Order.succ s.tprev ∉ c.jumps) :
    ∀ b ∈ triggered cfg s, b = false := by
  refine C16_rejected_never_triggers cfg y0 tnext ctrl ss mj hle s hs hrej ?_
  have hout : adaptOut cfg s = c.adapt inner s.tprev s.tnext s.y (solverOut cfg s).y
      (cfg.cleanErr (solverOut cfg s).err) s.ctrlState := by
    unfold adaptOut; rw [hctl]; rfl
  have hin := hex s.tprev s.tnext s.y (solverOut cfg s).y (cfg.cleanErr (solverOut cfg s).err) s.ctrlState.inner
  have hk : (inner.adapt s.tprev s.tnext s.y (solverOut cfg s).y (cfg.cleanErr (solverOut cfg s).err)
      s.ctrlState.inner).keep = false := by
    unfold accepted at hrej
    rwa [hout] at hrej
  have ht := hin.2 hk
  rw [hout]
  change (c.adaptJump s.ctrlState.jumpIdx (inner.adapt s.tprev s.tnext s.y (solverOut cfg s).y
    (cfg.cleanErr (solverOut cfg s).err) s.ctrlState.inner).tprev _ _).2.1 = _
  rw [ht]
  unfold Clip.adaptJump
  cases hc : c.jumpTs with
  | none => rfl
  | some js =>
    simp only [Clip.jumps, hc, Option.getD_some] at hj
    have h1 : js.any (fun x => decide (Order.succ s.tprev = x)) = false := by
      rw [List.any_eq_false]
      intro x hx
      simp only [decide_eq_true_eq]
      rintro rfl
      exact hj.2 hx
    have h2 : js.any (fun x => decide (s.tprev = x)) = false := by
      rw [List.any_eq_false]
      intro x hx
      simp only [decide_eq_true_eq]
      rintro rfl
      exact hj.1 hx
    simp only [bumpT0, h1, h2, Bool.false_eq_true, if_false]
end

/-- The toy problem from 0 to 12 with the jump times `js`, until the time is positive. -/
def jumpEventCfg (js : List Int) : Cfg Int Int Int Int Int (ClipState Int Int) Int Int :=
  { clipToy { stepTs := none, jumpTs := some js, storeRejected := none } 12 10 with
    events := [.bool fun t _ => decide (0 < t)] }

def jumpEventHistory (js : List Int) (first : Int) : List (Core Int Int Int Int (ClipState Int Int) Int) :=
  let c : Clip Int := { stepTs := none, jumpTs := some js, storeRejected := none }
  history (jumpEventCfg js) 100 (c.init 0 (first, 0)).1 (c.init 0 (first, 0)).2 0 false

/-- **C16 is false of the code.** With a jump time at `t0` and a rejected first step, the time is moved past the jump although the value
is not, and the event triggers: the solve ends with `event_occurred` and the initial value after a single attempt, which was
rejected. -/
theorem C16_violated : toyController.Exact ∧ (jumpEventHistory [0] 5).map (accepted (jumpEventCfg [0])) = [false] ∧
    (jumpEventHistory [0] 5).map (triggered (jumpEventCfg [0])) = [[true]] ∧
    (let c : Clip Int := { stepTs := none, jumpTs := some [0], storeRejected := none }
     let out := solve (jumpEventCfg [0]) 100 (c.init 0 (5, 0)).1 (c.init 0 (5, 0)).2 0 false
     out.result = .eventOccurred ∧ out.tfinal = 1 ∧ out.yfinal = 100 ∧ out.core.numAccepted = 0) :=
  ⟨toyController_exact, by decide +kernel⟩

/-- Non-vacuity: with a later jump time the rejected first step triggers nothing. -/
example : (jumpEventHistory [7] 5).map (fun s => (accepted (jumpEventCfg [7]) s, triggered (jumpEventCfg [7]) s))
    = [(false, [false]), (true, [true])] ∧
    ∀ s ∈ jumpEventHistory [7] 5, s.tprev = 0 := by
  decide +kernel

end Verif
