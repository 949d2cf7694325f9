import Verif.Spec.Loop
import Mathlib.Algebra.Order.Group.Int
import Mathlib.Tactic.NormNum

/-!
# A small concrete problem on integer times, used in the non-vacuity examples

The solver integrates `dy/dt = 1` exactly and counts its accepted steps in its state; the controller
rejects steps longer than 2, halving them, and otherwise asks for a step twice as long.
-/

namespace Verif

def toySolver : Solver Int Int Int Int Int where
  step a b y s _ := { y := y + (b - a), err := b - a, dense := y, state := s + 1,
                      result := .successful }
  interp a _ d t := d + (t - a)

def toyController : Controller Int Int Int Int where
  adapt a b _ _ err c :=
    if err ≤ 2 then
      { keep := true, tprev := b, tnext := b + 2 * (b - a), madeJump := false, state := c + 1,
        result := .successful }
    else
      { keep := false, tprev := a, tnext := a + (b - a) / 2, madeJump := false, state := c + 1,
        result := .successful }

def toySub : SubSaveAt Int Int Int :=
  { t0 := true, t1 := true, ts := [0, 1, 1, 3, 7], steps := 2, fn := fun t y => 10 * t + y }

def toyCfg : Cfg Int Int Int Int Int Int Int Int :=
  { solver := toySolver, controller := toyController, cleanErr := id, events := [],
    rootFinder := none, dist := fun a b => a - b, dummyDense := 0, t0 := 0, t1 := 7, floor := 6,
    mid := fun a b => (a + b) / 2, subs := [toySub], dense := true, maxSteps := 20 }

theorem toyCfg_WF : toyCfg.WF where
  le := by decide
  floor_le := by decide
  le_mid := by intro a h; simp only [toyCfg] at *; omega
  mid_le := by intro a h; simp only [toyCfg] at *; omega

end Verif
