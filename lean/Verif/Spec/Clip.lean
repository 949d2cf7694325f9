import Verif.Model.Clip
import Verif.Spec.Loop

/-!
# Specifications for `ClipStepSizeController`
-/

namespace Verif

variable {T Y E C : Type} [LinearOrder T]

/-- `o` is the first listed time strictly after `t` (`none`: there is no such time). -/
def IsFirstAfter (ts : List T) (t : T) (o : Option T) : Prop :=
  (o = none → ∀ x ∈ ts, x ≤ t) ∧
  ∀ x, o = some x → x ∈ ts ∧ t < x ∧ ∀ z ∈ ts, t < z → x ≤ z

/-- What `ClipStepSizeController.__init__` guarantees: the times are sorted. -/
structure Clip.Sorted (c : Clip T) : Prop where
  step : ∀ ts ∈ c.stepTs, ts.Pairwise (· ≤ ·)
  jump : ∀ ts ∈ c.jumpTs, ts.Pairwise (· ≤ ·)

/-- The requested step times, in any case. -/
def Clip.steps (c : Clip T) : List T := c.stepTs.getD []

/-- The jump times, in any case. -/
def Clip.jumps (c : Clip T) : List T := c.jumpTs.getD []

/-- Cached indices are valid positions. -/
structure ClipState.InRange (st : ClipState T C) (c : Clip T) : Prop where
  step : st.stepIdx ≤ c.steps.length
  jump : st.jumpIdx ≤ c.jumps.length

/-- A controller without jumps of its own: accepted steps end where they were asked to end, rejected
ones are retried from where they started. -/
def Controller.Exact (inner : Controller T Y E C) : Prop :=
  ∀ a b y0 y1 e st, (inner.adapt a b y0 y1 e st).Exact a b

/-- The stack of rejected times still to be revisited, after an attempt ending at `b`. -/
def pend (st : List T) (b : T) (keep : Bool) : List T :=
  let st := if st.head? = some b then st.tail else st
  if keep then st else b :: st

/-- The stack after a sequence of attempts (end time, accepted?). -/
def pending (l : List (T × Bool)) : List T := l.foldl (fun st x => pend st x.1 x.2) []

variable [SuccOrder T]

/-- `a` is so close before the requested time `s` that stepping on from `a` may skip it: `s` is the
next float, or the one after that and the float in between is listed as well. -/
def Near (c : Clip T) (a s : T) : Prop :=
  s = Order.succ a ∨ (s = Order.succ (Order.succ a) ∧ (Order.succ a ∈ c.steps ∨ Order.succ a ∈ c.jumps))

/-- No two listed times are neighbouring floats. -/
def NoAdjacent (ts : List T) : Prop := ∀ j ∈ ts, Order.succ j ∉ ts

/-- Between two listed times there are at least two floats. -/
def Separated (ts : List T) : Prop := ∀ j ∈ ts, Order.succ j ∉ ts ∧ Order.succ (Order.succ j) ∉ ts

end Verif
