import Mathlib.Order.SuccPred.Basic
import Verif.Model.Loop

/-!
# Model of `ClipStepSizeController`, `/repo/diffrax/_step_size_controller/clip.py`

Simplifications:
* times are elements of a linear order with successor and predecessor functions, standing for
  `eqxi.nextafter` and `eqxi.prevbefore` on floats; `inf` as returned by `_get_t` is `none`;
* the inner controller is an arbitrary controller in the sense of `Model/Loop.lean`; the state keeps
  the lists `step_ts`, `jump_ts` in the configuration and not in the state (the code copies them to the
  state unchanged);
* dtype checks (`_assert_floating`, `upcast_or_raise`) and `callback_on_reject` are left out.
-/

namespace Verif

variable {T Y E C : Type} [LinearOrder T]

/-- `_get_t` (54-61) for an index in range. -/
def getT (i : Nat) (ts : List T) : Option T := ts[i]?

/-- `_get_t` (54-61) for the reject index, which may become `-1`, when Python indexing picks the last
element. -/
def getTR (i : Int) (ts : List T) : Option T :=
  if i < 0 then ts[(ts.length + i).toNat]? else ts[i.toNat]?

/-- `reject_ts.at[reject_index].set(v)` (424): negative indices wrap, out-of-range ones are dropped. -/
def setTR (i : Int) (v : T) (ts : List T) : List T :=
  if i < 0 then ts.set (ts.length + i).toNat v else ts.set i.toNat v

/-- `_find_idx_with_hint.cond_up` and its loop (107-108, 114): at most `len(ts)` iterations happen. -/
def findUp (t : T) (ts : List T) : (fuel : Nat) → Nat → Nat
  | 0, i => i
  | fuel + 1, i =>
    match ts[i]? with
    | some x => if x ≤ t then findUp t ts fuel (i + 1) else i
    | none => i

/-- `_find_idx_with_hint.cond_down` and its loop (110-111, 115). -/
def findDown (t : T) (ts : List T) : Nat → Nat
  | 0 => 0
  | i + 1 =>
    match ts[i]? with
    | some x => if t < x then findDown t ts i else i + 1
    | none => i + 1

/-- `_find_idx_with_hint` (101-117). -/
def findIdx (t : T) (ts : List T) (hint : Nat) : Nat :=
  findDown t ts (findUp t ts ts.length hint)

/-- `jnp.searchsorted(ts, t, side="right")` (270, 285) on a sorted array. -/
def searchRight (t : T) (ts : List T) : Nat := ts.countP (fun x => decide (x ≤ t))

/-- `_ClipState` (25-30); `reject_index` starts as the length of the buffer. -/
structure ClipState (T C : Type) where
  stepIdx : Nat
  jumpIdx : Nat
  rejIdx : Int
  rejTs : List T
  inner : C
deriving DecidableEq

/-- The fields of `ClipStepSizeController` (161-166) except for the inner controller. -/
structure Clip (T : Type) where
  stepTs : Option (List T)
  jumpTs : Option (List T)
  storeRejected : Option Nat

/-- `ClipStepSizeController.__init__` (188-226) with `_none_or_sorted_array` (36-40); `none` is the
`ValueError` raised at 220-223. -/
def Clip.mk? (stepTs jumpTs : Option (List T)) (storeRejected : Option Nat) : Option (Clip T) :=
  if storeRejected = some 0 then none
  else some { stepTs := stepTs.map (List.mergeSort · (fun a b => decide (a ≤ b)))
              jumpTs := jumpTs.map (List.mergeSort · (fun a b => decide (a ≤ b)))
              storeRejected := storeRejected }

/-- `wrap` (236-245), for multiplication by the direction being `dir`. -/
def Clip.wrap (dir : T → T) (c : Clip T) : Clip T :=
  { stepTs := c.stepTs.map (fun l => (l.map dir).mergeSort (fun a b => decide (a ≤ b)))
    jumpTs := c.jumpTs.map (fun l => (l.map dir).mergeSort (fun a b => decide (a ≤ b)))
    storeRejected := c.storeRejected }

variable [SuccOrder T] [PredOrder T]

/-- `_clip_t` (64-75), given the result of `_get_t`. -/
def clipT (t : T) (x : Option T) (prevbefore : Bool) : T :=
  match x with
  | none => t
  | some x => min (if prevbefore then Order.pred x else x) t

/-- `_bump_next_t0` (78-98). -/
def bumpT0 (t : T) (ts : List T) : T × Bool :=
  let after := Order.succ t
  let jump1 := ts.any (fun x => decide (after = x))
  let jump2 := ts.any (fun x => decide (t = x))
  let t' := if jump1 then Order.succ after else t
  let t' := if jump2 then after else t'
  (t', jump1 || jump2)

/-- `init` (247-302), given the result of the inner controller's `init`. -/
def Clip.init (c : Clip T) (t0 : T) (inner : T × C) : T × ClipState T C :=
  let t1 := inner.1
  let stepIdx := match c.stepTs with
    | none => 0
    | some ts => searchRight t0 ts
  let t1 := match c.stepTs with
    | none => t1
    | some ts => clipT t1 (getT stepIdx ts) false
  let jumpIdx := match c.jumpTs with
    | none => 0
    | some ts => searchRight t0 ts
  let t1 := match c.jumpTs with
    | none => t1
    | some ts => clipT t1 (getT jumpIdx ts) true
  let n := c.storeRejected.getD 0
  (t1, { stepIdx := stepIdx, jumpIdx := jumpIdx, rejIdx := n, rejTs := List.replicate n t0,
         inner := inner.2 })

/-- The `step_info` block of `adapt_step_size` (358-378): new index and new `next_t1`. -/
def Clip.adaptStep (c : Clip T) (idx : Nat) (t0 t1 : T) : Nat × T :=
  match c.stepTs with
  | none => (idx, t1)
  | some ts =>
    let i := findIdx (bumpT0 t0 ts).1 ts idx
    (i, clipT t1 (getT i ts) false)

/-- The `jump_info` block (379-405): new index, `next_t0`, `next_t1` and `made_jump`. -/
def Clip.adaptJump (c : Clip T) (idx : Nat) (t0 t1 : T) (madeJump : Bool) : Nat × T × T × Bool :=
  match c.jumpTs with
  | none => (idx, t0, t1, madeJump)
  | some ts =>
    let b := bumpT0 t0 ts
    let t1 := max (Order.succ b.1) t1
    let i := findIdx b.1 ts idx
    (i, b.1, clipT t1 (getT i ts) true, madeJump || b.2)

/-- The `reject_info` block (406-426). `t1` is the end of the step just attempted, `nt1` the `next_t1`
so far. The read `reject_ts[reject_index]` at 423 is only used when the same value is written back. -/
def Clip.adaptReject (c : Clip T) (idx : Int) (ts : List T) (t1 nt1 : T) (keep : Bool)
    (result : Result) : Int × List T × T × Result :=
  match c.storeRejected with
  | none => (idx, ts, nt1, result)
  | some _ =>
    let rejected := getTR idx ts
    let over : Bool := rejected.any (fun r => decide (r < t1))
    let result := Result.where' (over && result.isOkay) .internalError result
    let idx := idx + (if rejected = some t1 then 1 else 0)
    let idx := idx - (if keep then 0 else 1)
    let result := Result.where' (decide (idx < 0) && result.isOkay) .maxStepsRejected result
    let ts := if keep then ts else setTR idx t1 ts
    (idx, ts, clipT nt1 (getTR idx ts) false, result)

/-- `adapt_step_size` (304-428). -/
def Clip.adapt (c : Clip T) (inner : Controller T Y E C) (t0 t1 : T) (y0 y1 : Y) (err : E)
    (st : ClipState T C) : AdaptOut T (ClipState T C) :=
  let r := inner.adapt t0 t1 y0 y1 err st.inner
  let s := c.adaptStep st.stepIdx r.tprev r.tnext
  let j := c.adaptJump st.jumpIdx r.tprev s.2 r.madeJump
  let q := c.adaptReject st.rejIdx st.rejTs t1 j.2.2.1 r.keep r.result
  { keep := r.keep, tprev := j.2.1, tnext := q.2.2.1, madeJump := j.2.2.2
    state := { stepIdx := s.1, jumpIdx := j.1, rejIdx := q.1, rejTs := q.2.1, inner := r.state }
    result := q.2.2.2 }

/-- `ClipStepSizeController` as seen by the loop. Only adaptive controllers can be wrapped (211-215),
so it is never a `StepTo`. -/
def clipController (c : Clip T) (inner : Controller T Y E C) : Controller T Y E (ClipState T C) :=
  { adapt := c.adapt inner, stepTo := none }

end Verif
