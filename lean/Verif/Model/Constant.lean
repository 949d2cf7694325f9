import Verif.Model.Loop
import Mathlib.Algebra.Order.Floor.Ring
import Mathlib.Algebra.Order.Field.Basic

/-!
# Model of `/repo/diffrax/_step_size_controller/constant.py`

Exact arithmetic. `eqxi.nextafter` is a function `up`. An infinite `t1` is `none`.
-/

namespace Verif

section
variable {K Y E : Type} [Field K] [LinearOrder K] [FloorRing K]

/-- `_ConstantStepSizeState` (14-17). -/
structure ConstState (K : Type) where
  completed : Int
  numSteps : Int
  t0 : K
  t1OrDt0 : K
deriving DecidableEq

/-- `ConstantStepSize.init` (30-55). `none` is the `ValueError`. -/
def constInit (up : K → K) (t0 : K) (t1 : Option K) (dt0 : Option K) : Option (K × ConstState K) :=
  match dt0 with
  | none => none
  | some dt0 =>
    let numSteps : Int := match t1 with
      | some t1 => ⌈(t1 - t0) / up dt0⌉
      | none => -1
    let t1OrDt0 := match t1 with
      | some t1 => t1
      | none => dt0
    some (t0 + dt0, { completed := 1, numSteps := numSteps, t0 := t0, t1OrDt0 := t1OrDt0 })

/-- `ConstantStepSize.adapt_step_size` (57-104). -/
def constAdapt (t1 : K) (s : ConstState K) : AdaptOut K (ConstState K) :=
  let completed := s.completed + 1
  let t1Next := s.t0 + (s.t1OrDt0 - s.t0) * ((completed : K) / (s.numSteps : K))
  let t1Next := if completed = s.numSteps then s.t1OrDt0 else t1Next
  let t1Next := if s.numSteps ≥ 0 then t1Next else t1 + s.t1OrDt0
  { keep := true, tprev := t1, tnext := t1Next, madeJump := false,
    state := { s with completed := completed }, result := .successful }

/-- `ConstantStepSize` as the loop sees it. -/
def constantStepSize : Controller K Y E (ConstState K) where
  adapt _ t1 _ _ _ s := constAdapt t1 s
end

section
variable {T Y E : Type} [LinearOrder T]

/-- `StepTo.wrap` (124-133) after multiplication by the direction, and `__check_init__` (118-122):
`false` is an error. -/
def stepToValid (ts : List T) : Bool :=
  decide (2 ≤ ts.length) && (List.zipWith (fun a b => decide (a < b)) ts ts.tail).all id

/-- `StepTo.init` (135-158). `none` is an error. `dt0Given` is whether `dt0` was passed. -/
def stepToInit (ts : List T) (t0 t1 : T) (dt0Given : Bool) : Option (T × Nat) :=
  if dt0Given then none
  else if ts.head? ≠ some t0 ∨ ts.getLast? ≠ some t1 then none
  else match ts[1]? with
    | some t => some (t, 2)
    | none => none

/-- `StepTo.adapt_step_size` (160-178) as the loop sees it. Reading `self.ts` out of range clamps. -/
def stepTo (ts : List T) (dflt : T) : Controller T Y E Nat where
  adapt _ t1 _ _ _ i :=
    { keep := true, tprev := t1, tnext := (ts[min i (ts.length - 1)]?).getD dflt, madeJump := false,
      state := i + 1, result := .successful }
  stepTo := some ts.length
end

end Verif
