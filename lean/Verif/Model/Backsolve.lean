import Verif.Model.Terms

/-!
# Model of the backward pass of `BacksolveAdjoint` (`_loop_backsolve_bwd`, `/repo/diffrax/_adjoint.py` 574-732)

`solve` is the call of `diffeqsolve` in `_scan_fun` (637-647) with everything but `t0`, `t1`, `y0`, the two states and
`made_jump` fixed: it returns the value at the end and the states of the solver and the controller (together `S`). `Y` is
the kind of the state of the equation and of its cotangent, `P` that of the cotangents of `args` and of the parameters of
the terms together. An `assert` that fails gives `none`.
-/

namespace Verif.Backsolve
variable {T Y P S : Type} [Add Y] [Zero Y] [Zero P]

/-- The arguments `t0`, `t1`, `y0`, the states if any, and `made_jump`. -/
abbrev Solve (T Y P S : Type) := T → T → Y × Y × P → Option S → Bool → (Y × Y × P) × S

/-- `_scan_fun` (630-660). The values are `_t1, _t0, _y0, _grad_y0`. -/
def scanFun (solve : Solve T Y P S) (state : (Y × P) × Option S) (vals : T × T × Y × Y) (first : Bool) :
    (Y × P) × Option S :=
  let (t1, t0, y0, gradY0) := vals
  let ((aY0, aP0), st) := state
  let aY0 := aY0 + gradY0
  let aug0 := (y0, aY0, aP0)
  let sol := solve t0 t1 aug0 st (!first)
  let (_, aY1, aP1) := sol.1
  ((aY1, aP1), some sol.2)

/-- `lax.scan(_scan_fun, state, vals, reverse=True)` (684, 713). -/
def scanRev (solve : Solve T Y P S) (state : (Y × P) × Option S) (t1s t0s : List T) (ys gs : List Y) :
    (Y × P) × Option S :=
  (t1s.zip (t0s.zip (ys.zip gs))).reverse.foldl (fun st v => scanFun solve st v false) state

/-- `_loop_backsolve_bwd` from 662 on: the cotangents of `y0` and of the parameters. -/
def backward (solve : Solve T Y P S) (saveatT0 : Bool) (t0 : T) (ts : List T) (ys gs : List Y) : Option (Y × P) :=
  let state : (Y × P) × Option S := ((0, 0), none)
  let n := ts.length
  if saveatT0 then do
    let state ←
      if n > 2 then do
        let val0 := (← ts[n - 2]?, ← ts[n - 1]?, ← ys[n - 1]?, ← gs[n - 1]?)
        let state := scanFun solve state val0 true
        some (scanRev solve state ts.dropLast.dropLast ts.dropLast.tail ys.dropLast.tail gs.dropLast.tail)
      else if n = 1 then
        some state
      else if n = 2 then do
        let val := (← ts[0]?, ← ts[1]?, ← ys[1]?, ← gs[1]?)
        some (scanFun solve state val true)
      else
        none
    let g0 ← gs[0]?
    some (state.1.1 + g0, state.1.2)
  else do
    let state ←
      if n > 1 then do
        let val0 := (← ts[n - 2]?, ← ts[n - 1]?, ← ys[n - 1]?, ← gs[n - 1]?)
        let state := scanFun solve state val0 true
        some (scanRev solve state (t0 :: ts.dropLast.dropLast) ts.dropLast ys.dropLast gs.dropLast)
      else if n = 1 then do
        let val := (t0, ← ts[0]?, ← ys[0]?, ← gs[0]?)
        some (scanFun solve state val true)
      else
        none
    some state.1

end Verif.Backsolve
