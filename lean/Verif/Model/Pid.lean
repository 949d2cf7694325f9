import Verif.Model.Loop
import Verif.Model.XReal

/-!
# Model of `/repo/diffrax/_step_size_controller/pid.py`

Exact arithmetic extended by NaN and infinities (`XVal`); `**` on positive numbers and `norm` are
parameters. The state is a list of leaves, each a list of components. Complex values, dtypes and
`stop_gradient` are not modelled.
-/

namespace Verif

section
variable {K : Type} [Field K] [LinearOrder K]

/-- A pytree of arrays. -/
abbrev XTree (K : Type) := List (List (XVal K))

/-- `PIDController` (299-311), with the library functions it uses. `order` is `error_order` after
`_get_error_order` (569-580). -/
structure Pid (K : Type) where
  rtol : K
  atol : K
  norm : XTree K → XVal K
  rpow : K → K → K
  pcoeff : K
  icoeff : K
  dcoeff : K
  dtmin : Option K
  dtmax : Option K
  forceDtmin : Bool
  factormin : K
  factormax : K
  safety : K
  order : K

/-- `_PidState` (84-85). -/
structure PidState (K : Type) where
  prevInv : XVal K
  prevPrevInv : XVal K
  atDtmin : Bool
deriving DecidableEq

/-- `init` (316-392), given `dt0` (passed, or computed by `_select_initial_step`). -/
def Pid.init (p : Pid K) (t0 dt0 : XVal K) : XVal K × PidState K :=
  let dt0 := match p.dtmax with
    | some m => XVal.min dt0 (.fin m)
    | none => dt0
  let dt0 := match p.dtmin with
    | some m => XVal.max dt0 (.fin m)
    | none => dt0
  (t0.add dt0, { prevInv := .fin 1, prevPrevInv := .fin 1, atDtmin := false })

/-- `_scale` on one leaf (476-484). -/
def Pid.scaleLeaf (p : Pid K) (y0 y1 err : List (XVal K)) : List (XVal K) :=
  let nan := y1.any XVal.isNan
  let y1 := if nan then y0 else y1
  let y := List.zipWith (fun a b => XVal.max a.abs b.abs) y0 y1
  List.zipWith (fun e a => e.div (XVal.add (.fin p.atol) (a.mul (.fin p.rtol)))) err y

/-- `scaled_error` (486). -/
def Pid.scaledError (p : Pid K) (y0 y1 err : XTree K) : XVal K :=
  p.norm (List.zipWith (fun a be => p.scaleLeaf a be.1 be.2) y0 (y1.zip err))

/-- The result of `adapt_step_size`. -/
structure PidOut (K : Type) where
  keep : Bool
  t0 : XVal K
  t1 : XVal K
  state : PidState K
  result : Result

/-- `keep_step` (487-490). -/
def Pid.keep (p : Pid K) (scaled : XVal K) (atDtmin : Bool) : Bool :=
  let keep := scaled.lt (.fin 1)
  match p.dtmin with
  | some _ => keep || atDtmin
  | none => keep

/-- `factor` (506-521). -/
def Pid.factor (p : Pid K) (scaled : XVal K) (keep : Bool) (s : PidState K) : XVal K :=
  let inv := XVal.div (.fin 1) scaled
  let coeff1 := (p.icoeff + p.pcoeff + p.dcoeff) / p.order
  let coeff2 := -(p.pcoeff + 2 * p.dcoeff) / p.order
  let coeff3 := p.dcoeff / p.order
  let factor1 := XVal.pow p.rpow inv coeff1
  let factor2 := XVal.pow p.rpow s.prevInv coeff2
  let factor3 := XVal.pow p.rpow s.prevPrevInv coeff3
  let factormin := if keep then 1 else p.factormin
  let factormax := if keep then p.factormax else p.safety
  XVal.clip ((((XVal.fin p.safety).mul factor1).mul factor2).mul factor3) (.fin factormin)
    (.fin factormax)

/-- `adapt_step_size` (394-567) from the scaled error on (487-567). -/
def Pid.adaptScaled (p : Pid K) (t0 t1 scaled : XVal K) (s : PidState K) : PidOut K :=
  let prevDt := t1.sub t0
  let keep := p.keep scaled s.atDtmin
  let inv := XVal.div (.fin 1) scaled
  let factor := p.factor scaled keep s
  let dt := prevDt.mul factor
  -- 534-535
  let inv := if decide (inv = .fin 0) || inv.isInf then .fin 1 else inv
  -- 541-553
  let dt := match p.dtmax with
    | some m => XVal.min dt (.fin m)
    | none => dt
  let r : XVal K × Bool × Result := match p.dtmin with
    | some m =>
      let result := if p.forceDtmin then .successful
        else Result.where' (dt.lt (.fin m)) .dtMinReached .successful
      let dt := if s.atDtmin && decide (factor = .fin 1) then .fin m else dt
      (XVal.max dt (.fin m), dt.le (.fin m), result)
    | none => (dt, s.atDtmin, .successful)
  -- 555-567
  let nextT0 := if keep then t1 else t0
  { keep := keep, t0 := nextT0, t1 := nextT0.add r.1
    state := { prevInv := if keep then inv else s.prevInv
               prevPrevInv := if keep then s.prevInv else s.prevPrevInv
               atDtmin := r.2.1 }
    result := r.2.2 }

/-- `adapt_step_size` (394-567). -/
def Pid.adapt (p : Pid K) (t0 t1 : XVal K) (y0 y1 err : XTree K) (s : PidState K) : PidOut K :=
  p.adaptScaled t0 t1 (p.scaledError y0 y1 err) s

/-- A finite value, or a default. -/
def XVal.toK (x : XVal K) (d : K) : K :=
  match x with
  | .fin a => a
  | _ => d

/-- PIDController as the loop sees it, for finite times. (If the next end time is NaN the loop model,
which has ordered times, does not apply; the theorems using this exclude that case.) -/
def pidController (p : Pid K) : Controller K (XTree K) (XTree K) (PidState K) where
  adapt t0 t1 y0 y1 err s :=
    let r := p.adapt (.fin t0) (.fin t1) y0 y1 err s
    { keep := r.keep, tprev := r.t0.toK t0, tnext := r.t1.toK t1, madeJump := false, state := r.state,
      result := r.result }

/-- Elementwise operations on trees. -/
def XTree.map₂ (f : XVal K → XVal K → XVal K) (a b : XTree K) : XTree K :=
  List.zipWith (fun x y => List.zipWith f x y) a b

/-- `_select_initial_step` (33-81) for an `ODETerm`; `f` is the vector field. (For other terms the
result is `0.01`, 47-48.) -/
def Pid.selectInitialStep (p : Pid K) (f : XVal K → XTree K → XTree K) (t0 : XVal K) (y0 : XTree K) :
    XVal K :=
  let scale : XTree K :=
    y0.map (fun l => l.map (fun a => XVal.add (.fin p.atol) (a.abs.mul (.fin p.rtol))))
  let f0 := f t0 y0
  let d0 := p.norm (XTree.map₂ XVal.div y0 scale)
  let d1 := p.norm (XTree.map₂ XVal.div f0 scale)
  let cond := d0.lt (.fin (1 / 10 ^ 5)) || d1.lt (.fin (1 / 10 ^ 5))
  let d1' := if cond then .fin 1 else d1
  let h0 := if cond then .fin (1 / 10 ^ 6) else XVal.mul (.fin (1 / 100)) (d0.div d1')
  let y1 := XTree.map₂ (fun a b => a.add (h0.mul b)) y0 f0
  let f1 := f (t0.add h0) y1
  let d2 := (p.norm (XTree.map₂ XVal.div (XTree.map₂ XVal.sub f1 f0) scale)).div h0
  let maxD := XVal.max d1 d2
  let h1 := if maxD.le (.fin (1 / 10 ^ 15)) then
      XVal.max (.fin (1 / 10 ^ 6)) (h0.mul (.fin (1 / 10 ^ 3)))
    else XVal.pow p.rpow ((XVal.fin (1 / 100)).div maxD) (1 / p.order)
  XVal.min ((XVal.fin 100).mul h0) h1

end
end Verif
