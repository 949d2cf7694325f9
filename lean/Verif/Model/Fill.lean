import Verif.Model.Interp

/-!
# Model of the missing-data routines

`/repo/diffrax/_misc.py` (`fill_forward`) and `/repo/diffrax/_global_interpolation.py`
(`linear_interpolation`, `rectilinear_interpolation`, `backward_hermite_coefficients`).

Simplifications: one channel (the code is elementwise over channels); exact arithmetic over a field; a
value is `none` if it is NaN (arithmetic on NaN gives NaN); times are not NaN. The check `_check_ts`
(401-410) is the hypothesis "strictly increasing, length at least 2" of the theorems.
-/

namespace Verif

variable {α : Type}

/-- `lax.scan(_fill_forward, y0, ys)` (`_misc.py` 29-33, 67). -/
def fillScan (last : Option α) : List (Option α) → List (Option α)
  | [] => []
  | y :: ys =>
    let yi := match y with
      | none => last
      | some v => some v
    yi :: fillScan yi ys

/-- `fill_forward(ys, replace_nans_at_start)` (`_misc.py` 36-68). The outer `Option` of `replace` is
whether the argument is passed. -/
def fillForward (ys : List (Option α)) (replace : Option (Option α)) : List (Option α) :=
  let y0 := match replace with
    | none => ys.headD none
    | some r => r
  fillScan y0 ys

/-- `_rectilinear_interpolation` (508-514): fill forward, repeat each twice, drop the last. -/
def rectilinearYs (ys : List (Option α)) (replace : Option (Option α)) : List (Option α) :=
  ((fillForward ys replace).flatMap (fun y => [y, y])).dropLast

/-- `rectilinear_interpolation` (517-602), times: repeat each twice, drop the first. -/
def rectilinearTs {K : Type} (ts : List K) : List K := (ts.flatMap (fun t => [t, t])).tail

section
variable {K : Type} [Field K] [LinearOrder K]

/-- `lax.scan(_interpolation_reverse, carry, ..., reverse=True)` (413-425). -/
def revScan (carry : K × Option K) : List (K × Option K) → List (K × Option K)
  | [] => []
  | v :: vs =>
    let rest := revScan carry vs
    let next := rest.headD carry
    (match v.2 with
     | none => next
     | some y => (v.1, some y)) :: rest

/-- `_linear_interpolation_forward` scanned (428-449): items are `(ti, yi, next_ti, next_yi)`. -/
def linScan (carry : K × Option K) : List ((K × Option K) × (K × Option K)) → List (Option K)
  | [] => []
  | ((ti, yi), (nextT, nextY)) :: rest =>
    let c : K × Option K := match yi with
      | none => carry
      | some y => (ti, some y)
    let div : K := match yi with
      | none => nextT - c.1
      | some _ => 1
    let y := do
      let cy ← c.2
      let ny ← nextY
      pure (cy + (ny - cy) * (ti - c.1) / div)
    y :: linScan c rest

/-- `_linear_interpolation` (452-473). -/
def linearFill (ts : List K) (ys : List (Option K)) (fillEnd : Bool) (replace : Option (Option K)) :
    List (Option K) :=
  let y0 := match replace with
    | none => ys.headD none
    | some r => r
  let next := revScan (ts.getLastD 0, ys.getLastD none) (ts.zip ys)
  let nextYs := if fillEnd then fillForward (next.map Prod.snd) none else next.map Prod.snd
  linScan (ts.headD 0, y0) ((ts.zip ys).zip ((next.map Prod.fst).zip nextYs))

/-- Cubic coefficients `d, c, b, a`, each possibly NaN. -/
structure Coef (K : Type) where
  d : Option K
  c : Option K
  b : Option K
  a : Option K
deriving DecidableEq

/-- `_hermite_coeffs` (643-655). -/
def hermiteCoeffs (t0 : K) (y0 deriv0 : Option K) (t1 : K) (y1 : Option K) : Coef K :=
  let tDiff := t1 - t0
  let deriv1 := do pure (((← y1) - (← y0)) / tDiff)
  let dDeriv := do pure ((← deriv1) - (← deriv0))
  { a := y0, b := deriv0
    c := do pure (2 * (← dDeriv) / tDiff)
    d := do pure (-(← dDeriv) / tDiff ^ 2) }

/-- `CubicInterpolation.evaluate` on one segment starting at `s` (261-266), NaN-propagating. -/
def Coef.eval (q : Coef K) (s t : K) : Option K :=
  let frac := t - s
  do pure ((← q.a) + frac * ((← q.b) + frac * ((← q.c) + frac * (← q.d))))

/-- `CubicInterpolation.derivative` on one segment starting at `s` (287-292), NaN-propagating. -/
def Coef.deriv (q : Coef K) (s t : K) : Option K :=
  let frac := t - s
  do pure ((← q.b) + frac * (2 * (← q.c) + frac * 3 * (← q.d)))

/-- `_hermite_impl` (658-666). The two-knot interpolation always uses its only segment. -/
def hermiteImpl (prevT : K) (prevY prevD : Option K) (ti nextT : K) (nextY : Option K) : Coef K :=
  let q := hermiteCoeffs prevT prevY prevD nextT nextY
  hermiteCoeffs ti (q.eval prevT ti) (q.deriv prevT ti) nextT nextY

/-- `_hermite_forward` scanned (605-640): items are `(ti, yi, next_ti, next_yi)`. -/
def hermScan (carry : K × Option K × Option K) :
    List ((K × Option K) × (K × Option K)) → List (K × Option K × Option K)
  | [] => []
  | ((ti, yi), (nextT, nextY)) :: rest =>
    let first := do pure (((← nextY) - (← yi)) / (nextT - ti))
    let later := do pure (((← yi) - (← carry.2.1)) / (ti - carry.1))
    let deriv := match carry.2.1 with
      | none => first
      | some _ => later
    let c := match yi with
      | none => carry
      | some y => (ti, some y, deriv)
    c :: hermScan c rest

/-- `_backward_hermite_coefficients` (669-714). -/
def backwardHermite (ts : List K) (ys : List (Option K)) (fillEnd : Bool)
    (deriv0 : Option (Option K)) (replace : Option (Option K)) : List (Coef K) :=
  let next := revScan (ts.getLastD 0, ys.getLastD none) (ts.tail.zip ys.tail)
  let nextTs := next.map Prod.fst
  let nextYs := if fillEnd then fillForward (next.map Prod.snd) none else next.map Prod.snd
  let t0 := ts.headD 0
  let y0 := match replace with
    | none => ys.headD none
    | some r => r
  let d0 := match deriv0 with
    | none => do pure (((← nextYs.headD none) - (← y0)) / (nextTs.headD 0 - t0))
    | some d => d
  let ts' := ts.dropLast
  let ys' := ys.dropLast
  let prev := (t0, y0, d0) ::
    hermScan (t0, y0, d0) ((ts'.tail.zip ys'.tail).zip (nextTs.tail.zip nextYs.tail))
  List.zipWith (fun p (x : K × K × Option K) => hermiteImpl p.1 p.2.1 p.2.2 x.1 x.2.1 x.2.2)
    prev (ts'.zip (nextTs.zip nextYs))

end
end Verif
