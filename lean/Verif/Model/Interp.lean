import Verif.Model.Loop
import Mathlib.Algebra.Order.Field.Basic
import Mathlib.Algebra.Module.Defs

/-!
# Model of `/repo/diffrax/_global_interpolation.py`: segment search, dense, linear and cubic paths

Simplifications: exact arithmetic; a pytree of arrays is an element of one module `V`; the
backward-in-time direction of `DenseInterpolation` is treated in `Model/Front.lean`.
A NaN-filled output is `none`.
-/

namespace Verif

section
variable {T Y D V : Type} [LinearOrder T]

/-- `x < t` for a knot that may be the `inf` padding (`none`). -/
def knotLt (t : T) : Option T → Bool
  | some x => decide (x < t)
  | none => false

/-- `x <= t` for a knot that may be the `inf` padding (`none`). -/
def knotLe (t : T) : Option T → Bool
  | some x => decide (x ≤ t)
  | none => false

/-- `jnp.searchsorted(ts, t, side="left" if left else "right")` on a sorted array: the number of
elements before `t` (JAX library function). -/
def searchsorted (ts : List (Option T)) (t : T) (left : Bool) : Nat :=
  if left then ts.countP (knotLt t) else ts.countP (knotLe t)

/-- The index returned by `_interpret_t` (38-46): `clip(searchsorted - 1, 0, ts_size - 2)`.
(For `ts_size < 2` the upper clip bound is negative; such an index is never used, see
`DenseInterp.evaluate`.) -/
def segIndex (ts : List (Option T)) (tsSize : Nat) (t : T) (left : Bool) : Nat :=
  min (searchsorted ts t left - 1) (tsSize - 2)

/-- `DenseInterpolation` (315-325), in internal (forward) time. -/
structure DenseInterp (T Y D : Type) where
  ts : List (Option T)
  tsSize : Nat
  infos : List (Option D)
  /-- `interpolation_cls(t0=, t1=, **infos).evaluate` -/
  interp : T → T → D → T → Y
  t0IfTrivial : T
  y0IfTrivial : Y

/-- `_nan_if_out_of_bounds` (366-378); `true` means that the time is replaced by NaN. -/
def DenseInterp.outOfBounds (d : DenseInterp T Y D) (t : T) : Bool :=
  decide (d.tsSize ≤ 1) ||
  (match d.ts[0]? with
   | some o => !knotLe t o
   | none => true) ||
  (match d.ts[d.tsSize - 1]? with
   | some o => knotLt t o
   | none => true)

/-- `evaluate(t)` (342-355), `none` standing for NaN. -/
def DenseInterp.evaluate (d : DenseInterp T Y D) (t : T) (left : Bool) : Option Y :=
  if t = d.t0IfTrivial ∧ d.tsSize = 1 then some d.y0IfTrivial
  else if d.outOfBounds t then none
  else
    let i := segIndex d.ts d.tsSize t left
    match d.ts[i]?, d.ts[i + 1]?, d.infos[i]? with
    | some (some a), some (some b), some (some info) => some (d.interp a b info t)
    | _, _, _ => none

/-- The `DenseInterpolation` object built at the end of `diffeqsolve` (`_integrate.py` 1495-1512). -/
def denseOf {E S C O F : Type} [LinearOrder F] [Zero F] (cfg : Cfg T Y E D S C O F) (y0 : Y)
    (out : Output T Y D S C O F) : DenseInterp T Y D :=
  { ts := out.dense.ts, tsSize := out.dense.index + 1, infos := out.dense.infos
    interp := cfg.solver.interp, t0IfTrivial := cfg.t0, y0IfTrivial := y0 }

end

section
variable {K V : Type} [Field K] [LinearOrder K] [AddCommGroup V] [Module K V]

/-- `_interpret_t` (38-46) for `ts_size = len(ts)`: index and `t - ts[index]`. -/
def interpretT (ts : List K) (t : K) (left : Bool) : Nat × K :=
  let i := segIndex (ts.map some) ts.length t left
  (i, t - ts.getD i 0)

/-- `LinearInterpolation` (59-84). -/
structure LinearInterp (K V : Type) where
  ts : List K
  ys : List V

/-- `LinearInterpolation.evaluate(t)` (132-150). -/
def LinearInterp.evaluate (p : LinearInterp K V) (t : K) (left : Bool) : V :=
  let r := interpretT p.ts t left
  let i := r.1
  let frac := r.2
  let prevY := p.ys.getD i 0
  let nextY := p.ys.getD (i + 1) 0
  let diffT := p.ts.getD (i + 1) 0 - p.ts.getD i 0
  prevY + (frac / diffT) • (nextY - prevY)

/-- `LinearInterpolation.evaluate(t0, t1)` (132-133). -/
def LinearInterp.increment (p : LinearInterp K V) (t0 t1 : K) (left : Bool) : V :=
  p.evaluate t1 left - p.evaluate t0 left

/-- `LinearInterpolation.derivative(t)` (153-175). -/
def LinearInterp.derivative (p : LinearInterp K V) (t : K) (left : Bool) : V :=
  let i := (interpretT p.ts t left).1
  (p.ts.getD (i + 1) 0 - p.ts.getD i 0)⁻¹ • (p.ys.getD (i + 1) 0 - p.ys.getD i 0)

/-- `CubicInterpolation` (189-218): coefficients `d, c, b, a`. -/
structure CubicInterp (K V : Type) where
  ts : List K
  coeffs : List (V × V × V × V)

/-- `CubicInterpolation.evaluate(t)` (224-266). -/
def CubicInterp.evaluate (p : CubicInterp K V) (t : K) (left : Bool) : V :=
  let r := interpretT p.ts t left
  let i := r.1
  let frac := r.2
  let q := p.coeffs.getD i (0, 0, 0, 0)
  q.2.2.2 + frac • (q.2.2.1 + frac • (q.2.1 + frac • q.1))

/-- `CubicInterpolation.derivative(t)` (268-292). -/
def CubicInterp.derivative (p : CubicInterp K V) (t : K) (left : Bool) : V :=
  let r := interpretT p.ts t left
  let i := r.1
  let frac := r.2
  let q := p.coeffs.getD i (0, 0, 0, 0)
  q.2.2.1 + frac • ((2 : K) • q.2.1 + (frac * 3) • q.1)

end
end Verif
