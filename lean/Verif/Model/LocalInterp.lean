import Mathlib.Algebra.Order.Field.Basic
import Mathlib.Algebra.Module.Defs

/-!
# Model of `/repo/diffrax/_local_interpolation.py`

Exact arithmetic; a pytree of arrays is an element of one module `V` over the field `K` of times.
-/

namespace Verif

variable {K V : Type} [Field K] [DecidableEq K] [AddCommGroup V] [Module K V]

/-- `linear_rescale(t0, t, t1)` (`_misc.py` 71-82). -/
def linearRescale (t0 t t1 : K) : K :=
  let numerator := if t0 = t1 then 0 else t - t0
  let denominator := if t0 = t1 then 1 else t1 - t0
  numerator / denominator

/-- `LocalLinearInterpolation` (29-33). -/
structure LocalLinear (K V : Type) where
  t0 : K
  t1 : K
  y0 : V
  y1 : V

/-- `LocalLinearInterpolation.evaluate(t)` (40-44). -/
def LocalLinear.evaluate (p : LocalLinear K V) (t : K) : V :=
  p.y0 + linearRescale p.t0 t p.t1 • (p.y1 - p.y0)

/-- `LocalLinearInterpolation.evaluate(t0, t1)` (45-47). -/
def LocalLinear.increment (p : LocalLinear K V) (s t : K) : V :=
  ((t - s) / (p.t1 - p.t0)) • (p.y1 - p.y0)

/-- `jnp.polyval(coeffs, t)`: Horner's rule, highest degree first (NumPy library function). -/
def polyval (coeffs : List V) (t : K) : V :=
  coeffs.foldl (fun acc c => t • acc + c) 0

/-- A polynomial in the rescaled time: the objects `ThirdOrderHermitePolynomialInterpolation` and
`FourthOrderPolynomialInterpolation` (50-55, 95-100). -/
structure LocalPoly (K V : Type) where
  t0 : K
  t1 : K
  coeffs : List V

/-- `ThirdOrderHermitePolynomialInterpolation.__init__` (57-67). -/
def hermite3 (t0 t1 : K) (y0 y1 k0 k1 : V) : LocalPoly K V :=
  let a := k0 + k1 + (2 : K) • y0 - (2 : K) • y1
  let b := -((2 : K) • k0) - k1 - (3 : K) • y0 + (3 : K) • y1
  { t0 := t0, t1 := t1, coeffs := [a, b, k0, y0] }

/-- `from_k` (69-78): first and last stage. -/
def hermite3FromK (t0 t1 : K) (y0 y1 : V) (k : List V) : LocalPoly K V :=
  hermite3 t0 t1 y0 y1 (k.headD 0) (k.getLastD 0)

/-- `jnp.tensordot(c, k, axes=1)` (NumPy library function). -/
def tensordot (c : List K) (k : List V) : V :=
  (List.zipWith (fun a b => a • b) c k).foldl (· + ·) 0

/-- `FourthOrderPolynomialInterpolation.__init__` (102-124). -/
def quartic (cMid : List K) (t0 t1 : K) (y0 y1 : V) (k : List V) : LocalPoly K V :=
  let ymid := y0 + tensordot cMid k
  let f0 := k.headD 0
  let f1 := k.getLastD 0
  let a := (2 : K) • (f1 - f0) - (8 : K) • (y1 + y0) + (16 : K) • ymid
  let b := (5 : K) • f0 - (3 : K) • f1 + (18 : K) • y0 + (14 : K) • y1 - (32 : K) • ymid
  let c := f1 - (4 : K) • f0 - (11 : K) • y0 - (5 : K) • y1 + (16 : K) • ymid
  { t0 := t0, t1 := t1, coeffs := [a, b, c, f0, y0] }

/-- `evaluate(t)` of both polynomial interpolations (80-92, 126-139). -/
def LocalPoly.evaluate (p : LocalPoly K V) (t : K) : V :=
  polyval p.coeffs (linearRescale p.t0 t p.t1)

/-- `evaluate(t0, t1)` of both polynomial interpolations (84-85, 130-131). -/
def LocalPoly.increment (p : LocalPoly K V) (s t : K) : V := p.evaluate t - p.evaluate s

end Verif
