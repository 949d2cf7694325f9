import Mathlib.Algebra.Order.Field.Basic

/-!
# Floating point values without rounding

A value is NaN, an infinity, or an exact element of an ordered field. Signed zeros are not
distinguished: `x / 0` takes the sign of `x`, which is what the code computes as its zeros are
`abs` values or norms.
-/

namespace Verif

inductive XVal (K : Type) where
  | nan
  | ninf
  | fin (x : K)
  | pinf
deriving DecidableEq

namespace XVal
variable {K : Type} [Field K] [LinearOrder K]

def isNan : XVal K → Bool
  | nan => true
  | _ => false

def isInf : XVal K → Bool
  | ninf => true
  | pinf => true
  | _ => false

/-- `jnp.abs`. -/
def abs : XVal K → XVal K
  | nan => nan
  | ninf => pinf
  | fin x => fin (if x < 0 then -x else x)
  | pinf => pinf

/-- `x < y`; comparisons with NaN are false. -/
def lt : XVal K → XVal K → Bool
  | fin x, fin y => decide (x < y)
  | ninf, fin _ => true
  | ninf, pinf => true
  | fin _, pinf => true
  | _, _ => false

/-- `x <= y`. -/
def le : XVal K → XVal K → Bool
  | fin x, fin y => decide (x ≤ y)
  | ninf, ninf => true
  | ninf, fin _ => true
  | ninf, pinf => true
  | fin _, pinf => true
  | pinf, pinf => true
  | _, _ => false

/-- `jnp.maximum` (propagates NaN). -/
def max : XVal K → XVal K → XVal K
  | nan, _ => nan
  | _, nan => nan
  | x, y => if lt x y then y else x

/-- `jnp.minimum` (propagates NaN). -/
def min : XVal K → XVal K → XVal K
  | nan, _ => nan
  | _, nan => nan
  | x, y => if lt y x then y else x

/-- `jnp.clip(x, min=lo, max=hi)`. -/
def clip (x lo hi : XVal K) : XVal K := min (max x lo) hi

def neg : XVal K → XVal K
  | nan => nan
  | ninf => pinf
  | fin x => fin (-x)
  | pinf => ninf

def add : XVal K → XVal K → XVal K
  | fin x, fin y => fin (x + y)
  | nan, _ => nan
  | _, nan => nan
  | pinf, ninf => nan
  | ninf, pinf => nan
  | pinf, _ => pinf
  | _, pinf => pinf
  | ninf, _ => ninf
  | _, ninf => ninf

def sub (x y : XVal K) : XVal K := add x (neg y)

/-- Sign of a nonzero value as an infinity. -/
def signInf (x : K) : XVal K := if x = 0 then nan else if 0 < x then pinf else ninf

def mul : XVal K → XVal K → XVal K
  | fin x, fin y => fin (x * y)
  | nan, _ => nan
  | _, nan => nan
  | pinf, fin y => signInf y
  | ninf, fin y => signInf (-y)
  | fin x, pinf => signInf x
  | fin x, ninf => signInf (-x)
  | pinf, pinf => pinf
  | ninf, ninf => pinf
  | pinf, ninf => ninf
  | ninf, pinf => ninf

def div : XVal K → XVal K → XVal K
  | fin x, fin y => if y = 0 then signInf x else fin (x / y)
  | nan, _ => nan
  | _, nan => nan
  | fin _, pinf => fin 0
  | fin _, ninf => fin 0
  | pinf, fin y => if y < 0 then ninf else pinf
  | ninf, fin y => if y < 0 then pinf else ninf
  | _, _ => nan

/-- `x ** c` for `x >= 0`, given the power function on positive numbers. -/
def pow (rpow : K → K → K) (x : XVal K) (c : K) : XVal K :=
  if c = 0 then fin 1
  else match x with
    | nan => nan
    | ninf => nan
    | pinf => if 0 < c then pinf else fin 0
    | fin b =>
      if b = 0 then (if 0 < c then fin 0 else pinf)
      else if 0 < b then fin (rpow b c)
      else nan

end XVal
end Verif
