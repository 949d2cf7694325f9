import Mathlib.Algebra.Order.Field.Basic
import Mathlib.Data.Int.DivMod

/-!
# Model of the types of `t0`, `t1` and `dt0` in `/repo/diffrax/_integrate.py`

* 1036-1045: the check of the sign of `dt0`, evaluated on the arguments as they were passed;
* 1060-1083: conversion of the times to one floating point type, after that check.

Each of `t0`, `t1`, `dt0` is a Python integer, an integer JAX array, or a floating point number. Integer arrays wrap around.

Simplified: floating point numbers are elements of an ordered field, so rounding, underflow and the floating point types are left
out, as is the loss of precision of 1080-1083. Booleans and complex numbers are left out. A Python integer that is combined with an
array is reduced to the type of the array (JAX refuses one that is out of range). The promotion of types is that of JAX
(`jax/_src/dtypes.py`, not part of `/repo`).
-/

namespace Verif

/-- Types of integers. An array has `8 * 2 ^ k` bits. -/
inductive IntTy
  | py
  | uint (k : Nat)
  | sint (k : Nat)
deriving DecidableEq

/-- Number of bits. -/
def bitsOf (k : Nat) : Nat := 8 * 2 ^ k

/-- Without `jax_enable_x64` there are no 64-bit arrays. -/
def IntTy.canon (x64 : Bool) : IntTy → IntTy
  | .py => .py
  | .uint k => if x64 then .uint k else .uint (min k 2)
  | .sint k => if x64 then .sint k else .sint (min k 2)

/-- Standard type promotion of JAX (1043). `none` is a floating point type. -/
def IntTy.join (x64 : Bool) : IntTy → IntTy → Option IntTy
  | .py, b => some (b.canon x64)
  | a, .py => some (a.canon x64)
  | .uint j, .uint k => some (IntTy.canon x64 (.uint (max j k)))
  | .sint j, .sint k => some (IntTy.canon x64 (.sint (max j k)))
  | .uint j, .sint k => if 3 ≤ j ∧ x64 then none else some (IntTy.canon x64 (.sint (max (j + 1) k)))
  | .sint k, .uint j => if 3 ≤ j ∧ x64 then none else some (IntTy.canon x64 (.sint (max (j + 1) k)))

/-- The integer that is stored if the exact result is `z`. -/
def IntTy.wrap : IntTy → Int → Int
  | .py, z => z
  | .uint k, z => z % 2 ^ bitsOf k
  | .sint k, z => (z + 2 ^ (bitsOf k - 1)) % 2 ^ bitsOf k - 2 ^ (bitsOf k - 1)

/-- A time argument. -/
inductive TimeArg (K : Type)
  | int (ty : IntTy) (z : Int)
  | real (x : K)

variable {K : Type} [Field K]

/-- The number it stands for; this is what the solve uses after 1080-1083. -/
def TimeArg.val : TimeArg K → K
  | .int _ z => (z : K)
  | .real x => x

/-- `a - b`. -/
def TimeArg.sub (x64 : Bool) : TimeArg K → TimeArg K → TimeArg K
  | .int s a, .int s' b =>
    match s.join x64 s' with
    | some r => .int r (r.wrap (a - b))
    | none => .real ((a : K) - (b : K))
  | a, b => .real (a.val - b.val)

/-- `a * b`. -/
def TimeArg.mul (x64 : Bool) : TimeArg K → TimeArg K → TimeArg K
  | .int s a, .int s' b =>
    match s.join x64 s' with
    | some r => .int r (r.wrap (a * b))
    | none => .real ((a : K) * (b : K))
  | a, b => .real (a.val * b.val)

/-- Lines 1036-1045: is the error raised? -/
def dt0SignRaises [LinearOrder K] (x64 : Bool) (t0 t1 dt0 : TimeArg K) : Bool :=
  decide (((t1.sub x64 t0).mul x64 dt0).val < 0)

/-- Lines 1080-1083 and 1157-1162: the times as the loop uses them, with the direction of the solve. -/
def normTimes [LinearOrder K] (t0 t1 dt0 : TimeArg K) : K × K × K :=
  let direction : K := if t0.val < t1.val then 1 else -1
  (t0.val * direction, t1.val * direction, dt0.val * direction)

end Verif
