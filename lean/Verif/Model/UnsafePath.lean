import Verif.Model.Brownian
import Mathlib.Data.Real.Basic

/-!
# `UnsafeBrownianPath.evaluate` (`_brownian/path.py` 103-147) and `force_bitcast_convert_type` (`_misc.py` 16-26)

Times are bit patterns of floating-point numbers. As in `Verif.Model.Brownian`, one leaf is modelled, and the
arithmetic on increments is that of the reals: `t1 - t0` is not rounded. Both times have the same dtype. Left out:
`nondifferentiable`, jit, the promotion of the dtypes of `t0` and `t1`, infinities and NaNs.
-/

namespace Verif
noncomputable section

/-- The number which has the pattern `n` in the binary IEEE 754 format of `m` bits for the mantissa and `e` bits for the
exponent; only for finite numbers. -/
def ieeeVal (m e n : ℕ) : ℝ :=
  let f := n % 2 ^ m
  let x := n / 2 ^ m % 2 ^ e
  let sign : ℝ := if n / 2 ^ (m + e) = 0 then 1 else -1
  let bias : ℤ := 2 ^ (e - 1) - 1
  if x = 0 then sign * f * 2 ^ (1 - bias - m : ℤ) else sign * (2 ^ m + f) * 2 ^ (x - bias - m : ℤ)

/-- A float32. -/
def val32 (b : BitVec 32) : ℝ := ieeeVal 23 8 b.toNat

/-- A float64. -/
def val64 (b : BitVec 64) : ℝ := ieeeVal 52 11 b.toNat

/-- `force_bitcast_convert_type(val, jnp.int32)` for a float32 (18): the bits are reinterpreted. -/
def forceBitcast32 (b : BitVec 32) : BitVec 32 := b

/-- `force_bitcast_convert_type(val, jnp.int32)` for a float64 (18, 22-23): `bitcast_convert_type` returns the two
halves, and these are combined by XOR. -/
def forceBitcast64 (b : BitVec 64) : BitVec 32 := b.extractLsb' 0 32 ^^^ b.extractLsb' 32 32

variable {Key Y : Type} [AddCommGroup Y] [Module ℝ Y]

/-- `evaluate(t0, t1, use_levy=True)` (103-147). `foldIn` is `jr.fold_in`, `bitcast` is `force_bitcast_convert_type` and
`val` gives the number that a pattern stands for. `split_by_tree` splits the key into as many as there are leaves:
one. -/
def unsafeEvaluate {n : ℕ} (kind : LevyKind) (g : Prng Key Y) (foldIn : Key → BitVec 32 → Key)
    (bitcast : BitVec n → BitVec 32) (val : BitVec n → ℝ) (key : Key) (t0 t1 : BitVec n) : Levy Y :=
  let key := foldIn key (bitcast t0)
  let key := foldIn key (bitcast t1)
  let key := g.split key 1 0
  unsafeLeaf kind g (val t0) (val t1) key

/-- `evaluate(t1)` (111-114): from the pattern of zero. -/
def unsafeEvaluateFrom0 {n : ℕ} (kind : LevyKind) (g : Prng Key Y) (foldIn : Key → BitVec 32 → Key)
    (bitcast : BitVec n → BitVec 32) (val : BitVec n → ℝ) (key : Key) (t1 : BitVec n) : Levy Y :=
  unsafeEvaluate kind g foldIn bitcast val key 0 t1

end
end Verif
