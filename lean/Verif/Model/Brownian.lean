import Mathlib.Analysis.Real.Sqrt
import Mathlib.Algebra.Module.Prod
import Mathlib.Data.Nat.Find

/-!
# `VirtualBrownianTree` (`_brownian/tree.py`) and `UnsafeBrownianPath` (`_brownian/path.py`)

One leaf of the pytree `shape` is modelled; its values are elements of an arbitrary real vector space `Y`. Numbers
are real. Left out: dtypes, `nondifferentiable`, jit, and the private argument `_spline` (it has its default,
`"sqrt"`). Fields that are `None` for the Lévy area at hand are zero here and are never looked at.

`jax.random` appears as a record of functions.
-/

namespace Verif
noncomputable section

/-- `jax.random`: `split key n i` is `jr.split(key, n)[i]`, `normal` is `jr.normal`, and `mvNormal key cov` is
`jr.multivariate_normal(key, 0, cov)`. -/
structure Prng (Key Y : Type) where
  split : Key → ℕ → ℕ → Key
  normal : Key → Y
  mvNormal : Key → (Fin 3 → Fin 3 → ℝ) → Fin 3 → Y

/-- `levy_area`. -/
inductive LevyKind
  | increment
  | spaceTime
  | spaceTimeTime
  deriving DecidableEq

/-- A triple `x_s, x_u, x_su`. -/
structure Tri (Y : Type) where
  s : Y
  u : Y
  su : Y

/-- `_LevyVal` (69-81). -/
structure LevyVal (Y : Type) where
  dt : ℝ
  W : Y
  H : Y
  barH : Y
  K : Y
  barK : Y

/-- `_State` (84-90). -/
structure TreeState (Key Y : Type) where
  level : ℕ
  s : ℝ
  w : Tri Y
  key : Key
  bhh : Tri Y
  bkk : Tri Y

/-- An increment with its areas: `BrownianIncrement`, `SpaceTimeLevyArea` or `SpaceTimeTimeLevyArea`. -/
structure Levy (Y : Type) where
  dt : ℝ
  W : Y
  H : Y
  K : Y

variable {Key Y : Type} [AddCommGroup Y] [Module ℝ Y]

/-- `1 / jnp.where(jnp.abs(x) < eps, inf, x)` (120, 143). -/
def guardedInv (eps x : ℝ) : ℝ := if |x| < eps then 0 else 1 / x

/-- `_levy_diff` (93-148). -/
def levyDiff (kind : LevyKind) (eps : ℝ) (x0 x1 : LevyVal Y) : Levy Y :=
  let su := x1.dt - x0.dt
  match kind with
  | .increment => { dt := su, W := x1.W - x0.W, H := 0, K := 0 }
  | .spaceTime =>
    let ubbs := x1.dt • x0.W - x0.dt • x1.W
    let bhhSu := x1.barH - x0.barH - (1 / 2 : ℝ) • ubbs
    { dt := su, W := x1.W - x0.W, H := guardedInv eps su • bhhSu, K := 0 }
  | .spaceTimeTime =>
    let ubbs := x1.dt • x0.W - x0.dt • x1.W
    let bhhSu := x1.barH - x0.barH - (1 / 2 : ℝ) • ubbs
    let bkkSu := x1.barK - x0.barK - (su / 2) • x0.barH + (x0.dt / 2) • bhhSu - ((x1.dt - 2 * x0.dt) / 12) • ubbs
    { dt := su, W := x1.W - x0.W, H := guardedInv eps su • bhhSu, K := guardedInv eps (su ^ 2) • bkkSu }

/-- `_make_levy_val` (151-159). -/
def makeLevyVal (x : LevyVal Y) : Levy Y := { dt := x.dt, W := x.W, H := x.H, K := x.K }

/-- `_split_interval` (162-174). -/
def splitInterval (pred : Bool) (stu : Y × Y × Y) (st_tu : Y × Y) : Tri Y :=
  { s := if pred then stu.2.1 else stu.1
    u := if pred then stu.2.2 else stu.2.1
    su := if pred then st_tu.2 else st_tu.1 }

/-- The result of `_brownian_arch`. -/
structure Arch (Key Y : Type) where
  t : ℝ
  wStu : Y × Y × Y
  wStTu : Y × Y
  keys : Key × Key
  bhhStu : Y × Y × Y
  bhhStTu : Y × Y
  bkkStu : Y × Y × Y
  bkkStTu : Y × Y

/-- `_brownian_arch` (626-773). -/
def brownianArch (kind : LevyKind) (g : Prng Key Y) (st : TreeState Key Y) : Arch Key Y :=
  let keySt := g.split st.key 3 0
  let midpointKey := g.split st.key 3 1
  let keyTu := g.split st.key 3 2
  let su : ℝ := 2⁻¹ ^ st.level
  let half := su / 2
  let s := st.s
  let t := s + half
  let rootSu := √su
  match kind with
  | .spaceTimeTime =>
    let z1 := g.normal (g.split midpointKey 3 0)
    let z2 := g.normal (g.split midpointKey 3 1)
    let z3 := g.normal (g.split midpointKey 3 2)
    let z := √(su / 16) • z1
    let x1 := √(su / 768) • z2
    let x2 := √(su / 2880) • z3
    let wTerm1 := (1 / 2 : ℝ) • st.w.su
    let wTerm2 := (3 / (2 * su)) • st.bhh.su + z
    let wSt := wTerm1 + wTerm2
    let wTu := wTerm1 - wTerm2
    let bhhTerm1 := (1 / 8 : ℝ) • st.bhh.su - (half / 2) • z
    let bhhTerm2 := (15 / (8 * su)) • st.bkk.su + half • x1
    let bhhSt := bhhTerm1 + bhhTerm2
    let bhhTu := bhhTerm1 - bhhTerm2
    let bkkTerm1 := (1 / 32 : ℝ) • st.bkk.su - (su ^ 2 / 8) • x1
    let bkkTerm2 := (su ^ 2 / 4) • x2
    let bkkSt := bkkTerm1 + bkkTerm2
    let bkkTu := bkkTerm1 - bkkTerm2
    let wT := st.w.s + wSt
    let tbbs := t • st.w.s - s • wT
    let bhhT := st.bhh.s + bhhSt + (1 / 2 : ℝ) • tbbs
    let bkkT := st.bkk.s + bkkSt + (half / 2) • st.bhh.s - (s / 2) • bhhSt + ((t - 2 * s) / 12) • tbbs
    { t := t, wStu := (st.w.s, wT, st.w.u), wStTu := (wSt, wTu), keys := (keySt, keyTu)
      bhhStu := (st.bhh.s, bhhT, st.bhh.u), bhhStTu := (bhhSt, bhhTu)
      bkkStu := (st.bkk.s, bkkT, st.bkk.u), bkkStTu := (bkkSt, bkkTu) }
  | .spaceTime =>
    let z1 := g.normal (g.split midpointKey 2 0)
    let z2 := g.normal (g.split midpointKey 2 1)
    let z := (rootSu / 4) • z1
    let n := √(su / 12) • z2
    let wTerm1 := (1 / 2 : ℝ) • st.w.su
    let wTerm2 := (3 / (2 * su)) • st.bhh.su + z
    let wSt := wTerm1 + wTerm2
    let wTu := wTerm1 - wTerm2
    let bhhTerm1 := (1 / 8 : ℝ) • st.bhh.su - (su / 4) • z
    let bhhTerm2 := (su / 4) • n
    let bhhSt := bhhTerm1 + bhhTerm2
    let bhhTu := bhhTerm1 - bhhTerm2
    let wT := st.w.s + wSt
    let bhhT := st.bhh.s + bhhSt + (1 / 2 : ℝ) • (t • st.w.s - s • wT)
    { t := t, wStu := (st.w.s, wT, st.w.u), wStTu := (wSt, wTu), keys := (keySt, keyTu)
      bhhStu := (st.bhh.s, bhhT, st.bhh.u), bhhStTu := (bhhSt, bhhTu)
      bkkStu := (0, 0, 0), bkkStTu := (0, 0) }
  | .increment =>
    let mean := (1 / 2 : ℝ) • st.w.su
    let wTerm2 := (rootSu / 2) • g.normal midpointKey
    let wSt := mean + wTerm2
    let wTu := mean - wTerm2
    let wT := st.w.s + wSt
    { t := t, wStu := (st.w.s, wT, st.w.u), wStTu := (wSt, wTu), keys := (keySt, keyTu)
      bhhStu := (0, 0, 0), bhhStTu := (0, 0), bkkStu := (0, 0, 0), bkkStTu := (0, 0) }

/-- `init_state` of `_evaluate_leaf` (377-409). -/
def treeInit (kind : LevyKind) (g : Prng Key Y) (key : Key) : TreeState Key Y :=
  let w1 (k : Key) := g.normal k
  match kind with
  | .spaceTimeTime =>
    let bhh1 := (1 / √12) • g.normal (g.split key 4 2)
    let bkk1 := (1 / √720) • g.normal (g.split key 4 3)
    { level := 0, s := 0, w := ⟨0, w1 (g.split key 4 1), w1 (g.split key 4 1)⟩, key := g.split key 4 0
      bhh := ⟨0, bhh1, bhh1⟩, bkk := ⟨0, bkk1, bkk1⟩ }
  | .spaceTime =>
    let bhh1 := (1 / √12) • g.normal (g.split key 3 2)
    { level := 0, s := 0, w := ⟨0, w1 (g.split key 3 1), w1 (g.split key 3 1)⟩, key := g.split key 3 0
      bhh := ⟨0, bhh1, bhh1⟩, bkk := ⟨0, 0, 0⟩ }
  | .increment =>
    { level := 0, s := 0, w := ⟨0, w1 (g.split key 2 1), w1 (g.split key 2 1)⟩, key := g.split key 2 0
      bhh := ⟨0, 0, 0⟩, bkk := ⟨0, 0, 0⟩ }

/-- `_body_fun` (416-452). -/
def treeBody (kind : LevyKind) (g : Prng Key Y) (r : ℝ) (st : TreeState Key Y) : TreeState Key Y :=
  let a := brownianArch kind g st
  let cond : Bool := decide (a.t < r)
  { level := st.level + 1
    s := if cond then a.t else st.s
    w := splitInterval cond a.wStu a.wStTu
    key := if cond then a.keys.1 else a.keys.2
    bhh := splitInterval cond a.bhhStu a.bhhStTu
    bkk := splitInterval cond a.bkkStu a.bkkStTu }

/-- `lax.while_loop(_cond_fun, _body_fun, ·)` (411-454), for at most `fuel` iterations. -/
def treeLoop (kind : LevyKind) (g : Prng Key Y) (tol r : ℝ) : ℕ → TreeState Key Y → TreeState Key Y
  | 0, st => st
  | fuel + 1, st => if tol < 2⁻¹ ^ st.level then treeLoop kind g tol r fuel (treeBody kind g r st) else st

/-- The conditional covariance of `W`, `H`, `K` (491-518). -/
def leafCov (sr ru su : ℝ) : Fin 3 → Fin 3 → ℝ :=
  let x := sr / su
  let y := ru / su
  let ww := (x * y * ((sr - ru) ^ 4 + 4 * (sr ^ 2 * ru ^ 2))) / su ^ 3
  let wh := -(x ^ 3 * y * (sr ^ 2 - 3 * sr * ru + 6 * ru ^ 2)) / (2 * su)
  let wk := x ^ 4 * y * (sr - ru) / 12
  let hh := sr / 12 * (1 - x ^ 3 * (sr ^ 2 + 2 * sr * ru + 16 * ru ^ 2) / su ^ 2)
  let hk := -(ru / 24) * x ^ 5
  let kk := sr / 720 * (1 - x ^ 5)
  ![![ww, wh, wk], ![wh, hh, hk], ![wk, hk, kk]]

/-- What `_evaluate_leaf` does after the loop (456-624). -/
def treeLeaf (kind : LevyKind) (g : Prng Key Y) (eps r : ℝ) (st : TreeState Key Y) : LevyVal Y :=
  let s := st.s
  let su : ℝ := 2⁻¹ ^ st.level
  let sr := max (r - s) 0
  let ru := max (su - sr) 0
  match kind with
  | .spaceTimeTime =>
    let x := sr / su
    let y := ru / su
    let xy := x * y
    let bbMean := (6 * xy / su) • st.bhh.su + (120 * xy * (1 / 2 - x) / su ^ 2) • st.bkk.su
    let wMean := x • st.w.su + bbMean
    let hMean := (x ^ 2 / su) • (st.bhh.su + (30 * y / su) • st.bkk.su)
    let kMean := (x ^ 3 / su ^ 2) • st.bkk.su
    let hat := g.mvNormal st.key (leafCov sr ru su)
    let wSr := wMean + hat 0
    let wR := st.w.s + wSr
    let rbbs := r • st.w.s - s • wR
    let bhhSr := sr • (hMean + hat 1)
    let bhhR := st.bhh.s + bhhSr + (1 / 2 : ℝ) • rbbs
    let bkkSr := sr ^ 2 • (kMean + hat 2)
    let bkkR := st.bkk.s + bkkSr + (sr / 2) • st.bhh.s - (s / 2) • bhhSr + ((r - 2 * s) / 12) • rbbs
    let inverseR := if r ^ 2 < eps then 0 else 1 / r
    { dt := r, W := wR, H := inverseR • bhhR, barH := bhhR, K := inverseR ^ 2 • bkkR, barK := bkkR }
  | .spaceTime =>
    let x1 := g.normal (g.split st.key 2 0)
    let x2 := g.normal (g.split st.key 2 1)
    let srRuHalf := √(sr * ru)
    let d := √(sr ^ 3 + ru ^ 3)
    let d' := 1 / (2 * su * d)
    let a := d' * sr ^ 3 * srRuHalf
    let b := d' * ru ^ 3 * srRuHalf
    let wSr := (sr / su) • st.w.su + (6 * sr * ru / su ^ 3) • st.bhh.su + (2 * (a + b) / su) • x1
    let wR := st.w.s + wSr
    let c := √(3 * sr ^ 3 * ru ^ 3) / (6 * d)
    let bhhSr := (sr ^ 3 / su ^ 3) • st.bhh.su - a • x1 + c • x2
    let bhhR := st.bhh.s + bhhSr + (1 / 2 : ℝ) • (r • st.w.s - s • wR)
    { dt := r, W := wR, H := guardedInv eps r • bhhR, barH := bhhR, K := 0, barK := 0 }
  | .increment =>
    let wMean := st.w.s + (sr / su) • st.w.su
    let bb := √(sr * ru / su) • g.normal st.key
    { dt := r, W := wMean + bb, H := 0, barH := 0, K := 0, barK := 0 }

/-- A `VirtualBrownianTree` (177-299), with one leaf; `key` is the key of the leaf. -/
structure VBT (Key Y : Type) where
  t0 : ℝ
  t1 : ℝ
  tol : ℝ
  kind : LevyKind
  key : Key
  prng : Prng Key Y
  /-- machine precision (`jnp.finfo(dtype).eps`) -/
  eps : ℝ

namespace VBT
variable (b : VBT Key Y)

/-- `__init__` (275): the tolerance for the interval `[0, 1]`. -/
def tol' : ℝ := b.tol / (b.t1 - b.t0)

/-- `_evaluate_leaf` (366-624). -/
def evaluateLeaf (fuel : ℕ) (r : ℝ) : LevyVal Y :=
  treeLeaf b.kind b.prng b.eps r (treeLoop b.kind b.prng b.tol' r fuel (treeInit b.kind b.prng b.key))

/-- `_evaluate` (356-364): an error outside of `[0, 1]`. -/
def evaluate01 (fuel : ℕ) (r : ℝ) : Except Unit (LevyVal Y) :=
  if r < 0 ∨ 1 < r then .error () else .ok (b.evaluateLeaf fuel r)

/-- `linear_rescale(self.t0, t, self.t1)` (`_misc.py` 71-82). -/
def rescale (t : ℝ) : ℝ := (if b.t0 = b.t1 then 0 else t - b.t0) / (if b.t0 = b.t1 then 1 else b.t1 - b.t0)

/-- `_denormalise_bm_inc` (301-323). -/
def denormalise (x : Levy Y) : Levy Y :=
  let len := b.t1 - b.t0
  { dt := len * x.dt, W := √len • x.W, H := √len • x.H, K := √len • x.K }

/-- `evaluate(t0, t1, use_levy=True)` (325-354). -/
def evaluate (fuel : ℕ) (t0 : ℝ) : Option ℝ → Except Unit (Levy Y)
  | none => do
    let l0 ← b.evaluate01 fuel (b.rescale t0)
    return b.denormalise (makeLevyVal l0)
  | some t1 => do
    let l0 ← b.evaluate01 fuel (b.rescale t0)
    let l1 ← b.evaluate01 fuel (b.rescale t1)
    return b.denormalise (levyDiff b.kind b.eps l0 l1)

end VBT

/-- `UnsafeBrownianPath._evaluate_leaf` (`path.py` 149-185), where `key` is the key made from `t0` and `t1` (133-137). -/
def unsafeLeaf (kind : LevyKind) (g : Prng Key Y) (t0 t1 : ℝ) (key : Key) : Levy Y :=
  let wStd := √(t1 - t0)
  let dt := t1 - t0
  match kind with
  | .spaceTimeTime =>
    { dt := dt, W := wStd • g.normal (g.split key 3 0), H := (wStd / √12) • g.normal (g.split key 3 1)
      K := (wStd / √720) • g.normal (g.split key 3 2) }
  | .spaceTime =>
    { dt := dt, W := wStd • g.normal (g.split key 2 0), H := (wStd / √12) • g.normal (g.split key 2 1), K := 0 }
  | .increment => { dt := dt, W := wStd • g.normal key, H := 0, K := 0 }

end
end Verif
