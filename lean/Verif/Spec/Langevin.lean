import Verif.Spec.Levy
import Verif.Spec.SrkOrder
import Verif.Model.Langevin
import Mathlib.Analysis.Calculus.Deriv.Basic

/-!
# Underdamped Langevin equations along smooth paths
-/

namespace Verif

/-- `x' = v`, `v' = - gamma v - u grad f(x) + sqrt(2 gamma u) w'`, in every coordinate. -/
structure SolvesLangevin {d : ℕ} (T : LangevinTerms d) (w' : ℝ → RVec d) (x v : ℝ → RVec d) : Prop where
  pos : ∀ s i, HasDerivAt (fun s => x s i) (v s i) s
  vel : ∀ s i, HasDerivAt (fun s => v s i)
    (-T.gamma i * v s i - T.u i * T.gradF (x s) i + Real.sqrt (2 * T.gamma i * T.u i) * w' s i) s

/-- The polynomial path of third degree `w0 + w1 s + w2 s² + w3 s³`, `s` the time since `t0`, and its derivative. -/
def cubicPath {d : ℕ} (t0 : ℝ) (w0 w1 w2 w3 : RVec d) (s : ℝ) : RVec d :=
  fun i => w0 i + w1 i * (s - t0) + w2 i * (s - t0) ^ 2 + w3 i * (s - t0) ^ 3

def cubicPath' {d : ℕ} (t0 : ℝ) (w1 w2 w3 : RVec d) (s : ℝ) : RVec d :=
  fun i => w1 i + 2 * w2 i * (s - t0) + 3 * w3 i * (s - t0) ^ 2

/-- Over `[t0, t1]` the terms give the increment and the areas of the path `w`. -/
def LangevinTerms.DrivenBy {d : ℕ} (T : LangevinTerms d) (w : ℝ → RVec d) (t0 t1 : ℝ) : Prop :=
  T.contr t0 t1 = t1 - t0 ∧ (T.levy t0 t1).W = (levyOf w t0 t1).2.1 ∧ (T.levy t0 t1).H = (levyOf w t0 t1).2.2.1 ∧
    (T.levy t0 t1).K = (levyOf w t0 t1).2.2.2

/-- The drift of the underdamped Langevin equation, for `y = (x, v)`. -/
def langevinDrift {d : ℕ} (T : LangevinTerms d) (_ : ℝ) (y : RVec d × RVec d) : RVec d × RVec d :=
  (y.2, fun i => -T.gamma i * y.2 i - T.u i * T.gradF y.1 i)

/-- Multiplication by the entries of `c`. -/
def mulC {d : ℕ} (c : RVec d) : RVec d →L[ℝ] RVec d :=
  ContinuousLinearMap.pi fun i => c i • ContinuousLinearMap.proj i

/-- Its diffusion: the noise drives the velocity. -/
noncomputable def langevinDiffusion {d : ℕ} (T : LangevinTerms d) (_ : ℝ) : RVec d →L[ℝ] RVec d × RVec d :=
  (ContinuousLinearMap.inr ℝ (RVec d) (RVec d)).comp (mulC fun i => Real.sqrt (2 * T.gamma i * T.u i))

/-- `y = (x, v)` solves the underdamped Langevin equation on `[t0, t1]`, driven by the (continuous) path `w`. -/
def SolvesLangevinSDE {d : ℕ} (T : LangevinTerms d) (w : ℝ → RVec d) (t0 t1 : ℝ) (y0 : RVec d × RVec d)
    (y : ℝ → RVec d × RVec d) : Prop :=
  SolvesAdditive (langevinDrift T) (langevinDiffusion T) (fun _ => 0) w t0 t1 y0 y

end Verif
