import Verif.Spec.AdaptiveFinish

/-!
# What it means that tolerances control the error
-/

namespace Verif
open Set

/-- Smaller tolerances give smaller errors. For every equation with analytic, Lipschitz vector fields, every solution `y`
of it, every first step `dt0` and every `ε > 0` there are tolerances `tol > 0` such that a solve with
`PIDController(rtol ≤ tol, atol ≤ tol)`, whatever its other parameters (without `dtmin`), that ends successfully at `t1`
ends within `ε` of the solution. -/
def TolerancesControlError {m : ℕ} (tab : Fin m → Tableau ℚ) : Prop :=
  ∀ (d : ℕ) (J : Type) (f : Fin m → ℝ → (Fin d → ℝ) → Fin d → ℝ) (cj : CalcJac) (rF rK : RootFinder (Fin d → ℝ) J) (nj : J)
    (L : ℝ) (_ : NiceODE f L) (y : ℝ → Fin d → ℝ) (_ : ∀ t, HasDerivAt y (∑ p, f p t (y t)) t)
    (a b : ℝ) (_ : a < b) (dt0 : ℝ) (_ : 0 < dt0) (ε : ℝ) (_ : 0 < ε),
    ∃ tol > 0, ∀ (p : Pid ℝ) (_ : p.Valid) (_ : p.dtmin = none) (_ : ∀ M, p.dtmax = some M → 0 < M) (_ : 0 < p.atol)
      (_ : 0 ≤ p.rtol) (_ : p.atol ≤ tol) (_ : p.rtol ≤ tol) (_ : NormBelowMax p.norm) (O F : Type) [LinearOrder F] [Zero F]
      (cfg : Cfg ℝ (Fin d → ℝ) (Option (Fin d → ℝ)) (RK.Dense m (Fin d → ℝ)) (RK.State m (Fin d → ℝ)) (PidState ℝ) O F)
      (_ : cfg.WF) (_ : cfg.t0 = a) (_ : cfg.t1 = b)
      (_ : cfg.solver.step = (odeRK tab f cj rF rK nj).step) (_ : cfg.controller = pidWith p p.scaledVec)
      (_ : ∀ e, cfg.cleanErr (some e) = some e) (_ : ∀ t, cfg.mid t b = (t + b) / 2)
      (_ : cfg.events = []) (_ : cfg.rootFinder = none)
      (tnext : ℝ) (ctrl : PidState ℝ) (_ : p.init (.fin a) (.fin dt0) = (.fin tnext, ctrl)) (mj : Bool)
      (_ : (solve cfg (y a) tnext ctrl (odeRK tab f cj rF rK nj).init mj).result = .successful),
      ‖(solve cfg (y a) tnext ctrl (odeRK tab f cj rF rK nj).init mj).yfinal - y b‖ ≤ ε

/-- The norm sees every component of a vector of length `d`: none is larger than `C` times the norm. -/
def NormSeesAll (d : ℕ) (C : ℝ) (norm : XTree ℝ → XVal ℝ) : Prop :=
  ∀ (l : List ℝ) (w : ℝ), l.length = d → norm [l.map XVal.fin] = .fin w → ∀ x ∈ l, |x| ≤ C * w

/-- On the set `S`, the method's estimate of its error over a step from `t` to `t'` is at least `c (t' - t)^q`, with
`c > 0` for values in any bounded part of `S`; and steps from `S` end in `S`. -/
def EstimateSees {m d : ℕ} {J : Type} (rk : RK m ℝ ℚ (Fin d → ℝ) (Fin d → ℝ) ℝ J) (S : Set (Fin d → ℝ)) (a b : ℝ)
    (q : ℕ) : Prop :=
  (∀ t t' x st mj, rk.ValidState t x st mj → x ∈ S → a ≤ t → t ≤ t' → t' ≤ b → (rk.step t t' x st mj).y ∈ S) ∧
  ∀ R, ∃ c > 0, ∀ t t' x st mj, rk.ValidState t x st mj → x ∈ S → ‖x‖ ≤ R → a ≤ t → t ≤ t' → t' ≤ b →
    ∀ e, (rk.step t t' x st mj).err = some e → c * (t' - t) ^ q ≤ ‖e‖

end Verif
