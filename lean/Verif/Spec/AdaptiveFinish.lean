import Verif.Model.PidWith
import Verif.Spec.Pid
import Verif.Spec.Convergence
import Mathlib.Analysis.Real.Sqrt

/-!
# What an adaptive solve needs in order to finish
-/

namespace Verif

/-- A norm to be used by `PIDController`: between zero and the largest absolute value of the components. -/
def NormBelowMax {K : Type} [Field K] [LinearOrder K] (norm : XTree K → XVal K) : Prop :=
  ∀ (t : List (List K)) (v : K), 0 ≤ v → (∀ l ∈ t, ∀ x ∈ l, |x| ≤ v) →
    ∃ w, 0 ≤ w ∧ w ≤ v ∧ norm (t.map fun l => l.map XVal.fin) = .fin w

/-- The square root of the mean square, of finite components; any other component is passed on. -/
noncomputable def rmsNorm (t : XTree ℝ) : XVal ℝ :=
  let l := t.flatMap id
  if l.any XVal.isNan then .nan
  else if l.any XVal.isInf then .pinf
  else .fin (Real.sqrt ((l.map fun x => (x.toK 0) ^ 2).sum / l.length))

/-- The solver is defined on all of `[a, b]`; one step of length `h` changes the value by at most
`C h (1 + ‖value‖)`, and its error estimate is no larger than that. `V` is what holds of the solver's states. -/
structure Solver.Tame {d : ℕ} {D S : Type} (sv : Solver ℝ (Fin d → ℝ) (Option (Fin d → ℝ)) D S)
    (V : ℝ → (Fin d → ℝ) → S → Bool → Prop) (a b C : ℝ) : Prop where
  ok : ∀ t t' x st mj, (sv.step t t' x st mj).result = .successful ∧ (sv.step t t' x st mj).err ≠ none
  valid : ∀ t t' x st mj, V t x st mj → a ≤ t → t ≤ t' → t' ≤ b →
    ∀ mj', V t' (sv.step t t' x st mj).y (sv.step t t' x st mj).state mj'
  growth : ∀ t t' x st mj, V t x st mj → a ≤ t → t ≤ t' → t' ≤ b →
    ‖(sv.step t t' x st mj).y - x‖ ≤ C * (t' - t) * (1 + ‖x‖)
  err : ∀ t t' x st mj, V t x st mj → a ≤ t → t ≤ t' → t' ≤ b →
    ∃ e, (sv.step t t' x st mj).err = some e ∧ ‖e‖ ≤ C * (t' - t) * (1 + ‖x‖)

/-- Adaptive solves with the Runge-Kutta method `tab` finish. On every equation with Lipschitz vector fields that are
continuous in time, for `PIDController` with any tolerances (`atol` positive), coefficients and first step, and without
`dtmin`, there is a number `M` such that, from any initial value up to `R`, the solve needs at most `M` steps, ends
successfully, and at `t1`. This is provided that `max_steps` is at least `M`, and that the interval in which the next step
is rounded to `t1` is short. -/
def AdaptiveFinishes {m : ℕ} (tab : Fin m → Tableau ℚ) : Prop :=
  ∀ (d : ℕ) (J : Type) (f : Fin m → ℝ → (Fin d → ℝ) → Fin d → ℝ) (cj : CalcJac) (rF rK : RootFinder (Fin d → ℝ) J) (nj : J)
    (L : ℝ) (_ : ∀ p t x x', ‖f p t x - f p t x'‖ ≤ L * ‖x - x'‖)
    (_ : ∀ p, Continuous fun t => f p t 0) (a b : ℝ) (_ : a ≤ b) (R : ℝ) (p : Pid ℝ) (_ : p.Valid)
    (_ : p.dtmin = none) (_ : ∀ M, p.dtmax = some M → 0 < M) (_ : 0 < p.atol) (_ : 0 ≤ p.rtol)
    (_ : NormBelowMax p.norm) (dt0 : ℝ) (_ : 0 < dt0),
    ∃ (H : ℝ) (M : ℕ), 0 < H ∧ ∀ (O F : Type) [LinearOrder F] [Zero F]
      (cfg : Cfg ℝ (Fin d → ℝ) (Option (Fin d → ℝ)) (RK.Dense m (Fin d → ℝ)) (RK.State m (Fin d → ℝ)) (PidState ℝ) O F)
      (_ : cfg.WF) (_ : cfg.t0 = a) (_ : cfg.t1 = b)
      (_ : cfg.solver.step = (odeRK tab f cj rF rK nj).step) (_ : cfg.controller = pidWith p p.scaledVec)
      (_ : ∀ e, cfg.cleanErr (some e) = some e) (_ : ∀ t, cfg.mid t b = (t + b) / 2) (_ : b - cfg.floor ≤ H)
      (_ : cfg.events = []) (_ : cfg.rootFinder = none) (_ : M ≤ cfg.maxSteps)
      (y0 : Fin d → ℝ) (_ : ‖y0‖ ≤ R) (tnext : ℝ) (ctrl : PidState ℝ)
      (_ : p.init (.fin a) (.fin dt0) = (.fin tnext, ctrl)) (mj : Bool),
      (solve cfg y0 tnext ctrl (odeRK tab f cj rF rK nj).init mj).result = .successful ∧
      (solve cfg y0 tnext ctrl (odeRK tab f cj rF rK nj).init mj).tfinal = b ∧
      (callLog cfg y0 tnext ctrl (odeRK tab f cj rF rK nj).init mj).length ≤ M

end Verif
