import Verif.Spec.Convergence
import Verif.Spec.DenseOrder
import Verif.Model.Interp

/-!
# What it means for `SaveAt(ts=...)` and for dense output to converge
-/

namespace Verif
open Set

/-- Interpolation: over successful steps `[t, t'] ⊆ [a, b]` no longer than `δ`, from states satisfying `V`, the
interpolated values are as accurate as the value at the start, up to `A (t' - t)^(N+1) + B (t' - t)`. -/
def Solver.DenseAccurate {E : Type} [NormedAddCommGroup E] {Er D S : Type} (sv : Solver ℝ E Er D S)
    (V : ℝ → E → S → Bool → Prop) (y : ℝ → E) (a b δ A B K : ℝ) (N : ℕ) : Prop :=
  ∀ t t' x st mj, V t x st mj → a ≤ t → t ≤ t' → t' ≤ b → t' - t ≤ δ →
    (sv.step t t' x st mj).result.isOkay = true → ∀ τ, t ≤ τ → τ ≤ t' →
    ‖sv.interp t t' (sv.step t t' x st mj).dense τ - y τ‖
      ≤ (1 + K * (t' - t)) * ‖x - y t‖ + A * (t' - t) ^ (N + 1) + B * (t' - t)

/-- What is returned by the solver with tableaus `tab` at times in the middle of steps converges. As for
`Converges`, with `κ` depending only on the solver, and for solves whose accepted steps are at most `η ≤ δ`
long, all values returned by `SaveAt(ts=...)` and by `SaveAt(dense=True)` have an error of at most

  `exp(κ L (b - a)) * (initial error + (b - a) * (B η^N + ε D)) + B η^(N'+1) + ε' D η`.

The first part is the error of the states of the solve, the second part comes from interpolation. -/
def DenseConverges {m : ℕ} (tab : Fin m → Tableau ℚ) (interp : InterpRule m) (N N' : ℕ) (ε ε' : ℚ) : Prop :=
  ∃ κ : ℝ, 0 ≤ κ ∧ ∀ (E J : Type) [NormedAddCommGroup E] [NormedSpace ℝ E] [Module ℚ E] [CompleteSpace E]
    (f : Fin m → ℝ → E → E) (cj : CalcJac) (rF rK : RootFinder E J) (nj : J)
    (_ : (∃ p, (tab p).implicit = true) → rF.Exact ∧ rK.Exact)
    (L : ℝ) (_ : NiceODE f L) (y : ℝ → E) (_ : ∀ t, HasDerivAt y (∑ p, f p t (y t)) t)
    (a b D : ℝ) (_ : ElemBound f y a b N D),
    ∃ δ B : ℝ, 0 < δ ∧ 0 ≤ B ∧ ∀ (C O F : Type) [LinearOrder F] [Zero F]
      (cfg : Cfg ℝ E (Option E) (RK.Dense m E) (RK.State m E) C O F) (_ : cfg.WF)
      (_ : cfg.t0 = a) (_ : cfg.t1 = b) (_ : cfg.solver.step = (odeRK tab f cj rF rK nj).step)
      (_ : cfg.solver.interp = interp E)
      (_ : cfg.controller.Exact) (y0 : E) (tnext : ℝ) (ctrl : C) (mj : Bool) (η : ℝ) (_ : 0 ≤ η) (_ : η ≤ δ)
      (_ : ∀ c ∈ callLog cfg y0 tnext ctrl (odeRK tab f cj rF rK nj).init mj, c.solverT0 ≤ c.solverT1)
      (_ : ∀ c ∈ callLog cfg y0 tnext ctrl (odeRK tab f cj rF rK nj).init mj, (c.answer cfg).keep = true →
        (cfg.solver.step c.solverT0 c.solverT1 c.solverY c.solverState c.solverMadeJump).result.isOkay = true ∧
        c.solverT1 - c.solverT0 ≤ η),
      (∀ (ts : List ℝ) (fn : ℝ → E → O), ts ≠ [] → ts.Pairwise (· ≤ ·) → (∀ t ∈ ts, a ≤ t ∧ t ≤ b) →
        cfg.subs = [{ t0 := false, t1 := false, ts := ts, steps := 0, fn := fn }] → a < b →
        cfg.rootFinder = none → cfg.controller.stepTo = none →
        (solve cfg y0 tnext ctrl (odeRK tab f cj rF rK nj).init mj).result = .successful →
        ∃ v : ℝ → E,
          (solve cfg y0 tnext ctrl (odeRK tab f cj rF rK nj).init mj).saves.map (·.buf)
            = [ts.map fun t => .val t (fn t (v t))] ∧
          ∀ t ∈ ts, ‖v t - y t‖
            ≤ Real.exp (κ * |L| * (b - a)) * (‖y0 - y a‖ + (b - a) * (B * η ^ N + ε * D))
              + B * η ^ (N' + 1) + ε' * D * η) ∧
      (cfg.dense = true →
        0 < (solve cfg y0 tnext ctrl (odeRK tab f cj rF rK nj).init mj).core.numAccepted →
        ∀ t, a ≤ t → t ≤ (solve cfg y0 tnext ctrl (odeRK tab f cj rF rK nj).init mj).core.tprev →
          ∃ v, (denseOf cfg y0 (solve cfg y0 tnext ctrl (odeRK tab f cj rF rK nj).init mj)).evaluate t true
              = some v ∧
            ‖v - y t‖
              ≤ Real.exp (κ * |L| * (b - a)) * (‖y0 - y a‖ + (b - a) * (B * η ^ N + ε * D))
                + B * η ^ (N' + 1) + ε' * D * η)

end Verif
