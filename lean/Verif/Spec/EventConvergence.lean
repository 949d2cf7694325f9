import Verif.Spec.DenseConvergence
import Verif.Props.Loop

/-!
# What it means for event times to converge
-/

namespace Verif
open Set

/-- Along the solution `y`, the condition `c` crosses zero at the time `τ`, upwards or downwards, with a slope of at
least `σ`: up to `τ` it stays on its side, and from `τ` to `τ + ρ` on the other. Within distance `r` of the solution
it is `Λ`-Lipschitz in the state. -/
structure CrossesAt {E : Type} [NormedAddCommGroup E] (c : ℝ → E → ℝ) (y : ℝ → E) (a b : ℝ) (up : Bool)
    (τ σ ρ Λ r : ℝ) : Prop where
  mem : τ ∈ Icc a b
  slope : 0 < σ
  nonneg : 0 ≤ Λ
  lipschitz : ∀ t ∈ Icc a b, ∀ x, ‖x - y t‖ ≤ r → |c t x - c t (y t)| ≤ Λ * ‖x - y t‖
  before : ∀ t ∈ Icc a τ, (if up then c t (y t) else - c t (y t)) ≤ - (σ * (τ - t))
  after : ∀ t ∈ Icc τ b, t ≤ τ + ρ → σ * (t - τ) ≤ if up then c t (y t) else - c t (y t)

/-- The answers of the event root finder, when it reports success: a time in the bracket that differs by at most
`tolT` from one at which all conditions are at most `tolF` in size. -/
def FindsRoot (find : (ℝ → List ℝ) → ℝ → ℝ → ℝ × Option Result) (tolT tolF : ℝ) : Prop :=
  ∀ G lo hi, lo ≤ hi → (find G lo hi).2 = none →
    (lo ≤ (find G lo hi).1 ∧ (find G lo hi).1 ≤ hi) ∧
    ∃ t, (lo ≤ t ∧ t ≤ hi) ∧ |(find G lo hi).1 - t| ≤ tolT ∧ ∀ v ∈ G t, |v| ≤ tolF

/-- The times and values at which solves are stopped by an event converge to the time and value at which the solution
crosses. As for `DenseConverges`, all accepted steps are at most `η ≤ δ` long; `e` is the error of the values given
there. If the crossing is clear enough for errors of size `e` and steps of size `η`, the event is not missed, and

* without root finder, the solve stops between `τ - Λ e / σ` and `τ + Λ e / σ + η`;
* with a root finder, it stops within `Λ e / σ` of `τ`, up to the tolerances of the root finder;
* the final value has an error of at most `e`. -/
def EventConverges {m : ℕ} (tab : Fin m → Tableau ℚ) (interp : InterpRule m) (N N' : ℕ) (ε ε' : ℚ) : Prop :=
  ∃ κ : ℝ, 0 ≤ κ ∧ ∀ (E J : Type) [NormedAddCommGroup E] [NormedSpace ℝ E] [Module ℚ E] [CompleteSpace E]
    (f : Fin m → ℝ → E → E) (cj : CalcJac) (rF rK : RootFinder E J) (nj : J)
    (_ : (∃ p, (tab p).implicit = true) → rF.Exact ∧ rK.Exact)
    (L : ℝ) (_ : NiceODE f L) (y : ℝ → E) (_ : ∀ t, HasDerivAt y (∑ p, f p t (y t)) t)
    (a b D : ℝ) (_ : ElemBound f y a b N D),
    ∃ δ B : ℝ, 0 < δ ∧ 0 ≤ B ∧ ∀ (C O : Type)
      (cfg : Cfg ℝ E (Option E) (RK.Dense m E) (RK.State m E) C O ℝ) (_ : cfg.WF)
      (_ : cfg.t0 = a) (_ : cfg.t1 = b) (_ : cfg.solver.step = (odeRK tab f cj rF rK nj).step)
      (_ : cfg.solver.interp = interp E) (_ : cfg.OwnCodes)
      (_ : cfg.controller.Exact) (_ : cfg.controller.stepTo = none)
      (y0 : E) (tnext : ℝ) (ctrl : C) (mj : Bool) (η : ℝ) (_ : 0 ≤ η) (_ : η ≤ δ)
      (_ : ∀ c ∈ callLog cfg y0 tnext ctrl (odeRK tab f cj rF rK nj).init mj, c.solverT0 ≤ c.solverT1)
      (_ : ∀ c ∈ callLog cfg y0 tnext ctrl (odeRK tab f cj rF rK nj).init mj, (c.answer cfg).keep = true →
        (cfg.solver.step c.solverT0 c.solverT1 c.solverY c.solverState c.solverMadeJump).result.isOkay = true ∧
        c.solverT1 - c.solverT0 ≤ η)
      (c : ℝ → E → ℝ) (dir : Option Bool) (_ : cfg.events = [.flt c dir])
      (up : Bool) (_ : dir ≠ some (!up)) (τ σ ρ Λ r : ℝ) (_ : CrossesAt c y a b up τ σ ρ Λ r)
      (e : ℝ) (_ : e = Real.exp (κ * |L| * (b - a)) * (‖y0 - y a‖ + (b - a) * (B * η ^ N + ε * D))
          + B * η ^ (N' + 1) + ε' * D * η)
      (_ : e ≤ r) (_ : Λ * e / σ + η ≤ ρ) (_ : Λ * e / σ < τ - a) (_ : Λ * e / σ < b - τ),
      (solve cfg y0 tnext ctrl (odeRK tab f cj rF rK nj).init mj).result ≠ .successful ∧
      ((solve cfg y0 tnext ctrl (odeRK tab f cj rF rK nj).init mj).result = .eventOccurred →
        (cfg.rootFinder = none →
          τ - Λ * e / σ ≤ (solve cfg y0 tnext ctrl (odeRK tab f cj rF rK nj).init mj).tfinal ∧
          (solve cfg y0 tnext ctrl (odeRK tab f cj rF rK nj).init mj).tfinal ≤ τ + Λ * e / σ + η ∧
          ‖(solve cfg y0 tnext ctrl (odeRK tab f cj rF rK nj).init mj).yfinal
            - y (solve cfg y0 tnext ctrl (odeRK tab f cj rF rK nj).init mj).tfinal‖ ≤ e) ∧
        ∀ find tolT tolF, cfg.rootFinder = some find → FindsRoot find tolT tolF →
          |(solve cfg y0 tnext ctrl (odeRK tab f cj rF rK nj).init mj).tfinal - τ|
            ≤ Λ * e / σ + tolF / σ + tolT ∧
          ‖(solve cfg y0 tnext ctrl (odeRK tab f cj rF rK nj).init mj).yfinal
            - y (solve cfg y0 tnext ctrl (odeRK tab f cj rF rK nj).init mj).tfinal‖ ≤ e)

end Verif
