import Verif.Props.BacksolveGradient
import Verif.Spec.ConvergenceNear

/-!
# What it means for the gradients of `BacksolveAdjoint` to converge
-/

namespace Verif.Backsolve
open Set Filter Topology

section
variable {S Q : Type} [Fintype S] [Fintype Q]

/-- The kind of the state of the adjoint equations: the state, its cotangent, and the cotangent of the parameters. -/
abbrev Aug (S Q : Type) := (S → ℝ) × (S → ℝ) × (Q → ℝ)

/-- The derivative of an analytic right-hand side with respect to the state and the parameters. -/
noncomputable def derivOf (F : ℝ × (S → ℝ) × (Q → ℝ) → S → ℝ) (t : ℝ) (z : (S → ℝ) × (Q → ℝ)) :
    (S → ℝ) × (Q → ℝ) →ₗ[ℝ] (S → ℝ) :=
  ((fderiv ℝ F (t, z)).comp (ContinuousLinearMap.inr ℝ ℝ ((S → ℝ) × (Q → ℝ)))).toLinearMap

/-- `dy/dt = F(t, y, θ)` has the solution `y` on an open interval containing `[t0, last]`, and `F` is analytic. -/
structure SolvesOn (F : ℝ × (S → ℝ) × (Q → ℝ) → S → ℝ) (θ : Q → ℝ) (y : ℝ → S → ℝ) (t0 last : ℝ) : Prop where
  analytic : AnalyticOnNhd ℝ F univ
  le : t0 ≤ last
  solves : ∃ a' < t0, ∃ b' > last, ∀ t ∈ Ioo a' b', HasDerivAt y (F (t, y t, θ)) t

/-- `(a, q)` is the gradient, with respect to the initial value and the parameters, of every loss of the values at `ts` with
the gradients `gs`: along every family of solutions with initial values `y t0 + ε v` and parameters `θ + ε w`, the derivative
of the loss is `a · v + q · w`. -/
def IsGradient {n : ℕ} (F : ℝ × (S → ℝ) × (Q → ℝ) → S → ℝ) (θ : Q → ℝ) (y : ℝ → S → ℝ) (t0 last : ℝ) (ts : Fin n → ℝ)
    (gs : Fin n → S → ℝ) (a : S → ℝ) (q : Q → ℝ) : Prop :=
  ∀ (v : S → ℝ) (w : Q → ℝ) (Y : ℝ → ℝ → S → ℝ), Y 0 = y → (∀ ε, Y ε t0 = y t0 + ε • v) →
    (∀ ε, ∀ t ∈ Icc t0 last, HasDerivWithinAt (Y ε) (F (t, Y ε t, θ + ε • w)) (Icc t0 last) t) →
    (∃ R, ∀ᶠ ε in 𝓝 (0 : ℝ), ∀ t ∈ Icc t0 last, ‖Y ε t‖ ≤ R) →
    ∀ (L : (Fin n → S → ℝ) → ℝ) (L' : (Fin n → S → ℝ) →L[ℝ] ℝ), HasFDerivAt L L' (fun i => y (ts i)) →
      (∀ d, L' d = ∑ i, dot (gs i) (d i)) → HasDerivAt (fun ε => L fun i => Y ε (ts i)) (dot a v + dot q w) 0

/-- The right-hand side that `diffeqsolve` uses for solves backwards in time, in terms of `-t` (C20). -/
def mirrored {E : Type} [Neg E] (rhs : ℝ → E → E) : Fin 1 → ℝ → E → E := fun _ t z => -rhs (-t) z

/-- The settings of the solves of the backward pass: everything but the initial value, for a solve from one time to another,
and the initial `tnext` and state of the step size controller, which may depend on the initial value and on the state at the
end of the solve before. -/
structure Settings (E C O F : Type) where
  cfg : ℝ → ℝ → Cfg ℝ E (Option E) (RK.Dense 1 E) (RK.State 1 E) C O F
  start : ℝ → ℝ → E → Option C → ℝ × C

variable {C O F J : Type} [LinearOrder F] [Zero F]

/-- The state of the solver that a solve starts with. -/
def startState {E : Type} (init : RK.State 1 E) (st : Option (RK.State 1 E × C)) : RK.State 1 E :=
  match st with
  | none => init
  | some st => st.1

/-- A solve of the backward pass. -/
noncomputable def Settings.output {E : Type} (u : Settings E C O F) (init : RK.State 1 E) (s t : ℝ) (z : E)
    (st : Option (RK.State 1 E × C)) (mj : Bool) : Output ℝ E (RK.Dense 1 E) (RK.State 1 E) C O F :=
  Verif.solve (u.cfg s t) z (u.start s t z (st.map (·.2))).1 (u.start s t z (st.map (·.2))).2 (startState init st) mj

/-- The call of `diffeqsolve` in `_scan_fun` (637-647). -/
noncomputable def Settings.solve (u : Settings (Aug S Q) C O F) (init : RK.State 1 (Aug S Q)) :
    Solve ℝ (S → ℝ) (Q → ℝ) (RK.State 1 (Aug S Q) × C) := fun s t z st mj =>
  ((u.output init s t z st mj).yfinal, (u.output init s t z st mj).core.solverState, (u.output init s t z st mj).core.ctrlState)

/-- The settings are those of solves with the solver `rk`: a step size controller without jumps, no root finder for events,
and the right direction. -/
structure Settings.Uses {E : Type} [NormedAddCommGroup E] [NormedSpace ℝ E] [Module ℚ E] (u : Settings E C O F)
    (rk : RK 1 ℝ ℚ E E ℝ J) (I : Set ℝ) : Prop where
  wf : ∀ s ∈ I, ∀ t ∈ I, t ≤ s → (u.cfg s t).WF
  t0 : ∀ s t, (u.cfg s t).t0 = -s
  t1 : ∀ s t, (u.cfg s t).t1 = -t
  solver : ∀ s t, (u.cfg s t).solver.step = rk.step
  controller : ∀ s t, (u.cfg s t).controller.Exact
  rootFinder : ∀ s t, (u.cfg s t).rootFinder = none

/-- The solve reaches its end, with accepted steps that are at most `η` long. -/
structure Settings.Fine {E : Type} (u : Settings E C O F) (init : RK.State 1 E) (η : ℝ) (s t : ℝ) (z : E)
    (st : Option (RK.State 1 E × C)) (mj : Bool) : Prop where
  forward : ∀ c ∈ callLog (u.cfg s t) z (u.start s t z (st.map (·.2))).1 (u.start s t z (st.map (·.2))).2
    (startState init st) mj, c.solverT0 ≤ c.solverT1
  small : ∀ c ∈ callLog (u.cfg s t) z (u.start s t z (st.map (·.2))).1 (u.start s t z (st.map (·.2))).2
    (startState init st) mj, (c.answer (u.cfg s t)).keep = true → c.solverT1 - c.solverT0 ≤ η
  reaches : (u.output init s t z st mj).tfinal = -t

/-- `P` holds of all the solves made for the vals `vs`, in this order. -/
def AllCalls {T Y P S : Type} [Add Y] (solve : Solve T Y P S) (Pr : T → T → Y × Y × P → Option S → Bool → Prop) :
    (Y × P) × Option S → Bool → List (T × T × Y × Y) → Prop
  | _, _, [] => True
  | st, first, v :: vs => Pr v.2.1 v.1 (v.2.2.1, st.1.1 + v.2.2.2, st.1.2) st.2 (!first) ∧
      AllCalls solve Pr (scanFun solve st v first) false vs

/-- `P` holds of all the solves of the backward pass (they are those of C51). -/
def AllSolves {T Y P S : Type} [Add Y] [Zero Y] [Zero P] (solve : Solve T Y P S)
    (Pr : T → T → Y × Y × P → Option S → Bool → Prop) (saveatT0 : Bool) (t0 : T) (pts : List (T × Y × Y)) : Prop :=
  AllCalls solve Pr ((0, 0), none) true (chain t0 (swept saveatT0 pts)).reverse

end

/-- The gradients that `BacksolveAdjoint` computes with the tableau `tab` converge with order `N`. For every equation
`dy/dt = F(t, y, θ)`, every solution, and all gradients `gs` of a loss with respect to the exact values, there is an exact
gradient, and there are constants `B` and `δ > 0`, such that: if the values and the gradients that the backward pass starts
from are within `e ≤ δ` of the exact ones, and all its solves reach their ends with accepted steps at most `η ≤ δ`, its
result differs from the exact gradient by at most `B * (e + η^N)`. This is for any step size controller (without jumps) and
any pattern of rejected steps. -/
def BacksolveConverges (tab : Fin 1 → Tableau ℚ) (N : ℕ) : Prop :=
  ∀ (S Q J : Type) [Fintype S] [Fintype Q] (F : ℝ × (S → ℝ) × (Q → ℝ) → S → ℝ) (θ : Q → ℝ) (y : ℝ → S → ℝ) (t0 last : ℝ)
    (_ : SolvesOn F θ y t0 last) (vjp : ℝ → (S → ℝ) → (Unit → ℝ) → (S → ℝ) → (S → ℝ) × (Q → ℝ))
    (_ : IsVjp (derivOf F) θ vjp) (cj : CalcJac) (rF rK : RootFinder (Aug S Q) J) (nj : J)
    (n : ℕ) (hn : 0 < n) (saveatT0 : Bool) (ts : Fin n → ℝ) (_ : Monotone ts) (_ : ∀ i, ts i ∈ Icc t0 last)
    (_ : saveatT0 = true → ts ⟨0, hn⟩ = t0) (gs : Fin n → S → ℝ),
    ∃ a q, IsGradient F θ y t0 last ts gs a q ∧
      ∃ δ B : ℝ, 0 < δ ∧ 0 ≤ B ∧ ∀ (C O Fl : Type) [LinearOrder Fl] [Zero Fl] (u : Settings (Aug S Q) C O Fl)
        (rk : RK 1 ℝ ℚ (Aug S Q) (Aug S Q) ℝ J)
        (_ : rk = odeRK tab (mirrored (adjRhs (fun t z => F (t, z)) θ vjp)) cj rF rK nj)
        (_ : u.Uses rk (Icc t0 last)) (e η : ℝ) (_ : e ≤ δ) (_ : 0 ≤ η) (_ : η ≤ δ) (ys' gs' : Fin n → S → ℝ)
        (_ : ∀ i, ‖ys' i - y (ts i)‖ ≤ e) (_ : ∀ i, ‖gs' i - gs i‖ ≤ e)
        (_ : AllSolves (u.solve rk.init) (u.Fine rk.init η) saveatT0 t0 (List.ofFn fun i => (ts i, ys' i, gs' i))),
        ∃ a' q', backward (u.solve rk.init) saveatT0 t0 (List.ofFn ts) (List.ofFn ys') (List.ofFn gs') = some (a', q') ∧
          ‖a' - a‖ ≤ B * (e + η ^ N) ∧ ‖q' - q‖ ≤ B * (e + η ^ N)

end Verif.Backsolve
