import Verif.Lemmas.Subsystem
import Verif.Spec.Pid
import Verif.Model.Tableaus
import Verif.Lemmas.BacksolveConvergence
import Verif.Model.Seminorm
import Verif.Model.Constant
import Verif.Model.Clip
import Verif.Model.DenseInterp
import Mathlib.Algebra.Module.LinearMap.Rat
import Verif.Spec.BacksolveConvergence

/-!
# C102: quantities integrated alongside do not change the solution

The state of a problem may contain quantities on which the rest does not depend: a running cost, or the gradients with
respect to the parameters in the backward pass of `BacksolveAdjoint`.
-/

set_option linter.unusedSectionVars false
set_option maxRecDepth 100000

namespace Verif
open Backsolve Tab

/-! ### Whole solves -/

section
variable {T Y Y' E E' D D' S S' C O F : Type} [LinearOrder T] [LinearOrder F] [Zero F]
  {π : Part Y Y' E E' D D' S S'} {cfg : Cfg T Y E D S C O F} {cfg' : Cfg T Y' E' D' S' C O F}

/-- **C102.** If the solver and the step size controller treat a part of the state as they would treat it alone, then solving
with the further quantities gives, for the part, what is obtained without them: the same steps are attempted and
accepted, and all that is returned is the same. -/
theorem C102_solve (h : cfg.IsPart π cfg') (y0 : Y) (tnext : T) (ctrl : C) (ss : S) (mj : Bool) :
    solve cfg' (π.y y0) tnext ctrl (π.state ss) mj = (solve cfg y0 tnext ctrl ss mj).part π ∧
    (history cfg' (π.y y0) tnext ctrl (π.state ss) mj).map (fun s => (s.tprev, s.tnext, accepted cfg' s))
      = (history cfg y0 tnext ctrl ss mj).map (fun s => (s.tprev, s.tnext, accepted cfg s)) := by
  refine ⟨solve_part h y0 tnext ctrl ss mj, ?_⟩
  rw [history_part h, List.map_map]
  refine List.map_congr_left fun s _ => ?_
  have : accepted cfg' (s.part π) = accepted cfg s := by
    unfold accepted adaptOut solverOut
    simp only [Core.part]
    rw [h.solver.step]
    simp only [StepOut.part]
    rw [h.adapt]
  simp only [Function.comp, this]
  rfl

end

/-! ### Explicit Runge-Kutta solvers -/

section
variable {K V V' : Type} [Field K] [DecidableEq K] [AddCommGroup V] [Module K V] [AddCommGroup V'] [Module K V']

/-- The part of the dense information of a step. -/
def densePart {m : ℕ} (π : V → V') (d : RK.Dense m V) : RK.Dense m V' :=
  { y0 := π d.y0, y1 := π d.y1, ks := fun p i => π (d.ks p i) }

theorem polyval_part (π : V →ₗ[K] V') (l : List V) (t : K) : polyval (l.map π) t = π (polyval l t) := by
  unfold polyval
  have : ∀ (l : List V) (a : V), (l.map π).foldl (fun acc c => t • acc + c) (π a) = π (l.foldl (fun acc c => t • acc + c) a) := by
    intro l
    induction l with
    | nil => intro a; rfl
    | cons x l ih =>
      intro a
      rw [List.map_cons, List.foldl_cons, List.foldl_cons, ← ih, map_add, map_smul]
  have := this l 0
  rwa [map_zero] at this

theorem headD_part (π : V →ₗ[K] V') (l : List V) : (l.map π).headD 0 = π (l.headD 0) := by cases l <;> simp

theorem getLastD_part (π : V →ₗ[K] V') (l : List V) : (l.map π).getLastD 0 = π (l.getLastD 0) := by
  rw [List.getLastD_eq_getLast?, List.getLastD_eq_getLast?, List.getLast?_map]
  cases l.getLast? <;> simp

theorem stageList_part (π : V →ₗ[K] V') (s : ℕ) (k : ℕ → V) : stageList s (fun i => π (k i)) = (stageList s k).map π := by
  simp [stageList]

theorem tensordot_part (π : V →ₗ[K] V') (c : List K) (l : List V) : tensordot c (l.map π) = π (tensordot c l) := by
  unfold tensordot
  have : ∀ (c : List K) (l : List V) (a : V), (List.zipWith (fun a b => a • b) c (l.map π)).foldl (· + ·) (π a)
      = π ((List.zipWith (fun a b => a • b) c l).foldl (· + ·) a) := by
    intro c
    induction c with
    | nil => intro l a; simp
    | cons x c ih =>
      intro l a
      cases l with
      | nil => simp
      | cons y l =>
        simp only [List.map_cons, List.zipWith_cons_cons, List.foldl_cons]
        rw [← ih, map_add, map_smul]
  have := this c l 0
  rwa [map_zero] at this

theorem hermiteInterp_part (π : V →ₗ[K] V') (s : ℕ) (a b : K) (d : RK.Dense 1 V) (t : K) :
    hermiteInterp s a b (densePart π d) t = π (hermiteInterp s a b d t) := by
  unfold hermiteInterp hermite3FromK hermite3 LocalPoly.evaluate
  simp only [densePart, stageList_part, headD_part, getLastD_part]
  rw [← polyval_part]
  simp

theorem dopri5Interp_part (π : V →ₗ[K] V') (a b : K) (d : RK.Dense 1 V) (t : K) :
    dopri5Interp a b (densePart π d) t = π (dopri5Interp a b d t) := by
  unfold dopri5Interp quartic LocalPoly.evaluate
  simp only [densePart, stageList_part, headD_part, getLastD_part, tensordot_part]
  rw [← polyval_part]
  simp

theorem tsit5Interp_part (π : V →ₗ[K] V') (a b : K) (d : RK.Dense 1 V) (t : K) :
    tsit5Interp a b (densePart π d) t = π (tsit5Interp a b d t) := by
  unfold tsit5Interp
  simp only [densePart, treeDot_part, map_add]

theorem dopri8Interp_part (π : V →ₗ[K] V') (a b : K) (d : RK.Dense 1 V) (t : K) :
    dopri8Interp a b (densePart π d) t = π (dopri8Interp a b d t) := by
  unfold dopri8Interp
  simp only [densePart, treeDot_part, map_add]

end

section
variable {m : ℕ} {E E' J J' : Type} [AddCommGroup E] [Module ℝ E] [Module ℚ E] [AddCommGroup E'] [Module ℝ E'] [Module ℚ E']

/-- The part of the states, error estimates, dense information and solver states of a Runge-Kutta solver. -/
noncomputable def rkPart (m : ℕ) (π : E →ₗ[ℝ] E') : Part E E' (Option E) (Option E') (RK.Dense m E) (RK.Dense m E')
    (RK.State m E) (RK.State m E') :=
  RK.part π.toAddMonoidHom.toRatLinearMap π.toAddMonoidHom.toRatLinearMap

theorem odeRK_isPart (tab : Fin m → Tableau ℚ) (hex : ∀ p, (tab p).implicit = false) (π : E →ₗ[ℝ] E')
    (f : Fin m → ℝ → E → E) (g : Fin m → ℝ → E' → E') (hfg : ∀ p t y, g p t (π y) = π (f p t y))
    (cj cj' : CalcJac) (rF rK : RootFinder E J) (nj : J) (rF' rK' : RootFinder E' J') (nj' : J') :
    (odeRK tab f cj rF rK nj).IsPart (odeRK tab g cj' rF' rK' nj') π.toAddMonoidHom.toRatLinearMap
      π.toAddMonoidHom.toRatLinearMap where
  tab := rfl
  explicit := hex
  at' := rfl
  expensive _ := rfl
  contr _ := rfl
  vf p t y := hfg p t y
  prod p v c := (map_smul π c v).symm
  vfProd p t y c := by
    show c • g p t (π y) = π (c • f p t y)
    rw [hfg, map_smul]

/-- **C102.** Explicit Runge-Kutta solvers treat a part on which the rest of the state has no influence as if it were alone:
steps, error estimates, solver states and interpolations. -/
theorem C102_rk (tab : Fin m → Tableau ℚ) (hex : ∀ p, (tab p).implicit = false) (π : E →ₗ[ℝ] E')
    (f : Fin m → ℝ → E → E) (g : Fin m → ℝ → E' → E') (hfg : ∀ p t y, g p t (π y) = π (f p t y))
    (cj cj' : CalcJac) (rF rK : RootFinder E J) (nj : J) (rF' rK' : RootFinder E' J') (nj' : J')
    (interp : ℝ → ℝ → RK.Dense m E → ℝ → E) (interp' : ℝ → ℝ → RK.Dense m E' → ℝ → E')
    (hint : ∀ a b d t, interp' a b (densePart π d) t = π (interp a b d t)) :
    Solver.IsPart (rkPart m π) ((odeRK tab f cj rF rK nj).solver interp) ((odeRK tab g cj' rF' rK' nj').solver interp') ∧
    (odeRK tab g cj' rF' rK' nj').init = (rkPart m π).state (odeRK tab f cj rF rK nj).init :=
  ⟨{ step := fun a b y s j => (odeRK_isPart tab hex π f g hfg cj cj' rF rK nj rF' rK' nj').step a b y s j
     interp := hint },
   (odeRK_isPart tab hex π f g hfg cj cj' rF rK nj rF' rK' nj').init⟩

end

/-! ### Step size controllers -/

section
variable {T Y Y' E E' D D' S S' C : Type}

/-- **C102.** `ConstantStepSize` and `StepTo` do not look at the state. -/
theorem C102_constant (K : Type) [Field K] [LinearOrder K] [FloorRing K] (y : Y → Y') (a b : K) (y0 y1 : Y) (e : E) (e' : E')
    (c : ConstState K) :
    (constantStepSize : Controller K Y' E' _).adapt a b (y y0) (y y1) e' c = constantStepSize.adapt a b y0 y1 e c := rfl

theorem C102_stepTo [LinearOrder T] (ts : List T) (dflt : T) (y : Y → Y') (a b : T) (y0 y1 : Y) (e : E) (e' : E') (c : ℕ) :
    (stepTo ts dflt : Controller T Y' E' _).adapt a b (y y0) (y y1) e' c = (stepTo ts dflt).adapt a b y0 y1 e c := rfl

/-- **C102.** `ClipStepSizeController` looks at the state only through the controller that it wraps. -/
theorem C102_clip [LinearOrder T] [SuccOrder T] [PredOrder T] (c : Clip T) (inner : Controller T Y E C)
    (inner' : Controller T Y' E' C) (y : Y → Y') (err : E → E')
    (h : ∀ a b y0 y1 e s, inner'.adapt a b (y y0) (y y1) (err e) s = inner.adapt a b y0 y1 e s) (a b : T) (y0 y1 : Y) (e : E)
    (s : ClipState T C) :
    (clipController c inner').adapt a b (y y0) (y y1) (err e) s = (clipController c inner).adapt a b y0 y1 e s := by
  show c.adapt inner' a b (y y0) (y y1) (err e) s = c.adapt inner a b y0 y1 e s
  unfold Clip.adapt
  rw [h]

variable {K : Type} [Field K] [LinearOrder K]

/-- **C102.** With `norm=adjoint_rms_seminorm`, `PIDController` looks at the state and its cotangent only: it does what it does
with `optimistix.rms_norm` on these alone. -/
theorem C102_pid (p : Pid K) (rms : XTree K → XVal K) (k : ℕ) (tree : Y → XTree K) (errTree : E → XTree K)
    (tree' : Y' → XTree K) (errTree' : E' → XTree K) (y : Y → Y') (err : E → E')
    (hy : ∀ x, tree' (y x) = (tree x).take (2 * k)) (he : ∀ e, errTree' (err e) = (errTree e).take (2 * k)) (a b : K)
    (y0 y1 : Y) (e : E) (s : PidState K) :
    (pidWith { p with norm := rms } (Pid.scaledVia { p with norm := rms } tree' errTree')).adapt a b (y y0) (y y1) (err e) s
      = (pidWith { p with norm := adjointRmsSeminorm rms k }
          (Pid.scaledVia { p with norm := adjointRmsSeminorm rms k } tree errTree)).adapt a b y0 y1 e s := by
  have key : Pid.scaledVia { p with norm := rms } tree' errTree' (y y0) (y y1) (err e)
      = Pid.scaledVia { p with norm := adjointRmsSeminorm rms k } tree errTree y0 y1 e := by
    simp only [Pid.scaledVia, Pid.scaledError, adjointRmsSeminorm, hy, he, List.take_zipWith]
    rw [List.zip, List.take_zipWith]
    rfl
  unfold pidWith
  dsimp only
  rw [key]
  rfl

end

/-! ### The backward pass of `BacksolveAdjoint` -/

namespace Backsolve

section
variable {T Y P P' S S' : Type} [Add Y] [Zero Y] [Zero P] [Zero P']

/-- The part of the carry of the scan. -/
def carryPart (st : S → S') (p : P → P') (x : (Y × P) × Option S) : (Y × P') × Option S' :=
  ((x.1.1, p x.1.2), x.2.map st)

variable {solve : Solve T Y P S} {solve' : Solve T Y P' S'} {st : S → S'} {p : P → P'}
  (h : ∀ a b z s mj, solve' a b (z.1, z.2.1, p z.2.2) (s.map st) mj
    = (((solve a b z s mj).1.1, (solve a b z s mj).1.2.1, p (solve a b z s mj).1.2.2), st (solve a b z s mj).2))
include h

theorem scanFun_part (x : (Y × P) × Option S) (v : T × T × Y × Y) (first : Bool) :
    scanFun solve' (carryPart st p x) v first = carryPart st p (scanFun solve x v first) := by
  obtain ⟨t1, t0, y0, g⟩ := v
  obtain ⟨⟨a, q⟩, s⟩ := x
  have := h t0 t1 (y0, a + g, q) s (!first)
  simp only [scanFun, carryPart, this, Option.map_some]

theorem scanRev_part (x : (Y × P) × Option S) (t1s t0s : List T) (ys gs : List Y) :
    scanRev solve' (carryPart st p x) t1s t0s ys gs = carryPart st p (scanRev solve x t1s t0s ys gs) := by
  unfold scanRev
  generalize (t1s.zip (t0s.zip (ys.zip gs))).reverse = l
  induction l generalizing x with
  | nil => rfl
  | cons v l ih => rw [List.foldl_cons, List.foldl_cons, scanFun_part h, ih]

theorem backward_part (hp : p 0 = 0) (saveatT0 : Bool) (t0 : T) (ts : List T) (ys gs : List Y) :
    backward solve' saveatT0 t0 ts ys gs = (backward solve saveatT0 t0 ts ys gs).map fun r => (r.1, p r.2) := by
  have h0 : (((0, 0), none) : (Y × P') × Option S') = carryPart st p ((0, 0), none) := by
    simp [carryPart, hp]
  unfold backward
  rw [h0]
  simp only [scanFun_part h, scanRev_part h]
  cases saveatT0 with
  | true =>
    simp only [if_true]
    split_ifs
    · rcases ts[ts.length - 2]? with _ | a <;> [rfl; skip]
      rcases ts[ts.length - 1]? with _ | b <;> [rfl; skip]
      rcases ys[ts.length - 1]? with _ | c <;> [rfl; skip]
      rcases gs[ts.length - 1]? with _ | d <;> [rfl; skip]
      rcases gs[0]? with _ | e <;> rfl
    · rcases gs[0]? with _ | e <;> rfl
    · rcases ts[0]? with _ | a <;> [rfl; skip]
      rcases ts[1]? with _ | b <;> [rfl; skip]
      rcases ys[1]? with _ | c <;> [rfl; skip]
      rcases gs[1]? with _ | d <;> [rfl; skip]
      rcases gs[0]? with _ | e <;> rfl
    · rfl
  | false =>
    simp only [Bool.false_eq_true, if_false]
    split_ifs
    · rcases ts[ts.length - 2]? with _ | a <;> [rfl; skip]
      rcases ts[ts.length - 1]? with _ | b <;> [rfl; skip]
      rcases ys[ts.length - 1]? with _ | c <;> [rfl; skip]
      rcases gs[ts.length - 1]? with _ | d <;> rfl
    · rcases ts[0]? with _ | a <;> [rfl; skip]
      rcases ys[0]? with _ | b <;> [rfl; skip]
      rcases gs[0]? with _ | c <;> rfl
    · rfl

end

section
variable {S Q C O F J J' : Type} [LinearOrder F] [Zero F]

/-- The state and its cotangent alone. -/
def dropParams (S Q : Type) : Aug S Q →ₗ[ℝ] Aug S Empty where
  toFun z := (z.1, z.2.1, 0)
  map_add' a b := by ext <;> simp
  map_smul' a b := by ext <;> simp

/-- The vector-Jacobian product for a problem whose parameters are held fixed. -/
def vjpFixed (vjp : ℝ → (S → ℝ) → (Unit → ℝ) → (S → ℝ) → (S → ℝ) × (Q → ℝ)) (r : ℝ) (y : S → ℝ) (c : Unit → ℝ) (a : S → ℝ) :
    (S → ℝ) × (Empty → ℝ) := ((vjp r y c a).1, 0)

theorem mirrored_dropParams (f : ℝ → (S → ℝ) × (Q → ℝ) → S → ℝ) (θ : Q → ℝ)
    (vjp : ℝ → (S → ℝ) → (Unit → ℝ) → (S → ℝ) → (S → ℝ) × (Q → ℝ)) (p : Fin 1) (t : ℝ) (z : Aug S Q) :
    mirrored (adjRhs (fun t z => f t (z.1, θ)) 0 (vjpFixed vjp)) p t (dropParams S Q z)
      = dropParams S Q (mirrored (adjRhs f θ vjp) p t z) := by
  show -adjRhs _ _ _ _ _ = _
  rw [adjRhs_eq]
  show _ = dropParams S Q (-adjRhs f θ vjp (-t) z)
  rw [adjRhs_eq]
  refine Prod.ext rfl (Prod.ext rfl ?_)
  funext i
  exact i.elim

/-- **C102.** The gradient with respect to the initial value does not depend on whether gradients with respect to parameters are
computed alongside. Here `u` and `u'` are the settings of the solves of the backward pass with and without the
gradients of the parameters. -/
theorem C102_backsolve (u : Settings (Aug S Q) C O F) (u' : Settings (Aug S Empty) C O F) (init : RK.State 1 (Aug S Q))
    (init' : RK.State 1 (Aug S Empty)) (hinit : init' = (rkPart 1 (dropParams S Q)).state init)
    (hu : ∀ s t, (u.cfg s t).IsPart (rkPart 1 (dropParams S Q)) (u'.cfg s t))
    (hs : ∀ s t z c, u'.start s t (dropParams S Q z) c = u.start s t z c)
    (saveatT0 : Bool) (t0 : ℝ) (ts : List ℝ) (ys gs : List (S → ℝ)) :
    (backward (u'.solve init') saveatT0 t0 ts ys gs).map Prod.fst
      = (backward (u.solve init) saveatT0 t0 ts ys gs).map Prod.fst := by
  rw [backward_part (solve := u.solve init) (solve' := u'.solve init') (p := fun _ => 0)
    (st := fun x => ((rkPart 1 (dropParams S Q)).state x.1, x.2)) ?_ rfl, Option.map_map]
  · rfl
  · intro a b z s mj
    have e : u'.output init' a b (z.1, z.2.1, 0) (s.map fun x => ((rkPart 1 (dropParams S Q)).state x.1, x.2)) mj
        = (u.output init a b z s mj).part (rkPart 1 (dropParams S Q)) := by
      unfold Settings.output
      have e1 : (s.map fun x => ((rkPart 1 (dropParams S Q)).state x.1, x.2)).map (·.2) = s.map (·.2) := by
        cases s <;> rfl
      have e2 : startState init' (s.map fun x => ((rkPart 1 (dropParams S Q)).state x.1, x.2))
          = (rkPart 1 (dropParams S Q)).state (startState init s) := by
        cases s
        · exact hinit
        · rfl
      rw [e1, e2, ← solve_part (hu a b), ← hs a b z]
      rfl
    unfold Settings.solve
    rw [e]
    rfl

end

section
variable {d q : ℕ} {E : Type}

/-- The leaves of a state of the backward pass: the state, its cotangent, and the gradient of the parameters. -/
def augTree (z : Aug (Fin d) (Fin q)) : XTree ℝ := vecTree z.1 ++ vecTree z.2.1 ++ vecTree z.2.2

/-- The same without parameters. -/
def augTree' (z : Aug (Fin d) Empty) : XTree ℝ := vecTree z.1 ++ vecTree z.2.1

/-- The leaves of an error estimate, which is infinite after a failed implicit solve. -/
def errVia [Zero E] (tree : E → XTree ℝ) : Option E → XTree ℝ
  | some e => tree e
  | none => (tree 0).map (·.map fun _ => .pinf)

theorem pidSettings_adapt (p : Pid ℝ) (rms : XTree ℝ → XVal ℝ) (a b : ℝ) (y0 y1 : Aug (Fin d) (Fin q))
    (e : Option (Aug (Fin d) (Fin q))) (c : PidState ℝ) :
    (pidWith { p with norm := rms } (Pid.scaledVia { p with norm := rms } augTree' (errVia augTree'))).adapt a b
        (dropParams (Fin d) (Fin q) y0) (dropParams (Fin d) (Fin q) y1) (e.map (dropParams (Fin d) (Fin q))) c
      = (pidWith { p with norm := adjointRmsSeminorm rms 1 }
          (Pid.scaledVia { p with norm := adjointRmsSeminorm rms 1 } augTree (errVia augTree))).adapt a b y0 y1 e c :=
  C102_pid p rms 1 augTree (errVia augTree) augTree' (errVia augTree') (dropParams (Fin d) (Fin q))
    (Option.map (dropParams (Fin d) (Fin q))) (fun _ => rfl) (fun e => by cases e <;> rfl) a b y0 y1 e c

/-- The settings of the backward pass (`_adjoint.py` 637-660) with `PIDController`, reading off the final value. The first step
does not depend on the state: it is that given by the user, or `0.01` as the term is not an `ODETerm`, or that of the solve
before (`pid.py` 33-48, 316-392). -/
noncomputable def pidSettings [Zero E] (solver : Solver ℝ E (Option E) (RK.Dense 1 E) (RK.State 1 E)) (p : Pid ℝ)
    (tree : E → XTree ℝ) (start : ℝ → ℝ → Option (PidState ℝ) → ℝ × PidState ℝ) (maxSteps : ℕ) :
    Settings E (PidState ℝ) Unit ℝ where
  cfg := fun s t =>
    { t0 := -s
      t1 := -t
      solver := solver
      controller := pidWith p (Pid.scaledVia p tree (errVia tree))
      cleanErr := id
      maxSteps := maxSteps
      floor := -t
      mid := fun a b => (a + b) / 2
      dist := fun a b => a - b
      dummyDense := { y0 := 0, y1 := 0, ks := fun _ _ => 0 }
      subs := []
      dense := false
      events := []
      rootFinder := none }
  start := fun s t _ c => start s t c

theorem pidSettings_isPart (p : Pid ℝ) (rms : XTree ℝ → XVal ℝ)
    (sv : Solver ℝ (Aug (Fin d) (Fin q)) (Option (Aug (Fin d) (Fin q))) (RK.Dense 1 (Aug (Fin d) (Fin q)))
      (RK.State 1 (Aug (Fin d) (Fin q))))
    (sv' : Solver ℝ (Aug (Fin d) Empty) (Option (Aug (Fin d) Empty)) (RK.Dense 1 (Aug (Fin d) Empty))
      (RK.State 1 (Aug (Fin d) Empty)))
    (h : sv.IsPart (rkPart 1 (dropParams (Fin d) (Fin q))) sv') (start : ℝ → ℝ → Option (PidState ℝ) → ℝ × PidState ℝ)
    (n : ℕ) (s t : ℝ) :
    ((pidSettings sv { p with norm := adjointRmsSeminorm rms 1 } augTree start n).cfg s t).IsPart
      (rkPart 1 (dropParams (Fin d) (Fin q))) ((pidSettings sv' { p with norm := rms } augTree' start n).cfg s t) where
  solver := h
  adapt a b y0 y1 e c := pidSettings_adapt p rms a b y0 y1 e c
  stepTo := rfl
  events := rfl
  subs := rfl
  rootFinder := rfl
  dist := rfl
  dummy := by
    show _ = densePart (dropParams (Fin d) (Fin q)) _
    simp only [pidSettings, densePart, map_zero]
  t0 := rfl
  t1 := rfl
  floor := rfl
  mid := rfl
  dense := rfl
  maxSteps := rfl

/-- **C102.** With `PIDController(..., norm=adjoint_rms_seminorm)`, the gradient with respect to the initial value is exactly the
one that is computed, with the ordinary norm, if nothing else is to be differentiated. -/
theorem C102_backsolve_pid (tab : Fin 1 → Tableau ℚ) (hex : ∀ p, (tab p).implicit = false)
    (f : ℝ → (Fin d → ℝ) × (Fin q → ℝ) → Fin d → ℝ) (θ : Fin q → ℝ)
    (vjp : ℝ → (Fin d → ℝ) → (Unit → ℝ) → (Fin d → ℝ) → (Fin d → ℝ) × (Fin q → ℝ)) (p : Pid ℝ) (rms : XTree ℝ → XVal ℝ)
    (cj cj' : CalcJac) (rF rK : RootFinder (Aug (Fin d) (Fin q)) Unit) (rF' rK' : RootFinder (Aug (Fin d) Empty) Unit)
    (interp : ℝ → ℝ → RK.Dense 1 (Aug (Fin d) (Fin q)) → ℝ → Aug (Fin d) (Fin q))
    (interp' : ℝ → ℝ → RK.Dense 1 (Aug (Fin d) Empty) → ℝ → Aug (Fin d) Empty)
    (hint : ∀ a b e t, interp' a b (densePart (dropParams (Fin d) (Fin q)) e) t = dropParams _ _ (interp a b e t))
    (start : ℝ → ℝ → Option (PidState ℝ) → ℝ × PidState ℝ) (n : ℕ)
    (rk : RK 1 ℝ ℚ (Aug (Fin d) (Fin q)) (Aug (Fin d) (Fin q)) ℝ Unit) (rk' : RK 1 ℝ ℚ (Aug (Fin d) Empty) (Aug (Fin d) Empty) ℝ Unit)
    (hrk : rk = odeRK tab (mirrored (adjRhs f θ vjp)) cj rF rK ())
    (hrk' : rk' = odeRK tab (mirrored (adjRhs (fun t z => f t (z.1, θ)) 0 (vjpFixed vjp))) cj' rF' rK' ())
    (saveatT0 : Bool) (t0 : ℝ) (ts : List ℝ) (ys gs : List (Fin d → ℝ)) :
    (backward ((pidSettings (rk.solver interp) { p with norm := adjointRmsSeminorm rms 1 } augTree start n).solve rk.init)
        saveatT0 t0 ts ys gs).map Prod.fst
      = (backward ((pidSettings (rk'.solver interp') { p with norm := rms } augTree' start n).solve rk'.init)
        saveatT0 t0 ts ys gs).map Prod.fst := by
  have hr := C102_rk tab hex (dropParams (Fin d) (Fin q)) _ _ (mirrored_dropParams f θ vjp) cj cj' rF rK () rF' rK' ()
    interp interp' hint
  rw [← hrk, ← hrk'] at hr
  clear hrk hrk'
  exact (C102_backsolve (pidSettings (rk.solver interp) { p with norm := adjointRmsSeminorm rms 1 } augTree start n)
    (pidSettings (rk'.solver interp') { p with norm := rms } augTree' start n) rk.init rk'.init hr.2
    (fun s t => pidSettings_isPart p rms _ _ hr.1 start n s t) (fun s t z c => rfl) saveatT0 t0 ts ys gs).symm

/-- `Dopri5` with its own interpolation, for `dy/dt = θ y` with the vector-Jacobian product of it. -/
example (p : Pid ℝ) (rms : XTree ℝ → XVal ℝ) (θ : Fin 1 → ℝ) (start : ℝ → ℝ → Option (PidState ℝ) → ℝ × PidState ℝ) (n : ℕ)
    (root : ∀ E, RootFinder E Unit) (ts : List ℝ) (ys gs : List (Fin 1 → ℝ)) :
    let f : ℝ → (Fin 1 → ℝ) × (Fin 1 → ℝ) → Fin 1 → ℝ := fun _ z i => z.2 i * z.1 i
    let vjp : ℝ → (Fin 1 → ℝ) → (Unit → ℝ) → (Fin 1 → ℝ) → (Fin 1 → ℝ) × (Fin 1 → ℝ) :=
      fun _ y c a => (fun i => c () * (a i * θ i), fun i => c () * (a i * y i))
    let rk := odeRK ![Dopri5.tableau] (mirrored (adjRhs f θ vjp)) .never (root _) (root _) ()
    let rk' := odeRK ![Dopri5.tableau] (mirrored (adjRhs (fun t z => f t (z.1, θ)) (0 : Empty → ℝ) (vjpFixed vjp))) .never
      (root _) (root _) ()
    (backward ((pidSettings (rk.solver dopri5Interp) { p with norm := adjointRmsSeminorm rms 1 } augTree start n).solve rk.init)
        false 0 ts ys gs).map Prod.fst
      = (backward ((pidSettings (rk'.solver dopri5Interp) { p with norm := rms } augTree' start n).solve rk'.init)
        false 0 ts ys gs).map Prod.fst :=
  C102_backsolve_pid ![Dopri5.tableau] (by decide +kernel) _ θ _ p rms .never .never (root _) (root _) (root _) (root _)
    dopri5Interp dopri5Interp (fun a b e t => dopri5Interp_part (dropParams (Fin 1) (Fin 1)) a b e t) start n _ _ rfl rfl
    false 0 ts ys gs

end
end Backsolve

/-! ### The ordinary norm -/

section
/-! `dy/dt = y` from 0 to 1 with `Heun`, alone or together with a running cost `dc/dt = 100 t`. -/

def costRK {V : Type} [AddCommGroup V] [Module ℚ V] (f : ℚ → V → V) : RK 1 ℚ ℚ V V ℚ Unit where
  tab := ![Heun.tableau]
  term _ := { vf := f, contr := fun a b => b - a, prod := fun v c => c • v, vfProd := fun t y c => c • f t y }
  at' a b c := a + c * (b - a)
  calcJac := .never
  rootF := { init := fun _ _ _ => (), find := fun _ _ x _ => (x, .successful) }
  rootK := { init := fun _ _ _ => (), find := fun _ _ x _ => (x, .successful) }
  noJac := ()

def costPid (norm : XTree ℚ → XVal ℚ) : Pid ℚ :=
  { rtol := 1 / 10, atol := 1, norm := norm, rpow := fun b c => if 0 < c then b else 1 / b, pcoeff := 0, icoeff := 1
    dcoeff := 0, dtmin := none, dtmax := none, forceDtmin := true, factormin := 1 / 5, factormax := 10, safety := 9 / 10
    order := 1 }

def costCfg {V : Type} [AddCommGroup V] [Module ℚ V] (f : ℚ → V → V) (norm : XTree ℚ → XVal ℚ) (tree : V → XTree ℚ) :
    Cfg ℚ V (Option V) (RK.Dense 1 V) (RK.State 1 V) (PidState ℚ) Unit ℚ where
  t0 := 0
  t1 := 1
  solver := (costRK f).solver (hermiteInterp 2)
  controller := pidWith (costPid norm) (Pid.scaledVia (costPid norm) tree fun e => (e.map tree).getD [])
  cleanErr := id
  maxSteps := 3
  floor := 1
  mid := fun a b => (a + b) / 2
  dist := fun a b => a - b
  dummyDense := { y0 := 0, y1 := 0, ks := fun _ _ => 0 }
  subs := []
  dense := false
  events := []
  rootFinder := none

def withCost (t : ℚ) (z : ℚ × ℚ) : ℚ × ℚ := (z.1, 100 * t)

def costTree (z : ℚ × ℚ) : XTree ℚ := [[.fin z.1], [.fin z.2]]

/-- The projection on `y`. -/
def costPart : Part (ℚ × ℚ) ℚ (Option (ℚ × ℚ)) (Option ℚ) (RK.Dense 1 (ℚ × ℚ)) (RK.Dense 1 ℚ) (RK.State 1 (ℚ × ℚ))
    (RK.State 1 ℚ) := RK.part (LinearMap.fst ℚ ℚ ℚ) (LinearMap.fst ℚ ℚ ℚ)

theorem costCfg_isPart (norm : XTree ℚ → XVal ℚ) :
    (costCfg withCost (fun x => norm (x.take 1)) costTree).IsPart costPart
      (costCfg (fun _ y => y) norm fun y => [[.fin y]]) where
  solver :=
    { step := fun a b y s j =>
        RK.IsPart.step (rk := costRK withCost) (rk' := costRK fun _ y => y)
          { tab := rfl, explicit := by decide +kernel, at' := rfl, expensive := fun _ => rfl, contr := fun _ => rfl
            vf := fun _ _ _ => rfl, prod := fun _ _ _ => rfl, vfProd := fun _ _ _ _ => rfl } a b y s j
      interp := fun a b d t => hermiteInterp_part (LinearMap.fst ℚ ℚ ℚ) 2 a b d t }
  adapt a b y0 y1 e c := by
    have key : ∀ y0 y1 : ℚ × ℚ, ∀ e : Option (ℚ × ℚ), Pid.scaledVia (costPid norm) (fun y : ℚ => [[.fin y]])
        (fun e => (e.map fun y : ℚ => [[XVal.fin y]]).getD []) y0.1 y1.1 (e.map Prod.fst)
        = Pid.scaledVia (costPid fun x => norm (x.take 1)) costTree (fun e => (e.map costTree).getD []) y0 y1 e := by
      intro y0 y1 e
      cases e <;> rfl
    show (pidWith _ _).adapt a b y0.1 y1.1 (e.map Prod.fst) c = (pidWith _ _).adapt a b y0 y1 e c
    unfold pidWith
    dsimp only
    rw [key]
    rfl
  stepTo := rfl
  events := rfl
  subs := rfl
  rootFinder := rfl
  dist := rfl
  dummy := rfl
  t0 := rfl
  t1 := rfl
  floor := rfl
  mid := rfl
  dense := rfl
  maxSteps := rfl

/-- The hypotheses of `C102_solve` hold for a norm that looks at `y` only, with the running cost or without it. -/
example : solve (costCfg (fun _ y => y) linf fun y => [[.fin y]]) 1 (1 / 2) .fresh none false
    = (solve (costCfg withCost (fun x => linf (x.take 1)) costTree) (1, 0) (1 / 2) .fresh none false).part costPart :=
  (C102_solve (costCfg_isPart linf) (1, 0) (1 / 2) .fresh none false).1

/-- **C102.** With an ordinary norm the running cost does matter: the step to `1/2` is rejected because of it, and then the
solution is computed with other steps. -/
theorem C102_ordinary_norm :
    (history (costCfg (fun _ y => y) linf fun y => [[.fin y]]) 1 (1 / 2) .fresh none false).map
        (fun s => (s.tprev, s.tnext, s.y)) = [(0, 1 / 2, 1), (1 / 2, 1, 13 / 8)] ∧
      (history (costCfg withCost linf costTree) (1, 0) (1 / 2) .fresh none false).map (fun s => (s.tprev, s.tnext, s.y.1))
        = [(0, 1 / 2, 1), (0, 1 / 10, 1), (1 / 10, 289 / 1000, 221 / 200)] := by
  constructor <;> decide +kernel

end

end Verif
