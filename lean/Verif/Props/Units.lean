import Verif.Lemmas.Units
import Verif.Model.Constant
import Verif.Model.Clip
import Verif.Model.PidWith
import Verif.Model.DenseInterp
import Verif.Model.Term
import Verif.Model.Tableaus
import Verif.Spec.Pid
import Mathlib.Algebra.Module.LinearMap.Rat
import Mathlib.Algebra.Module.LinearMap.End
import Mathlib.Order.SuccPred.Basic
import Mathlib.Order.Hom.Basic
import Mathlib.Data.Rat.Floor
import Mathlib.Data.Int.SuccPred
import Mathlib.Algebra.Order.Group.OrderIso
import Mathlib.Tactic.FieldSimp
import Mathlib.Tactic.Linarith

/-!
# C105: the unit and the origin of time do not matter

A problem may be written down in seconds or in milliseconds, and time may be counted from any moment. The solve is the same one
if all times that are passed are converted, except that the first step chosen by `PIDController` without `dt0` depends on the
unit.
-/

set_option linter.unusedSectionVars false
set_option maxRecDepth 100000

namespace Verif
open Tab

/-! ### Whole solves -/

section
variable {T T' Y Y' E E' D D' S S' C C' O F : Type} [LinearOrder T] [LinearOrder T'] [LinearOrder F] [Zero F]
  {u : Units T T' Y Y' E E' D D' S S' C C'} {scale : F → F} {cfg : Cfg T Y E D S C O F} {cfg' : Cfg T' Y' E' D' S' C' O F}

/-- **C105.** If the solver, the step size controller and the root finder of events do the same in both units, then so does the
whole solve: the same steps are attempted and accepted, and all that is returned is the same, converted to the other units. -/
theorem C105_solve (hf : StrictMono u.time) (h : cfg.Same u scale cfg') (y0 : Y) (tnext : T) (ctrl : C) (ss : S) (mj : Bool) :
    solve cfg' (u.y y0) (u.time tnext) (u.ctrl ctrl) (u.state ss) mj = (solve cfg y0 tnext ctrl ss mj).inUnits u ∧
    (history cfg' (u.y y0) (u.time tnext) (u.ctrl ctrl) (u.state ss) mj).map (fun s => (s.tprev, s.tnext, accepted cfg' s))
      = (history cfg y0 tnext ctrl ss mj).map (fun s => (u.time s.tprev, u.time s.tnext, accepted cfg s)) := by
  refine ⟨solve_units hf h y0 tnext ctrl ss mj, ?_⟩
  rw [history_units hf h, List.map_map]
  refine List.map_congr_left fun s _ => ?_
  have : accepted cfg' (s.inUnits u) = accepted cfg s := by
    unfold accepted adaptOut solverOut
    simp only [Core.inUnits]
    rw [h.solver.step]
    simp only [StepOut.inUnits]
    rw [h.adapt]
    rfl
  simp only [Function.comp, this]
  rfl

theorem knotLt_units {f : T → T'} (hf : StrictMono f) (t : T) (o : Option T) : knotLt (f t) (o.map f) = knotLt t o := by
  cases o <;> simp [knotLt, hf.lt_iff_lt]

theorem knotLe_units {f : T → T'} (hf : StrictMono f) (t : T) (o : Option T) : knotLe (f t) (o.map f) = knotLe t o := by
  cases o <;> simp [knotLe, hf.le_iff_le]

theorem segIndex_units {f : T → T'} (hf : StrictMono f) (ts : List (Option T)) (n : ℕ) (t : T) (left : Bool) :
    segIndex (ts.map (·.map f)) n (f t) left = segIndex ts n t left := by
  unfold segIndex searchsorted
  simp only [List.countP_map, Function.comp_def, knotLt_units hf, knotLe_units hf]

/-- **C105.** Dense output is the same, converted to the other units. -/
theorem C105_dense (hf : StrictMono u.time) (h : cfg.Same u scale cfg') (y0 : Y) (tnext : T) (ctrl : C) (ss : S) (mj : Bool)
    (t : T) (left : Bool) :
    (denseOf cfg' (u.y y0) (solve cfg' (u.y y0) (u.time tnext) (u.ctrl ctrl) (u.state ss) mj)).evaluate (u.time t) left
      = ((denseOf cfg y0 (solve cfg y0 tnext ctrl ss mj)).evaluate t left).map u.y := by
  rw [solve_units hf h]
  generalize solve cfg y0 tnext ctrl ss mj = o
  have hb : (denseOf cfg' (u.y y0) (o.inUnits u)).outOfBounds (u.time t) = (denseOf cfg y0 o).outOfBounds t := by
    unfold DenseInterp.outOfBounds
    simp only [denseOf, Output.inUnits, DenseState.inUnits, List.getElem?_map]
    congr 1
    · congr 1
      cases o.dense.ts[0]? <;> simp [knotLe_units hf]
    · cases o.dense.ts[o.dense.index + 1 - 1]? <;> simp [knotLt_units hf]
  unfold DenseInterp.evaluate
  rw [hb]
  by_cases h1 : t = (denseOf cfg y0 o).t0IfTrivial ∧ (denseOf cfg y0 o).tsSize = 1
  · have h1' : u.time t = (denseOf cfg' (u.y y0) (o.inUnits u)).t0IfTrivial ∧ (denseOf cfg' (u.y y0) (o.inUnits u)).tsSize = 1 :=
      ⟨(congrArg u.time h1.1).trans h.t0.symm, h1.2⟩
    rw [if_pos h1, if_pos h1']
    rfl
  have h1' : ¬ (u.time t = (denseOf cfg' (u.y y0) (o.inUnits u)).t0IfTrivial ∧
      (denseOf cfg' (u.y y0) (o.inUnits u)).tsSize = 1) :=
    fun hc => h1 ⟨hf.injective (hc.1.trans h.t0), hc.2⟩
  rw [if_neg h1, if_neg h1']
  by_cases h2 : (denseOf cfg y0 o).outOfBounds t = true
  · rw [if_pos h2, if_pos h2]
    rfl
  rw [if_neg h2, if_neg h2]
  simp only [denseOf, Output.inUnits, DenseState.inUnits, segIndex_units hf, List.getElem?_map]
  rcases o.dense.ts[segIndex o.dense.ts (o.dense.index + 1) t left]? with _ | _ | a <;> try rfl
  rcases o.dense.ts[segIndex o.dense.ts (o.dense.index + 1) t left + 1]? with _ | _ | b <;> try rfl
  rcases o.dense.infos[segIndex o.dense.ts (o.dense.index + 1) t left]? with _ | _ | d <;> try rfl
  simp only [Option.map_some, h.solver.interp]

end

/-! ### Runge-Kutta solvers for ordinary differential equations -/

/-- A time in the other unit (of which there are `a` to one of the original ones) and counted from another moment. -/
def affine {K : Type} [Field K] (a b t : K) : K := a * t + b

section
variable {K : Type} [Field K] [LinearOrder K] [IsStrictOrderedRing K] {a b : K}

theorem affine_strictMono (ha : 0 < a) : StrictMono (affine a b) := by
  intro s t hst
  unfold affine
  have := mul_lt_mul_of_pos_left hst ha
  linarith

theorem linearRescale_affine (ha : 0 < a) (t0 t t1 : K) :
    linearRescale (affine a b t0) (affine a b t) (affine a b t1) = linearRescale t0 t t1 := by
  unfold linearRescale
  simp only [(affine_strictMono (b := b) ha).injective.eq_iff]
  split
  · rfl
  · next h =>
    unfold affine
    have e : a * t1 + b - (a * t0 + b) = a * (t1 - t0) := by ring
    have e' : a * t + b - (a * t0 + b) = a * (t - t0) := by ring
    rw [e, e', mul_div_mul_left _ _ ha.ne']

end

section
variable {m : ℕ} {E E' J J' C C' : Type} [AddCommGroup E] [Module ℝ E] [Module ℚ E] [AddCommGroup E'] [Module ℝ E'] [Module ℚ E']

/-- A real linear map as a rational one. -/
noncomputable def ratLinear (π : E →ₗ[ℝ] E') : E →ₗ[ℚ] E' := π.toAddMonoidHom.toRatLinearMap

/-- What occurs in a solve, in the other unit of time and in the coordinates `π y`. Derivatives are divided by `a`. -/
noncomputable def odeUnits (m : ℕ) (a b : ℝ) (π : E →ₗ[ℝ] E') (ctrl : C → C') :
    Units ℝ ℝ E E' (Option E) (Option E') (RK.Dense m E) (RK.Dense m E') (RK.State m E) (RK.State m E') C C' :=
  RK.units (affine a b) (ratLinear π) (ratLinear (a⁻¹ • π)) ctrl

theorem odeRK_same {a b : ℝ} (ha : 0 < a) (tab : Fin m → Tableau ℚ) (π : E →ₗ[ℝ] E') (f : Fin m → ℝ → E → E)
    (g : Fin m → ℝ → E' → E') (hfg : ∀ p t y, g p (affine a b t) (π y) = a⁻¹ • π (f p t y)) (cj : CalcJac) (jm : J → J')
    (rF rK : RootFinder E J) (nj : J) (rF' rK' : RootFinder E' J') (hF : rF.Same (ratLinear (a⁻¹ • π)) jm rF')
    (hK : rK.Same (ratLinear π) jm rK') :
    (odeRK tab f cj rF rK nj).Same (affine a b) (ratLinear π) (ratLinear (a⁻¹ • π)) (a * ·) jm
      (odeRK tab g cj rF' rK' (jm nj)) where
  tab := rfl
  at' s t c := by
    show a * s + b + (c : ℝ) * (a * t + b - (a * s + b)) = a * (s + (c : ℝ) * (t - s)) + b
    ring
  calcJac := rfl
  noJac := rfl
  rootF := hF
  rootK := hK
  expensive _ := rfl
  contr _ s t := by
    show a * t + b - (a * s + b) = a * (t - s)
    ring
  vf p t y := hfg p t y
  prod p v c := by
    show (a * c) • (a⁻¹ • π v) = π (c • v)
    rw [smul_smul, mul_comm a c, mul_assoc, mul_inv_cancel₀ ha.ne', mul_one, map_smul]
  vfProd p t y c := by
    show (a * c) • g p (affine a b t) (π y) = π (c • f p t y)
    rw [hfg, smul_smul, mul_comm a c, mul_assoc, mul_inv_cancel₀ ha.ne', mul_one, map_smul]

/-- **C105.** Runge-Kutta solvers, explicit and implicit ones, do the same in other units of time and of the state: steps, error
estimates, solver states and interpolations. For implicit ones the root finder has to do so as well. -/
theorem C105_rk {a b : ℝ} (ha : 0 < a) (tab : Fin m → Tableau ℚ) (π : E →ₗ[ℝ] E') (f : Fin m → ℝ → E → E)
    (g : Fin m → ℝ → E' → E') (hfg : ∀ p t y, g p (affine a b t) (π y) = a⁻¹ • π (f p t y)) (cj : CalcJac) (jm : J → J')
    (rF rK : RootFinder E J) (nj : J) (rF' rK' : RootFinder E' J') (hF : rF.Same (ratLinear (a⁻¹ • π)) jm rF')
    (hK : rK.Same (ratLinear π) jm rK') (ctrl : C → C')
    (interp : ℝ → ℝ → RK.Dense m E → ℝ → E) (interp' : ℝ → ℝ → RK.Dense m E' → ℝ → E')
    (hint : ∀ s t d r, interp' (affine a b s) (affine a b t) ((odeUnits m a b π ctrl).dense d) (affine a b r)
      = π (interp s t d r)) :
    Solver.Same (odeUnits m a b π ctrl) ((odeRK tab f cj rF rK nj).solver interp)
      ((odeRK tab g cj rF' rK' (jm nj)).solver interp') ∧
    (odeRK tab g cj rF' rK' (jm nj)).init = (odeUnits m a b π ctrl).state (odeRK tab f cj rF rK nj).init :=
  ⟨{ step := fun s t y st j => (odeRK_same ha tab π f g hfg cj jm rF rK nj rF' rK' hF hK).step ctrl s t y st j
     interp := hint },
   (odeRK_same ha tab π f g hfg cj jm rF rK nj rF' rK' hF hK).init⟩

end

/-- A root finder that does the same in both units: it bisects once. -/
example {a b : ℝ} (ha : 0 < a) :
    SameFinder (affine a b) (a * ·)
      (fun g s t => if (g ((s + t) / 2)).any (fun x => decide (0 < x)) then ((s + t) / 2, none) else (t, none))
      (fun g s t => if (g ((s + t) / 2)).any (fun x => decide (0 < x)) then ((s + t) / 2, none) else (t, none)) := by
  intro g g' s t h
  have e : (affine a b s + affine a b t) / 2 = affine a b ((s + t) / 2) := by unfold affine; ring
  have hs : ∀ l l' : List ℝ, SameValues (a * ·) l' l → l'.any (fun x => decide (0 < x)) = l.any (fun x => decide (0 < x)) := by
    intro l l' hl
    induction hl with
    | nil => rfl
    | cons hx _ ih =>
      rw [List.any_cons, List.any_cons, ih]
      congr 1
      rcases hx with rfl | rfl
      · rfl
      · simp [mul_pos_iff_of_pos_left ha]
  dsimp only
  rw [e, hs _ _ (h _)]
  split <;> rfl

/-! ### Interpolation -/

section
variable {E E' C C' : Type} [AddCommGroup E] [Module ℝ E] [Module ℚ E] [AddCommGroup E'] [Module ℝ E'] [Module ℚ E']
  {a b : ℝ} (ha : 0 < a) (π : E →ₗ[ℝ] E') (ctrl : C → C')
include ha

omit ha [Module ℚ E] [Module ℚ E'] in
theorem polyval_map (l : List E) (t : ℝ) : polyval (l.map π) t = π (polyval l t) := by
  unfold polyval
  have : ∀ (l : List E) (x : E), (l.map π).foldl (fun acc c => t • acc + c) (π x) = π (l.foldl (fun acc c => t • acc + c) x) := by
    intro l
    induction l with
    | nil => intro x; rfl
    | cons y l ih =>
      intro x
      rw [List.map_cons, List.foldl_cons, List.foldl_cons, ← ih, map_add, map_smul]
  have := this l 0
  rwa [map_zero] at this

omit ha in
theorem stageList_map (s : ℕ) (k : ℕ → E) : stageList s (fun i => ratLinear π (k i)) = (stageList s k).map π := by
  simp only [stageList, List.map_map]
  rfl

omit ha [Module ℚ E] [Module ℚ E'] in
theorem headD_map (l : List E) : (l.map π).headD 0 = π (l.headD 0) := by cases l <;> simp

omit ha [Module ℚ E] [Module ℚ E'] in
theorem getLastD_map (l : List E) : (l.map π).getLastD 0 = π (l.getLastD 0) := by
  rw [List.getLastD_eq_getLast?, List.getLastD_eq_getLast?, List.getLast?_map]
  cases l.getLast? <;> simp

omit ha [Module ℚ E] [Module ℚ E'] in
theorem tensordot_map (c : List ℝ) (l : List E) : tensordot c (l.map π) = π (tensordot c l) := by
  unfold tensordot
  have : ∀ (c : List ℝ) (l : List E) (x : E), (List.zipWith (fun a b => a • b) c (l.map π)).foldl (· + ·) (π x)
      = π ((List.zipWith (fun a b => a • b) c l).foldl (· + ·) x) := by
    intro c
    induction c with
    | nil => intro l x; simp
    | cons y c ih =>
      intro l x
      cases l with
      | nil => simp
      | cons z l =>
        simp only [List.map_cons, List.zipWith_cons_cons, List.foldl_cons]
        rw [← ih, map_add, map_smul]
  have := this c l 0
  rwa [map_zero] at this

/-- **C105.** Third order Hermite interpolation is the same in other units. -/
theorem C105_hermite (s : ℕ) (t0 t1 : ℝ) (d : RK.Dense 1 E) (t : ℝ) :
    hermiteInterp s (affine a b t0) (affine a b t1) ((odeUnits 1 a b π ctrl).dense d) (affine a b t)
      = π (hermiteInterp s t0 t1 d t) := by
  unfold hermiteInterp hermite3FromK hermite3 LocalPoly.evaluate
  simp only [odeUnits, RK.units, stageList_map, headD_map, getLastD_map, linearRescale_affine ha]
  rw [← polyval_map]
  simp [ratLinear]

/-- **C105.** The interpolation of `Dopri5` is the same in other units. -/
theorem C105_dopri5Interp (t0 t1 : ℝ) (d : RK.Dense 1 E) (t : ℝ) :
    dopri5Interp (affine a b t0) (affine a b t1) ((odeUnits 1 a b π ctrl).dense d) (affine a b t)
      = π (dopri5Interp t0 t1 d t) := by
  unfold dopri5Interp quartic LocalPoly.evaluate
  simp only [odeUnits, RK.units, stageList_map, headD_map, getLastD_map, tensordot_map, linearRescale_affine ha]
  rw [← polyval_map]
  simp [ratLinear]

/-- **C105.** The interpolation of `Tsit5` is the same in other units. -/
theorem C105_tsit5Interp (t0 t1 : ℝ) (d : RK.Dense 1 E) (t : ℝ) :
    tsit5Interp (affine a b t0) (affine a b t1) ((odeUnits 1 a b π ctrl).dense d) (affine a b t)
      = π (tsit5Interp t0 t1 d t) := by
  unfold tsit5Interp
  simp only [odeUnits, RK.units, linearRescale_affine ha, map_add]
  congr 1
  exact treeDot_map _ π _

/-- **C105.** The interpolation of `Dopri8` is the same in other units. -/
theorem C105_dopri8Interp (t0 t1 : ℝ) (d : RK.Dense 1 E) (t : ℝ) :
    dopri8Interp (affine a b t0) (affine a b t1) ((odeUnits 1 a b π ctrl).dense d) (affine a b t)
      = π (dopri8Interp t0 t1 d t) := by
  unfold dopri8Interp
  simp only [odeUnits, RK.units, linearRescale_affine ha, map_add]
  congr 1
  exact treeDot_map _ π _

end

/-! ### Step size controllers -/

section
variable {K Y Y' E E' : Type} [Field K] [LinearOrder K] [IsStrictOrderedRing K]

/-- The state of `ConstantStepSize` in the other unit. -/
def ConstState.inUnits (a b : K) (s : ConstState K) : ConstState K :=
  { s with t0 := affine a b s.t0, t1OrDt0 := if 0 ≤ s.numSteps then affine a b s.t1OrDt0 else a * s.t1OrDt0 }

/-- **C105.** `ConstantStepSize` starts with the same step in the other unit. Here `up` is the next larger floating point
number. -/
theorem C105_constant_init [FloorRing K] {a b : K} (ha : 0 < a) (up : K → K) (hup : ∀ x, up (a * x) = a * up x) (t0 : K)
    (t1 dt0 : Option K) (ht : ∀ t, t1 = some t → t0 ≤ t) (hdt : ∀ d, dt0 = some d → 0 < up d) :
    constInit up (affine a b t0) (t1.map (affine a b)) (dt0.map (a * ·))
      = (constInit up t0 t1 dt0).map fun x => (affine a b x.1, x.2.inUnits a b) := by
  cases dt0 with
  | none => rfl
  | some d =>
    have e0 : affine a b t0 + a * d = affine a b (t0 + d) := by unfold affine; ring
    cases t1 with
    | none =>
      simp only [constInit, Option.map_some, Option.map_none, ConstState.inUnits, e0]
      norm_num
    | some t =>
      have hd := hdt d rfl
      have e1 : (affine a b t - affine a b t0) / up (a * d) = (t - t0) / up d := by
        rw [hup]
        have : affine a b t - affine a b t0 = a * (t - t0) := by unfold affine; ring
        rw [this, mul_div_mul_left _ _ ha.ne']
      have hn : (0 : ℤ) ≤ ⌈(t - t0) / up d⌉ := Int.ceil_nonneg (div_nonneg (sub_nonneg.2 (ht t rfl)) hd.le)
      simp only [constInit, Option.map_some, ConstState.inUnits, e0, e1, hn, if_true]

example : constInit id (affine (1000 : ℚ) 5 0) (some (affine 1000 5 3)) (some (1000 * 2))
    = (constInit id (0 : ℚ) (some 3) (some 2)).map fun x => (affine 1000 5 x.1, x.2.inUnits 1000 5) :=
  C105_constant_init (by norm_num) id (fun _ => rfl) 0 (some 3) (some 2) (by simp) (by simp)

/-- **C105.** `ConstantStepSize` makes the same steps in the other unit. -/
theorem C105_constant [FloorRing K] {a b : K} (t0 t1 : K) (y0 y1 : Y) (y0' y1' : Y') (e : E) (e' : E') (s : ConstState K) :
    (constantStepSize : Controller K Y' E' _).adapt (affine a b t0) (affine a b t1) y0' y1' e' (s.inUnits a b)
      = let r := constantStepSize.adapt t0 t1 y0 y1 e s
        { keep := r.keep, tprev := affine a b r.tprev, tnext := affine a b r.tnext, madeJump := r.madeJump
          state := r.state.inUnits a b, result := r.result } := by
  show constAdapt (affine a b t1) (s.inUnits a b) = _
  show _ = ({ keep := (constAdapt t1 s).keep, tprev := affine a b (constAdapt t1 s).tprev
              tnext := affine a b (constAdapt t1 s).tnext, madeJump := (constAdapt t1 s).madeJump
              state := (constAdapt t1 s).state.inUnits a b, result := (constAdapt t1 s).result } : AdaptOut K (ConstState K))
  unfold constAdapt ConstState.inUnits
  by_cases h : 0 ≤ s.numSteps
  · simp only [h, if_true, AdaptOut.mk.injEq, true_and, and_true]
    split
    · rfl
    · unfold affine; ring
  · simp only [h, if_false, AdaptOut.mk.injEq, true_and, and_true]
    unfold affine; ring

end

section
variable {T T' Y Y' E E' C C' : Type} [LinearOrder T] [LinearOrder T']

/-- **C105.** `StepTo` makes the same steps in other units. -/
theorem C105_stepTo (f : T → T') (ts : List T) (dflt t0 t1 : T) (y0 y1 : Y) (y0' y1' : Y') (e : E) (e' : E') (i : ℕ) :
    (stepTo (ts.map f) (f dflt) : Controller T' Y' E' _).adapt (f t0) (f t1) y0' y1' e' i
      = let r := (stepTo ts dflt).adapt t0 t1 y0 y1 e i
        { keep := r.keep, tprev := f r.tprev, tnext := f r.tnext, madeJump := r.madeJump, state := r.state
          result := r.result } := by
  simp only [stepTo, List.length_map, List.getElem?_map, AdaptOut.mk.injEq, true_and, and_true]
  cases ts[min i (ts.length - 1)]? <;> rfl

/-- **C105.** `StepTo` accepts the same calls in other units, and starts with the same step. -/
theorem C105_stepTo_init {f : T → T'} (hf : StrictMono f) (ts : List T) (t0 t1 : T) (d : Bool) :
    stepToValid (ts.map f) = stepToValid ts ∧
    stepToInit (ts.map f) (f t0) (f t1) d = (stepToInit ts t0 t1 d).map fun x => (f x.1, x.2) := by
  constructor
  · unfold stepToValid
    rw [List.length_map, ← List.map_tail, List.zipWith_map]
    simp only [hf.lt_iff_lt]
  · unfold stepToInit
    have h1 : ∀ (o : Option T) (t : T), o.map f = some (f t) ↔ o = some t := by
      intro o t
      cases o <;> simp [hf.injective.eq_iff]
    simp only [List.head?_map, List.getLast?_map, List.getElem?_map, ne_eq, h1]
    split
    · rfl
    · split
      · rfl
      · cases ts[1]? <;> rfl

variable [SuccOrder T] [PredOrder T] [SuccOrder T'] [PredOrder T']

/-- The times of `ClipStepSizeController` in other units. -/
def Clip.inUnits (f : T → T') (c : Clip T) : Clip T' :=
  { stepTs := c.stepTs.map (·.map f), jumpTs := c.jumpTs.map (·.map f), storeRejected := c.storeRejected }

/-- Its state in other units. -/
def ClipState.inUnits (f : T → T') (g : C → C') (s : ClipState T C) : ClipState T' C' :=
  { stepIdx := s.stepIdx, jumpIdx := s.jumpIdx, rejIdx := s.rejIdx, rejTs := s.rejTs.map f, inner := g s.inner }

section
variable (f : T ≃o T')

theorem findUp_units (t : T) (ts : List T) (n i : ℕ) : findUp (f t) (ts.map f) n i = findUp t ts n i := by
  induction n generalizing i with
  | zero => rfl
  | succ n ih =>
    unfold findUp
    rw [List.getElem?_map]
    cases ts[i]? with
    | none => rfl
    | some x => simp only [Option.map_some, f.le_iff_le, ih]

theorem findDown_units (t : T) (ts : List T) (i : ℕ) : findDown (f t) (ts.map f) i = findDown t ts i := by
  induction i with
  | zero => rfl
  | succ i ih =>
    unfold findDown
    rw [List.getElem?_map]
    cases ts[i]? with
    | none => rfl
    | some x => simp only [Option.map_some, f.lt_iff_lt, ih]

theorem findIdx_units (t : T) (ts : List T) (i : ℕ) : findIdx (f t) (ts.map f) i = findIdx t ts i := by
  unfold findIdx
  rw [List.length_map, findUp_units, findDown_units]

theorem clipT_units (t : T) (x : Option T) (p : Bool) : clipT (f t) (x.map f) p = f (clipT t x p) := by
  cases x with
  | none => rfl
  | some x =>
    simp only [clipT, Option.map_some]
    rw [f.monotone.map_min, apply_ite f, f.map_pred]

theorem bumpT0_units (t : T) (ts : List T) : bumpT0 (f t) (ts.map f) = (f (bumpT0 t ts).1, (bumpT0 t ts).2) := by
  unfold bumpT0
  simp only [List.any_map, Function.comp_def, ← f.map_succ, f.injective.eq_iff, apply_ite f]

theorem getTR_units (i : ℤ) (ts : List T) : getTR i (ts.map f) = (getTR i ts).map f := by
  unfold getTR
  simp only [List.length_map, List.getElem?_map, apply_ite (Option.map f)]

theorem setTR_units (i : ℤ) (v : T) (ts : List T) : setTR i (f v) (ts.map f) = (setTR i v ts).map f := by
  unfold setTR
  simp only [List.length_map, apply_ite (List.map f), List.map_set]

theorem searchRight_units (t : T) (ts : List T) : searchRight (f t) (ts.map f) = searchRight t ts := by
  unfold searchRight
  simp only [List.countP_map, Function.comp_def, f.le_iff_le]

/-- **C105.** `ClipStepSizeController` starts with the same step in other units. -/
theorem C105_clip_init (c : Clip T) (t0 : T) (inner : T × C) (g : C → C') :
    (c.inUnits f).init (f t0) (f inner.1, g inner.2) = (f (c.init t0 inner).1, (c.init t0 inner).2.inUnits f g) := by
  unfold Clip.init Clip.inUnits ClipState.inUnits
  rcases c with ⟨_ | st, _ | jt, r⟩ <;>
    simp only [Option.map_none, Option.map_some, searchRight_units, getT, List.getElem?_map, clipT_units, List.map_replicate]

/-- **C105.** `ClipStepSizeController` makes the same steps in other units if the controller that it wraps does so. -/
theorem C105_clip (c : Clip T) (inner : Controller T Y E C) (inner' : Controller T' Y' E' C') (g : C → C') (t0 t1 : T)
    (y0 y1 : Y) (y0' y1' : Y') (e : E) (e' : E') (s : ClipState T C)
    (h : inner'.adapt (f t0) (f t1) y0' y1' e' (g s.inner)
      = let r := inner.adapt t0 t1 y0 y1 e s.inner
        { keep := r.keep, tprev := f r.tprev, tnext := f r.tnext, madeJump := r.madeJump, state := g r.state
          result := r.result }) :
    (clipController (c.inUnits f) inner').adapt (f t0) (f t1) y0' y1' e' (s.inUnits f g)
      = let r := (clipController c inner).adapt t0 t1 y0 y1 e s
        { keep := r.keep, tprev := f r.tprev, tnext := f r.tnext, madeJump := r.madeJump, state := r.state.inUnits f g
          result := r.result } := by
  show (c.inUnits f).adapt inner' (f t0) (f t1) y0' y1' e' (s.inUnits f g) = _
  have h' : inner'.adapt (f t0) (f t1) y0' y1' e' (s.inUnits f g).inner = _ := h
  unfold clipController Clip.adapt
  dsimp only at h' ⊢
  rw [h']
  generalize inner.adapt t0 t1 y0 y1 e s.inner = r
  have hs : ∀ i x y, (c.inUnits f).adaptStep i (f x) (f y) = ((c.adaptStep i x y).1, f (c.adaptStep i x y).2) := by
    intro i x y
    unfold Clip.adaptStep Clip.inUnits
    cases c.stepTs with
    | none => rfl
    | some ts => simp only [Option.map_some, bumpT0_units, findIdx_units, getT, List.getElem?_map, clipT_units]
  have hj : ∀ i x y b, (c.inUnits f).adaptJump i (f x) (f y) b
      = ((c.adaptJump i x y b).1, f (c.adaptJump i x y b).2.1, f (c.adaptJump i x y b).2.2.1, (c.adaptJump i x y b).2.2.2) := by
    intro i x y b
    unfold Clip.adaptJump Clip.inUnits
    cases c.jumpTs with
    | none => rfl
    | some ts =>
      simp only [Option.map_some, bumpT0_units, findIdx_units, getT, List.getElem?_map, ← f.map_succ, ← f.monotone.map_max,
        clipT_units]
  have hq : ∀ i ts x y k res, (c.inUnits f).adaptReject i (ts.map f) (f x) (f y) k res
      = ((c.adaptReject i ts x y k res).1, (c.adaptReject i ts x y k res).2.1.map f, f (c.adaptReject i ts x y k res).2.2.1,
         (c.adaptReject i ts x y k res).2.2.2) := by
    intro i ts x y k res
    unfold Clip.adaptReject Clip.inUnits
    cases c.storeRejected with
    | none => rfl
    | some n =>
      have h1 : ∀ o : Option T, (o.map f).any (fun r => decide (r < f x)) = o.any (fun r => decide (r < x)) := by
        intro o
        cases o <;> simp
      have h2 : ∀ o : Option T, o.map f = some (f x) ↔ o = some x := by
        intro o
        cases o <;> simp [f.injective.eq_iff]
      simp only [getTR_units, h1, h2, setTR_units, ← apply_ite (List.map f), clipT_units]
  simp only [hs, hj]
  have hq' : ∀ i x y k res, (c.inUnits f).adaptReject i (s.inUnits f g).rejTs (f x) (f y) k res = _ := fun i x y k res =>
    hq i s.rejTs x y k res
  simp only [hq']
  rfl

end

/-- Counting from another moment: times are integers here. -/
example (e : E) (y : Y) (s : ClipState ℤ ℕ) :
    let f : ℤ ≃o ℤ := OrderIso.addRight 5
    let c : Clip ℤ := { stepTs := some [3], jumpTs := some [7], storeRejected := some 4 }
    ((clipController (c.inUnits f) (stepTo [5, 15] 5)).adapt 5 15 y y e (s.inUnits f id)).tnext
      = ((clipController c (stepTo [0, 10] 0)).adapt 0 10 y y e s).tnext + 5 := by
  intro f c
  have := C105_clip f c (stepTo [0, 10] 0) (stepTo [5, 15] 5) id 0 10 y y y y e e s
    (C105_stepTo f [0, 10] 0 0 10 y y y y e e s.inner)
  exact congrArg AdaptOut.tnext this

end

section
variable {K Y Y' E E' : Type} [Field K] [LinearOrder K] [IsStrictOrderedRing K]

/-- A difference of times in the other unit. -/
def XVal.stretch (a : K) : XVal K → XVal K
  | .fin x => .fin (a * x)
  | x => x

/-- A time in the other unit. -/
def XVal.affine (a b : K) : XVal K → XVal K
  | .fin x => .fin (Verif.affine a b x)
  | x => x

/-- `PIDController` with its smallest and largest steps in the other unit. -/
def Pid.inUnits (a : K) (p : Pid K) : Pid K := { p with dtmin := p.dtmin.map (a * ·), dtmax := p.dtmax.map (a * ·) }

variable {a b : K} (ha : 0 < a)
include ha

theorem XVal.lt_stretch (x y : XVal K) : (x.stretch a).lt (y.stretch a) = x.lt y := by
  cases x <;> cases y <;> simp [XVal.stretch, XVal.lt, mul_lt_mul_iff_right₀ ha]

theorem XVal.le_stretch (x y : XVal K) : (x.stretch a).le (y.stretch a) = x.le y := by
  cases x <;> cases y <;> simp [XVal.stretch, XVal.le, mul_le_mul_iff_right₀ ha]

theorem XVal.min_stretch (x y : XVal K) : XVal.min (x.stretch a) (y.stretch a) = (XVal.min x y).stretch a := by
  cases x <;> cases y <;> simp [XVal.stretch, XVal.min, XVal.lt, mul_lt_mul_iff_right₀ ha] <;> split <;> rfl

theorem XVal.max_stretch (x y : XVal K) : XVal.max (x.stretch a) (y.stretch a) = (XVal.max x y).stretch a := by
  cases x <;> cases y <;> simp [XVal.stretch, XVal.max, XVal.lt, mul_lt_mul_iff_right₀ ha] <;> split <;> rfl

theorem XVal.mul_stretch (x : K) (y : XVal K) : (XVal.fin (a * x)).mul y = ((XVal.fin x).mul y).stretch a := by
  have h : signInf (a * x) = signInf x := by
    simp [signInf, ha.ne', mul_pos_iff_of_pos_left ha]
  have h' : signInf (-(a * x)) = signInf (-x) := by
    have : a * x < 0 ↔ x < 0 := 
      ⟨fun h => by_contra fun hx => absurd h (not_lt.2 (mul_nonneg ha.le (not_lt.1 hx))), mul_neg_of_pos_of_neg ha⟩
    simp [signInf, ha.ne', this]
  cases y <;> simp [XVal.mul, XVal.stretch, mul_assoc, h, h'] <;> unfold signInf <;> split_ifs <;> rfl

omit ha [LinearOrder K] [IsStrictOrderedRing K] in
theorem XVal.add_stretch (t : K) (x : XVal K) :
    (XVal.fin (Verif.affine a b t)).add (x.stretch a) = ((XVal.fin t).add x).affine a b := by
  cases x <;> simp [XVal.add, XVal.stretch, XVal.affine, Verif.affine]
  ring

/-- **C105.** `PIDController` starts with the same step in the other unit, if `dt0` is given. -/
theorem C105_pid_init (p : Pid K) (t0 : K) (dt0 : XVal K) :
    (p.inUnits a).init (.fin (affine a b t0)) (dt0.stretch a)
      = ((p.init (.fin t0) dt0).1.affine a b, (p.init (.fin t0) dt0).2) := by
  have hm : ∀ m : K, XVal.fin (a * m) = (XVal.fin m).stretch a := fun _ => rfl
  unfold Pid.init Pid.inUnits
  cases p.dtmax <;> cases p.dtmin <;>
    simp only [Option.map_none, Option.map_some, hm, XVal.min_stretch ha, XVal.max_stretch ha, XVal.add_stretch]

/-- **C105.** `PIDController` makes the same steps in the other unit, if the scaled error is the same: it is if the unit of the
state is the same, as the error estimates are. -/
theorem C105_pid (p : Pid K) (scaled : Y → Y → E → XVal K) (scaled' : Y' → Y' → E' → XVal K) (t0 t1 : K) (y0 y1 : Y)
    (y0' y1' : Y') (e : E) (e' : E') (h : scaled' y0' y1' e' = scaled y0 y1 e) (s : PidState K) :
    (pidWith (p.inUnits a) scaled').adapt (affine a b t0) (affine a b t1) y0' y1' e' s
      = let r := (pidWith p scaled).adapt t0 t1 y0 y1 e s
        { keep := r.keep, tprev := affine a b r.tprev, tnext := affine a b r.tnext, madeJump := r.madeJump, state := r.state
          result := r.result } := by
  have hm : ∀ m : K, XVal.fin (a * m) = (XVal.fin m).stretch a := fun _ => rfl
  have hk : ∀ x at', (p.inUnits a).keep x at' = p.keep x at' := by
    intro x at'
    unfold Pid.keep Pid.inUnits
    cases p.dtmin <;> rfl
  have hfac : ∀ x k st, (p.inUnits a).factor x k st = p.factor x k st := fun _ _ _ => rfl
  have hsub : XVal.sub (.fin (affine a b t1)) (.fin (affine a b t0)) = XVal.fin (a * (t1 - t0)) := by
    simp only [XVal.sub, XVal.neg, XVal.add, affine]
    congr 1
    ring
  have hsub' : XVal.sub (.fin t1) (.fin t0) = XVal.fin (t1 - t0) := by
    simp only [XVal.sub, XVal.neg, XVal.add]
    congr 1
    ring
  have htok : ∀ (x : XVal K) d, (x.affine a b).toK (affine a b d) = affine a b (x.toK d) := by
    intro x d
    cases x <;> rfl
  have key : ∀ x : XVal K, (p.inUnits a).adaptScaled (.fin (affine a b t0)) (.fin (affine a b t1)) x s
      = { keep := (p.adaptScaled (.fin t0) (.fin t1) x s).keep, t0 := (p.adaptScaled (.fin t0) (.fin t1) x s).t0.affine a b
          t1 := (p.adaptScaled (.fin t0) (.fin t1) x s).t1.affine a b, state := (p.adaptScaled (.fin t0) (.fin t1) x s).state
          result := (p.adaptScaled (.fin t0) (.fin t1) x s).result } := by
    intro x
    unfold Pid.adaptScaled
    simp only [hk, hfac, hsub, hsub', XVal.mul_stretch ha]
    have hn : (if p.keep x s.atDtmin = true then XVal.fin (affine a b t1) else .fin (affine a b t0))
        = .fin (affine a b (if p.keep x s.atDtmin = true then t1 else t0)) := by split <;> rfl
    have hn' : (if p.keep x s.atDtmin = true then XVal.fin t1 else .fin t0)
        = .fin (if p.keep x s.atDtmin = true then t1 else t0) := by split <;> rfl
    simp only [hn, hn']
    unfold Pid.inUnits
    cases p.dtmax <;> cases p.dtmin <;>
      simp only [Option.map_none, Option.map_some, hm, XVal.min_stretch ha, ← apply_ite (XVal.stretch a), XVal.max_stretch ha,
        XVal.add_stretch, XVal.lt_stretch ha, XVal.le_stretch ha] <;> rfl
  unfold pidWith
  dsimp only
  rw [h, key]
  simp only [htok]

end

/-! ### The first step without `dt0` -/

section
variable {K : Type} [Field K] [LinearOrder K]

omit [LinearOrder K] in
theorem XVal.add_shift (t b : K) (x : XVal K) : (XVal.fin (t + b)).add x = ((XVal.fin t).add x).affine 1 b := by
  cases x <;> simp [XVal.add, XVal.affine, Verif.affine]
  ring

/-- **C105.** Without `dt0`, the first step of `PIDController` does not depend on the moment from which time is counted. -/
theorem C105_first_step_origin (p : Pid K) (f g : XVal K → XTree K → XTree K) (b : K)
    (hfg : ∀ t y, g (t.affine 1 b) y = f t y) (t0 : K) (y0 : XTree K) :
    p.selectInitialStep g (.fin (t0 + b)) y0 = p.selectInitialStep f (.fin t0) y0 := by
  have h0 : ∀ y, g (.fin (t0 + b)) y = f (.fin t0) y := by
    intro y
    rw [← hfg]
    simp [XVal.affine, Verif.affine]
  unfold Pid.selectInitialStep
  simp only [h0, XVal.add_shift, hfg]

/-- A `PIDController` for a method of order 2, with `rtol=1` and `atol=0`. -/
def unitsPid (rpow : ℚ → ℚ → ℚ) : Pid ℚ :=
  { rtol := 1, atol := 0, norm := linf, rpow := rpow, pcoeff := 0, icoeff := 1, dcoeff := 0, dtmin := none, dtmax := none
    forceDtmin := true, factormin := 1 / 5, factormax := 10, safety := 9 / 10, order := 2 }

/-- The equation `dy/dt = k y`. -/
def growth (k : ℚ) (_ : XVal ℚ) (y : XTree ℚ) : XTree ℚ := y.map (·.map fun x => (XVal.fin k).mul x)

/-- **C105.** Without `dt0`, the first step does depend on the unit of time. For `dy/dt = y` it is `0.1`. In a unit of which there
are `10000` to one, in which the equation reads `dy/dt = 0.0001 y`, it is `10` instead of `1000`. -/
theorem C105_violated (rpow : ℚ → ℚ → ℚ) (h1 : rpow (1 / 100) (1 / 2) = 1 / 10) (h2 : rpow 100 (1 / 2) = 10) :
    (unitsPid rpow).selectInitialStep (growth 1) (.fin 0) [[.fin 1]] = .fin (1 / 10) ∧
    (unitsPid rpow).selectInitialStep (growth (1 / 10000)) (.fin 0) [[.fin 1]] = .fin 10 := by
  constructor
  · norm_num [Pid.selectInitialStep, unitsPid, growth, linf, XTree.map₂, XVal.add, XVal.mul, XVal.div, XVal.abs, XVal.max,
      XVal.lt, XVal.le, XVal.min, XVal.sub, XVal.neg, XVal.pow]
    norm_num at h1
    norm_num [h1]
  · norm_num [Pid.selectInitialStep, unitsPid, growth, linf, XTree.map₂, XVal.add, XVal.mul, XVal.div, XVal.abs, XVal.max,
      XVal.lt, XVal.le, XVal.min, XVal.sub, XVal.neg, XVal.pow]
    norm_num at h2
    norm_num [h2]

/-- There is such a power function. -/
example : ∃ rpow : ℚ → ℚ → ℚ, rpow (1 / 100) (1 / 2) = 1 / 10 ∧ rpow 100 (1 / 2) = 10 :=
  ⟨fun x _ => if x = 100 then 10 else 1 / 10, by norm_num, by norm_num⟩

end

/-! ### Solves with PIDController -/

section
variable {E : Type} [AddCommGroup E] [Module ℝ E] [Module ℚ E]

/-- An equation solved with `PIDController`, everything being saved. -/
noncomputable def unitsCfg (sv : Solver ℝ E (Option E) (RK.Dense 1 E) (RK.State 1 E)) (p : Pid ℝ)
    (scaled : E → E → Option E → XVal ℝ) (t0 t1 : ℝ) (ts : List ℝ) (events : List (EventCond ℝ E ℝ)) (n : ℕ) :
    Cfg ℝ E (Option E) (RK.Dense 1 E) (RK.State 1 E) (PidState ℝ) E ℝ where
  t0 := t0
  t1 := t1
  solver := sv
  controller := pidWith p scaled
  cleanErr := id
  maxSteps := n
  floor := t1
  mid := fun a b => a + (b - a) / 2
  dist := fun a b => a - b
  dummyDense := { y0 := 0, y1 := 0, ks := fun _ _ => 0 }
  subs := [{ t0 := true, t1 := true, ts := ts, steps := 1, fn := fun _ y => y }]
  dense := true
  events := events
  rootFinder := none

/-- A root finder that looks at the function and the guess only in a way that does not depend on units: one step of the fixed point
iteration. -/
def oneIteration (E : Type) [Sub E] : RootFinder E Unit where
  init _ _ _ := ()
  find _ g x _ := (x - g x, .successful)

theorem oneIteration_same {E E' : Type} [AddCommGroup E] [AddCommGroup E'] [Module ℚ E] [Module ℚ E'] (f : E →ₗ[ℚ] E') :
    (oneIteration E).Same f id (oneIteration E') where
  init _ _ _ _ _ := rfl
  find _ g g' x _ h := by
    show (f x - g' (f x), _) = (f (x - g x), _)
    rw [h, map_sub]
    rfl

/-- **C105.** `PIDController` with a given `dt0` and a Runge-Kutta solver: if the equation, the region of integration, the times at
which to save, the events, `dt0`, `dtmin` and `dtmax` are converted to the other unit of time, then all values that are
returned are the same ones, at the converted times. -/
theorem C105_pid_solve {a b : ℝ} (ha : 0 < a) (tab : Fin 1 → Tableau ℚ) (f g : Fin 1 → ℝ → E → E)
    (hfg : ∀ p t y, g p (affine a b t) y = a⁻¹ • f p t y) (cj : CalcJac) (rF rK rF' : RootFinder E Unit)
    (hF : rF.Same (ratLinear (a⁻¹ • (LinearMap.id : E →ₗ[ℝ] E))) id rF')
    (hK : rK.Same (ratLinear (LinearMap.id : E →ₗ[ℝ] E)) id rK)
    (interp : ℝ → ℝ → RK.Dense 1 E → ℝ → E)
    (hint : ∀ s t d r, interp (affine a b s) (affine a b t) d (affine a b r) = interp s t d r) (p : Pid ℝ)
    (scaled : E → E → Option E → XVal ℝ) (t0 t1 : ℝ) (ts : List ℝ) (events events' : List (EventCond ℝ E ℝ))
    (hev : events = events'.map (·.fromUnits (affine a b) id)) (n : ℕ) (y0 : E) (dt0 : ℝ) :
    let u : Units ℝ ℝ E E (Option E) (Option E) (RK.Dense 1 E) (RK.Dense 1 E) (RK.State 1 E) (RK.State 1 E) (PidState ℝ)
        (PidState ℝ) := odeUnits 1 a b LinearMap.id id
    let rk := odeRK tab f cj rF rK ()
    let rk' := odeRK tab g cj rF' rK ()
    solve (unitsCfg (rk'.solver interp) (p.inUnits a) scaled (affine a b t0) (affine a b t1) (ts.map (affine a b)) events' n) y0
        (affine a b t0 + a * dt0) .fresh rk'.init false
      = (solve (unitsCfg (rk.solver interp) p scaled t0 t1 ts events n) y0 (t0 + dt0) .fresh rk.init false).inUnits u := by
  intro u rk rk'
  have hr := C105_rk ha tab (LinearMap.id : E →ₗ[ℝ] E) f g hfg cj id rF rK () rF' rK hF hK (id : PidState ℝ → PidState ℝ)
    interp interp (fun s t d r => hint s t d r)
  have hsame : Cfg.Same u (a * ·) (unitsCfg (rk.solver interp) p scaled t0 t1 ts events n)
      (unitsCfg (rk'.solver interp) (p.inUnits a) scaled (affine a b t0) (affine a b t1) (ts.map (affine a b)) events' n) :=
    { solver := hr.1
      adapt := fun s t y0 y1 e c => by
        have he : (u.err e) = e := by cases e <;> rfl
        show (pidWith (p.inUnits a) scaled).adapt (affine a b s) (affine a b t) y0 y1 (u.err e) c = _
        rw [he]
        exact C105_pid ha p scaled scaled s t y0 y1 y0 y1 e e rfl c
      stepTo := rfl
      events := hev
      subs := List.Forall₂.cons { t0 := rfl, t1 := rfl, ts := rfl, steps := rfl, fn := fun _ _ => rfl } List.Forall₂.nil
      rootFinder := Option.Rel.none
      dist := fun s t => by
        show a * s + b - (a * t + b) = a * (s - t)
        ring
      dummy := rfl
      t0 := rfl
      t1 := rfl
      floor := rfl
      mid := fun s t => by
        show a * s + b + (a * t + b - (a * s + b)) / 2 = a * (s + (t - s) / 2) + b
        ring
      dense := rfl
      maxSteps := rfl }
  have e : affine a b t0 + a * dt0 = affine a b (t0 + dt0) := by unfold affine; ring
  rw [e]
  have := (C105_solve (affine_strictMono (b := b) ha) hsame y0 (t0 + dt0) .fresh rk.init false).1
  rw [← this, hr.2]
  rfl

/-- `Tsit5` and `Kvaerno3` in milliseconds. -/
example (p : Pid ℝ) (scaled : E → E → Option E → XVal ℝ) (f : ℝ → E → E) (t0 t1 : ℝ) (ts : List ℝ) (n : ℕ) (y0 : E) (dt0 : ℝ)
    (tab : Tableau ℚ) (_ : tab = Tsit5.tableau ∨ tab = Kvaerno3.tableau) :
    (solve (unitsCfg ((odeRK ![tab] (fun _ t y => (1000 : ℝ)⁻¹ • f (t / 1000) y) .everyStage (oneIteration E) (oneIteration E)
        ()).solver tsit5Interp) (p.inUnits 1000) scaled (1000 * t0) (1000 * t1) (ts.map (1000 * ·)) [] n) y0
        (1000 * t0 + 1000 * dt0) .fresh (odeRK ![tab] (fun _ t y => (1000 : ℝ)⁻¹ • f (t / 1000) y) .everyStage (oneIteration E)
        (oneIteration E) ()).init false).yfinal
      = (solve (unitsCfg ((odeRK ![tab] (fun _ => f) .everyStage (oneIteration E) (oneIteration E) ()).solver tsit5Interp) p scaled
        t0 t1 ts [] n) y0 (t0 + dt0) .fresh (odeRK ![tab] (fun _ => f) .everyStage (oneIteration E) (oneIteration E) ()).init
        false).yfinal := by
  have := C105_pid_solve (a := 1000) (b := 0) (by norm_num) ![tab] (fun _ => f) (fun _ t y => (1000 : ℝ)⁻¹ • f (t / 1000) y)
    (by intro p t y; simp [affine]) .everyStage (oneIteration E) (oneIteration E) (oneIteration E) (oneIteration_same _)
    (oneIteration_same _) tsit5Interp
    (fun s t d r => C105_tsit5Interp (by norm_num) LinearMap.id (id : Unit → Unit) s t d r) p scaled t0 t1 ts [] [] rfl n y0 dt0
  have e : affine (1000 : ℝ) 0 = fun t => 1000 * t := funext fun t => add_zero _
  simp only [e] at this
  have := congrArg Output.yfinal this
  exact this

end

end Verif
