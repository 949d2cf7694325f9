import Verif.Spec.Subsystem
import Verif.Lemmas.Log
import Verif.Lemmas.RK
import Mathlib.Algebra.Module.LinearMap.Defs
import Mathlib.Algebra.Module.BigOperators

/-!
# Part of a system: the loop and Runge-Kutta steps
-/

set_option linter.unusedSectionVars false

namespace Verif

section
variable {T Y Y' E E' D D' S S' C O F : Type} [LinearOrder T] [LinearOrder F] [Zero F]

def StepInfo.part (π : Part Y Y' E E' D D' S S') (i : StepInfo T Y D) : StepInfo T Y' D' :=
  { t0 := i.t0, t1 := i.t1, keep := i.keep, tprev := i.tprev, y := π.y i.y, dense := π.dense i.dense
    numAccepted := i.numAccepted }

def LState.part (π : Part Y Y' E E' D D' S S') (s : LState T Y D S C O F) : LState T Y' D' S' C O F :=
  { core := s.core.part π, saves := s.saves, dense := s.dense.part π }

variable {π : Part Y Y' E E' D D' S S'} {cfg : Cfg T Y E D S C O F} {cfg' : Cfg T Y' E' D' S' C O F}

theorem EventCond.onWhole_value (f : Y → Y') (e : EventCond T Y' F) (t : T) (y : Y) :
    (e.onWhole f).value t y = e.value t (f y) := by cases e <;> rfl

theorem EventCond.onWhole_triggers (f : Y → Y') (e : EventCond T Y' F) (old : EventVal F) (t : T) (y : Y) :
    (e.onWhole f).triggers old t y = e.triggers old t (f y) := by
  rcases e with c | ⟨c, _ | _ | _⟩ <;> cases old <;> rfl

theorem EventCond.onWhole_initMask (f : Y → Y') (e : EventCond T Y' F) (t : T) (y : Y) :
    (e.onWhole f).initMask t y = e.initMask t (f y) := by cases e <;> rfl

theorem coreBody_part (h : cfg.IsPart π cfg') (s : Core T Y D S C F) :
    coreBody cfg' (s.part π) = ((coreBody cfg s).1.part π, (coreBody cfg s).2.part π) := by
  have hs := h.solver.step s.tprev s.tnext s.y s.solverState s.madeJump
  have ha := h.adapt s.tprev s.tnext s.y (cfg.solver.step s.tprev s.tnext s.y s.solverState s.madeJump).y
    (cfg.solver.step s.tprev s.tnext s.y s.solverState s.madeJump).err s.ctrlState
  have e1 : ∀ t (y : Y), cfg.events.map (fun e => e.value t y) = cfg'.events.map (fun e => e.value t (π.y y)) := by
    intro t y
    rw [h.events, List.map_map]
    exact List.map_congr_left fun e _ => EventCond.onWhole_value _ _ _ _
  have e2 : ∀ t (y : Y), List.zipWith (fun e old => e.triggers old t y) cfg.events s.evVals
      = List.zipWith (fun e old => e.triggers old t (π.y y)) cfg'.events s.evVals := by
    intro t y
    rw [h.events, List.zipWith_map_left]
    simp only [EventCond.onWhole_triggers]
  unfold coreBody
  simp only [Core.part, hs, StepOut.part, ha, e1, e2, h.t1, h.floor, h.mid, StepInfo.part]
  simp only [apply_ite π.y, apply_ite π.state]

theorem condFun_part (h : cfg.IsPart π cfg') (s : Core T Y D S C F) : condFun cfg' (s.part π) = condFun cfg s := by
  unfold condFun
  rw [h.stepTo, h.t1]
  rfl

theorem saveTsLoop_part (sub : SubSaveAt T Y' O) (f : Y → Y') (ip : T → Y) (keep : Bool) (tnext : T) (n : ℕ)
    (s : SaveState T O) :
    saveTsLoop (sub.onWhole f) ip keep tnext n s = saveTsLoop sub (fun t => f (ip t)) keep tnext n s := by
  induction n generalizing s with
  | zero => rfl
  | succ n ih =>
    unfold saveTsLoop
    simp only [SubSaveAt.onWhole] at ih ⊢
    split
    · split
      · exact ih _
      · rfl
    · rfl

theorem body_part (h : cfg.IsPart π cfg') (s : LState T Y D S C O F) :
    body cfg' (s.part π) = (body cfg s).part π := by
  unfold body
  have hc := coreBody_part h s.core
  have hc' : coreBody cfg' (s.part π).core = _ := hc
  rw [hc']
  simp only [LState.part, h.subs, List.zipWith_map_left, h.dense]
  congr 1
  · congr 1
    funext sub sv
    have e : saveTs cfg (sub.onWhole π.y) (coreBody cfg s.core).2 sv
        = saveTs cfg' sub ((coreBody cfg s.core).2.part π) sv := by
      unfold saveTs
      rw [saveTsLoop_part]
      simp only [StepInfo.part]
      congr 1
      funext t
      exact (h.solver.interp _ _ _ _).symm
    rw [e]
    rfl
  · unfold saveDense
    simp only [StepInfo.part, DenseState.part]
    by_cases hb : (cfg.dense && (coreBody cfg s.core).2.keep) = true
    · simp only [if_pos hb, List.map_set, Option.map_some]
      exact if_pos hb
    · simp only [if_neg hb]
      exact if_neg hb

theorem whileLoop_part (h : cfg.IsPart π cfg') (n : ℕ) (s : LState T Y D S C O F) :
    whileLoop cfg' n (s.part π) = (whileLoop cfg n s).part π := by
  induction n generalizing s with
  | zero => rfl
  | succ n ih =>
    unfold whileLoop
    have : condFun cfg' (s.part π).core = condFun cfg s.core := condFun_part h s.core
    rw [this, body_part h, ih]
    split <;> rfl

theorem attempts_part (h : cfg.IsPart π cfg') (n : ℕ) (s : Core T Y D S C F) :
    attempts cfg' n (s.part π) = (attempts cfg n s).map (·.part π) := by
  induction n generalizing s with
  | zero => rfl
  | succ n ih =>
    unfold attempts
    rw [condFun_part h, coreBody_part h, ih]
    split <;> rfl

theorem initState_part (h : cfg.IsPart π cfg') (y0 : Y) (tnext : T) (ctrl : C) (ss : S) (mj : Bool) :
    initState cfg' (π.y y0) tnext ctrl (π.state ss) mj = (initState cfg y0 tnext ctrl ss mj).part π := by
  unfold initState
  have e1 : ∀ t (y : Y), cfg.events.map (fun e => e.value t y) = cfg'.events.map (fun e => e.value t (π.y y)) := by
    intro t y
    rw [h.events, List.map_map]
    exact List.map_congr_left fun e _ => EventCond.onWhole_value _ _ _ _
  have e2 : ∀ t (y : Y), cfg.events.map (fun e => e.initMask t y) = cfg'.events.map (fun e => e.initMask t (π.y y)) := by
    intro t y
    rw [h.events, List.map_map]
    exact List.map_congr_left fun e _ => EventCond.onWhole_initMask _ _ _ _
  simp only [e1, e2, h.t0, h.t1, h.dummy, h.maxSteps, h.dense, LState.part, Core.part]
  congr 1
  · rw [h.subs, List.map_map]
    rfl
  · cases cfg.dense <;> simp [DenseState.part]

theorem finalise_part (h : cfg.IsPart π cfg') (s : Core T Y D S C F) :
    finalise cfg' (s.part π) = ((finalise cfg s).1, π.y (finalise cfg s).2.1, (finalise cfg s).2.2) := by
  unfold finalise
  rw [h.rootFinder]
  cases cfg.rootFinder with
  | none => rfl
  | some find =>
    have e : ∀ b, toRootFind cfg' (s.part π) b = toRootFind cfg s b := by
      intro b
      funext t
      unfold toRootFind
      rw [h.events, List.zipWith_map_right]
      simp only [Core.part, h.dist, h.solver.interp]
      congr 1
      funext m e
      cases e <;> rfl
    simp only [e]
    simp only [Core.part, h.solver.interp]
    split
    · simp only [apply_ite π.y]
    · rfl

/-- The output of the part is the part of the output. -/
theorem solve_part (h : cfg.IsPart π cfg') (y0 : Y) (tnext : T) (ctrl : C) (ss : S) (mj : Bool) :
    solve cfg' (π.y y0) tnext ctrl (π.state ss) mj = (solve cfg y0 tnext ctrl ss mj).part π := by
  unfold solve
  rw [initState_part h]
  generalize initState cfg y0 tnext ctrl ss mj = s
  unfold loop
  have hinit : ∀ (sv : List (SaveState T O)), List.zipWith (fun sub sv => saveT0 cfg' (s.part π).core.y sub sv) cfg'.subs sv
      = List.zipWith (fun sub sv => saveT0 cfg s.core.y sub sv) cfg.subs sv := by
    intro sv
    rw [h.subs, List.zipWith_map_left]
    simp only [saveT0, h.t0, LState.part, Core.part, SubSaveAt.onWhole, save]
  have hd : (if cfg'.dense then { (s.part π).dense with ts := (s.part π).dense.ts.set 0 (some cfg'.t0) } else (s.part π).dense)
      = (if cfg.dense then { s.dense with ts := s.dense.ts.set 0 (some cfg.t0) } else s.dense).part π := by
    rw [h.dense, h.t0]
    cases cfg.dense <;> rfl
  have e0 : ({ s.part π with
        saves := List.zipWith (fun sub sv => saveT0 cfg' (s.part π).core.y sub sv) cfg'.subs (s.part π).saves
        dense := if cfg'.dense then { (s.part π).dense with ts := (s.part π).dense.ts.set 0 (some cfg'.t0) }
          else (s.part π).dense } : LState T Y' D' S' C O F)
      = ({ s with
        saves := List.zipWith (fun sub sv => saveT0 cfg s.core.y sub sv) cfg.subs s.saves
        dense := if cfg.dense then { s.dense with ts := s.dense.ts.set 0 (some cfg.t0) } else s.dense } :
          LState T Y D S C O F).part π := by
    rw [hinit, hd]
    rfl
  dsimp only
  rw [e0, h.maxSteps, whileLoop_part h]
  generalize whileLoop cfg cfg.maxSteps _ = fin
  have hf : finalise cfg' (fin.part π).core = _ := finalise_part h fin.core
  have hcond : condFun cfg' (fin.part π).core = condFun cfg fin.core := condFun_part h fin.core
  rw [hf, hcond]
  simp only [Output.part, LState.part, h.rootFinder]
  congr 1
  rw [h.subs, List.zipWith_map_left]
  simp only [saveT1, saveIfT0EqT1, SubSaveAt.onWhole, h.t0, h.t1, h.rootFinder, save, Core.part]
  rfl

theorem history_part (h : cfg.IsPart π cfg') (y0 : Y) (tnext : T) (ctrl : C) (ss : S) (mj : Bool) :
    history cfg' (π.y y0) tnext ctrl (π.state ss) mj = (history cfg y0 tnext ctrl ss mj).map (·.part π) := by
  unfold history
  rw [initState_part h, h.maxSteps]
  exact attempts_part h _ _

end

section
variable {m : ℕ} {T K Y Y' VF VF' Ct J J' : Type} [Field K] [DecidableEq K] [AddCommGroup Y] [Module K Y] [AddCommGroup VF]
  [Module K VF] [AddCommGroup Y'] [Module K Y'] [AddCommGroup VF'] [Module K VF']
  {rk : RK m T K Y VF Ct J} {rk' : RK m T K Y' VF' Ct J'} {π : Y →ₗ[K] Y'} {ρ : VF →ₗ[K] VF'}

theorem treeDot_part (a : List K) (f : Y →ₗ[K] Y') (buf : ℕ → Y) : treeDot a (fun i => f (buf i)) = f (treeDot a buf) := by
  unfold treeDot
  rw [map_sum]
  exact Finset.sum_congr rfl fun j _ => (map_smul f _ _).symm

/-- Two explicit Runge-Kutta methods with the same tableaus, for an equation and a part of it. -/
structure RK.IsPart (rk : RK m T K Y VF Ct J) (rk' : RK m T K Y' VF' Ct J') (π : Y →ₗ[K] Y') (ρ : VF →ₗ[K] VF') : Prop where
  tab : rk'.tab = rk.tab
  explicit : ∀ p, (rk.tab p).implicit = false
  at' : rk'.at' = rk.at'
  expensive : ∀ p, (rk'.term p).vfExpensive = (rk.term p).vfExpensive
  contr : ∀ p, (rk'.term p).contr = (rk.term p).contr
  vf : ∀ p t y, (rk'.term p).vf t (π y) = ρ ((rk.term p).vf t y)
  prod : ∀ p v c, (rk'.term p).prod (ρ v) c = π ((rk.term p).prod v c)
  vfProd : ∀ p t y c, (rk'.term p).vfProd t (π y) c = π ((rk.term p).vfProd t y c)

namespace RK
variable (h : rk.IsPart rk' π ρ)
include h

theorem IsPart.implicitPart : rk.implicitPart = none := by
  unfold RK.implicitPart
  rw [List.find?_eq_none]
  intro p _
  simp [h.explicit p]

theorem IsPart.implicitPart' : rk'.implicitPart = none := by
  unfold RK.implicitPart
  rw [List.find?_eq_none, h.tab]
  intro p _
  simp [h.explicit p]

theorem IsPart.numStages : rk'.numStages = rk.numStages := by unfold RK.numStages; rw [h.tab]

theorem IsPart.vfExpensive : rk'.vfExpensive = rk.vfExpensive := by
  unfold RK.vfExpensive; simp only [h.expensive]

theorem IsPart.fsal : rk'.fsal = rk.fsal := by unfold RK.fsal; rw [h.tab, h.vfExpensive]

theorem IsPart.evalFs : rk'.evalFs = rk.evalFs := by unfold RK.evalFs; rw [h.fsal, h.vfExpensive]

theorem IsPart.storeFs : rk.storeFs = false := by unfold RK.storeFs; simp [h.implicitPart]

theorem IsPart.storeFs' : rk'.storeFs = false := by unfold RK.storeFs; simp [h.implicitPart']

theorem IsPart.timeAt (t0 t1 : T) (c : K) : rk'.timeAt t0 t1 c = rk.timeAt t0 t1 c := by
  unfold RK.timeAt; rw [h.at']

theorem IsPart.control (t0 t1 : T) (p : Fin m) : rk'.control t0 t1 p = rk.control t0 t1 p := by
  unfold RK.control; rw [h.contr]

theorem IsPart.prods (t0 t1 : T) (f : Fin m → VF) (p : Fin m) :
    rk'.prods t0 t1 (fun p => ρ (f p)) p = π (rk.prods t0 t1 f p) := by
  unfold RK.prods; rw [h.prod, h.control]

omit h in
/-- The part of a stage. -/
def stagePart (rk' : RK m T K Y' VF' Ct J') (π : Y →ₗ[K] Y') (ρ : VF →ₗ[K] VF') (s : StageState m Y VF J) :
    StageState m Y' VF' J' :=
  { idx := s.idx, yi := π s.yi, f1 := fun p => ρ (s.f1 p), jac := rk'.noJac, fs := fun p i => ρ (s.fs p i)
    ks := fun p i => π (s.ks p i), result := s.result }

theorem IsPart.partialY (t0 t1 : T) (y0 : Y) (s : StageState m Y VF J) :
    rk'.partialY t0 t1 (π y0) (stagePart rk' π ρ s) = π (rk.partialY t0 t1 y0 s) := by
  unfold RK.partialY
  simp only [h.storeFs, h.storeFs', Bool.false_eq_true, if_false, map_add, map_sum, h.tab, h.numStages, stagePart, treeDot_part]

omit h in
theorem update_part {V V' : Type} (f : V → V') (g : ℕ → V) (i : ℕ) (v : V) :
    (fun j => f (Function.update g i v j)) = Function.update (fun j => f (g j)) i (f v) := by
  funext j
  by_cases hj : j = i
  · subst hj; simp
  · simp [Function.update_of_ne hj]

theorem IsPart.stage (t0 t1 : T) (y0 : Y) (s : StageState m Y VF J) :
    rk'.stage t0 t1 (π y0) (stagePart rk' π ρ s) = stagePart rk' π ρ (rk.stage t0 t1 y0 s) := by
  unfold RK.stage
  simp only [h.implicitPart, h.implicitPart', h.partialY]
  unfold RK.stageEnd
  have hp : ∀ f : Fin m → VF, rk'.prods t0 t1 (fun p => ρ (f p)) = fun p => π (rk.prods t0 t1 f p) := fun f =>
    funext fun p => h.prods t0 t1 f p
  simp only [h.tab, h.explicit, h.storeFs, h.storeFs', Bool.false_eq_true, if_false, h.evalFs, h.fsal, h.timeAt, h.control,
    h.vf, h.vfProd, hp, stagePart]
  congr 1
  · split <;> rfl
  · funext p
    rw [update_part]
    split <;> rfl

theorem IsPart.stages (t0 t1 : T) (y0 : Y) (n : ℕ) (s : StageState m Y VF J) :
    rk'.stages t0 t1 (π y0) n (stagePart rk' π ρ s) = stagePart rk' π ρ (rk.stages t0 t1 y0 n s) := by
  induction n generalizing s with
  | zero => rfl
  | succ n ih =>
    unfold RK.stages
    rw [h.stage, ih, h.numStages]
    have : (stagePart rk' π ρ s).idx = s.idx := rfl
    rw [this]
    split <;> rfl

omit h in
/-- The part of the state of the solver. -/
def statePart (ρ : VF →ₗ[K] VF') (s : State m VF) : State m VF' := s.map fun x => (x.1, fun p => ρ (x.2 p))

theorem IsPart.init : rk'.init = statePart ρ rk.init := by
  unfold RK.init statePart
  rw [h.fsal]
  split <;> simp

theorem IsPart.initStage (t0 t1 : T) (y0 : Y) (st : State m VF) (mj : Bool) :
    rk'.initStage t0 t1 (π y0) (statePart ρ st) mj = stagePart rk' π ρ (rk.initStage t0 t1 y0 st mj) := by
  have hj : rk'.initJac t0 t1 (π y0) = rk'.noJac := by
    unfold RK.initJac
    rw [h.implicitPart']
    cases rk'.calcJac <;> rfl
  unfold RK.initStage
  rw [h.fsal, hj]
  have hst : (statePart ρ st).getD (true, fun _ => 0)
      = ((st.getD (true, fun _ => 0)).1, fun p => ρ ((st.getD (true, fun _ => 0)).2 p)) := by
    cases st <;> simp [statePart]
  have hp : ∀ f : Fin m → VF, rk'.prods t0 t1 (fun p => ρ (f p)) = fun p => π (rk.prods t0 t1 f p) := fun f =>
    funext fun p => h.prods t0 t1 f p
  split
  · have hf : (fun p => if ((st.getD (true, fun _ => 0)).1 || mj) = true then (0 : VF')
        else ρ ((st.getD (true, fun _ => 0)).2 p))
        = fun p => ρ (if ((st.getD (true, fun _ => 0)).1 || mj) = true then 0 else (st.getD (true, fun _ => 0)).2 p) := by
      funext p
      rw [apply_ite ρ, map_zero]
    simp only [hst, h.storeFs, h.storeFs', Bool.false_eq_true, if_false, hf, hp, stagePart, map_zero]
    congr 1
    funext p
    rw [update_part, map_zero]
  · simp only [stagePart, map_zero]

omit h in
/-- How a Runge-Kutta solver deals with a part. -/
def part (π : Y →ₗ[K] Y') (ρ : VF →ₗ[K] VF') :
    Part Y Y' (Option Y) (Option Y') (Dense m Y) (Dense m Y') (State m VF) (State m VF') where
  y := π
  err e := e.map π
  dense d := { y0 := π d.y0, y1 := π d.y1, ks := fun p i => π (d.ks p i) }
  state := statePart ρ

theorem IsPart.step (t0 t1 : T) (y0 : Y) (st : State m VF) (mj : Bool) :
    rk'.step t0 t1 (π y0) (statePart ρ st) mj = (rk.step t0 t1 y0 st mj).part (part π ρ) := by
  unfold RK.step
  rw [h.initStage, h.numStages, h.stages]
  generalize rk.stages t0 t1 y0 rk.numStages _ = fin
  simp only [h.storeFs, h.storeFs', Bool.false_eq_true, if_false, StepOut.part, part, h.tab, h.fsal, stagePart]
  have e1 : (if ((List.finRange m).any fun p => !(rk.tab p).ssal) = true then
        π y0 + ∑ p, treeDot (rk.tab p).bSol (fun i => π (fin.ks p i)) else π fin.yi)
      = π (if ((List.finRange m).any fun p => !(rk.tab p).ssal) = true then
        y0 + ∑ p, treeDot (rk.tab p).bSol (fin.ks p) else fin.yi) := by
    rw [apply_ite π, map_add, map_sum]
    simp only [treeDot_part]
  rw [e1]
  congr 1
  · simp only [treeDot_part, ← map_sum]
    split <;> rfl
  · unfold statePart
    split <;> rfl

end RK
end

end Verif
