import Verif.Spec.Units
import Verif.Lemmas.Log
import Verif.Lemmas.RK
import Verif.Model.Interp
import Mathlib.Algebra.Module.LinearMap.Defs
import Mathlib.Algebra.Module.BigOperators
import Mathlib.Order.Monotone.Basic

/-!
# The same problem in other units: the loop and Runge-Kutta steps
-/

set_option linter.unusedSectionVars false

namespace Verif

section
variable {T T' Y Y' E E' D D' S S' C C' O F : Type} [LinearOrder T] [LinearOrder T'] [LinearOrder F] [Zero F]

def StepInfo.inUnits (u : Units T T' Y Y' E E' D D' S S' C C') (i : StepInfo T Y D) : StepInfo T' Y' D' :=
  { t0 := u.time i.t0, t1 := u.time i.t1, keep := i.keep, tprev := u.time i.tprev, y := u.y i.y, dense := u.dense i.dense
    numAccepted := i.numAccepted }

def LState.inUnits (u : Units T T' Y Y' E E' D D' S S' C C') (s : LState T Y D S C O F) : LState T' Y' D' S' C' O F :=
  { core := s.core.inUnits u, saves := s.saves.map (·.inUnits u.time), dense := s.dense.inUnits u }

variable {u : Units T T' Y Y' E E' D D' S S' C C'} {scale : F → F} {cfg : Cfg T Y E D S C O F} {cfg' : Cfg T' Y' E' D' S' C' O F}

theorem EventCond.fromUnits_value (f : T → T') (g : Y → Y') (e : EventCond T' Y' F) (t : T) (y : Y) :
    (e.fromUnits f g).value t y = e.value (f t) (g y) := by cases e <;> rfl

theorem EventCond.fromUnits_triggers (f : T → T') (g : Y → Y') (e : EventCond T' Y' F) (old : EventVal F) (t : T) (y : Y) :
    (e.fromUnits f g).triggers old t y = e.triggers old (f t) (g y) := by
  rcases e with c | ⟨c, _ | _ | _⟩ <;> cases old <;> rfl

theorem EventCond.fromUnits_initMask (f : T → T') (g : Y → Y') (e : EventCond T' Y' F) (t : T) (y : Y) :
    (e.fromUnits f g).initMask t y = e.initMask (f t) (g y) := by cases e <;> rfl

theorem events_value (h : cfg.events = cfg'.events.map (·.fromUnits u.time u.y)) (t : T) (y : Y) :
    cfg'.events.map (fun e => e.value (u.time t) (u.y y)) = cfg.events.map (fun e => e.value t y) := by
  rw [h, List.map_map]
  exact List.map_congr_left fun e _ => (EventCond.fromUnits_value _ _ _ _ _).symm

theorem events_triggers (h : cfg.events = cfg'.events.map (·.fromUnits u.time u.y)) (vals : List (EventVal F)) (t : T) (y : Y) :
    List.zipWith (fun e old => e.triggers old (u.time t) (u.y y)) cfg'.events vals
      = List.zipWith (fun e old => e.triggers old t y) cfg.events vals := by
  rw [h, List.zipWith_map_left]
  simp only [EventCond.fromUnits_triggers]

theorem events_initMask (h : cfg.events = cfg'.events.map (·.fromUnits u.time u.y)) (t : T) (y : Y) :
    cfg'.events.map (fun e => e.initMask (u.time t) (u.y y)) = cfg.events.map (fun e => e.initMask t y) := by
  rw [h, List.map_map]
  exact List.map_congr_left fun e _ => (EventCond.fromUnits_initMask _ _ _ _ _).symm

theorem clipToEnd_units {f : T → T'} (hf : StrictMono f) {mid : T → T → T} {mid' : T' → T' → T'}
    (hm : ∀ a b, mid' (f a) (f b) = f (mid a b)) (a b t1 fl : T) (k : Bool) :
    clipToEnd mid' (f a) (f b) (f t1) (f fl) k = f (clipToEnd mid a b t1 fl k) := by
  unfold clipToEnd
  simp only [hf.lt_iff_lt, hm, apply_ite f]

theorem coreBody_units (hf : StrictMono u.time) (h : cfg.Same u scale cfg') (s : Core T Y D S C F) :
    coreBody cfg' (s.inUnits u) = ((coreBody cfg s).1.inUnits u, (coreBody cfg s).2.inUnits u) := by
  have hs := h.solver.step s.tprev s.tnext s.y s.solverState s.madeJump
  have ha := h.adapt s.tprev s.tnext s.y (cfg.solver.step s.tprev s.tnext s.y s.solverState s.madeJump).y
    (cfg.solver.step s.tprev s.tnext s.y s.solverState s.madeJump).err s.ctrlState
  unfold coreBody
  simp only [Core.inUnits, hs, StepOut.inUnits, ha, AdaptOut.inUnits, h.t1, h.floor, StepInfo.inUnits]
  simp only [← hf.monotone.map_min, clipToEnd_units hf h.mid, ← apply_ite u.y, ← apply_ite u.state, events_value h.events,
    events_triggers h.events]

theorem condFun_units (hf : StrictMono u.time) (h : cfg.Same u scale cfg') (s : Core T Y D S C F) :
    condFun cfg' (s.inUnits u) = condFun cfg s := by
  unfold condFun
  rw [h.stepTo, h.t1]
  cases cfg.controller.stepTo with
  | none => simp only [Core.inUnits, hf.lt_iff_lt]
  | some n => rfl

theorem set_units (f : T → T') (buf : List (Slot T O)) (i : ℕ) (v : Slot T O) :
    (buf.map (·.inUnits f)).set i (v.inUnits f) = (buf.set i v).map (·.inUnits f) := List.map_set.symm

theorem saveTsLoop_units {f : T → T'} (hf : StrictMono f) {g : Y → Y'} {sub : SubSaveAt T Y O} {sub' : SubSaveAt T' Y' O}
    (hs : sub.Same f g sub') {ip : T → Y} {ip' : T' → Y'} (hip : ∀ t, ip' (f t) = g (ip t)) (keep : Bool) (tnext : T) (n : ℕ)
    (s : SaveState T O) :
    saveTsLoop sub' ip' keep (f tnext) n (s.inUnits f) = (saveTsLoop sub ip keep tnext n s).inUnits f := by
  induction n generalizing s with
  | zero => rfl
  | succ n ih =>
    unfold saveTsLoop
    have e : sub'.ts[(s.inUnits f).tsIndex]? = (sub.ts[s.tsIndex]?).map f := by
      rw [hs.ts, List.getElem?_map]; rfl
    rw [e]
    cases sub.ts[s.tsIndex]? with
    | none => rfl
    | some t =>
      simp only [Option.map_some, hf.le_iff_le]
      have e2 : saveTsBody sub' ip' (f t) (s.inUnits f) = (saveTsBody sub ip t s).inUnits f := by
        unfold saveTsBody
        simp only [SaveState.inUnits, hip, hs.fn]
        congr 1
        exact set_units f s.buf s.saveIndex (.val t (sub.fn t (ip t)))
      rw [e2, ih]
      split <;> rfl

theorem save_units {f : T → T'} {g : Y → Y'} {fn : T → Y → O} {fn' : T' → Y' → O} (h : ∀ t y, fn' (f t) (g y) = fn t y)
    (t : T) (y : Y) (s : SaveState T O) (rep : ℕ) (pred : Bool) :
    save (f t) (g y) fn' (s.inUnits f) rep pred = (save t y fn s rep pred).inUnits f := by
  unfold save
  simp only [SaveState.inUnits]
  congr 1
  have hv : (if pred = true then Slot.val (f t) (fn' (f t) (g y)) else readClamped (s.buf.map (·.inUnits f)) s.saveIndex)
      = (if pred = true then Slot.val t (fn t y) else readClamped s.buf s.saveIndex).inUnits f := by
    cases pred
    · simp only [Bool.false_eq_true, if_false, readClamped, List.length_map, List.getElem?_map]
      cases s.buf[min s.saveIndex (s.buf.length - 1)]? <;> rfl
    · simp only [if_true, h]; rfl
  rw [hv]
  simp only [updateSlice, List.length_map, List.map_append, List.map_take, List.map_drop, List.map_replicate]

theorem saveSteps_units {f : T → T'} {g : Y → Y'} {sub : SubSaveAt T Y O} {sub' : SubSaveAt T' Y' O} (hs : sub.Same f g sub')
    (i : StepInfo T Y D) (i' : StepInfo T' Y' D') (hk : i'.keep = i.keep) (ha : i'.numAccepted = i.numAccepted)
    (ht : i'.tprev = f i.tprev) (hy : i'.y = g i.y) (s : SaveState T O) :
    saveSteps sub' i' (s.inUnits f) = (saveSteps sub i s).inUnits f := by
  unfold saveSteps
  simp only [hs.steps, hk, ha, ht, hy, hs.fn]
  split
  · split
    · simp only [SaveState.inUnits]
      congr 1
      exact set_units f s.buf s.saveIndex (.val i.tprev (sub.fn i.tprev i.y))
    · rfl
  · rfl

/-- Functions applied to corresponding entries. -/
theorem zipWith_units {A A' B B' : Type} {R : A → A' → Prop} {f : B → B'} {φ : A → B → B} {φ' : A' → B' → B'}
    (h : ∀ a a' b, R a a' → φ' a' (f b) = f (φ a b)) {l : List A} {l' : List A'} (hl : List.Forall₂ R l l') (m : List B) :
    List.zipWith φ' l' (m.map f) = (List.zipWith φ l m).map f := by
  induction hl generalizing m with
  | nil => rfl
  | cons ha _ ih =>
    cases m with
    | nil => rfl
    | cons b m => simp only [List.map_cons, List.zipWith_cons_cons, h _ _ b ha, ih]

theorem body_units (hf : StrictMono u.time) (h : cfg.Same u scale cfg') (s : LState T Y D S C O F) :
    body cfg' (s.inUnits u) = (body cfg s).inUnits u := by
  unfold body
  have hc : coreBody cfg' (s.inUnits u).core = _ := coreBody_units hf h s.core
  rw [hc]
  simp only [LState.inUnits, h.dense]
  congr 1
  · refine zipWith_units (fun sub sub' sv hs => ?_) h.subs s.saves
    have e : saveTs cfg' sub' ((coreBody cfg s.core).2.inUnits u) (sv.inUnits u.time)
        = (saveTs cfg sub (coreBody cfg s.core).2 sv).inUnits u.time := by
      unfold saveTs
      rw [hs.ts, List.length_map]
      exact saveTsLoop_units hf hs (fun t => h.solver.interp _ _ _ _) _ _ _ _
    rw [e]
    exact saveSteps_units hs _ _ rfl rfl rfl rfl _
  · unfold saveDense
    simp only [StepInfo.inUnits, DenseState.inUnits]
    by_cases hb : (cfg.dense && (coreBody cfg s.core).2.keep) = true
    · simp only [if_pos hb, List.map_set, Option.map_some]
      exact if_pos hb
    · simp only [if_neg hb]
      exact if_neg hb

theorem whileLoop_units (hf : StrictMono u.time) (h : cfg.Same u scale cfg') (n : ℕ) (s : LState T Y D S C O F) :
    whileLoop cfg' n (s.inUnits u) = (whileLoop cfg n s).inUnits u := by
  induction n generalizing s with
  | zero => rfl
  | succ n ih =>
    unfold whileLoop
    have : condFun cfg' (s.inUnits u).core = condFun cfg s.core := condFun_units hf h s.core
    rw [this, body_units hf h, ih]
    split <;> rfl

theorem attempts_units (hf : StrictMono u.time) (h : cfg.Same u scale cfg') (n : ℕ) (s : Core T Y D S C F) :
    attempts cfg' n (s.inUnits u) = (attempts cfg n s).map (·.inUnits u) := by
  induction n generalizing s with
  | zero => rfl
  | succ n ih =>
    unfold attempts
    rw [condFun_units hf h, coreBody_units hf h, ih]
    split <;> rfl

theorem allocate_units (h : cfg.Same u scale cfg') : cfg'.subs.map (allocate (T := T') cfg.maxSteps)
    = (cfg.subs.map (allocate cfg.maxSteps)).map (SaveState.inUnits u.time) := by
  have hs := h.subs
  revert hs
  generalize cfg.subs = l
  generalize cfg'.subs = l'
  intro hs
  induction hs with
  | nil => rfl
  | cons ha _ ih =>
    simp only [List.map_cons, ih]
    congr 1
    simp only [allocate, SaveState.inUnits, List.map_replicate, Slot.inUnits, allocSize, ha.t0, ha.t1, ha.ts, ha.steps,
      List.length_map]

theorem initState_units (hf : StrictMono u.time) (h : cfg.Same u scale cfg') (y0 : Y) (tnext : T) (ctrl : C) (ss : S)
    (mj : Bool) :
    initState cfg' (u.y y0) (u.time tnext) (u.ctrl ctrl) (u.state ss) mj = (initState cfg y0 tnext ctrl ss mj).inUnits u := by
  unfold initState
  simp only [h.t0, h.t1, events_value h.events, events_initMask h.events, h.dummy, h.maxSteps, h.dense, LState.inUnits,
    Core.inUnits, ← hf.monotone.map_min]
  congr 1
  · exact allocate_units h
  · cases cfg.dense <;> simp [DenseState.inUnits]

theorem toRootFind_units (h : cfg.Same u scale cfg') (s : Core T Y D S C F) (b : Bool) (t : T) :
    SameValues scale (toRootFind cfg' (s.inUnits u) b (u.time t)) (toRootFind cfg s b t) := by
  unfold toRootFind SameValues
  rw [h.events, List.zipWith_map_right]
  simp only [Core.inUnits, h.dist, h.solver.interp]
  generalize cfg'.events = ev
  generalize s.evMask = ms
  induction ms generalizing ev with
  | nil => exact List.Forall₂.nil
  | cons m ms ih =>
    cases ev with
    | nil => exact List.Forall₂.nil
    | cons e ev =>
      simp only [List.zipWith_cons_cons]
      refine List.Forall₂.cons ?_ (ih ev)
      cases b
      · simp
      · cases m
        · simp
        · cases e <;> simp [EventCond.fromUnits]

theorem finalise_units (h : cfg.Same u scale cfg') (s : Core T Y D S C F) :
    finalise cfg' (s.inUnits u) = (u.time (finalise cfg s).1, u.y (finalise cfg s).2.1, (finalise cfg s).2.2) := by
  unfold finalise
  have hr := h.rootFinder
  revert hr
  cases cfg.rootFinder with
  | none =>
    cases cfg'.rootFinder with
    | none => intro _; rfl
    | some _ => intro hr; cases hr
  | some find =>
    cases cfg'.rootFinder with
    | none => intro hr; cases hr
    | some find' =>
      intro hr
      cases hr with
      | some hr =>
        have e := hr (toRootFind cfg s (s.evMask.any id)) (toRootFind cfg' (s.inUnits u) (s.evMask.any id)) s.evTprev s.evTnext
          (toRootFind_units h s _)
        have e' : find' (toRootFind cfg' (s.inUnits u) ((s.inUnits u).evMask.any id)) (s.inUnits u).evTprev (s.inUnits u).evTnext
            = _ := e
        simp only [e']
        by_cases hm : s.evMask.any id = true
        · have hm' : (s.inUnits u).evMask.any id = true := hm
          rw [if_pos hm, if_pos hm']
          simp only [Core.inUnits, h.solver.interp, apply_ite u.y]
        · have hm' : ¬ (s.inUnits u).evMask.any id = true := hm
          rw [if_neg hm, if_neg hm']
          rfl

theorem unsave_units {f : T → T'} (hf : StrictMono f) (t : T) (s : SaveState T O) :
    unsave (f t) (s.inUnits f) = (unsave t s).inUnits f := by
  have ha : ∀ x : Slot T O, (x.inUnits f).after (f t) = x.after t := by
    intro x
    cases x <;> simp [Slot.inUnits, Slot.after, hf.lt_iff_lt]
  unfold unsave
  have hc : (s.inUnits f).buf.countP (Slot.after (f t)) = s.buf.countP (Slot.after t) := by
    simp only [SaveState.inUnits, List.countP_map]
    exact congrFun (congrArg List.countP (funext ha)) _
  rw [hc]
  simp only [SaveState.inUnits, List.map_map]
  congr 1
  refine List.map_congr_left fun x _ => ?_
  simp only [Function.comp, ha]
  split <;> rfl

theorem saveT1_units {sub : SubSaveAt T Y O} {sub' : SubSaveAt T' Y' O} (h : cfg.Same u scale cfg')
    (hs : sub.Same u.time u.y sub') (n : ℕ) (t : T) (y : Y) (s : SaveState T O) :
    saveT1 cfg' n (u.time t) (u.y y) sub' (s.inUnits u.time) = (saveT1 cfg n t y sub s).inUnits u.time := by
  unfold saveT1
  have hr := h.rootFinder
  revert hr
  cases cfg.rootFinder <;> cases cfg'.rootFinder <;> intro hr <;> try cases hr
  all_goals
    simp only [hs.steps, hs.t1, save_units hs.fn]
    generalize (if sub.steps = 0 then false else if sub.steps = 1 then true else decide (n % sub.steps = 0)) = c
    split <;> rfl

theorem saveIfT0EqT1_units (hf : StrictMono u.time) {sub : SubSaveAt T Y O} {sub' : SubSaveAt T' Y' O} (h : cfg.Same u scale cfg')
    (hs : sub.Same u.time u.y sub') (y : Y) (s : SaveState T O) :
    saveIfT0EqT1 cfg' (u.y y) sub' (s.inUnits u.time) = (saveIfT0EqT1 cfg y sub s).inUnits u.time := by
  unfold saveIfT0EqT1
  simp only [h.t0, h.t1, hf.injective.eq_iff, hs.ts, List.length_map, save_units hs.fn, ne_eq, List.map_eq_nil_iff]
  split_ifs <;> rfl

/-- The output in the other units. -/
theorem solve_units (hf : StrictMono u.time) (h : cfg.Same u scale cfg') (y0 : Y) (tnext : T) (ctrl : C) (ss : S) (mj : Bool) :
    solve cfg' (u.y y0) (u.time tnext) (u.ctrl ctrl) (u.state ss) mj = (solve cfg y0 tnext ctrl ss mj).inUnits u := by
  unfold solve
  rw [initState_units hf h]
  generalize initState cfg y0 tnext ctrl ss mj = s
  unfold loop
  have hinit : List.zipWith (fun sub sv => saveT0 cfg' (s.inUnits u).core.y sub sv) cfg'.subs (s.inUnits u).saves
      = (List.zipWith (fun sub sv => saveT0 cfg s.core.y sub sv) cfg.subs s.saves).map (SaveState.inUnits u.time) := by
    refine zipWith_units (fun sub sub' sv hs => ?_) h.subs s.saves
    unfold saveT0
    rw [hs.t0, h.t0]
    simp only [LState.inUnits, Core.inUnits, save_units hs.fn]
    split <;> rfl
  have hd : (if cfg'.dense then { (s.inUnits u).dense with ts := (s.inUnits u).dense.ts.set 0 (some cfg'.t0) }
      else (s.inUnits u).dense)
      = (if cfg.dense then { s.dense with ts := s.dense.ts.set 0 (some cfg.t0) } else s.dense).inUnits u := by
    rw [h.dense, h.t0]
    cases cfg.dense
    · rfl
    · simp only [LState.inUnits, DenseState.inUnits, if_true, List.map_set, Option.map_some]
  have e0 : ({ s.inUnits u with
        saves := List.zipWith (fun sub sv => saveT0 cfg' (s.inUnits u).core.y sub sv) cfg'.subs (s.inUnits u).saves
        dense := if cfg'.dense then { (s.inUnits u).dense with ts := (s.inUnits u).dense.ts.set 0 (some cfg'.t0) }
          else (s.inUnits u).dense } : LState T' Y' D' S' C' O F)
      = ({ s with
        saves := List.zipWith (fun sub sv => saveT0 cfg s.core.y sub sv) cfg.subs s.saves
        dense := if cfg.dense then { s.dense with ts := s.dense.ts.set 0 (some cfg.t0) } else s.dense } :
          LState T Y D S C O F).inUnits u := by
    rw [hinit, hd]
    rfl
  dsimp only
  rw [e0, h.maxSteps, whileLoop_units hf h]
  generalize whileLoop cfg cfg.maxSteps _ = fin
  have hfin : finalise cfg' (fin.inUnits u).core = _ := finalise_units h fin.core
  have hcond : condFun cfg' (fin.inUnits u).core = condFun cfg fin.core := condFun_units hf h fin.core
  rw [hfin, hcond]
  simp only [Output.inUnits]
  have hsv : (match cfg'.rootFinder with
      | none => (fin.inUnits u).saves
      | some _ => (fin.inUnits u).saves.map (unsave (u.time (finalise cfg fin.core).1)))
      = (match cfg.rootFinder with
      | none => fin.saves
      | some _ => fin.saves.map (unsave (finalise cfg fin.core).1)).map (SaveState.inUnits u.time) := by
    have hr := h.rootFinder
    revert hr
    cases cfg.rootFinder <;> cases cfg'.rootFinder <;> intro hr
    · rfl
    · cases hr
    · cases hr
    · simp only [LState.inUnits, List.map_map]
      exact List.map_congr_left fun sv _ => unsave_units hf _ _
  congr 1
  refine Eq.trans (congrArg (List.zipWith _ _) hsv) ?_
  refine zipWith_units (fun sub sub' sv hs => ?_) h.subs _
  rw [saveIfT0EqT1_units hf h hs]
  exact saveT1_units h hs _ _ _ _

theorem history_units (hf : StrictMono u.time) (h : cfg.Same u scale cfg') (y0 : Y) (tnext : T) (ctrl : C) (ss : S) (mj : Bool) :
    history cfg' (u.y y0) (u.time tnext) (u.ctrl ctrl) (u.state ss) mj
      = (history cfg y0 tnext ctrl ss mj).map (·.inUnits u) := by
  unfold history
  rw [initState_units hf h, h.maxSteps]
  exact attempts_units hf h _ _

end

section
variable {m : ℕ} {T T' K Y Y' VF VF' Ct Ct' J J' : Type} [Field K] [DecidableEq K] [AddCommGroup Y] [Module K Y]
  [AddCommGroup VF] [Module K VF] [AddCommGroup Y'] [Module K Y'] [AddCommGroup VF'] [Module K VF']

/-- A root finder does the same if the function and the guess are written in other units. -/
structure RootFinder.Same {X X' : Type} (f : X → X') (jm : J → J') (r : RootFinder X J) (r' : RootFinder X' J') : Prop where
  init : ∀ i g g' x, (∀ v, g' (f v) = f (g v)) → r'.init i g' (f x) = jm (r.init i g x)
  find : ∀ i g g' x j, (∀ v, g' (f v) = f (g v)) → r'.find i g' (f x) (jm j) = (f (r.find i g x j).1, (r.find i g x j).2)

/-- Two Runge-Kutta methods with the same tableaus, for an equation and the same one in other units. -/
structure RK.Same (σ : T → T') (π : Y →ₗ[K] Y') (ρ : VF →ₗ[K] VF') (γ : Ct → Ct') (jm : J → J')
    (rk : RK m T K Y VF Ct J) (rk' : RK m T' K Y' VF' Ct' J') : Prop where
  tab : rk'.tab = rk.tab
  at' : ∀ a b c, rk'.at' (σ a) (σ b) c = σ (rk.at' a b c)
  calcJac : rk'.calcJac = rk.calcJac
  noJac : rk'.noJac = jm rk.noJac
  rootF : rk.rootF.Same ρ jm rk'.rootF
  rootK : rk.rootK.Same π jm rk'.rootK
  expensive : ∀ p, (rk'.term p).vfExpensive = (rk.term p).vfExpensive
  contr : ∀ p a b, (rk'.term p).contr (σ a) (σ b) = γ ((rk.term p).contr a b)
  vf : ∀ p t y, (rk'.term p).vf (σ t) (π y) = ρ ((rk.term p).vf t y)
  prod : ∀ p v c, (rk'.term p).prod (ρ v) (γ c) = π ((rk.term p).prod v c)
  vfProd : ∀ p t y c, (rk'.term p).vfProd (σ t) (π y) (γ c) = π ((rk.term p).vfProd t y c)

theorem treeDot_map (a : List K) (f : Y →ₗ[K] Y') (buf : ℕ → Y) : treeDot a (fun i => f (buf i)) = f (treeDot a buf) := by
  unfold treeDot
  rw [map_sum]
  exact Finset.sum_congr rfl fun j _ => (map_smul f _ _).symm

theorem update_map {V V' : Type} (f : V → V') (g : ℕ → V) (i : ℕ) (v : V) :
    (fun j => f (Function.update g i v j)) = Function.update (fun j => f (g j)) i (f v) := by
  funext j
  by_cases hj : j = i
  · subst hj; simp
  · simp [Function.update_of_ne hj]

namespace RK
variable {σ : T → T'} {π : Y →ₗ[K] Y'} {ρ : VF →ₗ[K] VF'} {γ : Ct → Ct'} {jm : J → J'} {rk : RK m T K Y VF Ct J}
  {rk' : RK m T' K Y' VF' Ct' J'} (h : rk.Same σ π ρ γ jm rk')
include h

theorem Same.implicitPart : rk'.implicitPart = rk.implicitPart := by unfold RK.implicitPart; rw [h.tab]

theorem Same.numStages : rk'.numStages = rk.numStages := by unfold RK.numStages; rw [h.tab]

theorem Same.vfExpensive : rk'.vfExpensive = rk.vfExpensive := by unfold RK.vfExpensive; simp only [h.expensive]

theorem Same.fsal : rk'.fsal = rk.fsal := by unfold RK.fsal; rw [h.tab, h.vfExpensive]

theorem Same.evalFs : rk'.evalFs = rk.evalFs := by unfold RK.evalFs; rw [h.fsal, h.vfExpensive]

theorem Same.storeFs : rk'.storeFs = rk.storeFs := by unfold RK.storeFs; rw [h.evalFs, h.implicitPart]

theorem Same.timeAt (t0 t1 : T) (c : K) : rk'.timeAt (σ t0) (σ t1) c = σ (rk.timeAt t0 t1 c) := by
  unfold RK.timeAt; rw [h.at', apply_ite σ]

theorem Same.control (t0 t1 : T) (p : Fin m) : rk'.control (σ t0) (σ t1) p = γ (rk.control t0 t1 p) := by
  unfold RK.control; rw [h.contr]

theorem Same.prods (t0 t1 : T) (f : Fin m → VF) :
    rk'.prods (σ t0) (σ t1) (fun p => ρ (f p)) = fun p => π (rk.prods t0 t1 f p) := by
  funext p
  unfold RK.prods; rw [h.control, h.prod]

theorem Same.relF (p : Fin m) (t0 t1 : T) (diag : K) (ti : T) (yp : Y) (f : VF) :
    rk'.relF p (σ t0) (σ t1) diag (σ ti) (π yp) (ρ f) = ρ (rk.relF p t0 t1 diag ti yp f) := by
  unfold RK.relF
  rw [h.control, h.prod, ← map_smul, ← map_add, h.vf, ← map_sub]

theorem Same.relK (p : Fin m) (t0 t1 : T) (diag : K) (ti : T) (yp : Y) (k : Y) :
    rk'.relK p (σ t0) (σ t1) diag (σ ti) (π yp) (π k) = π (rk.relK p t0 t1 diag ti yp k) := by
  unfold RK.relK
  rw [h.control, ← map_smul, ← map_add, h.vfProd, ← map_sub]

theorem Same.newJac (i : ℕ) (j n : J) : rk'.newJac i (jm j) (jm n) = jm (rk.newJac i j n) := by
  unfold RK.newJac
  rw [h.calcJac]
  cases rk.calcJac <;> simp only [apply_ite jm]

omit h in
/-- A stage in the other units. -/
def stageUnits (π : Y →ₗ[K] Y') (ρ : VF →ₗ[K] VF') (jm : J → J') (s : StageState m Y VF J) : StageState m Y' VF' J' :=
  { idx := s.idx, yi := π s.yi, f1 := fun p => ρ (s.f1 p), jac := jm s.jac, fs := fun p i => ρ (s.fs p i)
    ks := fun p i => π (s.ks p i), result := s.result }

theorem Same.solveF (t0 t1 : T) (y0 yp : Y) (p : Fin m) (s : StageState m Y VF J) :
    rk'.solveF (σ t0) (σ t1) (π y0) (π yp) p (stageUnits π ρ jm s)
      = (ρ (rk.solveF t0 t1 y0 yp p s).1, jm (rk.solveF t0 t1 y0 yp p s).2.1, (rk.solveF t0 t1 y0 yp p s).2.2) := by
  unfold RK.solveF
  simp only [stageUnits, h.tab, h.timeAt, h.numStages, treeDot_map, h.fsal, h.vf, ← apply_ite ρ]
  have hrel := h.relF p t0 t1 ((rk.tab p).diagAt s.idx) (rk.timeAt t0 t1 ((rk.tab p).cAt s.idx)) yp
  rw [h.rootF.init _ _ _ _ hrel, h.newJac, h.rootF.find _ _ _ _ _ hrel]

theorem Same.solveK (t0 t1 : T) (y0 yp : Y) (p : Fin m) (s : StageState m Y VF J) :
    rk'.solveK (σ t0) (σ t1) (π y0) (π yp) p (stageUnits π ρ jm s)
      = (π (rk.solveK t0 t1 y0 yp p s).1, jm (rk.solveK t0 t1 y0 yp p s).2.1, (rk.solveK t0 t1 y0 yp p s).2.2) := by
  unfold RK.solveK
  simp only [stageUnits, h.tab, h.timeAt, h.numStages, treeDot_map, h.fsal, h.control, h.vfProd, ← apply_ite π]
  have hrel := h.relK p t0 t1 ((rk.tab p).diagAt s.idx) (rk.timeAt t0 t1 ((rk.tab p).cAt s.idx)) yp
  rw [h.rootK.init _ _ _ _ hrel, h.newJac, h.rootK.find _ _ _ _ _ hrel]

theorem Same.partialY (t0 t1 : T) (y0 : Y) (s : StageState m Y VF J) :
    rk'.partialY (σ t0) (σ t1) (π y0) (stageUnits π ρ jm s) = π (rk.partialY t0 t1 y0 s) := by
  unfold RK.partialY
  simp only [h.storeFs, h.tab, h.numStages, stageUnits, treeDot_map, h.prods]
  rw [map_add, map_sum]
  split <;> rfl

theorem Same.stageEnd (t0 t1 : T) (s : StageState m Y VF J) (yi : Y) (iF : Option VF) (iK : Option Y) (jac : J)
    (r : Result) :
    rk'.stageEnd (σ t0) (σ t1) (stageUnits π ρ jm s) (π yi) (iF.map ρ) (iK.map π) (jm jac) r
      = stageUnits π ρ jm (rk.stageEnd t0 t1 s yi iF iK jac r) := by
  have hF : (iF.map ρ).getD 0 = ρ (iF.getD 0) := by cases iF <;> simp
  have hK : (iK.map π).getD 0 = π (iK.getD 0) := by cases iK <;> simp
  unfold RK.stageEnd
  simp only [h.tab, h.timeAt, hF, hK, h.vf, ← apply_ite ρ, h.prods, h.control, h.vfProd, ← apply_ite π, h.evalFs, h.fsal,
    h.storeFs, stageUnits]
  congr 1
  · split <;> rfl
  · funext p
    split
    · exact (update_map ρ (s.fs p) s.idx _).symm
    · rfl
  · funext p
    split
    · rfl
    · rw [update_map]
      split <;> rfl

theorem Same.stage (t0 t1 : T) (y0 : Y) (s : StageState m Y VF J) :
    rk'.stage (σ t0) (σ t1) (π y0) (stageUnits π ρ jm s) = stageUnits π ρ jm (rk.stage t0 t1 y0 s) := by
  unfold RK.stage
  simp only [h.implicitPart, h.partialY]
  cases rk.implicitPart with
  | none => exact h.stageEnd t0 t1 s _ none none _ _
  | some p =>
    have hi : (stageUnits π ρ jm s).idx = s.idx := rfl
    have hr : (stageUnits π ρ jm s).result = s.result := rfl
    simp only [h.evalFs, h.solveF, h.solveK, h.control, h.prod, h.tab, hi, hr, ← map_smul, ← map_add]
    split
    · exact h.stageEnd t0 t1 s _ (some _) none _ _
    · exact h.stageEnd t0 t1 s _ none (some _) _ _

theorem Same.stages (t0 t1 : T) (y0 : Y) (n : ℕ) (s : StageState m Y VF J) :
    rk'.stages (σ t0) (σ t1) (π y0) n (stageUnits π ρ jm s) = stageUnits π ρ jm (rk.stages t0 t1 y0 n s) := by
  induction n generalizing s with
  | zero => rfl
  | succ n ih =>
    unfold RK.stages
    rw [h.stage, ih, h.numStages]
    have : (stageUnits π ρ jm s).idx = s.idx := rfl
    rw [this]
    split <;> rfl

omit h in
/-- The state of the solver in the other units. -/
def stateUnits (ρ : VF →ₗ[K] VF') (s : State m VF) : State m VF' := s.map fun x => (x.1, fun p => ρ (x.2 p))

theorem Same.init : rk'.init = stateUnits ρ rk.init := by
  unfold RK.init stateUnits
  rw [h.fsal]
  split <;> simp

theorem Same.initJac (t0 t1 : T) (y0 : Y) : rk'.initJac (σ t0) (σ t1) (π y0) = jm (rk.initJac t0 t1 y0) := by
  unfold RK.initJac
  rw [h.calcJac, h.implicitPart, h.noJac, h.evalFs]
  have hF : ∀ p, rk'.rootF.init 0 (rk'.relF p (σ t0) (σ t1) 0 (σ t0) (π y0)) 0
      = jm (rk.rootF.init 0 (rk.relF p t0 t1 0 t0 y0) 0) := by
    intro p
    have := h.rootF.init 0 _ _ 0 (h.relF p t0 t1 0 t0 y0)
    rwa [map_zero] at this
  have hK : ∀ p, rk'.rootK.init 0 (rk'.relK p (σ t0) (σ t1) 0 (σ t0) (π y0)) 0
      = jm (rk.rootK.init 0 (rk.relK p t0 t1 0 t0 y0) 0) := by
    intro p
    have := h.rootK.init 0 _ _ 0 (h.relK p t0 t1 0 t0 y0)
    rwa [map_zero] at this
  cases rk.calcJac <;> cases rk.implicitPart <;> simp only [hF, hK, apply_ite jm]

theorem Same.initStage (t0 t1 : T) (y0 : Y) (st : State m VF) (mj : Bool) :
    rk'.initStage (σ t0) (σ t1) (π y0) (stateUnits ρ st) mj = stageUnits π ρ jm (rk.initStage t0 t1 y0 st mj) := by
  unfold RK.initStage
  rw [h.fsal, h.initJac, h.storeFs]
  have hst : (stateUnits ρ st).getD (true, fun _ => 0)
      = ((st.getD (true, fun _ => 0)).1, fun p => ρ ((st.getD (true, fun _ => 0)).2 p)) := by
    cases st <;> simp [stateUnits]
  split
  · have hf : (fun p => if ((st.getD (true, fun _ => 0)).1 || mj) = true then (0 : VF')
        else ρ ((st.getD (true, fun _ => 0)).2 p))
        = fun p => ρ (if ((st.getD (true, fun _ => 0)).1 || mj) = true then 0 else (st.getD (true, fun _ => 0)).2 p) := by
      funext p
      rw [apply_ite ρ, map_zero]
    simp only [hst, hf, h.prods, stageUnits]
    congr 1
    · funext p
      split
      · rw [update_map, map_zero]
        exact congrArg (Function.update (fun _ => 0) 0) (congrFun hf p)
      · simp only [map_zero]
    · funext p
      split
      · simp only [map_zero]
      · rw [update_map, map_zero]
  · simp only [stageUnits, map_zero]

omit h in
/-- What occurs in a solve with a Runge-Kutta solver, in the other units. -/
def units {C C' : Type} (σ : T → T') (π : Y →ₗ[K] Y') (ρ : VF →ₗ[K] VF') (ctrl : C → C') :
    Units T T' Y Y' (Option Y) (Option Y') (Dense m Y) (Dense m Y') (State m VF) (State m VF') C C' where
  time := σ
  y := π
  err e := e.map π
  dense d := { y0 := π d.y0, y1 := π d.y1, ks := fun p i => π (d.ks p i) }
  state := stateUnits ρ
  ctrl := ctrl

theorem Same.step {C C' : Type} (ctrl : C → C') (t0 t1 : T) (y0 : Y) (st : State m VF) (mj : Bool) :
    rk'.step (σ t0) (σ t1) (π y0) (stateUnits ρ st) mj = (rk.step t0 t1 y0 st mj).inUnits (units σ π ρ ctrl) := by
  unfold RK.step
  rw [h.initStage, h.numStages, h.stages]
  generalize rk.stages t0 t1 y0 rk.numStages _ = fin
  have hks : (if rk'.storeFs = true then fun p i => rk'.prods (σ t0) (σ t1) (fun p => (stageUnits π ρ jm fin).fs p i) p
        else (stageUnits π ρ jm fin).ks)
      = fun p i => π ((if rk.storeFs = true then fun p i => rk.prods t0 t1 (fun p => fin.fs p i) p else fin.ks) p i) := by
    rw [h.storeFs]
    funext p i
    split
    · exact congrFun (h.prods t0 t1 fun p => fin.fs p i) p
    · rfl
  dsimp only
  rw [hks]
  generalize (if rk.storeFs = true then fun p i => rk.prods t0 t1 (fun p => fin.fs p i) p else fin.ks) = ks
  simp only [StepOut.inUnits, units, h.tab, h.fsal, stageUnits]
  have e1 : (if ((List.finRange m).any fun p => !(rk.tab p).ssal) = true then
        π y0 + ∑ p, treeDot (rk.tab p).bSol (fun i => π (ks p i)) else π fin.yi)
      = π (if ((List.finRange m).any fun p => !(rk.tab p).ssal) = true then
        y0 + ∑ p, treeDot (rk.tab p).bSol (ks p) else fin.yi) := by
    rw [apply_ite π, map_add, map_sum]
    simp only [treeDot_map]
  rw [e1]
  congr 1
  · simp only [treeDot_map, ← map_sum]
    split <;> rfl
  · unfold stateUnits
    split <;> rfl

end RK
end

end Verif
