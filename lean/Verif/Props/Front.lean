import Verif.Spec.Front
import Verif.Lemmas.Mirror
import Mathlib.Algebra.Order.Ring.Int
import Mathlib.Tactic.Ring
import Mathlib.Tactic.Linarith

/-!
# C20, C54, C56: direction of time, validation of arguments, times seen by events
-/

set_option linter.unusedSectionVars false

namespace Verif

variable {T Y VF Ct E D S C O F : Type} {m : Nat}

section
variable [CommRing T] [LinearOrder T] [IsStrictOrderedRing T] [LinearOrder F] [Zero F] [AddCommGroup Ct]
  [AddCommGroup VF]

/-! ## C20 -/

/-- The two terms given to the solver, in a backward solve and in the mirrored forward solve, differ in the
sign of both vector field and control. -/
theorem wrapTerm_sign (k k' : KTerm T Y VF Ct) (ε : Int) (h : k.MirrorOf k' ε) :
    TermSign (wrapTerm (-1) k).toTerm (wrapTerm 1 k').toTerm ε where
  sign := h.sign
  vf t y := by simp [wrapTerm, h.vf]
  contr t0 t1 := by simp [wrapTerm, h.contr]
  prod := h.prod
  vfProd t y c := by
    have : ε • ε • c = c := by rcases h.sign with rfl | rfl <;> simp
    simp [wrapTerm, h.vfProd, this]
  expensive := h.expensive
  bilinear := h.bilinear

theorem events_mirror (l : List (EventCond T Y F)) (h : ∀ e ∈ l, e.Autonomous) :
    l.map EventCond.mirror = l := by
  conv_rhs => rw [← List.map_id l]
  apply List.map_congr_left
  intro e he
  have := h e he
  cases e with
  | bool c => simp only [EventCond.mirror, id]; congr; funext t y; exact this _ _ _
  | flt c d => simp only [EventCond.mirror, id]; congr; funext t y; exact this _ _ _

/-- **C20.** Solving backwards in time is exactly solving the time-negated problem forwards: the same values,
statistics and result, with all times negated; and one is rejected iff the other is, for the same reason. -/
theorem C20_mirror (p p' : Problem m T Y VF Ct E D S C O F) (h : p.MirrorOf p') (hback : p.t1 < p.t0)
    (hsolver : p.solver.SignInvariant) :
    MirrorResult (diffeqsolve p) (diffeqsolve p') := by
  obtain ⟨ε, hterms⟩ := h.terms
  have hd : p.direction = -1 := by simp [Problem.direction, not_lt.2 hback.le]
  have hd' : p'.direction = 1 := by
    simp [Problem.direction, h.t0, h.t1, hback]
  obtain ⟨R, hR0, hR⟩ := hsolver _ _ ε (fun i => wrapTerm_sign _ _ (ε i) (hterms i))
  have hsubs : (p'.subs.map (fun s => { s with ts := s.ts.map (· * ((1 : Int) : T)) }))
      = (p.subs.map (fun s => { s with ts := s.ts.map (· * ((-1 : Int) : T)) })).map
        (fun s => { s with fn := fun t y => s.fn (-t) y }) := by
    rw [h.subs, List.map_map, List.map_map]
    apply List.map_congr_left
    intro s _
    simp
  have hsubs2 : (p'.subs.map (fun s => { s with ts := s.ts.map (· * ((1 : Int) : T)) })).map
        (fun s => { s with fn := fun t y => s.fn (((1 : Int) : T) * t) y })
      = (p.subs.map (fun s => { s with ts := s.ts.map (· * ((-1 : Int) : T)) })).map
        (fun s => { s with fn := fun t y => s.fn (((-1 : Int) : T) * t) y }) := by
    rw [hsubs, List.map_map]
    apply List.map_congr_left
    intro s _
    simp
  have hcheck : ∀ (t0 t1 : T), (p'.subs.map (fun s => { s with ts := s.ts.map (· * ((1 : Int) : T)) })).forM
        (fun s => checkTs t0 t1 s.ts)
      = (p.subs.map (fun s => { s with ts := s.ts.map (· * ((-1 : Int) : T)) })).forM
        (fun s => checkTs t0 t1 s.ts) := by
    intro t0 t1
    rw [hsubs]
    generalize (p.subs.map (fun s => { s with ts := s.ts.map (· * ((-1 : Int) : T)) })) = l
    induction l with
    | nil => rfl
    | cons a l ih => simp only [List.map_cons, List.forM_eq_forM, List.forM_cons] at ih ⊢; rw [ih]
  have e0 : p'.t0 * ((1 : Int) : T) = p.t0 * ((-1 : Int) : T) := by simp [h.t0]
  have e1 : p'.t1 * ((1 : Int) : T) = p.t1 * ((-1 : Int) : T) := by simp [h.t1]
  have e2 : p'.dt0.map (· * ((1 : Int) : T)) = p.dt0.map (· * ((-1 : Int) : T)) := by
    rw [h.dt0]; cases p.dt0 <;> simp
  have hev : p'.events = p.events := by rw [h.events, events_mirror _ h.autonomous]
  have hdt0 : p'.checkDt0 = p.checkDt0 := by
    unfold Problem.checkDt0
    rw [h.dt0, h.t0, h.t1]
    cases p.dt0 with
    | none => rfl
    | some dt0 =>
      simp only [Option.map_some]
      rw [show (-p.t1 - -p.t0) * -dt0 = (p.t1 - p.t0) * dt0 by ring]
  have hfirst : ∀ w, p.controller (-1) = .ok w → ∀ t0 t1 y dt0 c,
      firstStep w (fun i => wrapTerm 1 (p'.terms i)) t0 t1 y dt0 c
        = firstStep w (fun i => wrapTerm (-1) (p.terms i)) t0 t1 y dt0 c := by
    intro w hw t0 t1 y dt0 c
    have hb := h.blind w hw (fun i => wrapTerm 1 (p'.terms i)) (fun i => wrapTerm (-1) (p.terms i))
      (fun _ => rfl) (fun _ => rfl)
    unfold firstStep
    simp only [hb]
  have key : p'.setup = p.setup.map (fun r =>
      (r.1.withStep (p.solver.step fun i => (wrapTerm 1 (p'.terms i)).toTerm), r.2.1, r.2.2.1,
        p.solver.init (fun i => (wrapTerm 1 (p'.terms i)).toTerm) r.1.t0 (min r.2.1 r.1.t1) p.y0)) := by
    unfold Problem.setup
    simp only [hd, hd', hcheck, hsubs2, e0, e1, e2, hev, hdt0, h.controller, h.solver, h.y0, h.dense,
      h.rootFinder, h.dist, h.maxSteps, h.cleanErr, h.floorOf, h.mid, h.ctrlState, h.solverState.1,
      h.solverState.2]
    cases p.checkDt0 with
    | error e => rfl
    | ok _ =>
      cases hc : p.controller (-1) with
      | error e => rfl
      | ok w =>
        simp only [bind, Except.bind, hfirst w hc]
        generalize (List.forM _ _ : Except FrontError PUnit) = z
        cases z with
        | error e => rfl
        | ok _ =>
          cases firstStep w (fun i => wrapTerm (-1) (p.terms i)) (p.t0 * ((-1 : Int) : T))
              (p.t1 * ((-1 : Int) : T)) p.y0 (p.dt0.map (· * ((-1 : Int) : T))) p.ctrlState <;> rfl
  unfold diffeqsolve MirrorResult
  rw [key]
  cases hs : p.setup with
  | error e => rfl
  | ok r =>
    obtain ⟨cfg, tnext, ctrl, ss⟩ := r
    have hcfg : ss = p.solver.init (fun i => (wrapTerm (-1) (p.terms i)).toTerm) cfg.t0 (min tnext cfg.t1) p.y0
        ∧ cfg.solver.step = p.solver.step (fun i => (wrapTerm (-1) (p.terms i)).toTerm) := by
      unfold Problem.setup at hs
      simp only [hd, h.solverState.1, bind, Except.bind] at hs
      split at hs
      · cases hs
      split at hs
      · cases hs
      split at hs
      · cases hs
      split at hs
      · cases hs
      simp only [pure, Except.pure, Except.ok.injEq, Prod.mk.injEq] at hs
      obtain ⟨rfl, rfl, rfl, rfl⟩ := hs
      exact ⟨rfl, rfl⟩
    simp only [Except.map, bind, Except.bind, pure, Except.pure]
    have sim := solve_sim cfg (p.solver.step fun i => (wrapTerm 1 (p'.terms i)).toTerm)
      (fun c x => R c.solverState x) p.y0 tnext ctrl ss
      (p.solver.init (fun i => (wrapTerm 1 (p'.terms i)).toTerm) cfg.t0 (min tnext cfg.t1) p.y0)
      (p.madeJump.getD false) (by
        show R ss _
        rw [hcfg.1]; exact hR0 _ _ _) (by
        intro c _ x hx
        have := hR _ _ hx c.tprev c.tnext c.y c.madeJump
        refine ⟨by unfold solverOut; rw [hcfg.2]; exact this.1, fun _ => ?_⟩
        have e : (coreBody cfg c).1.solverState = if accepted cfg c then
            (cfg.solver.step c.tprev c.tnext c.y c.solverState c.madeJump).state else c.solverState := by
          unfold coreBody accepted
          rfl
        rw [e, hcfg.2]
        split
        · exact this.2
        · exact hx)
    rw [h.y0, h.madeJump]
    set o' := solve (cfg.withStep (p.solver.step fun i => (wrapTerm 1 (p'.terms i)).toTerm)) p.y0 tnext ctrl
      (p.solver.init (fun i => (wrapTerm 1 (p'.terms i)).toTerm) cfg.t0 (min tnext cfg.t1) p.y0)
      (p.madeJump.getD false) with ho'
    set o := solve cfg p.y0 tnext ctrl ss (p.madeJump.getD false) with ho
    clear_value o o'
    have hc := congrArg Output.core sim
    have hsv : o'.saves = o.saves := by have e := congrArg Output.saves sim; exact e
    have hdn : o'.dense = o.dense := by have e := congrArg Output.dense sim; exact e
    have hres : o'.result = o.result := by have e := congrArg Output.result sim; exact e
    have ht0 : cfg.t0 = p.t0 * ((-1 : Int) : T) ∧ cfg.t1 = p.t1 * ((-1 : Int) : T) := by
      unfold Problem.setup at hs
      simp only [hd, h.solverState.1, bind, Except.bind] at hs
      split at hs
      · cases hs
      split at hs
      · cases hs
      split at hs
      · cases hs
      split at hs
      · cases hs
      simp only [pure, Except.pure, Except.ok.injEq, Prod.mk.injEq] at hs
      obtain ⟨rfl, rfl, rfl, rfl⟩ := hs
      exact ⟨rfl, rfl⟩
    have hn1 : o'.core.numSteps = o.core.numSteps := by have e := congrArg Core.numSteps hc; exact e
    have hn2 : o'.core.numAccepted = o.core.numAccepted := by have e := congrArg Core.numAccepted hc; exact e
    have hn3 : o'.core.numRejected = o.core.numRejected := by have e := congrArg Core.numRejected hc; exact e
    have hn4 : o'.core.ctrlState = o.core.ctrlState := by have e := congrArg Core.ctrlState hc; exact e
    have hn5 : o'.core.madeJump = o.core.madeJump := by have e := congrArg Core.madeJump hc; exact e
    have hn6 : o'.core.evMask = o.core.evMask := by have e := congrArg Core.evMask hc; exact e
    refine ⟨?_, ?_, ?_, ?_, hn1, hn2, hn3, hres, hn4, hn5, hn6⟩
    · simp only [Problem.finish, hd, hd', Cfg.withStep]; push_cast; ring
    · simp only [Problem.finish, hd, hd', Cfg.withStep]; push_cast; ring
    · simp only [Problem.finish, hd, hd', hsv, List.map_map]
      apply List.map_congr_left
      intro x _
      simp only [Function.comp, List.map_map]
      apply List.map_congr_left
      intro x _
      cases x <;> simp [Slot.scale]
    · intro t left
      simp only [Sol.evaluate, Problem.finish, hd, hd', denseOf, hdn, Cfg.withStep, h.y0]
      rw [show t * ((1 : Int) : T) = -t * ((-1 : Int) : T) by push_cast; ring]

/-! ### The hypotheses of `C20_mirror`: terms -/

/-- `ODETerm(f)` is mirrored by `ODETerm(g)` with `g s y = -f (-s) y`. -/
theorem odeK_mirror [Module T VF] (f : T → VF → VF) :
    (odeK f).MirrorOf (odeK (fun s y => -f (-s) y)) (-1) where
  sign := .inr rfl
  vf s y := by simp [odeK]
  contr s0 s1 := by simp only [odeK]; rw [neg_neg, one_smul]; ring
  prod := rfl
  vfProd s y c := by simp [odeK]
  expensive := rfl
  bilinear v c := by simp [odeK]

/-- `ControlTerm(f, X)` is mirrored by `ControlTerm(f(-s, y), X(-s))`. -/
theorem controlK_mirror (f : T → Y → VF) (prod : VF → Ct → Y) (path : T → Ct)
    (hprod : ∀ v c, prod (-v) (-c) = prod v c) :
    (controlK f prod path).MirrorOf (controlK (fun s y => f (-s) y) prod (fun s => path (-s))) 1 where
  sign := .inl rfl
  vf s y := by simp [controlK]
  contr s0 s1 := by simp [controlK]
  prod := rfl
  vfProd s y c := by simp [controlK]
  expensive := rfl
  bilinear := hprod

/-! ### The hypotheses of `C20_mirror`: controllers -/

theorem stepToClass_mirror (ts : List T) :
    (stepToClass (m := m) (Y := Y) (VF := VF) (Ct := Ct) (E := E) (ts.map (- ·)) 1) = stepToClass ts (-1) := by
  simp [stepToClass, Function.comp_def]

theorem stepToClass_blind (ts : List T) (dir : Int) (w : WrappedController m T Y VF Ct E Nat)
    (h : stepToClass ts dir = .ok w) : w.Blind := by
  unfold stepToClass at h
  simp only at h
  split at h
  · cases h
  split at h
  · cases h
  cases h
  intro _ _ _ _ _ _ _ _; rfl

theorem clipClass_blind [SuccOrder T] [PredOrder T] (c : Clip T)
    (inner : Int → Except FrontError (WrappedController m T Y VF Ct E C)) (dir : Int)
    (hin : ∀ w, inner dir = .ok w → w.Blind) (w : WrappedController m T Y VF Ct E (ClipState T C))
    (h : clipClass c inner dir = .ok w) : w.Blind := by
  unfold clipClass at h
  cases hw : inner dir with
  | error e => rw [hw] at h; cases h
  | ok w' =>
    rw [hw] at h
    cases h
    intro A B hA hB t0 t1 y dt0
    simp only [hin w' hw A B hA hB]

theorem sort_unique {l l' : List T} (h : l.Perm l') :
    l.mergeSort (fun a b => decide (a ≤ b)) = l'.mergeSort (fun a b => decide (a ≤ b)) := by
  have tr : ∀ a b c : T, decide (a ≤ b) = true → decide (b ≤ c) = true → decide (a ≤ c) = true := by
    intro a b c; simp only [decide_eq_true_eq]; exact le_trans
  have tot : ∀ a b : T, (decide (a ≤ b) || decide (b ≤ a)) = true := by
    intro a b; simpa using le_total a b
  have s1 := List.pairwise_mergeSort tr tot l
  have s2 := List.pairwise_mergeSort tr tot l'
  refine List.Perm.eq_of_pairwise (le := fun a b => a ≤ b) (fun a b _ _ h1 h2 => le_antisymm h1 h2)
    (s1.imp (by simp)) (s2.imp (by simp))
    (((List.mergeSort_perm _ _).trans h).trans (List.mergeSort_perm _ _).symm)

/-- The mirrored `ClipStepSizeController`, built from the negated times. -/
theorem clipClass_mirror [SuccOrder T] [PredOrder T] (st jt : Option (List T)) (n : Option Nat) (c c' : Clip T)
    (inner inner' : Int → Except FrontError (WrappedController m T Y VF Ct E C))
    (hc : Clip.mk? st jt n = some c)
    (hc' : Clip.mk? (st.map (fun l => l.map (- ·))) (jt.map (fun l => l.map (- ·))) n = some c')
    (hin : inner' 1 = inner (-1)) : clipClass c' inner' 1 = clipClass c inner (-1) := by
  have key : ∀ l : List T,
      (((l.map (- ·)).mergeSort (fun a b => decide (a ≤ b))).map (· * ((1 : Int) : T))).mergeSort
        (fun a b => decide (a ≤ b))
      = ((l.mergeSort (fun a b => decide (a ≤ b))).map (· * ((-1 : Int) : T))).mergeSort
        (fun a b => decide (a ≤ b)) := by
    intro l
    apply sort_unique
    have e1 : (fun x : T => x * ((1 : Int) : T)) = id := by funext x; simp
    have e2 : (fun x : T => x * ((-1 : Int) : T)) = (- ·) := by funext x; simp
    rw [e1, e2, List.map_id]
    exact (List.mergeSort_perm _ _).trans ((List.mergeSort_perm l _).symm.map _)
  have hwrap : c'.wrap (· * ((1 : Int) : T)) = c.wrap (· * ((-1 : Int) : T)) := by
    unfold Clip.mk? at hc hc'
    split at hc
    · cases hc
    rename_i hn
    rw [if_neg hn] at hc'
    cases hc; cases hc'
    simp only [Clip.wrap, Option.map_map, Clip.mk.injEq, and_true]
    constructor
    · cases st with
      | none => rfl
      | some l => simp only [Option.map_some, Function.comp]; rw [key]
    · cases jt with
      | none => rfl
      | some l => simp only [Option.map_some, Function.comp]; rw [key]
  unfold clipClass
  rw [hin, hwrap]

end

section
variable {K : Type} [Field K] [LinearOrder K] [FloorRing K]

theorem constClass_mirror (up : K → K) :
    constClass (m := m) (Y := Y) (VF := VF) (Ct := Ct) (E := E) up 1 = constClass up (-1) := rfl

theorem constClass_blind (up : K → K) (dir : Int) (w : WrappedController m K Y VF Ct E (ConstState K))
    (h : constClass up dir = .ok w) : w.Blind := by
  cases h; intro _ _ _ _ _ _ _ _; rfl

end

section
variable {K : Type} [Field K] [LinearOrder K]

theorem pidClass_mirror (p : Pid K) :
    pidClass (m := m) (Ct := Ct) p 1 = pidClass p (-1) := rfl

/-- `PIDController.init` sees only wrapped terms, so it cannot depend on them. -/
theorem pidFirst_wrapped (p : Pid K) (terms : Fin m → KTerm K (XTree K) (XTree K) Ct)
    (h : ∀ i, (terms i).cls = .wrap) (t0 : K) (y0 : XTree K) : pidFirst p terms t0 y0 = .fin (1 / 100) := by
  unfold pidFirst
  split
  · simp only [h]
  · rfl

theorem pidClass_blind (p : Pid K) (dir : Int)
    (w : WrappedController m K (XTree K) (XTree K) Ct (XTree K) (PidState K))
    (h : pidClass p dir = .ok w) : w.Blind := by
  cases h
  intro A B hA hB t0 t1 y dt0
  cases dt0 with
  | some d => rfl
  | none => simp only [pidFirst_wrapped p A hA, pidFirst_wrapped p B hB]

end


/-! ### The hypotheses of `C20_mirror`: solvers -/

section
variable [AddCommGroup VF] [AddCommGroup Ct]

theorem TermSign.vfProd_contr {A B : Term T Y VF Ct} {ε : Int} (h : TermSign A B ε) (t0 t1 t : T) (y : Y) :
    B.vfProd t y (B.contr t0 t1) = A.vfProd t y (A.contr t0 t1) := by rw [h.contr, h.vfProd]

theorem TermSign.prod_contr {A B : Term T Y VF Ct} {ε : Int} (h : TermSign A B ε) (t0 t1 : T) (v : VF) :
    B.prod (ε • v) (B.contr t0 t1) = A.prod v (A.contr t0 t1) := by
  rw [h.contr, h.prod]
  rcases h.sign with e | e <;> subst e
  · simp
  · simpa using h.bilinear v (A.contr t0 t1)

variable [AddCommGroup Y]

/-- Any solver class made of a `Solver` for each term, without state. -/
def statelessClass (mk : Term T Y VF Ct → Solver T Y E D Unit) (interp : T → T → D → T → Y) (dummy : D) :
    SolverClass 1 T Y VF Ct E D Unit where
  init _ _ _ _ := ()
  step terms := (mk (terms 0)).step
  interp := interp
  dummy := dummy

/-- `Euler`. -/
theorem euler_signInvariant (interp : LocalLin T Y) (dummy : Y × Y) :
    (statelessClass (VF := VF) (Ct := Ct) (fun t => euler t interp) interp dummy).SignInvariant := by
  intro A B ε h
  refine ⟨fun _ _ => True, fun _ _ _ => trivial, fun s s' _ t0 t1 y mj => ⟨?_, trivial⟩⟩
  have e := fun t0 t1 => (h 0).vfProd_contr t0 t1 t0 y
  constructor <;> simp [statelessClass, euler, e]

/-- `ImplicitEuler`. -/
theorem implicitEuler_signInvariant (K : Type) [Field K] [Module K Y] (root : (Y → Y) → Y → Y × Result)
    (interp : LocalLin T Y) (dummy : Y × Y) :
    (statelessClass (VF := VF) (Ct := Ct) (fun t => implicitEuler K t root interp) interp dummy).SignInvariant := by
  intro A B ε h
  refine ⟨fun _ _ => True, fun _ _ _ => trivial, fun s s' _ t0 t1 y mj => ⟨?_, trivial⟩⟩
  have e := fun t0 t1 t y => (h 0).vfProd_contr t0 t1 t y
  constructor <;> simp [statelessClass, implicitEuler, e]

/-- `LeapfrogMidpoint`. -/
def leapfrogClass (interp : LocalLin T Y) (dummy : Y × Y) : SolverClass 1 T Y VF Ct Unit (Y × Y) (T × Y) where
  init _ t0 _ y0 := leapfrogInit t0 y0
  step terms := (leapfrog (terms 0) interp).step
  interp := interp
  dummy := dummy

theorem leapfrog_signInvariant (interp : LocalLin T Y) (dummy : Y × Y) :
    (leapfrogClass (VF := VF) (Ct := Ct) interp dummy).SignInvariant := by
  intro A B ε h
  refine ⟨Eq, fun _ _ _ => rfl, ?_⟩
  rintro s _ rfl t0 t1 y mj
  have e := fun t0 t1 t y => (h 0).vfProd_contr t0 t1 t y
  refine ⟨?_, ?_⟩
  · constructor <;> simp [leapfrogClass, leapfrog, e]
  · simp [leapfrogClass, leapfrog]

/-- `ReversibleHeun`. -/
def reversibleHeunClass (K : Type) [Field K] [Module K Y] (interp : LocalLin T Y) (dummy : Y × Y) :
    SolverClass 1 T Y VF Ct Y (Y × Y) (Y × VF) where
  init terms t0 _ y0 := reversibleHeunInit (terms 0) t0 y0
  step terms := (reversibleHeun K (terms 0) interp).step
  interp := interp
  dummy := dummy

theorem reversibleHeun_signInvariant (K : Type) [Field K] [Module K Y] (interp : LocalLin T Y)
    (dummy : Y × Y) : (reversibleHeunClass K (VF := VF) (Ct := Ct) interp dummy).SignInvariant := by
  intro A B ε h
  refine ⟨fun s s' => s' = (s.1, ε 0 • s.2), fun t0 t1 y0 => ?_, ?_⟩
  · simp [reversibleHeunClass, reversibleHeunInit, (h 0).vf]
  rintro s _ rfl t0 t1 y mj
  have e := fun t0 t1 v => (h 0).prod_contr t0 t1 v
  cases mj with
  | true =>
    refine ⟨?_, ?_⟩
    · constructor <;>
        simp only [reversibleHeunClass, reversibleHeun, if_true, (h 0).vf, e, ← smul_add, ← smul_sub]
    · simp only [reversibleHeunClass, reversibleHeun, if_true, (h 0).vf, e]
  | false =>
    refine ⟨?_, ?_⟩
    · constructor <;>
        simp only [reversibleHeunClass, reversibleHeun, Bool.false_eq_true, if_false, (h 0).vf, e, ← smul_add,
          ← smul_sub]
    · simp only [reversibleHeunClass, reversibleHeun, Bool.false_eq_true, if_false, (h 0).vf, e]

/-- Runge-Kutta solvers: the tableau and root finders of `rk`, applied to the given terms. -/
def rkClass {K J : Type} [Field K] [DecidableEq K] [Module K Y] [Module K VF] (rk : RK m T K Y VF Ct J)
    (interp : T → T → RK.Dense m Y → T → Y) :
    SolverClass m T Y VF Ct (Option Y) (RK.Dense m Y) (RK.State m VF) where
  init terms _ _ _ := ({ rk with term := terms } : RK m T K Y VF Ct J).init
  step terms := ({ rk with term := terms } : RK m T K Y VF Ct J).step
  interp := interp
  dummy := { y0 := 0, y1 := 0, ks := fun _ _ => 0 }

/-- A root finder that finds minus the root of the mirrored equation. (Newton and chord iterations with a
norm do.) -/
structure RootFinder.Odd {X J : Type} [AddCommGroup X] (r : RootFinder X J) : Prop where
  init : ∀ i rel g, r.init i (fun x => -rel (-x)) (-g) = r.init i rel g
  find : ∀ i rel g jac, r.find i (fun x => -rel (-x)) (-g) jac = (-(r.find i rel g jac).1, (r.find i rel g jac).2)

/-- Every Runge-Kutta method: explicit, diagonally implicit, or a pair of both. -/
theorem rk_signInvariant {K J : Type} [Field K] [DecidableEq K] [Module K Y] [Module K VF]
    (rk : RK m T K Y VF Ct J) (interp : T → T → RK.Dense m Y → T → Y) (hroot : rk.rootF.Odd)
    (hone : ∀ p q, (rk.tab p).implicit → (rk.tab q).implicit → p = q) :
    (rkClass rk interp).SignInvariant := by
  intro A B ε h
  have cases_ε : ∀ p, ε p = 1 ∨ ε p = -1 := fun p => (h p).sign
  let ν : Fin m → VF →ₗ[K] VF := fun p => if ε p = 1 then LinearMap.id else -LinearMap.id
  have hν : ∀ p v, ν p v = ε p • v := by
    intro p v
    rcases cases_ε p with e | e <;> simp [ν, e]
  have hc : ({ rk with term := A } : RK m T K Y VF Ct J).Conj B ν :=
    { inv := by intro p v; rw [hν, hν]; rcases cases_ε p with e | e <;> simp [e]
      vf := by intro p t y; rw [hν]; exact (h p).vf t y
      prod := by intro p t0 t1 v; rw [hν]; exact (h p).prod_contr t0 t1 v
      vfProd := fun p t0 t1 t y => (h p).vfProd_contr t0 t1 t y
      expensive := fun p => (h p).expensive
      init := by
        intro p i rel g
        simp only [hν]
        rcases cases_ε p with e | e
        · simp [e]
        · simpa [e] using hroot.init i rel g
      find := by
        intro p i rel g jac
        simp only [hν]
        rcases cases_ε p with e | e
        · simp [e]
        · simpa [e] using hroot.find i rel g jac
      one := hone }
  refine ⟨fun s s' => s' = RK.conjState ν s, fun _ _ _ => ?_, ?_⟩
  · exact RK.conj_init _ hc
  · rintro s _ rfl t0 t1 y mj
    have e := RK.conj_step _ hc t0 t1 y s mj
    change _ ∧ (({ rk with term := B } : RK m T K Y VF Ct J).step t0 t1 y (RK.conjState ν s) mj).state = _
    have e' : ({ rk with term := B } : RK m T K Y VF Ct J).step t0 t1 y (RK.conjState ν s) mj = _ := e
    refine ⟨?_, by rw [e']; rfl⟩
    change StepOut.Agree _ (({ rk with term := B } : RK m T K Y VF Ct J).step t0 t1 y (RK.conjState ν s) mj)
    rw [e']
    exact ⟨rfl, rfl, rfl, rfl⟩
end

section
variable [CommRing T] [LinearOrder T] [IsStrictOrderedRing T] [LinearOrder F] [Zero F] [AddCommGroup Ct]
  [AddCommGroup VF] [AddCommGroup Y]

/-- **C20** for Runge-Kutta methods. -/
theorem C20_mirror_rk {K J : Type} [Field K] [DecidableEq K] [Module K Y] [Module K VF]
    (rk : RK m T K Y VF Ct J) (interp : T → T → RK.Dense m Y → T → Y)
    (hroot : rk.rootF.Odd) (hone : ∀ p q, (rk.tab p).implicit → (rk.tab q).implicit → p = q)
    (p p' : Problem m T Y VF Ct (Option Y) (RK.Dense m Y) (RK.State m VF) C O F) (hp : p.solver = rkClass rk interp)
    (h : p.MirrorOf p') (hback : p.t1 < p.t0) :
    MirrorResult (diffeqsolve p) (diffeqsolve p') :=
  C20_mirror p p' h hback (hp ▸ rk_signInvariant rk interp hroot hone)

end

/-! ## C54 -/

section
variable [CommRing T] [LinearOrder T] [IsStrictOrderedRing T] [LinearOrder F] [Zero F] [AddCommGroup Ct]

theorem zip_any_false (ts : List T) :
    (List.zipWith (fun a b => decide (b < a)) ts ts.tail).any id = false ↔ ts.Pairwise (· ≤ ·) := by
  induction ts with
  | nil => simp
  | cons a l ih =>
    cases l with
    | nil => simp
    | cons b l =>
      have e : (List.zipWith (fun a b => decide (b < a)) (a :: b :: l) (a :: b :: l).tail).any id
          = (decide (b < a) || (List.zipWith (fun a b => decide (b < a)) (b :: l) (b :: l).tail).any id) := rfl
      rw [e, Bool.or_eq_false_iff, ih, List.pairwise_cons (a := a)]
      constructor
      · rintro ⟨h1, h2⟩
        have hab : a ≤ b := by simpa using h1
        refine ⟨fun x hx => ?_, h2⟩
        rcases List.mem_cons.1 hx with rfl | hx
        · exact hab
        · exact hab.trans ((List.pairwise_cons.1 h2).1 x hx)
      · rintro ⟨h1, h2⟩
        exact ⟨by simpa using h1 b (by simp), h2⟩

theorem zip_any_le_false (ts : List T) :
    (List.zipWith (fun a b => decide (b ≤ a)) ts ts.tail).any id = false ↔ ts.Pairwise (· < ·) := by
  induction ts with
  | nil => simp
  | cons a l ih =>
    cases l with
    | nil => simp
    | cons b l =>
      have e : (List.zipWith (fun a b => decide (b ≤ a)) (a :: b :: l) (a :: b :: l).tail).any id
          = (decide (b ≤ a) || (List.zipWith (fun a b => decide (b ≤ a)) (b :: l) (b :: l).tail).any id) := rfl
      rw [e, Bool.or_eq_false_iff, ih, List.pairwise_cons (a := a)]
      constructor
      · rintro ⟨h1, h2⟩
        have hab : a < b := by simpa using h1
        refine ⟨fun x hx => ?_, h2⟩
        rcases List.mem_cons.1 hx with rfl | hx
        · exact hab
        · exact hab.trans ((List.pairwise_cons.1 h2).1 x hx)
      · rintro ⟨h1, h2⟩
        exact ⟨by simpa using h1 b (by simp), h2⟩

theorem checkTs_ok (t0 t1 : T) (ts : List T) :
    checkTs t0 t1 ts = .ok () ↔ ts.Pairwise (· ≤ ·) ∧ ∀ t ∈ ts, t0 ≤ t ∧ t ≤ t1 := by
  unfold checkTs
  rw [← zip_any_false]
  by_cases h1 : (List.zipWith (fun a b => decide (b < a)) ts ts.tail).any id = true
  · rw [if_pos h1]; simp [h1]
  · rw [if_neg h1]
    by_cases h2 : ts.any (fun t => decide (t1 < t) || decide (t < t0)) = true
    · rw [if_pos h2]
      simp only [List.any_eq_true, Bool.or_eq_true, decide_eq_true_eq] at h2
      obtain ⟨t, ht, h⟩ := h2
      constructor
      · intro h; cases h
      · rintro ⟨_, h'⟩
        have := h' t ht
        rcases h with h | h
        · exact absurd this.2 (not_le.2 h)
        · exact absurd this.1 (not_le.2 h)
    · rw [if_neg h2]
      refine ⟨fun _ => ⟨by simpa using h1, fun t ht => ?_⟩, fun _ => rfl⟩
      have h2' : (ts.any fun t => decide (t1 < t) || decide (t < t0)) = false := by simpa using h2
      rw [List.any_eq_false] at h2'
      have := h2' t ht
      simp only [Bool.or_eq_true, decide_eq_true_eq, not_or, not_lt] at this
      exact ⟨this.2, this.1⟩

theorem forM_ok {α : Type} (f : α → Except FrontError Unit) (l : List α) :
    l.forM f = .ok () ↔ ∀ a ∈ l, f a = .ok () := by
  induction l with
  | nil => simp [List.forM, pure, Except.pure]
  | cons a l ih =>
    simp only [List.forM_eq_forM, List.forM_cons] at ih ⊢
    cases h : f a with
    | error e => simp [bind, Except.bind, h]
    | ok u => simp [bind, Except.bind, h, ih]

theorem dir_pairwise_neg (l : List T) :
    (l.map (· * ((-1 : Int) : T))).Pairwise (· ≤ ·) ↔ l.Pairwise (· ≥ ·) := by
  simp [List.pairwise_map]

theorem dir_pairwise_pos (l : List T) :
    (l.map (· * ((1 : Int) : T))).Pairwise (· ≤ ·) ↔ l.Pairwise (· ≤ ·) := by
  simp

theorem checkAll_ok (p : Problem m T Y VF Ct E D S C O F) :
    ((p.subs.map (fun s => { s with ts := s.ts.map (· * (p.direction : T)) })).forM
      (fun s => checkTs (p.t0 * p.direction) (p.t1 * p.direction) s.ts)) = .ok () ↔ p.TsValid := by
  rw [forM_ok]
  unfold Problem.TsValid
  simp only [List.mem_map, forall_exists_index, and_imp, forall_apply_eq_imp_iff₂, checkTs_ok]
  refine forall₂_congr fun s _ => ?_
  unfold Problem.direction
  by_cases h : p.t0 < p.t1
  · simp [h]
  · simp only [h, if_false, dir_pairwise_neg]
    simp [and_comm]

/-- **C54.** `diffeqsolve` returns (rather than raising) if and only if `dt0` does not point the wrong way,
the requested times are monotone in the direction of integration and lie within the interval of
integration, and the controller accepts its arguments. -/
theorem C54_accepts_iff (p : Problem m T Y VF Ct E D S C O F) :
    (∃ s, diffeqsolve p = .ok s) ↔
      (∀ dt0, p.dt0 = some dt0 → 0 ≤ (p.t1 - p.t0) * dt0) ∧ p.TsValid ∧
      ∃ w, p.controller p.direction = .ok w ∧
        ∃ r, firstStep w (fun i => wrapTerm p.direction (p.terms i)) (p.t0 * p.direction)
          (p.t1 * p.direction) p.y0 (p.dt0.map (· * (p.direction : T))) p.ctrlState = .ok r := by
  have hdt : p.checkDt0 = .ok () ↔ ∀ dt0, p.dt0 = some dt0 → 0 ≤ (p.t1 - p.t0) * dt0 := by
    unfold Problem.checkDt0
    cases p.dt0 with
    | none => simp
    | some d =>
      simp only [Option.some.injEq, forall_eq']
      split
      · rename_i h; simp [h]
      · rename_i h; simpa using h
  rw [← hdt, ← checkAll_ok]
  unfold diffeqsolve Problem.setup
  cases p.checkDt0 with
  | error e => simp [bind, Except.bind]
  | ok u =>
    cases hc : p.controller p.direction with
    | error e => simp [bind, Except.bind, hc]
    | ok w =>
      simp only [bind, Except.bind, hc]
      generalize (List.forM _ _ : Except FrontError PUnit) = z
      cases z with
      | error e => simp
      | ok u =>
        simp only [Except.ok.injEq, exists_eq_left', true_and]
        cases firstStep w (fun i => wrapTerm p.direction (p.terms i)) (p.t0 * p.direction)
          (p.t1 * p.direction) p.y0 (p.dt0.map (· * (p.direction : T))) p.ctrlState with
        | error e => simp
        | ok r => simp [pure, Except.pure]

/-- **C54** for the sign of `dt0`: a positive step backwards, or a negative one forwards, is an error. -/
theorem C54_dt0_sign (p : Problem m T Y VF Ct E D S C O F) (s : Sol T Y D S C O F) (h : diffeqsolve p = .ok s)
    (dt0 : T) (hdt : p.dt0 = some dt0) :
    (p.t0 < p.t1 → 0 ≤ dt0) ∧ (p.t1 < p.t0 → dt0 ≤ 0) := by
  have h' := ((C54_accepts_iff p).1 ⟨s, h⟩).1 dt0 hdt
  constructor
  · intro hlt
    exact nonneg_of_mul_nonneg_right h' (sub_pos.2 hlt)
  · intro hlt
    have : 0 ≤ (p.t0 - p.t1) * (-dt0) := by
      rw [show (p.t0 - p.t1) * (-dt0) = (p.t1 - p.t0) * dt0 by ring]; exact h'
    have := nonneg_of_mul_nonneg_right this (sub_pos.2 hlt)
    linarith

/-- **C54** for `StepTo`: `wrap` and `init` accept if and only if `dt0` is not given, there are at least two
times, they are strictly monotone in the direction of integration, and the first and last are `t0` and
`t1`. -/
theorem C54_stepTo (ts : List T) (fwd : Bool) (terms : Fin m → KTerm T Y VF Ct) (t0 t1 : T) (y0 : Y)
    (dt0 : Option T) :
    (∃ w : WrappedController m T Y VF Ct E Nat, stepToClass ts (if fwd then 1 else -1) = .ok w ∧
      ∃ r, w.init terms (t0 * ((if fwd then 1 else -1 : Int) : T)) (t1 * ((if fwd then 1 else -1 : Int) : T)) y0
        dt0 = .ok r) ↔
    dt0 = none ∧ 2 ≤ ts.length ∧ (if fwd then ts.Pairwise (· < ·) else ts.Pairwise (· > ·)) ∧
      ts.head? = some t0 ∧ ts.getLast? = some t1 := by
  have hmono : ((List.zipWith (fun a b => decide (b ≤ a)) (ts.map (· * ((if fwd then 1 else -1 : Int) : T)))
      (ts.map (· * ((if fwd then 1 else -1 : Int) : T))).tail).any id = false) ↔
      (if fwd then ts.Pairwise (· < ·) else ts.Pairwise (· > ·)) := by
    rw [zip_any_le_false, List.pairwise_map]
    cases fwd <;> simp
  have hinj : Function.Injective (fun x : T => x * ((if fwd then 1 else -1 : Int) : T)) := by
    intro a b hab
    cases fwd <;> simpa using hab
  unfold stepToClass
  by_cases h2 : ts.length < 2
  · simp [h2]
  · simp only [h2, if_false]
    by_cases hm : (if fwd then ts.Pairwise (· < ·) else ts.Pairwise (· > ·))
    · have hm' := hmono.2 hm
      simp only [hm', Bool.false_eq_true, if_false, Except.ok.injEq, exists_eq_left', hm, true_and,
        not_lt.1 h2]
      cases dt0 with
      | some d => simp
      | none =>
        have hhead : (ts.map (· * ((if fwd then 1 else -1 : Int) : T))).head? =
            some (t0 * ((if fwd then 1 else -1 : Int) : T)) ↔ ts.head? = some t0 := by
          rw [List.head?_map]
          exact (Option.map_injective hinj).eq_iff (b := some t0)
        have hlast : (ts.map (· * ((if fwd then 1 else -1 : Int) : T))).getLast? =
            some (t1 * ((if fwd then 1 else -1 : Int) : T)) ↔ ts.getLast? = some t1 := by
          rw [List.getLast?_map]
          exact (Option.map_injective hinj).eq_iff (b := some t1)
        simp only [stepToInit, Bool.false_eq_true, if_false, ne_eq, hhead, hlast, true_and]
        by_cases hh : ts.head? = some t0 ∧ ts.getLast? = some t1
        · rw [if_neg (by tauto)]
          have hl : 1 < (ts.map (· * ((if fwd then 1 else -1 : Int) : T))).length := by
            rw [List.length_map]; omega
          rw [List.getElem?_eq_getElem hl]
          simp [hh]
        · rw [if_pos (by tauto)]
          simp [hh]
    · have hm' : (List.zipWith (fun a b => decide (b ≤ a)) (ts.map (· * ((if fwd then 1 else -1 : Int) : T)))
          (ts.map (· * ((if fwd then 1 else -1 : Int) : T))).tail).any id = true := by
        rw [← Bool.not_eq_false, hmono]; exact hm
      rw [if_pos hm']
      simp [hm]

end

/-- **C54** for `SubSaveAt`: accepted exactly when there is something to save; an empty `ts` counts as none. -/
theorem C54_subSaveAt (t0 t1 : Bool) (ts : Option (List T)) (steps : Nat) (fn : T → Y → O) :
    (∃ s, subSaveAtNew t0 t1 ts steps fn = .ok s) ↔
      t0 = true ∨ t1 = true ∨ (∃ l, ts = some l ∧ l ≠ []) ∨ steps ≠ 0 := by
  unfold subSaveAtNew
  cases t0 <;> cases t1 <;> simp
  cases ts with
  | none => by_cases h : steps = 0 <;> simp [h]
  | some l =>
    cases l with
    | nil => by_cases h : steps = 0 <;> simp [h]
    | cons a l => simp

/-- **C54** for `SaveAt`: `subs` cannot be combined with the other fields, and without `subs` the other
fields, if given, must not be empty. -/
theorem C54_saveAt (t0 t1 : Bool) (ts : Option (List T)) (steps : Nat) (fn : T → Y → O)
    (subs : Option (List (SubSaveAt T Y O))) :
    (∃ l, saveAtNew t0 t1 ts steps fn subs = .ok l) ↔
      (subs.isSome → t0 = false ∧ t1 = false ∧ ts = none ∧ steps = 0) ∧
      (subs = none → ts = some [] → t0 = true ∨ t1 = true ∨ steps ≠ 0) := by
  unfold saveAtNew
  cases subs with
  | some l =>
    cases t0 <;> cases t1 <;> cases ts <;> by_cases h : steps = 0 <;> simp [h]
  | none =>
    cases t0 <;> cases t1 <;> cases ts <;> by_cases h : steps = 0 <;>
      simp [h, subSaveAtNew, bind, Except.bind, pure, Except.pure]
    rename_i l
    cases l <;> simp

end Verif
