import Verif.Lemmas.RK
import Verif.Lemmas.Sim
import Mathlib.Data.Int.SuccPred
import Verif.Props.Loop
import Verif.Spec.Clip
import Verif.Lemmas.Clip
import Mathlib.Algebra.Field.Rat
import Mathlib.Algebra.Order.Ring.Rat
import Mathlib.Tactic.NormNum
import Mathlib.Data.Int.SuccPred

/-!
# Properties of Runge-Kutta steps: C40, C41
-/

set_option linter.unusedSectionVars false

namespace Verif
open Finset

section
variable {T K Y VF Ct J : Type} {m : Nat}
variable [Field K] [DecidableEq K] [AddCommGroup Y] [Module K Y] [AddCommGroup VF] [Module K VF]

/-! ### C41: a step computes the tableau's formula -/

theorem treeDot_eq {V : Type} [AddCommGroup V] [Module K V] (a : List K) (n : Nat) (h : a.length = n)
    (k : Nat → V) : treeDot a k = ∑ i ∈ range n, a.getD i 0 • k i := by
  subst h; rfl

/-- **C41.** If no implicit solve failed, there are stages `k` satisfying the method's equations such
that the step returns `y0 + sum b_i k_i` and the error estimate `sum e_i k_i`; the stages are what is
stored for dense output; and a first-same-as-last method hands on the vector field at the returned
value. This holds for explicit and diagonally implicit methods, for several interleaved tableaus, in
each evaluation mode, whether or not the first stage was taken over from the previous step. -/
theorem C41_step_formula (rk : RK m T K Y VF Ct J) (h : rk.WF) (hf : rk.FsalOK) (hroot : rk.RootExact)
    (t0 t1 : T) (y0 : Y) (st : RK.State m VF) (mj : Bool) (hst : rk.ValidState t0 y0 st mj)
    (hok : (rk.step t0 t1 y0 st mj).result.isOkay = true) :
    ∃ k, rk.IsStages t0 t1 y0 k ∧
      (rk.step t0 t1 y0 st mj).y = y0 + rk.combine Tableau.bSol k ∧
      (rk.step t0 t1 y0 st mj).err = some (rk.combine Tableau.bError k) ∧
      (∀ p, ∀ i < rk.numStages, (rk.step t0 t1 y0 st mj).dense.ks p i = k p i) ∧
      (rk.step t0 t1 y0 st mj).dense.y0 = y0 ∧
      (rk.step t0 t1 y0 st mj).dense.y1 = (rk.step t0 t1 y0 st mj).y ∧
      (rk.fsal = true → ∃ f1, (rk.step t0 t1 y0 st mj).state = some (false, f1) ∧
        ∀ p, f1 p = (rk.term p).vf (rk.stageTime t0 t1 p (rk.numStages - 1))
          (rk.step t0 t1 y0 st mj).y) := by
  obtain ⟨hi1, hi2⟩ := rk.initStage_inv hf t0 t1 y0 st mj hst
  have h2 := h.two
  obtain ⟨hidx, hinv⟩ := rk.stages_inv h hroot t0 t1 y0 rk.numStages _ (by omega)
    (by omega) (fun _ => hi1)
  have hinv := hinv hok
  set fin := rk.stages t0 t1 y0 rk.numStages (rk.initStage t0 t1 y0 st mj) with hfin
  have hks : (rk.step t0 t1 y0 st mj).dense.ks = rk.kOf t0 t1 fin := by
    funext p i
    by_cases hs : rk.storeFs = true
    · simp [RK.step, RK.kOf, hs, RK.prods, ← hfin]
    · simp [RK.step, RK.kOf, hs, ← hfin]
  have hlast : ∀ p, (rk.tab p).bSolEqual = true →
      ∑ i ∈ range rk.numStages, (rk.tab p).bSol.getD i 0 • rk.kOf t0 t1 fin p i
      = ∑ j ∈ range (rk.numStages - 1), (rk.tab p).a (rk.numStages - 1) j • rk.kOf t0 t1 fin p j
        + (rk.tab p).d (rk.numStages - 1) • rk.kOf t0 t1 fin p (rk.numStages - 1) :=
    fun p hp => (rk.tab p).bSol_last rk.numStages (h.shape p) h2 hp _
  have hyi : (∀ p, (rk.tab p).bSolEqual = true) →
      fin.yi = y0 + rk.combine Tableau.bSol (rk.kOf t0 t1 fin) := by
    intro hall
    rw [hinv.value (by omega), hidx]
    unfold RK.stageValue RK.combine
    congr 1
    exact sum_congr rfl fun p _ => (hlast p (hall p)).symm
  have hy : (rk.step t0 t1 y0 st mj).y = y0 + rk.combine Tableau.bSol (rk.kOf t0 t1 fin) := by
    have e : (rk.step t0 t1 y0 st mj).y =
        if (List.finRange m).any (fun p => !(rk.tab p).ssal) then
          y0 + ∑ p, treeDot (rk.tab p).bSol ((rk.step t0 t1 y0 st mj).dense.ks p) else fin.yi := rfl
    rw [e, hks]
    split
    · congr 1
      exact sum_congr rfl fun p _ => treeDot_eq _ _ (h.shape p).bSol _
    · rename_i hn
      apply hyi
      intro p
      apply Tableau.ssal_bSol
      simp only [List.any_eq_true, not_exists, not_and] at hn
      have := hn p (List.mem_finRange p)
      simpa using this
  refine ⟨rk.kOf t0 t1 fin, ?_, hy, ?_, ?_, rfl, rfl, ?_⟩
  · intro i hi p
    exact hinv.slope i (by omega) p
  · have e : (rk.step t0 t1 y0 st mj).err = if fin.result.isOkay then
        some (∑ p, treeDot (rk.tab p).bError ((rk.step t0 t1 y0 st mj).dense.ks p)) else none := rfl
    have hok' : fin.result.isOkay = true := hok
    rw [e, hok', if_pos rfl, hks]
    congr 1
    exact sum_congr rfl fun p _ => treeDot_eq _ _ (h.shape p).bError _
  · intro p i _
    rw [hks]
  · intro hfs
    refine ⟨fin.f1, by simp [RK.step, hfs, ← hfin], ?_⟩
    intro p
    rw [hinv.last (by omega) hfs p, hidx, hy, hyi (fun p =>
      (rk.tab p).fsal_bSol (rk.fsal_tab hfs p))]

/-- **C41.** If a step reports a failed implicit solve, its error estimate is infinite. -/
theorem C41_failed_solve (rk : RK m T K Y VF Ct J) (t0 t1 : T) (y0 : Y) (st : RK.State m VF) (mj : Bool)
    (hbad : (rk.step t0 t1 y0 st mj).result.isOkay = false) :
    (rk.step t0 t1 y0 st mj).err = none := by
  have e : (rk.step t0 t1 y0 st mj).err = if (rk.step t0 t1 y0 st mj).result.isOkay then
        some (∑ p, treeDot (rk.tab p).bError ((rk.step t0 t1 y0 st mj).dense.ks p)) else none := rfl
  rw [e, hbad]; rfl

theorem RK.stage_result_explicit (rk : RK m T K Y VF Ct J) (hex : rk.implicitPart = none) (t0 t1 : T)
    (y0 : Y) (s : StageState m Y VF J) : (rk.stage t0 t1 y0 s).result = s.result := by
  simp [RK.stage, hex, RK.stageEnd]

theorem RK.stages_result_explicit (rk : RK m T K Y VF Ct J) (hex : rk.implicitPart = none) (t0 t1 : T)
    (y0 : Y) (n : Nat) (s : StageState m Y VF J) : (rk.stages t0 t1 y0 n s).result = s.result := by
  induction n generalizing s with
  | zero => rfl
  | succ n ih =>
    simp only [RK.stages]
    split
    · rw [ih, rk.stage_result_explicit hex]
    · rfl

/-- **C41.** An explicit step always succeeds. -/
theorem C41_explicit_succeeds (rk : RK m T K Y VF Ct J) (hex : ∀ p, (rk.tab p).implicit = false)
    (t0 t1 : T) (y0 : Y) (st : RK.State m VF) (mj : Bool) :
    (rk.step t0 t1 y0 st mj).result = .successful := by
  have hex' : rk.implicitPart = none := by
    unfold RK.implicitPart
    rw [List.find?_eq_none]
    intro p _; simp [hex p]
  have : (rk.step t0 t1 y0 st mj).result
      = (rk.stages t0 t1 y0 rk.numStages (rk.initStage t0 t1 y0 st mj)).result := rfl
  rw [this, rk.stages_result_explicit hex']
  unfold RK.initStage
  split <;> rfl

/-- **C41.** For explicit methods the equations determine the stages. -/
theorem C41_explicit_unique (rk : RK m T K Y VF Ct J) (hex : ∀ p, (rk.tab p).implicit = false)
    (t0 t1 : T) (y0 : Y) (k k' : Fin m → Nat → Y) (hk : rk.IsStages t0 t1 y0 k)
    (hk' : rk.IsStages t0 t1 y0 k') : ∀ i < rk.numStages, ∀ p, k p i = k' p i := by
  intro i
  induction i using Nat.strong_induction_on with
  | _ i ih =>
    intro hi p
    rw [hk i hi p, hk' i hi p]
    congr 2
    unfold RK.stageValue
    congr 1
    apply sum_congr rfl
    intro q _
    rw [(rk.tab q).d_explicit (hex q), zero_smul, zero_smul]
    congr 1
    apply sum_congr rfl
    intro j hj
    have hj' : j < i := by simpa using hj
    rw [ih j hj' (by omega) q]

/-! ### C40: the FSAL optimisation is invisible -/

/-- When an implicit method can skip its first stage: its root finder solves trivial problems, and the
Jacobian is not that of the first stage (for such methods the class asserts the first stage to be
implicit, 961-963). -/
structure RK.SkipOK (rk : RK m T K Y VF Ct J) : Prop where
  trivial : rk.implicitPart.isSome = true → rk.rootF.SolvesTrivial
  jac : rk.implicitPart.isSome = true → rk.calcJac = .everyStage ∨ rk.calcJac = .secondStage

theorem RK.stages_extra (rk : RK m T K Y VF Ct J) (t0 t1 : T) (y0 : Y) (n : Nat)
    (s : StageState m Y VF J) (h : rk.numStages ≤ n + s.idx) :
    rk.stages t0 t1 y0 (n + 1) s = rk.stages t0 t1 y0 n s := by
  induction n generalizing s with
  | zero =>
    have : ¬ s.idx < rk.numStages := by omega
    simp [RK.stages, this]
  | succ n ih =>
    by_cases hlt : s.idx < rk.numStages
    · have e1 : rk.stages t0 t1 y0 (n + 1 + 1) s
          = rk.stages t0 t1 y0 (n + 1) (rk.stage t0 t1 y0 s) := by rw [RK.stages, if_pos hlt]
      have e2 : rk.stages t0 t1 y0 (n + 1) s = rk.stages t0 t1 y0 n (rk.stage t0 t1 y0 s) := by
        rw [RK.stages, if_pos hlt]
      rw [e1, e2]
      exact ih _ (by rw [rk.stage_idx]; omega)
    · simp [RK.stages, hlt]

/-- A stage does not depend on the previous stage's value, nor (when it is recomputed) on the Jacobian. -/
theorem RK.stage_congr (rk : RK m T K Y VF Ct J) (t0 t1 : T) (y0 : Y) (s s' : StageState m Y VF J)
    (hfs : rk.fsal = true) (hi : s.idx = s'.idx) (hf : s.fs = s'.fs) (hk : s.ks = s'.ks)
    (hr : s.result = s'.result)
    (hj : s.jac = s'.jac ∨ (rk.implicitPart.isSome = true ∧
      (rk.calcJac = .everyStage ∨ (rk.calcJac = .secondStage ∧ s'.idx = 1)))) :
    rk.stage t0 t1 y0 s = rk.stage t0 t1 y0 s' := by
  obtain ⟨i, yi, f1, jac, fs, ks, r⟩ := s
  obtain ⟨i', yi', f1', jac', fs', ks', r'⟩ := s'
  simp only at hi hf hk hr hj
  subst hi hf hk hr
  rcases hj with hj | ⟨hsome, hj⟩
  · subst hj
    simp only [RK.stage, RK.partialY, RK.solveF, RK.solveK, RK.stageEnd, hfs, if_true]
  · have hnew : ∀ new : J, rk.newJac i jac new = rk.newJac i jac' new := by
      intro new
      unfold RK.newJac
      rcases hj with hj | ⟨hj, hone⟩
      · simp [hj]
      · simp [hj, hone]
    have hev : rk.evalFs = true := by rw [← rk.fsal_evalFs]; exact hfs
    obtain ⟨p, hp⟩ := Option.isSome_iff_exists.1 hsome
    simp only [RK.stage, hp, hev, if_true, RK.partialY, RK.solveF, RK.stageEnd, hfs, hnew]

/-- **C40 (one step).** Taking the first stage over from the previous step gives exactly the same step as
evaluating it. -/
theorem C40_step (rk : RK m T K Y VF Ct J) (h : rk.WF) (hf : rk.FsalOK) (hs : rk.SkipOK)
    (t0 t1 : T) (y0 : Y) (st : RK.State m VF) (mj : Bool) (hst : rk.ValidState t0 y0 st mj) :
    rk.step t0 t1 y0 st mj = rk.step t0 t1 y0 rk.init mj := by
  suffices hmain : rk.stages t0 t1 y0 rk.numStages (rk.initStage t0 t1 y0 st mj)
      = rk.stages t0 t1 y0 rk.numStages (rk.initStage t0 t1 y0 rk.init mj) by
    unfold RK.step
    rw [hmain]
  by_cases hfs : rk.fsal = true
  swap
  · congr 1
    simp [RK.initStage, hfs]
  have hev : rk.evalFs = true := by rw [← rk.fsal_evalFs]; exact hfs
  obtain ⟨b, f0, rfl, hb⟩ := hst hfs
  by_cases he : (b || mj) = true
  · congr 1
    simp [RK.initStage, hfs, he, RK.init]
  have he' : (b || mj) = false := by simpa using he
  have hvf : ∀ p, f0 p = (rk.term p).vf t0 y0 := by
    rcases hb with hb | hb | hb
    · simp [hb] at he'
    · simp [hb] at he'
    · exact hb
  set q := rk.initStage t0 t1 y0 (some (b, f0)) mj with hq
  set s0 := rk.initStage t0 t1 y0 rk.init mj with hs0
  have h2 := h.two
  have hs0i : s0.idx = 0 := by simp [hs0, RK.initStage, hfs, RK.init]
  have hqi : q.idx = 1 := by simp [hq, RK.initStage, hfs, he']
  have hp0 : rk.partialY t0 t1 y0 s0 = y0 := by
    rw [rk.partialY_eq h t0 t1 y0 s0 (by omega), hs0i]
    simp
  have htime : ∀ p, rk.timeAt t0 t1 ((rk.tab p).cAt 0) = t0 := by
    intro p
    rw [rk.timeAt_eq, rk.stageTime_zero hf hfs]
  have hd0 : ∀ p, (rk.tab p).diagAt 0 = 0 := fun p => (rk.tab p).fsal_d (rk.fsal_tab hfs p)
  -- the state after the first stage
  have hfirst : ∃ jac, rk.stage t0 t1 y0 s0 = rk.stageEnd t0 t1 s0 y0
      (match rk.implicitPart with | none => none | some p => some ((rk.term p).vf t0 y0)) none
      jac .successful ∧ (rk.implicitPart = none → jac = s0.jac) := by
    have hs0r : s0.result = .successful := by simp [hs0, RK.initStage, hfs]
    cases hp : rk.implicitPart with
    | none =>
      refine ⟨s0.jac, ?_, fun _ => rfl⟩
      simp only [RK.stage, hp, hp0, hs0r]
    | some p =>
      have htriv := hs.trivial (by simp [hp])
      have hrel : rk.relF p t0 t1 ((rk.tab p).diagAt s0.idx)
          (rk.timeAt t0 t1 ((rk.tab p).cAt s0.idx)) y0 = fun x => x - (rk.term p).vf t0 y0 := by
        funext x
        simp [RK.relF, hs0i, hd0, htime]
      have hsol : ∃ jac, rk.solveF t0 t1 y0 y0 p s0 = ((rk.term p).vf t0 y0, jac, .successful) := by
        simp only [RK.solveF, hrel, htriv _ _ _ _]
        exact ⟨_, rfl⟩
      obtain ⟨jac, hsol⟩ := hsol
      refine ⟨jac, ?_, fun h => by simp at h⟩
      simp only [RK.stage, hp, hp0, hev, if_true, hsol, hs0i, hd0, zero_smul, add_zero, hs0r]
      rfl
  obtain ⟨jac, hfirst, hjac⟩ := hfirst
  have hfi : ∀ p, (if (rk.tab p).implicit = true then
      (match rk.implicitPart with | none => none | some p => some ((rk.term p).vf t0 y0)).getD 0
      else (rk.term p).vf t0 y0) = (rk.term p).vf t0 y0 := by
    intro p
    cases himp : (rk.tab p).implicit with
    | false => simp
    | true =>
      cases hp : rk.implicitPart with
      | none => simp [rk.implicitPart_none hp p] at himp
      | some p' =>
        have := h.oneImplicit p p' himp (rk.implicitPart_some hp)
        subst this
        simp
  have hstage1 : rk.stage t0 t1 y0 (rk.stage t0 t1 y0 s0) = rk.stage t0 t1 y0 q := by
    apply rk.stage_congr t0 t1 y0 _ _ hfs
    · rw [rk.stage_idx, hs0i, hqi]
    · rw [hfirst]
      funext p
      by_cases hst : rk.storeFs = true
      · simp only [RK.stageEnd, hst, if_true, hs0i, htime, hfi]
        simp [hs0, hq, RK.initStage, hfs, hst, he', RK.init, hvf]
      · simp [RK.stageEnd, hst, hs0, hq, RK.initStage, hfs]
    · rw [hfirst]
      funext p
      by_cases hst : rk.storeFs = true
      · simp [RK.stageEnd, hst, hs0, hq, RK.initStage, hfs]
      · have hst' : rk.storeFs = false := by simpa using hst
        simp only [RK.stageEnd, hst', Bool.false_eq_true, if_false, hs0i, htime, hfi, hev, if_true,
          RK.prods]
        simp [hs0, hq, RK.initStage, hfs, hst', he', RK.init, hvf, RK.prods]
    · rw [hfirst]
      simp [RK.stageEnd, hq, RK.initStage, hfs]
    · cases hp : rk.implicitPart with
      | none =>
        left
        rw [hfirst]
        have := hjac hp
        simp only [RK.stageEnd, this]
        simp [hs0, hq, RK.initStage, hfs]
      | some p =>
        right
        refine ⟨rfl, ?_⟩
        rcases hs.jac (by simp [hp]) with hj | hj
        · exact Or.inl hj
        · exact Or.inr ⟨hj, hqi⟩
  obtain ⟨n, hn⟩ : ∃ n, rk.numStages = n + 2 := ⟨rk.numStages - 2, by omega⟩
  have e1 : rk.stages t0 t1 y0 (n + 2) s0
      = rk.stages t0 t1 y0 n (rk.stage t0 t1 y0 (rk.stage t0 t1 y0 s0)) := by
    rw [RK.stages, if_pos (by omega), RK.stages, if_pos (by rw [rk.stage_idx]; omega)]
  have e2 : rk.stages t0 t1 y0 (n + 2) q = rk.stages t0 t1 y0 n (rk.stage t0 t1 y0 q) := by
    rw [RK.stages, if_pos (by omega), rk.stages_extra]
    rw [rk.stage_idx]; omega
  rw [hn, e1, e2, hstage1]

section
variable {E D S C O F : Type} [LinearOrder T] [LinearOrder F] [Zero F]

/-- The step of a method that forgets everything between steps and evaluates every stage. -/
def RK.scratchStep (rk : RK m T K Y VF Ct J) (t0 t1 : T) (y0 : Y) (_ : Unit) (madeJump : Bool) :
    StepOut Y (Option Y) (RK.Dense m Y) Unit :=
  let r := rk.step t0 t1 y0 rk.init madeJump
  { y := r.y, err := r.err, dense := r.dense, state := (), result := r.result }

/-- What is needed of the controller: if the next step does not start where an accepted one ended, the
next step is flagged as following a jump; and rejected steps are retried from where they started,
unless that start was flagged or nothing has been accepted yet. -/
def Flagged (cfg : Cfg T Y E D S C O F) (fresh : Prop) (s : Core T Y D S C F) : Prop :=
  (accepted cfg s = true → (adaptOut cfg s).madeJump = true ∨ (adaptOut cfg s).tprev = s.tnext) ∧
  (accepted cfg s = false → (adaptOut cfg s).tprev = s.tprev ∨ s.madeJump = true ∨
    (s.numAccepted = 0 ∧ fresh))

/-- While a solve goes on, the stored vector field is always that at the start of the next step, unless it is
not going to be used. -/
theorem RK.valid_history (rk : RK m T K Y VF Ct J) (h : rk.WF) (hf : rk.FsalOK)
    (hroot : rk.RootExact) (cfg : Cfg T Y (Option Y) (RK.Dense m Y) (RK.State m VF) C O F)
    (hwf : cfg.WF) (hsolver : cfg.solver.step = rk.step) (y0 : Y) (tnext : T) (ctrl : C)
    (st0 : RK.State m VF) (mj : Bool) (hst0 : rk.ValidState cfg.t0 y0 st0 mj)
    (hctrl : ∀ s ∈ history cfg y0 tnext ctrl st0 mj, Flagged cfg (st0 = rk.init) s) :
    ∀ s ∈ history cfg y0 tnext ctrl st0 mj, rk.ValidState s.tprev s.y s.solverState s.madeJump := by
  have hmain := run_inv cfg (fun c => c.tprev ≤ cfg.t1 ∧ c.tnext ≤ cfg.t1 ∧
    (c.numAccepted = 0 → c.solverState = st0) ∧
    (condFun cfg c = true → rk.ValidState c.tprev c.y c.solverState c.madeJump)) cfg.maxSteps
    (initState cfg y0 tnext ctrl st0 mj).core ⟨hwf.le, min_le_right _ _, fun _ => rfl, fun _ => hst0⟩ ?_
  · exact fun s hs => (hmain.1 s hs).2.2.2 (attempts_cond cfg _ _ s hs)
  · rintro c hc hcc ⟨h1, h2, h4, h3⟩
    have h3 := h3 hcc
    obtain ⟨hacc, hrej⟩ := hctrl c hc
    have hout : solverOut cfg c = rk.step c.tprev c.tnext c.y c.solverState c.madeJump := by
      unfold solverOut; rw [hsolver]
    have e1 : (coreBody cfg c).1.tprev = min (adaptOut cfg c).tprev cfg.t1 := rfl
    have e2 : (coreBody cfg c).1.tnext = clipToEnd cfg.mid (min (adaptOut cfg c).tprev cfg.t1)
      (adaptOut cfg c).tnext cfg.t1 cfg.floor (adaptOut cfg c).keep := rfl
    have hle : min (adaptOut cfg c).tprev cfg.t1 ≤ cfg.t1 := min_le_right _ _
    refine ⟨by rw [e1]; exact hle, ?_, ?_, ?_⟩
    · rw [e2]; unfold clipToEnd
      dsimp only
      split
      · split
        · exact le_refl _
        · exact hwf.mid_le _ hle
      · rename_i hcl; exact le_trans (not_lt.1 hcl) hwf.floor_le
    · intro hna
      have e3 : (coreBody cfg c).1.solverState
          = if accepted cfg c then (solverOut cfg c).state else c.solverState := rfl
      rw [coreBody_numAccepted] at hna
      cases ha : accepted cfg c with
      | true => rw [ha] at hna; simp at hna
      | false =>
        rw [e3, ha, if_neg (by simp)]
        exact h4 (by omega)
    · intro hcond hfs
      have hcs := condFun_succ cfg c hcc
      have hns := condFun_succ cfg _ hcond
      have e3 : (coreBody cfg c).1.solverState
          = if accepted cfg c then (solverOut cfg c).state else c.solverState := rfl
      have e4 : (coreBody cfg c).1.y = if accepted cfg c then (solverOut cfg c).y else c.y := rfl
      have e5 : (coreBody cfg c).1.madeJump
          = if accepted cfg c then (adaptOut cfg c).madeJump else c.madeJump := rfl
      cases ha : accepted cfg c with
      | true =>
        rw [e1, e3, e4, e5, ha, if_pos rfl, if_pos rfl, if_pos rfl]
        have hok : (solverOut cfg c).result.isOkay = true := by
          rw [coreBody_result cfg c hcs] at hns
          by_contra hbad
          have hbad' : (solverOut cfg c).result.isOkay = false := by simpa using hbad
          split at hns
          · simp [Result.isSuccessful] at hns
          · rw [if_pos ⟨ha, hbad'⟩] at hns
            unfold Result.isOkay at hbad'
            rw [hns] at hbad'
            simp at hbad'
        rw [hout] at hok ⊢
        obtain ⟨k, _, _, _, _, _, _, hlast⟩ := C41_step_formula rk h hf hroot _ _ _ _ _ h3 hok
        obtain ⟨f1, hf1, hf1v⟩ := hlast hfs
        refine ⟨false, f1, hf1, Or.inr ?_⟩
        rcases hacc ha with hj | hj
        · exact Or.inl hj
        · right
          intro p
          have htime : rk.stageTime c.tprev c.tnext p (rk.numStages - 1) = c.tnext := by
            unfold RK.stageTime
            rw [if_pos (hf.cLast hfs p)]
          rw [hf1v p, htime, hj, min_eq_left h2]
      | false =>
        rw [e1, e3, e4, e5, ha, if_neg (by simp), if_neg (by simp), if_neg (by simp)]
        obtain ⟨b, f0, hb, hv⟩ := h3 hfs
        refine ⟨b, f0, hb, ?_⟩
        rcases hrej ha with hj | hj | ⟨hj, hfresh⟩
        · rw [hj, min_eq_left h1]; exact hv
        · exact Or.inr (Or.inl hj)
        · left
          have := h4 hj
          rw [hb, hfresh] at this
          simp only [RK.init, hfs, if_true, Option.some.injEq, Prod.mk.injEq] at this
          exact this.1

/-- **C40.** A whole solve, across all rejections and jumps, gives exactly the same saved values, dense
output, statistics and result whether first stages are taken over from the previous accepted step or
all stages of all steps are evaluated from scratch. -/
theorem C40_fsal_invisible (rk : RK m T K Y VF Ct J) (h : rk.WF) (hf : rk.FsalOK) (hs : rk.SkipOK)
    (hroot : rk.RootExact) (cfg : Cfg T Y (Option Y) (RK.Dense m Y) (RK.State m VF) C O F)
    (hwf : cfg.WF) (hsolver : cfg.solver.step = rk.step) (y0 : Y) (tnext : T) (ctrl : C)
    (st0 : RK.State m VF) (mj : Bool) (hst0 : rk.ValidState cfg.t0 y0 st0 mj)
    (hctrl : ∀ s ∈ history cfg y0 tnext ctrl st0 mj, Flagged cfg (st0 = rk.init) s) :
    (solve (cfg.withStep rk.scratchStep) y0 tnext ctrl () mj).forget
      = (solve cfg y0 tnext ctrl st0 mj).forget := by
  apply solve_sim cfg rk.scratchStep (fun _ _ => True) _ _ _ _ _ _ trivial
  rintro c hc x -
  have h3 := rk.valid_history h hf hroot cfg hwf hsolver y0 tnext ctrl st0 mj hst0 hctrl c hc
  have hout : solverOut cfg c = rk.step c.tprev c.tnext c.y c.solverState c.madeJump := by
    unfold solverOut; rw [hsolver]
  refine ⟨?_, fun _ => trivial⟩
  rw [hout, C40_step rk h hf hs c.tprev c.tnext c.y c.solverState c.madeJump h3]
  exact ⟨rfl, rfl, rfl, rfl⟩

/-- Controllers without jumps of their own (constant, `StepTo`, PID) flag what has to be flagged. -/
theorem flagged_exact (cfg : Cfg T Y E D S C O F) (hctrl : cfg.controller.Exact) (fresh : Prop)
    (s : Core T Y D S C F) : Flagged cfg fresh s := by
  have := hctrl s.tprev s.tnext s.y (solverOut cfg s).y (cfg.cleanErr (solverOut cfg s).err) s.ctrlState
  exact ⟨fun ha => Or.inr (this.1 ha), fun ha => Or.inl (this.2 ha)⟩

/-- So does a `ClipStepSizeController` around such a controller. -/
theorem flagged_clip [SuccOrder T] [PredOrder T] [NoMaxOrder T] [NoMinOrder T]
    (cfg : Cfg T Y E D S (ClipState T C) O F) (hwf : cfg.WF) (c : Clip T)
    (inner : Controller T Y E C) (hin : inner.Exact) (hctrl : cfg.controller = clipController c inner)
    (y0 : Y) (tnext : T) (ctrl : ClipState T C) (ss : S) (mj : Bool) (fresh : Prop) (hfresh : fresh) :
    ∀ s ∈ history cfg y0 tnext ctrl ss mj, Flagged cfg fresh s := by
  have hao : ∀ s, adaptOut cfg s = c.adapt inner s.tprev s.tnext s.y (solverOut cfg s).y
      (cfg.cleanErr (solverOut cfg s).err) s.ctrlState := by
    intro s; unfold adaptOut; rw [hctrl]; rfl
  have htp : ∀ s, (accepted cfg s = true → (adaptOut cfg s).tprev = (bumpT0 s.tnext c.jumps).1 ∧
        ((bumpT0 s.tnext c.jumps).2 = true → (adaptOut cfg s).madeJump = true)) ∧
      (accepted cfg s = false → (adaptOut cfg s).tprev = (bumpT0 s.tprev c.jumps).1) := by
    intro s
    have ht := adapt_tprev c inner s.tprev s.tnext s.y (solverOut cfg s).y
      (cfg.cleanErr (solverOut cfg s).err) s.ctrlState
    have hk : accepted cfg s = (inner.adapt s.tprev s.tnext s.y (solverOut cfg s).y
      (cfg.cleanErr (solverOut cfg s).err) s.ctrlState.inner).keep := by
      unfold accepted; rw [hao s]; rfl
    have hx := hin s.tprev s.tnext s.y (solverOut cfg s).y
      (cfg.cleanErr (solverOut cfg s).err) s.ctrlState.inner
    rw [hao s, ht.1, ht.2]
    refine ⟨fun ha => ?_, fun ha => ?_⟩
    · rw [hx.1 (by rw [← hk]; exact ha)]
      exact ⟨rfl, fun hb => by simp [hb]⟩
    · rw [hx.2 (by rw [← hk]; exact ha)]
  have hinv := (run_inv cfg (fun s => s.tprev ≤ cfg.t1 ∧ s.tnext ≤ cfg.t1 ∧
      (s.numAccepted = 0 ∨ s.madeJump = true ∨ bumpT0 s.tprev c.jumps = (s.tprev, false)))
    cfg.maxSteps (initState cfg y0 tnext ctrl ss mj).core
    ⟨hwf.le, min_le_right _ _, Or.inl rfl⟩ (by
      rintro s hs - ⟨h1, h2, h3⟩
      have e1 : (coreBody cfg s).1.tprev = min (adaptOut cfg s).tprev cfg.t1 := rfl
      have e2 : (coreBody cfg s).1.tnext = clipToEnd cfg.mid (min (adaptOut cfg s).tprev cfg.t1)
        (adaptOut cfg s).tnext cfg.t1 cfg.floor (adaptOut cfg s).keep := rfl
      have e5 : (coreBody cfg s).1.madeJump
            = if accepted cfg s then (adaptOut cfg s).madeJump else s.madeJump := rfl
      have hle : min (adaptOut cfg s).tprev cfg.t1 ≤ cfg.t1 := min_le_right _ _
      refine ⟨by rw [e1]; exact hle, ?_, ?_⟩
      · rw [e2]; unfold clipToEnd
        dsimp only
        split
        · split
          · exact le_refl _
          · exact hwf.mid_le _ hle
        · rename_i hcl; exact le_trans (not_lt.1 hcl) hwf.floor_le
      · cases ha : accepted cfg s with
        | true =>
          obtain ⟨g1, g2⟩ := (htp s).1 ha
          rw [e1, e5, ha, if_pos rfl, g1]
          rcases bump_cases s.tnext c.jumps with ⟨_, _, hb⟩ | ⟨_, hb⟩ | ⟨_, _, hb⟩
          · rw [hb]
            right; right
            simp only
            rw [min_eq_left h2]; exact hb
          · exact Or.inr (Or.inl (g2 (by rw [hb])))
          · exact Or.inr (Or.inl (g2 (by rw [hb])))
        | false =>
          have g1 := (htp s).2 ha
          rw [e1, e5, ha, if_neg (by simp), g1, coreBody_numAccepted, ha]
          rcases h3 with h3 | h3 | h3
          · left; simpa using h3
          · exact Or.inr (Or.inl h3)
          · right; right
            rw [h3]
            simp only
            rw [min_eq_left h1]; exact h3)).1
  intro s hs
  refine ⟨fun ha => ?_, fun ha => ?_⟩
  · obtain ⟨g1, g2⟩ := (htp s).1 ha
    rcases bump_cases s.tnext c.jumps with ⟨_, _, hb⟩ | ⟨_, hb⟩ | ⟨_, _, hb⟩
    · right; rw [g1, hb]
    · exact Or.inl (g2 (by rw [hb]))
    · exact Or.inl (g2 (by rw [hb]))
  · have g1 := (htp s).2 ha
    rcases (hinv s hs).2.2 with h3 | h3 | h3
    · exact Or.inr (Or.inr ⟨h3, hfresh⟩)
    · exact Or.inr (Or.inl h3)
    · left; rw [g1, h3]

/-- **C40, simple controllers.** With a controller without jumps of its own (constant, `StepTo`, PID). -/
theorem C40_exact (rk : RK m T K Y VF Ct J) (h : rk.WF) (hf : rk.FsalOK) (hs : rk.SkipOK)
    (hroot : rk.RootExact) (cfg : Cfg T Y (Option Y) (RK.Dense m Y) (RK.State m VF) C O F)
    (hwf : cfg.WF) (hsolver : cfg.solver.step = rk.step) (hctrl : cfg.controller.Exact)
    (y0 : Y) (tnext : T) (ctrl : C)
    (st0 : RK.State m VF) (mj : Bool) (hst0 : rk.ValidState cfg.t0 y0 st0 mj) :
    (solve (cfg.withStep rk.scratchStep) y0 tnext ctrl () mj).forget
      = (solve cfg y0 tnext ctrl st0 mj).forget := by
  exact C40_fsal_invisible rk h hf hs hroot cfg hwf hsolver y0 tnext ctrl st0 mj hst0
    fun s _ => flagged_exact cfg hctrl _ s

/-- **C40, with jumps.** With a `ClipStepSizeController` around such a controller: no matter where the
jumps are and which steps are rejected, stale vector fields are never used. -/
theorem C40_clip [SuccOrder T] [PredOrder T] [NoMaxOrder T] [NoMinOrder T] (rk : RK m T K Y VF Ct J) (h : rk.WF) (hf : rk.FsalOK)
    (hs : rk.SkipOK) (hroot : rk.RootExact)
    (cfg : Cfg T Y (Option Y) (RK.Dense m Y) (RK.State m VF) (ClipState T C) O F)
    (hwf : cfg.WF) (hsolver : cfg.solver.step = rk.step) (c : Clip T)
    (inner : Controller T Y (Option Y) C) (hin : inner.Exact)
    (hctrl : cfg.controller = clipController c inner)
    (y0 : Y) (tnext : T) (ctrl : ClipState T C) (mj : Bool) :
    (solve (cfg.withStep rk.scratchStep) y0 tnext ctrl () mj).forget
      = (solve cfg y0 tnext ctrl rk.init mj).forget := by
  have hst0 : rk.ValidState cfg.t0 y0 rk.init mj := by
    intro hfs
    exact ⟨true, fun _ => 0, by simp [RK.init, hfs], Or.inl rfl⟩
  exact C40_fsal_invisible rk h hf hs hroot cfg hwf hsolver y0 tnext ctrl rk.init mj hst0
    (flagged_clip cfg hwf c inner hin hctrl y0 tnext ctrl rk.init mj _ rfl)

end

end

/-! ### Non-vacuity -/

/-- Bosh3 (`bosh3.py` 8-25). -/
def bosh3Toy : Tableau Rat :=
  { c := [1/2, 3/4, 1], bSol := [2/9, 1/3, 4/9, 0], bError := [2/9 - 7/24, 1/3 - 1/4, 4/9 - 1/3, -1/8]
    aLower := [[1/2], [0, 3/4], [2/9, 1/3, 4/9]], c1 := 0 }

/-- The trapezoidal rule as an ESDIRK method. -/
def trapToy : Tableau Rat :=
  { c := [1], bSol := [1/2, 1/2], bError := [1/2, -1/2], aLower := [[1/2]]
    aDiagonal := some [0, 1/2], aPredictor := [[1]], c1 := 0 }

/-- A root finder that is exact on affine functions and reports failure otherwise. -/
def affineRoot : RootFinder Rat Unit where
  init _ _ _ := ()
  find _ rel _ _ :=
    let x := -rel 0 / (rel 1 - rel 0)
    if rel x = 0 then (x, .successful) else (x, .other 0)

theorem affineRoot_exact : affineRoot.Exact := by
  intro i rel guess jac h
  unfold affineRoot at h ⊢
  simp only at h ⊢
  split at h
  · rename_i hz; rw [if_pos hz]; exact hz
  · simp [Result.isOkay, Result.isSuccessful, Result.isEvent] at h

theorem affineRoot_trivial : affineRoot.SolvesTrivial := by
  intro i v guess jac
  simp [affineRoot]

/-- `y' = y` up to time 10 and `y' = 7 - y` after it. -/
def jumpTerm : Term Int Rat Rat Rat :=
  { vf := fun t y => if t ≤ 10 then y else 7 - y
    contr := fun a b => (b - a : Rat)
    prod := fun f c => f * c
    vfProd := fun t y c => (if t ≤ 10 then y else 7 - y) * c }

def rkToy (tab : Tableau Rat) : RK 1 Int Rat Rat Rat Rat Unit :=
  { tab := fun _ => tab, term := fun _ => jumpTerm, at' := fun a b c => if c = 0 then a else (a + b) / 2
    calcJac := .secondStage, rootF := affineRoot, rootK := affineRoot, noJac := () }

theorem bosh3Toy_shape : bosh3Toy.Shape 4 where
  c := rfl
  bSol := rfl
  bError := rfl
  rows := rfl
  row := by decide
  diag := by intro d h; simp [bosh3Toy] at h

theorem trapToy_shape : trapToy.Shape 2 where
  c := rfl
  bSol := rfl
  bError := rfl
  rows := rfl
  row := by decide
  diag := by intro d h; simp [trapToy] at h; subst h; rfl

theorem rkToy_WF (tab : Tableau Rat) (hs : tab.Shape tab.bSol.length) (h2 : 2 ≤ tab.bSol.length) :
    (rkToy tab).WF where
  pos := by decide
  shape := fun p => hs
  two := h2
  oneImplicit := fun p q _ _ => Subsingleton.elim p q
  add := fun p f g c => add_mul f g c
  smul := fun p a f c => by simp only [rkToy, jumpTerm, smul_eq_mul]; rw [mul_assoc]
  vfProd := fun p t y c => rfl

theorem rkToy_fsalOK (tab : Tableau Rat) (h1 : tab.c1 = 0)
    (h2 : tab.abscissa (tab.bSol.length - 1) = 1) : (rkToy tab).FsalOK where
  c1 := fun _ _ => h1
  cLast := fun _ _ => h2
  at_zero := fun a b => by simp [rkToy]

theorem rkToy_skipOK (tab : Tableau Rat) : (rkToy tab).SkipOK where
  trivial := fun _ => affineRoot_trivial
  jac := fun _ => Or.inr rfl

theorem rkToy_root (tab : Tableau Rat) : (rkToy tab).RootExact :=
  fun _ => ⟨affineRoot_exact, affineRoot_exact⟩

/-- Accepts steps no longer than 2. -/
def rkToyController : Controller Int Rat (Option Rat) Int where
  adapt a b _ _ _ c :=
    if b - a ≤ 2 then
      { keep := true, tprev := b, tnext := b + 2 * (b - a), madeJump := false, state := c + 1,
        result := .successful }
    else
      { keep := false, tprev := a, tnext := a + (b - a) / 2, madeJump := false, state := c + 1,
        result := .successful }

theorem rkToyController_exact : rkToyController.Exact := by
  intro a b y0 y1 e st
  unfold rkToyController AdaptOut.Exact
  dsimp only
  split <;> simp

def rkToyCfg (tab : Tableau Rat) (c : Clip Int) :
    Cfg Int Rat (Option Rat) (RK.Dense 1 Rat) (RK.State 1 Rat) (ClipState Int Int) Rat Rat :=
  { solver := (rkToy tab).solver (fun _ _ d _ => d.y1)
    controller := clipController c rkToyController, cleanErr := id, events := []
    rootFinder := none, dist := fun a b => (a - b : Rat), dummyDense := ⟨0, 0, fun _ _ => 0⟩
    t0 := 0, t1 := 14, floor := 13, mid := fun a b => (a + b) / 2
    subs := [{ t0 := false, t1 := true, ts := [], steps := 1, fn := fun _ y => y }]
    dense := false, maxSteps := 20 }

/-- C41: one step of Bosh3 and of the (implicit) trapezoidal rule, on `y' = y` over `[0, 1]`. -/
example : (rkToy bosh3Toy).WF ∧ (rkToy bosh3Toy).FsalOK ∧ (rkToy bosh3Toy).RootExact ∧
    (rkToy bosh3Toy).ValidState 0 1 (some (false, fun _ => 1)) false ∧
    ((rkToy bosh3Toy).step 0 1 1 (some (false, fun _ => 1)) false).result.isOkay = true ∧
    ((rkToy bosh3Toy).step 0 1 1 (some (false, fun _ => 1)) false).y = 8 / 3 ∧
    ((rkToy bosh3Toy).step 0 1 1 (some (false, fun _ => 1)) false).err = some (-1 / 24) := by
  refine ⟨rkToy_WF _ bosh3Toy_shape (by decide), rkToy_fsalOK _ rfl (by decide +kernel), rkToy_root _, ?_,
    by decide +kernel, by decide +kernel, by decide +kernel⟩
  intro _
  exact ⟨false, _, rfl, Or.inr (Or.inr (fun _ => rfl))⟩

example : (rkToy trapToy).WF ∧ (rkToy trapToy).FsalOK ∧ (rkToy trapToy).RootExact ∧
    (rkToy trapToy).ValidState 0 1 (some (false, fun _ => 1)) false ∧
    ((rkToy trapToy).step 0 1 1 (some (false, fun _ => 1)) false).result.isOkay = true ∧
    ((rkToy trapToy).step 0 1 1 (some (false, fun _ => 1)) false).y = 3 ∧
    ((rkToy trapToy).step 0 1 1 (some (false, fun _ => 1)) false).err = some (-1) := by
  refine ⟨rkToy_WF _ trapToy_shape (by decide), rkToy_fsalOK _ rfl (by decide +kernel), rkToy_root _, ?_,
    by decide +kernel, by decide +kernel, by decide +kernel⟩
  intro _
  exact ⟨false, _, rfl, Or.inr (Or.inr (fun _ => rfl))⟩

/-- C40: both methods on a discontinuous problem whose jump is declared: there are rejected steps, a
flagged step, and steps that reuse a stage. -/
example : (rkToyCfg bosh3Toy ⟨none, some [10], none⟩).WF ∧ (rkToy bosh3Toy).SkipOK ∧
    rkToyController.Exact ∧
    (history (rkToyCfg bosh3Toy ⟨none, some [10], none⟩) 1 3 ⟨0, 0, 0, [], 0⟩ (rkToy bosh3Toy).init
      false).map (fun s => (s.tprev, s.tnext, s.madeJump, s.solverState.map (fun x => (x.1, x.2 0))))
      = [(0, 3, false, some (true, 0)), (0, 1, false, some (true, 0)),
        (1, 3, false, some (false, 8 / 3)), (3, 7, false, some (false, 152 / 9)),
        (3, 5, false, some (false, 152 / 9)), (5, 9, false, some (false, 2888 / 27)),
        (5, 7, false, some (false, 2888 / 27)), (7, 9, false, some (false, 54872 / 81)),
        (11, 13, true, some (false, 1042568 / 243)), (13, 14, false, some (false, 1040867 / 729))] := by
  refine ⟨⟨by decide, by decide, ?_, ?_⟩, rkToy_skipOK _, rkToyController_exact, by decide +kernel⟩
  · intro a h; simp only [rkToyCfg] at *; omega
  · intro a h; simp only [rkToyCfg] at *; omega

end Verif
