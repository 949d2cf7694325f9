import Verif.Model.RK
import Verif.Spec.RK
import Mathlib.Algebra.Module.LinearMap.Defs
import Mathlib.Algebra.Module.BigOperators

/-!
# Runge-Kutta steps are unchanged if vector field values and controls are transformed together

If the vector field values of each term go through a linear involution `ν` (such as a change of sign) and
the controls are changed so that products stay the same, then so do values, errors and dense information.
-/

set_option linter.unusedSectionVars false

namespace Verif
open Finset

variable {T K Y VF Ct J : Type} {m : Nat}
variable [Field K] [DecidableEq K] [AddCommGroup Y] [Module K Y] [AddCommGroup VF] [Module K VF]

/-- `term'` is `term` with vector field values transformed by `ν` and controls to match. -/
structure RK.Conj (rk : RK m T K Y VF Ct J) (term' : Fin m → Term T Y VF Ct) (ν : Fin m → VF →ₗ[K] VF) :
    Prop where
  inv : ∀ p v, ν p (ν p v) = v
  vf : ∀ p t y, (term' p).vf t y = ν p ((rk.term p).vf t y)
  prod : ∀ p t0 t1 v, (term' p).prod (ν p v) ((term' p).contr t0 t1)
    = (rk.term p).prod v ((rk.term p).contr t0 t1)
  vfProd : ∀ p t0 t1 t y, (term' p).vfProd t y ((term' p).contr t0 t1)
    = (rk.term p).vfProd t y ((rk.term p).contr t0 t1)
  expensive : ∀ p, (term' p).vfExpensive = (rk.term p).vfExpensive
  init : ∀ p i rel g, rk.rootF.init i (fun x => ν p (rel (ν p x))) (ν p g) = rk.rootF.init i rel g
  find : ∀ p i rel g jac, rk.rootF.find i (fun x => ν p (rel (ν p x))) (ν p g) jac
    = (ν p (rk.rootF.find i rel g jac).1, (rk.rootF.find i rel g jac).2)
  one : ∀ p q, (rk.tab p).implicit → (rk.tab q).implicit → p = q

/-- The same state of the stage loop, with vector field values transformed. -/
def StageState.conj (ν : Fin m → VF →ₗ[K] VF) (s : StageState m Y VF J) : StageState m Y VF J :=
  { s with f1 := fun p => ν p (s.f1 p), fs := fun p i => ν p (s.fs p i) }

namespace RK
variable (rk : RK m T K Y VF Ct J) {term' : Fin m → Term T Y VF Ct} {ν : Fin m → VF →ₗ[K] VF}

theorem conj_vfExpensive (h : rk.Conj term' ν) : ({ rk with term := term' } : RK m T K Y VF Ct J).vfExpensive
    = rk.vfExpensive := by
  simp only [vfExpensive, h.expensive]

theorem conj_fsal (h : rk.Conj term' ν) : ({ rk with term := term' } : RK m T K Y VF Ct J).fsal = rk.fsal := by
  simp only [fsal, rk.conj_vfExpensive h]

theorem conj_evalFs (h : rk.Conj term' ν) : ({ rk with term := term' } : RK m T K Y VF Ct J).evalFs
    = rk.evalFs := by
  simp only [evalFs, rk.conj_vfExpensive h, rk.conj_fsal h]

theorem conj_storeFs (h : rk.Conj term' ν) : ({ rk with term := term' } : RK m T K Y VF Ct J).storeFs
    = rk.storeFs := by
  simp only [storeFs, rk.conj_evalFs h]
  rfl

theorem conj_prods (h : rk.Conj term' ν) (t0 t1 : T) (f : Fin m → VF) :
    ({ rk with term := term' } : RK m T K Y VF Ct J).prods t0 t1 (fun p => ν p (f p)) = rk.prods t0 t1 f := by
  funext p
  exact h.prod p t0 t1 (f p)

theorem treeDot_conj (l : VF →ₗ[K] VF) (a : List K) (buf : Nat → VF) :
    treeDot a (fun i => l (buf i)) = l (treeDot a buf) := by
  simp only [treeDot, map_sum, map_smul]

theorem conj_partialY (h : rk.Conj term' ν) (t0 t1 : T) (y0 : Y) (s : StageState m Y VF J) :
    ({ rk with term := term' } : RK m T K Y VF Ct J).partialY t0 t1 y0 (s.conj ν) = rk.partialY t0 t1 y0 s := by
  simp only [partialY, rk.conj_storeFs h, StageState.conj, treeDot_conj]
  by_cases hs : rk.storeFs = true
  · simp only [hs, if_true]
    have := rk.conj_prods h t0 t1 (fun p => treeDot ((rk.tab p).row rk.numStages s.idx) (s.fs p))
    rw [← this]
    rfl
  · simp only [hs]
    rfl

theorem conj_relF (h : rk.Conj term' ν) (p : Fin m) (t0 t1 : T) (diag : K) (ti : T) (yP : Y) :
    ({ rk with term := term' } : RK m T K Y VF Ct J).relF p t0 t1 diag ti yP
      = fun x => ν p (rk.relF p t0 t1 diag ti yP (ν p x)) := by
  funext x
  have e := h.prod p t0 t1 (ν p x)
  rw [h.inv] at e
  simp only [relF, control, map_sub, h.inv, h.vf, e]

theorem conj_relK (h : rk.Conj term' ν) (p : Fin m) (t0 t1 : T) (diag : K) (ti : T) (yP : Y) :
    ({ rk with term := term' } : RK m T K Y VF Ct J).relK p t0 t1 diag ti yP
      = rk.relK p t0 t1 diag ti yP := by
  funext x
  simp only [relK, control, h.vfProd]

theorem conj_newJac (i : Nat) (jac new : J) :
    ({ rk with term := term' } : RK m T K Y VF Ct J).newJac i jac new = rk.newJac i jac new := rfl

theorem conj_solveF (h : rk.Conj term' ν) (t0 t1 : T) (y0 yP : Y) (p : Fin m) (s : StageState m Y VF J) :
    ({ rk with term := term' } : RK m T K Y VF Ct J).solveF t0 t1 y0 yP p (s.conj ν)
      = (ν p (rk.solveF t0 t1 y0 yP p s).1, (rk.solveF t0 t1 y0 yP p s).2) := by
  have hite : ∀ (c : Bool) (a b : VF), (if c = true then ν p a else ν p b) = ν p (if c = true then a else b) := by
    intro c a b
    cases c <;> rfl
  simp only [solveF, StageState.conj, rk.conj_relF h, rk.conj_fsal h, treeDot_conj, h.vf, hite, h.init, h.find]
  rfl

theorem conj_solveK (h : rk.Conj term' ν) (t0 t1 : T) (y0 yP : Y) (p : Fin m) (s : StageState m Y VF J) :
    ({ rk with term := term' } : RK m T K Y VF Ct J).solveK t0 t1 y0 yP p (s.conj ν)
      = rk.solveK t0 t1 y0 yP p s := by
  simp only [solveK, StageState.conj, rk.conj_relK h, rk.conj_fsal h, control, h.vfProd]
  rfl

theorem conj_stageEnd (h : rk.Conj term' ν) (t0 t1 : T) (s : StageState m Y VF J) (yi : Y)
    (iF iF' : Option VF) (iK : Option Y) (jac : J) (r : Result)
    (hF : ∀ p, (rk.tab p).implicit = true → iF'.getD 0 = ν p (iF.getD 0)) :
    ({ rk with term := term' } : RK m T K Y VF Ct J).stageEnd t0 t1 (s.conj ν) yi iF' iK jac r
      = (rk.stageEnd t0 t1 s yi iF iK jac r).conj ν := by
  have hfi : (fun p : Fin m => if (rk.tab p).implicit then iF'.getD 0
        else (term' p).vf (rk.timeAt t0 t1 ((rk.tab p).cAt s.idx)) yi)
      = fun p => ν p (if (rk.tab p).implicit then iF.getD 0
        else (rk.term p).vf (rk.timeAt t0 t1 ((rk.tab p).cAt s.idx)) yi) := by
    funext p
    by_cases hp : (rk.tab p).implicit = true
    · simp only [hp, if_true, hF p hp]
    · simp only [hp, h.vf]
      rfl
  have htime : ∀ c, ({ rk with term := term' } : RK m T K Y VF Ct J).timeAt t0 t1 c = rk.timeAt t0 t1 c :=
    fun _ => rfl
  simp only [stageEnd, StageState.conj, rk.conj_storeFs h, rk.conj_evalFs h, rk.conj_fsal h, htime, hfi,
    rk.conj_prods h, control, h.vfProd]
  congr 1
  · split <;> rfl
  · split
    · funext p i
      by_cases hi : i = s.idx
      · subst hi
        simp only [Function.update_self]
        exact congrFun hfi p
      · simp [Function.update_of_ne hi]
    · rfl

theorem conj_stage (h : rk.Conj term' ν) (t0 t1 : T) (y0 : Y) (s : StageState m Y VF J) :
    ({ rk with term := term' } : RK m T K Y VF Ct J).stage t0 t1 y0 (s.conj ν)
      = (rk.stage t0 t1 y0 s).conj ν := by
  have hip : ({ rk with term := term' } : RK m T K Y VF Ct J).implicitPart = rk.implicitPart := rfl
  cases hp : rk.implicitPart with
  | none =>
    simp only [stage, hip, hp, rk.conj_partialY h]
    have := rk.conj_stageEnd h t0 t1 s (rk.partialY t0 t1 y0 s) none none none s.jac s.result
      (by intro p _; simp)
    rw [← this]
    rfl
  | some p =>
    have himp : (rk.tab p).implicit = true := by
      have := List.find?_some hp
      simpa using this
    have hF : ∀ (x : VF) q, (rk.tab q).implicit = true →
        (some (ν p x)).getD 0 = ν q ((some x).getD 0) := by
      intro x q hq
      rw [h.one q p hq himp]
      rfl
    simp only [stage, hip, hp, rk.conj_partialY h, rk.conj_evalFs h]
    by_cases he : rk.evalFs = true
    · simp only [he, if_true, rk.conj_solveF h]
      set sol := rk.solveF t0 t1 y0 (rk.partialY t0 t1 y0 s) p s with hsol
      have hprod : (term' p).prod (ν p sol.1)
          (({ rk with term := term' } : RK m T K Y VF Ct J).control t0 t1 p)
          = (rk.term p).prod sol.1 (rk.control t0 t1 p) := h.prod p t0 t1 sol.1
      rw [hprod]
      exact rk.conj_stageEnd h t0 t1 s _ (some sol.1) (some (ν p sol.1)) none _ _ (hF sol.1)
    · simp only [he, rk.conj_solveK h]
      exact rk.conj_stageEnd h t0 t1 s _ none none _ _ _ (by intro q _; simp)

theorem conj_stages (h : rk.Conj term' ν) (t0 t1 : T) (y0 : Y) (n : Nat) (s : StageState m Y VF J) :
    ({ rk with term := term' } : RK m T K Y VF Ct J).stages t0 t1 y0 n (s.conj ν)
      = (rk.stages t0 t1 y0 n s).conj ν := by
  induction n generalizing s with
  | zero => rfl
  | succ n ih =>
    have hn : ({ rk with term := term' } : RK m T K Y VF Ct J).numStages = rk.numStages := rfl
    simp only [stages, hn, rk.conj_stage h, ih]
    by_cases hs : s.idx < rk.numStages
    · have : (s.conj ν).idx < rk.numStages := hs
      simp only [hs, this, if_true]
    · have : ¬ (s.conj ν).idx < rk.numStages := hs
      simp only [hs, this, if_false]

theorem conj_initJac (h : rk.Conj term' ν) (t0 t1 : T) (y0 : Y) :
    ({ rk with term := term' } : RK m T K Y VF Ct J).initJac t0 t1 y0 = rk.initJac t0 t1 y0 := by
  have hip : ({ rk with term := term' } : RK m T K Y VF Ct J).implicitPart = rk.implicitPart := rfl
  have key : ∀ p, rk.rootF.init 0 (({ rk with term := term' } : RK m T K Y VF Ct J).relF p t0 t1 0 t0 y0) 0
      = rk.rootF.init 0 (rk.relF p t0 t1 0 t0 y0) 0 := by
    intro p
    rw [rk.conj_relF h]
    have := h.init p 0 (rk.relF p t0 t1 0 t0 y0) 0
    rwa [map_zero] at this
  simp only [initJac, hip, rk.conj_evalFs h, rk.conj_relK h, key]

/-- The solver state, transformed. -/
def conjState (ν : Fin m → VF →ₗ[K] VF) (st : State m VF) : State m VF :=
  st.map (fun x => (x.1, fun p => ν p (x.2 p)))

theorem conj_initStage (h : rk.Conj term' ν) (t0 t1 : T) (y0 : Y) (st : State m VF) (mj : Bool) :
    ({ rk with term := term' } : RK m T K Y VF Ct J).initStage t0 t1 y0 (conjState ν st) mj
      = (rk.initStage t0 t1 y0 st mj).conj ν := by
  by_cases hf : rk.fsal = true
  · have hf0 : (fun p : Fin m => if ((conjState ν st).getD (true, fun _ => 0)).1 || mj then (0 : VF)
          else ((conjState ν st).getD (true, fun _ => 0)).2 p)
        = fun p => ν p (if (st.getD (true, fun _ => 0)).1 || mj then (0 : VF)
          else (st.getD (true, fun _ => 0)).2 p) := by
      funext p
      cases st with
      | none => simp [conjState]
      | some x =>
        show (if (x.1 || mj) = true then (0 : VF) else ν p (x.2 p)) = ν p (if (x.1 || mj) = true then 0 else x.2 p)
        by_cases hx : (x.1 || mj) = true
        · rw [if_pos hx, if_pos hx, map_zero]
        · rw [if_neg hx, if_neg hx]
    have hfst : ((conjState ν st).getD (true, fun _ => 0)).1 = (st.getD (true, fun _ => 0)).1 := by
      cases st <;> rfl
    simp only [initStage, rk.conj_fsal h, hf, if_true, hfst, rk.conj_storeFs h,
      rk.conj_initJac h, StageState.conj]
    congr 1
    · have e1 := fun p => congrFun hf0 p
      simp only [hfst] at e1
      funext p
      exact e1 p
    · have e1 := fun p => congrFun hf0 p
      simp only [hfst] at e1
      by_cases hs : rk.storeFs = true
      · simp only [hs, if_true]
        funext p i
        by_cases hi : i = 0
        · subst hi
          simp only [Function.update_self]
          exact e1 p
        · simp [Function.update_of_ne hi]
      · simp [hs]
    · have e1 := hf0
      rw [hfst] at e1
      rw [e1, rk.conj_prods h]
  · simp only [initStage, rk.conj_fsal h, hf, rk.conj_initJac h, StageState.conj]
    simp

/-- A step with transformed vector fields and controls. -/
theorem conj_step (h : rk.Conj term' ν) (t0 t1 : T) (y0 : Y) (st : State m VF) (mj : Bool) :
    ({ rk with term := term' } : RK m T K Y VF Ct J).step t0 t1 y0 (conjState ν st) mj
      = { rk.step t0 t1 y0 st mj with state := conjState ν (rk.step t0 t1 y0 st mj).state } := by
  have hn : ({ rk with term := term' } : RK m T K Y VF Ct J).numStages = rk.numStages := rfl
  have hks : ∀ fin : StageState m Y VF J,
      (if ({ rk with term := term' } : RK m T K Y VF Ct J).storeFs then fun p i =>
        ({ rk with term := term' } : RK m T K Y VF Ct J).prods t0 t1 (fun p => (fin.conj ν).fs p i) p
        else (fin.conj ν).ks)
      = if rk.storeFs then fun p i => rk.prods t0 t1 (fun p => fin.fs p i) p else fin.ks := by
    intro fin
    rw [rk.conj_storeFs h]
    by_cases hs : rk.storeFs = true
    · simp only [hs, if_true]
      funext p i
      exact h.prod p t0 t1 (fin.fs p i)
    · simp only [hs]
      rfl
  simp only [step, hn, rk.conj_initStage h, rk.conj_stages h, hks]
  congr 1
  rw [rk.conj_fsal h]
  split <;> rfl

theorem conj_init (h : rk.Conj term' ν) :
    ({ rk with term := term' } : RK m T K Y VF Ct J).init = conjState ν rk.init := by
  simp only [init, rk.conj_fsal h]
  split
  · simp [conjState]
  · rfl

end RK
end Verif
