import Verif.Props.RK

/-!
# A Runge-Kutta step whose implicit stages are only solved approximately

The same invariant as in `Verif.Lemmas.RK`, with "the stage is right" replaced by any predicate that holds for
what is evaluated explicitly and for what the root finders return.
-/

set_option linter.unusedSectionVars false

namespace Verif
open Finset

variable {T K Y VF Ct J : Type} {m : Nat}
variable [Field K] [DecidableEq K] [AddCommGroup Y] [Module K Y] [AddCommGroup VF] [Module K VF]

/-- What holds at every turn of the loop over stages, if `Q p i y k` says that `k` is good enough for stage `i` of
term `p`, evaluated at `y`, and `QF` the same for vector fields. -/
structure RK.StageNear (rk : RK m T K Y VF Ct J) (Q : Fin m → ℕ → Y → Y → Prop) (QF : Fin m → ℕ → Y → VF → Prop)
    (t0 t1 : T) (y0 : Y) (s : StageState m Y VF J) : Prop where
  slope : ∀ i < s.idx, ∀ p, Q p i (rk.stageValue y0 (rk.kOf t0 t1 s) i) (rk.kOf t0 t1 s p i)
  value : 0 < s.idx → s.yi = rk.stageValue y0 (rk.kOf t0 t1 s) (s.idx - 1)
  last : 0 < s.idx → rk.fsal = true → ∀ p, QF p (s.idx - 1) s.yi (s.f1 p)

/-- The predicates fit the method, for a step from `t0` to `t1`. -/
structure RK.NearOK (rk : RK m T K Y VF Ct J) (Q : Fin m → ℕ → Y → Y → Prop) (QF : Fin m → ℕ → Y → VF → Prop)
    (t0 t1 : T) : Prop where
  vf : ∀ p i y, (rk.tab p).implicit = false → QF p i y ((rk.term p).vf (rk.stageTime t0 t1 p i) y)
  prod : ∀ p i y f, ((rk.tab p).implicit = false ∨ rk.evalFs = true) → QF p i y f → Q p i y ((rk.term p).prod f (rk.control t0 t1 p))
  rootF : ∀ p i y guess jac, (rk.tab p).implicit = true → rk.evalFs = true →
    (rk.rootF.find i (rk.relF p t0 t1 ((rk.tab p).d i) (rk.stageTime t0 t1 p i) y) guess jac).2.isOkay = true →
    QF p i (y + (rk.tab p).d i • (rk.term p).prod
        (rk.rootF.find i (rk.relF p t0 t1 ((rk.tab p).d i) (rk.stageTime t0 t1 p i) y) guess jac).1
        (rk.control t0 t1 p))
      (rk.rootF.find i (rk.relF p t0 t1 ((rk.tab p).d i) (rk.stageTime t0 t1 p i) y) guess jac).1
  rootK : ∀ p i y guess jac, (rk.tab p).implicit = true → rk.evalFs = false →
    (rk.rootK.find i (rk.relK p t0 t1 ((rk.tab p).d i) (rk.stageTime t0 t1 p i) y) guess jac).2.isOkay = true →
    Q p i (y + (rk.tab p).d i •
        (rk.rootK.find i (rk.relK p t0 t1 ((rk.tab p).d i) (rk.stageTime t0 t1 p i) y) guess jac).1)
      (rk.rootK.find i (rk.relK p t0 t1 ((rk.tab p).d i) (rk.stageTime t0 t1 p i) y) guess jac).1

variable {Q : Fin m → ℕ → Y → Y → Prop} {QF : Fin m → ℕ → Y → VF → Prop}

theorem RK.stageEnd_near (rk : RK m T K Y VF Ct J) (h : rk.WF) (t0 t1 : T) (hQ : rk.NearOK Q QF t0 t1) (y0 : Y)
    (s : StageState m Y VF J) (hinv : rk.StageNear Q QF t0 t1 y0 s) (hi : s.idx < rk.numStages)
    (yi : Y) (f : Option VF) (k : Option Y) (jac : J) (r : Result)
    (hyi : yi = rk.partialY t0 t1 y0 s + ∑ p, (rk.tab p).d s.idx •
      rk.kOf t0 t1 (rk.stageEnd t0 t1 s yi f k jac r) p s.idx)
    (hf : rk.fsal = true → ∀ p, (rk.tab p).implicit = true → QF p s.idx yi (f.getD 0))
    (hk : ∀ p, (rk.tab p).implicit = true →
      Q p s.idx yi (rk.kOf t0 t1 (rk.stageEnd t0 t1 s yi f k jac r) p s.idx)) :
    rk.StageNear Q QF t0 t1 y0 (rk.stageEnd t0 t1 s yi f k jac r) := by
  set s' := rk.stageEnd t0 t1 s yi f k jac r with hs'
  have hne : ∀ p j, j ≠ s.idx → rk.kOf t0 t1 s' p j = rk.kOf t0 t1 s p j :=
    fun p j hj => rk.kOf_stageEnd_ne t0 t1 s yi f k jac r p j hj
  have hidx : s'.idx = s.idx + 1 := rfl
  have hyi' : s'.yi = yi := rfl
  have hval : yi = rk.stageValue y0 (rk.kOf t0 t1 s') s.idx := by
    conv_lhs => rw [hyi, rk.partialY_eq h t0 t1 y0 s hi]
    unfold RK.stageValue
    rw [add_assoc, ← sum_add_distrib]
    congr 1
    apply sum_congr rfl
    intro p _
    congr 1
    apply sum_congr rfl
    intro j hj
    rw [hne p j (Nat.ne_of_lt (by simpa using hj))]
  refine ⟨?_, ?_, ?_⟩
  · intro i hi' p
    rw [hidx] at hi'
    rcases Nat.lt_succ_iff_lt_or_eq.1 hi' with hlt | rfl
    · rw [hne p i (Nat.ne_of_lt hlt), rk.stageValue_congr y0 (rk.kOf t0 t1 s') (rk.kOf t0 t1 s) i]
      · exact hinv.slope i hlt p
      · intro p j hj
        exact hne p j (by omega)
    · rw [← hval]
      cases himp : (rk.tab p).implicit with
      | false =>
        have e := rk.kOf_stageEnd_explicit h t0 t1 s yi f k jac r p himp
        rw [← hs'] at e
        rw [e]
        exact hQ.prod p _ _ _ (Or.inl himp) (hQ.vf p _ _ himp)
      | true => exact hk p himp
  · intro _
    rw [hidx, Nat.add_sub_cancel, hyi']
    exact hval
  · intro _ hfs p
    rw [hidx, Nat.add_sub_cancel, hyi']
    cases himp : (rk.tab p).implicit with
    | false =>
      have e : s'.f1 p = (rk.term p).vf (rk.stageTime t0 t1 p s.idx) yi := by
        simp [hs', RK.stageEnd, hfs, himp, RK.timeAt_eq]
      rw [e]
      exact hQ.vf p _ _ himp
    | true =>
      have := hf hfs p himp
      simp only [hs', RK.stageEnd, hfs, himp, if_true]
      exact this

theorem RK.stage_near (rk : RK m T K Y VF Ct J) (h : rk.WF) (t0 t1 : T) (hQ : rk.NearOK Q QF t0 t1) (y0 : Y)
    (s : StageState m Y VF J) (hi : s.idx < rk.numStages)
    (hinv : s.result.isOkay = true → rk.StageNear Q QF t0 t1 y0 s)
    (hok : (rk.stage t0 t1 y0 s).result.isOkay = true) :
    s.result.isOkay = true ∧ rk.StageNear Q QF t0 t1 y0 (rk.stage t0 t1 y0 s) := by
  cases hp : rk.implicitPart with
  | none =>
    have himp := rk.implicitPart_none hp
    simp only [RK.stage, hp] at hok ⊢
    have hok' : s.result.isOkay = true := hok
    refine ⟨hok', rk.stageEnd_near h t0 t1 hQ y0 s (hinv hok') hi _ _ _ _ _ ?_ ?_ ?_⟩
    · simp [(rk.tab _).d_explicit (himp _)]
    · intro _ p h'; simp [himp p] at h'
    · intro p h'; simp [himp p] at h'
  | some p =>
    have himp := rk.implicitPart_some hp
    have huniq : ∀ q, (rk.tab q).implicit = true → q = p := fun q hq => h.oneImplicit q p hq himp
    have hsum : ∀ (k : Fin m → Y), ∑ q, (rk.tab q).d s.idx • k q = (rk.tab p).d s.idx • k p := by
      intro k
      apply sum_eq_single p
      · intro q _ hq
        have : (rk.tab q).implicit = false := by
          by_contra hc
          exact hq (huniq q (by simpa using hc))
        rw [(rk.tab q).d_explicit this, zero_smul]
      · simp
    by_cases he : rk.evalFs = true
    · have hst : rk.storeFs = true := by simp [RK.storeFs, he, hp]
      simp only [RK.stage, hp, he, if_true] at hok ⊢
      have hok' : (s.result.update (rk.solveF t0 t1 y0 (rk.partialY t0 t1 y0 s) p s).2.2).isOkay
        = true := hok
      rw [Result.update_isOkay, Bool.and_eq_true] at hok'
      have hsol : QF p s.idx (rk.partialY t0 t1 y0 s + (rk.tab p).d s.idx •
            (rk.term p).prod (rk.solveF t0 t1 y0 (rk.partialY t0 t1 y0 s) p s).1
              (rk.control t0 t1 p)) (rk.solveF t0 t1 y0 (rk.partialY t0 t1 y0 s) p s).1 := by
        have h1 := hok'.2
        simp only [RK.solveF] at h1 ⊢
        rw [rk.timeAt_eq] at h1 ⊢
        exact hQ.rootF p s.idx _ _ _ himp he h1
      refine ⟨hok'.1, rk.stageEnd_near h t0 t1 hQ y0 s (hinv hok'.1) hi _ _ _ _ _ ?_ ?_ ?_⟩
      · rw [hsum]
        simp only [RK.kOf, RK.stageEnd, hst, himp, if_true, Function.update_self, Option.getD_some]
        rfl
      · intro _ q hq
        obtain rfl := huniq q hq
        exact hsol
      · intro q hq
        obtain rfl := huniq q hq
        simp only [RK.kOf, RK.stageEnd, hst, himp, if_true, Function.update_self, Option.getD_some]
        exact hQ.prod q _ _ _ (Or.inr he) hsol
    · have hst : rk.storeFs = false := by simp [RK.storeFs, he]
      have he' : rk.evalFs = false := by simpa using he
      simp only [RK.stage, hp, he', Bool.false_eq_true, if_false] at hok ⊢
      have hok' : (s.result.update (rk.solveK t0 t1 y0 (rk.partialY t0 t1 y0 s) p s).2.2).isOkay
        = true := hok
      rw [Result.update_isOkay, Bool.and_eq_true] at hok'
      have hsol : Q p s.idx (rk.partialY t0 t1 y0 s + (rk.tab p).d s.idx •
            (rk.solveK t0 t1 y0 (rk.partialY t0 t1 y0 s) p s).1)
          (rk.solveK t0 t1 y0 (rk.partialY t0 t1 y0 s) p s).1 := by
        have h1 := hok'.2
        simp only [RK.solveK] at h1 ⊢
        rw [rk.timeAt_eq] at h1 ⊢
        exact hQ.rootK p s.idx _ _ _ himp he' h1
      refine ⟨hok'.1, rk.stageEnd_near h t0 t1 hQ y0 s (hinv hok'.1) hi _ _ _ _ _ ?_ ?_ ?_⟩
      · rw [hsum]
        simp only [RK.kOf, RK.stageEnd, hst, he', himp, if_true, Function.update_self,
          Option.getD_some, Bool.false_eq_true, if_false]
        rfl
      · intro hfs
        rw [rk.fsal_evalFs, he'] at hfs
        exact absurd hfs (by simp)
      · intro q hq
        obtain rfl := huniq q hq
        simp only [RK.kOf, RK.stageEnd, hst, he', himp, if_true, Function.update_self,
          Option.getD_some, Bool.false_eq_true, if_false]
        exact hsol

theorem RK.stages_near (rk : RK m T K Y VF Ct J) (h : rk.WF) (t0 t1 : T) (hQ : rk.NearOK Q QF t0 t1) (y0 : Y)
    (fuel : Nat) (s : StageState m Y VF J) (hfuel : rk.numStages ≤ fuel + s.idx)
    (hle : s.idx ≤ rk.numStages)
    (hinv : s.result.isOkay = true → rk.StageNear Q QF t0 t1 y0 s) :
    (rk.stages t0 t1 y0 fuel s).idx = rk.numStages ∧
    ((rk.stages t0 t1 y0 fuel s).result.isOkay = true →
      rk.StageNear Q QF t0 t1 y0 (rk.stages t0 t1 y0 fuel s)) := by
  induction fuel generalizing s with
  | zero => exact ⟨by simp only [RK.stages]; omega, hinv⟩
  | succ fuel ih =>
    simp only [RK.stages]
    split
    · rename_i hlt
      apply ih
      · rw [rk.stage_idx]; omega
      · rw [rk.stage_idx]; omega
      · intro hok
        exact (rk.stage_near h t0 t1 hQ y0 s hlt hinv hok).2
    · rename_i hlt
      exact ⟨by omega, hinv⟩

/-- The stored vector field is good enough for the first stage, unless it is not going to be used. -/
def RK.NearState (rk : RK m T K Y VF Ct J) (QF : Fin m → ℕ → Y → VF → Prop) (y0 : Y) (st : RK.State m VF)
    (madeJump : Bool) : Prop :=
  rk.fsal = true → ∃ b f0, st = some (b, f0) ∧ (b = true ∨ madeJump = true ∨ ∀ p, QF p 0 y0 (f0 p))

theorem RK.initStage_near (rk : RK m T K Y VF Ct J) (t0 t1 : T) (hQ : rk.NearOK Q QF t0 t1)
    (y0 : Y) (st : RK.State m VF) (mj : Bool) (hst : rk.NearState QF y0 st mj) :
    rk.StageNear Q QF t0 t1 y0 (rk.initStage t0 t1 y0 st mj) ∧
    (rk.initStage t0 t1 y0 st mj).idx ≤ 1 := by
  by_cases hfs : rk.fsal = true
  · obtain ⟨b, f0, rfl, hb⟩ := hst hfs
    by_cases he : (b || mj) = true
    · have hidx : (rk.initStage t0 t1 y0 (some (b, f0)) mj).idx = 0 := by
        simp [RK.initStage, hfs, he]
      refine ⟨⟨?_, ?_, ?_⟩, by omega⟩
      · intro i hi; omega
      · intro hi; omega
      · intro hi; omega
    · have he' : (b || mj) = false := by simpa using he
      have hvf : ∀ p, QF p 0 y0 (f0 p) := by
        rcases hb with hb | hb | hb
        · simp [hb] at he'
        · simp [hb] at he'
        · exact hb
      have hidx : (rk.initStage t0 t1 y0 (some (b, f0)) mj).idx = 1 := by
        simp [RK.initStage, hfs, he']
      have hyi : (rk.initStage t0 t1 y0 (some (b, f0)) mj).yi = y0 := by
        simp [RK.initStage, hfs]
      have hk : ∀ p, rk.kOf t0 t1 (rk.initStage t0 t1 y0 (some (b, f0)) mj) p 0
          = (rk.term p).prod (f0 p) (rk.control t0 t1 p) := by
        intro p
        by_cases hs : rk.storeFs = true
        · simp [RK.kOf, RK.initStage, hfs, hs, he']
        · simp [RK.kOf, RK.initStage, hfs, hs, he', RK.prods]
      refine ⟨⟨?_, ?_, ?_⟩, by omega⟩
      · intro i hi p
        have hi0 : i = 0 := by omega
        subst hi0
        rw [hk, rk.stageValue_zero hfs]
        exact hQ.prod p _ _ _ (Or.inr (rk.fsal_evalFs ▸ hfs)) (hvf p)
      · intro _
        rw [hidx, hyi, rk.stageValue_zero hfs]
      · intro _ _ p
        rw [hidx, hyi]
        have e : (rk.initStage t0 t1 y0 (some (b, f0)) mj).f1 p = f0 p := by
          simp [RK.initStage, hfs, he']
        rw [e]
        exact hvf p
  · have hidx : (rk.initStage t0 t1 y0 st mj).idx = 0 := by
      simp [RK.initStage, hfs]
    refine ⟨⟨?_, ?_, ?_⟩, by omega⟩
    · intro i hi; omega
    · intro hi; omega
    · intro hi; omega

/-- A successful step: good enough stages, the value made of them, and what is handed on. -/
theorem RK.step_near (rk : RK m T K Y VF Ct J) (h : rk.WF) (t0 t1 : T) (hQ : rk.NearOK Q QF t0 t1)
    (y0 : Y) (st : RK.State m VF) (mj : Bool) (hst : rk.NearState QF y0 st mj)
    (hok : (rk.step t0 t1 y0 st mj).result.isOkay = true) :
    ∃ k, (∀ i < rk.numStages, ∀ p, Q p i (rk.stageValue y0 k i) (k p i)) ∧
      (rk.step t0 t1 y0 st mj).y = y0 + rk.combine Tableau.bSol k ∧
      (rk.fsal = true → ∃ f1, (rk.step t0 t1 y0 st mj).state = some (false, f1) ∧
        ∀ p, QF p (rk.numStages - 1) (rk.step t0 t1 y0 st mj).y (f1 p)) := by
  obtain ⟨hi1, hi2⟩ := rk.initStage_near t0 t1 hQ y0 st mj hst
  have h2 := h.two
  obtain ⟨hidx, hinv⟩ := rk.stages_near h t0 t1 hQ y0 rk.numStages _ (by omega)
    (by omega) (fun _ => hi1)
  have hinv := hinv hok
  set fin := rk.stages t0 t1 y0 rk.numStages (rk.initStage t0 t1 y0 st mj) with hfin
  have hks : (rk.step t0 t1 y0 st mj).dense.ks = rk.kOf t0 t1 fin := by
    funext p i
    by_cases hs : rk.storeFs = true
    · simp [RK.step, RK.kOf, hs, RK.prods, ← hfin]
    · simp [RK.step, RK.kOf, hs, ← hfin]
  have hlast : ∀ p, (rk.tab p).bSolEqual = true →
      ∑ i ∈ range rk.numStages, (rk.tab p).bSol.getD i 0 • rk.kOf t0 t1 fin p i
      = ∑ j ∈ range (rk.numStages - 1), (rk.tab p).a (rk.numStages - 1) j • rk.kOf t0 t1 fin p j
        + (rk.tab p).d (rk.numStages - 1) • rk.kOf t0 t1 fin p (rk.numStages - 1) :=
    fun p hp => (rk.tab p).bSol_last rk.numStages (h.shape p) h2 hp _
  have hyi : (∀ p, (rk.tab p).bSolEqual = true) →
      fin.yi = y0 + rk.combine Tableau.bSol (rk.kOf t0 t1 fin) := by
    intro hall
    rw [hinv.value (by omega), hidx]
    unfold RK.stageValue RK.combine
    congr 1
    exact sum_congr rfl fun p _ => (hlast p (hall p)).symm
  have hy : (rk.step t0 t1 y0 st mj).y = y0 + rk.combine Tableau.bSol (rk.kOf t0 t1 fin) := by
    have e : (rk.step t0 t1 y0 st mj).y =
        if (List.finRange m).any (fun p => !(rk.tab p).ssal) then
          y0 + ∑ p, treeDot (rk.tab p).bSol ((rk.step t0 t1 y0 st mj).dense.ks p) else fin.yi := rfl
    rw [e, hks]
    split
    · congr 1
      exact sum_congr rfl fun p _ => treeDot_eq _ _ (h.shape p).bSol _
    · rename_i hn
      apply hyi
      intro p
      apply Tableau.ssal_bSol
      simp only [List.any_eq_true, not_exists, not_and] at hn
      have := hn p (List.mem_finRange p)
      simpa using this
  refine ⟨rk.kOf t0 t1 fin, ?_, hy, ?_⟩
  · intro i hi p
    exact hinv.slope i (by omega) p
  · intro hfs
    refine ⟨fin.f1, by simp [RK.step, hfs, ← hfin], ?_⟩
    intro p
    have h3 := hinv.last (by omega) hfs p
    rw [hidx] at h3
    rw [hy, ← hyi (fun p => (rk.tab p).fsal_bSol (rk.fsal_tab hfs p))]
    exact h3

end Verif
