import Verif.Spec.RK
import Mathlib.Tactic.Common
import Mathlib.Tactic.Abel
import Mathlib.Data.List.GetD
import Mathlib.Algebra.BigOperators.Group.Finset.Basic
import Mathlib.Algebra.Module.BigOperators

/-!
# Helper lemmas on the Runge-Kutta step
-/

set_option linter.unusedSectionVars false

namespace Verif
open Finset

variable {T K Y VF Ct J : Type} {m : Nat}
variable [Field K] [DecidableEq K] [AddCommGroup Y] [Module K Y] [AddCommGroup VF] [Module K VF]

theorem Result.update_isOkay (a b : Result) :
    (a.update b).isOkay = (a.isOkay && b.isOkay) := by
  unfold Result.update Result.where' Result.isOkay Result.isSuccessful Result.isEvent
  cases a <;> cases b <;> simp

theorem Tableau.cAt_eq (tab : Tableau K) (i : Nat) : tab.cAt i = tab.abscissa i := by
  cases i <;> simp [Tableau.cAt, Tableau.abscissa]

theorem RK.timeAt_eq (rk : RK m T K Y VF Ct J) (t0 t1 : T) (p : Fin m) (i : Nat) :
    rk.timeAt t0 t1 ((rk.tab p).cAt i) = rk.stageTime t0 t1 p i := by
  rw [Tableau.cAt_eq]; rfl

theorem Tableau.d_explicit (tab : Tableau K) (h : tab.implicit = false) (i : Nat) : tab.d i = 0 := by
  unfold Tableau.implicit at h
  cases hd : tab.aDiagonal with
  | none => simp [Tableau.d, hd]
  | some d => simp [hd] at h

/-- A row of the square matrix, against a buffer: only the stages before count. -/
theorem treeDot_row {V : Type} [AddCommGroup V] [Module K V] (tab : Tableau K) (n i : Nat)
    (hs : tab.Shape n) (hi : i < n) (buf : Nat → V) :
    treeDot (tab.row n i) buf = ∑ j ∈ range i, tab.a i j • buf j := by
  cases i with
  | zero =>
    simp only [treeDot, Tableau.row, List.length_replicate, range_zero, sum_empty]
    apply sum_eq_zero
    intro j hj
    rw [List.getD_replicate _ (by simpa using hj)]
    simp
  | succ i =>
    have hl : i < tab.aLower.length := by have := hs.rows; omega
    have hr := hs.row i hl
    simp only [treeDot, Tableau.row, List.length_append, List.length_replicate, hr]
    have hn : i + 1 + (n - (i + 1)) = n := by omega
    rw [hn]
    refine (sum_subset (range_subset_range.2 (Nat.le_of_lt hi)) ?_).symm.trans ?_
    · intro j hj hj2
      have h1 : (tab.aLower.getD i []).length ≤ j := by
        rw [hr]; simpa using hj2
      rw [List.getD_append_right _ _ _ _ h1, hr, List.getD_replicate]
      · simp
      · have : j < n := by simpa using hj
        have : i + 1 ≤ j := by rw [hr] at h1; exact h1
        omega
    · apply sum_congr rfl
      intro j hj
      have hj' : j < (tab.aLower.getD i []).length := by rw [hr]; simpa using hj
      congr 1
      simp only [Tableau.a, Nat.add_sub_cancel]
      rw [List.getD_append _ _ _ _ hj']

/-- The stages found so far, as (vector field)-control products. -/
def RK.kOf (rk : RK m T K Y VF Ct J) (t0 t1 : T) (s : StageState m Y VF J) (p : Fin m) (j : Nat) : Y :=
  if rk.storeFs then (rk.term p).prod (s.fs p j) (rk.control t0 t1 p) else s.ks p j

theorem prod_treeDot (rk : RK m T K Y VF Ct J) (h : rk.WF) (p : Fin m) (a : List K) (buf : Nat → VF)
    (c : Ct) : (rk.term p).prod (treeDot a buf) c
      = treeDot a (fun j => (rk.term p).prod (buf j) c) := by
  have h0 : (rk.term p).prod 0 c = 0 := by
    have := h.smul p 0 0 c
    simpa using this
  let φ : VF →+ Y := { toFun := fun f => (rk.term p).prod f c, map_zero' := h0
                       map_add' := fun x y => h.add p x y c }
  change φ (treeDot a buf) = _
  unfold treeDot
  rw [map_sum]
  apply sum_congr rfl
  intro j _
  exact h.smul p _ _ c

theorem RK.partialY_eq (rk : RK m T K Y VF Ct J) (h : rk.WF) (t0 t1 : T) (y0 : Y)
    (s : StageState m Y VF J) (hi : s.idx < rk.numStages) :
    rk.partialY t0 t1 y0 s = y0 + ∑ p, ∑ j ∈ range s.idx, (rk.tab p).a s.idx j • rk.kOf t0 t1 s p j := by
  simp only [RK.partialY]
  congr 1
  apply sum_congr rfl
  intro p _
  by_cases hst : rk.storeFs = true
  · simp only [hst, if_true, RK.prods]
    rw [prod_treeDot rk h, treeDot_row _ _ _ (h.shape p) hi]
    simp [RK.kOf, hst]
  · simp only [hst, RK.kOf]
    rw [if_neg (by simp), treeDot_row _ _ _ (h.shape p) hi]
    simp

theorem RK.implicitPart_none (rk : RK m T K Y VF Ct J) (h : rk.implicitPart = none) (p : Fin m) :
    (rk.tab p).implicit = false := by
  unfold RK.implicitPart at h
  have := List.find?_eq_none.1 h p (List.mem_finRange p)
  simpa using this

theorem RK.implicitPart_some (rk : RK m T K Y VF Ct J) {p : Fin m} (h : rk.implicitPart = some p) :
    (rk.tab p).implicit = true := by
  unfold RK.implicitPart at h
  simpa using List.find?_some (p := fun p => (rk.tab p).implicit) h

theorem RK.storeFs_evalFs (rk : RK m T K Y VF Ct J) (h : rk.storeFs = true) : rk.evalFs = true := by
  unfold RK.storeFs at h
  simp only [Bool.and_eq_true] at h
  exact h.1

theorem RK.fsal_evalFs (rk : RK m T K Y VF Ct J) : rk.fsal = rk.evalFs := by
  unfold RK.evalFs RK.fsal
  cases rk.vfExpensive <;> simp

theorem RK.kOf_stageEnd_ne (rk : RK m T K Y VF Ct J) (t0 t1 : T) (s : StageState m Y VF J) (yi : Y)
    (f : Option VF) (k : Option Y) (jac : J) (r : Result) (p : Fin m) (j : Nat) (hj : j ≠ s.idx) :
    rk.kOf t0 t1 (rk.stageEnd t0 t1 s yi f k jac r) p j = rk.kOf t0 t1 s p j := by
  by_cases hst : rk.storeFs = true
  · simp [RK.kOf, RK.stageEnd, hst, Function.update_of_ne hj]
  · simp [RK.kOf, RK.stageEnd, hst, Function.update_of_ne hj]

theorem RK.kOf_stageEnd_explicit (rk : RK m T K Y VF Ct J) (h : rk.WF) (t0 t1 : T)
    (s : StageState m Y VF J) (yi : Y)
    (f : Option VF) (k : Option Y) (jac : J) (r : Result) (p : Fin m)
    (hp : (rk.tab p).implicit = false) :
    rk.kOf t0 t1 (rk.stageEnd t0 t1 s yi f k jac r) p s.idx
      = (rk.term p).prod ((rk.term p).vf (rk.stageTime t0 t1 p s.idx) yi) (rk.control t0 t1 p) := by
  by_cases hst : rk.storeFs = true
  · simp [RK.kOf, RK.stageEnd, hst, hp, RK.timeAt_eq]
  · by_cases he : rk.evalFs = true
    · simp [RK.kOf, RK.stageEnd, hst, hp, RK.timeAt_eq, he, RK.prods]
    · simp [RK.kOf, RK.stageEnd, hst, hp, RK.timeAt_eq, he, h.vfProd]

theorem RK.stageValue_congr (rk : RK m T K Y VF Ct J) (y0 : Y) (k k' : Fin m → Nat → Y) (i : Nat)
    (h : ∀ p, ∀ j ≤ i, k p j = k' p j) : rk.stageValue y0 k i = rk.stageValue y0 k' i := by
  unfold RK.stageValue
  congr 1
  apply sum_congr rfl
  intro p _
  rw [h p i le_rfl]
  congr 1
  apply sum_congr rfl
  intro j hj
  rw [h p j (Nat.le_of_lt (by simpa using hj))]

/-- What holds at every turn of the loop over stages. -/
structure RK.StageInv (rk : RK m T K Y VF Ct J) (t0 t1 : T) (y0 : Y) (s : StageState m Y VF J) :
    Prop where
  slope : ∀ i < s.idx, ∀ p, rk.kOf t0 t1 s p i = (rk.term p).prod
    ((rk.term p).vf (rk.stageTime t0 t1 p i) (rk.stageValue y0 (rk.kOf t0 t1 s) i))
    ((rk.term p).contr t0 t1)
  value : 0 < s.idx → s.yi = rk.stageValue y0 (rk.kOf t0 t1 s) (s.idx - 1)
  last : 0 < s.idx → rk.fsal = true → ∀ p, s.f1 p =
    (rk.term p).vf (rk.stageTime t0 t1 p (s.idx - 1)) s.yi

/-- The end of a stage keeps the invariant if the implicit values solve the stage equations. -/
theorem RK.stageEnd_inv (rk : RK m T K Y VF Ct J) (h : rk.WF) (t0 t1 : T) (y0 : Y)
    (s : StageState m Y VF J) (hinv : rk.StageInv t0 t1 y0 s) (hi : s.idx < rk.numStages)
    (yi : Y) (f : Option VF) (k : Option Y) (jac : J) (r : Result)
    (hyi : yi = rk.partialY t0 t1 y0 s + ∑ p, (rk.tab p).d s.idx •
      rk.kOf t0 t1 (rk.stageEnd t0 t1 s yi f k jac r) p s.idx)
    (hf : rk.fsal = true → ∀ p, (rk.tab p).implicit = true →
      f.getD 0 = (rk.term p).vf (rk.stageTime t0 t1 p s.idx) yi)
    (hk : ∀ p, (rk.tab p).implicit = true →
      rk.kOf t0 t1 (rk.stageEnd t0 t1 s yi f k jac r) p s.idx = (rk.term p).prod
        ((rk.term p).vf (rk.stageTime t0 t1 p s.idx) yi) (rk.control t0 t1 p)) :
    rk.StageInv t0 t1 y0 (rk.stageEnd t0 t1 s yi f k jac r) := by
  set s' := rk.stageEnd t0 t1 s yi f k jac r with hs'
  have hne : ∀ p j, j ≠ s.idx → rk.kOf t0 t1 s' p j = rk.kOf t0 t1 s p j :=
    fun p j hj => rk.kOf_stageEnd_ne t0 t1 s yi f k jac r p j hj
  have hidx : s'.idx = s.idx + 1 := rfl
  have hyi' : s'.yi = yi := rfl
  have hval : yi = rk.stageValue y0 (rk.kOf t0 t1 s') s.idx := by
    conv_lhs => rw [hyi, rk.partialY_eq h t0 t1 y0 s hi]
    unfold RK.stageValue
    rw [add_assoc, ← sum_add_distrib]
    congr 1
    apply sum_congr rfl
    intro p _
    congr 1
    apply sum_congr rfl
    intro j hj
    rw [hne p j (Nat.ne_of_lt (by simpa using hj))]
  refine ⟨?_, ?_, ?_⟩
  · intro i hi' p
    rw [hidx] at hi'
    rcases Nat.lt_succ_iff_lt_or_eq.1 hi' with hlt | rfl
    · rw [hne p i (Nat.ne_of_lt hlt), hinv.slope i hlt p]
      rw [rk.stageValue_congr y0 (rk.kOf t0 t1 s') (rk.kOf t0 t1 s) i]
      intro p j hj
      exact hne p j (by omega)
    · rw [← hval]
      cases himp : (rk.tab p).implicit with
      | false => exact rk.kOf_stageEnd_explicit h t0 t1 s yi f k jac r p himp
      | true => exact hk p himp
  · intro _
    rw [hidx, Nat.add_sub_cancel, hyi']
    exact hval
  · intro _ hfs p
    rw [hidx, Nat.add_sub_cancel, hyi']
    cases himp : (rk.tab p).implicit with
    | false => simp [hs', RK.stageEnd, hfs, himp, RK.timeAt_eq]
    | true =>
      have := hf hfs p himp
      simp only [hs', RK.stageEnd, hfs, himp, if_true]
      exact this

theorem RK.stage_idx (rk : RK m T K Y VF Ct J) (t0 t1 : T) (y0 : Y) (s : StageState m Y VF J) :
    (rk.stage t0 t1 y0 s).idx = s.idx + 1 := by
  unfold RK.stage
  simp only
  split
  · rfl
  · split <;> rfl

/-- Root finders of an implicit method are right whenever they report success. -/
def RK.RootExact (rk : RK m T K Y VF Ct J) : Prop :=
  rk.implicitPart.isSome = true → rk.rootF.Exact ∧ rk.rootK.Exact

theorem RK.stage_inv (rk : RK m T K Y VF Ct J) (h : rk.WF) (hroot : rk.RootExact) (t0 t1 : T) (y0 : Y)
    (s : StageState m Y VF J) (hi : s.idx < rk.numStages)
    (hinv : s.result.isOkay = true → rk.StageInv t0 t1 y0 s)
    (hok : (rk.stage t0 t1 y0 s).result.isOkay = true) :
    s.result.isOkay = true ∧ rk.StageInv t0 t1 y0 (rk.stage t0 t1 y0 s) := by
  cases hp : rk.implicitPart with
  | none =>
    have himp := rk.implicitPart_none hp
    simp only [RK.stage, hp] at hok ⊢
    have hok' : s.result.isOkay = true := hok
    refine ⟨hok', rk.stageEnd_inv h t0 t1 y0 s (hinv hok') hi _ _ _ _ _ ?_ ?_ ?_⟩
    · simp [(rk.tab _).d_explicit (himp _)]
    · intro _ p h'; simp [himp p] at h'
    · intro p h'; simp [himp p] at h'
  | some p =>
    have himp := rk.implicitPart_some hp
    obtain ⟨hrF, hrK⟩ := hroot (by simp [hp])
    have huniq : ∀ q, (rk.tab q).implicit = true → q = p := fun q hq => h.oneImplicit q p hq himp
    have hsum : ∀ (k : Fin m → Y), ∑ q, (rk.tab q).d s.idx • k q = (rk.tab p).d s.idx • k p := by
      intro k
      apply sum_eq_single p
      · intro q _ hq
        have : (rk.tab q).implicit = false := by
          by_contra hc
          exact hq (huniq q (by simpa using hc))
        rw [(rk.tab q).d_explicit this, zero_smul]
      · simp
    by_cases he : rk.evalFs = true
    · have hst : rk.storeFs = true := by simp [RK.storeFs, he, hp]
      simp only [RK.stage, hp, he, if_true] at hok ⊢
      have hok' : (s.result.update (rk.solveF t0 t1 y0 (rk.partialY t0 t1 y0 s) p s).2.2).isOkay
        = true := hok
      rw [Result.update_isOkay, Bool.and_eq_true] at hok'
      have hsol := hrF _ _ _ _ hok'.2
      have hsol' : (rk.solveF t0 t1 y0 (rk.partialY t0 t1 y0 s) p s).1 = (rk.term p).vf
          (rk.stageTime t0 t1 p s.idx) (rk.partialY t0 t1 y0 s + (rk.tab p).d s.idx •
            (rk.term p).prod (rk.solveF t0 t1 y0 (rk.partialY t0 t1 y0 s) p s).1
              (rk.control t0 t1 p)) := by
        rw [← RK.timeAt_eq]
        exact sub_eq_zero.1 hsol
      refine ⟨hok'.1, rk.stageEnd_inv h t0 t1 y0 s (hinv hok'.1) hi _ _ _ _ _ ?_ ?_ ?_⟩
      · rw [hsum]
        simp only [RK.kOf, RK.stageEnd, hst, himp, if_true, Function.update_self, Option.getD_some]
        rfl
      · intro _ q hq
        obtain rfl := huniq q hq
        exact hsol'
      · intro q hq
        obtain rfl := huniq q hq
        simp only [RK.kOf, RK.stageEnd, hst, himp, if_true, Function.update_self, Option.getD_some]
        exact congrArg (fun f => (rk.term q).prod f (rk.control t0 t1 q)) hsol'
    · have hst : rk.storeFs = false := by simp [RK.storeFs, he]
      have he' : rk.evalFs = false := by simpa using he
      simp only [RK.stage, hp, he', Bool.false_eq_true, if_false] at hok ⊢
      have hok' : (s.result.update (rk.solveK t0 t1 y0 (rk.partialY t0 t1 y0 s) p s).2.2).isOkay
        = true := hok
      rw [Result.update_isOkay, Bool.and_eq_true] at hok'
      have hsol := hrK _ _ _ _ hok'.2
      have hsol' : (rk.solveK t0 t1 y0 (rk.partialY t0 t1 y0 s) p s).1 = (rk.term p).prod
          ((rk.term p).vf (rk.stageTime t0 t1 p s.idx) (rk.partialY t0 t1 y0 s + (rk.tab p).d s.idx •
            (rk.solveK t0 t1 y0 (rk.partialY t0 t1 y0 s) p s).1)) (rk.control t0 t1 p) := by
        rw [← RK.timeAt_eq, ← h.vfProd]
        exact sub_eq_zero.1 hsol
      refine ⟨hok'.1, rk.stageEnd_inv h t0 t1 y0 s (hinv hok'.1) hi _ _ _ _ _ ?_ ?_ ?_⟩
      · rw [hsum]
        simp only [RK.kOf, RK.stageEnd, hst, he', himp, if_true, Function.update_self,
          Option.getD_some, Bool.false_eq_true, if_false]
        rfl
      · intro hfs
        rw [rk.fsal_evalFs, he'] at hfs
        exact absurd hfs (by simp)
      · intro q hq
        obtain rfl := huniq q hq
        simp only [RK.kOf, RK.stageEnd, hst, he', himp, if_true, Function.update_self,
          Option.getD_some, Bool.false_eq_true, if_false]
        exact hsol'

/-- All stages have been run, and if every implicit solve succeeded the result satisfies the stage
equations. -/
theorem RK.stages_inv (rk : RK m T K Y VF Ct J) (h : rk.WF) (hroot : rk.RootExact) (t0 t1 : T) (y0 : Y)
    (fuel : Nat) (s : StageState m Y VF J) (hfuel : rk.numStages ≤ fuel + s.idx)
    (hle : s.idx ≤ rk.numStages)
    (hinv : s.result.isOkay = true → rk.StageInv t0 t1 y0 s) :
    (rk.stages t0 t1 y0 fuel s).idx = rk.numStages ∧
    ((rk.stages t0 t1 y0 fuel s).result.isOkay = true →
      rk.StageInv t0 t1 y0 (rk.stages t0 t1 y0 fuel s)) := by
  induction fuel generalizing s with
  | zero => exact ⟨by simp only [RK.stages]; omega, hinv⟩
  | succ fuel ih =>
    simp only [RK.stages]
    split
    · rename_i hlt
      apply ih
      · rw [rk.stage_idx]; omega
      · rw [rk.stage_idx]; omega
      · intro hok
        exact (rk.stage_inv h hroot t0 t1 y0 s hlt hinv hok).2
    · rename_i hlt
      exact ⟨by omega, hinv⟩

theorem getD_last {α : Type} (l : List α) (x : α) : l.getD (l.length - 1) x = l.getLastD x := by
  cases l using List.reverseRecOn with
  | nil => simp
  | append_singleton l a => simp

/-- If the last row of the tableau is the solution's weights, the last stage is evaluated at the end of
the step. -/
theorem Tableau.bSol_last {V : Type} [AddCommGroup V] [Module K V] (tab : Tableau K) (n : Nat)
    (hs : tab.Shape n) (h2 : 2 ≤ n) (he : tab.bSolEqual = true) (k : Nat → V) :
    ∑ i ∈ range n, tab.bSol.getD i 0 • k i
      = ∑ j ∈ range (n - 1), tab.a (n - 1) j • k j + tab.d (n - 1) • k (n - 1) := by
  unfold Tableau.bSolEqual at he
  simp only [Bool.and_eq_true, decide_eq_true_eq] at he
  obtain ⟨hlow, hdiag⟩ := he
  have hn : n = (n - 1) + 1 := by omega
  conv_lhs => rw [hn, sum_range_succ]
  congr 1
  · apply sum_congr rfl
    intro j hj
    have hj' : j < n - 1 := by simpa using hj
    congr 1
    have hrow : tab.aLower.getLastD [] = tab.aLower.getD (n - 1 - 1) [] := by
      rw [← getD_last]
      congr 1
      have := hs.rows
      omega
    simp only [Tableau.a]
    rw [← hrow, ← hlow]
    have hlen := hs.bSol
    rw [List.getD_eq_getElem _ _ (by omega), List.getD_eq_getElem _ _ (by simp; omega)]
    simp
  · congr 1
    have hlen := hs.bSol
    have : tab.bSol.getD (n - 1) 0 = tab.bSol.getLastD 0 := by
      rw [← getD_last, hlen]
    rw [this, hdiag]
    cases hd : tab.aDiagonal with
    | none => simp [Tableau.d, hd]
    | some d =>
      have := hs.diag d hd
      simp only [Tableau.d, hd, Option.getD_some]
      rw [← getD_last, this]

theorem RK.fsal_tab (rk : RK m T K Y VF Ct J) (h : rk.fsal = true) (p : Fin m) :
    (rk.tab p).fsal = true := by
  unfold RK.fsal at h
  simp only [Bool.and_eq_true, List.all_eq_true] at h
  exact h.1 p (List.mem_finRange p)

theorem Tableau.fsal_bSol (tab : Tableau K) (h : tab.fsal = true) : tab.bSolEqual = true := by
  unfold Tableau.fsal at h
  simp only [Bool.and_eq_true] at h
  exact h.1

theorem Tableau.ssal_bSol (tab : Tableau K) (h : tab.ssal = true) : tab.bSolEqual = true := by
  unfold Tableau.ssal at h
  simp only [Bool.and_eq_true] at h
  exact h.1

theorem Tableau.fsal_d (tab : Tableau K) (h : tab.fsal = true) : tab.d 0 = 0 := by
  unfold Tableau.fsal at h
  simp only [Bool.and_eq_true] at h
  have h2 := h.2
  cases hd : tab.aDiagonal with
  | none => simp [Tableau.d, hd]
  | some d =>
    simp only [hd, decide_eq_true_eq] at h2
    cases d with
    | nil => simp [Tableau.d, hd]
    | cons a l => simpa [Tableau.d, hd] using h2

theorem RK.stageTime_zero (rk : RK m T K Y VF Ct J) (hf : rk.FsalOK) (hfs : rk.fsal = true) (t0 t1 : T)
    (p : Fin m) : rk.stageTime t0 t1 p 0 = t0 := by
  have h0 : (rk.tab p).abscissa 0 = 0 := by
    simp [Tableau.abscissa, hf.c1 hfs p]
  unfold RK.stageTime
  rw [h0, if_neg zero_ne_one, hf.at_zero]

theorem RK.stageValue_zero (rk : RK m T K Y VF Ct J) (hfs : rk.fsal = true) (y0 : Y)
    (k : Fin m → Nat → Y) : rk.stageValue y0 k 0 = y0 := by
  unfold RK.stageValue
  simp [fun p => (rk.tab p).fsal_d (rk.fsal_tab hfs p)]

/-- The loop over stages starts in a good state. -/
theorem RK.initStage_inv (rk : RK m T K Y VF Ct J) (hf : rk.FsalOK) (t0 t1 : T) (y0 : Y)
    (st : RK.State m VF) (mj : Bool) (hst : rk.ValidState t0 y0 st mj) :
    rk.StageInv t0 t1 y0 (rk.initStage t0 t1 y0 st mj) ∧
    (rk.initStage t0 t1 y0 st mj).idx ≤ 1 := by
  by_cases hfs : rk.fsal = true
  · obtain ⟨b, f0, rfl, hb⟩ := hst hfs
    by_cases he : (b || mj) = true
    · have hidx : (rk.initStage t0 t1 y0 (some (b, f0)) mj).idx = 0 := by
        simp [RK.initStage, hfs, he]
      refine ⟨⟨?_, ?_, ?_⟩, by omega⟩
      · intro i hi; omega
      · intro hi; omega
      · intro hi; omega
    · have he' : (b || mj) = false := by simpa using he
      have hvf : ∀ p, f0 p = (rk.term p).vf t0 y0 := by
        rcases hb with hb | hb | hb
        · simp [hb] at he'
        · simp [hb] at he'
        · exact hb
      have hidx : (rk.initStage t0 t1 y0 (some (b, f0)) mj).idx = 1 := by
        simp [RK.initStage, hfs, he']
      have hyi : (rk.initStage t0 t1 y0 (some (b, f0)) mj).yi = y0 := by
        simp [RK.initStage, hfs]
      have hk : ∀ p, rk.kOf t0 t1 (rk.initStage t0 t1 y0 (some (b, f0)) mj) p 0
          = (rk.term p).prod (f0 p) (rk.control t0 t1 p) := by
        intro p
        by_cases hs : rk.storeFs = true
        · simp [RK.kOf, RK.initStage, hfs, hs, he']
        · simp [RK.kOf, RK.initStage, hfs, hs, he', RK.prods]
      refine ⟨⟨?_, ?_, ?_⟩, by omega⟩
      · intro i hi p
        have hi0 : i = 0 := by omega
        subst hi0
        rw [hk, rk.stageTime_zero hf hfs, rk.stageValue_zero hfs, hvf]
        rfl
      · intro _
        rw [hidx, hyi, rk.stageValue_zero hfs]
      · intro _ _ p
        rw [hidx, hyi, rk.stageTime_zero hf hfs, ← hvf]
        simp [RK.initStage, hfs, he']
  · have hidx : (rk.initStage t0 t1 y0 st mj).idx = 0 := by
      simp [RK.initStage, hfs]
    refine ⟨⟨?_, ?_, ?_⟩, by omega⟩
    · intro i hi; omega
    · intro hi; omega
    · intro hi; omega

end Verif
