import Verif.Lemmas.Conserved
import Verif.Lemmas.RK
import Mathlib.Algebra.Module.LinearMap.Defs

/-!
# Runge-Kutta steps do not change what the vector field does not change
-/

set_option linter.unusedSectionVars false

namespace Verif

open Finset

variable {m : ℕ} {T K Y VF Ct J A : Type}
variable [Field K] [DecidableEq K] [AddCommGroup Y] [Module K Y] [AddCommGroup VF] [Module K VF] [AddCommGroup A]
  [Module K A]

theorem treeDot_zero (ℓ : Y →ₗ[K] A) (a : List K) (k : ℕ → Y) (h : ∀ i, ℓ (k i) = 0) : ℓ (treeDot a k) = 0 := by
  unfold treeDot
  rw [map_sum]
  exact sum_eq_zero fun i _ => by rw [map_smul, h, smul_zero]

/-- A vector field value of term `p` along which `ℓ` does not change. -/
def RK.Null (rk : RK m T K Y VF Ct J) (ℓ : Y →ₗ[K] A) (p : Fin m) (v : VF) : Prop :=
  ∀ a b, ℓ ((rk.term p).prod v ((rk.term p).contr a b)) = 0

/-- The dense information of a step over which `ℓ` is `c`. -/
def RK.Dense.Flat (ℓ : Y → A) (c : A) (d : RK.Dense m Y) : Prop :=
  ℓ d.y0 = c ∧ ℓ d.y1 = c ∧ ∀ p i, ℓ (d.ks p i) = 0

/-- The vector field carried to the next step does not change `ℓ`. -/
def RK.NullState (rk : RK m T K Y VF Ct J) (ℓ : Y →ₗ[K] A) (s : RK.State m VF) : Prop :=
  ∀ x, s = some x → ∀ p, rk.Null ℓ p (x.2 p)

variable {rk : RK m T K Y VF Ct J} {ℓ : Y →ₗ[K] A}

theorem RK.null_zero (h : rk.WF) (p : Fin m) : rk.Null ℓ p 0 := by
  intro a b
  have := h.smul p 0 0 ((rk.term p).contr a b)
  rw [zero_smul, zero_smul] at this
  rw [this, map_zero]

theorem RK.null_treeDot (h : rk.WF) (p : Fin m) (a : List K) (f : ℕ → VF) (hf : ∀ i, rk.Null ℓ p (f i)) :
    rk.Null ℓ p (treeDot a f) := by
  intro t0 t1
  rw [prod_treeDot rk h]
  exact treeDot_zero ℓ a _ fun i => hf i t0 t1

structure RK.NullStage (rk : RK m T K Y VF Ct J) (ℓ : Y →ₗ[K] A) (c : A) (s : StageState m Y VF J) : Prop where
  yi : ℓ s.yi = c
  fs : ∀ p i, rk.Null ℓ p (s.fs p i)
  ks : ∀ p i, ℓ (s.ks p i) = 0
  f1 : ∀ p, rk.Null ℓ p (s.f1 p)

variable {c : A} (hℓ : ∀ p t y, rk.Null ℓ p ((rk.term p).vf t y))
include hℓ

theorem RK.nullStage_end (h : rk.WF) (t0 t1 : T) (s : StageState m Y VF J) (hs : rk.NullStage ℓ c s) (yi : Y)
    (hyi : ℓ yi = c) (f : Option VF) (k : Option Y) (jac : J) (r : Result) (hf : ∀ p, rk.Null ℓ p (f.getD 0) ∨
      (rk.tab p).implicit = false) (hk : ℓ (k.getD 0) = 0) :
    rk.NullStage ℓ c (rk.stageEnd t0 t1 s yi f k jac r) := by
  have hfi : ∀ p, rk.Null ℓ p (if (rk.tab p).implicit then f.getD 0 else
      (rk.term p).vf (rk.timeAt t0 t1 ((rk.tab p).cAt s.idx)) yi) := by
    intro p
    split
    · rename_i hi
      rcases hf p with h1 | h1
      · exact h1
      · rw [hi] at h1; cases h1
    · exact hℓ _ _ _
  have hupd : ∀ {X : Type} (P : X → Prop) (g : ℕ → X) (i : ℕ) (x : X), (∀ j, P (g j)) → P x →
      ∀ j, P (Function.update g i x j) := by
    intro X P g i x hg hx j
    by_cases hj : j = i
    · subst hj; rw [Function.update_self]; exact hx
    · rw [Function.update_of_ne hj]; exact hg j
  refine ⟨hyi, ?_, ?_, ?_⟩
  · intro p
    simp only [RK.stageEnd]
    split
    · exact hupd _ _ _ _ (hs.fs p) (hfi p)
    · exact hs.fs p
  · intro p
    simp only [RK.stageEnd]
    split
    · exact hs.ks p
    · refine hupd (fun x => ℓ x = 0) _ _ _ (hs.ks p) ?_
      split
      · exact hfi p t0 t1
      · dsimp only
        split
        · exact hk
        · rw [h.vfProd]; exact hℓ _ _ _ _ _
  · intro p
    simp only [RK.stageEnd]
    split
    · exact hfi p
    · exact hs.f1 p

theorem RK.null_partialY (h : rk.WF) (t0 t1 : T) (y0 : Y) (hy : ℓ y0 = c) (s : StageState m Y VF J)
    (hs : rk.NullStage ℓ c s) : ℓ (rk.partialY t0 t1 y0 s) = c := by
  unfold RK.partialY
  dsimp only
  rw [map_add, map_sum, hy]
  suffices ∀ p, ℓ ((if rk.storeFs then rk.prods t0 t1 (fun p => treeDot ((rk.tab p).row rk.numStages s.idx) (s.fs p))
      else fun p => treeDot ((rk.tab p).row rk.numStages s.idx) (s.ks p)) p) = 0 by
    rw [sum_eq_zero fun p _ => this p, add_zero]
  intro p
  split
  · exact RK.null_treeDot h p _ _ (hs.fs p) t0 t1
  · exact treeDot_zero ℓ _ _ (hs.ks p)

theorem RK.nullStage_stage (h : rk.WF) (hroot : rk.RootExact) (t0 t1 : T) (y0 : Y) (hy : ℓ y0 = c)
    (s : StageState m Y VF J) (hs : s.result.isOkay = true → rk.NullStage ℓ c s)
    (hok : (rk.stage t0 t1 y0 s).result.isOkay = true) : rk.NullStage ℓ c (rk.stage t0 t1 y0 s) := by
  cases hp : rk.implicitPart with
  | none =>
    simp only [RK.stage, hp] at hok ⊢
    have hs := hs hok
    exact RK.nullStage_end hℓ h _ _ _ hs _ (RK.null_partialY hℓ h _ _ _ hy _ hs) _ _ _ _
      (fun p => .inr (rk.implicitPart_none hp p)) (by simp)
  | some p =>
    obtain ⟨hrF, hrK⟩ := hroot (by simp [hp])
    have himp := rk.implicitPart_some hp
    by_cases he : rk.evalFs = true
    · simp only [RK.stage, hp, he, if_true] at hok ⊢
      have hok' : (s.result.update (rk.solveF t0 t1 y0 (rk.partialY t0 t1 y0 s) p s).2.2).isOkay = true := hok
      rw [Result.update_isOkay, Bool.and_eq_true] at hok'
      have hs := hs hok'.1
      have hsol : rk.Null ℓ p (rk.solveF t0 t1 y0 (rk.partialY t0 t1 y0 s) p s).1 := by
        have h0 := hrF _ _ _ _ hok'.2
        have := sub_eq_zero.1 h0
        intro a b
        refine Eq.trans (congrArg (fun v => ℓ ((rk.term p).prod v _)) this) ?_
        exact hℓ _ _ _ _ _
      refine RK.nullStage_end hℓ h _ _ _ hs _ ?_ _ _ _ _ (fun q => ?_) (by simp)
      · rw [map_add, map_smul, RK.null_partialY hℓ h _ _ _ hy _ hs]
        have := hsol t0 t1
        rw [show ℓ ((rk.term p).prod (rk.solveF t0 t1 y0 (rk.partialY t0 t1 y0 s) p s).1 (rk.control t0 t1 p)) = 0
          from this, smul_zero, add_zero]
      · by_cases hq : (rk.tab q).implicit = true
        · obtain rfl := h.oneImplicit q p hq himp
          exact .inl hsol
        · exact .inr (by simpa using hq)
    · have he' : rk.evalFs = false := by simpa using he
      simp only [RK.stage, hp, he', Bool.false_eq_true, if_false] at hok ⊢
      have hok' : (s.result.update (rk.solveK t0 t1 y0 (rk.partialY t0 t1 y0 s) p s).2.2).isOkay = true := hok
      rw [Result.update_isOkay, Bool.and_eq_true] at hok'
      have hs := hs hok'.1
      have hsol : ℓ (rk.solveK t0 t1 y0 (rk.partialY t0 t1 y0 s) p s).1 = 0 := by
        have h0 := hrK _ _ _ _ hok'.2
        have := sub_eq_zero.1 h0
        refine Eq.trans (congrArg ℓ this) ?_
        rw [h.vfProd]
        exact hℓ _ _ _ _ _
      refine RK.nullStage_end hℓ h _ _ _ hs _ ?_ _ _ _ _ (fun q => .inl (by simpa using RK.null_zero h q)) hsol
      rw [map_add, map_smul, RK.null_partialY hℓ h _ _ _ hy _ hs, hsol, smul_zero, add_zero]

theorem RK.nullStage_stages (h : rk.WF) (hroot : rk.RootExact) (t0 t1 : T) (y0 : Y) (hy : ℓ y0 = c) (n : ℕ)
    (s : StageState m Y VF J) (hs : s.result.isOkay = true → rk.NullStage ℓ c s)
    (hok : (rk.stages t0 t1 y0 n s).result.isOkay = true) : rk.NullStage ℓ c (rk.stages t0 t1 y0 n s) := by
  induction n generalizing s with
  | zero => exact hs hok
  | succ n ih =>
    unfold RK.stages at hok ⊢
    split
    · rename_i hi
      rw [if_pos hi] at hok
      exact ih _ (RK.nullStage_stage hℓ h hroot t0 t1 y0 hy s hs) hok
    · rename_i hi
      rw [if_neg hi] at hok
      exact hs hok

theorem RK.nullStage_init (h : rk.WF) (t0 t1 : T) (y0 : Y) (hy : ℓ y0 = c) (st : RK.State m VF)
    (hst : rk.NullState ℓ st) (j : Bool) : rk.NullStage ℓ c (rk.initStage t0 t1 y0 st j) := by
  unfold RK.initStage
  split
  · have hf : ∀ p, rk.Null ℓ p (if (st.getD (true, fun _ => 0)).1 || j then 0 else (st.getD (true, fun _ => 0)).2 p) := by
      intro p
      split
      · exact RK.null_zero h p
      · cases hs : st with
        | none => exact RK.null_zero h p
        | some x => exact hst x hs p
    have hupd : ∀ {X : Type} (P : X → Prop) (z x : X), P z → P x → ∀ j, P (Function.update (fun _ => z) 0 x j) := by
      intro X P z x hz hx j
      by_cases hj : j = 0
      · subst hj; rw [Function.update_self]; exact hx
      · rw [Function.update_of_ne hj]; exact hz
    refine ⟨hy, ?_, ?_, hf⟩
    · intro p
      dsimp only
      split
      · exact hupd _ _ _ (RK.null_zero h p) (hf p)
      · exact fun _ => RK.null_zero h p
    · intro p
      dsimp only
      split
      · exact fun _ => map_zero ℓ
      · exact hupd (fun x => ℓ x = 0) _ _ (map_zero ℓ) (hf p t0 t1)
  · exact ⟨hy, fun p _ => RK.null_zero h p, fun _ _ => map_zero ℓ, fun p => RK.null_zero h p⟩

theorem RK.keeps (h : rk.WF) (hroot : rk.RootExact) (interp : T → T → RK.Dense m Y → T → Y)
    (hi : ∀ a b d t, RK.Dense.Flat ℓ c d → ℓ (interp a b d t) = c) [LinearOrder T] :
    (rk.solver interp).Keeps (fun y => ℓ y = c) (rk.NullState ℓ) (RK.Dense.Flat ℓ c) where
  step := by
    intro t0 t1 y0 st j hy hst hok
    have hfin := RK.nullStage_stages hℓ h hroot t0 t1 y0 hy rk.numStages _
      (fun _ => RK.nullStage_init hℓ h t0 t1 y0 hy st hst j) hok
    have hks : ∀ p i, ℓ ((rk.step t0 t1 y0 st j).dense.ks p i) = 0 := by
      intro p i
      simp only [RK.step]
      split
      · exact hfin.fs p i t0 t1
      · exact hfin.ks p i
    have hy1 : ℓ (rk.step t0 t1 y0 st j).y = c := by
      have e : (rk.step t0 t1 y0 st j).y = if (List.finRange m).any (fun p => !(rk.tab p).ssal) then
          y0 + ∑ p, treeDot (rk.tab p).bSol ((rk.step t0 t1 y0 st j).dense.ks p)
        else (rk.stages t0 t1 y0 rk.numStages (rk.initStage t0 t1 y0 st j)).yi := rfl
      rw [e]
      split
      · rw [map_add, map_sum, hy, sum_eq_zero fun p _ => treeDot_zero ℓ _ _ (hks p), add_zero]
      · exact hfin.yi
    refine ⟨hy1, ?_, hy, hy1, hks⟩
    intro x hx p
    have hx' : (if rk.fsal then
        some (false, (rk.stages t0 t1 y0 rk.numStages (rk.initStage t0 t1 y0 st j)).f1) else none) = some x := hx
    split at hx'
    · rw [← Option.some.inj hx']
      exact hfin.f1 p
    · cases hx'
  interp a b d t hd := hi a b d t hd

omit hℓ in
theorem RK.nullState_init (h : rk.WF) : rk.NullState ℓ rk.init := by
  intro x hx p
  unfold RK.init at hx
  split at hx
  · rw [← Option.some.inj hx]
    exact RK.null_zero h p
  · cases hx

end Verif
