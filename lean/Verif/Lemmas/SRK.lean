import Verif.Spec.SRK
import Verif.Lemmas.RK

/-!
# A step of `AbstractSRK` computes the documented formulas
-/

set_option linter.unusedSectionVars false

namespace Verif
open Finset

variable {K Y VF VF' Ct Ct' : Type} [Field K]
variable [AddCommGroup Y] [Module K Y]

theorem treeDot_lowerRow (a : List (List K)) (n i : Nat) (hs : LowerShape a n) (hi : i < n) (buf : Nat → Y) :
    treeDot (lowerRow a n i) buf = ∑ j ∈ range i, lowerAt a i j • buf j := by
  cases i with
  | zero =>
    simp only [treeDot, lowerRow, List.length_replicate, range_zero, sum_empty]
    apply sum_eq_zero
    intro j hj
    rw [List.getD_replicate _ (by simpa using hj)]
    simp
  | succ i =>
    have hl : i < a.length := by have := hs.rows; omega
    have hr := hs.row i hl
    simp only [treeDot, lowerRow, List.length_append, List.length_replicate, hr]
    have hn : i + 1 + (n - (i + 1)) = n := by omega
    rw [hn]
    refine (sum_subset (range_subset_range.2 (Nat.le_of_lt hi)) ?_).symm.trans ?_
    · intro j hj hj2
      have h1 : (a.getD i []).length ≤ j := by
        rw [hr]; simpa using hj2
      rw [List.getD_append_right _ _ _ _ h1, hr, List.getD_replicate]
      · simp
      · have : j < n := by simpa using hj
        have : i + 1 ≤ j := by rw [hr] at h1; exact h1
        omega
    · apply sum_congr rfl
      intro j hj
      have hj' : j < (a.getD i []).length := by rw [hr]; simpa using hj
      congr 1
      rw [List.getD_append _ _ _ _ hj']
      simp only [lowerAt, Nat.add_sub_cancel]
      rw [if_pos (by simpa using hj)]

theorem treeDot_length (a : List K) (n : Nat) (hs : a.length = n) (buf : Nat → Y) :
    treeDot a buf = ∑ j ∈ range n, a.getD j 0 • buf j := by rw [treeDot, hs]

namespace SRK
variable [AddCommGroup VF'] [Module K VF'] [AddCommGroup Ct'] [Module K Ct']
variable (s : SRK K Y VF VF' Ct Ct')

/-- What is carried along before stage `k`. -/
def carryAt (t0 t1 : K) (y0 : Y) (k : Nat) : SrkCarry Y :=
  (List.range k).foldl (s.stage t0 t1 y0) ⟨fun _ => 0, fun _ => 0, fun _ _ => 0⟩

/-- The value at which stage `j` is evaluated. -/
def zAt (t0 t1 : K) (y0 : Y) (j : Nat) : Y :=
  let c := s.carryAt t0 t1 y0 j
  y0 + treeDot (lowerRow s.tab.a s.numStages j) c.hkf + s.stageNoise t0 t1 y0 c j

theorem carryAt_succ (t0 t1 : K) (y0 : Y) (k : Nat) :
    s.carryAt t0 t1 y0 (k + 1) = s.stage t0 t1 y0 (s.carryAt t0 t1 y0 k) k := by
  simp [carryAt, List.range_succ, List.foldl_append]

theorem cAt_eq (j : Nat) : s.cAt j = s.tab.cs j := by
  cases j <;> simp [cAt, STableau.cs]

open Classical in
theorem carryAt_hkf (t0 t1 : K) (y0 : Y) (k i : Nat) : (s.carryAt t0 t1 y0 k).hkf i =
    if i < k ∧ ¬ Ignored s.tab.ignoreF i then s.hf t0 t1 (s.zAt t0 t1 y0) i else 0 := by
  induction k with
  | zero => simp [carryAt]
  | succ k ih =>
    rw [carryAt_succ]
    have key : (s.stage t0 t1 y0 (s.carryAt t0 t1 y0 k) k).hkf =
        if (s.tab.ignoreF.getD []).getD k false then (s.carryAt t0 t1 y0 k).hkf
        else Function.update (s.carryAt t0 t1 y0 k).hkf k (s.hf t0 t1 (s.zAt t0 t1 y0) k) := by
      unfold stage
      cases hn : s.tab.noise with
      | additive w levy => simp only [hf, zAt, cAt_eq]
      | general w levy =>
        simp only
        split <;> simp only [hf, zAt, cAt_eq]
    rw [key]
    by_cases hk : (s.tab.ignoreF.getD []).getD k false = true
    · rw [if_pos hk, ih]
      by_cases hik : i = k
      · subst hik
        have : Ignored s.tab.ignoreF i := hk
        simp [this]
      · have : i < k + 1 ↔ i < k := by omega
        simp [this]
    · rw [if_neg hk]
      by_cases hik : i = k
      · subst hik
        have : ¬ Ignored s.tab.ignoreF i := hk
        simp [this]
      · have : i < k + 1 ↔ i < k := by omega
        rw [Function.update_of_ne hik, ih]
        simp [this]

open Classical in
theorem carryAt_wkg (t0 t1 : K) (y0 : Y) (w : GeneralCoeffs K) (levy : List (GeneralCoeffs K))
    (hn : s.tab.noise = .general w levy) (k i : Nat) : (s.carryAt t0 t1 y0 k).wkg i =
      if i < k ∧ ¬ Ignored s.tab.ignoreG i then s.wg t0 t1 (s.zAt t0 t1 y0) i else 0 := by
  induction k with
  | zero => simp [carryAt]
  | succ k ih =>
    rw [carryAt_succ]
    have key : (s.stage t0 t1 y0 (s.carryAt t0 t1 y0 k) k).wkg =
        if (s.tab.ignoreG.getD []).getD k false then (s.carryAt t0 t1 y0 k).wkg
        else Function.update (s.carryAt t0 t1 y0 k).wkg k (s.wg t0 t1 (s.zAt t0 t1 y0) k) := by
      unfold stage
      simp only [hn]
      split <;> simp only [wg, zAt, cAt_eq]
    rw [key]
    by_cases hk : (s.tab.ignoreG.getD []).getD k false = true
    · rw [if_pos hk, ih]
      by_cases hik : i = k
      · subst hik
        have : Ignored s.tab.ignoreG i := hk
        simp [this]
      · have : i < k + 1 ↔ i < k := by omega
        simp [this]
    · rw [if_neg hk]
      by_cases hik : i = k
      · subst hik
        have : ¬ Ignored s.tab.ignoreG i := hk
        simp [this]
      · have : i < k + 1 ↔ i < k := by omega
        rw [Function.update_of_ne hik, ih]
        simp [this]

open Classical in
theorem carryAt_lkg (t0 t1 : K) (y0 : Y) (w : GeneralCoeffs K) (levy : List (GeneralCoeffs K))
    (hn : s.tab.noise = .general w levy) (l : Nat) (hl : l < levy.length) (k i : Nat) :
    (s.carryAt t0 t1 y0 k).lkg l i =
      if i < k ∧ ¬ Ignored s.tab.ignoreG i then s.lg t0 t1 (s.zAt t0 t1 y0) l i else 0 := by
  induction k with
  | zero => simp [carryAt]
  | succ k ih =>
    rw [carryAt_succ]
    have key : (s.stage t0 t1 y0 (s.carryAt t0 t1 y0 k) k).lkg l =
        if (s.tab.ignoreG.getD []).getD k false then (s.carryAt t0 t1 y0 k).lkg l
        else Function.update ((s.carryAt t0 t1 y0 k).lkg l) k (s.lg t0 t1 (s.zAt t0 t1 y0) l k) := by
      unfold stage
      simp only [hn]
      split
      · rfl
      · simp only [lg, zAt, cAt_eq, hl, if_true]
    rw [key]
    by_cases hk : (s.tab.ignoreG.getD []).getD k false = true
    · rw [if_pos hk, ih]
      by_cases hik : i = k
      · subst hik
        have : Ignored s.tab.ignoreG i := hk
        simp [this]
      · have : i < k + 1 ↔ i < k := by omega
        simp [this]
    · rw [if_neg hk]
      by_cases hik : i = k
      · subst hik
        have : ¬ Ignored s.tab.ignoreG i := hk
        simp [this]
      · have : i < k + 1 ↔ i < k := by omega
        rw [Function.update_of_ne hik, ih]
        simp [this]

theorem smul_ite_ignored (p : Prop) [Decidable p] (c : K) (y : Y) (h : ¬ p → c = 0) :
    c • (if p then y else 0) = c • y := by
  by_cases hp : p
  · simp [hp]
  · simp [hp, h hp]

theorem addLevy_eq (t0 t1 : K) (y0 : Y) (cw : K) (cl : List K) (cl' : Nat → K) (n : Nat) (hn : cl.length = n)
    (h : ∀ l < n, cl.getD l 0 = cl' l) :
    addLevy cw cl (s.diffusion.prod (s.diffusion.vf t0 y0) (s.leafW (s.diffusion.contr t0 t1)))
      (fun l => s.diffusion.prod (s.diffusion.vf t0 y0) (s.leafLevy l (s.diffusion.contr t0 t1)))
      = s.g0Noise t0 t1 y0 cw cl' n := by
  unfold addLevy g0Noise
  rw [hn]
  congr 1
  apply sum_congr rfl
  intro l hl
  rw [h l (by simpa using hl)]

theorem getD_map' {α β : Type} (f : α → β) (l : List α) (i : Nat) (h : i < l.length) (d : β) :
    (l.map f).getD i d = f (l[i]'h) := by
  rw [List.getD_eq_getElem _ _ (by simpa using h)]
  simp

theorem stageNoise_eq (hwf : s.tab.WF) (t0 t1 : K) (y0 : Y) (j : Nat) (hj : j < s.tab.bSol.length) :
    s.stageNoise t0 t1 y0 (s.carryAt t0 t1 y0 j) j = s.docStageNoise t0 t1 y0 (s.zAt t0 t1 y0) j := by
  classical
  unfold stageNoise docStageNoise
  cases hn : s.tab.noise with
  | additive w levy =>
    simp only
    apply s.addLevy_eq _ _ _ _ _ _ _ (by simp)
    intro l hl
    rw [getD_map' _ _ _ hl, getD_map' _ _ _ hl]
  | general w levy =>
    simp only [sumNoise, List.length_map]
    have hg := hwf.general w levy hn
    rw [sum_add_distrib, sum_comm]
    congr 1
    · rw [numStages, treeDot_lowerRow _ _ _ (hg w (.inl rfl)).1 hj]
      apply sum_congr rfl
      intro i hi
      rw [s.carryAt_wkg t0 t1 y0 w levy hn]
      apply smul_ite_ignored
      intro hp
      apply (hg w (.inl rfl)).2.2.1 i ?_ j hj
      by_contra hc
      exact hp ⟨by simpa using hi, hc⟩
    · apply sum_congr rfl
      intro l hl
      have hl' : l < levy.length := by simpa using hl
      rw [getD_map' _ _ _ hl', getD_map' _ _ _ hl', numStages]
      have hx := hg _ (.inr (List.getElem_mem hl'))
      rw [treeDot_lowerRow _ _ _ hx.1 hj]
      apply sum_congr rfl
      intro i hi
      rw [s.carryAt_lkg t0 t1 y0 w levy hn l hl']
      apply smul_ite_ignored
      intro hp
      apply hx.2.2.1 i ?_ j hj
      by_contra hc
      exact hp ⟨by simpa using hi, hc⟩

theorem zAt_isStages (hwf : s.tab.WF) (t0 t1 : K) (y0 : Y) :
    s.IsStages t0 t1 y0 (s.zAt t0 t1 y0) := by
  classical
  intro j hj
  rw [zAt]
  rw [s.stageNoise_eq hwf t0 t1 y0 j hj, numStages, treeDot_lowerRow _ _ _ hwf.a hj]
  congr 2
  apply sum_congr rfl
  intro i hi
  rw [carryAt_hkf]
  apply smul_ite_ignored
  intro hp
  apply hwf.ignoreA i ?_ j hj
  by_contra hc
  exact hp ⟨by simpa using hi, hc⟩

theorem step_y (hwf : s.tab.WF) (t0 t1 : K) (y0 : Y) :
    (s.step t0 t1 y0).y = s.docY1 t0 t1 y0 (s.zAt t0 t1 y0) := by
  classical
  have hst : s.stages t0 t1 y0 = s.carryAt t0 t1 y0 s.tab.bSol.length := rfl
  simp only [step, docY1, hst]
  congr 1
  · congr 1
    apply sum_congr rfl
    intro i hi
    rw [carryAt_hkf]
    apply smul_ite_ignored
    intro hp
    apply hwf.ignoreB i
    by_contra hc
    exact hp ⟨by simpa using hi, hc⟩
  · unfold diffusionResult docNoise
    cases hn : s.tab.noise with
    | additive w levy =>
      simp only
      congr 1
      · apply s.addLevy_eq _ _ _ _ _ _ _ (by simp)
        intro l hl
        rw [getD_map' _ _ _ hl]
      · cases levy <;> simp
    | general w levy =>
      simp only [sumNoise, List.length_map]
      have hg := hwf.general w levy hn
      rw [sum_add_distrib, sum_comm]
      congr 1
      · rw [treeDot_length _ _ (hg w (.inl rfl)).2.1]
        apply sum_congr rfl
        intro i hi
        rw [s.carryAt_wkg t0 t1 y0 w levy hn]
        apply smul_ite_ignored
        intro hp
        apply (hg w (.inl rfl)).2.2.2.1 i
        by_contra hc
        exact hp ⟨by simpa using hi, hc⟩
      · apply sum_congr rfl
        intro l hl
        have hl' : l < levy.length := by simpa using hl
        rw [getD_map' _ _ _ hl']
        have hx := hg _ (.inr (List.getElem_mem hl'))
        rw [treeDot_length _ _ hx.2.1]
        apply sum_congr rfl
        intro i hi
        rw [s.carryAt_lkg t0 t1 y0 w levy hn l hl']
        apply smul_ite_ignored
        intro hp
        apply hx.2.2.2.1 i
        by_contra hc
        exact hp ⟨by simpa using hi, hc⟩

theorem step_err (hwf : s.tab.WF) (t0 t1 : K) (y0 : Y) :
    (s.step t0 t1 y0).err = s.tab.bError.map (s.docError t0 t1 (s.zAt t0 t1 y0)) := by
  classical
  have hst : s.stages t0 t1 y0 = s.carryAt t0 t1 y0 s.tab.bSol.length := rfl
  simp only [step, hst]
  unfold errorEstimate
  cases he : s.tab.bError with
  | none => rfl
  | some e =>
    obtain ⟨he1, he2⟩ := hwf.error e he
    have hd : treeDot e (s.carryAt t0 t1 y0 s.tab.bSol.length).hkf
        = ∑ j ∈ range s.tab.bSol.length, e.getD j 0 • s.hf t0 t1 (s.zAt t0 t1 y0) j := by
      rw [treeDot_length _ _ he1]
      apply sum_congr rfl
      intro i hi
      rw [carryAt_hkf]
      apply smul_ite_ignored
      intro hp
      apply he2 i
      by_contra hc
      exact hp ⟨by simpa using hi, hc⟩
    cases hn : s.tab.noise with
    | additive w levy => simp [docError, hn, hd]
    | general w levy =>
      have hg := hwf.general w levy hn
      obtain ⟨ew, hw, hw1, hw2⟩ := (hg w (.inl rfl)).2.2.2.2 (by simp [he])
      simp only [docError, hn, hw, Option.map_some, Option.getD_some, hd]
      congr 2
      simp only [sumNoise, List.length_map]
      rw [sum_add_distrib, sum_comm]
      congr 1
      · rw [treeDot_length _ _ hw1]
        apply sum_congr rfl
        intro i hi
        rw [s.carryAt_wkg t0 t1 y0 w levy hn]
        apply smul_ite_ignored
        intro hp
        apply hw2 i
        by_contra hc
        exact hp ⟨by simpa using hi, hc⟩
      · apply sum_congr rfl
        intro l hl
        have hl' : l < levy.length := by simpa using hl
        rw [getD_map' _ _ _ hl']
        obtain ⟨ex, hx, hx1, hx2⟩ := (hg _ (.inr (List.getElem_mem hl'))).2.2.2.2 (by simp [he])
        rw [hx, Option.getD_some, treeDot_length _ _ hx1]
        apply sum_congr rfl
        intro i hi
        rw [s.carryAt_lkg t0 t1 y0 w levy hn l hl']
        apply smul_ite_ignored
        intro hp
        apply hx2 i
        by_contra hc
        exact hp ⟨by simpa using hi, hc⟩

end SRK
end Verif
