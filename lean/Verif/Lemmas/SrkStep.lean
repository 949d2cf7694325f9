import Verif.Lemmas.SRK
import Verif.Lemmas.SrkOrder

/-!
# The expansion of a step of `AbstractSRK` for additive noise
-/

set_option linter.unusedSectionVars false

namespace Verif
open Filter Topology Set

variable {E B : Type} [NormedAddCommGroup E] [NormedSpace ℝ E] [NormedAddCommGroup B] [NormedSpace ℝ B]

/-- A stochastic Runge-Kutta method applied to `dy = f(t, y) dt + g(t) dw`: the drift is an `ODETerm`, the diffusion
a `ControlTerm` of the path `w`. -/
noncomputable def addSrk (tab : STableau ℝ) (f : ℝ → E → E) (g : ℝ → B →L[ℝ] E) (w : ℝ → B) :
    SRK ℝ E E (B →L[ℝ] E) ℝ (ℝ × B × B × B) where
  tab := tab
  drift :=
    { vf := f
      contr := fun t0 t1 => t1 - t0
      prod := fun v c => c • v
      vfProd := fun t y c => c • f t y }
  diffusion :=
    { vf := fun t _ => g t
      contr := levyOf w
      prod := fun G c => G c.2.1
      vfProd := fun t _ c => g t c.2.1 }
  ofTime h := h
  leafW c := (0, c.2.1, 0, 0)
  leafLevy l c := (0, if l = 0 then c.2.2.1 else c.2.2.2, 0, 0)

/-- The areas `H` (`l = 0`) and `K` (`l = 1`) of a path over `[0, 1]`. -/
noncomputable def area (w : ℝ → B) (l : ℕ) : B := if l = 0 then (levyOf w 0 1).2.2.1 else (levyOf w 0 1).2.2.2

noncomputable section
namespace STableau
variable (tab : STableau ℝ)

/-- The number of kinds of areas used. -/
def numLevy : ℕ := match tab.noise with
  | .additive _ levy => levy.length
  | .general _ levy => levy.length

/-- The coefficient of `W` in stage `j`, for additive noise. -/
def noiseW (j : ℕ) : ℝ := match tab.noise with
  | .additive w _ => w.a.getD j 0
  | .general w _ => ∑ i ∈ Finset.range j, lowerAt w.a j i

/-- The coefficient of the area `l` in stage `j`, for additive noise. -/
def noiseL (l j : ℕ) : ℝ := match tab.noise with
  | .additive _ levy => ((levy.map (·.a)).getD l []).getD j 0
  | .general _ levy => ∑ i ∈ Finset.range j, lowerAt ((levy.map (·.a)).getD l []) j i

/-- The noise in stage `j`, to first order. -/
def stageX (G : B →L[ℝ] E) (w : ℝ → B) (j : ℕ) : E :=
  G (tab.noiseW j • (levyOf w 0 1).2.1 + ∑ l ∈ Finset.range tab.numLevy, tab.noiseL l j • area w l)

/-- `∑ b = 1`. -/
def sumB : ℝ := ∑ j ∈ Finset.range tab.bSol.length, tab.bSol.getD j 0

/-- `∑ b c`. -/
def sumBC : ℝ := ∑ j ∈ Finset.range tab.bSol.length, tab.bSol.getD j 0 * tab.cs j

/-- `∑ b a`. -/
def sumBA : ℝ := ∑ j ∈ Finset.range tab.bSol.length, tab.bSol.getD j 0 * ∑ i ∈ Finset.range j, lowerAt tab.a j i

/-- The noise of the new value is right up to fourth order. -/
def NoiseOrder : Prop := match tab.noise with
  | .additive w levy => w.bSol = 1 ∧ 0 < levy.length ∧ ∀ l < levy.length, (levy.map (·.bSol)).getD l 0 = 0
  | .general w levy => (∑ i ∈ Finset.range tab.bSol.length, w.bSol.getD i 0) = 1 ∧
      (∑ i ∈ Finset.range tab.bSol.length, w.bSol.getD i 0 * tab.cs i) = 1 / 2 ∧ 0 < levy.length ∧
      ∀ l < levy.length,
        (∑ i ∈ Finset.range tab.bSol.length, ((levy.map (·.bSol)).getD l []).getD i 0) = 0 ∧
        (∑ i ∈ Finset.range tab.bSol.length, ((levy.map (·.bSol)).getD l []).getD i 0 * tab.cs i)
          = if l = 0 then -1 else 0

/-- The conditions for an error of order `ε⁴`. -/
structure AdditiveOrder : Prop where
  noise : tab.NoiseOrder
  b : tab.sumB = 1
  w : (∑ j ∈ Finset.range tab.bSol.length, tab.bSol.getD j 0 * tab.noiseW j) = 1 / 2
  levy : ∀ l < tab.numLevy, (∑ j ∈ Finset.range tab.bSol.length, tab.bSol.getD j 0 * tab.noiseL l j)
    = if l = 0 then 1 else 0

end STableau
end

variable {f : ℝ → E → E} {g g' : ℝ → B →L[ℝ] E} {w : ℝ → B} {t0 : ℝ} {y0 : E} {tab : STableau ℝ}

theorem SmoothDiffusion.expandC (hg : SmoothDiffusion g g' t0) (c : ℝ) (p : B) :
    UO 5 (fun ε (_ : ℝ) => g (t0 + c * ε ^ 2) (ε • p) - (ε • g t0 p + ε ^ 3 • (c • g' t0 p))) := by
  have h : UO 4 (fun ε (_ : ℝ) => g (t0 + ε ^ 2 * (c * 1)) - g t0 - (ε ^ 2 * (c * 1)) • g' t0) := by
    obtain ⟨C, hC, h⟩ := hg.expand c
    exact ⟨C, hC, h.mono fun ε h u _ => h 1 ⟨zero_le_one, le_rfl⟩⟩
  refine ((h.apply (UO.const p)).smul_pow 1).congr' fun ε u => ?_
  have e : t0 + ε ^ 2 * (c * 1) = t0 + c * ε ^ 2 := by ring
  rw [e]
  simp only [sub_apply, smul_apply, map_smul]
  module

theorem stageNoise_expand (hg : SmoothDiffusion g g' t0) (hw0 : w 0 = 0) (y : E) (z : ℝ → ℕ → E) (j : ℕ) :
    UO 3 (fun ε (_ : ℝ) => (addSrk tab f g (scaledPath w t0 ε)).docStageNoise t0 (t0 + ε ^ 2) y (z ε) j
      - ε • tab.stageX (g t0) w j) := by
  unfold SRK.docStageNoise STableau.stageX STableau.noiseW STableau.noiseL STableau.numLevy
  simp only [addSrk]
  cases tab.noise with
  | additive cw levy =>
    refine (UO.zero 3).congr ?_
    filter_upwards [ev_pos] with ε hε u _
    simp only [SRK.g0Noise, levy_scaled w hw0 t0 ε hε.1, area]
    have e : ∀ l : ℕ, (if l = 0 then ε • (levyOf w 0 1).2.2.1 else ε • (levyOf w 0 1).2.2.2)
        = ε • (if l = 0 then (levyOf w 0 1).2.2.1 else (levyOf w 0 1).2.2.2) := by
      intro l; split_ifs <;> rfl
    simp only [e, map_add, map_smul, map_sum, smul_add, Finset.smul_sum, smul_comm ε]
    abel
  | general cw levy =>
    have hW := fun i => ((hg.expandC (tab.cs i) (levyOf w 0 1).2.1).mono (m := 3) (by norm_num)).const_smul
      (lowerAt cw.a j i)
    have hL := fun l i => ((hg.expandC (tab.cs i) (area w l)).mono (m := 3) (by norm_num)).const_smul
      (lowerAt ((levy.map (·.a)).getD l []) j i)
    have h1 := UO.sum (Finset.range j) fun i _ => (hW i).add (UO.sum (Finset.range levy.length) fun l _ => hL l i)
    have h2 : UO 3 (fun ε (_ : ℝ) => ε ^ 3 • ∑ i ∈ Finset.range j, (lowerAt cw.a j i • (tab.cs i • g' t0 (levyOf w 0 1).2.1)
        + ∑ l ∈ Finset.range levy.length, lowerAt ((levy.map (·.a)).getD l []) j i • (tab.cs i • g' t0 (area w l)))) :=
      ((UO.const _).smul_pow 3).congr' fun ε u => rfl
    refine (h1.add h2).congr ?_
    filter_upwards [ev_pos] with ε hε u _
    simp only [SRK.wg, SRK.lg, levy_scaled w hw0 t0 ε hε.1, add_sub_cancel_left]
    have e : ∀ l : ℕ, (if l = 0 then ε • (levyOf w 0 1).2.2.1 else ε • (levyOf w 0 1).2.2.2)
        = ε • area w l := by
      intro l; unfold area; split_ifs <;> rfl
    simp only [e, map_add, map_sum, map_smul, smul_add, Finset.smul_sum, smul_sub, Finset.sum_add_distrib,
      Finset.sum_sub_distrib, Finset.sum_smul, smul_comm ε, smul_comm (ε ^ 3)]
    rw [Finset.sum_comm (s := Finset.range levy.length) (t := Finset.range j)]
    abel

theorem finalNoise_expand (hg : SmoothDiffusion g g' t0) (hw0 : w 0 = 0) (hn : tab.NoiseOrder) (y : E) (z : ℝ → ℕ → E) :
    UO 5 (fun ε (_ : ℝ) => (addSrk tab f g (scaledPath w t0 ε)).docNoise t0 (t0 + ε ^ 2) y (z ε)
      - (ε • g t0 (levyOf w 0 1).2.1
        + ε ^ 3 • g' t0 ((1 / 2 : ℝ) • (levyOf w 0 1).2.1 - (levyOf w 0 1).2.2.1))) := by
  unfold SRK.docNoise
  unfold STableau.NoiseOrder at hn
  simp only [addSrk]
  cases hnoise : tab.noise with
  | additive cw levy =>
    rw [hnoise] at hn
    obtain ⟨h1, h2, h3⟩ := hn
    have hx := (hg.expandC 1 ((levyOf w 0 1).2.1 - (2 : ℝ) • (levyOf w 0 1).2.2.1)).const_smul (1 / 2)
    refine hx.congr ?_
    filter_upwards [ev_pos] with ε hε u _
    simp only [SRK.g0Noise, levy_scaled w hw0 t0 ε hε.1, h1, if_neg h2.ne', one_mul, one_smul]
    rw [Finset.sum_eq_zero fun l hl => by rw [h3 l (Finset.mem_range.1 hl), zero_smul]]
    simp only [smul_apply, sub_apply, map_smul, map_sub, Prod.snd_sub, Prod.fst_sub, Prod.smul_snd,
      Prod.smul_fst, if_true]
    module
  | general cw levy =>
    rw [hnoise] at hn
    obtain ⟨h1, h2, h3, h4⟩ := hn
    have hW := fun i => (hg.expandC (tab.cs i) (levyOf w 0 1).2.1).const_smul (cw.bSol.getD i 0)
    have hL := fun l i => (hg.expandC (tab.cs i) (area w l)).const_smul (((levy.map (·.bSol)).getD l []).getD i 0)
    have hs := UO.sum (Finset.range tab.bSol.length) fun i _ =>
      (hW i).add (UO.sum (Finset.range levy.length) fun l _ => hL l i)
    refine hs.congr ?_
    filter_upwards [ev_pos] with ε hε u _
    simp only [SRK.wg, SRK.lg, levy_scaled w hw0 t0 ε hε.1, add_sub_cancel_left]
    have e : ∀ l : ℕ, (if l = 0 then ε • (levyOf w 0 1).2.2.1 else ε • (levyOf w 0 1).2.2.2)
        = ε • area w l := by
      intro l; unfold area; split_ifs <;> rfl
    simp only [e, smul_sub, smul_add, Finset.sum_add_distrib, Finset.sum_sub_distrib]
    have s1 : ∑ i ∈ Finset.range tab.bSol.length, cw.bSol.getD i 0 • ε • g t0 (levyOf w 0 1).2.1
        = ε • g t0 (levyOf w 0 1).2.1 := by
      rw [← Finset.sum_smul, h1, one_smul]
    have s2 : ∑ i ∈ Finset.range tab.bSol.length, cw.bSol.getD i 0 • ε ^ 3 • tab.cs i • g' t0 (levyOf w 0 1).2.1
        = ε ^ 3 • ((1 / 2 : ℝ) • g' t0 (levyOf w 0 1).2.1) := by
      rw [← h2, Finset.sum_smul, Finset.smul_sum]
      exact Finset.sum_congr rfl fun i _ => by module
    have s3 : ∑ i ∈ Finset.range tab.bSol.length, ∑ l ∈ Finset.range levy.length,
        ((levy.map (·.bSol)).getD l []).getD i 0 • ε • g t0 (area w l) = 0 := by
      rw [Finset.sum_comm]
      refine Finset.sum_eq_zero fun l hl => ?_
      rw [← Finset.sum_smul, (h4 l (Finset.mem_range.1 hl)).1, zero_smul]
    have s4 : ∑ i ∈ Finset.range tab.bSol.length, ∑ l ∈ Finset.range levy.length,
        ((levy.map (·.bSol)).getD l []).getD i 0 • ε ^ 3 • tab.cs i • g' t0 (area w l)
        = -(ε ^ 3 • g' t0 (levyOf w 0 1).2.2.1) := by
      rw [Finset.sum_comm]
      have : ∀ l ∈ Finset.range levy.length, ∑ i ∈ Finset.range tab.bSol.length,
          ((levy.map (·.bSol)).getD l []).getD i 0 • ε ^ 3 • tab.cs i • g' t0 (area w l)
          = if l = 0 then -(ε ^ 3 • g' t0 (levyOf w 0 1).2.2.1) else 0 := by
        intro l hl
        have h5 := (h4 l (Finset.mem_range.1 hl)).2
        have h6 : ∑ i ∈ Finset.range tab.bSol.length,
            ((levy.map (·.bSol)).getD l []).getD i 0 • ε ^ 3 • tab.cs i • g' t0 (area w l)
            = (∑ i ∈ Finset.range tab.bSol.length, ((levy.map (·.bSol)).getD l []).getD i 0 * tab.cs i)
              • ε ^ 3 • g' t0 (area w l) := by
          rw [Finset.sum_smul]
          exact Finset.sum_congr rfl fun i _ => by module
        rw [h6, h5]
        split_ifs with h0
        · subst h0
          simp [area]
        · simp
      rw [Finset.sum_congr rfl this, Finset.sum_ite_eq' (Finset.range levy.length) 0, if_pos (Finset.mem_range.2 h3)]
    rw [s1, s2, s3, s4]
    simp only [map_sub, map_smul, smul_sub]
    abel

variable [CompleteSpace B] [CompleteSpace E] {L : ℝ × E →L[ℝ] E} {Q : ℝ × E →L[ℝ] ℝ × E →L[ℝ] E}

/-- **The local error**, for tableaus meeting the order conditions. -/
theorem local_error (hwf : tab.WF) (ho : tab.AdditiveOrder)
    (hF : HasJet2 (fun x : ℝ × E => f x.1 x.2) (t0, y0) L Q) (hg : SmoothDiffusion g g' t0)
    (hw : Continuous w) (hw0 : w 0 = 0) {y : ℝ → ℝ → E}
    (hy : ∀ᶠ ε in 𝓝[>] (0 : ℝ), SolvesAdditive f g g' (scaledPath w t0 ε) t0 (t0 + ε ^ 2) y0 (y ε)) :
    UO 5 (fun ε (_ : ℝ) => ((addSrk tab f g (scaledPath w t0 ε)).step t0 (t0 + ε ^ 2) y0).y - y ε (t0 + ε ^ 2)
      - ε ^ 4 • (L (tab.sumBC - 1 / 2, (tab.sumBA - 1 / 2) • f t0 y0)
        + (∑ j ∈ Finset.range tab.bSol.length, tab.bSol.getD j 0 • Q (0, tab.stageX (g t0) w j) (0, tab.stageX (g t0) w j))
        - ∫ v in (0 : ℝ)..1, Q (0, g t0 (w v)) (0, g t0 (w v)))) := by
  have hex := exact_expand hF hg hw hw0 hy
  have hnum := scheme_expand hF tab.bSol.length (fun j i => lowerAt tab.a j i) (fun j => tab.bSol.getD j 0) tab.cs
    (fun ε => (addSrk tab f g (scaledPath w t0 ε)).zAt t0 (t0 + ε ^ 2) y0)
    (fun ε j => (addSrk tab f g (scaledPath w t0 ε)).docStageNoise t0 (t0 + ε ^ 2) y0
      ((addSrk tab f g (scaledPath w t0 ε)).zAt t0 (t0 + ε ^ 2) y0) j)
    (tab.stageX (g t0) w)
    (fun ε => ((addSrk tab f g (scaledPath w t0 ε)).step t0 (t0 + ε ^ 2) y0).y)
    (fun ε => (addSrk tab f g (scaledPath w t0 ε)).docNoise t0 (t0 + ε ^ 2) y0
      ((addSrk tab f g (scaledPath w t0 ε)).zAt t0 (t0 + ε ^ 2) y0))
    (g t0 (levyOf w 0 1).2.1) (g' t0 ((1 / 2 : ℝ) • (levyOf w 0 1).2.1 - (levyOf w 0 1).2.2.1))
    (Eventually.of_forall fun ε j hj => by
      have h := (addSrk tab f g (scaledPath w t0 ε)).zAt_isStages (by exact hwf) t0 (t0 + ε ^ 2) y0 j (by exact hj)
      simp only [SRK.hf, addSrk, add_sub_cancel_left] at h ⊢
      exact h)
    (fun j _ => stageNoise_expand hg hw0 y0 _ j)
    (Eventually.of_forall fun ε => by
      have h := (addSrk tab f g (scaledPath w t0 ε)).step_y (by exact hwf) t0 (t0 + ε ^ 2) y0
      simp only [SRK.docY1, SRK.hf, addSrk, add_sub_cancel_left] at h ⊢
      exact h)
    (finalNoise_expand hg hw0 ho.noise y0 _)
  have hW : w 1 = (levyOf w 0 1).2.1 := by simp [levyOf, hw0]
  rw [integral_eq_area w hw hw0, hW] at hex
  have s3 : ∑ j ∈ Finset.range tab.bSol.length, tab.bSol.getD j 0 • L (0, tab.stageX (g t0) w j)
      = L (0, g t0 ((1 / 2 : ℝ) • (levyOf w 0 1).2.1 + (levyOf w 0 1).2.2.1)) := by
    have e : ∀ j ∈ Finset.range tab.bSol.length, tab.bSol.getD j 0 • L (0, tab.stageX (g t0) w j)
        = (L.comp ((ContinuousLinearMap.inr ℝ ℝ E).comp (g t0)))
          (tab.bSol.getD j 0 • (tab.noiseW j • (levyOf w 0 1).2.1
            + ∑ l ∈ Finset.range tab.numLevy, tab.noiseL l j • area w l)) := by
      intro j _
      rw [map_smul]; rfl
    rw [Finset.sum_congr rfl e, ← map_sum]
    have e2 : ∑ j ∈ Finset.range tab.bSol.length, tab.bSol.getD j 0 • (tab.noiseW j • (levyOf w 0 1).2.1
            + ∑ l ∈ Finset.range tab.numLevy, tab.noiseL l j • area w l)
        = (1 / 2 : ℝ) • (levyOf w 0 1).2.1 + (levyOf w 0 1).2.2.1 := by
      simp only [smul_add, Finset.sum_add_distrib, Finset.smul_sum, smul_smul]
      rw [← Finset.sum_smul, ho.w, Finset.sum_comm]
      congr 1
      have : ∀ l ∈ Finset.range tab.numLevy, ∑ j ∈ Finset.range tab.bSol.length,
          (tab.bSol.getD j 0 * tab.noiseL l j) • area w l = if l = 0 then (levyOf w 0 1).2.2.1 else 0 := by
        intro l hl
        rw [← Finset.sum_smul, ho.levy l (Finset.mem_range.1 hl)]
        split_ifs with h0
        · subst h0; simp [area]
        · simp
      have hpos : 0 < tab.numLevy := by
        have h := ho.noise
        unfold STableau.NoiseOrder at h
        unfold STableau.numLevy
        cases hn : tab.noise with
        | additive a l => rw [hn] at h; exact h.2.1
        | general a l => rw [hn] at h; exact h.2.2.1
      rw [Finset.sum_congr rfl this, Finset.sum_ite_eq' (Finset.range tab.numLevy) 0,
        if_pos (Finset.mem_range.2 hpos)]
    rw [e2]
    rfl
  have s4 : ∑ j ∈ Finset.range tab.bSol.length,
      tab.bSol.getD j 0 • L (tab.cs j, (∑ i ∈ Finset.range j, lowerAt tab.a j i) • f t0 y0)
      = L (tab.sumBC, tab.sumBA • f t0 y0) := by
    have e : ∀ j ∈ Finset.range tab.bSol.length,
        tab.bSol.getD j 0 • L (tab.cs j, (∑ i ∈ Finset.range j, lowerAt tab.a j i) • f t0 y0)
        = L (tab.bSol.getD j 0 • (tab.cs j, (∑ i ∈ Finset.range j, lowerAt tab.a j i) • f t0 y0)) := fun j _ =>
      (map_smul _ _ _).symm
    rw [Finset.sum_congr rfl e, ← map_sum]
    congr 1
    unfold STableau.sumBC STableau.sumBA
    refine Prod.ext ?_ ?_
    · simp [Prod.fst_sum]
    · simp only [Prod.snd_sum, Prod.smul_snd]
      rw [Finset.sum_smul]
      exact Finset.sum_congr rfl fun j _ => smul_smul _ _ _
  have s2 := ho.b
  unfold STableau.sumB at s2
  simp only [smul_add, Finset.sum_add_distrib] at hnum
  rw [s3, s4, s2] at hnum
  refine (hnum.sub hex).congr' fun ε u => ?_
  have e1 : L (tab.sumBC - 1 / 2, (tab.sumBA - 1 / 2) • f t0 y0)
      = L (tab.sumBC, tab.sumBA • f t0 y0) - (1 / 2 : ℝ) • L (1, f t0 y0) := by
    rw [← map_smul, ← map_sub]
    congr 1
    refine Prod.ext ?_ ?_
    · simp
    · simp only [Prod.smul_mk, Prod.mk_sub_mk, sub_smul]
  rw [e1]
  have e2 : (levyOf w 0 1).2.1 - ((1 / 2 : ℝ) • (levyOf w 0 1).2.1 + (levyOf w 0 1).2.2.1)
      = (1 / 2 : ℝ) • (levyOf w 0 1).2.1 - (levyOf w 0 1).2.2.1 := by module
  rw [e2]
  module

end Verif
