import Verif.Lemmas.AdditiveNumeric
import Verif.Lemmas.Ito

/-!
# Additive noise: restarting the equation, stability and measurability of a step
-/

set_option linter.unusedSectionVars false

namespace Verif
open Set MeasureTheory ProbabilityTheory

section
variable {E B : Type} [NormedAddCommGroup E] [NormedSpace ℝ E] [NormedAddCommGroup B] [NormedSpace ℝ B]
  [CompleteSpace E]
  {f ft : ℝ → E → E} {fy : ℝ → E → E →L[ℝ] E} {fyy : ℝ → E → E →L[ℝ] E →L[ℝ] E} {g g' : ℝ → B →L[ℝ] E}
  {a b L : ℝ}

/-- The part of the Wiener integral after time `s`. -/
theorem wienerIntegral_sub (hg : SmoothNoise g g' a b L) {w : ℝ → B} (hw : Continuous w) {s r : ℝ} (hs : a ≤ s)
    (hsr : s ≤ r) (hr : r ≤ b) :
    wienerIntegral g g' w a r = wienerIntegral g g' w a s + wienerIntegral g g' w s r := by
  have hsub : uIcc s r ⊆ Icc a b := by rw [uIcc_of_le hsr]; exact Icc_subset_Icc hs hr
  have c1 : ∀ v : B, ContinuousOn (fun q => g' q (w q - v)) (Icc a b) := fun v =>
    hg.cont'.clm_apply (hw.sub continuous_const).continuousOn
  have i1 : IntervalIntegrable (fun q => g' q (w q - w a)) volume a s :=
    ((c1 _).mono (by rw [uIcc_of_le hs]; exact Icc_subset_Icc le_rfl (hsr.trans hr))).intervalIntegrable
  have i2 : IntervalIntegrable (fun q => g' q (w q - w a)) volume s r := ((c1 _).mono hsub).intervalIntegrable
  have i3 : IntervalIntegrable (fun q => g' q (w q - w s)) volume s r := ((c1 _).mono hsub).intervalIntegrable
  have i4 : IntervalIntegrable (fun q => g' q (w s - w a)) volume s r :=
    ((hg.cont'.clm_apply continuousOn_const).mono hsub).intervalIntegrable
  have hd : ∫ q in s..r, g' q (w s - w a) = g r (w s - w a) - g s (w s - w a) := by
    refine intervalIntegral.integral_eq_sub_of_hasDerivAt_of_le hsr
      (f := fun q => g q (w s - w a)) ?_ (fun q hq => ?_) i4
    · exact (hg.cont.clm_apply continuousOn_const).mono (Icc_subset_Icc hs hr)
    · have hq' : q ∈ Ioo a b := ⟨hs.trans_lt hq.1, hq.2.trans_le hr⟩
      have h1 := (hg.deriv q ⟨hq'.1.le, hq'.2.le⟩).hasDerivAt (Icc_mem_nhds hq'.1 hq'.2)
      have := h1.clm_apply (hasDerivAt_const q (w s - w a))
      simpa using this
  have he : ∫ q in s..r, g' q (w q - w a) = (∫ q in s..r, g' q (w q - w s)) + ∫ q in s..r, g' q (w s - w a) := by
    rw [← intervalIntegral.integral_add i3 i4]
    refine intervalIntegral.integral_congr fun q _ => ?_
    simp only [map_sub]
    abel
  unfold wienerIntegral
  rw [← intervalIntegral.integral_add_adjacent_intervals i1 i2, he, hd]
  simp only [map_sub]
  abel

/-- After time `s`, the solution solves the equation from its value at `s`. -/
theorem SolvesAdditive.restart (h : SmoothDrift f ft fy fyy a b L) (hg : SmoothNoise g g' a b L) {w : ℝ → B}
    (hw : Continuous w) {x : E} {y : ℝ → E} (hy : SolvesAdditive f g g' w a b x y) {s t : ℝ} (hs : a ≤ s) (hst : s < t)
    (ht : t ≤ b) : SolvesAdditive f g g' w s t (y s) y := by
  have hab : a < b := hs.trans_lt (hst.trans_le ht)
  have hsq : √(b - a) ^ 2 = b - a := Real.sq_sqrt (by linarith)
  have hb : a + √(b - a) ^ 2 = b := by rw [hsq]; ring
  let i : PathIx f g g' a b := ⟨a, √(b - a), x, w, y, le_rfl, Real.sqrt_pos.2 (by linarith), hb.le, hw, by rw [hb]; exact hy⟩
  have hc : ContinuousOn (fun r => f r (y r)) (Icc a b) := by
    have := i.drift_cont h
    have e : i.t = b := hb
    rw [e] at this
    exact this
  refine ⟨hy.continuous.mono (Icc_subset_Icc hs ht), fun r hr => ?_⟩
  have hrb := hr.2.trans ht
  have j1 : IntervalIntegrable (fun q => f q (y q)) volume a s :=
    (hc.mono (by rw [uIcc_of_le hs]; exact Icc_subset_Icc le_rfl (hr.1.trans hrb))).intervalIntegrable
  have j2 : IntervalIntegrable (fun q => f q (y q)) volume s r :=
    (hc.mono (by rw [uIcc_of_le hr.1]; exact Icc_subset_Icc hs hrb)).intervalIntegrable
  rw [hy.equation r ⟨hs.trans hr.1, hrb⟩, hy.equation s ⟨hs, hr.1.trans hrb⟩,
    wienerIntegral_sub hg hw hs hr.1 hrb, ← intervalIntegral.integral_add_adjacent_intervals j1 j2]
  abel

/-! ### Stability -/

variable {tab : STableau ℝ}

theorem addSrk_stageNoise_eq (w : ℝ → B) (s t : ℝ) (x x' : E) (z z' : ℕ → E) (j : ℕ) :
    (addSrk tab f g w).docStageNoise s t x z j = (addSrk tab f g w).docStageNoise s t x' z' j := by
  unfold SRK.docStageNoise
  cases tab.noise <;> rfl

theorem addSrk_noise_eq (w : ℝ → B) (s t : ℝ) (x x' : E) (z z' : ℕ → E) :
    (addSrk tab f g w).docNoise s t x z = (addSrk tab f g w).docNoise s t x' z' := by
  unfold SRK.docNoise
  cases tab.noise <;> rfl

theorem addSrk_z (hwf : tab.WF) (w : ℝ → B) (s t : ℝ) (x : E) {j : ℕ} (hj : j < tab.bSol.length) :
    (addSrk tab f g w).zAt s t x j = x + ∑ l ∈ Finset.range j, lowerAt tab.a j l
      • ((t - s) • f (s + tab.cs l * (t - s)) ((addSrk tab f g w).zAt s t x l))
      + (addSrk tab f g w).docStageNoise s t 0 (fun _ => 0) j := by
  rw [(addSrk tab f g w).zAt_isStages (by exact hwf) s t x j (by exact hj),
    addSrk_stageNoise_eq w s t x 0 _ (fun _ => 0) j]
  rfl

theorem addSrk_y (hwf : tab.WF) (w : ℝ → B) (s t : ℝ) (x : E) :
    ((addSrk tab f g w).step s t x).y = x + ∑ j ∈ Finset.range tab.bSol.length, tab.bSol.getD j 0
      • ((t - s) • f (s + tab.cs j * (t - s)) ((addSrk tab f g w).zAt s t x j))
      + (addSrk tab f g w).docNoise s t 0 (fun _ => 0) := by
  rw [(addSrk tab f g w).step_y (by exact hwf)]
  unfold SRK.docY1
  rw [addSrk_noise_eq w s t x 0 _ (fun _ => 0)]
  rfl

theorem time_mem_of {s t c : ℝ} (hs : a ≤ s) (hst : s ≤ t) (ht : t ≤ b) (hc : c ∈ Icc (0 : ℝ) 1) :
    s + c * (t - s) ∈ Icc a b := ⟨by nlinarith [hc.1], by nlinarith [hc.2]⟩

theorem addSrk_stage_stable (h : SmoothDrift f ft fy fyy a b L) (hab : a ≤ b) (hwf : tab.WF)
    (hc : ∀ j, tab.cs j ∈ Icc (0 : ℝ) 1) (j : ℕ) (hj : j < tab.bSol.length) :
    ∃ C, 0 ≤ C ∧ ∀ (w : ℝ → B) (s t : ℝ), a ≤ s → s ≤ t → t ≤ b → ∀ x x' : E,
      ‖(addSrk tab f g w).zAt s t x j - (addSrk tab f g w).zAt s t x' j‖ ≤ C * ‖x - x'‖ := by
  have hL := h.L_nonneg hab
  induction j using Nat.strong_induction_on with
  | _ j ih =>
    choose! C hC0 hC using fun l (hl : l < j) => ih l hl (by omega)
    refine ⟨1 + ∑ l ∈ Finset.range j, |lowerAt tab.a j l| * ((b - a) * (L * C l)), ?_, ?_⟩
    · have h0 : 0 ≤ b - a := by linarith
      refine add_nonneg zero_le_one (Finset.sum_nonneg fun l hl => ?_)
      have := hC0 l (Finset.mem_range.1 hl)
      positivity
    · intro w s t hs hst ht x x'
      have h0 : 0 ≤ t - s := by linarith
      rw [addSrk_z hwf w s t x hj, addSrk_z hwf w s t x' hj, add_sub_add_right_eq_sub, add_sub_add_comm,
        ← Finset.sum_sub_distrib, add_mul, one_mul, Finset.sum_mul]
      refine (norm_add_le _ _).trans (add_le_add le_rfl ((norm_sum_le _ _).trans (Finset.sum_le_sum fun l hl => ?_)))
      have hl' := Finset.mem_range.1 hl
      rw [← smul_sub, ← smul_sub, norm_smul, norm_smul, Real.norm_eq_abs, Real.norm_of_nonneg h0, mul_assoc, mul_assoc]
      refine mul_le_mul_of_nonneg_left ?_ (abs_nonneg _)
      refine mul_le_mul (by linarith) ?_ (norm_nonneg _) (by linarith)
      refine (h.lip (time_mem_of hs hst ht (hc l)) _ _).trans ?_
      rw [mul_assoc]
      exact mul_le_mul_of_nonneg_left (hC l hl' w s t hs hst ht x x') hL

/-- One step from two values differs by their difference, up to the length of the step. -/
theorem addSrk_stable (h : SmoothDrift f ft fy fyy a b L) (hab : a ≤ b) (hwf : tab.WF)
    (hc : ∀ j, tab.cs j ∈ Icc (0 : ℝ) 1) :
    ∃ C, 0 ≤ C ∧ ∀ (w : ℝ → B) (s t : ℝ), a ≤ s → s ≤ t → t ≤ b → ∀ x x' : E,
      ‖((addSrk tab f g w).step s t x).y - x - (((addSrk tab f g w).step s t x').y - x')‖ ≤ C * ((t - s) * ‖x - x'‖) := by
  have hL := h.L_nonneg hab
  choose! C hC0 hC using fun l (hl : l < tab.bSol.length) => addSrk_stage_stable (g := g) h hab hwf hc l hl
  refine ⟨∑ l ∈ Finset.range tab.bSol.length, |tab.bSol.getD l 0| * (L * C l), Finset.sum_nonneg fun l hl => ?_, ?_⟩
  · have := hC0 l (Finset.mem_range.1 hl)
    positivity
  · intro w s t hs hst ht x x'
    have h0 : 0 ≤ t - s := by linarith
    rw [addSrk_y hwf w s t x, addSrk_y hwf w s t x', add_assoc, add_sub_cancel_left, add_assoc, add_sub_cancel_left,
      add_sub_add_right_eq_sub, ← Finset.sum_sub_distrib, Finset.sum_mul]
    refine (norm_sum_le _ _).trans (Finset.sum_le_sum fun l hl => ?_)
    have hl' := Finset.mem_range.1 hl
    rw [← smul_sub, ← smul_sub, norm_smul, norm_smul, Real.norm_eq_abs, Real.norm_of_nonneg h0, mul_assoc]
    refine mul_le_mul_of_nonneg_left ?_ (abs_nonneg _)
    have h1 := (h.lip (time_mem_of hs hst ht (hc l)) ((addSrk tab f g w).zAt s t x l)
      ((addSrk tab f g w).zAt s t x' l)).trans (mul_le_mul_of_nonneg_left (hC l hl' w s t hs hst ht x x') hL)
    calc _ ≤ (t - s) * (L * (C l * ‖x - x'‖)) := mul_le_mul_of_nonneg_left h1 h0
      _ = _ := by ring

end

/-! ### Measurability -/

section
variable {Ω : Type} {mΩ : MeasurableSpace Ω} {d : ℕ} {W : ℝ → Ω → Fin d → ℝ} {s t : ℝ}

/-- Integrals over what is known of the path are known. -/
theorem measurable_path_integral (m : MeasurableSpace Ω) (hc : ∀ ω, Continuous fun t => W t ω) (hst : s ≤ t)
    (hm : ∀ r ∈ Icc s t, Measurable[m] fun ω => W r ω - W s ω) {φ : (Fin d → ℝ) → ℝ} (hφ : Continuous φ) :
    Measurable[m] fun ω => ∫ r in s..t, φ (W r ω - W s ω) := by
  let u : ℝ → Ω → ℝ := fun r ω => φ (W (max s (min r t)) ω - W s ω)
  have hu : Measurable (Function.uncurry u) := by
    refine measurable_uncurry_of_continuous_of_measurable (fun ω => ?_) (fun r => ?_)
    · exact hφ.comp (((hc ω).comp (continuous_const.max (continuous_id.min continuous_const))).sub continuous_const)
    · exact hφ.measurable.comp (hm _ ⟨le_max_left _ _, max_le hst (min_le_right _ _)⟩)
  have e : (fun ω => ∫ r in s..t, φ (W r ω - W s ω)) = fun ω => ∫ r in Ioc s t, u r ω := by
    funext ω
    rw [intervalIntegral.integral_of_le hst]
    refine setIntegral_congr_fun measurableSet_Ioc fun r hr => ?_
    simp only [u, min_eq_left hr.2, max_eq_right hr.1.le]
  rw [e]
  have := (hu.stronglyMeasurable).integral_prod_left (μ := volume.restrict (Ioc s t))
  exact this.measurable

/-- The area in terms of the integral of the path. -/
theorem areaH_apply (hc : ∀ ω, Continuous fun t => W t ω) (hst : s < t) (ω : Ω) :
    areaH (fun r => W r ω) s t = fun k => (1 / (t - s)) * (∫ r in s..t, (W r ω k - W s ω k))
      - 1 / 2 * (W t ω k - W s ω k) := by
  have hpos : 0 < t - s := by linarith
  have hsq : √(t - s) ^ 2 = t - s := Real.sq_sqrt hpos.le
  let i : PathIx (E := ℝ) (B := Fin d → ℝ) (fun _ _ => 0) (fun _ => 0) (fun _ => 0) s (s + √(t - s) ^ 2) :=
    ⟨s, √(t - s), 0, fun r => W r ω, fun _ => 0, le_rfl, Real.sqrt_pos.2 hpos, le_rfl, hc ω,
      ⟨continuousOn_const, fun r _ => by simp [wienerIntegral]⟩⟩
  have ht : i.t = t := by change s + √(t - s) ^ 2 = t; rw [hsq]; ring
  have hε : i.ε ^ 2 = t - s := hsq
  have h1 := i.int_w.trans (congrArg (fun c : ℝ => c • ((1 / 2 : ℝ) • i.dW + i.H)) hε)
  rw [ht] at h1
  change ∫ r in s..t, (W r ω - W s ω) = (t - s) • ((1 / 2 : ℝ) • i.dW + i.H) at h1
  have e1 : i.dW = W t ω - W s ω := by unfold PathIx.dW; rw [ht]
  have e2 : i.H = areaH (fun r => W r ω) s t := by unfold PathIx.H; rw [ht]
  rw [e1, e2] at h1
  funext k
  have h3 : ∫ r in s..t, (W r ω k - W s ω k) = (∫ r in s..t, (W r ω - W s ω)) k := by
    have := ContinuousLinearMap.intervalIntegral_comp_comm (ContinuousLinearMap.proj (R := ℝ) (φ := fun _ : Fin d => ℝ) k)
      (((hc ω).sub continuous_const).intervalIntegrable (μ := volume) s t) (f := fun r => W r ω - W s ω)
    exact this
  rw [h3, h1]
  simp only [Pi.smul_apply, Pi.add_apply, Pi.sub_apply, smul_eq_mul]
  field_simp
  ring

/-- The area is known. -/
theorem measurable_areaH (m : MeasurableSpace Ω) (hc : ∀ ω, Continuous fun t => W t ω) (hst : s < t)
    (hm : ∀ r ∈ Icc s t, Measurable[m] fun ω => W r ω - W s ω) :
    Measurable[m] fun ω => areaH (fun r => W r ω) s t := by
  simp only [areaH_apply hc hst]
  refine measurable_pi_lambda _ fun k => ?_
  have h4 := measurable_path_integral m hc hst.le hm (φ := fun x => x k) (continuous_apply k)
  simp only [Pi.sub_apply] at h4
  have h5 : Measurable[m] fun ω => W t ω k - W s ω k := (measurable_pi_apply k).comp (hm t ⟨hst.le, le_rfl⟩)
  exact (h4.const_mul _).sub (h5.const_mul _)

variable {E : Type} [NormedAddCommGroup E] [NormedSpace ℝ E] [CompleteSpace E]
  {f ft : ℝ → E → E} {fy : ℝ → E → E →L[ℝ] E} {fyy : ℝ → E → E →L[ℝ] E →L[ℝ] E} {g g' : ℝ → (Fin d → ℝ) →L[ℝ] E}
  {a b L : ℝ} {tab : STableau ℝ}

theorem addSrk_stageNoise_measurable (m : MeasurableSpace Ω) (hc : ∀ ω, Continuous fun t => W t ω) (hst : s < t)
    (hm : ∀ r ∈ Icc s t, Measurable[m] fun ω => W r ω - W s ω) (h1 : tab.numLevy = 1) (j : ℕ) :
    StronglyMeasurable[m] fun ω => (addSrk tab f g fun r => W r ω).docStageNoise s t 0 (fun _ => 0) j := by
  have hW : ∀ A : (Fin d → ℝ) →L[ℝ] E, StronglyMeasurable[m] fun ω => A (W t ω - W s ω) := fun A =>
    A.continuous.comp_stronglyMeasurable (hm t ⟨hst.le, le_rfl⟩).stronglyMeasurable
  have hH : ∀ A : (Fin d → ℝ) →L[ℝ] E, StronglyMeasurable[m] fun ω => A (areaH (fun r => W r ω) s t) := fun A =>
    A.continuous.comp_stronglyMeasurable (measurable_areaH m hc hst hm).stronglyMeasurable
  unfold STableau.numLevy at h1
  unfold SRK.docStageNoise
  simp only [addSrk]
  cases hn : tab.noise with
  | additive cw levy =>
    rw [hn] at h1
    simp only at h1
    simp only [SRK.g0Noise, h1, Finset.sum_range_one, levyOf, if_true]
    exact ((hW _).const_smul _).add ((hH _).const_smul _)
  | general cw levy =>
    rw [hn] at h1
    simp only at h1
    simp only [SRK.wg, SRK.lg, h1, Finset.sum_range_one, levyOf, if_true]
    exact Finset.stronglyMeasurable_fun_sum _ fun l _ => ((hW _).const_smul _).add ((hH _).const_smul _)

theorem addSrk_noise_measurable (m : MeasurableSpace Ω) (hc : ∀ ω, Continuous fun t => W t ω) (hst : s < t)
    (hm : ∀ r ∈ Icc s t, Measurable[m] fun ω => W r ω - W s ω) (h1 : tab.numLevy = 1) :
    StronglyMeasurable[m] fun ω => (addSrk tab f g fun r => W r ω).docNoise s t 0 (fun _ => 0) := by
  have hW : ∀ A : (Fin d → ℝ) →L[ℝ] E, StronglyMeasurable[m] fun ω => A (W t ω - W s ω) := fun A =>
    A.continuous.comp_stronglyMeasurable (hm t ⟨hst.le, le_rfl⟩).stronglyMeasurable
  have hH : ∀ A : (Fin d → ℝ) →L[ℝ] E, StronglyMeasurable[m] fun ω => A (areaH (fun r => W r ω) s t) := fun A =>
    A.continuous.comp_stronglyMeasurable (measurable_areaH m hc hst hm).stronglyMeasurable
  have hd : Measurable[m] fun ω => W t ω - W s ω := hm t ⟨hst.le, le_rfl⟩
  have hh := measurable_areaH m hc hst hm
  unfold STableau.numLevy at h1
  unfold SRK.docNoise
  simp only [addSrk]
  cases hn : tab.noise with
  | additive cw levy =>
    rw [hn] at h1
    simp only at h1
    simp only [SRK.g0Noise, h1, Finset.sum_range_one, levyOf, if_true, if_neg one_ne_zero]
    exact (((hW _).const_smul _).add ((hH _).const_smul _)).add (((1 / 2 : ℝ) • (g t - g s)).continuous.comp_stronglyMeasurable
      (hd.sub (hh.const_smul (2 : ℝ))).stronglyMeasurable)
  | general cw levy =>
    rw [hn] at h1
    simp only at h1
    simp only [SRK.wg, SRK.lg, h1, Finset.sum_range_one, levyOf, if_true]
    exact Finset.stronglyMeasurable_fun_sum _ fun l _ => ((hW _).const_smul _).add ((hH _).const_smul _)

/-- The value of a step from a known value is known at its end. -/
theorem addSrk_measurable (h : SmoothDrift f ft fy fyy a b L) (hwf : tab.WF)
    (hcs : ∀ j, tab.cs j ∈ Icc (0 : ℝ) 1) (m : MeasurableSpace Ω) (hc : ∀ ω, Continuous fun t => W t ω) (hs : a ≤ s)
    (hst : s < t) (ht : t ≤ b)
    (hm : ∀ r ∈ Icc s t, Measurable[m] fun ω => W r ω - W s ω) (h1 : tab.numLevy = 1) {V : Ω → E}
    (hV : StronglyMeasurable[m] V) :
    StronglyMeasurable[m] fun ω => ((addSrk tab f g fun r => W r ω).step s t (V ω)).y := by
  have hfc : ∀ r ∈ Icc a b, Continuous (f r) := fun r hr =>
    continuous_iff_continuousAt.2 fun x => (h.deriv r hr x).continuousAt
  have hz : ∀ j < tab.bSol.length, StronglyMeasurable[m] fun ω => (addSrk tab f g fun r => W r ω).zAt s t (V ω) j := by
    intro j
    induction j using Nat.strong_induction_on with
    | _ j ih =>
      intro hj
      simp only [addSrk_z hwf _ s t _ hj]
      refine (hV.add (Finset.stronglyMeasurable_fun_sum _ fun l hl => ?_)).add
        (addSrk_stageNoise_measurable m hc hst hm h1 j)
      have hl' := Finset.mem_range.1 hl
      exact ((((hfc _ (time_mem_of hs hst.le ht (hcs l))).comp_stronglyMeasurable
        (ih l hl' (by omega))).const_smul _).const_smul _)
  simp only [addSrk_y hwf]
  refine (hV.add (Finset.stronglyMeasurable_fun_sum _ fun l hl => ?_)).add (addSrk_noise_measurable m hc hst hm h1)
  exact ((((hfc _ (time_mem_of hs hst.le ht (hcs l))).comp_stronglyMeasurable
    (hz l (Finset.mem_range.1 hl))).const_smul _).const_smul _)

end

end Verif
