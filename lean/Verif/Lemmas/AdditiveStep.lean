import Verif.Lemmas.AdditiveMoments

/-!
# Additive noise: the error of a step in mean square
-/

set_option linter.unusedSectionVars false

namespace Verif
open Set MeasureTheory ProbabilityTheory
open scoped InnerProductSpace ENNReal NNReal

section
variable {Ω : Type} {F : ℝ → MeasurableSpace Ω} {mΩ : MeasurableSpace Ω} {P : Measure Ω} [IsProbabilityMeasure P]
  {d : ℕ} {W : ℝ → Ω → Fin d → ℝ} {a b : ℝ}

/-! ### The scaled path -/

/-- The path after time `s`, scaled to `[0, 1]`. -/
noncomputable def unitPath (W : ℝ → Ω → Fin d → ℝ) (s ε : ℝ) (ω : Ω) (u : ℝ) : Fin d → ℝ :=
  (1 / ε) • (W (s + ε ^ 2 * max u 0) ω - W s ω)

theorem unitPath_cont (hW : BrownianPaths P F a W) (s ε : ℝ) (ω : Ω) : Continuous (unitPath W s ε ω) := by
  have hc : Continuous fun u : ℝ => W (s + ε ^ 2 * max u 0) ω := (hW.continuous ω).comp (by fun_prop)
  change Continuous fun u => (1 / ε) • (W (s + ε ^ 2 * max u 0) ω - W s ω)
  exact (hc.sub continuous_const).const_smul (1 / ε)

theorem unitPath_zero (s ε : ℝ) (ω : Ω) : unitPath W s ε ω 0 = 0 := by
  unfold unitPath; simp

/-- The products of the values of the path. -/
theorem BrownianNoise.path_cov (hW : BrownianNoise P F a W) {s u v : ℝ} (hs : a ≤ s) (hu : s ≤ u) (huv : u ≤ v)
    (i j : Fin d) : ∫ ω, (W u ω i - W s ω i) * (W v ω j - W s ω j) ∂P = if i = j then u - s else 0 := by
  have h1 := hW.cov s u i j hs hu
  have w1 := hW.white hs hu
  have w2 := hW.white (hs.trans hu) huv
  have m1 : Measurable[F u] fun ω => W u ω i - W s ω i :=
    (measurable_pi_apply i).comp (hW.measurable_sub hs hu le_rfl)
  have hm := w2.mean_mul (fun x => x j) (measurable_pi_apply j) m1 ((w2.memLp j).integrable one_le_two)
    ((w1.memLp i).integrable one_le_two)
  rw [w2.mean j, zero_mul] at hm
  have e : (fun ω => (W u ω i - W s ω i) * (W v ω j - W s ω j)) = fun ω =>
      (W u ω i - W s ω i) * (W u ω j - W s ω j) + incr W u v ω j * (W u ω i - W s ω i) := by
    funext ω
    simp only [incr, Pi.sub_apply]
    ring
  have i1 : Integrable (fun ω => (W u ω i - W s ω i) * (W u ω j - W s ω j)) P :=
    (w1.memLp i).integrable_mul (w1.memLp j)
  rw [e, integral_add i1 hm.1, hm.2, h1, add_zero]

theorem unitPath_moments (hW : BrownianPaths P F a W) {s ε : ℝ} (hs : a ≤ s) (hε : 0 < ε) :
    BrownianMoments P (unitPath W s ε) where
  measurable := by
    have h1 := measurable_uncurry_of_continuous_of_measurable (u := fun (r : ℝ) ω => unitPath W s ε ω r)
      (fun ω => unitPath_cont hW s ε ω) (fun r => by
        have := hW.toBrownianNoise.measurable_sub' hs (r := s + ε ^ 2 * max r 0)
          (by have := le_max_right r 0; nlinarith [sq_nonneg ε, mul_nonneg (sq_nonneg ε) this])
        exact this.const_smul (1 / ε))
    exact h1.comp measurable_swap
  zero ω := unitPath_zero s ε ω
  paths ω i := by
    have hcont : Continuous fun r : ℝ => unitPath W s ε ω r i := (continuous_apply i).comp (unitPath_cont hW s ε ω)
    obtain ⟨C, hC⟩ := (isCompact_Icc (a := (0 : ℝ)) (b := 1)).exists_bound_of_continuousOn hcont.continuousOn
    refine MemLp.of_bound hcont.aestronglyMeasurable C ?_
    exact (ae_restrict_mem measurableSet_Ioc).mono fun r hr => hC r ⟨hr.1.le, hr.2⟩
  sq i u hu := by
    have := (hW.toBrownianNoise.white hs (t := s + ε ^ 2 * u) (by nlinarith [mul_nonneg (sq_nonneg ε) hu.1])).memLp i
    have h2 := this.const_smul (1 / ε)
    simp only [unitPath, max_eq_left hu.1]
    exact h2
  cov i j u hu v hv := by
    have key : ∀ i j : Fin d, ∀ u ∈ Icc (0 : ℝ) 1, ∀ v ∈ Icc (0 : ℝ) 1, u ≤ v →
        ∫ ω, unitPath W s ε ω u i * unitPath W s ε ω v j ∂P = if i = j then u else 0 := by
      intro i j u hu v hv huv
      have hc := hW.toBrownianNoise.path_cov hs (u := s + ε ^ 2 * u) (v := s + ε ^ 2 * v)
        (by nlinarith [mul_nonneg (sq_nonneg ε) hu.1]) (by nlinarith [mul_nonneg (sq_nonneg ε) (sub_nonneg.2 huv)]) i j
      have e : ∀ ω, unitPath W s ε ω u i * unitPath W s ε ω v j
          = (1 / ε ^ 2) * ((W (s + ε ^ 2 * u) ω i - W s ω i) * (W (s + ε ^ 2 * v) ω j - W s ω j)) := by
        intro ω
        simp only [unitPath, max_eq_left hu.1, max_eq_left hv.1, Pi.smul_apply, Pi.sub_apply, smul_eq_mul]
        field_simp
      simp only [e]
      rw [integral_const_mul, hc]
      split_ifs
      · field_simp; ring
      · ring
    rcases le_total u v with h | h
    · rw [min_eq_left h]; exact key i j u hu v hv h
    · rw [min_eq_right h]
      have := key j i v hv u hu h
      simp only [mul_comm (unitPath W s ε _ u i)]
      rw [this]
      exact if_congr eq_comm rfl rfl

/-! ### The steps -/

variable {E : Type} [NormedAddCommGroup E] [InnerProductSpace ℝ E] [CompleteSpace E]
  {f ft : ℝ → E → E} {fy : ℝ → E → E →L[ℝ] E} {fyy : ℝ → E → E →L[ℝ] E →L[ℝ] E} {g g' : ℝ → (Fin d → ℝ) →L[ℝ] E}
  {L : ℝ} {tab : STableau ℝ} {Y : ℝ → Ω → E} {s t : ℝ}

theorem sqrt_end (hst : s < t) : s + √(t - s) ^ 2 = t := by rw [Real.sq_sqrt (by linarith)]; ring

/-- The solution over `[s, t]`. -/
noncomputable def stepIx (h : SmoothDrift f ft fy fyy a b L) (hg : SmoothNoise g g' a b L) (hW : BrownianPaths P F a W)
    (hY : AdditiveSolution P F W f g g' a b Y) (hs : a ≤ s) (hst : s < t) (ht : t ≤ b) (ω : Ω) : PathIx f g g' a b where
  s := s
  ε := √(t - s)
  X := Y s ω
  w := fun r => W r ω
  y := fun r => Y r ω
  hs := hs
  hε := Real.sqrt_pos.2 (by linarith)
  ht := by rw [sqrt_end hst]; exact ht
  hw := hW.continuous ω
  hy := by
    rw [sqrt_end hst]
    exact (hY.paths ω).restart h hg (hW.continuous ω) hs hst ht

theorem stepIx_t (h : SmoothDrift f ft fy fyy a b L) (hg : SmoothNoise g g' a b L) (hW : BrownianPaths P F a W)
    (hY : AdditiveSolution P F W f g g' a b Y) (hs : a ≤ s) (hst : s < t) (ht : t ≤ b) (ω : Ω) :
    (stepIx h hg hW hY hs hst ht ω).t = t := sqrt_end hst

theorem stepIx_η (h : SmoothDrift f ft fy fyy a b L) (hg : SmoothNoise g g' a b L) (hW : BrownianPaths P F a W)
    (hY : AdditiveSolution P F W f g g' a b Y) (hs : a ≤ s) (hst : s < t) (ht : t ≤ b) (ω : Ω) :
    (stepIx h hg hW hY hs hst ht ω).η = ‖W t ω - W s ω‖ / √(t - s) := by
  unfold PathIx.η PathIx.β
  rw [stepIx_t h hg hW hY hs hst ht ω]
  rfl

theorem stepIx_q (h : SmoothDrift f ft fy fyy a b L) (hg : SmoothNoise g g' a b L) (hW : BrownianPaths P F a W)
    (hY : AdditiveSolution P F W f g g' a b Y) (hs : a ≤ s) (hst : s < t) (ht : t ≤ b) (ω : Ω) :
    (stepIx h hg hW hY hs hst ht ω).q = (∫ r in s..t, ‖W r ω - W s ω‖ ^ 3) / √(t - s) ^ 5 := by
  unfold PathIx.q PathIx.β
  rw [stepIx_t h hg hW hY hs hst ht ω]
  rfl

/-- A bound on what appears in the error. -/
noncomputable def bulk (W : ℝ → Ω → Fin d → ℝ) (Y : ℝ → Ω → E) (s t : ℝ) (ω : Ω) : ℝ :=
  17 * (1 + ‖Y s ω‖ ^ 3 + (‖W t ω - W s ω‖ / √(t - s)) ^ 3 + (∫ r in s..t, ‖W r ω - W s ω‖ ^ 3) / √(t - s) ^ 5)

theorem stepIx_bulk (h : SmoothDrift f ft fy fyy a b L) (hg : SmoothNoise g g' a b L) (hW : BrownianPaths P F a W)
    (hY : AdditiveSolution P F W f g g' a b Y) (hs : a ≤ s) (hst : s < t) (ht : t ≤ b) (ω : Ω) :
    (stepIx h hg hW hY hs hst ht ω).θ ^ 3 + (stepIx h hg hW hY hs hst ht ω).q ≤ bulk W Y s t ω := by
  have := (stepIx h hg hW hY hs hst ht ω).θ_cubed
  rw [stepIx_η, stepIx_q] at this
  rw [stepIx_q]
  exact this

theorem bulk_nonneg (hst : s ≤ t) (ω : Ω) : 0 ≤ bulk W Y s t ω := by
  have h1 : 0 ≤ ∫ r in s..t, ‖W r ω - W s ω‖ ^ 3 := intervalIntegral.integral_nonneg hst fun r _ => by positivity
  unfold bulk
  positivity

/-- If the solution is bounded in the sixth mean at the beginning, the bound is bounded in mean square. -/
theorem bulk_rms (hW : BrownianPaths P F a W) {K : ℝ} : ∃ c, 0 ≤ c ∧ ∀ s t, a ≤ s → s < t →
    MemLp (fun ω => ‖Y s ω‖ ^ 3) 2 P → rms P (fun ω => ‖Y s ω‖ ^ 3) ≤ K →
    MemLp (bulk W Y s t) 2 P ∧ rms P (bulk W Y s t) ≤ c := by
  obtain ⟨c, hc0, hc⟩ := hW.size
  refine ⟨17 * (1 + |K| + c + c), by positivity, fun s t hs hst hm hK => ?_⟩
  obtain ⟨⟨a1, a2⟩, b1, b2⟩ := hc s t hs hst
  have m0 : MemLp (fun _ : Ω => (1 : ℝ)) 2 P := memLp_const _
  have m1 := memLp_add m0 hm
  have m2 := memLp_add m1 a1
  have m3 := memLp_add m2 b1
  have e : bulk W Y s t = fun ω => (17 : ℝ) • (1 + ‖Y s ω‖ ^ 3 + (‖W t ω - W s ω‖ / √(t - s)) ^ 3
      + (∫ r in s..t, ‖W r ω - W s ω‖ ^ 3) / √(t - s) ^ 5) := rfl
  rw [e]
  refine ⟨m3.const_smul (17 : ℝ), ?_⟩
  rw [rms_smul, abs_of_pos (by norm_num)]
  have r1 := rms_add_le m0 hm
  have r2 := rms_add_le m1 a1
  have r3 := rms_add_le m2 b1
  rw [rms_const, norm_one] at r1
  have := le_abs_self K
  linarith

/-- The sixth moments of the solution are bounded. -/
theorem AdditiveSolution.sixth (h : SmoothDrift f ft fy fyy a b L) (hg : SmoothNoise g g' a b L)
    (hW : BrownianPaths P F a W) (hY : AdditiveSolution P F W f g g' a b Y) (hab : a ≤ b) :
    ∃ K, 0 ≤ K ∧ ∀ s ∈ Icc a b, MemLp (fun ω => ‖Y s ω‖ ^ 3) 2 P ∧ rms P (fun ω => ‖Y s ω‖ ^ 3) ≤ K := by
  have h0 : MemLp (fun ω => ‖Y a ω‖ ^ 3) 2 P := by
    have hm : AEStronglyMeasurable (fun ω => ‖Y a ω‖ ^ 3) P := hY.initial.1.norm.pow 3
    rw [memLp_two_iff_integrable_sq hm]
    have := hY.initial.integrable_norm_pow (p := 6) (by norm_num)
    refine this.congr (ae_of_all _ fun ω => ?_)
    simp only [← pow_mul]
  obtain ⟨c, hc0, hc⟩ := bulk_rms (Y := Y) hW (K := rms P (fun ω => ‖Y a ω‖ ^ 3))
  obtain ⟨C, hC, hy⟩ := PathIx.y_le (g := g) (g' := g') h hg hab
  refine ⟨rms P (fun ω => ‖Y a ω‖ ^ 3) + C ^ 3 * c, by have := rms_nonneg (P := P) (fun ω => ‖Y a ω‖ ^ 3); positivity,
    fun s hs => ?_⟩
  rcases hs.1.eq_or_lt with rfl | has
  · exact ⟨h0, by have : 0 ≤ C ^ 3 * c := by positivity
                  linarith⟩
  obtain ⟨b1, b2⟩ := hc a s le_rfl has h0 le_rfl
  have hle : ∀ ω, ‖‖Y s ω‖ ^ 3‖ ≤ ‖C ^ 3 • bulk W Y a s ω‖ := fun ω => by
    have h1 := hy (stepIx h hg hW hY le_rfl has hs.2 ω)
    have h2 := stepIx_bulk h hg hW hY le_rfl has hs.2 ω
    rw [stepIx_t] at h1
    change ‖Y s ω‖ ≤ _ at h1
    have h3 := (stepIx h hg hW hY le_rfl has hs.2 ω).q_nonneg
    rw [Real.norm_of_nonneg (by positivity), smul_eq_mul,
      Real.norm_of_nonneg (mul_nonneg (by positivity) (bulk_nonneg has.le ω))]
    refine (pow_le_pow_left₀ (norm_nonneg _) h1 3).trans ?_
    rw [mul_pow]
    exact mul_le_mul_of_nonneg_left (by linarith) (by positivity)
  have mb : MemLp (fun ω => C ^ 3 • bulk W Y a s ω) 2 P := b1.const_smul (C ^ 3)
  have hm : AEStronglyMeasurable (fun ω => ‖Y s ω‖ ^ 3) P :=
    (((hY.adapted s hs).mono (hW.le s)).norm.pow 3).aestronglyMeasurable
  refine ⟨mb.of_le hm (Filter.Eventually.of_forall hle), ?_⟩
  have h3 := rms_mono mb hle
  rw [rms_smul, abs_of_nonneg (by positivity)] at h3
  have h4 : C ^ 3 * rms P (bulk W Y a s) ≤ C ^ 3 * c := mul_le_mul_of_nonneg_left b2 (by positivity)
  have h5 := rms_nonneg (P := P) (fun ω => ‖Y a ω‖ ^ 3)
  have h6 : rms P (fun ω => bulk W Y a s ω) = rms P (bulk W Y a s) := rfl
  linarith

theorem AdditiveSolution.memLp (h : SmoothDrift f ft fy fyy a b L) (hg : SmoothNoise g g' a b L)
    (hW : BrownianPaths P F a W) (hY : AdditiveSolution P F W f g g' a b Y) (hs : s ∈ Icc a b) : MemLp (Y s) 2 P := by
  obtain ⟨K, -, hK⟩ := hY.sixth h hg hW (hs.1.trans hs.2)
  have m : MemLp (fun ω => 1 + ‖Y s ω‖ ^ 3) 2 P := memLp_add (memLp_const (1 : ℝ)) (hK s hs).1
  refine m.of_le ((hY.adapted s hs).mono (hW.le s)).aestronglyMeasurable (Filter.Eventually.of_forall fun ω => ?_)
  have h0 := norm_nonneg (Y s ω)
  rw [Real.norm_of_nonneg (by positivity)]
  rcases le_total ‖Y s ω‖ 1 with h1 | h1
  · have : 0 ≤ ‖Y s ω‖ ^ 3 := by positivity
    linarith
  · have : ‖Y s ω‖ ≤ ‖Y s ω‖ ^ 3 := le_self_pow₀ h1 (by norm_num)
    linarith

/-! ### The part of the error that cannot be foreseen -/

/-- The noise in stage `j`, to first order. -/
noncomputable def stageB (tab : STableau ℝ) (W : ℝ → Ω → Fin d → ℝ) (s t : ℝ) (ω : Ω) (j : ℕ) : Fin d → ℝ :=
  tab.noiseW j • (W t ω - W s ω) + tab.noiseL 0 j • areaH (fun r => W r ω) s t

/-- How far the products of the noise in the stages are from those of the noise. -/
noncomputable def quadErr (tab : STableau ℝ) (W : ℝ → Ω → Fin d → ℝ) (s t : ℝ) (k l : Fin d) (ω : Ω) : ℝ :=
  (t - s) * (∑ j ∈ Finset.range tab.bSol.length, tab.bSol.getD j 0 * (stageB tab W s t ω j k * stageB tab W s t ω j l))
    - ∫ r in s..t, (W r ω k - W s ω k) * (W r ω l - W s ω l)

theorem quadErr_measurable (m : MeasurableSpace Ω) (hc : ∀ ω, Continuous fun t => W t ω) (hst : s < t)
    (hm : ∀ r ∈ Icc s t, Measurable[m] fun ω => W r ω - W s ω) (k l : Fin d) :
    Measurable[m] (quadErr tab W s t k l) := by
  have h1 := measurable_path_integral m hc hst.le hm (φ := fun x => x k * x l)
    ((continuous_apply k).mul (continuous_apply l))
  simp only [Pi.sub_apply] at h1
  have h2 : ∀ j, Measurable[m] fun ω => stageB tab W s t ω j := fun j =>
    ((hm t ⟨hst.le, le_rfl⟩).const_smul (tab.noiseW j)).add ((measurable_areaH m hc hst hm).const_smul (tab.noiseL 0 j))
  have h3 : ∀ j k, Measurable[m] fun ω => stageB tab W s t ω j k := fun j k => (measurable_pi_apply k).comp (h2 j)
  exact ((Finset.measurable_fun_sum _ fun j _ => ((h3 j k).mul (h3 j l)).const_mul _).const_mul _).sub h1

theorem integral_unit {F : ℝ → ℝ} {ε : ℝ} (s : ℝ) :
    ∫ r in s..(s + ε ^ 2), F r = ε ^ 2 * ∫ u in (0 : ℝ)..1, F (s + ε ^ 2 * u) := by
  have h := intervalIntegral.smul_integral_comp_mul_add (f := F) (a := 0) (b := 1) (ε ^ 2) s
  simp only [mul_zero, zero_add, mul_one, smul_eq_mul] at h
  rw [add_comm s (ε ^ 2), ← h]
  simp only [add_comm]

theorem path_unit {ε : ℝ} (hε : 0 < ε) {u : ℝ} (hu : 0 ≤ u) (ω : Ω) (k : Fin d) :
    W (s + ε ^ 2 * u) ω k - W s ω k = ε * unitPath W s ε ω u k := by
  simp only [unitPath, max_eq_left hu, Pi.smul_apply, Pi.sub_apply, smul_eq_mul]
  field_simp

theorem stageB_unit (hW : BrownianPaths P F a W) (hs : a ≤ s) (hst : s < t) (ω : Ω) (j : ℕ) (k : Fin d) :
    stageB tab W s t ω j k = √(t - s) * (tab.noiseW j • (levyOf (unitPath W s √(t - s) ω) 0 1).2.1
      + tab.noiseL 0 j • (levyOf (unitPath W s √(t - s) ω) 0 1).2.2.1) k := by
  have hε : 0 < √(t - s) := Real.sqrt_pos.2 (by linarith)
  set ε := √(t - s) with hεd
  have hsq : ε ^ 2 = t - s := Real.sq_sqrt (by linarith)
  have ht : t = s + ε ^ 2 := by rw [hsq]; ring
  have h1 : W t ω k - W s ω k = ε * unitPath W s ε ω 1 k := by
    have := path_unit (W := W) (s := s) hε zero_le_one ω k
    rwa [mul_one, ← ht] at this
  have h2 : ∫ r in s..t, (W r ω k - W s ω k) = ε ^ 3 * ∫ u in (0 : ℝ)..1, unitPath W s ε ω u k := by
    have e1 : ∫ u in (0 : ℝ)..1, (W (s + ε ^ 2 * u) ω k - W s ω k) = ε * ∫ u in (0 : ℝ)..1, unitPath W s ε ω u k := by
      rw [← intervalIntegral.integral_const_mul]
      refine intervalIntegral.integral_congr (E := ℝ) fun u hu => ?_
      rw [uIcc_of_le zero_le_one] at hu
      exact path_unit hε hu.1 ω k
    rw [ht, integral_unit, e1]
    ring
  have h3 := (unitPath_moments hW hs hε).area_eq ω k
  rw [← intervalIntegral.integral_of_le zero_le_one] at h3
  unfold stageB
  simp only [Pi.add_apply, Pi.smul_apply, Pi.sub_apply, smul_eq_mul, areaH_apply hW.continuous hst ω, h1, h2, h3, ← hsq]
  have h4 : (levyOf (unitPath W s ε ω) 0 1).2.1 k = unitPath W s ε ω 1 k := by
    simp only [levyOf, unitPath_zero, sub_zero]
  rw [h4]
  field_simp

theorem quadErr_unit (hW : BrownianPaths P F a W) (hs : a ≤ s) (hst : s < t) (k l : Fin d) (ω : Ω) :
    quadErr tab W s t k l ω = (t - s) ^ 2 * ((∑ j ∈ Finset.range tab.bSol.length, tab.bSol.getD j 0 *
      ((tab.noiseW j • (levyOf (unitPath W s √(t - s) ω) 0 1).2.1
        + tab.noiseL 0 j • (levyOf (unitPath W s √(t - s) ω) 0 1).2.2.1) k *
      (tab.noiseW j • (levyOf (unitPath W s √(t - s) ω) 0 1).2.1
        + tab.noiseL 0 j • (levyOf (unitPath W s √(t - s) ω) 0 1).2.2.1) l))
      - ∫ u in (0 : ℝ)..1, unitPath W s √(t - s) ω u k * unitPath W s √(t - s) ω u l) := by
  have hε : 0 < √(t - s) := Real.sqrt_pos.2 (by linarith)
  unfold quadErr
  simp only [stageB_unit hW hs hst ω]
  set ε := √(t - s) with hεd
  have hsq : ε ^ 2 = t - s := Real.sq_sqrt (by linarith)
  have ht : t = s + ε ^ 2 := by rw [hsq]; ring
  have h2 : ∫ r in s..t, (W r ω k - W s ω k) * (W r ω l - W s ω l)
      = ε ^ 4 * ∫ u in (0 : ℝ)..1, unitPath W s ε ω u k * unitPath W s ε ω u l := by
    have e1 : ∫ u in (0 : ℝ)..1, (W (s + ε ^ 2 * u) ω k - W s ω k) * (W (s + ε ^ 2 * u) ω l - W s ω l)
        = ε ^ 2 * ∫ u in (0 : ℝ)..1, unitPath W s ε ω u k * unitPath W s ε ω u l := by
      rw [← intervalIntegral.integral_const_mul]
      refine intervalIntegral.integral_congr (E := ℝ) fun u hu => ?_
      rw [uIcc_of_le zero_le_one] at hu
      simp only [path_unit hε hu.1]
      ring
    rw [ht, integral_unit, e1]
    ring
  rw [h2, ← hsq, mul_sub, Finset.mul_sum, Finset.mul_sum]
  congr 1
  · exact Finset.sum_congr rfl fun j _ => by ring
  · ring

/-- For the methods of order 3/2 it has mean zero. -/
theorem quadErr_mean (hW : BrownianPaths P F a W) (hs : a ≤ s) (hst : s < t) (k l : Fin d) :
    Integrable (quadErr tab W s t k l) P ∧
    (tab.AdditiveOrder15 → ∫ ω, quadErr tab W s t k l ω ∂P = 0) := by
  have hε : 0 < √(t - s) := Real.sqrt_pos.2 (by linarith)
  have hU := unitPath_moments hW hs hε
  let T : (Fin d → ℝ) →L[ℝ] (Fin d → ℝ) →L[ℝ] ℝ := (ContinuousLinearMap.mul ℝ ℝ).bilinearComp
    (ContinuousLinearMap.proj k) (ContinuousLinearMap.proj l)
  have h1 := fun j => mean_WH hU T (tab.noiseW j) (tab.noiseL 0 j)
  have h2 := mean_time hU T
  have hi : ∀ j, Integrable (fun ω => tab.bSol.getD j 0 *
      T (tab.noiseW j • (levyOf (unitPath W s √(t - s) ω) 0 1).2.1
        + tab.noiseL 0 j • (levyOf (unitPath W s √(t - s) ω) 0 1).2.2.1)
        (tab.noiseW j • (levyOf (unitPath W s √(t - s) ω) 0 1).2.1
        + tab.noiseL 0 j • (levyOf (unitPath W s √(t - s) ω) 0 1).2.2.1)) P := fun j => (h1 j).1.const_mul _
  have hS := integrable_finsetSum (Finset.range tab.bSol.length) fun j _ => hi j
  have e : quadErr tab W s t k l = fun ω => (t - s) ^ 2 * ((∑ j ∈ Finset.range tab.bSol.length, tab.bSol.getD j 0 *
      T (tab.noiseW j • (levyOf (unitPath W s √(t - s) ω) 0 1).2.1
        + tab.noiseL 0 j • (levyOf (unitPath W s √(t - s) ω) 0 1).2.2.1)
        (tab.noiseW j • (levyOf (unitPath W s √(t - s) ω) 0 1).2.1
        + tab.noiseL 0 j • (levyOf (unitPath W s √(t - s) ω) 0 1).2.2.1))
      - ∫ u in (0 : ℝ)..1, T (unitPath W s √(t - s) ω u) (unitPath W s √(t - s) ω u)) := by
    funext ω
    rw [quadErr_unit hW hs hst]
    rfl
  rw [e]
  refine ⟨(hS.sub h2.1).const_mul _, fun ho => ?_⟩
  rw [integral_const_mul, integral_sub hS h2.1, integral_finsetSum _ fun j _ => hi j, h2.2]
  have e3 : ∀ j ∈ Finset.range tab.bSol.length, ∫ ω, tab.bSol.getD j 0 *
      T (tab.noiseW j • (levyOf (unitPath W s √(t - s) ω) 0 1).2.1
        + tab.noiseL 0 j • (levyOf (unitPath W s √(t - s) ω) 0 1).2.2.1)
        (tab.noiseW j • (levyOf (unitPath W s √(t - s) ω) 0 1).2.1
        + tab.noiseL 0 j • (levyOf (unitPath W s √(t - s) ω) 0 1).2.2.1) ∂P
      = (tab.bSol.getD j 0 * (tab.noiseW j ^ 2 + tab.noiseL 0 j ^ 2 / 12)) * trace T := by
    intro j _
    rw [integral_const_mul, (h1 j).2, smul_eq_mul, mul_assoc]
  rw [Finset.sum_congr rfl e3, ← Finset.sum_mul, ho.mean, smul_eq_mul, sub_self, mul_zero]

/-- The coefficients of the products of the noise. -/
noncomputable def leadCoeff (fyy : ℝ → E → E →L[ℝ] E →L[ℝ] E) (g : ℝ → (Fin d → ℝ) →L[ℝ] E) (s : ℝ) (k l : Fin d) (x : E) : E :=
  fyy s x (g s (Pi.single k 1)) (g s (Pi.single l 1))

theorem stepIx_lead (h : SmoothDrift f ft fy fyy a b L) (hg : SmoothNoise g g' a b L) (hW : BrownianPaths P F a W)
    (hY : AdditiveSolution P F W f g g' a b Y) (hs : a ≤ s) (hst : s < t) (ht : t ≤ b) (ω : Ω) :
    (stepIx h hg hW hY hs hst ht ω).lead fyy tab
      = ∑ k, ∑ l, quadErr tab W s t k l ω • (1 / 2 : ℝ) • leadCoeff fyy g s k l (Y s ω) := by
  set i := stepIx h hg hW hY hs hst ht ω with hi
  have hit : i.t = t := stepIx_t h hg hW hY hs hst ht ω
  have hsq : √(t - s) ^ 2 = t - s := Real.sq_sqrt (by linarith)
  let T : (Fin d → ℝ) →L[ℝ] (Fin d → ℝ) →L[ℝ] E := (fyy s (Y s ω)).bilinearComp (g s) (g s)
  have hT : ∀ x : Fin d → ℝ, fyy s (Y s ω) (g s x) (g s x) = ∑ k, ∑ l, (x k * x l) • leadCoeff fyy g s k l (Y s ω) :=
    fun x => bilin_coords T x
  have hξ : ∀ j, i.ξB tab j = stageB tab W s t ω j := fun j => by
    unfold PathIx.ξB PathIx.dW PathIx.H stageB
    rw [hit]
    rfl
  have hc : ∀ k l, Continuous fun r => (W r ω k - W s ω k) * (W r ω l - W s ω l) := fun k l =>
    ((((continuous_apply k).comp (hW.continuous ω)).sub continuous_const).mul
      (((continuous_apply l).comp (hW.continuous ω)).sub continuous_const))
  have hint : ∫ r in i.s..i.t, fyy i.s i.X (i.ν r) (i.ν r)
      = ∑ k, ∑ l, (∫ r in s..t, (W r ω k - W s ω k) * (W r ω l - W s ω l)) • leadCoeff fyy g s k l (Y s ω) := by
    rw [hit]
    change ∫ r in s..t, fyy s (Y s ω) (g s (W r ω - W s ω)) (g s (W r ω - W s ω)) = _
    simp only [hT]
    rw [intervalIntegral.integral_finsetSum fun k _ => ?_]
    · refine Finset.sum_congr rfl fun k _ => ?_
      rw [intervalIntegral.integral_finsetSum fun l _ => ?_]
      · refine Finset.sum_congr rfl fun l _ => ?_
        rw [← intervalIntegral.integral_smul_const]
        rfl
      · exact ((hc k l).smul continuous_const).intervalIntegrable _ _
    · exact (continuous_finsetSum _ fun l _ => (hc k l).smul continuous_const).intervalIntegrable _ _
  have hsum : i.ε ^ 2 • ∑ j ∈ Finset.range tab.bSol.length, tab.bSol.getD j 0 • fyy i.s i.X (i.ξ tab j) (i.ξ tab j)
      = ∑ k, ∑ l, ((t - s) * (∑ j ∈ Finset.range tab.bSol.length,
        tab.bSol.getD j 0 * (stageB tab W s t ω j k * stageB tab W s t ω j l))) • leadCoeff fyy g s k l (Y s ω) := by
    have e1 : ∀ j, fyy i.s i.X (i.ξ tab j) (i.ξ tab j)
        = ∑ k, ∑ l, (stageB tab W s t ω j k * stageB tab W s t ω j l) • leadCoeff fyy g s k l (Y s ω) := fun j => by
      unfold PathIx.ξ
      rw [hξ j]
      exact hT _
    have e2 : i.ε ^ 2 = t - s := hsq
    simp only [e1, Finset.smul_sum, Finset.mul_sum, Finset.sum_smul, smul_smul]
    rw [Finset.sum_comm]
    refine Finset.sum_congr rfl fun k _ => ?_
    rw [Finset.sum_comm]
    refine Finset.sum_congr rfl fun l _ => Finset.sum_congr rfl fun j _ => ?_
    rw [← hsq]
    rfl
  unfold PathIx.lead
  rw [hsum, hint, ← Finset.sum_sub_distrib, Finset.smul_sum]
  refine Finset.sum_congr rfl fun k _ => ?_
  rw [← Finset.sum_sub_distrib, Finset.smul_sum]
  refine Finset.sum_congr rfl fun l _ => ?_
  unfold quadErr
  module

theorem leadCoeff_measurable (h : SmoothDrift f ft fy fyy a b L) (hab : a ≤ b) (hs : s ∈ Icc a b) (k l : Fin d)
    {m : MeasurableSpace Ω} {X : Ω → E} (hX : StronglyMeasurable[m] X) :
    StronglyMeasurable[m] fun ω => leadCoeff fyy g s k l (X ω) := by
  have hL := h.L_nonneg hab
  have h1 : Continuous (fyy s) := (LipschitzWith.of_dist_le_mul (f := fyy s) (K := L.toNNReal) fun x x' => by
    refine (dist_eq_norm (fyy s x) (fyy s x')).trans_le ?_
    rw [dist_eq_norm, Real.coe_toNNReal _ hL]; exact h.lip2 s hs x x').continuous
  have h2 : Continuous fun x => leadCoeff fyy g s k l x :=
    (h1.clm_apply continuous_const).clm_apply continuous_const
  exact h2.comp_stronglyMeasurable hX

theorem leadCoeff_memLp (h : SmoothDrift f ft fy fyy a b L) (hab : a ≤ b) (hs : s ∈ Icc a b) (k l : Fin d)
    {X : Ω → E} (hX : StronglyMeasurable X) : MemLp (fun ω => leadCoeff fyy g s k l (X ω)) 2 P := by
  refine MemLp.of_bound (leadCoeff_measurable h hab hs k l hX).aestronglyMeasurable
    (L * ‖g s (Pi.single k 1)‖ * ‖g s (Pi.single l 1)‖) (Filter.Eventually.of_forall fun ω => ?_)
  refine (ContinuousLinearMap.le_opNorm₂ _ _ _).trans ?_
  gcongr
  exact h.le2 s hs _

/-- The leading part of the error is orthogonal to what is known at the beginning of the step. -/
theorem lead_orthogonal (h : SmoothDrift f ft fy fyy a b L) (hg : SmoothNoise g g' a b L) (hW : BrownianPaths P F a W)
    (hY : AdditiveSolution P F W f g g' a b Y) (hs : a ≤ s) (hst : s < t) (ht : t ≤ b) (ho : tab.AdditiveOrder15)
    {Z : Ω → E} (hZ : StronglyMeasurable[F s] Z) (hZ2 : MemLp Z 2 P) :
    ∫ ω, ⟪Z ω, (stepIx h hg hW hY hs hst ht ω).lead fyy tab⟫_ℝ ∂P = 0 := by
  have hsI : s ∈ Icc a b := ⟨hs, hst.le.trans ht⟩
  have hab := hsI.1.trans hsI.2
  simp only [stepIx_lead h hg hW hY hs hst ht, inner_sum, inner_smul_right]
  have hkl : ∀ k l, Integrable (fun ω => quadErr tab W s t k l ω * (1 / 2 * ⟪Z ω, leadCoeff fyy g s k l (Y s ω)⟫_ℝ)) P ∧
      ∫ ω, quadErr tab W s t k l ω * (1 / 2 * ⟪Z ω, leadCoeff fyy g s k l (Y s ω)⟫_ℝ) ∂P = 0 := by
    intro k l
    have hκ := leadCoeff_measurable (g := g) h hab hsI k l (hY.adapted s hsI)
    have hκ2 := leadCoeff_memLp (P := P) (g := g) h hab hsI k l ((hY.adapted s hsI).mono (hW.le s))
    have hm : Measurable[F s] fun ω => 1 / 2 * ⟪Z ω, leadCoeff fyy g s k l (Y s ω)⟫_ℝ :=
      (hZ.inner hκ).measurable.const_mul _
    have hmi : Integrable (fun ω => 1 / 2 * ⟪Z ω, leadCoeff fyy g s k l (Y s ω)⟫_ℝ) P :=
      (integrable_inner hZ2 hκ2).const_mul _
    have hq : Measurable[⨆ t ∈ Ici s, MeasurableSpace.comap (fun ω => W t ω - W s ω) inferInstance]
        (quadErr tab W s t k l) := by
      refine quadErr_measurable _ hW.continuous hst (fun r hr => ?_) k l
      exact (comap_measurable (fun ω => W r ω - W s ω)).mono
        (le_iSup₂_of_le (f := fun t (_ : t ∈ Ici s) => MeasurableSpace.comap (fun ω => W t ω - W s ω) inferInstance)
          r hr.1 le_rfl) le_rfl
    have hind : IndepFun (quadErr tab W s t k l) (fun ω => 1 / 2 * ⟪Z ω, leadCoeff fyy g s k l (Y s ω)⟫_ℝ) P := by
      rw [IndepFun_iff_Indep]
      exact indep_of_indep_of_le_left (indep_of_indep_of_le_right (hW.future s hs) hm.comap_le) hq.comap_le
    obtain ⟨q1, q2⟩ := quadErr_mean (tab := tab) hW hs hst k l
    refine ⟨hind.integrable_mul q1 hmi, ?_⟩
    rw [hind.integral_fun_mul_eq_mul_integral q1.1 hmi.1, q2 ho, zero_mul]
  rw [integral_finsetSum _ fun k _ => integrable_finsetSum _ fun l _ => (hkl k l).1]
  refine Finset.sum_eq_zero fun k _ => ?_
  rw [integral_finsetSum _ fun l _ => (hkl k l).1]
  exact Finset.sum_eq_zero fun l _ => (hkl k l).2

end

end Verif
