import Verif.Lemmas.AdditiveStable
import Verif.Lemmas.ItoTaylor
import Verif.Lemmas.NoiseMoments
import Verif.Props.SrkOrder

/-!
# Additive noise: moments of what appears in the error of a step
-/

set_option linter.unusedSectionVars false

namespace Verif
open Set MeasureTheory ProbabilityTheory
open scoped InnerProductSpace ENNReal NNReal

/-! ### Means over time -/

theorem sq_integral_le {u : ℝ → ℝ} (hu : Continuous u) {s t : ℝ} (hst : s < t) :
    (∫ r in s..t, u r) ^ 2 ≤ (t - s) * ∫ r in s..t, u r ^ 2 := by
  have hpos : 0 < t - s := by linarith
  set c := (∫ r in s..t, u r) / (t - s) with hc
  have e : ∫ r in s..t, u r = c * (t - s) := by rw [hc, div_mul_cancel₀ _ hpos.ne']
  have c1 : Continuous fun r => 2 * c * u r := continuous_const.mul hu
  have c2 : Continuous fun r => 2 * c * u r - c ^ 2 := c1.sub continuous_const
  have c3 : Continuous fun r => u r ^ 2 := hu.pow 2
  have h1 : ∫ r in s..t, (2 * c * u r - c ^ 2) ≤ ∫ r in s..t, u r ^ 2 :=
    intervalIntegral.integral_mono_on hst.le (c2.intervalIntegrable _ _) (c3.intervalIntegrable _ _)
      fun r _ => by nlinarith [sq_nonneg (u r - c)]
  rw [intervalIntegral.integral_sub (c1.intervalIntegrable _ _) intervalIntegrable_const,
    intervalIntegral.integral_const_mul, intervalIntegral.integral_const, smul_eq_mul, e] at h1
  rw [e]
  nlinarith

theorem cube_add_le {p q : ℝ} (hp : 0 ≤ p) (hq : 0 ≤ q) : (p + q) ^ 3 ≤ 4 * (p ^ 3 + q ^ 3) := by
  nlinarith [mul_nonneg (add_nonneg hp hq) (sq_nonneg (p - q))]

namespace PathIx
variable {E B : Type} [NormedAddCommGroup E] [NormedSpace ℝ E] [NormedAddCommGroup B] [NormedSpace ℝ B]
  [CompleteSpace E] [CompleteSpace B]
  {f ft : ℝ → E → E} {fy : ℝ → E → E →L[ℝ] E} {fyy : ℝ → E → E →L[ℝ] E →L[ℝ] E} {g g' : ℝ → B →L[ℝ] E}
  {a b L : ℝ} (i : PathIx f g g' a b) {tab : STableau ℝ}

theorem m_cubed : i.m ^ 3 ≤ i.q := by
  have hε := i.hε
  set c := i.ε * i.m with hc
  have hc0 : 0 ≤ c := mul_nonneg hε.le i.m_nonneg
  have c1 : Continuous fun r => 3 * c ^ 2 * i.β r := continuous_const.mul i.β_cont
  have c2 : Continuous fun r => 3 * c ^ 2 * i.β r - 2 * c ^ 3 := c1.sub continuous_const
  have c3 : Continuous fun r => i.β r ^ 3 := i.β_cont.pow 3
  have h1 : ∫ r in i.s..i.t, (3 * c ^ 2 * i.β r - 2 * c ^ 3) ≤ ∫ r in i.s..i.t, i.β r ^ 3 :=
    intervalIntegral.integral_mono_on i.s_le_t (c2.intervalIntegrable _ _) (c3.intervalIntegrable _ _) fun r _ => by
      have h0 := i.β_nonneg r
      nlinarith [mul_nonneg (sq_nonneg (i.β r - c)) (by linarith : 0 ≤ i.β r + 2 * c)]
  rw [intervalIntegral.integral_sub (c1.intervalIntegrable _ _) intervalIntegrable_const,
    intervalIntegral.integral_const_mul, intervalIntegral.integral_const, smul_eq_mul, i.J1, i.J3, i.t_sub] at h1
  have h2 : 3 * c ^ 2 * (i.ε ^ 3 * i.m) - i.ε ^ 2 * (2 * c ^ 3) = i.ε ^ 5 * i.m ^ 3 := by rw [hc]; ring
  rw [h2] at h1
  exact le_of_mul_le_mul_left h1 (by positivity)

theorem θ_cubed : i.θ ^ 3 + i.q ≤ 17 * (1 + ‖i.X‖ ^ 3 + i.η ^ 3 + i.q) := by
  have h1 := i.m_cubed
  have hm := i.m_nonneg
  have hη := i.η_nonneg
  have hX := norm_nonneg i.X
  have e : i.θ = (1 + ‖i.X‖) + (i.m + i.η) := by unfold θ; ring
  have h2 := cube_add_le (by positivity : 0 ≤ 1 + ‖i.X‖) (by positivity : 0 ≤ i.m + i.η)
  have h3 := cube_add_le zero_le_one hX
  have h4 := cube_add_le hm hη
  have : 0 ≤ ‖i.X‖ ^ 3 := by positivity
  have : 0 ≤ i.η ^ 3 := by positivity
  rw [e]
  linarith

theorem int_sq_le : ∫ r in i.s..i.t, i.β r ^ 2 ≤ i.ε ^ 4 * (1 + i.q) := by
  have hε := i.hε
  have c1 : Continuous fun r => (1 / i.ε) * i.β r ^ 3 := continuous_const.mul (i.β_cont.pow 3)
  have c2 : Continuous fun r => i.ε ^ 2 + (1 / i.ε) * i.β r ^ 3 := continuous_const.add c1
  have c3 : Continuous fun r => i.β r ^ 2 := i.β_cont.pow 2
  have h1 : ∫ r in i.s..i.t, i.β r ^ 2 ≤ ∫ r in i.s..i.t, (i.ε ^ 2 + (1 / i.ε) * i.β r ^ 3) :=
    intervalIntegral.integral_mono_on i.s_le_t (c3.intervalIntegrable _ _) (c2.intervalIntegrable _ _) fun r _ => by
      have h0 := i.β_nonneg r
      have e : i.β r = i.ε * (i.β r / i.ε) := by rw [mul_div_cancel₀ _ hε.ne']
      have hu : 0 ≤ i.β r / i.ε := by positivity
      set u := i.β r / i.ε
      rw [e]
      have e2 : i.ε ^ 2 + 1 / i.ε * (i.ε * u) ^ 3 = i.ε ^ 2 * (1 + u ^ 3) := by field_simp
      rw [e2, mul_pow]
      refine mul_le_mul_of_nonneg_left ?_ (by positivity)
      rcases le_total u 1 with h | h
      · have : u ^ 2 ≤ 1 := pow_le_one₀ hu h
        have : 0 ≤ u ^ 3 := by positivity
        linarith
      · nlinarith [mul_nonneg (sq_nonneg u) (sub_nonneg.2 h)]
  rw [intervalIntegral.integral_add intervalIntegrable_const (c1.intervalIntegrable _ _),
    intervalIntegral.integral_const_mul, intervalIntegral.integral_const, smul_eq_mul, i.J3, i.t_sub] at h1
  refine h1.trans (le_of_eq ?_)
  field_simp

theorem lead_le (h : SmoothDrift f ft fy fyy a b L) (hg : SmoothNoise g g' a b L) (hab : a ≤ b) (tab : STableau ℝ) :
    ∃ C, 0 ≤ C ∧ ∀ i : PathIx f g g' a b, ‖i.lead fyy tab‖ ≤ C * (i.ε ^ 4 * (i.θ ^ 3 + i.q)) := by
  have hL := h.L_nonneg hab
  have hs := scales (f := f) (g := g) (g' := g') (a := a) (b := b)
  have h1 : ∀ j, Ord (fun i : PathIx f g g' a b => i.ε) (fun i => i.θ) 2 2
      (fun i => fyy i.s i.X (i.ξ tab j) (i.ξ tab j)) := fun j =>
    (ξo hg hab tab j).bound hL (ξo hg hab tab j) fun i => by
      rw [← mul_assoc]
      exact (ContinuousLinearMap.le_opNorm₂ _ _ _).trans (by
        gcongr
        exact h.le2 _ i.sI _)
  have h2 : Ord (fun i : PathIx f g g' a b => i.ε) (fun i => i.θ) 4 2 (fun i => i.ε ^ 2 •
      ∑ j ∈ Finset.range tab.bSol.length, tab.bSol.getD j 0 • fyy i.s i.X (i.ξ tab j) (i.ξ tab j)) :=
    (Ord.pow_scale hs 2).smul (Ord.sum _ fun j _ => (h1 j).const_smul _)
  obtain ⟨C, hC, h3⟩ := h2.mono hs (k' := 4) (j' := 3) le_rfl (by omega)
  refine ⟨C + L ^ 3, by positivity, fun i => ?_⟩
  have h4 : ‖∫ r in i.s..i.t, fyy i.s i.X (i.ν r) (i.ν r)‖ ≤ L ^ 3 * (i.ε ^ 4 * (1 + i.q)) := by
    have c3 : Continuous fun r => i.β r ^ 2 := i.β_cont.pow 2
    refine le_trans ?_ (mul_le_mul_of_nonneg_left i.int_sq_le (by positivity))
    rw [← intervalIntegral.integral_const_mul]
    refine intervalIntegral.norm_integral_le_of_norm_le i.s_le_t (Filter.Eventually.of_forall fun r _ => ?_)
      ((c3.intervalIntegrable _ _).const_mul _)
    have hν : ‖i.ν r‖ ≤ L * i.β r := (ContinuousLinearMap.le_opNorm _ _).trans
      (mul_le_mul_of_nonneg_right (hg.le _ i.sI) (norm_nonneg _))
    refine (ContinuousLinearMap.le_opNorm₂ _ _ _).trans ?_
    have h5 : ‖fyy i.s i.X‖ * ‖i.ν r‖ * ‖i.ν r‖ ≤ L * (L * i.β r) * (L * i.β r) := by
      have := i.β_nonneg r
      gcongr
      exact h.le2 _ i.sI _
    exact h5.trans (le_of_eq (by ring))
  have hq := i.q_nonneg
  have hε := i.hε
  have h5 : i.ε ^ 4 * i.θ ^ 3 ≤ i.ε ^ 4 * (i.θ ^ 3 + i.q) := mul_le_mul_of_nonneg_left (by linarith) (by positivity)
  have h6 : i.ε ^ 4 * (1 + i.q) ≤ i.ε ^ 4 * (i.θ ^ 3 + i.q) := by
    have := one_le_pow₀ (n := 3) i.one_le_θ
    exact mul_le_mul_of_nonneg_left (by linarith) (by positivity)
  unfold lead
  rw [norm_smul, Real.norm_of_nonneg (by norm_num)]
  have h7 := norm_sub_le (i.ε ^ 2 • ∑ j ∈ Finset.range tab.bSol.length, tab.bSol.getD j 0 • fyy i.s i.X (i.ξ tab j) (i.ξ tab j))
    (∫ r in i.s..i.t, fyy i.s i.X (i.ν r) (i.ν r))
  have h8 := (h3 i).trans (mul_le_mul_of_nonneg_left h5 hC)
  have h9 := h4.trans (mul_le_mul_of_nonneg_left h6 (by positivity))
  have h10 := norm_nonneg (i.ε ^ 2 • ∑ j ∈ Finset.range tab.bSol.length, tab.bSol.getD j 0 • fyy i.s i.X (i.ξ tab j) (i.ξ tab j)
    - ∫ r in i.s..i.t, fyy i.s i.X (i.ν r) (i.ν r))
  rw [add_mul]
  linarith

/-- The solution at the end of a step, in terms of its value at the beginning and the noise. -/
theorem y_le (h : SmoothDrift f ft fy fyy a b L) (hg : SmoothNoise g g' a b L) (hab : a ≤ b) :
    ∃ C, 0 ≤ C ∧ ∀ i : PathIx f g g' a b, ‖i.y i.t‖ ≤ C * i.θ := by
  obtain ⟨C, hC, hκ⟩ := κ_ord (g := g) (g' := g') h hg hab
  have hL := h.L_nonneg hab
  refine ⟨1 + C * (b - a) + L * (1 + (b - a)) + L * ((b - a) * (1 + (b - a))), ?_, fun i => ?_⟩
  · have : 0 ≤ b - a := by linarith
    positivity
  have hε := i.hε
  have h0 := i.sq_le
  have hb0 : 0 ≤ b - a := by linarith
  have hε1 : i.ε ≤ 1 + (b - a) := by nlinarith [sq_nonneg (i.ε - 1)]
  have hθ := i.one_le_θ
  have htI : i.t ∈ Icc i.s i.t := right_mem_Icc.2 i.s_le_t
  have h1 := i.noise_le hg htI
  have h2 := hκ i i.t htI
  rw [i.y_eq htI]
  have h3 : ‖i.X‖ ≤ i.θ := by linarith [i.X_le]
  have h4 : C * (i.ε ^ 2 * i.θ) ≤ C * ((b - a) * i.θ) := by gcongr
  have h5 : L * i.β i.t ≤ L * ((1 + (b - a)) * i.θ) := by
    rw [i.β_t]
    have := i.η_le
    have := i.η_nonneg
    gcongr
  have h6 : L * (i.ε ^ 3 * i.m) ≤ L * ((b - a) * (1 + (b - a)) * i.θ) := by
    have := i.m_le
    have := i.m_nonneg
    have h7 : i.ε ^ 3 ≤ (b - a) * (1 + (b - a)) := by
      rw [pow_succ]; gcongr
    gcongr
  have h8 := (norm_add_le (i.X + i.κ i.t) (wienerIntegral g g' i.w i.s i.t)).trans
    (add_le_add (norm_add_le _ _) le_rfl)
  refine h8.trans ?_
  have : (1 + C * (b - a) + L * (1 + (b - a)) + L * ((b - a) * (1 + (b - a)))) * i.θ
      = i.θ + C * ((b - a) * i.θ) + L * ((1 + (b - a)) * i.θ) + L * ((b - a) * (1 + (b - a)) * i.θ) := by ring
  rw [this]
  linarith

end PathIx

/-! ### Moments -/

section
variable {Ω : Type} {F : ℝ → MeasurableSpace Ω} {mΩ : MeasurableSpace Ω} {P : Measure Ω} [IsProbabilityMeasure P]
  {d : ℕ} {W : ℝ → Ω → Fin d → ℝ} {a b : ℝ}

theorem BrownianNoise.measurable_sub (hW : BrownianNoise P F a W) {s r u : ℝ} (hs : a ≤ s) (hsr : s ≤ r) (hu : r ≤ u) :
    Measurable[F u] fun ω => W r ω - W s ω :=
  (incr_measurable hW hs hsr).mono (hW.mono r u hu) le_rfl

theorem BrownianNoise.measurable_sub' (hW : BrownianNoise P F a W) {s r : ℝ} (hs : a ≤ s) (hsr : s ≤ r) :
    Measurable fun ω => W r ω - W s ω := (hW.measurable_sub hs hsr le_rfl).mono (hW.le r) le_rfl

/-- The mean of the integral over a path, if the means of the values are bounded. -/
theorem mean_path_integral (hW : BrownianPaths P F a W) {s t : ℝ} (hs : a ≤ s) (hst : s ≤ t) {φ : (Fin d → ℝ) → ℝ}
    (hφ : Continuous φ) (h0 : ∀ x, 0 ≤ φ x) {K : ℝ} (hK : ∀ r ∈ Icc s t, Integrable (fun ω => φ (W r ω - W s ω)) P ∧
      ∫ ω, φ (W r ω - W s ω) ∂P ≤ K) :
    Integrable (fun ω => ∫ r in s..t, φ (W r ω - W s ω)) P ∧ ∫ ω, (∫ r in s..t, φ (W r ω - W s ω)) ∂P ≤ K * (t - s) := by
  let c : ℝ → ℝ := fun r => max s (min r t)
  have hc : ∀ r, c r ∈ Icc s t := fun r => ⟨le_max_left _ _, max_le hst (min_le_right _ _)⟩
  let u : ℝ → Ω → ℝ := fun r ω => φ (W (c r) ω - W s ω)
  have hu : Measurable (Function.uncurry u) := by
    refine measurable_uncurry_of_continuous_of_measurable (fun ω => ?_) (fun r => ?_)
    · exact hφ.comp (((hW.continuous ω).comp (continuous_const.max (continuous_id.min continuous_const))).sub
        continuous_const)
    · exact hφ.measurable.comp (hW.toBrownianNoise.measurable_sub' hs (hc r).1)
  have e : (fun ω => ∫ r in s..t, φ (W r ω - W s ω)) = fun ω => ∫ r in Ioc s t, u r ω := by
    funext ω
    rw [intervalIntegral.integral_of_le hst]
    refine setIntegral_congr_fun measurableSet_Ioc fun r hr => ?_
    simp only [u, c, min_eq_left hr.2, max_eq_right hr.1.le]
  have hi : Integrable (Function.uncurry u) ((volume.restrict (Ioc s t)).prod P) := by
    rw [integrable_prod_iff hu.aestronglyMeasurable]
    refine ⟨Filter.Eventually.of_forall fun r => (hK _ (hc r)).1, ?_⟩
    have hm : AEStronglyMeasurable (fun r => ∫ ω, ‖u r ω‖ ∂P) (volume.restrict (Ioc s t)) :=
      (hu.norm.stronglyMeasurable.integral_prod_right (ν := P)).aestronglyMeasurable
    refine Integrable.of_bound hm K (Filter.Eventually.of_forall fun r => ?_)
    rw [Real.norm_of_nonneg (integral_nonneg fun ω => norm_nonneg _)]
    have e2 : (fun ω => ‖Function.uncurry u (r, ω)‖) = fun ω => φ (W (c r) ω - W s ω) := by
      funext ω; exact Real.norm_of_nonneg (h0 _)
    rw [e2]
    exact (hK _ (hc r)).2
  rw [e]
  refine ⟨hi.swap.integral_prod_left, ?_⟩
  rw [← integral_integral_swap hi]
  have h1 : ∫ r in Ioc s t, ∫ ω, u r ω ∂P ≤ ∫ _r in Ioc s t, K :=
    integral_mono hi.integral_prod_left (integrable_const _) fun r => (hK _ (hc r)).2
  refine h1.trans (le_of_eq ?_)
  rw [setIntegral_const, smul_eq_mul, Real.volume_real_Ioc_of_le hst, mul_comm]

/-- The size of the increments. -/
theorem BrownianNoise.size (hW : BrownianNoise P F a W) : ∃ c, 0 ≤ c ∧ ∀ s t, a ≤ s → s ≤ t →
    MemLp (fun ω => ‖W t ω - W s ω‖ ^ 3) 2 P ∧ rms P (fun ω => ‖W t ω - W s ω‖ ^ 3) ≤ c * √(t - s) ^ 3 := by
  obtain ⟨c, hc0, hc⟩ := hW.powers 3
  refine ⟨c, hc0, fun s t hs hst => ?_⟩
  obtain ⟨h1, h2⟩ := hc s t hs hst
  have hm : AEStronglyMeasurable (fun ω => ‖W t ω - W s ω‖ ^ 3) P :=
    ((hW.measurable_sub' hs hst).norm.pow_const 3).aestronglyMeasurable
  have hle : ∀ ω, ‖‖W t ω - W s ω‖ ^ 3‖ ≤ ‖(∑ j, |incr W s t ω j|) ^ 3‖ := fun ω => by
    have h0 : 0 ≤ ∑ j, |incr W s t ω j| := Finset.sum_nonneg fun j _ => abs_nonneg _
    rw [Real.norm_of_nonneg (by positivity), Real.norm_of_nonneg (by positivity)]
    refine pow_le_pow_left₀ (norm_nonneg _) ?_ 3
    refine (pi_norm_le_iff_of_nonneg h0).2 fun j => ?_
    exact Finset.single_le_sum (f := fun j => |incr W s t ω j|) (fun j _ => abs_nonneg _) (Finset.mem_univ j)
  exact ⟨h1.of_le hm (Filter.Eventually.of_forall hle), (rms_mono h1 hle).trans h2⟩

/-- The size of the noise over a step. -/
theorem BrownianPaths.size (hW : BrownianPaths P F a W) : ∃ c, 0 ≤ c ∧ ∀ s t, a ≤ s → s < t →
    (MemLp (fun ω => (‖W t ω - W s ω‖ / √(t - s)) ^ 3) 2 P ∧ rms P (fun ω => (‖W t ω - W s ω‖ / √(t - s)) ^ 3) ≤ c) ∧
    (MemLp (fun ω => (∫ r in s..t, ‖W r ω - W s ω‖ ^ 3) / √(t - s) ^ 5) 2 P ∧
      rms P (fun ω => (∫ r in s..t, ‖W r ω - W s ω‖ ^ 3) / √(t - s) ^ 5) ≤ c) := by
  obtain ⟨c, hc0, hc⟩ := hW.toBrownianNoise.size
  refine ⟨c, hc0, fun s t hs hst => ?_⟩
  have hpos : 0 < t - s := by linarith
  set ε := √(t - s) with hε
  have hε0 : 0 < ε := Real.sqrt_pos.2 hpos
  have hsq : ε ^ 2 = t - s := Real.sq_sqrt hpos.le
  constructor
  · obtain ⟨h1, h2⟩ := hc s t hs hst.le
    have e : (fun ω => (‖W t ω - W s ω‖ / ε) ^ 3) = fun ω => (1 / ε ^ 3) • ‖W t ω - W s ω‖ ^ 3 := by
      funext ω; rw [smul_eq_mul, div_pow]; ring
    rw [e]
    refine ⟨h1.const_smul (1 / ε ^ 3), ?_⟩
    rw [rms_smul, abs_of_pos (by positivity)]
    calc 1 / ε ^ 3 * rms P (fun ω => ‖W t ω - W s ω‖ ^ 3) ≤ 1 / ε ^ 3 * (c * ε ^ 3) := by gcongr
      _ = c := by field_simp
  · have hm := fun r (hr : r ∈ Icc s t) => hW.toBrownianNoise.measurable_sub' hs hr.1
    have hφ : Continuous fun x : Fin d → ℝ => (‖x‖ ^ 3) ^ 2 := (continuous_norm.pow 3).pow 2
    obtain ⟨i1, i2⟩ := mean_path_integral hW hs hst.le hφ (fun x => by positivity) (K := c ^ 2 * (t - s) ^ 3)
      fun r hr => by
        obtain ⟨h1, h2⟩ := hc s r hs hr.1
        refine ⟨h1.integrable_sq, ?_⟩
        have h3 := rms_sq h1
        simp only [Real.norm_eq_abs, sq_abs] at h3
        rw [← h3]
        have h4 := pow_le_pow_left₀ (rms_nonneg _) h2 2
        refine h4.trans ?_
        have h5 : (c * √(r - s) ^ 3) ^ 2 = c ^ 2 * (r - s) ^ 3 := by
          rw [mul_pow, ← pow_mul, show 3 * 2 = 2 * 3 by rfl, pow_mul, Real.sq_sqrt (sub_nonneg.2 hr.1)]
        rw [h5]
        have h6 : r - s ≤ t - s := by linarith [hr.2]
        have h7 : 0 ≤ r - s := sub_nonneg.2 hr.1
        gcongr
    set J := fun ω => ∫ r in s..t, ‖W r ω - W s ω‖ ^ 3 with hJ
    have hJm : AEStronglyMeasurable J P :=
      (measurable_path_integral mΩ hW.continuous hst.le hm (φ := fun x => ‖x‖ ^ 3)
        (continuous_norm.pow 3)).aestronglyMeasurable
    have hJ2 : ∀ ω, J ω ^ 2 ≤ (t - s) * ∫ r in s..t, (‖W r ω - W s ω‖ ^ 3) ^ 2 := fun ω =>
      sq_integral_le ((((hW.continuous ω).sub continuous_const).norm).pow 3) hst
    have hJi : Integrable (fun ω => J ω ^ 2) P := by
      refine (i1.const_mul (t - s)).mono' (hJm.pow 2) (Filter.Eventually.of_forall fun ω => ?_)
      rw [Real.norm_of_nonneg (by positivity)]
      exact hJ2 ω
    have hJl : MemLp J 2 P := (memLp_two_iff_integrable_sq hJm).2 hJi
    have hJr : rms P J ≤ c * ε ^ 5 := by
      refine abs_le_of_sq_le_sq' ?_ (by positivity) |>.2
      rw [rms_sq hJl]
      simp only [Real.norm_eq_abs, sq_abs]
      calc ∫ ω, J ω ^ 2 ∂P ≤ ∫ ω, (t - s) * (∫ r in s..t, (‖W r ω - W s ω‖ ^ 3) ^ 2) ∂P :=
            integral_mono hJi (i1.const_mul _) hJ2
        _ = (t - s) * ∫ ω, (∫ r in s..t, (‖W r ω - W s ω‖ ^ 3) ^ 2) ∂P := integral_const_mul _ _
        _ ≤ (t - s) * (c ^ 2 * (t - s) ^ 3 * (t - s)) := mul_le_mul_of_nonneg_left i2 hpos.le
        _ = (c * ε ^ 5) ^ 2 := by rw [← hsq]; ring
    have e : (fun ω => J ω / ε ^ 5) = fun ω => (1 / ε ^ 5) • J ω := by
      funext ω; rw [smul_eq_mul]; ring
    change MemLp (fun ω => J ω / ε ^ 5) 2 P ∧ rms P (fun ω => J ω / ε ^ 5) ≤ c
    rw [e]
    refine ⟨hJl.const_smul (1 / ε ^ 5), ?_⟩
    rw [rms_smul, abs_of_pos (by positivity)]
    calc 1 / ε ^ 5 * rms P J ≤ 1 / ε ^ 5 * (c * ε ^ 5) := by gcongr
      _ = c := by field_simp

end

end Verif
