import Verif.Props.AdditiveStrong
import Verif.Props.StrongExamples

/-!
# C92: an example

`dx = dW`, `dz = sin(x) dt`. The noise is additive, the drift is not linear, and the solution is the pair of a Brownian
motion and the integral of its sine. So all the hypotheses of C92 are met.
-/

set_option linter.unusedSectionVars false

namespace Verif
open MeasureTheory ProbabilityTheory Filter Set Topology
open scoped InnerProductSpace ENNReal NNReal

variable {Ω : Type} {mΩ : MeasurableSpace Ω} {P : Measure Ω} {B : ℝ≥0 → Ω → ℝ}

/-- A Brownian motion with continuous paths, and what is known of it. -/
theorem brownianPaths_of_brownian (hB : IsPreBrownianReal B P) (hm : ∀ t, Measurable (B t))
    (hc : ∀ ω, Continuous fun t => B t ω) : BrownianPaths P (pastOf B) 0 (pathOf B) where
  toBrownianNoise := brownianNoise_of_brownian hB hm
  continuous ω := continuous_pi fun _ => (hc ω).comp continuous_real_toNNReal
  future s hs := by
    have h1 := hB.indepFun_shift s.toNNReal
    rw [IndepFun_iff_Indep] at h1
    refine indep_of_indep_of_le_left h1 (iSup₂_le fun t ht => ?_)
    have h2 : (fun ω => pathOf B t ω - pathOf B s ω) = (fun (x : ℝ≥0 → ℝ) (_ : Fin 1) => x (t - s).toNNReal) ∘
        (fun ω r => B (s.toNNReal + r) ω - B s.toNNReal ω) := by
      funext ω j
      simp only [Function.comp, pathOf, Pi.sub_apply]
      rw [← Real.toNNReal_add hs (sub_nonneg.2 ht)]
      congr 3; ring
    rw [h2, ← MeasurableSpace.comap_comp]
    exact MeasurableSpace.comap_mono (Measurable.comap_le (measurable_pi_lambda _ fun _ => measurable_pi_apply _))

noncomputable section

def axis1 : Plane := !₂[1, 0]
def axis2 : Plane := !₂[0, 1]

theorem norm_axis1 : ‖axis1‖ = 1 := by unfold axis1; rw [EuclideanSpace.norm_eq]; simp
theorem norm_axis2 : ‖axis2‖ = 1 := by unfold axis2; rw [plane_norm, abs_one]

def fstL : Plane →L[ℝ] ℝ := EuclideanSpace.proj 0

theorem fstL_le (x : Plane) : ‖fstL x‖ ≤ ‖x‖ := PiLp.norm_apply_le x 0
theorem norm_fstL : ‖fstL‖ ≤ 1 := ContinuousLinearMap.opNorm_le_bound _ zero_le_one fun x => by
  rw [one_mul]; exact fstL_le x

def sineDrift (_ : ℝ) (y : Plane) : Plane := Real.sin (fstL y) • axis2
def sineDrift1 (_ : ℝ) (y : Plane) : Plane →L[ℝ] Plane := Real.cos (fstL y) • fstL.smulRight axis2
def sineDrift2 (_ : ℝ) (y : Plane) : Plane →L[ℝ] Plane →L[ℝ] Plane :=
  fstL.smulRight ((-Real.sin (fstL y)) • fstL.smulRight axis2)
def sineNoise (_ : ℝ) : (Fin 1 → ℝ) →L[ℝ] Plane := (ContinuousLinearMap.proj 0).smulRight axis1

theorem norm_M1 : ‖fstL.smulRight axis2‖ ≤ 1 := by
  refine ContinuousLinearMap.opNorm_le_bound _ zero_le_one fun x => ?_
  rw [ContinuousLinearMap.smulRight_apply, norm_smul, norm_axis2, mul_one, one_mul]; exact fstL_le x

theorem sine_smooth : SmoothDrift sineDrift (fun _ _ => 0) sineDrift1 sineDrift2 0 1 1 where
  deriv t _ x := by
    have h := ((Real.hasDerivAt_sin (fstL x)).comp_hasFDerivAt x fstL.hasFDerivAt).smul_const axis2
    refine h.congr_fderiv ?_
    ext v; simp [sineDrift1, smul_smul]
  deriv2 t _ x := by
    have h := ((Real.hasDerivAt_cos (fstL x)).comp_hasFDerivAt x fstL.hasFDerivAt).smul_const (fstL.smulRight axis2)
    refine h.congr_fderiv ?_
    ext v w; simp [sineDrift2, smul_smul, mul_comm]
  le1 t _ x := by
    unfold sineDrift1
    rw [norm_smul]
    exact mul_le_one₀ (Real.abs_cos_le_one _) (norm_nonneg _) norm_M1
  le2 t _ x := by
    refine ContinuousLinearMap.opNorm_le_bound _ zero_le_one fun v => ?_
    change ‖fstL v • (-Real.sin (fstL x)) • fstL.smulRight axis2‖ ≤ _
    rw [norm_smul, norm_smul, norm_neg, one_mul]
    exact (mul_le_of_le_one_right (norm_nonneg _)
      (mul_le_one₀ (Real.abs_sin_le_one _) (norm_nonneg _) norm_M1)).trans (fstL_le v)
  lip2 t _ x x' := by
    refine ContinuousLinearMap.opNorm_le_bound₂ _ (by positivity) fun v w => ?_
    change ‖fstL v • (-Real.sin (fstL x)) • fstL w • axis2 - fstL v • (-Real.sin (fstL x')) • fstL w • axis2‖ ≤ _
    have h1 : ‖Real.sin (fstL x) - Real.sin (fstL x')‖ ≤ ‖fstL x - fstL x'‖ := by
      have := Real.lipschitzWith_sin.dist_le_mul (fstL x) (fstL x')
      simpa [dist_eq_norm] using this
    rw [← map_sub] at h1
    have h2 := h1.trans (fstL_le (x - x'))
    have e : fstL v • (-Real.sin (fstL x)) • fstL w • axis2 - fstL v • (-Real.sin (fstL x')) • fstL w • axis2
        = (-(Real.sin (fstL x) - Real.sin (fstL x'))) • fstL v • fstL w • axis2 := by module
    rw [e, norm_smul, norm_neg, norm_smul, norm_smul, norm_axis2, mul_one, one_mul, mul_assoc]
    have := fstL_le v
    have := fstL_le w
    gcongr
  time t _ x := hasDerivWithinAt_const _ _ _
  time_le t _ x := by rw [norm_zero]; positivity
  time_lip s _ t _ x := by rw [sub_zero, norm_zero]; positivity
  mixed t _ x x' := by rw [sub_zero, norm_zero]; positivity

theorem sineNoise_smooth : SmoothNoise sineNoise (fun _ => 0) 0 1 1 where
  deriv t _ := hasDerivWithinAt_const _ _ _
  le t _ := by
    refine ContinuousLinearMap.opNorm_le_bound _ zero_le_one fun x => ?_
    unfold sineNoise
    rw [ContinuousLinearMap.smulRight_apply, norm_smul, norm_axis1, mul_one, one_mul]
    exact norm_le_pi_norm x 0
  le' t _ := by rw [norm_zero]; exact zero_le_one
  lip' s _ t _ := by rw [sub_zero, norm_zero]; positivity

def sineSolution (B : ℝ≥0 → Ω → ℝ) (t : ℝ) (ω : Ω) : Plane :=
  (pathOf B t ω - pathOf B 0 ω) 0 • axis1 + (∫ r in (0 : ℝ)..t, Real.sin ((pathOf B r ω - pathOf B 0 ω) 0)) • axis2

theorem fst_sineSolution (t : ℝ) (ω : Ω) : fstL (sineSolution B t ω) = (pathOf B t ω - pathOf B 0 ω) 0 := by
  simp [sineSolution, fstL, axis1, axis2]

theorem sine_solves (hB : IsPreBrownianReal B P) (hm : ∀ t, Measurable (B t)) (hc : ∀ ω, Continuous fun t => B t ω) :
    AdditiveSolution P (pastOf B) (pathOf B) sineDrift sineNoise (fun _ => 0) 0 1 (sineSolution B) := by
  have hP := hB.isGaussianProcess.isProbabilityMeasure
  have hW := brownianPaths_of_brownian hB hm hc
  have h0 : ∀ ω, sineSolution B 0 ω = 0 := fun ω => by simp [sineSolution]
  have hcont : ∀ ω, Continuous fun r => Real.sin ((pathOf B r ω - pathOf B 0 ω) 0) := fun ω =>
    Real.continuous_sin.comp ((continuous_apply 0).comp ((hW.continuous ω).sub continuous_const))
  refine ⟨fun t ht => ?_, ?_, fun ω => ⟨?_, fun t ht => ?_⟩⟩
  · have h1 : Measurable[pastOf B t] fun ω => (pathOf B t ω - pathOf B 0 ω) 0 :=
      (measurable_pi_apply 0).comp (hW.toBrownianNoise.measurable_sub le_rfl ht.1 le_rfl)
    have h2 := measurable_path_integral (pastOf B t) hW.continuous ht.1
      (fun r hr => hW.toBrownianNoise.measurable_sub le_rfl hr.1 hr.2)
      (φ := fun x => Real.sin (x 0)) (Real.continuous_sin.comp (continuous_apply 0))
    exact (h1.stronglyMeasurable.smul_const _).add (h2.stronglyMeasurable.smul_const _)
  · rw [show sineSolution B 0 = fun _ => 0 from funext h0]; exact MemLp.zero'
  · have h1 : Continuous fun t => (pathOf B t ω - pathOf B 0 ω) 0 :=
      (continuous_apply 0).comp ((hW.continuous ω).sub continuous_const)
    have h2 : Continuous fun t : ℝ => ∫ r in (0 : ℝ)..t, Real.sin ((pathOf B r ω - pathOf B 0 ω) 0) :=
      intervalIntegral.continuous_primitive (fun a b => (hcont ω).intervalIntegrable a b) 0
    exact ((h1.smul continuous_const).add (h2.smul continuous_const)).continuousOn
  · rw [h0, zero_add, wienerIntegral]
    have e : (fun r => sineDrift r (sineSolution B r ω)) = fun r => Real.sin ((pathOf B r ω - pathOf B 0 ω) 0) • axis2 := by
      funext r; rw [sineDrift, fst_sineSolution]
    rw [e, intervalIntegral.integral_smul_const]
    simp only [sineSolution, sineNoise, ContinuousLinearMap.smulRight_apply, ContinuousLinearMap.proj_apply,
      zero_apply, intervalIntegral.integral_zero, sub_zero]
    exact add_comm _ _

/-- The hypotheses of C92 can be met. -/
example (hB : IsPreBrownianReal B P) (hm : ∀ t, Measurable (B t)) (hc : ∀ ω, Continuous fun t => B t ω)
    (interp : LocalLin ℝ Plane) :
    (∃ K, StrongErrorAtMost P (pastOf B) (fun ω => additiveSolver STab.spark sineDrift sineNoise (fun t => pathOf B t ω)
      interp) (fun _ _ => ()) (sineSolution B) 0 1 (fun e η => K * (e + η ^ 3))) ∧
    (∃ K, StrongErrorAtMost P (pastOf B) (fun ω => additiveSolver STab.sea sineDrift sineNoise (fun t => pathOf B t ω)
      interp) (fun _ _ => ()) (sineSolution B) 0 1 (fun e η => K * (e + η ^ 2))) := by
  have hP := hB.isGaussianProcess.isProbabilityMeasure
  have hW := brownianPaths_of_brownian hB hm hc
  have hY := sine_solves hB hm hc
  exact ⟨C92_spark sine_smooth sineNoise_smooth hW hY interp, C92_sea sine_smooth sineNoise_smooth hW hY interp⟩

/-- ShARK with `n` steps on `[0, 1]`: the mean square of the error is at most a constant over `n³`. -/
example (hB : IsPreBrownianReal B P) (hm : ∀ t, Measurable (B t)) (hc : ∀ ω, Continuous fun t => B t ω)
    (interp : LocalLin ℝ Plane) :
    ∃ K, ∀ n : ℕ, 0 < n → ∃ tnext ctrl, constInit id (0 : ℝ) (some 1) (some (1 / n)) = some (tnext, ctrl) ∧
      rms P (fun ω => (solve (unitCfg (additiveSolver STab.shark sineDrift sineNoise (fun t => pathOf B t ω) interp)
        constantStepSize (0, 0) n) 0 tnext ctrl () false).yfinal - sineSolution B 1 ω) ^ 2 ≤ K * (1 / n) ^ 3 := by
  have hP := hB.isGaussianProcess.isProbabilityMeasure
  have hY := sine_solves hB hm hc
  obtain ⟨K, hK⟩ := C92_shark sine_smooth sineNoise_smooth (brownianPaths_of_brownian hB hm hc) hY interp
  refine ⟨K, fun n hn => ⟨_, _, rfl, ?_⟩⟩
  have hn' : (0 : ℝ) < n := by exact_mod_cast hn
  have := (C79_constant hK (fun _ _ _ _ _ _ => rfl) ℝ ℝ
    (fun ω => unitCfg (additiveSolver STab.shark sineDrift sineNoise (fun t => pathOf B t ω) interp)
      constantStepSize (0, 0) n)
    (fun ω => ⟨unitCfg_WF _ _ _ _, rfl, rfl, rfl, rfl, rfl, rfl⟩) (by norm_num) (fun _ => 0)
    stronglyMeasurable_const MemLp.zero' (1 / n) (by positivity) _ _ rfl ?_ ?_).2.2
  · refine this.trans (le_of_eq ?_)
    have h0 : ∀ ω, sineSolution B 0 ω = 0 := fun ω => by simp [sineSolution]
    simp [rms, h0]
  · intro ω
    rw [unit_ceil n hn]
    have : (0 : ℝ) ≤ (1 - 0) / ((n : ℤ) : ℝ) := by rw [Int.cast_natCast, sub_zero]; positivity
    show (1 : ℝ) - _ ≤ 1
    linarith
  · intro ω; rw [unit_ceil n hn]; exact le_refl _

end
end Verif
