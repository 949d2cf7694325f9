import Verif.Lemmas.NoiseMoments
import Mathlib.Probability.BrownianMotion.Basic

/-!
# Brownian motion is a noise in the sense of `Spec/Ito.lean`
-/

set_option linter.unusedSectionVars false

namespace Verif
open MeasureTheory ProbabilityTheory Filter Set Topology
open scoped InnerProductSpace ENNReal NNReal

variable {Ω : Type} {mΩ : MeasurableSpace Ω} {P : Measure Ω} {B : ℝ≥0 → Ω → ℝ}

/-- What is known of `B` at time `t`. -/
def pastOf (B : ℝ≥0 → Ω → ℝ) (t : ℝ) : MeasurableSpace Ω :=
  MeasurableSpace.comap (fun ω (r : Set.Iic t.toNNReal) => B r ω) inferInstance

/-- The path with values in `ℝ^1`. -/
def pathOf (B : ℝ≥0 → Ω → ℝ) (t : ℝ) (ω : Ω) : Fin 1 → ℝ := fun _ => B t.toNNReal ω

theorem gaussian_even (v : ℝ≥0) (n : ℕ) :
    ∫ x, x ^ (2 * n) ∂(gaussianReal 0 v) = (∫ x, x ^ (2 * n) ∂(gaussianReal 0 1)) * (v : ℝ) ^ n := by
  have h := gaussianReal_map_const_mul (μ := 0) (v := 1) (√v)
  have hv : (⟨√v ^ 2, sq_nonneg _⟩ : ℝ≥0) * 1 = v := by
    rw [mul_one]; ext; exact Real.sq_sqrt v.2
  rw [mul_zero] at h
  rw [show gaussianReal 0 v = (gaussianReal 0 1).map (√(v : ℝ) * ·) by rw [h]; congr 1; exact hv.symm,
    integral_map (by fun_prop) (by fun_prop)]
  simp only [mul_pow]
  rw [integral_const_mul, mul_comm]
  congr 1
  rw [pow_mul, Real.sq_sqrt (NNReal.coe_nonneg v)]

/-- A Brownian motion, with what is known of it, is a noise. (Continuity of the paths is not needed.) -/
theorem brownianNoise_of_brownian (hB : IsPreBrownianReal B P) (hm : ∀ t, Measurable (B t)) :
    BrownianNoise P (pastOf B) 0 (pathOf B) := by
  have hP := hB.isGaussianProcess.isProbabilityMeasure
  have law : ∀ s t : ℝ, 0 ≤ s → s ≤ t → ∃ v : ℝ≥0, (v : ℝ) = t - s ∧
      HasLaw (fun ω => B t.toNNReal ω - B s.toNNReal ω) (gaussianReal 0 v) P := by
    intro s t hs hst
    refine ⟨nndist (t.toNNReal : ℝ) (s.toNNReal : ℝ), ?_, hB.hasLaw_sub t.toNNReal s.toNNReal⟩
    rw [coe_nndist, Real.coe_toNNReal _ (hs.trans hst), Real.coe_toNNReal _ hs, Real.dist_eq,
      abs_of_nonneg (by linarith)]
  have hmean : ∀ s t : ℝ, 0 ≤ s → s ≤ t → ∫ ω, (B t.toNNReal ω - B s.toNNReal ω) ∂P = 0 := by
    intro s t hs hst
    obtain ⟨v, -, hl⟩ := law s t hs hst
    have := hl.integral_eq
    simpa using this
  refine ⟨?_, ?_, ?_, ?_, ?_, ?_, ?_⟩
  · intro s t hst
    have hst' : s.toNNReal ≤ t.toNNReal := Real.toNNReal_le_toNNReal hst
    unfold pastOf
    rw [show (fun ω (r : Set.Iic s.toNNReal) => B r ω) = (fun (x : Set.Iic t.toNNReal → ℝ) (r : Set.Iic s.toNNReal) =>
      x ⟨r.1, r.2.trans hst'⟩) ∘ (fun ω (r : Set.Iic t.toNNReal) => B r ω) from rfl, ← MeasurableSpace.comap_comp]
    exact MeasurableSpace.comap_mono (Measurable.comap_le (measurable_pi_lambda _ fun r => measurable_pi_apply _))
  · intro t
    exact (measurable_pi_lambda _ fun r => hm _).comap_le
  · intro t j ht
    have h1 : Measurable[pastOf B t] (fun ω (r : Set.Iic t.toNNReal) => B r ω) := comap_measurable _
    exact (measurable_pi_apply (⟨t.toNNReal, Set.mem_Iic.2 le_rfl⟩ : Set.Iic t.toNNReal)).comp h1
  · intro s t hs hst
    have h1 := hB.indepFun_shift s.toNNReal
    rw [IndepFun_iff_Indep] at h1
    refine indep_of_indep_of_le_left h1 ?_
    have h2 : (fun ω => pathOf B t ω - pathOf B s ω) = (fun (x : ℝ≥0 → ℝ) (_ : Fin 1) => x (t - s).toNNReal) ∘
        (fun ω r => B (s.toNNReal + r) ω - B s.toNNReal ω) := by
      funext ω j
      simp only [Function.comp, pathOf, Pi.sub_apply]
      rw [← Real.toNNReal_add hs (by linarith)]
      congr 3; ring
    rw [h2, ← MeasurableSpace.comap_comp]
    exact MeasurableSpace.comap_mono (Measurable.comap_le (measurable_pi_lambda _ fun _ => measurable_pi_apply _))
  · intro n
    refine ⟨∫ x, x ^ (2 * n) ∂(gaussianReal 0 1), fun s t j hs hst => ?_⟩
    obtain ⟨v, hv, hl⟩ := law s t hs hst
    refine ⟨?_, ?_⟩
    · exact (hl.hasGaussianLaw).memLp (ENNReal.natCast_ne_top _)
    · have := hl.integral_comp (f := fun x : ℝ => x ^ (2 * n)) (by fun_prop)
      rw [gaussian_even, hv] at this
      exact this.le
  · intro s t j hs hst
    exact hmean s t hs hst
  · intro s t i j hs hst
    obtain ⟨v, hv, hl⟩ := law s t hs hst
    rw [if_pos (Subsingleton.elim i j)]
    have h1 := hl.variance_eq
    rw [variance_id_gaussianReal] at h1
    have m2 : MemLp (fun ω => B t.toNNReal ω - B s.toNNReal ω) 2 P := (hl.hasGaussianLaw).memLp_two
    rw [variance_of_integral_eq_zero m2.1.aemeasurable (hmean s t hs hst)] at h1
    rw [hv] at h1
    rw [← h1]
    refine integral_congr_ae (ae_of_all _ fun ω => ?_)
    simp only [pathOf]; ring

end Verif
