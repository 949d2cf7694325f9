import Verif.Spec.BrownianMoments
import Mathlib.MeasureTheory.Integral.Prod
import Mathlib.MeasureTheory.Function.L2Space
import Mathlib.Analysis.SpecialFunctions.Integrals.Basic

/-!
# Moments of integrals of Brownian motion
-/

namespace Verif
open MeasureTheory Set

variable {Ω : Type} [MeasurableSpace Ω] {P : Measure Ω} [IsProbabilityMeasure P] {d : ℕ} {W : Ω → ℝ → Fin d → ℝ}

namespace BrownianMoments

theorem measurable_i (h : BrownianMoments P W) (i : Fin d) : Measurable fun x : Ω × ℝ => W x.1 x.2 i :=
  (measurable_pi_apply i).comp h.measurable

theorem abs_moment_le (h : BrownianMoments P W) (i j : Fin d) (s t : ℝ) (hs : s ∈ Icc (0 : ℝ) 1) (ht : t ∈ Icc (0 : ℝ) 1) :
    ∫ ω, ‖W ω s i * W ω t j‖ ∂P ≤ 1 := by
  have hi := h.sq i s hs
  have hj := h.sq j t ht
  have e1 := h.cov i i s hs s hs
  have e2 := h.cov j j t ht t ht
  rw [if_pos rfl, min_self] at e1 e2
  have i1 : Integrable (fun ω => W ω s i * W ω s i) P := hi.integrable_mul hi
  have i2 : Integrable (fun ω => W ω t j * W ω t j) P := hj.integrable_mul hj
  have hle : ∫ ω, ‖W ω s i * W ω t j‖ ∂P ≤ ∫ ω, (W ω s i * W ω s i + W ω t j * W ω t j) / 2 ∂P := by
    refine integral_mono (hi.integrable_mul hj).norm ((i1.add i2).div_const 2) fun ω => ?_
    simp only [Real.norm_eq_abs]
    rw [abs_le]
    constructor <;> nlinarith [sq_nonneg (W ω s i - W ω t j), sq_nonneg (W ω s i + W ω t j)]
  rw [integral_div, integral_add i1 i2, e1, e2] at hle
  linarith [hs.2, ht.2]

variable {ν ν' : Measure ℝ} [IsFiniteMeasure ν] [IsFiniteMeasure ν']

theorem integrable_pair (h : BrownianMoments P W) (hν : ∀ᵐ r ∂ν, r ∈ Icc (0 : ℝ) 1) (hν' : ∀ᵐ r ∂ν', r ∈ Icc (0 : ℝ) 1)
    (i j : Fin d) :
    Integrable (fun x : Ω × (ℝ × ℝ) => W x.1 x.2.1 i * W x.1 x.2.2 j) (P.prod (ν.prod ν')) := by
  have hm : Measurable fun x : Ω × (ℝ × ℝ) => W x.1 x.2.1 i * W x.1 x.2.2 j :=
    ((h.measurable_i i).comp (measurable_fst.prodMk (measurable_fst.comp measurable_snd))).mul
      ((h.measurable_i j).comp (measurable_fst.prodMk (measurable_snd.comp measurable_snd)))
  have hae : ∀ᵐ p ∂(ν.prod ν'), p.1 ∈ Icc (0 : ℝ) 1 ∧ p.2 ∈ Icc (0 : ℝ) 1 := by
    have h1 : ∀ᵐ p ∂(ν.prod ν'), p.1 ∈ Icc (0 : ℝ) 1 := Measure.quasiMeasurePreserving_fst.ae hν
    have h2 : ∀ᵐ p ∂(ν.prod ν'), p.2 ∈ Icc (0 : ℝ) 1 := Measure.quasiMeasurePreserving_snd.ae hν'
    exact h1.and h2
  rw [integrable_prod_iff' hm.aestronglyMeasurable]
  refine ⟨?_, ?_⟩
  · filter_upwards [hae] with p hp
    exact (h.sq i p.1 hp.1).integrable_mul (h.sq j p.2 hp.2)
  · refine Integrable.of_bound (C := 1) ?_ ?_
    · exact hm.aestronglyMeasurable.norm.prod_swap.integral_prod_right'
    · filter_upwards [hae] with p hp
      rw [Real.norm_of_nonneg (integral_nonneg fun _ => norm_nonneg _)]
      exact h.abs_moment_le i j p.1 p.2 hp.1 hp.2

/-- Covariances of integrals of the process. -/
theorem cov_integrals (h : BrownianMoments P W) (hν : ∀ᵐ r ∂ν, r ∈ Icc (0 : ℝ) 1) (hν' : ∀ᵐ r ∂ν', r ∈ Icc (0 : ℝ) 1)
    (i j : Fin d) :
    Integrable (fun ω => (∫ r, W ω r i ∂ν) * ∫ s, W ω s j ∂ν') P ∧
    ∫ ω, (∫ r, W ω r i ∂ν) * (∫ s, W ω s j ∂ν') ∂P = if i = j then ∫ r, ∫ s, min r s ∂ν' ∂ν else 0 := by
  have hint := h.integrable_pair hν hν' i j
  have e : ∀ ω, (∫ r, W ω r i ∂ν) * (∫ s, W ω s j ∂ν') = ∫ p : ℝ × ℝ, W ω p.1 i * W ω p.2 j ∂(ν.prod ν') := fun ω =>
    (integral_prod_mul _ _).symm
  simp only [e]
  refine ⟨hint.integral_prod_left, ?_⟩
  rw [integral_integral_swap (f := fun ω (p : ℝ × ℝ) => W ω p.1 i * W ω p.2 j) hint]
  have hae : ∀ᵐ p ∂(ν.prod ν'), p.1 ∈ Icc (0 : ℝ) 1 ∧ p.2 ∈ Icc (0 : ℝ) 1 := by
    have h1 : ∀ᵐ p ∂(ν.prod ν'), p.1 ∈ Icc (0 : ℝ) 1 := Measure.quasiMeasurePreserving_fst.ae hν
    have h2 : ∀ᵐ p ∂(ν.prod ν'), p.2 ∈ Icc (0 : ℝ) 1 := Measure.quasiMeasurePreserving_snd.ae hν'
    exact h1.and h2
  have h3 : ∫ p : ℝ × ℝ, (∫ ω, W ω p.1 i * W ω p.2 j ∂P) ∂(ν.prod ν')
      = ∫ p : ℝ × ℝ, (if i = j then min p.1 p.2 else 0) ∂(ν.prod ν') := by
    refine integral_congr_ae ?_
    filter_upwards [hae] with p hp
    exact h.cov i j p.1 hp.1 p.2 hp.2
  rw [h3]
  split_ifs
  · refine integral_prod _ (Integrable.of_bound (C := 1) (by fun_prop) ?_)
    filter_upwards [hae] with p hp
    rw [Real.norm_of_nonneg (le_min hp.1.1 hp.2.1)]
    exact (min_le_left _ _).trans hp.1.2
  · simp

/-- Time integrals of products. -/
theorem integral_sq (h : BrownianMoments P W) (hν : ∀ᵐ r ∂ν, r ∈ Icc (0 : ℝ) 1) (i j : Fin d) :
    Integrable (fun ω => ∫ r, W ω r i * W ω r j ∂ν) P ∧
    ∫ ω, (∫ r, W ω r i * W ω r j ∂ν) ∂P = if i = j then ∫ r, r ∂ν else 0 := by
  have hm : Measurable fun x : Ω × ℝ => W x.1 x.2 i * W x.1 x.2 j := (h.measurable_i i).mul (h.measurable_i j)
  have hint : Integrable (fun x : Ω × ℝ => W x.1 x.2 i * W x.1 x.2 j) (P.prod ν) := by
    rw [integrable_prod_iff' hm.aestronglyMeasurable]
    refine ⟨?_, ?_⟩
    · filter_upwards [hν] with p hp
      exact (h.sq i p hp).integrable_mul (h.sq j p hp)
    · refine Integrable.of_bound (C := 1) ?_ ?_
      · exact hm.aestronglyMeasurable.norm.prod_swap.integral_prod_right'
      · filter_upwards [hν] with p hp
        rw [Real.norm_of_nonneg (integral_nonneg fun _ => norm_nonneg _)]
        exact h.abs_moment_le i j p p hp hp
  refine ⟨hint.integral_prod_left, ?_⟩
  rw [integral_integral_swap (f := fun ω r => W ω r i * W ω r j) hint]
  have h3 : ∫ r, (∫ ω, W ω r i * W ω r j ∂P) ∂ν = ∫ r, (if i = j then r else 0) ∂ν := by
    refine integral_congr_ae ?_
    filter_upwards [hν] with p hp
    simp only [h.cov i j p hp p hp, min_self]
  rw [h3]
  split_ifs <;> simp

/-! ### The moments of `W`, `∫ W` -/

theorem mem_one : ∀ᵐ r ∂(Measure.dirac (1 : ℝ)), r ∈ Icc (0 : ℝ) 1 :=
  (ae_dirac_iff measurableSet_Icc).2 ⟨zero_le_one, le_rfl⟩

theorem mem_unit : ∀ᵐ r ∂(volume.restrict (Ioc (0 : ℝ) 1)), r ∈ Icc (0 : ℝ) 1 :=
  (ae_restrict_mem measurableSet_Ioc).mono fun _ hr => ⟨hr.1.le, hr.2⟩

theorem int_id : ∫ r in Ioc (0 : ℝ) 1, r = 1 / 2 := by
  rw [← intervalIntegral.integral_of_le zero_le_one, integral_id]; norm_num

theorem int_min (r : ℝ) (hr : r ∈ Icc (0 : ℝ) 1) : ∫ s in Ioc (0 : ℝ) 1, min r s = r - r ^ 2 / 2 := by
  rw [← intervalIntegral.integral_of_le zero_le_one,
    ← intervalIntegral.integral_add_adjacent_intervals (b := r)
      (Continuous.intervalIntegrable (by fun_prop) _ _) (Continuous.intervalIntegrable (by fun_prop) _ _)]
  have e1 : ∫ s in (0 : ℝ)..r, min r s = ∫ s in (0 : ℝ)..r, s := by
    refine intervalIntegral.integral_congr fun s hs => ?_
    rw [uIcc_of_le hr.1] at hs
    exact min_eq_right hs.2
  have e2 : ∫ s in r..1, min r s = ∫ _ in r..1, r := by
    refine intervalIntegral.integral_congr fun s hs => ?_
    rw [uIcc_of_le hr.2] at hs
    exact min_eq_left hs.1
  rw [e1, e2, integral_id, intervalIntegral.integral_const, smul_eq_mul]
  ring

theorem int_int_min : ∫ r in Ioc (0 : ℝ) 1, ∫ s in Ioc (0 : ℝ) 1, min r s = 1 / 3 := by
  have : ∫ r in Ioc (0 : ℝ) 1, ∫ s in Ioc (0 : ℝ) 1, min r s = ∫ r in Ioc (0 : ℝ) 1, (r - r ^ 2 / 2) := by
    refine setIntegral_congr_fun measurableSet_Ioc fun r hr => int_min r ⟨hr.1.le, hr.2⟩
  rw [this, ← intervalIntegral.integral_of_le zero_le_one, intervalIntegral.integral_sub
    (Continuous.intervalIntegrable (by fun_prop) _ _) (Continuous.intervalIntegrable (by fun_prop) _ _),
    integral_id, intervalIntegral.integral_div, integral_pow]
  norm_num

/-- The covariance of `W_1` and `∫ W`, combined. -/
theorem cov_comb (h : BrownianMoments P W) (i j : Fin d) (a b : ℝ) :
    Integrable (fun ω => (a * W ω 1 i + b * ∫ r in Ioc (0 : ℝ) 1, W ω r i)
      * (a * W ω 1 j + b * ∫ r in Ioc (0 : ℝ) 1, W ω r j)) P ∧
    ∫ ω, (a * W ω 1 i + b * ∫ r in Ioc (0 : ℝ) 1, W ω r i) * (a * W ω 1 j + b * ∫ r in Ioc (0 : ℝ) 1, W ω r j) ∂P
      = if i = j then a ^ 2 + a * b + b ^ 2 / 3 else 0 := by
  have h11 := h.cov_integrals mem_one mem_one i j
  have h12 := h.cov_integrals mem_one mem_unit i j
  have h21 := h.cov_integrals mem_unit mem_one i j
  have h22 := h.cov_integrals mem_unit mem_unit i j
  simp only [integral_dirac] at h11 h12 h21
  rw [int_int_min] at h22
  have e12 : ∫ s in Ioc (0 : ℝ) 1, min 1 s = 1 / 2 := by
    rw [int_min 1 ⟨zero_le_one, le_rfl⟩]; norm_num
  have e21 : ∫ r in Ioc (0 : ℝ) 1, min r 1 = 1 / 2 := by
    simp only [min_comm _ (1 : ℝ)]
    exact e12
  rw [e12] at h12
  rw [e21] at h21
  have hI := (((h11.1.const_mul (a ^ 2)).add (h12.1.const_mul (a * b))).add (h21.1.const_mul (a * b))).add
    (h22.1.const_mul (b ^ 2))
  have hfun : (fun ω => (a * W ω 1 i + b * ∫ r in Ioc (0 : ℝ) 1, W ω r i)
      * (a * W ω 1 j + b * ∫ r in Ioc (0 : ℝ) 1, W ω r j))
      = fun ω => a ^ 2 * (W ω 1 i * W ω 1 j) + a * b * (W ω 1 i * ∫ r in Ioc (0 : ℝ) 1, W ω r j)
        + a * b * ((∫ r in Ioc (0 : ℝ) 1, W ω r i) * W ω 1 j)
        + b ^ 2 * ((∫ r in Ioc (0 : ℝ) 1, W ω r i) * ∫ r in Ioc (0 : ℝ) 1, W ω r j) := by
    funext ω; ring
  rw [hfun]
  refine ⟨hI, ?_⟩
  rw [integral_add, integral_add, integral_add, integral_const_mul, integral_const_mul, integral_const_mul,
    integral_const_mul, h11.2, h12.2, h21.2, h22.2]
  · split_ifs
    · rw [min_self]; ring
    · ring
  · exact h11.1.const_mul _
  · exact h12.1.const_mul _
  · exact (h11.1.const_mul _).add (h12.1.const_mul _)
  · exact h21.1.const_mul _
  · exact ((h11.1.const_mul _).add (h12.1.const_mul _)).add (h21.1.const_mul _)
  · exact h22.1.const_mul _

end BrownianMoments
end Verif
