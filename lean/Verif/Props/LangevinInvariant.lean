import Verif.Model.Terms
import Verif.Spec.Invariant
import Mathlib.Analysis.Calculus.LineDeriv.IntegrationByParts
import Mathlib.Analysis.SpecialFunctions.ExpDeriv
import Mathlib.Analysis.SpecialFunctions.Sqrt
import Mathlib.MeasureTheory.Measure.Haar.OfBasis
import Mathlib.MeasureTheory.Constructions.Pi
import Mathlib.MeasureTheory.Measure.Lebesgue.EqHaar
import Mathlib.MeasureTheory.Function.LocallyIntegrable

/-!
# The Langevin terms sample from the Gibbs distribution
-/

set_option linter.unusedSectionVars false

namespace Verif
open MeasureTheory Finset

section
variable {E : Type} [NormedAddCommGroup E] [NormedSpace ℝ E] [MeasurableSpace E] [BorelSpace E] [FiniteDimensional ℝ E]
  (μ : Measure E) [μ.IsAddHaarMeasure]

/-- Integration by parts against a test function. -/
theorem ibp (a a' φ : E → ℝ) (e : E) (ha : Continuous a) (ha' : Continuous a')
    (hd : ∀ y, HasLineDerivAt ℝ a (a' y) y e) (hφ : ContDiff ℝ 1 φ) (hs : HasCompactSupport φ) :
    ∫ y, a y * fderiv ℝ φ y e ∂μ = -∫ y, a' y * φ y ∂μ := by
  have hφ' : Continuous fun y => fderiv ℝ φ y e := (hφ.continuous_fderiv (by norm_num)).clm_apply continuous_const
  have hs' : HasCompactSupport fun y => fderiv ℝ φ y e := hs.fderiv_apply (𝕜 := ℝ) e
  exact integral_bilinear_hasLineDerivAt_right_eq_neg_left_of_integrable (B := ContinuousLinearMap.mul ℝ ℝ)
    ((ha'.mul hφ.continuous).integrable_of_hasCompactSupport hs.mul_left)
    ((ha.mul hφ').integrable_of_hasCompactSupport hs'.mul_left)
    ((ha.mul hφ.continuous).integrable_of_hasCompactSupport hs.mul_left)
    (fun y _ => hd y) (fun y _ => (hφ.differentiable (by norm_num) y).hasFDerivAt.hasLineDerivAt e)

end

section
variable {I : Type} [Fintype I] [DecidableEq I]

/-- The Gibbs density `exp(-f(x) - ∑ vᵢ²/(2 uᵢ))` (not normalised). -/
noncomputable def gibbs (f : (I → ℝ) → ℝ) (u : I → ℝ) (y : (I → ℝ) × (I → ℝ)) : ℝ :=
  Real.exp (-f y.1 - ∑ i, y.2 i ^ 2 / (2 * u i))

variable (f : (I → ℝ) → ℝ) (g : (I → ℝ) → I → ℝ) (u : I → ℝ)

theorem gibbs_cont (hf : Continuous f) : Continuous (gibbs f u) := by
  unfold gibbs
  fun_prop

theorem gibbs_deriv_v (hu : ∀ i, 0 < u i) (i : I) (y : (I → ℝ) × (I → ℝ)) :
    HasLineDerivAt ℝ (gibbs f u) (-(y.2 i / u i) * gibbs f u y) y (0, Pi.single i 1) := by
  have h1 : ∀ j, HasDerivAt (fun s : ℝ => (y.2 j + s * (Pi.single i 1 : I → ℝ) j) ^ 2 / (2 * u j))
      (2 * y.2 j * (Pi.single i 1 : I → ℝ) j / (2 * u j)) 0 := by
    intro j
    have h2 : HasDerivAt (fun s : ℝ => y.2 j + s * (Pi.single i 1 : I → ℝ) j) ((Pi.single i 1 : I → ℝ) j) 0 := by
      simpa using ((hasDerivAt_id (0 : ℝ)).mul_const ((Pi.single i 1 : I → ℝ) j)).const_add (y.2 j)
    have h3 := (h2.fun_pow 2).div_const (2 * u j)
    simpa using h3
  have h4 := (HasDerivAt.fun_sum fun j (_ : j ∈ univ) => h1 j).const_sub (-f y.1)
  have e : ∑ j, 2 * y.2 j * (Pi.single i 1 : I → ℝ) j / (2 * u j) = y.2 i / u i := by
    rw [sum_eq_single i]
    · have := (hu i).ne'
      simp; field_simp
    · intro j _ hj; simp [Pi.single_eq_of_ne hj]
    · intro h; exact absurd (mem_univ i) h
  rw [e] at h4
  have h5 := h4.exp
  unfold HasLineDerivAt
  have e2 : (fun t : ℝ => gibbs f u (y + t • (0, Pi.single i 1)))
      = fun s => Real.exp (-f y.1 - ∑ j, (y.2 j + s * (Pi.single i 1 : I → ℝ) j) ^ 2 / (2 * u j)) := by
    funext t; simp [gibbs]
  rw [e2]
  refine h5.congr_deriv ?_
  simp [gibbs]
  ring

theorem gibbs_deriv_x (hg : IsGradient f g) (i : I) (y : (I → ℝ) × (I → ℝ)) :
    HasLineDerivAt ℝ (gibbs f u) (-(g y.1 i) * gibbs f u y) y (Pi.single i 1, 0) := by
  obtain ⟨D, hD, hD'⟩ := hg y.1
  have h1 : HasDerivAt (fun s : ℝ => f (y.1 + s • Pi.single i 1)) (g y.1 i) 0 := by
    have := hD.hasLineDerivAt (Pi.single i 1)
    rw [hD', sum_eq_single i] at this
    · simpa [HasLineDerivAt] using this
    · intro j _ hj; simp [Pi.single_eq_of_ne hj]
    · intro h; exact absurd (mem_univ i) h
  have h2 := (h1.neg.sub_const (∑ i, y.2 i ^ 2 / (2 * u i))).exp
  unfold HasLineDerivAt
  have e2 : (fun t : ℝ => gibbs f u (y + t • (Pi.single i 1, 0)))
      = fun s => Real.exp (-f (y.1 + s • Pi.single i 1) - ∑ j, y.2 j ^ 2 / (2 * u j)) := by
    funext t; simp [gibbs]
  rw [e2]
  refine h2.congr_deriv ?_
  simp [gibbs]
  ring

theorem pair_eq_sum (y : (I → ℝ) × (I → ℝ)) :
    y = ∑ i, (y.1 i • ((Pi.single i 1, 0) : (I → ℝ) × (I → ℝ)) + y.2 i • (0, Pi.single i 1)) := by
  apply Prod.ext
  · rw [Prod.fst_sum]
    funext j
    simp [Finset.sum_apply, Pi.single_apply]
  · rw [Prod.snd_sum]
    funext j
    simp [Finset.sum_apply, Pi.single_apply]

/-- **C94.** The diffusion described by `UnderdampedLangevinDriftTerm(gamma, u, grad_f)` and
`UnderdampedLangevinDiffusionTerm(gamma, u, bm)` has the invariant density `exp(-f(x) - ∑ vᵢ²/(2uᵢ))`. -/
theorem C94_gibbs {T : Type} (gamma : I → ℝ) (hgamma : ∀ i, 0 ≤ gamma i) (hu : ∀ i, 0 < u i) (hg : IsGradient f g)
    (hgc : Continuous g) (path : T → T → I → ℝ) (t : ℝ) (t' : T) :
    InvariantDensity
      (fun y => (AnyTerm.langevinDrift gamma u g).term.vfProd t y ((AnyTerm.langevinDrift gamma u g).term.contr t (t + 1)))
      (fun j y => (AnyTerm.langevinDiffusion Real.sqrt gamma u path).term.vfProd t' y (Pi.single j (1 : ℝ) : I → ℝ))
      (gibbs f u) := by
  intro φ hφ hs
  have hf : Continuous f := continuous_iff_continuousAt.2 fun x => by
    obtain ⟨D, hD, -⟩ := hg x; exact hD.continuousAt
  have hρ := gibbs_cont f u hf
  let X : I → (I → ℝ) × (I → ℝ) := fun i => (Pi.single i 1, 0)
  let V : I → (I → ℝ) × (I → ℝ) := fun i => (0, Pi.single i 1)
  have hφ1 : ContDiff ℝ 1 φ := hφ.of_le (by norm_num)
  have hdφ : ∀ e, ContDiff ℝ 1 fun y => fderiv ℝ φ y e := fun e =>
    (hφ.fderiv_right (m := 1) (by norm_num)).clm_apply contDiff_const
  have hsd : ∀ e, HasCompactSupport fun y => fderiv ℝ φ y e := fun e => hs.fderiv_apply (𝕜 := ℝ) e
  have hgi : ∀ i, Continuous fun y : (I → ℝ) × (I → ℝ) => g y.1 i := fun i =>
    (continuous_apply i).comp (hgc.comp continuous_fst)
  have hvi : ∀ i, Continuous fun y : (I → ℝ) × (I → ℝ) => y.2 i := fun i => (continuous_apply i).comp continuous_snd
  have : (volume : Measure ((I → ℝ) × (I → ℝ))).IsAddHaarMeasure :=
    Measure.prod.instIsAddHaarMeasure (volume : Measure (I → ℝ)) (volume : Measure (I → ℝ))
  -- the three integrations by parts
  have h1 : ∀ i, ∫ y, (y.2 i * gibbs f u y) * fderiv ℝ φ y (X i) = ∫ y, (y.2 i * g y.1 i * gibbs f u y) * φ y := by
    intro i
    rw [ibp volume (fun y => y.2 i * gibbs f u y) (fun y => -(y.2 i * g y.1 i * gibbs f u y)) φ (X i)
      ((hvi i).mul hρ) (((hvi i).mul (hgi i)).mul hρ).neg ?_ hφ1 hs, ← integral_neg]
    · simp
    · intro y
      have := (gibbs_deriv_x f g u hg i y).const_mul (y.2 i)
      have h := this.congr_deriv (show _ = -(y.2 i * g y.1 i * gibbs f u y) by ring)
      refine HasDerivAt.congr_of_eventuallyEq h (Filter.Eventually.of_forall fun s => ?_)
      simp [X]
  have h2 : ∀ i, ∫ y, (u i * g y.1 i * gibbs f u y) * fderiv ℝ φ y (V i)
      = ∫ y, (y.2 i * g y.1 i * gibbs f u y) * φ y := by
    intro i
    rw [ibp volume (fun y => u i * g y.1 i * gibbs f u y) (fun y => -(y.2 i * g y.1 i * gibbs f u y)) φ (V i)
      ((continuous_const.mul (hgi i)).mul hρ) (((hvi i).mul (hgi i)).mul hρ).neg ?_ hφ1 hs, ← integral_neg]
    · simp
    · intro y
      have := (gibbs_deriv_v f u hu i y).const_mul (u i * g y.1 i)
      have h := this.congr_deriv (show _ = -(y.2 i * g y.1 i * gibbs f u y) by have := (hu i).ne'; field_simp)
      refine HasDerivAt.congr_of_eventuallyEq h (Filter.Eventually.of_forall fun s => ?_)
      simp [V]
  have h3 : ∀ i, ∫ y, (gamma i * u i * gibbs f u y) * fderiv ℝ (fun z => fderiv ℝ φ z (V i)) y (V i)
      = ∫ y, (gamma i * y.2 i * gibbs f u y) * fderiv ℝ φ y (V i) := by
    intro i
    rw [ibp volume (fun y => gamma i * u i * gibbs f u y) (fun y => -(gamma i * y.2 i * gibbs f u y))
      (fun z => fderiv ℝ φ z (V i)) (V i)
      (continuous_const.mul hρ) ((continuous_const.mul (hvi i)).mul hρ).neg ?_ (hdφ _) (hsd _), ← integral_neg]
    · simp
    · intro y
      have := (gibbs_deriv_v f u hu i y).const_mul (gamma i * u i)
      have h := this.congr_deriv (show _ = -(gamma i * y.2 i * gibbs f u y) by have := (hu i).ne'; field_simp)
      refine HasDerivAt.congr_of_eventuallyEq h (Filter.Eventually.of_forall fun s => ?_)
      simp [V]
  -- the integrand
  have hdrift : ∀ y : (I → ℝ) × (I → ℝ), (AnyTerm.langevinDrift gamma u g).term.vfProd t y
      ((AnyTerm.langevinDrift gamma u g).term.contr t (t + 1))
      = (y.2, fun i => -gamma i * y.2 i - u i * g y.1 i) := by
    intro y
    have e : (AnyTerm.langevinDrift gamma u g).term.contr t (t + 1) = (1 : ℝ) := add_sub_cancel_left t 1
    rw [e]
    show ((fun i => 1 * y.2 i, fun i => 1 * (-gamma i * y.2 i - u i * g y.1 i)) : (I → ℝ) × (I → ℝ)) = _
    simp
  have hdiff : ∀ j (y : (I → ℝ) × (I → ℝ)), (AnyTerm.langevinDiffusion Real.sqrt gamma u path).term.vfProd t' y
      (Pi.single j (1 : ℝ) : I → ℝ) = Real.sqrt (2 * gamma j * u j) • V j := by
    intro j y
    show ((fun _ => 0, fun i => Real.sqrt (2 * gamma i * u i) * (Pi.single j (1 : ℝ) : I → ℝ) i) : (I → ℝ) × (I → ℝ)) = _
    refine Prod.ext ?_ ?_
    · funext i; simp [V]
    · funext i
      by_cases h : i = j
      · subst h; simp [V]
      · simp [V, Pi.single_eq_of_ne h]
  have hint : ∀ y : (I → ℝ) × (I → ℝ), (fderiv ℝ φ y ((AnyTerm.langevinDrift gamma u g).term.vfProd t y
        ((AnyTerm.langevinDrift gamma u g).term.contr t (t + 1)))
      + 1 / 2 * ∑ j, fderiv ℝ (fun z => fderiv ℝ φ z ((AnyTerm.langevinDiffusion Real.sqrt gamma u path).term.vfProd t' y
          (Pi.single j (1 : ℝ) : I → ℝ))) y ((AnyTerm.langevinDiffusion Real.sqrt gamma u path).term.vfProd t' y
          (Pi.single j (1 : ℝ) : I → ℝ))) * gibbs f u y
      = ∑ i, ((y.2 i * gibbs f u y) * fderiv ℝ φ y (X i) - (u i * g y.1 i * gibbs f u y) * fderiv ℝ φ y (V i)
        + ((gamma i * u i * gibbs f u y) * fderiv ℝ (fun z => fderiv ℝ φ z (V i)) y (V i)
        - (gamma i * y.2 i * gibbs f u y) * fderiv ℝ φ y (V i))) := by
    intro y
    have e1 : fderiv ℝ φ y (y.2, fun i => -gamma i * y.2 i - u i * g y.1 i)
        = ∑ i, (y.2 i * fderiv ℝ φ y (X i) + (-gamma i * y.2 i - u i * g y.1 i) * fderiv ℝ φ y (V i)) := by
      rw [pair_eq_sum (y.2, fun i => -gamma i * y.2 i - u i * g y.1 i), map_sum]
      refine sum_congr rfl fun i _ => ?_
      rw [map_add, map_smul, map_smul]; rfl
    have e2 : ∀ j, fderiv ℝ (fun z => fderiv ℝ φ z (Real.sqrt (2 * gamma j * u j) • V j)) y
        (Real.sqrt (2 * gamma j * u j) • V j) = 2 * gamma j * u j * fderiv ℝ (fun z => fderiv ℝ φ z (V j)) y (V j) := by
      intro j
      have e3 : (fun z => fderiv ℝ φ z (Real.sqrt (2 * gamma j * u j) • V j))
          = fun z => Real.sqrt (2 * gamma j * u j) * fderiv ℝ φ z (V j) := by
        funext z; rw [map_smul]; rfl
      rw [e3, map_smul, fderiv_const_mul ((hdφ _).differentiable (by norm_num) y)]
      show Real.sqrt (2 * gamma j * u j) * (Real.sqrt (2 * gamma j * u j) * _) = _
      rw [← mul_assoc, Real.mul_self_sqrt (mul_nonneg (mul_nonneg zero_le_two (hgamma j)) (hu j).le)]
      rfl
    rw [hdrift, e1]
    simp only [hdiff, e2]
    rw [mul_sum, ← sum_add_distrib, sum_mul]
    refine sum_congr rfl fun i _ => ?_
    ring
  simp only [hint]
  have hc : ∀ (a ψ : (I → ℝ) × (I → ℝ) → ℝ), Continuous a → Continuous ψ → HasCompactSupport ψ →
      Integrable fun y => a y * ψ y := fun a ψ ha hψ hs =>
    (ha.mul hψ).integrable_of_hasCompactSupport hs.mul_left
  have i1 := fun i => hc (fun y => y.2 i * gibbs f u y) _ ((hvi i).mul hρ) (hdφ (X i)).continuous (hsd _)
  have i2 := fun i => hc (fun y => u i * g y.1 i * gibbs f u y) _ ((continuous_const.mul (hgi i)).mul hρ)
    (hdφ (V i)).continuous (hsd _)
  have i3 := fun i => hc (fun y => gamma i * u i * gibbs f u y) (fun y => fderiv ℝ (fun z => fderiv ℝ φ z (V i)) y (V i))
    (continuous_const.mul hρ) (((hdφ (V i)).continuous_fderiv (by norm_num)).clm_apply continuous_const)
    ((hsd (V i)).fderiv_apply (𝕜 := ℝ) _)
  have i4 := fun i => hc (fun y => gamma i * y.2 i * gibbs f u y) _ ((continuous_const.mul (hvi i)).mul hρ)
    (hdφ (V i)).continuous (hsd _)
  rw [integral_finsetSum]
  · refine sum_eq_zero fun i _ => ?_
    rw [integral_add, integral_sub (i1 i) (i2 i), integral_sub (i3 i) (i4 i), h1, h2, h3]
    · ring
    · exact (i1 i).sub (i2 i)
    · exact (i3 i).sub (i4 i)
  · intro i _
    exact ((i1 i).sub (i2 i)).add ((i3 i).sub (i4 i))

/-- A harmonic potential in one dimension. -/
example (path : ℝ → ℝ → Fin 1 → ℝ) : InvariantDensity
    (fun y => (AnyTerm.langevinDrift (fun _ => 2) (fun _ => 3) fun x : Fin 1 → ℝ => x).term.vfProd 0 y
      ((AnyTerm.langevinDrift (fun _ => 2) (fun _ => 3) fun x : Fin 1 → ℝ => x).term.contr 0 (0 + 1)))
    (fun j y => (AnyTerm.langevinDiffusion Real.sqrt (fun _ => 2) (fun _ => 3) path).term.vfProd 0 y
      (Pi.single j (1 : ℝ) : Fin 1 → ℝ))
    (gibbs (fun x => x 0 ^ 2 / 2) fun _ => 3) :=
  C94_gibbs (fun x : Fin 1 → ℝ => x 0 ^ 2 / 2) (fun x => x) (fun _ => 3) (fun _ => 2) (fun _ => by norm_num)
    (fun _ => by norm_num) (fun x => by
      have h1 : HasFDerivAt (fun x : Fin 1 → ℝ => x 0) (ContinuousLinearMap.proj (R := ℝ) (φ := fun _ => ℝ) 0) x :=
        (ContinuousLinearMap.proj (R := ℝ) (φ := fun _ : Fin 1 => ℝ) 0).hasFDerivAt
      have h2 : HasFDerivAt (fun x : Fin 1 → ℝ => x 0 ^ 2 / 2) _ x :=
        ((h1.mul h1).const_mul (1 / 2 : ℝ)).congr_of_eventuallyEq
          (Filter.Eventually.of_forall fun x => by simp; ring)
      refine ⟨_, h2, fun h => ?_⟩
      simp
      ring) continuous_id path 0 0

end

end Verif
