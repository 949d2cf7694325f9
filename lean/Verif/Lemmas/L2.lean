import Verif.Spec.Ito
import Mathlib.MeasureTheory.Function.L2Space
import Mathlib.Probability.Independence.Integration

/-!
# Mean squares, and products with independent noise
-/

set_option linter.unusedSectionVars false

namespace Verif
open MeasureTheory ProbabilityTheory Filter Set Topology
open scoped InnerProductSpace ENNReal

variable {Ω : Type} {G mΩ : MeasurableSpace Ω} {P : Measure Ω} {E : Type} [NormedAddCommGroup E]

theorem rms_nonneg (X : Ω → E) : 0 ≤ rms P X := ENNReal.toReal_nonneg

theorem rms_neg (X : Ω → E) : rms P (fun ω => -X ω) = rms P X := by
  unfold rms; congr 1; exact eLpNorm_neg X 2 P

theorem rms_add_le {X Y : Ω → E} (hX : MemLp X 2 P) (hY : MemLp Y 2 P) :
    rms P (fun ω => X ω + Y ω) ≤ rms P X + rms P Y := by
  unfold rms
  rw [← ENNReal.toReal_add hX.2.ne hY.2.ne]
  exact ENNReal.toReal_mono (ENNReal.add_ne_top.2 ⟨hX.2.ne, hY.2.ne⟩) (eLpNorm_add_le hX.1 hY.1 one_le_two)

theorem rms_sub_le {X Y : Ω → E} (hX : MemLp X 2 P) (hY : MemLp Y 2 P) :
    rms P (fun ω => X ω - Y ω) ≤ rms P X + rms P Y := by
  have := rms_add_le hX hY.neg
  rw [show rms P (-Y) = rms P Y from rms_neg Y] at this
  simpa [sub_eq_add_neg] using this

theorem rms_mono {E' : Type} [NormedAddCommGroup E'] {X : Ω → E} {Y : Ω → E'} (hY : MemLp Y 2 P)
    (h : ∀ ω, ‖X ω‖ ≤ ‖Y ω‖) : rms P X ≤ rms P Y :=
  ENNReal.toReal_mono hY.2.ne (eLpNorm_mono h)

theorem rms_norm (X : Ω → E) : rms P (fun ω => ‖X ω‖) = rms P X := by
  unfold rms; rw [eLpNorm_norm]

theorem rms_sum_le {ι : Type} (s : Finset ι) (X : ι → Ω → E) (hX : ∀ i ∈ s, MemLp (X i) 2 P) :
    rms P (fun ω => ∑ i ∈ s, X i ω) ≤ ∑ i ∈ s, rms P (X i) := by
  classical
  induction s using Finset.induction_on with
  | empty => simp [rms]
  | insert i s hi ih =>
    simp only [Finset.sum_insert hi]
    refine (rms_add_le (hX i (by simp)) (memLp_finsetSum _ fun j hj => hX j (by simp [hj]))).trans ?_
    exact add_le_add_right (ih fun j hj => hX j (by simp [hj])) _

section
variable [NormedSpace ℝ E]

theorem rms_smul (c : ℝ) (X : Ω → E) : rms P (fun ω => c • X ω) = |c| * rms P X := by
  unfold rms
  have : eLpNorm (fun ω => c • X ω) 2 P = ‖c‖ₑ * eLpNorm X 2 P := eLpNorm_const_smul c X 2 P
  rw [this, ENNReal.toReal_mul]
  simp
end

theorem rms_const [IsProbabilityMeasure P] (c : E) : rms P (fun _ : Ω => c) = ‖c‖ := by
  unfold rms
  rw [eLpNorm_const _ two_ne_zero (IsProbabilityMeasure.ne_zero P)]
  simp

theorem rms_sq {X : Ω → E} (hX : MemLp X 2 P) : rms P X ^ 2 = ∫ ω, ‖X ω‖ ^ 2 ∂P := by
  unfold rms
  rw [hX.eLpNorm_eq_integral_rpow_norm two_ne_zero ENNReal.ofNat_ne_top]
  have h0 : 0 ≤ ∫ ω, ‖X ω‖ ^ 2 ∂P := integral_nonneg fun ω => by positivity
  have e : ∫ a, ‖X a‖ ^ (2 : ℝ≥0∞).toReal ∂P = ∫ ω, ‖X ω‖ ^ 2 ∂P := by simp
  rw [e, ENNReal.toReal_ofReal (Real.rpow_nonneg h0 _)]
  rw [← Real.rpow_natCast, ← Real.rpow_mul h0]
  norm_num

section
variable [InnerProductSpace ℝ E]

theorem integrable_inner {X Y : Ω → E} (hX : MemLp X 2 P) (hY : MemLp Y 2 P) :
    Integrable (fun ω => ⟪X ω, Y ω⟫_ℝ) P :=
  L2.integrable_inner (𝕜 := ℝ) (hX.toLp X) (hY.toLp Y) |>.congr (by
    filter_upwards [hX.coeFn_toLp, hY.coeFn_toLp] with ω h1 h2
    rw [h1, h2])

theorem rms_add_sq {X Y : Ω → E} (hX : MemLp X 2 P) (hY : MemLp Y 2 P) (h : ∫ ω, ⟪X ω, Y ω⟫_ℝ ∂P = 0) :
    rms P (fun ω => X ω + Y ω) ^ 2 = rms P X ^ 2 + rms P Y ^ 2 := by
  have hs : rms P (fun ω => X ω + Y ω) ^ 2 = ∫ ω, ‖X ω + Y ω‖ ^ 2 ∂P := rms_sq (hX.add hY)
  rw [hs, rms_sq hX, rms_sq hY]
  have i1 : Integrable (fun ω => ‖X ω‖ ^ 2) P := hX.integrable_norm_pow two_ne_zero
  have i2 : Integrable (fun ω => ‖Y ω‖ ^ 2) P := hY.integrable_norm_pow two_ne_zero
  have i3 := integrable_inner hX hY
  have e : ∀ ω, ‖X ω + Y ω‖ ^ 2 = ‖X ω‖ ^ 2 + ‖Y ω‖ ^ 2 + 2 * ⟪X ω, Y ω⟫_ℝ := fun ω => by
    rw [norm_add_sq_real]; ring
  simp only [e]
  have i12 : Integrable (fun ω => ‖X ω‖ ^ 2 + ‖Y ω‖ ^ 2) P := i1.add i2
  rw [integral_add i12 (i3.const_mul 2), integral_add i1 i2, integral_const_mul, h]
  ring

/-! ### Products of what is known at time `s` with noise that is independent of it -/

/-- `∑ κ_j ξ_j`. -/
def mulNoise {d : ℕ} (κ : Fin d → Ω → E) (ξ : Ω → Fin d → ℝ) (ω : Ω) : E := ∑ j, ξ ω j • κ j ω

/-- `ξ` is independent of `G`, with mean 0 and covariance `h` times the identity. -/
structure WhiteNoise (P : Measure Ω) (G : MeasurableSpace Ω) {d : ℕ} (ξ : Ω → Fin d → ℝ) (h : ℝ) : Prop where
  le : G ≤ mΩ
  measurable : Measurable[mΩ] ξ
  indep : Indep (MeasurableSpace.comap ξ inferInstance) G P
  memLp : ∀ j, MemLp (fun ω => ξ ω j) 2 P
  mean : ∀ j, ∫ ω, ξ ω j ∂P = 0
  cov : ∀ i j, ∫ ω, ξ ω i * ξ ω j ∂P = if i = j then h else 0

namespace WhiteNoise
variable [IsProbabilityMeasure P] {d : ℕ} {ξ : Ω → Fin d → ℝ} {h : ℝ}

theorem indepFun (hξ : WhiteNoise P G ξ h) (φ : (Fin d → ℝ) → ℝ) (hφ : Measurable φ) {Z : Ω → ℝ}
    (hZ : Measurable[G] Z) : IndepFun (fun ω => φ (ξ ω)) Z P := by
  rw [IndepFun_iff_Indep]
  refine indep_of_indep_of_le_left (indep_of_indep_of_le_right hξ.indep hZ.comap_le) ?_
  rw [show (fun ω => φ (ξ ω)) = φ ∘ ξ from rfl, ← MeasurableSpace.comap_comp]
  exact MeasurableSpace.comap_mono hφ.comap_le

/-- The mean of a product is the product of the means. -/
theorem mean_mul (hξ : WhiteNoise P G ξ h) (φ : (Fin d → ℝ) → ℝ) (hφ : Measurable φ) {Z : Ω → ℝ}
    (hZ : Measurable[G] Z) (iφ : Integrable (fun ω => φ (ξ ω)) P) (iZ : Integrable Z P) :
    Integrable (fun ω => φ (ξ ω) * Z ω) P ∧ ∫ ω, φ (ξ ω) * Z ω ∂P = (∫ ω, φ (ξ ω) ∂P) * ∫ ω, Z ω ∂P := by
  have hi := hξ.indepFun φ hφ hZ
  exact ⟨hi.integrable_mul iφ iZ, hi.integral_fun_mul_eq_mul_integral iφ.1 iZ.1⟩

variable {κ : Fin d → Ω → E}

theorem memLp_smul (hξ : WhiteNoise P G ξ h) {Z : Ω → E} (hZ : StronglyMeasurable[G] Z) (hZ2 : MemLp Z 2 P)
    (j : Fin d) : MemLp (fun ω => ξ ω j • Z ω) 2 P := by
  have hm : AEStronglyMeasurable (fun ω => ξ ω j • Z ω) P :=
    ((measurable_pi_apply j).comp hξ.measurable).aestronglyMeasurable.smul hZ2.1
  rw [memLp_two_iff_integrable_sq_norm hm]
  have := (hξ.mean_mul (fun x => x j ^ 2) ((measurable_pi_apply j).pow_const 2)
    (Z := fun ω => ‖Z ω‖ ^ 2) (hZ.norm.measurable.pow_const 2) (by
      have := (hξ.memLp j).integrable_sq
      exact this) (hZ2.integrable_norm_pow two_ne_zero)).1
  refine this.congr (ae_of_all _ fun ω => ?_)
  simp only [norm_smul, mul_pow, Real.norm_eq_abs, sq_abs]

theorem memLp_mulNoise (hξ : WhiteNoise P G ξ h) (hκ : ∀ j, StronglyMeasurable[G] (κ j))
    (hκ2 : ∀ j, MemLp (κ j) 2 P) : MemLp (mulNoise κ ξ) 2 P :=
  memLp_finsetSum _ fun j _ => hξ.memLp_smul (hκ j) (hκ2 j) j

/-- What is known at time `s` is orthogonal to it. -/
theorem orthogonal (hξ : WhiteNoise P G ξ h) (hκ : ∀ j, StronglyMeasurable[G] (κ j)) (hκ2 : ∀ j, MemLp (κ j) 2 P)
    {Z : Ω → E} (hZ : StronglyMeasurable[G] Z) (hZ2 : MemLp Z 2 P) : ∫ ω, ⟪Z ω, mulNoise κ ξ ω⟫_ℝ ∂P = 0 := by
  simp only [mulNoise, inner_sum, inner_smul_right]
  have hj : ∀ j, Integrable (fun ω => ξ ω j * ⟪Z ω, κ j ω⟫_ℝ) P ∧ ∫ ω, ξ ω j * ⟪Z ω, κ j ω⟫_ℝ ∂P = 0 := by
    intro j
    obtain ⟨h1, h2⟩ := hξ.mean_mul (fun x => x j) (measurable_pi_apply j) (Z := fun ω => ⟪Z ω, κ j ω⟫_ℝ)
      (hZ.inner (hκ j)).measurable ((hξ.memLp j).integrable one_le_two) (integrable_inner hZ2 (hκ2 j))
    exact ⟨h1, by rw [h2, hξ.mean j, zero_mul]⟩
  rw [integral_finsetSum _ fun j _ => (hj j).1]
  exact Finset.sum_eq_zero fun j _ => (hj j).2

/-- Itô's isometry, for one increment. -/
theorem isometry (hξ : WhiteNoise P G ξ h) (hκ : ∀ j, StronglyMeasurable[G] (κ j)) (hκ2 : ∀ j, MemLp (κ j) 2 P) :
    rms P (mulNoise κ ξ) ^ 2 = h * ∑ j, rms P (κ j) ^ 2 := by
  rw [rms_sq (hξ.memLp_mulNoise hκ hκ2)]
  have e : ∀ ω, ‖mulNoise κ ξ ω‖ ^ 2 = ∑ i, ∑ j, ξ ω i * ξ ω j * ⟪κ i ω, κ j ω⟫_ℝ := by
    intro ω
    rw [← real_inner_self_eq_norm_sq]
    unfold mulNoise
    rw [sum_inner]
    refine Finset.sum_congr rfl fun i _ => ?_
    rw [inner_sum]
    refine Finset.sum_congr rfl fun j _ => ?_
    rw [real_inner_smul_left, real_inner_smul_right]
    ring
  simp only [e]
  have hij : ∀ i j, Integrable (fun ω => ξ ω i * ξ ω j * ⟪κ i ω, κ j ω⟫_ℝ) P ∧
      ∫ ω, ξ ω i * ξ ω j * ⟪κ i ω, κ j ω⟫_ℝ ∂P = if i = j then h * rms P (κ i) ^ 2 else 0 := by
    intro i j
    obtain ⟨h1, h2⟩ := hξ.mean_mul (fun x => x i * x j) ((measurable_pi_apply i).mul (measurable_pi_apply j))
      (Z := fun ω => ⟪κ i ω, κ j ω⟫_ℝ)
      ((hκ i).inner (hκ j)).measurable ((hξ.memLp i).integrable_mul (hξ.memLp j)) (integrable_inner (hκ2 i) (hκ2 j))
    refine ⟨h1, ?_⟩
    rw [h2, hξ.cov i j]
    split
    · rename_i hh
      subst hh
      rw [rms_sq (hκ2 i)]
      simp only [real_inner_self_eq_norm_sq]
    · rw [zero_mul]
  rw [integral_finsetSum _ fun i _ => integrable_finsetSum _ fun j _ => (hij i j).1, Finset.mul_sum]
  refine Finset.sum_congr rfl fun i _ => ?_
  rw [integral_finsetSum _ fun j _ => (hij i j).1]
  simp only [(hij i _).2, Finset.sum_ite_eq, Finset.mem_univ, if_true]

end WhiteNoise
end
end Verif
