import Verif.Lemmas.Ito
import Mathlib.Algebra.Order.Chebyshev

/-!
# Functions of the increments of the noise
-/

set_option linter.unusedSectionVars false

namespace Verif
open MeasureTheory ProbabilityTheory Filter Set Topology
open scoped InnerProductSpace ENNReal

section
variable {Ω : Type} {G mΩ : MeasurableSpace Ω} {P : Measure Ω} [IsProbabilityMeasure P]
  {E : Type} [NormedAddCommGroup E] [InnerProductSpace ℝ E] {d : ℕ} {ξ : Ω → Fin d → ℝ} {h : ℝ}

/-- The product of a function of the noise and something known before. -/
theorem WhiteNoise.memLp_fun (hξ : WhiteNoise P G ξ h) (ψ : (Fin d → ℝ) → ℝ) (hψ : Measurable ψ)
    (hψ2 : MemLp (fun ω => ψ (ξ ω)) 2 P) {Z : Ω → E} (hZ : StronglyMeasurable[G] Z) (hZ2 : MemLp Z 2 P) :
    MemLp (fun ω => ψ (ξ ω) • Z ω) 2 P ∧
    rms P (fun ω => ψ (ξ ω) • Z ω) = rms P (fun ω => ψ (ξ ω)) * rms P Z := by
  have hm : AEStronglyMeasurable (fun ω => ψ (ξ ω) • Z ω) P := hψ2.1.smul hZ2.1
  obtain ⟨h1, h2⟩ := hξ.mean_mul (fun x => ψ x ^ 2) (hψ.pow_const 2)
    (Z := fun ω => ‖Z ω‖ ^ 2) (hZ.norm.measurable.pow_const 2) hψ2.integrable_sq
    (hZ2.integrable_norm_pow two_ne_zero)
  have hmem : MemLp (fun ω => ψ (ξ ω) • Z ω) 2 P := by
    rw [memLp_two_iff_integrable_sq_norm hm]
    refine h1.congr (ae_of_all _ fun ω => ?_)
    simp only [norm_smul, mul_pow, Real.norm_eq_abs, sq_abs]
  refine ⟨hmem, ?_⟩
  have e : rms P (fun ω => ψ (ξ ω) • Z ω) ^ 2 = (rms P (fun ω => ψ (ξ ω)) * rms P Z) ^ 2 := by
    rw [rms_sq hmem, mul_pow, rms_sq hψ2, rms_sq hZ2]
    simp only [norm_smul, mul_pow, Real.norm_eq_abs, sq_abs]
    exact h2
  exact (pow_left_inj₀ (rms_nonneg _) (mul_nonneg (rms_nonneg _) (rms_nonneg _)) two_ne_zero).1 e

/-- If the function has mean 0, the product is orthogonal to what is known before. -/
theorem WhiteNoise.orthogonal_fun (hξ : WhiteNoise P G ξ h) (ψ : (Fin d → ℝ) → ℝ) (hψ : Measurable ψ)
    (hψ2 : MemLp (fun ω => ψ (ξ ω)) 2 P) (hψ0 : ∫ ω, ψ (ξ ω) ∂P = 0) {Z Z' : Ω → E}
    (hZ : StronglyMeasurable[G] Z) (hZ2 : MemLp Z 2 P) (hZ' : StronglyMeasurable[G] Z') (hZ'2 : MemLp Z' 2 P) :
    ∫ ω, ⟪Z' ω, ψ (ξ ω) • Z ω⟫_ℝ ∂P = 0 := by
  simp only [inner_smul_right]
  rw [(hξ.mean_mul ψ hψ (Z := fun ω => ⟪Z' ω, Z ω⟫_ℝ) (hZ'.inner hZ).measurable (hψ2.integrable one_le_two)
    (integrable_inner hZ'2 hZ2)).2, hψ0, zero_mul]

end

variable {Ω : Type} {F : ℝ → MeasurableSpace Ω} {mΩ : MeasurableSpace Ω} {P : Measure Ω} [IsProbabilityMeasure P]
  {d : ℕ} {W : ℝ → Ω → Fin d → ℝ} {a : ℝ}

/-- The moments of the increments. -/
theorem BrownianNoise.moments (hW : BrownianNoise P F a W) : ∃ c, 0 ≤ c ∧ ∀ s t, a ≤ s → s ≤ t → ∀ j,
    MemLp (fun ω => incr W s t ω j) 6 P ∧ ∫ ω, incr W s t ω j ^ 6 ∂P ≤ c * (t - s) ^ 3 ∧
    ∫ ω, incr W s t ω j ^ 4 ∂P ≤ c * (t - s) ^ 2 := by
  obtain ⟨c, hc⟩ := hW.even 3
  refine ⟨1 + |c|, by positivity, fun s t hs hst j => ?_⟩
  obtain ⟨h1, h2⟩ := hc s t j hs hst
  have hts : 0 ≤ t - s := by linarith
  have hm : MemLp (fun ω => incr W s t ω j) 6 P := h1
  have h2' : ∫ ω, incr W s t ω j ^ 6 ∂P ≤ c * (t - s) ^ 3 := h2
  have hcc : c ≤ 1 + |c| := by linarith [le_abs_self c]
  refine ⟨hm, h2'.trans (mul_le_mul_of_nonneg_right hcc (by positivity)), ?_⟩
  have i6 : Integrable (fun ω => incr W s t ω j ^ 6) P := by
    have := hm.integrable_norm_pow (p := 6) (by norm_num)
    refine this.congr (ae_of_all _ fun ω => ?_)
    simp only [Real.norm_eq_abs]
    exact (by decide : Even 6).pow_abs _
  have m2 : MemLp (fun ω => incr W s t ω j) 2 P := hm.mono_exponent (by norm_num)
  have i2 : Integrable (fun ω => incr W s t ω j ^ 2) P := m2.integrable_sq
  have v2 : ∫ ω, incr W s t ω j ^ 2 ∂P = t - s := by
    have := hW.cov s t j j hs hst
    rw [if_pos rfl] at this
    rw [← this]
    refine integral_congr_ae (ae_of_all _ fun ω => ?_)
    simp only [incr, Pi.sub_apply]; ring
  rcases hts.eq_or_lt with h0 | h0
  · -- an increment over no time
    have hz : t = s := by linarith
    subst hz
    simp [incr]
  · have hp : ∀ x : ℝ, x ^ 4 ≤ 1 / 2 * (t - s) * x ^ 2 + 1 / 2 * (t - s)⁻¹ * x ^ 6 := by
      intro x
      have h3 : 0 ≤ 1 / 2 * (t - s)⁻¹ * x ^ 2 * ((t - s) - x ^ 2) ^ 2 := by positivity
      have h4 : 1 / 2 * (t - s)⁻¹ * x ^ 2 * ((t - s) - x ^ 2) ^ 2
          = 1 / 2 * (t - s) * x ^ 2 + 1 / 2 * (t - s)⁻¹ * x ^ 6 - x ^ 4 := by
        field_simp; ring
      linarith
    have i4 : Integrable (fun ω => incr W s t ω j ^ 4) P := by
      have := (hm.mono_exponent (p := 4) (by norm_num)).integrable_norm_pow (p := 4) (by norm_num)
      refine this.congr (ae_of_all _ fun ω => ?_)
      simp only [Real.norm_eq_abs]
      exact (by decide : Even 4).pow_abs _
    calc ∫ ω, incr W s t ω j ^ 4 ∂P
        ≤ ∫ ω, (1 / 2 * (t - s) * incr W s t ω j ^ 2 + 1 / 2 * (t - s)⁻¹ * incr W s t ω j ^ 6) ∂P :=
          integral_mono i4 ((i2.const_mul _).add (i6.const_mul _)) fun ω => hp _
      _ = 1 / 2 * (t - s) * (t - s) + 1 / 2 * (t - s)⁻¹ * ∫ ω, incr W s t ω j ^ 6 ∂P := by
          rw [integral_add (i2.const_mul _) (i6.const_mul _), integral_const_mul, integral_const_mul, v2]
      _ ≤ 1 / 2 * (t - s) * (t - s) + 1 / 2 * (t - s)⁻¹ * (c * (t - s) ^ 3) := by gcongr
      _ = (1 / 2 + 1 / 2 * c) * (t - s) ^ 2 := by field_simp
      _ ≤ (1 + |c|) * (t - s) ^ 2 := by
          refine mul_le_mul_of_nonneg_right ?_ (by positivity)
          linarith [le_abs_self c, abs_nonneg c]

/-- The products of two increments, centred. -/
noncomputable def centred (h : ℝ) (i j : Fin d) (x : Fin d → ℝ) : ℝ := x i * x j - if i = j then h else 0

theorem measurable_centred (h : ℝ) (i j : Fin d) : Measurable (centred h i j) :=
  ((measurable_pi_apply i).mul (measurable_pi_apply j)).sub measurable_const

theorem memLp_two_of_four {X : Ω → ℝ} (h : MemLp X 4 P) : MemLp (fun ω => X ω ^ 2) 2 P := by
  have hm : AEStronglyMeasurable (fun ω => X ω ^ 2) P := h.1.pow 2
  rw [memLp_two_iff_integrable_sq hm]
  have := h.integrable_norm_pow (p := 4) (by norm_num)
  refine this.congr (ae_of_all _ fun ω => ?_)
  simp only [Real.norm_eq_abs]
  rw [(by decide : Even 4).pow_abs]; ring

/-- They have mean 0, and are of the size of the length of the interval. -/
theorem BrownianNoise.centred (hW : BrownianNoise P F a W) : ∃ c, 0 ≤ c ∧ ∀ s t, a ≤ s → s ≤ t → ∀ i j,
    MemLp (fun ω => centred (t - s) i j (incr W s t ω)) 2 P ∧
    ∫ ω, centred (t - s) i j (incr W s t ω) ∂P = 0 ∧
    rms P (fun ω => centred (t - s) i j (incr W s t ω)) ≤ c * (t - s) := by
  obtain ⟨c, hc0, hc⟩ := hW.moments
  refine ⟨√(2 * c + 2), by positivity, fun s t hs hst i j => ?_⟩
  have hts : 0 ≤ t - s := by linarith
  obtain ⟨mi, -, hi⟩ := hc s t hs hst i
  obtain ⟨mj, -, hj⟩ := hc s t hs hst j
  have qi : MemLp (fun ω => incr W s t ω i ^ 2) 2 P := memLp_two_of_four (mi.mono_exponent (by norm_num))
  have qj : MemLp (fun ω => incr W s t ω j ^ 2) 2 P := memLp_two_of_four (mj.mono_exponent (by norm_num))
  have mij : MemLp (fun ω => incr W s t ω i * incr W s t ω j) 2 P := by
    have hb : MemLp (fun ω => incr W s t ω i ^ 2 + incr W s t ω j ^ 2) 2 P := qi.add qj
    refine hb.mono (mi.1.mul mj.1) (ae_of_all _ fun ω => ?_)
    rw [Real.norm_eq_abs, Real.norm_eq_abs, abs_of_nonneg (by positivity : 0 ≤ incr W s t ω i ^ 2 + incr W s t ω j ^ 2),
      abs_le]
    constructor <;> nlinarith [sq_nonneg (incr W s t ω i + incr W s t ω j), sq_nonneg (incr W s t ω i - incr W s t ω j)]
  have mc : MemLp (fun ω => Verif.centred (t - s) i j (incr W s t ω)) 2 P := mij.sub (memLp_const _)
  have e0 : ∫ ω, incr W s t ω i * incr W s t ω j ∂P = if i = j then t - s else 0 := hW.cov s t i j hs hst
  refine ⟨mc, ?_, ?_⟩
  · unfold Verif.centred
    rw [integral_sub (mij.integrable one_le_two) (integrable_const _), e0, integral_const]
    simp
  · refine abs_le_of_sq_le_sq' ?_ (by positivity) |>.2
    rw [rms_sq mc, mul_pow, Real.sq_sqrt (by positivity)]
    have i4 : ∀ k, MemLp (fun ω => incr W s t ω k ^ 2) 2 P → Integrable (fun ω => incr W s t ω k ^ 4) P := by
      intro k hk
      refine hk.integrable_sq.congr (ae_of_all _ fun ω => ?_)
      ring
    have ii := i4 i qi
    have ij := i4 j qj
    calc ∫ ω, ‖Verif.centred (t - s) i j (incr W s t ω)‖ ^ 2 ∂P
        ≤ ∫ ω, (incr W s t ω i ^ 4 + incr W s t ω j ^ 4 + 2 * (t - s) ^ 2) ∂P := by
          refine integral_mono (mc.integrable_norm_pow two_ne_zero) ((ii.add ij).add (integrable_const _)) fun ω => ?_
          simp only [Verif.centred, Real.norm_eq_abs, sq_abs]
          set x := incr W s t ω i
          set y := incr W s t ω j
          have h1 : (x * y - if i = j then t - s else 0) ^ 2 ≤ 2 * (x * y) ^ 2 + 2 * (t - s) ^ 2 := by
            split
            · nlinarith [sq_nonneg (x * y + (t - s))]
            · nlinarith [sq_nonneg (x * y), sq_nonneg (t - s)]
          nlinarith [sq_nonneg (x ^ 2 - y ^ 2)]
      _ = ∫ ω, incr W s t ω i ^ 4 ∂P + ∫ ω, incr W s t ω j ^ 4 ∂P + 2 * (t - s) ^ 2 := by
          have iij : Integrable (fun ω => incr W s t ω i ^ 4 + incr W s t ω j ^ 4) P := ii.add ij
          rw [integral_add iij (integrable_const _), integral_add ii ij, integral_const]
          simp
      _ ≤ (2 * c + 2) * (t - s) ^ 2 := by linarith

/-- The cube of the sum of the absolute values. -/
noncomputable def cubed (x : Fin d → ℝ) : ℝ := (∑ j, |x j|) ^ 3

theorem measurable_cubed : Measurable (cubed (d := d)) :=
  (Finset.measurable_fun_sum _ fun j _ => by
    simpa using (measurable_pi_apply (X := fun _ : Fin d => ℝ) j).norm).pow_const 3

theorem BrownianNoise.cubed (hW : BrownianNoise P F a W) : ∃ c, 0 ≤ c ∧ ∀ s t, a ≤ s → s ≤ t →
    MemLp (fun ω => cubed (incr W s t ω)) 2 P ∧
    rms P (fun ω => cubed (incr W s t ω)) ≤ c * (t - s) * √(t - s) := by
  obtain ⟨c, hc0, hc⟩ := hW.moments
  refine ⟨√((d : ℝ) ^ 5 * (d * c)), by positivity, fun s t hs hst => ?_⟩
  have hts : 0 ≤ t - s := by linarith
  have i6 : ∀ j, Integrable (fun ω => |incr W s t ω j| ^ 6) P := fun j => by
    have := (hc s t hs hst j).1.integrable_norm_pow (p := 6) (by norm_num)
    exact this
  have hle : ∀ ω, Verif.cubed (incr W s t ω) ^ 2 ≤ (d : ℝ) ^ 5 * ∑ j, |incr W s t ω j| ^ 6 := by
    intro ω
    have := pow_sum_le_card_mul_sum_pow (s := Finset.univ) (f := fun j => |incr W s t ω j|) (fun _ _ => abs_nonneg _) 5
    rw [Finset.card_univ, Fintype.card_fin] at this
    refine le_trans (le_of_eq ?_) this
    unfold Verif.cubed; ring
  have hmeas : AEStronglyMeasurable (fun ω => Verif.cubed (incr W s t ω)) P :=
    (measurable_cubed.comp (hW.white hs hst).measurable).aestronglyMeasurable
  have iS : Integrable (fun ω => (d : ℝ) ^ 5 * ∑ j, |incr W s t ω j| ^ 6) P :=
    (integrable_finsetSum _ fun j _ => i6 j).const_mul _
  have i2 : Integrable (fun ω => Verif.cubed (incr W s t ω) ^ 2) P := by
    refine iS.mono' (hmeas.pow 2) (ae_of_all _ fun ω => ?_)
    rw [Real.norm_of_nonneg (by positivity)]
    exact hle ω
  have m2 : MemLp (fun ω => Verif.cubed (incr W s t ω)) 2 P := (memLp_two_iff_integrable_sq hmeas).2 i2
  refine ⟨m2, ?_⟩
  refine abs_le_of_sq_le_sq' ?_ (by positivity) |>.2
  rw [rms_sq m2]
  simp only [Real.norm_eq_abs, sq_abs]
  calc ∫ ω, Verif.cubed (incr W s t ω) ^ 2 ∂P ≤ ∫ ω, (d : ℝ) ^ 5 * ∑ j, |incr W s t ω j| ^ 6 ∂P :=
        integral_mono i2 iS hle
    _ = (d : ℝ) ^ 5 * ∑ j, ∫ ω, incr W s t ω j ^ 6 ∂P := by
        rw [integral_const_mul, integral_finsetSum _ fun j _ => i6 j]
        simp only [(by decide : Even 6).pow_abs]
    _ ≤ (d : ℝ) ^ 5 * ∑ _j : Fin d, c * (t - s) ^ 3 := by
        refine mul_le_mul_of_nonneg_left (Finset.sum_le_sum fun j _ => (hc s t hs hst j).2.1) (by positivity)
    _ = _ := by
        rw [mul_pow, mul_pow, Real.sq_sqrt (by positivity), Real.sq_sqrt hts]
        simp; ring

/-- The powers of the size of the increments. -/
theorem BrownianNoise.powers (hW : BrownianNoise P F a W) (n : ℕ) : ∃ c, 0 ≤ c ∧ ∀ s t, a ≤ s → s ≤ t →
    MemLp (fun ω => (∑ j, |incr W s t ω j|) ^ n) 2 P ∧
    rms P (fun ω => (∑ j, |incr W s t ω j|) ^ n) ≤ c * √(t - s) ^ n := by
  rcases Nat.eq_zero_or_pos n with rfl | hn
  · refine ⟨1, by norm_num, fun s t _ _ => ?_⟩
    simp only [pow_zero]
    refine ⟨memLp_const _, ?_⟩
    rw [rms_const]; simp
  obtain ⟨c0, hc⟩ := hW.even n
  set c := |c0| with hcdef
  have hc0 : 0 ≤ c := abs_nonneg _
  obtain ⟨q, hq⟩ : ∃ q, 2 * n = q + 1 := ⟨2 * n - 1, by omega⟩
  refine ⟨√((d : ℝ) ^ q * (d * c)), by positivity, fun s t hs hst => ?_⟩
  have hts : 0 ≤ t - s := by linarith
  have ev : Even (2 * n) := even_two_mul n
  have hm : ∀ j, MemLp (fun ω => incr W s t ω j) ((2 * n : ℕ) : ℝ≥0∞) P := fun j => (hc s t j hs hst).1
  have hb : ∀ j, ∫ ω, incr W s t ω j ^ (2 * n) ∂P ≤ c * (t - s) ^ n := fun j =>
    (hc s t j hs hst).2.trans (mul_le_mul_of_nonneg_right (le_abs_self c0) (by positivity))
  have i6 : ∀ j, Integrable (fun ω => |incr W s t ω j| ^ (2 * n)) P := fun j =>
    (hm j).integrable_norm_pow (by omega)
  have hle : ∀ ω, ((∑ j, |incr W s t ω j|) ^ n) ^ 2 ≤ (d : ℝ) ^ q * ∑ j, |incr W s t ω j| ^ (2 * n) := by
    intro ω
    have := pow_sum_le_card_mul_sum_pow (s := Finset.univ) (f := fun j => |incr W s t ω j|) (fun _ _ => abs_nonneg _) q
    rw [Finset.card_univ, Fintype.card_fin, ← hq] at this
    rw [← pow_mul, mul_comm n 2]
    exact this
  have hmeas : AEStronglyMeasurable (fun ω => (∑ j, |incr W s t ω j|) ^ n) P := by
    have h0 : Measurable fun x : Fin d → ℝ => (∑ j, |x j|) ^ n :=
      (Finset.measurable_fun_sum _ fun j _ => by
        simpa using (measurable_pi_apply (X := fun _ : Fin d => ℝ) j).norm).pow_const n
    exact (h0.comp (hW.white hs hst).measurable).aestronglyMeasurable
  have iS : Integrable (fun ω => (d : ℝ) ^ q * ∑ j, |incr W s t ω j| ^ (2 * n)) P :=
    (integrable_finsetSum _ fun j _ => i6 j).const_mul _
  have i2 : Integrable (fun ω => ((∑ j, |incr W s t ω j|) ^ n) ^ 2) P := by
    refine iS.mono' (hmeas.pow 2) (ae_of_all _ fun ω => ?_)
    rw [Real.norm_of_nonneg (by positivity)]
    exact hle ω
  have m2 : MemLp (fun ω => (∑ j, |incr W s t ω j|) ^ n) 2 P := (memLp_two_iff_integrable_sq hmeas).2 i2
  refine ⟨m2, ?_⟩
  refine abs_le_of_sq_le_sq' ?_ (by positivity) |>.2
  rw [rms_sq m2]
  simp only [Real.norm_eq_abs, sq_abs]
  calc ∫ ω, ((∑ j, |incr W s t ω j|) ^ n) ^ 2 ∂P ≤ ∫ ω, (d : ℝ) ^ q * ∑ j, |incr W s t ω j| ^ (2 * n) ∂P :=
        integral_mono i2 iS hle
    _ = (d : ℝ) ^ q * ∑ j, ∫ ω, incr W s t ω j ^ (2 * n) ∂P := by
        rw [integral_const_mul, integral_finsetSum _ fun j _ => i6 j]
        simp only [ev.pow_abs]
    _ ≤ (d : ℝ) ^ q * ∑ _j : Fin d, c * (t - s) ^ n := by
        refine mul_le_mul_of_nonneg_left (Finset.sum_le_sum fun j _ => hb j) (by positivity)
    _ = _ := by
        rw [mul_pow, ← pow_mul, mul_comm n 2, pow_mul, Real.sq_sqrt (by positivity), Real.sq_sqrt hts]
        simp; ring

end Verif
