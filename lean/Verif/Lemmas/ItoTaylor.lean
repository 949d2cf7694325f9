import Verif.Spec.ItoSmooth
import Verif.Lemmas.NoiseMoments

/-!
# Expansion of the solutions of Itô equations up to the order of Milstein's method
-/

set_option linter.unusedSectionVars false

namespace Verif
open MeasureTheory ProbabilityTheory Filter Set Topology
open scoped InnerProductSpace ENNReal

section
variable {Ω : Type} {F : ℝ → MeasurableSpace Ω} {mΩ : MeasurableSpace Ω} {P : Measure Ω} [IsProbabilityMeasure P]
  {E : Type} [NormedAddCommGroup E] [InnerProductSpace ℝ E] {d : ℕ} {W : ℝ → Ω → Fin d → ℝ} {a b : ℝ}

theorem incr_measurable (hW : BrownianNoise P F a W) {s t : ℝ} (hs : a ≤ s) (hst : s ≤ t) :
    Measurable[F t] (incr W s t) :=
  @measurable_pi_lambda _ _ _ (F t) _ _ fun j =>
    (hW.adapted t j (hs.trans hst)).sub ((hW.adapted s j hs).mono (hW.mono s t hst) le_rfl)

/-- The mean square of a sum whose terms cannot be foreseen. -/
theorem martingale_sum (hmono : ∀ s t, s ≤ t → F s ≤ F t) (r : ℕ → ℝ) (hr : Monotone r) (X : ℕ → Ω → E)
    (hX : ∀ i, StronglyMeasurable[F (r (i + 1))] (X i)) (hX2 : ∀ i, MemLp (X i) 2 P)
    (ho : ∀ i (Z : Ω → E), StronglyMeasurable[F (r i)] Z → MemLp Z 2 P → ∫ ω, ⟪Z ω, X i ω⟫_ℝ ∂P = 0) (k : ℕ) :
    StronglyMeasurable[F (r k)] (fun ω => ∑ i ∈ Finset.range k, X i ω) ∧
    MemLp (fun ω => ∑ i ∈ Finset.range k, X i ω) 2 P ∧
    rms P (fun ω => ∑ i ∈ Finset.range k, X i ω) ^ 2 = ∑ i ∈ Finset.range k, rms P (X i) ^ 2 ∧
    ∀ Z : Ω → E, StronglyMeasurable[F (r 0)] Z → MemLp Z 2 P →
      ∫ ω, ⟪Z ω, ∑ i ∈ Finset.range k, X i ω⟫_ℝ ∂P = 0 := by
  induction k with
  | zero =>
    simp only [Finset.range_zero, Finset.sum_empty, inner_zero_right, integral_zero]
    refine ⟨stronglyMeasurable_const, MemLp.zero', ?_, fun _ _ _ => trivial⟩
    simp [rms]
  | succ k ih =>
    obtain ⟨h1, h2, h3, h4⟩ := ih
    simp only [Finset.sum_range_succ]
    refine ⟨(h1.mono (hmono _ _ (hr (Nat.le_succ k)))).add (hX k), h2.add (hX2 k), ?_, ?_⟩
    · rw [rms_add_sq h2 (hX2 k) (ho k _ h1 h2), h3]
    · intro Z hZ hZ2
      simp only [inner_add_right]
      rw [integral_add (integrable_inner hZ2 h2) (integrable_inner hZ2 (hX2 k)), h4 Z hZ hZ2,
        ho k Z (hZ.mono (hmono _ _ (hr (Nat.zero_le k)))) hZ2, add_zero]

/-- The quadratic variation of the noise: the sums of the products of the increments converge. -/
theorem quadratic_variation_smul (hW : BrownianNoise P F a W) : ∃ c, 0 ≤ c ∧ ∀ s t, a ≤ s → s ≤ t → ∀ i j
    (Z : Ω → E), StronglyMeasurable[F s] Z → MemLp Z 2 P → ∀ n : ℕ, n ≠ 0 →
    MemLp (fun ω => ∑ k ∈ Finset.range n,
      centred ((t - s) / n) i j (incr W (part s t n k) (part s t n (k + 1)) ω) • Z ω) 2 P ∧
    rms P (fun ω => ∑ k ∈ Finset.range n,
      centred ((t - s) / n) i j (incr W (part s t n k) (part s t n (k + 1)) ω) • Z ω)
        ≤ c * (t - s) * rms P Z * √(1 / n) := by
  obtain ⟨c, hc0, hc⟩ := hW.centred
  refine ⟨c, hc0, fun s t hs hst i j Z hZ hZ2 n hn => ?_⟩
  have hts : 0 ≤ t - s := by linarith
  have hn' : (n : ℝ) ≠ 0 := Nat.cast_ne_zero.2 hn
  have hmono := part_mono hst n
  have hsk : ∀ k, s ≤ part s t n k := fun k => by
    have := hmono (Nat.zero_le k); rwa [part_zero] at this
  have hge : ∀ k, a ≤ part s t n k := fun k => hs.trans (hsk k)
  have hZk : ∀ k, StronglyMeasurable[F (part s t n k)] Z := fun k => hZ.mono (hW.mono _ _ (hsk k))
  have hk := fun k => hc (part s t n k) (part s t n (k + 1)) (hge k) (hmono (Nat.le_succ k)) i j
  simp only [part_step] at hk
  have hw := fun k => hW.white (hge k) (hmono (Nat.le_succ k))
  have hf := fun k => (hw k).memLp_fun _ (measurable_centred ((t - s) / n) i j) (hk k).1 (hZk k) hZ2
  obtain ⟨-, h2, h3, -⟩ := martingale_sum (P := P) (E := E) hW.mono (part s t n) hmono
    (fun k ω => centred ((t - s) / n) i j (incr W (part s t n k) (part s t n (k + 1)) ω) • Z ω)
    (fun k => (((measurable_centred _ i j).comp
      (incr_measurable hW (hge k) (hmono (Nat.le_succ k)))).stronglyMeasurable).smul (hZk (k + 1)))
    (fun k => (hf k).1) (fun k Z' hZ' hZ'2 =>
      (hw k).orthogonal_fun _ (measurable_centred ((t - s) / n) i j)
        (hk k).1 (hk k).2.1 (hZk k) hZ2 hZ' hZ'2) n
  refine ⟨h2, ?_⟩
  have hr0 : 0 ≤ rms P Z := rms_nonneg Z
  refine abs_le_of_sq_le_sq' ?_ (by positivity) |>.2
  rw [h3, mul_pow, Real.sq_sqrt (by positivity)]
  calc _ ≤ ∑ k ∈ Finset.range n, (c * ((t - s) / n) * rms P Z) ^ 2 := by
        refine Finset.sum_le_sum fun k _ => pow_le_pow_left₀ (rms_nonneg _) ?_ 2
        rw [(hf k).2]
        exact mul_le_mul_of_nonneg_right (hk k).2.2 hr0
    _ = _ := by rw [Finset.sum_const, Finset.card_range, nsmul_eq_mul]; field_simp

/-- The square of the sum of the absolute values. -/
noncomputable def squared (x : Fin d → ℝ) : ℝ := (∑ j, |x j|) ^ 2

theorem measurable_squared : Measurable (squared (d := d)) :=
  (Finset.measurable_fun_sum _ fun j _ => by
    simpa using (measurable_pi_apply (X := fun _ : Fin d => ℝ) j).norm).pow_const 2

theorem BrownianNoise.squared (hW : BrownianNoise P F a W) : ∃ c, 0 ≤ c ∧ ∀ s t, a ≤ s → s ≤ t →
    MemLp (fun ω => squared (incr W s t ω)) 2 P ∧
    rms P (fun ω => squared (incr W s t ω)) ≤ c * (t - s) := by
  obtain ⟨c, hc0, hc⟩ := hW.moments
  refine ⟨√((d : ℝ) ^ 3 * (d * c)), by positivity, fun s t hs hst => ?_⟩
  have hts : 0 ≤ t - s := by linarith
  have i4 : ∀ j, Integrable (fun ω => |incr W s t ω j| ^ 4) P := fun j => by
    have := ((hc s t hs hst j).1.mono_exponent (p := 4) (by norm_num)).integrable_norm_pow (p := 4) (by norm_num)
    exact this
  have hle : ∀ ω, Verif.squared (incr W s t ω) ^ 2 ≤ (d : ℝ) ^ 3 * ∑ j, |incr W s t ω j| ^ 4 := by
    intro ω
    have := pow_sum_le_card_mul_sum_pow (s := Finset.univ) (f := fun j => |incr W s t ω j|) (fun _ _ => abs_nonneg _) 3
    rw [Finset.card_univ, Fintype.card_fin] at this
    refine le_trans (le_of_eq ?_) this
    unfold Verif.squared; ring
  have hmeas : AEStronglyMeasurable (fun ω => Verif.squared (incr W s t ω)) P :=
    (measurable_squared.comp (hW.white hs hst).measurable).aestronglyMeasurable
  have iS : Integrable (fun ω => (d : ℝ) ^ 3 * ∑ j, |incr W s t ω j| ^ 4) P :=
    (integrable_finsetSum _ fun j _ => i4 j).const_mul _
  have i2 : Integrable (fun ω => Verif.squared (incr W s t ω) ^ 2) P := by
    refine iS.mono' (hmeas.pow 2) (ae_of_all _ fun ω => ?_)
    rw [Real.norm_of_nonneg (by positivity)]
    exact hle ω
  have m2 : MemLp (fun ω => Verif.squared (incr W s t ω)) 2 P := (memLp_two_iff_integrable_sq hmeas).2 i2
  refine ⟨m2, ?_⟩
  refine abs_le_of_sq_le_sq' ?_ (by positivity) |>.2
  rw [rms_sq m2]
  simp only [Real.norm_eq_abs, sq_abs]
  calc ∫ ω, Verif.squared (incr W s t ω) ^ 2 ∂P ≤ ∫ ω, (d : ℝ) ^ 3 * ∑ j, |incr W s t ω j| ^ 4 ∂P :=
        integral_mono i2 iS hle
    _ = (d : ℝ) ^ 3 * ∑ j, ∫ ω, incr W s t ω j ^ 4 ∂P := by
        rw [integral_const_mul, integral_finsetSum _ fun j _ => i4 j]
        simp only [(by decide : Even 4).pow_abs]
    _ ≤ (d : ℝ) ^ 3 * ∑ _j : Fin d, c * (t - s) ^ 2 := by
        refine mul_le_mul_of_nonneg_left (Finset.sum_le_sum fun j _ => (hc s t hs hst j).2.2) (by positivity)
    _ = _ := by
        rw [mul_pow, Real.sq_sqrt (by positivity)]
        simp; ring

/-- Sums of the centred products of the increments with what is known before. -/
theorem centred_sum (hW : BrownianNoise P F a W) : ∃ c, 0 ≤ c ∧ ∀ s t, a ≤ s → s ≤ t →
    ∀ (G : Fin d → Fin d → Ω → E) (ρ : ℝ), 0 ≤ ρ → (∀ i j, StronglyMeasurable[F s] (G i j)) →
      (∀ i j, MemLp (G i j) 2 P) → (∀ i j, rms P (G i j) ≤ ρ) →
      StronglyMeasurable[F t] (fun ω => (1 / 2 : ℝ) • ∑ i, ∑ j, centred (t - s) i j (incr W s t ω) • G i j ω) ∧
      MemLp (fun ω => (1 / 2 : ℝ) • ∑ i, ∑ j, centred (t - s) i j (incr W s t ω) • G i j ω) 2 P ∧
      (∀ Z : Ω → E, StronglyMeasurable[F s] Z → MemLp Z 2 P →
        ∫ ω, ⟪Z ω, (1 / 2 : ℝ) • ∑ i, ∑ j, centred (t - s) i j (incr W s t ω) • G i j ω⟫_ℝ ∂P = 0) ∧
      rms P (fun ω => (1 / 2 : ℝ) • ∑ i, ∑ j, centred (t - s) i j (incr W s t ω) • G i j ω) ≤ c * (t - s) * ρ := by
  obtain ⟨c, hc0, hc⟩ := hW.centred
  refine ⟨1 / 2 * (d * (d * c)), by positivity, ?_⟩
  intro s t hs hst Gz ρ hρ sG mG rG
  have hts : 0 ≤ t - s := by linarith
  have hw := hW.white hs hst
  have mt : ∀ i j, MemLp (fun ω => centred (t - s) i j (incr W s t ω) • Gz i j ω) 2 P ∧
      rms P (fun ω => centred (t - s) i j (incr W s t ω) • Gz i j ω)
        = rms P (fun ω => centred (t - s) i j (incr W s t ω)) * rms P (Gz i j) := fun i j =>
    hw.memLp_fun _ (measurable_centred _ i j) (hc s t hs hst i j).1 (sG i j) (mG i j)
  have ms : ∀ i, MemLp (fun ω => ∑ j, centred (t - s) i j (incr W s t ω) • Gz i j ω) 2 P := fun i =>
    memLp_finsetSum _ fun j _ => (mt i j).1
  have mss : MemLp (fun ω => ∑ i, ∑ j, centred (t - s) i j (incr W s t ω) • Gz i j ω) 2 P :=
    memLp_finsetSum _ fun i _ => ms i
  refine ⟨?_, mss.const_smul _, ?_, ?_⟩
  · refine StronglyMeasurable.const_smul (Finset.stronglyMeasurable_fun_sum _ fun i _ =>
      Finset.stronglyMeasurable_fun_sum _ fun j _ => ?_) _
    refine StronglyMeasurable.smul ?_ ((sG i j).mono (hW.mono s t hst))
    exact ((measurable_centred (t - s) i j).comp (incr_measurable hW hs hst)).stronglyMeasurable
  · intro Z hZ hZ2
    simp only [inner_smul_right, inner_sum]
    rw [integral_const_mul, integral_finsetSum, Finset.sum_eq_zero, mul_zero]
    · intro i _
      rw [integral_finsetSum, Finset.sum_eq_zero]
      · intro j _
        have := hw.orthogonal_fun _ (measurable_centred (t - s) i j) (hc s t hs hst i j).1 (hc s t hs hst i j).2.1
          (sG i j) (mG i j) hZ hZ2
        simpa only [inner_smul_right] using this
      · intro j _
        simpa only [inner_smul_right] using integrable_inner hZ2 (mt i j).1
    · intro i _
      refine integrable_finsetSum _ fun j _ => ?_
      simpa only [inner_smul_right] using integrable_inner hZ2 (mt i j).1
  · rw [rms_smul, abs_of_pos (by norm_num)]
    have h2 : rms P (fun ω => ∑ i, ∑ j, centred (t - s) i j (incr W s t ω) • Gz i j ω)
        ≤ ∑ _i : Fin d, ∑ _j : Fin d, c * (t - s) * ρ := by
      refine (rms_sum_le _ _ fun i _ => ms i).trans (Finset.sum_le_sum fun i _ => ?_)
      refine (rms_sum_le _ _ fun j _ => (mt i j).1).trans (Finset.sum_le_sum fun j _ => ?_)
      rw [(mt i j).2]
      exact mul_le_mul (hc s t hs hst i j).2.2 (rG i j) (rms_nonneg _) (by positivity)
    calc _ ≤ 1 / 2 * ∑ _i : Fin d, ∑ _j : Fin d, c * (t - s) * ρ := mul_le_mul_of_nonneg_left h2 (by norm_num)
      _ = _ := by simp; ring

variable {L : ℝ}

theorem fderiv_le_of_lip (hL : 0 ≤ L) {φ : ℝ → E → E} (hφ : ItoLipschitz φ a b L) {t : ℝ} (ht : t ∈ Icc a b) (y : E) :
    ‖fderiv ℝ (φ t) y‖ ≤ L := by
  have : LipschitzWith L.toNNReal (φ t) := LipschitzWith.of_dist_le_mul fun x y => by
    rw [dist_eq_norm, dist_eq_norm, Real.coe_toNNReal _ hL]; exact hφ.lip ht x y
  have := norm_fderiv_le_of_lipschitz ℝ this (x₀ := y)
  rwa [Real.coe_toNNReal _ hL] at this

/-- The term by which Milstein's method differs from Euler's. -/
noncomputable def milsteinTerm (g : Fin d → ℝ → E → E) (W : ℝ → Ω → Fin d → ℝ) (V : Ω → E) (s t : ℝ) (ω : Ω) : E :=
  (1 / 2 : ℝ) • ∑ i, ∑ j, centred (t - s) i j (incr W s t ω) • fderiv ℝ (g j s) (V ω) (g i s (V ω))

end

end Verif
