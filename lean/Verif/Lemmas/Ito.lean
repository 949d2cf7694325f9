import Verif.Lemmas.L2

/-!
# Solutions of Itô equations: increments, and one step of an approximation
-/

set_option linter.unusedSectionVars false

namespace Verif
open MeasureTheory ProbabilityTheory Filter Set Topology
open scoped InnerProductSpace ENNReal

variable {Ω : Type} {F : ℝ → MeasurableSpace Ω} {mΩ : MeasurableSpace Ω} {P : Measure Ω} [IsProbabilityMeasure P]
  {E : Type} [NormedAddCommGroup E] [InnerProductSpace ℝ E] {d : ℕ} {W : ℝ → Ω → Fin d → ℝ} {a b : ℝ}

/-- The increment of the noise. -/
def incr (W : ℝ → Ω → Fin d → ℝ) (s t : ℝ) (ω : Ω) : Fin d → ℝ := W t ω - W s ω

theorem BrownianNoise.white (hW : BrownianNoise P F a W) {s t : ℝ} (hs : a ≤ s) (hst : s ≤ t) :
    WhiteNoise P (F s) (incr W s t) (t - s) where
  le := hW.le s
  measurable := measurable_pi_lambda _ fun j =>
    ((hW.adapted t j (hs.trans hst)).mono (hW.le t) le_rfl).sub ((hW.adapted s j hs).mono (hW.le s) le_rfl)
  indep := hW.indep s t hs hst
  memLp := fun j => by
    obtain ⟨c, hc⟩ := hW.even 1
    exact (hc s t j hs hst).1.mono_exponent (by norm_num)
  mean := fun j => hW.mean s t j hs hst
  cov := fun i j => hW.cov s t i j hs hst

theorem mulNoise_measurable (hW : BrownianNoise P F a W) {s t : ℝ} (hs : a ≤ s) (hst : s ≤ t) {κ : Fin d → Ω → E}
    (hκ : ∀ j, StronglyMeasurable[F s] (κ j)) : StronglyMeasurable[F t] (mulNoise κ (incr W s t)) := by
  unfold mulNoise
  refine Finset.stronglyMeasurable_fun_sum _ fun j _ => ?_
  refine StronglyMeasurable.smul ?_ ((hκ j).mono (hW.mono s t hst))
  exact ((hW.adapted t j (hs.trans hst)).sub ((hW.adapted s j hs).mono (hW.mono s t hst) le_rfl)).stronglyMeasurable

/-- Itô's isometry for sums, and that they are orthogonal to the past. -/
theorem noise_sum (hW : BrownianNoise P F a W) (r : ℕ → ℝ) (hr : Monotone r) (ha : a ≤ r 0) (κ : ℕ → Fin d → Ω → E)
    (hκ : ∀ i j, StronglyMeasurable[F (r i)] (κ i j)) (hκ2 : ∀ i j, MemLp (κ i j) 2 P) (k : ℕ) :
    StronglyMeasurable[F (r k)] (fun ω => ∑ i ∈ Finset.range k, mulNoise (κ i) (incr W (r i) (r (i + 1))) ω) ∧
    MemLp (fun ω => ∑ i ∈ Finset.range k, mulNoise (κ i) (incr W (r i) (r (i + 1))) ω) 2 P ∧
    rms P (fun ω => ∑ i ∈ Finset.range k, mulNoise (κ i) (incr W (r i) (r (i + 1))) ω) ^ 2
      = ∑ i ∈ Finset.range k, (r (i + 1) - r i) * ∑ j, rms P (κ i j) ^ 2 ∧
    ∀ Z : Ω → E, StronglyMeasurable[F (r 0)] Z → MemLp Z 2 P →
      ∫ ω, ⟪Z ω, ∑ i ∈ Finset.range k, mulNoise (κ i) (incr W (r i) (r (i + 1))) ω⟫_ℝ ∂P = 0 := by
  induction k with
  | zero =>
    simp only [Finset.range_zero, Finset.sum_empty, inner_zero_right, integral_zero]
    refine ⟨stronglyMeasurable_const, MemLp.zero', ?_, fun _ _ _ => trivial⟩
    simp [rms]
  | succ k ih =>
    obtain ⟨h1, h2, h3, h4⟩ := ih
    have hk : a ≤ r k := ha.trans (hr (Nat.zero_le k))
    have hk1 : r k ≤ r (k + 1) := hr (Nat.le_succ k)
    have hw := hW.white hk hk1
    have m2 := hw.memLp_mulNoise (hκ k) (hκ2 k)
    simp only [Finset.sum_range_succ]
    refine ⟨(h1.mono (hW.mono _ _ hk1)).add (mulNoise_measurable hW hk hk1 (hκ k)), h2.add m2, ?_, ?_⟩
    · rw [rms_add_sq h2 m2 (hw.orthogonal (hκ k) (hκ2 k) h1 h2), h3, hw.isometry (hκ k) (hκ2 k)]
    · intro Z hZ hZ2
      simp only [inner_add_right]
      rw [integral_add (integrable_inner hZ2 h2) (integrable_inner hZ2 m2), h4 Z hZ hZ2,
        hw.orthogonal (hκ k) (hκ2 k) (hZ.mono (hW.mono _ _ (hr (Nat.zero_le k)))) hZ2, add_zero]

theorem memLp_affine (c k : ℝ) {X : Ω → E} (hX : MemLp X 2 P) : MemLp (fun ω => c + k * ‖X ω‖) 2 P := by
  have h1 : MemLp (fun _ : Ω => c) 2 P := memLp_const _
  have h2 : MemLp (fun ω => k * ‖X ω‖) 2 P := hX.norm.const_mul k
  exact h1.add h2

theorem memLp_sub {X X' : Ω → E} (hX : MemLp X 2 P) (hX' : MemLp X' 2 P) : MemLp (fun ω => X ω - X' ω) 2 P :=
  hX.sub hX'

theorem memLp_add {X X' : Ω → E} (hX : MemLp X 2 P) (hX' : MemLp X' 2 P) : MemLp (fun ω => X ω + X' ω) 2 P :=
  hX.add hX'

/-! ### Coefficients -/

section
variable {f : ℝ → E → E} {L : ℝ}

theorem ItoLipschitz.lip (hf : ItoLipschitz f a b L) {t : ℝ} (ht : t ∈ Icc a b) (x x' : E) :
    ‖f t x - f t x'‖ ≤ L * ‖x - x'‖ := by
  have := hf t ht t ht x x'
  simpa using this

theorem ItoLipschitz.nonneg [Nontrivial E] (hf : ItoLipschitz f a b L) (hab : a ≤ b) : 0 ≤ L := by
  obtain ⟨x, hx⟩ := exists_ne (0 : E)
  have h := (norm_nonneg _).trans (hf.lip (left_mem_Icc.2 hab) x 0)
  rw [sub_zero] at h
  exact nonneg_of_mul_nonneg_left h (norm_pos_iff.2 hx)

theorem ItoLipschitz.continuous (hf : ItoLipschitz f a b L) (hL : 0 ≤ L) {t : ℝ} (ht : t ∈ Icc a b) :
    Continuous (f t) :=
  (LipschitzWith.of_dist_le_mul (K := L.toNNReal) fun x y => by
    rw [dist_eq_norm, dist_eq_norm, Real.coe_toNNReal _ hL]; exact hf.lip ht x y).continuous

theorem ItoLipschitz.measurable (hf : ItoLipschitz f a b L) (hL : 0 ≤ L) {t : ℝ} (ht : t ∈ Icc a b)
    {G : MeasurableSpace Ω} {X : Ω → E} (hX : StronglyMeasurable[G] X) :
    StronglyMeasurable[G] fun ω => f t (X ω) :=
  (hf.continuous hL ht).comp_stronglyMeasurable hX

theorem ItoLipschitz.memLp (hf : ItoLipschitz f a b L) (hL : 0 ≤ L) {t : ℝ} (ht : t ∈ Icc a b)
    {X : Ω → E} (hX : MemLp X 2 P) : MemLp (fun ω => f t (X ω)) 2 P := by
  have hb : MemLp (fun ω => ‖f t 0‖ + L * ‖X ω‖) 2 P := memLp_affine _ _ hX
  refine hb.mono ((hf.continuous hL ht).comp_aestronglyMeasurable hX.1) (ae_of_all _ fun ω => ?_)
  have h1 := hf.lip ht (X ω) 0
  rw [sub_zero] at h1
  have h2 : ‖f t (X ω)‖ ≤ ‖f t 0‖ + ‖f t (X ω) - f t 0‖ := by
    have := norm_add_le (f t 0) (f t (X ω) - f t 0)
    simpa using this
  rw [Real.norm_of_nonneg (by positivity)]
  linarith

theorem ItoLipschitz.rms_sub (hf : ItoLipschitz f a b L) (hL : 0 ≤ L) {s t : ℝ} (hs : s ∈ Icc a b) (ht : t ∈ Icc a b)
    {X X' : Ω → E} (hX : MemLp X 2 P) (hX' : MemLp X' 2 P) :
    rms P (fun ω => f t (X ω) - f s (X' ω))
      ≤ L * (√|t - s| * (1 + rms P X') + rms P (fun ω => X ω - X' ω)) := by
  have m3 : MemLp (fun ω => 1 + ‖X' ω‖) 2 P := by simpa using memLp_affine 1 1 hX'
  have m2 : MemLp (fun ω => L * (√|t - s| * (1 + ‖X' ω‖))) 2 P := (m3.const_mul _).const_mul _
  have m4 : MemLp (fun ω => L * ‖X ω - X' ω‖) 2 P := (memLp_sub hX hX').norm.const_mul _
  have m1 : MemLp (fun ω => L * (√|t - s| * (1 + ‖X' ω‖)) + L * ‖X ω - X' ω‖) 2 P := m2.add m4
  refine (rms_mono (Y := fun ω => L * (√|t - s| * (1 + ‖X' ω‖)) + L * ‖X ω - X' ω‖) m1 fun ω => ?_).trans ?_
  · rw [Real.norm_of_nonneg (by positivity), ← mul_add]
    exact hf s hs t ht _ _
  · refine (rms_add_le m2 m4).trans ?_
    have e1 : rms P (fun ω => L * (√|t - s| * (1 + ‖X' ω‖))) = L * √|t - s| * rms P (fun ω => 1 + ‖X' ω‖) := by
      have := rms_smul (P := P) (L * √|t - s|) (fun ω => 1 + ‖X' ω‖)
      rw [abs_of_nonneg (by positivity : 0 ≤ L * √|t - s|)] at this
      rw [← this]
      congr 1
      funext ω
      rw [smul_eq_mul, mul_assoc]
    have e2 : rms P (fun ω => L * ‖X ω - X' ω‖) = L * rms P (fun ω => X ω - X' ω) := by
      have := rms_smul (P := P) L (fun ω => ‖X ω - X' ω‖)
      rw [abs_of_nonneg hL, rms_norm] at this
      exact this
    have e3 : rms P (fun ω => 1 + ‖X' ω‖) ≤ 1 + rms P X' := by
      have m5 : MemLp (fun _ : Ω => (1 : ℝ)) 2 P := memLp_const _
      have := rms_add_le m5 hX'.norm
      rw [rms_const, rms_norm, norm_one] at this
      exact this
    rw [e1, e2]
    have := mul_le_mul_of_nonneg_left e3 (by positivity : 0 ≤ L * √|t - s|)
    calc _ ≤ L * √|t - s| * (1 + rms P X') + L * rms P (fun ω => X ω - X' ω) := by linarith
      _ = _ := by ring

theorem ItoLipschitz.rms_le (hf : ItoLipschitz f a b L) (hL : 0 ≤ L) {t : ℝ} (ht : t ∈ Icc a b)
    {X : Ω → E} (hX : MemLp X 2 P) : rms P (fun ω => f t (X ω)) ≤ ‖f a 0‖ + L * (√(b - a) + rms P X) := by
  have ha : a ∈ Icc a b := left_mem_Icc.2 (ht.1.trans ht.2)
  have h1 := hf.rms_sub hL ha ht hX (MemLp.zero' (p := 2) (μ := P))
  have h0 : rms P (fun _ : Ω => (0 : E)) = 0 := by rw [rms_const, norm_zero]
  rw [h0, add_zero, mul_one] at h1
  have mc : MemLp (fun _ : Ω => f a 0) 2 P := memLp_const _
  have h2 := rms_add_le (memLp_sub (hf.memLp hL ht hX) mc) mc
  rw [rms_const] at h2
  simp only [sub_add_cancel] at h2
  have h3 : √|t - a| ≤ √(b - a) := by
    rw [abs_of_nonneg (sub_nonneg.2 ht.1)]
    exact Real.sqrt_le_sqrt (by linarith [ht.2])
  have h4 : rms P (fun ω => X ω - 0) = rms P X := by simp
  rw [h4] at h1
  have := mul_le_mul_of_nonneg_left h3 hL
  linarith

end


/-! ### The left-point sums -/

/-- The points of the left-point sums. -/
noncomputable def part (s t : ℝ) (n i : ℕ) : ℝ := s + i * ((t - s) / n)

theorem part_mono {s t : ℝ} (hst : s ≤ t) (n : ℕ) : Monotone (part s t n) := by
  intro i j hij
  have h : 0 ≤ (t - s) / n := div_nonneg (by linarith) (Nat.cast_nonneg n)
  have := mul_le_mul_of_nonneg_right (Nat.cast_le (α := ℝ).2 hij) h
  unfold part
  linarith

theorem part_zero (s t : ℝ) (n : ℕ) : part s t n 0 = s := by simp [part]

theorem part_last (s t : ℝ) {n : ℕ} (hn : n ≠ 0) : part s t n n = t := by
  have : (n : ℝ) ≠ 0 := Nat.cast_ne_zero.2 hn
  unfold part; field_simp; ring

theorem part_step (s t : ℝ) (n i : ℕ) : part s t n (i + 1) - part s t n i = (t - s) / n := by
  unfold part; push_cast; ring

theorem part_mem {s t : ℝ} (hst : s ≤ t) {n i : ℕ} (hi : i ≤ n) (hn : n ≠ 0) : part s t n i ∈ Icc s t := by
  constructor
  · have := part_mono hst n (Nat.zero_le i); rwa [part_zero] at this
  · have := part_mono hst n hi; rwa [part_last s t hn] at this

theorem mulNoise_incr_sum (κ : Fin d → Ω → E) (r : ℕ → ℝ) (n : ℕ) (ω : Ω) :
    ∑ i ∈ Finset.range n, mulNoise κ (incr W (r i) (r (i + 1))) ω = mulNoise κ (incr W (r 0) (r n)) ω := by
  induction n with
  | zero => simp [mulNoise, incr]
  | succ n ih =>
    rw [Finset.sum_range_succ, ih]
    simp only [mulNoise, incr, Pi.sub_apply]
    rw [← Finset.sum_add_distrib]
    refine Finset.sum_congr rfl fun j _ => ?_
    rw [← add_smul]; congr 1; ring

theorem mulNoise_sub (κ κ' : Fin d → Ω → E) (ξ : Ω → Fin d → ℝ) (ω : Ω) :
    mulNoise (fun j ω => κ j ω - κ' j ω) ξ ω = mulNoise κ ξ ω - mulNoise κ' ξ ω := by
  simp only [mulNoise, smul_sub, Finset.sum_sub_distrib]

/-- A left-point sum is what it would be if the coefficients did not change during the interval, plus something small,
plus something less small that cannot be foreseen at the beginning. -/
theorem leftSum_split (hW : BrownianNoise P F a W) {f : ℝ → E → E} {g : Fin d → ℝ → E → E} {Y : ℝ → Ω → E} {s t : ℝ}
    (hs : a ≤ s) (hst : s ≤ t) (φ : Ω → E) (κ : Fin d → Ω → E)
    (hf2 : ∀ r ∈ Icc s t, MemLp (fun ω => f r (Y r ω) - φ ω) 2 P)
    (hgm : ∀ r ∈ Icc s t, ∀ j, StronglyMeasurable[F r] fun ω => g j r (Y r ω) - κ j ω)
    (hg2 : ∀ r ∈ Icc s t, ∀ j, MemLp (fun ω => g j r (Y r ω) - κ j ω) 2 P)
    {ρ σ : ℝ} (hρ : ∀ r ∈ Icc s t, rms P (fun ω => f r (Y r ω) - φ ω) ≤ ρ) (hσ0 : 0 ≤ σ)
    (hσ : ∀ r ∈ Icc s t, ∀ j, rms P (fun ω => g j r (Y r ω) - κ j ω) ≤ σ) {n : ℕ} (hn : n ≠ 0) :
    ∃ X M : Ω → E, (∀ ω, leftSum f g W Y s t n ω
        = (t - s) • φ ω + mulNoise κ (incr W s t) ω + X ω + M ω) ∧
      MemLp X 2 P ∧ rms P X ≤ (t - s) * ρ ∧ MemLp M 2 P ∧ rms P M ≤ √(d * (t - s)) * σ ∧
      ∀ Z : Ω → E, StronglyMeasurable[F s] Z → MemLp Z 2 P → ∫ ω, ⟪Z ω, M ω⟫_ℝ ∂P = 0 := by
  have hn' : (n : ℝ) ≠ 0 := Nat.cast_ne_zero.2 hn
  have hts : 0 ≤ t - s := by linarith
  have hδ : 0 ≤ (t - s) / n := div_nonneg hts (Nat.cast_nonneg n)
  -- beyond the last point, the integrand is immaterial
  let κ' : ℕ → Fin d → Ω → E := fun i j ω => if i < n then g j (part s t n i) (Y (part s t n i) ω) - κ j ω else 0
  have hκm : ∀ i j, StronglyMeasurable[F (part s t n i)] (κ' i j) := by
    intro i j
    by_cases h : i < n
    · simp only [κ', if_pos h]; exact hgm _ (part_mem hst h.le hn) j
    · simp only [κ', if_neg h]; exact stronglyMeasurable_const
  have hκ2 : ∀ i j, MemLp (κ' i j) 2 P := by
    intro i j
    by_cases h : i < n
    · simp only [κ', if_pos h]; exact hg2 _ (part_mem hst h.le hn) j
    · simp only [κ', if_neg h]; exact MemLp.zero'
  obtain ⟨-, h2, h3, h4⟩ := noise_sum hW (part s t n) (part_mono hst n) (by rw [part_zero]; exact hs) κ' hκm hκ2 n
  have hX : ∀ i ∈ Finset.range n, MemLp (fun ω => ((t - s) / n) • (f (part s t n i) (Y (part s t n i) ω) - φ ω)) 2 P :=
    fun i hi => (hf2 _ (part_mem hst (Finset.mem_range.1 hi).le hn)).const_smul _
  refine ⟨fun ω => ∑ i ∈ Finset.range n, ((t - s) / n) • (f (part s t n i) (Y (part s t n i) ω) - φ ω), _, ?_,
    memLp_finsetSum _ hX, ?_, h2, ?_, fun Z hZ hZ2 => h4 Z (by rw [part_zero]; exact hZ) hZ2⟩
  · intro ω
    have e1 : ∑ i ∈ Finset.range n, mulNoise (κ' i) (incr W (part s t n i) (part s t n (i + 1))) ω
        = ∑ i ∈ Finset.range n, mulNoise (fun j ω => g j (part s t n i) (Y (part s t n i) ω))
            (incr W (part s t n i) (part s t n (i + 1))) ω - mulNoise κ (incr W s t) ω := by
      have := mulNoise_incr_sum (W := W) κ (part s t n) n ω
      rw [part_zero, part_last s t hn] at this
      rw [← this, ← Finset.sum_sub_distrib]
      refine Finset.sum_congr rfl fun i hi => ?_
      rw [← mulNoise_sub]
      simp only [κ', if_pos (Finset.mem_range.1 hi)]
    rw [e1]
    simp only [smul_sub, Finset.sum_sub_distrib, Finset.sum_const, Finset.card_range]
    have e2 : n • ((t - s) / n) • φ ω = (t - s) • φ ω := by
      rw [← Nat.cast_smul_eq_nsmul ℝ, smul_smul, mul_div_cancel₀ _ hn']
    rw [e2]
    have e3 : leftSum f g W Y s t n ω
        = ∑ i ∈ Finset.range n, ((t - s) / n) • f (part s t n i) (Y (part s t n i) ω)
          + ∑ i ∈ Finset.range n, mulNoise (fun j ω => g j (part s t n i) (Y (part s t n i) ω))
            (incr W (part s t n i) (part s t n (i + 1))) ω := by
      rw [← Finset.sum_add_distrib]; rfl
    rw [e3]
    abel
  · refine (rms_sum_le _ _ hX).trans ?_
    calc _ ≤ ∑ i ∈ Finset.range n, (t - s) / n * ρ := by
          refine Finset.sum_le_sum fun i hi => ?_
          rw [rms_smul, abs_of_nonneg hδ]
          exact mul_le_mul_of_nonneg_left (hρ _ (part_mem hst (Finset.mem_range.1 hi).le hn)) hδ
      _ = (t - s) * ρ := by
          rw [Finset.sum_const, Finset.card_range, nsmul_eq_mul, ← mul_assoc, mul_div_cancel₀ _ hn']
  · refine abs_le_of_sq_le_sq' ?_ (by positivity) |>.2
    rw [h3, mul_pow, Real.sq_sqrt (by positivity)]
    calc _ ≤ ∑ i ∈ Finset.range n, (t - s) / n * (d * σ ^ 2) := by
          refine Finset.sum_le_sum fun i hi => ?_
          rw [part_step]
          refine mul_le_mul_of_nonneg_left ?_ hδ
          calc _ ≤ ∑ _j : Fin d, σ ^ 2 := by
                refine Finset.sum_le_sum fun j _ => pow_le_pow_left₀ (rms_nonneg _) ?_ 2
                simp only [κ', if_pos (Finset.mem_range.1 hi)]
                exact hσ _ (part_mem hst (Finset.mem_range.1 hi).le hn) j
            _ = _ := by simp
      _ = _ := by
          rw [Finset.sum_const, Finset.card_range, nsmul_eq_mul, ← mul_assoc, mul_div_cancel₀ _ hn']; ring


/-! ### Errors in mean square -/

/-- The step of an error in mean square: what grows in proportion to the length of the step may depend on the future,
what grows like its square root may not be foreseeable. -/
theorem mean_square_step {e e' : Ω → E} {h α β θ : ℝ} (h0 : 0 ≤ h) (hα : 0 ≤ α) (hβ : 0 ≤ β) (hθ : 0 ≤ θ)
    (he : MemLp e 2 P)
    (hdec : ∀ τ > 0, ∃ D M δ : Ω → E, (∀ ω, e' ω = e ω + D ω + M ω + δ ω) ∧ MemLp D 2 P ∧ MemLp M 2 P ∧ MemLp δ 2 P ∧
      rms P D ≤ h * (α * rms P e + β * θ) ∧ rms P M ≤ √h * (α * rms P e + β * θ) ∧ rms P δ ≤ τ ∧
      ∫ ω, ⟪e ω, M ω⟫_ℝ ∂P = 0) :
    rms P e' ^ 2 ≤ (1 + h) * (rms P e ^ 2 * (1 + 4 * α ^ 2 * h) + 4 * β ^ 2 * h * θ ^ 2) := by
  set ε := rms P e with hε
  have hε0 : 0 ≤ ε := rms_nonneg e
  set q := α * ε + β * θ with hq
  have hq0 : 0 ≤ q := by positivity
  have key : rms P e' ≤ h * q + √(ε ^ 2 + h * q ^ 2) := by
    refine le_of_forall_pos_le_add fun τ hτ => ?_
    obtain ⟨D, M, δ, hd, mD, mM, mδ, rD, rM, rδ, ho⟩ := hdec τ hτ
    have h1 : rms P e' ≤ rms P (fun ω => e ω + M ω) + rms P D + rms P δ := by
      have e1 : e' = fun ω => ((e ω + M ω) + D ω) + δ ω := by funext ω; rw [hd]; abel
      rw [e1]
      have a1 := rms_add_le (memLp_add (memLp_add he mM) mD) mδ
      have a2 := rms_add_le (memLp_add he mM) mD
      linarith
    have h2 : rms P (fun ω => e ω + M ω) ≤ √(ε ^ 2 + h * q ^ 2) := by
      refine Real.le_sqrt_of_sq_le ?_
      rw [rms_add_sq he mM ho]
      have := pow_le_pow_left₀ (rms_nonneg M) rM 2
      rw [mul_pow, Real.sq_sqrt h0] at this
      linarith
    linarith
  have hs : √(ε ^ 2 + h * q ^ 2) ^ 2 = ε ^ 2 + h * q ^ 2 := Real.sq_sqrt (by positivity)
  have hs0 : 0 ≤ √(ε ^ 2 + h * q ^ 2) := Real.sqrt_nonneg _
  have h1 := pow_le_pow_left₀ (rms_nonneg e') key 2
  have h2 : (h * q + √(ε ^ 2 + h * q ^ 2)) ^ 2 ≤ (1 + h) * (ε ^ 2 + 2 * h * q ^ 2) := by
    have h3 : 2 * q * √(ε ^ 2 + h * q ^ 2) ≤ q ^ 2 + √(ε ^ 2 + h * q ^ 2) ^ 2 := two_mul_le_add_sq _ _
    have h4 := mul_le_mul_of_nonneg_left h3 h0
    have h5 : (h * q + √(ε ^ 2 + h * q ^ 2)) ^ 2
        = h ^ 2 * q ^ 2 + h * (2 * q * √(ε ^ 2 + h * q ^ 2)) + √(ε ^ 2 + h * q ^ 2) ^ 2 := by ring
    rw [h5]
    rw [hs] at h4 ⊢
    linarith
  have h3 : q ^ 2 ≤ 2 * (α * ε) ^ 2 + 2 * (β * θ) ^ 2 := by
    have := two_mul_le_add_sq (α * ε) (β * θ)
    rw [hq, add_sq]; linarith
  have h4 : (1 + h) * (ε ^ 2 + 2 * h * q ^ 2)
      ≤ (1 + h) * (ε ^ 2 + 2 * h * (2 * (α * ε) ^ 2 + 2 * (β * θ) ^ 2)) := by gcongr
  refine (h1.trans (h2.trans h4)).trans_eq ?_
  ring

/-- … and the error after many steps. -/
theorem mean_square_gronwall (u : ℕ → ℝ) (p : ℕ → ℝ) {α β θ : ℝ} (N : ℕ)
    (hp : ∀ j < N, p j ≤ p (j + 1))
    (hstep : ∀ j < N, u (j + 1) ≤ (1 + (p (j + 1) - p j)) * (u j * (1 + 4 * α ^ 2 * (p (j + 1) - p j))
      + 4 * β ^ 2 * (p (j + 1) - p j) * θ ^ 2)) (hu : ∀ j, 0 ≤ u j) :
    u N ≤ Real.exp ((1 + 4 * α ^ 2) * (p N - p 0)) * (u 0 + 4 * β ^ 2 * (p N - p 0) * θ ^ 2) := by
  induction N with
  | zero => simp
  | succ N ih =>
    have ih := ih (fun j hj => hp j (by omega)) (fun j hj => hstep j (by omega))
    have h0 : 0 ≤ p (N + 1) - p N := sub_nonneg.2 (hp N (by omega))
    have hN : 0 ≤ p N - p 0 := by
      have : ∀ k ≤ N, p 0 ≤ p k := by
        intro k
        induction k with
        | zero => intro _; exact le_rfl
        | succ k ihk => intro hk; exact (ihk (by omega)).trans (hp k (by omega))
      exact sub_nonneg.2 (this N le_rfl)
    set h := p (N + 1) - p N with hh
    have s1 := hstep N (by omega)
    rw [← hh] at s1
    set K := 1 + 4 * α ^ 2 with hK
    have hK0 : 0 ≤ K := by positivity
    have e1 : 1 + h ≤ Real.exp h := by linarith [Real.add_one_le_exp h]
    have e2 : 1 + 4 * α ^ 2 * h ≤ Real.exp (4 * α ^ 2 * h) := by linarith [Real.add_one_le_exp (4 * α ^ 2 * h)]
    have e3 : 1 ≤ Real.exp (4 * α ^ 2 * h) := Real.one_le_exp (by positivity)
    have b0 : 0 ≤ 4 * β ^ 2 * h * θ ^ 2 := by positivity
    have hE : Real.exp (K * h) = Real.exp h * Real.exp (4 * α ^ 2 * h) := by rw [← Real.exp_add]; congr 1; rw [hK]; ring
    have s2 : u (N + 1) ≤ Real.exp (K * h) * (u N + 4 * β ^ 2 * h * θ ^ 2) := by
      refine s1.trans ?_
      rw [hE, mul_assoc (Real.exp h)]
      refine mul_le_mul e1 ?_ (by have := hu N; positivity) (Real.exp_pos _).le
      have a1 := mul_le_mul_of_nonneg_left e2 (hu N)
      have a2 := le_mul_of_one_le_left b0 e3
      rw [mul_add]
      linarith
    have eN : 1 ≤ Real.exp (K * (p N - p 0)) := Real.one_le_exp (by positivity)
    calc u (N + 1) ≤ Real.exp (K * h) * (u N + 4 * β ^ 2 * h * θ ^ 2) := s2
      _ ≤ Real.exp (K * h) * (Real.exp (K * (p N - p 0)) * (u 0 + 4 * β ^ 2 * (p N - p 0) * θ ^ 2)
            + Real.exp (K * (p N - p 0)) * (4 * β ^ 2 * h * θ ^ 2)) := by
          refine mul_le_mul_of_nonneg_left ?_ (Real.exp_pos _).le
          have := le_mul_of_one_le_left b0 eN
          linarith
      _ = Real.exp (K * (p (N + 1) - p 0)) * (u 0 + 4 * β ^ 2 * (p (N + 1) - p 0) * θ ^ 2) := by
          have : Real.exp (K * (p (N + 1) - p 0)) = Real.exp (K * h) * Real.exp (K * (p N - p 0)) := by
            rw [← Real.exp_add]; congr 1; rw [hh]; ring
          rw [this, hh]; ring

/-! ### Solutions -/

section
variable {f : ℝ → E → E} {g : Fin d → ℝ → E → E} {Y : ℝ → Ω → E} {L : ℝ}

/-- The increments of a solution are of the size of the square root of time. -/
theorem ItoSolution.holder (hW : BrownianNoise P F a W) (hY : ItoSolution P F W f g a b Y) (hL : 0 ≤ L)
    (hf : ItoLipschitz f a b L) (hg : ∀ j, ItoLipschitz (g j) a b L) :
    ∃ C, 0 ≤ C ∧ ∀ s t, a ≤ s → s ≤ t → t ≤ b → rms P (fun ω => Y t ω - Y s ω) ≤ C * √(t - s) := by
  obtain ⟨R, hR⟩ := hY.bounded
  set K := ‖f a 0‖ + ∑ j, ‖g j a 0‖ + L * (√(b - a) + |R|) with hK
  have hK0 : 0 ≤ K := by positivity
  refine ⟨√(b - a) * K + √d * K, by positivity, fun s t hs hst htb => ?_⟩
  have hmem : ∀ r ∈ Icc s t, r ∈ Icc a b := fun r hr => ⟨hs.trans hr.1, hr.2.trans htb⟩
  have hsum : ∀ j, ‖g j a 0‖ ≤ ∑ j, ‖g j a 0‖ := fun j =>
    Finset.single_le_sum (f := fun j => ‖g j a 0‖) (fun _ _ => norm_nonneg _) (Finset.mem_univ j)
  have hsum0 : 0 ≤ ∑ j, ‖g j a 0‖ := Finset.sum_nonneg fun _ _ => norm_nonneg _
  have hRr : ∀ r ∈ Icc s t, L * (√(b - a) + rms P (Y r)) ≤ L * (√(b - a) + |R|) := fun r hr =>
    mul_le_mul_of_nonneg_left (by linarith [hR r (hmem r hr), le_abs_self R]) hL
  have hts : 0 ≤ t - s := by linarith
  have bound : ∀ n : ℕ, n ≠ 0 → rms P (fun ω => Y t ω - Y s ω)
      ≤ rms P (fun ω => Y t ω - Y s ω - leftSum f g W Y s t n ω) + ((t - s) * K + √(d * (t - s)) * K) := by
    intro n hn
    obtain ⟨X, M, hd, mX, rX, mM, rM, -⟩ := leftSum_split hW (f := f) (g := g) (Y := Y) hs hst (fun _ => 0)
      (fun _ _ => 0) (ρ := K) (σ := K)
      (fun r hr => by simpa using hf.memLp hL (hmem r hr) (hY.memLp r (hmem r hr)))
      (fun r hr j => by simpa using (hg j).measurable hL (hmem r hr) (hY.adapted r (hmem r hr)))
      (fun r hr j => by simpa using (hg j).memLp hL (hmem r hr) (hY.memLp r (hmem r hr)))
      (fun r hr => by
        have := hf.rms_le hL (hmem r hr) (hY.memLp r (hmem r hr))
        simp only [sub_zero]; linarith [hRr r hr])
      hK0 (fun r hr j => by
        have := (hg j).rms_le hL (hmem r hr) (hY.memLp r (hmem r hr))
        simp only [sub_zero]; linarith [hRr r hr, hsum j, norm_nonneg (f a 0)]) hn
    have hLS : leftSum f g W Y s t n = fun ω => X ω + M ω := by
      funext ω; rw [hd]; simp [mulNoise]
    have mLS : MemLp (leftSum f g W Y s t n) 2 P := by rw [hLS]; exact memLp_add mX mM
    have mY : MemLp (fun ω => Y t ω - Y s ω) 2 P :=
      memLp_sub (hY.memLp t (hmem t ⟨hst, le_rfl⟩)) (hY.memLp s (hmem s ⟨le_rfl, hst⟩))
    have h1 := rms_add_le (memLp_sub mY mLS) mLS
    simp only [sub_add_cancel] at h1
    have h2 : rms P (leftSum f g W Y s t n) ≤ rms P X + rms P M := by rw [hLS]; exact rms_add_le mX mM
    linarith
  have lim := (hY.increments s t hs hst htb).add_const ((t - s) * K + √(d * (t - s)) * K)
  have := ge_of_tendsto lim (eventually_atTop.2 ⟨1, fun n hn => bound n (by omega)⟩)
  refine this.trans ?_
  rw [zero_add, Real.sqrt_mul (Nat.cast_nonneg d)]
  have h1 : t - s = √(t - s) * √(t - s) := (Real.mul_self_sqrt hts).symm
  have h2 : √(t - s) ≤ √(b - a) := Real.sqrt_le_sqrt (by linarith)
  have h3 : (t - s) * K ≤ √(b - a) * K * √(t - s) := by
    calc (t - s) * K = √(t - s) * (K * √(t - s)) := by rw [mul_comm K, ← mul_assoc, ← h1]
      _ ≤ √(b - a) * (K * √(t - s)) := by gcongr
      _ = _ := by ring
  linarith

/-- One step of a method that differs from the Euler–Maruyama method by something small, and something less small that
cannot be foreseen. -/
theorem ItoSolution.step (hW : BrownianNoise P F a W) (hY : ItoSolution P F W f g a b Y) (hL : 0 ≤ L)
    (hf : ItoLipschitz f a b L) (hg : ∀ j, ItoLipschitz (g j) a b L) {c : ℝ} (hc : 0 ≤ c) :
    ∃ α β, 0 ≤ α ∧ 0 ≤ β ∧ ∀ s t, a ≤ s → s ≤ t → t ≤ b → ∀ V V' R1 R2 : Ω → E, StronglyMeasurable[F s] V →
      MemLp V 2 P → MemLp R1 2 P → MemLp R2 2 P →
      (∀ Z : Ω → E, StronglyMeasurable[F s] Z → MemLp Z 2 P → ∫ ω, ⟪Z ω, R1 ω⟫_ℝ ∂P = 0) →
      rms P R1 ≤ c * (t - s) * (1 + rms P V) → rms P R2 ≤ c * (t - s) * √(t - s) * (1 + rms P V) →
      (∀ ω, V' ω = V ω + (t - s) • f s (V ω) + mulNoise (fun j ω => g j s (V ω)) (incr W s t) ω + R1 ω + R2 ω) →
      rms P (fun ω => V' ω - Y t ω) ^ 2 ≤ (1 + (t - s)) * (rms P (fun ω => V ω - Y s ω) ^ 2
        * (1 + 4 * α ^ 2 * (t - s)) + 4 * β ^ 2 * (t - s) * √(t - s) ^ 2) := by
  obtain ⟨C, hC0, hC⟩ := hY.holder hW hL hf hg
  obtain ⟨R, hR⟩ := hY.bounded
  set ρ := L * (1 + |R| + C) with hρ
  have hρ0 : 0 ≤ ρ := by positivity
  refine ⟨(1 + √d) * L + c * √(b - a), (1 + √d) * ρ + c * (1 + |R|), by positivity, by positivity, ?_⟩
  intro s t hs hst htb V V' R1 R2 hV hV2 mR1 mR2 oR1 rR1 rR2 hV'
  have hts : 0 ≤ t - s := by linarith
  have hmem : ∀ r ∈ Icc s t, r ∈ Icc a b := fun r hr => ⟨hs.trans hr.1, hr.2.trans htb⟩
  have hsI := hmem s ⟨le_rfl, hst⟩
  have htI := hmem t ⟨hst, le_rfl⟩
  have mY := hY.memLp s hsI
  have hRs : rms P (Y s) ≤ |R| := (hR s hsI).trans (le_abs_self R)
  have hw := hW.white hs hst
  set h := t - s with hh
  set ε := rms P (fun ω => V ω - Y s ω) with hε
  have hε0 : 0 ≤ ε := rms_nonneg _
  have hsq : √h ≤ √(b - a) := Real.sqrt_le_sqrt (by linarith)
  have hsqh : √h * √h = h := Real.mul_self_sqrt hts
  have hVr : rms P V ≤ |R| + ε := by
    have h1 := rms_add_le mY (memLp_sub hV2 mY)
    simp only [add_sub_cancel] at h1
    linarith
  -- the change of the coefficients along the solution
  have hch : ∀ φ : ℝ → E → E, ItoLipschitz φ a b L → ∀ r ∈ Icc s t,
      rms P (fun ω => φ r (Y r ω) - φ s (Y s ω)) ≤ ρ * √h := by
    intro φ hφ r hr
    have h1 := hφ.rms_sub hL hsI (hmem r hr) (hY.memLp r (hmem r hr)) mY
    have h2 := hC s r hs hr.1 (hr.2.trans htb)
    rw [abs_of_nonneg (sub_nonneg.2 hr.1)] at h1
    have h3 : √(r - s) ≤ √h := Real.sqrt_le_sqrt (by linarith [hr.2])
    calc _ ≤ L * (√(r - s) * (1 + rms P (Y s)) + rms P (fun ω => Y r ω - Y s ω)) := h1
      _ ≤ L * (√h * (1 + |R|) + C * √h) := by
        refine mul_le_mul_of_nonneg_left (add_le_add ?_ ?_) hL
        · exact mul_le_mul h3 (by linarith) (by linarith [rms_nonneg (P := P) (Y s)]) (Real.sqrt_nonneg _)
        · exact h2.trans (mul_le_mul_of_nonneg_left h3 hC0)
      _ = _ := by rw [hρ]; ring
  -- the difference of the coefficients at the numerical value and at the solution
  have hdf : ∀ φ : ℝ → E → E, ItoLipschitz φ a b L → rms P (fun ω => φ s (V ω) - φ s (Y s ω)) ≤ L * ε := by
    intro φ hφ
    have := hφ.rms_sub hL hsI hsI hV2 mY
    simpa using this
  have mΔg : ∀ j, MemLp (fun ω => g j s (V ω) - g j s (Y s ω)) 2 P := fun j =>
    memLp_sub ((hg j).memLp hL hsI hV2) ((hg j).memLp hL hsI mY)
  have sΔg : ∀ j, StronglyMeasurable[F s] (fun ω => g j s (V ω) - g j s (Y s ω)) := fun j =>
    ((hg j).measurable hL hsI hV).sub ((hg j).measurable hL hsI (hY.adapted s hsI))
  have mΔf : MemLp (fun ω => f s (V ω) - f s (Y s ω)) 2 P :=
    memLp_sub (hf.memLp hL hsI hV2) (hf.memLp hL hsI mY)
  have rΔ : rms P (mulNoise (fun j ω => g j s (V ω) - g j s (Y s ω)) (incr W s t)) ≤ √(d * h) * (L * ε) := by
    refine abs_le_of_sq_le_sq' ?_ (by positivity) |>.2
    rw [hw.isometry sΔg mΔg, mul_pow, Real.sq_sqrt (by positivity)]
    calc _ ≤ h * ∑ _j : Fin d, (L * ε) ^ 2 := by
          refine mul_le_mul_of_nonneg_left (Finset.sum_le_sum fun j _ => ?_) hts
          exact pow_le_pow_left₀ (rms_nonneg _) (hdf _ (hg j)) 2
      _ = _ := by simp; ring
  refine mean_square_step (e := fun ω => V ω - Y s ω) (e' := fun ω => V' ω - Y t ω) hts (by positivity)
    (by positivity) (Real.sqrt_nonneg _) (memLp_sub hV2 mY) fun τ hτ => ?_
  obtain ⟨n, hn, hnτ⟩ := ((eventually_ne_atTop (0 : ℕ)).and
    ((hY.increments s t hs hst htb).eventually (gt_mem_nhds hτ))).exists
  obtain ⟨X, M, hd, mX, rX, mM, rM, oM⟩ := leftSum_split hW (f := f) (g := g) (Y := Y) hs hst
    (fun ω => f s (Y s ω)) (fun j ω => g j s (Y s ω)) (ρ := ρ * √h) (σ := ρ * √h)
    (fun r hr => memLp_sub (hf.memLp hL (hmem r hr) (hY.memLp r (hmem r hr))) (hf.memLp hL hsI mY))
    (fun r hr j => ((hg j).measurable hL (hmem r hr) (hY.adapted r (hmem r hr))).sub
      (((hg j).measurable hL hsI (hY.adapted s hsI)).mono (hW.mono s r hr.1)))
    (fun r hr j => memLp_sub ((hg j).memLp hL (hmem r hr) (hY.memLp r (hmem r hr))) ((hg j).memLp hL hsI mY))
    (fun r hr => hch f hf r hr) (by positivity) (fun r hr j => hch (g j) (hg j) r hr) hn
  have mLS : MemLp (leftSum f g W Y s t n) 2 P := by
    have : leftSum f g W Y s t n = fun ω => (t - s) • f s (Y s ω)
        + mulNoise (fun j ω => g j s (Y s ω)) (incr W s t) ω + X ω + M ω := by funext ω; exact hd ω
    rw [this]
    exact memLp_add (memLp_add (memLp_add ((hf.memLp hL hsI mY).const_smul _)
      (hw.memLp_mulNoise (fun j => (hg j).measurable hL hsI (hY.adapted s hsI))
        (fun j => (hg j).memLp hL hsI mY))) mX) mM
  have mδ : MemLp (fun ω => Y t ω - Y s ω - leftSum f g W Y s t n ω) 2 P :=
    memLp_sub (memLp_sub (hY.memLp t htI) mY) mLS
  have mN := hw.memLp_mulNoise sΔg mΔg
  have mfX : MemLp (fun ω => h • (f s (V ω) - f s (Y s ω)) - X ω) 2 P := memLp_sub (mΔf.const_smul h) mX
  have mNM : MemLp (fun ω => mulNoise (fun j ω => g j s (V ω) - g j s (Y s ω)) (incr W s t) ω - M ω) 2 P :=
    memLp_sub mN mM
  refine ⟨fun ω => (h • (f s (V ω) - f s (Y s ω)) - X ω) + R2 ω,
    fun ω => (mulNoise (fun j ω => g j s (V ω) - g j s (Y s ω)) (incr W s t) ω - M ω) + R1 ω,
    fun ω => -(Y t ω - Y s ω - leftSum f g W Y s t n ω), ?_, memLp_add mfX mR2, memLp_add mNM mR1, mδ.neg,
    ?_, ?_, ?_, ?_⟩
  · intro ω
    dsimp only
    rw [hV', hd, mulNoise_sub, smul_sub]
    abel
  · have a1 := rms_add_le mfX mR2
    have a2 := rms_sub_le (mΔf.const_smul h) mX
    have a3 : rms P (h • fun ω => f s (V ω) - f s (Y s ω)) ≤ h * (L * ε) := by
      have : rms P (h • fun ω => f s (V ω) - f s (Y s ω)) = |h| * rms P (fun ω => f s (V ω) - f s (Y s ω)) :=
        rms_smul h _
      rw [this, abs_of_nonneg hts]
      exact mul_le_mul_of_nonneg_left (hdf f hf) hts
    have a4 : c * h * √h * (1 + rms P V) ≤ h * (c * √(b - a) * ε + c * (1 + |R|) * √h) := by
      calc c * h * √h * (1 + rms P V) ≤ c * h * √h * (1 + (|R| + ε)) := by gcongr
        _ = h * (c * √h * ε + c * (1 + |R|) * √h) := by ring
        _ ≤ _ := by gcongr
    have a5 : h * (L * ε) ≤ h * ((1 + √d) * L * ε) := by
      refine mul_le_mul_of_nonneg_left ?_ hts
      have : 0 ≤ √d * L * ε := by positivity
      linarith
    have a6 : h * (ρ * √h) ≤ h * ((1 + √d) * ρ * √h) := by
      refine mul_le_mul_of_nonneg_left ?_ hts
      have : 0 ≤ √d * ρ * √h := by positivity
      linarith
    have a7 : rms P (fun ω => h • (f s (V ω) - f s (Y s ω)) - X ω) ≤ h * (L * ε) + h * (ρ * √h) :=
      a2.trans (add_le_add a3 rX)
    calc _ ≤ h * ((1 + √d) * L * ε) + h * ((1 + √d) * ρ * √h)
          + h * (c * √(b - a) * ε + c * (1 + |R|) * √h) := by linarith
      _ = _ := by ring
  · have a1 := rms_add_le mNM mR1
    have a2 := rms_sub_le mN mM
    have a4 : c * h * (1 + rms P V) ≤ √h * (c * √(b - a) * ε + c * (1 + |R|) * √h) := by
      calc c * h * (1 + rms P V) ≤ c * h * (1 + (|R| + ε)) := by gcongr
        _ = √h * (c * √h * ε + c * (1 + |R|) * √h) := by rw [← hsqh]; ring_nf; simp; ring
        _ ≤ _ := by gcongr
    rw [Real.sqrt_mul (Nat.cast_nonneg d)] at rΔ rM
    have a5 : √d * √h * (L * ε) ≤ √h * ((1 + √d) * L * ε) := by
      have : 0 ≤ √h * (L * ε) := by positivity
      linarith
    have a6 : √d * √h * (ρ * √h) ≤ √h * ((1 + √d) * ρ * √h) := by
      have : 0 ≤ √h * (ρ * √h) := by positivity
      linarith
    calc _ ≤ √h * ((1 + √d) * L * ε) + √h * ((1 + √d) * ρ * √h)
          + √h * (c * √(b - a) * ε + c * (1 + |R|) * √h) := by linarith
      _ = _ := by ring
  · rw [rms_neg]; exact hnτ.le
  · have se : StronglyMeasurable[F s] (fun ω => V ω - Y s ω) := hV.sub (hY.adapted s hsI)
    have me : MemLp (fun ω => V ω - Y s ω) 2 P := memLp_sub hV2 mY
    simp only [inner_add_right, inner_sub_right]
    have i1 := integrable_inner me mN
    have i2 := integrable_inner me mM
    have i3 := integrable_inner me mR1
    have i12 : Integrable (fun ω => ⟪V ω - Y s ω, mulNoise (fun j ω => g j s (V ω) - g j s (Y s ω)) (incr W s t) ω⟫_ℝ
      - ⟪V ω - Y s ω, M ω⟫_ℝ) P := i1.sub i2
    rw [integral_add i12 i3, integral_sub i1 i2, hw.orthogonal sΔg mΔg se me, oM _ se me, oR1 _ se me]
    simp

end

end Verif
