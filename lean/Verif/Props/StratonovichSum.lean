import Verif.Spec.StratonovichSum
import Verif.Props.StrongOrderOne

/-!
# The solutions of Stratonovich equations are what they should be

`StratonovichSolution` is defined through the drift correction. Its increments are the limits of Stratonovich sums.
-/

set_option linter.unusedSectionVars false

namespace Verif
open MeasureTheory ProbabilityTheory Filter Set Topology
open scoped InnerProductSpace ENNReal

variable {Ω : Type} {F : ℝ → MeasurableSpace Ω} {mΩ : MeasurableSpace Ω} {P : Measure Ω} [IsProbabilityMeasure P]
  {E : Type} [NormedAddCommGroup E] [InnerProductSpace ℝ E] {d : ℕ} {W : ℝ → Ω → Fin d → ℝ} {a b : ℝ}
  {f : ℝ → E → E} {g : Fin d → ℝ → E → E} {Y : ℝ → Ω → E} {L Λ : ℝ}

/-- The Cauchy-Schwarz inequality. -/
theorem integral_smul_le {u : Ω → ℝ} {X : Ω → E} (hu : MemLp u 2 P) (hX : MemLp X 2 P) :
    Integrable (fun ω => u ω • X ω) P ∧ ∫ ω, ‖u ω • X ω‖ ∂P ≤ rms P u * rms P X := by
  have hi : Integrable (fun ω => u ω • X ω) P := memLp_one_iff_integrable.1 (MemLp.smul (r := 1) hX hu)
  refine ⟨hi, ?_⟩
  have e : ∀ ω, ‖u ω • X ω‖ = ⟪‖u ω‖, ‖X ω‖⟫_ℝ := by
    intro ω; rw [norm_smul]; simp [mul_comm]
  have h1 : ∫ ω, ‖u ω • X ω‖ ∂P = ⟪hu.norm.toLp _, hX.norm.toLp _⟫_ℝ := by
    rw [L2.inner_def]
    refine integral_congr_ae ?_
    filter_upwards [hu.norm.coeFn_toLp, hX.norm.coeFn_toLp] with ω h1 h2
    rw [h1, h2, e]
  rw [h1]
  refine (real_inner_le_norm _ _).trans ?_
  rw [Lp.norm_toLp, Lp.norm_toLp, eLpNorm_norm, eLpNorm_norm]
  exact le_rfl

theorem integral_norm_le {X : Ω → E} (hX : MemLp X 2 P) : ∫ ω, ‖X ω‖ ∂P ≤ rms P X := by
  have h1 : MemLp (fun _ : Ω => (1 : ℝ)) 2 P := memLp_const _
  have := (integral_smul_le h1 hX).2
  rw [rms_const] at this
  simpa using this

theorem leftSum_memLp (hW : BrownianNoise P F a W) (hY : ItoSolution P F W f g a b Y) (hL : 0 ≤ L)
    (hf : ItoLipschitz f a b L) (hg : ∀ j, ItoLipschitz (g j) a b L) {s t : ℝ} (hs : a ≤ s) (hst : s ≤ t) (htb : t ≤ b)
    {n : ℕ} (hn : n ≠ 0) : MemLp (leftSum f g W Y s t n) 2 P := by
  have hm : ∀ i ∈ Finset.range n, MemLp (fun ω => ((t - s) / n) • f (part s t n i) (Y (part s t n i) ω)
      + mulNoise (fun j ω => g j (part s t n i) (Y (part s t n i) ω))
        (incr W (part s t n i) (part s t n (i + 1))) ω) 2 P := by
    intro i hi
    have hp : part s t n i ∈ Icc s t := part_mem hst (Finset.mem_range.1 hi).le hn
    have hi' : part s t n i ∈ Icc a b := ⟨hs.trans hp.1, hp.2.trans htb⟩
    exact memLp_add ((hf.memLp hL hi' (hY.memLp _ hi')).const_smul _)
      ((hW.white hi'.1 (part_mono hst n (Nat.le_succ i))).memLp_mulNoise
        (fun j => (hg j).measurable hL hi' (hY.adapted _ hi')) (fun j => (hg j).memLp hL hi' (hY.memLp _ hi')))
  have e : leftSum f g W Y s t n = fun ω => ∑ i ∈ Finset.range n,
      (((t - s) / n) • f (part s t n i) (Y (part s t n i) ω)
      + mulNoise (fun j ω => g j (part s t n i) (Y (part s t n i) ω))
        (incr W (part s t n i) (part s t n (i + 1))) ω) := by funext ω; rfl
  rw [e]
  exact memLp_finsetSum _ hm

/-- A Stratonovich sum is the left-point sum of the corrected equation, and a rest. -/
theorem trapezoidSum_eq (s t : ℝ) (n : ℕ) (ω : Ω) :
    trapezoidSum f g W Y s t n ω = leftSum (stratonovichCorrected f g) g W Y s t n ω
      + ∑ i ∈ Finset.range n, milsteinTerm g W (Y (part s t n i)) (part s t n i) (part s t n (i + 1)) ω
      + (1 / 2 : ℝ) • ∑ i ∈ Finset.range n, ∑ j, incr W (part s t n i) (part s t n (i + 1)) ω j
        • (g j (part s t n (i + 1)) (Y (part s t n (i + 1)) ω) - (g j (part s t n i) (Y (part s t n i) ω)
          + mulNoise (along (g j) g Y (part s t n i)) (incr W (part s t n i) (part s t n (i + 1))) ω)) := by
  unfold trapezoidSum leftSum
  rw [Finset.smul_sum, ← Finset.sum_add_distrib, ← Finset.sum_add_distrib]
  refine Finset.sum_congr rfl fun i _ => ?_
  have hst := part_step s t n i
  unfold milsteinTerm
  rw [hst]
  change ((t - s) / n) • f (part s t n i) (Y (part s t n i) ω)
      + ∑ j, incr W (part s t n i) (part s t n (i + 1)) ω j
        • (1 / 2 : ℝ) • (g j (part s t n i) (Y (part s t n i) ω)
          + g j (part s t n (i + 1)) (Y (part s t n (i + 1)) ω))
    = ((t - s) / n) • stratonovichCorrected f g (part s t n i) (Y (part s t n i) ω)
      + ∑ j, incr W (part s t n i) (part s t n (i + 1)) ω j • g j (part s t n i) (Y (part s t n i) ω)
      + (1 / 2 : ℝ) • ∑ k, ∑ j, centred ((t - s) / n) k j (incr W (part s t n i) (part s t n (i + 1)) ω)
        • along (g j) g Y (part s t n i) k ω + _
  generalize part s t n (i + 1) = r'
  generalize part s t n i = r
  generalize (t - s) / (n : ℝ) = δ
  generalize hξ : incr W r r' ω = ξ
  have e1 : ∑ k, ∑ j, centred δ k j ξ • along (g j) g Y r k ω
      = ∑ j, ξ j • ∑ k, ξ k • along (g j) g Y r k ω - δ • ∑ j, along (g j) g Y r j ω := by
    rw [Finset.sum_comm, Finset.smul_sum, ← Finset.sum_sub_distrib]
    refine Finset.sum_congr rfl fun j _ => ?_
    simp only [centred, sub_smul, Finset.sum_sub_distrib, ite_smul, zero_smul, Finset.sum_ite_eq', Finset.mem_univ,
      if_true, Finset.smul_sum, smul_smul]
    congr 1
    exact Finset.sum_congr rfl fun k _ => by rw [mul_comm]
  rw [e1]
  have e2 : stratonovichCorrected f g r (Y r ω) = f r (Y r ω) + (1 / 2 : ℝ) • ∑ j, along (g j) g Y r j ω := rfl
  rw [e2]
  have e3 : ∑ j, ξ j • (1 / 2 : ℝ) • (g j r (Y r ω) + g j r' (Y r' ω))
      = (1 / 2 : ℝ) • (∑ j, ξ j • g j r (Y r ω) + ∑ j, ξ j • g j r' (Y r' ω)) := by
    rw [← Finset.sum_add_distrib, Finset.smul_sum]
    exact Finset.sum_congr rfl fun j _ => by module
  have e4 : ∑ j, ξ j • (g j r' (Y r' ω) - (g j r (Y r ω) + ∑ k, ξ k • along (g j) g Y r k ω))
      = ∑ j, ξ j • g j r' (Y r' ω) - ∑ j, ξ j • g j r (Y r ω) - ∑ j, ξ j • ∑ k, ξ k • along (g j) g Y r k ω := by
    rw [← Finset.sum_sub_distrib, ← Finset.sum_sub_distrib]
    exact Finset.sum_congr rfl fun j _ => by module
  have e5 : ∑ j, ξ j • (g j r' (Y r' ω) - (g j r (Y r ω) + mulNoise (along (g j) g Y r) (incr W r r') ω))
      = ∑ j, ξ j • (g j r' (Y r' ω) - (g j r (Y r ω) + ∑ k, ξ k • along (g j) g Y r k ω)) := by
    simp only [mulNoise, ← hξ]
  rw [e3, e5, e4]
  module

/-- The increments of the solutions of a Stratonovich equation are the limits, in mean, of the Stratonovich sums. -/
theorem C81_stratonovich_sums (hW : BrownianNoise P F a W) (hY : StratonovichSolution P F W f g a b Y) (hL : 0 ≤ L)
    (hf : ItoLipschitz (stratonovichCorrected f g) a b L) (hg : ∀ j, ItoLipschitz (g j) a b L) (hΛ : 0 ≤ Λ)
    (hgt : ∀ j, TimeLipschitz (g j) a b L) (hgs : ∀ j, SmoothAlong (g j) g a b Λ) {s t : ℝ} (hs : a ≤ s) (hst : s ≤ t)
    (htb : t ≤ b) :
    Tendsto (fun n => ∫ ω, ‖Y t ω - Y s ω - trapezoidSum f g W Y s t n ω‖ ∂P) atTop (𝓝 0) := by
  obtain ⟨C, hC0, hC⟩ := ItoSolution.taylor hW hY hL hf hg hΛ
  obtain ⟨A, hA0, hA⟩ := along_small hY hW.le hL hg
  obtain ⟨c, hc0, hc⟩ := centred_sum (E := E) hW
  have hts : 0 ≤ t - s := by linarith
  have hmem : ∀ r ∈ Icc s t, r ∈ Icc a b := fun r hr => ⟨hs.trans hr.1, hr.2.trans htb⟩
  have hg1 : ∀ j, ∀ t ∈ Icc a b, ContDiff ℝ 1 (g j t) := fun j t ht => (hgs j t ht).1
  have hsI := hmem s ⟨le_rfl, hst⟩
  have htI := hmem t ⟨hst, le_rfl⟩
  have bound : ∀ n : ℕ, n ≠ 0 → ∫ ω, ‖Y t ω - Y s ω - trapezoidSum f g W Y s t n ω‖ ∂P
      ≤ rms P (fun ω => Y t ω - Y s ω - leftSum (stratonovichCorrected f g) g W Y s t n ω)
        + (c * A * (t - s) + d * C * √(t - s) * (t - s)) * √(1 / n) := by
    intro n hn
    have hn' : (n : ℝ) ≠ 0 := Nat.cast_ne_zero.2 hn
    have hn0 : (0 : ℝ) < n := by positivity
    have hδ : 0 ≤ (t - s) / n := div_nonneg hts (Nat.cast_nonneg n)
    have hpI : ∀ i, i ≤ n → part s t n i ∈ Icc a b := fun i hi => hmem _ (part_mem hst hi hn)
    have hle : ∀ i, part s t n i ≤ part s t n (i + 1) := fun i => part_mono hst n (Nat.le_succ i)
    -- the part that cannot be foreseen
    set T : ℕ → Ω → E := fun i ω => if i < n then
      milsteinTerm g W (Y (part s t n i)) (part s t n i) (part s t n (i + 1)) ω else 0 with hT
    have hTi : ∀ i, i < n → _ := fun i hi => hc (part s t n i) (part s t n (i + 1)) (hpI i hi.le).1 (hle i)
      (fun k j => along (g j) g Y (part s t n i) k) A hA0
      (fun k j => (hA (g j) (hg j) (hg1 j) _ (hpI i hi.le) k).1)
      (fun k j => (hA (g j) (hg j) (hg1 j) _ (hpI i hi.le) k).2.1)
      (fun k j => (hA (g j) (hg j) (hg1 j) _ (hpI i hi.le) k).2.2)
    have hTlt : ∀ i, i < n → T i = milsteinTerm g W (Y (part s t n i)) (part s t n i) (part s t n (i + 1)) :=
      fun i hi => by funext ω; simp [hT, hi]
    have hTge : ∀ i, ¬ i < n → T i = fun _ => 0 := fun i hi => by funext ω; simp [hT, hi]
    have hms := martingale_sum (P := P) hW.mono (part s t n) (part_mono hst n) T
      (fun i => by
        by_cases hi : i < n
        · rw [hTlt i hi]; exact (hTi i hi).1
        · rw [hTge i hi]; exact stronglyMeasurable_const)
      (fun i => by
        by_cases hi : i < n
        · rw [hTlt i hi]; exact (hTi i hi).2.1
        · rw [hTge i hi]; exact MemLp.zero')
      (fun i Z hZ hZ2 => by
        by_cases hi : i < n
        · rw [hTlt i hi]; exact (hTi i hi).2.2.1 Z hZ hZ2
        · rw [hTge i hi]; simp) n
    have rT : rms P (fun ω => ∑ i ∈ Finset.range n, T i ω) ≤ c * A * (t - s) * √(1 / n) := by
      refine abs_le_of_sq_le_sq' ?_ (by positivity) |>.2
      rw [hms.2.2.1, mul_pow, Real.sq_sqrt (by positivity)]
      calc _ ≤ ∑ _i ∈ Finset.range n, (c * ((t - s) / n) * A) ^ 2 := by
            refine Finset.sum_le_sum fun i hi => ?_
            have hi := Finset.mem_range.1 hi
            rw [hTlt i hi]
            refine pow_le_pow_left₀ (rms_nonneg _) ?_ 2
            have := (hTi i hi).2.2.2
            rw [← part_step s t n i]
            exact this
        _ = _ := by
            rw [Finset.sum_const, Finset.card_range, nsmul_eq_mul]
            field_simp
    -- the rest
    set ρ : ℕ → Fin d → Ω → E := fun i j ω => g j (part s t n (i + 1)) (Y (part s t n (i + 1)) ω)
      - (g j (part s t n i) (Y (part s t n i) ω)
          + mulNoise (along (g j) g Y (part s t n i)) (incr W (part s t n i) (part s t n (i + 1))) ω) with hρ
    have hρi : ∀ i ∈ Finset.range n, ∀ j, MemLp (ρ i j) 2 P ∧ rms P (ρ i j) ≤ C * ((t - s) / n) := fun i hi j => by
      have hi := Finset.mem_range.1 hi
      have := (hC (g j) (hg j) (hgt j) (hgs j) (part s t n i) (part s t n (i + 1)) (hpI i hi.le).1 (hle i)
        (hpI (i + 1) hi).2).2
      rwa [part_step] at this
    have hw : ∀ i ∈ Finset.range n, ∀ j, MemLp (fun ω => incr W (part s t n i) (part s t n (i + 1)) ω j) 2 P ∧
        rms P (fun ω => incr W (part s t n i) (part s t n (i + 1)) ω j) = √((t - s) / n) := fun i hi j => by
      have hξ := hW.white (hpI i (Finset.mem_range.1 hi).le).1 (hle i)
      refine ⟨hξ.memLp j, ?_⟩
      have h2 := rms_sq (hξ.memLp j)
      have h3 := hξ.cov j j
      rw [if_pos rfl, part_step] at h3
      rw [← Real.sqrt_sq (rms_nonneg (P := P) _), h2, ← h3]
      congr 2
      funext ω
      rw [Real.norm_eq_abs, sq_abs, sq]
    have hprod : ∀ i ∈ Finset.range n, ∀ j, _ := fun i hi j => integral_smul_le (hw i hi j).1 (hρi i hi j).1
    have iS : ∀ i ∈ Finset.range n, Integrable (fun ω => ∑ j, incr W (part s t n i) (part s t n (i + 1)) ω j • ρ i j ω) P :=
      fun i hi => integrable_finsetSum _ fun j _ => (hprod i hi j).1
    have iR : Integrable (fun ω => ∑ i ∈ Finset.range n, ∑ j, incr W (part s t n i) (part s t n (i + 1)) ω j • ρ i j ω) P :=
      integrable_finsetSum _ iS
    have rR : ∫ ω, ‖∑ i ∈ Finset.range n, ∑ j, incr W (part s t n i) (part s t n (i + 1)) ω j • ρ i j ω‖ ∂P
        ≤ d * C * √(t - s) * (t - s) * √(1 / n) := by
      calc _ ≤ ∫ ω, ∑ i ∈ Finset.range n, ∑ j, ‖incr W (part s t n i) (part s t n (i + 1)) ω j • ρ i j ω‖ ∂P := by
            refine integral_mono iR.norm (integrable_finsetSum _ fun i hi => integrable_finsetSum _ fun j _ =>
              (hprod i hi j).1.norm) fun ω => ?_
            exact (norm_sum_le _ _).trans (Finset.sum_le_sum fun i _ => norm_sum_le _ _)
        _ = ∑ i ∈ Finset.range n, ∑ j, ∫ ω, ‖incr W (part s t n i) (part s t n (i + 1)) ω j • ρ i j ω‖ ∂P := by
            rw [integral_finsetSum _ fun i hi => integrable_finsetSum _ fun j _ => (hprod i hi j).1.norm]
            exact Finset.sum_congr rfl fun i hi => integral_finsetSum _ fun j _ => (hprod i hi j).1.norm
        _ ≤ ∑ _i ∈ Finset.range n, ∑ _j : Fin d, √((t - s) / n) * (C * ((t - s) / n)) := by
            refine Finset.sum_le_sum fun i hi => Finset.sum_le_sum fun j _ => (hprod i hi j).2.trans ?_
            rw [(hw i hi j).2]
            exact mul_le_mul_of_nonneg_left (hρi i hi j).2 (Real.sqrt_nonneg _)
        _ = _ := by
            rw [Finset.sum_const, Finset.card_range, Finset.sum_const, Finset.card_univ, Fintype.card_fin, nsmul_eq_mul,
              nsmul_eq_mul, div_eq_mul_one_div (t - s), Real.sqrt_mul hts]
            field_simp
    have mL : MemLp (fun ω => Y t ω - Y s ω - leftSum (stratonovichCorrected f g) g W Y s t n ω) 2 P :=
      memLp_sub (memLp_sub (hY.memLp t htI) (hY.memLp s hsI)) (leftSum_memLp hW hY hL hf hg hs hst htb hn)
    have e : ∀ ω, Y t ω - Y s ω - trapezoidSum f g W Y s t n ω
        = (Y t ω - Y s ω - leftSum (stratonovichCorrected f g) g W Y s t n ω) - (∑ i ∈ Finset.range n, T i ω)
          - (1 / 2 : ℝ) • ∑ i ∈ Finset.range n, ∑ j, incr W (part s t n i) (part s t n (i + 1)) ω j • ρ i j ω := by
      intro ω
      rw [trapezoidSum_eq]
      have : ∑ i ∈ Finset.range n, T i ω
          = ∑ i ∈ Finset.range n, milsteinTerm g W (Y (part s t n i)) (part s t n i) (part s t n (i + 1)) ω :=
        Finset.sum_congr rfl fun i hi => by rw [hTlt i (Finset.mem_range.1 hi)]
      rw [this]
      abel
    have i1 := mL.integrable one_le_two
    have i2 := hms.2.1.integrable one_le_two
    calc _ ≤ ∫ ω, (‖Y t ω - Y s ω - leftSum (stratonovichCorrected f g) g W Y s t n ω‖
          + ‖∑ i ∈ Finset.range n, T i ω‖
          + ‖∑ i ∈ Finset.range n, ∑ j, incr W (part s t n i) (part s t n (i + 1)) ω j • ρ i j ω‖) ∂P := by
          refine integral_mono_of_nonneg (ae_of_all _ fun ω => norm_nonneg _) ((i1.norm.add i2.norm).add iR.norm)
            (ae_of_all _ fun ω => ?_)
          simp only [e ω]
          refine (norm_sub_le _ _).trans (add_le_add (norm_sub_le _ _) ?_)
          rw [norm_smul]
          refine mul_le_of_le_one_left (norm_nonneg _) ?_
          norm_num
      _ = ∫ ω, ‖Y t ω - Y s ω - leftSum (stratonovichCorrected f g) g W Y s t n ω‖ ∂P
          + ∫ ω, ‖∑ i ∈ Finset.range n, T i ω‖ ∂P
          + ∫ ω, ‖∑ i ∈ Finset.range n, ∑ j, incr W (part s t n i) (part s t n (i + 1)) ω j • ρ i j ω‖ ∂P := by
          have i12 : Integrable (fun ω => ‖Y t ω - Y s ω - leftSum (stratonovichCorrected f g) g W Y s t n ω‖
            + ‖∑ i ∈ Finset.range n, T i ω‖) P := i1.norm.add i2.norm
          rw [integral_add i12 iR.norm, integral_add i1.norm i2.norm]
      _ ≤ rms P (fun ω => Y t ω - Y s ω - leftSum (stratonovichCorrected f g) g W Y s t n ω)
          + c * A * (t - s) * √(1 / n) + d * C * √(t - s) * (t - s) * √(1 / n) :=
          add_le_add (add_le_add (integral_norm_le mL) ((integral_norm_le hms.2.1).trans rT)) rR
      _ = _ := by ring
  have h1 : Tendsto (fun n : ℕ => √(1 / (n : ℝ))) atTop (𝓝 (√0)) :=
    (Real.continuous_sqrt.tendsto 0).comp tendsto_one_div_atTop_nhds_zero_nat
  rw [Real.sqrt_zero] at h1
  have h2 := (hY.increments s t hs hst htb).add (h1.const_mul (c * A * (t - s) + d * C * √(t - s) * (t - s)))
  rw [mul_zero, add_zero] at h2
  exact squeeze_zero' (Eventually.of_forall fun n => integral_nonneg fun ω => norm_nonneg _)
    ((eventually_ne_atTop 0).mono bound) h2

/-- The hypotheses can be met: `d(Y₀, Y₁) = (1, 2 Y₀) ∘ dB` is solved by `(B, B²)`. -/
example {Ω : Type} {mΩ : MeasurableSpace Ω} {P : Measure Ω} {B : NNReal → Ω → ℝ} (hB : IsPreBrownianReal B P)
    (hm : ∀ t, Measurable (B t)) : Tendsto (fun n => ∫ ω, ‖pairSolution B 1 ω - pairSolution B 0 ω
      - trapezoidSum (fun _ _ => 0) pairNoise (pathOf B) (pairSolution B) 0 1 n ω‖ ∂P) atTop (𝓝 0) := by
  have hP := hB.isGaussianProcess.isProbabilityMeasure
  refine C81_stratonovich_sums (brownianNoise_of_brownian hB hm) (pair_stratonovich hB hm) zero_le_two
    (by rw [pair_corrected]; exact pairDrift_lipschitz) pairNoise_lipschitz le_rfl ?_ pairNoise_smooth le_rfl
    zero_le_one le_rfl
  intro j s _ t _ x
  have : pairNoise j t x - pairNoise j s x = 0 := by simp [pairNoise]
  rw [this, norm_zero]
  positivity

end Verif
