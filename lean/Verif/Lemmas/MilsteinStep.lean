import Verif.Lemmas.ItoTaylor

/-!
# The step of a solution, up to the order of Milstein's method
-/

set_option linter.unusedSectionVars false

namespace Verif
open MeasureTheory ProbabilityTheory Filter Set Topology
open scoped InnerProductSpace ENNReal

variable {Ω : Type} {F : ℝ → MeasurableSpace Ω} {mΩ : MeasurableSpace Ω} {P : Measure Ω} [IsProbabilityMeasure P]
  {E : Type} [NormedAddCommGroup E] [InnerProductSpace ℝ E] {d : ℕ} {W : ℝ → Ω → Fin d → ℝ} {a b : ℝ}
  {f : ℝ → E → E} {g : Fin d → ℝ → E → E} {Y : ℝ → Ω → E} {L Λ : ℝ}

theorem rms_one_add_norm {X : Ω → E} (hX : MemLp X 2 P) :
    MemLp (fun ω => 1 + ‖X ω‖) 2 P ∧ rms P (fun ω => 1 + ‖X ω‖) ≤ 1 + rms P X := by
  have m1 : MemLp (fun ω => 1 + ‖X ω‖) 2 P := by simpa using memLp_affine 1 1 hX
  refine ⟨m1, ?_⟩
  have m5 : MemLp (fun _ : Ω => (1 : ℝ)) 2 P := memLp_const _
  have := rms_add_le m5 hX.norm
  rwa [rms_const, rms_norm, norm_one] at this

/-- The mean square of a product with the noise. -/
theorem WhiteNoise.rms_mulNoise_le {G : MeasurableSpace Ω} {ξ : Ω → Fin d → ℝ} {h : ℝ} (hξ : WhiteNoise P G ξ h)
    (hh : 0 ≤ h) {κ : Fin d → Ω → E} (hκ : ∀ j, StronglyMeasurable[G] (κ j)) (hκ2 : ∀ j, MemLp (κ j) 2 P) {σ : ℝ}
    (hσ0 : 0 ≤ σ) (hσ : ∀ j, rms P (κ j) ≤ σ) : rms P (mulNoise κ ξ) ≤ √d * √h * σ := by
  refine abs_le_of_sq_le_sq' ?_ (by positivity) |>.2
  rw [hξ.isometry hκ hκ2, mul_pow, mul_pow, Real.sq_sqrt (Nat.cast_nonneg d), Real.sq_sqrt hh]
  calc _ ≤ h * ∑ _j : Fin d, σ ^ 2 :=
        mul_le_mul_of_nonneg_left (Finset.sum_le_sum fun j _ => pow_le_pow_left₀ (rms_nonneg _) (hσ j) 2) hh
    _ = _ := by simp; ring

/-- Up to something of the size of the length of the interval, the increment of a solution is that of the noise. -/
theorem ItoSolution.first_order (hW : BrownianNoise P F a W) (hY : ItoSolution P F W f g a b Y) (hL : 0 ≤ L)
    (hf : ItoLipschitz f a b L) (hg : ∀ j, ItoLipschitz (g j) a b L) :
    ∃ C, 0 ≤ C ∧ ∀ s t, a ≤ s → s ≤ t → t ≤ b →
      rms P (fun ω => Y t ω - Y s ω - mulNoise (fun j ω => g j s (Y s ω)) (incr W s t) ω) ≤ C * (t - s) := by
  obtain ⟨C, hC0, hC⟩ := hY.holder hW hL hf hg
  obtain ⟨R, hR⟩ := hY.bounded
  set ρ := L * (1 + |R| + C) with hρ
  have hρ0 : 0 ≤ ρ := by positivity
  set K := ‖f a 0‖ + L * (√(b - a) + |R|) with hK
  have hK0 : 0 ≤ K := by positivity
  refine ⟨K + ρ * √(b - a) + √d * ρ, by positivity, fun s t hs hst htb => ?_⟩
  have hts : 0 ≤ t - s := by linarith
  have hmem : ∀ r ∈ Icc s t, r ∈ Icc a b := fun r hr => ⟨hs.trans hr.1, hr.2.trans htb⟩
  have hsI := hmem s ⟨le_rfl, hst⟩
  have htI := hmem t ⟨hst, le_rfl⟩
  have mY := hY.memLp s hsI
  have hRs : rms P (Y s) ≤ |R| := (hR s hsI).trans (le_abs_self R)
  have hw := hW.white hs hst
  have hsq : √(t - s) ≤ √(b - a) := Real.sqrt_le_sqrt (by linarith)
  have hsqh : √(t - s) * √(t - s) = t - s := Real.mul_self_sqrt hts
  have hch : ∀ φ : ℝ → E → E, ItoLipschitz φ a b L → ∀ r ∈ Icc s t,
      rms P (fun ω => φ r (Y r ω) - φ s (Y s ω)) ≤ ρ * √(t - s) := by
    intro φ hφ r hr
    have h1 := hφ.rms_sub hL hsI (hmem r hr) (hY.memLp r (hmem r hr)) mY
    have h2 := hC s r hs hr.1 (hr.2.trans htb)
    rw [abs_of_nonneg (sub_nonneg.2 hr.1)] at h1
    have h3 : √(r - s) ≤ √(t - s) := Real.sqrt_le_sqrt (by linarith [hr.2])
    calc _ ≤ L * (√(r - s) * (1 + rms P (Y s)) + rms P (fun ω => Y r ω - Y s ω)) := h1
      _ ≤ L * (√(t - s) * (1 + |R|) + C * √(t - s)) := by
        refine mul_le_mul_of_nonneg_left (add_le_add ?_ ?_) hL
        · exact mul_le_mul h3 (by linarith) (by linarith [rms_nonneg (P := P) (Y s)]) (Real.sqrt_nonneg _)
        · exact h2.trans (mul_le_mul_of_nonneg_left h3 hC0)
      _ = _ := by rw [hρ]; ring
  have mN := hw.memLp_mulNoise (fun j => (hg j).measurable hL hsI (hY.adapted s hsI))
    (fun j => (hg j).memLp hL hsI mY)
  have bound : ∀ n : ℕ, n ≠ 0 → rms P (fun ω => Y t ω - Y s ω - mulNoise (fun j ω => g j s (Y s ω)) (incr W s t) ω)
      ≤ rms P (fun ω => Y t ω - Y s ω - leftSum f g W Y s t n ω) + (K + ρ * √(b - a) + √d * ρ) * (t - s) := by
    intro n hn
    obtain ⟨X, M, hd, mX, rX, mM, rM, -⟩ := leftSum_split hW (f := f) (g := g) (Y := Y) hs hst
      (fun ω => f s (Y s ω)) (fun j ω => g j s (Y s ω)) (ρ := ρ * √(t - s)) (σ := ρ * √(t - s))
      (fun r hr => memLp_sub (hf.memLp hL (hmem r hr) (hY.memLp r (hmem r hr))) (hf.memLp hL hsI mY))
      (fun r hr j => ((hg j).measurable hL (hmem r hr) (hY.adapted r (hmem r hr))).sub
        (((hg j).measurable hL hsI (hY.adapted s hsI)).mono (hW.mono s r hr.1)))
      (fun r hr j => memLp_sub ((hg j).memLp hL (hmem r hr) (hY.memLp r (hmem r hr))) ((hg j).memLp hL hsI mY))
      (fun r hr => hch f hf r hr) (by positivity) (fun r hr j => hch (g j) (hg j) r hr) hn
    have mf : MemLp (fun ω => (t - s) • f s (Y s ω)) 2 P := (hf.memLp hL hsI mY).const_smul _
    have mLS : MemLp (leftSum f g W Y s t n) 2 P := by
      have : leftSum f g W Y s t n = fun ω => (t - s) • f s (Y s ω)
          + mulNoise (fun j ω => g j s (Y s ω)) (incr W s t) ω + X ω + M ω := by funext ω; exact hd ω
      rw [this]
      exact memLp_add (memLp_add (memLp_add mf mN) mX) mM
    have mδ : MemLp (fun ω => Y t ω - Y s ω - leftSum f g W Y s t n ω) 2 P :=
      memLp_sub (memLp_sub (hY.memLp t htI) mY) mLS
    have e1 : (fun ω => Y t ω - Y s ω - mulNoise (fun j ω => g j s (Y s ω)) (incr W s t) ω)
        = fun ω => (((Y t ω - Y s ω - leftSum f g W Y s t n ω) + (t - s) • f s (Y s ω)) + X ω) + M ω := by
      funext ω; rw [hd ω]; abel
    rw [e1]
    have a1 := rms_add_le (memLp_add (memLp_add mδ mf) mX) mM
    have a2 := rms_add_le (memLp_add mδ mf) mX
    have a3 := rms_add_le mδ mf
    have a4 : rms P (fun ω => (t - s) • f s (Y s ω)) ≤ (t - s) * K := by
      rw [rms_smul, abs_of_nonneg hts]
      refine mul_le_mul_of_nonneg_left ?_ hts
      have := hf.rms_le hL hsI mY
      have := mul_le_mul_of_nonneg_left hRs hL
      rw [hK]; linarith
    have a5 : (t - s) * (ρ * √(t - s)) ≤ ρ * √(b - a) * (t - s) := by
      calc (t - s) * (ρ * √(t - s)) = ρ * √(t - s) * (t - s) := by ring
        _ ≤ _ := by gcongr
    have a6 : √(d * (t - s)) * (ρ * √(t - s)) = √d * ρ * (t - s) := by
      rw [Real.sqrt_mul (Nat.cast_nonneg d)]
      calc √d * √(t - s) * (ρ * √(t - s)) = √d * ρ * (√(t - s) * √(t - s)) := by ring
        _ = _ := by rw [hsqh]
    rw [a6] at rM
    linarith
  have lim := (hY.increments s t hs hst htb).add_const ((K + ρ * √(b - a) + √d * ρ) * (t - s))
  have := ge_of_tendsto lim (eventually_atTop.2 ⟨1, fun n hn => bound n (by omega)⟩)
  rwa [zero_add] at this

/-- The derivative of a coefficient in the direction of the noise. -/
noncomputable def along (φ : ℝ → E → E) (g : Fin d → ℝ → E → E) (Y : ℝ → Ω → E) (s : ℝ) (j : Fin d) (ω : Ω) : E :=
  fderiv ℝ (φ s) (Y s ω) (g j s (Y s ω))

theorem along_mulNoise (φ : ℝ → E → E) (g : Fin d → ℝ → E → E) (Y : ℝ → Ω → E) (s : ℝ) (ξ : Ω → Fin d → ℝ) (ω : Ω) :
    mulNoise (along φ g Y s) ξ ω = fderiv ℝ (φ s) (Y s ω) (mulNoise (fun j ω => g j s (Y s ω)) ξ ω) := by
  simp only [mulNoise, along, map_sum, map_smul]

theorem along_small (hY : ItoSolution P F W f g a b Y) (hle : ∀ t, F t ≤ mΩ) (hL : 0 ≤ L)
    (hg : ∀ j, ItoLipschitz (g j) a b L) :
    ∃ C, 0 ≤ C ∧ ∀ φ : ℝ → E → E, ItoLipschitz φ a b L → (∀ t ∈ Icc a b, ContDiff ℝ 1 (φ t)) → ∀ s ∈ Icc a b, ∀ j,
      StronglyMeasurable[F s] (along φ g Y s j) ∧ MemLp (along φ g Y s j) 2 P ∧ rms P (along φ g Y s j) ≤ C := by
  obtain ⟨R, hR⟩ := hY.bounded
  set K := ∑ j, ‖g j a 0‖ with hK
  have hK0 : 0 ≤ K := Finset.sum_nonneg fun _ _ => norm_nonneg _
  have hKj : ∀ j, ‖g j a 0‖ ≤ K := fun j =>
    Finset.single_le_sum (f := fun j => ‖g j a 0‖) (fun _ _ => norm_nonneg _) (Finset.mem_univ j)
  refine ⟨L * (K + L * (√(b - a) + |R|)), by positivity, fun φ hφ hφ1 s hsI j => ?_⟩
  have mY := hY.memLp s hsI
  have hRs : rms P (Y s) ≤ |R| := (hR s hsI).trans (le_abs_self R)
  have hcont : Continuous fun y => fderiv ℝ (φ s) y (g j s y) :=
    ((hφ1 s hsI).continuous_fderiv one_ne_zero).clm_apply ((hg j).continuous hL hsI)
  have sG : StronglyMeasurable[F s] (along φ g Y s j) := hcont.comp_stronglyMeasurable (hY.adapted s hsI)
  have nG : ∀ ω, ‖along φ g Y s j ω‖ ≤ ‖L • g j s (Y s ω)‖ := by
    intro ω
    rw [norm_smul, Real.norm_of_nonneg hL]
    exact (ContinuousLinearMap.le_opNorm _ _).trans
      (mul_le_mul_of_nonneg_right (fderiv_le_of_lip hL hφ hsI _) (norm_nonneg _))
  have mLg : MemLp (fun ω => L • g j s (Y s ω)) 2 P := ((hg j).memLp hL hsI mY).const_smul L
  refine ⟨sG, mLg.mono (sG.mono (hle s)).aestronglyMeasurable (ae_of_all _ nG), ?_⟩
  refine (rms_mono mLg nG).trans ?_
  rw [rms_smul, abs_of_nonneg hL]
  refine mul_le_mul_of_nonneg_left ?_ hL
  have h1 := (hg j).rms_le hL hsI mY
  have h2 := mul_le_mul_of_nonneg_left hRs hL
  have h3 := hKj j
  linarith

/-- The change of a smooth coefficient along a solution. -/
theorem ItoSolution.taylor (hW : BrownianNoise P F a W) (hY : ItoSolution P F W f g a b Y) (hL : 0 ≤ L)
    (hf : ItoLipschitz f a b L) (hg : ∀ j, ItoLipschitz (g j) a b L) (hΛ : 0 ≤ Λ) :
    ∃ C, 0 ≤ C ∧ ∀ φ : ℝ → E → E, ItoLipschitz φ a b L → TimeLipschitz φ a b L → SmoothAlong φ g a b Λ →
      ∀ s t, a ≤ s → s ≤ t → t ≤ b →
        StronglyMeasurable[F t] (fun ω => φ t (Y t ω) - (φ s (Y s ω) + mulNoise (along φ g Y s) (incr W s t) ω)) ∧
        MemLp (fun ω => φ t (Y t ω) - (φ s (Y s ω) + mulNoise (along φ g Y s) (incr W s t) ω)) 2 P ∧
        rms P (fun ω => φ t (Y t ω) - (φ s (Y s ω) + mulNoise (along φ g Y s) (incr W s t) ω)) ≤ C * (t - s) := by
  obtain ⟨C, hC0, hC⟩ := hY.first_order hW hL hf hg
  obtain ⟨R, hR⟩ := hY.bounded
  obtain ⟨c, hc0, hc⟩ := hW.squared
  set K := ∑ j, ‖g j a 0‖ with hK
  have hK0 : 0 ≤ K := Finset.sum_nonneg fun _ _ => norm_nonneg _
  have hKj : ∀ j, ‖g j a 0‖ ≤ K := fun j =>
    Finset.single_le_sum (f := fun j => ‖g j a 0‖) (fun _ _ => norm_nonneg _) (Finset.mem_univ j)
  set Kg := K + L * (√(b - a) + |R|) with hKg
  have hKg0 : 0 ≤ Kg := by positivity
  refine ⟨L * C + L * (1 + (|R| + √d * √(b - a) * Kg)) + Λ * (c * (1 + |R|)), by positivity, ?_⟩
  intro φ hφ hφt hφ2 s t hs hst htb
  have hts : 0 ≤ t - s := by linarith
  have hsI : s ∈ Icc a b := ⟨hs, hst.trans htb⟩
  have htI : t ∈ Icc a b := ⟨hs.trans hst, htb⟩
  have mY := hY.memLp s hsI
  have hRs : rms P (Y s) ≤ |R| := (hR s hsI).trans (le_abs_self R)
  have hw := hW.white hs hst
  have hsq : √(t - s) ≤ √(b - a) := Real.sqrt_le_sqrt (by linarith)
  set N : Ω → E := mulNoise (fun j ω => g j s (Y s ω)) (incr W s t) with hN
  have sg : ∀ j, StronglyMeasurable[F s] (fun ω => g j s (Y s ω)) := fun j => (hg j).measurable hL hsI (hY.adapted s hsI)
  have mg : ∀ j, MemLp (fun ω => g j s (Y s ω)) 2 P := fun j => (hg j).memLp hL hsI mY
  have sN : StronglyMeasurable[F t] N := mulNoise_measurable hW hs hst sg
  have mN : MemLp N 2 P := hw.memLp_mulNoise sg mg
  have rN : rms P N ≤ √d * √(b - a) * Kg := by
    refine (hw.rms_mulNoise_le hts sg mg hKg0 fun j => ?_).trans (by gcongr)
    have h1 := (hg j).rms_le hL hsI mY
    have h2 := mul_le_mul_of_nonneg_left hRs hL
    have h3 := hKj j
    rw [hKg]; linarith
  have sY : StronglyMeasurable[F t] (Y s) := (hY.adapted s hsI).mono (hW.mono s t hst)
  have hcont : Continuous fun p : E × E => fderiv ℝ (φ s) p.1 p.2 :=
    ((((hφ2 s hsI).1).continuous_fderiv one_ne_zero).comp continuous_fst).clm_apply continuous_snd
  have sD : StronglyMeasurable[F t] (fun ω => fderiv ℝ (φ s) (Y s ω) (N ω)) :=
    hcont.comp_stronglyMeasurable (sY.prodMk sN)
  simp only [along_mulNoise, ← hN]
  have sAll : StronglyMeasurable[F t] (fun ω => φ t (Y t ω) - (φ s (Y s ω) + fderiv ℝ (φ s) (Y s ω) (N ω))) :=
    (hφ.measurable hL htI (hY.adapted t htI)).sub ((hφ.measurable hL hsI sY).add sD)
  have mD : MemLp (fun ω => Y t ω - Y s ω - N ω) 2 P := memLp_sub (memLp_sub (hY.memLp t htI) mY) mN
  have mYN : MemLp (fun ω => Y s ω + N ω) 2 P := memLp_add mY mN
  obtain ⟨m1, r1⟩ := rms_one_add_norm mYN
  obtain ⟨m2, r2⟩ := rms_one_add_norm mY
  have s2 : StronglyMeasurable[F s] (fun ω => 1 + ‖Y s ω‖) := stronglyMeasurable_const.add (hY.adapted s hsI).norm
  obtain ⟨mq, rq⟩ := hc s t hs hst
  obtain ⟨m3, r3⟩ := hw.memLp_fun squared measurable_squared mq s2 m2
  have b1 : MemLp (fun ω => L * ‖Y t ω - Y s ω - N ω‖) 2 P := mD.norm.const_mul _
  have b2 : MemLp (fun ω => L * (t - s) * (1 + ‖Y s ω + N ω‖)) 2 P := m1.const_mul _
  have b3 : MemLp (fun ω => Λ * (squared (incr W s t ω) • (1 + ‖Y s ω‖))) 2 P := m3.const_mul _
  have b12 : MemLp (fun ω => L * ‖Y t ω - Y s ω - N ω‖ + L * (t - s) * (1 + ‖Y s ω + N ω‖)) 2 P := b1.add b2
  have b123 : MemLp (fun ω => L * ‖Y t ω - Y s ω - N ω‖ + L * (t - s) * (1 + ‖Y s ω + N ω‖)
      + Λ * (squared (incr W s t ω) • (1 + ‖Y s ω‖))) 2 P := b12.add b3
  have hpt : ∀ ω, ‖φ t (Y t ω) - (φ s (Y s ω) + fderiv ℝ (φ s) (Y s ω) (N ω))‖
      ≤ ‖L * ‖Y t ω - Y s ω - N ω‖ + L * (t - s) * (1 + ‖Y s ω + N ω‖)
        + Λ * (squared (incr W s t ω) • (1 + ‖Y s ω‖))‖ := by
    intro ω
    have hq0 : 0 ≤ squared (incr W s t ω) := by unfold squared; positivity
    rw [Real.norm_of_nonneg (by simp only [smul_eq_mul]; positivity)]
    have p1 := hφ.lip htI (Y t ω) (Y s ω + N ω)
    have p2 := hφt s hsI t htI (Y s ω + N ω)
    rw [abs_of_nonneg hts] at p2
    have p3 := (hφ2 s hsI).2 (Y s ω) (incr W s t ω)
    have e0 : ∑ i, incr W s t ω i • g i s (Y s ω) = N ω := rfl
    rw [e0] at p3
    have e1 : φ t (Y t ω) - (φ s (Y s ω) + fderiv ℝ (φ s) (Y s ω) (N ω))
        = (φ t (Y t ω) - φ t (Y s ω + N ω)) + (φ t (Y s ω + N ω) - φ s (Y s ω + N ω))
          + (φ s (Y s ω + N ω) - φ s (Y s ω) - fderiv ℝ (φ s) (Y s ω) (N ω)) := by abel
    have e2 : Y t ω - (Y s ω + N ω) = Y t ω - Y s ω - N ω := by abel
    rw [e2] at p1
    rw [e1]
    refine (norm_add_le _ _).trans (add_le_add ((norm_add_le _ _).trans (add_le_add p1 p2)) ?_)
    refine p3.trans (le_of_eq ?_)
    simp only [squared, smul_eq_mul]; ring
  refine ⟨sAll, b123.mono (sAll.mono (hW.le t)).aestronglyMeasurable (ae_of_all _ hpt), ?_⟩
  refine (rms_mono b123 hpt).trans ?_
  have q12 := rms_add_le b1 b2
  have q123 := rms_add_le b12 b3
  have k1 : rms P (fun ω => L * ‖Y t ω - Y s ω - N ω‖) ≤ L * C * (t - s) := by
    have h1 := rms_smul (P := P) L (fun ω => ‖Y t ω - Y s ω - N ω‖)
    rw [abs_of_nonneg hL, rms_norm] at h1
    refine (le_of_eq h1).trans ?_
    rw [mul_assoc]
    exact mul_le_mul_of_nonneg_left (hC s t hs hst htb) hL
  have k2 : rms P (fun ω => L * (t - s) * (1 + ‖Y s ω + N ω‖)) ≤ L * (1 + (|R| + √d * √(b - a) * Kg)) * (t - s) := by
    have h1 := rms_smul (P := P) (L * (t - s)) (fun ω => 1 + ‖Y s ω + N ω‖)
    rw [abs_of_nonneg (by positivity)] at h1
    refine (le_of_eq h1).trans ?_
    have h2 := rms_add_le mY mN
    calc L * (t - s) * rms P (fun ω => 1 + ‖Y s ω + N ω‖)
        ≤ L * (t - s) * (1 + (|R| + √d * √(b - a) * Kg)) :=
          mul_le_mul_of_nonneg_left (by linarith) (by positivity)
      _ = _ := by ring
  have k3 : rms P (fun ω => Λ * (squared (incr W s t ω) • (1 + ‖Y s ω‖))) ≤ Λ * (c * (1 + |R|)) * (t - s) := by
    have h1 := rms_smul (P := P) Λ (fun ω => squared (incr W s t ω) • (1 + ‖Y s ω‖))
    rw [abs_of_nonneg hΛ, r3] at h1
    refine (le_of_eq h1).trans ?_
    have h2 : rms P (fun ω => squared (incr W s t ω)) * rms P (fun ω => 1 + ‖Y s ω‖) ≤ c * (t - s) * (1 + |R|) :=
      mul_le_mul rq (by linarith) (rms_nonneg _) (by positivity)
    calc _ ≤ Λ * (c * (t - s) * (1 + |R|)) := mul_le_mul_of_nonneg_left h2 hΛ
      _ = _ := by ring
  linarith

/-- `leftSum_split`, with coefficients that may change during the interval. -/
theorem leftSum_compare (hW : BrownianNoise P F a W) {s t : ℝ}
    (hs : a ≤ s) (hst : s ≤ t) (φ : ℝ → Ω → E) (κ : ℝ → Fin d → Ω → E)
    (hf2 : ∀ r ∈ Icc s t, MemLp (fun ω => f r (Y r ω) - φ r ω) 2 P)
    (hgm : ∀ r ∈ Icc s t, ∀ j, StronglyMeasurable[F r] fun ω => g j r (Y r ω) - κ r j ω)
    (hg2 : ∀ r ∈ Icc s t, ∀ j, MemLp (fun ω => g j r (Y r ω) - κ r j ω) 2 P)
    {ρ σ : ℝ} (hρ : ∀ r ∈ Icc s t, rms P (fun ω => f r (Y r ω) - φ r ω) ≤ ρ) (hσ0 : 0 ≤ σ)
    (hσ : ∀ r ∈ Icc s t, ∀ j, rms P (fun ω => g j r (Y r ω) - κ r j ω) ≤ σ) {n : ℕ} (hn : n ≠ 0) :
    ∃ X M : Ω → E, (∀ ω, leftSum f g W Y s t n ω
        = ∑ i ∈ Finset.range n, (((t - s) / n) • φ (part s t n i) ω
          + mulNoise (κ (part s t n i)) (incr W (part s t n i) (part s t n (i + 1))) ω) + X ω + M ω) ∧
      MemLp X 2 P ∧ rms P X ≤ (t - s) * ρ ∧ MemLp M 2 P ∧ rms P M ≤ √d * √(t - s) * σ ∧
      ∀ Z : Ω → E, StronglyMeasurable[F s] Z → MemLp Z 2 P → ∫ ω, ⟪Z ω, M ω⟫_ℝ ∂P = 0 := by
  have hn' : (n : ℝ) ≠ 0 := Nat.cast_ne_zero.2 hn
  have hts : 0 ≤ t - s := by linarith
  have hδ : 0 ≤ (t - s) / n := div_nonneg hts (Nat.cast_nonneg n)
  let κ' : ℕ → Fin d → Ω → E := fun i j ω =>
    if i < n then g j (part s t n i) (Y (part s t n i) ω) - κ (part s t n i) j ω else 0
  have hκm : ∀ i j, StronglyMeasurable[F (part s t n i)] (κ' i j) := by
    intro i j
    by_cases h : i < n
    · simp only [κ', if_pos h]; exact hgm _ (part_mem hst h.le hn) j
    · simp only [κ', if_neg h]; exact stronglyMeasurable_const
  have hκ2 : ∀ i j, MemLp (κ' i j) 2 P := by
    intro i j
    by_cases h : i < n
    · simp only [κ', if_pos h]; exact hg2 _ (part_mem hst h.le hn) j
    · simp only [κ', if_neg h]; exact MemLp.zero'
  obtain ⟨-, h2, h3, h4⟩ := noise_sum hW (part s t n) (part_mono hst n) (by rw [part_zero]; exact hs) κ' hκm hκ2 n
  have hX : ∀ i ∈ Finset.range n,
      MemLp (fun ω => ((t - s) / n) • (f (part s t n i) (Y (part s t n i) ω) - φ (part s t n i) ω)) 2 P :=
    fun i hi => (hf2 _ (part_mem hst (Finset.mem_range.1 hi).le hn)).const_smul _
  refine ⟨fun ω => ∑ i ∈ Finset.range n, ((t - s) / n) • (f (part s t n i) (Y (part s t n i) ω) - φ (part s t n i) ω),
    _, ?_, memLp_finsetSum _ hX, ?_, h2, ?_, fun Z hZ hZ2 => h4 Z (by rw [part_zero]; exact hZ) hZ2⟩
  · intro ω
    have e1 : ∑ i ∈ Finset.range n, mulNoise (κ' i) (incr W (part s t n i) (part s t n (i + 1))) ω
        = ∑ i ∈ Finset.range n, mulNoise (fun j ω => g j (part s t n i) (Y (part s t n i) ω))
            (incr W (part s t n i) (part s t n (i + 1))) ω
          - ∑ i ∈ Finset.range n, mulNoise (κ (part s t n i)) (incr W (part s t n i) (part s t n (i + 1))) ω := by
      rw [← Finset.sum_sub_distrib]
      refine Finset.sum_congr rfl fun i hi => ?_
      rw [← mulNoise_sub]
      simp only [κ', if_pos (Finset.mem_range.1 hi)]
    rw [e1]
    simp only [smul_sub, Finset.sum_sub_distrib, Finset.sum_add_distrib]
    have e3 : leftSum f g W Y s t n ω
        = ∑ i ∈ Finset.range n, ((t - s) / n) • f (part s t n i) (Y (part s t n i) ω)
          + ∑ i ∈ Finset.range n, mulNoise (fun j ω => g j (part s t n i) (Y (part s t n i) ω))
            (incr W (part s t n i) (part s t n (i + 1))) ω := by
      rw [← Finset.sum_add_distrib]; rfl
    rw [e3]
    abel
  · refine (rms_sum_le _ _ hX).trans ?_
    calc _ ≤ ∑ i ∈ Finset.range n, (t - s) / n * ρ := by
          refine Finset.sum_le_sum fun i hi => ?_
          rw [rms_smul, abs_of_nonneg hδ]
          exact mul_le_mul_of_nonneg_left (hρ _ (part_mem hst (Finset.mem_range.1 hi).le hn)) hδ
      _ = (t - s) * ρ := by
          rw [Finset.sum_const, Finset.card_range, nsmul_eq_mul, ← mul_assoc, mul_div_cancel₀ _ hn']
  · refine abs_le_of_sq_le_sq' ?_ (by positivity) |>.2
    rw [h3, mul_pow, mul_pow, Real.sq_sqrt (by positivity), Real.sq_sqrt hts]
    calc _ ≤ ∑ i ∈ Finset.range n, (t - s) / n * (d * σ ^ 2) := by
          refine Finset.sum_le_sum fun i hi => ?_
          rw [part_step]
          refine mul_le_mul_of_nonneg_left ?_ hδ
          calc _ ≤ ∑ _j : Fin d, σ ^ 2 := by
                refine Finset.sum_le_sum fun j _ => pow_le_pow_left₀ (rms_nonneg _) ?_ 2
                simp only [κ', if_pos (Finset.mem_range.1 hi)]
                exact hσ _ (part_mem hst (Finset.mem_range.1 hi).le hn) j
            _ = _ := by simp
      _ = _ := by
          rw [Finset.sum_const, Finset.card_range, nsmul_eq_mul, ← mul_assoc, mul_div_cancel₀ _ hn']; ring

/-- The iterated sums of the noise, with symmetric coefficients. -/
theorem iterated_sum (G : Fin d → Fin d → E) (hG : ∀ i j, G i j = G j i) (s t : ℝ) (n k : ℕ) (ω : Ω) :
    ∑ m ∈ Finset.range k, ∑ j, incr W (part s t n m) (part s t n (m + 1)) ω j
        • ∑ i, incr W s (part s t n m) ω i • G i j
      = (1 / 2 : ℝ) • ∑ i, ∑ j, centred (part s t n k - s) i j (incr W s (part s t n k) ω) • G i j
        - (1 / 2 : ℝ) • ∑ i, ∑ j, (∑ m ∈ Finset.range k,
          centred ((t - s) / n) i j (incr W (part s t n m) (part s t n (m + 1)) ω)) • G i j := by
  induction k with
  | zero =>
    have : ∀ i j : Fin d, centred (part s t n 0 - s) i j (incr W s (part s t n 0) ω) = 0 := by
      intro i j
      simp [part_zero, centred, incr]
    simp [this]
  | succ k ih =>
    rw [Finset.sum_range_succ, ih]
    simp only [Finset.sum_range_succ _ k]
    set x := incr W s (part s t n k) ω with hx
    set y := incr W (part s t n k) (part s t n (k + 1)) ω with hy
    have e1 : incr W s (part s t n (k + 1)) ω = x + y := by simp [hx, hy, incr]
    have e2 : part s t n (k + 1) - s = (part s t n k - s) + (t - s) / n := by
      have := part_step s t n k; linarith
    rw [e1, e2]
    have e3 : ∀ i j, centred ((part s t n k - s) + (t - s) / n) i j (x + y)
        = centred (part s t n k - s) i j x + centred ((t - s) / n) i j y + (x i * y j + x j * y i) := by
      intro i j
      simp only [centred, Pi.add_apply]
      split <;> ring
    have e4 : ∑ i, ∑ j, (x j * y i) • G i j = ∑ i, ∑ j, (x i * y j) • G i j := by
      rw [Finset.sum_comm]
      refine Finset.sum_congr rfl fun i _ => Finset.sum_congr rfl fun j _ => ?_
      rw [hG]
    have e5 : ∑ j, y j • ∑ i, x i • G i j = ∑ i, ∑ j, (x i * y j) • G i j := by
      simp only [Finset.smul_sum, smul_smul]
      rw [Finset.sum_comm]
      refine Finset.sum_congr rfl fun i _ => Finset.sum_congr rfl fun j _ => ?_
      rw [mul_comm]
    simp only [e3, add_smul, Finset.sum_add_distrib, e4, e5]
    module

/-- **The expansion of a solution up to the order of Milstein's method**, if the noise is commutative. -/
theorem ItoSolution.milstein (hW : BrownianNoise P F a W) (hY : ItoSolution P F W f g a b Y) (hL : 0 ≤ L)
    (hf : ItoLipschitz f a b L) (hg : ∀ j, ItoLipschitz (g j) a b L) (hΛ : 0 ≤ Λ)
    (hft : TimeLipschitz f a b L) (hgt : ∀ j, TimeLipschitz (g j) a b L)
    (hfs : SmoothAlong f g a b Λ) (hgs : ∀ j, SmoothAlong (g j) g a b Λ) (hcomm : CommutativeNoise g a b) :
    ∃ C, 0 ≤ C ∧ ∀ s t, a ≤ s → s ≤ t → t ≤ b → ∀ τ > 0, ∃ X M δ : Ω → E,
      (∀ ω, Y t ω = Y s ω + (t - s) • f s (Y s ω) + mulNoise (fun j ω => g j s (Y s ω)) (incr W s t) ω
        + milsteinTerm g W (Y s) s t ω + X ω + M ω + δ ω) ∧
      MemLp X 2 P ∧ rms P X ≤ C * ((t - s) * (t - s)) ∧ MemLp M 2 P ∧ rms P M ≤ C * (√(t - s) * (t - s)) ∧
      (∀ Z : Ω → E, StronglyMeasurable[F s] Z → MemLp Z 2 P → ∫ ω, ⟪Z ω, M ω⟫_ℝ ∂P = 0) ∧
      MemLp δ 2 P ∧ rms P δ ≤ τ := by
  obtain ⟨C, hC0, hC⟩ := hY.taylor hW hL hf hg hΛ
  obtain ⟨A, hA0, hA⟩ := along_small hY hW.le hL hg
  obtain ⟨c, hc0, hc⟩ := quadratic_variation_smul (E := E) hW
  refine ⟨C + √d * C + √d * A, by positivity, fun s t hs hst htb τ hτ => ?_⟩
  have hts : 0 ≤ t - s := by linarith
  have hmem : ∀ r ∈ Icc s t, r ∈ Icc a b := fun r hr => ⟨hs.trans hr.1, hr.2.trans htb⟩
  have hsI := hmem s ⟨le_rfl, hst⟩
  have htI := hmem t ⟨hst, le_rfl⟩
  have mY := hY.memLp s hsI
  have hw := hW.white hs hst
  have sg : ∀ j, StronglyMeasurable[F s] (fun ω => g j s (Y s ω)) := fun j => (hg j).measurable hL hsI (hY.adapted s hsI)
  have mg : ∀ j, MemLp (fun ω => g j s (Y s ω)) 2 P := fun j => (hg j).memLp hL hsI mY
  have hg1 : ∀ j, ∀ t ∈ Icc a b, ContDiff ℝ 1 (g j t) := fun j t ht => (hgs j t ht).1
  have hf1 : ∀ t ∈ Icc a b, ContDiff ℝ 1 (f t) := fun t ht => (hfs t ht).1
  have hAf := hA f hf hf1 s hsI
  have hAg := fun j => hA (g j) (hg j) (hg1 j) s hsI
  -- the number of parts
  have hsmall : Tendsto (fun n : ℕ => 1 / 2 * ∑ _i : Fin d, ∑ _j : Fin d, c * (t - s) * A * √(1 / (n : ℝ))) atTop
      (𝓝 0) := by
    have h1 : Tendsto (fun n : ℕ => √(1 / (n : ℝ))) atTop (𝓝 (√0)) :=
      (Real.continuous_sqrt.tendsto 0).comp tendsto_one_div_atTop_nhds_zero_nat
    rw [Real.sqrt_zero] at h1
    have h2 := h1.const_mul (1 / 2 * (d * (d * (c * (t - s) * A))))
    rw [mul_zero] at h2
    refine h2.congr fun n => ?_
    simp; ring
  obtain ⟨n, hn, hnτ, hnq⟩ := ((eventually_ne_atTop (0 : ℕ)).and
    (((hY.increments s t hs hst htb).eventually (gt_mem_nhds (half_pos hτ))).and
      (hsmall.eventually (gt_mem_nhds (half_pos hτ))))).exists
  have hn' : (n : ℝ) ≠ 0 := Nat.cast_ne_zero.2 hn
  have hδ : 0 ≤ (t - s) / n := div_nonneg hts (Nat.cast_nonneg n)
  obtain ⟨X, M, hd, mX, rX, mM, rM, oM⟩ := leftSum_compare hW (f := f) (g := g) (Y := Y) hs hst
    (fun r ω => f s (Y s ω) + mulNoise (along f g Y s) (incr W s r) ω)
    (fun r j ω => g j s (Y s ω) + mulNoise (along (g j) g Y s) (incr W s r) ω) (ρ := C * (t - s)) (σ := C * (t - s))
    (fun r hr => (hC f hf hft hfs s r hs hr.1 (hr.2.trans htb)).2.1)
    (fun r hr j => (hC (g j) (hg j) (hgt j) (hgs j) s r hs hr.1 (hr.2.trans htb)).1)
    (fun r hr j => (hC (g j) (hg j) (hgt j) (hgs j) s r hs hr.1 (hr.2.trans htb)).2.1)
    (fun r hr => (hC f hf hft hfs s r hs hr.1 (hr.2.trans htb)).2.2.trans
      (mul_le_mul_of_nonneg_left (by linarith [hr.2]) hC0)) (by positivity)
    (fun r hr j => (hC (g j) (hg j) (hgt j) (hgs j) s r hs hr.1 (hr.2.trans htb)).2.2.trans
      (mul_le_mul_of_nonneg_left (by linarith [hr.2]) hC0)) hn
  -- the change of the drift that cannot be foreseen
  have hpm : ∀ i ∈ Finset.range n, part s t n i ∈ Icc s t := fun i hi => part_mem hst (Finset.mem_range.1 hi).le hn
  have mM2i : ∀ i ∈ Finset.range n,
      MemLp (fun ω => ((t - s) / n) • mulNoise (along f g Y s) (incr W s (part s t n i)) ω) 2 P := fun i hi =>
    ((hW.white hs (hpm i hi).1).memLp_mulNoise (fun j => (hAf j).1) (fun j => (hAf j).2.1)).const_smul _
  set M2 : Ω → E := fun ω => ∑ i ∈ Finset.range n, ((t - s) / n) • mulNoise (along f g Y s) (incr W s (part s t n i)) ω
    with hM2
  have mM2 : MemLp M2 2 P := memLp_finsetSum _ mM2i
  have rM2 : rms P M2 ≤ √d * A * (√(t - s) * (t - s)) := by
    refine (rms_sum_le _ _ mM2i).trans ?_
    calc _ ≤ ∑ i ∈ Finset.range n, (t - s) / n * (√d * √(t - s) * A) := by
          refine Finset.sum_le_sum fun i hi => ?_
          rw [rms_smul, abs_of_nonneg hδ]
          refine mul_le_mul_of_nonneg_left ?_ hδ
          refine ((hW.white hs (hpm i hi).1).rms_mulNoise_le (sub_nonneg.2 (hpm i hi).1) (fun j => (hAf j).1)
            (fun j => (hAf j).2.1) hA0 (fun j => (hAf j).2.2)).trans ?_
          have : √(part s t n i - s) ≤ √(t - s) := Real.sqrt_le_sqrt (by linarith [(hpm i hi).2])
          gcongr
      _ = _ := by
          rw [Finset.sum_const, Finset.card_range, nsmul_eq_mul, ← mul_assoc, mul_div_cancel₀ _ hn']; ring
  have oM2 : ∀ Z : Ω → E, StronglyMeasurable[F s] Z → MemLp Z 2 P → ∫ ω, ⟪Z ω, M2 ω⟫_ℝ ∂P = 0 := by
    intro Z hZ hZ2
    simp only [hM2, inner_sum, inner_smul_right]
    rw [integral_finsetSum, Finset.sum_eq_zero]
    · intro i hi
      rw [integral_const_mul, (hW.white hs (hpm i hi).1).orthogonal (fun j => (hAf j).1) (fun j => (hAf j).2.1) hZ hZ2,
        mul_zero]
    · intro i hi
      simpa only [inner_smul_right] using integrable_inner hZ2 (mM2i i hi)
  -- the quadratic variation
  set Q : Ω → E := fun ω => (1 / 2 : ℝ) • ∑ i, ∑ j, (∑ m ∈ Finset.range n,
    centred ((t - s) / n) i j (incr W (part s t n m) (part s t n (m + 1)) ω)) • along (g j) g Y s i ω with hQ
  have hqij := fun i j => hc s t hs hst i j (along (g j) g Y s i) (hAg j i).1 (hAg j i).2.1 n hn
  have mQi : ∀ i, MemLp (fun ω => ∑ j, (∑ m ∈ Finset.range n,
      centred ((t - s) / n) i j (incr W (part s t n m) (part s t n (m + 1)) ω)) • along (g j) g Y s i ω) 2 P := fun i =>
    memLp_finsetSum _ fun j _ => by simpa only [Finset.sum_smul] using (hqij i j).1
  have mQs : MemLp (fun ω => ∑ i, ∑ j, (∑ m ∈ Finset.range n,
      centred ((t - s) / n) i j (incr W (part s t n m) (part s t n (m + 1)) ω)) • along (g j) g Y s i ω) 2 P :=
    memLp_finsetSum _ fun i _ => mQi i
  have mQ : MemLp Q 2 P := mQs.const_smul _
  have rQ : rms P Q ≤ τ / 2 := by
    refine le_trans ?_ hnq.le
    rw [hQ, rms_smul, abs_of_pos (by norm_num)]
    refine mul_le_mul_of_nonneg_left ?_ (by norm_num)
    refine (rms_sum_le _ _ fun i _ => mQi i).trans (Finset.sum_le_sum fun i _ => ?_)
    refine (rms_sum_le _ _ fun j _ => by simpa only [Finset.sum_smul] using (hqij i j).1).trans
      (Finset.sum_le_sum fun j _ => ?_)
    have h1 := (hqij i j).2
    simp only [← Finset.sum_smul] at h1
    refine h1.trans ?_
    have := (hAg j i).2.2
    gcongr
  have mLS : MemLp (leftSum f g W Y s t n) 2 P := by
    have hm : ∀ i ∈ Finset.range n, MemLp (fun ω => ((t - s) / n) • f (part s t n i) (Y (part s t n i) ω)
        + mulNoise (fun j ω => g j (part s t n i) (Y (part s t n i) ω))
          (incr W (part s t n i) (part s t n (i + 1))) ω) 2 P := by
      intro i hi
      have hi' := hmem _ (hpm i hi)
      exact memLp_add ((hf.memLp hL hi' (hY.memLp _ hi')).const_smul _)
        ((hW.white hi'.1 (part_mono hst n (Nat.le_succ i))).memLp_mulNoise
          (fun j => (hg j).measurable hL hi' (hY.adapted _ hi')) (fun j => (hg j).memLp hL hi' (hY.memLp _ hi')))
    have e : leftSum f g W Y s t n = fun ω => ∑ i ∈ Finset.range n,
        (((t - s) / n) • f (part s t n i) (Y (part s t n i) ω)
        + mulNoise (fun j ω => g j (part s t n i) (Y (part s t n i) ω))
          (incr W (part s t n i) (part s t n (i + 1))) ω) := by funext ω; rfl
    rw [e]
    exact memLp_finsetSum _ hm
  have mδ : MemLp (fun ω => Y t ω - Y s ω - leftSum f g W Y s t n ω) 2 P :=
    memLp_sub (memLp_sub (hY.memLp t htI) mY) mLS
  refine ⟨X, fun ω => M ω + M2 ω, fun ω => (Y t ω - Y s ω - leftSum f g W Y s t n ω) - Q ω, ?_, mX, ?_,
    memLp_add mM mM2, ?_, ?_, memLp_sub mδ mQ, ?_⟩
  · intro ω
    have e1 := iterated_sum (W := W) (fun i j => along (g j) g Y s i ω) (fun i j => hcomm s hsI i j (Y s ω)) s t n n ω
    rw [part_last s t hn] at e1
    have e2 := mulNoise_incr_sum (W := W) (fun j ω => g j s (Y s ω)) (part s t n) n ω
    rw [part_zero, part_last s t hn] at e2
    have e3 : ∑ i ∈ Finset.range n, (((t - s) / n) • (f s (Y s ω) + mulNoise (along f g Y s) (incr W s (part s t n i)) ω)
        + mulNoise (fun j ω => g j s (Y s ω) + mulNoise (along (g j) g Y s) (incr W s (part s t n i)) ω)
          (incr W (part s t n i) (part s t n (i + 1))) ω)
        = (t - s) • f s (Y s ω) + M2 ω + mulNoise (fun j ω => g j s (Y s ω)) (incr W s t) ω
          + ∑ m ∈ Finset.range n, ∑ j, incr W (part s t n m) (part s t n (m + 1)) ω j
            • ∑ i, incr W s (part s t n m) ω i • along (g j) g Y s i ω := by
      rw [← e2]
      have e4 : (t - s) • f s (Y s ω) = ∑ _i ∈ Finset.range n, ((t - s) / n) • f s (Y s ω) := by
        rw [Finset.sum_const, Finset.card_range, ← Nat.cast_smul_eq_nsmul ℝ, smul_smul, mul_div_cancel₀ _ hn']
      rw [e4, hM2, ← Finset.sum_add_distrib, ← Finset.sum_add_distrib, ← Finset.sum_add_distrib]
      refine Finset.sum_congr rfl fun i _ => ?_
      simp only [mulNoise, smul_add, Finset.sum_add_distrib]
      abel
    rw [e1] at e3
    have hd' := hd ω
    rw [e3] at hd'
    have e5 : milsteinTerm g W (Y s) s t ω = (1 / 2 : ℝ) • ∑ i, ∑ j, centred (t - s) i j (incr W s t ω)
        • along (g j) g Y s i ω := rfl
    dsimp only
    rw [hd', e5, hQ]
    abel
  · calc rms P X ≤ (t - s) * (C * (t - s)) := rX
      _ = C * ((t - s) * (t - s)) := by ring
      _ ≤ _ := by
        refine mul_le_mul_of_nonneg_right ?_ (by positivity)
        have : 0 ≤ √d * C + √d * A := by positivity
        linarith
  · calc _ ≤ rms P M + rms P M2 := rms_add_le mM mM2
      _ ≤ √d * √(t - s) * (C * (t - s)) + √d * A * (√(t - s) * (t - s)) := add_le_add rM rM2
      _ = (√d * C + √d * A) * (√(t - s) * (t - s)) := by ring
      _ ≤ _ := by
        refine mul_le_mul_of_nonneg_right ?_ (by positivity)
        linarith
  · intro Z hZ hZ2
    simp only [inner_add_right]
    rw [integral_add (integrable_inner hZ2 mM) (integrable_inner hZ2 mM2), oM Z hZ hZ2, oM2 Z hZ hZ2, add_zero]
  · have := rms_sub_le mδ mQ
    linarith

/-- One step of a method that differs from Milstein's by something small, and something less small that cannot be
foreseen. -/
theorem ItoSolution.milstein_step (hW : BrownianNoise P F a W) (hY : ItoSolution P F W f g a b Y) (hL : 0 ≤ L)
    (hf : ItoLipschitz f a b L) (hg : ∀ j, ItoLipschitz (g j) a b L) (hΛ : 0 ≤ Λ)
    (hft : TimeLipschitz f a b L) (hgt : ∀ j, TimeLipschitz (g j) a b L)
    (hfs : SmoothAlong f g a b Λ) (hgs : ∀ j, SmoothAlong (g j) g a b Λ) (hcomm : CommutativeNoise g a b)
    (hgG : MilsteinLipschitz g a b L) {c : ℝ} (hc : 0 ≤ c) :
    ∃ α β, 0 ≤ α ∧ 0 ≤ β ∧ ∀ s t, a ≤ s → s ≤ t → t ≤ b → ∀ V V' R1 R2 : Ω → E, StronglyMeasurable[F s] V →
      MemLp V 2 P → MemLp (milsteinTerm g W V s t) 2 P → MemLp R1 2 P → MemLp R2 2 P →
      (∀ Z : Ω → E, StronglyMeasurable[F s] Z → MemLp Z 2 P → ∫ ω, ⟪Z ω, R1 ω⟫_ℝ ∂P = 0) →
      rms P R1 ≤ c * (√(t - s) * (t - s)) * (1 + rms P V) → rms P R2 ≤ c * ((t - s) * (t - s)) * (1 + rms P V) →
      (∀ ω, V' ω = V ω + (t - s) • f s (V ω) + mulNoise (fun j ω => g j s (V ω)) (incr W s t) ω
        + milsteinTerm g W V s t ω + R1 ω + R2 ω) →
      rms P (fun ω => V' ω - Y t ω) ^ 2 ≤ (1 + (t - s)) * (rms P (fun ω => V ω - Y s ω) ^ 2
        * (1 + 4 * α ^ 2 * (t - s)) + 4 * β ^ 2 * (t - s) * (t - s) ^ 2) := by
  obtain ⟨C, hC0, hC⟩ := hY.milstein hW hL hf hg hΛ hft hgt hfs hgs hcomm
  obtain ⟨R, hR⟩ := hY.bounded
  obtain ⟨m, hm0, hm⟩ := centred_sum (E := E) hW
  rcases lt_or_ge b a with hab | hab
  · exact ⟨0, 0, le_rfl, le_rfl, fun s t hs hst htb => by linarith⟩
  have hba : 0 ≤ b - a := by linarith
  refine ⟨L + √d * L + m * L * √(b - a) + c * (b - a), C + c * (1 + |R|), by positivity, by positivity, ?_⟩
  intro s t hs hst htb V V' R1 R2 hV hV2 mMV mR1 mR2 oR1 rR1 rR2 hV'
  have hts : 0 ≤ t - s := by linarith
  have hsI : s ∈ Icc a b := ⟨hs, hst.trans htb⟩
  have mY := hY.memLp s hsI
  have sY := hY.adapted s hsI
  have hRs : rms P (Y s) ≤ |R| := (hR s hsI).trans (le_abs_self R)
  have hw := hW.white hs hst
  have hg1 : ∀ j, ContDiff ℝ 1 (g j s) := fun j => (hgs j s hsI).1
  set h := t - s with hh
  set ε := rms P (fun ω => V ω - Y s ω) with hε
  have hε0 : 0 ≤ ε := rms_nonneg _
  have hsq : √h ≤ √(b - a) := Real.sqrt_le_sqrt (by linarith)
  have hhb : h ≤ b - a := by linarith
  have hsqh : √h * √h = h := Real.mul_self_sqrt hts
  have hVr : rms P V ≤ |R| + ε := by
    have h1 := rms_add_le mY (memLp_sub hV2 mY)
    simp only [add_sub_cancel] at h1
    linarith
  have hdf : ∀ φ : ℝ → E → E, ItoLipschitz φ a b L → rms P (fun ω => φ s (V ω) - φ s (Y s ω)) ≤ L * ε := by
    intro φ hφ
    have := hφ.rms_sub hL hsI hsI hV2 mY
    simpa using this
  have mΔg : ∀ j, MemLp (fun ω => g j s (V ω) - g j s (Y s ω)) 2 P := fun j =>
    memLp_sub ((hg j).memLp hL hsI hV2) ((hg j).memLp hL hsI mY)
  have sΔg : ∀ j, StronglyMeasurable[F s] (fun ω => g j s (V ω) - g j s (Y s ω)) := fun j =>
    ((hg j).measurable hL hsI hV).sub ((hg j).measurable hL hsI sY)
  have mΔf : MemLp (fun ω => f s (V ω) - f s (Y s ω)) 2 P :=
    memLp_sub (hf.memLp hL hsI hV2) (hf.memLp hL hsI mY)
  have rΔ := hw.rms_mulNoise_le hts sΔg mΔg (σ := L * ε) (by positivity) (fun j => hdf _ (hg j))
  -- the difference of the second order terms
  set Gd : Fin d → Fin d → Ω → E := fun i j ω => fderiv ℝ (g j s) (V ω) (g i s (V ω))
    - fderiv ℝ (g j s) (Y s ω) (g i s (Y s ω)) with hGd
  have hcont : ∀ i j, Continuous fun y => fderiv ℝ (g j s) y (g i s y) := fun i j =>
    ((hg1 j).continuous_fderiv one_ne_zero).clm_apply ((hg i).continuous hL hsI)
  have sGd : ∀ i j, StronglyMeasurable[F s] (Gd i j) := fun i j =>
    ((hcont i j).comp_stronglyMeasurable hV).sub ((hcont i j).comp_stronglyMeasurable sY)
  have mVY : MemLp (fun ω => L • (V ω - Y s ω)) 2 P := (memLp_sub hV2 mY).const_smul L
  have nGd : ∀ i j ω, ‖Gd i j ω‖ ≤ ‖L • (V ω - Y s ω)‖ := by
    intro i j ω
    rw [norm_smul, Real.norm_of_nonneg hL]
    exact hgG s hsI i j (V ω) (Y s ω)
  have mGd : ∀ i j, MemLp (Gd i j) 2 P := fun i j =>
    mVY.mono ((sGd i j).mono (hW.le s)).aestronglyMeasurable (ae_of_all _ (nGd i j))
  have rGd : ∀ i j, rms P (Gd i j) ≤ L * ε := by
    intro i j
    refine (rms_mono mVY (nGd i j)).trans ?_
    rw [rms_smul, abs_of_nonneg hL]
  obtain ⟨-, mT, oT, rT⟩ := hm s t hs hst Gd (L * ε) (by positivity) sGd mGd rGd
  set T : Ω → E := fun ω => (1 / 2 : ℝ) • ∑ i, ∑ j, centred (t - s) i j (incr W s t ω) • Gd i j ω with hT
  have eT : ∀ ω, T ω = milsteinTerm g W V s t ω - milsteinTerm g W (Y s) s t ω := by
    intro ω
    simp only [hT, hGd, milsteinTerm, smul_sub, Finset.sum_sub_distrib]
  refine mean_square_step (e := fun ω => V ω - Y s ω) (e' := fun ω => V' ω - Y t ω) hts (by positivity)
    (by positivity) hts (memLp_sub hV2 mY) fun τ hτ => ?_
  obtain ⟨X, M, δ, hd, mX, rX, mM, rM, oM, mδ, rδ⟩ := hC s t hs hst htb τ hτ
  have mN := hw.memLp_mulNoise sΔg mΔg
  have mfX : MemLp (fun ω => h • (f s (V ω) - f s (Y s ω)) - X ω) 2 P := memLp_sub (mΔf.const_smul h) mX
  have mNM : MemLp (fun ω => mulNoise (fun j ω => g j s (V ω) - g j s (Y s ω)) (incr W s t) ω - M ω) 2 P :=
    memLp_sub mN mM
  have mNMT : MemLp (fun ω => (mulNoise (fun j ω => g j s (V ω) - g j s (Y s ω)) (incr W s t) ω - M ω) + T ω) 2 P :=
    memLp_add mNM mT
  refine ⟨fun ω => (h • (f s (V ω) - f s (Y s ω)) - X ω) + R2 ω,
    fun ω => ((mulNoise (fun j ω => g j s (V ω) - g j s (Y s ω)) (incr W s t) ω - M ω) + T ω) + R1 ω,
    fun ω => -δ ω, ?_, memLp_add mfX mR2, memLp_add mNMT mR1, mδ.neg, ?_, ?_, ?_, ?_⟩
  · intro ω
    dsimp only
    rw [hV', hd ω, mulNoise_sub, smul_sub, eT]
    abel
  · have a1 := rms_add_le mfX mR2
    have a2 := rms_sub_le (mΔf.const_smul h) mX
    have a3 : rms P (h • fun ω => f s (V ω) - f s (Y s ω)) ≤ h * (L * ε) := by
      have : rms P (h • fun ω => f s (V ω) - f s (Y s ω)) = |h| * rms P (fun ω => f s (V ω) - f s (Y s ω)) :=
        rms_smul h _
      rw [this, abs_of_nonneg hts]
      exact mul_le_mul_of_nonneg_left (hdf f hf) hts
    have a4 : c * (h * h) * (1 + rms P V) ≤ h * (c * (b - a) * ε + c * (1 + |R|) * h) := by
      calc c * (h * h) * (1 + rms P V) ≤ c * (h * h) * (1 + (|R| + ε)) := by gcongr
        _ = h * (c * h * ε + c * (1 + |R|) * h) := by ring
        _ ≤ _ := by gcongr
    have a7 : rms P (fun ω => h • (f s (V ω) - f s (Y s ω)) - X ω) ≤ h * (L * ε) + C * (h * h) :=
      a2.trans (add_le_add a3 rX)
    have a8 : 0 ≤ h * ((√d * L + m * L * √(b - a)) * ε) := by positivity
    calc _ ≤ h * (L * ε) + C * (h * h) + h * (c * (b - a) * ε + c * (1 + |R|) * h) := by linarith
      _ ≤ h * (L * ε) + C * (h * h) + h * (c * (b - a) * ε + c * (1 + |R|) * h)
          + h * ((√d * L + m * L * √(b - a)) * ε) := by linarith
      _ = _ := by ring
  · have a1 := rms_add_le mNMT mR1
    have a2 := rms_sub_le mN mM
    have a3 := rms_add_le mNM mT
    have a4 : c * (√h * h) * (1 + rms P V) ≤ √h * (c * (b - a) * ε + c * (1 + |R|) * h) := by
      calc c * (√h * h) * (1 + rms P V) ≤ c * (√h * h) * (1 + (|R| + ε)) := by gcongr
        _ = √h * (c * h * ε + c * (1 + |R|) * h) := by ring
        _ ≤ _ := by gcongr
    have a5 : m * h * (L * ε) ≤ √h * (m * L * √(b - a) * ε) := by
      calc m * h * (L * ε) = √h * (m * L * √h * ε) := by
            rw [show √h * (m * L * √h * ε) = m * (√h * √h) * (L * ε) by ring, hsqh]
        _ ≤ _ := by gcongr
    have a8 : 0 ≤ √h * (L * ε) := by positivity
    calc _ ≤ √d * √h * (L * ε) + C * (√h * h) + √h * (m * L * √(b - a) * ε)
          + √h * (c * (b - a) * ε + c * (1 + |R|) * h) := by linarith
      _ ≤ √d * √h * (L * ε) + C * (√h * h) + √h * (m * L * √(b - a) * ε)
          + √h * (c * (b - a) * ε + c * (1 + |R|) * h) + √h * (L * ε) := by linarith
      _ = _ := by ring
  · rw [rms_neg]; exact rδ
  · have se : StronglyMeasurable[F s] (fun ω => V ω - Y s ω) := hV.sub sY
    have me : MemLp (fun ω => V ω - Y s ω) 2 P := memLp_sub hV2 mY
    simp only [inner_add_right, inner_sub_right]
    have i1 := integrable_inner me mN
    have i2 := integrable_inner me mM
    have i3 := integrable_inner me mR1
    have i4 := integrable_inner me mT
    have i12 : Integrable (fun ω => ⟪V ω - Y s ω, mulNoise (fun j ω => g j s (V ω) - g j s (Y s ω)) (incr W s t) ω⟫_ℝ
      - ⟪V ω - Y s ω, M ω⟫_ℝ) P := i1.sub i2
    have i124 : Integrable (fun ω => ⟪V ω - Y s ω, mulNoise (fun j ω => g j s (V ω) - g j s (Y s ω)) (incr W s t) ω⟫_ℝ
      - ⟪V ω - Y s ω, M ω⟫_ℝ + ⟪V ω - Y s ω, T ω⟫_ℝ) P := i12.add i4
    rw [integral_add i124 i3, integral_add i12 i4, integral_sub i1 i2, hw.orthogonal sΔg mΔg se me, oM _ se me,
      oR1 _ se me, oT _ se me]
    simp

end Verif
