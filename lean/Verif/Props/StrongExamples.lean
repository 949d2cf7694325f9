import Verif.Props.StrongConvergence
import Verif.Lemmas.BrownianMotion
import Mathlib.Analysis.InnerProductSpace.PiL2

/-!
# C79: an example

The pair of a Brownian motion and its square solves an equation with multiplicative noise: in the sense of Itô
`d(x, z) = (0, 1) dt + (1, 2x) dW`, in the sense of Stratonovich `d(x, z) = (1, 2x) ∘ dW`. So all the hypotheses of C79
are met: the Itô solvers, given the first equation, and the Stratonovich solvers, given the second, converge to it.
-/

set_option linter.unusedSectionVars false

namespace Verif
open MeasureTheory ProbabilityTheory Filter Set Topology
open scoped InnerProductSpace ENNReal NNReal

section
variable {Ω : Type} {F : ℝ → MeasurableSpace Ω} {mΩ : MeasurableSpace Ω} {P : Measure Ω} [IsProbabilityMeasure P]
  {E : Type} [NormedAddCommGroup E] [InnerProductSpace ℝ E] {d : ℕ} {W : ℝ → Ω → Fin d → ℝ} {a b : ℝ}

/-- The quadratic variation of the noise: the sums of the products of the increments converge. -/
theorem quadratic_variation (hW : BrownianNoise P F a W) {s t : ℝ} (hs : a ≤ s) (hst : s ≤ t) (i j : Fin d) :
    Tendsto (fun n : ℕ => rms P fun ω => ∑ k ∈ Finset.range n,
      centred ((t - s) / n) i j (incr W (part s t n k) (part s t n (k + 1)) ω)) atTop (𝓝 0) := by
  obtain ⟨c, hc0, hc⟩ := hW.centred
  have hts : 0 ≤ t - s := by linarith
  have key : ∀ n : ℕ, n ≠ 0 → rms P (fun ω => ∑ k ∈ Finset.range n,
      centred ((t - s) / n) i j (incr W (part s t n k) (part s t n (k + 1)) ω)) ≤ c * (t - s) * √(1 / n) := by
    intro n hn
    have hn' : (n : ℝ) ≠ 0 := Nat.cast_ne_zero.2 hn
    have hmono := part_mono hst n
    have hge : ∀ k, a ≤ part s t n k := fun k => by
      have := hmono (Nat.zero_le k); rw [part_zero] at this; exact hs.trans this
    have hk := fun k => hc (part s t n k) (part s t n (k + 1)) (hge k) (hmono (Nat.le_succ k)) i j
    simp only [part_step] at hk
    obtain ⟨-, -, h3, -⟩ := martingale_sum (P := P) (E := ℝ) hW.mono (part s t n) hmono
      (fun k ω => centred ((t - s) / n) i j (incr W (part s t n k) (part s t n (k + 1)) ω))
      (fun k => ((measurable_centred _ i j).comp
        (incr_measurable hW (hge k) (hmono (Nat.le_succ k)))).stronglyMeasurable)
      (fun k => (hk k).1) (fun k Z hZ hZ2 => by
        have := (hW.white (hge k) (hmono (Nat.le_succ k))).orthogonal_fun _ (measurable_centred ((t - s) / n) i j)
          (hk k).1 (hk k).2.1 (Z := fun _ => (1 : ℝ)) stronglyMeasurable_const (memLp_const _) hZ hZ2
        simpa using this) n
    refine abs_le_of_sq_le_sq' ?_ (by positivity) |>.2
    rw [h3, mul_pow, mul_pow, Real.sq_sqrt (by positivity)]
    calc _ ≤ ∑ k ∈ Finset.range n, (c * ((t - s) / n)) ^ 2 :=
          Finset.sum_le_sum fun k _ => pow_le_pow_left₀ (rms_nonneg _) (hk k).2.2 2
      _ = _ := by rw [Finset.sum_const, Finset.card_range, nsmul_eq_mul]; field_simp
  have hlim : Tendsto (fun n : ℕ => c * (t - s) * √(1 / (n : ℝ))) atTop (𝓝 0) := by
    have h1 : Tendsto (fun n : ℕ => √(1 / (n : ℝ))) atTop (𝓝 (√0)) :=
      (Real.continuous_sqrt.tendsto 0).comp tendsto_one_div_atTop_nhds_zero_nat
    rw [Real.sqrt_zero] at h1
    simpa using h1.const_mul (c * (t - s))
  refine squeeze_zero' (Eventually.of_forall fun n => rms_nonneg _) ?_ hlim
  exact (eventually_ne_atTop 0).mono key

end

/-! ### The pair of a Brownian motion and its square -/

abbrev Plane := EuclideanSpace ℝ (Fin 2)

noncomputable def pairDrift (_ : ℝ) (_ : Plane) : Plane := !₂[0, 1]
noncomputable def pairNoise (_ : Fin 1) (_ : ℝ) (y : Plane) : Plane := !₂[1, 2 * y 0]

theorem plane_norm (x : ℝ) : ‖(!₂[0, x] : Plane)‖ = |x| := by
  rw [EuclideanSpace.norm_eq]
  simp [Real.sqrt_sq_eq_abs]

theorem pairNoise_lipschitz (j : Fin 1) : ItoLipschitz (pairNoise j) 0 1 2 := by
  intro s _ t _ x x'
  have h1 : pairNoise j t x - pairNoise j s x' = !₂[0, 2 * (x 0 - x' 0)] := by
    ext i; fin_cases i <;> simp [pairNoise]; ring
  rw [h1, plane_norm, abs_mul, abs_two]
  have h2 : |x 0 - x' 0| ≤ ‖x - x'‖ := by
    have := PiLp.norm_apply_le (x - x') 0
    simpa using this
  have h3 : 0 ≤ √|t - s| * (1 + ‖x'‖) := by positivity
  linarith

theorem pairDrift_lipschitz : ItoLipschitz pairDrift 0 1 2 := by
  intro s _ t _ x x'
  simp only [pairDrift, sub_self, norm_zero]
  positivity

variable {Ω : Type} {mΩ : MeasurableSpace Ω} {P : Measure Ω} {B : ℝ≥0 → Ω → ℝ}

noncomputable def pairSolution (B : ℝ≥0 → Ω → ℝ) (t : ℝ) (ω : Ω) : Plane :=
  !₂[B t.toNNReal ω, B t.toNNReal ω ^ 2]

theorem pairSolution_eq (t : ℝ) (ω : Ω) :
    pairSolution B t ω = B t.toNNReal ω • !₂[1, 0] + B t.toNNReal ω ^ 2 • !₂[0, 1] := by
  ext i; fin_cases i <;> simp [pairSolution]

theorem pair_leftSum (s t : ℝ) (n k : ℕ) (ω : Ω) :
    ∑ i ∈ Finset.range k, (((t - s) / n) • pairDrift (part s t n i) (pairSolution B (part s t n i) ω)
      + ∑ j, (pathOf B (part s t n (i + 1)) ω j - pathOf B (part s t n i) ω j)
        • pairNoise j (part s t n i) (pairSolution B (part s t n i) ω))
    = pairSolution B (part s t n k) ω - pairSolution B (part s t n 0) ω
      - (∑ i ∈ Finset.range k, centred ((t - s) / n) 0 0 (incr (pathOf B) (part s t n i) (part s t n (i + 1)) ω))
        • !₂[0, 1] := by
  induction k with
  | zero => simp
  | succ k ih =>
    rw [Finset.sum_range_succ, ih, Finset.sum_range_succ]
    ext i
    fin_cases i
    · simp [pairSolution, pairDrift, pairNoise, pathOf]
    · simp [pairSolution, pairDrift, pairNoise, pathOf, centred, incr]; ring

theorem pair_ito (hB : IsPreBrownianReal B P) (hm : ∀ t, Measurable (B t)) :
    ItoSolution P (pastOf B) (pathOf B) pairDrift pairNoise 0 1 (pairSolution B) := by
  have hP := hB.isGaussianProcess.isProbabilityMeasure
  have hW := brownianNoise_of_brownian hB hm
  have m4 : ∀ t : ℝ≥0, MemLp (B t) 4 P := fun t => (hB.isGaussianProcess.hasGaussianLaw_eval t).memLp (by norm_num)
  have m1 : ∀ t : ℝ≥0, MemLp (B t) 2 P := fun t => (m4 t).mono_exponent (by norm_num)
  have m2 : ∀ t : ℝ≥0, MemLp (fun ω => B t ω ^ 2) 2 P := fun t => memLp_two_of_four (m4 t)
  have n0 : ‖(!₂[1, 0] : Plane)‖ = 1 := by rw [EuclideanSpace.norm_eq]; simp
  have n1 : ‖(!₂[0, 1] : Plane)‖ = 1 := by rw [plane_norm, abs_one]
  have hsp : ∀ (X : Ω → ℝ) (v : Plane), MemLp X 2 P → MemLp (fun ω => X ω • v) 2 P := fun X v hX =>
    (ContinuousLinearMap.toSpanSingleton ℝ v).comp_memLp' hX
  have heq : ∀ t, pairSolution B t = fun ω => B t.toNNReal ω • !₂[1, 0] + B t.toNNReal ω ^ 2 • !₂[0, 1] := fun t => by
    funext ω; exact pairSolution_eq t ω
  have hmem : ∀ t, MemLp (pairSolution B t) 2 P := by
    intro t
    rw [heq]
    exact memLp_add (hsp _ _ (m1 _)) (hsp _ _ (m2 _))
  refine ⟨?_, fun t _ => hmem t, ?_, ?_⟩
  · intro t ht
    have h1 : StronglyMeasurable[pastOf B t] (fun ω => B t.toNNReal ω) := (hW.adapted t 0 ht.1).stronglyMeasurable
    rw [heq]
    exact (h1.smul_const _).add ((h1.pow 2).smul_const _)
  · obtain ⟨c, hc0, hc⟩ := hW.centred
    refine ⟨1 + (c + 1), fun t ht => ?_⟩
    have hz : ∀ᵐ ω ∂P, incr (pathOf B) 0 t ω 0 = B t.toNNReal ω := by
      filter_upwards [hB.eval_zero_ae_eq_zero] with ω hω
      simp [incr, pathOf, hω]
    have e1 : rms P (fun ω => B t.toNNReal ω) ≤ 1 := by
      refine abs_le_of_sq_le_sq' ?_ zero_le_one |>.2
      rw [rms_sq (m1 _)]
      have := hW.cov 0 t 0 0 le_rfl ht.1
      rw [if_pos rfl, sub_zero] at this
      rw [show ∫ ω, ‖B t.toNNReal ω‖ ^ 2 ∂P = t from ?_]
      · rw [one_pow]; exact ht.2
      · refine Eq.trans ?_ this
        refine integral_congr_ae ?_
        filter_upwards [hz] with ω hω
        have hω' : pathOf B t ω 0 - pathOf B 0 ω 0 = B t.toNNReal ω := hω
        rw [hω', Real.norm_eq_abs, sq_abs, sq]
    have e2 : rms P (fun ω => B t.toNNReal ω ^ 2) ≤ c + 1 := by
      obtain ⟨q1, -, q2⟩ := hc 0 t le_rfl ht.1 0 0
      rw [sub_zero] at q1 q2
      have h3 : rms P (fun ω => B t.toNNReal ω ^ 2) = rms P (fun ω => centred t 0 0 (incr (pathOf B) 0 t ω) + t) := by
        unfold rms
        rw [eLpNorm_congr_ae]
        filter_upwards [hz] with ω hω
        simp only [centred, if_true, hω]; ring
      rw [h3]
      have mt : MemLp (fun _ : Ω => t) 2 P := memLp_const _
      have h4 := rms_add_le q1 mt
      rw [rms_const, Real.norm_of_nonneg ht.1] at h4
      have h5 : c * t ≤ c := mul_le_of_le_one_right hc0 ht.2
      linarith [ht.2]
    rw [heq]
    have h1 := rms_add_le (hsp _ (!₂[1, 0]) (m1 t.toNNReal)) (hsp _ (!₂[0, 1]) (m2 t.toNNReal))
    have h2 : rms P (fun ω => B t.toNNReal ω • (!₂[1, 0] : Plane)) ≤ rms P (fun ω => B t.toNNReal ω) :=
      rms_mono (m1 _) fun ω => by rw [norm_smul, n0, mul_one]
    have h3 : rms P (fun ω => B t.toNNReal ω ^ 2 • (!₂[0, 1] : Plane)) ≤ rms P (fun ω => B t.toNNReal ω ^ 2) :=
      rms_mono (m2 _) fun ω => by rw [norm_smul, n1, mul_one]
    linarith
  · intro s t hs hst htb
    have hq := quadratic_variation hW hs hst 0 0
    refine hq.congr' ?_
    filter_upwards [eventually_ne_atTop 0] with n hn
    rw [← rms_norm, ← rms_norm (fun ω => pairSolution B t ω - pairSolution B s ω - _)]
    congr 1
    funext ω
    have h1 := pair_leftSum (B := B) s t n n ω
    rw [part_last s t hn, part_zero] at h1
    have h2 : leftSum pairDrift pairNoise (pathOf B) (pairSolution B) s t n ω
        = pairSolution B t ω - pairSolution B s ω - (∑ i ∈ Finset.range n, centred ((t - s) / n) 0 0
          (incr (pathOf B) (part s t n i) (part s t n (i + 1)) ω)) • !₂[0, 1] := by
      rw [← h1]; rfl
    rw [h2, sub_sub_cancel, norm_smul, n1, mul_one]

/-- The derivative of the noise coefficient. -/
theorem pairNoise_deriv (j : Fin 1) (t : ℝ) (y v : Plane) : fderiv ℝ (pairNoise j t) y v = !₂[0, 2 * v 0] := by
  have h : pairNoise j t = fun y => !₂[1, 0] + (ContinuousLinearMap.smulRight
      ((2 : ℝ) • (EuclideanSpace.proj 0 : Plane →L[ℝ] ℝ)) (!₂[0, 1] : Plane)) y := by
    funext y; ext i; fin_cases i <;> simp [pairNoise]
  rw [h, fderiv_const_add, ContinuousLinearMap.fderiv]
  ext i; fin_cases i <;> simp

theorem pairNoise_contDiff (j : Fin 1) (t : ℝ) : ContDiff ℝ 1 (pairNoise j t) := by
  have h : pairNoise j t = fun y => !₂[1, 0] + (ContinuousLinearMap.smulRight
      ((2 : ℝ) • (EuclideanSpace.proj 0 : Plane →L[ℝ] ℝ)) (!₂[0, 1] : Plane)) y := by
    funext y; ext i; fin_cases i <;> simp [pairNoise]
  rw [h]
  exact contDiff_const.add (ContinuousLinearMap.contDiff _)

/-- In the sense of Stratonovich there is no drift. -/
theorem pair_corrected : stratonovichCorrected (fun _ _ => 0) pairNoise = pairDrift := by
  funext t y
  simp only [stratonovichCorrected, Fin.sum_univ_one, pairNoise_deriv]
  ext i; fin_cases i <;> simp [pairNoise, pairDrift]

theorem pair_stratonovich (hB : IsPreBrownianReal B P) (hm : ∀ t, Measurable (B t)) :
    StratonovichSolution P (pastOf B) (pathOf B) (fun _ _ => 0) pairNoise 0 1 (pairSolution B) := by
  unfold StratonovichSolution
  rw [pair_corrected]
  exact pair_ito hB hm

/-- The hypotheses of `C79_euler`, `C79_ito_milstein`, `C79_stratonovich_milstein` and `C79_euler_heun` can be met. -/
example (hB : IsPreBrownianReal B P) (hm : ∀ t, Measurable (B t)) (interp : LocalLin ℝ Plane) :
    (∃ K, StrongErrorAtMost P (pastOf B) (fun ω => euler (multiTerm (odeTerm pairDrift)
      (noiseTerm pairNoise fun t => pathOf B t ω)) interp) (fun _ _ => ()) (pairSolution B) 0 1 (fun e η => K * (e + η))) ∧
    (∃ K, StrongErrorAtMost P (pastOf B) (fun ω => itoMilstein (odeTerm pairDrift)
      (noiseTerm pairNoise fun t => pathOf B t ω) interp) (fun _ _ => ()) (pairSolution B) 0 1 (fun e η => K * (e + η))) ∧
    (∃ K, StrongErrorAtMost P (pastOf B) (fun ω => stratonovichMilstein (odeTerm fun _ _ => 0)
      (noiseTerm pairNoise fun t => pathOf B t ω) interp) (fun _ _ => ()) (pairSolution B) 0 1 (fun e η => K * (e + η))) ∧
    (∃ K, StrongErrorAtMost P (pastOf B) (fun ω => eulerHeun ℝ (odeTerm fun _ _ => 0)
      (noiseTerm pairNoise fun t => pathOf B t ω) interp) (fun _ _ => ()) (pairSolution B) 0 1 (fun e η => K * (e + η))) := by
  have hP := hB.isGaussianProcess.isProbabilityMeasure
  have hW := brownianNoise_of_brownian hB hm
  have hI := pair_ito hB hm
  have hS := pair_stratonovich hB hm
  have hc : ItoLipschitz (stratonovichCorrected (fun _ _ => 0) pairNoise) 0 1 2 := by
    rw [pair_corrected]; exact pairDrift_lipschitz
  refine ⟨C79_euler hW hI zero_le_two pairDrift_lipschitz pairNoise_lipschitz interp,
    C79_ito_milstein hW hI zero_le_two pairDrift_lipschitz pairNoise_lipschitz
      (fun t _ j => pairNoise_contDiff j t) interp,
    C79_stratonovich_milstein hW hS zero_le_two hc pairNoise_lipschitz (fun t _ j => pairNoise_contDiff j t) interp,
    C79_euler_heun hW hS zero_le_two hc pairNoise_lipschitz (fun t _ j => pairNoise_contDiff j t) (le_refl 0) ?_ interp⟩
  intro t _ j y x
  rw [pairNoise_deriv]
  have : pairNoise j t (y + ∑ i, x i • pairNoise i t y) - pairNoise j t y
      - !₂[0, 2 * (∑ i, x i • pairNoise i t y) 0] = 0 := by
    ext i; fin_cases i <;> simp [pairNoise]; ring
  rw [this]; simp

/-- The Euler–Maruyama method with `n` steps on `[0, 1]`: the mean square of the error is at most a constant over `n`. -/
example (hB : IsPreBrownianReal B P) (hm : ∀ t, Measurable (B t)) (interp : LocalLin ℝ Plane) :
    ∃ K, ∀ n : ℕ, 0 < n → ∃ tnext ctrl, constInit id (0 : ℝ) (some 1) (some (1 / n)) = some (tnext, ctrl) ∧
      rms P (fun ω => (solve (unitCfg (euler (multiTerm (odeTerm pairDrift)
        (noiseTerm pairNoise fun t => pathOf B t ω)) interp) constantStepSize (0, 0) n) (pairSolution B 0 ω) tnext ctrl ()
          false).yfinal - pairSolution B 1 ω) ^ 2 ≤ K * (1 / n) := by
  have hP := hB.isGaussianProcess.isProbabilityMeasure
  have hI := pair_ito hB hm
  obtain ⟨K, hK⟩ := C79_euler (brownianNoise_of_brownian hB hm) hI zero_le_two pairDrift_lipschitz pairNoise_lipschitz
    interp
  refine ⟨K, fun n hn => ⟨_, _, rfl, ?_⟩⟩
  have hn' : (0 : ℝ) < n := by exact_mod_cast hn
  have := (C79_constant hK (fun _ _ _ _ _ _ => rfl) ℝ ℝ
    (fun ω => unitCfg (euler (multiTerm (odeTerm pairDrift) (noiseTerm pairNoise fun t => pathOf B t ω)) interp)
      constantStepSize (0, 0) n)
    (fun ω => ⟨unitCfg_WF _ _ _ _, rfl, rfl, rfl, rfl, rfl, rfl⟩) (by norm_num) (pairSolution B 0)
    (hI.adapted 0 (by simp)) (hI.memLp 0 (by simp)) (1 / n) (by positivity) _ _ rfl ?_ ?_).2.2
  · refine this.trans (le_of_eq ?_)
    simp [rms]
  · intro ω
    rw [unit_ceil n hn]
    have : (0 : ℝ) ≤ (1 - 0) / ((n : ℤ) : ℝ) := by rw [Int.cast_natCast, sub_zero]; positivity
    show (1 : ℝ) - _ ≤ 1
    linarith
  · intro ω; rw [unit_ceil n hn]; exact le_refl _

end Verif
