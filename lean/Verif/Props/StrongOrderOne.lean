import Verif.Props.StrongExamples
import Verif.Lemmas.MilsteinStep

/-!
# C80: the Milstein methods have strong order one
-/

set_option linter.unusedSectionVars false

namespace Verif
open MeasureTheory ProbabilityTheory Filter Set Topology
open scoped InnerProductSpace ENNReal NNReal

section
variable {Ω : Type} {F : ℝ → MeasurableSpace Ω} {mΩ : MeasurableSpace Ω} {P : Measure Ω} [IsProbabilityMeasure P]
  {E : Type} [NormedAddCommGroup E] [InnerProductSpace ℝ E] {d : ℕ} {W : ℝ → Ω → Fin d → ℝ} {a b : ℝ}
  {Er D S : Type} {f : ℝ → E → E} {g : Fin d → ℝ → E → E} {Y : ℝ → Ω → E} {L Λ : ℝ}

/-- **C80.** A method whose step is that of Milstein's method, up to something of the size of the power 3/2 of the length
of the step that cannot be foreseen, and something of the size of its square, has strong order 1. -/
theorem C80_near_milstein (hW : BrownianNoise P F a W) (hY : ItoSolution P F W f g a b Y) (hL : 0 ≤ L)
    (hf : ItoLipschitz f a b L) (hg : ∀ j, ItoLipschitz (g j) a b L) (hΛ : 0 ≤ Λ)
    (hft : TimeLipschitz f a b L) (hgt : ∀ j, TimeLipschitz (g j) a b L)
    (hfs : SmoothAlong f g a b Λ) (hgs : ∀ j, SmoothAlong (g j) g a b Λ) (hcomm : CommutativeNoise g a b)
    (hgG : MilsteinLipschitz g a b L) {c : ℝ} (hc : 0 ≤ c)
    (sv : Ω → Solver ℝ E Er D S) (init : Ω → E → S) (val : Ω → ℝ → ℝ → E → E)
    (good : Ω → ℝ → E → S → Prop) (hinit : ∀ ω x, good ω a x (init ω x))
    (hval : ∀ ω s t x st mj, good ω s x st → ((sv ω).step s t x st mj).y = val ω s t x ∧
      good ω t (val ω s t x) ((sv ω).step s t x st mj).state)
    (hsv : ∀ s t, a ≤ s → s ≤ t → t ≤ b → ∀ V : Ω → E, StronglyMeasurable[F s] V → MemLp V 2 P →
      ∃ R1 R2 : Ω → E, StronglyMeasurable[F t] R1 ∧ StronglyMeasurable[F t] R2 ∧ MemLp R1 2 P ∧ MemLp R2 2 P ∧
        (∀ Z : Ω → E, StronglyMeasurable[F s] Z → MemLp Z 2 P → ∫ ω, ⟪Z ω, R1 ω⟫_ℝ ∂P = 0) ∧
        rms P R1 ≤ c * (√(t - s) * (t - s)) * (1 + rms P V) ∧ rms P R2 ≤ c * ((t - s) * (t - s)) * (1 + rms P V) ∧
        ∀ ω, val ω s t (V ω)
          = V ω + (t - s) • f s (V ω) + ∑ j, (W t ω j - W s ω j) • g j s (V ω) + milsteinTerm g W V s t ω
            + R1 ω + R2 ω) :
    ∃ K, StrongErrorAtMost P F sv init Y a b (fun e η => K * (e + η ^ 2)) := by
  rcases le_or_gt a b with hab | hab
  swap
  · refine ⟨0, ?_⟩
    intro C O G _ _ cfg hcfg
    obtain ⟨ω⟩ := P.nonempty_of_neZero
    obtain ⟨h1, h2, h3, -⟩ := hcfg ω
    have := h1.le
    rw [h2, h3] at this
    exact absurd this (not_le.2 hab)
  have hg1 : ∀ t ∈ Icc a b, ∀ j, ContDiff ℝ 1 (g j t) := fun t ht j => (hgs j t ht).1
  obtain ⟨m, hm0, hm⟩ := milsteinTerm_small hW hL hg hg1
  obtain ⟨α, β, hα, hβ, hstep⟩ := hY.milstein_step hW hL hf hg hΛ hft hgt hfs hgs hcomm hgG hc
  have hmain := C79_of_step (F := F) (α := α) (β := β) (θ := fun h => max h 0) sv init val good hinit hval
    (hY.memLp a (left_mem_Icc.2 hab)) (hY.memLp b (right_mem_Icc.2 hab)) (fun x y h => max_le_max h le_rfl)
    (fun h => le_max_right _ _) (by
      intro s t hs hst htb V hV hV2
      obtain ⟨R1, R2, s1, s2, m1, m2, o1, r1, r2, he⟩ := hsv s t hs hst.le htb V hV hV2
      obtain ⟨sM, mM, -, -⟩ := hm s t hs hst.le htb V hV hV2
      have hsI : s ∈ Icc a b := ⟨hs, hst.le.trans htb⟩
      have hmono := hW.mono s t hst.le
      have sg : ∀ j, StronglyMeasurable[F s] (fun ω => g j s (V ω)) := fun j => (hg j).measurable hL hsI hV
      have e' : (fun ω => val ω s t (V ω)) = fun ω => V ω + (t - s) • f s (V ω)
          + mulNoise (fun j ω => g j s (V ω)) (incr W s t) ω + milsteinTerm g W V s t ω + R1 ω + R2 ω := by
        funext ω; exact he ω
      refine ⟨?_, ?_, ?_⟩
      · rw [e']
        exact (((((hV.mono hmono).add ((hf.measurable hL hsI hV).mono hmono |>.const_smul _)).add
          (mulNoise_measurable hW hs hst.le sg)).add sM).add s1).add s2
      · rw [e']
        exact memLp_add (memLp_add (memLp_add (memLp_add (memLp_add hV2 ((hf.memLp hL hsI hV2).const_smul _))
          ((hW.white hs hst.le).memLp_mulNoise sg (fun j => (hg j).memLp hL hsI hV2))) mM) m1) m2
      · rw [max_eq_left (sub_nonneg.2 hst.le)]
        exact hstep s t hs hst.le htb V _ R1 R2 hV hV2 mM m1 m2 o1 r1 r2 (fun ω => he ω))
  refine ⟨Real.exp ((1 + 4 * α ^ 2) * (b - a)) * (1 + 4 * β ^ 2 * (b - a)), hmain.mono fun e η he hη _ => ?_⟩
  rw [max_eq_left hη, mul_assoc (Real.exp _)]
  refine mul_le_mul_of_nonneg_left ?_ (Real.exp_pos _).le
  have h1 : 0 ≤ 4 * β ^ 2 * (b - a) := mul_nonneg (by positivity) (by linarith)
  have h2 := mul_nonneg h1 he
  have h3 : 0 ≤ η ^ 2 := by positivity
  linarith

/-- **C80, ItoMilstein.** With commutative noise it has strong order 1: the mean square of the error at the end is at
most a constant times the mean square of the initial error plus the *square* of the length of the longest step. -/
theorem C80_ito_milstein (hW : BrownianNoise P F a W) (hY : ItoSolution P F W f g a b Y) (hL : 0 ≤ L)
    (hf : ItoLipschitz f a b L) (hg : ∀ j, ItoLipschitz (g j) a b L) (hΛ : 0 ≤ Λ)
    (hft : TimeLipschitz f a b L) (hgt : ∀ j, TimeLipschitz (g j) a b L)
    (hfs : SmoothAlong f g a b Λ) (hgs : ∀ j, SmoothAlong (g j) g a b Λ) (hcomm : CommutativeNoise g a b)
    (hgG : MilsteinLipschitz g a b L) (interp : LocalLin ℝ E) :
    ∃ K, StrongErrorAtMost P F (fun ω => itoMilstein (odeTerm f) (noiseTerm g fun t => W t ω) interp)
      (fun _ _ => ()) Y a b (fun e η => K * (e + η ^ 2)) := by
  refine C80_near_milstein hW hY hL hf hg hΛ hft hgt hfs hgs hcomm hgG (le_refl 0) _ (fun _ _ => ()) _ (fun _ _ _ _ => True)
    (fun _ _ => trivial) (fun _ _ _ _ _ _ _ => ⟨rfl, trivial⟩) ?_
  intro s t hs hst htb V hV hV2
  have hsI : s ∈ Icc a b := ⟨hs, hst.trans htb⟩
  refine ⟨fun _ => 0, fun _ => 0, stronglyMeasurable_const, stronglyMeasurable_const, MemLp.zero', MemLp.zero', ?_, ?_,
    ?_, ?_⟩
  · intro Z _ _; simp
  · rw [rms_const]; simp
  · rw [rms_const]; simp
  · intro ω
    refine (itoMilstein_value (interp := interp) (fun j => (hgs j s hsI).1) V ω).trans ?_
    rw [add_zero, add_zero]

/-- **C80, StratonovichMilstein.** With commutative noise it has strong order 1. -/
theorem C80_stratonovich_milstein (hW : BrownianNoise P F a W) (hY : StratonovichSolution P F W f g a b Y) (hL : 0 ≤ L)
    (hf : ItoLipschitz (stratonovichCorrected f g) a b L) (hg : ∀ j, ItoLipschitz (g j) a b L) (hΛ : 0 ≤ Λ)
    (hft : TimeLipschitz (stratonovichCorrected f g) a b L) (hgt : ∀ j, TimeLipschitz (g j) a b L)
    (hfs : SmoothAlong (stratonovichCorrected f g) g a b Λ) (hgs : ∀ j, SmoothAlong (g j) g a b Λ)
    (hcomm : CommutativeNoise g a b) (hgG : MilsteinLipschitz g a b L) (interp : LocalLin ℝ E) :
    ∃ K, StrongErrorAtMost P F (fun ω => stratonovichMilstein (odeTerm f) (noiseTerm g fun t => W t ω) interp)
      (fun _ _ => ()) Y a b (fun e η => K * (e + η ^ 2)) := by
  refine C80_near_milstein hW hY hL hf hg hΛ hft hgt hfs hgs hcomm hgG (le_refl 0) _ (fun _ _ => ()) _ (fun _ _ _ _ => True)
    (fun _ _ => trivial) (fun _ _ _ _ _ _ _ => ⟨rfl, trivial⟩) ?_
  intro s t hs hst htb V hV hV2
  have hsI : s ∈ Icc a b := ⟨hs, hst.trans htb⟩
  refine ⟨fun _ => 0, fun _ => 0, stronglyMeasurable_const, stronglyMeasurable_const, MemLp.zero', MemLp.zero', ?_, ?_,
    ?_, ?_⟩
  · intro Z _ _; simp
  · rw [rms_const]; simp
  · rw [rms_const]; simp
  · intro ω
    refine (stratonovichMilstein_value (interp := interp) (fun j => (hgs j s hsI).1) V ω).trans ?_
    rw [add_zero, add_zero]

/-- **C80, Euler with additive noise.** If the noise does not depend on `y`, the Euler–Maruyama method has strong
order 1. -/
theorem C80_euler_additive {σ : Fin d → ℝ → E} (hW : BrownianNoise P F a W)
    (hY : ItoSolution P F W f (fun j t _ => σ j t) a b Y) (hL : 0 ≤ L) (hf : ItoLipschitz f a b L) (hΛ : 0 ≤ Λ)
    (hft : TimeLipschitz f a b L) (hσ : ∀ j, ∀ s ∈ Icc a b, ∀ t ∈ Icc a b, ‖σ j t - σ j s‖ ≤ L * |t - s|)
    (hσ' : ∀ j, ∀ s ∈ Icc a b, ∀ t ∈ Icc a b, ‖σ j t - σ j s‖ ≤ L * √|t - s|)
    (hfs : SmoothAlong f (fun j t _ => σ j t) a b Λ) (interp : LocalLin ℝ E) :
    ∃ K, StrongErrorAtMost P F
      (fun ω => euler (multiTerm (odeTerm f) (noiseTerm (fun j t _ => σ j t) fun t => W t ω)) interp)
      (fun _ _ => ()) Y a b (fun e η => K * (e + η ^ 2)) := by
  have hd : ∀ (j : Fin d) (t : ℝ) (y v : E), fderiv ℝ (fun _ : E => σ j t) y v = 0 := by
    intro j t y v; simp
  refine C80_near_milstein (g := fun j t _ => σ j t) hW hY hL hf ?_ hΛ hft ?_ hfs ?_ ?_ ?_ (le_refl 0) _ (fun _ _ => ()) _ (fun _ _ _ _ => True)
    (fun _ _ => trivial) (fun _ _ _ _ _ _ _ => ⟨rfl, trivial⟩) ?_
  · intro j s hs t ht x x'
    refine (hσ' j s hs t ht).trans (mul_le_mul_of_nonneg_left ?_ hL)
    nlinarith [Real.sqrt_nonneg |t - s|, norm_nonneg x', norm_nonneg (x - x'),
      mul_nonneg (Real.sqrt_nonneg |t - s|) (norm_nonneg x')]
  · intro j s hs t ht x
    refine (hσ j s hs t ht).trans ?_
    have : 0 ≤ L * |t - s| := by positivity
    nlinarith [mul_nonneg this (norm_nonneg x)]
  · intro j t ht
    refine ⟨contDiff_const, fun y x => ?_⟩
    rw [hd]; simp only [sub_self, norm_zero]; positivity
  · intro t ht i j y
    rw [hd, hd]
  · intro t ht i j x x'
    rw [hd, hd]; simp only [sub_self, norm_zero]; positivity
  · intro s t hs hst htb V hV hV2
    refine ⟨fun _ => 0, fun _ => 0, stronglyMeasurable_const, stronglyMeasurable_const, MemLp.zero', MemLp.zero', ?_, ?_,
      ?_, ?_⟩
    · intro Z _ _; simp
    · rw [rms_const]; simp
    · rw [rms_const]; simp
    · intro ω
      have hm : milsteinTerm (fun j t _ => σ j t) W V s t ω = 0 := by simp [milsteinTerm]
      rw [hm, add_zero, add_zero, add_zero, add_assoc]
      rfl

end

/-! ### The example of C79 has order one too -/

section
variable {Ω : Type} {mΩ : MeasurableSpace Ω} {P : Measure Ω} {B : ℝ≥0 → Ω → ℝ}

theorem pairDrift_smooth : SmoothAlong pairDrift pairNoise 0 1 0 := by
  intro t _
  refine ⟨contDiff_const, fun y x => ?_⟩
  have : fderiv ℝ (pairDrift t) y = 0 := by
    show fderiv ℝ (fun _ : Plane => (!₂[0, 1] : Plane)) y = 0
    simp
  rw [this]
  simp [pairDrift]

theorem pairNoise_smooth (j : Fin 1) : SmoothAlong (pairNoise j) pairNoise 0 1 0 := by
  intro t _
  refine ⟨pairNoise_contDiff j t, fun y x => ?_⟩
  rw [pairNoise_deriv]
  have : pairNoise j t (y + ∑ i, x i • pairNoise i t y) - pairNoise j t y
      - !₂[0, 2 * (∑ i, x i • pairNoise i t y) 0] = 0 := by
    ext i; fin_cases i <;> simp [pairNoise]; ring
  rw [this]; simp

theorem pair_commutes : CommutativeNoise pairNoise 0 1 := by
  intro t _ i j y
  rw [Subsingleton.elim i j]

theorem pair_milsteinLipschitz : MilsteinLipschitz pairNoise 0 1 2 := by
  intro t _ i j x x'
  have : fderiv ℝ (pairNoise j t) x (pairNoise i t x) - fderiv ℝ (pairNoise j t) x' (pairNoise i t x') = 0 := by
    rw [pairNoise_deriv, pairNoise_deriv]
    ext k; fin_cases k <;> simp [pairNoise]
  rw [this, norm_zero]; positivity

/-- The hypotheses of `C80_ito_milstein` and `C80_stratonovich_milstein` can be met. -/
example (hB : IsPreBrownianReal B P) (hm : ∀ t, Measurable (B t)) (interp : LocalLin ℝ Plane) :
    (∃ K, StrongErrorAtMost P (pastOf B) (fun ω => itoMilstein (odeTerm pairDrift)
      (noiseTerm pairNoise fun t => pathOf B t ω) interp) (fun _ _ => ()) (pairSolution B) 0 1 (fun e η => K * (e + η ^ 2))) ∧
    (∃ K, StrongErrorAtMost P (pastOf B) (fun ω => stratonovichMilstein (odeTerm fun _ _ => 0)
      (noiseTerm pairNoise fun t => pathOf B t ω) interp) (fun _ _ => ()) (pairSolution B) 0 1 (fun e η => K * (e + η ^ 2))) := by
  have hP := hB.isGaussianProcess.isProbabilityMeasure
  have hW := brownianNoise_of_brownian hB hm
  have hft : TimeLipschitz pairDrift 0 1 2 := by
    intro s _ t _ x; simp only [pairDrift, sub_self, norm_zero]; positivity
  have hgt : ∀ j, TimeLipschitz (pairNoise j) 0 1 2 := by
    intro j s _ t _ x; simp only [pairNoise, sub_self, norm_zero]; positivity
  refine ⟨C80_ito_milstein hW (pair_ito hB hm) zero_le_two pairDrift_lipschitz pairNoise_lipschitz le_rfl hft hgt
    pairDrift_smooth pairNoise_smooth pair_commutes pair_milsteinLipschitz interp, ?_⟩
  have := C80_stratonovich_milstein (f := fun _ _ => 0) hW (pair_stratonovich hB hm) zero_le_two
    (by rw [pair_corrected]; exact pairDrift_lipschitz) pairNoise_lipschitz le_rfl
    (by rw [pair_corrected]; exact hft) hgt (by rw [pair_corrected]; exact pairDrift_smooth) pairNoise_smooth
    pair_commutes pair_milsteinLipschitz interp
  exact this

/-! ### An example with additive noise: `d(x, z) = (0, x) dt + (1, t) dW`, solved by `(B, t B)` -/

noncomputable def rampDrift (_ : ℝ) (y : Plane) : Plane := !₂[0, y 0]
noncomputable def rampNoise (_ : Fin 1) (t : ℝ) : Plane := !₂[1, t]
noncomputable def rampSolution (B : ℝ≥0 → Ω → ℝ) (t : ℝ) (ω : Ω) : Plane := B t.toNNReal ω • !₂[1, t]

theorem brownian_rms_le (hB : IsPreBrownianReal B P) (hm : ∀ t, Measurable (B t)) {s t : ℝ} (hs : 0 ≤ s) (hst : s ≤ t) :
    MemLp (fun ω => B t.toNNReal ω - B s.toNNReal ω) 2 P ∧
    rms P (fun ω => B t.toNNReal ω - B s.toNNReal ω) ^ 2 = t - s := by
  have hP := hB.isGaussianProcess.isProbabilityMeasure
  have hW := brownianNoise_of_brownian hB hm
  have hm2 : MemLp (fun ω => B t.toNNReal ω - B s.toNNReal ω) 2 P := (hW.white hs hst).memLp 0
  refine ⟨hm2, ?_⟩
  rw [rms_sq hm2]
  have := hW.cov s t 0 0 hs hst
  rw [if_pos rfl] at this
  rw [← this]
  refine integral_congr_ae (ae_of_all _ fun ω => ?_)
  simp only [Real.norm_eq_abs, sq_abs, pathOf]; ring

theorem ramp_leftSum (s t : ℝ) (n k : ℕ) (ω : Ω) :
    ∑ i ∈ Finset.range k, (((t - s) / n) • rampDrift (part s t n i) (rampSolution B (part s t n i) ω)
      + ∑ j, (pathOf B (part s t n (i + 1)) ω j - pathOf B (part s t n i) ω j)
        • rampNoise j (part s t n i))
    = rampSolution B (part s t n k) ω - rampSolution B (part s t n 0) ω
      - (((t - s) / n) * (B (part s t n k).toNNReal ω - B (part s t n 0).toNNReal ω)) • !₂[0, 1] := by
  induction k with
  | zero => simp
  | succ k ih =>
    rw [Finset.sum_range_succ, ih]
    have hp : part s t n (k + 1) = part s t n k + (t - s) / n := by
      have := part_step s t n k; linarith
    ext i
    fin_cases i
    · simp [rampSolution, rampDrift, rampNoise, pathOf]
    · simp [rampSolution, rampDrift, rampNoise, pathOf]
      rw [hp]; ring

theorem ramp_ito (hB : IsPreBrownianReal B P) (hm : ∀ t, Measurable (B t)) :
    ItoSolution P (pastOf B) (pathOf B) rampDrift (fun j t _ => rampNoise j t) 0 1 (rampSolution B) := by
  have hP := hB.isGaussianProcess.isProbabilityMeasure
  have hW := brownianNoise_of_brownian hB hm
  have m1 : ∀ t : ℝ≥0, MemLp (B t) 2 P := fun t =>
    (hB.isGaussianProcess.hasGaussianLaw_eval t).memLp (by norm_num)
  have hsp : ∀ (X : Ω → ℝ) (v : Plane), MemLp X 2 P → MemLp (fun ω => X ω • v) 2 P := fun X v hX =>
    (ContinuousLinearMap.toSpanSingleton ℝ v).comp_memLp' hX
  have n1 : ‖(!₂[0, 1] : Plane)‖ = 1 := by rw [plane_norm, abs_one]
  refine ⟨?_, fun t _ => hsp _ _ (m1 _), ⟨2, fun t ht => ?_⟩, ?_⟩
  · intro t ht
    have h1 : StronglyMeasurable[pastOf B t] (fun ω => B t.toNNReal ω) := (hW.adapted t 0 ht.1).stronglyMeasurable
    exact h1.smul_const _
  · have e1 : rms P (fun ω => B t.toNNReal ω) ≤ 1 := by
      obtain ⟨h2, h3⟩ := brownian_rms_le hB hm le_rfl ht.1
      have h4 : rms P (fun ω => B t.toNNReal ω) = rms P (fun ω => B t.toNNReal ω - B (0 : ℝ).toNNReal ω) := by
        unfold rms
        rw [eLpNorm_congr_ae]
        filter_upwards [hB.eval_zero_ae_eq_zero] with ω hω
        simp [hω]
      rw [h4]
      refine abs_le_of_sq_le_sq' ?_ zero_le_one |>.2
      rw [h3]; simpa using ht.2
    have mb : MemLp (fun ω => (2 : ℝ) • B t.toNNReal ω) 2 P := (m1 t.toNNReal).const_smul (2 : ℝ)
    have h5 : rms P (rampSolution B t) ≤ rms P (fun ω => (2 : ℝ) • B t.toNNReal ω) := by
      refine rms_mono mb fun ω => ?_
      rw [rampSolution, norm_smul, norm_smul, mul_comm, Real.norm_of_nonneg zero_le_two]
      refine mul_le_mul_of_nonneg_right ?_ (norm_nonneg _)
      rw [EuclideanSpace.norm_eq, Real.sqrt_le_left zero_le_two]
      simp
      have := ht.1; have := ht.2
      nlinarith
    rw [rms_smul, abs_two] at h5
    linarith
  · intro s t hs hst htb
    obtain ⟨h2, -⟩ := brownian_rms_le hB hm hs hst
    have hlim : Tendsto (fun n : ℕ => (t - s) / (n : ℝ) * rms P (fun ω => B t.toNNReal ω - B s.toNNReal ω)) atTop
        (𝓝 0) := by
      have := (tendsto_const_div_atTop_nhds_zero_nat (t - s)).mul_const
        (rms P (fun ω => B t.toNNReal ω - B s.toNNReal ω))
      rwa [zero_mul] at this
    refine hlim.congr' ?_
    filter_upwards [eventually_ne_atTop 0] with n hn
    have hpos : 0 ≤ (t - s) / (n : ℝ) := div_nonneg (by linarith) (Nat.cast_nonneg n)
    have h3 := rms_smul (P := P) ((t - s) / (n : ℝ)) (fun ω => B t.toNNReal ω - B s.toNNReal ω)
    rw [abs_of_nonneg hpos] at h3
    rw [← h3, ← rms_norm, ← rms_norm (fun ω => rampSolution B t ω - rampSolution B s ω - _)]
    congr 1
    funext ω
    have h1 := ramp_leftSum (B := B) s t n n ω
    rw [part_last s t hn, part_zero] at h1
    have h2 : leftSum rampDrift (fun j t _ => rampNoise j t) (pathOf B) (rampSolution B) s t n ω
        = rampSolution B t ω - rampSolution B s ω
          - (((t - s) / n) * (B t.toNNReal ω - B s.toNNReal ω)) • !₂[0, 1] := by
      rw [← h1]; rfl
    rw [h2, sub_sub_cancel, smul_eq_mul, norm_smul (_ * _), n1, mul_one]

/-- The hypotheses of `C80_euler_additive` can be met. -/
example (hB : IsPreBrownianReal B P) (hm : ∀ t, Measurable (B t)) (interp : LocalLin ℝ Plane) :
    ∃ K, StrongErrorAtMost P (pastOf B) (fun ω => euler (multiTerm (odeTerm rampDrift)
      (noiseTerm (fun j t _ => rampNoise j t) fun t => pathOf B t ω)) interp) (fun _ _ => ()) (rampSolution B) 0 1
      (fun e η => K * (e + η ^ 2)) := by
  have hP := hB.isGaussianProcess.isProbabilityMeasure
  have hn : ∀ (j : Fin 1) (s t : ℝ), ‖rampNoise j t - rampNoise j s‖ = |t - s| := by
    intro j s t
    rw [← plane_norm]
    congr 1
    ext i; fin_cases i <;> simp [rampNoise]
  refine C80_euler_additive (L := 1) (Λ := 0) (brownianNoise_of_brownian hB hm) (ramp_ito hB hm) zero_le_one ?_ le_rfl
    ?_ ?_ ?_ ?_ interp
  · intro s _ t _ x x'
    have h1 : rampDrift t x - rampDrift s x' = !₂[0, x 0 - x' 0] := by
      ext i; fin_cases i <;> simp [rampDrift]
    rw [h1, plane_norm]
    have h2 : |x 0 - x' 0| ≤ ‖x - x'‖ := by
      have := PiLp.norm_apply_le (x - x') 0
      simpa using this
    have h3 : 0 ≤ √|t - s| * (1 + ‖x'‖) := by positivity
    linarith
  · intro s _ t _ x
    simp only [rampDrift, sub_self, norm_zero]; positivity
  · intro j s _ t _
    rw [hn, one_mul]
  · intro j s hs t ht
    rw [hn, one_mul]
    refine Real.le_sqrt_of_sq_le ?_
    have h1 : |t - s| ≤ 1 := by rw [abs_le]; constructor <;> linarith [hs.1, hs.2, ht.1, ht.2]
    nlinarith [abs_nonneg (t - s)]
  · intro t _
    have h : rampDrift t = (ContinuousLinearMap.smulRight
        (EuclideanSpace.proj 0 : Plane →L[ℝ] ℝ) (!₂[0, 1] : Plane)) := by
      funext y; ext i; fin_cases i <;> simp [rampDrift]
    rw [h]
    refine ⟨ContinuousLinearMap.contDiff _, fun y x => ?_⟩
    rw [ContinuousLinearMap.fderiv, map_add, add_sub_cancel_left, sub_self]
    simp

end

end Verif
