import Verif.Lemmas.SrkStep
import Verif.Lemmas.BrownianMoments
import Verif.Props.SRK
import Mathlib.MeasureTheory.SpecificCodomains.Pi
import Mathlib.Analysis.Analytic.CPolynomialDef
import Mathlib.Probability.BrownianMotion.Basic
import Mathlib.Analysis.SpecialFunctions.ExpDeriv

/-!
# C67: the strong order of the stochastic Runge-Kutta methods, for additive noise
-/

set_option linter.unusedSectionVars false
set_option linter.unusedSimpArgs false

namespace Verif
open Filter Topology Set MeasureTheory

/-! ### The order conditions of the tableaus -/

open STableau in
theorem sea_order : (STab.sea : STableau ℝ).AdditiveOrder := by
  constructor
  · simp [NoiseOrder, STab.sea]
  · simp [sumB, STab.sea]
  · norm_num [STab.sea, noiseW]
  · intro l hl
    obtain rfl : l = 0 := by simpa [STab.sea, numLevy] using hl
    norm_num [STab.sea, noiseL]

open STableau in
theorem sra1_order : (STab.sra1 : STableau ℝ).AdditiveOrder := by
  constructor
  · simp [NoiseOrder, STab.sra1]
  · norm_num [sumB, STab.sra1, Finset.sum_range_succ]
  · norm_num [STab.sra1, noiseW, Finset.sum_range_succ]
  · intro l hl
    obtain rfl : l = 0 := by simpa [STab.sra1, numLevy] using hl
    norm_num [STab.sra1, noiseL, Finset.sum_range_succ]

open STableau in
theorem shark_order : (STab.shark : STableau ℝ).AdditiveOrder := by
  constructor
  · simp [NoiseOrder, STab.shark]
  · norm_num [sumB, STab.shark, Finset.sum_range_succ]
  · norm_num [STab.shark, noiseW, Finset.sum_range_succ]
  · intro l hl
    obtain rfl : l = 0 := by simpa [STab.shark, numLevy] using hl
    norm_num [STab.shark, noiseL, Finset.sum_range_succ]

open STableau in
theorem generalShark_order : (STab.generalShark : STableau ℝ).AdditiveOrder := by
  constructor
  · norm_num [NoiseOrder, STab.generalShark, Finset.sum_range_succ, cs]
  · norm_num [sumB, STab.generalShark, Finset.sum_range_succ]
  · norm_num [STab.generalShark, noiseW, Finset.sum_range_succ, lowerAt]
  · intro l hl
    obtain rfl : l = 0 := by simpa [STab.generalShark, numLevy] using hl
    norm_num [STab.generalShark, noiseL, Finset.sum_range_succ, lowerAt]

open STableau in
theorem slowRK_order : (STab.slowRK : STableau ℝ).AdditiveOrder := by
  constructor
  · norm_num [NoiseOrder, STab.slowRK, Finset.sum_range_succ, cs]
  · norm_num [sumB, STab.slowRK, Finset.sum_range_succ]
  · norm_num [STab.slowRK, noiseW, Finset.sum_range_succ, lowerAt]
  · intro l hl
    obtain rfl : l = 0 := by simpa [STab.slowRK, numLevy] using hl
    norm_num [STab.slowRK, noiseL, Finset.sum_range_succ, lowerAt]

open STableau in
theorem spark_order : STab.spark.AdditiveOrder := by
  constructor
  · norm_num [NoiseOrder, STab.spark, Finset.sum_range_succ, cs, STab.x1, STab.x2]
    constructor <;> ring
  · norm_num [sumB, STab.spark, Finset.sum_range_succ, STab.x1, STab.x2]
    ring
  · norm_num [STab.spark, noiseW, Finset.sum_range_succ, lowerAt, STab.x1, STab.x2]
    ring
  · intro l hl
    obtain rfl : l = 0 := by simpa [STab.spark, numLevy] using hl
    norm_num [STab.spark, noiseL, Finset.sum_range_succ, lowerAt, STab.x1, STab.x2]
    rw [div_mul_eq_mul_div, Real.mul_self_sqrt (by norm_num)]
    norm_num

/-- Further conditions, for strong order 3/2. -/
structure STableau.AdditiveOrder15 (tab : STableau ℝ) : Prop extends tab.AdditiveOrder where
  levy1 : tab.numLevy = 1
  bc : tab.sumBC = 1 / 2
  ba : tab.sumBA = 1 / 2
  mean : (∑ j ∈ Finset.range tab.bSol.length, tab.bSol.getD j 0 * (tab.noiseW j ^ 2 + tab.noiseL 0 j ^ 2 / 12)) = 1 / 2

open STableau in
theorem sra1_order15 : (STab.sra1 : STableau ℝ).AdditiveOrder15 where
  toAdditiveOrder := sra1_order
  levy1 := by simp [numLevy, STab.sra1]
  bc := by norm_num [sumBC, STab.sra1, Finset.sum_range_succ, cs]
  ba := by norm_num [sumBA, STab.sra1, Finset.sum_range_succ, lowerAt]
  mean := by norm_num [STab.sra1, Finset.sum_range_succ, noiseW, noiseL]

open STableau in
theorem shark_order15 : (STab.shark : STableau ℝ).AdditiveOrder15 where
  toAdditiveOrder := shark_order
  levy1 := by simp [numLevy, STab.shark]
  bc := by norm_num [sumBC, STab.shark, Finset.sum_range_succ, cs]
  ba := by norm_num [sumBA, STab.shark, Finset.sum_range_succ, lowerAt]
  mean := by norm_num [STab.shark, Finset.sum_range_succ, noiseW, noiseL]

open STableau in
theorem generalShark_order15 : (STab.generalShark : STableau ℝ).AdditiveOrder15 where
  toAdditiveOrder := generalShark_order
  levy1 := by simp [numLevy, STab.generalShark]
  bc := by norm_num [sumBC, STab.generalShark, Finset.sum_range_succ, cs]
  ba := by norm_num [sumBA, STab.generalShark, Finset.sum_range_succ, lowerAt]
  mean := by norm_num [STab.generalShark, Finset.sum_range_succ, noiseW, noiseL, lowerAt]

open STableau in
theorem slowRK_order15 : (STab.slowRK : STableau ℝ).AdditiveOrder15 where
  toAdditiveOrder := slowRK_order
  levy1 := by simp [numLevy, STab.slowRK]
  bc := by norm_num [sumBC, STab.slowRK, Finset.sum_range_succ, cs]
  ba := by norm_num [sumBA, STab.slowRK, Finset.sum_range_succ, lowerAt]
  mean := by norm_num [STab.slowRK, Finset.sum_range_succ, noiseW, noiseL, lowerAt]

open STableau in
theorem spark_order15 : STab.spark.AdditiveOrder15 where
  toAdditiveOrder := spark_order
  levy1 := by simp [numLevy, STab.spark]
  bc := by
    norm_num [sumBC, STab.spark, Finset.sum_range_succ, cs, STab.x1, STab.x2]
    ring
  ba := by
    norm_num [sumBA, STab.spark, Finset.sum_range_succ, lowerAt, STab.x1, STab.x2]
    ring
  mean := by
    norm_num [STab.spark, Finset.sum_range_succ, noiseW, noiseL, lowerAt, STab.x1, STab.x2]
    ring

/-! ### Expectations of quadratic expressions in Brownian motion -/

section
variable {E : Type} [NormedAddCommGroup E] [NormedSpace ℝ E] [CompleteSpace E] {d : ℕ}

/-- The trace of a bilinear map. -/
noncomputable def trace (T : (Fin d → ℝ) →L[ℝ] (Fin d → ℝ) →L[ℝ] E) : E := ∑ k, T (Pi.single k 1) (Pi.single k 1)

theorem bilin_coords (T : (Fin d → ℝ) →L[ℝ] (Fin d → ℝ) →L[ℝ] E) (x : Fin d → ℝ) :
    T x x = ∑ k, ∑ l, (x k * x l) • T (Pi.single k 1) (Pi.single l 1) := by
  have e : x = ∑ k, x k • (Pi.single k (1 : ℝ) : Fin d → ℝ) := by
    funext i
    simp [Finset.sum_apply, Pi.single_apply]
  conv_lhs => rw [e]
  simp only [map_sum, map_smul, sum_apply, smul_apply, Finset.smul_sum, smul_smul]
  rw [Finset.sum_comm]
  refine Finset.sum_congr rfl fun k _ => Finset.sum_congr rfl fun l _ => ?_
  rw [mul_comm]

variable {Ω : Type} [MeasurableSpace Ω] {P : Measure Ω} [IsProbabilityMeasure P] {W : Ω → ℝ → Fin d → ℝ}

/-- Expectation of a bilinear map, from the second moments. -/
theorem mean_bilin (T : (Fin d → ℝ) →L[ℝ] (Fin d → ℝ) →L[ℝ] E) (c : ℝ) (M : Ω → Fin d → Fin d → ℝ)
    (h : ∀ k l, Integrable (fun ω => M ω k l) P ∧ ∫ ω, M ω k l ∂P = if k = l then c else 0) :
    Integrable (fun ω => ∑ k, ∑ l, M ω k l • T (Pi.single k 1) (Pi.single l 1)) P ∧
    ∫ ω, (∑ k, ∑ l, M ω k l • T (Pi.single k 1) (Pi.single l 1)) ∂P = c • trace T := by
  have hi : ∀ k l, Integrable (fun ω => M ω k l • T (Pi.single k 1) (Pi.single l 1)) P := fun k l =>
    (h k l).1.smul_const _
  refine ⟨integrable_finsetSum _ fun k _ => integrable_finsetSum _ fun l _ => hi k l, ?_⟩
  rw [integral_finsetSum _ fun k _ => integrable_finsetSum _ fun l _ => hi k l, trace, Finset.smul_sum]
  refine Finset.sum_congr rfl fun k _ => ?_
  rw [integral_finsetSum _ fun l _ => hi k l]
  simp only [integral_smul_const, (h k _).2]
  simp

theorem BrownianMoments.path_integrable (h : BrownianMoments P W) (ω : Ω) (i : Fin d) :
    IntegrableOn (fun r => W ω r i) (Ioc 0 1) := (h.paths ω i).integrable (by norm_num)

theorem BrownianMoments.path_intervalIntegrable (h : BrownianMoments P W) (ω : Ω) :
    IntervalIntegrable (W ω) volume 0 1 := by
  rw [intervalIntegrable_iff_integrableOn_Ioc_of_le zero_le_one]
  exact Integrable.of_eval fun i => h.path_integrable ω i

theorem BrownianMoments.area_eq (h : BrownianMoments P W) (ω : Ω) (i : Fin d) :
    (levyOf (W ω) 0 1).2.2.1 i = (∫ r in Ioc (0 : ℝ) 1, W ω r i) - W ω 1 i / 2 := by
  unfold levyOf areaH bridgeOf
  simp only [h.zero ω, sub_zero, div_one, one_smul]
  have hi := h.path_intervalIntegrable ω
  rw [intervalIntegral.integral_sub hi (Continuous.intervalIntegrable (by fun_prop) _ _),
    intervalIntegral.integral_smul_const, integral_id, Pi.sub_apply]
  have e : (∫ r in (0 : ℝ)..1, W ω r) i = ∫ r in (0 : ℝ)..1, W ω r i :=
    ((ContinuousLinearMap.proj (R := ℝ) (φ := fun _ : Fin d => ℝ) i).intervalIntegral_comp_comm hi).symm
  rw [e, intervalIntegral.integral_of_le zero_le_one, Pi.smul_apply, smul_eq_mul]
  ring

/-- Expectation of a quadratic expression in `W` and `H`. -/
theorem mean_WH (h : BrownianMoments P W) (T : (Fin d → ℝ) →L[ℝ] (Fin d → ℝ) →L[ℝ] E) (a b : ℝ) :
    let x := fun ω => a • (levyOf (W ω) 0 1).2.1 + b • (levyOf (W ω) 0 1).2.2.1
    Integrable (fun ω => T (x ω) (x ω)) P ∧ ∫ ω, T (x ω) (x ω) ∂P = (a ^ 2 + b ^ 2 / 12) • trace T := by
  intro x
  have hx : ∀ ω k, x ω k = (a - b / 2) * W ω 1 k + b * ∫ r in Ioc (0 : ℝ) 1, W ω r k := by
    intro ω k
    simp only [x, Pi.add_apply, Pi.smul_apply, smul_eq_mul, h.area_eq ω k]
    simp only [levyOf, h.zero ω, sub_zero]
    ring
  simp only [bilin_coords T]
  refine mean_bilin T _ (fun ω k l => x ω k * x ω l) fun k l => ?_
  simp only [hx]
  have := h.cov_comb k l (a - b / 2) b
  refine ⟨this.1, this.2.trans ?_⟩
  split_ifs
  · ring
  · rfl

theorem mean_time (h : BrownianMoments P W) (T : (Fin d → ℝ) →L[ℝ] (Fin d → ℝ) →L[ℝ] E) :
    Integrable (fun ω => ∫ v in (0 : ℝ)..1, T (W ω v) (W ω v)) P ∧
    ∫ ω, (∫ v in (0 : ℝ)..1, T (W ω v) (W ω v)) ∂P = (1 / 2 : ℝ) • trace T := by
  have hp : ∀ ω k l, IntegrableOn (fun v => W ω v k * W ω v l) (Ioc 0 1) := fun ω k l =>
    (h.paths ω k).integrable_mul (h.paths ω l)
  have e : ∀ ω, ∫ v in (0 : ℝ)..1, T (W ω v) (W ω v)
      = ∑ k, ∑ l, (∫ v in Ioc (0 : ℝ) 1, W ω v k * W ω v l) • T (Pi.single k 1) (Pi.single l 1) := by
    intro ω
    have hi : ∀ k l, Integrable (fun v => (W ω v k * W ω v l) • T (Pi.single k 1) (Pi.single l 1))
        (volume.restrict (Ioc 0 1)) := fun k l => (hp ω k l).smul_const _
    rw [intervalIntegral.integral_of_le zero_le_one]
    simp only [bilin_coords T (W ω _)]
    rw [integral_finsetSum _ fun k _ => integrable_finsetSum _ fun l _ => hi k l]
    refine Finset.sum_congr rfl fun k _ => ?_
    rw [integral_finsetSum _ fun l _ => hi k l]
    exact Finset.sum_congr rfl fun l _ => integral_smul_const _ _
  simp only [e]
  refine mean_bilin T _ (fun ω k l => ∫ v in Ioc (0 : ℝ) 1, W ω v k * W ω v l) fun k l => ?_
  have := h.integral_sq BrownianMoments.mem_unit k l
  rw [BrownianMoments.int_id] at this
  exact this

end

/-! ### C67 -/

section
variable {E : Type} [NormedAddCommGroup E] [NormedSpace ℝ E] [CompleteSpace E] {d : ℕ}
variable {f : ℝ → E → E} {g g' : ℝ → (Fin d → ℝ) →L[ℝ] E} {t0 : ℝ} {y0 : E}
variable {L : ℝ × E →L[ℝ] E} {Q : ℝ × E →L[ℝ] ℝ × E →L[ℝ] E}

/-- The part of the local error that depends quadratically on the noise. -/
noncomputable def noiseError (tab : STableau ℝ) (Q : ℝ × E →L[ℝ] ℝ × E →L[ℝ] E) (G : (Fin d → ℝ) →L[ℝ] E) (w : ℝ → Fin d → ℝ) : E :=
  (∑ j ∈ Finset.range tab.bSol.length, tab.bSol.getD j 0 • Q (0, tab.stageX G w j) (0, tab.stageX G w j))
    - ∫ v in (0 : ℝ)..1, Q (0, G (w v)) (0, G (w v))

theorem UO.isBigO_pow {k : ℕ} {φ : ℝ → E} (h : UO k (fun ε _ => φ ε)) : φ =O[𝓝[>] 0] fun ε : ℝ => ε ^ k := by
  obtain ⟨C, hC, h⟩ := h
  refine Asymptotics.IsBigO.of_bound C ?_
  filter_upwards [h, ev_pos] with ε h hε
  rw [Real.norm_of_nonneg (pow_nonneg hε.1.le k)]
  exact h 0 ⟨le_rfl, zero_le_one⟩

theorem C67_general {tab : STableau ℝ} (hwf : tab.WF) (ho : tab.AdditiveOrder15)
    (hF : HasJet2 (fun x : ℝ × E => f x.1 x.2) (t0, y0) L Q) (hg : SmoothDiffusion g g' t0) :
    (∀ w : ℝ → Fin d → ℝ, Continuous w → w 0 = 0 → ∀ y : ℝ → ℝ → E,
      (∀ᶠ ε in 𝓝[>] (0 : ℝ), SolvesAdditive f g g' (scaledPath w t0 ε) t0 (t0 + ε ^ 2) y0 (y ε)) →
      (fun ε => ((addSrk tab f g (scaledPath w t0 ε)).step t0 (t0 + ε ^ 2) y0).y - y ε (t0 + ε ^ 2)
        - ε ^ 4 • noiseError tab Q (g t0) w) =O[𝓝[>] 0] fun ε => ε ^ 5) ∧
    ∀ (Ω : Type) [MeasurableSpace Ω] (P : Measure Ω) [IsProbabilityMeasure P] (W : Ω → ℝ → Fin d → ℝ),
      BrownianMoments P W → Integrable (fun ω => noiseError tab Q (g t0) (W ω)) P ∧
        ∫ ω, noiseError tab Q (g t0) (W ω) ∂P = 0 := by
  refine ⟨fun w hw hw0 y hy => ?_, fun Ω _ P _ W hW => ?_⟩
  · have h := local_error hwf ho.toAdditiveOrder hF hg hw hw0 hy
    rw [ho.bc, ho.ba, sub_self, zero_smul] at h
    refine UO.isBigO_pow (h.congr' fun ε u => ?_)
    unfold noiseError
    congr 2
    have : L ((0 : ℝ), (0 : E)) = 0 := map_zero L
    rw [this, zero_add]
  · let G' : (Fin d → ℝ) →L[ℝ] ℝ × E := (ContinuousLinearMap.inr ℝ ℝ E).comp (g t0)
    let T : (Fin d → ℝ) →L[ℝ] (Fin d → ℝ) →L[ℝ] E := Q.bilinearComp G' G'
    have hT : ∀ x, T x x = Q (0, g t0 x) (0, g t0 x) := fun x => rfl
    have e : ∀ ω, noiseError tab Q (g t0) (W ω)
        = (∑ j ∈ Finset.range tab.bSol.length, tab.bSol.getD j 0 •
          T (tab.noiseW j • (levyOf (W ω) 0 1).2.1 + tab.noiseL 0 j • (levyOf (W ω) 0 1).2.2.1)
            (tab.noiseW j • (levyOf (W ω) 0 1).2.1 + tab.noiseL 0 j • (levyOf (W ω) 0 1).2.2.1))
          - ∫ v in (0 : ℝ)..1, T (W ω v) (W ω v) := by
      intro ω
      unfold noiseError STableau.stageX
      simp only [ho.levy1, Finset.sum_range_one, hT, area, if_true]
    simp only [e]
    have h1 := fun j => mean_WH hW T (tab.noiseW j) (tab.noiseL 0 j)
    have h2 := mean_time hW T
    have hi : ∀ j, Integrable (fun ω => tab.bSol.getD j 0 •
          T (tab.noiseW j • (levyOf (W ω) 0 1).2.1 + tab.noiseL 0 j • (levyOf (W ω) 0 1).2.2.1)
            (tab.noiseW j • (levyOf (W ω) 0 1).2.1 + tab.noiseL 0 j • (levyOf (W ω) 0 1).2.2.1)) P :=
      fun j => (h1 j).1.smul (tab.bSol.getD j 0)
    have hs := integrable_finsetSum (Finset.range tab.bSol.length) fun j _ => hi j
    refine ⟨hs.sub h2.1, ?_⟩
    rw [integral_sub hs h2.1, integral_finsetSum _ fun j _ => hi j, h2.2]
    have e3 : ∀ j ∈ Finset.range tab.bSol.length, ∫ ω, tab.bSol.getD j 0 •
          T (tab.noiseW j • (levyOf (W ω) 0 1).2.1 + tab.noiseL 0 j • (levyOf (W ω) 0 1).2.2.1)
            (tab.noiseW j • (levyOf (W ω) 0 1).2.1 + tab.noiseL 0 j • (levyOf (W ω) 0 1).2.2.1) ∂P
        = (tab.bSol.getD j 0 * (tab.noiseW j ^ 2 + tab.noiseL 0 j ^ 2 / 12)) • trace T := by
      intro j _
      rw [integral_smul, (h1 j).2, smul_smul]
    rw [Finset.sum_congr rfl e3, ← Finset.sum_smul, ho.mean, sub_self]

end

/-! ### The statements for the solvers -/

section
variable {E : Type} [NormedAddCommGroup E] [NormedSpace ℝ E] [CompleteSpace E] {d : ℕ}
variable {f : ℝ → E → E} {g g' : ℝ → (Fin d → ℝ) →L[ℝ] E} {t0 : ℝ} {y0 : E}
variable {L : ℝ × E →L[ℝ] E} {Q : ℝ × E →L[ℝ] ℝ × E →L[ℝ] E}

/-- The method with tableau `tab` has a local error of order `h² = ε⁴` along every path, and the part of this order
has mean zero under Brownian motion. -/
def LocalOrder15 (tab : STableau ℝ) (f : ℝ → E → E) (g g' : ℝ → (Fin d → ℝ) →L[ℝ] E) (t0 : ℝ) (y0 : E) : Prop :=
  ∃ M : (ℝ → Fin d → ℝ) → E,
    (∀ w : ℝ → Fin d → ℝ, Continuous w → w 0 = 0 → ∀ y : ℝ → ℝ → E,
      (∀ᶠ ε in 𝓝[>] (0 : ℝ), SolvesAdditive f g g' (scaledPath w t0 ε) t0 (t0 + ε ^ 2) y0 (y ε)) →
      (fun ε => ((addSrk tab f g (scaledPath w t0 ε)).step t0 (t0 + ε ^ 2) y0).y - y ε (t0 + ε ^ 2)
        - ε ^ 4 • M w) =O[𝓝[>] 0] fun ε => ε ^ 5) ∧
    ∀ (Ω : Type) [MeasurableSpace Ω] (P : Measure Ω) [IsProbabilityMeasure P] (W : Ω → ℝ → Fin d → ℝ),
      BrownianMoments P W → Integrable (fun ω => M (W ω)) P ∧ ∫ ω, M (W ω) ∂P = 0

/-- The method has a local error of order `h² = ε⁴` along every path. -/
def LocalOrder1 (tab : STableau ℝ) (f : ℝ → E → E) (g g' : ℝ → (Fin d → ℝ) →L[ℝ] E) (t0 : ℝ) (y0 : E) : Prop :=
  ∀ w : ℝ → Fin d → ℝ, Continuous w → w 0 = 0 → ∀ y : ℝ → ℝ → E,
    (∀ᶠ ε in 𝓝[>] (0 : ℝ), SolvesAdditive f g g' (scaledPath w t0 ε) t0 (t0 + ε ^ 2) y0 (y ε)) →
    (fun ε => ((addSrk tab f g (scaledPath w t0 ε)).step t0 (t0 + ε ^ 2) y0).y - y ε (t0 + ε ^ 2))
      =O[𝓝[>] 0] fun ε => ε ^ 4

/-- **C67.** For additive noise, `SRA1`, `ShARK`, `GeneralShARK`, `SlowRK` and `SPaRK` have the local error of methods
of strong order 3/2. -/
theorem C67_order_three_halves (hF : HasJet2 (fun x : ℝ × E => f x.1 x.2) (t0, y0) L Q)
    (hg : SmoothDiffusion g g' t0) :
    LocalOrder15 STab.sra1 f g g' t0 y0 ∧ LocalOrder15 STab.shark f g g' t0 y0 ∧
    LocalOrder15 STab.generalShark f g g' t0 y0 ∧ LocalOrder15 STab.slowRK f g g' t0 y0 ∧
    LocalOrder15 STab.spark f g g' t0 y0 :=
  ⟨⟨_, C67_general sra1_wf sra1_order15 hF hg⟩, ⟨_, C67_general shark_wf shark_order15 hF hg⟩,
    ⟨_, C67_general generalShark_wf generalShark_order15 hF hg⟩, ⟨_, C67_general slowRK_wf slowRK_order15 hF hg⟩,
    ⟨_, C67_general spark_wf spark_order15 hF hg⟩⟩

theorem localOrder1_of {tab : STableau ℝ} (hwf : tab.WF) (ho : tab.AdditiveOrder)
    (hF : HasJet2 (fun x : ℝ × E => f x.1 x.2) (t0, y0) L Q) (hg : SmoothDiffusion g g' t0) :
    LocalOrder1 tab f g g' t0 y0 := by
  intro w hw hw0 y hy
  have h := (local_error hwf ho hF hg hw hw0 hy).mono (m := 4) (by norm_num)
  have h2 : UO 4 (fun ε (_ : ℝ) => ε ^ 4 • (L (tab.sumBC - 1 / 2, (tab.sumBA - 1 / 2) • f t0 y0)
        + (∑ j ∈ Finset.range tab.bSol.length, tab.bSol.getD j 0 • Q (0, tab.stageX (g t0) w j) (0, tab.stageX (g t0) w j))
        - ∫ v in (0 : ℝ)..1, Q (0, g t0 (w v)) (0, g t0 (w v)))) := ((UO.const _).smul_pow 4).congr' fun _ _ => rfl
  exact UO.isBigO_pow ((h.add h2).congr' fun ε u => by abel)

/-- **C67, for `SEA`** and for the others again: a local error of order `h²` along every path (strong order 1). -/
theorem C67_order_one (hF : HasJet2 (fun x : ℝ × E => f x.1 x.2) (t0, y0) L Q)
    (hg : SmoothDiffusion g g' t0) :
    LocalOrder1 STab.sea f g g' t0 y0 ∧ LocalOrder1 STab.sra1 f g g' t0 y0 ∧ LocalOrder1 STab.shark f g g' t0 y0 ∧
    LocalOrder1 STab.generalShark f g g' t0 y0 ∧ LocalOrder1 STab.slowRK f g g' t0 y0 ∧
    LocalOrder1 STab.spark f g g' t0 y0 :=
  ⟨localOrder1_of sea_wf sea_order hF hg, localOrder1_of sra1_wf sra1_order hF hg,
    localOrder1_of shark_wf shark_order hF hg, localOrder1_of generalShark_wf generalShark_order hF hg,
    localOrder1_of slowRK_wf slowRK_order hF hg, localOrder1_of spark_wf spark_order hF hg⟩

end

/-! ### The hypotheses are met -/

/-- Analytic functions have the expansion asked for. -/
theorem HasJet2.of_analytic {X E : Type} [NormedAddCommGroup X] [NormedSpace ℝ X] [NormedAddCommGroup E] [NormedSpace ℝ E]
    [CompleteSpace E] {F : X → E} {x0 : X} (h : AnalyticAt ℝ F x0) : ∃ L Q, HasJet2 F x0 L Q := by
  obtain ⟨p, hp⟩ := h
  let L : X →L[ℝ] E := continuousMultilinearCurryFin1 ℝ X E (p 1)
  let Q : X →L[ℝ] X →L[ℝ] E :=
    ((continuousMultilinearCurryFin1 ℝ X E).toContinuousLinearEquiv : _ →L[ℝ] _).comp (p 2).curryLeft
  refine ⟨L, Q, ?_, ?_⟩
  · refine (hp.isBigO_sub_partialSum_pow 3).congr_left fun d => ?_
    have e0 : p 0 (fun _ => d) = F x0 := hp.coeff_zero _
    have e1 : p 1 (fun _ => d) = L d := by
      show _ = p 1 _
      congr 1
    have e2 : p 2 (fun _ => d) = Q d d := by
      show _ = (p 2).curryLeft d _
      rw [ContinuousMultilinearMap.curryLeft_apply]
      congr 1
      funext i
      fin_cases i <;> rfl
    simp only [FormalMultilinearSeries.partialSum, Finset.sum_range_succ, Finset.sum_range_zero, zero_add, e0, e1, e2]
  · exact hp.analyticAt.eventually_analyticAt.mono fun x hx => hx.continuousAt

open ProbabilityTheory in
/-- Independent Brownian motions have the second moments asked for. -/
theorem brownianMoments_of_brownian {Ω : Type} [MeasurableSpace Ω] {P : Measure Ω} [IsProbabilityMeasure P] {d : ℕ}
    {X : Fin d → NNReal → Ω → ℝ} (h : ∀ i, IsPreBrownianReal (X i) P) (hm : ∀ i t, Measurable (X i t))
    (hc : ∀ i ω, Continuous fun t => X i t ω) (h0 : ∀ i ω, X i 0 ω = 0)
    (hind : ∀ i j, i ≠ j → ∀ s t, IndepFun (X i s) (X j t) P) :
    BrownianMoments P (fun ω r i => X i r.toNNReal ω) where
  measurable := by
    refine measurable_pi_lambda _ fun i => ?_
    have h1 := measurable_uncurry_of_continuous_of_measurable (u := fun (r : ℝ) ω => X i r.toNNReal ω)
      (fun ω => (hc i ω).comp continuous_real_toNNReal) (fun r => hm i _)
    exact h1.comp measurable_swap
  zero ω := by
    funext i
    simp [h0 i ω]
  paths ω i := by
    have hcont : Continuous fun r : ℝ => X i r.toNNReal ω := (hc i ω).comp continuous_real_toNNReal
    obtain ⟨C, hC⟩ := (isCompact_Icc (a := (0 : ℝ)) (b := 1)).exists_bound_of_continuousOn hcont.continuousOn
    refine MemLp.of_bound hcont.aestronglyMeasurable C ?_
    exact (ae_restrict_mem measurableSet_Ioc).mono fun r hr => hC r ⟨hr.1.le, hr.2⟩
  sq i s _ := ((h i).isGaussianProcess.hasGaussianLaw_eval _).memLp_two
  cov i j s hs t ht := by
    have mi := ((h i).isGaussianProcess.hasGaussianLaw_eval s.toNNReal).memLp_two
    have mj := ((h j).isGaussianProcess.hasGaussianLaw_eval t.toNNReal).memLp_two
    split_ifs with hij
    · subst hij
      have hcov := (h i).covariance_eval s.toNNReal t.toNNReal
      rw [covariance_eq_sub mi mj, (h i).integral_eval, (h i).integral_eval, mul_zero, sub_zero] at hcov
      simp only [Pi.mul_apply] at hcov
      rw [hcov, NNReal.coe_min, Real.coe_toNNReal _ hs.1, Real.coe_toNNReal _ ht.1]
    · have hi := (hind i j hij s.toNNReal t.toNNReal).integral_fun_mul_eq_mul_integral
        mi.aestronglyMeasurable mj.aestronglyMeasurable
      rw [hi, (h i).integral_eval, zero_mul]

/-- A concrete process with these moments: a jump by one, at a uniformly distributed time. -/
example : BrownianMoments (volume.restrict (Icc (0 : ℝ) 1)) (fun ω r (_ : Fin 1) => if 0 < r ∧ ω ≤ r then 1 else 0) where
  measurable := by
    refine measurable_pi_lambda _ fun i => Measurable.ite ?_ measurable_const measurable_const
    exact (measurableSet_lt measurable_const measurable_snd).inter (measurableSet_le measurable_fst measurable_snd)
  zero ω := by funext i; simp
  paths ω i := by
    refine MemLp.of_bound (C := 1) (Measurable.aestronglyMeasurable ?_) (ae_of_all _ fun r => ?_)
    · refine Measurable.ite ?_ measurable_const measurable_const
      exact (measurableSet_lt measurable_const measurable_id).inter (measurableSet_le measurable_const measurable_id)
    · split_ifs <;> simp
  sq i s _ := by
    refine MemLp.of_bound (C := 1) (Measurable.aestronglyMeasurable ?_) (ae_of_all _ fun r => ?_)
    · refine Measurable.ite ?_ measurable_const measurable_const
      exact (MeasurableSet.const _).inter (measurableSet_le measurable_id measurable_const)
    · split_ifs <;> simp
  cov i j s hs t ht := by
    rw [if_pos (Subsingleton.elim i j)]
    have e : (fun ω : ℝ => (if 0 < s ∧ ω ≤ s then (1 : ℝ) else 0) * (if 0 < t ∧ ω ≤ t then 1 else 0))
        = fun ω => (Iic (min s t)).indicator (fun _ => if 0 < min s t then (1 : ℝ) else 0) ω := by
      funext ω
      by_cases h1 : ω ≤ s <;> by_cases h2 : ω ≤ t <;> by_cases h3 : 0 < s <;> by_cases h4 : 0 < t <;>
        simp [h1, h2, h3, h4, indicator]
    rw [e, integral_indicator measurableSet_Iic, setIntegral_const, measureReal_restrict_apply measurableSet_Iic]
    have e2 : Iic (min s t) ∩ Icc (0 : ℝ) 1 = Icc 0 (min s t) := by
      ext x
      simp only [mem_inter_iff, mem_Iic, mem_Icc]
      constructor
      · rintro ⟨h1, h2, h3⟩; exact ⟨h2, h1⟩
      · rintro ⟨h1, h2⟩; exact ⟨h2, h1, h2.trans ((min_le_left _ _).trans hs.2)⟩
    rw [e2, Real.volume_real_Icc_of_le (le_min hs.1 ht.1), sub_zero, smul_eq_mul]
    split_ifs with h
    · rw [mul_one]
    · rw [mul_zero]
      exact (le_antisymm (not_lt.1 h) (le_min hs.1 ht.1)).symm

/-- The theorem applies to `dy = y² dt + sin(t) dw`, for example. -/
example (t0 y0 : ℝ) : ∃ L Q, HasJet2 (fun x : ℝ × ℝ => x.2 ^ 2) (t0, y0) L Q :=
  HasJet2.of_analytic ((analyticAt_snd).pow 2)

/-- A solution along a path: `dy = y dt + dw`, where `w` is a straight line. -/
example (t0 y0 : ℝ) : ∀ᶠ ε in 𝓝[>] (0 : ℝ), SolvesAdditive (fun _ y => y)
    (fun _ => ContinuousLinearMap.proj (0 : Fin 1)) (fun _ => 0) (scaledPath (fun v _ => v) t0 ε) t0 (t0 + ε ^ 2) y0
    (fun t => (y0 + 1 / ε) * Real.exp (t - t0) - 1 / ε) := by
  filter_upwards [ev_pos] with ε hε
  have hne := hε.1.ne'
  refine ⟨by fun_prop, fun t ht => ?_⟩
  have h1 : ∫ r in t0..t, ((y0 + 1 / ε) * Real.exp (r - t0) - 1 / ε)
      = (y0 + 1 / ε) * (Real.exp (t - t0) - 1) - (t - t0) / ε := by
    rw [intervalIntegral.integral_sub (Continuous.intervalIntegrable (by fun_prop) _ _)
      (Continuous.intervalIntegrable (by fun_prop) _ _), intervalIntegral.integral_const_mul,
      intervalIntegral.integral_comp_sub_right (fun r => Real.exp r) t0, integral_exp, intervalIntegral.integral_const]
    simp only [sub_self, Real.exp_zero, smul_eq_mul]
    ring
  rw [h1]
  simp only [wienerIntegral, scaledPath, zero_apply, intervalIntegral.integral_zero, sub_zero]
  simp
  field_simp
  ring

end Verif
