import Verif.Spec.SrkOrder
import Mathlib.Analysis.SpecialFunctions.Integrals.Basic
import Mathlib.Analysis.Calculus.MeanValue
import Mathlib.Analysis.Calculus.Deriv.Shift
import Mathlib.Analysis.Analytic.Basic
import Mathlib.MeasureTheory.Integral.IntervalIntegral.FundThmCalculus
import Mathlib.Tactic.Module
import Mathlib.Tactic.FieldSimp
import Mathlib.Tactic.Positivity
import Mathlib.Analysis.Normed.Operator.Bilinear

/-!
# Expansions in `ε`, uniformly over `[0, 1]`
-/

set_option linter.unusedSectionVars false

namespace Verif
open Filter Topology Set

variable {E X B : Type} [NormedAddCommGroup E] [NormedSpace ℝ E] [NormedAddCommGroup X] [NormedSpace ℝ X]
  [NormedAddCommGroup B] [NormedSpace ℝ B]

/-- `φ ε u = O(ε^k)` as `ε → 0` from above, uniformly in `u ∈ [0, 1]`. -/
def UO (k : ℕ) (φ : ℝ → ℝ → E) : Prop :=
  ∃ C, 0 ≤ C ∧ ∀ᶠ ε in 𝓝[>] (0 : ℝ), ∀ u ∈ Icc (0 : ℝ) 1, ‖φ ε u‖ ≤ C * ε ^ k

theorem ev_pos : ∀ᶠ ε in 𝓝[>] (0 : ℝ), 0 < ε ∧ ε < 1 := by
  have : Ioo (0 : ℝ) 1 ∈ 𝓝[>] (0 : ℝ) := Ioo_mem_nhdsGT one_pos
  exact this

namespace UO

theorem congr {k : ℕ} {φ ψ : ℝ → ℝ → E} (h : UO k φ) (he : ∀ᶠ ε in 𝓝[>] (0 : ℝ), ∀ u ∈ Icc (0 : ℝ) 1, φ ε u = ψ ε u) :
    UO k ψ := by
  obtain ⟨C, hC, h⟩ := h
  refine ⟨C, hC, ?_⟩
  filter_upwards [h, he] with ε h1 h2 u hu
  rw [← h2 u hu]; exact h1 u hu

theorem congr' {k : ℕ} {φ ψ : ℝ → ℝ → E} (h : UO k φ) (he : ∀ ε u, φ ε u = ψ ε u) : UO k ψ :=
  h.congr (Eventually.of_forall fun ε u _ => he ε u)

theorem zero (k : ℕ) : UO k (fun _ _ => (0 : E)) :=
  ⟨0, le_rfl, Eventually.of_forall fun _ _ _ => by simp⟩

theorem add {k : ℕ} {φ ψ : ℝ → ℝ → E} (h : UO k φ) (h' : UO k ψ) : UO k (fun ε u => φ ε u + ψ ε u) := by
  obtain ⟨C, hC, h⟩ := h
  obtain ⟨C', hC', h'⟩ := h'
  refine ⟨C + C', by positivity, ?_⟩
  filter_upwards [h, h'] with ε h1 h2 u hu
  calc _ ≤ ‖φ ε u‖ + ‖ψ ε u‖ := norm_add_le _ _
    _ ≤ C * ε ^ k + C' * ε ^ k := add_le_add (h1 u hu) (h2 u hu)
    _ = _ := by ring

theorem neg {k : ℕ} {φ : ℝ → ℝ → E} (h : UO k φ) : UO k (fun ε u => -φ ε u) := by
  obtain ⟨C, hC, h⟩ := h
  refine ⟨C, hC, ?_⟩
  filter_upwards [h] with ε h1 u hu
  rw [norm_neg]; exact h1 u hu

theorem sub {k : ℕ} {φ ψ : ℝ → ℝ → E} (h : UO k φ) (h' : UO k ψ) : UO k (fun ε u => φ ε u - ψ ε u) :=
  (h.add h'.neg).congr' fun ε u => (sub_eq_add_neg _ _).symm

theorem mono {k m : ℕ} {φ : ℝ → ℝ → E} (h : UO k φ) (hm : m ≤ k) : UO m φ := by
  obtain ⟨C, hC, h⟩ := h
  refine ⟨C, hC, ?_⟩
  filter_upwards [h, ev_pos] with ε h1 h2 u hu
  exact (h1 u hu).trans (mul_le_mul_of_nonneg_left (pow_le_pow_of_le_one h2.1.le h2.2.le hm) hC)

theorem smul_pow {k : ℕ} {φ : ℝ → ℝ → E} (m : ℕ) (h : UO k φ) : UO (k + m) (fun ε u => ε ^ m • φ ε u) := by
  obtain ⟨C, hC, h⟩ := h
  refine ⟨C, hC, ?_⟩
  filter_upwards [h, ev_pos] with ε h1 h2 u hu
  rw [norm_smul, Real.norm_of_nonneg (pow_nonneg h2.1.le _), pow_add]
  calc _ ≤ ε ^ m * (C * ε ^ k) := mul_le_mul_of_nonneg_left (h1 u hu) (pow_nonneg h2.1.le _)
    _ = _ := by ring

theorem const_smul {k : ℕ} {φ : ℝ → ℝ → E} (c : ℝ) (h : UO k φ) : UO k (fun ε u => c • φ ε u) := by
  obtain ⟨C, hC, h⟩ := h
  refine ⟨|c| * C, by positivity, ?_⟩
  filter_upwards [h] with ε h1 u hu
  rw [norm_smul, Real.norm_eq_abs, mul_assoc]
  exact mul_le_mul_of_nonneg_left (h1 u hu) (abs_nonneg _)

theorem clm {k : ℕ} {φ : ℝ → ℝ → X} (L : X →L[ℝ] E) (h : UO k φ) : UO k (fun ε u => L (φ ε u)) := by
  obtain ⟨C, hC, h⟩ := h
  refine ⟨‖L‖ * C, by positivity, ?_⟩
  filter_upwards [h] with ε h1 u hu
  rw [mul_assoc]
  exact (L.le_opNorm _).trans (mul_le_mul_of_nonneg_left (h1 u hu) (norm_nonneg _))

theorem bilin {k m : ℕ} {φ ψ : ℝ → ℝ → X} (Q : X →L[ℝ] X →L[ℝ] E) (h : UO k φ) (h' : UO m ψ) :
    UO (k + m) (fun ε u => Q (φ ε u) (ψ ε u)) := by
  obtain ⟨C, hC, h⟩ := h
  obtain ⟨C', hC', h'⟩ := h'
  refine ⟨‖Q‖ * (C * C'), by positivity, ?_⟩
  filter_upwards [h, h', ev_pos] with ε h1 h2 h3 u hu
  calc _ ≤ ‖Q‖ * ‖φ ε u‖ * ‖ψ ε u‖ := Q.le_opNorm₂ _ _
    _ ≤ ‖Q‖ * (C * ε ^ k) * (C' * ε ^ m) :=
        mul_le_mul (mul_le_mul_of_nonneg_left (h1 u hu) (by positivity)) (h2 u hu) (norm_nonneg _)
          (by have := pow_nonneg h3.1.le k; positivity)
    _ = _ := by rw [pow_add]; ring

theorem integral {k : ℕ} {φ : ℝ → ℝ → E} (h : UO k φ) : UO k (fun ε u => ∫ v in (0 : ℝ)..u, φ ε v) := by
  obtain ⟨C, hC, h⟩ := h
  refine ⟨C, hC, ?_⟩
  filter_upwards [h, ev_pos] with ε h1 h2 u hu
  have hp := pow_nonneg h2.1.le k
  have := intervalIntegral.norm_integral_le_of_norm_le_const (a := (0 : ℝ)) (b := u) (f := φ ε) (C := C * ε ^ k)
    (fun x hx => h1 x (by
      rw [uIoc_of_le hu.1] at hx
      exact ⟨hx.1.le, hx.2.trans hu.2⟩))
  refine this.trans ?_
  rw [sub_zero, abs_of_nonneg hu.1]
  nlinarith [hu.2, mul_nonneg hC hp]

theorem sum {ι : Type} {k : ℕ} (s : Finset ι) {φ : ι → ℝ → ℝ → E} (h : ∀ i ∈ s, UO k (φ i)) :
    UO k (fun ε u => ∑ i ∈ s, φ i ε u) := by
  classical
  induction s using Finset.induction_on with
  | empty => simpa using zero k
  | insert a s ha ih =>
    simp only [Finset.sum_insert ha]
    exact (h a (Finset.mem_insert_self _ _)).add (ih fun i hi => h i (Finset.mem_insert_of_mem hi))

/-- A bounded function of `u`. -/
theorem of_bdd (p : ℝ → E) (C : ℝ) (hp : ∀ u ∈ Icc (0 : ℝ) 1, ‖p u‖ ≤ C) : UO 0 (fun _ u => p u) := by
  refine ⟨max C 0, le_max_right _ _, Eventually.of_forall fun ε u hu => ?_⟩
  simpa using (hp u hu).trans (le_max_left C 0)

theorem const (e : E) : UO 0 (fun _ _ => e) := of_bdd _ ‖e‖ fun _ _ => le_rfl

theorem of_continuous {p : ℝ → E} (hp : ContinuousOn p (Icc 0 1)) : UO 0 (fun _ u => p u) := by
  obtain ⟨C, hC⟩ := isCompact_Icc.exists_bound_of_continuousOn hp
  exact of_bdd p C hC

theorem tendsto {k : ℕ} {φ : ℝ → ℝ → E} (h : UO k φ) (hk : 0 < k) (δ : ℝ) (hδ : 0 < δ) :
    ∀ᶠ ε in 𝓝[>] (0 : ℝ), ∀ u ∈ Icc (0 : ℝ) 1, ‖φ ε u‖ < δ := by
  obtain ⟨C, hC, h⟩ := h.mono (m := 1) hk
  have ht : Tendsto (fun ε : ℝ => C * ε ^ 1) (𝓝[>] 0) (𝓝 0) := by
    have : Tendsto (fun ε : ℝ => C * ε ^ 1) (𝓝 0) (𝓝 (C * 0 ^ 1)) :=
      Continuous.tendsto (f := fun ε : ℝ => C * ε ^ 1) (by fun_prop) 0
    simp only [pow_one, mul_zero] at this ⊢
    exact this.mono_left nhdsWithin_le_nhds
  filter_upwards [h, ht.eventually (gt_mem_nhds hδ)] with ε h1 h2 u hu
  exact (h1 u hu).trans_lt h2

theorem prodMk {k : ℕ} {φ : ℝ → ℝ → E} {ψ : ℝ → ℝ → X} (h : UO k φ) (h' : UO k ψ) :
    UO k (fun ε u => (φ ε u, ψ ε u)) := by
  obtain ⟨C, hC, h⟩ := h
  obtain ⟨C', hC', h'⟩ := h'
  refine ⟨C + C', by positivity, ?_⟩
  filter_upwards [h, h', ev_pos] with ε h1 h2 h3 u hu
  have hp := pow_nonneg h3.1.le k
  have e1 := h1 u hu
  have e2 := h2 u hu
  rw [Prod.norm_mk]
  have : (0 : ℝ) ≤ C * ε ^ k := by positivity
  have : (0 : ℝ) ≤ C' * ε ^ k := by positivity
  rw [add_mul]
  exact max_le (by linarith) (by linarith)

end UO

/-- Composition with a function having a Taylor expansion: the remainder. -/
theorem HasJet2.compose {F : X → E} {x0 : X} {L : X →L[ℝ] E} {Q : X →L[ℝ] X →L[ℝ] E} (hF : HasJet2 F x0 L Q)
    {d : ℝ → ℝ → X} (hd : UO 1 d) :
    UO 3 (fun ε u => F (x0 + d ε u) - (F x0 + L (d ε u) + Q (d ε u) (d ε u))) := by
  obtain ⟨c, hc⟩ := hF.expansion.bound
  obtain ⟨δ, hδ, hb⟩ := Metric.eventually_nhds_iff.1 hc
  have hsmall := hd.tendsto one_pos δ hδ
  obtain ⟨C, hC, hd⟩ := hd
  refine ⟨|c| * C ^ 3, by positivity, ?_⟩
  filter_upwards [hd, hsmall, ev_pos] with ε h1 h2 h3 u hu
  have := hb (y := d ε u) (by rw [dist_zero_right]; exact h2 u hu)
  refine this.trans ?_
  rw [norm_pow, norm_norm]
  have e1 : ‖d ε u‖ ^ 3 ≤ (C * ε ^ 1) ^ 3 := pow_le_pow_left₀ (norm_nonneg _) (h1 u hu) 3
  calc c * ‖d ε u‖ ^ 3 ≤ |c| * ‖d ε u‖ ^ 3 := mul_le_mul_of_nonneg_right (le_abs_self _) (by positivity)
    _ ≤ |c| * (C * ε ^ 1) ^ 3 := mul_le_mul_of_nonneg_left e1 (abs_nonneg _)
    _ = _ := by ring

/-- To lowest order. -/
theorem HasJet2.compose0 {F : X → E} {x0 : X} {L : X →L[ℝ] E} {Q : X →L[ℝ] X →L[ℝ] E} (hF : HasJet2 F x0 L Q)
    {d : ℝ → ℝ → X} (hd : UO 1 d) : UO 1 (fun ε u => F (x0 + d ε u) - F x0) := by
  have h1 := (hF.compose hd).mono (m := 1) (by norm_num)
  have h2 := hd.clm L
  have h3 := (UO.bilin Q hd hd).mono (m := 1) (by norm_num)
  exact ((h1.add h2).add h3).congr' fun ε u => by abel

/-- To second order. -/
theorem HasJet2.compose2 {F : X → E} {x0 : X} {L : X →L[ℝ] E} {Q : X →L[ℝ] X →L[ℝ] E} (hF : HasJet2 F x0 L Q)
    {d : ℝ → ℝ → X} {p q : ℝ → X} (hp : UO 0 (fun _ u => p u)) (hq : UO 0 (fun _ u => q u))
    (hd : UO 3 (fun ε u => d ε u - (ε • p u + ε ^ 2 • q u))) :
    UO 3 (fun ε u => F (x0 + d ε u) - (F x0 + ε • L (p u) + ε ^ 2 • (L (q u) + Q (p u) (p u)))) := by
  have hp1 : UO 1 (fun ε u => ε • p u) := (hp.smul_pow 1).congr' fun ε u => by simp
  have hq2 : UO 2 (fun ε u => ε ^ 2 • q u) := (hq.smul_pow 2).congr' fun ε u => rfl
  have hs : UO 2 (fun ε u => d ε u - ε • p u) :=
    ((hd.mono (m := 2) (by norm_num)).add hq2).congr' fun ε u => by abel
  have hd1 : UO 1 d := ((hs.mono (m := 1) (by norm_num)).add hp1).congr' fun ε u => by abel
  have h1 := hF.compose hd1
  have h2 := hd.clm L
  have h3 : UO 3 (fun ε u => Q (d ε u) (d ε u - ε • p u)) := (UO.bilin Q hd1 hs)
  have h4 : UO 3 (fun ε u => Q (d ε u - ε • p u) (ε • p u)) := (UO.bilin Q hs hp1)
  refine (((h1.add h2).add h3).add h4).congr' fun ε u => ?_
  simp only [map_sub, map_add, map_smul, sub_apply, smul_apply]
  module

/-- A continuous function that cannot reach `R` for the first time never does. -/
theorem stays_below {u : ℝ → ℝ} {a b R : ℝ} (hu : ContinuousOn u (Icc a b)) (ha : u a < R)
    (h : ∀ t ∈ Icc a b, (∀ s ∈ Icc a t, u s ≤ R) → u t < R) : ∀ t ∈ Icc a b, u t < R := by
  intro t ht
  by_contra hc
  rw [not_lt] at hc
  let A := {s | s ∈ Icc a t ∧ R ≤ u s}
  have hAne : A.Nonempty := ⟨t, ⟨ht.1, le_rfl⟩, hc⟩
  have hbdd : BddBelow A := ⟨a, fun s hs => hs.1.1⟩
  have hcl : IsClosed A := by
    have hcont : ContinuousOn u (Icc a t) := hu.mono (Icc_subset_Icc_right ht.2)
    have := hcont.preimage_isClosed_of_isClosed isClosed_Icc (isClosed_Ici (a := R))
    have e : A = Icc a t ∩ u ⁻¹' Ici R := by ext s; rfl
    rw [e]; exact this
  have hmem : sInf A ∈ A := hcl.csInf_mem hAne hbdd
  set m := sInf A with hm
  have hlt : ∀ s ∈ Icc a t, s < m → u s < R := by
    intro s hs hsm
    by_contra hcc
    exact absurd (csInf_le hbdd (show s ∈ A from ⟨hs, not_lt.1 hcc⟩)) (not_le.2 hsm)
  have ham : a < m := by
    rcases hmem.1.1.lt_or_eq with h1 | h1
    · exact h1
    · exact absurd hmem.2 (by rw [← h1]; exact not_le.2 ha)
  have hmR : u m ≤ R := by
    have hcm : ContinuousWithinAt u (Ico a m) m :=
      (hu m ⟨hmem.1.1, hmem.1.2.trans ht.2⟩).mono fun s hs => ⟨hs.1, hs.2.le.trans (hmem.1.2.trans ht.2)⟩
    have : (𝓝[Ico a m] m).NeBot := by
      rw [nhdsWithin_Ico_eq_nhdsLT ham]; infer_instance
    refine le_of_tendsto hcm ?_
    filter_upwards [self_mem_nhdsWithin] with s hs
    exact (hlt s ⟨hs.1, hs.2.le.trans hmem.1.2⟩ hs.2).le
  have := h m ⟨hmem.1.1, hmem.1.2.trans ht.2⟩ (fun s hs => by
    rcases hs.2.lt_or_eq with h1 | h1
    · exact (hlt s ⟨hs.1, hs.2.trans hmem.1.2⟩ h1).le
    · rw [h1]; exact hmR)
  exact absurd hmem.2 (not_le.2 this)

/-! ### The exact solution -/

section
variable {f : ℝ → E → E} {g g' : ℝ → B →L[ℝ] E} {w : ℝ → B} {t0 : ℝ} {y0 : E} {y : ℝ → ℝ → E}

/-- The noise, at the time `t0 + ε² u`. -/
noncomputable def scaledNoise (g g' : ℝ → B →L[ℝ] E) (w : ℝ → B) (t0 ε u : ℝ) : E :=
  ε • g (t0 + ε ^ 2 * u) (w u) - ε ^ 3 • ∫ v in (0 : ℝ)..u, g' (t0 + ε ^ 2 * v) (w v)

theorem scaledPath_at (w : ℝ → B) (t0 ε u : ℝ) (hε : 0 < ε) : scaledPath w t0 ε (t0 + ε ^ 2 * u) = ε • w u := by
  have : (t0 + ε ^ 2 * u - t0) / ε ^ 2 = u := by
    have := hε.ne'
    field_simp
    ring
  rw [scaledPath, this]

theorem scaledPath_t0 (w : ℝ → B) (t0 ε : ℝ) (hw : w 0 = 0) : scaledPath w t0 ε t0 = 0 := by
  simp [scaledPath, hw]

theorem wienerIntegral_scaled (g g' : ℝ → B →L[ℝ] E) (w : ℝ → B) (t0 ε u : ℝ) (hε : 0 < ε) (hw : w 0 = 0) :
    wienerIntegral g g' (scaledPath w t0 ε) t0 (t0 + ε ^ 2 * u) = scaledNoise g g' w t0 ε u := by
  unfold wienerIntegral scaledNoise
  rw [scaledPath_at w t0 ε u hε, scaledPath_t0 w t0 ε hw, sub_zero, map_smul]
  congr 1
  have h := intervalIntegral.smul_integral_comp_mul_add
    (f := fun r => g' r (scaledPath w t0 ε r - 0)) (a := 0) (b := u) (ε ^ 2) t0
  simp only [mul_zero, zero_add] at h
  rw [add_comm t0 (ε ^ 2 * u), ← h, show ε ^ 3 = ε ^ 2 * ε by ring, mul_smul]
  congr 1
  rw [← intervalIntegral.integral_smul]
  congr 1
  ext v
  rw [add_comm (ε ^ 2 * v) t0, scaledPath_at w t0 ε v hε, sub_zero, map_smul]

/-- The equation in the time `u ∈ [0, 1]`. -/
theorem SolvesAdditive.scaled {ε : ℝ} {y : ℝ → E} (hε : 0 < ε) (hw : w 0 = 0)
    (h : SolvesAdditive f g g' (scaledPath w t0 ε) t0 (t0 + ε ^ 2) y0 y) (u : ℝ) (hu : u ∈ Icc (0 : ℝ) 1) :
    y (t0 + ε ^ 2 * u) = y0 + ε ^ 2 • (∫ v in (0 : ℝ)..u, f (t0 + ε ^ 2 * v) (y (t0 + ε ^ 2 * v)))
      + scaledNoise g g' w t0 ε u := by
  have hp : 0 < ε ^ 2 := by positivity
  rw [h.equation (t0 + ε ^ 2 * u) ⟨by nlinarith [hu.1], by nlinarith [hu.2]⟩,
    wienerIntegral_scaled g g' w t0 ε u hε hw]
  congr 2
  have h := intervalIntegral.smul_integral_comp_mul_add (f := fun r => f r (y r)) (a := 0) (b := u) (ε ^ 2) t0
  simp only [mul_zero, zero_add] at h
  rw [add_comm t0 (ε ^ 2 * u), ← h]
  congr 2
  ext v
  rw [add_comm (ε ^ 2 * v) t0]

/-- `ε² u`. -/
theorem UO.time : UO 2 (fun ε u => ε ^ 2 * u) :=
  ((UO.of_bdd (fun u : ℝ => u) 1 (fun u hu => by rw [Real.norm_of_nonneg hu.1]; exact hu.2)).smul_pow 2).congr'
    fun ε u => rfl

theorem UO.isBigO {F : ℝ → E} {m k : ℕ} {d : ℝ → ℝ → ℝ} (hF : F =O[𝓝 (0 : ℝ)] fun t => t ^ m) (hk : 0 < k) (hd : UO k d) :
    UO (k * m) (fun ε u => F (d ε u)) := by
  obtain ⟨c, hc⟩ := hF.bound
  obtain ⟨δ, hδ, hb⟩ := Metric.eventually_nhds_iff.1 hc
  have hsmall := hd.tendsto hk δ hδ
  obtain ⟨C, hC, hd⟩ := hd
  refine ⟨|c| * C ^ m, by positivity, ?_⟩
  filter_upwards [hd, hsmall, ev_pos] with ε h1 h2 h3 u hu
  have := hb (y := d ε u) (by rw [dist_zero_right]; exact h2 u hu)
  refine this.trans ?_
  rw [norm_pow]
  have e1 : ‖d ε u‖ ^ m ≤ (C * ε ^ k) ^ m := pow_le_pow_left₀ (norm_nonneg _) (h1 u hu) m
  calc c * ‖d ε u‖ ^ m ≤ |c| * ‖d ε u‖ ^ m := mul_le_mul_of_nonneg_right (le_abs_self _) (by positivity)
    _ ≤ |c| * (C * ε ^ k) ^ m := mul_le_mul_of_nonneg_left e1 (abs_nonneg _)
    _ = _ := by rw [mul_pow, ← pow_mul]; ring

/-- `g'` to lowest order. -/
theorem SmoothDiffusion.deriv_expand (hg : SmoothDiffusion g g' t0) (c : ℝ) :
    UO 2 (fun ε u => g' (t0 + ε ^ 2 * (c * u)) - g' t0) := by
  have h1 : (fun s : ℝ => g' (t0 + s) - g' t0) =O[𝓝 0] fun s => s ^ 1 := by
    have ht : Tendsto (fun s : ℝ => t0 + s) (𝓝 0) (𝓝 t0) := by
      have := (continuous_const_add t0).tendsto (0 : ℝ)
      simpa using this
    have := hg.lipschitz.comp_tendsto ht
    simpa [Function.comp_def] using this
  have h2 : UO 2 (fun ε u => ε ^ 2 * (c * u)) := (UO.time.const_smul c).congr' fun ε u => by
    simp only [smul_eq_mul]; ring
  exact UO.isBigO h1 two_pos h2

/-- `g` to first order. -/
theorem SmoothDiffusion.expand (hg : SmoothDiffusion g g' t0) (c : ℝ) :
    UO 4 (fun ε u => g (t0 + ε ^ 2 * (c * u)) - g t0 - (ε ^ 2 * (c * u)) • g' t0) := by
  have h1 : (fun s : ℝ => g (t0 + s) - g t0 - s • g' t0) =O[𝓝 0] fun s => s ^ 2 := by
    obtain ⟨C, hC⟩ := hg.lipschitz.bound
    obtain ⟨δ, hδ, hb⟩ := Metric.eventually_nhds_iff.1 (hC.and hg.deriv)
    refine Asymptotics.IsBigO.of_bound |C| ?_
    rw [Metric.eventually_nhds_iff]
    refine ⟨δ, hδ, fun s hs => ?_⟩
    rw [dist_zero_right, Real.norm_eq_abs] at hs
    have hder : ∀ x ∈ uIcc 0 s, HasDerivWithinAt (fun x => g (t0 + x) - g t0 - x • g' t0)
        (g' (t0 + x) - g' t0) (uIcc 0 s) x := by
      intro x hx
      have hx' : |x| ≤ |s| := by simpa using abs_sub_left_of_mem_uIcc hx
      have h2 := (hb (y := t0 + x) (by
        rw [Real.dist_eq]; simpa using hx'.trans_lt hs)).2
      have h3 : HasDerivAt (fun x => g (t0 + x)) (g' (t0 + x)) x := HasDerivAt.comp_const_add t0 x h2
      have h4 := HasDerivAt.smul_const (hasDerivAt_id x) (g' t0)
      simp only [id, one_smul] at h4
      exact ((h3.sub_const _).sub h4).hasDerivWithinAt
    have hbd : ∀ x ∈ uIcc 0 s, ‖g' (t0 + x) - g' t0‖ ≤ |C| * |s| := by
      intro x hx
      have hx' : |x| ≤ |s| := by simpa using abs_sub_left_of_mem_uIcc hx
      have h2 := (hb (y := t0 + x) (by
        rw [Real.dist_eq]; simpa using hx'.trans_lt hs)).1
      refine h2.trans ?_
      rw [add_sub_cancel_left, Real.norm_eq_abs]
      exact mul_le_mul (le_abs_self _) hx' (abs_nonneg _) (abs_nonneg _)
    have := Convex.norm_image_sub_le_of_norm_hasDerivWithin_le hder hbd (convex_uIcc 0 s)
      left_mem_uIcc right_mem_uIcc
    simp only [add_zero, sub_self, zero_smul, sub_zero] at this
    refine this.trans (le_of_eq ?_)
    rw [norm_pow, Real.norm_eq_abs]
    ring
  have h2 : UO 2 (fun ε u => ε ^ 2 * (c * u)) := (UO.time.const_smul c).congr' fun ε u => by
    simp only [smul_eq_mul]; ring
  exact UO.isBigO h1 two_pos h2

/-- An operator of order `k` applied to something bounded. -/
theorem UO.apply {k : ℕ} {φ : ℝ → ℝ → B →L[ℝ] E} (h : UO k φ) {p : ℝ → B} (hp : UO 0 (fun _ u => p u)) :
    UO k (fun ε u => φ ε u (p u)) := by
  obtain ⟨C, hC, h⟩ := h
  obtain ⟨C', hC', hp⟩ := hp
  refine ⟨C * C', by positivity, ?_⟩
  filter_upwards [h, hp, ev_pos] with ε h1 h2 h3 u hu
  have hpos := pow_nonneg h3.1.le k
  calc _ ≤ ‖φ ε u‖ * ‖p u‖ := (φ ε u).le_opNorm _
    _ ≤ (C * ε ^ k) * (C' * ε ^ 0) := mul_le_mul (h1 u hu) (h2 u hu) (norm_nonneg _) (by positivity)
    _ = _ := by ring

theorem clm_integral (L : B →L[ℝ] E) {w : ℝ → B} (hw : Continuous w) [CompleteSpace B] [CompleteSpace E] (a b : ℝ) :
    ∫ v in a..b, L (w v) = L (∫ v in a..b, w v) :=
  L.intervalIntegral_comp_comm (hw.intervalIntegrable _ _)

/-- The noise, to the orders needed. -/
theorem scaledNoise_expand [CompleteSpace B] [CompleteSpace E] (hg : SmoothDiffusion g g' t0) (hw : Continuous w) :
    UO 5 (fun ε u => scaledNoise g g' w t0 ε u
      - (ε • g t0 (w u) + ε ^ 3 • g' t0 (u • w u - ∫ v in (0 : ℝ)..u, w v))) := by
  have hwb : UO 0 (fun _ u => w u) := UO.of_continuous hw.continuousOn
  have h1 := ((hg.expand 1).apply hwb).smul_pow 1
  have h2 := (((hg.deriv_expand 1).apply hwb).integral.smul_pow 3)
  have hcont : ∀ᶠ ε in 𝓝[>] (0 : ℝ), ∀ u ∈ Icc (0 : ℝ) 1, ContinuousAt g' (t0 + ε ^ 2 * u) := by
    obtain ⟨δ, hδ, hb⟩ := Metric.eventually_nhds_iff.1 hg.continuous
    filter_upwards [UO.time.tendsto two_pos δ hδ] with ε h u hu
    apply hb
    rw [Real.dist_eq, add_sub_cancel_left]
    exact h u hu
  refine (h1.sub h2).congr ?_
  filter_upwards [hcont] with ε hc u hu
  have hint : IntervalIntegrable (fun v => g' (t0 + ε ^ 2 * v) (w v)) MeasureTheory.volume 0 u := by
    apply ContinuousOn.intervalIntegrable
    rw [uIcc_of_le hu.1]
    intro v hv
    have hv' : v ∈ Icc (0 : ℝ) 1 := ⟨hv.1, hv.2.trans hu.2⟩
    have e1 : ContinuousAt (fun v => g' (t0 + ε ^ 2 * v)) v :=
      ContinuousAt.comp (f := fun v => t0 + ε ^ 2 * v) (hc v hv') (by fun_prop)
    exact (e1.clm_apply hw.continuousAt).continuousWithinAt
  have hint2 : IntervalIntegrable (fun v => g' t0 (w v)) MeasureTheory.volume 0 u :=
    ((g' t0).continuous.comp hw).intervalIntegrable _ _
  have e1 : ∫ v in (0 : ℝ)..u, (g' (t0 + ε ^ 2 * (1 * v)) - g' t0) (w v)
      = (∫ v in (0 : ℝ)..u, g' (t0 + ε ^ 2 * v) (w v)) - g' t0 (∫ v in (0 : ℝ)..u, w v) := by
    rw [← clm_integral (g' t0) hw, ← intervalIntegral.integral_sub hint hint2]
    simp only [one_mul, sub_apply]
  rw [e1]
  simp only [scaledNoise, one_mul, sub_apply, smul_apply, map_sub, map_smul]
  module

/-- Near `x0`, `F` is bounded and continuous. -/
theorem HasJet2.bounded {F : X → E} {x0 : X} {L : X →L[ℝ] E} {Q : X →L[ℝ] X →L[ℝ] E} (hF : HasJet2 F x0 L Q) :
    ∃ δ > 0, ∃ M ≥ 0, ∀ x, ‖x - x0‖ < δ → ‖F x‖ ≤ M ∧ ContinuousAt F x := by
  have hc : ContinuousAt F x0 := hF.continuous.self_of_nhds
  have hb : ∀ᶠ x in 𝓝 x0, ‖F x‖ < ‖F x0‖ + 1 := hc.norm.eventually (gt_mem_nhds (lt_add_one _))
  obtain ⟨δ, hδ, h⟩ := Metric.eventually_nhds_iff.1 (hb.and hF.continuous)
  exact ⟨δ, hδ, ‖F x0‖ + 1, by positivity, fun x hx =>
    ⟨(h (by rw [dist_eq_norm]; exact hx)).1.le, (h (by rw [dist_eq_norm]; exact hx)).2⟩⟩

theorem scaledNoise_small [CompleteSpace B] [CompleteSpace E] (hg : SmoothDiffusion g g' t0) (hw : Continuous w) :
    UO 3 (fun ε u => scaledNoise g g' w t0 ε u - ε • g t0 (w u)) := by
  have h1 := (scaledNoise_expand hg hw).mono (m := 3) (by norm_num)
  have h2 : UO 0 (fun _ u => g' t0 (u • w u - ∫ v in (0 : ℝ)..u, w v)) := by
    have hwb : UO 0 (fun _ u => w u) := UO.of_continuous hw.continuousOn
    have hwu : UO 0 (fun _ u => u • w u) :=
      UO.of_continuous (p := fun u => u • w u) (continuous_id.smul hw).continuousOn
    exact (hwu.sub hwb.integral).clm (g' t0)
  exact (h1.add (h2.smul_pow 3)).congr' fun ε u => by module

section
variable [CompleteSpace B] [CompleteSpace E] {L : ℝ × E →L[ℝ] E} {Q : ℝ × E →L[ℝ] ℝ × E →L[ℝ] E}

/-- The solution stays close to `y0`; and the vector field along it is continuous. -/
theorem exact_small_of_bounded (hF : ∃ δ > 0, ∃ M ≥ 0, ∀ x, ‖x - (t0, y0)‖ < δ →
      ‖(fun x : ℝ × E => f x.1 x.2) x‖ ≤ M ∧ ContinuousAt (fun x : ℝ × E => f x.1 x.2) x)
    (hg : SmoothDiffusion g g' t0) (hw : Continuous w) (hw0 : w 0 = 0)
    (hy : ∀ᶠ ε in 𝓝[>] (0 : ℝ), SolvesAdditive f g g' (scaledPath w t0 ε) t0 (t0 + ε ^ 2) y0 (y ε)) :
    UO 1 (fun ε u => y ε (t0 + ε ^ 2 * u) - y0) ∧
    ∀ᶠ ε in 𝓝[>] (0 : ℝ), ContinuousOn (fun v => f (t0 + ε ^ 2 * v) (y ε (t0 + ε ^ 2 * v))) (Icc 0 1) := by
  obtain ⟨δ, hδ, M, hM, hb⟩ := hF
  have hn : UO 1 (fun ε u => scaledNoise g g' w t0 ε u) := by
    have h1 := (scaledNoise_small (t0 := t0) hg hw).mono (m := 1) (by norm_num)
    have h2 : UO 0 (fun _ u => g t0 (w u)) := (UO.of_continuous hw.continuousOn).clm (g t0)
    exact (h1.add (h2.smul_pow 1)).congr' fun ε u => by simp
  obtain ⟨C, hC, hn⟩ := hn
  -- small enough
  have hsmall : ∀ᶠ ε in 𝓝[>] (0 : ℝ), (M + C) * ε < δ / 2 ∧ ε ^ 2 < δ := by
    have h1 : Tendsto (fun ε : ℝ => (M + C) * ε) (𝓝[>] 0) (𝓝 0) := by
      have := Continuous.tendsto (f := fun ε : ℝ => (M + C) * ε) (by fun_prop) 0
      simp only [mul_zero] at this
      exact this.mono_left nhdsWithin_le_nhds
    have h2 : Tendsto (fun ε : ℝ => ε ^ 2) (𝓝[>] 0) (𝓝 0) := by
      have := Continuous.tendsto (f := fun ε : ℝ => ε ^ 2) (by fun_prop) 0
      simp only [ne_eq, OfNat.ofNat_ne_zero, not_false_eq_true, zero_pow] at this
      exact this.mono_left nhdsWithin_le_nhds
    exact (h1.eventually (gt_mem_nhds (half_pos hδ))).and (h2.eventually (gt_mem_nhds hδ))
  have key : ∀ᶠ ε in 𝓝[>] (0 : ℝ), (∀ u ∈ Icc (0 : ℝ) 1, ‖y ε (t0 + ε ^ 2 * u) - y0‖ ≤ (M + C) * ε ^ 1) ∧
      ContinuousOn (fun v => f (t0 + ε ^ 2 * v) (y ε (t0 + ε ^ 2 * v))) (Icc 0 1) := by
    filter_upwards [hy, hn, hsmall, ev_pos] with ε hy hn hsm hpos
    have hp2 : 0 < ε ^ 2 := pow_pos hpos.1 2
    have hyc : ContinuousOn (fun u => y ε (t0 + ε ^ 2 * u)) (Icc 0 1) := by
      refine hy.continuous.comp (by fun_prop) fun u hu => ⟨?_, ?_⟩
      · nlinarith [hu.1]
      · nlinarith [hu.2]
    have hnear : ∀ u ∈ Icc (0 : ℝ) 1, ‖y ε (t0 + ε ^ 2 * u) - y0‖ ≤ δ / 2 →
        ‖((t0 + ε ^ 2 * u, y ε (t0 + ε ^ 2 * u)) : ℝ × E) - (t0, y0)‖ < δ := by
      intro u hu h
      rw [Prod.mk_sub_mk, Prod.norm_mk]
      refine max_lt ?_ (by linarith)
      rw [add_sub_cancel_left, Real.norm_of_nonneg (by have := hu.1; positivity)]
      nlinarith [hu.2, hsm.2]
    have hbound : ∀ u ∈ Icc (0 : ℝ) 1, (∀ s ∈ Icc (0 : ℝ) u, ‖y ε (t0 + ε ^ 2 * s) - y0‖ ≤ δ / 2) →
        ‖y ε (t0 + ε ^ 2 * u) - y0‖ ≤ (M + C) * ε ^ 1 := by
      intro u hu hs
      rw [hy.scaled hpos.1 hw0 u hu]
      have h1 : ‖∫ v in (0 : ℝ)..u, f (t0 + ε ^ 2 * v) (y ε (t0 + ε ^ 2 * v))‖ ≤ M * |u - 0| := by
        apply intervalIntegral.norm_integral_le_of_norm_le_const
        intro v hv
        rw [uIoc_of_le hu.1] at hv
        exact (hb _ (hnear v ⟨hv.1.le, hv.2.trans hu.2⟩ (hs v ⟨hv.1.le, hv.2⟩))).1
      rw [sub_zero, abs_of_nonneg hu.1] at h1
      have h2 : ‖∫ v in (0 : ℝ)..u, f (t0 + ε ^ 2 * v) (y ε (t0 + ε ^ 2 * v))‖ ≤ M :=
        h1.trans (by nlinarith [hu.2])
      have h3 := hn u hu
      have e : ∀ a b : E, y0 + a + b - y0 = a + b := fun a b => by abel
      rw [e]
      refine (norm_add_le _ _).trans ?_
      rw [norm_smul, Real.norm_of_nonneg hp2.le]
      have h4 : ε ^ 2 * ‖∫ v in (0 : ℝ)..u, f (t0 + ε ^ 2 * v) (y ε (t0 + ε ^ 2 * v))‖ ≤ ε ^ 2 * M :=
        mul_le_mul_of_nonneg_left h2 hp2.le
      have h5 : ε ^ 2 * M ≤ ε * M := by
        apply mul_le_mul_of_nonneg_right _ hM
        nlinarith [hpos.1, hpos.2]
      linarith
    have hlt : ∀ u ∈ Icc (0 : ℝ) 1, ‖y ε (t0 + ε ^ 2 * u) - y0‖ < δ / 2 := by
      apply stays_below (u := fun u => ‖y ε (t0 + ε ^ 2 * u) - y0‖)
      · exact (hyc.sub continuousOn_const).norm
      · have h0 := hy.scaled hpos.1 hw0 0 ⟨le_rfl, zero_le_one⟩
        simp only [h0, scaledNoise, hw0, map_zero, smul_zero, intervalIntegral.integral_same, sub_self, add_zero,
          norm_zero]
        exact half_pos hδ
      · intro t ht hs
        refine (hbound t ht hs).trans_lt ?_
        rw [pow_one]; exact hsm.1
    refine ⟨fun u hu => hbound u hu fun s hs => (hlt s ⟨hs.1, hs.2.trans hu.2⟩).le, fun v hv => ?_⟩
    have hc := (hb _ (hnear v hv (hlt v hv).le)).2
    have hm : ContinuousWithinAt (fun v => ((t0 + ε ^ 2 * v, y ε (t0 + ε ^ 2 * v)) : ℝ × E)) (Icc 0 1) v :=
      ContinuousWithinAt.prodMk (by fun_prop) (hyc v hv)
    exact ContinuousAt.comp_continuousWithinAt (g := fun x : ℝ × E => f x.1 x.2)
      (f := fun v => ((t0 + ε ^ 2 * v, y ε (t0 + ε ^ 2 * v)) : ℝ × E)) hc hm
  exact ⟨⟨M + C, by positivity, key.mono fun ε h => h.1⟩, key.mono fun ε h => h.2⟩

theorem exact_small (hF : HasJet2 (fun x : ℝ × E => f x.1 x.2) (t0, y0) L Q) (hg : SmoothDiffusion g g' t0)
    (hw : Continuous w) (hw0 : w 0 = 0)
    (hy : ∀ᶠ ε in 𝓝[>] (0 : ℝ), SolvesAdditive f g g' (scaledPath w t0 ε) t0 (t0 + ε ^ 2) y0 (y ε)) :
    UO 1 (fun ε u => y ε (t0 + ε ^ 2 * u) - y0) ∧
    ∀ᶠ ε in 𝓝[>] (0 : ℝ), ContinuousOn (fun v => f (t0 + ε ^ 2 * v) (y ε (t0 + ε ^ 2 * v))) (Icc 0 1) :=
  exact_small_of_bounded hF.bounded hg hw hw0 hy

/-- The exact solution, to fourth order in `ε`. -/
theorem exact_expand (hF : HasJet2 (fun x : ℝ × E => f x.1 x.2) (t0, y0) L Q) (hg : SmoothDiffusion g g' t0)
    (hw : Continuous w) (hw0 : w 0 = 0)
    (hy : ∀ᶠ ε in 𝓝[>] (0 : ℝ), SolvesAdditive f g g' (scaledPath w t0 ε) t0 (t0 + ε ^ 2) y0 (y ε)) :
    UO 5 (fun ε _ => y ε (t0 + ε ^ 2) - (y0 + ε • g t0 (w 1) + ε ^ 2 • f t0 y0
      + ε ^ 3 • (L (0, g t0 (∫ v in (0 : ℝ)..1, w v)) + g' t0 (w 1 - ∫ v in (0 : ℝ)..1, w v))
      + ε ^ 4 • ((1 / 2 : ℝ) • L (1, f t0 y0)
        + ∫ v in (0 : ℝ)..1, Q (0, g t0 (w v)) (0, g t0 (w v))))) := by
  obtain ⟨hs, hcont⟩ := exact_small hF hg hw hw0 hy
  have hint : ∀ᶠ ε in 𝓝[>] (0 : ℝ), ∀ u ∈ Icc (0 : ℝ) 1,
      IntervalIntegrable (fun v => f (t0 + ε ^ 2 * v) (y ε (t0 + ε ^ 2 * v))) MeasureTheory.volume 0 u := by
    filter_upwards [hcont] with ε hc u hu
    apply ContinuousOn.intervalIntegrable
    rw [uIcc_of_le hu.1]
    exact hc.mono (Icc_subset_Icc_right hu.2)
  set d : ℝ → ℝ → ℝ × E := fun ε u => (ε ^ 2 * u, y ε (t0 + ε ^ 2 * u) - y0) with hd
  have hadd : ∀ ε u, (t0, y0) + d ε u = (t0 + ε ^ 2 * u, y ε (t0 + ε ^ 2 * u)) := by
    intro ε u
    simp [hd]
  have hd1 : UO 1 d := (UO.time.mono (m := 1) (by norm_num)).prodMk hs
  have hF0 := hF.compose0 hd1
  simp only [hadd] at hF0
  have hwb : UO 0 (fun _ u => w u) := UO.of_continuous hw.continuousOn
  -- the solution to second order
  have hy2 : UO 3 (fun ε u => y ε (t0 + ε ^ 2 * u) - y0 - (ε • g t0 (w u) + ε ^ 2 • (u • f t0 y0))) := by
    refine ((hF0.integral.smul_pow 2).add (scaledNoise_small hg hw)).congr ?_
    filter_upwards [hy, hint, ev_pos] with ε hy hi hpos u hu
    rw [intervalIntegral.integral_sub (hi u hu) (by simp), hy.scaled hpos.1 hw0 u hu,
      intervalIntegral.integral_const]
    simp only [sub_zero]
    module
  have hd2 : UO 3 (fun ε u => d ε u - (ε • ((0, g t0 (w u)) : ℝ × E) + ε ^ 2 • ((u, u • f t0 y0) : ℝ × E))) := by
    refine ((UO.zero (E := ℝ) 3).prodMk hy2).congr' fun ε u => ?_
    simp only [hd, Prod.smul_mk, Prod.mk_add_mk, Prod.mk_sub_mk, smul_eq_mul, mul_zero, zero_add, sub_self]
  have hp : UO 0 (fun _ u => ((0, g t0 (w u)) : ℝ × E)) := (UO.zero 0).prodMk (hwb.clm (g t0))
  have hid : UO 0 (fun (_ : ℝ) (u : ℝ) => u) := UO.of_continuous continuousOn_id
  have hq : UO 0 (fun _ u => ((u, u • f t0 y0) : ℝ × E)) := by
    refine hid.prodMk ?_
    exact UO.of_continuous (p := fun u : ℝ => u • f t0 y0) (Continuous.continuousOn (by fun_prop))
  have h3 := hF.compose2 hp hq hd2
  simp only [hadd] at h3
  have h4 := (h3.integral.smul_pow 2).add (scaledNoise_expand hg hw)
  -- at the end
  have h5 : UO 5 (fun ε (_ : ℝ) => ε ^ 2 • (∫ v in (0 : ℝ)..1, (f (t0 + ε ^ 2 * v) (y ε (t0 + ε ^ 2 * v)) -
      (f t0 y0 + ε • L (0, g t0 (w v)) + ε ^ 2 • (L (v, v • f t0 y0) + Q (0, g t0 (w v)) (0, g t0 (w v))))))
      + (scaledNoise g g' w t0 ε 1 - (ε • g t0 (w 1) + ε ^ 3 • g' t0 ((1 : ℝ) • w 1 - ∫ v in (0 : ℝ)..1, w v)))) := by
    obtain ⟨C, hC, h⟩ := h4
    exact ⟨C, hC, h.mono fun ε h u _ => h 1 ⟨zero_le_one, le_rfl⟩⟩
  refine h5.congr ?_
  filter_upwards [hy, hint, ev_pos] with ε hy hi hpos u hu
  have hi1 := hi 1 ⟨zero_le_one, le_rfl⟩
  have c1 : Continuous fun v => L (0, g t0 (w v)) := by fun_prop
  have c2 : Continuous fun v : ℝ => L (v, v • f t0 y0) := by fun_prop
  have c3 : Continuous fun v => Q (0, g t0 (w v)) (0, g t0 (w v)) := by
    have : Continuous fun v => ((0, g t0 (w v)) : ℝ × E) := by fun_prop
    exact (Q.continuous.comp this).clm_apply this
  have e0 := hy.scaled hpos.1 hw0 1 ⟨zero_le_one, le_rfl⟩
  rw [mul_one] at e0
  rw [e0]
  have eL : ∫ v in (0 : ℝ)..1, L (0, g t0 (w v)) = L (0, g t0 (∫ v in (0 : ℝ)..1, w v)) := by
    have : ∀ v, L (0, g t0 (w v)) = (L.comp ((ContinuousLinearMap.inr ℝ ℝ E).comp (g t0))) (w v) := fun v => rfl
    simp only [this]
    rw [clm_integral _ hw]
    rfl
  have eV : ∫ v in (0 : ℝ)..1, L (v, v • f t0 y0) = (1 / 2 : ℝ) • L (1, f t0 y0) := by
    have : ∀ v : ℝ, L (v, v • f t0 y0) = v • L (1, f t0 y0) := by
      intro v
      rw [← map_smul]; simp
    simp only [this]
    rw [intervalIntegral.integral_smul_const]
    congr 1
    rw [integral_id]
    norm_num
  have i1 : IntervalIntegrable (fun _ : ℝ => f t0 y0) MeasureTheory.volume 0 1 := by simp
  rw [intervalIntegral.integral_sub hi1, intervalIntegral.integral_add, intervalIntegral.integral_add i1,
    intervalIntegral.integral_smul, intervalIntegral.integral_smul, intervalIntegral.integral_add, eL, eV,
    intervalIntegral.integral_const]
  · simp only [sub_zero, one_smul, map_sub]
    module
  all_goals exact Continuous.intervalIntegrable (by fun_prop) _ _

end

/-! ### The numerical solution -/

section
variable {L : ℝ × E →L[ℝ] E} {Q : ℝ × E →L[ℝ] ℝ × E →L[ℝ] E}

/-- The stages, to second order. -/
theorem stages_expand (hF : HasJet2 (fun x : ℝ × E => f x.1 x.2) (t0, y0) L Q) (n : ℕ) (a : ℕ → ℕ → ℝ) (c : ℕ → ℝ)
    (z ν : ℝ → ℕ → E) (x : ℕ → E)
    (hz : ∀ᶠ ε in 𝓝[>] (0 : ℝ), ∀ j < n,
      z ε j = y0 + ∑ i ∈ Finset.range j, a j i • (ε ^ 2 • f (t0 + c i * ε ^ 2) (z ε i)) + ν ε j)
    (hν : ∀ j < n, UO 3 (fun ε _ => ν ε j - ε • x j)) (j : ℕ) (hj : j < n) :
    UO 3 (fun ε _ => z ε j - y0 - (ε • x j + ε ^ 2 • ((∑ i ∈ Finset.range j, a j i) • f t0 y0))) := by
  induction j using Nat.strong_induction_on with
  | _ j ih =>
    have h0 : ∀ i ∈ Finset.range j, UO 1 (fun ε (_ : ℝ) => f (t0 + c i * ε ^ 2) (z ε i) - f t0 y0) := by
      intro i hi
      have hij := Finset.mem_range.1 hi
      have h1 := (ih i hij (hij.trans hj)).mono (m := 1) (by norm_num)
      have h2 : UO 1 (fun ε (_ : ℝ) => ε • x i) := ((UO.const (x i)).smul_pow 1).congr' fun ε u => by simp
      have h3 : UO 1 (fun ε (_ : ℝ) => ε ^ 2 • ((∑ i' ∈ Finset.range i, a i i') • f t0 y0)) :=
        (((UO.const _).smul_pow 2).mono (m := 1) (by norm_num)).congr' fun ε u => rfl
      have h4 : UO 1 (fun ε (_ : ℝ) => z ε i - y0) := ((h1.add h2).add h3).congr' fun ε u => by abel
      have h5 : UO 1 (fun ε (_ : ℝ) => c i * ε ^ 2) :=
        (((UO.const (c i)).smul_pow 2).mono (m := 1) (by norm_num)).congr' fun ε u => by
          rw [smul_eq_mul, mul_comm]
      have h6 := hF.compose0 (h5.prodMk h4)
      exact h6.congr' fun ε u => by simp
    have h1 := (UO.sum _ fun i hi => (h0 i hi).const_smul (a j i)).smul_pow 2
    refine (h1.add (hν j hj)).congr ?_
    filter_upwards [hz] with ε hz u _
    rw [hz j hj]
    simp only [smul_sub, Finset.sum_sub_distrib, Finset.smul_sum, smul_comm (ε ^ 2), Finset.sum_smul]
    abel

/-- The values of the vector field. -/
theorem stage_f_expand (hF : HasJet2 (fun x : ℝ × E => f x.1 x.2) (t0, y0) L Q) {z : ℝ → E} {x : E} {A c : ℝ}
    (hz : UO 3 (fun ε (_ : ℝ) => z ε - y0 - (ε • x + ε ^ 2 • (A • f t0 y0)))) :
    UO 3 (fun ε (_ : ℝ) => f (t0 + c * ε ^ 2) (z ε) - (f t0 y0 + ε • L (0, x)
      + ε ^ 2 • (L (c, A • f t0 y0) + Q (0, x) (0, x)))) := by
  have h := hF.compose2 (d := fun ε _ => ((c * ε ^ 2, z ε - y0) : ℝ × E)) (p := fun _ => (0, x))
    (q := fun _ => (c, A • f t0 y0)) (UO.const _) (UO.const _) ?_
  · exact h.congr' fun ε u => by simp
  · refine ((UO.zero (E := ℝ) 3).prodMk hz).congr' fun ε u => ?_
    simp only [Prod.smul_mk, Prod.mk_add_mk, Prod.mk_sub_mk, smul_eq_mul, mul_zero, zero_add]
    rw [mul_comm c, sub_self]

/-- The new value. -/
theorem scheme_expand (hF : HasJet2 (fun x : ℝ × E => f x.1 x.2) (t0, y0) L Q) (n : ℕ) (a : ℕ → ℕ → ℝ) (b c : ℕ → ℝ)
    (z ν : ℝ → ℕ → E) (x : ℕ → E) (y1 ν1 : ℝ → E) (n1 n3 : E)
    (hz : ∀ᶠ ε in 𝓝[>] (0 : ℝ), ∀ j < n,
      z ε j = y0 + ∑ i ∈ Finset.range j, a j i • (ε ^ 2 • f (t0 + c i * ε ^ 2) (z ε i)) + ν ε j)
    (hν : ∀ j < n, UO 3 (fun ε _ => ν ε j - ε • x j))
    (hy1 : ∀ᶠ ε in 𝓝[>] (0 : ℝ),
      y1 ε = y0 + ∑ j ∈ Finset.range n, b j • (ε ^ 2 • f (t0 + c j * ε ^ 2) (z ε j)) + ν1 ε)
    (hν1 : UO 5 (fun ε _ => ν1 ε - (ε • n1 + ε ^ 3 • n3))) :
    UO 5 (fun ε _ => y1 ε - (y0 + ε • n1 + ε ^ 2 • ((∑ j ∈ Finset.range n, b j) • f t0 y0)
      + ε ^ 3 • ((∑ j ∈ Finset.range n, b j • L (0, x j)) + n3)
      + ε ^ 4 • ∑ j ∈ Finset.range n, b j • (L (c j, (∑ i ∈ Finset.range j, a j i) • f t0 y0)
        + Q (0, x j) (0, x j)))) := by
  have h1 := (UO.sum (Finset.range n) fun j hj => (stage_f_expand (c := c j) hF
    (stages_expand hF n a c z ν x hz hν j (Finset.mem_range.1 hj))).const_smul (b j)).smul_pow 2
  refine (h1.add hν1).congr ?_
  filter_upwards [hy1] with ε hy u _
  rw [hy]
  have e : ∀ F : ℕ → E, ε ^ 4 • ∑ j ∈ Finset.range n, b j • F j
      = ε ^ 2 • ∑ j ∈ Finset.range n, b j • (ε ^ 2 • F j) := by
    intro F
    rw [Finset.smul_sum, Finset.smul_sum]
    refine Finset.sum_congr rfl fun j _ => ?_
    module
  have e3 : ∀ F : ℕ → E, ε ^ 3 • ∑ j ∈ Finset.range n, b j • F j
      = ε ^ 2 • ∑ j ∈ Finset.range n, b j • (ε • F j) := by
    intro F
    rw [Finset.smul_sum, Finset.smul_sum]
    refine Finset.sum_congr rfl fun j _ => ?_
    module
  have e2 : ∀ F : ℕ → E, ∑ j ∈ Finset.range n, b j • (ε ^ 2 • F j) = ε ^ 2 • ∑ j ∈ Finset.range n, b j • F j := by
    intro F
    rw [Finset.smul_sum]
    exact Finset.sum_congr rfl fun j _ => smul_comm _ _ _
  rw [smul_add (ε ^ 3), e, e3, e2]
  simp only [smul_sub, smul_add, Finset.sum_sub_distrib, Finset.sum_add_distrib, Finset.sum_smul]
  abel

end

/-! ### Increments and areas of the scaled path -/

theorem levy_scaled (w : ℝ → B) (hw : w 0 = 0) (t0 ε : ℝ) (hε : 0 < ε) :
    levyOf (scaledPath w t0 ε) t0 (t0 + ε ^ 2)
      = (ε ^ 2, ε • (levyOf w 0 1).2.1, ε • (levyOf w 0 1).2.2.1, ε • (levyOf w 0 1).2.2.2) := by
  have hp : 0 < ε ^ 2 := by positivity
  have hb : ∀ u, bridgeOf (scaledPath w t0 ε) t0 (t0 + ε ^ 2) (t0 + ε ^ 2 * u) = ε • bridgeOf w 0 1 u := by
    intro u
    have h1 := scaledPath_at w t0 ε 1 hε
    rw [mul_one] at h1
    unfold bridgeOf
    rw [scaledPath_at w t0 ε u hε, scaledPath_t0 w t0 ε hw, h1, hw]
    have e1 : (t0 + ε ^ 2 * u - t0) / (t0 + ε ^ 2 - t0) = u := by
      rw [add_sub_cancel_left, add_sub_cancel_left, mul_div_cancel_left₀ _ hp.ne']
    rw [e1]
    simp only [sub_zero, div_one]
    module
  have hint : ∀ F : ℝ → B, ∫ r in t0..(t0 + ε ^ 2), F r = ε ^ 2 • ∫ u in (0 : ℝ)..1, F (t0 + ε ^ 2 * u) := by
    intro F
    have h := intervalIntegral.smul_integral_comp_mul_add (f := F) (a := 0) (b := 1) (ε ^ 2) t0
    simp only [mul_zero, zero_add, mul_one] at h
    rw [add_comm t0 (ε ^ 2), ← h]
    simp only [add_comm]
  unfold levyOf areaH areaK
  refine Prod.ext ?_ (Prod.ext ?_ (Prod.ext ?_ ?_))
  · simp
  · have h1 := scaledPath_at w t0 ε 1 hε
    rw [mul_one] at h1
    simp only [h1, scaledPath_t0 w t0 ε hw, hw, sub_zero]
  · simp only [hint, hb, intervalIntegral.integral_smul, add_sub_cancel_left, sub_zero, div_one]
    rw [smul_smul, one_div, inv_mul_cancel₀ hp.ne', one_smul, one_smul]
  · simp only [hint, hb, add_sub_cancel_left, sub_zero]
    have e : ∀ u : ℝ, ((t0 + ε ^ 2 + t0) / 2 - (t0 + ε ^ 2 * u)) • (ε • bridgeOf w 0 1 u)
        = (ε ^ 2 * ε) • (((1 + 0) / 2 - u) • bridgeOf w 0 1 u) := by
      intro u
      rw [smul_smul, smul_smul]
      congr 1
      ring
    simp only [e]
    rw [intervalIntegral.integral_smul, smul_smul, smul_smul, smul_smul]
    congr 1
    field_simp

/-- The integral of the path in terms of the increment and the area. -/
theorem integral_eq_area [CompleteSpace B] (w : ℝ → B) (hwc : Continuous w) (hw : w 0 = 0) :
    ∫ v in (0 : ℝ)..1, w v = (1 / 2 : ℝ) • (levyOf w 0 1).2.1 + (levyOf w 0 1).2.2.1 := by
  unfold levyOf areaH bridgeOf
  simp only [hw, sub_zero, div_one, one_smul]
  rw [intervalIntegral.integral_sub (hwc.intervalIntegrable _ _)
    (Continuous.intervalIntegrable (by fun_prop) _ _), intervalIntegral.integral_smul_const, integral_id]
  norm_num

end

end Verif
