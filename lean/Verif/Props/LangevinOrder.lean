import Verif.Spec.LangevinOrder
import Verif.Lemmas.LangevinStep
import Verif.Props.Langevin
import Verif.Props.SrkOrder

/-!
# C73: the order of the Langevin solvers
-/

set_option linter.unusedSectionVars false
set_option linter.unusedSimpArgs false

namespace Verif
open Filter Topology Set MeasureTheory

/-! ### Linear functionals of the path have mean zero -/

namespace MeanZero
variable {d : ℕ} {E X : Type} [NormedAddCommGroup E] [NormedSpace ℝ E] [NormedAddCommGroup X] [NormedSpace ℝ X]
variable {M N : (ℝ → RVec d) → E}

theorem congr (h : MeanZero M) (e : ∀ w, Continuous w → w 0 = 0 → M w = N w) : MeanZero N := by
  intro Ω _ P _ W hW
  have : (fun ω => N (W ω)) = fun ω => M (W ω) := funext fun ω => (e _ (hW.continuous ω) (hW.zero ω)).symm
  rw [this]
  exact h Ω P W hW

theorem add (h : MeanZero M) (h' : MeanZero N) : MeanZero (fun w => M w + N w) := by
  intro Ω _ P _ W hW
  obtain ⟨i1, e1⟩ := h Ω P W hW
  obtain ⟨i2, e2⟩ := h' Ω P W hW
  exact ⟨i1.add i2, by rw [integral_add i1 i2, e1, e2, add_zero]⟩

theorem clm [CompleteSpace E] [CompleteSpace X] (L : E →L[ℝ] X) (h : MeanZero M) : MeanZero (fun w => L (M w)) := by
  intro Ω _ P _ W hW
  obtain ⟨i1, e1⟩ := h Ω P W hW
  exact ⟨L.integrable_comp i1, by rw [L.integral_comp_comm i1, e1, map_zero]⟩

theorem smul [CompleteSpace E] (r : ℝ) (h : MeanZero M) : MeanZero (fun w => r • M w) :=
  (h.clm (r • ContinuousLinearMap.id ℝ E)).congr fun _ _ _ => rfl

theorem neg [CompleteSpace E] (h : MeanZero M) : MeanZero (fun w => -M w) :=
  (h.smul (-1)).congr fun _ _ _ => neg_one_smul _ _

theorem sub [CompleteSpace E] (h : MeanZero M) (h' : MeanZero N) : MeanZero (fun w => M w - N w) :=
  (h.add h'.neg).congr fun _ _ _ => (sub_eq_add_neg _ _).symm

theorem zero : MeanZero (fun _ : ℝ → RVec d => (0 : E)) := fun Ω _ P _ W _ => by simp

theorem prodMk [CompleteSpace E] [CompleteSpace X] {N : (ℝ → RVec d) → X} (h : MeanZero M) (h' : MeanZero N) :
    MeanZero (fun w => (M w, N w)) :=
  ((h.clm (ContinuousLinearMap.inl ℝ E X)).add (h'.clm (ContinuousLinearMap.inr ℝ E X))).congr fun _ _ _ => by simp

theorem eval_one : MeanZero (fun w : ℝ → RVec d => w 1) := fun _ _ _ _ _ hW =>
  ⟨hW.integrable 1 ⟨zero_le_one, le_rfl⟩, hW.mean 1 ⟨zero_le_one, le_rfl⟩⟩

theorem integral (φ : ℝ → ℝ) (hφ : Continuous φ) : MeanZero (fun w : ℝ → RVec d => ∫ r in (0 : ℝ)..1, φ r • w r) := by
  intro Ω _ P _ W hW
  obtain ⟨C, hC⟩ := hW.bound
  obtain ⟨B, hB⟩ := (isCompact_Icc (a := (0 : ℝ)) (b := 1)).exists_bound_of_continuousOn hφ.continuousOn
  have hm : Measurable fun x : Ω × ℝ => φ x.2 • W x.1 x.2 := (hφ.measurable.comp measurable_snd).smul hW.measurable
  have hae : ∀ᵐ r ∂(volume.restrict (Ioc (0 : ℝ) 1)), r ∈ Icc (0 : ℝ) 1 :=
    (ae_restrict_mem measurableSet_Ioc).mono fun r hr => ⟨hr.1.le, hr.2⟩
  have hint : Integrable (fun x : Ω × ℝ => φ x.2 • W x.1 x.2) (P.prod (volume.restrict (Ioc (0 : ℝ) 1))) := by
    rw [integrable_prod_iff' hm.aestronglyMeasurable]
    refine ⟨?_, ?_⟩
    · filter_upwards [hae] with r hr
      exact (hW.integrable r hr).smul (φ r)
    · refine Integrable.of_bound (C := B * C) ?_ ?_
      · exact hm.aestronglyMeasurable.norm.prod_swap.integral_prod_right'
      · filter_upwards [hae] with r hr
        rw [Real.norm_of_nonneg (integral_nonneg fun _ => norm_nonneg _)]
        simp only [norm_smul]
        rw [integral_const_mul]
        have h0 : 0 ≤ ∫ ω, ‖W ω r‖ ∂P := integral_nonneg fun _ => norm_nonneg _
        exact mul_le_mul (hB r hr) (hC r hr) h0 ((norm_nonneg _).trans (hB r hr))
  simp only [intervalIntegral.integral_of_le zero_le_one]
  refine ⟨hint.integral_prod_left, ?_⟩
  rw [integral_integral_swap (f := fun ω r => φ r • W ω r) hint]
  refine integral_eq_zero_of_ae ?_
  filter_upwards [hae] with r hr
  rw [integral_smul, hW.mean r hr, smul_zero]
  rfl

end MeanZero

section
variable {d : ℕ}

theorem pathI2_one {w : ℝ → RVec d} (hw : Continuous w) : pathI2 w 1 = ∫ r in (0 : ℝ)..1, (1 - r) • w r := by
  have h : ∀ u, HasDerivAt (fun u => (1 - u) • pathI1 w u + pathI2 w u) ((1 - u) • w u) u := fun u => by
    refine ((((hasDerivAt_id u).const_sub 1).smul (pathI1_deriv hw u)).add (pathI2_deriv hw u)).congr_deriv ?_
    simp
  rw [intervalIntegral.integral_eq_sub_of_hasDerivAt (fun u _ => h u)
    (Continuous.intervalIntegrable (by fun_prop) _ _)]
  simp

theorem pathI3_one {w : ℝ → RVec d} (hw : Continuous w) : pathI3 w 1 = ∫ r in (0 : ℝ)..1, ((1 - r) ^ 2 / 2) • w r := by
  have h : ∀ u, HasDerivAt (fun u => ((1 - u) ^ 2 / 2) • pathI1 w u + (1 - u) • pathI2 w u + pathI3 w u)
      (((1 - u) ^ 2 / 2) • w u) u := fun u => by
    have h1 : HasDerivAt (fun u : ℝ => (1 - u) ^ 2 / 2) (-(1 - u)) u := by
      refine ((((hasDerivAt_id u).const_sub 1).pow 2).div_const 2).congr_deriv ?_
      simp only [id_eq]; norm_num; ring
    refine (((h1.smul (pathI1_deriv hw u)).add (((hasDerivAt_id u).const_sub 1).smul (pathI2_deriv hw u))).add
      (pathI3_deriv hw u)).congr_deriv ?_
    simp only [id_eq]
    module
  rw [intervalIntegral.integral_eq_sub_of_hasDerivAt (fun u _ => h u)
    (Continuous.intervalIntegrable (by fun_prop) _ _)]
  simp

/-- The second iterated integral in terms of the increment and the areas. -/
theorem pathI2_eq_area {w : ℝ → RVec d} (hw : Continuous w) (hw0 : w 0 = 0) :
    pathI2 w 1 = (1 / 6 : ℝ) • (levyOf w 0 1).2.1 + (1 / 2 : ℝ) • (levyOf w 0 1).2.2.1 + (levyOf w 0 1).2.2.2 := by
  have h1 := integral_eq_area w hw hw0
  have hk : (levyOf w 0 1).2.2.2 = (∫ r in (0 : ℝ)..1, (1 - r) • w r) - (1 / 2 : ℝ) • (∫ r in (0 : ℝ)..1, w r)
      + (1 / 12 : ℝ) • w 1 := by
    unfold levyOf areaK bridgeOf
    simp only [hw0, sub_zero, div_one, one_smul, add_zero, one_pow]
    have e : ∀ r : ℝ, ((1 : ℝ) / 2 - r) • (w r - r • w 1)
        = (1 - r) • w r - (1 / 2 : ℝ) • w r - (((1 : ℝ) / 2 * r - r ^ 2)) • w 1 := fun r => by module
    simp only [e]
    rw [intervalIntegral.integral_sub (Continuous.intervalIntegrable (by fun_prop) _ _)
      (Continuous.intervalIntegrable (by fun_prop) _ _),
      intervalIntegral.integral_sub (Continuous.intervalIntegrable (by fun_prop) _ _)
      (Continuous.intervalIntegrable (by fun_prop) _ _), intervalIntegral.integral_smul,
      intervalIntegral.integral_smul_const, intervalIntegral.integral_sub
      (Continuous.intervalIntegrable (by fun_prop) _ _) (Continuous.intervalIntegrable (by fun_prop) _ _),
      intervalIntegral.integral_const_mul, integral_id, integral_pow, sub_eq_add_neg _ (_ • w 1), ← neg_smul]
    norm_num
  have hW : (levyOf w 0 1).2.1 = w 1 := by simp [levyOf, hw0]
  rw [pathI2_one hw, hk, h1, hW]
  module

theorem pathI1_eq_area {w : ℝ → RVec d} (hw : Continuous w) (hw0 : w 0 = 0) :
    pathI1 w 1 = (1 / 2 : ℝ) • (levyOf w 0 1).2.1 + (levyOf w 0 1).2.2.1 := integral_eq_area w hw hw0

theorem meanZero_W : MeanZero (fun w : ℝ → RVec d => (levyOf w 0 1).2.1) :=
  MeanZero.eval_one.congr fun w _ h0 => by simp [levyOf, h0]

theorem meanZero_I1 : MeanZero (fun w : ℝ → RVec d => pathI1 w 1) :=
  (MeanZero.integral (fun _ => 1) continuous_const).congr fun w _ _ => by simp [pathI1]

theorem meanZero_I2 : MeanZero (fun w : ℝ → RVec d => pathI2 w 1) :=
  (MeanZero.integral (fun r => 1 - r) (by fun_prop)).congr fun w hw _ => (pathI2_one hw).symm

theorem meanZero_I3 : MeanZero (fun w : ℝ → RVec d => pathI3 w 1) :=
  (MeanZero.integral (fun r => (1 - r) ^ 2 / 2) (by fun_prop)).congr fun w hw _ => (pathI3_one hw).symm

theorem meanZero_J : MeanZero (fun w : ℝ → RVec d => pathJ w 1) :=
  (meanZero_I2.sub meanZero_I3).congr fun w _ _ => by simp [pathJ]

theorem meanZero_H : MeanZero (fun w : ℝ → RVec d => (levyOf w 0 1).2.2.1) :=
  (meanZero_I1.sub (meanZero_W.smul (1 / 2))).congr fun w hw h0 => by rw [pathI1_eq_area hw h0]; abel

theorem meanZero_K : MeanZero (fun w : ℝ → RVec d => (levyOf w 0 1).2.2.2) :=
  ((meanZero_I2.sub (meanZero_W.smul (1 / 6))).sub (meanZero_H.smul (1 / 2))).congr fun w hw h0 => by
    rw [pathI2_eq_area hw h0]; abel

end

/-! ### Steps -/

section
variable {d : ℕ} {T : LangevinTerms d} {x0 v0 : RVec d} {L : RVec d →L[ℝ] RVec d}
  {Q : RVec d →L[ℝ] RVec d →L[ℝ] RVec d}

theorem Jet.at_one {E : Type} [NormedAddCommGroup E] [NormedSpace ℝ E] {n : ℕ} {F : ℝ → ℝ → E} {a : ℕ → ℝ → E}
    (h : Jet n F a) : Jet n (fun ε _ => F ε 1) (fun k _ => a k 1) := by
  have key : ∀ {k : ℕ} {φ : ℝ → ℝ → E}, UO k φ → UO k (fun ε _ => φ ε 1) := by
    rintro k φ ⟨C, hC, h⟩
    exact ⟨C, hC, h.mono fun ε h u _ => h 1 ⟨zero_le_one, le_rfl⟩⟩
  exact ⟨fun k hk => key (h.bdd k hk), key h.rem⟩

/-- Comparison of the expansions of a step and of the solution. -/
theorem local_order_of {Co : Type} (sv : LangevinSolver Co) (t0 : ℝ) (p : ℕ) (hp : p + 1 ≤ 8)
    (sx svv : RVec d → RVec d → RVec d → ℕ → ℝ → RVec d)
    (hF : HasJet2 T.gradF x0 L Q)
    (hstep : ∀ W H K : RVec d,
      let o := fun ε : ℝ => sv.compute (ε ^ 2) ⟨ε • W, ε • H, ε • K⟩ x0 v0 T
        (fun i => sv.recompute (ε ^ 2) (T.gamma i)) (if sv.isFsal then some (T.gradF x0) else none)
      Jet (p + 1) (fun ε _ => (o ε).x - x0) (sx W H K) ∧ Jet (p + 1) (fun ε _ => (o ε).v) (svv W H K))
    (hpar : ∀ (w : ℝ → RVec d) (h : ℝ) (l : LevyInc d) (x v : RVec d) (co : Fin d → Co) (f : Option (RVec d)),
      sv.compute h l x v (T.along w) co f = sv.compute h l x v T co f)
    (hx : ∀ w : ℝ → RVec d, Continuous w → w 0 = 0 → ∀ k < p,
      sx (levyOf w 0 1).2.1 (levyOf w 0 1).2.2.1 (levyOf w 0 1).2.2.2 k 1 = xCoef T x0 v0 L w k 1)
    (hv : ∀ w : ℝ → RVec d, Continuous w → w 0 = 0 → ∀ k < p,
      svv (levyOf w 0 1).2.1 (levyOf w 0 1).2.2.1 (levyOf w 0 1).2.2.2 k 1 = vCoef T x0 v0 L Q w k 1)
    (hmx : MeanZero fun w : ℝ → RVec d =>
      sx (levyOf w 0 1).2.1 (levyOf w 0 1).2.2.1 (levyOf w 0 1).2.2.2 p 1 - xCoef T x0 v0 L w p 1)
    (hmv : MeanZero fun w : ℝ → RVec d =>
      svv (levyOf w 0 1).2.1 (levyOf w 0 1).2.2.1 (levyOf w 0 1).2.2.2 p 1 - vCoef T x0 v0 L Q w p 1)
    (hx0 : sx 0 0 0 p 1 = xCoef T x0 v0 L 0 p 1) (hv0 : svv 0 0 0 p 1 = vCoef T x0 v0 L Q 0 p 1) :
    LangevinLocalOrder sv T t0 (x0, v0) p := by
  have hz : levyOf (0 : ℝ → RVec d) 0 1 = (1, 0, 0, 0) := by
    simp [levyOf, areaH, areaK, bridgeOf]
  refine ⟨_, hmx.prodMk hmv, ?_, ?_⟩
  · simp only [hz, hx0, hv0, sub_self]
    rfl
  intro w hw hw0 y hy st hst
  set W := (levyOf w 0 1).2.1 with hW
  set H := (levyOf w 0 1).2.2.1 with hH
  set K := (levyOf w 0 1).2.2.2 with hK
  let Te := fun ε : ℝ => T.along (scaledPath w t0 ε)
  let oe := fun ε : ℝ => sv.compute (Co := Co) ((Te ε).contr t0 (t0 + ε ^ 2)) ((Te ε).levy t0 (t0 + ε ^ 2)) x0 v0 (Te ε)
    (fun i => sv.recompute ((Te ε).contr t0 (t0 + ε ^ 2)) (T.gamma i))
    (if sv.isFsal then some (T.gradF x0) else none)
  refine ⟨fun ε => ((oe ε).x, (oe ε).v), fun ε => ?_, ?_⟩
  · unfold LangevinSolver.tracedStep
    simp only [Option.map_some]
    refine ⟨_, rfl, ?_⟩
    have h1 := (hst ε).coeffs
    have h2 := (hst ε).prevF
    rw [h1, h2]
    rfl
  · obtain ⟨jx, jv⟩ := langevin_expand hF hw hw0 hy
    obtain ⟨kx, kv⟩ := hstep W H K
    have ex := kx.at_one.diff (jx.mono hp).at_one fun k hk u _ => hx w hw hw0 k hk
    have ev := kv.at_one.diff (jv.mono hp).at_one fun k hk u _ => hv w hw hw0 k hk
    refine UO.isBigO_pow ((ex.prodMk ev).congr ?_)
    filter_upwards [ev_pos] with ε hε u _
    have hl := levy_scaled w hw0 t0 ε hε.1
    have ho : oe ε = sv.compute (ε ^ 2) ⟨ε • W, ε • H, ε • K⟩ x0 v0 T
        (fun i => sv.recompute (ε ^ 2) (T.gamma i)) (if sv.isFsal then some (T.gradF x0) else none) := by
      have e1 : (Te ε).contr t0 (t0 + ε ^ 2) = ε ^ 2 := add_sub_cancel_left _ _
      have e2 : (Te ε).levy t0 (t0 + ε ^ 2) = ⟨ε • W, ε • H, ε • K⟩ := by
        show LevyInc.mk _ _ _ = _
        rw [hl]
      show sv.compute _ _ _ _ _ _ _ = _
      rw [e1, e2, hpar]
    rw [ho]
    simp only [mul_one]
    refine Prod.ext ?_ ?_
    · simp only [Prod.fst_sub, Prod.smul_fst]
      abel
    · simp only [Prod.snd_sub, Prod.smul_snd]

/-! ### The statements -/

/-- **C73.** `ALIGN` has the local error of a method of strong order 2 (and of order 2 without noise). -/
theorem C73_align (thr t0 : ℝ) (hγ : ∀ i, T.gamma i ≠ 0) (hF : HasJet2 T.gradF x0 L Q) :
    LangevinLocalOrder (ALIGN thr) T t0 (x0, v0) 5 := by
  refine local_order_of (ALIGN thr) t0 5 (by norm_num) (fun W H _ => alignX T x0 v0 W H)
    (fun W H _ => alignV T x0 v0 L W H) hF (fun W H K => align_step_jet thr hγ hF) (fun _ _ _ _ _ _ _ => rfl)
    (fun w hw h0 k hk => ?_) (fun w hw h0 k hk => ?_) ?_ ?_ ?_ ?_
  · have h1 := pathI1_eq_area hw h0
    interval_cases k <;> simp [alignX, xCoef, h1]
  · have h1 := pathI1_eq_area hw h0
    interval_cases k <;> simp [alignV, vCoef, h1]
    simp [levyOf, h0]
  · exact ((((meanZero_W.smul (1 / 6)).add (meanZero_H.smul (1 / 2))).clm (mulC T.rho)).clm (mulC T.gamma)).neg.sub
      ((meanZero_I2.clm (mulC T.rho)).clm (mulC T.gamma)).neg
  · exact (((((((meanZero_W.smul (1 / 6)).add (meanZero_H.smul (1 / 2))).clm (mulC T.rho)).clm (mulC T.gamma)).clm
      (mulC T.gamma)).sub ((((((meanZero_W.smul (1 / 2)).add meanZero_H).clm (mulC T.rho)).clm L).clm
        (mulC T.u)).smul (1 / 2)))).sub (meanZero_I2.clm (m5 T L))
  · simp [alignX, xCoef, pathI2, pathI1]
  · simp [alignV, vCoef, pathI2, pathI1]

/-- **C73.** `ShOULD` has the local error of a method of strong order 3 (and of order 3 without noise). -/
theorem C73_should (thr t0 : ℝ) (hγ : ∀ i, T.gamma i ≠ 0) (hF : HasJet2 T.gradF x0 L Q) :
    LangevinLocalOrder (ShOULD thr) T t0 (x0, v0) 7 := by
  have hHK := meanZero_H (d := d).add (meanZero_K.smul 6)
  have hWK := meanZero_W (d := d).sub (meanZero_K.smul 12)
  have mid3 := ((hHK.smul (1 / 2)).add (hWK.smul (1 / 8))).clm (mulC T.rho)
  have mid5 := ((((hHK.smul (1 / 8)).add (hWK.smul (1 / 48))).clm (mulC T.rho)).clm (mulC T.gamma)).neg
  have x3 := ((meanZero_W (d := d).smul (1 / 2)).add meanZero_H).clm (mulC T.rho)
  have x5 := (((((meanZero_W (d := d).smul (1 / 6)).add (meanZero_H.smul (1 / 2))).add meanZero_K).clm
    (mulC T.rho)).clm (mulC T.gamma)).neg
  have g7 := (((((meanZero_W (d := d).smul (1 / 24)).add (meanZero_H.smul (3 / 20))).add
    (meanZero_K.smul (1 / 2))).clm (mulC T.rho)).clm (mulC T.gamma)).clm (mulC T.gamma)
  refine local_order_of (ShOULD thr) t0 7 (by norm_num) (fun W H K => shouldX T x0 v0 L W H K)
    (fun W H K => shouldV T x0 v0 L Q W H K) hF (fun W H K => should_step_jet thr hγ hF) (fun _ _ _ _ _ _ _ => rfl)
    (fun w hw h0 k hk => ?_) (fun w hw h0 k hk => ?_) ?_ ?_ ?_ ?_
  · have h1 := pathI1_eq_area hw h0
    have h2 := pathI2_eq_area hw h0
    interval_cases k <;> simp [shouldX, xCoef, h1, h2]
  · have h1 := pathI1_eq_area hw h0
    have h2 := pathI2_eq_area hw h0
    interval_cases k <;> simp [shouldV, vCoef, h1, h2]
    simp [levyOf, h0]
  · exact (g7.sub (((mid3.clm L).clm (mulC T.u)).smul (1 / 3))).sub (meanZero_I3.clm (m5 T L))
  · have q1 := ((mid5.clm L).add (((mid3.clm (Q v0)).add (mid3.clm (Q.flip v0))).smul (1 / 2))).clm (mulC T.u)
    have q2 := ((mid3.clm L).clm (mulC T.u)).clm (mulC T.gamma)
    have q3 := (((x5.clm L).add (x3.clm (Q v0))).add (x3.clm (Q.flip v0))).clm (mulC T.u)
    exact (((((g7.clm (mulC T.gamma)).neg.sub (q1.smul (2 / 3))).add (q2.smul (1 / 3))).sub (q3.smul (1 / 6)))).sub
      ((meanZero_I3.clm (m7 T L)).sub (meanZero_J.clm (mS T v0 Q)))
  · simp [shouldX, shouldMid, xCoef, pathI3, pathI2, pathI1]
  · simp [shouldV, shouldX, shouldMid, vCoef, pathJ, pathI3, pathI2, pathI1]

/-- **C73.** `QUICSORT` has the local error of a method of strong order 3 (and of order 3 without noise). -/
theorem C73_quicsort (thr t0 : ℝ) (hγ : ∀ i, T.gamma i ≠ 0) (hF : HasJet2 T.gradF x0 L Q) :
    LangevinLocalOrder (QUICSORT thr) T t0 (x0, v0) 7 := by
  have hHK := meanZero_H (d := d).add (meanZero_K.smul 6)
  have hWK := meanZero_W (d := d).sub (meanZero_K.smul 12)
  have st3 := fun z : ℝ => ((hHK.smul z).add (hWK.smul (z ^ 2 / 2))).clm (mulC T.rho)
  have st5 := fun z : ℝ => ((((hHK.smul (z ^ 2 / 2)).add (hWK.smul (z ^ 3 / 6))).clm (mulC T.rho)).clm (mulC T.gamma)).neg
  have g7 := ((((hHK.smul (1 / 6)).add (hWK.smul (1 / 24))).clm (mulC T.rho)).clm (mulC T.gamma)).clm (mulC T.gamma)
  have lr := ((((st3 quicL).smul quicR).add ((st3 quicR).smul quicL)).clm L).clm (mulC T.u)
  refine local_order_of (QUICSORT thr) t0 7 (by norm_num) (fun W H K => quicX T x0 v0 L W H K)
    (fun W H K => quicV T x0 v0 L Q W H K) hF (fun W H K => quicsort_step_jet thr hγ hF) (fun _ _ _ _ _ _ _ => rfl)
    (fun w hw h0 k hk => ?_) (fun w hw h0 k hk => ?_) ?_ ?_ ?_ ?_
  · have h1 := pathI1_eq_area hw h0
    have h2 := pathI2_eq_area hw h0
    interval_cases k <;> simp [quicX, xCoef, h1, h2]
  · have h1 := pathI1_eq_area hw h0
    have h2 := pathI2_eq_area hw h0
    interval_cases k <;> simp [quicV, vCoef, h1, h2]
    simp [levyOf, h0]
  · exact (g7.sub (lr.smul (1 / 2))).sub (meanZero_I3.clm (m5 T L))
  · have q := fun z : ℝ => (((st3 z).clm (Q v0)).add ((st3 z).clm (Q.flip v0))).smul z
    have r := (((((st5 quicL).clm L).add ((st5 quicR).clm L)).add (q quicL)).add (q quicR)).clm (mulC T.u)
    exact ((((g7.clm (mulC T.gamma)).neg.add ((lr.clm (mulC T.gamma)).smul (1 / 2))).sub (r.smul (1 / 2)))).sub
      ((meanZero_I3.clm (m7 T L)).sub (meanZero_J.clm (mS T v0 Q)))
  · simp [quicX, quicStage, xCoef, pathI3, pathI2, pathI1]
  · simp [quicV, quicX, quicStage, vCoef, pathJ, pathI3, pathI2, pathI1]

/-! ### Without noise -/

/-- The local error in the absence of noise is of order `h^q`. -/
theorem deterministic_of {Co : Type} {sv : LangevinSolver Co} {t0 : ℝ} {y0 : RVec d × RVec d} {p q : ℕ}
    (h : LangevinLocalOrder sv T t0 y0 p) (hq : p + 1 = 2 * q) {δ : ℝ} (hδ : 0 < δ) {y : ℝ → RVec d × RVec d}
    (hy : SolvesLangevinSDE T 0 t0 (t0 + δ) y0 y) (st : ℝ → LangevinState d Co)
    (hst : ∀ h ≥ 0, (st h).UpToDate sv (T.along 0) t0 (t0 + h) y0) :
    ∃ s : ℝ → RVec d × RVec d,
      (∀ h ≥ 0, ∃ o, sv.tracedStep (T.along 0) t0 (t0 + h) y0 (st h) none = some o ∧ o.y = s h) ∧
      (fun h => s h - y (t0 + h)) =O[𝓝[>] 0] fun h => h ^ q := by
  obtain ⟨M, -, hM0, hM⟩ := h
  have hsc : ∀ ε : ℝ, scaledPath (0 : ℝ → RVec d) t0 ε = 0 := fun ε => by
    funext t
    simp [scaledPath]
  have hsub : ∀ᶠ ε in 𝓝[>] (0 : ℝ), ε ^ 2 < δ := by
    have : Tendsto (fun ε : ℝ => ε ^ 2) (𝓝 0) (𝓝 (0 ^ 2)) := Continuous.tendsto (by fun_prop) 0
    rw [zero_pow (by norm_num)] at this
    exact (this.mono_left nhdsWithin_le_nhds).eventually (gt_mem_nhds hδ)
  obtain ⟨s, hs, hO⟩ := hM 0 continuous_const rfl (fun _ => y) (by
    filter_upwards [hsub] with ε hε
    rw [hsc]
    exact ⟨hy.continuous.mono (Icc_subset_Icc_right (by linarith)),
      fun t ht => hy.equation t ⟨ht.1, by linarith [ht.2]⟩⟩) (fun ε => st (ε ^ 2)) (by
    intro ε
    rw [hsc]
    exact hst _ (sq_nonneg ε))
  refine ⟨fun h => s (Real.sqrt h), fun h hh => ?_, ?_⟩
  · have := hs (Real.sqrt h)
    rw [hsc, Real.sq_sqrt hh] at this
    exact this
  · have hsq : Tendsto Real.sqrt (𝓝[>] 0) (𝓝[>] 0) := by
      rw [tendsto_nhdsWithin_iff]
      refine ⟨?_, ?_⟩
      · have := Real.continuous_sqrt.tendsto 0
        rw [Real.sqrt_zero] at this
        exact this.mono_left nhdsWithin_le_nhds
      · filter_upwards [self_mem_nhdsWithin] with h hh
        exact Real.sqrt_pos.2 hh
    refine (hO.comp_tendsto hsq).congr' ?_ ?_
    · filter_upwards [self_mem_nhdsWithin] with h hh
      simp only [Function.comp, hM0, smul_zero, sub_zero, Real.sq_sqrt (le_of_lt hh)]
    · filter_upwards [self_mem_nhdsWithin] with h hh
      simp only [Function.comp, hq, pow_mul, Real.sq_sqrt (le_of_lt hh)]

/-- **C73, without noise.** The local errors are of order `h³` (`ALIGN`) and `h⁴` (`ShOULD`, `QUICSORT`). -/
theorem C73_deterministic (thr t0 : ℝ) (hγ : ∀ i, T.gamma i ≠ 0) (hF : HasJet2 T.gradF x0 L Q) {δ : ℝ} (hδ : 0 < δ)
    {y : ℝ → RVec d × RVec d} (hy : SolvesLangevinSDE T 0 t0 (t0 + δ) (x0, v0) y) :
    (∃ s : ℝ → RVec d × RVec d, (∀ h ≥ 0, ∃ o, (ALIGN thr).tracedStep (T.along 0) t0 (t0 + h) (x0, v0)
        ((ALIGN thr).init (T.along 0) t0 (t0 + h) (x0, v0)) none = some o ∧ o.y = s h) ∧
      (fun h => s h - y (t0 + h)) =O[𝓝[>] 0] fun h => h ^ 3) ∧
    (∃ s : ℝ → RVec d × RVec d, (∀ h ≥ 0, ∃ o, (ShOULD thr).tracedStep (T.along 0) t0 (t0 + h) (x0, v0)
        ((ShOULD thr).init (T.along 0) t0 (t0 + h) (x0, v0)) none = some o ∧ o.y = s h) ∧
      (fun h => s h - y (t0 + h)) =O[𝓝[>] 0] fun h => h ^ 4) ∧
    (∃ s : ℝ → RVec d × RVec d, (∀ h ≥ 0, ∃ o, (QUICSORT thr).tracedStep (T.along 0) t0 (t0 + h) (x0, v0)
        ((QUICSORT thr).init (T.along 0) t0 (t0 + h) (x0, v0)) none = some o ∧ o.y = s h) ∧
      (fun h => s h - y (t0 + h)) =O[𝓝[>] 0] fun h => h ^ 4) :=
  ⟨deterministic_of (C73_align thr t0 hγ hF) rfl hδ hy _ fun _ _ => ⟨init_coeffs _ _ _ _ _, rfl⟩,
    deterministic_of (C73_should thr t0 hγ hF) rfl hδ hy _ fun _ _ => ⟨init_coeffs _ _ _ _ _, rfl⟩,
    deterministic_of (C73_quicsort thr t0 hγ hF) rfl hδ hy _ fun _ _ => ⟨init_coeffs _ _ _ _ _, rfl⟩⟩

end

/-! ### The hypotheses are met -/

/-- The state at the start of a solve is up to date; and so is, in a solve with steps of the same length, every later
one. -/
theorem run_upToDate {Co : Type} {d : ℕ} (sv : LangevinSolver Co) (T : LangevinTerms d) (τ : ℕ → ℝ)
    (y0 : RVec d × RVec d) (h : ℝ) (hh : ∀ n, stepLength T τ n = h)
    (hf : ∀ (h : ℝ) (l : LevyInc d) (x v : RVec d) (co : Fin d → Co) (f : Option (RVec d)),
      (sv.compute h l x v T co f).fFsal = if sv.isFsal then some (T.gradF (sv.compute h l x v T co f).x) else none)
    (n : ℕ) : (langevinRun sv T τ y0 n).2.UpToDate sv T (τ n) (τ (n + 1)) (langevinRun sv T τ y0 n).1 := by
  refine ⟨C74_constant_partial sv T τ y0 h hh n, ?_⟩
  rcases n with _ | n
  · rfl
  · simp only [langevinRun, LangevinSolver.tracedStep, Option.map_some]
    exact hf _ _ _ _ _ _

/-- The three solvers remember the force as asked for. -/
example {d : ℕ} (thr : ℝ) (T : LangevinTerms d) (h : ℝ) (l : LevyInc d) (x v : RVec d) (f : Option (RVec d)) :
    (∀ co, ((ALIGN thr).compute h l x v T co f).fFsal = some (T.gradF ((ALIGN thr).compute h l x v T co f).x)) ∧
    (∀ co, ((ShOULD thr).compute h l x v T co f).fFsal = some (T.gradF ((ShOULD thr).compute h l x v T co f).x)) ∧
    (∀ co, ((QUICSORT thr).compute h l x v T co f).fFsal = none) := ⟨fun _ => rfl, fun _ => rfl, fun _ => rfl⟩

open ProbabilityTheory in
/-- Brownian motions are centred processes. -/
theorem centred_of_brownian {Ω : Type} [MeasurableSpace Ω] {P : Measure Ω} [IsProbabilityMeasure P] {d : ℕ}
    {X : Fin d → NNReal → Ω → ℝ} (h : ∀ i, IsPreBrownianReal (X i) P) (hm : ∀ i t, Measurable (X i t))
    (hc : ∀ i ω, Continuous fun t => X i t ω) (h0 : ∀ i ω, X i 0 ω = 0)
    (hind : ∀ i j, i ≠ j → ∀ s t, IndepFun (X i s) (X j t) P) :
    CentredProcess P (fun ω r i => X i r.toNNReal ω) := by
  have hB := brownianMoments_of_brownian h hm hc h0 hind
  have hi : ∀ s ∈ Icc (0 : ℝ) 1, ∀ i, Integrable (fun ω => X i s.toNNReal ω) P := fun s hs i =>
    (hB.sq i s hs).integrable (by norm_num)
  refine ⟨hB.measurable, fun ω => continuous_pi fun i => (hc i ω).comp continuous_real_toNNReal, hB.zero,
    fun s hs => Integrable.of_eval (hi s hs), ⟨d, fun s hs => ?_⟩, fun s hs => ?_⟩
  · have hle : ∀ i, ∫ ω, |X i s.toNNReal ω| ∂P ≤ 1 := by
      intro i
      have h2 := hB.cov i i s hs s hs
      rw [if_pos rfl, min_self] at h2
      have i2 : Integrable (fun ω => X i s.toNNReal ω * X i s.toNNReal ω) P :=
        (hB.sq i s hs).integrable_mul (hB.sq i s hs)
      have := integral_mono (hi s hs i).abs ((i2.add (integrable_const 1)).div_const 2) fun ω => by
        simp only [Pi.add_apply]
        rw [le_div_iff₀ (by norm_num)]
        nlinarith [sq_nonneg (|X i s.toNNReal ω| - 1), abs_mul_abs_self (X i s.toNNReal ω)]
      refine this.trans ?_
      simp only [Pi.add_apply]
      rw [integral_div, integral_add i2 (integrable_const 1), h2]
      simp
      linarith [hs.2]
    have : ∫ ω, ‖fun i => X i s.toNNReal ω‖ ∂P ≤ ∫ ω, ∑ i, |X i s.toNNReal ω| ∂P := by
      refine integral_mono (Integrable.of_eval (hi s hs)).norm (integrable_finsetSum _ fun i _ => (hi s hs i).abs)
        fun ω => ?_
      exact pi_norm_le_iff_of_nonneg (Finset.sum_nonneg fun i _ => abs_nonneg _) |>.2 fun i =>
        Finset.single_le_sum (f := fun i => |X i s.toNNReal ω|) (fun i _ => abs_nonneg _) (Finset.mem_univ i)
    refine this.trans ?_
    rw [integral_finsetSum _ fun i _ => (hi s hs i).abs]
    refine (Finset.sum_le_sum fun i _ => hle i).trans ?_
    simp
  · funext i
    rw [MeasureTheory.eval_integral (hi s hs)]
    exact (h i).integral_eval _

/-- A simpler process: a straight line with a random slope. -/
example : CentredProcess (volume.restrict (Icc (-1 / 2 : ℝ) (1 / 2))) (fun ω r (_ : Fin 1) => ω * r) where
  measurable := by fun_prop
  continuous ω := by fun_prop
  zero ω := by funext i; simp
  integrable s _ := (Continuous.integrableOn_Icc (by fun_prop))
  bound := by
    refine ⟨1, fun s hs => ?_⟩
    have : ∫ ω, ‖fun _ : Fin 1 => ω * s‖ ∂(volume.restrict (Icc (-1 / 2 : ℝ) (1 / 2)))
        ≤ ∫ ω, (1 : ℝ) ∂(volume.restrict (Icc (-1 / 2 : ℝ) (1 / 2))) := by
      refine setIntegral_mono_on (Continuous.integrableOn_Icc (by fun_prop)) (by simp) measurableSet_Icc fun ω hω => ?_
      rw [pi_norm_le_iff_of_nonneg zero_le_one]
      intro _
      rw [Real.norm_eq_abs, abs_mul, abs_of_nonneg hs.1]
      have h1 : |ω| ≤ 1 := by rw [abs_le]; constructor <;> linarith [hω.1, hω.2]
      exact mul_le_one₀ h1 hs.1 hs.2
    refine this.trans ?_
    simp
    norm_num
  mean s _ := by
    funext i
    rw [MeasureTheory.eval_integral fun _ => Continuous.integrableOn_Icc (by fun_prop)]
    rw [integral_mul_const, integral_Icc_eq_integral_Ioc, ← intervalIntegral.integral_of_le (by norm_num), integral_id]
    norm_num

/-- A damped oscillator. -/
noncomputable def oscTerms : LangevinTerms 1 where
  gamma := fun _ => 2
  u := fun _ => 1
  gradF := id
  contr := fun a b => b - a
  levy := fun _ _ => ⟨0, 0, 0⟩

example (x0 : RVec 1) : HasJet2 oscTerms.gradF x0 (ContinuousLinearMap.id ℝ _) 0 :=
  ⟨by simpa [oscTerms] using Asymptotics.isBigO_zero (E' := RVec 1) (fun d : RVec 1 => ‖d‖ ^ 3) (𝓝 0),
    Eventually.of_forall fun x => continuousAt_id⟩

/-- Its solution along a straight line. -/
example (t0 : ℝ) : ∀ᶠ ε in 𝓝[>] (0 : ℝ), SolvesLangevinSDE oscTerms (scaledPath (fun v _ => v) t0 ε) t0 (t0 + ε ^ 2)
    (0, 0) (fun t => (fun _ => 2 / ε * (1 - (1 + (t - t0)) * Real.exp (-(t - t0))),
      fun _ => 2 / ε * ((t - t0) * Real.exp (-(t - t0))))) := by
  filter_upwards [ev_pos] with ε hε
  have hne := hε.1.ne'
  have hr : Real.sqrt (2 * 2 * 1) = 2 := by
    rw [show (2 * 2 * 1 : ℝ) = 2 ^ 2 by norm_num, Real.sqrt_sq (by norm_num)]
  have hexp : ∀ t : ℝ, HasDerivAt (fun t => Real.exp (-(t - t0))) (-Real.exp (-(t - t0))) t := fun t =>
    ((((hasDerivAt_id t).sub_const t0).neg).exp).congr_deriv (by simp)
  have hx : ∀ t : ℝ, HasDerivAt (fun t => 2 / ε * (1 - (1 + (t - t0)) * Real.exp (-(t - t0))))
      (2 / ε * ((t - t0) * Real.exp (-(t - t0)))) t := fun t => by
    refine ((((((hasDerivAt_id t).sub_const t0).const_add 1).mul (hexp t)).const_sub 1).const_mul (2 / ε)).congr_deriv ?_
    simp only [id_eq]; ring
  have hv : ∀ t : ℝ, HasDerivAt (fun t => 2 / ε * ((t - t0) * Real.exp (-(t - t0))) - 2 * (t - t0) / ε)
      (-2 * (2 / ε * ((t - t0) * Real.exp (-(t - t0)))) - 1 * (2 / ε * (1 - (1 + (t - t0)) * Real.exp (-(t - t0))))) t :=
    fun t => by
    refine (((((hasDerivAt_id t).sub_const t0).mul (hexp t)).const_mul (2 / ε)).sub
      ((((hasDerivAt_id t).sub_const t0).const_mul 2).div_const ε)).congr_deriv ?_
    simp only [id_eq]; ring
  refine ⟨by fun_prop, fun t ht => ?_⟩
  have hi : ∀ F : ℝ → RVec 1 × RVec 1, Continuous F → ∀ j, (∫ r in t0..t, F r).1 j = ∫ r in t0..t, (F r).1 j := by
    intro F hF j
    have e := ((ContinuousLinearMap.proj (R := ℝ) (φ := fun _ : Fin 1 => ℝ) j).comp
      (ContinuousLinearMap.fst ℝ (RVec 1) (RVec 1))).intervalIntegral_comp_comm (hF.intervalIntegrable t0 t (μ := volume))
    exact e.symm
  have hi2 : ∀ F : ℝ → RVec 1 × RVec 1, Continuous F → ∀ j, (∫ r in t0..t, F r).2 j = ∫ r in t0..t, (F r).2 j := by
    intro F hF j
    have e := ((ContinuousLinearMap.proj (R := ℝ) (φ := fun _ : Fin 1 => ℝ) j).comp
      (ContinuousLinearMap.snd ℝ (RVec 1) (RVec 1))).intervalIntegral_comp_comm (hF.intervalIntegrable t0 t (μ := volume))
    exact e.symm
  refine Prod.ext (funext fun j => ?_) (funext fun j => ?_)
  · simp only [Prod.fst_add, Pi.add_apply]
    rw [hi _ (by unfold langevinDrift oscTerms; fun_prop)]
    simp only [langevinDrift]
    rw [intervalIntegral.integral_eq_sub_of_hasDerivAt (fun t _ => hx t) (Continuous.intervalIntegrable (by fun_prop) _ _)]
    simp [wienerIntegral, langevinDiffusion]
  · simp only [Prod.snd_add, Pi.add_apply]
    rw [hi2 _ (by unfold langevinDrift oscTerms; fun_prop)]
    simp only [langevinDrift, oscTerms, id_eq]
    rw [intervalIntegral.integral_eq_sub_of_hasDerivAt (fun t _ => hv t) (Continuous.intervalIntegrable (by fun_prop) _ _)]
    simp [wienerIntegral, langevinDiffusion, scaledPath, oscTerms]
    field_simp
    ring

end Verif
