import Verif.Lemmas.Jet
import Verif.Spec.Langevin
import Mathlib.MeasureTheory.Integral.IntervalIntegral.IntegrationByParts

/-!
# The underdamped Langevin equation over a short time: expansion of the exact solution
-/

set_option linter.unusedSectionVars false

namespace Verif
open Filter Topology Set

@[simp] theorem mulC_apply {d : ℕ} (c x : RVec d) (i : Fin d) : mulC c x i = c i * x i := by
  simp [mulC]

section
variable {E X : Type} [NormedAddCommGroup E] [NormedSpace ℝ E] [NormedAddCommGroup X] [NormedSpace ℝ X]

/-- The expansion of `F (x0 + D)` if `D = ε² d2 + ε³ d3 + ...`. -/
noncomputable def forceCoef (f0 : E) (L : X →L[ℝ] E) (Q : X →L[ℝ] X →L[ℝ] E) (d : ℕ → ℝ → X) : ℕ → ℝ → E
  | 0, _ => f0
  | 1, _ => 0
  | 2, u => L (d 2 u)
  | 3, u => L (d 3 u)
  | 4, u => L (d 4 u) + Q (d 2 u) (d 2 u)
  | 5, u => L (d 5 u) + Q (d 2 u) (d 3 u) + Q (d 3 u) (d 2 u)
  | _, _ => 0

theorem HasJet2.compose6 {F : X → E} {x0 : X} {L : X →L[ℝ] E} {Q : X →L[ℝ] X →L[ℝ] E} (hF : HasJet2 F x0 L Q)
    {d : ℝ → ℝ → X} (hd : UO 2 d) :
    UO 6 (fun ε u => F (x0 + d ε u) - (F x0 + L (d ε u) + Q (d ε u) (d ε u))) := by
  obtain ⟨c, hc⟩ := hF.expansion.bound
  obtain ⟨δ, hδ, hb⟩ := Metric.eventually_nhds_iff.1 hc
  have hsmall := hd.tendsto two_pos δ hδ
  obtain ⟨C, hC, hd⟩ := hd
  refine ⟨|c| * C ^ 3, by positivity, ?_⟩
  filter_upwards [hd, hsmall, ev_pos] with ε h1 h2 h3 u hu
  have := hb (y := d ε u) (by rw [dist_zero_right]; exact h2 u hu)
  refine this.trans ?_
  rw [norm_pow, norm_norm]
  have e1 : ‖d ε u‖ ^ 3 ≤ (C * ε ^ 2) ^ 3 := pow_le_pow_left₀ (norm_nonneg _) (h1 u hu) 3
  calc c * ‖d ε u‖ ^ 3 ≤ |c| * ‖d ε u‖ ^ 3 := mul_le_mul_of_nonneg_right (le_abs_self _) (by positivity)
    _ ≤ |c| * (C * ε ^ 2) ^ 3 := mul_le_mul_of_nonneg_left e1 (abs_nonneg _)
    _ = _ := by ring

/-- The force along an expansion. -/
theorem HasJet2.jet {F : X → E} {x0 : X} {L : X →L[ℝ] E} {Q : X →L[ℝ] X →L[ℝ] E} (hF : HasJet2 F x0 L Q)
    {D : ℝ → ℝ → X} {d : ℕ → ℝ → X} {n : ℕ} (hn : n ≤ 6) (hD : UO 2 D) (hj : Jet n D d) (h0 : ∀ u, d 0 u = 0)
    (h1 : ∀ u, d 1 u = 0) : Jet n (fun ε u => F (x0 + D ε u)) (forceCoef (F x0) L Q d) := by
  have hr := Jet.of_UO ((hF.compose6 hD).mono hn)
  refine (((hr.add (Jet.const n (F x0))).add (hj.clm L)).add (hj.bilin Q hj)).congr' (fun ε u => by abel) ?_
  intro k hk u
  have hk6 : k < 6 := hk.trans_le hn
  interval_cases k <;> simp [forceCoef, Finset.sum_range_succ, h0, h1]
  abel

/-- Integration. -/
theorem Jet.integral {n : ℕ} {F : ℝ → ℝ → E} {a : ℕ → ℝ → E} (h : Jet n F a)
    (hF : ∀ᶠ ε in 𝓝[>] (0 : ℝ), ContinuousOn (F ε) (Icc 0 1)) (ha : ∀ k < n, Continuous (a k)) :
    Jet n (fun ε u => ∫ v in (0 : ℝ)..u, F ε v) (fun k u => ∫ v in (0 : ℝ)..u, a k v) where
  bdd k hk := (h.bdd k hk).integral
  rem := by
    refine h.rem.integral.congr ?_
    filter_upwards [hF] with ε hF u hu
    have hi : IntervalIntegrable (F ε) MeasureTheory.volume 0 u := by
      apply ContinuousOn.intervalIntegrable
      rw [uIcc_of_le hu.1]
      exact hF.mono (Icc_subset_Icc_right hu.2)
    have hc : ∀ k ∈ Finset.range n, IntervalIntegrable (fun v => ε ^ k • a k v) MeasureTheory.volume 0 u := fun k hk =>
      ((ha k (Finset.mem_range.1 hk)).const_smul _).intervalIntegrable _ _
    have hs : IntervalIntegrable (fun v => ∑ k ∈ Finset.range n, ε ^ k • a k v) MeasureTheory.volume 0 u :=
      (continuous_finsetSum _ fun k hk => (ha k (Finset.mem_range.1 hk)).const_smul _).intervalIntegrable _ _
    rw [intervalIntegral.integral_sub hi hs, intervalIntegral.integral_finset_sum hc]
    simp only [intervalIntegral.integral_smul]

end

/-! ### Iterated integrals of the path -/

section
variable {E : Type} [NormedAddCommGroup E] [NormedSpace ℝ E] [CompleteSpace E]

noncomputable def pathI1 (w : ℝ → E) (u : ℝ) : E := ∫ v in (0 : ℝ)..u, w v
noncomputable def pathI2 (w : ℝ → E) (u : ℝ) : E := ∫ v in (0 : ℝ)..u, pathI1 w v
noncomputable def pathI3 (w : ℝ → E) (u : ℝ) : E := ∫ v in (0 : ℝ)..u, pathI2 w v
/-- `∫ v I1(v) dv` -/
noncomputable def pathJ (w : ℝ → E) (u : ℝ) : E := u • pathI2 w u - pathI3 w u

variable {w : ℝ → E} (hw : Continuous w)
include hw

theorem pathI1_deriv (u : ℝ) : HasDerivAt (pathI1 w) (w u) u := hw.integral_hasStrictDerivAt 0 u |>.hasDerivAt
theorem pathI1_cont : Continuous (pathI1 w) := continuous_iff_continuousAt.2 fun u => (pathI1_deriv hw u).continuousAt
theorem pathI2_deriv (u : ℝ) : HasDerivAt (pathI2 w) (pathI1 w u) u :=
  (pathI1_cont hw).integral_hasStrictDerivAt 0 u |>.hasDerivAt
theorem pathI2_cont : Continuous (pathI2 w) := continuous_iff_continuousAt.2 fun u => (pathI2_deriv hw u).continuousAt
theorem pathI3_deriv (u : ℝ) : HasDerivAt (pathI3 w) (pathI2 w u) u :=
  (pathI2_cont hw).integral_hasStrictDerivAt 0 u |>.hasDerivAt
theorem pathI3_cont : Continuous (pathI3 w) := continuous_iff_continuousAt.2 fun u => (pathI3_deriv hw u).continuousAt
theorem pathJ_deriv (u : ℝ) : HasDerivAt (pathJ w) (u • pathI1 w u) u := by
  refine (((hasDerivAt_id u).smul (pathI2_deriv hw u)).sub (pathI3_deriv hw u)).congr_deriv ?_
  simp only [id_eq, one_smul]; abel
theorem pathJ_cont : Continuous (pathJ w) := continuous_iff_continuousAt.2 fun u => (pathJ_deriv hw u).continuousAt

end

@[simp] theorem pathI1_zero {E : Type} [NormedAddCommGroup E] [NormedSpace ℝ E] (w : ℝ → E) : pathI1 w 0 = 0 := by
  simp [pathI1]
@[simp] theorem pathI2_zero {E : Type} [NormedAddCommGroup E] [NormedSpace ℝ E] (w : ℝ → E) : pathI2 w 0 = 0 := by
  simp [pathI2]
@[simp] theorem pathI3_zero {E : Type} [NormedAddCommGroup E] [NormedSpace ℝ E] (w : ℝ → E) : pathI3 w 0 = 0 := by
  simp [pathI3]
@[simp] theorem pathJ_zero {E : Type} [NormedAddCommGroup E] [NormedSpace ℝ E] (w : ℝ → E) : pathJ w 0 = 0 := by
  simp [pathJ]

/-! ### The coefficients of the expansion -/

section
variable {d : ℕ} (T : LangevinTerms d) (x0 v0 : RVec d) (L : RVec d →L[ℝ] RVec d)
  (Q : RVec d →L[ℝ] RVec d →L[ℝ] RVec d) (w : ℝ → RVec d)

noncomputable def cA : RVec d := -mulC T.gamma v0 - mulC T.u (T.gradF x0)
noncomputable def cB : RVec d := -mulC T.gamma (cA T x0 v0) - mulC T.u (L v0)
noncomputable def cE : RVec d := -mulC T.gamma (cB T x0 v0 L) - mulC T.u (L (cA T x0 v0) + (2 : ℝ) • Q v0 v0)
noncomputable def m5 : RVec d →L[ℝ] RVec d :=
  (mulC T.gamma).comp ((mulC T.gamma).comp (mulC T.rho)) - (mulC T.u).comp (L.comp (mulC T.rho))
noncomputable def m7 : RVec d →L[ℝ] RVec d :=
  -(mulC T.gamma).comp (m5 T L) + (mulC T.u).comp (L.comp ((mulC T.gamma).comp (mulC T.rho)))
noncomputable def mS : RVec d →L[ℝ] RVec d := (mulC T.u).comp ((Q v0).comp (mulC T.rho) + (Q.flip v0).comp (mulC T.rho))

/-- The velocity. -/
noncomputable def vCoef : ℕ → ℝ → RVec d
  | 0, _ => v0
  | 1, u => mulC T.rho (w u)
  | 2, u => u • cA T x0 v0
  | 3, u => -mulC T.gamma (mulC T.rho (pathI1 w u))
  | 4, u => (u ^ 2 / 2) • cB T x0 v0 L
  | 5, u => m5 T L (pathI2 w u)
  | 6, u => (u ^ 3 / 6) • cE T x0 v0 L Q
  | 7, u => m7 T L (pathI3 w u) - mS T v0 Q (pathJ w u)
  | _, _ => 0

/-- The displacement. -/
noncomputable def xCoef : ℕ → ℝ → RVec d
  | 0, _ => 0
  | 1, _ => 0
  | 2, u => u • v0
  | 3, u => mulC T.rho (pathI1 w u)
  | 4, u => (u ^ 2 / 2) • cA T x0 v0
  | 5, u => -mulC T.gamma (mulC T.rho (pathI2 w u))
  | 6, u => (u ^ 3 / 6) • cB T x0 v0 L
  | 7, u => m5 T L (pathI3 w u)
  | _, _ => 0

end

section
variable {d : ℕ} {T : LangevinTerms d} {x0 v0 : RVec d} {L : RVec d →L[ℝ] RVec d}
  {Q : RVec d →L[ℝ] RVec d →L[ℝ] RVec d} {w : ℝ → RVec d}

theorem hasDerivAt_clm {E X : Type} [NormedAddCommGroup E] [NormedSpace ℝ E] [NormedAddCommGroup X] [NormedSpace ℝ X]
    (A : X →L[ℝ] E) {f : ℝ → X} {f' : X} {s : ℝ} (h : HasDerivAt f f' s) : HasDerivAt (fun s => A (f s)) (A f') s :=
  A.hasFDerivAt.comp_hasDerivAt s h

theorem hasDerivAt_pow_smul {E : Type} [NormedAddCommGroup E] [NormedSpace ℝ E] (e : E) (s : ℝ) :
    HasDerivAt (fun s : ℝ => s • e) e s ∧ HasDerivAt (fun s : ℝ => (s ^ 2 / 2) • e) (s • e) s ∧
    HasDerivAt (fun s : ℝ => (s ^ 3 / 6) • e) ((s ^ 2 / 2) • e) s := by
  refine ⟨?_, ?_, ?_⟩
  · exact ((hasDerivAt_id s).smul_const e).congr_deriv (one_smul _ _)
  · exact (((hasDerivAt_pow 2 s).div_const 2).smul_const e).congr_deriv (by norm_num)
  · exact (((hasDerivAt_pow 3 s).div_const 6).smul_const e).congr_deriv (by congr 1; norm_num; ring)

theorem vCoef_cont (hw : Continuous w) (k : ℕ) : Continuous (vCoef T x0 v0 L Q w k) := by
  have h1 := pathI1_cont hw
  have h2 := pathI2_cont hw
  have h3 := pathI3_cont hw
  have hJ := pathJ_cont hw
  rcases k with _ | _ | _ | _ | _ | _ | _ | _ | k
  · exact continuous_const
  · exact (mulC T.rho).continuous.comp hw
  · show Continuous fun u : ℝ => u • cA T x0 v0
    fun_prop
  · exact ((mulC T.gamma).continuous.comp ((mulC T.rho).continuous.comp h1)).neg
  · show Continuous fun u : ℝ => (u ^ 2 / 2) • cB T x0 v0 L
    fun_prop
  · exact (m5 T L).continuous.comp h2
  · show Continuous fun u : ℝ => (u ^ 3 / 6) • cE T x0 v0 L Q
    fun_prop
  · exact ((m7 T L).continuous.comp h3).sub ((mS T v0 Q).continuous.comp hJ)
  · exact continuous_const

theorem xCoef_deriv (hw : Continuous w) (k : ℕ) (hk : k < 6) (s : ℝ) :
    HasDerivAt (xCoef T x0 v0 L w (k + 2)) (vCoef T x0 v0 L Q w k s) s := by
  interval_cases k
  · exact (hasDerivAt_pow_smul v0 s).1
  · exact hasDerivAt_clm (mulC T.rho) (pathI1_deriv hw s)
  · exact (hasDerivAt_pow_smul _ s).2.1
  · exact (hasDerivAt_clm (mulC T.gamma) (hasDerivAt_clm (mulC T.rho) (pathI2_deriv hw s))).neg
  · exact (hasDerivAt_pow_smul _ s).2.2
  · exact hasDerivAt_clm (m5 T L) (pathI3_deriv hw s)

theorem vCoef_deriv (hw : Continuous w) (k : ℕ) (hk : k < 6) (s : ℝ) :
    HasDerivAt (vCoef T x0 v0 L Q w (k + 2)) (-mulC T.gamma (vCoef T x0 v0 L Q w k s)
      - mulC T.u (forceCoef (T.gradF x0) L Q (xCoef T x0 v0 L w) k s)) s := by
  interval_cases k
  · exact (hasDerivAt_pow_smul _ s).1
  · refine (hasDerivAt_clm (mulC T.gamma) (hasDerivAt_clm (mulC T.rho) (pathI1_deriv hw s))).neg.congr_deriv ?_
    simp [vCoef, forceCoef]
  · refine (hasDerivAt_pow_smul _ s).2.1.congr_deriv ?_
    simp [vCoef, forceCoef, xCoef, cB, smul_sub]
  · refine (hasDerivAt_clm (m5 T L) (pathI2_deriv hw s)).congr_deriv ?_
    simp [vCoef, forceCoef, xCoef, m5]
  · refine (hasDerivAt_pow_smul _ s).2.2.congr_deriv ?_
    simp only [vCoef, forceCoef, xCoef, cE, map_smul, map_add, smul_apply]
    module
  · refine ((hasDerivAt_clm (m7 T L) (pathI3_deriv hw s)).sub
      (hasDerivAt_clm (mS T v0 Q) (pathJ_deriv hw s))).congr_deriv ?_
    simp only [vCoef, forceCoef, xCoef, m7, mS, map_smul, map_add, map_neg, smul_apply, add_apply, neg_apply,
      ContinuousLinearMap.comp_apply, ContinuousLinearMap.flip_apply]
    module

theorem xCoef_eq (hw : Continuous w) (k : ℕ) (hk : k < 6) (u : ℝ) :
    ∫ s in (0 : ℝ)..u, vCoef T x0 v0 L Q w k s = xCoef T x0 v0 L w (k + 2) u := by
  rw [intervalIntegral.integral_eq_sub_of_hasDerivAt (fun s _ => xCoef_deriv hw k hk s)
    ((vCoef_cont hw k).intervalIntegrable _ _)]
  have : xCoef T x0 v0 L w (k + 2) 0 = 0 := by interval_cases k <;> simp [xCoef]
  rw [this, sub_zero]

theorem xCoef_cont (hw : Continuous w) (k : ℕ) : Continuous (xCoef T x0 v0 L w k) := by
  have h1 := pathI1_cont hw
  have h2 := pathI2_cont hw
  have h3 := pathI3_cont hw
  rcases k with _ | _ | _ | _ | _ | _ | _ | _ | k
  · exact continuous_const
  · exact continuous_const
  · show Continuous fun u : ℝ => u • v0
    fun_prop
  · exact (mulC T.rho).continuous.comp h1
  · show Continuous fun u : ℝ => (u ^ 2 / 2) • cA T x0 v0
    fun_prop
  · exact ((mulC T.gamma).continuous.comp ((mulC T.rho).continuous.comp h2)).neg
  · show Continuous fun u : ℝ => (u ^ 3 / 6) • cB T x0 v0 L
    fun_prop
  · exact (m5 T L).continuous.comp h3
  · exact continuous_const

theorem forceCoef_cont (hw : Continuous w) (k : ℕ) :
    Continuous (forceCoef (T.gradF x0) L Q (xCoef T x0 v0 L w) k) := by
  have h := fun k => xCoef_cont (T := T) (x0 := x0) (v0 := v0) (L := L) hw k
  have hq : ∀ i j, Continuous fun u => Q (xCoef T x0 v0 L w i u) (xCoef T x0 v0 L w j u) := fun i j =>
    (Q.continuous.comp (h i)).clm_apply (h j)
  rcases k with _ | _ | _ | _ | _ | _ | k
  · exact continuous_const
  · exact continuous_const
  · exact L.continuous.comp (h 2)
  · exact L.continuous.comp (h 3)
  · exact (L.continuous.comp (h 4)).add (hq 2 2)
  · exact ((L.continuous.comp (h 5)).add (hq 2 3)).add (hq 3 2)
  · exact continuous_const

theorem vCoef_eq (hw : Continuous w) (k : ℕ) (hk : k < 6) (u : ℝ) :
    ∫ s in (0 : ℝ)..u, (-mulC T.gamma (vCoef T x0 v0 L Q w k s)
      - mulC T.u (forceCoef (T.gradF x0) L Q (xCoef T x0 v0 L w) k s)) = vCoef T x0 v0 L Q w (k + 2) u := by
  have hc : Continuous fun s => -mulC T.gamma (vCoef T x0 v0 L Q w k s)
      - mulC T.u (forceCoef (T.gradF x0) L Q (xCoef T x0 v0 L w) k s) :=
    (((mulC T.gamma).continuous.comp (vCoef_cont hw k)).neg).sub ((mulC T.u).continuous.comp (forceCoef_cont hw k))
  rw [intervalIntegral.integral_eq_sub_of_hasDerivAt (fun s _ => vCoef_deriv hw k hk s) (hc.intervalIntegrable _ _)]
  have : vCoef T x0 v0 L Q w (k + 2) 0 = 0 := by interval_cases k <;> simp [vCoef]
  rw [this, sub_zero]

/-! ### The expansion -/

theorem langevin_expand (hF : HasJet2 T.gradF x0 L Q) (hw : Continuous w) (hw0 : w 0 = 0) {t0 : ℝ}
    {y : ℝ → ℝ → RVec d × RVec d}
    (hy : ∀ᶠ ε in 𝓝[>] (0 : ℝ), SolvesLangevinSDE T (scaledPath w t0 ε) t0 (t0 + ε ^ 2) (x0, v0) (y ε)) :
    Jet 8 (fun ε u => (y ε (t0 + ε ^ 2 * u)).1 - x0) (xCoef T x0 v0 L w) ∧
    Jet 8 (fun ε u => (y ε (t0 + ε ^ 2 * u)).2) (vCoef T x0 v0 L Q w) := by
  have hdrift : ∀ y : RVec d × RVec d, langevinDrift T t0 y = (y.2, -mulC T.gamma y.2 - mulC T.u (T.gradF y.1)) := by
    intro y
    refine Prod.ext rfl ?_
    funext i
    simp [langevinDrift]
  have hg : SmoothDiffusion (langevinDiffusion T) (fun _ => 0) t0 :=
    ⟨Eventually.of_forall fun t => hasDerivAt_const _ _, by simpa using Asymptotics.isBigO_zero _ _,
      Eventually.of_forall fun t => continuousAt_const⟩
  -- the drift is bounded near the starting point
  have hbd : ∃ δ > 0, ∃ M ≥ 0, ∀ x, ‖x - (t0, (x0, v0))‖ < δ →
      ‖(fun x : ℝ × (RVec d × RVec d) => langevinDrift T x.1 x.2) x‖ ≤ M ∧
      ContinuousAt (fun x : ℝ × (RVec d × RVec d) => langevinDrift T x.1 x.2) x := by
    have hcont : ∀ᶠ x in 𝓝 (t0, (x0, v0)),
        ContinuousAt (fun x : ℝ × (RVec d × RVec d) => langevinDrift T x.1 x.2) x := by
      have hp : Tendsto (fun x : ℝ × (RVec d × RVec d) => x.2.1) (𝓝 (t0, (x0, v0))) (𝓝 x0) :=
        Continuous.tendsto (f := fun x : ℝ × (RVec d × RVec d) => x.2.1) (by fun_prop) (t0, (x0, v0))
      filter_upwards [hp.eventually hF.continuous] with x hx
      have e : (fun x : ℝ × (RVec d × RVec d) => langevinDrift T x.1 x.2)
          = fun x => (x.2.2, -mulC T.gamma x.2.2 - mulC T.u (T.gradF x.2.1)) := funext fun x => hdrift x.2
      rw [e]
      have hc1 : ContinuousAt (fun x : ℝ × (RVec d × RVec d) => T.gradF x.2.1) x :=
        ContinuousAt.comp (g := T.gradF) (f := fun x : ℝ × (RVec d × RVec d) => x.2.1) hx (by fun_prop)
      have hc2 : ContinuousAt (fun x : ℝ × (RVec d × RVec d) => mulC T.u (T.gradF x.2.1)) x :=
        (mulC T.u).continuous.continuousAt.comp hc1
      exact ContinuousAt.prodMk (by fun_prop) (ContinuousAt.sub (by fun_prop) hc2)
    have hb : ∀ᶠ x in 𝓝 (t0, (x0, v0)), ‖(fun x : ℝ × (RVec d × RVec d) => langevinDrift T x.1 x.2) x‖
        < ‖langevinDrift T t0 (x0, v0)‖ + 1 :=
      hcont.self_of_nhds.norm.eventually (gt_mem_nhds (lt_add_one _))
    obtain ⟨δ, hδ, h⟩ := Metric.eventually_nhds_iff.1 (hb.and hcont)
    exact ⟨δ, hδ, _, by positivity, fun x hx =>
      ⟨(h (by rw [dist_eq_norm]; exact hx)).1.le, (h (by rw [dist_eq_norm]; exact hx)).2⟩⟩
  obtain ⟨hs, hcont⟩ := exact_small_of_bounded hbd hg hw hw0 hy
  set X : ℝ → ℝ → RVec d := fun ε u => (y ε (t0 + ε ^ 2 * u)).1 with hX
  set V : ℝ → ℝ → RVec d := fun ε u => (y ε (t0 + ε ^ 2 * u)).2 with hV
  -- continuity
  have hVc : ∀ᶠ ε in 𝓝[>] (0 : ℝ), ContinuousOn (V ε) (Icc 0 1) := by
    filter_upwards [hcont] with ε hc
    exact continuous_fst.comp_continuousOn hc
  have hAc : ∀ᶠ ε in 𝓝[>] (0 : ℝ),
      ContinuousOn (fun u => -mulC T.gamma (V ε u) - mulC T.u (T.gradF (X ε u))) (Icc 0 1) := by
    filter_upwards [hcont] with ε hc
    refine (continuous_snd.comp_continuousOn hc).congr fun u _ => ?_
    have := hdrift (y ε (t0 + ε ^ 2 * u))
    exact (congrArg Prod.snd this).symm
  -- the two equations
  have heq : ∀ᶠ ε in 𝓝[>] (0 : ℝ), ∀ u ∈ Icc (0 : ℝ) 1,
      X ε u - x0 = ε ^ 2 • (∫ v in (0 : ℝ)..u, V ε v) ∧
      V ε u = v0 + ε • mulC T.rho (w u)
        + ε ^ 2 • ∫ v in (0 : ℝ)..u, (-mulC T.gamma (V ε v) - mulC T.u (T.gradF (X ε v))) := by
    filter_upwards [hy, ev_pos, hcont] with ε hy hpos hc u hu
    have h := hy.scaled hpos.1 hw0 u hu
    have hi : IntervalIntegrable (fun v => langevinDrift T (t0 + ε ^ 2 * v) (y ε (t0 + ε ^ 2 * v)))
        MeasureTheory.volume 0 u := by
      apply ContinuousOn.intervalIntegrable
      rw [uIcc_of_le hu.1]
      exact hc.mono (Icc_subset_Icc_right hu.2)
    have e1 := (ContinuousLinearMap.fst ℝ (RVec d) (RVec d)).intervalIntegral_comp_comm hi
    have e2 := (ContinuousLinearMap.snd ℝ (RVec d) (RVec d)).intervalIntegral_comp_comm hi
    have hn : scaledNoise (langevinDiffusion T) (fun _ => 0) w t0 ε u = (0, ε • mulC T.rho (w u)) := by
      have : langevinDiffusion T (t0 + ε ^ 2 * u) (w u) = (0, mulC T.rho (w u)) := rfl
      simp [scaledNoise, this]
    rw [hn] at h
    constructor
    · have h1 := congrArg Prod.fst h
      simp only [Prod.fst_add, Prod.smul_fst, add_zero] at h1
      show (y ε (t0 + ε ^ 2 * u)).1 - x0 = _
      rw [h1, add_sub_cancel_left]
      congr 1
      exact e1.symm
    · have h2 := congrArg Prod.snd h
      simp only [Prod.snd_add, Prod.smul_snd] at h2
      show (y ε (t0 + ε ^ 2 * u)).2 = _
      rw [h2]
      have e3 : (∫ v in (0 : ℝ)..u, langevinDrift T (t0 + ε ^ 2 * v) (y ε (t0 + ε ^ 2 * v))).2
          = ∫ v in (0 : ℝ)..u, (-mulC T.gamma (V ε v) - mulC T.u (T.gradF (X ε v))) := by
        refine e2.symm.trans ?_
        congr 1
        funext v
        exact congrArg Prod.snd (hdrift (y ε (t0 + ε ^ 2 * v)))
      rw [e3]
      abel
  have hwb : UO 0 (fun _ u => mulC T.rho (w u)) := (UO.of_continuous hw.continuousOn).clm _
  -- the displacement is small
  have hV1 : UO 1 (fun ε u => V ε u - v0) := hs.clm (ContinuousLinearMap.snd ℝ (RVec d) (RVec d))
  have hV0 : UO 0 V := ((hV1.mono (m := 0) (by norm_num)).add (UO.const v0)).congr' fun ε u => by abel
  have hX2 : UO 2 (fun ε u => X ε u - x0) := by
    refine (hV0.integral.smul_pow 2).congr ?_
    filter_upwards [heq] with ε h u hu
    exact (h u hu).1.symm
  -- one round of iteration
  have hround : ∀ n ≤ 6, Jet n V (vCoef T x0 v0 L Q w) →
      Jet (n + 2) (fun ε u => X ε u - x0) (xCoef T x0 v0 L w) ∧ Jet (n + 2) V (vCoef T x0 v0 L Q w) := by
    intro n hn h
    have hXj : Jet (n + 2) (fun ε u => X ε u - x0) (xCoef T x0 v0 L w) := by
      refine ((h.integral hVc fun k _ => vCoef_cont hw k).shift 2).congr ?_ ?_
      · filter_upwards [heq] with ε he u hu
        exact (he u hu).1.symm
      · intro k hk u _
        split_ifs with h2
        · interval_cases k <;> rfl
        · rw [xCoef_eq hw (k - 2) (by omega), Nat.sub_add_cancel (by omega)]
    refine ⟨hXj, ?_⟩
    have hf := hF.jet hn hX2 (hXj.mono (Nat.le_add_right n 2)) (fun _ => rfl) (fun _ => rfl)
    have hA := (((h.clm (mulC T.gamma)).const_smul' (-1)).sub (hf.clm (mulC T.u)))
    have hA2 : Jet n (fun ε u => -mulC T.gamma (V ε u) - mulC T.u (T.gradF (X ε u)))
        (fun k u => -mulC T.gamma (vCoef T x0 v0 L Q w k u)
          - mulC T.u (forceCoef (T.gradF x0) L Q (xCoef T x0 v0 L w) k u)) :=
      hA.congr' (fun ε u => by rw [neg_one_smul, add_sub_cancel]) fun k _ u => by rw [neg_one_smul]
    have hI := (hA2.integral hAc fun k _ => (((mulC T.gamma).continuous.comp (vCoef_cont hw k)).neg).sub
      ((mulC T.u).continuous.comp (forceCoef_cont hw k))).shift 2
    refine (((Jet.const (n + 2) v0).add (Jet.monomial (n + 2) 1 hwb)).add hI).congr ?_ ?_
    · filter_upwards [heq] with ε he u hu
      rw [(he u hu).2, pow_one]
    · intro k hk u _
      rcases k with _ | _ | k
      · simp [vCoef]
      · simp [vCoef]
      · rw [if_neg (by omega), if_neg (by omega), if_neg (by omega), zero_add, zero_add]
        exact vCoef_eq hw k (by omega) u
  have h1 : Jet 1 V (vCoef T x0 v0 L Q w) :=
    ⟨fun k hk => by interval_cases k; exact UO.const v0, hV1.congr' fun ε u => by simp [vCoef]⟩
  have h3 := (hround 1 (by norm_num) h1).2
  have h5 := (hround 3 (by norm_num) h3).2
  have h7 := (hround 5 (by norm_num) h5).2
  exact hround 6 le_rfl (h7.mono (by norm_num))

end
end Verif
