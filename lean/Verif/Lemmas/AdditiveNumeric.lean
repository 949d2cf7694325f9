import Verif.Lemmas.AdditiveExact

/-!
# A step of `AbstractSRK` for additive noise, uniformly over paths
-/

set_option linter.unusedSectionVars false

namespace Verif
open Set MeasureTheory

namespace PathIx
variable {E B : Type} [NormedAddCommGroup E] [NormedSpace ℝ E] [NormedAddCommGroup B] [NormedSpace ℝ B]
  [CompleteSpace E] [CompleteSpace B]
  {f ft : ℝ → E → E} {fy : ℝ → E → E →L[ℝ] E} {fyy : ℝ → E → E →L[ℝ] E →L[ℝ] E} {g g' : ℝ → B →L[ℝ] E}
  {a b L : ℝ} (i : PathIx f g g' a b) {tab : STableau ℝ}

/-- The increment of the path. -/
def dW : B := i.w i.t - i.w i.s

/-- The space-time Lévy area. -/
noncomputable def H : B := areaH i.w i.s i.t

theorem inc_cont : Continuous fun r => i.w r - i.w i.s := i.hw.sub continuous_const

theorem int_w : ∫ r in i.s..i.t, (i.w r - i.w i.s) = i.ε ^ 2 • ((1 / 2 : ℝ) • i.dW + i.H) := by
  have hε := i.hε
  have hb : ∫ r in i.s..i.t, bridgeOf i.w i.s i.t r = (∫ r in i.s..i.t, (i.w r - i.w i.s)) - (i.ε ^ 2 / 2) • i.dW := by
    unfold bridgeOf
    have c2 : Continuous fun r => ((r - i.s) / (i.t - i.s)) • (i.w i.t - i.w i.s) :=
      ((continuous_id.sub continuous_const).div_const _).smul continuous_const
    have hq : ∫ r in i.s..i.t, (r - i.s) = i.ε ^ 4 / 2 := by
      rw [intervalIntegral.integral_sub intervalIntegral.intervalIntegrable_id intervalIntegrable_const, integral_id,
        intervalIntegral.integral_const, smul_eq_mul]
      unfold t
      ring
    rw [intervalIntegral.integral_sub (i.inc_cont.intervalIntegrable _ _) (c2.intervalIntegrable _ _),
      intervalIntegral.integral_smul_const, intervalIntegral.integral_div, hq, i.t_sub]
    congr 2
    field_simp
  have hH : i.H = (1 / i.ε ^ 2) • ((∫ r in i.s..i.t, (i.w r - i.w i.s)) - (i.ε ^ 2 / 2) • i.dW) := by
    unfold H areaH
    rw [hb, i.t_sub]
  rw [hH, smul_add, smul_smul, smul_smul, mul_one_div_cancel (pow_ne_zero 2 hε.ne'), one_smul]
  module

theorem dWo : Ord (fun i : PathIx f g g' a b => i.ε) (fun i => i.θ) 1 1 (fun i => i.dW) :=
  ⟨1, zero_le_one, fun i => by
    rw [pow_one, pow_one, one_mul]
    have h1 : ‖i.dW‖ = i.ε * i.η := i.β_t
    rw [h1]
    exact mul_le_mul_of_nonneg_left i.η_le i.hε.le⟩

theorem int_wo : Ord (fun i : PathIx f g g' a b => i.ε) (fun i => i.θ) 3 1 (fun i => ∫ r in i.s..i.t, (i.w r - i.w i.s)) :=
  J1o.of_le zero_le_one fun i => by
    rw [one_mul, ← i.J1, Real.norm_of_nonneg (intervalIntegral.integral_nonneg i.s_le_t fun r _ => i.β_nonneg r)]
    exact intervalIntegral.norm_integral_le_integral_norm i.s_le_t

theorem Ho : Ord (fun i : PathIx f g g' a b => i.ε) (fun i => i.θ) 1 1 (fun i => i.H) := by
  obtain ⟨C, hC, h⟩ := int_wo (f := f) (g := g) (g' := g') (a := a) (b := b)
  obtain ⟨C', hC', h'⟩ := dWo (f := f) (g := g) (g' := g') (a := a) (b := b)
  refine ⟨C + C', by positivity, fun i => ?_⟩
  have hε := i.hε
  have e : i.H = (1 / i.ε ^ 2) • (∫ r in i.s..i.t, (i.w r - i.w i.s)) - (1 / 2 : ℝ) • i.dW := by
    rw [i.int_w, smul_smul, one_div_mul_cancel (pow_ne_zero 2 hε.ne'), one_smul]
    abel
  have h1 := h i
  have h2 := h' i
  rw [pow_one] at h1 h2 ⊢
  rw [pow_one] at h2 ⊢
  have h3 : ‖i.H‖ ≤ (1 / i.ε ^ 2) * ‖∫ r in i.s..i.t, (i.w r - i.w i.s)‖ + 1 / 2 * ‖i.dW‖ := by
    rw [e]
    refine (norm_sub_le _ _).trans (le_of_eq ?_)
    rw [norm_smul, norm_smul, Real.norm_of_nonneg (by positivity), Real.norm_of_nonneg (by norm_num)]
  have h4 : (1 / i.ε ^ 2) * ‖∫ r in i.s..i.t, (i.w r - i.w i.s)‖ ≤ (1 / i.ε ^ 2) * (C * (i.ε ^ 3 * i.θ)) :=
    mul_le_mul_of_nonneg_left h1 (by positivity)
  have h5 : (1 / i.ε ^ 2) * (C * (i.ε ^ 3 * i.θ)) = C * (i.ε * i.θ) := by field_simp
  have h6 := norm_nonneg i.dW
  linarith

/-! ### Evaluating the diffusion at other times -/

theorem time_mem {c : ℝ} (hc : c ∈ Icc (0 : ℝ) 1) : i.s + c * (i.t - i.s) ∈ Icc a b := by
  refine i.mem ⟨?_, ?_⟩
  · have := i.s_le_t; nlinarith [hc.1]
  · have := i.s_le_t; nlinarith [hc.2]

theorem gvar (hg : SmoothNoise g g' a b L) (hab : a ≤ b) {c : ℝ} (hc : c ∈ Icc (0 : ℝ) 1) {k j : ℕ}
    {p : PathIx f g g' a b → B} (hp : Ord (fun i : PathIx f g g' a b => i.ε) (fun i => i.θ) k j p) :
    Ord (fun i : PathIx f g g' a b => i.ε) (fun i => i.θ) (2 + k) (0 + j)
      (fun i => g (i.s + c * (i.t - i.s)) (p i) - g i.s (p i)) := by
  have hL := hg.L_nonneg hab
  refine (Ord.pow_scale scales 2).bound hL hp fun i => ?_
  rw [← sub_apply, ← mul_assoc]
  refine (ContinuousLinearMap.le_opNorm _ _).trans (mul_le_mul_of_nonneg_right ?_ (norm_nonneg _))
  refine (hg.var i.sI (i.time_mem hc)).trans (mul_le_mul_of_nonneg_left ?_ hL)
  rw [add_sub_cancel_left, i.t_sub, abs_mul, norm_pow, Real.norm_eq_abs, abs_pow, abs_of_nonneg hc.1]
  exact mul_le_of_le_one_left (by positivity) hc.2

theorem gtay (hg : SmoothNoise g g' a b L) (hab : a ≤ b) {c : ℝ} (hc : c ∈ Icc (0 : ℝ) 1) {k j : ℕ}
    {p : PathIx f g g' a b → B} (hp : Ord (fun i : PathIx f g g' a b => i.ε) (fun i => i.θ) k j p) :
    Ord (fun i : PathIx f g g' a b => i.ε) (fun i => i.θ) (4 + k) (0 + j)
      (fun i => g (i.s + c * (i.t - i.s)) (p i) - g i.s (p i) - (c * i.ε ^ 2) • g' i.s (p i)) := by
  have hL := hg.L_nonneg hab
  refine (Ord.pow_scale scales 4).bound hL hp fun i => ?_
  have h0 : 0 ≤ c * (i.t - i.s) := mul_nonneg hc.1 (sub_nonneg.2 i.s_le_t)
  have h1 := hg.taylor i.sI (by linarith) (i.time_mem hc)
  rw [add_sub_cancel_left, i.t_sub] at h1
  have e : g (i.s + c * (i.t - i.s)) (p i) - g i.s (p i) - (c * i.ε ^ 2) • g' i.s (p i)
      = (g (i.s + c * i.ε ^ 2) - g i.s - (c * i.ε ^ 2) • g' i.s) (p i) := by
    rw [i.t_sub]; rfl
  rw [e, ← mul_assoc]
  refine (ContinuousLinearMap.le_opNorm _ _).trans (mul_le_mul_of_nonneg_right (h1.trans ?_) (norm_nonneg _))
  refine mul_le_mul_of_nonneg_left ?_ hL
  rw [norm_pow, Real.norm_eq_abs, abs_of_pos i.hε, mul_pow, ← pow_mul]
  exact mul_le_of_le_one_left (pow_nonneg i.hε.le _) (pow_le_one₀ hc.1 hc.2)

/-! ### The noise in the stages and in the new value -/

/-- The method. -/
noncomputable def srk (tab : STableau ℝ) : SRK ℝ E E (B →L[ℝ] E) ℝ (ℝ × B × B × B) := addSrk tab f g i.w

/-- The noise in stage `j`, to first order. -/
noncomputable def ξB (tab : STableau ℝ) (j : ℕ) : B := tab.noiseW j • i.dW + tab.noiseL 0 j • i.H

/-- The noise in stage `j`, to first order. -/
noncomputable def ξ (tab : STableau ℝ) (j : ℕ) : E := g i.s (i.ξB tab j)

theorem ξBo (tab : STableau ℝ) (j : ℕ) : Ord (fun i : PathIx f g g' a b => i.ε) (fun i => i.θ) 1 1 (fun i => i.ξB tab j) :=
  (dWo.const_smul _).add (Ho.const_smul _)

theorem ξo (hg : SmoothNoise g g' a b L) (hab : a ≤ b) (tab : STableau ℝ) (j : ℕ) :
    Ord (fun i : PathIx f g g' a b => i.ε) (fun i => i.θ) 1 1 (fun i => i.ξ tab j) :=
  (ξBo tab j).of_le (hg.L_nonneg hab) fun i => (ContinuousLinearMap.le_opNorm _ _).trans
    (mul_le_mul_of_nonneg_right (hg.le _ i.sI) (norm_nonneg _))

theorem stageNoise_ord (hg : SmoothNoise g g' a b L) (hab : a ≤ b) (h1 : tab.numLevy = 1)
    (hc : ∀ j, tab.cs j ∈ Icc (0 : ℝ) 1) (z : PathIx f g g' a b → ℕ → E) (j : ℕ) :
    Ord (fun i : PathIx f g g' a b => i.ε) (fun i => i.θ) 3 1
      (fun i => (i.srk tab).docStageNoise i.s i.t i.X (z i) j - i.ξ tab j) := by
  unfold STableau.numLevy at h1
  unfold SRK.docStageNoise ξ ξB STableau.noiseW STableau.noiseL
  simp only [srk, addSrk]
  cases hn : tab.noise with
  | additive cw levy =>
    rw [hn] at h1
    simp only at h1
    refine Ord.zero.congr fun i => ?_
    simp only [SRK.g0Noise, h1, Finset.sum_range_one, levyOf, if_true, map_add, map_smul]
    exact (sub_self _).symm
  | general cw levy =>
    rw [hn] at h1
    simp only at h1
    have hs : Ord (fun i : PathIx f g g' a b => i.ε) (fun i => i.θ) 3 1 (fun i => ∑ l ∈ Finset.range j,
        (lowerAt cw.a j l • (g (i.s + tab.cs l * (i.t - i.s)) i.dW - g i.s i.dW)
          + lowerAt ((levy.map (·.a)).getD 0 []) j l • (g (i.s + tab.cs l * (i.t - i.s)) i.H - g i.s i.H))) :=
      Ord.sum _ fun l _ => ((gvar hg hab (hc l) dWo).const_smul _).add ((gvar hg hab (hc l) Ho).const_smul _)
    refine hs.congr fun i => ?_
    simp only [SRK.wg, SRK.lg, h1, Finset.sum_range_one, levyOf, if_true, map_add, smul_sub,
      Finset.sum_add_distrib, Finset.sum_sub_distrib, Finset.sum_smul, map_sum, map_smul]
    simp only [dW, H]
    abel

/-- The noise in the new value is that of the solution, up to the order 5/2. -/
theorem docNoise_ord (hg : SmoothNoise g g' a b L) (hab : a ≤ b) (h1 : tab.numLevy = 1) (hno : tab.NoiseOrder)
    (hc : ∀ j, tab.cs j ∈ Icc (0 : ℝ) 1) (z : PathIx f g g' a b → ℕ → E) :
    Ord (fun i : PathIx f g g' a b => i.ε) (fun i => i.θ) 5 1
      (fun i => (i.srk tab).docNoise i.s i.t i.X (z i)
        - (g i.s i.dW + i.ε ^ 2 • g' i.s ((1 / 2 : ℝ) • i.dW - i.H))) := by
  unfold STableau.numLevy at h1
  unfold STableau.NoiseOrder at hno
  unfold SRK.docNoise
  simp only [srk, addSrk]
  cases hn : tab.noise with
  | additive cw levy =>
    rw [hn] at h1 hno
    simp only at h1
    obtain ⟨q1, -, q3⟩ := hno
    have q3 := q3 0 (by omega)
    have hp : Ord (fun i : PathIx f g g' a b => i.ε) (fun i => i.θ) 1 1 (fun i => i.dW - (2 : ℝ) • i.H) :=
      dWo.sub (Ho.const_smul _)
    refine ((gtay hg hab (c := 1) ⟨zero_le_one, le_rfl⟩ hp).const_smul (1 / 2)).congr fun i => ?_
    have e : i.s + 1 * (i.t - i.s) = i.t := by ring
    rw [e]
    simp only [SRK.g0Noise, h1, Finset.sum_range_one, levyOf, if_true, q1, q3, one_smul, zero_smul, add_zero,
      if_neg one_ne_zero, smul_apply, sub_apply, map_smul, map_sub, Prod.snd_sub, Prod.fst_sub,
      Prod.smul_snd, Prod.smul_fst]
    simp only [dW, H, map_sub, smul_sub]
    module
  | general cw levy =>
    rw [hn] at h1 hno
    simp only at h1
    obtain ⟨q1, q2, -, q4⟩ := hno
    have q4 := q4 0 (by omega)
    rw [if_pos rfl] at q4
    obtain ⟨q4, q5⟩ := q4
    set bL := (levy.map (·.bSol)).getD 0 [] with hbL
    have hs : Ord (fun i : PathIx f g g' a b => i.ε) (fun i => i.θ) 5 1 (fun i => ∑ l ∈ Finset.range tab.bSol.length,
        (cw.bSol.getD l 0 • (g (i.s + tab.cs l * (i.t - i.s)) i.dW - g i.s i.dW - (tab.cs l * i.ε ^ 2) • g' i.s i.dW)
          + bL.getD l 0
            • (g (i.s + tab.cs l * (i.t - i.s)) i.H - g i.s i.H - (tab.cs l * i.ε ^ 2) • g' i.s i.H))) :=
      Ord.sum _ fun l _ => ((gtay hg hab (hc l) dWo).const_smul _).add ((gtay hg hab (hc l) Ho).const_smul _)
    refine hs.congr fun i => ?_
    have s1 : ∑ l ∈ Finset.range tab.bSol.length, cw.bSol.getD l 0 • g i.s i.dW = g i.s i.dW := by
      rw [← Finset.sum_smul, q1, one_smul]
    have s2 : ∑ l ∈ Finset.range tab.bSol.length, cw.bSol.getD l 0 • (tab.cs l * i.ε ^ 2) • g' i.s i.dW
        = i.ε ^ 2 • (1 / 2 : ℝ) • g' i.s i.dW := by
      rw [← q2, Finset.sum_smul, Finset.smul_sum]
      exact Finset.sum_congr rfl fun l _ => by module
    have s3 : ∑ l ∈ Finset.range tab.bSol.length, bL.getD l 0 • g i.s i.H = 0 := by
      rw [← Finset.sum_smul, q4, zero_smul]
    have s4 : ∑ l ∈ Finset.range tab.bSol.length, bL.getD l 0 • (tab.cs l * i.ε ^ 2) • g' i.s i.H
        = -(i.ε ^ 2 • g' i.s i.H) := by
      have : -(i.ε ^ 2 • g' i.s i.H) = i.ε ^ 2 • (-1 : ℝ) • g' i.s i.H := by module
      rw [this, ← q5, Finset.sum_smul, Finset.smul_sum]
      exact Finset.sum_congr rfl fun l _ => by module
    simp only [smul_sub, Finset.sum_add_distrib, Finset.sum_sub_distrib, s1, s2, s3, s4]
    simp only [SRK.wg, SRK.lg, h1, Finset.sum_range_one, levyOf, if_true, ← hbL, map_sub, map_smul, smul_sub]
    simp only [dW, H, map_sub, smul_sub]
    abel

theorem wiener_ord (hg : SmoothNoise g g' a b L) (hab : a ≤ b) :
    Ord (fun i : PathIx f g g' a b => i.ε) (fun i => i.θ) 5 1
      (fun i => wienerIntegral g g' i.w i.s i.t - (g i.s i.dW + i.ε ^ 2 • g' i.s ((1 / 2 : ℝ) • i.dW - i.H))) := by
  have hL := hg.L_nonneg hab
  have h1 := gtay (f := f) hg hab (c := 1) ⟨zero_le_one, le_rfl⟩ dWo
  have h2 : Ord (fun i : PathIx f g g' a b => i.ε) (fun i => i.θ) 5 1
      (fun i => ∫ r in i.s..i.t, (g' r - g' i.s) (i.w r - i.w i.s)) := by
    refine (Ord.pow_scale scales 2).bound hL J1o fun i => ?_
    rw [← i.J1, Real.norm_of_nonneg (intervalIntegral.integral_nonneg i.s_le_t fun r _ => i.β_nonneg r),
      Real.norm_of_nonneg (pow_nonneg i.hε.le 2), ← mul_assoc, ← intervalIntegral.integral_const_mul]
    refine intervalIntegral.norm_integral_le_of_norm_le i.s_le_t (Filter.Eventually.of_forall fun r hr => ?_)
      ((i.β_cont.intervalIntegrable _ _).const_mul _)
    refine (ContinuousLinearMap.le_opNorm _ _).trans (mul_le_mul_of_nonneg_right ?_ (norm_nonneg _))
    refine (hg.lip' i.s i.sI r (i.mem ⟨hr.1.le, hr.2⟩)).trans (mul_le_mul_of_nonneg_left ?_ hL)
    rw [abs_of_nonneg (by linarith [hr.1]), ← i.t_sub]
    linarith [hr.2]
  refine (h1.sub h2).congr fun i => ?_
  have e : i.s + 1 * (i.t - i.s) = i.t := by ring
  have ci : ContinuousOn (fun r => g' r (i.w r - i.w i.s)) (uIcc i.s i.t) := by
    rw [uIcc_of_le i.s_le_t]
    exact (hg.cont'.mono fun r hr => i.mem hr).clm_apply i.inc_cont.continuousOn
  have ci2 : Continuous fun r => g' i.s (i.w r - i.w i.s) := (g' i.s).continuous.comp i.inc_cont
  have e2 : ∫ r in i.s..i.t, (g' r - g' i.s) (i.w r - i.w i.s)
      = (∫ r in i.s..i.t, g' r (i.w r - i.w i.s)) - g' i.s (i.ε ^ 2 • ((1 / 2 : ℝ) • i.dW + i.H)) := by
    rw [← i.int_w, ← ContinuousLinearMap.intervalIntegral_comp_comm _ (i.inc_cont.intervalIntegrable _ _),
      ← intervalIntegral.integral_sub ci.intervalIntegrable
        (ci2.intervalIntegrable _ _)]
    rfl
  rw [e, e2]
  unfold wienerIntegral
  simp only [map_smul, map_add, map_sub, smul_add, smul_sub]
  simp only [dW, map_sub, smul_sub]
  module

/-! ### The stages -/

/-- The value at which stage `j` is evaluated. -/
noncomputable def z (tab : STableau ℝ) (j : ℕ) : E := (i.srk tab).zAt i.s i.t i.X j

/-- The noise in stage `j`. -/
noncomputable def n (tab : STableau ℝ) (j : ℕ) : E := (i.srk tab).docStageNoise i.s i.t i.X (i.z tab) j

theorem z_eq (hwf : tab.WF) {j : ℕ} (hj : j < tab.bSol.length) : i.z tab j - i.X
    = ∑ l ∈ Finset.range j, lowerAt tab.a j l • (i.ε ^ 2 • f (i.s + tab.cs l * (i.t - i.s)) (i.z tab l)) + i.n tab j := by
  have h := (i.srk tab).zAt_isStages (by exact hwf) i.s i.t i.X j (by exact hj)
  change i.z tab j = _ at h
  rw [h, add_assoc, add_sub_cancel_left]
  simp only [SRK.hf, srk, addSrk, i.t_sub]
  rfl

theorem f_ord (h : SmoothDrift f ft fy fyy a b L) (hab : a ≤ b) {c : ℝ} (hc : c ∈ Icc (0 : ℝ) 1)
    {d : PathIx f g g' a b → E} (hd : Ord (fun i : PathIx f g g' a b => i.ε) (fun i => i.θ) 1 1 d) :
    Ord (fun i : PathIx f g g' a b => i.ε) (fun i => i.θ) 1 1
      (fun i => f (i.s + c * (i.t - i.s)) (i.X + d i) - i.f0) := by
  have hL := h.L_nonneg hab
  have h1 : Ord (fun i : PathIx f g g' a b => i.ε) (fun i => i.θ) 1 1
      (fun i => f (i.s + c * (i.t - i.s)) (i.X + d i) - f (i.s + c * (i.t - i.s)) i.X) :=
    hd.of_le hL fun i => by
      have := h.lip (i.time_mem hc) (i.X + d i) i.X
      rwa [add_sub_cancel_left] at this
  have h2 : Ord (fun i : PathIx f g g' a b => i.ε) (fun i => i.θ) 2 1
      (fun i => f (i.s + c * (i.t - i.s)) i.X - f i.s i.X) := by
    refine (Ord.pow_scale scales 2).bound hL Xo fun i => ?_
    refine (h.time_var i.sI (i.time_mem hc) i.X).trans ?_
    rw [add_sub_cancel_left, i.t_sub, abs_mul, abs_of_nonneg hc.1, Real.norm_of_nonneg (pow_nonneg i.hε.le 2),
      Real.norm_of_nonneg (by positivity), abs_of_nonneg (pow_nonneg i.hε.le 2)]
    have : c * i.ε ^ 2 ≤ i.ε ^ 2 := mul_le_of_le_one_left (pow_nonneg i.hε.le 2) hc.2
    have h0 : 0 ≤ L * (1 + ‖i.X‖) := by positivity
    calc L * (1 + ‖i.X‖) * (c * i.ε ^ 2) ≤ L * (1 + ‖i.X‖) * i.ε ^ 2 := mul_le_mul_of_nonneg_left this h0
      _ = _ := by ring
  exact (h1.add (h2.mono scales (by omega) le_rfl)).congr fun i => by unfold f0; abel

theorem stage_ord (h : SmoothDrift f ft fy fyy a b L) (hg : SmoothNoise g g' a b L) (hab : a ≤ b) (hwf : tab.WF)
    (h1 : tab.numLevy = 1) (hc : ∀ j, tab.cs j ∈ Icc (0 : ℝ) 1) (j : ℕ) (hj : j < tab.bSol.length) :
    Ord (fun i : PathIx f g g' a b => i.ε) (fun i => i.θ) 3 1
      (fun i => (i.z tab j - i.X) - i.ξ tab j - (i.ε ^ 2 * ∑ l ∈ Finset.range j, lowerAt tab.a j l) • i.f0) ∧
    Ord (fun i : PathIx f g g' a b => i.ε) (fun i => i.θ) 1 1 (fun i => i.z tab j - i.X) := by
  induction j using Nat.strong_induction_on with
  | _ j ih =>
    have hs := scales (f := f) (g := g) (g' := g') (a := a) (b := b)
    have hfl : ∀ l ∈ Finset.range j, Ord (fun i : PathIx f g g' a b => i.ε) (fun i => i.θ) 3 1 (fun i =>
        lowerAt tab.a j l • (i.ε ^ 2 • (f (i.s + tab.cs l * (i.t - i.s)) (i.z tab l) - i.f0))) := by
      intro l hl
      have hl' := Finset.mem_range.1 hl
      have := f_ord h hab (hc l) (ih l hl' (by omega)).2
      simp only [add_sub_cancel] at this
      exact ((Ord.pow_scale hs 2).smul this).const_smul _
    have hn := stageNoise_ord hg hab h1 hc (fun i : PathIx f g g' a b => i.z tab) j
    have h3 : Ord (fun i : PathIx f g g' a b => i.ε) (fun i => i.θ) 3 1
        (fun i => (i.z tab j - i.X) - i.ξ tab j - (i.ε ^ 2 * ∑ l ∈ Finset.range j, lowerAt tab.a j l) • i.f0) := by
      refine ((Ord.sum _ hfl).add hn).congr fun i => ?_
      rw [i.z_eq hwf hj]
      simp only [smul_sub, Finset.sum_sub_distrib]
      have e : ∑ l ∈ Finset.range j, lowerAt tab.a j l • i.ε ^ 2 • i.f0
          = (i.ε ^ 2 * ∑ l ∈ Finset.range j, lowerAt tab.a j l) • i.f0 := by
        rw [Finset.mul_sum, Finset.sum_smul]
        exact Finset.sum_congr rfl fun l _ => by module
      rw [e]
      unfold n
      abel
    refine ⟨h3, ?_⟩
    have h4 : Ord (fun i : PathIx f g g' a b => i.ε) (fun i => i.θ) 2 1
        (fun i => (i.ε ^ 2 * ∑ l ∈ Finset.range j, lowerAt tab.a j l) • i.f0) :=
      (((Ord.pow_scale hs 2).smul (f0o h hab)).const_smul (∑ l ∈ Finset.range j, lowerAt tab.a j l)).congr fun i => by
        module
    exact (((h3.mono hs (k' := 1) (by omega) le_rfl).add (h4.mono hs (k' := 1) (by omega) le_rfl)).add
      (ξo hg hab tab j)).congr fun i => by abel

/-- The drift in stage `j`. -/
theorem stageDrift_ord (h : SmoothDrift f ft fy fyy a b L) (hg : SmoothNoise g g' a b L) (hab : a ≤ b) (hwf : tab.WF)
    (h1 : tab.numLevy = 1) (hc : ∀ j, tab.cs j ∈ Icc (0 : ℝ) 1) (j : ℕ) (hj : j < tab.bSol.length) :
    Ord (fun i : PathIx f g g' a b => i.ε) (fun i => i.θ) 3 3
      (fun i => f (i.s + tab.cs j * (i.t - i.s)) (i.z tab j) - (i.f0 + (tab.cs j * i.ε ^ 2) • ft i.s i.X
        + fy i.s i.X (i.ξ tab j + (i.ε ^ 2 * ∑ l ∈ Finset.range j, lowerAt tab.a j l) • i.f0)
        + (1 / 2 : ℝ) • fyy i.s i.X (i.ξ tab j) (i.ξ tab j))) := by
  have hs := scales (f := f) (g := g) (g' := g') (a := a) (b := b)
  have hr : Ord (fun i : PathIx f g g' a b => i.ε) (fun i => i.θ) 2 0 (fun i => tab.cs j * i.ε ^ 2) :=
    (Ord.pow_scale hs 2).const_smul _
  have hτ : Ord (fun i : PathIx f g g' a b => i.ε) (fun i => i.θ) 2 0
      (fun i => i.ε ^ 2 * ∑ l ∈ Finset.range j, lowerAt tab.a j l) :=
    ((Ord.pow_scale hs 2).const_smul (∑ l ∈ Finset.range j, lowerAt tab.a j l)).congr fun i => by
      rw [smul_eq_mul, mul_comm]
  have := h.ord hs hab (s := fun i : PathIx f g g' a b => i.s) (r := fun i => tab.cs j * i.ε ^ 2)
    (τ := fun i => i.ε ^ 2 * ∑ l ∈ Finset.range j, lowerAt tab.a j l) (X := fun i => i.X)
    (δ := fun i => i.z tab j - i.X) (ν := fun i => i.ξ tab j) (fun i => i.sI)
    (fun i => mul_nonneg (hc j).1 (pow_nonneg i.hε.le 2)) (fun i => by
      have := i.time_mem (hc j); rwa [i.t_sub] at this) (fun i => i.X_le) hr hτ (ξo hg hab tab j)
    (stage_ord h hg hab hwf h1 hc j hj).1
  refine this.congr fun i => ?_
  simp only [add_sub_cancel, i.t_sub]
  rfl

/-- The leading part of the error: zero in the mean, for the methods of order 3/2. -/
noncomputable def lead (fyy : ℝ → E → E →L[ℝ] E →L[ℝ] E) (tab : STableau ℝ) : E :=
  (1 / 2 : ℝ) • (i.ε ^ 2 • (∑ j ∈ Finset.range tab.bSol.length, tab.bSol.getD j 0 • fyy i.s i.X (i.ξ tab j) (i.ξ tab j))
    - ∫ r in i.s..i.t, fyy i.s i.X (i.ν r) (i.ν r))

/-- **The local error**, uniformly over paths. -/
theorem local_ord (h : SmoothDrift f ft fy fyy a b L) (hg : SmoothNoise g g' a b L) (hab : a ≤ b) (hwf : tab.WF)
    (ho : tab.AdditiveOrder) (h1 : tab.numLevy = 1) (hc : ∀ j, tab.cs j ∈ Icc (0 : ℝ) 1) :
    ∃ C, 0 ≤ C ∧ ∀ i : PathIx f g g' a b, ‖((i.srk tab).step i.s i.t i.X).y - i.y i.t
      - (((tab.sumBC - 1 / 2) * i.ε ^ 4) • ft i.s i.X + ((tab.sumBA - 1 / 2) * i.ε ^ 4) • fy i.s i.X i.f0
        + i.lead fyy tab)‖ ≤ C * (i.ε ^ 5 * (i.θ ^ 3 + i.q)) := by
  have hs := scales (f := f) (g := g) (g' := g') (a := a) (b := b)
  obtain ⟨C, hC, hex⟩ := exact_ord (g := g) (g' := g') h hg hab
  have o1 : Ord (fun i : PathIx f g g' a b => i.ε) (fun i => i.θ) 5 3 (fun i =>
      ∑ j ∈ Finset.range tab.bSol.length, tab.bSol.getD j 0 • (i.ε ^ 2 •
        (f (i.s + tab.cs j * (i.t - i.s)) (i.z tab j) - (i.f0 + (tab.cs j * i.ε ^ 2) • ft i.s i.X
        + fy i.s i.X (i.ξ tab j + (i.ε ^ 2 * ∑ l ∈ Finset.range j, lowerAt tab.a j l) • i.f0)
        + (1 / 2 : ℝ) • fyy i.s i.X (i.ξ tab j) (i.ξ tab j))))) :=
    Ord.sum _ fun j hj => ((Ord.pow_scale hs 2).smul
      (stageDrift_ord h hg hab hwf h1 hc j (Finset.mem_range.1 hj))).const_smul _
  have o2 := (docNoise_ord hg hab h1 ho.noise hc (fun i : PathIx f g g' a b => i.z tab)).sub (wiener_ord hg hab)
  obtain ⟨C', hC', ho'⟩ := o1.add (o2.mono hs (k' := 5) (j' := 3) le_rfl (by omega))
  refine ⟨C + C', by positivity, fun i => ?_⟩
  have a1 := hex i
  have a2 := ho' i
  have hq := i.q_nonneg
  have hε := i.hε
  have a3 : C' * (i.ε ^ 5 * i.θ ^ 3) ≤ C' * (i.ε ^ 5 * (i.θ ^ 3 + i.q)) :=
    mul_le_mul_of_nonneg_left (mul_le_mul_of_nonneg_left (by linarith) (by positivity)) hC'
  have hstep : ((i.srk tab).step i.s i.t i.X).y = i.X + ∑ j ∈ Finset.range tab.bSol.length,
      tab.bSol.getD j 0 • (i.ε ^ 2 • f (i.s + tab.cs j * (i.t - i.s)) (i.z tab j))
      + (i.srk tab).docNoise i.s i.t i.X (i.z tab) := by
    rw [(i.srk tab).step_y (by exact hwf)]
    simp only [SRK.docY1, SRK.hf, srk, addSrk, i.t_sub]
    rfl
  have hint : ∫ r in i.s..i.t, i.ν r = g i.s (i.ε ^ 2 • ((1 / 2 : ℝ) • i.dW + i.H)) := by
    rw [← i.int_w, ← ContinuousLinearMap.intervalIntegral_comp_comm _ (i.inc_cont.intervalIntegrable _ _)]
    rfl
  have hb := ho.b
  have hw := ho.w
  have hl := ho.levy 0 (by omega)
  rw [if_pos rfl] at hl
  unfold STableau.sumB at hb
  have s1 : ∑ j ∈ Finset.range tab.bSol.length, tab.bSol.getD j 0 • i.ε ^ 2 • i.f0 = i.ε ^ 2 • i.f0 := by
    rw [← Finset.sum_smul, hb, one_smul]
  have s2 : ∑ j ∈ Finset.range tab.bSol.length, tab.bSol.getD j 0 • i.ε ^ 2 • (tab.cs j * i.ε ^ 2) • ft i.s i.X
      = (tab.sumBC * i.ε ^ 4) • ft i.s i.X := by
    unfold STableau.sumBC
    rw [Finset.sum_mul, Finset.sum_smul]
    exact Finset.sum_congr rfl fun j _ => by module
  have s3 : ∑ j ∈ Finset.range tab.bSol.length, tab.bSol.getD j 0 • i.ε ^ 2 • fy i.s i.X (i.ξ tab j)
      = fy i.s i.X (∫ r in i.s..i.t, i.ν r) := by
    rw [hint]
    have : i.ε ^ 2 • ((1 / 2 : ℝ) • i.dW + i.H)
        = ∑ j ∈ Finset.range tab.bSol.length, tab.bSol.getD j 0 • i.ε ^ 2 • i.ξB tab j := by
      unfold ξB
      simp only [smul_add, Finset.sum_add_distrib]
      rw [← hw, Finset.sum_smul, Finset.smul_sum]
      congr 1
      · exact Finset.sum_congr rfl fun j _ => by module
      · have : i.H = (∑ j ∈ Finset.range tab.bSol.length, tab.bSol.getD j 0 * tab.noiseL 0 j) • i.H := by
          rw [hl, one_smul]
        conv_lhs => rw [this]
        rw [Finset.sum_smul, Finset.smul_sum]
        exact Finset.sum_congr rfl fun j _ => by module
    rw [this]
    simp only [map_sum, map_smul]
    rfl
  have s4 : ∑ j ∈ Finset.range tab.bSol.length, tab.bSol.getD j 0 • i.ε ^ 2
      • fy i.s i.X ((i.ε ^ 2 * ∑ l ∈ Finset.range j, lowerAt tab.a j l) • i.f0)
      = (tab.sumBA * i.ε ^ 4) • fy i.s i.X i.f0 := by
    unfold STableau.sumBA
    rw [Finset.sum_mul, Finset.sum_smul]
    exact Finset.sum_congr rfl fun j _ => by rw [map_smul]; module
  have s5 : ∑ j ∈ Finset.range tab.bSol.length, tab.bSol.getD j 0 • i.ε ^ 2 • (1 / 2 : ℝ)
      • fyy i.s i.X (i.ξ tab j) (i.ξ tab j)
      = (1 / 2 : ℝ) • i.ε ^ 2 • (∑ j ∈ Finset.range tab.bSol.length, tab.bSol.getD j 0 • fyy i.s i.X (i.ξ tab j) (i.ξ tab j)) := by
    rw [Finset.smul_sum, Finset.smul_sum]
    exact Finset.sum_congr rfl fun j _ => by module
  simp only [smul_sub, smul_add, map_add, Finset.sum_sub_distrib, Finset.sum_add_distrib, s1, s2, s3, s4, s5] at a2
  have e : ((i.srk tab).step i.s i.t i.X).y - i.y i.t
      - (((tab.sumBC - 1 / 2) * i.ε ^ 4) • ft i.s i.X + ((tab.sumBA - 1 / 2) * i.ε ^ 4) • fy i.s i.X i.f0
        + i.lead fyy tab)
      = (∑ j ∈ Finset.range tab.bSol.length, tab.bSol.getD j 0 • (i.ε ^ 2 • f (i.s + tab.cs j * (i.t - i.s)) (i.z tab j))
        - (i.ε ^ 2 • i.f0 + (tab.sumBC * i.ε ^ 4) • ft i.s i.X
          + (fy i.s i.X (∫ r in i.s..i.t, i.ν r) + (tab.sumBA * i.ε ^ 4) • fy i.s i.X i.f0)
          + (1 / 2 : ℝ) • i.ε ^ 2 • (∑ j ∈ Finset.range tab.bSol.length, tab.bSol.getD j 0 • fyy i.s i.X (i.ξ tab j) (i.ξ tab j)))
        + ((i.srk tab).docNoise i.s i.t i.X (i.z tab) - wienerIntegral g g' i.w i.s i.t))
      - (i.κ i.t - (i.ε ^ 2 • i.f0 + (i.ε ^ 4 / 2) • ft i.s i.X
        + fy i.s i.X ((∫ r in i.s..i.t, i.ν r) + (i.ε ^ 4 / 2) • i.f0)
        + (1 / 2 : ℝ) • ∫ r in i.s..i.t, fyy i.s i.X (i.ν r) (i.ν r))) := by
    rw [hstep, i.y_eq (right_mem_Icc.2 i.s_le_t)]
    unfold lead
    simp only [map_add, map_smul]
    module
  rw [e]
  refine (norm_sub_le _ _).trans ?_
  have a4 : ‖(∑ j ∈ Finset.range tab.bSol.length, tab.bSol.getD j 0 • (i.ε ^ 2 • f (i.s + tab.cs j * (i.t - i.s)) (i.z tab j))
        - (i.ε ^ 2 • i.f0 + (tab.sumBC * i.ε ^ 4) • ft i.s i.X
          + (fy i.s i.X (∫ r in i.s..i.t, i.ν r) + (tab.sumBA * i.ε ^ 4) • fy i.s i.X i.f0)
          + (1 / 2 : ℝ) • i.ε ^ 2 • (∑ j ∈ Finset.range tab.bSol.length, tab.bSol.getD j 0 • fyy i.s i.X (i.ξ tab j) (i.ξ tab j)))
        + ((i.srk tab).docNoise i.s i.t i.X (i.z tab) - wienerIntegral g g' i.w i.s i.t))‖
      ≤ C' * (i.ε ^ 5 * i.θ ^ 3) := by
    refine le_trans (le_of_eq ?_) a2
    congr 1
    abel
  calc _ ≤ C' * (i.ε ^ 5 * (i.θ ^ 3 + i.q)) + C * (i.ε ^ 5 * (i.θ ^ 3 + i.q)) := add_le_add (a4.trans a3) a1
    _ = _ := by ring

end PathIx
end Verif
