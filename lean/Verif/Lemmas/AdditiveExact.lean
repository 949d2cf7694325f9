import Verif.Lemmas.AdditivePath

/-!
# The exact solution of an equation with additive noise over one step
-/

set_option linter.unusedSectionVars false

namespace Verif
open Set MeasureTheory

/-- Gronwall's inequality, for integrals. -/
theorem gronwall_integral {u : ℝ → ℝ} {s t A L : ℝ} (hL : 0 ≤ L) (hA : 0 ≤ A) (hu : ContinuousOn u (Icc s t))
    (h : ∀ r ∈ Icc s t, u r ≤ A + L * ∫ q in s..r, u q) :
    ∀ r ∈ Icc s t, u r ≤ A * Real.exp (L * (t - s)) := by
  intro r hr
  have hst : s ≤ t := hr.1.trans hr.2
  have hint : ∀ r ∈ Icc s t, IntervalIntegrable u volume s r := fun r hr =>
    (hu.mono (by rw [uIcc_of_le hr.1]; exact Icc_subset_Icc_right hr.2)).intervalIntegrable
  have hc : ContinuousOn (fun r => A + L * ∫ q in s..r, u q) (Icc s t) := by
    have h1 : ContinuousOn (fun r => ∫ q in s..r, u q) (Icc s t) := by
      have := intervalIntegral.continuousOn_primitive_interval (f := u) (a := s) (b := t) (μ := volume) (by
        rw [uIcc_of_le hst]; exact hu.integrableOn_Icc)
      rwa [uIcc_of_le hst] at this
    exact continuousOn_const.add (continuousOn_const.mul h1)
  have hd : ∀ r ∈ Ico s t, HasDerivWithinAt (fun r => A + L * ∫ q in s..r, u q) (L * u r) (Ici r) r := by
    intro r hr
    have hrI : r ∈ Icc s t := ⟨hr.1, hr.2.le⟩
    have h1 : ContinuousWithinAt u (Ioi r) r := ((hu r hrI).mono_of_mem_nhdsWithin
      (Filter.mem_of_superset (Ioc_mem_nhdsGT hr.2) fun x hx => ⟨hr.1.trans hx.1.le, hx.2⟩))
    have h2 : StronglyMeasurableAtFilter u (nhdsWithin r (Ioi r)) volume :=
      ⟨Ioc r t, Ioc_mem_nhdsGT hr.2, (hu.mono fun x hx => ⟨hr.1.trans hx.1.le, hx.2⟩).aestronglyMeasurable
        measurableSet_Ioc⟩
    have h3 := intervalIntegral.integral_hasDerivWithinAt_right (hint r hrI) (s := Ici r) (t := Ioi r) h2 h1
    exact ((h3.const_mul L).const_add A)
  have key := le_gronwallBound_of_liminf_deriv_right_le (f := fun r => A + L * ∫ q in s..r, u q)
    (f' := fun r => L * u r) (δ := A) (K := L) (ε := 0) (a := s) (b := t) hc (fun x hx r' hr' =>
      (hd x hx).liminf_right_slope_le hr') (by simp) (fun x hx => by
      rw [add_zero]
      exact mul_le_mul_of_nonneg_left (h x ⟨hx.1, hx.2.le⟩) hL) r hr
  rw [gronwallBound_ε0] at key
  refine (h r hr).trans (key.trans ?_)
  exact mul_le_mul_of_nonneg_left (Real.exp_le_exp.2 (mul_le_mul_of_nonneg_left (by linarith [hr.2]) hL)) hA

variable {E B : Type} [NormedAddCommGroup E] [NormedSpace ℝ E] [NormedAddCommGroup B] [NormedSpace ℝ B]

/-- A step, together with a path of the noise and the solution along it. -/
structure PathIx (f : ℝ → E → E) (g g' : ℝ → B →L[ℝ] E) (a b : ℝ) where
  s : ℝ
  ε : ℝ
  X : E
  w : ℝ → B
  y : ℝ → E
  hs : a ≤ s
  hε : 0 < ε
  ht : s + ε ^ 2 ≤ b
  hw : Continuous w
  hy : SolvesAdditive f g g' w s (s + ε ^ 2) X y

namespace PathIx
variable {f ft : ℝ → E → E} {fy : ℝ → E → E →L[ℝ] E} {fyy : ℝ → E → E →L[ℝ] E →L[ℝ] E} {g g' : ℝ → B →L[ℝ] E}
  {a b L : ℝ} (i : PathIx f g g' a b)

/-- The end of the step. -/
def t : ℝ := i.s + i.ε ^ 2

/-- The size of the noise. -/
def β (r : ℝ) : ℝ := ‖i.w r - i.w i.s‖

noncomputable section
/-- Its mean, scaled. -/
def m : ℝ := (∫ r in i.s..i.t, i.β r) / i.ε ^ 3

/-- Its final value, scaled. -/
def η : ℝ := i.β i.t / i.ε

/-- The mean of its third power, scaled. -/
def q : ℝ := (∫ r in i.s..i.t, i.β r ^ 3) / i.ε ^ 5

/-- How large the initial value and the noise are. -/
def θ : ℝ := 1 + ‖i.X‖ + i.m + i.η

/-- A step and a time in it. -/
abbrev At (f : ℝ → E → E) (g g' : ℝ → B →L[ℝ] E) (a b : ℝ) := (i : PathIx f g g' a b) × Icc i.s i.t

/-- How large the initial value and the noise are, including the noise at the given time. -/
def θ' (p : At f g g' a b) : ℝ := p.1.θ + p.1.β p.2 / p.1.ε
end

theorem s_le_t : i.s ≤ i.t := by unfold t; have := i.hε; nlinarith

theorem t_sub : i.t - i.s = i.ε ^ 2 := by unfold t; ring

theorem sI : i.s ∈ Icc a b := ⟨i.hs, i.s_le_t.trans i.ht⟩

theorem mem {r : ℝ} (hr : r ∈ Icc i.s i.t) : r ∈ Icc a b := ⟨i.hs.trans hr.1, hr.2.trans i.ht⟩

include i in
theorem ab : a ≤ b := i.sI.1.trans i.sI.2

theorem β_nonneg (r : ℝ) : 0 ≤ i.β r := norm_nonneg _

theorem β_cont : Continuous i.β := (i.hw.sub continuous_const).norm

theorem J1 : ∫ r in i.s..i.t, i.β r = i.ε ^ 3 * i.m := by
  unfold m; rw [mul_div_cancel₀ _ (pow_ne_zero 3 i.hε.ne')]

theorem J3 : ∫ r in i.s..i.t, i.β r ^ 3 = i.ε ^ 5 * i.q := by
  unfold q; rw [mul_div_cancel₀ _ (pow_ne_zero 5 i.hε.ne')]

theorem β_t : i.β i.t = i.ε * i.η := by
  unfold η; rw [mul_div_cancel₀ _ i.hε.ne']

theorem m_nonneg : 0 ≤ i.m :=
  div_nonneg (intervalIntegral.integral_nonneg i.s_le_t fun r _ => i.β_nonneg r) (pow_nonneg i.hε.le 3)

theorem q_nonneg : 0 ≤ i.q :=
  div_nonneg (intervalIntegral.integral_nonneg i.s_le_t fun r _ => pow_nonneg (i.β_nonneg r) 3) (pow_nonneg i.hε.le 5)

theorem η_nonneg : 0 ≤ i.η := div_nonneg (i.β_nonneg _) i.hε.le

theorem one_le_θ : 1 ≤ i.θ := by
  have := i.m_nonneg; have := i.η_nonneg; have := norm_nonneg i.X
  unfold θ; linarith

theorem X_le : 1 + ‖i.X‖ ≤ i.θ := by
  have := i.m_nonneg; have := i.η_nonneg
  unfold θ; linarith

theorem m_le : i.m ≤ i.θ := by
  have := i.η_nonneg; have := norm_nonneg i.X
  unfold θ; linarith

theorem η_le : i.η ≤ i.θ := by
  have := i.m_nonneg; have := norm_nonneg i.X
  unfold θ; linarith

theorem sq_le : i.ε ^ 2 ≤ b - a := by have := i.ht; have := i.hs; linarith

theorem scales : Scales (fun i : PathIx f g g' a b => i.ε) (fun i => i.θ) where
  pos i := i.hε
  bdd := ⟨1 + (b - a), fun i => by have := i.sq_le; have := i.hε; nlinarith [sq_nonneg (i.ε - 1)]⟩
  one_le i := i.one_le_θ

theorem θ_le (p : At f g g' a b) : p.1.θ ≤ θ' p := by
  have := div_nonneg (p.1.β_nonneg p.2) p.1.hε.le
  unfold θ'; linarith

theorem scales' : Scales (fun p : At f g g' a b => p.1.ε) θ' where
  pos p := p.1.hε
  bdd := ⟨1 + (b - a), fun p => by have := p.1.sq_le; have := p.1.hε; nlinarith [sq_nonneg (p.1.ε - 1)]⟩
  one_le p := p.1.one_le_θ.trans (θ_le p)

theorem β_le (p : At f g g' a b) : p.1.β p.2 ≤ p.1.ε * θ' p := by
  have h := p.1.hε
  have : p.1.β p.2 = p.1.ε * (p.1.β p.2 / p.1.ε) := by rw [mul_div_cancel₀ _ h.ne']
  rw [this]
  refine mul_le_mul_of_nonneg_left ?_ h.le
  have := p.1.one_le_θ
  unfold θ'
  linarith

/-- What holds for a step holds at all times in it. -/
theorem lift {F : Type} [NormedAddCommGroup F] {k j : ℕ} {u : PathIx f g g' a b → F}
    (h : Ord (fun i : PathIx f g g' a b => i.ε) (fun i => i.θ) k j u) :
    Ord (fun p : At f g g' a b => p.1.ε) θ' k j (fun p => u p.1) := by
  obtain ⟨C, hC, h⟩ := h
  refine ⟨C, hC, fun p => (h p.1).trans ?_⟩
  have h0 := zero_le_one.trans p.1.one_le_θ
  exact mul_le_mul_of_nonneg_left (mul_le_mul_of_nonneg_left (pow_le_pow_left₀ h0 (θ_le p) j)
    (pow_nonneg p.1.hε.le k)) hC

/-! ### The noise -/

theorem _root_.Verif.SmoothNoise.L_nonneg (hg : SmoothNoise g g' a b L) (hab : a ≤ b) : 0 ≤ L :=
  (ContinuousLinearMap.opNorm_nonneg _).trans (hg.le a (left_mem_Icc.2 hab))

theorem _root_.Verif.SmoothNoise.var (hg : SmoothNoise g g' a b L) {s t : ℝ} (hs : s ∈ Icc a b) (ht : t ∈ Icc a b) :
    ‖g t - g s‖ ≤ L * |t - s| :=
  Convex.norm_image_sub_le_of_norm_hasDerivWithin_le (fun r hr => hg.deriv r hr) (fun r hr => hg.le' r hr)
    (convex_Icc a b) hs ht

theorem _root_.Verif.SmoothNoise.taylor (hg : SmoothNoise g g' a b L) {s t : ℝ} (hs : s ∈ Icc a b) (hst : s ≤ t)
    (ht : t ∈ Icc a b) : ‖g t - g s - (t - s) • g' s‖ ≤ L * (t - s) ^ 2 := by
  have hL := hg.L_nonneg (hs.1.trans hs.2)
  have hsub : Icc s t ⊆ Icc a b := Icc_subset_Icc hs.1 ht.2
  have := Convex.norm_image_sub_le_of_norm_hasDerivWithin_le (f := fun q => g q - (q - s) • g' s)
    (f' := fun q => g' q - g' s) (s := Icc s t) (C := L * (t - s)) (x := s) (y := t)
    (fun q hq => by
      have h1 := (hg.deriv q (hsub hq)).mono hsub
      have h2 : HasDerivWithinAt (fun q => (q - s) • g' s) ((1 : ℝ) • g' s) (Icc s t) q :=
        (((hasDerivAt_id q).sub_const s).smul_const (g' s)).hasDerivWithinAt
      rw [one_smul] at h2
      exact h1.sub h2)
    (fun q hq => by
      refine (hg.lip' s hs q (hsub hq)).trans ?_
      refine mul_le_mul_of_nonneg_left ?_ hL
      rw [abs_of_nonneg (by linarith [hq.1])]
      linarith [hq.2])
    (convex_Icc _ _) (left_mem_Icc.2 hst) (right_mem_Icc.2 hst)
  rw [sub_self, zero_smul, sub_zero, Real.norm_of_nonneg (by linarith)] at this
  rw [show g t - g s - (t - s) • g' s = g t - (t - s) • g' s - g s by abel]
  refine this.trans (le_of_eq (by ring))

theorem _root_.Verif.SmoothNoise.cont' (hg : SmoothNoise g g' a b L) : ContinuousOn g' (Icc a b) := by
  intro s hs
  have hL := hg.L_nonneg (hs.1.trans hs.2)
  refine ContinuousWithinAt.congr_of_eventuallyEq ?_ Filter.EventuallyEq.rfl rfl
  rw [Metric.continuousWithinAt_iff]
  intro τ hτ
  refine ⟨τ / (L + 1), by positivity, fun {x} hx hd => ?_⟩
  rw [dist_eq_norm]
  refine (hg.lip' s hs x hx).trans_lt ?_
  rw [Real.dist_eq, lt_div_iff₀ (by positivity)] at hd
  have := abs_nonneg (x - s)
  nlinarith

theorem _root_.Verif.SmoothNoise.cont (hg : SmoothNoise g g' a b L) : ContinuousOn g (Icc a b) :=
  fun s hs => (hg.deriv s hs).continuousWithinAt

/-- The integral in the noise. -/
theorem int_le (hg : SmoothNoise g g' a b L) {r : ℝ} (hr : r ∈ Icc i.s i.t) :
    ‖∫ q in i.s..r, g' q (i.w q - i.w i.s)‖ ≤ L * (i.ε ^ 3 * i.m) := by
  have hL := hg.L_nonneg i.ab
  have hi : ∀ x y, IntervalIntegrable i.β volume x y := fun x y => i.β_cont.intervalIntegrable x y
  have h1 : ‖∫ q in i.s..r, g' q (i.w q - i.w i.s)‖ ≤ ∫ q in i.s..r, L * i.β q := by
    refine intervalIntegral.norm_integral_le_of_norm_le hr.1 (Filter.Eventually.of_forall fun q hq => ?_)
      ((hi _ _).const_mul L)
    exact (ContinuousLinearMap.le_opNorm _ _).trans (mul_le_mul_of_nonneg_right
      (hg.le' q (i.mem ⟨hq.1.le, hq.2.trans hr.2⟩)) (norm_nonneg _))
  refine h1.trans ?_
  rw [intervalIntegral.integral_const_mul, ← i.J1]
  refine mul_le_mul_of_nonneg_left ?_ hL
  exact intervalIntegral.integral_mono_interval le_rfl hr.1 hr.2
    (Filter.Eventually.of_forall fun q => i.β_nonneg q) (hi _ _)

theorem noise_le (hg : SmoothNoise g g' a b L) {r : ℝ} (hr : r ∈ Icc i.s i.t) :
    ‖wienerIntegral g g' i.w i.s r‖ ≤ L * i.β r + L * (i.ε ^ 3 * i.m) := by
  unfold wienerIntegral
  refine (norm_sub_le _ _).trans (add_le_add ?_ (i.int_le hg hr))
  exact (ContinuousLinearMap.le_opNorm _ _).trans (mul_le_mul_of_nonneg_right (hg.le r (i.mem hr)) (norm_nonneg _))

theorem mo : Ord (fun i : PathIx f g g' a b => i.ε) (fun i => i.θ) 0 1 (fun i => i.m) :=
  ⟨1, zero_le_one, fun i => by
    rw [Real.norm_of_nonneg i.m_nonneg, pow_zero, pow_one, one_mul, one_mul]; exact i.m_le⟩

theorem J1o : Ord (fun i : PathIx f g g' a b => i.ε) (fun i => i.θ) 3 1 (fun i => i.ε ^ 3 * i.m) :=
  (Ord.pow_scale scales 3).smul mo

/-- The noise is close to the increment of the path, applied to `g(s)`. -/
theorem noise_ord (hg : SmoothNoise g g' a b L) (hab : a ≤ b) :
    Ord (fun p : At f g g' a b => p.1.ε) θ' 3 1 (fun p =>
      wienerIntegral g g' p.1.w p.1.s p.2 - g p.1.s (p.1.w p.2 - p.1.w p.1.s)) := by
  have hL := hg.L_nonneg hab
  refine ⟨2 * L, by positivity, fun p => ?_⟩
  obtain ⟨i, r, hr⟩ := p
  have h1 := i.int_le hg hr
  have h2 : ‖(g r - g i.s) (i.w r - i.w i.s)‖ ≤ L * i.ε ^ 2 * i.β r := by
    refine (ContinuousLinearMap.le_opNorm _ _).trans (mul_le_mul_of_nonneg_right ?_ (norm_nonneg _))
    refine (hg.var i.sI (i.mem hr)).trans (mul_le_mul_of_nonneg_left ?_ hL)
    rw [abs_of_nonneg (by linarith [hr.1]), ← i.t_sub]
    linarith [hr.2]
  have h3 := β_le ⟨i, r, hr⟩
  have h4 : i.m ≤ θ' ⟨i, r, hr⟩ := i.m_le.trans (θ_le ⟨i, r, hr⟩)
  have e : wienerIntegral g g' i.w i.s r - g i.s (i.w r - i.w i.s)
      = (g r - g i.s) (i.w r - i.w i.s) - ∫ q in i.s..r, g' q (i.w q - i.w i.s) := by
    unfold wienerIntegral
    rw [sub_apply]; abel
  have hε := i.hε
  simp only at h3 ⊢
  rw [e, pow_one]
  refine (norm_sub_le _ _).trans ?_
  have h5 : L * i.ε ^ 2 * i.β r ≤ L * i.ε ^ 2 * (i.ε * θ' ⟨i, r, hr⟩) := mul_le_mul_of_nonneg_left h3 (by positivity)
  have h6 : L * (i.ε ^ 3 * i.m) ≤ L * (i.ε ^ 3 * θ' ⟨i, r, hr⟩) :=
    mul_le_mul_of_nonneg_left (mul_le_mul_of_nonneg_left h4 (by positivity)) hL
  calc _ ≤ L * i.ε ^ 2 * (i.ε * θ' ⟨i, r, hr⟩) + L * (i.ε ^ 3 * θ' ⟨i, r, hr⟩) := by linarith
    _ = _ := by ring

theorem inc_ord (hg : SmoothNoise g g' a b L) (hab : a ≤ b) :
    Ord (fun p : At f g g' a b => p.1.ε) θ' 1 1 (fun p => g p.1.s (p.1.w p.2 - p.1.w p.1.s)) := by
  have hL := hg.L_nonneg hab
  refine ⟨L, hL, fun p => ?_⟩
  rw [pow_one, pow_one]
  exact (ContinuousLinearMap.le_opNorm _ _).trans (mul_le_mul (hg.le _ p.1.sI) (β_le p) (norm_nonneg _) hL)

/-! ### The drift -/

/-- The integral of the drift. -/
noncomputable def κ (r : ℝ) : E := ∫ q in i.s..r, f q (i.y q)

theorem y_eq {r : ℝ} (hr : r ∈ Icc i.s i.t) : i.y r = i.X + i.κ r + wienerIntegral g g' i.w i.s r :=
  i.hy.equation r hr

theorem drift_cont (h : SmoothDrift f ft fy fyy a b L) : ContinuousOn (fun r => f r (i.y r)) (Icc i.s i.t) := by
  have hL := h.L_nonneg i.ab
  intro r hr
  have h1 : ContinuousWithinAt (fun q => f q (i.y r)) (Icc i.s i.t) r :=
    ((h.time r (i.mem hr) (i.y r)).continuousWithinAt).mono fun q hq => i.mem hq
  have h2 : ContinuousWithinAt (fun q => f q (i.y q) - f q (i.y r)) (Icc i.s i.t) r := by
    have h3 : Filter.Tendsto (fun q => L * ‖i.y q - i.y r‖) (nhdsWithin r (Icc i.s i.t)) (nhds 0) := by
      have := ((i.hy.continuous r hr).sub (continuousWithinAt_const (b := i.y r))).norm.const_mul L
      simpa [ContinuousWithinAt, t] using this
    have h4 := squeeze_zero_norm' (f := fun q => f q (i.y q) - f q (i.y r)) (by
      filter_upwards [self_mem_nhdsWithin] with q hq
      exact h.lip (i.mem hq) _ _) h3
    simpa [ContinuousWithinAt] using h4
  have := h2.add h1
  refine this.congr (fun q _ => by simp) (by simp)

variable [CompleteSpace E]

/-- The drift moves the solution by at most something of the order of the length of the step. -/
theorem κ_ord (h : SmoothDrift f ft fy fyy a b L) (hg : SmoothNoise g g' a b L) (hab : a ≤ b) :
    ∃ C, 0 ≤ C ∧ ∀ (i : PathIx f g g' a b), ∀ r ∈ Icc i.s i.t, ‖i.κ r‖ ≤ C * (i.ε ^ 2 * i.θ) := by
  have hL := h.L_nonneg hab
  set F0 := ‖f a 0‖ + L * (b - a) + L with hF0
  have hF00 : 0 ≤ F0 := add_nonneg (add_nonneg (norm_nonneg _) (mul_nonneg hL (by linarith))) hL
  obtain ⟨c, hc⟩ := (scales (f := f) (g := g) (g' := g') (a := a) (b := b)).bdd
  set c' := |c| with hc'
  refine ⟨(F0 + L * (L * c' + L * c' ^ 3)) * Real.exp (L * (b - a)), by positivity, fun i => ?_⟩
  have hε := i.hε
  have hci : i.ε ≤ c' := (hc i).trans (le_abs_self c)
  have hcont : ContinuousOn (fun r => i.κ r) (Icc i.s i.t) := by
    have := intervalIntegral.continuousOn_primitive_interval (f := fun q => f q (i.y q)) (a := i.s) (b := i.t)
      (μ := volume) (by rw [uIcc_of_le i.s_le_t]; exact (i.drift_cont h).integrableOn_Icc)
    rwa [uIcc_of_le i.s_le_t] at this
  set A := i.ε ^ 2 * (F0 * (1 + ‖i.X‖)) + L * (L * (i.ε ^ 3 * i.m) + i.ε ^ 2 * (L * (i.ε ^ 3 * i.m))) with hA
  have hm := i.m_nonneg
  have hA0 : 0 ≤ A := by positivity
  have key := gronwall_integral (u := fun r => ‖i.κ r‖) (s := i.s) (t := i.t) (A := A) hL hA0 hcont.norm
    (fun r hr => by
      have hsub : Icc i.s r ⊆ Icc i.s i.t := Icc_subset_Icc_right hr.2
      have i1 : IntervalIntegrable (fun q => ‖i.κ q‖) volume i.s r := by
        refine ContinuousOn.intervalIntegrable ?_
        rw [uIcc_of_le hr.1]; exact (hcont.mono hsub).norm
      have i2 : IntervalIntegrable (fun q => F0 * (1 + ‖i.X‖) + L * (L * i.β q + L * (i.ε ^ 3 * i.m))) volume i.s r :=
        (continuous_const.add (continuous_const.mul ((continuous_const.mul i.β_cont).add continuous_const))).intervalIntegrable _ _
      have b1 : ‖i.κ r‖ ≤ ∫ q in i.s..r, (F0 * (1 + ‖i.X‖) + L * (L * i.β q + L * (i.ε ^ 3 * i.m)) + L * ‖i.κ q‖) := by
        refine intervalIntegral.norm_integral_le_of_norm_le hr.1 (Filter.Eventually.of_forall fun q hq => ?_)
          (i2.add (i1.const_mul L))
        have hq' : q ∈ Icc i.s i.t := ⟨hq.1.le, hq.2.trans hr.2⟩
        have g1 := h.growth hab (i.mem hq') i.X
        have g2 := h.lip (i.mem hq') (i.y q) i.X
        have g3 : ‖i.y q - i.X‖ ≤ ‖i.κ q‖ + (L * i.β q + L * (i.ε ^ 3 * i.m)) := by
          rw [i.y_eq hq', add_assoc, add_sub_cancel_left]
          exact (norm_add_le _ _).trans (add_le_add le_rfl (i.noise_le hg hq'))
        have g4 : ‖f q (i.y q)‖ ≤ ‖f q i.X‖ + ‖f q (i.y q) - f q i.X‖ := by
          have := norm_add_le (f q i.X) (f q (i.y q) - f q i.X)
          rwa [add_sub_cancel] at this
        have g5 := mul_le_mul_of_nonneg_left g3 hL
        linarith
      have b2 : ∫ q in i.s..r, (F0 * (1 + ‖i.X‖) + L * (L * i.β q + L * (i.ε ^ 3 * i.m)))
          ≤ ∫ q in i.s..i.t, (F0 * (1 + ‖i.X‖) + L * (L * i.β q + L * (i.ε ^ 3 * i.m))) := by
        refine intervalIntegral.integral_mono_interval le_rfl hr.1 hr.2 (Filter.Eventually.of_forall fun q => ?_)
          ((continuous_const.add (continuous_const.mul ((continuous_const.mul i.β_cont).add continuous_const))).intervalIntegrable _ _)
        have := i.β_nonneg q
        simp only [Pi.zero_apply]
        positivity
      have b3 : ∫ q in i.s..i.t, (F0 * (1 + ‖i.X‖) + L * (L * i.β q + L * (i.ε ^ 3 * i.m))) = A := by
        have c1 : ∀ x : ℝ, ∫ _q in i.s..i.t, x = i.ε ^ 2 * x := fun x => by
          rw [intervalIntegral.integral_const, i.t_sub, smul_eq_mul]
        have i3 := (i.β_cont.intervalIntegrable (μ := volume) i.s i.t)
        rw [intervalIntegral.integral_add intervalIntegrable_const ((i3.const_mul L).add intervalIntegrable_const |>.const_mul L),
          c1, intervalIntegral.integral_const_mul, intervalIntegral.integral_add (i3.const_mul L) intervalIntegrable_const,
          intervalIntegral.integral_const_mul, c1, i.J1]
      rw [intervalIntegral.integral_add i2 (i1.const_mul L), intervalIntegral.integral_const_mul] at b1
      linarith)
  intro r hr
  refine (key r hr).trans ?_
  have hθ := i.one_le_θ
  have hAθ : A ≤ (F0 + L * (L * c' + L * c' ^ 3)) * (i.ε ^ 2 * i.θ) := by
    have e1 : i.ε ^ 2 * (F0 * (1 + ‖i.X‖)) ≤ i.ε ^ 2 * (F0 * i.θ) :=
      mul_le_mul_of_nonneg_left (mul_le_mul_of_nonneg_left i.X_le hF00) (by positivity)
    have e2 : i.ε ^ 3 * i.m ≤ c' * (i.ε ^ 2 * i.θ) := by
      calc i.ε ^ 3 * i.m = i.ε * (i.ε ^ 2 * i.m) := by ring
        _ ≤ c' * (i.ε ^ 2 * i.θ) := mul_le_mul hci (mul_le_mul_of_nonneg_left i.m_le (by positivity)) (by positivity)
            (abs_nonneg c)
    have e3 : i.ε ^ 2 * (L * (i.ε ^ 3 * i.m)) ≤ c' ^ 2 * (L * (c' * (i.ε ^ 2 * i.θ))) :=
      mul_le_mul (pow_le_pow_left₀ hε.le hci 2) (mul_le_mul_of_nonneg_left e2 hL) (by positivity) (by positivity)
    have e4 : L * (L * (i.ε ^ 3 * i.m) + i.ε ^ 2 * (L * (i.ε ^ 3 * i.m)))
        ≤ L * (L * (c' * (i.ε ^ 2 * i.θ)) + c' ^ 2 * (L * (c' * (i.ε ^ 2 * i.θ)))) :=
      mul_le_mul_of_nonneg_left (add_le_add (mul_le_mul_of_nonneg_left e2 hL) e3) hL
    calc A ≤ i.ε ^ 2 * (F0 * i.θ) + L * (L * (c' * (i.ε ^ 2 * i.θ)) + c' ^ 2 * (L * (c' * (i.ε ^ 2 * i.θ)))) :=
          add_le_add e1 e4
      _ = _ := by ring
  have hexp : Real.exp (L * (i.t - i.s)) ≤ Real.exp (L * (b - a)) :=
    Real.exp_le_exp.2 (mul_le_mul_of_nonneg_left (by rw [i.t_sub]; exact i.sq_le) hL)
  calc A * Real.exp (L * (i.t - i.s))
      ≤ ((F0 + L * (L * c' + L * c' ^ 3)) * (i.ε ^ 2 * i.θ)) * Real.exp (L * (b - a)) :=
        mul_le_mul hAθ hexp (Real.exp_pos _).le (hA0.trans hAθ)
    _ = _ := by ring

/-- The drift at the beginning. -/
def f0 : E := f i.s i.X

/-- The path, from the beginning on, applied to `g(s)`. -/
def ν (r : ℝ) : E := g i.s (i.w r - i.w i.s)

theorem ν_cont : Continuous i.ν := (g i.s).continuous.comp (i.hw.sub continuous_const)

theorem Xo : Ord (fun i : PathIx f g g' a b => i.ε) (fun i => i.θ) 0 1 (fun i => 1 + ‖i.X‖) :=
  ⟨1, zero_le_one, fun i => by
    rw [Real.norm_of_nonneg (by positivity), pow_zero, pow_one, one_mul, one_mul]; exact i.X_le⟩

theorem f0o (h : SmoothDrift f ft fy fyy a b L) (hab : a ≤ b) :
    Ord (fun i : PathIx f g g' a b => i.ε) (fun i => i.θ) 0 1 (fun i => i.f0) := by
  have hL := h.L_nonneg hab
  exact Xo.of_le (c := ‖f a 0‖ + L * (b - a) + L)
    (add_nonneg (add_nonneg (norm_nonneg _) (mul_nonneg hL (by linarith))) hL) fun i => by
      rw [Real.norm_of_nonneg (by positivity)]; exact h.growth hab i.sI _

theorem θo : Ord (fun i : PathIx f g g' a b => i.ε) (fun i => i.θ) 0 1 (fun i => i.θ) :=
  ⟨1, zero_le_one, fun i => by
    rw [Real.norm_of_nonneg (zero_le_one.trans i.one_le_θ), pow_zero, pow_one, one_mul, one_mul]⟩

/-- The drift moves the solution in the direction it has at the beginning, up to the order 3/2. -/
theorem κ2_ord (h : SmoothDrift f ft fy fyy a b L) (hg : SmoothNoise g g' a b L) (hab : a ≤ b) :
    ∃ C, 0 ≤ C ∧ ∀ (i : PathIx f g g' a b), ∀ r ∈ Icc i.s i.t, ‖i.κ r - (r - i.s) • i.f0‖ ≤ C * (i.ε ^ 3 * i.θ) := by
  have hL := h.L_nonneg hab
  obtain ⟨C, hC, hκ⟩ := κ_ord (g := g) (g' := g') h hg hab
  have ho : Ord (fun i : PathIx f g g' a b => i.ε) (fun i => i.θ) 3 1 (fun i =>
      i.ε ^ 2 * (L * (i.ε ^ 2 * (1 + ‖i.X‖)) + L * (C * (i.ε ^ 2 * i.θ) + L * (i.ε ^ 3 * i.m))) + L * (L * (i.ε ^ 3 * i.m))) := by
    have hs := scales (f := f) (g := g) (g' := g') (a := a) (b := b)
    have p1 := ((Ord.pow_scale hs 2).smul Xo).const_smul L
    have p2 := ((Ord.pow_scale hs 2).smul θo).const_smul C
    have p3 := (J1o (f := f) (g := g) (g' := g') (a := a) (b := b)).const_smul L
    have p4 := (p2.add (p3.mono hs (k' := 2) (by omega) le_rfl)).const_smul L
    have p5 := (Ord.pow_scale hs 2).smul (p1.add p4)
    exact ((p5.mono hs (k' := 3) (by omega) le_rfl).add (p3.const_smul L)).congr fun i => by
      simp only [smul_eq_mul]
  obtain ⟨C', hC', ho⟩ := ho
  refine ⟨C', hC', fun i r hr => ?_⟩
  have hb := ho i
  rw [pow_one] at hb
  refine le_trans ?_ ((le_abs_self _).trans hb)
  have hε := i.hε
  have hm := i.m_nonneg
  have hθ := zero_le_one.trans i.one_le_θ
  have e : i.κ r - (r - i.s) • i.f0 = ∫ q in i.s..r, (f q (i.y q) - i.f0) := by
    have hi : IntervalIntegrable (fun q => f q (i.y q)) volume i.s r := by
      refine ContinuousOn.intervalIntegrable ?_
      rw [uIcc_of_le hr.1]; exact (i.drift_cont h).mono (Icc_subset_Icc_right hr.2)
    rw [intervalIntegral.integral_sub hi intervalIntegrable_const, intervalIntegral.integral_const]
    rfl
  rw [e]
  set c1 := L * (i.ε ^ 2 * (1 + ‖i.X‖)) + L * (C * (i.ε ^ 2 * i.θ) + L * (i.ε ^ 3 * i.m)) with hc1
  have hc10 : 0 ≤ c1 := by positivity
  have hcont : Continuous fun q => c1 + L * (L * i.β q) :=
    continuous_const.add (continuous_const.mul (continuous_const.mul i.β_cont))
  have b1 : ‖∫ q in i.s..r, (f q (i.y q) - i.f0)‖ ≤ ∫ q in i.s..r, (c1 + L * (L * i.β q)) := by
    refine intervalIntegral.norm_integral_le_of_norm_le hr.1 (Filter.Eventually.of_forall fun q hq => ?_)
      (hcont.intervalIntegrable _ _)
    have hq' : q ∈ Icc i.s i.t := ⟨hq.1.le, hq.2.trans hr.2⟩
    have g1 := h.time_var i.sI (i.mem hq') i.X
    have g2 := h.lip (i.mem hq') (i.y q) i.X
    have g3 : ‖i.y q - i.X‖ ≤ C * (i.ε ^ 2 * i.θ) + (L * i.β q + L * (i.ε ^ 3 * i.m)) := by
      rw [i.y_eq hq', add_assoc, add_sub_cancel_left]
      exact (norm_add_le _ _).trans (add_le_add (hκ i q hq') (i.noise_le hg hq'))
    have g4 : ‖f q (i.y q) - i.f0‖ ≤ ‖f q (i.y q) - f q i.X‖ + ‖f q i.X - f i.s i.X‖ := by
      have := norm_add_le (f q (i.y q) - f q i.X) (f q i.X - f i.s i.X)
      rwa [sub_add_sub_cancel] at this
    have g5 := mul_le_mul_of_nonneg_left g3 hL
    have g6 : |q - i.s| ≤ i.ε ^ 2 := by
      rw [abs_of_nonneg (by linarith [hq.1]), ← i.t_sub]; linarith [hq'.2]
    have g7 : L * (1 + ‖i.X‖) * |q - i.s| ≤ L * (1 + ‖i.X‖) * i.ε ^ 2 := mul_le_mul_of_nonneg_left g6 (by positivity)
    rw [hc1]
    linarith
  have b2 : ∫ q in i.s..r, (c1 + L * (L * i.β q)) ≤ ∫ q in i.s..i.t, (c1 + L * (L * i.β q)) := by
    refine intervalIntegral.integral_mono_interval le_rfl hr.1 hr.2 (Filter.Eventually.of_forall fun q => ?_)
      (hcont.intervalIntegrable _ _)
    have := i.β_nonneg q
    simp only [Pi.zero_apply]
    positivity
  have b3 : ∫ q in i.s..i.t, (c1 + L * (L * i.β q)) = i.ε ^ 2 * c1 + L * (L * (i.ε ^ 3 * i.m)) := by
    rw [intervalIntegral.integral_add intervalIntegrable_const
      (((i.β_cont.intervalIntegrable (μ := volume) i.s i.t).const_mul L).const_mul L),
      intervalIntegral.integral_const, i.t_sub, intervalIntegral.integral_const_mul, intervalIntegral.integral_const_mul,
      i.J1, smul_eq_mul]
  linarith

/-- The drift along the solution, up to third order. -/
theorem integrand_ord (h : SmoothDrift f ft fy fyy a b L) (hg : SmoothNoise g g' a b L) (hab : a ≤ b) :
    Ord (fun p : At f g g' a b => p.1.ε) θ' 3 3 (fun p => f p.2 (p.1.y p.2)
      - (p.1.f0 + (p.2 - p.1.s) • ft p.1.s p.1.X + fy p.1.s p.1.X (p.1.ν p.2 + (p.2 - p.1.s) • p.1.f0)
        + (1 / 2 : ℝ) • fyy p.1.s p.1.X (p.1.ν p.2) (p.1.ν p.2))) := by
  have hr : Ord (fun p : At f g g' a b => p.1.ε) θ' 2 0 (fun p => (p.2 : ℝ) - p.1.s) := by
    refine ⟨1, zero_le_one, fun p => ?_⟩
    rw [Real.norm_of_nonneg (by linarith [p.2.2.1]), pow_zero, mul_one, one_mul, ← p.1.t_sub]
    linarith [p.2.2.2]
  obtain ⟨C, hC, hκ⟩ := κ2_ord (g := g) (g' := g') h hg hab
  have hk : Ord (fun p : At f g g' a b => p.1.ε) θ' 3 1 (fun p => p.1.κ p.2 - ((p.2 : ℝ) - p.1.s) • p.1.f0) := by
    refine ⟨C, hC, fun p => (hκ p.1 p.2 p.2.2).trans ?_⟩
    rw [pow_one]
    exact mul_le_mul_of_nonneg_left (mul_le_mul_of_nonneg_left (θ_le p) (pow_nonneg p.1.hε.le 3)) hC
  have hδ : Ord (fun p : At f g g' a b => p.1.ε) θ' 3 1 (fun p =>
      (p.1.y p.2 - p.1.X) - p.1.ν p.2 - ((p.2 : ℝ) - p.1.s) • f p.1.s p.1.X) := by
    refine (hk.add (noise_ord hg hab)).congr fun p => ?_
    rw [p.1.y_eq p.2.2]
    unfold f0 ν
    abel
  have := h.ord scales' hab (s := fun p : At f g g' a b => p.1.s) (r := fun p => (p.2 : ℝ) - p.1.s)
    (τ := fun p => (p.2 : ℝ) - p.1.s) (X := fun p => p.1.X) (δ := fun p => p.1.y p.2 - p.1.X) (ν := fun p => p.1.ν p.2)
    (fun p => p.1.sI) (fun p => by linarith [p.2.2.1]) (fun p => by rw [add_sub_cancel]; exact p.1.mem p.2.2)
    (fun p => p.1.X_le.trans (θ_le p)) hr hr (inc_ord hg hab) hδ
  refine this.congr fun p => ?_
  simp only [add_sub_cancel]
  rfl

/-- **The exact solution over one step.** -/
theorem exact_ord (h : SmoothDrift f ft fy fyy a b L) (hg : SmoothNoise g g' a b L) (hab : a ≤ b) :
    ∃ C, 0 ≤ C ∧ ∀ i : PathIx f g g' a b, ‖i.κ i.t - (i.ε ^ 2 • i.f0 + (i.ε ^ 4 / 2) • ft i.s i.X
      + fy i.s i.X ((∫ r in i.s..i.t, i.ν r) + (i.ε ^ 4 / 2) • i.f0)
      + (1 / 2 : ℝ) • ∫ r in i.s..i.t, fyy i.s i.X (i.ν r) (i.ν r))‖ ≤ C * (i.ε ^ 5 * (i.θ ^ 3 + i.q)) := by
  obtain ⟨C, hC, ho⟩ := integrand_ord (g := g) (g' := g') h hg hab
  refine ⟨4 * C, by positivity, fun i => ?_⟩
  have hst := i.s_le_t
  have hε := i.hε
  have cν := i.ν_cont
  have cfyy : Continuous fun r => fyy i.s i.X (i.ν r) (i.ν r) := ((fyy i.s i.X).continuous.comp cν).clm_apply cν
  have i1 : IntervalIntegrable (fun q => f q (i.y q)) volume i.s i.t := by
    refine ContinuousOn.intervalIntegrable ?_
    rw [uIcc_of_le hst]; exact i.drift_cont h
  have ii : ∀ {φ : ℝ → E}, Continuous φ → IntervalIntegrable φ volume i.s i.t := fun hφ => hφ.intervalIntegrable _ _
  have hq : ∫ r in i.s..i.t, (r - i.s) = i.ε ^ 4 / 2 := by
    rw [intervalIntegral.integral_sub intervalIntegral.intervalIntegrable_id intervalIntegrable_const, integral_id,
      intervalIntegral.integral_const, smul_eq_mul]
    unfold t
    ring
  have cs : ∀ v : E, Continuous fun r : ℝ => (r - i.s) • v := fun v =>
    (continuous_id.sub continuous_const).smul continuous_const
  have c1 : Continuous fun r => fy i.s i.X (i.ν r + (r - i.s) • i.f0) := (fy i.s i.X).continuous.comp (cν.add (cs _))
  have e : i.κ i.t - (i.ε ^ 2 • i.f0 + (i.ε ^ 4 / 2) • ft i.s i.X
      + fy i.s i.X ((∫ r in i.s..i.t, i.ν r) + (i.ε ^ 4 / 2) • i.f0)
      + (1 / 2 : ℝ) • ∫ r in i.s..i.t, fyy i.s i.X (i.ν r) (i.ν r))
      = ∫ r in i.s..i.t, (f r (i.y r) - (i.f0 + (r - i.s) • ft i.s i.X + fy i.s i.X (i.ν r + (r - i.s) • i.f0)
        + (1 / 2 : ℝ) • fyy i.s i.X (i.ν r) (i.ν r))) := by
    have k1 : Continuous fun r => i.f0 + (r - i.s) • ft i.s i.X := continuous_const.add (cs _)
    have k2 : Continuous fun r => i.f0 + (r - i.s) • ft i.s i.X + fy i.s i.X (i.ν r + (r - i.s) • i.f0) := k1.add c1
    have k3 : Continuous fun r => (1 / 2 : ℝ) • fyy i.s i.X (i.ν r) (i.ν r) := cfyy.const_smul _
    have k4 : Continuous fun r => i.f0 + (r - i.s) • ft i.s i.X + fy i.s i.X (i.ν r + (r - i.s) • i.f0)
        + (1 / 2 : ℝ) • fyy i.s i.X (i.ν r) (i.ν r) := k2.add k3
    have k5 : Continuous fun r => i.ν r + (r - i.s) • i.f0 := cν.add (cs _)
    rw [intervalIntegral.integral_sub i1 (ii k4), intervalIntegral.integral_add (ii k2) (ii k3),
      intervalIntegral.integral_add (ii k1) (ii c1),
      intervalIntegral.integral_add (ii continuous_const) (ii (cs _)), intervalIntegral.integral_const,
      intervalIntegral.integral_smul_const, hq, intervalIntegral.integral_smul,
      ContinuousLinearMap.intervalIntegral_comp_comm _ (ii k5),
      intervalIntegral.integral_add (ii cν) (ii (cs _)), intervalIntegral.integral_smul_const, hq, i.t_sub]
    rfl
  rw [e]
  have hi3 : ∀ c : ℝ, IntervalIntegrable (fun r => c * (i.θ ^ 3 + i.β r ^ 3 / i.ε ^ 3)) volume i.s i.t := fun c =>
    (continuous_const.mul (continuous_const.add ((i.β_cont.pow 3).div_const _))).intervalIntegrable _ _
  have b1 : ‖∫ r in i.s..i.t, (f r (i.y r) - (i.f0 + (r - i.s) • ft i.s i.X + fy i.s i.X (i.ν r + (r - i.s) • i.f0)
        + (1 / 2 : ℝ) • fyy i.s i.X (i.ν r) (i.ν r)))‖
      ≤ ∫ r in i.s..i.t, (4 * C * i.ε ^ 3) * (i.θ ^ 3 + i.β r ^ 3 / i.ε ^ 3) := by
    refine intervalIntegral.norm_integral_le_of_norm_le hst (Filter.Eventually.of_forall fun r hr => ?_) (hi3 _)
    refine (ho ⟨i, r, hr.1.le, hr.2⟩).trans ?_
    have h1 : θ' (⟨i, r, hr.1.le, hr.2⟩ : At f g g' a b) ^ 3 ≤ 4 * (i.θ ^ 3 + i.β r ^ 3 / i.ε ^ 3) := by
      have := add_pow_le (zero_le_one.trans i.one_le_θ) (div_nonneg (i.β_nonneg r) hε.le) 3
      rw [div_pow] at this
      norm_num at this
      exact this
    calc C * (i.ε ^ 3 * θ' (⟨i, r, hr.1.le, hr.2⟩ : At f g g' a b) ^ 3)
        ≤ C * (i.ε ^ 3 * (4 * (i.θ ^ 3 + i.β r ^ 3 / i.ε ^ 3))) :=
          mul_le_mul_of_nonneg_left (mul_le_mul_of_nonneg_left h1 (by positivity)) hC
      _ = _ := by ring
  refine b1.trans (le_of_eq ?_)
  have k6 : Continuous fun r => i.β r ^ 3 / i.ε ^ 3 := (i.β_cont.pow 3).div_const _
  rw [intervalIntegral.integral_const_mul, intervalIntegral.integral_add intervalIntegrable_const
    (k6.intervalIntegrable _ _), intervalIntegral.integral_const, i.t_sub,
    intervalIntegral.integral_div, i.J3, smul_eq_mul]
  field_simp

end PathIx
end Verif
