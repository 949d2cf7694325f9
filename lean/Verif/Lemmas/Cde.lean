import Verif.Spec.Cde
import Mathlib.Analysis.Calculus.MeanValue
import Mathlib.Analysis.Calculus.ContDiff.RCLike
import Mathlib.Analysis.Calculus.ContDiff.Comp
import Mathlib.Analysis.Calculus.Deriv.Pow
import Mathlib.Topology.MetricSpace.Lipschitz

/-!
# A step of a Runge-Kutta method for a controlled differential equation

Time is one of the controls here: the index `l` runs through all controls.
-/

set_option linter.unusedSectionVars false

namespace Verif
open Set Finset

/-- Discrete Gronwall inequality. -/
theorem gronwall_range {u : ℕ → ℝ} {α β : ℝ} (hα : 0 ≤ α) (hβ : 0 ≤ β) {n : ℕ}
    (hu : ∀ i < n, u i ≤ α + β * ∑ j ∈ range i, u j) : ∀ i < n, u i ≤ α * (1 + β) ^ n := by
  have hsum : ∀ i ≤ n, α + β * ∑ j ∈ range i, u j ≤ α * (1 + β) ^ i := by
    intro i
    induction i with
    | zero => intro _; simp
    | succ i ih =>
      intro hi
      rw [sum_range_succ]
      have h1 := ih (by omega)
      have h2 := hu i (by omega)
      have h3 : β * u i ≤ β * (α * (1 + β) ^ i) := mul_le_mul_of_nonneg_left (h2.trans h1) hβ
      calc α + β * (∑ j ∈ range i, u j + u i) = (α + β * ∑ j ∈ range i, u j) + β * u i := by ring
        _ ≤ α * (1 + β) ^ i + β * (α * (1 + β) ^ i) := add_le_add h1 h3
        _ = α * (1 + β) ^ (i + 1) := by ring
  intro i hi
  refine (hu i hi).trans ((hsum i hi.le).trans ?_)
  exact mul_le_mul_of_nonneg_left (pow_le_pow_right₀ (by linarith) hi.le) hα

theorem hasDerivAt_sub_sq (s u : ℝ) : HasDerivAt (fun u : ℝ => (u - s) ^ 2) (2 * (u - s)) u := by
  have := ((hasDerivAt_id' u).sub_const s).fun_pow 2
  refine this.congr_deriv ?_
  simp

theorem hasDerivAt_sub_cube (s u : ℝ) : HasDerivAt (fun u : ℝ => (u - s) ^ 3) (3 * (u - s) ^ 2) u := by
  have := ((hasDerivAt_id' u).sub_const s).fun_pow 3
  refine this.congr_deriv ?_
  simp

/-- A twice differentiable function is approximated to second order by its derivative, uniformly near a compact set. -/
theorem taylor_near_compact {X Y : Type} [NormedAddCommGroup X] [NormedSpace ℝ X] [NormedAddCommGroup Y]
    [NormedSpace ℝ Y] {φ : X → Y} (hφ : ContDiff ℝ 2 φ) {K : Set X} (hK : IsCompact K) :
    ∃ ε > 0, ∃ Λ, 0 ≤ Λ ∧ ∀ p ∈ K, ∀ q, ‖q - p‖ ≤ ε → ‖φ q - φ p - fderiv ℝ φ p (q - p)‖ ≤ Λ * ‖q - p‖ ^ 2 := by
  refine hK.induction_on (p := fun s => ∃ ε > 0, ∃ Λ, 0 ≤ Λ ∧ ∀ p ∈ s, ∀ q, ‖q - p‖ ≤ ε →
    ‖φ q - φ p - fderiv ℝ φ p (q - p)‖ ≤ Λ * ‖q - p‖ ^ 2) ?_ ?_ ?_ ?_
  · exact ⟨1, one_pos, 0, le_rfl, fun p hp => absurd hp (notMem_empty p)⟩
  · rintro s t hst ⟨ε, hε, Λ, hΛ, h⟩
    exact ⟨ε, hε, Λ, hΛ, fun p hp => h p (hst hp)⟩
  · rintro s t ⟨ε, hε, Λ, hΛ, h⟩ ⟨ε', hε', Λ', hΛ', h'⟩
    refine ⟨min ε ε', lt_min hε hε', max Λ Λ', le_max_of_le_left hΛ, ?_⟩
    rintro p (hp | hp) q hq
    · exact (h p hp q (hq.trans (min_le_left _ _))).trans
        (mul_le_mul_of_nonneg_right (le_max_left _ _) (by positivity))
    · exact (h' p hp q (hq.trans (min_le_right _ _))).trans
        (mul_le_mul_of_nonneg_right (le_max_right _ _) (by positivity))
  · intro p₀ _
    have h1 : ContDiff ℝ 1 (fderiv ℝ φ) := hφ.fderiv_right (by norm_num)
    obtain ⟨Λ, s, hs, hlip⟩ := h1.contDiffAt (x := p₀).exists_lipschitzOnWith
    obtain ⟨r, hr, hrs⟩ := Metric.mem_nhds_iff.1 hs
    refine ⟨Metric.ball p₀ (r / 2), mem_nhdsWithin_of_mem_nhds (Metric.ball_mem_nhds _ (by linarith)), r / 4,
      by linarith, Λ, Λ.2, ?_⟩
    intro p hp q hq
    have hsub : Metric.closedBall p ‖q - p‖ ⊆ Metric.ball p₀ r := by
      intro z hz
      have a1 : dist z p ≤ r / 4 := le_trans (Metric.mem_closedBall.1 hz) hq
      have a2 : dist p p₀ < r / 2 := Metric.mem_ball.1 hp
      exact Metric.mem_ball.2 (by linarith [dist_triangle z p p₀])
    have hpp : p ∈ Metric.closedBall p ‖q - p‖ := Metric.mem_closedBall_self (norm_nonneg _)
    have hqq : q ∈ Metric.closedBall p ‖q - p‖ := Metric.mem_closedBall.2 (by rw [dist_eq_norm])
    have := (convex_closedBall p ‖q - p‖).norm_image_sub_le_of_norm_fderiv_le' (𝕜 := ℝ) (f := φ)
      (φ := fderiv ℝ φ p) (C := Λ * ‖q - p‖) (fun z _ => hφ.differentiable (by norm_num) z) (fun z hz => by
        have := hlip.dist_le_mul z (hrs (hsub hz)) p (hrs (hsub hpp))
        rw [dist_eq_norm] at this
        exact this.trans (mul_le_mul_of_nonneg_left (Metric.mem_closedBall.1 hz) Λ.2)) hpp hqq
    rw [mul_assoc, ← sq] at this
    exact this

section
variable {E ι : Type} [NormedAddCommGroup E] [NormedSpace ℝ E] [Fintype ι]
  {g : ι → ℝ → E → E} {w w' : ℝ → ι → ℝ} {y : ℝ → E} {a b L M : ℝ}

/-- The hypotheses, with time as one of the controls. -/
structure Controlled (g : ι → ℝ → E → E) (w w' : ℝ → ι → ℝ) (y : ℝ → E) (a b L M : ℝ) : Prop where
  le : a ≤ b
  L0 : 0 ≤ L
  M0 : 0 ≤ M
  field : ∀ l, LipschitzField (g l) a b L
  wcont : ∀ l, ContinuousOn (fun t => w t l) (Icc a b)
  speed : ∀ t ∈ Ico a b, ∀ l, HasDerivWithinAt (fun u => w u l) (w' t l) (Ici t) t
  bound : ∀ t ∈ Ico a b, ∀ l, |w' t l| ≤ M
  ycont : ContinuousOn y (Icc a b)
  solves : ∀ t ∈ Ico a b, HasDerivWithinAt y (∑ l, w' t l • g l t (y t)) (Ici t) t

theorem sum_smul_bound {x : ι → ℝ} {G : ι → E} {B C : ℝ} (hB : 0 ≤ B) (hx : ∀ l, |x l| ≤ B) (hG : ∀ l, ‖G l‖ ≤ C) :
    ‖∑ l, x l • G l‖ ≤ Fintype.card ι * (B * C) := by
  refine (norm_sum_le _ _).trans ?_
  calc ∑ l, ‖x l • G l‖ ≤ ∑ _l : ι, B * C := sum_le_sum fun l _ => by
        rw [norm_smul, Real.norm_eq_abs]
        exact mul_le_mul (hx l) (hG l) (norm_nonneg _) hB
    _ = _ := by simp

namespace Controlled

theorem incr (h : Controlled g w w' y a b L M) {s t : ℝ} (hs : a ≤ s) (hst : s ≤ t) (ht : t ≤ b) (l : ι) :
    |w t l - w s l| ≤ M * (t - s) := by
  have := norm_image_sub_le_of_norm_deriv_right_le_segment (f := fun u => w u l) (f' := fun u => w' u l) (C := M)
    ((h.wcont l).mono (Icc_subset_Icc hs ht)) (fun u hu => h.speed u ⟨hs.trans hu.1, hu.2.trans_le ht⟩ l)
    (fun u hu => h.bound u ⟨hs.trans hu.1, hu.2.trans_le ht⟩ l) t ⟨hst, le_rfl⟩
  exact this

/-- Bounds along the solution. -/
theorem along (h : Controlled g w w' y a b L M) : ∃ R Q, 0 ≤ R ∧ 0 ≤ Q ∧ (∀ t ∈ Icc a b, ‖y t‖ ≤ R) ∧
    ∀ t ∈ Icc a b, ∀ l, ‖g l t (y t)‖ ≤ Q := by
  obtain ⟨R, hR⟩ := isCompact_Icc.exists_bound_of_continuousOn h.ycont
  have hR0 : 0 ≤ R := (norm_nonneg _).trans (hR a (left_mem_Icc.2 h.le))
  have hab : 0 ≤ b - a := sub_nonneg.2 h.le
  have hL := h.L0
  refine ⟨R, ∑ l, (‖g l a 0‖ + L * (b - a) + L * R), hR0, sum_nonneg fun l _ => by positivity, hR, ?_⟩
  intro t ht l
  refine le_trans ?_ (single_le_sum (f := fun l => ‖g l a 0‖ + L * (b - a) + L * R) (fun l _ => by positivity)
    (mem_univ l))
  have h1 := (h.field l).space t ht (y t) 0
  have h2 := (h.field l).time a (left_mem_Icc.2 h.le) t ht 0
  rw [sub_zero] at h1
  rw [norm_zero, add_zero, mul_one, abs_of_nonneg (sub_nonneg.2 ht.1)] at h2
  have e : g l t (y t) = g l a 0 + (g l t 0 - g l a 0) + (g l t (y t) - g l t 0) := by abel
  rw [e]
  refine (norm_add_le _ _).trans (add_le_add ((norm_add_le _ _).trans (add_le_add le_rfl ?_)) ?_)
  · exact h2.trans (mul_le_mul_of_nonneg_left (by linarith [ht.2]) hL)
  · exact h1.trans (mul_le_mul_of_nonneg_left (hR t ht) hL)

theorem ylip (h : Controlled g w w' y a b L M) {Q : ℝ} (hQ : ∀ t ∈ Icc a b, ∀ l, ‖g l t (y t)‖ ≤ Q) {s t : ℝ}
    (hs : a ≤ s) (hst : s ≤ t) (ht : t ≤ b) : ‖y t - y s‖ ≤ Fintype.card ι * (M * Q) * (t - s) :=
  norm_image_sub_le_of_norm_deriv_right_le_segment (h.ycont.mono (Icc_subset_Icc hs ht))
    (fun u hu => h.solves u ⟨hs.trans hu.1, hu.2.trans_le ht⟩)
    (fun u hu => sum_smul_bound h.M0 (h.bound u ⟨hs.trans hu.1, hu.2.trans_le ht⟩)
      (hQ u ⟨hs.trans hu.1, (hu.2.trans_le ht).le⟩)) t ⟨hst, le_rfl⟩

/-- Along the solution the vector fields change at a finite rate. -/
theorem glip (h : Controlled g w w' y a b L M) : ∃ S, 0 ≤ S ∧ ∀ s t, a ≤ s → s ≤ t → t ≤ b → ∀ l,
    ‖g l t (y t) - g l s (y s)‖ ≤ S * (t - s) := by
  obtain ⟨R, Q, hR0, hQ0, hR, hQ⟩ := h.along
  have hL := h.L0
  have hM := h.M0
  refine ⟨L * (1 + R) + L * (Fintype.card ι * (M * Q)), by positivity, fun s t hs hst ht l => ?_⟩
  have hsI : s ∈ Icc a b := ⟨hs, hst.trans ht⟩
  have htI : t ∈ Icc a b := ⟨hs.trans hst, ht⟩
  have h1 := (h.field l).time s hsI t htI (y s)
  have h2 := (h.field l).space t htI (y t) (y s)
  rw [abs_of_nonneg (sub_nonneg.2 hst)] at h1
  have e : g l t (y t) - g l s (y s) = (g l t (y s) - g l s (y s)) + (g l t (y t) - g l t (y s)) := by abel
  have hts := sub_nonneg.2 hst
  rw [e]
  calc _ ≤ L * (t - s) * (1 + R) + L * (Fintype.card ι * (M * Q) * (t - s)) :=
        (norm_add_le _ _).trans (add_le_add (h1.trans (mul_le_mul_of_nonneg_left (by linarith [hR s hsI])
          (by positivity))) (h2.trans (mul_le_mul_of_nonneg_left (h.ylip hQ hs hst ht) hL)))
    _ = _ := by ring

/-- The increment of the solution over a short time. -/
theorem exact_first (h : Controlled g w w' y a b L M) : ∃ C, 0 ≤ C ∧ ∀ s t, a ≤ s → s ≤ t → t ≤ b →
    ‖y t - y s - ∑ l, (w t l - w s l) • g l s (y s)‖ ≤ C * (t - s) ^ 2 := by
  obtain ⟨S, hS0, hS⟩ := h.glip
  have hM := h.M0
  refine ⟨Fintype.card ι * (M * S) / 2, by positivity, fun s t hs hst ht => ?_⟩
  have := image_norm_le_of_norm_deriv_right_le_deriv_boundary (a := s) (b := t)
    (f := fun u => y u - y s - ∑ l, (w u l - w s l) • g l s (y s))
    (f' := fun u => ∑ l, w' u l • g l u (y u) - ∑ l, w' u l • g l s (y s))
    (B := fun u => Fintype.card ι * (M * S) / 2 * (u - s) ^ 2)
    (B' := fun u => Fintype.card ι * (M * S) / 2 * (2 * (u - s)))
    (((h.ycont.mono (Icc_subset_Icc hs ht)).sub continuousOn_const).sub
      (continuousOn_finsetSum _ fun l _ => ((((h.wcont l).mono (Icc_subset_Icc hs ht)).sub continuousOn_const).smul
        continuousOn_const)))
    (fun u hu => by
      have hu' : u ∈ Ico a b := ⟨hs.trans hu.1, hu.2.trans_le ht⟩
      refine ((h.solves u hu').sub_const _).sub (HasDerivWithinAt.fun_sum fun l _ => ?_)
      exact ((h.speed u hu' l).sub_const _).smul_const _)
    (by simp) (fun u => (hasDerivAt_sub_sq s u).const_mul _)
    (fun u hu => by
      rw [← sum_sub_distrib]
      simp only [← smul_sub]
      have := sum_smul_bound hM (h.bound u ⟨hs.trans hu.1, hu.2.trans_le ht⟩)
        (hS s u hs hu.1 (hu.2.le.trans ht))
      calc _ ≤ _ := this
        _ = _ := by ring)
    ⟨hst, le_rfl⟩
  exact this

/-- The derivative of the solution is Lipschitz if the speed of the control is. -/
theorem derivlip (h : Controlled g w w' y a b L M)
    (hw : ∀ s ∈ Ico a b, ∀ t ∈ Ico a b, ∀ l, |w' t l - w' s l| ≤ M * |t - s|) : ∃ C, 0 ≤ C ∧ ∀ s t, a ≤ s → s ≤ t →
    t < b → ‖∑ l, w' t l • g l t (y t) - ∑ l, w' s l • g l s (y s)‖ ≤ C * (t - s) := by
  obtain ⟨R, Q, hR0, hQ0, hR, hQ⟩ := h.along
  obtain ⟨S, hS0, hS⟩ := h.glip
  have hM := h.M0
  refine ⟨Fintype.card ι * (M * S) + Fintype.card ι * (M * Q), by positivity, fun s t hs hst ht => ?_⟩
  have hsI : s ∈ Ico a b := ⟨hs, hst.trans_lt ht⟩
  have htI : t ∈ Ico a b := ⟨hs.trans hst, ht⟩
  have hts := sub_nonneg.2 hst
  have e : ∑ l, w' t l • g l t (y t) - ∑ l, w' s l • g l s (y s)
      = ∑ l, w' t l • (g l t (y t) - g l s (y s)) + ∑ l, (w' t l - w' s l) • g l s (y s) := by
    simp only [smul_sub, sub_smul, sum_sub_distrib]; abel
  rw [e]
  have h1 := sum_smul_bound hM (h.bound t htI) (hS s t hs hst ht.le)
  have h2 := sum_smul_bound (B := M * (t - s)) (by positivity) (fun l => by
    have := hw s hsI t htI l
    rwa [abs_of_nonneg hts] at this) (hQ s ⟨hs, hsI.2.le⟩)
  calc _ ≤ Fintype.card ι * (M * (S * (t - s))) + Fintype.card ι * (M * (t - s) * Q) :=
        (norm_add_le _ _).trans (add_le_add h1 h2)
    _ = _ := by ring

/-- The tangent of the solution. -/
theorem tangent (h : Controlled g w w' y a b L M)
    (hw : ∀ s ∈ Ico a b, ∀ t ∈ Ico a b, ∀ l, |w' t l - w' s l| ≤ M * |t - s|) : ∃ C, 0 ≤ C ∧ ∀ s t, a ≤ s → s ≤ t →
    t ≤ b → s < b → ‖y t - y s - (t - s) • ∑ l, w' s l • g l s (y s)‖ ≤ C * (t - s) ^ 2 := by
  obtain ⟨S, hS0, hS⟩ := h.derivlip hw
  refine ⟨S / 2, by positivity, fun s t hs hst ht _ => ?_⟩
  have := image_norm_le_of_norm_deriv_right_le_deriv_boundary (a := s) (b := t)
    (f := fun u => y u - y s - (u - s) • ∑ l, w' s l • g l s (y s))
    (f' := fun u => ∑ l, w' u l • g l u (y u) - (1 : ℝ) • ∑ l, w' s l • g l s (y s))
    (B := fun u => S / 2 * (u - s) ^ 2) (B' := fun u => S / 2 * (2 * (u - s)))
    (((h.ycont.mono (Icc_subset_Icc hs ht)).sub continuousOn_const).sub
      ((continuousOn_id.sub continuousOn_const).smul continuousOn_const))
    (fun u hu => ((h.solves u ⟨hs.trans hu.1, hu.2.trans_le ht⟩).sub_const _).sub
      ((((hasDerivAt_id u).sub_const s).smul_const _).hasDerivWithinAt))
    (by simp) (fun u => (hasDerivAt_sub_sq s u).const_mul _)
    (fun u hu => by
      rw [one_smul]
      exact (hS s u hs hu.1 (hu.2.trans_le ht)).trans (by linarith))
    ⟨hst, le_rfl⟩
  exact this

/-- The same for the control. -/
theorem wtangent (h : Controlled g w w' y a b L M)
    (hw : ∀ s ∈ Ico a b, ∀ t ∈ Ico a b, ∀ l, |w' t l - w' s l| ≤ M * |t - s|) {s t : ℝ} (hs : a ≤ s) (hst : s ≤ t)
    (ht : t ≤ b) (hsb : s < b) (l : ι) : |w t l - w s l - (t - s) * w' s l| ≤ M / 2 * (t - s) ^ 2 := by
  have := image_norm_le_of_norm_deriv_right_le_deriv_boundary (a := s) (b := t)
    (f := fun u => w u l - w s l - (u - s) * w' s l) (f' := fun u => w' u l - 1 * w' s l)
    (B := fun u => M / 2 * (u - s) ^ 2) (B' := fun u => M / 2 * (2 * (u - s)))
    ((((h.wcont l).mono (Icc_subset_Icc hs ht)).sub continuousOn_const).sub
      ((continuousOn_id.sub continuousOn_const).mul continuousOn_const))
    (fun u hu => ((h.speed u ⟨hs.trans hu.1, hu.2.trans_le ht⟩ l).sub_const _).sub
      ((((hasDerivAt_id u).sub_const s).mul_const _).hasDerivWithinAt))
    (by simp) (fun u => (hasDerivAt_sub_sq s u).const_mul _)
    (fun u hu => by
      rw [one_mul, Real.norm_eq_abs]
      have := hw s ⟨hs, hsb⟩ u ⟨hs.trans hu.1, hu.2.trans_le ht⟩ l
      rw [abs_of_nonneg (sub_nonneg.2 hu.1)] at this
      linarith)
    ⟨hst, le_rfl⟩
  exact this

/-- The vector fields near the solution, to second order. -/
theorem taylor (h : Controlled g w w' y a b L M) (hg : ∀ l, ContDiff ℝ 2 (fun p : ℝ × E => g l p.1 p.2)) :
    ∃ Λ D, 0 ≤ Λ ∧ 0 ≤ D ∧ ∃ T : ι → ℝ → ℝ × E →L[ℝ] E, (∀ s ∈ Icc a b, ∀ l, ‖T l s‖ ≤ D) ∧
      ∀ s ∈ Icc a b, ∀ t ∈ Icc a b, ∀ l z,
        ‖g l t (y s + z) - g l s (y s) - T l s (t - s, z)‖ ≤ Λ * (|t - s| + ‖z‖) ^ 2 := by
  obtain ⟨R, Q, hR0, hQ0, hR, hQ⟩ := h.along
  have hL := h.L0
  have hK : IsCompact ((fun s => (s, y s)) '' Icc a b) :=
    isCompact_Icc.image_of_continuousOn (continuousOn_id.prodMk h.ycont)
  choose ε hε Λ hΛ hT using fun l => taylor_near_compact (hg l) hK
  have hD : ∀ l, ∃ D, 0 ≤ D ∧ ∀ s ∈ Icc a b, ‖fderiv ℝ (fun p : ℝ × E => g l p.1 p.2) (s, y s)‖ ≤ D := by
    intro l
    have hc : Continuous (fderiv ℝ (fun p : ℝ × E => g l p.1 p.2)) := (hg l).continuous_fderiv (by norm_num)
    obtain ⟨D, hD⟩ := isCompact_Icc.exists_bound_of_continuousOn
      (hc.comp_continuousOn (continuousOn_id.prodMk h.ycont))
    exact ⟨D, (norm_nonneg _).trans (hD a (left_mem_Icc.2 h.le)), hD⟩
  choose D hD0 hD using hD
  have hΛ' : ∀ l, 0 ≤ Λ l + (L * (1 + R) + L + D l) / ε l := fun l => by
    have := hΛ l; have := hε l; have := hD0 l; positivity
  refine ⟨∑ l, (Λ l + (L * (1 + R) + L + D l) / ε l), ∑ l, D l, sum_nonneg fun l _ => hΛ' l,
    sum_nonneg fun l _ => hD0 l, fun l s => fderiv ℝ (fun p : ℝ × E => g l p.1 p.2) (s, y s), ?_, ?_⟩
  · intro s hs l
    exact (hD l s hs).trans (single_le_sum (f := D) (fun l _ => hD0 l) (mem_univ l))
  intro s hs t ht l z
  refine le_trans ?_ (mul_le_mul_of_nonneg_right (single_le_sum (f := fun l => Λ l + (L * (1 + R) + L + D l) / ε l)
    (fun l _ => hΛ' l) (mem_univ l)) (by positivity))
  have hz0 := norm_nonneg z
  have ht0 := abs_nonneg (t - s)
  have hpair : ‖((t - s, z) : ℝ × E)‖ ≤ |t - s| + ‖z‖ := by
    rw [Prod.norm_def]
    exact max_le (by simp only [Real.norm_eq_abs]; linarith) (by simp only; linarith)
  set q := |t - s| + ‖z‖ with hq
  have hq0 : 0 ≤ q := by positivity
  rw [add_mul]
  have hrest : 0 ≤ (L * (1 + R) + L + D l) / ε l := by have := hε l; have := hD0 l; positivity
  by_cases hqe : q ≤ ε l
  · have := hT l (s, y s) ⟨s, hs, rfl⟩ (t, y s + z) (by
      rw [Prod.mk_sub_mk, add_sub_cancel_left]; exact hpair.trans hqe)
    rw [Prod.mk_sub_mk, add_sub_cancel_left] at this
    refine (this.trans (mul_le_mul_of_nonneg_left (pow_le_pow_left₀ (norm_nonneg _) hpair 2) (hΛ l))).trans ?_
    have : 0 ≤ (L * (1 + R) + L + D l) / ε l * q ^ 2 := by positivity
    linarith
  · have hqe' : ε l ≤ q := (not_le.1 hqe).le
    have h1 := (h.field l).time s hs t ht (y s)
    have h2 := (h.field l).space t ht (y s + z) (y s)
    rw [add_sub_cancel_left] at h2
    have h3 : ‖fderiv ℝ (fun p : ℝ × E => g l p.1 p.2) (s, y s) (t - s, z)‖ ≤ D l * q :=
      (ContinuousLinearMap.le_opNorm _ _).trans (mul_le_mul (hD l s hs) hpair (norm_nonneg _) (hD0 l))
    have h1' : ‖g l t (y s) - g l s (y s)‖ ≤ L * (1 + R) * q := by
      refine h1.trans ?_
      calc L * |t - s| * (1 + ‖y s‖) ≤ L * q * (1 + R) := by
            have := hR s hs
            gcongr
            linarith
        _ = _ := by ring
    have h2' : ‖g l t (y s + z) - g l t (y s)‖ ≤ L * q := h2.trans (mul_le_mul_of_nonneg_left (by linarith) hL)
    have e : g l t (y s + z) - g l s (y s) - fderiv ℝ (fun p : ℝ × E => g l p.1 p.2) (s, y s) (t - s, z)
        = (g l t (y s) - g l s (y s)) + (g l t (y s + z) - g l t (y s))
          - fderiv ℝ (fun p : ℝ × E => g l p.1 p.2) (s, y s) (t - s, z) := by abel
    rw [e]
    have h4 : (L * (1 + R) + L + D l) * q ≤ (L * (1 + R) + L + D l) / ε l * q ^ 2 := by
      have h5 : q ≤ q ^ 2 / ε l := by
        rw [le_div_iff₀ (hε l), sq]; exact mul_le_mul_of_nonneg_left hqe' hq0
      have h6 : 0 ≤ L * (1 + R) + L + D l := by have := hD0 l; positivity
      calc _ ≤ (L * (1 + R) + L + D l) * (q ^ 2 / ε l) := mul_le_mul_of_nonneg_left h5 h6
        _ = _ := by ring
    have h7 : 0 ≤ Λ l * q ^ 2 := mul_nonneg (hΛ l) (by positivity)
    calc _ ≤ L * (1 + R) * q + L * q + D l * q :=
          (norm_sub_le _ _).trans (add_le_add ((norm_add_le _ _).trans (add_le_add h1' h2')) h3)
      _ = (L * (1 + R) + L + D l) * q := by ring
      _ ≤ _ := by linarith

/-- The increment of the solution over a short time, to second order. -/
theorem exact_second (h : Controlled g w w' y a b L M)
    (hw : ∀ s ∈ Ico a b, ∀ t ∈ Ico a b, ∀ l, |w' t l - w' s l| ≤ M * |t - s|) {Λ D : ℝ} (hΛ : 0 ≤ Λ) (hD0 : 0 ≤ D)
    {T : ι → ℝ → ℝ × E →L[ℝ] E} (hD : ∀ s ∈ Icc a b, ∀ l, ‖T l s‖ ≤ D)
    (hT : ∀ s ∈ Icc a b, ∀ t ∈ Icc a b, ∀ l z,
        ‖g l t (y s + z) - g l s (y s) - T l s (t - s, z)‖ ≤ Λ * (|t - s| + ‖z‖) ^ 2) :
    ∃ C, 0 ≤ C ∧ ∀ s t, a ≤ s → s ≤ t → t ≤ b →
      ‖y t - y s - ∑ l, (w t l - w s l) • g l s (y s)
        - (1 / 2 : ℝ) • ∑ l, (w t l - w s l) • T l s (t - s, ∑ l, (w t l - w s l) • g l s (y s))‖
      ≤ C * (t - s) ^ 3 := by
  obtain ⟨R, Q, hR0, hQ0, hR, hQ⟩ := h.along
  obtain ⟨C1, hC1, htan⟩ := h.tangent hw
  have hM := h.M0
  set m : ℝ := ((Fintype.card ι : ℕ) : ℝ) with hm
  have hm0 : 0 ≤ m := Nat.cast_nonneg _
  set Y := m * (M * Q) with hY
  have hY0 : 0 ≤ Y := by positivity
  set K := m * (M * (Λ * (1 + Y) ^ 2 + D * C1)) + m * (M * (D * (1 + Y))) with hK
  have hK0 : 0 ≤ K := by positivity
  set K' := m * (M / 2 * (D * (1 + Y))) + m * (M * (D * (m * (M / 2 * Q)))) with hK'
  have hK'0 : 0 ≤ K' := by positivity
  refine ⟨K / 3 + K' / 2, by positivity, fun s t hs hst ht => ?_⟩
  rcases eq_or_lt_of_le hst with rfl | hlt
  · have h0 : ((0 : ℝ), (0 : E)) = 0 := rfl
    simp [h0]
  have hsb : s < b := hlt.trans_le ht
  have hsI : s ∈ Icc a b := ⟨hs, hsb.le⟩
  have hsI' : s ∈ Ico a b := ⟨hs, hsb⟩
  set F0 := ∑ l, w' s l • g l s (y s) with hF0
  have hF0n : ‖F0‖ ≤ Y := sum_smul_bound hM (h.bound s hsI') (hQ s hsI)
  have hp1 : ‖((1 : ℝ), F0)‖ ≤ 1 + Y := by
    rw [Prod.norm_def]
    exact max_le (by simp only [norm_one]; linarith) (by simp only; linarith)
  have hT1 : ∀ l, ‖T l s (1, F0)‖ ≤ D * (1 + Y) := fun l =>
    (ContinuousLinearMap.le_opNorm _ _).trans (mul_le_mul (hD s hsI l) hp1 (norm_nonneg _) hD0)
  have main := image_norm_le_of_norm_deriv_right_le_deriv_boundary (a := s) (b := t)
    (f := fun u => y u - y s - ∑ l, (w u l - w s l) • g l s (y s)
      - (u - s) ^ 2 • (1 / 2 : ℝ) • ∑ l, w' s l • T l s (1, F0))
    (f' := fun u => ∑ l, w' u l • g l u (y u) - ∑ l, w' u l • g l s (y s)
      - (2 * (u - s)) • (1 / 2 : ℝ) • ∑ l, w' s l • T l s (1, F0))
    (B := fun u => K / 3 * (u - s) ^ 3) (B' := fun u => K / 3 * (3 * (u - s) ^ 2))
    ((((h.ycont.mono (Icc_subset_Icc hs ht)).sub continuousOn_const).sub
      (continuousOn_finsetSum _ fun l _ => ((((h.wcont l).mono (Icc_subset_Icc hs ht)).sub continuousOn_const).smul
        continuousOn_const))).sub (((continuousOn_id.sub continuousOn_const).pow 2).smul continuousOn_const))
    (fun u hu => by
      have hu' : u ∈ Ico a b := ⟨hs.trans hu.1, hu.2.trans_le ht⟩
      refine (((h.solves u hu').sub_const _).sub (HasDerivWithinAt.fun_sum fun l _ => ?_)).sub
        ((hasDerivAt_sub_sq s u).smul_const _).hasDerivWithinAt
      exact ((h.speed u hu' l).sub_const _).smul_const _)
    (by simp) (fun u => (hasDerivAt_sub_cube s u).const_mul _)
    (fun u hu => by
      have hu' : u ∈ Ico a b := ⟨hs.trans hu.1, hu.2.trans_le ht⟩
      have huI : u ∈ Icc a b := ⟨hu'.1, hu'.2.le⟩
      have hus : 0 ≤ u - s := sub_nonneg.2 hu.1
      have hyu := h.ylip hQ hs hu.1 huI.2
      have e : ∑ l, w' u l • g l u (y u) - ∑ l, w' u l • g l s (y s)
          - (2 * (u - s)) • (1 / 2 : ℝ) • ∑ l, w' s l • T l s (1, F0)
          = ∑ l, w' u l • ((g l u (y u) - g l s (y s) - T l s (u - s, y u - y s))
              + T l s (0, y u - y s - (u - s) • F0))
            + ∑ l, (w' u l - w' s l) • ((u - s) • T l s (1, F0)) := by
        rw [smul_smul, show 2 * (u - s) * (1 / 2) = u - s by ring, smul_sum, ← sum_sub_distrib, ← sum_sub_distrib,
          ← sum_add_distrib]
        refine sum_congr rfl fun l _ => ?_
        have e1 : T l s (u - s, y u - y s) = (u - s) • T l s (1, F0) + T l s (0, y u - y s - (u - s) • F0) := by
          rw [← map_smul, ← map_add]
          congr 1
          ext
          · simp
          · simp
        rw [e1]
        module
      rw [e]
      have b1 : ∀ l, ‖(g l u (y u) - g l s (y s) - T l s (u - s, y u - y s))
              + T l s (0, y u - y s - (u - s) • F0)‖ ≤ (Λ * (1 + Y) ^ 2 + D * C1) * (u - s) ^ 2 := by
        intro l
        have t1 := hT s hsI u huI l (y u - y s)
        rw [add_sub_cancel, abs_of_nonneg hus] at t1
        have t2 : ‖T l s (0, y u - y s - (u - s) • F0)‖ ≤ D * (C1 * (u - s) ^ 2) := by
          refine (ContinuousLinearMap.le_opNorm _ _).trans (mul_le_mul (hD s hsI l) ?_ (norm_nonneg _) hD0)
          rw [Prod.norm_def]
          refine max_le (by simp only [norm_zero]; positivity) (htan s u hs hu.1 huI.2 hsb)
        have t3 : Λ * (u - s + ‖y u - y s‖) ^ 2 ≤ Λ * ((1 + Y) ^ 2 * (u - s) ^ 2) := by
          rw [← mul_pow]
          have : u - s + ‖y u - y s‖ ≤ (1 + Y) * (u - s) := by linarith
          gcongr
        calc _ ≤ Λ * ((1 + Y) ^ 2 * (u - s) ^ 2) + D * (C1 * (u - s) ^ 2) :=
              (norm_add_le _ _).trans (add_le_add (t1.trans t3) t2)
          _ = _ := by ring
      have b2 : ∀ l, ‖(u - s) • T l s (1, F0)‖ ≤ (u - s) * (D * (1 + Y)) := fun l => by
        rw [norm_smul, Real.norm_of_nonneg hus]
        exact mul_le_mul_of_nonneg_left (hT1 l) hus
      have c1 := sum_smul_bound hM (h.bound u hu') b1
      have c2 := sum_smul_bound (B := M * (u - s)) (by positivity) (fun l => by
        have := hw s hsI' u hu' l
        rwa [abs_of_nonneg hus] at this) b2
      calc _ ≤ m * (M * ((Λ * (1 + Y) ^ 2 + D * C1) * (u - s) ^ 2)) + m * (M * (u - s) * ((u - s) * (D * (1 + Y)))) :=
            (norm_add_le _ _).trans (add_le_add c1 c2)
        _ = K / 3 * (3 * (u - s) ^ 2) := by rw [hK]; ring)
    ⟨hst, le_rfl⟩
  have hts : 0 ≤ t - s := sub_nonneg.2 hst
  set G0 := ∑ l, (w t l - w s l) • g l s (y s) with hG0
  have hG0n : ‖G0‖ ≤ (t - s) * Y := by
    have := sum_smul_bound (B := M * (t - s)) (by positivity) (fun l => h.incr hs hst ht l) (hQ s hsI)
    refine this.trans (le_of_eq ?_)
    rw [hY]; ring
  have hGF : ‖G0 - (t - s) • F0‖ ≤ m * (M / 2 * Q) * (t - s) ^ 2 := by
    have e : G0 - (t - s) • F0 = ∑ l, (w t l - w s l - (t - s) * w' s l) • g l s (y s) := by
      rw [hF0, smul_sum, hG0, ← sum_sub_distrib]
      refine sum_congr rfl fun l _ => ?_
      module
    rw [e]
    have := sum_smul_bound (B := M / 2 * (t - s) ^ 2) (by positivity) (fun l => h.wtangent hw hs hst ht hsb l) (hQ s hsI)
    refine this.trans (le_of_eq ?_)
    ring
  have hdiff : ‖∑ l, (w t l - w s l) • T l s (t - s, G0) - (t - s) ^ 2 • ∑ l, w' s l • T l s (1, F0)‖
      ≤ K' * (t - s) ^ 3 := by
    have e : ∑ l, (w t l - w s l) • T l s (t - s, G0) - (t - s) ^ 2 • ∑ l, w' s l • T l s (1, F0)
        = ∑ l, (w t l - w s l - (t - s) * w' s l) • T l s (t - s, G0)
          + ∑ l, ((t - s) * w' s l) • T l s (0, G0 - (t - s) • F0) := by
      rw [smul_sum, ← sum_sub_distrib, ← sum_add_distrib]
      refine sum_congr rfl fun l _ => ?_
      have e1 : T l s (t - s, G0) = (t - s) • T l s (1, F0) + T l s (0, G0 - (t - s) • F0) := by
        rw [← map_smul, ← map_add]
        congr 1
        ext
        · simp
        · simp
      rw [e1]
      module
    rw [e]
    have b1 : ∀ l, ‖T l s (t - s, G0)‖ ≤ D * ((t - s) * (1 + Y)) := fun l => by
      refine (ContinuousLinearMap.le_opNorm _ _).trans (mul_le_mul (hD s hsI l) ?_ (norm_nonneg _) hD0)
      rw [Prod.norm_def]
      have : (t - s) * (1 + Y) = (t - s) + (t - s) * Y := by ring
      have h0 : 0 ≤ (t - s) * Y := by positivity
      exact max_le (by simp only [Real.norm_of_nonneg hts]; linarith) (by simp only; linarith)
    have b2 : ∀ l, ‖T l s (0, G0 - (t - s) • F0)‖ ≤ D * (m * (M / 2 * Q) * (t - s) ^ 2) := fun l => by
      refine (ContinuousLinearMap.le_opNorm _ _).trans (mul_le_mul (hD s hsI l) ?_ (norm_nonneg _) hD0)
      rw [Prod.norm_def]
      exact max_le (by simp only [norm_zero]; positivity) hGF
    have c1 := sum_smul_bound (B := M / 2 * (t - s) ^ 2) (by positivity)
      (fun l => h.wtangent hw hs hst ht hsb l) b1
    have c2 := sum_smul_bound (x := fun l => (t - s) * w' s l) (B := (t - s) * M) (by positivity) (fun l => by
      rw [abs_mul, abs_of_nonneg hts]
      exact mul_le_mul_of_nonneg_left (h.bound s hsI' l) hts) b2
    calc _ ≤ _ := (norm_add_le _ _).trans (add_le_add c1 c2)
      _ = K' * (t - s) ^ 3 := by rw [hK']; ring
  have e : y t - y s - G0 - (1 / 2 : ℝ) • ∑ l, (w t l - w s l) • T l s (t - s, G0)
      = (y t - y s - G0 - (t - s) ^ 2 • (1 / 2 : ℝ) • ∑ l, w' s l • T l s (1, F0))
        - (1 / 2 : ℝ) • (∑ l, (w t l - w s l) • T l s (t - s, G0) - (t - s) ^ 2 • ∑ l, w' s l • T l s (1, F0)) := by
    module
  rw [e]
  have h2 : ‖(1 / 2 : ℝ) • (∑ l, (w t l - w s l) • T l s (t - s, G0) - (t - s) ^ 2 • ∑ l, w' s l • T l s (1, F0))‖
      ≤ K' / 2 * (t - s) ^ 3 := by
    rw [norm_smul, Real.norm_of_nonneg (by norm_num : (0 : ℝ) ≤ 1 / 2)]
    linarith
  calc _ ≤ K / 3 * (t - s) ^ 3 + K' / 2 * (t - s) ^ 3 := (norm_sub_le _ _).trans (add_le_add main h2)
    _ = _ := by ring

end Controlled

/-! ### The stages -/

/-- `k` are the stages of a step of length `h` from `V` at time `s`, with increments `x` of the controls. -/
def CtrlStages (A : ℕ → ℕ → ℝ) (c : ℕ → ℝ) (n : ℕ) (g : ι → ℝ → E → E) (s h : ℝ) (x : ι → ℝ) (V : E) (k : ℕ → E) :
    Prop :=
  ∀ i < n, k i = ∑ l, x l • g l (s + c i * h) (V + ∑ j ∈ range i, A i j • k j)

variable {A : ℕ → ℕ → ℝ} {c : ℕ → ℝ} {n : ℕ} {Amax : ℝ}

theorem norm_sum_smul_le {k : ℕ → E} {i : ℕ} (hA : ∀ j < i, |A i j| ≤ Amax) :
    ‖∑ j ∈ range i, A i j • k j‖ ≤ Amax * ∑ j ∈ range i, ‖k j‖ := by
  refine (norm_sum_le _ _).trans ?_
  rw [mul_sum]
  refine sum_le_sum fun j hj => ?_
  rw [norm_smul, Real.norm_eq_abs]
  exact mul_le_mul_of_nonneg_right (hA j (Finset.mem_range.1 hj)) (norm_nonneg _)

theorem stage_time {s h ci : ℝ} (hs : a ≤ s) (hsh : s + h ≤ b) (hh : 0 ≤ h) (h0 : 0 ≤ ci) (h1 : ci ≤ 1) :
    s + ci * h ∈ Icc a b ∧ |s + ci * h - s| ≤ h := by
  have h2 : 0 ≤ ci * h := mul_nonneg h0 hh
  have h3 : ci * h ≤ h := by nlinarith
  refine ⟨⟨by linarith, by linarith⟩, ?_⟩
  rw [add_sub_cancel_left, abs_of_nonneg h2]; exact h3

/-- The stages depend on the value as a short step should. -/
theorem stages_lip (hL : 0 ≤ L) (hM : 0 ≤ M) (hg : ∀ l, LipschitzField (g l) a b L)
    (hA : ∀ i < n, ∀ j < i, |A i j| ≤ Amax) (hA0 : 0 ≤ Amax) (hc : ∀ i < n, 0 ≤ c i ∧ c i ≤ 1) :
    ∃ C, 0 ≤ C ∧ ∀ s h x V V' k k', a ≤ s → s + h ≤ b → 0 ≤ h → (∀ l, |x l| ≤ M * h) →
      CtrlStages A c n g s h x V k → CtrlStages A c n g s h x V' k' → ∀ i < n, ‖k i - k' i‖ ≤ C * h * ‖V - V'‖ := by
  by_cases hab : a ≤ b
  swap
  · exact ⟨0, le_rfl, fun s h x V V' k k' h1 h2 h3 => absurd (show a ≤ b by linarith) hab⟩
  set m : ℝ := ((Fintype.card ι : ℕ) : ℝ) with hm
  have hm0 : 0 ≤ m := Nat.cast_nonneg _
  have hH : 0 ≤ b - a := sub_nonneg.2 hab
  refine ⟨m * M * L * (1 + m * M * L * (b - a) * Amax) ^ n, by positivity, ?_⟩
  intro s h x V V' k k' hs hsh hh hx hk hk'
  have hhH : h ≤ b - a := by linarith
  have key := gronwall_range (u := fun i => ‖k i - k' i‖) (α := m * M * L * h * ‖V - V'‖)
    (β := m * M * L * (b - a) * Amax) (n := n) (by positivity) (by positivity) (fun i hi => by
      have e : k i - k' i = ∑ l, x l • (g l (s + c i * h) (V + ∑ j ∈ range i, A i j • k j)
          - g l (s + c i * h) (V' + ∑ j ∈ range i, A i j • k' j)) := by
        rw [hk i hi, hk' i hi]; simp only [smul_sub, sum_sub_distrib]
      have hti := stage_time hs hsh hh (hc i hi).1 (hc i hi).2
      set S := ∑ j ∈ range i, ‖k j - k' j‖ with hS
      have hS0 : 0 ≤ S := sum_nonneg fun _ _ => norm_nonneg _
      have hz : ‖(V + ∑ j ∈ range i, A i j • k j) - (V' + ∑ j ∈ range i, A i j • k' j)‖ ≤ ‖V - V'‖ + Amax * S := by
        have e' : (V + ∑ j ∈ range i, A i j • k j) - (V' + ∑ j ∈ range i, A i j • k' j)
            = (V - V') + ∑ j ∈ range i, A i j • (k j - k' j) := by
          simp only [smul_sub, sum_sub_distrib]; abel
        rw [e']
        exact (norm_add_le _ _).trans (add_le_add le_rfl (norm_sum_smul_le (hA i hi)))
      have hb := sum_smul_bound (B := M * h) (by positivity) hx (fun l => ((hg l).space _ hti.1 _ _).trans
        (mul_le_mul_of_nonneg_left hz hL))
      show ‖k i - k' i‖ ≤ _
      rw [e]
      calc _ ≤ m * (M * h * (L * (‖V - V'‖ + Amax * S))) := hb
        _ = m * M * L * h * ‖V - V'‖ + m * M * L * h * Amax * S := by ring
        _ ≤ m * M * L * h * ‖V - V'‖ + m * M * L * (b - a) * Amax * S := by gcongr)
  intro i hi
  refine (key i hi).trans (le_of_eq ?_)
  ring

namespace Controlled

/-- The stages of a step from the solution. -/
theorem stages_first (h : Controlled g w w' y a b L M)
    (hA : ∀ i < n, ∀ j < i, |A i j| ≤ Amax) (hA0 : 0 ≤ Amax) (hc : ∀ i < n, 0 ≤ c i ∧ c i ≤ 1) :
    ∃ C, 0 ≤ C ∧ ∀ s t k, a ≤ s → s ≤ t → t ≤ b →
      CtrlStages A c n g s (t - s) (fun l => w t l - w s l) (y s) k → ∀ i < n,
      ‖∑ j ∈ range i, A i j • k j‖ ≤ C * (t - s) ∧
      ‖k i - ∑ l, (w t l - w s l) • g l s (y s)‖ ≤ C * (t - s) ^ 2 := by
  obtain ⟨R, Q, hR0, hQ0, hR, hQ⟩ := h.along
  have hL := h.L0
  have hM := h.M0
  set m : ℝ := ((Fintype.card ι : ℕ) : ℝ) with hm
  have hm0 : 0 ≤ m := Nat.cast_nonneg _
  have hH : 0 ≤ b - a := sub_nonneg.2 h.le
  set C1 := m * M * (Q + L * (b - a) * (1 + R)) * (1 + m * M * L * (b - a) * Amax) ^ n with hC1
  have hC10 : 0 ≤ C1 := by positivity
  set C2 := m * M * (L * (1 + R) + L * (Amax * (n * C1))) with hC2
  have hC20 : 0 ≤ C2 := by positivity
  have hC3 : 0 ≤ Amax * (n * C1) := by positivity
  refine ⟨Amax * (n * C1) + C2, by positivity, ?_⟩
  intro s t k hs hst ht hk
  have hts : 0 ≤ t - s := sub_nonneg.2 hst
  have htH : t - s ≤ b - a := by linarith
  have hsI : s ∈ Icc a b := ⟨hs, hst.trans ht⟩
  have hx : ∀ l, |w t l - w s l| ≤ M * (t - s) := h.incr hs hst ht
  have hdist : ∀ i < n, ∀ z l, ‖g l (s + c i * (t - s)) (y s + z) - g l s (y s)‖
      ≤ L * (t - s) * (1 + R) + L * ‖z‖ := by
    intro i hi z l
    have hti := stage_time (b := b) hs (by linarith) hts (hc i hi).1 (hc i hi).2
    have h1 := (h.field l).time s hsI _ hti.1 (y s)
    have h2 := (h.field l).space _ hti.1 (y s + z) (y s)
    rw [add_sub_cancel_left] at h2
    have e : g l (s + c i * (t - s)) (y s + z) - g l s (y s) = (g l (s + c i * (t - s)) (y s) - g l s (y s))
        + (g l (s + c i * (t - s)) (y s + z) - g l (s + c i * (t - s)) (y s)) := by abel
    rw [e]
    refine (norm_add_le _ _).trans (add_le_add (h1.trans ?_) h2)
    have := hR s hsI
    have := hti.2
    gcongr
  have key := gronwall_range (u := fun i => ‖k i‖) (α := m * M * (Q + L * (b - a) * (1 + R)) * (t - s))
    (β := m * M * L * (b - a) * Amax) (n := n) (by positivity) (by positivity) (fun i hi => by
      show ‖k i‖ ≤ _
      rw [hk i hi]
      set S := ∑ j ∈ range i, ‖k j‖ with hS
      have hS0 : 0 ≤ S := sum_nonneg fun _ _ => norm_nonneg _
      have hz : ‖∑ j ∈ range i, A i j • k j‖ ≤ Amax * S := norm_sum_smul_le (hA i hi)
      have hb : ∀ l, ‖g l (s + c i * (t - s)) (y s + ∑ j ∈ range i, A i j • k j)‖
          ≤ Q + L * (b - a) * (1 + R) + L * (Amax * S) := by
        intro l
        have h1 := hdist i hi (∑ j ∈ range i, A i j • k j) l
        have h2 := norm_le_norm_add_norm_sub' (g l (s + c i * (t - s)) (y s + ∑ j ∈ range i, A i j • k j))
          (g l s (y s))
        have h3 : L * (t - s) * (1 + R) ≤ L * (b - a) * (1 + R) := by gcongr
        have h4 := mul_le_mul_of_nonneg_left hz hL
        linarith [hQ s hsI l]
      calc _ ≤ m * (M * (t - s) * (Q + L * (b - a) * (1 + R) + L * (Amax * S))) :=
            sum_smul_bound (by positivity) hx hb
        _ = m * M * (Q + L * (b - a) * (1 + R)) * (t - s) + m * M * L * (t - s) * Amax * S := by ring
        _ ≤ m * M * (Q + L * (b - a) * (1 + R)) * (t - s) + m * M * L * (b - a) * Amax * S := by gcongr)
  have key' : ∀ i < n, ‖k i‖ ≤ C1 * (t - s) := fun i hi => (key i hi).trans (le_of_eq (by rw [hC1]; ring))
  intro i hi
  have hz : ‖∑ j ∈ range i, A i j • k j‖ ≤ Amax * (n * C1) * (t - s) := by
    refine (norm_sum_smul_le (hA i hi)).trans ?_
    have h1 : ∑ j ∈ range i, ‖k j‖ ≤ n * (C1 * (t - s)) := by
      calc ∑ j ∈ range i, ‖k j‖ ≤ ∑ _j ∈ range i, C1 * (t - s) :=
            sum_le_sum fun j hj => key' j ((Finset.mem_range.1 hj).trans hi)
        _ = i * (C1 * (t - s)) := by simp
        _ ≤ n * (C1 * (t - s)) := by
          have : (i : ℝ) ≤ n := by exact_mod_cast hi.le
          gcongr
    calc _ ≤ Amax * (n * (C1 * (t - s))) := mul_le_mul_of_nonneg_left h1 hA0
      _ = _ := by ring
  refine ⟨hz.trans (mul_le_mul_of_nonneg_right (by linarith) hts), ?_⟩
  rw [hk i hi, ← sum_sub_distrib]
  simp only [← smul_sub]
  have hb : ∀ l, ‖g l (s + c i * (t - s)) (y s + ∑ j ∈ range i, A i j • k j) - g l s (y s)‖
      ≤ L * (t - s) * (1 + R) + L * (Amax * (n * C1) * (t - s)) := fun l =>
    (hdist i hi _ l).trans (add_le_add le_rfl (mul_le_mul_of_nonneg_left hz hL))
  calc _ ≤ m * (M * (t - s) * (L * (t - s) * (1 + R) + L * (Amax * (n * C1) * (t - s)))) :=
        sum_smul_bound (by positivity) hx hb
    _ = C2 * (t - s) ^ 2 := by rw [hC2]; ring
    _ ≤ _ := mul_le_mul_of_nonneg_right (by linarith) (by positivity)

/-- The same to second order. -/
theorem stages_second (h : Controlled g w w' y a b L M)
    (hA : ∀ i < n, ∀ j < i, |A i j| ≤ Amax) (hA0 : 0 ≤ Amax) (hc : ∀ i < n, 0 ≤ c i ∧ c i ≤ 1)
    {ε : ℝ} (hrow : ∀ i < n, |∑ j ∈ range i, A i j - c i| ≤ ε) {Λ D : ℝ} (hΛ : 0 ≤ Λ) (hD0 : 0 ≤ D)
    {T : ι → ℝ → ℝ × E →L[ℝ] E} (hD : ∀ s ∈ Icc a b, ∀ l, ‖T l s‖ ≤ D)
    (hT : ∀ s ∈ Icc a b, ∀ t ∈ Icc a b, ∀ l z,
        ‖g l t (y s + z) - g l s (y s) - T l s (t - s, z)‖ ≤ Λ * (|t - s| + ‖z‖) ^ 2) :
    ∃ C, 0 ≤ C ∧ ∀ s t k, a ≤ s → s ≤ t → t ≤ b →
      CtrlStages A c n g s (t - s) (fun l => w t l - w s l) (y s) k → ∀ i < n,
      ‖k i - (∑ l, (w t l - w s l) • g l s (y s)
        + c i • ∑ l, (w t l - w s l) • T l s (t - s, ∑ l, (w t l - w s l) • g l s (y s)))‖
        ≤ C * (t - s) ^ 3 + ε * C * (t - s) ^ 2 := by
  obtain ⟨R, Q, hR0, hQ0, hR, hQ⟩ := h.along
  obtain ⟨C1, hC1, hfirst⟩ := h.stages_first hA hA0 hc
  have hL := h.L0
  have hM := h.M0
  set m : ℝ := ((Fintype.card ι : ℕ) : ℝ) with hm
  have hm0 : 0 ≤ m := Nat.cast_nonneg _
  set K := m * M * (Λ * (1 + C1) ^ 2 + D * (Amax * (n * C1))) with hK
  have hK0 : 0 ≤ K := by positivity
  set K' := m * M * (D * (m * (M * Q))) with hK'
  have hK'0 : 0 ≤ K' := by positivity
  refine ⟨K + K', by positivity, ?_⟩
  intro s t k hs hst ht hk i hi
  have hε : 0 ≤ ε := (abs_nonneg _).trans (hrow i hi)
  have hts : 0 ≤ t - s := sub_nonneg.2 hst
  have hsI : s ∈ Icc a b := ⟨hs, hst.trans ht⟩
  have hx : ∀ l, |w t l - w s l| ≤ M * (t - s) := h.incr hs hst ht
  have hf := hfirst s t k hs hst ht hk
  set G0 := ∑ l, (w t l - w s l) • g l s (y s) with hG0
  have hG0n : ‖G0‖ ≤ m * (M * Q) * (t - s) := by
    have := sum_smul_bound (B := M * (t - s)) (by positivity) hx (hQ s hsI)
    exact this.trans (le_of_eq (by ring))
  have hti := stage_time (b := b) hs (by linarith) hts (hc i hi).1 (hc i hi).2
  set z := ∑ j ∈ range i, A i j • k j with hz
  have hz2 : ‖z - (∑ j ∈ range i, A i j) • G0‖ ≤ Amax * (n * C1) * (t - s) ^ 2 := by
    have e : z - (∑ j ∈ range i, A i j) • G0 = ∑ j ∈ range i, A i j • (k j - G0) := by
      rw [hz, sum_smul]; simp only [smul_sub, sum_sub_distrib]
    rw [e]
    refine (norm_sum_smul_le (hA i hi)).trans ?_
    have h1 : ∑ j ∈ range i, ‖k j - G0‖ ≤ n * (C1 * (t - s) ^ 2) := by
      calc ∑ j ∈ range i, ‖k j - G0‖ ≤ ∑ _j ∈ range i, C1 * (t - s) ^ 2 :=
            sum_le_sum fun j hj => (hf j ((Finset.mem_range.1 hj).trans hi)).2
        _ = i * (C1 * (t - s) ^ 2) := by simp
        _ ≤ n * (C1 * (t - s) ^ 2) := by
          have : (i : ℝ) ≤ n := by exact_mod_cast hi.le
          gcongr
    calc _ ≤ Amax * (n * (C1 * (t - s) ^ 2)) := mul_le_mul_of_nonneg_left h1 hA0
      _ = _ := by ring
  have e : k i - (G0 + c i • ∑ l, (w t l - w s l) • T l s (t - s, G0))
      = ∑ l, (w t l - w s l) • ((g l (s + c i * (t - s)) (y s + z) - g l s (y s) - T l s (s + c i * (t - s) - s, z))
          + T l s (0, z - (∑ j ∈ range i, A i j) • G0))
        + ∑ l, (w t l - w s l) • T l s (0, (∑ j ∈ range i, A i j - c i) • G0) := by
    rw [hk i hi, hG0, ← hG0, smul_sum, ← sum_add_distrib, ← sum_add_distrib]
    conv_lhs => rw [hG0]
    rw [← hG0, ← sum_sub_distrib]
    refine sum_congr rfl fun l _ => ?_
    have e1 : T l s (s + c i * (t - s) - s, z) = c i • T l s (t - s, G0) + T l s (0, z - (∑ j ∈ range i, A i j) • G0)
        + T l s (0, (∑ j ∈ range i, A i j - c i) • G0) := by
      rw [← map_smul, ← map_add, ← map_add]
      congr 1
      ext
      · simp
      · simp [sub_smul]; abel
    rw [e1]
    module
  rw [e]
  have b1 : ∀ l, ‖(g l (s + c i * (t - s)) (y s + z) - g l s (y s) - T l s (s + c i * (t - s) - s, z))
          + T l s (0, z - (∑ j ∈ range i, A i j) • G0)‖
      ≤ (Λ * (1 + C1) ^ 2 + D * (Amax * (n * C1))) * (t - s) ^ 2 := by
    intro l
    have t1 := hT s hsI _ hti.1 l z
    have t2 : ‖T l s (0, z - (∑ j ∈ range i, A i j) • G0)‖ ≤ D * (Amax * (n * C1) * (t - s) ^ 2) := by
      refine (ContinuousLinearMap.le_opNorm _ _).trans (mul_le_mul (hD s hsI l) ?_ (norm_nonneg _) hD0)
      rw [Prod.norm_def]
      exact max_le (by simp only [norm_zero]; positivity) hz2
    have t3 : Λ * (|s + c i * (t - s) - s| + ‖z‖) ^ 2 ≤ Λ * ((1 + C1) ^ 2 * (t - s) ^ 2) := by
      rw [← mul_pow]
      have : |s + c i * (t - s) - s| + ‖z‖ ≤ (1 + C1) * (t - s) := by linarith [hti.2, (hf i hi).1]
      gcongr
    calc _ ≤ Λ * ((1 + C1) ^ 2 * (t - s) ^ 2) + D * (Amax * (n * C1) * (t - s) ^ 2) :=
          (norm_add_le _ _).trans (add_le_add (t1.trans t3) t2)
      _ = _ := by ring
  have b2 : ∀ l, ‖T l s (0, (∑ j ∈ range i, A i j - c i) • G0)‖ ≤ D * (ε * (m * (M * Q) * (t - s))) := fun l => by
    refine (ContinuousLinearMap.le_opNorm _ _).trans (mul_le_mul (hD s hsI l) ?_ (norm_nonneg _) hD0)
    rw [Prod.norm_def]
    refine max_le (by simp only [norm_zero]; positivity) ?_
    simp only
    rw [norm_smul, Real.norm_eq_abs]
    exact mul_le_mul (hrow i hi) hG0n (norm_nonneg _) hε
  have c1 := sum_smul_bound (B := M * (t - s)) (by positivity) hx b1
  have c2 := sum_smul_bound (B := M * (t - s)) (by positivity) hx b2
  have p1 : 0 ≤ K' * (t - s) ^ 3 := by positivity
  have p2 : 0 ≤ ε * K * (t - s) ^ 2 := by positivity
  calc _ ≤ _ := (norm_add_le _ _).trans (add_le_add c1 c2)
    _ = K * (t - s) ^ 3 + ε * K' * (t - s) ^ 2 := by rw [hK, hK']; ring
    _ ≤ _ := by linarith

/-- **The error of a step from the solution, first order.** -/
theorem step_first (h : Controlled g w w' y a b L M)
    (hA : ∀ i < n, ∀ j < i, |A i j| ≤ Amax) (hA0 : 0 ≤ Amax) (hc : ∀ i < n, 0 ≤ c i ∧ c i ≤ 1)
    {ε : ℝ} {bb : ℕ → ℝ} (hb : |∑ i ∈ range n, bb i - 1| ≤ ε) :
    ∃ C, 0 ≤ C ∧ ∀ s t k, a ≤ s → s ≤ t → t ≤ b →
      CtrlStages A c n g s (t - s) (fun l => w t l - w s l) (y s) k →
      ‖y s + ∑ i ∈ range n, bb i • k i - y t‖ ≤ C * (t - s) ^ 2 + ε * C * (t - s) := by
  obtain ⟨R, Q, hR0, hQ0, hR, hQ⟩ := h.along
  obtain ⟨C1, hC1, hfirst⟩ := h.stages_first hA hA0 hc
  obtain ⟨C2, hC2, hex⟩ := h.exact_first
  have hM := h.M0
  have hε : 0 ≤ ε := (abs_nonneg _).trans hb
  set m : ℝ := ((Fintype.card ι : ℕ) : ℝ) with hm
  have hm0 : 0 ≤ m := Nat.cast_nonneg _
  set B := ∑ i ∈ range n, |bb i| with hB
  have hB0 : 0 ≤ B := sum_nonneg fun _ _ => abs_nonneg _
  refine ⟨B * C1 + C2 + m * (M * Q), by positivity, ?_⟩
  intro s t k hs hst ht hk
  have hts : 0 ≤ t - s := sub_nonneg.2 hst
  have hsI : s ∈ Icc a b := ⟨hs, hst.trans ht⟩
  have hf := hfirst s t k hs hst ht hk
  have he := hex s t hs hst ht
  set G0 := ∑ l, (w t l - w s l) • g l s (y s) with hG0
  have hG0n : ‖G0‖ ≤ m * (M * Q) * (t - s) := by
    have := sum_smul_bound (B := M * (t - s)) (by positivity) (h.incr hs hst ht) (hQ s hsI)
    exact this.trans (le_of_eq (by ring))
  have e : y s + ∑ i ∈ range n, bb i • k i - y t
      = ∑ i ∈ range n, bb i • (k i - G0) - (y t - y s - G0) + (∑ i ∈ range n, bb i - 1) • G0 := by
    simp only [smul_sub, sum_sub_distrib, sub_smul, sum_smul, one_smul]; abel
  rw [e]
  have h1 : ‖∑ i ∈ range n, bb i • (k i - G0)‖ ≤ B * (C1 * (t - s) ^ 2) := by
    refine (norm_sum_le _ _).trans ?_
    rw [hB, sum_mul]
    refine sum_le_sum fun i hi => ?_
    rw [norm_smul, Real.norm_eq_abs]
    exact mul_le_mul_of_nonneg_left (hf i (Finset.mem_range.1 hi)).2 (abs_nonneg _)
  have h2 : ‖(∑ i ∈ range n, bb i - 1) • G0‖ ≤ ε * (m * (M * Q) * (t - s)) := by
    rw [norm_smul, Real.norm_eq_abs]
    exact mul_le_mul hb hG0n (norm_nonneg _) hε
  have p1 : 0 ≤ ε * (B * C1 + C2) * (t - s) := by positivity
  have p2 : 0 ≤ m * (M * Q) * (t - s) ^ 2 := by positivity
  calc _ ≤ B * (C1 * (t - s) ^ 2) + C2 * (t - s) ^ 2 + ε * (m * (M * Q) * (t - s)) :=
        (norm_add_le _ _).trans (add_le_add ((norm_sub_le _ _).trans (add_le_add h1 he)) h2)
    _ ≤ _ := by linarith

/-- **The error of a step from the solution, second order.** -/
theorem step_second (h : Controlled g w w' y a b L M)
    (hw : ∀ s ∈ Ico a b, ∀ t ∈ Ico a b, ∀ l, |w' t l - w' s l| ≤ M * |t - s|)
    (hg : ∀ l, ContDiff ℝ 2 (fun p : ℝ × E => g l p.1 p.2))
    (hA : ∀ i < n, ∀ j < i, |A i j| ≤ Amax) (hA0 : 0 ≤ Amax) (hc : ∀ i < n, 0 ≤ c i ∧ c i ≤ 1)
    {ε : ℝ} {bb : ℕ → ℝ} (hrow : ∀ i < n, |∑ j ∈ range i, A i j - c i| ≤ ε)
    (hb : |∑ i ∈ range n, bb i - 1| ≤ ε) (hb2 : |∑ i ∈ range n, bb i * c i - 1 / 2| ≤ ε) :
    ∃ C, 0 ≤ C ∧ ∀ s t k, a ≤ s → s ≤ t → t ≤ b →
      CtrlStages A c n g s (t - s) (fun l => w t l - w s l) (y s) k →
      ‖y s + ∑ i ∈ range n, bb i • k i - y t‖ ≤ C * (t - s) ^ 3 + ε * C * (t - s) := by
  obtain ⟨R, Q, hR0, hQ0, hR, hQ⟩ := h.along
  obtain ⟨Λ, D, hΛ, hD0, T, hD, hT⟩ := h.taylor hg
  obtain ⟨C1, hC1, hst2⟩ := h.stages_second hA hA0 hc hrow hΛ hD0 hD hT
  obtain ⟨C2, hC2, hex⟩ := h.exact_second hw hΛ hD0 hD hT
  have hM := h.M0
  have hε : 0 ≤ ε := (abs_nonneg _).trans hb
  set m : ℝ := ((Fintype.card ι : ℕ) : ℝ) with hm
  have hm0 : 0 ≤ m := Nat.cast_nonneg _
  have hH : 0 ≤ b - a := sub_nonneg.2 h.le
  set B := ∑ i ∈ range n, |bb i| with hB
  have hB0 : 0 ≤ B := sum_nonneg fun _ _ => abs_nonneg _
  set Y := m * (M * Q) with hY
  have hY0 : 0 ≤ Y := by positivity
  set Z := m * (M * (D * (1 + Y))) with hZ
  have hZ0 : 0 ≤ Z := by positivity
  refine ⟨B * C1 + C2 + (B * C1 * (b - a) + Y + Z * (b - a)), by positivity, ?_⟩
  intro s t k hs hst ht hk
  have hts : 0 ≤ t - s := sub_nonneg.2 hst
  have htH : t - s ≤ b - a := by linarith
  have hsI : s ∈ Icc a b := ⟨hs, hst.trans ht⟩
  have hf := hst2 s t k hs hst ht hk
  have he := hex s t hs hst ht
  set G0 := ∑ l, (w t l - w s l) • g l s (y s) with hG0
  have hG0n : ‖G0‖ ≤ Y * (t - s) := by
    have := sum_smul_bound (B := M * (t - s)) (by positivity) (h.incr hs hst ht) (hQ s hsI)
    exact this.trans (le_of_eq (by rw [hY]; ring))
  set G1 := ∑ l, (w t l - w s l) • T l s (t - s, G0) with hG1
  have hG1n : ‖G1‖ ≤ Z * (t - s) ^ 2 := by
    have b1 : ∀ l, ‖T l s (t - s, G0)‖ ≤ D * ((t - s) * (1 + Y)) := fun l => by
      refine (ContinuousLinearMap.le_opNorm _ _).trans (mul_le_mul (hD s hsI l) ?_ (norm_nonneg _) hD0)
      rw [Prod.norm_def]
      have : (t - s) * (1 + Y) = (t - s) + Y * (t - s) := by ring
      have h0 : 0 ≤ Y * (t - s) := by positivity
      exact max_le (by simp only [Real.norm_of_nonneg hts]; linarith) (by simp only; linarith)
    have := sum_smul_bound (B := M * (t - s)) (by positivity) (h.incr hs hst ht) b1
    exact this.trans (le_of_eq (by rw [hZ]; ring))
  have e : y s + ∑ i ∈ range n, bb i • k i - y t
      = ∑ i ∈ range n, bb i • (k i - (G0 + c i • G1)) - (y t - y s - G0 - (1 / 2 : ℝ) • G1)
        + ((∑ i ∈ range n, bb i - 1) • G0 + (∑ i ∈ range n, bb i * c i - 1 / 2) • G1) := by
    have : ∑ i ∈ range n, bb i • (k i - (G0 + c i • G1))
        = ∑ i ∈ range n, bb i • k i - ((∑ i ∈ range n, bb i) • G0 + (∑ i ∈ range n, bb i * c i) • G1) := by
      simp only [smul_sub, smul_add, sum_sub_distrib, sum_add_distrib, sum_smul, smul_smul]
    rw [this]
    module
  rw [e]
  have h1 : ‖∑ i ∈ range n, bb i • (k i - (G0 + c i • G1))‖ ≤ B * (C1 * (t - s) ^ 3 + ε * C1 * (t - s) ^ 2) := by
    refine (norm_sum_le _ _).trans ?_
    rw [hB, sum_mul]
    refine sum_le_sum fun i hi => ?_
    rw [norm_smul, Real.norm_eq_abs]
    exact mul_le_mul_of_nonneg_left (hf i (Finset.mem_range.1 hi)) (abs_nonneg _)
  have h2 : ‖(∑ i ∈ range n, bb i - 1) • G0 + (∑ i ∈ range n, bb i * c i - 1 / 2) • G1‖
      ≤ ε * (Y * (t - s)) + ε * (Z * (t - s) ^ 2) := by
    refine (norm_add_le _ _).trans (add_le_add ?_ ?_)
    · rw [norm_smul, Real.norm_eq_abs]
      exact mul_le_mul hb hG0n (norm_nonneg _) hε
    · rw [norm_smul, Real.norm_eq_abs]
      exact mul_le_mul hb2 hG1n (norm_nonneg _) hε
  have hsq : (t - s) ^ 2 ≤ (b - a) * (t - s) := by rw [sq]; exact mul_le_mul_of_nonneg_right htH hts
  have q1 : ε * C1 * (t - s) ^ 2 ≤ ε * C1 * ((b - a) * (t - s)) := mul_le_mul_of_nonneg_left hsq (by positivity)
  have q1' : B * (ε * C1 * (t - s) ^ 2) ≤ B * (ε * C1 * ((b - a) * (t - s))) := mul_le_mul_of_nonneg_left q1 hB0
  have q2 : ε * (Z * (t - s) ^ 2) ≤ ε * (Z * ((b - a) * (t - s))) :=
    mul_le_mul_of_nonneg_left (mul_le_mul_of_nonneg_left hsq hZ0) hε
  have p1 : 0 ≤ ε * (B * C1 + C2) * (t - s) := by positivity
  have p2 : 0 ≤ (B * C1 * (b - a) + Y + Z * (b - a)) * (t - s) ^ 3 := by positivity
  calc _ ≤ B * (C1 * (t - s) ^ 3 + ε * C1 * (t - s) ^ 2) + C2 * (t - s) ^ 3
        + (ε * (Y * (t - s)) + ε * (Z * (t - s) ^ 2)) :=
        (norm_add_le _ _).trans (add_le_add ((norm_sub_le _ _).trans (add_le_add h1 he)) h2)
    _ ≤ _ := by linarith

end Controlled

end

end Verif
