import Verif.Spec.BacksolveConvergence
import Verif.Lemmas.LinearOde
import Mathlib.Analysis.Analytic.Constructions
import Mathlib.Analysis.Calculus.FDeriv.Analytic
import Mathlib.Analysis.Calculus.MeanValue
import Mathlib.Analysis.Calculus.ContDiff.Basic

/-!
# Lemmas on the adjoint equations of analytic equations
-/

namespace Verif.Backsolve
open Set Filter Topology

section
variable {S Q : Type} [Fintype S] [Fintype Q] {F : ℝ × (S → ℝ) × (Q → ℝ) → S → ℝ} {θ : Q → ℝ} {y : ℝ → S → ℝ}
  {t0 last : ℝ} {vjp : ℝ → (S → ℝ) → (Unit → ℝ) → (S → ℝ) → (S → ℝ) × (Q → ℝ)}

/-- Analytic right-hand sides are smooth in the sense of C68. -/
theorem smoothOn_analytic (hF : AnalyticOnNhd ℝ F univ) (a b : ℝ) :
    SmoothOn (fun t z => F (t, z)) (derivOf F) (Icc a b) := by
  intro R
  set K0 : Set (ℝ × (S → ℝ) × (Q → ℝ)) := Icc a b ×ˢ Metric.closedBall 0 R with hK0
  have hc : IsCompact K0 := isCompact_Icc.prod (isCompact_closedBall _ _)
  have hcx : Convex ℝ K0 := (convex_Icc a b).prod (convex_closedBall _ _)
  have hd : ∀ p, HasFDerivAt F (fderiv ℝ F p) p := fun p => (hF p trivial).differentiableAt.hasFDerivAt
  have hF1 : AnalyticOnNhd ℝ (fderiv ℝ F) univ := hF.fderiv
  have hd1 : ∀ p, HasFDerivAt (fderiv ℝ F) (fderiv ℝ (fderiv ℝ F) p) p :=
    fun p => (hF1 p trivial).differentiableAt.hasFDerivAt
  obtain ⟨K, hK⟩ := hc.exists_bound_of_continuousOn (hF1.continuousOn.mono (subset_univ K0))
  obtain ⟨M, hM⟩ := hc.exists_bound_of_continuousOn (hF1.fderiv.continuousOn.mono (subset_univ K0))
  refine ⟨max K 0, max M 0, le_max_right _ _, le_max_right _ _, fun t ht z z' hz hz' => ?_⟩
  have m : (t, z) ∈ K0 := ⟨ht, by simpa using hz⟩
  have m' : (t, z') ∈ K0 := ⟨ht, by simpa using hz'⟩
  have e : ((t, z') : ℝ × (S → ℝ) × (Q → ℝ)) - (t, z) = (0, z' - z) := by ext <;> simp
  have en : ‖((t, z') : ℝ × (S → ℝ) × (Q → ℝ)) - (t, z)‖ = ‖z' - z‖ := by
    rw [e, Prod.norm_def, norm_zero]; exact max_eq_right (norm_nonneg _)
  constructor
  · have := hcx.norm_image_sub_le_of_norm_hasFDerivWithin_le (C := max K 0) (fun p _ => (hd p).hasFDerivWithinAt)
      (fun p hp => (hK p hp).trans (le_max_left _ _)) m m'
    rwa [en] at this
  · have hseg : segment ℝ ((t, z) : ℝ × (S → ℝ) × (Q → ℝ)) (t, z') ⊆ K0 := hcx.segment_subset m m'
    have hl : ∀ p ∈ segment ℝ ((t, z) : ℝ × (S → ℝ) × (Q → ℝ)) (t, z'),
        ‖fderiv ℝ F p - fderiv ℝ F (t, z)‖ ≤ max M 0 * ‖z' - z‖ := by
      intro p hp
      have h1 := hcx.norm_image_sub_le_of_norm_hasFDerivWithin_le (C := max M 0) (fun p _ => (hd1 p).hasFDerivWithinAt)
        (fun p hp => (hM p hp).trans (le_max_left _ _)) m (hseg hp)
      refine h1.trans (mul_le_mul_of_nonneg_left ?_ (le_max_right _ _))
      rw [← en, ← dist_eq_norm, ← dist_eq_norm]
      have hp' : p ∈ Metric.closedBall ((t, z) : ℝ × (S → ℝ) × (Q → ℝ)) (dist (t, z') (t, z)) :=
        (convex_closedBall _ _).segment_subset (Metric.mem_closedBall_self dist_nonneg) (Metric.mem_closedBall.2 le_rfl) hp
      exact hp'
    have := (convex_segment ((t, z) : ℝ × (S → ℝ) × (Q → ℝ)) (t, z')).norm_image_sub_le_of_norm_hasFDerivWithin_le'
      (C := max M 0 * ‖z' - z‖) (φ := fderiv ℝ F (t, z)) (fun p _ => (hd p).hasFDerivWithinAt) hl
      (left_mem_segment ℝ _ _) (right_mem_segment ℝ _ _)
    rw [en, e] at this
    calc _ = ‖F (t, z') - F (t, z) - fderiv ℝ F (t, z) (0, z' - z)‖ := rfl
      _ ≤ _ := this
      _ = _ := by ring

theorem dot_single {I : Type} [Fintype I] [DecidableEq I] (a : I → ℝ) (i : I) : dot a (Pi.single i 1) = a i := by
  simp [dot, Pi.single_apply]

theorem dot_zero {I : Type} [Fintype I] (a : I → ℝ) : dot a 0 = 0 := by simp [dot]

theorem vjp_fst [DecidableEq S] {Df : ℝ → (S → ℝ) × (Q → ℝ) → (S → ℝ) × (Q → ℝ) →ₗ[ℝ] (S → ℝ)} (h : IsVjp Df θ vjp)
    (t : ℝ) (x : S → ℝ) (c : Unit → ℝ) (a : S → ℝ) (i : S) :
    (vjp t x c a).1 i = c () * dot a (Df t (x, θ) (Pi.single i 1, 0)) := by
  have := h t x c a (Pi.single i 1) 0
  rwa [dot_single, dot_zero, add_zero, dot_smul] at this

theorem vjp_snd [DecidableEq Q] {Df : ℝ → (S → ℝ) × (Q → ℝ) → (S → ℝ) × (Q → ℝ) →ₗ[ℝ] (S → ℝ)} (h : IsVjp Df θ vjp)
    (t : ℝ) (x : S → ℝ) (c : Unit → ℝ) (a : S → ℝ) (j : Q) :
    (vjp t x c a).2 j = c () * dot a (Df t (x, θ) (0, Pi.single j 1)) := by
  have := h t x c a 0 (Pi.single j 1)
  rwa [dot_single, dot_zero, zero_add, dot_smul] at this

omit [Fintype S] [Fintype Q] in
theorem adjRhs_eq (f : ℝ → (S → ℝ) × (Q → ℝ) → S → ℝ) (r : ℝ) (z : Aug S Q) :
    adjRhs f θ vjp r z = (f r (z.1, θ), vjp r z.1 (fun _ => 1) (-z.2.1)) := by
  show ((1 : ℝ) • f r (z.1, θ), vjp r z.1 (fun _ => 1) (-z.2.1)) = _
  rw [one_smul]

/-- The adjoint term is linear in the control: its product with a control is the multiple of the right-hand side. -/
theorem adjTerm_linear {Df : ℝ → (S → ℝ) × (Q → ℝ) → (S → ℝ) × (Q → ℝ) →ₗ[ℝ] (S → ℝ)} (h : IsVjp Df θ vjp)
    (f : ℝ → (S → ℝ) × (Q → ℝ) → S → ℝ) (r c : ℝ) (z : Aug S Q) :
    (adjTerm f θ vjp).term.vfProd r z (fun (_ : Unit) => c) = c • adjRhs f θ vjp r z := by
  classical
  rw [adjRhs_eq]
  show (c • f r (z.1, θ), vjp r z.1 (fun _ => c) (-z.2.1)) = _
  refine Prod.ext rfl (Prod.ext (funext fun i => ?_) (funext fun j => ?_))
  · show (vjp r z.1 (fun _ => c) (-z.2.1)).1 i = c * (vjp r z.1 (fun _ => 1) (-z.2.1)).1 i
    rw [vjp_fst h, vjp_fst h, one_mul]
  · show (vjp r z.1 (fun _ => c) (-z.2.1)).2 j = c * (vjp r z.1 (fun _ => 1) (-z.2.1)).2 j
    rw [vjp_snd h, vjp_snd h, one_mul]

/-- A directional derivative is analytic. -/
theorem analytic_dir (hF : AnalyticOnNhd ℝ F univ) (d : (S → ℝ) × (Q → ℝ)) (k : S) (x : ℝ × Aug S Q) :
    AnalyticAt ℝ (fun x : ℝ × Aug S Q => derivOf F x.1 (x.2.1, θ) d k) x := by
  have h1 : AnalyticAt ℝ (fun x : ℝ × Aug S Q => ((x.1, x.2.1, θ) : ℝ × (S → ℝ) × (Q → ℝ))) x :=
    analyticAt_fst.prod ((analyticAt_fst.fun_comp analyticAt_snd).prod analyticAt_const)
  have h2 : AnalyticAt ℝ (fun x : ℝ × Aug S Q => fderiv ℝ F (x.1, x.2.1, θ)) x :=
    AnalyticAt.fun_comp (g := fderiv ℝ F) (hF.fderiv _ trivial) h1
  exact ((ContinuousLinearMap.proj (R := ℝ) (φ := fun _ : S => ℝ) k).comp
    (ContinuousLinearMap.apply ℝ (S → ℝ) ((0, d) : ℝ × (S → ℝ) × (Q → ℝ)))).analyticAt _ |>.fun_comp h2

/-- The right-hand side of the adjoint equations is analytic. -/
theorem adjRhs_analytic (hF : AnalyticOnNhd ℝ F univ) (h : IsVjp (derivOf F) θ vjp) :
    AnalyticOnNhd ℝ (fun x : ℝ × Aug S Q => adjRhs (fun t z => F (t, z)) θ vjp x.1 x.2) univ := by
  classical
  intro x _
  have e : (fun x : ℝ × Aug S Q => adjRhs (fun t z => F (t, z)) θ vjp x.1 x.2) = fun x =>
      (F (x.1, x.2.1, θ), (fun i => dot (-x.2.2.1) (derivOf F x.1 (x.2.1, θ) (Pi.single i 1, 0))),
        fun j => dot (-x.2.2.1) (derivOf F x.1 (x.2.1, θ) (0, Pi.single j 1))) := by
    funext x
    rw [adjRhs_eq]
    refine Prod.ext rfl (Prod.ext (funext fun i => ?_) (funext fun j => ?_))
    · show (vjp x.1 x.2.1 (fun _ => 1) (-x.2.2.1)).1 i = _
      rw [vjp_fst h, one_mul]
    · show (vjp x.1 x.2.1 (fun _ => 1) (-x.2.2.1)).2 j = _
      rw [vjp_snd h, one_mul]
  have h1 : AnalyticAt ℝ (fun x : ℝ × Aug S Q => ((x.1, x.2.1, θ) : ℝ × (S → ℝ) × (Q → ℝ))) x :=
    analyticAt_fst.prod ((analyticAt_fst.fun_comp analyticAt_snd).prod analyticAt_const)
  have h2 : AnalyticAt ℝ (fun x : ℝ × Aug S Q => x.2.2.1) x :=
    analyticAt_fst.fun_comp (analyticAt_snd.fun_comp analyticAt_snd)
  have h3 : ∀ d, AnalyticAt ℝ (fun x : ℝ × Aug S Q => dot (-x.2.2.1) (derivOf F x.1 (x.2.1, θ) d)) x := by
    intro d
    unfold dot
    refine Finset.analyticAt_fun_sum _ fun k _ => AnalyticAt.fun_mul ?_ (analytic_dir hF d k x)
    exact (((ContinuousLinearMap.proj (R := ℝ) (φ := fun _ : S => ℝ) k).analyticAt _).fun_comp h2).fun_neg
  rw [e]
  exact (AnalyticAt.fun_comp (g := F) (hF _ trivial) h1).prod
    ((analyticAt_pi_iff.2 fun i => h3 _).prod (analyticAt_pi_iff.2 fun j => h3 _))

/-- The cotangents along a solution. -/
theorem adjoint_exists (hs : SolvesOn F θ y t0 last) (h : IsVjp (derivOf F) θ vjp) (s : ℝ) (hst : s ∈ Icc t0 last)
    (w0 : (S → ℝ) × (Q → ℝ)) :
    ∃ Z : ℝ → Aug S Q, Z s = (y s, w0) ∧ ∃ a' < t0, ∃ b' > last, ∀ r ∈ Ioo a' b',
      HasDerivAt Z (adjRhs (fun t z => F (t, z)) θ vjp r (Z r)) r := by
  classical
  obtain ⟨hF, hle, a', ha, b', hb, hy⟩ := hs
  obtain ⟨a1, ha1, ha1'⟩ := exists_between ha
  obtain ⟨b1, hb1, hb1'⟩ := exists_between hb
  have hI : ∀ r ∈ Icc a1 b1, r ∈ Ioo a' b' := fun r hr => ⟨ha1.trans_le hr.1, hr.2.trans_lt hb1'⟩
  have hyc : ContinuousOn (fun r => ((r, y r, θ) : ℝ × (S → ℝ) × (Q → ℝ))) (Icc a1 b1) := fun r hr =>
    (continuousAt_id.prodMk ((hy r (hI r hr)).continuousAt.prodMk continuousAt_const)).continuousWithinAt
  have hDc : ContinuousOn (fun r => fderiv ℝ F (r, y r, θ)) (Icc a1 b1) :=
    hF.fderiv.continuousOn.comp hyc fun _ _ => trivial
  obtain ⟨K1, hK1⟩ := isCompact_Icc.exists_bound_of_continuousOn hDc
  have hcomp : ∀ (d : (S → ℝ) × (Q → ℝ)) (x : S → ℝ), ContinuousOn (fun r => dot x (derivOf F r (y r, θ) d)) (Icc a1 b1) := by
    intro d x
    have h1 : ContinuousOn (fun r => fderiv ℝ F (r, y r, θ) (0, d)) (Icc a1 b1) := hDc.clm_apply continuousOn_const
    have h2 : Continuous fun v : S → ℝ => dot x v := by unfold dot; fun_prop
    exact h2.comp_continuousOn h1
  have hbd : ∀ (d : (S → ℝ) × (Q → ℝ)), ‖d‖ ≤ 1 → ∀ r ∈ Icc a1 b1, ∀ x : S → ℝ,
      |dot x (derivOf F r (y r, θ) d)| ≤ Fintype.card S * max K1 0 * ‖x‖ := by
    intro d hd r hr x
    have h1 : ‖derivOf F r (y r, θ) d‖ ≤ max K1 0 := by
      have h2 := (fderiv ℝ F (r, y r, θ)).le_opNorm ((0, d) : ℝ × (S → ℝ) × (Q → ℝ))
      have h3 : ‖((0, d) : ℝ × (S → ℝ) × (Q → ℝ))‖ ≤ 1 := max_le (by simp) hd
      calc ‖derivOf F r (y r, θ) d‖ ≤ ‖fderiv ℝ F (r, y r, θ)‖ * ‖((0, d) : ℝ × (S → ℝ) × (Q → ℝ))‖ := h2
        _ ≤ max K1 0 * 1 := mul_le_mul ((hK1 r hr).trans (le_max_left _ _)) h3 (norm_nonneg _) (le_max_right _ _)
        _ = _ := mul_one _
    refine (abs_dot_le _ _).trans ?_
    have : ‖x‖ * ‖derivOf F r (y r, θ) d‖ ≤ ‖x‖ * max K1 0 := mul_le_mul_of_nonneg_left h1 (norm_nonneg _)
    calc _ ≤ (Fintype.card S : ℝ) * (‖x‖ * max K1 0) := mul_le_mul_of_nonneg_left this (Nat.cast_nonneg _)
      _ = _ := by ring
  have hsing : ∀ {I : Type} [Fintype I] [DecidableEq I] (i : I), ‖(Pi.single i 1 : I → ℝ)‖ ≤ 1 := by
    intro I _ _ i
    refine (pi_norm_le_iff_of_nonneg zero_le_one).2 fun j => ?_
    rw [Pi.single_apply]; split <;> simp
  have hd1 : ∀ i : S, ‖((Pi.single i 1, 0) : (S → ℝ) × (Q → ℝ))‖ ≤ 1 := fun i => max_le (hsing i) (by simp)
  have hd2 : ∀ j : Q, ‖((0, Pi.single j 1) : (S → ℝ) × (Q → ℝ))‖ ≤ 1 := fun j => max_le (by simp) (hsing j)
  set K : NNReal := ⟨Fintype.card S * max K1 0, mul_nonneg (Nat.cast_nonneg _) (le_max_right _ _)⟩ with hK
  have hdn : ∀ (x x' v : S → ℝ), dot (-x) v - dot (-x') v = dot (-(x - x')) v := by
    intro x x' v
    have : -x = -(x - x') + -x' := by abel
    rw [this, dot_add]; ring
  obtain ⟨w, hw0, hw⟩ := lipschitz_ode_exists (truncates_pi.prod truncates_pi)
    (fun r (x : (S → ℝ) × (Q → ℝ)) => vjp r (y r) (fun _ => 1) (-x.1)) a1 b1 s
    ⟨ha1'.le.trans hst.1, hst.2.trans hb1.le⟩ K
    (fun r hr => LipschitzWith.of_dist_le_mul fun x x' => by
      rw [dist_eq_norm, dist_eq_norm]
      have hn : ‖-(x.1 - x'.1)‖ ≤ ‖x - x'‖ := by rw [norm_neg]; exact le_max_left _ _
      have hK0 : (0 : ℝ) ≤ K * ‖x - x'‖ := mul_nonneg K.2 (norm_nonneg _)
      refine max_le ((pi_norm_le_iff_of_nonneg hK0).2 fun i => ?_) ((pi_norm_le_iff_of_nonneg hK0).2 fun j => ?_)
      · show |(vjp r (y r) (fun _ => 1) (-x.1)).1 i - (vjp r (y r) (fun _ => 1) (-x'.1)).1 i| ≤ _
        rw [vjp_fst h, vjp_fst h, one_mul, one_mul, hdn]
        exact (hbd _ (hd1 i) r hr _).trans (mul_le_mul_of_nonneg_left hn K.2)
      · show |(vjp r (y r) (fun _ => 1) (-x.1)).2 j - (vjp r (y r) (fun _ => 1) (-x'.1)).2 j| ≤ _
        rw [vjp_snd h, vjp_snd h, one_mul, one_mul, hdn]
        exact (hbd _ (hd2 j) r hr _).trans (mul_le_mul_of_nonneg_left hn K.2))
    (fun r hr => by
      refine Prod.ext (funext fun i => ?_) (funext fun j => ?_)
      · rw [vjp_fst h]; simp [dot]
      · rw [vjp_snd h]; simp [dot])
    (fun x => by
      refine ContinuousOn.prodMk (f := fun r => (vjp r (y r) (fun _ => 1) (-x.1)).1)
        (g := fun r => (vjp r (y r) (fun _ => 1) (-x.1)).2) (continuousOn_pi.2 fun i => ?_) (continuousOn_pi.2 fun j => ?_)
      · simp only [vjp_fst h, one_mul]; exact hcomp _ _
      · simp only [vjp_snd h, one_mul]; exact hcomp _ _)
    w0
  refine ⟨fun r => (y r, w r), Prod.ext rfl hw0, a1, ha1', b1, hb1, fun r hr => ?_⟩
  rw [adjRhs_eq]
  exact (hy r (hI r ⟨hr.1.le, hr.2.le⟩)).prodMk ((hw r ⟨hr.1.le, hr.2.le⟩).hasDerivAt (Icc_mem_nhds hr.1 hr.2))

/-- Backwards in time this is a solution of the mirrored equation. -/
theorem mirrored_near (hF : AnalyticOnNhd ℝ F univ) (h : IsVjp (derivOf F) θ vjp) (Z : ℝ → Aug S Q) (s t a' b' : ℝ)
    (hts : t ≤ s) (ha : a' < t) (hb : s < b')
    (hZ : ∀ r ∈ Ioo a' b', HasDerivAt Z (adjRhs (fun t z => F (t, z)) θ vjp r (Z r)) r) :
    SolutionNear (mirrored (adjRhs (fun t z => F (t, z)) θ vjp)) univ (fun r => Z (-r)) (-s) (-t) where
  isOpen := isOpen_univ
  analytic := fun _ x _ => by
    have h1 : AnalyticAt ℝ (fun x : ℝ × Aug S Q => ((-x.1, x.2) : ℝ × Aug S Q)) x :=
      analyticAt_fst.fun_neg.prod analyticAt_snd
    exact (AnalyticAt.fun_comp (g := fun x : ℝ × Aug S Q => adjRhs (fun t z => F (t, z)) θ vjp x.1 x.2)
      (adjRhs_analytic hF h _ trivial) h1).fun_neg
  le := neg_le_neg hts
  solves := ⟨-b', neg_lt_neg hb, -a', neg_lt_neg ha, fun r hr => ⟨trivial, by
    have h1 := (hZ (-r) ⟨by linarith [hr.2], by linarith [hr.1]⟩).scomp r (hasDerivAt_neg r)
    simpa [mirrored, Function.comp_def] using h1⟩⟩

end
end Verif.Backsolve
