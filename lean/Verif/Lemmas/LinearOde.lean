import Mathlib.Analysis.ODE.ExistUnique
import Mathlib.Analysis.ODE.Gronwall
import Mathlib.Analysis.Calculus.Deriv.Prod
import Mathlib.Analysis.Calculus.Deriv.Pi
import Mathlib.Analysis.Calculus.Deriv.Comp
import Mathlib.Analysis.Calculus.Deriv.Shift

/-!
# Equations with Lipschitz right-hand sides have solutions on whole intervals
-/

namespace Verif
open Set
open scoped NNReal

section
variable {W : Type} [NormedAddCommGroup W] [NormedSpace ℝ W]

/-- There are maps onto balls that do not increase distances. -/
def Truncates (W : Type) [NormedAddCommGroup W] : Prop :=
  ∀ R : ℝ, 0 ≤ R → ∃ ρ : W → W, LipschitzWith 1 ρ ∧ (∀ x, ‖ρ x‖ ≤ R) ∧ ∀ x, ‖x‖ ≤ R → ρ x = x

theorem truncates_pi {ι : Type} [Fintype ι] : Truncates (ι → ℝ) := by
  intro R hR
  refine ⟨fun x i => max (-R) (min R (x i)), ?_, ?_, ?_⟩
  · refine LipschitzWith.of_dist_le_mul fun x y => ?_
    rw [NNReal.coe_one, one_mul]
    refine (dist_pi_le_iff dist_nonneg).2 fun i => le_trans ?_ (dist_le_pi_dist x y i)
    rw [Real.dist_eq, Real.dist_eq]
    refine (abs_max_sub_max_le_max _ _ _ _).trans ?_
    rw [sub_self, abs_zero]
    refine max_le (abs_nonneg _) ((abs_min_sub_min_le_max _ _ _ _).trans ?_)
    rw [sub_self, abs_zero]
    exact max_le (abs_nonneg _) le_rfl
  · intro x
    refine (pi_norm_le_iff_of_nonneg hR).2 fun i => ?_
    rw [Real.norm_eq_abs, abs_le]
    exact ⟨le_max_left _ _, max_le (by linarith) (min_le_left _ _)⟩
  · intro x hx
    funext i
    have h := (norm_le_pi_norm x i).trans hx
    rw [Real.norm_eq_abs, abs_le] at h
    show max (-R) (min R (x i)) = x i
    rw [min_eq_right h.2, max_eq_right h.1]

theorem Truncates.prod {V W : Type} [NormedAddCommGroup V] [NormedAddCommGroup W] (hV : Truncates V) (hW : Truncates W) :
    Truncates (V × W) := by
  intro R hR
  obtain ⟨ρ, h1, h2, h3⟩ := hV R hR
  obtain ⟨σ, k1, k2, k3⟩ := hW R hR
  refine ⟨fun x => (ρ x.1, σ x.2), ?_, fun x => max_le (h2 _) (k2 _), fun x hx => ?_⟩
  · have := (h1.comp LipschitzWith.prod_fst).prodMk (k1.comp (LipschitzWith.prod_snd (α := V) (β := W)))
    simpa using this
  · exact Prod.ext (h3 _ ((le_max_left _ _).trans hx)) (k3 _ ((le_max_right _ _).trans hx))

/-- The size of a solution to the right of a point. -/
theorem bound_right (g : ℝ → W → W) (s b K : ℝ) (hK : 0 ≤ K) (w : ℝ → W)
    (hg : ∀ r ∈ Icc s b, ‖g r (w r)‖ ≤ K * ‖w r‖)
    (hw : ∀ r ∈ Icc s b, HasDerivWithinAt w (g r (w r)) (Icc s b) r) (r : ℝ) (hr : r ∈ Icc s b) :
    ‖w r‖ ≤ ‖w s‖ * Real.exp (K * (b - s)) := by
  have h := norm_le_gronwallBound_of_norm_deriv_right_le (f := w) (f' := fun r => g r (w r)) (δ := ‖w s‖) (K := K) (ε := 0)
    (a := s) (b := b) (fun r hr => (hw r hr).continuousWithinAt)
    (fun r hr => (hw r ⟨hr.1, hr.2.le⟩).mono_of_mem_nhdsWithin (Icc_mem_nhdsGE_of_mem hr)) le_rfl
    (fun r hr => by simpa using hg r ⟨hr.1, hr.2.le⟩) r hr
  rw [gronwallBound_ε0] at h
  refine h.trans (mul_le_mul_of_nonneg_left (Real.exp_le_exp.2 ?_) (norm_nonneg _))
  exact mul_le_mul_of_nonneg_left (sub_le_sub_right hr.2 _) hK

/-- The size of a solution on both sides of a point. -/
theorem bound_both (g : ℝ → W → W) (a b s K : ℝ) (hs : s ∈ Icc a b) (hK : 0 ≤ K) (w : ℝ → W)
    (hg : ∀ r ∈ Icc a b, ‖g r (w r)‖ ≤ K * ‖w r‖)
    (hw : ∀ r ∈ Icc a b, HasDerivWithinAt w (g r (w r)) (Icc a b) r) (r : ℝ) (hr : r ∈ Icc a b) :
    ‖w r‖ ≤ ‖w s‖ * Real.exp (K * (b - a)) := by
  have hm : ∀ x, x ≤ b - a → ‖w s‖ * Real.exp (K * x) ≤ ‖w s‖ * Real.exp (K * (b - a)) := fun x hx =>
    mul_le_mul_of_nonneg_left (Real.exp_le_exp.2 (mul_le_mul_of_nonneg_left hx hK)) (norm_nonneg _)
  rcases le_total s r with h | h
  · have hsub : Icc s b ⊆ Icc a b := Icc_subset_Icc_left hs.1
    exact (bound_right g s b K hK w (fun r hr => hg r (hsub hr)) (fun r hr => (hw r (hsub hr)).mono hsub) r
      ⟨h, hr.2⟩).trans (hm _ (sub_le_sub_left hs.1 _))
  · have hsub : ∀ x ∈ Icc (-s) (-a), -x ∈ Icc a b := fun x hx =>
      ⟨by have := hx.2; linarith, by have := hx.1; have := hs.2; linarith⟩
    have := bound_right (fun r x => -g (-r) x) (-s) (-a) K hK (fun r => w (-r))
      (fun x hx => by rw [norm_neg]; exact hg _ (hsub x hx))
      (fun x hx => by
        have h1 := (hw (-x) (hsub x hx)).scomp x ((hasDerivAt_neg x).hasDerivWithinAt (s := Icc (-s) (-a)))
          (fun z hz => hsub z hz)
        simpa [Function.comp_def] using h1) (-r) ⟨by linarith, by have := hr.1; linarith⟩
    simp only [neg_neg] at this
    exact this.trans (hm _ (by have := hs.2; linarith))

/-- An equation whose right-hand side is Lipschitz and 0 at 0 (a linear one, say) has solutions on the whole interval. -/
theorem lipschitz_ode_exists [CompleteSpace W] (hW : Truncates W) (g : ℝ → W → W) (a b s : ℝ) (hs : s ∈ Icc a b) (K : ℝ≥0)
    (hg : ∀ r ∈ Icc a b, LipschitzWith K (g r)) (h0 : ∀ r ∈ Icc a b, g r 0 = 0)
    (hc : ∀ x, ContinuousOn (fun r => g r x) (Icc a b)) (w0 : W) :
    ∃ w : ℝ → W, w s = w0 ∧ ∀ r ∈ Icc a b, HasDerivWithinAt w (g r (w r)) (Icc a b) r := by
  have hab : a ≤ b := hs.1.trans hs.2
  set R : ℝ := ‖w0‖ * Real.exp (K * (b - a)) with hR
  have hR0 : 0 ≤ R := by positivity
  obtain ⟨ρ, h1, h2, h3⟩ := hW R hR0
  have hρ0 : ρ 0 = 0 := h3 0 (by rw [norm_zero]; exact hR0)
  have hρn : ∀ x, ‖ρ x‖ ≤ ‖x‖ := fun x => by
    have := h1.norm_sub_le x 0
    simpa [hρ0] using this
  have hgn : ∀ r ∈ Icc a b, ∀ x, ‖g r x‖ ≤ K * ‖x‖ := fun r hr x => by
    have := (hg r hr).norm_sub_le x 0
    simpa [h0 r hr] using this
  have hP : IsPicardLindelof (fun r x => g r (ρ x)) (tmin := a) (tmax := b) ⟨s, hs⟩ w0
      (⟨K * R * (b - a), by have := sub_nonneg.2 hab; positivity⟩ : ℝ≥0) 0 (⟨K * R, by positivity⟩ : ℝ≥0) K := by
    refine ⟨fun r hr => ?_, fun x _ => hc (ρ x), fun r hr x _ => ?_, ?_⟩
    · have := (hg r hr).comp h1
      rw [mul_one] at this
      exact this.lipschitzOnWith
    · exact (hgn r hr _).trans (mul_le_mul_of_nonneg_left (h2 x) K.2)
    · show K * R * max (b - s) (s - a) ≤ K * R * (b - a) - 0
      rw [sub_zero]
      refine mul_le_mul_of_nonneg_left (max_le ?_ ?_) (by positivity)
      · linarith [hs.1]
      · linarith [hs.2]
  obtain ⟨w, hw0, hw⟩ := hP.exists_eq_forall_mem_Icc_hasDerivWithinAt₀
  refine ⟨w, hw0, fun r hr => ?_⟩
  have hb := bound_both (fun r x => g r (ρ x)) a b s K hs K.2 w
    (fun r hr => (hgn r hr _).trans (mul_le_mul_of_nonneg_left (hρn _) K.2)) hw r hr
  have e : w s = w0 := hw0
  rw [e] at hb
  have := hw r hr
  rwa [h3 _ hb] at this

end
end Verif
