import Verif.Props.OtherSolvers
import Mathlib.Analysis.Calculus.ContDiff.Basic

/-!
# C78: ReversibleHeun converges with order 2

The auxiliary value of the method is off by an amount of first order only when the steps have different lengths, but
with alternating signs, so that it cancels in the value itself. No assumption on the lengths of the steps is
needed.
-/

set_option linter.unusedSectionVars false

namespace Verif
open Set

variable {E : Type} [NormedAddCommGroup E] [NormedSpace ℝ E]

/-- `f` is differentiable in `y` with a derivative bounded by `L` and `M`-Lipschitz in `(t, y)`. -/
structure SmoothField (f : ℝ → E → E) (f' : ℝ → E → E →L[ℝ] E) (L M : ℝ) : Prop where
  deriv : ∀ t x, HasFDerivAt (f t) (f' t x) x
  bound : ∀ t x, ‖f' t x‖ ≤ L
  lipschitz : ∀ t s x z, ‖f' t x - f' s z‖ ≤ M * (|t - s| + ‖x - z‖)

namespace SmoothField
variable {f : ℝ → E → E} {f' : ℝ → E → E →L[ℝ] E} {L M : ℝ} (h : SmoothField f f' L M)
include h

theorem L_nonneg : 0 ≤ L := (norm_nonneg _).trans (h.bound 0 0)

theorem M_nonneg : 0 ≤ M := by
  have := (norm_nonneg _).trans (h.lipschitz 1 0 0 0)
  simpa using this

theorem lip (t : ℝ) (x z : E) : ‖f t x - f t z‖ ≤ L * ‖x - z‖ :=
  convex_univ.norm_image_sub_le_of_norm_hasFDerivWithin_le
    (fun x _ => (h.deriv t x).hasFDerivWithinAt) (fun x _ => h.bound t x) (mem_univ z) (mem_univ x)

theorem remainder (t : ℝ) (x d : E) : ‖f t (x + d) - f t x - f' t x d‖ ≤ M * ‖d‖ ^ 2 := by
  have hb : ∀ z ∈ segment ℝ x (x + d), ‖f' t z - f' t x‖ ≤ M * ‖d‖ := by
    intro z hz
    refine (h.lipschitz t t z x).trans (mul_le_mul_of_nonneg_left ?_ h.M_nonneg)
    rw [sub_self, abs_zero, zero_add]
    obtain ⟨θ, hθ, rfl⟩ := (segment_eq_image' ℝ x (x + d)).le hz
    rw [add_sub_cancel_left, add_sub_cancel_left, norm_smul, Real.norm_eq_abs, abs_of_nonneg hθ.1]
    exact mul_le_of_le_one_left (norm_nonneg _) hθ.2
  have := (convex_segment x (x + d)).norm_image_sub_le_of_norm_hasFDerivWithin_le'
    (fun z _ => (h.deriv t z).hasFDerivWithinAt) hb (left_mem_segment ℝ x (x + d))
    (right_mem_segment ℝ x (x + d))
  rw [add_sub_cancel_left] at this
  exact this.trans (le_of_eq (by ring))

end SmoothField

/-- Constants for the derivatives of a solution on `[a, b]`. -/
structure SmoothSolution (f : ℝ → E → E) (y G : ℝ → E) (a b R M₂ M₃ : ℝ) : Prop where
  M₂_nonneg : 0 ≤ M₂
  M₃_nonneg : 0 ≤ M₃
  solves : ∀ t, HasDerivAt y (f t (y t)) t
  second : ∀ t, HasDerivAt (fun t => f t (y t)) (G t) t
  speed : ∀ s ∈ Icc a b, ∀ t ∈ Icc a b, ‖y s - y t‖ ≤ R * |s - t|
  lip₁ : ∀ s ∈ Icc a b, ∀ t ∈ Icc a b, ‖f s (y s) - f t (y t)‖ ≤ M₂ * |s - t|
  lip₂ : ∀ s ∈ Icc a b, ∀ t ∈ Icc a b, ‖G s - G t‖ ≤ M₃ * |s - t|

theorem lipschitz_of_continuous_deriv {u u' : ℝ → E} (hu : ∀ t, HasDerivAt u (u' t) t) (hc : Continuous u')
    (a b : ℝ) : ∃ R, 0 ≤ R ∧ ∀ s ∈ Icc a b, ∀ t ∈ Icc a b, ‖u s - u t‖ ≤ R * |s - t| := by
  obtain ⟨R, hR⟩ := (isCompact_Icc (a := a) (b := b)).exists_bound_of_continuousOn hc.continuousOn
  refine ⟨|R|, abs_nonneg _, fun s hs t ht => ?_⟩
  have := (convex_Icc a b).norm_image_sub_le_of_norm_hasDerivWithin_le
    (fun x _ => (hu x).hasDerivWithinAt) (fun x hx => (hR x hx).trans (le_abs_self R)) ht hs
  rwa [Real.norm_eq_abs] at this

/-- Every three times continuously differentiable solution has such constants. -/
theorem SmoothSolution.exists {f : ℝ → E → E} {y : ℝ → E} (hy : ∀ t, HasDerivAt y (f t (y t)) t)
    (hy3 : ContDiff ℝ 3 y) (a b : ℝ) : ∃ G R M₂ M₃, 0 ≤ R ∧ SmoothSolution f y G a b R M₂ M₃ := by
  have e1 : deriv y = fun t => f t (y t) := funext fun t => (hy t).deriv
  have h3 : ContDiff ℝ (2 + 1) y := by exact_mod_cast hy3
  obtain ⟨-, -, h2⟩ := contDiff_succ_iff_deriv.1 h3
  have h2' : ContDiff ℝ (1 + 1) (deriv y) := by exact_mod_cast h2
  obtain ⟨d1, -, h1⟩ := contDiff_succ_iff_deriv.1 h2'
  have h1' : ContDiff ℝ (0 + 1) (deriv (deriv y)) := by exact_mod_cast h1
  obtain ⟨d0, -, h0⟩ := contDiff_succ_iff_deriv.1 h1'
  have hF : ∀ t, HasDerivAt (deriv y) (deriv (deriv y) t) t := fun t => (d1 t).hasDerivAt
  have hG : ∀ t, HasDerivAt (deriv (deriv y)) (deriv (deriv (deriv y)) t) t := fun t => (d0 t).hasDerivAt
  obtain ⟨R, hR0, hR⟩ := lipschitz_of_continuous_deriv hy (by rw [← e1]; exact h2.continuous) a b
  obtain ⟨M₂, hM₂0, hM₂⟩ := lipschitz_of_continuous_deriv hF h1.continuous a b
  obtain ⟨M₃, hM₃0, hM₃⟩ := lipschitz_of_continuous_deriv hG h0.continuous a b
  rw [e1] at hF hM₂
  exact ⟨deriv (deriv y), R, M₂, M₃, hR0, hM₂0, hM₃0, hy, by rw [← e1] at hF ⊢; exact hF, hR, hM₂, hM₃⟩

section
variable {f : ℝ → E → E} {f' : ℝ → E → E →L[ℝ] E} {L M : ℝ} {y G : ℝ → E} {a b R M₂ M₃ : ℝ}

/-- One step of the method; `e` and `d` are the errors of the value and of the auxiliary value, before (0) and
after (1). -/
theorem revHeun_step (hf : SmoothField f f' L M) (hy : SmoothSolution f y G a b R M₂ M₃) (hR : 0 ≤ R)
    {t t' δ : ℝ} (hat : a ≤ t) (htt : t ≤ t') (htb : t' ≤ b) (hδ : t' - t ≤ δ) (x xh : E)
    (x1h x1 : E) (hx1h : x1h = (2 : ℝ) • x - xh + (t' - t) • f t xh)
    (hx1 : x1 = x + (1 / 2 : ℝ) • (t' - t) • (f t xh + f t' x1h)) :
    (‖(x1h - y t') - (x1 - y t')‖ + ‖x1 - y t'‖
      ≤ (1 + L * (4 + L * δ) * (t' - t)) * (‖(xh - y t) - (x - y t)‖ + ‖x - y t‖)
        + (L * M₂ * δ + M₂ + 4 * M₃ * δ) * (t' - t) ^ 2) ∧
    (∀ w, ‖(xh - y t) - (x - y t)‖ + ‖x - y t‖ ≤ w → t' - t ≤ w →
      ‖x1 - y t'‖ ≤ (1 + L * (t' - t)) * ‖x - y t‖
        + (t' - t) * (((L ^ 2 + L * M₂ + M * (1 + R) * (3 + L * δ + M₂ * δ) + M
            + M * (3 + L * δ + M₂ * δ) ^ 2) / 2 + 2 * M₃) * w ^ 2)) := by
  have hL := hf.L_nonneg
  have hM := hf.M_nonneg
  have hM₂ := hy.M₂_nonneg
  have hM₃ := hy.M₃_nonneg
  have hh : 0 ≤ t' - t := sub_nonneg.2 htt
  have ht : t ∈ Icc a b := ⟨hat, htt.trans htb⟩
  have ht' : t' ∈ Icc a b := ⟨hat.trans htt, htb⟩
  have hτ2 := taylor_one hy.solves hy.lip₁ hM₂ ht' ht left_mem_uIcc
  have hτ3 := trapezoid hy.solves hy.second hy.lip₂ hM₃ ht' ht
  have hsp := hy.speed t' ht' t ht
  rw [abs_of_nonneg hh] at hτ2 hτ3 hsp
  set h := t' - t with hhd
  set τ2 := y t' - y t - h • f t (y t) with hτ2d
  set τ3 := y t' - y t - (h / 2) • (f t (y t) + f t' (y t')) with hτ3d
  -- the errors
  set e0 := x - y t with he0
  set d0 := xh - y t with hd0
  set d1 := x1h - y t' with hd1
  set e1 := x1 - y t' with he1
  set Δ0 := f t xh - f t (y t) with hΔ0
  set Δ1 := f t' x1h - f t' (y t') with hΔ1
  have hp : d0 + d1 = (2 : ℝ) • e0 + h • Δ0 - τ2 := by
    rw [hd1, hx1h, hd0, he0, hΔ0, hτ2d]; module
  have he : e1 = e0 + (h / 2) • (Δ0 + Δ1) - τ3 := by
    rw [he1, hx1, he0, hΔ0, hΔ1, hτ3d]; module
  have hg : d1 - e1 = -(d0 - e0) + (h / 2) • (Δ0 - Δ1) - τ2 + τ3 := by
    have : d1 = (2 : ℝ) • e0 + h • Δ0 - τ2 - d0 := by rw [← hp]; abel
    rw [this, he]; module
  set S := ‖d0 - e0‖ + ‖e0‖ with hS
  have hS0 : 0 ≤ S := by positivity
  have hd0S : ‖d0‖ ≤ S := by
    have := norm_add_le (d0 - e0) e0
    rwa [sub_add_cancel] at this
  have he0S : ‖e0‖ ≤ S := by rw [hS]; linarith [norm_nonneg (d0 - e0)]
  have hΔ0b : ‖Δ0‖ ≤ L * ‖d0‖ := hf.lip t xh (y t)
  have hΔ1b : ‖Δ1‖ ≤ L * ‖d1‖ := hf.lip t' x1h (y t')
  have hpb : ‖d0 + d1‖ ≤ 2 * ‖e0‖ + h * (L * S) + M₂ * h ^ 2 := by
    rw [hp]
    refine (norm_sub_le _ _).trans (add_le_add ((norm_add_le _ _).trans (add_le_add ?_ ?_)) hτ2)
    · rw [norm_smul]; simp
    · rw [norm_smul, Real.norm_eq_abs, abs_of_nonneg hh]
      exact mul_le_mul_of_nonneg_left (hΔ0b.trans (mul_le_mul_of_nonneg_left hd0S hL)) hh
  have hhL : h * L ≤ L * δ := by rw [mul_comm]; exact mul_le_mul_of_nonneg_left hδ hL
  have hd1b : ‖d1‖ ≤ (3 + L * δ) * S + M₂ * h ^ 2 := by
    have h1 : ‖d1‖ ≤ ‖d0 + d1‖ + ‖d0‖ := by
      have := norm_sub_le (d0 + d1) d0
      rwa [add_sub_cancel_left] at this
    have h2 : h * (L * S) ≤ L * δ * S := by
      rw [← mul_assoc]; exact mul_le_mul_of_nonneg_right hhL hS0
    linarith
  have hhalf : ∀ v : E, ‖(h / 2) • v‖ = h / 2 * ‖v‖ := by
    intro v; rw [norm_smul, Real.norm_eq_abs, abs_of_nonneg (by positivity)]
  refine ⟨?_, ?_⟩
  · have b1 : ‖e1‖ ≤ ‖e0‖ + h / 2 * (L * S + L * ‖d1‖) + 2 * M₃ * h ^ 3 := by
      rw [he]
      refine (norm_sub_le _ _).trans (add_le_add ((norm_add_le _ _).trans (add_le_add (le_refl _) ?_)) hτ3)
      rw [hhalf]
      refine mul_le_mul_of_nonneg_left ((norm_add_le _ _).trans (add_le_add ?_ hΔ1b)) (by positivity)
      exact hΔ0b.trans (mul_le_mul_of_nonneg_left hd0S hL)
    have b2 : ‖d1 - e1‖ ≤ ‖d0 - e0‖ + h / 2 * (L * S + L * ‖d1‖) + M₂ * h ^ 2 + 2 * M₃ * h ^ 3 := by
      rw [hg]
      refine (norm_add_le _ _).trans (add_le_add ((norm_sub_le _ _).trans (add_le_add ((norm_add_le _ _).trans
        (add_le_add (by rw [norm_neg]) ?_)) hτ2)) hτ3)
      rw [hhalf]
      refine mul_le_mul_of_nonneg_left ((norm_sub_le _ _).trans (add_le_add ?_ hΔ1b)) (by positivity)
      exact hΔ0b.trans (mul_le_mul_of_nonneg_left hd0S hL)
    have b3 : h * (L * ‖d1‖) ≤ h * (L * ((3 + L * δ) * S + M₂ * h ^ 2)) :=
      mul_le_mul_of_nonneg_left (mul_le_mul_of_nonneg_left hd1b hL) hh
    have b4 : h * (L * (M₂ * h ^ 2)) ≤ L * M₂ * δ * h ^ 2 := by
      have : L * M₂ * h ^ 2 * h ≤ L * M₂ * h ^ 2 * δ := mul_le_mul_of_nonneg_left hδ (by positivity)
      calc _ = L * M₂ * h ^ 2 * h := by ring
        _ ≤ _ := this
        _ = _ := by ring
    have b5 : 4 * M₃ * h ^ 3 ≤ 4 * M₃ * δ * h ^ 2 := by
      have : 4 * M₃ * h ^ 2 * h ≤ 4 * M₃ * h ^ 2 * δ := mul_le_mul_of_nonneg_left hδ (by positivity)
      calc _ = 4 * M₃ * h ^ 2 * h := by ring
        _ ≤ _ := this
        _ = _ := by ring
    calc ‖d1 - e1‖ + ‖e1‖ ≤ S + h * (L * S + L * ‖d1‖) + M₂ * h ^ 2 + 4 * M₃ * h ^ 3 := by
          rw [hS]; linarith
      _ ≤ _ := by linarith
  · intro w hSw hhw
    have hw : 0 ≤ w := hh.trans hhw
    set c := 3 + L * δ + M₂ * δ with hc
    have hδ0 : 0 ≤ δ := hh.trans hδ
    have hc0 : 0 ≤ c := by positivity
    have hd1w : ‖d1‖ ≤ c * w := by
      have h1 : (3 + L * δ) * S ≤ (3 + L * δ) * w := mul_le_mul_of_nonneg_left hSw (by positivity)
      have h2 : M₂ * h ^ 2 ≤ M₂ * δ * w := by
        rw [mul_assoc, sq]
        exact mul_le_mul_of_nonneg_left (mul_le_mul hδ hhw hh hδ0) hM₂
      rw [hc]; linarith
    have hd0w : ‖d0‖ ≤ w := hd0S.trans hSw
    -- second order expansion of the vector field
    have r0 : ‖Δ0 - f' t (y t) d0‖ ≤ M * w ^ 2 := by
      have := hf.remainder t (y t) d0
      rw [hd0, add_sub_cancel] at this
      exact this.trans (mul_le_mul_of_nonneg_left (pow_le_pow_left₀ (norm_nonneg _) hd0w 2) hM)
    have r1 : ‖Δ1 - f' t' (y t') d1‖ ≤ M * (c * w) ^ 2 := by
      have := hf.remainder t' (y t') d1
      rw [hd1, add_sub_cancel] at this
      exact this.trans (mul_le_mul_of_nonneg_left (pow_le_pow_left₀ (norm_nonneg _) hd1w 2) hM)
    have r2 : ‖f' t' (y t') d1 - f' t (y t) d1‖ ≤ M * (1 + R) * (c * w ^ 2) := by
      have h1 := (f' t' (y t') - f' t (y t)).le_opNorm d1
      have h2 := hf.lipschitz t' t (y t') (y t)
      rw [abs_of_nonneg hh] at h2
      have h3 : M * (h + ‖y t' - y t‖) ≤ M * ((1 + R) * w) := by
        refine mul_le_mul_of_nonneg_left ?_ hM
        have : R * h ≤ R * w := mul_le_mul_of_nonneg_left hhw hR
        linarith
      refine h1.trans ((mul_le_mul (h2.trans h3) hd1w (norm_nonneg _) (by positivity)).trans (le_of_eq ?_))
      ring
    have r3 : ‖f' t (y t) (d0 + d1)‖ ≤ L * (2 * ‖e0‖ + (L + M₂) * w ^ 2) := by
      refine ((f' t (y t)).le_opNorm _).trans ?_
      refine mul_le_mul (hf.bound _ _) (hpb.trans ?_) (norm_nonneg _) hL
      have h1 : h * (L * S) ≤ L * w ^ 2 := by
        have : h * S ≤ w * w := mul_le_mul hhw hSw hS0 hw
        have := mul_le_mul_of_nonneg_left this hL
        calc h * (L * S) = L * (h * S) := by ring
          _ ≤ L * (w * w) := this
          _ = L * w ^ 2 := by ring
      have h2 : M₂ * h ^ 2 ≤ M₂ * w ^ 2 := mul_le_mul_of_nonneg_left (pow_le_pow_left₀ hh hhw 2) hM₂
      linarith
    have r : ‖Δ0 + Δ1‖ ≤ L * (2 * ‖e0‖ + (L + M₂) * w ^ 2) + M * (1 + R) * (c * w ^ 2) + M * w ^ 2
        + M * (c * w) ^ 2 := by
      have e : Δ0 + Δ1 = f' t (y t) (d0 + d1) + (f' t' (y t') d1 - f' t (y t) d1) + (Δ0 - f' t (y t) d0)
          + (Δ1 - f' t' (y t') d1) := by
        rw [map_add]; abel
      rw [e]
      exact (norm_add_le _ _).trans (add_le_add ((norm_add_le _ _).trans (add_le_add ((norm_add_le _ _).trans
        (add_le_add r3 r2)) r0)) r1)
    have h3 : 2 * M₃ * h ^ 3 ≤ h * (2 * M₃ * w ^ 2) := by
      have : h ^ 2 ≤ w ^ 2 := pow_le_pow_left₀ hh hhw 2
      have h4 : 2 * M₃ * h * h ^ 2 ≤ 2 * M₃ * h * w ^ 2 := mul_le_mul_of_nonneg_left this (by positivity)
      calc _ = 2 * M₃ * h * h ^ 2 := by ring
        _ ≤ _ := h4
        _ = _ := by ring
    have h4 := mul_le_mul_of_nonneg_left r (by positivity : 0 ≤ h / 2)
    calc ‖e1‖ ≤ ‖e0‖ + h / 2 * ‖Δ0 + Δ1‖ + 2 * M₃ * h ^ 3 := by
          rw [he]
          refine (norm_sub_le _ _).trans (add_le_add ((norm_add_le _ _).trans (add_le_add (le_refl _) ?_)) hτ3)
          rw [hhalf]
      _ ≤ ‖e0‖ + h / 2 * (L * (2 * ‖e0‖ + (L + M₂) * w ^ 2) + M * (1 + R) * (c * w ^ 2) + M * w ^ 2
        + M * (c * w) ^ 2) + h * (2 * M₃ * w ^ 2) := by linarith
      _ = _ := by ring

theorem revHeun_error (hf : SmoothField f f' L M) (hy : SmoothSolution f y G a b R M₂ M₃) (hR : 0 ≤ R)
    (interp : LocalLin ℝ E) (δ : ℝ) (hδ : 0 ≤ δ) (C₁ C₂ K : ℝ)
    (hC₁ : C₁ = L * M₂ * δ + M₂ + 4 * M₃ * δ) (hK : K = L * (4 + L * δ))
    (hC₂ : C₂ = (L ^ 2 + L * M₂ + M * (1 + R) * (3 + L * δ + M₂ * δ) + M + M * (3 + L * δ + M₂ * δ) ^ 2) / 2
      + 2 * M₃) :
    ErrorAtMost (reversibleHeun ℝ (odeTerm f) interp) (reversibleHeunInit (odeTerm f)) y a b δ
      (fun e η => Real.exp (L * (b - a)) * (e + (b - a) *
        (C₂ * (Real.exp (K * (b - a)) * (e + (b - a) * (C₁ * η)) + η) ^ 2))) := by
  have hL := hf.L_nonneg
  have hM := hf.M_nonneg
  have hM₂ := hy.M₂_nonneg
  have hM₃ := hy.M₃_nonneg
  have hC₁0 : 0 ≤ C₁ := by rw [hC₁]; positivity
  have hC₂0 : 0 ≤ C₂ := by rw [hC₂]; positivity
  have hK0 : 0 ≤ K := by rw [hK]; positivity
  intro C O F _ _ cfg hwf ha hb hsv hctrl y0 tnext ctrl mj η hη0 hηδ hfor hok
  subst ha hb
  set e := ‖y0 - y cfg.t0‖ with he
  have he0 : 0 ≤ e := norm_nonneg _
  have hba : 0 ≤ cfg.t1 - cfg.t0 := sub_nonneg.2 hwf.le
  set u := Real.exp (K * (cfg.t1 - cfg.t0)) * (e + (cfg.t1 - cfg.t0) * (C₁ * η)) with hu
  have hu0 : 0 ≤ u := by positivity
  have hB0 : 0 ≤ C₂ * (u + η) ^ 2 := by positivity
  have hmain := solve_invariant cfg hwf hctrl y0 tnext ctrl (reversibleHeunInit (odeTerm f) cfg.t0 y0) mj
    (fun t x st => st.2 = f t st.1 ∧
      ‖(st.1 - y t) - (x - y t)‖ + ‖x - y t‖ ≤ errorBound C₁ 0 K 1 η e cfg.t0 t ∧
      ‖x - y t‖ ≤ errorBound 0 (C₂ * (u + η) ^ 2) L 0 η e cfg.t0 t)
    ⟨rfl, by
      show ‖(y0 - y cfg.t0) - (y0 - y cfg.t0)‖ + ‖y0 - y cfg.t0‖ ≤ _
      simp [errorBound, he], by simp [errorBound, he]⟩
    (fun c hc => (hfor c hc).1) ?_
  · obtain ⟨hall, hends, -, -, hfin⟩ := hmain
    refine ⟨?_, ?_⟩
    · intro c hc
      obtain ⟨⟨b1, b2⟩, -, -, b3⟩ := hall c hc
      refine b3.trans ((errorBound_mono 0 _ L (le_refl _) hB0 hL 0 η e _ _ cfg.t1 hη0 he0 b1
        ((hfor c hc).1.trans b2)).trans (le_of_eq ?_))
      ring
    · intro hroot
      rw [solve_yfinal, solve_tfinal, finalise_no_root cfg _ hroot]
      refine hfin.trans ((errorBound_mono 0 _ L (le_refl _) hB0 hL 0 η e _ _ cfg.t1 hη0 he0 hends.1
        hends.2).trans (le_of_eq ?_))
      ring
  · rintro c hc hk hc0 hc1 ⟨hst, hU, hW⟩
    obtain ⟨hfw, hmj⟩ := hfor c hc
    have hlen := (hok c hc hk).2
    rw [hsv, hmj]
    generalize c.solverT0 = t at *
    generalize c.solverT1 = t' at *
    generalize c.solverY = x at *
    generalize c.solverState = st at *
    obtain ⟨xh, v⟩ := st
    dsimp only at hst hU
    subst hst
    obtain ⟨g1, g2⟩ := revHeun_step hf hy hR hc0 hfw hc1 (hlen.trans hηδ) x xh _ _ rfl rfl
    rw [← hK, ← hC₁] at g1
    rw [← hC₂] at g2
    have hUu : errorBound C₁ 0 K 1 η e cfg.t0 t ≤ u := by
      refine (errorBound_mono C₁ 0 K hC₁0 (le_refl _) hK0 1 η e _ t cfg.t1 hη0 he0 hc0
        (hfw.trans hc1)).trans (le_of_eq ?_)
      rw [hu, pow_one, add_zero]
    refine ⟨rfl, ?_, ?_⟩
    · refine g1.trans ?_
      have := errorBound_step C₁ 0 K hC₁0 (le_refl _) hK0 1 η e cfg.t0 t t' _ hlen he0 hc0 hfw hU
      rwa [zero_mul, add_zero] at this
    · refine (g2 (u + η) ((hU.trans hUu).trans (by linarith)) (hlen.trans (by linarith))).trans ?_
      have := errorBound_step 0 (C₂ * (u + η) ^ 2) L (le_refl _) hB0 hL 0 η e cfg.t0 t t' _ hlen he0 hc0 hfw hW
      refine le_trans (le_of_eq ?_) this
      ring

/-- **C78, ReversibleHeun.** Second order, for steps of any (also varying) lengths. -/
theorem C78_reversible_heun (hf : SmoothField f f' L M) (hy : ∀ t, HasDerivAt y (f t (y t)) t)
    (hy3 : ContDiff ℝ 3 y) (a b δ : ℝ) (hab : a ≤ b) (hδ : 0 ≤ δ) : ∃ B, 0 ≤ B ∧ ∀ interp : LocalLin ℝ E,
    ErrorAtMost (reversibleHeun ℝ (odeTerm f) interp) (reversibleHeunInit (odeTerm f)) y a b δ
      (fun e η => Real.exp (L * (b - a)) * (e + (b - a) * (B * (e + η) ^ 2))) := by
  obtain ⟨G, R, M₂, M₃, hR, hs⟩ := SmoothSolution.exists hy hy3 a b
  have hL := hf.L_nonneg
  have hM := hf.M_nonneg
  have hM₂ := hs.M₂_nonneg
  have hM₃ := hs.M₃_nonneg
  have h := fun interp => revHeun_error hf hs hR interp δ hδ _ _ _ rfl rfl rfl
  have hC₁0 : 0 ≤ L * M₂ * δ + M₂ + 4 * M₃ * δ := by positivity
  have hC₂0 : 0 ≤ (L ^ 2 + L * M₂ + M * (1 + R) * (3 + L * δ + M₂ * δ) + M
    + M * (3 + L * δ + M₂ * δ) ^ 2) / 2 + 2 * M₃ := by positivity
  generalize L * M₂ * δ + M₂ + 4 * M₃ * δ = C₁ at *
  generalize (L ^ 2 + L * M₂ + M * (1 + R) * (3 + L * δ + M₂ * δ) + M
    + M * (3 + L * δ + M₂ * δ) ^ 2) / 2 + 2 * M₃ = C₂ at *
  generalize L * (4 + L * δ) = K at *
  have hba : 0 ≤ b - a := sub_nonneg.2 hab
  set κ := Real.exp (K * (b - a)) * (1 + (b - a) * C₁) + 1 with hκ
  have hκ0 : 0 ≤ κ := by positivity
  refine ⟨C₂ * κ ^ 2, by positivity, fun interp => (h interp).mono ?_⟩
  intro e η he hη _ _
  have h1 : Real.exp (K * (b - a)) * (e + (b - a) * (C₁ * η)) + η ≤ κ * (e + η) := by
    have h2 : 0 ≤ Real.exp (K * (b - a)) * ((b - a) * C₁ * e) := by positivity
    have h3 : 0 ≤ Real.exp (K * (b - a)) * η := by positivity
    rw [hκ]
    nlinarith
  have h0 : 0 ≤ Real.exp (K * (b - a)) * (e + (b - a) * (C₁ * η)) + η := by positivity
  have h4 : C₂ * (Real.exp (K * (b - a)) * (e + (b - a) * (C₁ * η)) + η) ^ 2 ≤ C₂ * κ ^ 2 * (e + η) ^ 2 := by
    rw [mul_assoc, ← mul_pow]
    exact mul_le_mul_of_nonneg_left (pow_le_pow_left₀ h0 h1 2) hC₂0
  gcongr

/-- `y' = y`. -/
theorem linear_smoothField : SmoothField (fun _ x : ℝ => x) (fun _ _ => ContinuousLinearMap.id ℝ ℝ) 1 0 where
  deriv := fun _ x => hasFDerivAt_id x
  bound := fun _ _ => ContinuousLinearMap.norm_id_le
  lipschitz := fun _ _ _ _ => by simp

/-- Euler's number, by reversible Heun with `n` steps: the error is at most a constant over `n^2`. -/
example : ∃ B : ℝ, ∀ (interp : LocalLin ℝ ℝ) (n : ℕ), 0 < n → ∃ tnext ctrl,
    constInit id (0 : ℝ) (some 1) (some (1 / n)) = some (tnext, ctrl) ∧
    ‖(solve (unitCfg (reversibleHeun ℝ (odeTerm fun _ x : ℝ => x) interp) constantStepSize (0, 0) n) (Real.exp 0)
      tnext ctrl (reversibleHeunInit (odeTerm fun _ x : ℝ => x) 0 (Real.exp 0)) false).yfinal - Real.exp 1‖
      ≤ B * (1 / n) ^ 2 := by
  obtain ⟨B, -, hB⟩ := C78_reversible_heun linear_smoothField Real.hasDerivAt_exp Real.contDiff_exp 0 1 1 zero_le_one
    zero_le_one
  refine ⟨Real.exp 1 * B, fun interp n hn => ?_⟩
  have hn' : (1 : ℝ) ≤ n := by exact_mod_cast hn
  obtain ⟨tnext, ctrl, h1, h2⟩ := unit_constant (hB interp) (fun _ _ _ _ _ => rfl) (0, 0) n hn
    (div_le_one_of_le₀ hn' (by positivity))
  refine ⟨tnext, ctrl, h1, h2.trans (le_of_eq ?_)⟩
  norm_num
  ring

end
end Verif
