import Mathlib.Analysis.Calculus.MeanValue
import Mathlib.Analysis.Calculus.Deriv.Pow
import Mathlib.Analysis.Calculus.Deriv.Mul

/-!
# Taylor expansions of curves whose derivatives are Lipschitz
-/

namespace Verif
open Set

variable {E : Type*} [NormedAddCommGroup E] [NormedSpace ℝ E] {y F G : ℝ → E} {a b M : ℝ}

theorem uIcc_sub_le {r s t : ℝ} (h : r ∈ uIcc t s) : |r - t| ≤ |s - t| := by
  rcases le_total t s with hts | hts
  · rw [uIcc_of_le hts] at h
    rw [abs_of_nonneg (sub_nonneg.2 h.1), abs_of_nonneg (sub_nonneg.2 hts)]
    linarith [h.2]
  · rw [uIcc_of_ge hts] at h
    rw [abs_of_nonpos (sub_nonpos.2 h.2), abs_of_nonpos (sub_nonpos.2 hts)]
    linarith [h.1]

theorem uIcc_sub_Icc {r s t : ℝ} (hs : s ∈ Icc a b) (ht : t ∈ Icc a b) (h : r ∈ uIcc t s) : r ∈ Icc a b :=
  uIcc_subset_Icc ht hs h

/-- First order, the derivative taken anywhere in between. -/
theorem taylor_one (hy : ∀ t, HasDerivAt y (F t) t)
    (hF : ∀ s ∈ Icc a b, ∀ t ∈ Icc a b, ‖F s - F t‖ ≤ M * |s - t|) (hM : 0 ≤ M) {s t r : ℝ}
    (hs : s ∈ Icc a b) (ht : t ∈ Icc a b) (hr : r ∈ uIcc t s) :
    ‖y s - y t - (s - t) • F r‖ ≤ M * |s - t| ^ 2 := by
  have hd : ∀ x ∈ uIcc t s, HasDerivWithinAt (fun x => y x - (x - t) • F r) (F x - F r) (uIcc t s) x := by
    intro x _
    have h1 : HasDerivAt (fun x => (x - t) • F r) ((1 : ℝ) • F r) x :=
      ((hasDerivAt_id x).sub_const t).smul_const (F r)
    rw [one_smul] at h1
    exact ((hy x).sub h1).hasDerivWithinAt
  have hb : ∀ x ∈ uIcc t s, ‖F x - F r‖ ≤ M * |s - t| := by
    intro x hx
    refine (hF x (uIcc_sub_Icc hs ht hx) r (uIcc_sub_Icc hs ht hr)).trans
      (mul_le_mul_of_nonneg_left ?_ hM)
    exact abs_sub_le_of_uIcc_subset_uIcc (uIcc_subset_uIcc hr hx)
  have := (convex_uIcc t s).norm_image_sub_le_of_norm_hasDerivWithin_le hd hb left_mem_uIcc right_mem_uIcc
  rw [Real.norm_eq_abs] at this
  refine (le_of_eq ?_).trans (this.trans (le_of_eq (by ring)))
  congr 1
  simp only [sub_self, zero_smul, sub_zero]
  abel

/-- Second order. -/
theorem taylor_two (hy : ∀ t, HasDerivAt y (F t) t) (hF : ∀ t, HasDerivAt F (G t) t)
    (hG : ∀ s ∈ Icc a b, ∀ t ∈ Icc a b, ‖G s - G t‖ ≤ M * |s - t|) (hM : 0 ≤ M) {s t : ℝ}
    (hs : s ∈ Icc a b) (ht : t ∈ Icc a b) :
    ‖y s - y t - (s - t) • F t - ((s - t) ^ 2 / 2) • G t‖ ≤ M * |s - t| ^ 3 := by
  have hd : ∀ x ∈ uIcc t s, HasDerivWithinAt
      (fun x => y x - (x - t) • F t - ((x - t) ^ 2 / 2) • G t) (F x - F t - (x - t) • G t) (uIcc t s) x := by
    intro x _
    have h1 : HasDerivAt (fun x => (x - t) • F t) ((1 : ℝ) • F t) x :=
      ((hasDerivAt_id x).sub_const t).smul_const (F t)
    have h2 : HasDerivAt (fun x : ℝ => (x - t) ^ 2 / 2) (x - t) x := by
      have := (((hasDerivAt_id x).sub_const t).pow 2).div_const 2
      refine this.congr_deriv ?_
      simp
    rw [one_smul] at h1
    exact (((hy x).sub h1).sub (h2.smul_const (G t))).hasDerivWithinAt
  have hb : ∀ x ∈ uIcc t s, ‖F x - F t - (x - t) • G t‖ ≤ M * |s - t| ^ 2 := by
    intro x hx
    refine (taylor_one hF hG hM (uIcc_sub_Icc hs ht hx) ht left_mem_uIcc).trans ?_
    exact mul_le_mul_of_nonneg_left (pow_le_pow_left₀ (abs_nonneg _) (uIcc_sub_le hx) 2) hM
  have := (convex_uIcc t s).norm_image_sub_le_of_norm_hasDerivWithin_le hd hb left_mem_uIcc right_mem_uIcc
  rw [Real.norm_eq_abs] at this
  refine (le_of_eq ?_).trans (this.trans (le_of_eq (by ring)))
  congr 1
  simp only [sub_self, zero_smul, sub_zero]
  simp only [ne_eq, OfNat.ofNat_ne_zero, not_false_eq_true, zero_pow, zero_div, zero_smul, sub_zero]
  abel

/-- The trapezoidal rule. -/
theorem trapezoid (hy : ∀ t, HasDerivAt y (F t) t) (hF : ∀ t, HasDerivAt F (G t) t)
    (hG : ∀ s ∈ Icc a b, ∀ t ∈ Icc a b, ‖G s - G t‖ ≤ M * |s - t|) (hM : 0 ≤ M) {s t : ℝ}
    (hs : s ∈ Icc a b) (ht : t ∈ Icc a b) :
    ‖y s - y t - ((s - t) / 2) • (F t + F s)‖ ≤ 2 * M * |s - t| ^ 3 := by
  have h1 := taylor_two hy hF hG hM hs ht
  have h2 := taylor_one hF hG hM hs ht left_mem_uIcc
  have e : y s - y t - ((s - t) / 2) • (F t + F s)
      = (y s - y t - (s - t) • F t - ((s - t) ^ 2 / 2) • G t) - ((s - t) / 2) • (F s - F t - (s - t) • G t) := by
    module
  rw [e]
  refine (norm_sub_le _ _).trans ?_
  rw [norm_smul, Real.norm_eq_abs, abs_div, abs_two]
  have h3 : 0 ≤ |s - t| := abs_nonneg _
  have h4 : 0 ≤ M * |s - t| ^ 3 := by positivity
  have h5 : |s - t| / 2 * ‖F s - F t - (s - t) • G t‖ ≤ |s - t| / 2 * (M * |s - t| ^ 2) :=
    mul_le_mul_of_nonneg_left h2 (by positivity)
  nlinarith

end Verif
